import Verif.Model.FloatLight
import Verif.Props.FloatTexture
import Verif.Props.FloatRoughError

/-
Property C172: points and directions sampled on lights, with the roundings of binary32.
-/

namespace Spectre.FLight

open Spectre.Geom Spectre.FMat Spectre.FTri F32

/-! ### Differences of binary32 numbers -/

theorem rep0 : Rep 0 := ⟨rnd32_zero, by norm_num⟩
theorem rep1 : Rep 1 := ⟨by simpa using rnd32_pow 0 (by norm_num), by norm_num⟩

/-- Binary32 numbers are multiples of the smallest one. -/
theorem multiple {a : ℚ} (h : rnd32 a = a) : ∃ n : ℤ, a = n * 2 ^ (-149 : ℤ) := by
  have hk : -149 ≤ ulp32 a := le_max_right _ _
  have hm : (rne (a / 2 ^ ulp32 a) : ℚ) * 2 ^ ulp32 a = a := h
  obtain ⟨d, hd⟩ := Int.le.dest hk
  refine ⟨rne (a / 2 ^ ulp32 a) * 2 ^ d, ?_⟩
  have e : (2 : ℚ) ^ ulp32 a = 2 ^ d * 2 ^ (-149 : ℤ) := by
    rw [← hd, zpow_add₀ (by norm_num), zpow_natCast]; ring
  conv_lhs => rw [← hm]
  push_cast
  rw [mul_assoc, ← e]

/-- The rounded difference of two different numbers is not zero. -/
theorem gap {a b : ℚ} (ha : rnd32 a = a) (hb : rnd32 b = b) (h : a < b) : 0 < rnd32 (b - a) := by
  obtain ⟨n, rfl⟩ := multiple ha
  obtain ⟨m, rfl⟩ := multiple hb
  have hp := two_zpow_pos (-149)
  have h1 : n < m := by
    have := lt_of_mul_lt_mul_right h hp.le
    exact_mod_cast this
  have h2 : (1 : ℚ) ≤ m - n := by
    have : n + 1 ≤ m := h1
    have : (n : ℚ) + 1 ≤ m := by exact_mod_cast this
    linarith
  have h3 : (2 : ℚ) ^ (-149 : ℤ) ≤ m * 2 ^ (-149 : ℤ) - n * 2 ^ (-149 : ℤ) := by
    rw [← sub_mul]
    exact le_mul_of_one_le_left hp.le h2
  have h4 := rnd32_mono h3
  rw [rnd32_pow (-149) (by norm_num)] at h4
  exact lt_of_lt_of_le hp h4

/-- The remapped random number is in the unit interval. -/
theorem remap_in {x a b : F32} (oa : a.Ok) (ob : b.Ok) (fx : x.Finite) (fa : a.Finite) (fb : b.Finite)
    (h0 : 0 ≤ a.val) (h1 : a.val ≤ x.val) (h2 : x.val ≤ b.val) (h : a.val < b.val) :
    In 0 1 (inverseLerp (sub x a) zip (sub b a)) := by
  have rb : Rep b.val := ok_val ob
  obtain ⟨f1, p1, q1⟩ := in_sub (lo := 0) (hi := b.val) fx fa (by linarith) (by linarith) rep0 rb
  obtain ⟨f2, p2, q2⟩ := in_sub (lo := 0) (hi := b.val) fb fa (by linarith) (by linarith) rep0 rb
  have v1 : (sub x a).val = rnd32 (x.val - a.val) :=
    (sub_fin fx fa (rnd_between (lo := 0) (hi := b.val) (by linarith) (by linarith) rep0 rb).1).2
  have v2 : (sub b a).val = rnd32 (b.val - a.val) :=
    (sub_fin fb fa (rnd_between (lo := 0) (hi := b.val) (by linarith) (by linarith) rep0 rb).1).2
  have hle : (sub x a).val ≤ (sub b a).val := by
    rw [v1, v2]; exact rnd32_mono (by linarith)
  have hpos : 0 < (sub b a).val := by
    rw [v2]; exact gap (ok_val oa).1 (ok_val ob).1 h
  have z : zip.val = 0 := rfl
  have fz : zip.Finite := trivial
  have o1 : (sub x a).Ok := add_ok _ _
  have o2 : (sub b a).Ok := add_ok _ _
  have w : ∀ y : F32, y.Ok → y.Finite → (sub y zip).Finite ∧ (sub y zip).val = y.val := by
    intro y oy fy
    have e : rnd32 (y.val - zip.val) = y.val := by rw [z, sub_zero]; exact (ok_val oy).1
    obtain ⟨f, v⟩ := sub_fin fy fz (by rw [e]; exact (ok_val oy).2)
    exact ⟨f, v.trans e⟩
  obtain ⟨g1, e1⟩ := w _ o1 f1
  obtain ⟨g2, e2⟩ := w _ o2 f2
  unfold inverseLerp
  refine in_div g1 g2 (by rw [e2]; exact hpos.ne') ?_ ?_ rep0 rep1
  · rw [e1, e2]; positivity
  · rw [e1, e2, div_le_one hpos]; exact hle

/-- The same from zero. -/
theorem remap0_in {x b : F32} (ox : x.Ok) (ob : b.Ok) (fx : x.Finite) (fb : b.Finite)
    (h1 : 0 ≤ x.val) (h2 : x.val ≤ b.val) (h : 0 < b.val) : In 0 1 (inverseLerp x zip b) := by
  have z : zip.val = 0 := rfl
  have fz : zip.Finite := trivial
  have w : ∀ y : F32, y.Ok → y.Finite → (sub y zip).Finite ∧ (sub y zip).val = y.val := by
    intro y oy fy
    have e : rnd32 (y.val - zip.val) = y.val := by rw [z, sub_zero]; exact (ok_val oy).1
    obtain ⟨f, v⟩ := sub_fin fy fz (by rw [e]; exact (ok_val oy).2)
    exact ⟨f, v.trans e⟩
  obtain ⟨g1, e1⟩ := w _ ox fx
  obtain ⟨g2, e2⟩ := w _ ob fb
  unfold inverseLerp
  refine in_div g1 g2 (by rw [e2]; exact h.ne') ?_ ?_ rep0 rep1
  · rw [e1, e2]; positivity
  · rw [e1, e2, div_le_one h]; exact h2

/-- The random number of the whole surface. -/
theorem ext_spec {r D : F32} (hr : In 0 1 r) (oD : D.Ok) (fD : D.Finite) (h0 : 0 ≤ D.val) :
    (lerp r zip D).Ok ∧ (lerp r zip D).Finite ∧ (lerp r zip D).val = rnd32 (r.val * D.val) ∧
      0 ≤ (lerp r zip D).val ∧ (lerp r zip D).val ≤ D.val := by
  obtain ⟨fr, r0, r1⟩ := hr
  have rD : Rep D.val := ok_val oD
  obtain ⟨f1, p1, q1⟩ := in_sub (a := one) (b := r) (lo := 0) (hi := 1) trivial fr
    (by rw [one_finite.2]; linarith) (by rw [one_finite.2]; linarith) rep0 rep1
  have z : zip.val = 0 := rfl
  have e0 : rnd32 ((sub one r).val * zip.val) = 0 := by rw [z, mul_zero, rnd32_zero]
  obtain ⟨f2, v2⟩ := mul_finite f1 (b := zip) trivial (by rw [e0]; norm_num)
  rw [e0] at v2
  have hb := rnd_between (q := r.val * D.val) (lo := 0) (hi := D.val) (by positivity) (by nlinarith) rep0 rD
  obtain ⟨f3, v3⟩ := mul_finite fr fD hb.1
  have e4 : rnd32 ((F32.mul (sub one r) zip).val + (F32.mul r D).val) = (F32.mul r D).val := by
    rw [v2, zero_add]; exact (ok_val (mul_ok _ _)).1
  obtain ⟨f5, v5⟩ := add_finite f2 f3 (by rw [e4]; exact (ok_val (mul_ok _ _)).2)
  rw [e4, v3] at v5
  exact ⟨add_ok _ _, f5, v5, by show 0 ≤ (add _ _).val; rw [v5]; exact hb.2.1, by show (add _ _).val ≤ _; rw [v5]; exact hb.2.2⟩

/-- A random number below one gives a number below the whole surface: the product is at least half a unit below. -/
theorem ext_lt {r D : ℚ} (hr : rnd32 r = r) (r1 : r < 1) (hD : rnd32 D = D) (h : 2 ^ (-125 : ℤ) ≤ D) : rnd32 (r * D) < D := by
  have h0 : 0 < D := lt_of_lt_of_le (two_zpow_pos _) h
  have hg := gap_one hr r1
  have ht : r * D ≤ D * (1 - 1 / 2 ^ 24) := by nlinarith
  refine lt_of_le_of_lt (rnd32_mono ht) ?_
  have hl : -125 ≤ Int.log 2 D := by
    rw [← Int.zpow_le_iff_le_log (by norm_num) h0]; exact_mod_cast h
  have hu : ulp32 D = Int.log 2 D - 23 := by
    unfold ulp32 ulpExp; rw [abs_of_pos h0]; exact max_eq_left (by omega)
  have d1 : (2 : ℚ) ^ Int.log 2 D ≤ D := Int.zpow_log_le_self (by norm_num) h0
  have d2 : D < (2 : ℚ) ^ (Int.log 2 D + 1) := Int.lt_zpow_succ_log_self (by norm_num) D
  have hm : (rne (D / 2 ^ ulp32 D) : ℚ) * 2 ^ ulp32 D = D := hD
  rw [hu] at hm
  generalize rne (D / 2 ^ (Int.log 2 D - 23)) = m at hm
  generalize hL : Int.log 2 D = L at *
  have e1 : (2 : ℚ) ^ L = 2 ^ 23 * 2 ^ (L - 23) := by
    rw [← zpow_natCast, ← zpow_add₀ (by norm_num)]; congr 1; push_cast; ring
  have e2 : (2 : ℚ) ^ (L + 1) = 2 ^ 24 * 2 ^ (L - 23) := by
    rw [← zpow_natCast, ← zpow_add₀ (by norm_num)]; congr 1; push_cast; ring
  have hp := two_zpow_pos (L - 23)
  rw [e1, ← hm] at d1
  rw [e2, ← hm] at d2
  have m1 : (2 : ℚ) ^ 23 ≤ m := le_of_mul_le_mul_right d1 hp
  have m2 : (m : ℚ) < 2 ^ 24 := lt_of_mul_lt_mul_right d2 hp.le
  have m1' : (2 : ℤ) ^ 23 ≤ m := by exact_mod_cast m1
  rcases eq_or_lt_of_le m1' with hq | hq
  · have e : D * (1 - 1 / 2 ^ 24) = ((2 ^ 24 - 1 : ℤ) : ℚ) * 2 ^ (L - 24) := by
      rw [← hm, ← hq, show L - 23 = (L - 24) + 1 by ring, zpow_add₀ (by norm_num)]
      push_cast; ring
    rw [e, rnd32_rep _ _ (by norm_num) (by omega), ← e]
    nlinarith
  · have hq' : (2 : ℚ) ^ 23 + 1 ≤ m := by exact_mod_cast hq
    have t1 : |D * (1 - 1 / 2 ^ 24)| < 2 ^ (L + 1) := by
      rw [abs_of_nonneg (by nlinarith), e2, ← hm]
      nlinarith
    have t0 : 2 ^ L ≤ |D * (1 - 1 / 2 ^ 24)| := by
      rw [abs_of_nonneg (by nlinarith), e1, ← hm]
      have : (2 : ℚ) ^ 23 ≤ m * (1 - 1 / 2 ^ 24) := by norm_num at *; linarith
      nlinarith
    have ht0 : 0 < |D * (1 - 1 / 2 ^ 24)| := lt_of_lt_of_le (two_zpow_pos L) t0
    have lg : Int.log 2 |D * (1 - 1 / 2 ^ 24)| = L := by
      have a : L ≤ Int.log 2 |D * (1 - 1 / 2 ^ 24)| := by
        rw [← Int.zpow_le_iff_le_log (by norm_num) ht0]; exact_mod_cast t0
      have b : Int.log 2 |D * (1 - 1 / 2 ^ 24)| < L + 1 := by
        rw [← Int.lt_zpow_iff_log_lt (by norm_num) ht0]; exact_mod_cast t1
      omega
    have hu' : ulp32 (D * (1 - 1 / 2 ^ 24)) = L - 23 := by
      unfold ulp32 ulpExp; rw [lg]; exact max_eq_left (by omega)
    unfold rnd32
    rw [hu']
    have hx : D * (1 - 1 / 2 ^ 24) / 2 ^ (L - 23) = m * (1 - 1 / 2 ^ 24) := by
      rw [← hm]; field_simp
    rw [hx]
    have hlt : rne ((m : ℚ) * (1 - 1 / 2 ^ 24)) < m := by
      have := (rne_bounds ((m : ℚ) * (1 - 1 / 2 ^ 24))).2
      have h' : ((rne ((m : ℚ) * (1 - 1 / 2 ^ 24)) : ℤ) : ℚ) < m := by
        refine lt_of_le_of_lt this ?_
        norm_num at hq' ⊢
        linarith
      exact_mod_cast h'
    rw [← hm]
    exact mul_lt_mul_of_pos_right (by exact_mod_cast hlt) hp

/-! ### Box -/

/-- Densities of six faces: finite, growing, not all zero. -/
structure Faces (d : Fin 6 → F32) : Prop where
  ok : ∀ i, (d i).Ok ∧ (d i).Finite
  pos : 0 ≤ (d 0).val
  mono : ∀ i : Fin 5, (d i.castSucc).val ≤ (d i.succ).val

/-- The point is on the face of the unit cube whose normal is the given one. -/
def OnFace (p n : V3 F32) : Prop :=
  (In 0 1 p.x ∧ In 0 1 p.y ∧ In 0 1 p.z) ∧
  ((n.x.val, n.y.val, n.z.val, p.z.val) = (0, 0, 1, 1) ∨ (n.x.val, n.y.val, n.z.val, p.z.val) = (0, 0, -1, 0) ∨
    (n.x.val, n.y.val, n.z.val, p.y.val) = (0, 1, 0, 1) ∨ (n.x.val, n.y.val, n.z.val, p.y.val) = (0, -1, 0, 0) ∨
    (n.x.val, n.y.val, n.z.val, p.x.val) = (1, 0, 0, 1) ∨ (n.x.val, n.y.val, n.z.val, p.x.val) = (-1, 0, 0, 0))

/-- The face that the number `res` falls into: `0` is that of `z = 1` and so on, in the order of the code. -/
def faceOf (d : Fin 6 → F32) (res : ℚ) : Fin 6 :=
  if res < (d 0).val then 0 else if res < (d 1).val then 1 else if res < (d 2).val then 2
  else if res < (d 3).val then 3 else if res < (d 4).val then 4 else 5

/-- The normals of the faces. -/
def faceNormal : Fin 6 → ℚ × ℚ × ℚ
  | 0 => (0, 0, 1) | 1 => (0, 0, -1) | 2 => (0, -1, 0) | 3 => (0, 1, 0) | 4 => (-1, 0, 0) | 5 => (1, 0, 0)

theorem one_in : In 0 1 one := ⟨trivial, by rw [one_finite.2]; norm_num, by rw [one_finite.2]⟩
theorem zip_in : In 0 1 zip := ⟨trivial, le_rfl, by show (0 : ℚ) ≤ 1; norm_num⟩

/-- **C172, boxes.**  Whatever the faces, a random number below one, or any if the last face is not absorbed, gives a point of
the unit cube on the face that the number falls into, with its normal. -/
theorem C172_box {d : Fin 6 → F32} (hd : Faces d) {r0 r1 : F32} (o0 : r0.Ok) (h0 : In 0 1 r0) (h1 : In 0 1 r1)
    (h : (r0.val < 1 ∧ 2 ^ (-125 : ℤ) ≤ (d 5).val) ∨ (d 4).val < (d 5).val) :
    OnFace (boxSample d r0 r1).1 (boxSample d r0 r1).2 ∧
    ((boxSample d r0 r1).2.x.val, (boxSample d r0 r1).2.y.val, (boxSample d r0 r1).2.z.val) =
      faceNormal (faceOf d (rnd32 (r0.val * (d 5).val))) := by
  have q0 := hd.pos
  have q1 : (d 0).val ≤ (d 1).val := hd.mono 0
  have q2 : (d 1).val ≤ (d 2).val := hd.mono 1
  have q3 : (d 2).val ≤ (d 3).val := hd.mono 2
  have q4 : (d 3).val ≤ (d 4).val := hd.mono 3
  have q5 : (d 4).val ≤ (d 5).val := hd.mono 4
  obtain ⟨oe, fe, ve, e0, e1⟩ := ext_spec h0 (hd.ok 5).1 (hd.ok 5).2 (by linarith)
  have hlt : (lerp r0 zip (d 5)).val < (d 5).val ∨ (d 4).val < (d 5).val := by
    rcases h with h | h
    · left; rw [ve]; exact ext_lt (ok_val o0).1 h.1 (ok_val (hd.ok 5).1).1 h.2
    · exact Or.inr h
  unfold boxSample
  rw [← ve]
  generalize lerp r0 zip (d 5) = res at *
  dsimp only
  have hm1 : (num (-1)).val = -1 := rfl
  have hz : zip.val = 0 := rfl
  rw [lt_finite fe (hd.ok 0).2, lt_finite fe (hd.ok 1).2, lt_finite fe (hd.ok 2).2, lt_finite fe (hd.ok 3).2,
    lt_finite fe (hd.ok 4).2]
  unfold faceOf
  by_cases c0 : res.val < (d 0).val
  · simp only [c0, decide_true, if_true]
    exact ⟨⟨⟨remap0_in oe (hd.ok 0).1 fe (hd.ok 0).2 e0 c0.le (by linarith), h1, one_in⟩, Or.inl rfl⟩, rfl⟩
  simp only [c0, decide_false, if_false, Bool.false_eq_true]
  push Not at c0
  by_cases c1 : res.val < (d 1).val
  · simp only [c1, decide_true, if_true]
    exact ⟨⟨⟨remap_in (hd.ok 0).1 (hd.ok 1).1 fe (hd.ok 0).2 (hd.ok 1).2 (by linarith) c0 c1.le (by linarith), h1, zip_in⟩,
      Or.inr (Or.inl rfl)⟩, rfl⟩
  simp only [c1, decide_false, if_false, Bool.false_eq_true]
  push Not at c1
  by_cases c2 : res.val < (d 2).val
  · simp only [c2, decide_true, if_true]
    exact ⟨⟨⟨remap_in (hd.ok 1).1 (hd.ok 2).1 fe (hd.ok 1).2 (hd.ok 2).2 (by linarith) c1 c2.le (by linarith), zip_in, h1⟩,
      Or.inr (Or.inr (Or.inr (Or.inl rfl)))⟩, rfl⟩
  simp only [c2, decide_false, if_false, Bool.false_eq_true]
  push Not at c2
  by_cases c3 : res.val < (d 3).val
  · simp only [c3, decide_true, if_true]
    exact ⟨⟨⟨remap_in (hd.ok 2).1 (hd.ok 3).1 fe (hd.ok 2).2 (hd.ok 3).2 (by linarith) c2 c3.le (by linarith), one_in, h1⟩,
      Or.inr (Or.inr (Or.inl rfl))⟩, rfl⟩
  simp only [c3, decide_false, if_false, Bool.false_eq_true]
  push Not at c3
  by_cases c4 : res.val < (d 4).val
  · simp only [c4, decide_true, if_true]
    exact ⟨⟨⟨zip_in, h1, remap_in (hd.ok 3).1 (hd.ok 4).1 fe (hd.ok 3).2 (hd.ok 4).2 (by linarith) c3 c4.le (by linarith)⟩,
      Or.inr (Or.inr (Or.inr (Or.inr (Or.inr rfl))))⟩, rfl⟩
  simp only [c4, decide_false, if_false, Bool.false_eq_true]
  push Not at c4
  have h5 : (d 4).val < (d 5).val := by
    rcases hlt with h | h
    · linarith
    · exact h
  exact ⟨⟨⟨one_in, h1, remap_in (hd.ok 4).1 (hd.ok 5).1 fe (hd.ok 4).2 (hd.ok 5).2 (by linarith) c4 e1 h5⟩,
      Or.inr (Or.inr (Or.inr (Or.inr (Or.inl rfl))))⟩, rfl⟩

/-- A finite difference of equal numbers. -/
theorem sub_self_zero {a : F32} (f : a.Finite) : (sub a a).Finite ∧ (sub a a).val = 0 := by
  obtain ⟨g, v⟩ := sub_fin f f (by rw [sub_self, rnd32_zero]; norm_num)
  exact ⟨g, by rw [v, sub_self, rnd32_zero]⟩

theorem div_zeros {a b : F32} (fa : a.Finite) (fb : b.Finite) (va : a.val = 0) (vb : b.val = 0)
    (na : a.Ok) (nb : b.Ok) : div a b = nan := by
  cases a <;> cases b <;> simp_all [F32.Finite, div, val, F32.Ok, isZero]

/-- **C172, a last face that is absorbed.**  If the surface of the last face is lost in the sum, the random number one gives a
point whose last coordinate is not a number, for every box. -/
theorem C172_violated_box {d : Fin 6 → F32} (hd : Faces d) (r1 : F32) (h : (d 5).val = (d 4).val) :
    (boxSample d one r1).1.z = nan := by
  have q0 := hd.pos
  have q1 : (d 0).val ≤ (d 1).val := hd.mono 0
  have q2 : (d 1).val ≤ (d 2).val := hd.mono 1
  have q3 : (d 2).val ≤ (d 3).val := hd.mono 2
  have q4 : (d 3).val ≤ (d 4).val := hd.mono 3
  obtain ⟨oe, fe, ve, e0, e1⟩ := ext_spec one_in (hd.ok 5).1 (hd.ok 5).2 (by linarith)
  rw [one_finite.2, one_mul, (ok_val (hd.ok 5).1).1] at ve
  unfold boxSample
  generalize lerp one zip (d 5) = res at *
  dsimp only
  rw [lt_finite fe (hd.ok 0).2, lt_finite fe (hd.ok 1).2, lt_finite fe (hd.ok 2).2, lt_finite fe (hd.ok 3).2,
    lt_finite fe (hd.ok 4).2, ve, h]
  have n0 : ¬ (d 4).val < (d 0).val := by linarith
  have n1 : ¬ (d 4).val < (d 1).val := by linarith
  have n2 : ¬ (d 4).val < (d 2).val := by linarith
  have n3 : ¬ (d 4).val < (d 3).val := by linarith
  simp only [n0, n1, n2, n3, lt_irrefl, decide_false, if_false, Bool.false_eq_true]
  have z : zip.val = 0 := rfl
  have w : ∀ y : F32, y.Finite → y.val = (d 4).val → (sub (sub y (d 4)) zip).Finite ∧ (sub (sub y (d 4)) zip).val = 0 := by
    intro y fy vy
    have e : rnd32 (y.val - (d 4).val) = 0 := by rw [vy, sub_self, rnd32_zero]
    obtain ⟨g, v⟩ := sub_fin fy (hd.ok 4).2 (by rw [e]; norm_num)
    have e' : rnd32 ((sub y (d 4)).val - zip.val) = 0 := by rw [v, e, z, sub_self, rnd32_zero]
    obtain ⟨g', v'⟩ := sub_fin g (b := zip) trivial (by rw [e']; norm_num)
    exact ⟨g', v'.trans e'⟩
  obtain ⟨a1, a2⟩ := w res fe (by rw [ve, h])
  obtain ⟨b1, b2⟩ := w (d 5) (hd.ok 5).2 h
  exact div_zeros a1 b1 a2 b2 (add_ok _ _) (add_ok _ _)

/-- A panel of eight by eight with a thickness of `2^-20`: four of the six faces are lost. -/
def panel : V3 F32 := ⟨num 8, num 8, num (1 / 2 ^ 20)⟩

theorem panel_faces : boxDensities panel 0 = num 64 ∧ boxDensities panel 1 = num 128 ∧ boxDensities panel 2 = num 128 ∧
    boxDensities panel 3 = num 128 ∧ boxDensities panel 4 = num 128 ∧ boxDensities panel 5 = num 128 := by decide +kernel

theorem num_ok {q : ℚ} (h : q ≠ 0) (h1 : rnd32 q = q) (h2 : |q| < 2 ^ 128) : (num q).Ok := ⟨h, h1, h2⟩

theorem ok_of_num {n : ℤ} (h0 : n ≠ 0) (h : |n| ≤ 2 ^ 24) : (num (n : ℚ)).Ok :=
  num_ok (by exact_mod_cast h0) (FFilter.rnd_int n h) (by
    have : |(n : ℚ)| ≤ 2 ^ 24 := by exact_mod_cast h
    refine lt_of_le_of_lt this (by norm_num))

theorem panel_ok : Faces (boxDensities panel) := by
  obtain ⟨a0, a1, a2, a3, a4, a5⟩ := panel_faces
  have o64 : (num 64).Ok := by exact_mod_cast ok_of_num (n := 64) (by norm_num) (by norm_num)
  have o128 : (num 128).Ok := by exact_mod_cast ok_of_num (n := 128) (by norm_num) (by norm_num)
  refine ⟨?_, ?_, ?_⟩
  · intro i
    fin_cases i <;> simp only [Fin.zero_eta, Fin.mk_one, Fin.reduceFinMk, a0, a1, a2, a3, a4, a5]
    · exact ⟨o64, trivial⟩
    all_goals exact ⟨o128, trivial⟩
  · rw [a0]; show (0 : ℚ) ≤ 64; norm_num
  · intro i
    have v64 : (num 64).val = 64 := rfl
    have v128 : (num 128).val = 128 := rfl
    fin_cases i <;> simp [a0, a1, a2, a3, a4, a5, v64, v128]
    norm_num

/-! ### Surfaces of boxes -/

/-- A finite sum is the rounded one. -/
theorem add_val {a b : F32} (fa : a.Finite) (fb : b.Finite) (f : (add a b).Finite) : (add a b).val = rnd32 (a.val + b.val) := by
  by_cases h : |rnd32 (a.val + b.val)| < 2 ^ 128
  · exact (add_finite fa fb h).2
  · exfalso
    have e : add a b = F32.round (a.sign && b.sign) (a.val + b.val) := by
      cases a <;> cases b <;> simp only [F32.Finite] at fa fb <;> rfl
    rw [e] at f
    unfold F32.round at f
    have h0 : a.val + b.val ≠ 0 := by
      intro h0; apply h; rw [h0, rnd32_zero]; norm_num
    have h1 : rnd32 (a.val + b.val) ≠ 0 := by
      intro h0; apply h; rw [h0]; norm_num
    rw [if_neg h0, if_neg h1, if_pos (not_lt.1 h)] at f
    exact f

theorem mul_val {a b : F32} (fa : a.Finite) (fb : b.Finite) (f : (F32.mul a b).Finite) : (F32.mul a b).val = rnd32 (a.val * b.val) := by
  by_cases h : |rnd32 (a.val * b.val)| < 2 ^ 128
  · exact (mul_finite fa fb h).2
  · exfalso
    have e : F32.mul a b = F32.round (xor a.sign b.sign) (a.val * b.val) := by
      cases a <;> cases b <;> simp only [F32.Finite] at fa fb <;> rfl
    rw [e] at f
    unfold F32.round at f
    have h0 : a.val * b.val ≠ 0 := by
      intro h0; apply h; rw [h0, rnd32_zero]; norm_num
    have h1 : rnd32 (a.val * b.val) ≠ 0 := by
      intro h0; apply h; rw [h0]; norm_num
    rw [if_neg h0, if_neg h1, if_pos (not_lt.1 h)] at f
    exact f

/-- Sums with a number that is not negative do not shrink. -/
theorem grow {a b : F32} (oa : a.Ok) (fa : a.Finite) (fb : b.Finite) (h : 0 ≤ b.val) (f : (add a b).Finite) :
    a.val ≤ (add a b).val := by
  rw [add_val fa fb f]
  have := rnd32_mono (show a.val ≤ a.val + b.val by linarith)
  rwa [(ok_val oa).1] at this

/-- Scales from `2^-20` to `2^20`. -/
def Scales (s : V3 F32) : Prop :=
  (s.x.Finite ∧ 2 ^ (-20 : ℤ) ≤ s.x.val ∧ s.x.val ≤ 2 ^ (20 : ℤ)) ∧ (s.y.Finite ∧ 2 ^ (-20 : ℤ) ≤ s.y.val ∧ s.y.val ≤ 2 ^ (20 : ℤ)) ∧
    (s.z.Finite ∧ 2 ^ (-20 : ℤ) ≤ s.z.val ∧ s.z.val ≤ 2 ^ (20 : ℤ))

/-- The exact surfaces of the faces of the box, one after the other. -/
def exactFaces (s : V3 F32) : Fin 6 → ℚ
  | 0 => s.x.val * s.y.val
  | 1 => 2 * (s.x.val * s.y.val)
  | 2 => 2 * (s.x.val * s.y.val) + s.x.val * s.z.val
  | 3 => 2 * (s.x.val * s.y.val) + 2 * (s.x.val * s.z.val)
  | 4 => 2 * (s.x.val * s.y.val) + 2 * (s.x.val * s.z.val) + s.z.val * s.y.val
  | 5 => 2 * (s.x.val * s.y.val + s.x.val * s.z.val + s.z.val * s.y.val)

open Spectre.FRough in
/-- **C172, surfaces of boxes.**  For boxes with sides from `2^-20` to `2^20` the densities are finite and grow, and each of
them is within 12 times `2^-24` of the exact one, relatively; so is the surface that the density of the light is computed from. -/
theorem C172_box_densities {s : V3 F32} (h : Scales s) :
    Faces (boxDensities s) ∧ (∀ i, |(boxDensities s i).val - exactFaces s i| ≤ 12 / 2 ^ 24 * exactFaces s i) ∧
      |(boxSurface s).val - exactFaces s 5| ≤ 12 / 2 ^ 24 * exactFaces s 5 ∧ 2 ^ (-125 : ℤ) ≤ (boxDensities s 5).val := by
  obtain ⟨⟨fx, x0, x1⟩, ⟨fy, y0, y1⟩, ⟨fz, z0, z1⟩⟩ := h
  have nx := nf_exact fx (Or.inr x0) x1
  have ny := nf_exact fy (Or.inr y0) y1
  have nz := nf_exact fz (Or.inr z0) z1
  have px : 0 < s.x.val := lt_of_lt_of_le (two_zpow_pos _) x0
  have py : 0 < s.y.val := lt_of_lt_of_le (two_zpow_pos _) y0
  have pz : 0 < s.z.val := lt_of_lt_of_le (two_zpow_pos _) z0
  have n2 : Nf two 2 0 1 1 := nf_num (by norm_num) (by norm_num)
  have xy := nf_mul nx ny (by norm_num) (by norm_num) (by norm_num) (by norm_num)
  have xz := nf_mul nx nz (by norm_num) (by norm_num) (by norm_num) (by norm_num)
  have zy := nf_mul nz ny (by norm_num) (by norm_num) (by norm_num) (by norm_num)
  have pxy : 0 < s.x.val * s.y.val := by positivity
  have pxz : 0 < s.x.val * s.z.val := by positivity
  have pzy : 0 < s.z.val * s.y.val := by positivity
  have d0 : Nf (boxDensities s 0) (exactFaces s 0) 2 (-40) 40 := xy.conv rfl (by norm_num) (by norm_num) (by norm_num)
  have d1 : Nf (boxDensities s 1) (exactFaces s 1) 4 (-40) 41 :=
    (nf_mul d0 n2 (by norm_num) (by norm_num) (by norm_num) (by norm_num)).conv
      (by simp only [exactFaces]; ring) (by norm_num) (by norm_num) (by norm_num)
  have d2 : Nf (boxDensities s 2) (exactFaces s 2) 6 (-40) 42 :=
    (nf_add d1 xz (by norm_num) (by norm_num) (by simp only [exactFaces]; positivity) (by norm_num) (by norm_num)).conv
      (by simp only [exactFaces]) (by norm_num) (by norm_num) (by norm_num)
  have d3 : Nf (boxDensities s 3) (exactFaces s 3) 8 (-40) 43 :=
    (nf_add d2 xz (by norm_num) (by norm_num) (by simp only [exactFaces]; positivity) (by norm_num) (by norm_num)).conv
      (by simp only [exactFaces]; ring) (by norm_num) (by norm_num) (by norm_num)
  have d4 : Nf (boxDensities s 4) (exactFaces s 4) 10 (-40) 44 :=
    (nf_add d3 zy (by norm_num) (by norm_num) (by simp only [exactFaces]; positivity) (by norm_num) (by norm_num)).conv
      (by simp only [exactFaces]) (by norm_num) (by norm_num) (by norm_num)
  have d5 : Nf (boxDensities s 5) (exactFaces s 5) 12 (-40) 45 :=
    (nf_add d4 zy (by norm_num) (by norm_num) (by simp only [exactFaces]; positivity) (by norm_num) (by norm_num)).conv
      (by simp only [exactFaces]; ring) (by norm_num) (by norm_num) (by norm_num)
  have sm := nf_add nx nz (by norm_num) (by norm_num) (by positivity) (by norm_num) (by norm_num)
  have la := nf_mul (nf_mul n2 sm (by norm_num) (by norm_num) (by norm_num) (by norm_num)) ny (by norm_num) (by norm_num)
    (by norm_num) (by norm_num)
  have lb := nf_mul (nf_mul n2 nx (by norm_num) (by norm_num) (by norm_num) (by norm_num)) nz (by norm_num) (by norm_num)
    (by norm_num) (by norm_num)
  have sf : Nf (boxSurface s) (exactFaces s 5) 12 (-40) 45 :=
    (nf_add la lb (by norm_num) (by norm_num) (by positivity) (by norm_num) (by norm_num)).conv
      (by simp only [exactFaces]; ring) (by norm_num) (by norm_num) (by norm_num)
  have nn : ∀ {x : F32} {X : ℚ} {n : ℕ} {i j : ℤ}, Nf x X n i j → n ≤ 12 → 0 ≤ x.val := by
    intro x X n i j hx hn
    have a := abs_le.1 (nf_in hx)
    have b := hx.nonneg
    have c : (n : ℚ) / 2 ^ 24 ≤ 1 := by
      have : (n : ℚ) ≤ 12 := by exact_mod_cast hn
      rw [div_le_one (by norm_num)]; refine this.trans (by norm_num)
    nlinarith [a.1]
  refine ⟨⟨?_, ?_, ?_⟩, ?_, nf_in sf, ?_⟩
  · intro i
    fin_cases i
    · exact ⟨mul_ok _ _, d0.1.1⟩
    · exact ⟨mul_ok _ _, d1.1.1⟩
    · exact ⟨add_ok _ _, d2.1.1⟩
    · exact ⟨add_ok _ _, d3.1.1⟩
    · exact ⟨add_ok _ _, d4.1.1⟩
    · exact ⟨add_ok _ _, d5.1.1⟩
  · exact nn d0 (by norm_num)
  · have pd0 : 0 ≤ (boxDensities s 0).val := nn d0 (by norm_num)
    have nxz := nn xz (by norm_num)
    have nzy := nn zy (by norm_num)
    intro i
    fin_cases i
    · have e : (boxDensities s 1).val = rnd32 ((boxDensities s 0).val * two.val) := mul_val d0.1.1 trivial d1.1.1
      have := rnd32_mono (show (boxDensities s 0).val ≤ (boxDensities s 0).val * two.val by rw [two_finite.2]; linarith)
      rw [show rnd32 (boxDensities s 0).val = (boxDensities s 0).val from (ok_val (mul_ok s.x s.y)).1, ← e] at this
      exact this
    · exact grow (a := boxDensities s 1) (mul_ok _ _) d1.1.1 xz.1.1 nxz d2.1.1
    · exact grow (a := boxDensities s 2) (add_ok _ _) d2.1.1 xz.1.1 nxz d3.1.1
    · exact grow (a := boxDensities s 3) (add_ok _ _) d3.1.1 zy.1.1 nzy d4.1.1
    · exact grow (a := boxDensities s 4) (add_ok _ _) d4.1.1 zy.1.1 nzy d5.1.1
  · intro i
    fin_cases i
    · exact (nf_in (d0.wide (m := 12) (by norm_num) le_rfl le_rfl))
    · exact (nf_in (d1.wide (m := 12) (by norm_num) le_rfl le_rfl))
    · exact (nf_in (d2.wide (m := 12) (by norm_num) le_rfl le_rfl))
    · exact (nf_in (d3.wide (m := 12) (by norm_num) le_rfl le_rfl))
    · exact (nf_in (d4.wide (m := 12) (by norm_num) le_rfl le_rfl))
    · exact nf_in d5
  · have a := (abs_le.1 (nf_in d5)).1
    have b : (2 : ℚ) ^ (-40 : ℤ) ≤ exactFaces s 5 := d5.2.1.resolve_left (by simp only [exactFaces]; positivity)
    have c : (2 : ℚ) ^ (-125 : ℤ) ≤ 2 ^ (-40 : ℤ) / 2 := by norm_num
    refine c.trans ?_
    push_cast at a
    generalize exactFaces s 5 = E at *
    norm_num at *
    linarith

/-! ### Mesh -/

/-- Cumulative surfaces: finite numbers that grow. -/
structure Sums (d : List F32) : Prop where
  ok : ∀ (i : Nat) (x : F32), d[i]? = some x → x.Ok ∧ x.Finite ∧ 0 ≤ x.val
  mono : ∀ (i j : Nat) (x y : F32), i ≤ j → d[i]? = some x → d[j]? = some y → x.val ≤ y.val

/-- The exact sum of the first `k` surfaces. -/
def before (l : List F32) (k : Nat) : ℚ := ((l.take k).map val).sum

theorem densities_length (sum : F32) (l : List F32) : (densities sum l).length = l.length := by
  induction l generalizing sum with
  | nil => rfl
  | cons a l ih => simp [densities, ih]

theorem densities_grow {l : List F32} {sum : F32} (os : sum.Ok) (fs : sum.Finite) (h : ∀ x ∈ l, x.Finite ∧ 0 ≤ x.val)
    (hf : ∀ x ∈ densities sum l, x.Finite) :
    (∀ (i : Nat) (x : F32), (densities sum l)[i]? = some x → x.Ok ∧ sum.val ≤ x.val) ∧
    (∀ (i j : Nat) (x y : F32), i ≤ j → (densities sum l)[i]? = some x → (densities sum l)[j]? = some y → x.val ≤ y.val) := by
  induction l generalizing sum with
  | nil => simp [densities]
  | cons a l ih =>
    have fa := h a (by simp)
    have fd : (add sum a).Finite := hf _ (by simp [densities])
    have g := grow os fs fa.1 fa.2 fd
    obtain ⟨i1, i2⟩ := ih (add_ok sum a) fd (fun x hx => h x (by simp [hx])) (fun x hx => hf x (by simp [densities, hx]))
    constructor
    · intro i x hx
      cases i with
      | zero => simp only [densities, List.getElem?_cons_zero, Option.some.injEq] at hx; subst hx; exact ⟨add_ok _ _, g⟩
      | succ i =>
        simp only [densities, List.getElem?_cons_succ] at hx
        exact ⟨(i1 i x hx).1, g.trans (i1 i x hx).2⟩
    · intro i j x y hij hx hy
      cases i with
      | zero =>
        simp only [densities, List.getElem?_cons_zero, Option.some.injEq] at hx
        subst hx
        cases j with
        | zero => simp only [densities, List.getElem?_cons_zero, Option.some.injEq] at hy; subst hy; exact le_rfl
        | succ j =>
          simp only [densities, List.getElem?_cons_succ] at hy
          exact (i1 j y hy).2
      | succ i =>
        cases j with
        | zero => omega
        | succ j =>
          simp only [densities, List.getElem?_cons_succ] at hx hy
          exact i2 i j x y (by omega) hx hy

theorem round_near {q : ℚ} (h : q = 0 ∨ 2 ^ (-126 : ℤ) ≤ q) :
    q * (1 - 1 / 2 ^ 24) ≤ rnd32 q ∧ rnd32 q ≤ q * (1 + 1 / 2 ^ 24) ∧ (rnd32 q = 0 ∨ 2 ^ (-126 : ℤ) ≤ rnd32 q) := by
  rcases h with rfl | h
  · rw [rnd32_zero]; norm_num
  · have hq : 0 < q := lt_of_lt_of_le (two_zpow_pos _) h
    have := rnd32_rel (q := q) (by rwa [abs_of_pos hq])
    rw [abs_of_pos hq, abs_le] at this
    refine ⟨by linarith [this.1], by linarith [this.2], Or.inr ?_⟩
    have m := rnd32_mono h
    rwa [rnd32_pow _ (by norm_num)] at m

theorem densities_near {l : List F32} {sum : F32} {S : ℚ} {n : ℕ} (fs : sum.Finite) (ns : sum.val = 0 ∨ 2 ^ (-126 : ℤ) ≤ sum.val)
    (S0 : 0 ≤ S) (h1 : S * (1 - 1 / 2 ^ 24) ^ n ≤ sum.val) (h2 : sum.val ≤ S * (1 + 1 / 2 ^ 24) ^ n)
    (h : ∀ x ∈ l, x.Finite ∧ (x.val = 0 ∨ 2 ^ (-126 : ℤ) ≤ x.val)) (hf : ∀ x ∈ densities sum l, x.Finite) (k : Nat) (y : F32)
    (hy : (densities sum l)[k]? = some y) :
    (S + before l (k + 1)) * (1 - 1 / 2 ^ 24) ^ (n + k + 1) ≤ y.val ∧ y.val ≤ (S + before l (k + 1)) * (1 + 1 / 2 ^ 24) ^ (n + k + 1) := by
  induction l generalizing sum S n k with
  | nil => simp [densities] at hy
  | cons a l ih =>
    obtain ⟨fa, na⟩ := h a (by simp)
    have pw := two_zpow_pos (-126)
    have a0 : 0 ≤ a.val := na.elim (fun e => e.ge) fun e => pw.le.trans e
    have s0 : 0 ≤ sum.val := ns.elim (fun e => e.ge) fun e => pw.le.trans e
    have fd : (add sum a).Finite := hf _ (by simp [densities])
    have v := add_val fs fa fd
    have nq : sum.val + a.val = 0 ∨ 2 ^ (-126 : ℤ) ≤ sum.val + a.val := by
      rcases ns with e | e
      · rcases na with e' | e'
        · left; rw [e, e', add_zero]
        · right; linarith
      · right; linarith
    obtain ⟨r1, r2, r3⟩ := round_near nq
    rw [← v] at r1 r2 r3
    have p1 : (0 : ℚ) ≤ (1 - 1 / 2 ^ 24) ^ n := pow_nonneg (by norm_num) n
    have p2 : (1 - 1 / 2 ^ 24 : ℚ) ^ n ≤ 1 := pow_le_one₀ (by norm_num) (by norm_num)
    have p3 : (1 : ℚ) ≤ (1 + 1 / 2 ^ 24) ^ n := one_le_pow₀ (by norm_num)
    have b1 : (S + a.val) * (1 - 1 / 2 ^ 24) ^ (n + 1) ≤ (add sum a).val := by
      refine le_trans ?_ r1
      rw [pow_succ (1 - 1 / 2 ^ 24 : ℚ) n, ← mul_assoc]
      refine mul_le_mul_of_nonneg_right ?_ (by norm_num)
      nlinarith
    have b2 : (add sum a).val ≤ (S + a.val) * (1 + 1 / 2 ^ 24) ^ (n + 1) := by
      refine le_trans r2 ?_
      rw [pow_succ (1 + 1 / 2 ^ 24 : ℚ) n, ← mul_assoc]
      refine mul_le_mul_of_nonneg_right ?_ (by norm_num)
      nlinarith
    cases k with
    | zero =>
      simp only [densities, List.getElem?_cons_zero, Option.some.injEq] at hy
      subst hy
      have e : before (a :: l) (0 + 1) = a.val := by simp [before]
      rw [e, add_zero]
      exact ⟨b1, b2⟩
    | succ k =>
      simp only [densities, List.getElem?_cons_succ] at hy
      have := ih (n := n + 1) (S := S + a.val) fd r3 (by linarith) b1 b2 (fun x hx => h x (by simp [hx]))
        (fun x hx => hf x (by simp [densities, hx])) k hy
      have e : before (a :: l) (k + 1 + 1) = a.val + before l (k + 1) := by simp [before]
      rw [e, ← add_assoc, show n + (k + 1) + 1 = n + 1 + k + 1 by omega]
      exact this

/-- **C172, surfaces of meshes.**  If no sum overflows, the cumulative surfaces of a mesh grow, and the one of `k` triangles is
the exact one up to `k` factors of `1 ± 2^-24`. -/
theorem C172_mesh_densities {l : List F32} (h : ∀ x ∈ l, x.Finite ∧ (x.val = 0 ∨ 2 ^ (-126 : ℤ) ≤ x.val))
    (hf : ∀ x ∈ densities zip l, x.Finite) :
    Sums (densities zip l) ∧ ∀ (k : Nat) (y : F32), (densities zip l)[k]? = some y →
      before l (k + 1) * (1 - 1 / 2 ^ 24) ^ (k + 1) ≤ y.val ∧ y.val ≤ before l (k + 1) * (1 + 1 / 2 ^ 24) ^ (k + 1) := by
  have z : zip.val = 0 := rfl
  have oz : zip.Ok := trivial
  have g := densities_grow (sum := zip) (l := l) oz trivial
    (fun x hx => ⟨(h x hx).1, (h x hx).2.elim (fun e => e.ge) fun e => (two_zpow_pos _).le.trans e⟩) hf
  refine ⟨⟨fun i x hx => ⟨(g.1 i x hx).1, hf x (List.mem_of_getElem? hx), (g.1 i x hx).2⟩, g.2⟩, fun k y hy => ?_⟩
  have := densities_near (sum := zip) (S := 0) (n := 0) (l := l) trivial (Or.inl rfl) le_rfl (by rw [z]; norm_num) (by rw [z]; norm_num)
    h hf k y hy
  rwa [zero_add, zero_add] at this

/-- The search finds the interval of the number. -/
theorem search_spec {d : List F32} (hd : Sums d) {ext : F32} (fe : ext.Finite) (fuel start stop : Nat) (a b : F32) (hs : start < stop)
    (hf : stop - start ≤ fuel) (h1 : d[start]? = some a) (h2 : d[stop]? = some b) (ha : a.val ≤ ext.val) (hb : ext.val < b.val) :
    ∃ i dm dn, start ≤ i ∧ i < stop ∧ d[i]? = some dm ∧ d[i + 1]? = some dn ∧ dm.val ≤ ext.val ∧ ext.val < dn.val ∧
      search d ext fuel start stop = .tri i (inverseLerp (sub ext dm) zip (sub dn dm)) := by
  induction fuel generalizing start stop a b with
  | zero => omega
  | succ fuel ih =>
    have hlen : stop < d.length := (List.getElem?_eq_some_iff.1 h2).1
    obtain ⟨dm, hm⟩ : ∃ x, d[(start + stop) / 2]? = some x := ⟨d[(start + stop) / 2]'(by omega), List.getElem?_eq_getElem _⟩
    obtain ⟨dn, hn⟩ : ∃ x, d[(start + stop) / 2 + 1]? = some x := ⟨d[(start + stop) / 2 + 1]'(by omega), List.getElem?_eq_getElem _⟩
    have fm := (hd.ok _ _ hm).2.1
    have fn := (hd.ok _ _ hn).2.1
    rw [search.eq_def]
    simp only [hm, hn]
    rw [FTex.le_finite fm fe, lt_finite fe fn, lt_finite fe fm]
    by_cases c1 : dm.val ≤ ext.val ∧ ext.val < dn.val
    · refine ⟨(start + stop) / 2, dm, dn, by omega, by omega, hm, hn, c1.1, c1.2, ?_⟩
      simp [c1.1, c1.2]
    · have e1 : (decide (dm.val ≤ ext.val) && decide (ext.val < dn.val)) = false := by
        rw [← Bool.decide_and]; exact decide_eq_false c1
      rw [e1, if_neg (by simp)]
      by_cases c2 : ext.val < dm.val
      · rw [if_pos (decide_eq_true c2)]
        have hne : start ≠ (start + stop) / 2 := by
          intro e
          rw [← e, h1] at hm
          have := Option.some.inj hm
          subst this
          linarith
        obtain ⟨i, x, y, p, q, r⟩ := ih start ((start + stop) / 2) a dm (by omega) (by omega) h1 hm ha c2
        exact ⟨i, x, y, p, by omega, r⟩
      · rw [if_neg (by simpa using c2)]
        rw [not_lt] at c2
        have c3 : dn.val ≤ ext.val := by
          by_contra hh; exact c1 ⟨c2, not_le.1 hh⟩
        have hne : (start + stop) / 2 + 1 ≠ stop := by
          intro e
          rw [e, h2] at hn
          have := Option.some.inj hn
          subst this
          linarith
        obtain ⟨i, x, y, p, q, r⟩ := ih ((start + stop) / 2) stop dm b (by omega) (by omega) hm h2 c2 hb
        exact ⟨i, x, y, by omega, q, r⟩

/-- **C172, meshes.**  With two triangles or more, and a random number below one or a last triangle that is not absorbed, the
search ends within as many iterations as triangles and reads no entry outside; the triangle is sampled with a number of the unit
interval.  As in exact arithmetic (C30), the triangle is the wrong one of two neighbours unless it is the first or the last. -/
theorem C172_mesh {d : List F32} (hd : Sums d) {dp dl : F32} (hn : 2 ≤ d.length) (hp : d[d.length - 2]? = some dp)
    (hl : d[d.length - 1]? = some dl) {r0 : F32} (o0 : r0.Ok) (h0 : In 0 1 r0)
    (h : (r0.val < 1 ∧ 2 ^ (-125 : ℤ) ≤ dl.val) ∨ dp.val < dl.val) (fuel : Nat) (hf : d.length ≤ fuel) :
    ∃ i t, meshPick d r0 fuel = .tri i t ∧ i < d.length ∧ In 0 1 t ∧
      ((i = 0 ∧ ∃ a, d[0]? = some a ∧ rnd32 (r0.val * dl.val) < a.val) ∨
        (i = d.length - 1 ∧ dp.val < rnd32 (r0.val * dl.val)) ∨
        ∃ a b, d[i]? = some a ∧ d[i + 1]? = some b ∧ a.val ≤ rnd32 (r0.val * dl.val) ∧ rnd32 (r0.val * dl.val) < b.val) := by
  obtain ⟨ol, fl, pl⟩ := hd.ok _ _ hl
  obtain ⟨op, fp, pp⟩ := hd.ok _ _ hp
  obtain ⟨d0, hd0⟩ : ∃ x, d[0]? = some x := ⟨d[0]'(by omega), List.getElem?_eq_getElem _⟩
  obtain ⟨o00, f00, p00⟩ := hd.ok _ _ hd0
  obtain ⟨oe, fe, ve, e0, e1⟩ := ext_spec h0 ol fl pl
  have hlt : (lerp r0 zip dl).val < dl.val ∨ dp.val < dl.val := by
    rcases h with h | h
    · left; rw [ve]; exact ext_lt (ok_val o0).1 h.1 (ok_val ol).1 h.2
    · exact Or.inr h
  unfold meshPick
  simp only [hd0, hl, hp]
  rw [← ve]
  generalize lerp r0 zip dl = ext at *
  rw [lt_finite fe f00, lt_finite fp fe, if_neg (show ¬ d.length = 1 by omega)]
  by_cases c0 : ext.val < d0.val
  · rw [if_pos (decide_eq_true c0)]
    exact ⟨0, _, rfl, by omega, remap0_in oe o00 fe f00 e0 c0.le (by linarith), Or.inl ⟨rfl, d0, rfl, c0⟩⟩
  · rw [if_neg (by simpa using c0)]
    push Not at c0
    by_cases c1 : dp.val < ext.val
    · rw [if_pos (decide_eq_true c1)]
      exact ⟨_, _, rfl, by omega, remap_in op ol fe fp fl pp c1.le e1 (by linarith), Or.inr (Or.inl ⟨rfl, c1⟩)⟩
    · rw [if_neg (by simpa using c1)]
      push Not at c1
      have lt' : ext.val < dl.val := by
        rcases hlt with h | h
        · exact h
        · linarith
      obtain ⟨i, a, b, i1, i2, g1, g2, v1, v2, e⟩ := search_spec hd fe fuel 0 (d.length - 1) d0 dl (by omega) (by omega) hd0 hl c0 lt'
      obtain ⟨oa, fa, pa⟩ := hd.ok _ _ g1
      obtain ⟨ob, fb, pb⟩ := hd.ok _ _ g2
      exact ⟨i, _, e, by omega, remap_in oa ob fe fa fb pa v1 v2.le (by linarith), Or.inr (Or.inr ⟨a, b, g1, g2, v1, v2⟩)⟩

/-- **C172, a last triangle that is absorbed.**  If the surface of the last triangle is lost in the sum, the random number one
makes the search endless, for every mesh of two triangles or more. -/
theorem C172_violated_hang {d : List F32} (hd : Sums d) {dp dl : F32} (hn : 2 ≤ d.length) (hp : d[d.length - 2]? = some dp)
    (hl : d[d.length - 1]? = some dl) (h : dp.val = dl.val) (fuel : Nat) :
    ∃ a b, meshPick d one fuel = .searching a b := by
  obtain ⟨ol, fl, pl⟩ := hd.ok _ _ hl
  obtain ⟨op, fp, pp⟩ := hd.ok _ _ hp
  obtain ⟨d0, hd0⟩ : ∃ x, d[0]? = some x := ⟨d[0]'(by omega), List.getElem?_eq_getElem _⟩
  obtain ⟨o00, f00, p00⟩ := hd.ok _ _ hd0
  obtain ⟨oe, fe, ve, e0, e1⟩ := ext_spec one_in ol fl pl
  rw [one_finite.2, one_mul, (ok_val ol).1] at ve
  unfold meshPick
  simp only [hd0, hl, hp]
  generalize lerp one zip dl = ext at *
  have m0 := hd.mono 0 _ _ _ (by omega) hd0 hl
  rw [lt_finite fe f00, lt_finite fp fe, if_neg (show ¬ d.length = 1 by omega), ve, h,
    if_neg (by simpa using m0), if_neg (by simp)]
  have main : ∀ fuel start stop, start < stop → stop < d.length → ∃ a b, search d ext fuel start stop = .searching a b := by
    intro fuel
    induction fuel with
    | zero => intro a b _ _; exact ⟨a, b, rfl⟩
    | succ fuel ih =>
      intro start stop h1 h2
      obtain ⟨dm, hm⟩ : ∃ x, d[(start + stop) / 2]? = some x := ⟨d[(start + stop) / 2]'(by omega), List.getElem?_eq_getElem _⟩
      obtain ⟨dn, hn⟩ : ∃ x, d[(start + stop) / 2 + 1]? = some x := ⟨d[(start + stop) / 2 + 1]'(by omega), List.getElem?_eq_getElem _⟩
      have fm := (hd.ok _ _ hm).2.1
      have fn := (hd.ok _ _ hn).2.1
      have lm := hd.mono _ _ _ _ (by omega) hm hl
      have ln := hd.mono _ _ _ _ (by omega) hn hl
      rw [search.eq_def]
      simp only [hm, hn]
      rw [FTex.le_finite fm fe, lt_finite fe fn, lt_finite fe fm, ve]
      have n1 : ¬ dl.val < dn.val := not_lt.2 ln
      have n2 : ¬ dl.val < dm.val := not_lt.2 lm
      simp only [n1, n2, decide_false, Bool.and_false, Bool.false_eq_true, if_false]
      exact ih _ _ (by omega) h2
  exact main fuel 0 (d.length - 1) (by omega) (by omega)

/-- The surfaces of a mesh: one triangle of `2^24` and `n` triangles of one. -/
def uneven (n : Nat) : List F32 := num (2 ^ 24) :: List.replicate n one

theorem absorbed_step : add (num (2 ^ 24)) one = num (2 ^ 24) := by decide +kernel

theorem uneven_densities (n : Nat) : densities zip (uneven n) = List.replicate (n + 1) (num (2 ^ 24)) := by
  have h0 : add zip (num (2 ^ 24)) = num (2 ^ 24) := by decide +kernel
  have h : ∀ n, densities (num (2 ^ 24)) (List.replicate n one) = List.replicate n (num (2 ^ 24)) := by
    intro n
    induction n with
    | zero => rfl
    | succ n ih => rw [List.replicate_succ, densities, absorbed_step, ih, List.replicate_succ]
  rw [uneven, densities, h0, h, List.replicate_succ]

theorem uneven_sums (n : Nat) : Sums (densities zip (uneven n)) := by
  rw [uneven_densities]
  have o : (num (2 ^ 24)).Ok := num_ok (by norm_num) (by simpa using rnd32_pow 24 (by norm_num)) (by norm_num)
  have e : ∀ (i : Nat) (x : F32), (List.replicate (n + 1) (num (2 ^ 24)))[i]? = some x → x = num (2 ^ 24) := fun i x hx =>
    List.eq_of_mem_replicate (List.mem_of_getElem? hx)
  refine ⟨fun i x hx => ?_, fun i j x y _ hx hy => ?_⟩
  · rw [e i x hx]
    exact ⟨o, trivial, by show (0 : ℚ) ≤ 2 ^ 24; norm_num⟩
  · rw [e i x hx, e j y hy]

/-- **C172, small triangles beside a large one.**  However many triangles of surface one there are beside one of `2^24`, the
surface of the mesh is computed as `2^24`, no random number below one ever chooses one of them, and the random number one makes
the search endless. -/
theorem C172_violated_absorbed (n : Nat) :
    meshSurface (uneven n) = num (2 ^ 24) ∧ before (uneven n) (n + 1) = 2 ^ 24 + n ∧
    (∀ r0 : F32, r0.Ok → In 0 1 r0 → r0.val < 1 → ∀ fuel, ∃ t, meshPick (densities zip (uneven n)) r0 fuel = .tri 0 t) ∧
    (1 ≤ n → ∀ fuel, ∃ a b, meshPick (densities zip (uneven n)) one fuel = .searching a b) := by
  have o : (num (2 ^ 24)).Ok := num_ok (by norm_num) (by simpa using rnd32_pow 24 (by norm_num)) (by norm_num)
  refine ⟨?_, ?_, ?_, ?_⟩
  · have h : ∀ n, (List.replicate n one).foldl add (num (2 ^ 24)) = num (2 ^ 24) := by
      intro n
      induction n with
      | zero => rfl
      | succ n ih => rw [List.replicate_succ, List.foldl_cons, absorbed_step, ih]
    have h0 : add zip (num (2 ^ 24)) = num (2 ^ 24) := by decide +kernel
    rw [meshSurface, uneven, List.foldl_cons, h0, h]
  · have : (uneven n).take (n + 1) = uneven n := List.take_of_length_le (by simp [uneven])
    rw [before, this, uneven, List.map_cons, List.map_replicate, List.sum_cons, List.sum_replicate, one_finite.2]
    simp [val]
  · intro r0 o0 h0 h1 fuel
    obtain ⟨oe, fe, ve, e0, e1⟩ := ext_spec h0 o trivial (by show (0 : ℚ) ≤ 2 ^ 24; norm_num)
    have lt' : (lerp r0 zip (num (2 ^ 24))).val < (num (2 ^ 24)).val := by
      rw [ve]
      refine ext_lt (ok_val o0).1 h1 (ok_val o).1 ?_
      show (2 : ℚ) ^ (-125 : ℤ) ≤ 2 ^ 24
      norm_num
    refine ⟨inverseLerp (lerp r0 zip (num (2 ^ 24))) zip (num (2 ^ 24)), ?_⟩
    rw [uneven_densities]
    unfold meshPick
    simp only [List.length_replicate, List.getElem?_replicate]
    simp only [Nat.zero_lt_succ, if_true, show n + 1 - 1 < n + 1 by omega]
    rw [lt_finite fe (show (num (2 ^ 24)).Finite from trivial), if_pos (decide_eq_true lt')]
  · intro hn fuel
    have hs := uneven_sums n
    have hl : (densities zip (uneven n)).length = n + 1 := by rw [uneven_densities, List.length_replicate]
    refine C172_violated_hang hs (dp := num (2 ^ 24)) (dl := num (2 ^ 24)) (by omega) ?_ ?_ rfl fuel
    · rw [hl, uneven_densities, List.getElem?_replicate, if_pos (by omega)]
    · rw [hl, uneven_densities, List.getElem?_replicate, if_pos (by omega)]

/-- **C172, a mesh of one triangle.**  The random number one reads the entry before the first. -/
theorem C172_violated_single {D : F32} (o : D.Ok) (f : D.Finite) (h : 0 ≤ D.val) (fuel : Nat) :
    meshPick [D] one fuel = .outOfBounds := by
  obtain ⟨oe, fe, ve, e0, e1⟩ := ext_spec one_in o f h
  rw [one_finite.2, one_mul, (ok_val o).1] at ve
  unfold meshPick
  simp [lt_finite fe f, ve]

/-! ### Triangles -/

theorem sqrt_near {a : F32} (h : In 0 1 a) : In 0 1 (F32.sqrt a) ∧ |(F32.sqrt a).val ^ 2 - a.val| ≤ 1 / 2 ^ 22 := by
  have hs := in_sqrt h
  refine ⟨hs, ?_⟩
  obtain ⟨-, -, v, w⟩ := sqrt_finite h.1 h.2.1
  rcases eq_or_lt_of_le h.2.1 with e | e
  · rw [w e.symm, ← e]; norm_num
  · rw [v e]
    obtain ⟨p, q, r⟩ := sqrt32_sq e
    have s1 : sqrt32 a.val ^ 2 ≤ 1 := by
      have := hs.2.2
      rw [v e] at this
      exact pow_le_one₀ p.le this
    have s0 : 0 ≤ sqrt32 a.val ^ 2 := by positivity
    generalize sqrt32 a.val ^ 2 = t at *
    rw [abs_le]
    constructor
    · norm_num at *; linarith
    · norm_num at *; linarith

/-- The weights: within `2^-22` of those of a point of the triangle, with a sum within `2^-23` of one. -/
theorem weights_spec {r0 r1 : F32} (h0 : In 0 1 r0) (h1 : In 0 1 r1) :
    ∃ s : ℚ, 0 ≤ s ∧ s ≤ 1 ∧ |s ^ 2 - r0.val| ≤ 1 / 2 ^ 22 ∧ In 0 1 (weights r0 r1).1 ∧ In 0 1 (weights r0 r1).2.1 ∧
      In (-1) 1 (weights r0 r1).2.2 ∧ |(weights r0 r1).1.val - (1 - s)| ≤ 1 / 2 ^ 24 ∧
      |(weights r0 r1).2.1.val - r1.val * s| ≤ 1 / 2 ^ 24 ∧ |(weights r0 r1).2.2.val - (1 - r1.val) * s| ≤ 4 / 2 ^ 24 ∧
      |(weights r0 r1).1.val + (weights r0 r1).2.1.val + (weights r0 r1).2.2.val - 1| ≤ 1 / 2 ^ 23 := by
  obtain ⟨hm, em⟩ := in_fmax h0 (by norm_num)
  rw [max_eq_right h0.2.1] at em
  obtain ⟨hs, es⟩ := sqrt_near hm
  rw [em] at es
  unfold weights
  dsimp only
  generalize F32.sqrt (fmax zip r0) = sq at *
  obtain ⟨hu, eu⟩ := FTex.inv_spec hs
  obtain ⟨hu', eu'⟩ := FTex.inv_spec hu
  have hv := in_mul (lo := 0) (hi := 1) h1.1 hs.1 (mul_nonneg h1.2.1 hs.2.1)
    (mul_le_one₀ h1.2.2 hs.2.1 hs.2.2) rep0 rep1
  have ev : |(F32.mul r1 sq).val - r1.val * sq.val| ≤ 1 / 2 ^ 24 := by
    have p0 := mul_nonneg h1.2.1 hs.2.1
    have p1 := mul_le_one₀ h1.2.2 hs.2.1 hs.2.2
    rw [(mul_finite h1.1 hs.1 (rnd_between p0 p1 rep0 rep1).1).2]
    have := rnd32_err_pow (q := r1.val * sq.val) (k := 0) (by norm_num) (by rw [abs_of_nonneg p0]; simpa using p1)
    simpa using this
  generalize sub one sq = u at *
  generalize sub one u = w1 at *
  generalize F32.mul r1 sq = v at *
  have repn : Rep (-1) := ⟨by rw [rnd32_neg, rep1.1], by norm_num⟩
  have hw := in_sub (lo := -1) (hi := 1) hu'.1 hv.1 (by linarith [hu'.2.1, hv.2.2]) (by linarith [hu'.2.2, hv.2.1]) repn rep1
  have ew : |(sub w1 v).val - (w1.val - v.val)| ≤ 1 / 2 ^ 24 := by
    have a : -1 ≤ w1.val - v.val := by linarith [hu'.2.1, hv.2.2]
    have b : w1.val - v.val ≤ 1 := by linarith [hu'.2.2, hv.2.1]
    rw [(sub_fin hu'.1 hv.1 (rnd_between a b repn rep1).1).2]
    have := rnd32_err_pow (q := w1.val - v.val) (k := 0) (by norm_num) (by rw [zpow_zero]; exact abs_le.2 ⟨a, b⟩)
    simpa using this
  refine ⟨sq.val, hs.2.1, hs.2.2, es, hu, hv, hw, eu, ev, ?_, ?_⟩
  · generalize (sub w1 v).val = w at *
    have e : w - (1 - r1.val) * sq.val = (w - (w1.val - v.val)) + (w1.val - (1 - u.val)) - (u.val - (1 - sq.val)) - (v.val - r1.val * sq.val) := by
      ring
    rw [e]
    rw [abs_le] at *
    constructor
    · linarith [ew.1, eu'.1, eu.2, ev.2]
    · linarith [ew.2, eu'.2, eu.1, ev.1]
  · generalize (sub w1 v).val = w at *
    rw [abs_le] at *
    constructor
    · linarith [ew.1, eu'.1]
    · linarith [ew.2, eu'.2]

/-- One coordinate of the point. -/
theorem combine {u v w a b c : F32} {k : ℤ} (k1 : -100 ≤ k) (k2 : k ≤ 100) (hu : In 0 1 u) (hv : In 0 1 v) (hw : In (-1) 1 w)
    (ha : FPlace.Upto k a) (hb : FPlace.Upto k b) (hc : FPlace.Upto k c) :
    (add (add (F32.mul u a) (F32.mul v b)) (F32.mul w c)).Finite ∧
    |(add (add (F32.mul u a) (F32.mul v b)) (F32.mul w c)).val - (u.val * a.val + v.val * b.val + w.val * c.val)| ≤ 2 ^ k * (9 / 2 ^ 24) := by
  have up : ∀ {x : F32}, In (-1) 1 x → FPlace.Upto 0 x := fun hx => ⟨hx.1, by rw [zpow_zero]; exact abs_le.2 ⟨hx.2.1, hx.2.2⟩⟩
  have pu := FPlace.upto_mul (up (hu.wide (by norm_num) le_rfl)) ha (by omega) (by omega)
  have pv := FPlace.upto_mul (up (hv.wide (by norm_num) le_rfl)) hb (by omega) (by omega)
  have pw := FPlace.upto_mul (up hw) hc (by omega) (by omega)
  rw [zero_add] at pu pv pw
  have mb : ∀ {x y : F32}, In (-1) 1 x → FPlace.Upto k y → |x.val * y.val| ≤ 2 ^ k := by
    intro x y hx hy
    rw [abs_mul]
    have h1 : |x.val| ≤ 1 := abs_le.2 ⟨hx.2.1, hx.2.2⟩
    calc |x.val| * |y.val| ≤ 1 * 2 ^ k := mul_le_mul h1 hy.2 (abs_nonneg _) (by norm_num)
      _ = 2 ^ k := one_mul _
  have eu := rnd32_err_pow (k := k) (by omega) (mb (hu.wide (by norm_num) le_rfl) ha)
  have ev := rnd32_err_pow (k := k) (by omega) (mb (hv.wide (by norm_num) le_rfl) hb)
  have ew := rnd32_err_pow (k := k) (by omega) (mb hw hc)
  rw [← pu.2] at eu
  rw [← pv.2] at ev
  rw [← pw.2] at ew
  have p1 := FPlace.upto_add pu.1 pv.1 (by omega) (by omega)
  have p2 := FPlace.upto_add p1.1 (FPlace.upto_mono (by omega : k ≤ k + 1) pw.1) (by omega) (by omega)
  have e1 : (2 : ℚ) ^ (k + 1) = 2 * 2 ^ k := by rw [zpow_add₀ (by norm_num), zpow_one]; ring
  have e2 : (2 : ℚ) ^ (k + 1 + 1) = 4 * 2 ^ k := by rw [zpow_add₀ (by norm_num), zpow_one, e1]; ring
  have b1 : |(F32.mul u a).val + (F32.mul v b).val| ≤ 2 ^ (k + 1) := by
    rw [e1]; refine (abs_add_le _ _).trans ?_; linarith [pu.1.2, pv.1.2]
  have b2 : |(add (F32.mul u a) (F32.mul v b)).val + (F32.mul w c).val| ≤ 2 ^ (k + 1 + 1) := by
    rw [e2]; refine (abs_add_le _ _).trans ?_
    have := p1.1.2
    rw [e1] at this
    linarith [pw.1.2, two_zpow_pos k]
  have f1 := rnd32_err_pow (by omega) b1
  have f2 := rnd32_err_pow (by omega) b2
  rw [← p1.2, e1] at f1
  rw [← p2.2, e2] at f2
  refine ⟨p2.1.1, ?_⟩
  clear b1 b2 e1 e2 p1 p2 pu pv pw mb up
  generalize (add (add (F32.mul u a) (F32.mul v b)) (F32.mul w c)).val = r at *
  generalize (add (F32.mul u a) (F32.mul v b)).val = r1 at *
  generalize (F32.mul u a).val = x at *
  generalize (F32.mul v b).val = y at *
  generalize (F32.mul w c).val = z at *
  generalize (2 : ℚ) ^ k = K at *
  generalize u.val * a.val = x' at *
  generalize v.val * b.val = y' at *
  generalize w.val * c.val = z' at *
  rw [abs_le] at *
  constructor
  · linarith [f2.1, f1.1, eu.1, ev.1, ew.1]
  · linarith [f2.2, f1.2, eu.2, ev.2, ew.2]

/-- **C172, triangles.**  The point is within `2^-20` times the size of the coordinates of a point of the triangle: the one with
the weights `1 - s`, `r1 s` and `(1 - r1) s`, for a number `s` of the unit interval whose square is within `2^-22` of `r0`. -/
theorem C172_triangle {a b c : V3 F32} {k : ℤ} (k1 : -100 ≤ k) (k2 : k ≤ 100) (ha : FPlace.Upto3 k a) (hb : FPlace.Upto3 k b)
    (hc : FPlace.Upto3 k c) {r0 r1 : F32} (h0 : In 0 1 r0) (h1 : In 0 1 r1) :
    ∃ s : ℚ, 0 ≤ s ∧ s ≤ 1 ∧ |s ^ 2 - r0.val| ≤ 1 / 2 ^ 22 ∧
      |(triSample a b c r0 r1).x.val - ((1 - s) * a.x.val + r1.val * s * b.x.val + (1 - r1.val) * s * c.x.val)| ≤ 2 ^ k / 2 ^ 20 ∧
      |(triSample a b c r0 r1).y.val - ((1 - s) * a.y.val + r1.val * s * b.y.val + (1 - r1.val) * s * c.y.val)| ≤ 2 ^ k / 2 ^ 20 ∧
      |(triSample a b c r0 r1).z.val - ((1 - s) * a.z.val + r1.val * s * b.z.val + (1 - r1.val) * s * c.z.val)| ≤ 2 ^ k / 2 ^ 20 := by
  obtain ⟨s, s0, s1, es, hu, hv, hw, eu, ev, ew, -⟩ := weights_spec h0 h1
  refine ⟨s, s0, s1, es, ?_⟩
  have one : ∀ {x y z : F32}, FPlace.Upto k x → FPlace.Upto k y → FPlace.Upto k z →
      |(add (add (F32.mul (weights r0 r1).1 x) (F32.mul (weights r0 r1).2.1 y)) (F32.mul (weights r0 r1).2.2 z)).val -
        ((1 - s) * x.val + r1.val * s * y.val + (1 - r1.val) * s * z.val)| ≤ 2 ^ k / 2 ^ 20 := by
    intro x y z hx hy hz
    obtain ⟨-, e⟩ := combine k1 k2 hu hv hw hx hy hz
    have pr : ∀ {g G n : ℚ} {x : F32}, |g - G| ≤ n → FPlace.Upto k x → |g * x.val - G * x.val| ≤ n * 2 ^ k := by
      intro g G n x hg hx
      rw [← sub_mul, abs_mul]
      exact mul_le_mul hg hx.2 (abs_nonneg _) ((abs_nonneg _).trans hg)
    have a1 := pr eu hx
    have a2 := pr ev hy
    have a3 := pr ew hz
    generalize (add (add (F32.mul (weights r0 r1).1 x) (F32.mul (weights r0 r1).2.1 y)) (F32.mul (weights r0 r1).2.2 z)).val = r at *
    clear pr eu ev ew hx hy hz hu hv hw
    generalize (weights r0 r1).1.val * x.val = A at *
    generalize (weights r0 r1).2.1.val * y.val = B at *
    generalize (weights r0 r1).2.2.val * z.val = C at *
    generalize (1 - s) * x.val = A' at *
    generalize r1.val * s * y.val = B' at *
    generalize (1 - r1.val) * s * z.val = C' at *
    have K := two_zpow_pos k
    generalize (2 : ℚ) ^ k = K at *
    rw [abs_le] at *
    constructor
    · norm_num at *; linarith [e.1, a1.1, a2.1, a3.1]
    · norm_num at *; linarith [e.2, a1.2, a2.2, a3.2]
  exact ⟨one ha.1 hb.1 hc.1, one ha.2.1 hb.2.1 hc.2.1, one ha.2.2 hb.2.2 hc.2.2⟩

/-- **C172, a point beside the triangle.**  With the random numbers `2^-50` and one, the point on the triangle of the origin and
two axes has a negative coordinate. -/
theorem C172_violated_outside :
    (triSample ⟨zip, zip, zip⟩ ⟨one, zip, zip⟩ ⟨zip, one, zip⟩ (num (1 / 2 ^ 50)) one).y.val < 0 := by
  have e : F32.sqrt (fmax zip (num (1 / 2 ^ 50))) = num (1 / 2 ^ 25) := by
    have e1 : fmax zip (num (1 / 2 ^ 50)) = num (1 / 2 ^ 50) := by decide +kernel
    rw [e1]
    have h : ¬ ((1 : ℚ) / 2 ^ 50 < 0) := by norm_num
    have := Normalize.sqrt32_pow (-25)
    have e2 : (2 : ℚ) ^ (2 * (-25 : ℤ)) = 1 / 2 ^ 50 := by norm_num
    have e3 : (2 : ℚ) ^ (-25 : ℤ) = 1 / 2 ^ 25 := by norm_num
    rw [e2, e3] at this
    unfold F32.sqrt
    dsimp only
    rw [if_neg h, this]
  have hw : weights (num (1 / 2 ^ 50)) one = (one, num (1 / 2 ^ 25), num (-1 / 2 ^ 25)) := by
    unfold weights
    rw [e]
    decide +kernel
  unfold triSample
  rw [hw]
  decide +kernel

/-! ### Spheres and directions -/

/-- **C172, spheres and directions.**  The point sampled on the unit sphere, and the direction of the ray of a light, has a
squared length within `2^-20` of one, beside the error of the sum of the squares of cosine and sine; its height is within
`3 2^-24` of `1 - 2 r0`. -/
theorem C172_sphere {r0 cs sn : F32} {e : ℚ} (h0 : In 0 1 r0) (hc : In (-1) 1 cs) (hs : In (-1) 1 sn)
    (he : |cs.val ^ 2 + sn.val ^ 2 - 1| ≤ e) :
    (In (-1) 1 (sphereSample r0 cs sn).x ∧ In (-1) 1 (sphereSample r0 cs sn).y ∧ In (-1) 1 (sphereSample r0 cs sn).z) ∧
    |(sphereSample r0 cs sn).x.val ^ 2 + (sphereSample r0 cs sn).y.val ^ 2 + (sphereSample r0 cs sn).z.val ^ 2 - 1| ≤ e + 1 / 2 ^ 20 ∧
    |(sphereSample r0 cs sn).z.val - (1 - 2 * r0.val)| ≤ 3 / 2 ^ 24 := by
  have rep2 : Rep 2 := ⟨by simpa using rnd32_pow 1 (by norm_num), by norm_num⟩
  have repn : Rep (-1) := ⟨by rw [rnd32_neg, rep1.1], by norm_num⟩
  have err : ∀ {q : ℚ}, |q| ≤ 1 → |rnd32 q - q| ≤ 1 / 2 ^ 24 := by
    intro q hq
    have := rnd32_err_pow (q := q) (k := 0) (by norm_num) (by simpa using hq)
    simpa using this
  have m0 : 0 ≤ two.val * r0.val := by rw [two_finite.2]; linarith [h0.2.1]
  have m1 : two.val * r0.val ≤ 2 := by rw [two_finite.2]; linarith [h0.2.2]
  have hd := in_mul (a := two) (b := r0) trivial h0.1 m0 m1 rep0 rep2
  have ed : |(F32.mul two r0).val - 2 * r0.val| ≤ 2 / 2 ^ 24 := by
    rw [(mul_finite (a := two) trivial h0.1 (rnd_between m0 m1 rep0 rep2).1).2, two_finite.2]
    have := rnd32_err_pow (q := 2 * r0.val) (k := 1) (by norm_num) (by
      rw [abs_of_nonneg (by linarith [h0.2.1]), zpow_one]; linarith [h0.2.2])
    rw [zpow_one] at this
    refine this.trans (by norm_num)
  have z0 : -1 ≤ one.val - (F32.mul two r0).val := by rw [one_finite.2]; linarith [hd.2.2]
  have z1 : one.val - (F32.mul two r0).val ≤ 1 := by rw [one_finite.2]; linarith [hd.2.1]
  have hz := in_sub (a := one) (b := F32.mul two r0) trivial hd.1 z0 z1 repn rep1
  have ez : |(sub one (F32.mul two r0)).val - (1 - 2 * r0.val)| ≤ 3 / 2 ^ 24 := by
    have e1 := err (abs_le.2 ⟨z0, z1⟩)
    rw [← (sub_fin (a := one) trivial hd.1 (rnd_between z0 z1 repn rep1).1).2, one_finite.2] at e1
    rw [abs_le] at *
    constructor
    · linarith [e1.1, ed.2]
    · linarith [e1.2, ed.1]
  unfold sphereSample
  dsimp only
  generalize sub one (F32.mul two r0) = z at *
  have hzz := sq_in hz
  have za : |z.val * z.val| ≤ 1 := by
    rw [abs_of_nonneg (mul_self_nonneg _)]; nlinarith [hz.2.1, hz.2.2]
  have ezz : |(F32.mul z z).val - z.val * z.val| ≤ 1 / 2 ^ 24 := by
    rw [(mul_finite hz.1 hz.1 (rnd_between (lo := 0) (hi := 1) (mul_self_nonneg _) (abs_le.1 za).2 rep0 rep1).1).2]
    exact err za
  obtain ⟨hi, ei⟩ := FTex.inv_spec hzz
  generalize F32.mul z z = zz at *
  obtain ⟨hm, em⟩ := in_fmax hi (by norm_num)
  rw [max_eq_right hi.2.1] at em
  obtain ⟨hr, er⟩ := sqrt_near hm
  rw [em] at er
  generalize fmax zip (sub one zz) = m at *
  generalize F32.sqrt m = r at *
  have prod : ∀ {t : F32}, In (-1) 1 t → In (-1) 1 (F32.mul r t) ∧ |(F32.mul r t).val ^ 2 - r.val ^ 2 * t.val ^ 2| ≤ 3 / 2 ^ 24 := by
    intro t ht
    have p0 : -1 ≤ r.val * t.val := by nlinarith [hr.2.1, hr.2.2, ht.2.1, ht.2.2]
    have p1 : r.val * t.val ≤ 1 := by nlinarith [hr.2.1, hr.2.2, ht.2.1, ht.2.2]
    have hx := in_mul hr.1 ht.1 p0 p1 repn rep1
    have ex := err (abs_le.2 ⟨p0, p1⟩)
    rw [← (mul_finite hr.1 ht.1 (rnd_between p0 p1 repn rep1).1).2] at ex
    refine ⟨hx, ?_⟩
    have g : (F32.mul r t).val ^ 2 - r.val ^ 2 * t.val ^ 2 = ((F32.mul r t).val - r.val * t.val) * ((F32.mul r t).val + r.val * t.val) := by
      ring
    rw [g, abs_mul]
    have s2 : |(F32.mul r t).val + r.val * t.val| ≤ 2 := abs_le.2 ⟨by linarith [hx.2.1], by linarith [hx.2.2]⟩
    calc |(F32.mul r t).val - r.val * t.val| * |(F32.mul r t).val + r.val * t.val| ≤ 1 / 2 ^ 24 * 2 :=
          mul_le_mul ex s2 (abs_nonneg _) (by norm_num)
      _ ≤ 3 / 2 ^ 24 := by norm_num
  obtain ⟨hx, ex⟩ := prod hc
  obtain ⟨hy, ey⟩ := prod hs
  refine ⟨⟨hx, hy, hz⟩, ?_, ez⟩
  have r2 : r.val ^ 2 ≤ 1 := pow_le_one₀ hr.2.1 hr.2.2
  have r20 : 0 ≤ r.val ^ 2 := by positivity
  have cmb : |r.val ^ 2 * (cs.val ^ 2 + sn.val ^ 2 - 1)| ≤ e := by
    rw [abs_mul, abs_of_nonneg r20]
    calc r.val ^ 2 * |cs.val ^ 2 + sn.val ^ 2 - 1| ≤ 1 * e := mul_le_mul r2 he (abs_nonneg _) (by norm_num)
      _ = e := one_mul e
  have g : (F32.mul r cs).val ^ 2 + (F32.mul r sn).val ^ 2 + z.val ^ 2 - 1 =
      ((F32.mul r cs).val ^ 2 - r.val ^ 2 * cs.val ^ 2) + ((F32.mul r sn).val ^ 2 - r.val ^ 2 * sn.val ^ 2) +
      r.val ^ 2 * (cs.val ^ 2 + sn.val ^ 2 - 1) + (r.val ^ 2 - (sub one zz).val) + ((sub one zz).val - (1 - zz.val)) -
      (zz.val - z.val * z.val) := by ring
  rw [g]
  generalize (F32.mul r cs).val ^ 2 - r.val ^ 2 * cs.val ^ 2 = A at *
  generalize (F32.mul r sn).val ^ 2 - r.val ^ 2 * sn.val ^ 2 = B at *
  generalize r.val ^ 2 * (cs.val ^ 2 + sn.val ^ 2 - 1) = C at *
  generalize r.val ^ 2 - (sub one zz).val = D at *
  generalize (sub one zz).val - (1 - zz.val) = E at *
  generalize zz.val - z.val * z.val = F at *
  clear g he ez za
  rw [abs_le] at *
  constructor
  · linarith [ex.1, ey.1, cmb.1, er.1, ei.1, ezz.2]
  · linarith [ex.2, ey.2, cmb.2, er.2, ei.2, ezz.1]

/-! ### The whole property -/

/-- C172 as a whole: points sampled on boxes are on their faces, the search of a triangle ends inside of the array, and the
weights of points on triangles are not negative. -/
def LightsSampled : Prop :=
  (∀ (s : V3 F32) (r0 r1 : F32), Scales s → r0.Ok → In 0 1 r0 → In 0 1 r1 →
    OnFace (boxSample (boxDensities s) r0 r1).1 (boxSample (boxDensities s) r0 r1).2) ∧
  (∀ (l : List F32) (r0 : F32), l ≠ [] → (∀ x ∈ l, x.Ok ∧ In 1 (2 ^ 24) x) → r0.Ok → In 0 1 r0 →
    ∃ fuel i t, meshPick (densities zip l) r0 fuel = .tri i t) ∧
  (∀ (r0 r1 : F32), In 0 1 r0 → In 0 1 r1 → 0 ≤ (weights r0 r1).2.2.val)

theorem panel_scales : Scales panel := by
  refine ⟨⟨trivial, ?_, ?_⟩, ⟨trivial, ?_, ?_⟩, ⟨trivial, ?_, ?_⟩⟩
  · show (2 : ℚ) ^ (-20 : ℤ) ≤ 8; norm_num
  · show (8 : ℚ) ≤ 2 ^ (20 : ℤ); norm_num
  · show (2 : ℚ) ^ (-20 : ℤ) ≤ 8; norm_num
  · show (8 : ℚ) ≤ 2 ^ (20 : ℤ); norm_num
  · show (2 : ℚ) ^ (-20 : ℤ) ≤ 1 / 2 ^ 20; norm_num
  · show (1 / 2 ^ 20 : ℚ) ≤ 2 ^ (20 : ℤ); norm_num

theorem one_ok : one.Ok := num_ok (by norm_num) rep1.1 (by norm_num)

/-- **C172 is violated** by a thin panel with the random number one. -/
theorem C172_violated : ¬ LightsSampled := by
  intro h
  have a := h.1 panel one one panel_scales one_ok one_in one_in
  have b := C172_violated_box panel_ok one (by rw [panel_faces.2.2.2.2.1, panel_faces.2.2.2.2.2])
  have c := a.1.2.2.1
  rw [b] at c
  exact c

/-- **C172 is violated** for meshes too, by two triangles of `2^24` and one. -/
theorem C172_violated_search : ¬ ∃ fuel i t, meshPick (densities zip (uneven 1)) one fuel = .tri i t := by
  rintro ⟨fuel, i, t, e⟩
  obtain ⟨a, b, e'⟩ := (C172_violated_absorbed 1).2.2.2 le_rfl fuel
  rw [e] at e'
  cases e'

/-! ### Examples -/

theorem half_ok : (num (1 / 2)).Ok ∧ In 0 1 (num (1 / 2)) := by
  refine ⟨num_ok (by norm_num) ?_ (by norm_num), trivial, ?_, ?_⟩
  · have := rnd32_pow (-1) (by norm_num)
    norm_num at this
    norm_num [this]
  · show (0 : ℚ) ≤ 1 / 2; norm_num
  · show (1 / 2 : ℚ) ≤ 1; norm_num

/-- The thin panel, with the random numbers one half: the point is on the face of `z = 0`. -/
example : OnFace (boxSample (boxDensities panel) (num (1 / 2)) (num (1 / 2))).1
      (boxSample (boxDensities panel) (num (1 / 2)) (num (1 / 2))).2 :=
  (C172_box panel_ok half_ok.1 half_ok.2 half_ok.2 (Or.inl ⟨by show (1 / 2 : ℚ) < 1; norm_num,
    (C172_box_densities panel_scales).2.2.2⟩)).1

example : (boxSample (boxDensities panel) (num (1 / 2)) (num (1 / 2))) =
    (⟨zip, num (1 / 2), zip⟩, ⟨zip, zip, num (-1)⟩) := by decide +kernel

/-- Two triangles. -/
def pair : List F32 := [num 2, num 1]

example : Sums (densities zip pair) :=
  (C172_mesh_densities (l := pair) (by
    intro x hx
    simp only [pair, List.mem_cons, List.not_mem_nil, or_false] at hx
    rcases hx with rfl | rfl
    · exact ⟨trivial, Or.inr (by show (2 : ℚ) ^ (-126 : ℤ) ≤ 2; norm_num)⟩
    · exact ⟨trivial, Or.inr (by show (2 : ℚ) ^ (-126 : ℤ) ≤ 1; norm_num)⟩) (by
    have e : densities zip pair = [num 2, num 3] := by decide +kernel
    rw [e]
    intro x hx
    simp only [List.mem_cons, List.not_mem_nil, or_false] at hx
    rcases hx with rfl | rfl <;> trivial)).1

/-- The search of `C172_mesh` on the mesh of which small triangles are lost. -/
example : ∃ i t, meshPick (densities zip (uneven 5)) (num (1 / 2)) 10 = .tri i t ∧ In 0 1 t := by
  have hl : (densities zip (uneven 5)).length = 6 := by rw [uneven_densities, List.length_replicate]
  obtain ⟨i, t, e, -, h, -⟩ := C172_mesh (uneven_sums 5) (dp := num (2 ^ 24)) (dl := num (2 ^ 24)) (r0 := num (1 / 2)) (by omega)
    (by rw [hl, uneven_densities]; rfl) (by rw [hl, uneven_densities]; rfl) half_ok.1 half_ok.2
    (Or.inl ⟨by show (1 / 2 : ℚ) < 1; norm_num, by show (2 : ℚ) ^ (-125 : ℤ) ≤ 2 ^ 24; norm_num⟩) 10 (by omega)
  exact ⟨i, t, e, h⟩

example : ∃ a b, meshPick (densities zip (uneven 1)) one 1000 = .searching a b := (C172_violated_absorbed 1).2.2.2 le_rfl 1000

example : ∃ s : ℚ, 0 ≤ s ∧ s ≤ 1 ∧
    |(triSample ⟨zip, zip, zip⟩ ⟨one, zip, zip⟩ ⟨zip, one, zip⟩ (num (1 / 2)) (num (1 / 2))).x.val -
      ((1 - s) * zip.val + (num (1 / 2)).val * s * one.val + (1 - (num (1 / 2)).val) * s * zip.val)| ≤ 2 ^ (0 : ℤ) / 2 ^ 20 := by
  have z : FPlace.Upto 0 zip := FPlace.upto_zero ⟨trivial, rfl⟩
  have o : FPlace.Upto 0 one := FPlace.upto_one le_rfl one_finite
  obtain ⟨s, a, b, -, c, -⟩ := C172_triangle (k := 0) (a := ⟨zip, zip, zip⟩) (b := ⟨one, zip, zip⟩) (c := ⟨zip, one, zip⟩)
    (by norm_num) (by norm_num) ⟨z, z, z⟩ ⟨o, z, z⟩ ⟨z, o, z⟩ half_ok.2 half_ok.2
  exact ⟨s, a, b, c⟩

example : |(sphereSample (num (1 / 2)) one zip).x.val ^ 2 + (sphereSample (num (1 / 2)) one zip).y.val ^ 2 +
    (sphereSample (num (1 / 2)) one zip).z.val ^ 2 - 1| ≤ 0 + 1 / 2 ^ 20 :=
  (C172_sphere half_ok.2 (one_in.wide (by norm_num) le_rfl) (zip_in.wide (by norm_num) le_rfl)
    (by rw [one_finite.2, show zip.val = 0 from rfl]; norm_num)).2.1

example : meshPick [num 7] one 3 = .outOfBounds :=
  C172_violated_single (D := num 7) (by exact_mod_cast ok_of_num (n := 7) (by norm_num) (by norm_num)) trivial (by show (0 : ℚ) ≤ 7; norm_num) 3

end Spectre.FLight
