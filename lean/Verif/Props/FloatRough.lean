import Verif.Model.FloatRough
import Verif.Props.FloatMicrofacet

/-
Property C169: the rough materials in binary32.
-/

namespace Spectre.FRough

open Spectre.Geom Spectre.FMat Spectre.FMicro F32

/-! ### Spec -/

/-- Any `powf`: from a base in [0, 1] and an exponent that is not negative it computes a number in [0, 1]. -/
def PowSpec (pow : F32 → F32 → F32) : Prop := ∀ b e, In 0 1 b → e.Finite → 0 ≤ e.val → In 0 1 (pow b e)

/-- Any `expf`: in [0, 1] for arguments that are not positive, minus infinity included, and zero below -200. -/
def ExpSpec (exp : F32 → F32) : Prop :=
  (∀ x, x = inf true ∨ (x.Finite ∧ x.val ≤ 0) → In 0 1 (exp x)) ∧
  ∀ x, x = inf true ∨ (x.Finite ∧ x.val ≤ -200) → exp x = zero false

/-- A roughness of the anisotropic distribution: the parser allows 0.001 to 1. -/
def Rough (a : F32) : Prop := In (1 / 1024) 1 a

/-! ### Helpers -/

theorem rep0 : Rep 0 := ⟨by decide +kernel, by norm_num⟩
theorem rep1 : Rep 1 := ⟨by decide +kernel, by norm_num⟩
theorem repm1 : Rep (-1) := ⟨by decide +kernel, by norm_num⟩

theorem rep_pow {k : ℤ} (h1 : -149 ≤ k) (h2 : k < 128) : Rep (2 ^ k) := by
  refine ⟨rnd32_pow k h1, ?_⟩
  rw [abs_of_pos (two_zpow_pos k), show (2 : ℚ) ^ 128 = 2 ^ (128 : ℤ) by norm_num]
  exact zpow_lt_zpow_right₀ (by norm_num) h2

/-- Doubling a binary32 number is exact. -/
theorem rnd32_double {q : ℚ} (h : rnd32 q = q) (h0 : 0 ≤ q) : rnd32 (2 * q) = 2 * q := by
  rcases eq_or_lt_of_le h0 with h1 | h1
  · rw [← h1]; simp [rnd32_zero]
  · have hp := two_zpow_pos (ulp32 q)
    have h2 : q < (2 : ℚ) ^ (Int.log 2 q + 1) := by
      have := Int.lt_zpow_succ_log_self (b := 2) (by norm_num) q; exact_mod_cast this
    have hu : Int.log 2 q - 23 ≤ ulp32 q := by
      unfold ulp32 ulpExp; rw [abs_of_pos h1]; exact le_max_left _ _
    have hb : q / 2 ^ ulp32 q ≤ ((2 ^ 24 : ℤ) : ℚ) := by
      rw [div_le_iff₀ hp]
      refine le_trans h2.le ?_
      rw [show ((2 ^ 24 : ℤ) : ℚ) = 2 ^ (24 : ℤ) by norm_num, ← zpow_add₀ (by norm_num)]
      exact zpow_le_zpow_right₀ (by norm_num) (by omega)
    have h0' : ((0 : ℤ) : ℚ) ≤ q / 2 ^ ulp32 q := by push_cast; positivity
    have r1 := rne_mono hb
    have r0 := rne_mono h0'
    rw [rne_int] at r1 r0
    have := rnd32_rep (rne (q / 2 ^ ulp32 q)) (ulp32 q + 1) (by rw [abs_le]; omega)
      (by unfold ulp32; have := le_max_right (ulpExp q) (-149); omega)
    have e : ((rne (q / 2 ^ ulp32 q) : ℤ) : ℚ) * 2 ^ ulp32 q = q := h
    have e2 : ((rne (q / 2 ^ ulp32 q) : ℤ) : ℚ) * 2 ^ (ulp32 q + 1) = 2 * q := by
      rw [zpow_add₀ (by norm_num), zpow_one, ← mul_assoc, e]; ring
    rwa [e2] at this

theorem in_one : In 1 1 one := ⟨trivial, le_rfl, le_rfl⟩

theorem in_num {q lo hi : ℚ} (h1 : lo ≤ q) (h2 : q ≤ hi) : In lo hi (num q) := ⟨trivial, h1, h2⟩

/-! ### Oren-Nayar -/

theorem sigma_in {r : F32} (h : In 0 1 r) : In 0 100 (sigma r) ∧ (sigma r).Ok := by
  refine ⟨?_, add_ok _ _⟩
  have h1 := sub_one_range h
  have h2 : In 0 0 (F32.mul (sub one r) zip) := in_mul h1.1 (show zip.Finite from trivial)
    (by rw [show zip.val = 0 from rfl, mul_zero]) (by rw [show zip.val = 0 from rfl, mul_zero]) rep0 rep0
  have h3 : In 0 100 (F32.mul r (num 100)) := in_mul h.1 trivial
    (by rw [show (num 100).val = 100 from rfl]; linarith [h.2.1]) (by rw [show (num 100).val = 100 from rfl]; linarith [h.2.2])
    rep0 ⟨by decide +kernel, by norm_num⟩
  exact in_add h2.1 h3.1 (by linarith [h2.2.1, h3.2.1]) (by linarith [h2.2.2, h3.2.2]) rep0 ⟨by decide +kernel, by norm_num⟩

/-- **C169, constants of Oren-Nayar.**  For every roughness in [0, 1] the constant `A` is in [1/2, 1] and `B` in [0, 1/2]. -/
theorem C169_oren_constants {r : F32} (h : In 0 1 r) : In (1 / 2) 1 (orenA (sigma r)) ∧ In 0 (1 / 2) (orenB (sigma r)) := by
  obtain ⟨⟨fs, s0, s1⟩, -⟩ := sigma_in h
  have hs2 : In 0 10000 (F32.mul (sigma r) (sigma r)) := in_mul fs fs (mul_nonneg s0 s0) (by nlinarith) rep0
    ⟨by decide +kernel, by norm_num⟩
  have ok2 : rnd32 (F32.mul (sigma r) (sigma r)).val = (F32.mul (sigma r) (sigma r)).val := (ok_val (mul_ok _ _)).1
  unfold orenA orenB
  simp only
  generalize F32.mul (sigma r) (sigma r) = t at *
  obtain ⟨ft, t0, t1⟩ := hs2
  have l33 : lit 0.33 = num (11072963 / 33554432) := by decide +kernel
  have l09 : lit 0.09 = num (12079596 / 134217728) := by decide +kernel
  have l45 : lit 0.45 = num (15099494 / 33554432) := by decide +kernel
  rw [l33, l09, l45]
  constructor
  · have f1 : (num (11072963 / 33554432)).Finite := trivial
    have v1 : (num (11072963 / 33554432)).val = 11072963 / 33554432 := rfl
    have b : |t.val + (num (11072963 / 33554432)).val| ≤ 2 ^ (14 : ℤ) := by
      rw [v1, abs_of_nonneg (by linarith)]; norm_num; linarith
    have hlt : |rnd32 (t.val + (num (11072963 / 33554432)).val)| < 2 ^ 128 :=
      (rnd_between (abs_le.1 b).1 (abs_le.1 b).2 ⟨by rw [rnd32_neg, rnd32_pow _ (by norm_num)], by norm_num⟩
        (rep_pow (by norm_num) (by norm_num))).1
    obtain ⟨fx, ex⟩ := add_finite ft f1 hlt
    have hx : t.val ≤ (add t (num (11072963 / 33554432))).val := by
      rw [ex, ← ok2]
      conv_rhs => rw [ok2]
      exact rnd32_mono (by rw [v1]; linarith)
    have hx3 : 1 / 4 ≤ (add t (num (11072963 / 33554432))).val := by
      rw [ex]
      have := rnd32_mono (show (2 : ℚ) ^ (-2 : ℤ) ≤ t.val + (num (11072963 / 33554432)).val by rw [v1]; norm_num; linarith)
      rw [rnd32_pow _ (by norm_num)] at this
      refine le_trans (by norm_num) this
    have hx4 : (add t (num (11072963 / 33554432))).val ≤ 2 ^ (14 : ℤ) := by
      rw [ex]; exact rnd32_lt (by norm_num) (le_trans (le_abs_self _) b)
    have okx := (ok_val (add_ok t (num (11072963 / 33554432)))).1
    generalize add t (num (11072963 / 33554432)) = x at *
    have ed : rnd32 (two.val * x.val) = 2 * x.val := by
      rw [two_finite.2]; exact rnd32_double okx (by linarith)
    obtain ⟨fd, vd⟩ := mul_finite two_finite.1 fx (by
      rw [ed, abs_of_nonneg (by linarith)]
      refine lt_of_le_of_lt (mul_le_mul_of_nonneg_left hx4 (by norm_num)) (by norm_num))
    rw [ed] at vd
    have hq : In 0 (1 / 2) (div t (F32.mul two x)) := by
      refine in_div ft fd (by rw [vd]; linarith) ?_ ?_ rep0 ⟨by decide +kernel, by norm_num⟩
      · rw [vd]; exact div_nonneg t0 (by linarith)
      · rw [vd, div_le_iff₀ (by linarith)]; linarith
    exact in_sub one_finite.1 hq.1 (by rw [one_finite.2]; linarith [hq.2.2]) (by rw [one_finite.2]; linarith [hq.2.1])
      ⟨by decide +kernel, by norm_num⟩ rep1
  · have f1 : (num (12079596 / 134217728)).Finite := trivial
    have v1 : (num (12079596 / 134217728)).val = 12079596 / 134217728 := rfl
    have b : |t.val + (num (12079596 / 134217728)).val| ≤ 2 ^ (14 : ℤ) := by
      rw [v1, abs_of_nonneg (by linarith)]; norm_num; linarith
    have hlt : |rnd32 (t.val + (num (12079596 / 134217728)).val)| < 2 ^ 128 :=
      (rnd_between (abs_le.1 b).1 (abs_le.1 b).2 ⟨by rw [rnd32_neg, rnd32_pow _ (by norm_num)], by norm_num⟩
        (rep_pow (by norm_num) (by norm_num))).1
    obtain ⟨fx, ex⟩ := add_finite ft f1 hlt
    have hx : t.val ≤ (add t (num (12079596 / 134217728))).val := by
      rw [ex, ← ok2]
      conv_rhs => rw [ok2]
      exact rnd32_mono (by rw [v1]; linarith)
    have hx3 : 1 / 16 ≤ (add t (num (12079596 / 134217728))).val := by
      rw [ex]
      have := rnd32_mono (show (2 : ℚ) ^ (-4 : ℤ) ≤ t.val + (num (12079596 / 134217728)).val by rw [v1]; norm_num; linarith)
      rw [rnd32_pow _ (by norm_num)] at this
      refine le_trans (by norm_num) this
    generalize add t (num (12079596 / 134217728)) = x at *
    have v2 : (num (15099494 / 33554432)).val = 15099494 / 33554432 := rfl
    have f2 : (num (15099494 / 33554432)).Finite := trivial
    have p0 : 0 ≤ (num (15099494 / 33554432)).val * t.val := by rw [v2]; exact mul_nonneg (by norm_num) t0
    have p1 : (num (15099494 / 33554432)).val * t.val ≤ 2 ^ (14 : ℤ) := by rw [v2]; norm_num; linarith
    have hn := in_mul f2 ft p0 p1 rep0 (rep_pow (by norm_num) (by norm_num))
    have en := (mul_finite f2 ft (rnd_between p0 p1 rep0 (rep_pow (by norm_num) (by norm_num))).1).2
    have er := rnd32_err' ((num (15099494 / 33554432)).val * t.val)
    rw [← en, abs_of_nonneg p0, v2] at er
    have er := (abs_le.1 er).2
    have tiny : (2 : ℚ) ^ (-150 : ℤ) ≤ 1 / 2 ^ 20 := by norm_num
    generalize F32.mul (num (15099494 / 33554432)) t = n at *
    refine in_div hn.1 fx (by linarith) (div_nonneg hn.2.1 (by linarith)) ?_ rep0 ⟨by decide +kernel, by norm_num⟩
    rw [div_le_iff₀ (by linarith)]
    generalize (2 : ℚ) ^ (-150 : ℤ) = w at *
    norm_num at er tiny
    linarith

theorem sine_in {c : F32} (h : In (-1) 1 c) : In 0 1 (sine c) :=
  in_sqrt (in_sin ((sq_in h).wide le_rfl (by norm_num)))

/-- The sine of a cosine below one is at least `2^-12`. -/
theorem sine_pos {c : F32} (ho : c.Ok) (h : In (-1) 1 c) (h1 : |c.val| < 1) : 1 / 2 ^ 12 ≤ (sine c).val := by
  have g : |c.val| ≤ 1 - 1 / 2 ^ 24 := by
    have r := (ok_val ho).1
    refine gap_one ?_ h1
    rcases abs_choice c.val with e | e <;> rw [e]
    · exact r
    · rw [rnd32_neg, r]
  have c2 : c.val * c.val ≤ 1 - 1 / 2 ^ 24 := by
    rw [← abs_mul_abs_self]
    nlinarith [abs_nonneg c.val]
  have r24 : Rep (1 - 1 / 2 ^ 24) := ⟨by decide +kernel, by norm_num⟩
  have hs : In 0 (1 - 1 / 2 ^ 24) (F32.mul c c) := in_mul h.1 h.1 (mul_self_nonneg _) c2 rep0 r24
  have hd : In (1 / 2 ^ 24) 1 (sub one (F32.mul c c)) := in_sub one_finite.1 hs.1 (by rw [one_finite.2]; linarith [hs.2.2])
    (by rw [one_finite.2]; linarith [hs.2.1]) ⟨by decide +kernel, by norm_num⟩ rep1
  obtain ⟨hm, vm⟩ := in_fmax hd (by norm_num)
  have p : (1 : ℚ) / 2 ^ 24 ≤ (fmax zip (sub one (F32.mul c c))).val := by
    rw [vm]; exact le_trans hd.2.1 (le_max_right _ _)
  unfold sine
  obtain ⟨-, -, e, -⟩ := sqrt_finite hm.1 hm.2.1
  have pp : 0 < (fmax zip (sub one (F32.mul c c))).val := lt_of_lt_of_le (by norm_num) p
  rw [e pp]
  have := le_sqrt32 pp (k := -12) (le_trans (by norm_num) p)
  refine le_trans (by norm_num) this

theorem clamp_in {v : F32} (h : v ≠ nan) : In (-1) 1 (clamp v (num (-1)) one) := by
  have i1 : In (-1) 1 one := in_num (by norm_num) le_rfl
  have i2 : In (-1) 1 (num (-1)) := in_num le_rfl (by norm_num)
  by_cases hf : v.Finite
  · unfold clamp
    rw [lt_finite hf i2.1, lt_finite i1.1 hf]
    simp only [decide_eq_true_eq]
    have e0 : (num (-1)).val = -1 := rfl
    rw [e0, one_finite.2]
    split_ifs with h1 h2
    · exact i2
    · exact i1
    · exact ⟨hf, not_lt.1 h1, not_lt.1 h2⟩
  · cases v with
    | nan => exact absurd rfl h
    | zero _ => exact absurd trivial hf
    | num _ => exact absurd trivial hf
    | inf s => cases s with
      | false => exact i1
      | true => exact i2

theorem div_ne_nan {a b : F32} (fa : a.Finite) (fb : b.Finite) (h : b.val ≠ 0) : div a b ≠ nan := by
  have e : ∃ s, div a b = F32.round s (a.val / b.val) := by
    cases b with
    | nan => exact fb.elim
    | inf s => exact fb.elim
    | zero s => exact absurd rfl h
    | num q =>
      cases a <;> simp only [F32.Finite] at fa <;> exact ⟨_, rfl⟩
  obtain ⟨s, e⟩ := e
  rw [e]
  unfold F32.round
  split_ifs <;> simp

theorem maxCos_in {xi xo si so : F32} (hxi : xi.Finite) (hxo : xo.Finite) (hi : si.Finite) (ho : so.Finite) (pi : si.val ≠ 0)
    (po : so.val ≠ 0) : In 0 2 (maxCos xi xo si so) := by
  have ci := clamp_in (div_ne_nan hxi hi pi)
  have co := clamp_in (div_ne_nan hxo ho po)
  have sp : ∀ {c : F32}, In (-1) 1 c → In 0 1 (sinPhi c) := fun h =>
    (in_fmax (in_sqrt (sub_one_range (sq_in h))) (by norm_num)).1
  have h1 := sp ci
  have h2 := sp co
  unfold maxCos cosPhi
  simp only
  generalize clamp (div xi si) (num (-1)) one = a at *
  generalize clamp (div xo so) (num (-1)) one = b at *
  have m1 : In (-1) 1 (F32.mul a b) := in_mul ci.1 co.1 (by nlinarith [ci.2.1, ci.2.2, co.2.1, co.2.2])
    (by nlinarith [ci.2.1, ci.2.2, co.2.1, co.2.2]) repm1 rep1
  have m2 : In 0 1 (F32.mul (sinPhi a) (sinPhi b)) := in_mul h1.1 h2.1 (mul_nonneg h1.2.1 h2.2.1)
    (mul_le_one₀ h1.2.2 h2.2.1 h2.2.2) rep0 rep1
  have m3 : In (-1) 2 (add (F32.mul a b) (F32.mul (sinPhi a) (sinPhi b))) := in_add m1.1 m2.1
    (by linarith [m1.2.1, m2.2.1]) (by linarith [m1.2.2, m2.2.2]) repm1 ⟨by decide +kernel, by norm_num⟩
  exact (in_fmax m3 (by norm_num)).1

theorem tan_in {s c : F32} {m : ℚ} (hs : In 0 1 s) (fc : c.Finite) (e : c.val = m) (h0 : 2 ^ (-126 : ℤ) ≤ m) (h1 : m ≤ 1) :
    In 0 (2 ^ (126 : ℤ)) (div s c) ∧ (div s c).val ≤ 1 / m * (1 + 1 / 2 ^ 24) := by
  have pm : 0 < m := lt_of_lt_of_le (two_zpow_pos _) h0
  have b1 : s.val / c.val ≤ 1 / m := by rw [e]; exact div_le_div_of_nonneg_right hs.2.2 pm.le
  have b2 : 1 / m ≤ 2 ^ (126 : ℤ) := by
    rw [div_le_iff₀ pm]
    refine le_trans ?_ (mul_le_mul_of_nonneg_left h0 (two_zpow_pos _).le)
    rw [← zpow_add₀ (by norm_num)]; norm_num
  have b0 : 0 ≤ s.val / c.val := by rw [e]; exact div_nonneg hs.2.1 pm.le
  have nz : c.val ≠ 0 := by rw [e]; exact pm.ne'
  have r126 : Rep (2 ^ (126 : ℤ)) := rep_pow (by norm_num) (by norm_num)
  refine ⟨in_div hs.1 fc nz b0 (b1.trans b2) rep0 r126, ?_⟩
  rw [(div_finite hs.1 fc nz (rnd_between b0 (b1.trans b2) rep0 r126).1).2]
  refine (rnd32_mono b1).trans ?_
  have m1 : 1 ≤ 1 / m := by rw [le_div_iff₀ pm]; linarith
  have := rnd32_rel (q := 1 / m) (by rw [abs_of_pos (by linarith)]; refine le_trans (by norm_num) m1)
  rw [abs_of_pos (show 0 < 1 / m by linarith)] at this
  linarith [(abs_le.1 this).2]

/-- **C169, Oren-Nayar.**  Unless both cosines are below the normal range the factor is a number, at least `A` and at most
`1 + 1/m` up to rounding, where `m` is the larger cosine. -/
theorem C169_oren_partial {A B : F32} {wo wi : V3 F32} (oA : A.Ok) (hA : In (1 / 2) 1 A) (hB : In 0 (1 / 2) B)
    (xo : In (-1) 1 wo.x) (xi : In (-1) 1 wi.x) (zo : In (-1) 1 wo.z) (zi : In (-1) 1 wi.z) {m : ℚ}
    (em : m = max (|wo.z.val|) (|wi.z.val|)) (hm : 2 ^ (-126 : ℤ) ≤ m) :
    (orenFactor A B wo wi).Finite ∧ A.val ≤ (orenFactor A B wo wi).val ∧
      (orenFactor A B wo wi).val ≤ (1 + 1 / m) * (1 + 1 / 2 ^ 20) := by
  have pm : 0 < m := lt_of_lt_of_le (two_zpow_pos _) hm
  have m1 : m ≤ 1 := by
    rw [em]; exact max_le (abs_le.2 ⟨zo.2.1, zo.2.2⟩) (abs_le.2 ⟨zi.2.1, zi.2.2⟩)
  have i1 : 1 ≤ 1 / m := by rw [le_div_iff₀ pm]; linarith
  obtain ⟨fci, vci⟩ := abs_finite zi.1
  obtain ⟨fco, vco⟩ := abs_finite zo.1
  have hsi := sine_in zi
  have hso := sine_in zo
  unfold orenFactor
  simp only
  by_cases hs : (lt zip (sine wi.z) && lt zip (sine wo.z)) = true
  · rw [if_pos hs]
    rw [Bool.and_eq_true, lt_finite (show zip.Finite from trivial) hsi.1, lt_finite (show zip.Finite from trivial) hso.1,
      decide_eq_true_eq, decide_eq_true_eq, show zip.val = 0 from rfl] at hs
    have hM := maxCos_in xi.1 xo.1 hsi.1 hso.1 hs.1.ne' hs.2.ne'
    have hT : ∃ sa tb, (if lt (F32.abs wo.z) (F32.abs wi.z) = true then sine wo.z else sine wi.z) = sa ∧
        (if lt (F32.abs wo.z) (F32.abs wi.z) = true then div (sine wi.z) (F32.abs wi.z) else div (sine wo.z) (F32.abs wo.z)) = tb ∧
        In 0 1 sa ∧ tb.Ok ∧ In 0 (2 ^ (126 : ℤ)) tb ∧ tb.val ≤ 1 / m * (1 + 1 / 2 ^ 24) := by
      refine ⟨_, _, rfl, rfl, ?_⟩
      rw [lt_finite fco fci, vco, vci]
      by_cases c : |wo.z.val| < |wi.z.val|
      · simp only [c, decide_true, if_true]
        exact ⟨hso, div_ok _ _, tan_in hsi fci (by rw [vci, em, max_eq_right c.le]) hm m1⟩
      · simp only [c, decide_false, Bool.false_eq_true, if_false]
        exact ⟨hsi, div_ok _ _, tan_in hso fco (by rw [vco, em, max_eq_left (not_lt.1 c)]) hm m1⟩
    obtain ⟨sa, tb, e1, e2, ha, ot, ht, bt⟩ := hT
    rw [e1, e2]
    generalize maxCos wi.x wo.x (sine wi.z) (sine wo.z) = M at *
    have h1 : In 0 1 (F32.mul B M) := in_mul hB.1 hM.1 (mul_nonneg hB.2.1 hM.2.1)
      (by nlinarith [hB.2.1, hB.2.2, hM.2.1, hM.2.2]) rep0 rep1
    have h2 : In 0 1 (F32.mul (F32.mul B M) sa) := in_mul h1.1 ha.1 (mul_nonneg h1.2.1 ha.2.1)
      (mul_le_one₀ h1.2.2 ha.2.1 ha.2.2) rep0 rep1
    generalize F32.mul (F32.mul B M) sa = P at *
    have h3 : In 0 tb.val (F32.mul P tb) := in_mul h2.1 ht.1 (mul_nonneg h2.2.1 ht.2.1)
      (mul_le_of_le_one_left ht.2.1 h2.2.2) rep0 (ok_val ot)
    generalize F32.mul P tb = R at *
    have q0 : A.val ≤ A.val + R.val := by linarith [h3.2.1]
    have q1 : A.val + R.val ≤ 2 ^ (127 : ℤ) := by
      have : (2 : ℚ) ^ (127 : ℤ) = 2 ^ (126 : ℤ) + 2 ^ (126 : ℤ) := by norm_num
      rw [this]
      have : (1 : ℚ) ≤ 2 ^ (126 : ℤ) := by norm_num
      linarith [hA.2.2, h3.2.2, ht.2.2]
    have r127 : Rep (2 ^ (127 : ℤ)) := rep_pow (by norm_num) (by norm_num)
    obtain ⟨f, l, -⟩ := in_add hA.1 h3.1 q0 q1 (ok_val oA) r127
    refine ⟨f, l, ?_⟩
    rw [(add_finite hA.1 h3.1 (rnd_between q0 q1 (ok_val oA) r127).1).2]
    have er := rnd32_rel (q := A.val + R.val) (by
      rw [abs_of_nonneg (by linarith [hA.2.1, h3.2.1])]
      refine le_trans (show (2 : ℚ) ^ (-126 : ℤ) ≤ 1 / 2 by norm_num) (by linarith [hA.2.1, h3.2.1]))
    rw [abs_of_nonneg (show 0 ≤ A.val + R.val by linarith [hA.2.1, h3.2.1])] at er
    have er := (abs_le.1 er).2
    have hR := h3.2.2
    have a1 := hA.2.2
    generalize 1 / m = w at *
    norm_num at er bt ⊢
    linarith
  · rw [if_neg hs]
    refine ⟨hA.1, le_rfl, ?_⟩
    have := hA.2.2
    have : (1 : ℚ) ≤ (1 + 1 / m) * (1 + 1 / 2 ^ 20) := by
      have : (0 : ℚ) ≤ 1 / m := by linarith
      generalize 1 / m = w at *
      norm_num
      linarith
    linarith

/-! ### The rational fit -/

/-- **C169, rational fit.**  For every argument that is not negative, infinity included, the fit is a number in
[0, 1 + 2^-13]. -/
theorem C169_fit {c : F32} (h : AtLeast 0 c) : In 0 (1 + 1 / 2 ^ 13) (fit c) := by
  have l1 : lit 1.6 = num (13421773 / 8388608) := by decide +kernel
  have l2 : lit 3.535 = num (14826865 / 4194304) := by decide +kernel
  have l3 : lit 2.181 = num (9147777 / 4194304) := by decide +kernel
  have l4 : lit 2.276 = num (2386559 / 1048576) := by decide +kernel
  have l5 : lit 2.577 = num (10808721 / 4194304) := by decide +kernel
  have hone : In 0 (1 + 1 / 2 ^ 13) one := in_num (by norm_num) (by norm_num)
  unfold fit
  rw [l1, l2, l3, l4, l5]
  rcases h with rfl | ⟨f, h0⟩
  · exact hone
  rw [ge_finite f (show (num (13421773 / 8388608)).Finite from trivial)]
  simp only [decide_eq_true_eq]
  rw [show (num (13421773 / 8388608)).val = 13421773 / 8388608 from rfl]
  split_ifs with hc
  · exact hone
  have hc : c.val < 13421773 / 8388608 := not_le.1 hc
  have fin : ∀ q : ℚ, (num q).Finite := fun _ => trivial
  have v : ∀ q : ℚ, (num q).val = q := fun _ => rfl
  have tiny : (2 : ℚ) ^ (-150 : ℤ) ≤ 1 / 2 ^ 100 := by norm_num
  have tiny0 : (0 : ℚ) ≤ 2 ^ (-150 : ℤ) := (two_zpow_pos _).le
  obtain ⟨i1, e1⟩ := mul_err (fin (14826865 / 4194304)) f (by rw [v]; norm_num) h0 (by rw [v]; norm_num; linarith)
  obtain ⟨i2, e2⟩ := mul_err (fin (9147777 / 4194304)) f (by rw [v]; norm_num) h0 (by rw [v]; norm_num; linarith)
  obtain ⟨i3, e3⟩ := mul_err (fin (2386559 / 1048576)) f (by rw [v]; norm_num) h0 (by rw [v]; norm_num; linarith)
  obtain ⟨i4, e4⟩ := mul_err (fin (10808721 / 4194304)) f (by rw [v]; norm_num) h0 (by rw [v]; norm_num; linarith)
  rw [v] at e1 e2 e3 e4
  generalize F32.mul (num (14826865 / 4194304)) c = a1 at *
  generalize F32.mul (num (9147777 / 4194304)) c = a2 at *
  generalize F32.mul (num (2386559 / 1048576)) c = a3 at *
  generalize F32.mul (num (10808721 / 4194304)) c = a4 at *
  rw [abs_le] at e1 e2 e3 e4
  generalize (2 : ℚ) ^ (-150 : ℤ) = w at *
  have s0 : 0 ≤ c.val * c.val := mul_self_nonneg _
  have s1 : c.val * c.val ≤ 4 := by nlinarith
  have w2 : w * c.val ≤ 2 * w := by nlinarith
  have w1 : 0 ≤ w * c.val := mul_nonneg tiny0 h0
  have k2 : a2.val * c.val ≤ 9147777 / 4194304 * (c.val * c.val) * (1 + 1 / 2 ^ 24) + 2 * w := by
    have := mul_le_mul_of_nonneg_right (show a2.val ≤ 9147777 / 4194304 * c.val * (1 + 1 / 2 ^ 24) + w by linarith [e2.2]) h0
    linarith
  have k4 : 10808721 / 4194304 * (c.val * c.val) * (1 - 1 / 2 ^ 24) - 2 * w ≤ a4.val * c.val := by
    have := mul_le_mul_of_nonneg_right (show 10808721 / 4194304 * c.val * (1 - 1 / 2 ^ 24) - w ≤ a4.val by linarith [e4.1]) h0
    linarith
  have k4' : a4.val * c.val ≤ 100 := by
    have := mul_le_mul_of_nonneg_right (show a4.val ≤ 10 by norm_num at e4; linarith [e4.2]) h0
    linarith
  generalize hs : c.val * c.val = s at *
  obtain ⟨i5, e5⟩ := mul_err i2.1 f i2.2.1 h0 (by norm_num at k2 tiny ⊢; linarith)
  obtain ⟨i6, e6⟩ := mul_err i4.1 f i4.2.1 h0 (by norm_num at k4' tiny ⊢; linarith)
  generalize F32.mul a2 c = b2 at *
  generalize F32.mul a4 c = b4 at *
  generalize a2.val * c.val = x2 at *
  generalize a4.val * c.val = x4 at *
  rw [abs_le] at e5 e6
  obtain ⟨i7, e7⟩ := add_err i1.1 i5.1 i1.2.1 i5.2.1 (by norm_num at e1 e5 k2 tiny ⊢; linarith [e1.2, e5.2])
  obtain ⟨i8, e8⟩ := add_err one_finite.1 i3.1 (by rw [one_finite.2]; norm_num) i3.2.1
    (by rw [one_finite.2]; norm_num at e3 tiny ⊢; linarith [e3.2])
  rw [one_finite.2, abs_le] at e8
  rw [abs_le] at e7
  have i8b : (add one a3).val ≤ 100 := by norm_num at e3 e8 tiny; linarith [e3.2, e8.2]
  generalize add one a3 = d at *
  obtain ⟨i9, e9⟩ := add_err i8.1 i6.1 i8.2.1 i6.2.1 (by norm_num at e6 tiny ⊢; linarith [e6.2])
  rw [abs_le] at e9
  generalize add a1 b2 = N at *
  generalize add d b4 = D at *
  have hN : N.val ≤ (14826865 / 4194304 * c.val + 9147777 / 4194304 * s) * (1 + 1 / 2 ^ 21) + 1 / 2 ^ 90 := by
    norm_num at e1 e5 e7 k2 tiny ⊢
    linarith [e1.2, e5.2, e7.2]
  have hD : (1 + 2386559 / 1048576 * c.val + 10808721 / 4194304 * s) * (1 - 1 / 2 ^ 21) - 1 / 2 ^ 90 ≤ D.val := by
    norm_num at e3 e6 e8 e9 k4 tiny ⊢
    linarith [e3.1, e6.1, e8.1, e9.1]
  have pD : 0 < D.val := by
    refine lt_of_lt_of_le ?_ hD
    norm_num
    linarith
  refine in_div i7.1 i9.1 pD.ne' (div_nonneg i7.2.1 pD.le) ?_ rep0 ⟨by decide +kernel, by norm_num⟩
  rw [div_le_iff₀ pD]
  have key : (14826865 / 4194304 * c.val + 9147777 / 4194304 * s) * (1 + 1 / 2 ^ 21) + 1 / 2 ^ 90 ≤
      (1 + 1 / 2 ^ 13) * ((1 + 2386559 / 1048576 * c.val + 10808721 / 4194304 * s) * (1 - 1 / 2 ^ 21) - 1 / 2 ^ 90) := by
    rw [← hs]
    norm_num
    nlinarith [sq_nonneg (c.val - 1588 / 1000)]
  have := mul_le_mul_of_nonneg_left hD (show (0 : ℚ) ≤ 1 + 1 / 2 ^ 13 by norm_num)
  linarith

/-! ### Blinn and Beckmann -/

theorem round_div {a b : F32} (fa : a.Finite) (fb : b.Finite) (h : b.val ≠ 0) : ∃ s, div a b = F32.round s (a.val / b.val) := by
  cases b with
  | nan => exact fb.elim
  | inf s => exact fb.elim
  | zero s => exact absurd rfl h
  | num q => cases a <;> simp only [F32.Finite] at fa <;> exact ⟨_, rfl⟩

/-- Division by a number that is positive, or plus infinity. -/
theorem div_by {a b : F32} {k : ℚ} (fa : a.Finite) (ha : 0 ≤ a.val) (hk : 0 < k) (hb : AtLeast k b) : AtLeast 0 (div a b) := by
  rcases hb with rfl | ⟨fb, hb⟩
  · right
    cases a <;> simp only [F32.Finite] at fa <;> exact ⟨trivial, le_rfl⟩
  · exact div_atLeast fa fb ha (lt_of_lt_of_le hk hb)

theorem abs_in {z : F32} (h : In (-1) 1 z) : In 0 1 (F32.abs z) ∧ (F32.abs z).val = |z.val| := by
  obtain ⟨f, e⟩ := abs_finite h.1
  exact ⟨⟨f, by rw [e]; exact abs_nonneg _, by rw [e]; exact abs_le.2 ⟨h.2.1, h.2.2⟩⟩, e⟩

theorem abs_ok {z : F32} (h : z.Ok) : (F32.abs z).Ok := by
  cases z with
  | nan => exact h
  | inf s => exact h
  | zero s => exact h
  | num q =>
    obtain ⟨h1, h2, h3⟩ := h
    show (num |q|).Ok
    refine ⟨abs_ne_zero.2 h1, ?_, by rw [abs_abs]; exact h3⟩
    rcases abs_choice q with e | e <;> rw [e]
    · exact h2
    · rw [rnd32_neg, h2]

theorem fit_one : In 0 (1 + 1 / 2 ^ 13) one := in_num (by norm_num) (by norm_num)

/-- **C169, masking of Blinn.**  A number in [0, 1 + 2^-13] for every exponent of the code and every cosine in [-1, 1]. -/
theorem C169_blinn_visible {e z : F32} (he : In 0 100000 e) (oz : z.Ok) (hz : In (-1) 1 z) :
    In 0 (1 + 1 / 2 ^ 13) (blinnG1 e z) := by
  obtain ⟨hc, -⟩ := abs_in hz
  have oc := abs_ok oz
  unfold blinnG1
  simp only
  generalize F32.abs z = c at *
  rw [eq_zip hc.1, ge_finite hc.1 one_finite.1, one_finite.2]
  simp only [decide_eq_true_eq]
  split_ifs with h0 h1
  · exact in_num le_rfl (by norm_num)
  · exact fit_one
  · have hc' : In (-1) 1 c := hc.wide (by norm_num) le_rfl
    have hlt : |c.val| < 1 := by rw [abs_of_nonneg hc.2.1]; exact not_le.1 h1
    have hsub := sub_one_range (sq_in hc')
    have es : F32.sqrt (sub one (F32.mul c c)) = sine c := by
      unfold sine
      congr 1
      unfold fmax
      rw [lt_finite hsub.1 (show zip.Finite from trivial), show zip.val = 0 from rfl]
      rw [if_neg (by simpa using hsub.2.1)]
    rw [es]
    have sp := sine_pos oc hc' hlt
    have hsn := sine_in hc'
    have q : AtLeast (1 / 2 ^ 12) (div (sine c) c) := by
      obtain ⟨s, e⟩ := round_div hsn.1 hc.1 h0
      rw [e]
      refine round_atLeast (by norm_num) ⟨by decide +kernel, by norm_num⟩ ?_
      have pc : 0 < c.val := lt_of_le_of_ne hc.2.1 (Ne.symm h0)
      rw [le_div_iff₀ pc]
      refine le_trans (mul_le_of_le_one_right (by norm_num) hc.2.2) sp
    have m : In 0 50000 (F32.mul (num (1 / 2)) e) := in_mul trivial he.1
      (by rw [show (num (1 / 2)).val = 1 / 2 from rfl]; linarith [he.2.1])
      (by rw [show (num (1 / 2)).val = 1 / 2 from rfl]; linarith [he.2.2]) rep0 ⟨by decide +kernel, by norm_num⟩
    have a : In 0 60000 (add (F32.mul (num (1 / 2)) e) one) := in_add m.1 one_finite.1
      (by rw [one_finite.2]; linarith [m.2.1]) (by rw [one_finite.2]; linarith [m.2.2]) rep0 ⟨by decide +kernel, by norm_num⟩
    obtain ⟨f, p, -, -⟩ := sqrt_finite a.1 a.2.1
    exact C169_fit (div_by f p (by norm_num) q)

/-- **C169, masking of Beckmann.**  A number in [0, 1 + 2^-13] for every positive roughness, also if its product with the
sine underflows. -/
theorem C169_beckmann_visible {a z : F32} (ha : In 0 1 a) (pa : 0 < a.val) (oz : z.Ok) (hz : In (-1) 1 z) :
    In 0 (1 + 1 / 2 ^ 13) (beckmannG1 a z) := by
  obtain ⟨hc, -⟩ := abs_in hz
  have oc := abs_ok oz
  unfold beckmannG1
  simp only
  generalize F32.abs z = c at *
  rw [eq_zip hc.1, ge_finite hc.1 one_finite.1, one_finite.2]
  simp only [decide_eq_true_eq]
  split_ifs with h0 h1
  · exact in_num le_rfl (by norm_num)
  · exact fit_one
  · have hc' : In (-1) 1 c := hc.wide (by norm_num) le_rfl
    have hsn := sine_in hc'
    have pc : 0 < c.val := lt_of_le_of_ne hc.2.1 (Ne.symm h0)
    have m : In 0 1 (F32.mul (sine c) a) := in_mul hsn.1 ha.1 (mul_nonneg hsn.2.1 ha.2.1)
      (mul_le_one₀ hsn.2.2 ha.2.1 ha.2.2) rep0 rep1
    rcases eq_or_lt_of_le m.2.1 with e | e
    · have sp := sine_pos oc hc' (by rw [abs_of_nonneg hc.2.1]; exact not_le.1 h1)
      have q : 0 < (sine c).val * a.val := mul_pos (lt_of_lt_of_le (by norm_num) sp) pa
      have ez : F32.mul (sine c) a = zero false := by
        obtain ⟨s, es⟩ : ∃ s, F32.mul (sine c) a = F32.round s ((sine c).val * a.val) := by
          have f1 := hsn.1
          have f2 := ha.1
          generalize sine c = x at *
          cases x <;> cases a <;> simp only [F32.Finite] at f1 f2 <;> exact ⟨_, rfl⟩
        rw [es] at e ⊢
        unfold F32.round at e ⊢
        rw [if_neg q.ne'] at e ⊢
        split_ifs at e ⊢ with h2 h3
        · rw [decide_eq_false (not_lt.2 q.le)]
        · exfalso
          have := rnd32_nonneg q.le
          have hm := rnd32_mono (show (sine c).val * a.val ≤ 1 from mul_le_one₀ hsn.2.2 ha.2.1 ha.2.2)
          rw [rep1.1] at hm
          rw [abs_of_nonneg this] at h3
          have : (1 : ℚ) < 2 ^ 128 := by norm_num
          linarith
        · exact absurd e.symm h2
      rw [ez]
      refine C169_fit (Or.inl ?_)
      have f1 := hc.1
      cases c with
      | nan => exact f1.elim
      | inf s => exact f1.elim
      | zero s => exact absurd pc (lt_irrefl _)
      | num x =>
        show inf (xor (decide (x < 0)) false) = inf false
        rw [decide_eq_false (not_lt.2 (show (0 : ℚ) ≤ x from le_of_lt pc))]; rfl
    · exact C169_fit (div_atLeast hc.1 m.1 hc.2.1 e)

/-- **C169, density of Blinn.**  For every `powf` the density and the one for sampling are numbers that are not negative. -/
theorem C169_blinn_density {pow : F32 → F32 → F32} (hp : PowSpec pow) {e z d : F32} (he : In 0 100000 e) (hz : In (-1) 1 z) :
    In 0 (2 ^ 17) (blinnD pow e z) ∧ In 0 (2 ^ 17) (blinnPdf pow e z d) := by
  have hc := (abs_in hz).1
  have hw := hp _ e hc he.1 he.2.1
  have r17 : Rep (2 ^ 17) := ⟨by decide +kernel, by norm_num⟩
  have h1 : In 0 (2 ^ 17) (add e two) := in_add he.1 two_finite.1 (by rw [two_finite.2]; linarith [he.2.1])
    (by rw [two_finite.2]; norm_num; linarith [he.2.2]) rep0 r17
  have hi : In 0 1 invTwoPi := by
    have : invTwoPi = num (10680707 / 67108864) := by decide +kernel
    rw [this]; exact in_num (by norm_num) (by norm_num)
  have ht : In 6 7 twoPi := by
    have : twoPi = num (13176795 / 2097152) := by decide +kernel
    rw [this]; exact in_num (by norm_num) (by norm_num)
  constructor
  · have h2 : In 0 (2 ^ 17) (F32.mul (add e two) invTwoPi) := in_mul h1.1 hi.1 (mul_nonneg h1.2.1 hi.2.1)
      (by nlinarith [h1.2.1, h1.2.2, hi.2.1, hi.2.2]) rep0 r17
    exact in_mul h2.1 hw.1 (mul_nonneg h2.2.1 hw.2.1) (by nlinarith [h2.2.1, h2.2.2, hw.2.1, hw.2.2]) rep0 r17
  · unfold blinnPdf
    split_ifs
    · have h2 : In 0 (2 ^ 17) (F32.mul (add e two) (pow (F32.abs z) e)) := in_mul h1.1 hw.1 (mul_nonneg h1.2.1 hw.2.1)
        (by nlinarith [h1.2.1, h1.2.2, hw.2.1, hw.2.2]) rep0 r17
      have p : 0 < twoPi.val := by linarith [ht.2.1]
      refine in_div h2.1 ht.1 p.ne' (div_nonneg h2.2.1 p.le) ?_ rep0 r17
      rw [div_le_iff₀ p]
      nlinarith [h2.2.2, ht.2.1]
    · exact ⟨trivial, le_rfl, show (0 : ℚ) ≤ 2 ^ 17 by norm_num⟩

/-- The square of the sine complements the square of the cosine within `5*2^-24`. -/
theorem sine_near {c : F32} (hc : In 0 1 c) : |c.val ^ 2 + (sine c).val ^ 2 - 1| ≤ 5 * eps := by
  have hcc : In 0 1 (F32.mul c c) := sq_in ⟨hc.1, by linarith [hc.2.1], hc.2.2⟩
  have pc : |c.val * c.val| ≤ 1 := by
    rw [abs_le]; constructor <;> nlinarith [hc.2.1, hc.2.2]
  have r1 := rnd_one pc
  rw [← (mul_finite hc.1 hc.1 (fin1 pc)).2] at r1
  have hs := sub_one_range hcc
  have b1 : |1 - (F32.mul c c).val| ≤ 1 := abs_le.2 ⟨by linarith [hcc.2.2], by linarith [hcc.2.1]⟩
  have es : (sub one (F32.mul c c)).val = rnd32 (1 - (F32.mul c c).val) := by
    have := (sub_fin one_finite.1 hcc.1 (by rw [one_finite.2]; exact fin1 b1)).2
    rwa [one_finite.2] at this
  have r2 := rnd_one b1
  rw [← es] at r2
  obtain ⟨hm, vm⟩ := in_fmax hs (by norm_num)
  rw [max_eq_right hs.2.1] at vm
  have k := sqrt_near hm
  rw [vm] at k
  unfold sine
  have := eps_pos
  rw [abs_le] at r1 r2 k ⊢
  constructor <;> nlinarith [r1.1, r1.2, r2.1, r2.2, k.1, k.2]

/-- **C169, sampling of Blinn.**  For every `powf` and every random number the half vector is made of numbers in [-1, 1], has
length one within `13*2^-24` and is on the side of the outgoing direction. -/
theorem C169_blinn_sample {pow : F32 → F32 → F32} (hp : PowSpec pow) {e r0 cp sp woz : F32} (he : In 0 100000 e)
    (hr : In 0 1 r0) (ha : Angle cp sp) (hw : In (-1) 1 woz) :
    let w := halfVec (blinnAngle pow e r0).1 (blinnAngle pow e r0).2 cp sp woz
    In (-1) 1 w.x ∧ In (-1) 1 w.y ∧ In (-1) 1 w.z ∧ |w.x.val ^ 2 + w.y.val ^ 2 + w.z.val ^ 2 - 1| ≤ 13 * eps ∧
      0 ≤ (F32.mul woz w.z).val := by
  have h1 : In 1 200000 (add e one) := in_add he.1 one_finite.1 (by rw [one_finite.2]; linarith [he.2.1])
    (by rw [one_finite.2]; linarith [he.2.2]) rep1 ⟨by decide +kernel, by norm_num⟩
  have h2 := one_div_in (Or.inr ⟨h1.1, h1.2.1⟩)
  have hc := hp r0 _ hr h2.1 h2.2.1
  unfold blinnAngle
  simp only
  generalize pow r0 (div one (add e one)) = c at *
  have := C163_half hc (sine_in (hc.wide (by norm_num) le_rfl)) ha hw (sine_near hc)
  obtain ⟨a1, a2, a3, a4, a5, -⟩ := this
  refine ⟨a1, a2, a3, ?_, a5⟩
  norm_num at a4 ⊢
  exact a4

/-- **C169, sampling of the anisotropic distribution.**  For every random number, one included, the half vector is made of
numbers in [-1, 1], has length one within `13*2^-24` and is on the side of the outgoing direction. -/
theorem C169_aniso_sample {ax ay cp sp r0 woz : F32} (hx : Rough ax) (hy : Rough ay) (ha : Angle cp sp) (hr : In 0 1 r0)
    (hw : In (-1) 1 woz) :
    let w := halfVec (anisoAngle ax ay cp sp r0).1 (anisoAngle ax ay cp sp r0).2 cp sp woz
    In (-1) 1 w.x ∧ In (-1) 1 w.y ∧ In (-1) 1 w.z ∧ |w.x.val ^ 2 + w.y.val ^ 2 + w.z.val ^ 2 - 1| ≤ 13 * eps ∧
      0 ≤ (F32.mul woz w.z).val := by
  have sq : ∀ {a : F32}, Rough a → In (1 / 2 ^ 20) 1 (F32.mul a a) := fun h =>
    in_mul h.1 h.1 (by nlinarith [h.2.1]) (by nlinarith [h.2.1, h.2.2]) ⟨by decide +kernel, by norm_num⟩ rep1
  have part : ∀ {a c : F32}, Rough a → In (-1) 1 c → In 0 (2 ^ 20) (div (F32.mul c c) (F32.mul a a)) ∧
      c.val ^ 2 / 2 ≤ (div (F32.mul c c) (F32.mul a a)).val + 1 / 2 ^ 24 := by
    intro a c h hc
    have h1 := sq h
    have h2 := sq_in hc
    have p : 0 < (F32.mul a a).val := lt_of_lt_of_le (by norm_num) h1.2.1
    have pc : |c.val * c.val| ≤ 1 := by rw [abs_le]; constructor <;> nlinarith [hc.2.1, hc.2.2]
    have r1 := rnd_one pc
    rw [← (mul_finite hc.1 hc.1 (fin1 pc)).2] at r1
    have b0 : (F32.mul c c).val ≤ (F32.mul c c).val / (F32.mul a a).val := by
      rw [le_div_iff₀ p]; exact mul_le_of_le_one_right h2.2.1 h1.2.2
    have b1 : (F32.mul c c).val / (F32.mul a a).val ≤ 2 ^ 20 := by
      rw [div_le_iff₀ p]
      have := h1.2.1
      norm_num at this ⊢
      linarith [h2.2.2]
    have r20 : Rep (2 ^ 20) := ⟨by decide +kernel, by norm_num⟩
    have oc := ok_val (mul_ok c c)
    obtain ⟨f, l, u⟩ := in_div h2.1 h1.1 p.ne' b0 b1 oc r20
    refine ⟨⟨f, h2.2.1.trans l, u⟩, ?_⟩
    unfold eps at r1
    have := (abs_le.1 r1).1
    nlinarith [sq_nonneg c.val]
  obtain ⟨h1, h2, h3⟩ := ha
  obtain ⟨p1, q1⟩ := part hx h1
  obtain ⟨p2, q2⟩ := part hy h2
  unfold anisoAngle
  simp only
  generalize div (F32.mul cp cp) (F32.mul ax ax) = u at *
  generalize div (F32.mul sp sp) (F32.mul ay ay) = v at *
  have hs : In (1 / 4) (2 ^ 22) (add u v) := by
    refine in_add p1.1 p2.1 ?_ ?_ ⟨by decide +kernel, by norm_num⟩ ⟨by decide +kernel, by norm_num⟩
    · have := (abs_le.1 h3).1
      have e := eps_small
      norm_num at q1 q2
      linarith
    · have a := p1.2.2
      have b := p2.2.2
      norm_num at a b ⊢
      linarith
  have ps : 0 < (add u v).val := lt_of_lt_of_le (by norm_num) hs.2.1
  have h4 : In (1 / 2 ^ 22) 4 (div one (add u v)) := by
    refine in_div one_finite.1 hs.1 ps.ne' ?_ ?_ ⟨by decide +kernel, by norm_num⟩ ⟨by decide +kernel, by norm_num⟩
    · rw [one_finite.2, le_div_iff₀ ps]; have := hs.2.2; norm_num at this ⊢; linarith
    · rw [one_finite.2, div_le_iff₀ ps]; have := hs.2.1; linarith
  generalize div one (add u v) = a2 at *
  have h5 : In 0 4 (F32.mul a2 r0) := in_mul h4.1 hr.1 (mul_nonneg (le_trans (by norm_num) h4.2.1) hr.2.1)
    (by nlinarith [h4.2.1, h4.2.2, hr.2.1, hr.2.2]) rep0 ⟨by decide +kernel, by norm_num⟩
  have h6 := sub_one_range hr
  have h7 : AtLeast 0 (div (F32.mul a2 r0) (sub one r0)) := by
    rcases eq_or_lt_of_le h6.2.1 with e | e
    · have e' := (sub_fin one_finite.1 hr.1 (by
        rw [one_finite.2]; exact fin1 (abs_le.2 ⟨by linarith [hr.2.2], by linarith [hr.2.1]⟩))).2
      rw [← e, one_finite.2] at e'
      have r12 : 1 / 2 ≤ r0.val := by
        by_contra hn
        have := rnd32_mono (show (2 : ℚ) ^ (-1 : ℤ) ≤ 1 - r0.val by norm_num at hn ⊢; linarith)
        rw [rnd32_pow _ (by norm_num), ← e'] at this
        norm_num at this
      have ez : sub one r0 = zero false := by
        obtain ⟨fr, r0', r1⟩ := hr
        have key : sub one r0 = F32.round false (1 - r0.val) := by
          cases r0 with
          | nan => exact fr.elim
          | inf s => exact fr.elim
          | zero s =>
            show F32.round _ (1 + -(0 : ℚ)) = F32.round false (1 - 0)
            cases s <;> norm_num <;> rfl
          | num x =>
            show F32.round _ (1 + -x) = F32.round false (1 - x)
            rw [← sub_eq_add_neg]; rfl
        rw [key]
        unfold F32.round
        split_ifs with g1 g2 g3
        · rfl
        · rw [decide_eq_false (by linarith)]
        · exact absurd e'.symm g2
        · exact absurd e'.symm g2
      have h5p : 0 < (F32.mul a2 r0).val := by
        have q : (2 : ℚ) ^ (-23 : ℤ) ≤ a2.val * r0.val := by
          have := h4.2.1
          norm_num at this ⊢
          nlinarith
        have q1 : a2.val * r0.val ≤ 4 := by nlinarith [h4.2.1, h4.2.2, hr.2.1, hr.2.2]
        have := in_mul h4.1 hr.1 q q1 (rep_pow (by norm_num) (by norm_num)) ⟨by decide +kernel, by norm_num⟩
        exact lt_of_lt_of_le (two_zpow_pos _) this.2.1
      left
      rw [ez]
      have f5 := h5.1
      generalize F32.mul a2 r0 = y at *
      cases y with
      | nan => exact f5.elim
      | inf s => exact f5.elim
      | zero s => exact absurd h5p (lt_irrefl _)
      | num x =>
        show inf (xor (decide (x < 0)) false) = inf false
        rw [decide_eq_false (not_lt.2 (show (0 : ℚ) ≤ x from le_of_lt h5p))]; rfl
    · exact div_atLeast h5.1 h6.1 h5.2.1 e
  have h8 := add_atLeast in_one h7 (by norm_num) ⟨by decide +kernel, by norm_num⟩
  rw [add_zero] at h8
  have hc := one_div_in (sqrt_atLeast_one h8)
  generalize div one (F32.sqrt (add one (div (F32.mul a2 r0) (sub one r0)))) = c at *
  obtain ⟨a1, a2, a3, a4, a5, -⟩ := C163_half hc (sine_in (hc.wide (by norm_num) le_rfl)) ⟨h1, h2, h3⟩ hw (sine_near hc)
  refine ⟨a1, a2, a3, ?_, a5⟩
  norm_num at a4 ⊢
  exact a4

/-- **C169, density of Beckmann.**  For every `expf` the density is a number that is not negative, for roughnesses of at least
1/1024 and cosines of at least `2^-20`. -/
theorem C169_beckmann_density_partial {exp : F32 → F32} (hp : ExpSpec exp) {a z : F32} (ha : Rough a) (hz : In (-1) 1 z)
    (h0 : 1 / 2 ^ 20 ≤ |z.val|) : In 0 (2 ^ 100) (beckmannD exp a z) := by
  have c2 : (1 : ℚ) / 2 ^ 40 ≤ z.val * z.val := by
    rw [← abs_mul_abs_self]
    calc (1 : ℚ) / 2 ^ 40 = 1 / 2 ^ 20 * (1 / 2 ^ 20) := by norm_num
      _ ≤ _ := mul_le_mul h0 h0 (by norm_num) (abs_nonneg _)
  have hc : In (1 / 2 ^ 40) 1 (F32.mul z z) := in_mul hz.1 hz.1 c2 (by nlinarith [hz.2.1, hz.2.2])
    ⟨by decide +kernel, by norm_num⟩ rep1
  have hs := sub_one_range (hc.wide (by norm_num) le_rfl)
  have h2 : In (1 / 2 ^ 20) 1 (F32.mul a a) := in_mul ha.1 ha.1 (by nlinarith [ha.2.1]) (by nlinarith [ha.2.1, ha.2.2])
    ⟨by decide +kernel, by norm_num⟩ rep1
  have hpi : In 3 4 onePi := by
    have : onePi = num (13176795 / 4194304) := by decide +kernel
    rw [this]; exact in_num (by norm_num) (by norm_num)
  unfold beckmannD
  simp only
  generalize F32.mul z z = c at *
  generalize F32.mul a a = t at *
  have pc : 0 < c.val := lt_of_lt_of_le (by norm_num) hc.2.1
  have pt : 0 < t.val := lt_of_lt_of_le (by norm_num) h2.2.1
  rw [eq_zip hc.1, if_neg (by simpa using pc.ne')]
  have hq : In 0 (2 ^ 40) (div (sub one c) c) := by
    refine in_div hs.1 hc.1 pc.ne' (div_nonneg hs.2.1 pc.le) ?_ rep0 ⟨by decide +kernel, by norm_num⟩
    rw [div_le_iff₀ pc]
    have := hc.2.1
    norm_num at this ⊢
    linarith [hs.2.2]
  have hn : In (-2 ^ 60) 0 (div (neg (div (sub one c) c)) t) := by
    obtain ⟨f, e⟩ := neg_finite hq.1
    refine in_div f h2.1 pt.ne' ?_ ?_ ⟨by decide +kernel, by norm_num⟩ rep0
    · rw [e, le_div_iff₀ pt]
      have a := hq.2.2
      have b := h2.2.1
      norm_num at a b ⊢
      linarith
    · rw [e, div_le_iff₀ pt]; linarith [hq.2.1]
  have he := hp.1 _ (Or.inr ⟨hn.1, hn.2.2⟩)
  generalize exp (div (neg (div (sub one c) c)) t) = x at *
  have k1 : In (1 / 2 ^ 40) 4 (F32.mul onePi c) := in_mul hpi.1 hc.1 (by nlinarith [hpi.2.1, hc.2.1])
    (by nlinarith [hpi.2.2, hc.2.2]) ⟨by decide +kernel, by norm_num⟩ ⟨by decide +kernel, by norm_num⟩
  have k2 : In (1 / 2 ^ 80) 4 (F32.mul (F32.mul onePi c) c) := in_mul k1.1 hc.1
    (calc (1 : ℚ) / 2 ^ 80 = 1 / 2 ^ 40 * (1 / 2 ^ 40) := by norm_num
      _ ≤ _ := mul_le_mul k1.2.1 hc.2.1 (by norm_num) (le_trans (by norm_num) k1.2.1))
    (by nlinarith [k1.2.2, hc.2.2]) ⟨by decide +kernel, by norm_num⟩ ⟨by decide +kernel, by norm_num⟩
  have k3 : In (1 / 2 ^ 100) 4 (F32.mul (F32.mul (F32.mul onePi c) c) t) := in_mul k2.1 h2.1
    (calc (1 : ℚ) / 2 ^ 100 = 1 / 2 ^ 80 * (1 / 2 ^ 20) := by norm_num
      _ ≤ _ := mul_le_mul k2.2.1 h2.2.1 (by norm_num) (le_trans (by norm_num) k2.2.1))
    (by nlinarith [k2.2.2, h2.2.2]) ⟨by decide +kernel, by norm_num⟩ ⟨by decide +kernel, by norm_num⟩
  generalize F32.mul (F32.mul (F32.mul onePi c) c) t = d at *
  have pd : 0 < d.val := lt_of_lt_of_le (by norm_num) k3.2.1
  have r100 : Rep (2 ^ 100) := ⟨by decide +kernel, by norm_num⟩
  have k4 : In 0 (2 ^ 100) (div x d) := by
    refine in_div he.1 k3.1 pd.ne' (div_nonneg he.2.1 pd.le) ?_ rep0 r100
    rw [div_le_iff₀ pd]
    have := mul_le_mul_of_nonneg_left k3.2.1 (show (0 : ℚ) ≤ 2 ^ 100 by norm_num)
    rw [mul_one_div_cancel (by norm_num)] at this
    linarith [he.2.2]
  exact in_mul k4.1 he.1 (mul_nonneg k4.2.1 he.2.1) ((mul_le_of_le_one_right k4.2.1 he.2.2).trans k4.2.2) rep0 r100

/-- **C169, violated.**  At the cosine `2^-40` the density of Beckmann is NaN (0/0) for every roughness of the code. -/
theorem C169_violated_beckmann {exp : F32 → F32} (hp : ExpSpec exp) :
    beckmannD exp (num (1 / 2)) (num (2 ^ (-40 : ℤ))) = nan := by
  have e1 : F32.mul (num (2 ^ (-40 : ℤ))) (num (2 ^ (-40 : ℤ))) = num (2 ^ (-80 : ℤ)) := by decide +kernel
  have e2 : F32.mul (num (1 / 2)) (num (1 / 2)) = num (1 / 4) := by decide +kernel
  have e3 : div (neg (div (sub one (num (2 ^ (-80 : ℤ)))) (num (2 ^ (-80 : ℤ))))) (num (1 / 4)) = num (-2 ^ 82) := by decide +kernel
  have e4 : F32.eq (num (2 ^ (-80 : ℤ))) zip = false := by decide +kernel
  have e5 : F32.mul (F32.mul (F32.mul onePi (num (2 ^ (-80 : ℤ)))) (num (2 ^ (-80 : ℤ)))) (num (1 / 4)) = zero false := by decide +kernel
  have e6 : exp (num (-2 ^ 82)) = zero false := hp.2 _ (Or.inr ⟨trivial, by norm_num [val]⟩)
  unfold beckmannD
  simp only [e1, e2, e3, e4, e5, e6]
  decide +kernel

/-! ### Anisotropic GGX -/

theorem mul_atLeast {a b : F32} (ha : AtLeast 0 a) (fb : b.Finite) (hb : 0 ≤ b.val) (h : a = inf false → 0 < b.val) :
    AtLeast 0 (F32.mul a b) := by
  rcases ha with rfl | ⟨fa, ha⟩
  · have := h rfl
    cases b with
    | nan => exact fb.elim
    | inf s => exact fb.elim
    | zero s => exact absurd this (lt_irrefl _)
    | num q =>
      left
      show (if (num q).isZero = true then nan else inf (xor false (decide (q < 0)))) = inf false
      rw [decide_eq_false (not_lt.2 (show (0 : ℚ) ≤ q from hb))]; rfl
  · obtain ⟨s, e⟩ : ∃ s, F32.mul a b = F32.round s (a.val * b.val) := by
      cases a <;> cases b <;> simp only [F32.Finite] at fa fb <;> exact ⟨_, rfl⟩
    rw [e]
    exact round_atLeast le_rfl rep0 (mul_nonneg ha hb)

/-- **C169, density of the anisotropic distribution.**  A number that is not negative for the roughnesses of the code and
cosines of at least `2^-26`. -/
theorem C169_aniso_density_partial {ax ay : F32} {h : V3 F32} (hx : Rough ax) (hy : Rough ay) (x : In (-1) 1 h.x)
    (y : In (-1) 1 h.y) (z : In (-1) 1 h.z) (h0 : 1 / 2 ^ 26 ≤ |h.z.val|) : In 0 (2 ^ 127) (anisoD ax ay h) := by
  have c2 : (1 : ℚ) / 2 ^ 52 ≤ h.z.val * h.z.val := by
    rw [← abs_mul_abs_self]
    calc (1 : ℚ) / 2 ^ 52 = 1 / 2 ^ 26 * (1 / 2 ^ 26) := by norm_num
      _ ≤ _ := mul_le_mul h0 h0 (by norm_num) (abs_nonneg _)
  have hc : In (1 / 2 ^ 52) 1 (F32.mul h.z h.z) := in_mul z.1 z.1 c2 (by nlinarith [z.2.1, z.2.2])
    ⟨by decide +kernel, by norm_num⟩ rep1
  have pc : 0 < (F32.mul h.z h.z).val := lt_of_lt_of_le (by norm_num) hc.2.1
  have nz : h.z.val ≠ 0 := by
    intro e; rw [e, abs_zero] at h0; norm_num at h0
  have inv : ∀ {a : F32}, Rough a → In 1 1024 (div one a) := fun {a} ha => by
    have p : 0 < a.val := lt_of_lt_of_le (by norm_num) ha.2.1
    refine in_div one_finite.1 ha.1 p.ne' ?_ ?_ rep1 ⟨by decide +kernel, by norm_num⟩
    · rw [one_finite.2, le_div_iff₀ p]; linarith [ha.2.2]
    · rw [one_finite.2, div_le_iff₀ p]; linarith [ha.2.1]
  have ix := inv hx
  have iy := inv hy
  have oc := mul_ok h.z h.z
  unfold anisoD
  simp only
  rw [eq_zip z.1, if_neg (by simpa using nz)]
  generalize F32.mul h.z h.z = c at *
  have hs : In 0 1 (fmax zip (sub one c)) := in_sin (hc.wide (by norm_num) (by norm_num))
  have hsub := sub_one_range (hc.wide (by norm_num) le_rfl)
  have os : (fmax zip (sub one c)).Ok := by
    unfold fmax; split_ifs
    · exact trivial
    · exact add_ok _ _
  have vs : (fmax zip (sub one c)).val ≠ 0 → 1 / 2 ^ 24 ≤ (fmax zip (sub one c)).val := by
    intro hne
    obtain ⟨-, vm⟩ := in_fmax hsub (by norm_num)
    rw [vm, max_eq_right hsub.2.1] at hne ⊢
    have c1 : c.val ≠ 1 := by
      intro e
      apply hne
      rw [(sub_fin one_finite.1 hc.1 (by rw [one_finite.2, e]; norm_num [rnd32_zero])).2, one_finite.2, e]
      norm_num [rnd32_zero]
    have g := r0_one oc (hc.wide (by norm_num) le_rfl) c1
    have := in_sub one_finite.1 hc.1 (lo := 1 / 2 ^ 24) (hi := 1) (by rw [one_finite.2]; exact g)
      (by rw [one_finite.2]; linarith) ⟨by decide +kernel, by norm_num⟩ rep1
    exact this.2.1
  generalize fmax zip (sub one c) = s at *
  rw [eq_zip hs.1]
  simp only [decide_eq_true_eq]
  split_ifs with s0
  · exact in_num (by norm_num) (by norm_num)
  have s1 := vs s0
  have ps : 0 < s.val := lt_of_lt_of_le (by norm_num) s1
  have hi : In 1 (2 ^ 52) (div one c) := by
    refine in_div one_finite.1 hc.1 pc.ne' ?_ ?_ rep1 ⟨by decide +kernel, by norm_num⟩
    · rw [one_finite.2, le_div_iff₀ pc]; linarith [hc.2.2]
    · rw [one_finite.2, div_le_iff₀ pc]; have := hc.2.1; norm_num at this ⊢; linarith
  have his : In 0 (2 ^ 24) (div one s) := by
    refine in_div one_finite.1 hs.1 ps.ne' ?_ ?_ rep0 ⟨by decide +kernel, by norm_num⟩
    · rw [one_finite.2]; exact div_nonneg zero_le_one ps.le
    · rw [one_finite.2, div_le_iff₀ ps]; norm_num at s1 ⊢; linarith
  have r1 : ∀ {k : ℤ}, -149 ≤ k → k < 128 → Rep (2 ^ k) := fun a b => rep_pow a b
  have mulp : ∀ {a b : F32} {i j : ℤ}, In 0 (2 ^ i) a → In 0 (2 ^ j) b → -149 ≤ i + j → i + j < 128 →
      In 0 (2 ^ (i + j)) (F32.mul a b) := fun {a b i j} ha hb h1 h2 =>
    in_mul ha.1 hb.1 (mul_nonneg ha.2.1 hb.2.1) (by
      rw [zpow_add₀ (by norm_num)]
      exact mul_le_mul ha.2.2 hb.2.2 hb.2.1 (two_zpow_pos _).le) rep0 (r1 h1 h2)
  have pix : In 0 (2 ^ (10 : ℤ)) (div one ax) := ix.wide (by norm_num) (by norm_num)
  have piy : In 0 (2 ^ (10 : ℤ)) (div one ay) := iy.wide (by norm_num) (by norm_num)
  have pi : In 0 (2 ^ (52 : ℤ)) (div one c) := hi.wide (by norm_num) (by norm_num)
  have pis : In 0 (2 ^ (24 : ℤ)) (div one s) := his.wide (by norm_num) (by norm_num)
  have pss : In 0 (2 ^ (0 : ℤ)) s := hs.wide le_rfl (by norm_num)
  have sx : In 0 (2 ^ (0 : ℤ)) (F32.mul h.x h.x) := (sq_in x).wide le_rfl (by norm_num)
  have sy : In 0 (2 ^ (0 : ℤ)) (F32.mul h.y h.y) := (sq_in y).wide le_rfl (by norm_num)
  have hpi : In 0 (2 ^ (0 : ℤ)) invPi := by
    have : invPi = num (10680707 / 33554432) := by decide +kernel
    rw [this]; exact in_num (by norm_num) (by norm_num)
  generalize div one ax = iax at *
  generalize div one ay = iay at *
  generalize div one c = ic at *
  generalize div one s = is at *
  have t2 := mulp pss pi (by norm_num) (by norm_num)
  have x2 := mulp (mulp (mulp sx pis (by norm_num) (by norm_num)) pix (by norm_num) (by norm_num)) pix (by norm_num) (by norm_num)
  have y2 := mulp (mulp (mulp sy pis (by norm_num) (by norm_num)) piy (by norm_num) (by norm_num)) piy (by norm_num) (by norm_num)
  generalize F32.mul (F32.mul (F32.mul (F32.mul h.x h.x) is) iax) iax = X at *
  generalize F32.mul (F32.mul (F32.mul (F32.mul h.y h.y) is) iay) iay = Y at *
  have xy : In 0 (2 ^ (45 : ℤ)) (add X Y) := in_add x2.1 y2.1 (add_nonneg x2.2.1 y2.2.1)
    (by
      have a := x2.2.2
      have b := y2.2.2
      norm_num at a b ⊢
      linarith) rep0 (r1 (by norm_num) (by norm_num))
  have q := mulp xy t2 (by norm_num) (by norm_num)
  have sq1 := add_atLeast in_one (Or.inr ⟨q.1, q.2.1⟩) (by norm_num) ⟨by decide +kernel, by norm_num⟩
  rw [add_zero] at sq1
  generalize add one (F32.mul (add X Y) (F32.mul s ic)) = S at *
  have sq2 : AtLeast 1 (F32.mul S S) := by
    rcases sq1 with rfl | ⟨f, g⟩
    · left; rfl
    · obtain ⟨b, e⟩ : ∃ b, F32.mul S S = F32.round b (S.val * S.val) := by
        cases S <;> simp only [F32.Finite] at f <;> exact ⟨_, rfl⟩
      rw [e]
      exact round_atLeast (by norm_num) rep1 (by nlinarith)
  have fin := one_div_in sq2
  have fin' : In 0 (2 ^ (0 : ℤ)) (div one (F32.mul S S)) := fin.wide le_rfl (by norm_num)
  have := mulp (mulp (mulp (mulp (mulp hpi pix (by norm_num) (by norm_num)) piy (by norm_num) (by norm_num)) pi (by norm_num)
    (by norm_num)) pi (by norm_num) (by norm_num)) fin' (by norm_num) (by norm_num)
  exact this.wide le_rfl (by norm_num)

/-- **C169, violated.**  At the cosine `2^-32` the density of the anisotropic distribution is NaN (infinity times zero). -/
theorem C169_violated_aniso : anisoD (num (1 / 2)) (num (1 / 4)) ⟨num 1, zero false, num (2 ^ (-32 : ℤ))⟩ = nan := by
  decide +kernel

theorem add_both {a b : F32} (ha : AtLeast 1 a) (hb : AtLeast 0 b) : AtLeast 1 (add a b) := by
  rcases hb with rfl | ⟨fb, hb⟩
  · left
    rcases ha with rfl | ⟨fa, ha⟩
    · rfl
    · cases a <;> simp only [F32.Finite] at fa <;> rfl
  · rcases ha with rfl | ⟨fa, ha⟩
    · left
      cases b <;> simp only [F32.Finite] at fb <;> rfl
    · obtain ⟨s, e⟩ : ∃ s, add a b = F32.round s (a.val + b.val) := by
        cases a <;> cases b <;> simp only [F32.Finite] at fa fb <;> exact ⟨_, rfl⟩
      rw [e]
      exact round_atLeast (by norm_num) rep1 (by linarith)

theorem mul_round {a b : F32} (fa : a.Finite) (fb : b.Finite) : ∃ s, F32.mul a b = F32.round s (a.val * b.val) := by
  cases a <;> cases b <;> simp only [F32.Finite] at fa fb <;> exact ⟨_, rfl⟩

/-- Twice the same factor: no NaN unless infinity meets zero in the first product. -/
theorem mul_twice {t b : F32} (ht : AtLeast 0 t) (fb : b.Finite) (hb : 0 ≤ b.val) (h : t = inf false → 0 < b.val) :
    AtLeast 0 (F32.mul (F32.mul t b) b) := by
  refine mul_atLeast (mul_atLeast ht fb hb h) fb hb fun e => ?_
  rcases ht with rfl | ⟨ft, -⟩
  · exact h rfl
  · rcases eq_or_lt_of_le hb with e0 | e0
    · obtain ⟨s, r⟩ := mul_round ft fb
      rw [r, ← e0, mul_zero] at e
      unfold F32.round at e
      rw [if_pos rfl] at e
      cases e
    · exact e0

theorem roughSq {x s a : F32} (hx : In (-1) 1 x) (hs : In (1 / 2 ^ 24) 1 s) (ha : Rough a) :
    In 0 (2 ^ 24) (F32.mul (F32.mul (div (F32.mul x x) s) a) a) ∧
    (1 / 8 ≤ x.val * x.val → 1 / 2 ^ 23 ≤ (F32.mul (F32.mul (div (F32.mul x x) s) a) a).val) := by
  have ps : 0 < s.val := lt_of_lt_of_le (by norm_num) hs.2.1
  have pa : 0 < a.val := lt_of_lt_of_le (by norm_num) ha.2.1
  have r24 : Rep (2 ^ 24) := ⟨by decide +kernel, by norm_num⟩
  have h1 := sq_in hx
  have h2 : In 0 (2 ^ 24) (div (F32.mul x x) s) := by
    refine in_div h1.1 hs.1 ps.ne' (div_nonneg h1.2.1 ps.le) ?_ rep0 r24
    rw [div_le_iff₀ ps]
    have := hs.2.1
    norm_num at this ⊢
    linarith [h1.2.2]
  have step : ∀ {y : F32}, In 0 (2 ^ 24) y → In 0 (2 ^ 24) (F32.mul y a) := fun {y} hy =>
    in_mul hy.1 ha.1 (mul_nonneg hy.2.1 pa.le) ((mul_le_of_le_one_right hy.2.1 ha.2.2).trans hy.2.2) rep0 r24
  refine ⟨step (step h2), fun h8 => ?_⟩
  have g1 : In (1 / 8) 1 (F32.mul x x) := in_mul hx.1 hx.1 h8 (by nlinarith [hx.2.1, hx.2.2])
    ⟨by decide +kernel, by norm_num⟩ rep1
  have g2 : In (1 / 8) (2 ^ 24) (div (F32.mul x x) s) := by
    refine in_div h1.1 hs.1 ps.ne' ?_ ?_ ⟨by decide +kernel, by norm_num⟩ r24
    · rw [le_div_iff₀ ps]; linarith [g1.2.1, hs.2.2]
    · rw [div_le_iff₀ ps]
      have := hs.2.1
      norm_num at this ⊢
      linarith [h1.2.2]
  have step' : ∀ {y : F32} {k : ℚ}, In k (2 ^ 24) y → 0 ≤ k → Rep (k / 1024) → In (k / 1024) (2 ^ 24) (F32.mul y a) :=
    fun {y k} hy hk rk => in_mul hy.1 ha.1 (by
      rw [div_eq_mul_one_div]
      exact mul_le_mul hy.2.1 ha.2.1 (by norm_num) (hk.trans hy.2.1))
      ((mul_le_of_le_one_right (hk.trans hy.2.1) ha.2.2).trans hy.2.2) rk r24
  have := step' (step' g2 (by norm_num) ⟨by decide +kernel, by norm_num⟩) (by norm_num) ⟨by decide +kernel, by norm_num⟩
  exact le_trans (by norm_num) this.2.1

theorem lambda_in {ax ay : F32} {v : V3 F32} (hx : Rough ax) (hy : Rough ay) (x : In (-1) 1 v.x) (y : In (-1) 1 v.y)
    (oz : v.z.Ok) (z : In (-1) 1 v.z) (h : 1 / 2 ≤ v.x.val ^ 2 + v.y.val ^ 2 + v.z.val ^ 2) :
    AtLeast 0 (lambda v ax ay) := by
  have hs := sine_in z
  have z1 : |v.z.val| ≤ 1 := abs_le.2 ⟨z.2.1, z.2.2⟩
  unfold lambda
  simp only
  split_ifs with g1 g2
  · exact Or.inr ⟨trivial, le_rfl⟩
  · exact Or.inr ⟨trivial, show (0 : ℚ) ≤ 1 by norm_num⟩
  · -- the cosine is neither zero nor one
    have lt1 : |v.z.val| < 1 := by
      refine lt_of_le_of_ne z1 fun e => g2 ?_
      have e2 : v.z.val * v.z.val = 1 := by rw [← abs_mul_abs_self, e]; norm_num
      have m1 := in_mul z.1 z.1 e2.ge e2.le rep1 rep1
      have m2 : In 0 0 (sub one (F32.mul v.z v.z)) := in_sub one_finite.1 m1.1
        (by rw [one_finite.2]; linarith [m1.2.2]) (by rw [one_finite.2]; linarith [m1.2.1]) rep0 rep0
      have m3 := in_fmax (show In 0 1 _ from ⟨m2.1, m2.2.1, m2.2.2.trans zero_le_one⟩) (by norm_num)
      have m4 : (fmax zip (sub one (F32.mul v.z v.z))).val = 0 := by
        rw [m3.2, le_antisymm m2.2.2 m2.2.1, max_self]
      obtain ⟨f, -, -, e0⟩ := sqrt_finite m3.1.1 m4.ge
      have s0 : (sine v.z).val = 0 := e0 m4
      have nz : v.z.val ≠ 0 := by intro h0; rw [h0] at e; norm_num at e
      have := in_div hs.1 z.1 nz (lo := 0) (hi := 0) (by rw [s0, zero_div]) (by rw [s0, zero_div]) rep0 rep0
      obtain ⟨fa, va⟩ := abs_finite this.1
      rw [eq_zip fa, va, le_antisymm this.2.2 this.2.1]
      norm_num
    have sp := sine_pos oz z lt1
    have s2 : In (1 / 2 ^ 24) 1 (F32.mul (sine v.z) (sine v.z)) := in_mul hs.1 hs.1
      (calc (1 : ℚ) / 2 ^ 24 = 1 / 2 ^ 12 * (1 / 2 ^ 12) := by norm_num
        _ ≤ _ := mul_le_mul sp sp (by norm_num) hs.2.1) (mul_le_one₀ hs.2.2 hs.2.1 hs.2.2)
      ⟨by decide +kernel, by norm_num⟩ rep1
    have nz : v.z.val ≠ 0 := by
      intro e
      apply g1
      have sq : (sine v.z).val ≠ 0 := by intro e; rw [e] at sp; norm_num at sp
      generalize sine v.z = w at *
      have f1 := hs.1
      have f2 := z.1
      generalize v.z = c at *
      cases w with
      | nan => exact f1.elim
      | inf s => exact f1.elim
      | zero s => exact absurd rfl sq
      | num q =>
        cases c with
        | nan => exact f2.elim
        | inf s => exact f2.elim
        | zero s => rfl
        | num r =>
          have : r = 0 := e
          exact absurd this oz.1
    have ht : (F32.abs (div (sine v.z) v.z)).Finite ∧ 0 ≤ (F32.abs (div (sine v.z) v.z)).val ∧
        (1 / 2 ≤ |v.z.val| → (F32.abs (div (sine v.z) v.z)).val ≤ 2) := by
      have nn := div_ne_nan hs.1 z.1 nz
      have fd : (div (sine v.z) v.z).Finite := by
        generalize div (sine v.z) v.z = d at *
        cases d with
        | nan => exact absurd rfl nn
        | inf s => exact absurd rfl g1
        | zero s => trivial
        | num q => trivial
      obtain ⟨fa, va⟩ := abs_finite fd
      refine ⟨fa, by rw [va]; exact abs_nonneg _, fun h2 => ?_⟩
      have q : |(sine v.z).val / v.z.val| ≤ 2 := by
        rw [abs_div, abs_of_nonneg hs.2.1, div_le_iff₀ (abs_pos.2 nz)]
        linarith [hs.2.2]
      have := in_div hs.1 z.1 nz (abs_le.1 q).1 (abs_le.1 q).2 ⟨by decide +kernel, by norm_num⟩
        ⟨by decide +kernel, by norm_num⟩
      rw [va]
      exact abs_le.2 ⟨this.2.1, this.2.2⟩
    generalize F32.abs (div (sine v.z) v.z) = t at *
    obtain ⟨ft, pt, t2⟩ := ht
    have a1 := roughSq x s2 hx
    have a2 := roughSq y s2 hy
    generalize F32.mul (F32.mul (div (F32.mul v.x v.x) (F32.mul (sine v.z) (sine v.z))) ax) ax = X at *
    generalize F32.mul (F32.mul (div (F32.mul v.y v.y) (F32.mul (sine v.z) (sine v.z))) ay) ay = Y at *
    have hA : In 0 (2 ^ 25) (add X Y) := in_add a1.1.1 a2.1.1 (add_nonneg a1.1.2.1 a2.1.2.1)
      (by
        have p := a1.1.2.2
        have q := a2.1.2.2
        norm_num at p q ⊢
        linarith) rep0 ⟨by decide +kernel, by norm_num⟩
    have hApos : |v.z.val| < 1 / 2 → 1 / 2 ^ 23 ≤ (add X Y).val := by
      intro hz
      have zz : v.z.val ^ 2 < 1 / 4 := by
        rw [← sq_abs]; nlinarith [abs_nonneg v.z.val]
      have low : 1 / 2 ^ 23 ≤ X.val + Y.val := by
        by_cases c : 1 / 8 ≤ v.x.val * v.x.val
        · exact le_trans (a1.2 c) (by linarith [a2.1.2.1])
        · exact le_trans (a2.2 (by nlinarith)) (by linarith [a1.1.2.1])
      have : In (1 / 2 ^ 23) (2 ^ 25) (add X Y) := in_add a1.1.1 a2.1.1 low
        (by
          have p := a1.1.2.2
          have q := a2.1.2.2
          norm_num at p q ⊢
          linarith) ⟨by decide +kernel, by norm_num⟩ ⟨by decide +kernel, by norm_num⟩
      exact this.2.1
    generalize add X Y = A at *
    obtain ⟨fA, nA, eA, -⟩ := sqrt_finite hA.1 hA.2.1
    have pA : |v.z.val| < 1 / 2 → 0 < (F32.sqrt A).val := by
      intro hz
      have := hApos hz
      have p : 0 < A.val := lt_of_lt_of_le (by norm_num) this
      rw [eA p]
      exact lt_of_lt_of_le (two_zpow_pos _) (le_sqrt32 p (k := -12) (le_trans (by norm_num) this))
    generalize F32.sqrt A = al at *
    have tt : AtLeast 0 (F32.mul t t) := by
      obtain ⟨s, e⟩ := mul_round ft ft
      rw [e]
      exact round_atLeast le_rfl rep0 (mul_self_nonneg _)
    have tinf : F32.mul t t = inf false → 0 < al.val := by
      intro e
      apply pA
      by_contra hn
      have := t2 (not_lt.1 hn)
      have := in_mul ft ft (mul_self_nonneg _) (show t.val * t.val ≤ 4 by nlinarith) rep0 ⟨by decide +kernel, by norm_num⟩
      rw [e] at this
      exact this.1.elim
    have m := mul_twice tt fA nA tinf
    have p1 := add_atLeast in_one m (by norm_num) (by rw [add_zero]; exact rep1)
    rw [add_zero] at p1
    have p2 := sqrt_atLeast_one p1
    have p3 := add_atLeast (show In (-1) (-1) (num (-1)) from ⟨trivial, le_rfl, le_rfl⟩) p2 (by norm_num)
      (by rw [neg_add_cancel]; exact rep0)
    rw [neg_add_cancel] at p3
    exact mul_atLeast p3 trivial (show (0 : ℚ) ≤ 1 / 2 by norm_num) fun _ => show (0 : ℚ) < 1 / 2 by norm_num

/-- **C169, shadowing of the anisotropic distribution.**  The shadowing factor is in [0, 1] for the roughnesses of the code and
all directions of about unit length, also for those along the surface. -/
theorem C169_aniso_visible {ax ay : F32} {wo wi : V3 F32} (hx : Rough ax) (hy : Rough ay)
    (ox : In (-1) 1 wo.x) (oy : In (-1) 1 wo.y) (ok : wo.z.Ok) (oz : In (-1) 1 wo.z)
    (ho : 1 / 2 ≤ wo.x.val ^ 2 + wo.y.val ^ 2 + wo.z.val ^ 2)
    (ix : In (-1) 1 wi.x) (iy : In (-1) 1 wi.y) (ik : wi.z.Ok) (iz : In (-1) 1 wi.z)
    (hi : 1 / 2 ≤ wi.x.val ^ 2 + wi.y.val ^ 2 + wi.z.val ^ 2) : In 0 1 (anisoG ax ay wo wi) := by
  have l1 := lambda_in hx hy ox oy ok oz ho
  have l2 := lambda_in hx hy ix iy ik iz hi
  exact one_div_in (add_both (add_both (Or.inr ⟨in_one.1, in_one.2.1⟩) l1) l2)

/-! ### The exponent of Blinn -/

/-- **C169, exponent of Blinn.**  For every roughness in [0, 1] the exponent is in [0, 100000], also for those whose square
underflows to zero. -/
theorem C169_blinn_exponent {r : F32} (h : In 0 1 r) : In 0 100000 (blinnExponent r) := by
  have hs : In 0 1 (F32.mul r r) := sq_in (h.wide (by norm_num) le_rfl)
  have hd : AtLeast 2 (div two (F32.mul r r)) := by
    rcases eq_or_lt_of_le hs.2.1 with e | e
    · left
      have ez : F32.mul r r = zero false := by
        have f := h.1
        cases r with
        | nan => exact f.elim
        | inf s => exact f.elim
        | zero s => cases s <;> decide +kernel
        | num q =>
          have e' : F32.mul (num q) (num q) = F32.round false (q * q) := by
            show F32.round (xor (decide (q < 0)) (decide (q < 0))) (q * q) = _
            rw [Bool.xor_self]
          rw [e'] at e ⊢
          unfold F32.round at e ⊢
          split_ifs at e ⊢ with h2 h3 h4
          · rfl
          · rw [decide_eq_false (not_lt.2 (mul_self_nonneg q))]
          · exfalso
            have hq : |q * q| ≤ 1 := by
              rw [abs_mul_self]
              have h0 : (0 : ℚ) ≤ q := h.2.1
              have h1 : q ≤ (1 : ℚ) := h.2.2
              nlinarith
            exact absurd h4 (not_le.2 (fin1 hq))
          · exact absurd e.symm h3
      rw [ez]; rfl
    · obtain ⟨s, e'⟩ := round_div two_finite.1 hs.1 e.ne'
      rw [e']
      refine round_atLeast (by norm_num) ⟨by decide +kernel, by norm_num⟩ ?_
      rw [two_finite.2, le_div_iff₀ e]
      linarith [hs.2.2]
  unfold blinnExponent
  generalize div two (F32.mul r r) = d at *
  have hx : AtLeast 0 (sub d two) := by
    rcases hd with rfl | ⟨f, hd⟩
    · left; rfl
    · obtain ⟨s, e⟩ : ∃ s, sub d two = F32.round s (d.val - 2) := by
        cases d with
        | nan => exact f.elim
        | inf s => exact f.elim
        | zero s => exact ⟨_, by show F32.round _ (0 + -(2 : ℚ)) = F32.round _ (0 - 2); rw [sub_eq_add_neg]⟩
        | num q => exact ⟨_, by show F32.round _ (q + -(2 : ℚ)) = F32.round _ (q - 2); rw [sub_eq_add_neg]⟩
      rw [e]
      exact round_atLeast le_rfl rep0 (by linarith)
  generalize sub d two = x at *
  have i2 : (num 100000).val = 100000 := rfl
  rcases hx with rfl | ⟨f, hx⟩
  · exact ⟨trivial, by show (0 : ℚ) ≤ 100000; norm_num, le_rfl⟩
  · unfold clamp
    rw [lt_finite f (show zip.Finite from trivial), lt_finite (show (num 100000).Finite from trivial) f, i2]
    simp only [decide_eq_true_eq]
    split_ifs with h1 h2
    · exact ⟨trivial, le_rfl, show (0 : ℚ) ≤ 100000 by norm_num⟩
    · exact ⟨trivial, show (0 : ℚ) ≤ 100000 by norm_num, le_rfl⟩
    · exact ⟨f, hx, not_lt.1 h2⟩

example : In 0 1 (num (1 / 4)) ∧ blinnExponent (num (1 / 4)) = num 30 :=
  ⟨in_num (by norm_num) (by norm_num), by decide +kernel⟩

/-! ### Directions along the surface -/

theorem sine_zero : sine (zero false) = num 1 := by
  have e : fmax zip (sub one (F32.mul (zero false) (zero false))) = num 1 := by decide +kernel
  unfold sine
  rw [e]
  obtain ⟨f, -, e1, -⟩ := sqrt_finite (show (num 1).Finite from trivial) (show (0 : ℚ) ≤ 1 by norm_num)
  have h1 := in_sqrt (show In 0 1 (num 1) from in_num (by norm_num) le_rfl)
  have h2 := le_sqrt32 (show (0 : ℚ) < 1 by norm_num) (k := 0) (by norm_num)
  rw [← show (F32.sqrt (num 1)).val = sqrt32 1 from e1 (show (0 : ℚ) < 1 by norm_num)] at h2
  generalize F32.sqrt (num 1) = y at *
  cases y with
  | nan => exact f.elim
  | inf s => exact f.elim
  | zero s =>
    have h3 : (2 : ℚ) ^ (0 : ℤ) ≤ 0 := h2
    norm_num at h3
  | num q =>
    have a : q ≤ 1 := h1.2.2
    have b : (2 : ℚ) ^ (0 : ℤ) ≤ q := h2
    rw [zpow_zero] at b
    rw [le_antisymm a b]

/-- **C169, violated.**  With both directions along the surface and opposite, the factor of Oren-Nayar is NaN, whatever the
roughness: the tangent is infinite and the cosine of the azimuths zero. -/
theorem C169_violated_oren {r : F32} (h : In 0 1 r) :
    orenFactor (orenA (sigma r)) (orenB (sigma r)) ⟨num 1, zero false, zero false⟩ ⟨num (-1), zero false, zero false⟩ = nan := by
  obtain ⟨-, hB⟩ := C169_oren_constants h
  generalize orenB (sigma r) = B at *
  generalize orenA (sigma r) = A
  have m0 : maxCos (num (-1)) (num 1) (num 1) (num 1) = zero false := by decide +kernel
  unfold orenFactor
  simp only [sine_zero, m0]
  have e1 : (lt zip (num 1) && lt zip (num 1)) = true := by decide +kernel
  have e2 : lt (F32.abs (zero false)) (F32.abs (zero false)) = false := by decide +kernel
  have e3 : div (num 1) (F32.abs (zero false)) = inf false := by decide +kernel
  rw [if_pos e1]
  simp only [e2, e3]
  obtain ⟨s, e⟩ := mul_round hB.1 (show (zero false).Finite from trivial)
  have e' : F32.mul B (zero false) = zero s := by
    rw [e, show (zero false).val = 0 from rfl, mul_zero]; rfl
  rw [e']
  have : F32.mul (F32.mul (zero s) (num 1)) (inf false) = nan := by cases s <;> decide +kernel
  simp only [Bool.false_eq_true, if_false, this]
  cases A <;> rfl

/-- The fit of Blinn and Beckmann exceeds one just below its limit 1.6. -/
theorem C169_fit_above_one : lt one (fit (num 1.59375)) = true := by decide +kernel

/-! ### Full statement -/

/-- Oren-Nayar has a value for all directions. -/
def C169_oren_statement : Prop := ∀ (r : F32) (wo wi : V3 F32), In 0 1 r → In (-1) 1 wo.x → In (-1) 1 wo.y → In (-1) 1 wo.z →
  In (-1) 1 wi.x → In (-1) 1 wi.y → In (-1) 1 wi.z → (orenFactor (orenA (sigma r)) (orenB (sigma r)) wo wi).Finite

/-- Beckmann has a density for all directions. -/
def C169_beckmann_statement (exp : F32 → F32) : Prop := ∀ a z : F32, Rough a → In (-1) 1 z → (beckmannD exp a z).Finite

/-- The anisotropic distribution has a density for all directions. -/
def C169_aniso_statement : Prop := ∀ (ax ay : F32) (h : V3 F32), Rough ax → Rough ay → In (-1) 1 h.x → In (-1) 1 h.y →
  In (-1) 1 h.z → (anisoD ax ay h).Finite

/-- **C169, violated.**  None of the three has. -/
theorem C169_violated_statement : ¬ C169_oren_statement ∧ (∀ exp, ExpSpec exp → ¬ C169_beckmann_statement exp) ∧
    ¬ C169_aniso_statement := by
  have i1 : In (-1) 1 (num 1) := in_num (by norm_num) le_rfl
  have i2 : In (-1) 1 (num (-1)) := in_num le_rfl (by norm_num)
  have i0 : In (-1) 1 (zero false) := ⟨trivial, show (-1 : ℚ) ≤ 0 by norm_num, show (0 : ℚ) ≤ 1 by norm_num⟩
  refine ⟨fun h => ?_, fun exp he h => ?_, fun h => ?_⟩
  · have i : In 0 1 (num (1 / 2)) := in_num (by norm_num) (by norm_num)
    have := h (num (1 / 2)) ⟨num 1, zero false, zero false⟩ ⟨num (-1), zero false, zero false⟩ i i1 i0 i0 i2 i0 i0
    rw [C169_violated_oren i] at this
    exact this
  · have := h (num (1 / 2)) (num (2 ^ (-40 : ℤ))) (in_num (by norm_num) (by norm_num)) (in_num (by norm_num) (by norm_num))
    rw [C169_violated_beckmann he] at this
    exact this
  · have := h (num (1 / 2)) (num (1 / 4)) ⟨num 1, zero false, num (2 ^ (-32 : ℤ))⟩ (in_num (by norm_num) (by norm_num))
      (in_num (by norm_num) (by norm_num)) i1 i0 (in_num (by norm_num) (by norm_num))
    rw [C169_violated_aniso] at this
    exact this

/-! ### The hypotheses are met -/

/-- A crude `powf` and `expf` of the specs. -/
example : PowSpec (fun b _ => b) ∧ ExpSpec (fun x => if ge x zip then one else zero false) := by
  refine ⟨fun b e h _ _ => h, fun x h => ?_, fun x h => ?_⟩
  · dsimp only
    split_ifs
    · exact in_num (by norm_num) le_rfl
    · exact ⟨trivial, le_rfl, show (0 : ℚ) ≤ 1 by norm_num⟩
  · dsimp only
    rw [if_neg]
    rcases h with rfl | ⟨f, h⟩
    · decide
    · rw [ge_finite f (show zip.Finite from trivial)]
      simp only [decide_eq_true_eq, not_le]
      exact lt_of_le_of_lt h (show (-200 : ℚ) < 0 by norm_num)

/-- Directions and roughnesses of the theorems: the direction (3/5, 0, 4/5), rounded. -/
example : Rough (num (1 / 2)) ∧ In (-1) 1 (num 0.6) ∧ In (-1) 1 (num 0.8) ∧
    (1 : ℚ) / 2 ≤ (num (5033165 / 8388608)).val ^ 2 + (zero false).val ^ 2 + (num (6710886 / 8388608)).val ^ 2 ∧
    (num (6710886 / 8388608)).Ok ∧ (1 : ℚ) / 2 ^ 20 ≤ |(num (6710886 / 8388608)).val| := by
  refine ⟨in_num (by norm_num) (by norm_num), in_num (by norm_num) (by norm_num), in_num (by norm_num) (by norm_num),
    by norm_num [val], ⟨by norm_num, by decide +kernel, by norm_num⟩, by norm_num [val]⟩

/-- A density that is neither zero nor one. -/
example : anisoD (num (1 / 2)) (num (1 / 4)) ⟨num (1 / 2), num (1 / 2), num (1 / 2)⟩ ≠ zip ∧
    lt (anisoD (num (1 / 2)) (num (1 / 4)) ⟨num (1 / 2), num (1 / 2), num (1 / 2)⟩) one = true := by decide +kernel

/-- Roughness one half, hence 50 degrees taken for radians: `A` is close to one half. -/
example : In 0 1 (num (1 / 2)) ∧ sigma (num (1 / 2)) = num 50 ∧ lt (orenA (num 50)) (num 0.50390625) = true := by
  refine ⟨in_num (by norm_num) (by norm_num), by decide +kernel, by decide +kernel⟩

end Spectre.FRough
