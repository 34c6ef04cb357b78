import Verif.Model.FloatFrame
import Verif.Props.FloatInverse
import Verif.Props.Normalize

/-
Property C170: the frames of hit points and of the camera in binary32.
-/

namespace Spectre.FFrame

open Spectre.Geom Spectre.FTri Spectre.Normalize F32

/-! ### Spec -/

/-- A finite vector whose length is one up to what `normalize` leaves: `1.1·10⁻⁵` in the square. -/
def Unit (v : V3 F32) : Prop := FiniteVec v ∧ |exactLen2 v - 1| ≤ 11 / 10 ^ 6

/-- The exact inner product of two vectors of binary32 numbers. -/
def exactDot (a b : V3 F32) : ℚ := a.x.val * b.x.val + a.y.val * b.y.val + a.z.val * b.z.val

/-- The exact triple product `(a × b) · c`. -/
def exactTriple (a b c : V3 F32) : ℚ :=
  (a.y.val * b.z.val - a.z.val * b.y.val) * c.x.val + (a.z.val * b.x.val - a.x.val * b.z.val) * c.y.val +
    (a.x.val * b.y.val - a.y.val * b.x.val) * c.z.val

/-- The coordinates of two vectors differ by at most `e`. -/
def Close (e : ℚ) (a b : V3 F32) : Prop :=
  |a.x.val - b.x.val| ≤ e ∧ |a.y.val - b.y.val| ≤ e ∧ |a.z.val - b.z.val| ≤ e

/-! ### Exact vectors -/

/-- No coordinate is larger than `e`. -/
def Cl (e : ℚ) (a : V3 ℚ) : Prop := |a.x| ≤ e ∧ |a.y| ≤ e ∧ |a.z| ≤ e

theorem cs3 (a b : V3 ℚ) : qdot a b ^ 2 ≤ qdot a a * qdot b b := by
  have e : qdot a a * qdot b b - qdot a b ^ 2 =
      (a.x * b.y - a.y * b.x) ^ 2 + (a.x * b.z - a.z * b.x) ^ 2 + (a.y * b.z - a.z * b.y) ^ 2 := by
    unfold qdot; ring
  have : 0 ≤ (a.x * b.y - a.y * b.x) ^ 2 + (a.x * b.z - a.z * b.x) ^ 2 + (a.y * b.z - a.z * b.y) ^ 2 := by positivity
  linarith

theorem qdot_nonneg (a : V3 ℚ) : 0 ≤ qdot a a := by
  unfold qdot
  have := mul_self_nonneg a.x
  have := mul_self_nonneg a.y
  have := mul_self_nonneg a.z
  linarith

theorem qdot_le {a b : V3 ℚ} {A B : ℚ} (hA : 0 ≤ A) (hB : 0 ≤ B) (ha : qdot a a ≤ A ^ 2) (hb : qdot b b ≤ B ^ 2) :
    |qdot a b| ≤ A * B := by
  refine abs_le_of_sq_le_sq ?_ (mul_nonneg hA hB)
  have := mul_le_mul ha hb (qdot_nonneg b) (sq_nonneg A)
  have h := cs3 a b
  rw [mul_pow]
  linarith

theorem cl_len {a : V3 ℚ} {e : ℚ} (h : Cl e a) : qdot a a ≤ (17321 / 10000 * e) ^ 2 := by
  obtain ⟨x, y, z⟩ := h
  have sq : ∀ q : ℚ, |q| ≤ e → q * q ≤ e * e := fun q h => by
    have := mul_le_mul h h (abs_nonneg q) ((abs_nonneg q).trans h)
    rwa [abs_mul_abs_self] at this
  have h1 := sq _ x
  have h2 := sq _ y
  have h3 := sq _ z
  have h4 := mul_self_nonneg e
  have : (17321 / 10000 * e) ^ 2 = (17321 / 10000) ^ 2 * (e * e) := by ring
  unfold qdot
  rw [this]
  linarith

theorem len_cl {a : V3 ℚ} {e : ℚ} (h0 : 0 ≤ e) (h : qdot a a ≤ e ^ 2) : Cl e a := by
  have e1 : qdot a a = a.x ^ 2 + a.y ^ 2 + a.z ^ 2 := by unfold qdot; ring
  have hx := sq_nonneg a.x
  have hy := sq_nonneg a.y
  have hz := sq_nonneg a.z
  exact ⟨abs_le_of_sq_le_sq (by linarith) h0, abs_le_of_sq_le_sq (by linarith) h0, abs_le_of_sq_le_sq (by linarith) h0⟩

/-- The sum of the sizes of the products. -/
theorem abs_sum_le (a b : V3 ℚ) {A B : ℚ} (hA : 0 ≤ A) (hB : 0 ≤ B) (ha : qdot a a ≤ A ^ 2) (hb : qdot b b ≤ B ^ 2) :
    |a.x * b.x| + |a.y * b.y| + |a.z * b.z| ≤ A * B := by
  have h := qdot_le (a := ⟨|a.x|, |a.y|, |a.z|⟩) (b := ⟨|b.x|, |b.y|, |b.z|⟩) hA hB
    (by unfold qdot at *; simpa only [abs_mul_abs_self] using ha) (by unfold qdot at *; simpa only [abs_mul_abs_self] using hb)
  have := le_trans (le_abs_self _) h
  simp only [qdot, ← abs_mul] at this
  exact this

theorem len2_eq (v : V3 F32) : exactLen2 v = qdot (ev v) (ev v) := by unfold exactLen2 qdot ev; ring

theorem Unit.len {v : V3 F32} (h : Unit v) : |qdot (ev v) (ev v) - 1| ≤ 11 / 10 ^ 6 := len2_eq v ▸ h.2

theorem Unit.le {v : V3 F32} (h : Unit v) : qdot (ev v) (ev v) ≤ (1 + 6 / 10 ^ 6) ^ 2 := by
  have := abs_le.1 h.len
  norm_num at this ⊢
  linarith [this.2]

theorem Unit.cl {v : V3 F32} (h : Unit v) : Cl (1 + 6 / 10 ^ 6) (ev v) := len_cl (by norm_num) h.le

theorem Unit.upto {v : V3 F32} (h : Unit v) : FPlace.Upto3 1 v := by
  obtain ⟨x, y, z⟩ := h.cl
  have l : (1 + 6 / 10 ^ 6 : ℚ) ≤ 2 ^ (1 : ℤ) := by norm_num
  exact ⟨⟨h.1.1.2, x.trans l⟩, ⟨h.1.2.1.2, y.trans l⟩, ⟨h.1.2.2.2, z.trans l⟩⟩

theorem fin3_ok {x y z : F32} (hx : x.Ok ∧ x.Finite) (hy : y.Ok ∧ y.Finite) (hz : z.Ok ∧ z.Finite) :
    FiniteVec ⟨x, y, z⟩ := ⟨hx, hy, hz⟩

/-! ### The normalised cross product -/

theorem mul_sub_err {a b c d : F32} (ha : FPlace.Upto 1 a) (hb : FPlace.Upto 1 b) (hc : FPlace.Upto 1 c) (hd : FPlace.Upto 1 d)
    (h : |a.val * b.val| + |c.val * d.val| ≤ 1 + 1 / 1000) :
    (F32.sub (F32.mul a b) (F32.mul c d)).Finite ∧
    |(F32.sub (F32.mul a b) (F32.mul c d)).val - (a.val * b.val - c.val * d.val)| ≤ 22 / 10 / 2 ^ 24 := by
  have p1 := FPlace.ae_mul (k' := 1 / 2 ^ 24) (t' := 2 ^ (-150 : ℤ)) (FPlace.ae_self ha) hb le_rfl (by norm_num) (by norm_num)
    (by norm_num) (by norm_num) (by norm_num)
  have p2 := FPlace.ae_mul (k' := 1 / 2 ^ 24) (t' := 2 ^ (-150 : ℤ)) (FPlace.ae_self hc) hd le_rfl (by norm_num) (by norm_num)
    (by norm_num) (by norm_num) (by norm_num)
  have s := FPlace.ae_sub (k' := 21 / 10 / 2 ^ 24) (t' := 2 ^ (-148 : ℤ)) p1 p2 (by norm_num) (by norm_num)
    (by norm_num) (by norm_num) (by norm_num)
  refine ⟨s.1, s.2.1.trans ?_⟩
  rw [← abs_mul, ← abs_mul]
  have t : (2 : ℚ) ^ (-148 : ℤ) ≤ 1 / 2 ^ 40 := by norm_num
  norm_num at h t ⊢
  linarith

theorem ok_sub (a b : F32) : (F32.sub a b).Ok := add_ok _ _

theorem cross_err {a b : V3 F32} (ha : Unit a) (hb : Unit b) :
    FiniteVec (cross a b) ∧ ∃ E : V3 ℚ, Cl (22 / 10 / 2 ^ 24) E ∧
      (cross a b).x.val = (qcross (ev a) (ev b)).x + E.x ∧ (cross a b).y.val = (qcross (ev a) (ev b)).y + E.y ∧
      (cross a b).z.val = (qcross (ev a) (ev b)).z + E.z := by
  obtain ⟨ax, ay, az⟩ := ha.upto
  obtain ⟨bx, b_y, bz⟩ := hb.upto
  have S : ∀ p q r s : ℚ, p * p + r * r ≤ (1 + 6 / 10 ^ 6) ^ 2 → q * q + s * s ≤ (1 + 6 / 10 ^ 6) ^ 2 →
      |p * q| + |r * s| ≤ 1 + 1 / 1000 := fun p q r s h1 h2 => by
    have := abs_sum_le (A := 1 + 6 / 10 ^ 6) (B := 1 + 6 / 10 ^ 6) ⟨p, r, 0⟩ ⟨q, s, 0⟩ (by norm_num) (by norm_num) (by simpa [qdot] using h1) (by simpa [qdot] using h2)
    simp only [mul_zero, abs_zero, add_zero] at this
    norm_num at this ⊢
    linarith
  have la := ha.le
  have lb := hb.le
  simp only [qdot, ev] at la lb
  have nx := mul_self_nonneg a.x.val
  have ny := mul_self_nonneg a.y.val
  have nz := mul_self_nonneg a.z.val
  have mx := mul_self_nonneg b.x.val
  have my := mul_self_nonneg b.y.val
  have mz := mul_self_nonneg b.z.val
  have x := mul_sub_err ay bz az b_y (S _ _ _ _ (by linarith) (by linarith))
  have y := mul_sub_err az bx ax bz (S _ _ _ _ (by linarith) (by linarith))
  have z := mul_sub_err ax b_y ay bx (S _ _ _ _ (by linarith) (by linarith))
  refine ⟨⟨⟨ok_sub _ _, x.1⟩, ⟨ok_sub _ _, y.1⟩, ⟨ok_sub _ _, z.1⟩⟩,
    ⟨(cross a b).x.val - (qcross (ev a) (ev b)).x, (cross a b).y.val - (qcross (ev a) (ev b)).y,
      (cross a b).z.val - (qcross (ev a) (ev b)).z⟩, ⟨x.2, y.2, z.2⟩, ?_, ?_, ?_⟩ <;> ring

/-! ### Normalising a vector that is known up to an error -/

theorem scaled_part {c w r : ℚ} (h : |r - c * w| ≤ |c * w| / 2 ^ 24 + 2 ^ (-150 : ℤ)) : |c * w| ≤ 10001 / 10000 * |r| + 1 / 10 ^ 6 := by
  have := abs_sub_abs_le_abs_sub (c * w) r
  rw [abs_sub_comm] at h
  have t : (2 : ℚ) ^ (-150 : ℤ) ≤ 1 / 2 ^ 40 := by norm_num
  generalize |c * w| = a at *
  have r0 := abs_nonneg r
  generalize |r| = b at *
  norm_num at h t this ⊢
  linarith

theorem sq_part {c w r : ℚ} (h : |r - c * w| ≤ |c * w| / 2 ^ 24 + 2 ^ (-150 : ℤ)) :
    c * c * (w * w) ≤ 10003 / 10000 * (r * r) + 1 / 10 ^ 5 := by
  have p := scaled_part h
  have e : c * c * (w * w) = |c * w| * |c * w| := by rw [abs_mul_abs_self]; ring
  have f : r * r = |r| * |r| := (abs_mul_abs_self r).symm
  rw [e, f]
  have a0 := abs_nonneg (c * w)
  have b0 := abs_nonneg r
  generalize |c * w| = a at *
  generalize |r| = b at *
  have h1 : a * a ≤ (10001 / 10000 * b + 1 / 10 ^ 6) * (10001 / 10000 * b + 1 / 10 ^ 6) := mul_self_le_mul_self a0 p
  nlinarith [mul_self_nonneg (b - 1 / 10)]

/-- **Normalising.**  `W` is `P` up to `η` in each coordinate. -/
theorem normalize_near {W : V3 F32} {P E : V3 ℚ} {m η : ℚ} (hW : FiniteVec W) (hw : Within (2 ^ (63 : ℤ)) W)
    (x : W.x.val = P.x + E.x) (y : W.y.val = P.y + E.y) (z : W.z.val = P.z + E.z) (hE : Cl η E)
    (hm : 2 ^ (-62 : ℤ) ≤ m) (hP : m ^ 2 ≤ qdot P P) (hη : 100 * η ≤ m) :
    Unit (normalize W) ∧ ∃ c > 0, c * m ≤ 51 / 50 ∧ c * c * qdot P P ≤ 26 / 25 ∧ Scaled c W (normalize W) ∧
      ∃ ε : V3 ℚ, Cl (101 / 100 / 2 ^ 24 + c * η) ε ∧ (normalize W).x.val = c * P.x + ε.x ∧
        (normalize W).y.val = c * P.y + ε.y ∧ (normalize W).z.val = c * P.z + ε.z := by
  have m0 : 0 < m := lt_of_lt_of_le (two_zpow_pos _) hm
  have η0 : 0 ≤ η := (abs_nonneg _).trans hE.1
  have P0 : 0 < qdot P P := lt_of_lt_of_le (by positivity) hP
  have PE : |qdot P E| ≤ 175 / 10000 * qdot P P := by
    refine abs_le_of_sq_le_sq ?_ (by positivity)
    have h1 := cs3 P E
    have h2 := cl_len hE
    have h3 : (17321 / 10000 * η) ^ 2 ≤ (175 / 10000) ^ 2 * qdot P P := by
      have : (17321 / 10000 * η) ^ 2 ≤ (175 / 10000 * m) ^ 2 := by
        apply pow_le_pow_left₀ (by positivity)
        linarith
      have e : (175 / 10000 * m) ^ 2 = (175 / 10000) ^ 2 * m ^ 2 := by ring
      rw [e] at this
      exact this.trans (mul_le_mul_of_nonneg_left hP (by norm_num))
    have h4 := mul_le_mul_of_nonneg_left (h2.trans h3) P0.le
    have e : (175 / 10000 * qdot P P) ^ 2 = qdot P P * ((175 / 10000) ^ 2 * qdot P P) := by ring
    rw [e]
    exact h1.trans h4
  have hL : exactLen2 W = qdot P P + 2 * qdot P E + qdot E E := by
    unfold exactLen2 qdot
    rw [x, y, z]; ring
  have low : 965 / 1000 * qdot P P ≤ exactLen2 W := by
    have := (abs_le.1 PE).1
    have := qdot_nonneg E
    rw [hL]
    linarith
  have low' : 2 ^ (-126 : ℤ) ≤ exactLen2 W := by
    have h1 : (2 ^ (-62 : ℤ)) ^ 2 ≤ m ^ 2 := pow_le_pow_left₀ (two_zpow_pos _).le hm 2
    have h2 : (965 / 1000 : ℚ) * (2 ^ (-62 : ℤ)) ^ 2 ≤ 965 / 1000 * qdot P P := mul_le_mul_of_nonneg_left (h1.trans hP) (by norm_num)
    refine le_trans ?_ (h2.trans low)
    norm_num
  obtain ⟨fr, lr, c, c0, sx, sy, sz⟩ := C156_unit_partial W hW hw low'
  have U : Unit (normalize W) := ⟨fr, lr⟩
  have cW : c * c * exactLen2 W ≤ 10005 / 10000 := by
    have a := sq_part sx
    have b := sq_part sy
    have d := sq_part sz
    have l := (abs_le.1 lr).2
    unfold exactLen2 at l ⊢
    have e : c * c * (W.x.val ^ 2 + W.y.val ^ 2 + W.z.val ^ 2) =
        c * c * (W.x.val * W.x.val) + c * c * (W.y.val * W.y.val) + c * c * (W.z.val * W.z.val) := by ring
    rw [e]
    simp only [pow_two] at l
    norm_num at l ⊢
    linarith
  have cP : c * c * qdot P P ≤ 26 / 25 * (9974 / 10000) := by
    have := mul_le_mul_of_nonneg_left low (mul_self_nonneg c)
    have e : c * c * (965 / 1000 * qdot P P) = 965 / 1000 * (c * c * qdot P P) := by ring
    rw [e] at this
    norm_num
    linarith
  have cm : c * m ≤ 51 / 50 := by
    have h1 : c * c * m ^ 2 ≤ c * c * qdot P P := mul_le_mul_of_nonneg_left hP (mul_self_nonneg c)
    refine le_of_sq_le_sq ?_ (by norm_num)
    have e : (c * m) ^ 2 = c * c * m ^ 2 := by ring
    rw [e]
    norm_num at cP ⊢
    linarith
  have part : ∀ {w r p q : ℚ}, |r - c * w| ≤ |c * w| / 2 ^ 24 + 2 ^ (-150 : ℤ) → |r| ≤ 1 + 6 / 10 ^ 6 → w = p + q → |q| ≤ η →
      |r - c * p| ≤ 101 / 100 / 2 ^ 24 + c * η := by
    intro w r p q h hr hw hq
    have s := scaled_part h
    have cq : |c * q| ≤ c * η := by rw [abs_mul, abs_of_pos c0]; exact mul_le_mul_of_nonneg_left hq c0.le
    have e : r - c * p = (r - c * w) + c * q := by rw [hw]; ring
    rw [e]
    refine (abs_add_le _ _).trans (add_le_add (h.trans ?_) cq)
    have t : (2 : ℚ) ^ (-150 : ℤ) ≤ 1 / 2 ^ 60 := by norm_num
    generalize |c * w| = a at *
    norm_num at t ⊢
    linarith
  obtain ⟨ux, uy, uz⟩ := U.cl
  refine ⟨U, c, c0, cm, by linarith, ⟨sx, sy, sz⟩, ⟨(normalize W).x.val - c * P.x, (normalize W).y.val - c * P.y,
    (normalize W).z.val - c * P.z⟩, ⟨part sx ux x hE.1, part sy uy y hE.2.1, part sz uz z hE.2.2⟩, ?_, ?_, ?_⟩ <;> ring

/-- **The normalised cross product** of two vectors of length one is a multiple of the exact one up to `7/2*2^-24/m`, if the
exact one is longer than `m`. -/
theorem cross_near {a b : V3 F32} {m : ℚ} (ha : Unit a) (hb : Unit b) (hm : 1 / 2 ^ 16 ≤ m)
    (h : m ^ 2 ≤ qdot (qcross (ev a) (ev b)) (qcross (ev a) (ev b))) :
    Unit (normalize (cross a b)) ∧ ∃ c > 0, c * m ≤ 51 / 50 ∧
      c * c * qdot (qcross (ev a) (ev b)) (qcross (ev a) (ev b)) ≤ 26 / 25 ∧ ∃ ε : V3 ℚ, Cl (7 / 2 / 2 ^ 24 / m) ε ∧
        (normalize (cross a b)).x.val = c * (qcross (ev a) (ev b)).x + ε.x ∧
        (normalize (cross a b)).y.val = c * (qcross (ev a) (ev b)).y + ε.y ∧
        (normalize (cross a b)).z.val = c * (qcross (ev a) (ev b)).z + ε.z := by
  have m0 : 0 < m := lt_of_lt_of_le (by norm_num) hm
  obtain ⟨fW, E, hE, x, y, z⟩ := cross_err ha hb
  have lag : ∀ u v : V3 ℚ, qdot (qcross u v) (qcross u v) = qdot u u * qdot v v - qdot u v ^ 2 := by
    intro u v; unfold qdot qcross; ring
  have up : qdot (qcross (ev a) (ev b)) (qcross (ev a) (ev b)) ≤ (1 + 13 / 10 ^ 6) ^ 2 := by
    rw [lag]
    have := mul_le_mul ha.le hb.le (qdot_nonneg _) (by norm_num)
    have := sq_nonneg (qdot (ev a) (ev b))
    norm_num at *
    linarith
  have m1 : m ≤ 1 + 13 / 10 ^ 6 := le_of_sq_le_sq (h.trans up) (by norm_num)
  have hc := len_cl (by norm_num) up
  have wi : Within (2 ^ (63 : ℤ)) (cross a b) := by
    have k : (1 + 13 / 10 ^ 6 + 22 / 10 / 2 ^ 24 : ℚ) ≤ 2 ^ (63 : ℤ) := by norm_num
    refine ⟨?_, ?_, ?_⟩
    · rw [x]; exact (abs_add_le _ _).trans ((add_le_add hc.1 hE.1).trans k)
    · rw [y]; exact (abs_add_le _ _).trans ((add_le_add hc.2.1 hE.2.1).trans k)
    · rw [z]; exact (abs_add_le _ _).trans ((add_le_add hc.2.2 hE.2.2).trans k)
  obtain ⟨U, c, c0, cm, cP, -, ε, hε, ex, ey, ez⟩ := normalize_near fW wi x y z hE
    (hm.trans' (by norm_num)) h (by norm_num at hm ⊢; linarith)
  refine ⟨U, c, c0, cm, cP, ε, ?_, ex, ey, ez⟩
  have b : 101 / 100 / 2 ^ 24 + c * (22 / 10 / 2 ^ 24) ≤ 7 / 2 / 2 ^ 24 / m := by
    rw [le_div_iff₀ m0]
    have : (101 / 100 / 2 ^ 24 + c * (22 / 10 / 2 ^ 24)) * m = 101 / 100 / 2 ^ 24 * m + c * m * (22 / 10 / 2 ^ 24) := by ring
    rw [this]
    norm_num at m1 cm ⊢
    linarith
  exact ⟨hε.1.trans b, hε.2.1.trans b, hε.2.2.trans b⟩

theorem lagrange (u v : V3 ℚ) : qdot (qcross u v) (qcross u v) = qdot u u * qdot v v - qdot u v ^ 2 := by
  unfold qdot qcross; ring

/-- Perpendicular to both. -/
theorem cross_perp {a b : V3 F32} {m : ℚ} (ha : Unit a) (hb : Unit b) (hm : 1 / 2 ^ 16 ≤ m)
    (h : m ^ 2 ≤ qdot (qcross (ev a) (ev b)) (qcross (ev a) (ev b))) :
    |exactDot (normalize (cross a b)) a| ≤ 7 / 2 ^ 24 / m ∧ |exactDot (normalize (cross a b)) b| ≤ 7 / 2 ^ 24 / m := by
  have m0 : 0 < m := lt_of_lt_of_le (by norm_num) hm
  obtain ⟨U, c, c0, cm, cP, ε, hε, ex, ey, ez⟩ := cross_near ha hb hm h
  have l := cl_len hε
  have A : exactDot (normalize (cross a b)) a = qdot ε (ev a) := by
    unfold exactDot qdot
    rw [ex, ey, ez]
    unfold qcross ev
    ring
  have B : exactDot (normalize (cross a b)) b = qdot ε (ev b) := by
    unfold exactDot qdot
    rw [ex, ey, ez]
    unfold qcross ev
    ring
  have n : 17321 / 10000 * (7 / 2 / 2 ^ 24 / m) * (1 + 6 / 10 ^ 6) ≤ 7 / 2 ^ 24 / m := by
    rw [le_div_iff₀ m0]
    have : 17321 / 10000 * (7 / 2 / 2 ^ 24 / m) * (1 + 6 / 10 ^ 6) * m = 17321 / 10000 * (7 / 2 / 2 ^ 24) * (1 + 6 / 10 ^ 6) := by
      field_simp
    rw [this]
    norm_num
  have n0 : 0 ≤ 17321 / 10000 * (7 / 2 / 2 ^ 24 / m) := by positivity
  rw [A, B]
  exact ⟨(qdot_le n0 (by norm_num) l ha.le).trans n, (qdot_le n0 (by norm_num) l hb.le).trans n⟩

/-! ### Combinations of three vectors -/

/-- The three vectors have length one up to `γ` (in the square) and are perpendicular up to `δ`. -/
def Basis (γ δ : ℚ) (a b c : V3 ℚ) : Prop :=
  (|qdot a a - 1| ≤ γ ∧ |qdot b b - 1| ≤ γ ∧ |qdot c c - 1| ≤ γ) ∧ |qdot a b| ≤ δ ∧ |qdot b c| ≤ δ ∧ |qdot c a| ≤ δ

/-- The combination with coefficients `v`. -/
def combo (a b c v : V3 ℚ) : V3 ℚ :=
  ⟨a.x * v.x + b.x * v.y + c.x * v.z, a.y * v.x + b.y * v.y + c.y * v.z, a.z * v.x + b.z * v.y + c.z * v.z⟩

/-- The inner products with three vectors. -/
def dots (a b c w : V3 ℚ) : V3 ℚ := ⟨qdot w a, qdot w b, qdot w c⟩

theorem abs3 {p q r d : ℚ} {P Q R : ℚ} (hp : |p| ≤ P) (hq : |q| ≤ Q) (hr : |r| ≤ R) (h : P + Q + R ≤ d) : |p + q + r| ≤ d := by
  have h1 := abs_add_le (p + q) r
  have h2 := abs_add_le p q
  linarith

theorem abs2 {p q d : ℚ} {P Q : ℚ} (hp : |p| ≤ P) (hq : |q| ≤ Q) (h : P + Q ≤ d) : |p + q| ≤ d := by
  have h2 := abs_add_le p q
  linarith

theorem absm {p q P Q : ℚ} (hp : |p| ≤ P) (hq : |q| ≤ Q) : |p * q| ≤ P * Q := by
  rw [abs_mul]; exact mul_le_mul hp hq (abs_nonneg _) ((abs_nonneg _).trans hp)

/-- The square of the length of a combination. -/
theorem combo_len {γ δ : ℚ} {a b c v : V3 ℚ} (h : Basis γ δ a b c) :
    |qdot (combo a b c v) (combo a b c v) - qdot v v| ≤ (γ + 2 * δ) * qdot v v := by
  obtain ⟨⟨ha, hb, hc⟩, hab, hbc, hca⟩ := h
  have δ0 : 0 ≤ δ := (abs_nonneg _).trans hab
  have e : qdot (combo a b c v) (combo a b c v) - qdot v v =
      (v.x * v.x * (qdot a a - 1) + v.y * v.y * (qdot b b - 1) + v.z * v.z * (qdot c c - 1)) +
      (2 * (v.x * v.y) * qdot a b + 2 * (v.y * v.z) * qdot b c + 2 * (v.z * v.x) * qdot c a) := by
    unfold combo qdot; ring
  have sx : |v.x * v.x * (qdot a a - 1)| ≤ v.x * v.x * γ := absm (abs_of_nonneg (mul_self_nonneg _)).le ha
  have sy : |v.y * v.y * (qdot b b - 1)| ≤ v.y * v.y * γ := absm (abs_of_nonneg (mul_self_nonneg _)).le hb
  have sz : |v.z * v.z * (qdot c c - 1)| ≤ v.z * v.z * γ := absm (abs_of_nonneg (mul_self_nonneg _)).le hc
  have m : ∀ p q : ℚ, |2 * (p * q)| ≤ p * p + q * q := fun p q => by
    rw [abs_le]
    constructor
    · have := mul_self_nonneg (p + q); linarith
    · have := mul_self_nonneg (p - q); linarith
  have xy := absm (m v.x v.y) hab
  have yz := absm (m v.y v.z) hbc
  have zx := absm (m v.z v.x) hca
  rw [e]
  refine abs2 (abs3 sx sy sz le_rfl) (abs3 xy yz zx le_rfl) (le_of_eq ?_)
  unfold qdot; ring

theorem two_le {p q V : ℚ} (hV : 0 ≤ V) (h : p * p + q * q ≤ V ^ 2) : |p| + |q| ≤ 3 / 2 * V := by
  refine le_of_sq_le_sq ?_ (by positivity)
  have h1 := mul_self_nonneg (|p| - |q|)
  have e1 := abs_mul_abs_self p
  have e2 := abs_mul_abs_self q
  nlinarith

/-- The inner products of a combination. -/
theorem combo_dots {γ δ V : ℚ} {a b c v : V3 ℚ} (h : Basis γ δ a b c) (hV : 0 ≤ V) (hv : qdot v v ≤ V ^ 2) :
    |qdot (combo a b c v) a - v.x| ≤ (γ + 3 / 2 * δ) * V ∧ |qdot (combo a b c v) b - v.y| ≤ (γ + 3 / 2 * δ) * V ∧
    |qdot (combo a b c v) c - v.z| ≤ (γ + 3 / 2 * δ) * V := by
  obtain ⟨⟨ha, hb, hc⟩, hab, hbc, hca⟩ := h
  have δ0 : 0 ≤ δ := (abs_nonneg _).trans hab
  have γ0 : 0 ≤ γ := (abs_nonneg _).trans ha
  obtain ⟨bx, b_y, bz⟩ := len_cl hV hv
  have nx := mul_self_nonneg v.x
  have ny := mul_self_nonneg v.y
  have nz := mul_self_nonneg v.z
  unfold qdot at hv
  have one : ∀ {p q r G H I : ℚ}, |p| ≤ V → |q| + |r| ≤ 3 / 2 * V → |G| ≤ γ → |H| ≤ δ → |I| ≤ δ →
      |G * p + H * q + I * r| ≤ (γ + 3 / 2 * δ) * V := by
    intro p q r G H I hp hqr hG hH hI
    refine abs3 (absm hG hp) (absm hH le_rfl) (absm hI le_rfl) ?_
    have := mul_le_mul_of_nonneg_left hqr δ0
    linarith
  refine ⟨?_, ?_, ?_⟩
  · have := one (G := qdot a a - 1) (H := qdot a b) (I := qdot c a) bx (two_le hV (p := v.y) (q := v.z) (by linarith)) ha hab hca
    have e : qdot (combo a b c v) a - v.x = (qdot a a - 1) * v.x + qdot a b * v.y + qdot c a * v.z := by unfold combo qdot; ring
    rw [e]; exact this
  · have := one (G := qdot b b - 1) (H := qdot a b) (I := qdot b c) b_y (two_le hV (p := v.x) (q := v.z) (by linarith)) hb hab hbc
    have e : qdot (combo a b c v) b - v.y = (qdot b b - 1) * v.y + qdot a b * v.x + qdot b c * v.z := by unfold combo qdot; ring
    rw [e]; exact this
  · have := one (G := qdot c c - 1) (H := qdot c a) (I := qdot b c) bz (two_le hV (p := v.x) (q := v.y) (by linarith)) hc hca hbc
    have e : qdot (combo a b c v) c - v.z = (qdot c c - 1) * v.z + qdot c a * v.x + qdot b c * v.y := by unfold combo qdot; ring
    rw [e]; exact this

/-- The sum of three products in binary32. -/
theorem row3_near {a b c : F32} {v : V3 F32} (fa : a.Finite) (fb : b.Finite) (fc : c.Finite) (hv : Unit v) {A k : ℚ} (A0 : 0 ≤ A)
    (h : a.val * a.val + b.val * b.val + c.val * c.val ≤ A ^ 2) (hA : A ≤ 2) (hk : 5 / 2 ^ 24 * (A * (1 + 6 / 10 ^ 6)) + 1 / 2 ^ 60 ≤ k) :
    (FPlace.row3 a b c v).Finite ∧ |(FPlace.row3 a b c v).val - (a.val * v.x.val + b.val * v.y.val + c.val * v.z.val)| ≤ k := by
  obtain ⟨x, y, z⟩ := len_cl (a := ⟨a.val, b.val, c.val⟩) A0 (by unfold qdot; exact h)
  have l : A ≤ 2 ^ (1 : ℤ) := by rw [zpow_one]; exact hA
  obtain ⟨f, e⟩ := FPlace.row3_err (i := 1) (j := 1) ⟨fa, x.trans l⟩ ⟨fb, y.trans l⟩ ⟨fc, z.trans l⟩ hv.upto (by norm_num) (by norm_num)
  refine ⟨f, ?_⟩
  have s := abs_sum_le ⟨a.val, b.val, c.val⟩ (ev v) A0 (by norm_num) (by unfold qdot; exact h) hv.le
  unfold FPlace.rowCol at e
  refine e.trans (le_trans ?_ hk)
  have t : (2 : ℚ) ^ (-147 : ℤ) ≤ 1 / 2 ^ 60 := by norm_num
  exact add_le_add (mul_le_mul_of_nonneg_left s (by norm_num)) t

/-- A combination in binary32. -/
theorem combo_near {a b c v : V3 F32} (fa : FiniteVec a) (fb : FiniteVec b) (fc : FiniteVec c) (ha : Cl (1 + 1 / 10 ^ 4) (ev a))
    (hb : Cl (1 + 1 / 10 ^ 4) (ev b)) (hc : Cl (1 + 1 / 10 ^ 4) (ev c)) (hv : Unit v) :
    FiniteVec ⟨FPlace.row3 a.x b.x c.x v, FPlace.row3 a.y b.y c.y v, FPlace.row3 a.z b.z c.z v⟩ ∧
    ∃ E : V3 ℚ, Cl (9 / 2 ^ 24) E ∧ (FPlace.row3 a.x b.x c.x v).val = (combo (ev a) (ev b) (ev c) (ev v)).x + E.x ∧
      (FPlace.row3 a.y b.y c.y v).val = (combo (ev a) (ev b) (ev c) (ev v)).y + E.y ∧
      (FPlace.row3 a.z b.z c.z v).val = (combo (ev a) (ev b) (ev c) (ev v)).z + E.z := by
  have one : ∀ {p q r : F32}, p.Finite → q.Finite → r.Finite → |p.val| ≤ 1 + 1 / 10 ^ 4 → |q.val| ≤ 1 + 1 / 10 ^ 4 →
      |r.val| ≤ 1 + 1 / 10 ^ 4 → (FPlace.row3 p q r v).Finite ∧
      |(FPlace.row3 p q r v).val - (p.val * v.x.val + q.val * v.y.val + r.val * v.z.val)| ≤ 9 / 2 ^ 24 := by
    intro p q r fp fq fr hp hq hr
    exact row3_near fp fq fr hv (A := 17321 / 10000 * (1 + 1 / 10 ^ 4)) (by norm_num)
      (cl_len (a := ⟨p.val, q.val, r.val⟩) ⟨hp, hq, hr⟩) (by norm_num) (by norm_num)
  have x := one fa.1.2 fb.1.2 fc.1.2 ha.1 hb.1 hc.1
  have y := one fa.2.1.2 fb.2.1.2 fc.2.1.2 ha.2.1 hb.2.1 hc.2.1
  have z := one fa.2.2.2 fb.2.2.2 fc.2.2.2 ha.2.2 hb.2.2 hc.2.2
  refine ⟨⟨⟨add_ok _ _, x.1⟩, ⟨add_ok _ _, y.1⟩, ⟨add_ok _ _, z.1⟩⟩,
    ⟨(FPlace.row3 a.x b.x c.x v).val - (combo (ev a) (ev b) (ev c) (ev v)).x,
     (FPlace.row3 a.y b.y c.y v).val - (combo (ev a) (ev b) (ev c) (ev v)).y,
     (FPlace.row3 a.z b.z c.z v).val - (combo (ev a) (ev b) (ev c) (ev v)).z⟩, ⟨x.2, y.2, z.2⟩, ?_, ?_, ?_⟩ <;> ring

/-- Three inner products in binary32. -/
theorem dots_near {a b c w : V3 F32} (ha : Unit a) (hb : Unit b) (hc : Unit c) (hw : Unit w) :
    FiniteVec ⟨dot w a, dot w b, dot w c⟩ ∧
    ∃ E : V3 ℚ, Cl (9 / 2 ^ 24) E ∧ (dot w a).val = (dots (ev a) (ev b) (ev c) (ev w)).x + E.x ∧
      (dot w b).val = (dots (ev a) (ev b) (ev c) (ev w)).y + E.y ∧ (dot w c).val = (dots (ev a) (ev b) (ev c) (ev w)).z + E.z := by
  have one : ∀ {v : V3 F32}, Unit v → (dot w v).Finite ∧ |(dot w v).val - qdot (ev w) (ev v)| ≤ 9 / 2 ^ 24 := fun {v} hv =>
    row3_near hw.1.1.2 hw.1.2.1.2 hw.1.2.2.2 hv (A := 1 + 6 / 10 ^ 6) (by norm_num) hw.le (by norm_num) (by norm_num)
  have x := one ha
  have y := one hb
  have z := one hc
  refine ⟨⟨⟨add_ok _ _, x.1⟩, ⟨add_ok _ _, y.1⟩, ⟨add_ok _ _, z.1⟩⟩,
    ⟨(dot w a).val - qdot (ev w) (ev a), (dot w b).val - qdot (ev w) (ev b), (dot w c).val - qdot (ev w) (ev c)⟩,
    ⟨x.2, y.2, z.2⟩, ?_, ?_, ?_⟩ <;> · unfold dots; ring

/-- **Normalising a vector of a length of about one.** -/
theorem near_one {W : V3 F32} {P E : V3 ℚ} {κ : ℚ} (hW : FiniteVec W)
    (x : W.x.val = P.x + E.x) (y : W.y.val = P.y + E.y) (z : W.z.val = P.z + E.z) (hE : Cl (9 / 2 ^ 24) E)
    (hP : |qdot P P - 1| ≤ κ) (hκ : κ ≤ 1 / 50) :
    Unit (normalize W) ∧ ∃ c > 0, |c - 1| ≤ 52 / 100 * κ + 1 / 10 ^ 5 ∧ Scaled c W (normalize W) ∧
      ∃ ε : V3 ℚ, Cl (11 / 2 ^ 24) ε ∧ (normalize W).x.val = c * P.x + ε.x ∧
        (normalize W).y.val = c * P.y + ε.y ∧ (normalize W).z.val = c * P.z + ε.z := by
  obtain ⟨p1, p2⟩ := abs_le.1 hP
  have κ0 : 0 ≤ κ := (abs_nonneg _).trans hP
  have hc := len_cl (a := P) (e := 102 / 100) (by norm_num) (by norm_num at *; linarith)
  have wi : Within (2 ^ (63 : ℤ)) W := by
    have k : (102 / 100 + 9 / 2 ^ 24 : ℚ) ≤ 2 ^ (63 : ℤ) := by norm_num
    refine ⟨?_, ?_, ?_⟩
    · rw [x]; exact (abs_add_le _ _).trans ((add_le_add hc.1 hE.1).trans k)
    · rw [y]; exact (abs_add_le _ _).trans ((add_le_add hc.2.1 hE.2.1).trans k)
    · rw [z]; exact (abs_add_le _ _).trans ((add_le_add hc.2.2 hE.2.2).trans k)
  obtain ⟨U, c, c0, cm, cP, sc, ε, hε, ex, ey, ez⟩ := normalize_near (m := 98 / 100) hW wi x y z hE (by norm_num)
    (by norm_num at *; linarith) (by norm_num)
  have k : 101 / 100 / 2 ^ 24 + c * (9 / 2 ^ 24) ≤ 11 / 2 ^ 24 := by norm_num at *; linarith
  have hε' : Cl (11 / 2 ^ 24) ε := ⟨hε.1.trans k, hε.2.1.trans k, hε.2.2.trans k⟩
  refine ⟨U, c, c0, ?_, sc, ε, hε', ex, ey, ez⟩
  have cp := qdot_le (a := ⟨c * P.x, c * P.y, c * P.z⟩) (b := ε) (A := 102 / 100) (by norm_num)
    (by norm_num : (0 : ℚ) ≤ 17321 / 10000 * (11 / 2 ^ 24))
    (by have e : qdot ⟨c * P.x, c * P.y, c * P.z⟩ ⟨c * P.x, c * P.y, c * P.z⟩ = c * c * qdot P P := by unfold qdot; ring
        rw [e]; norm_num at *; linarith) (cl_len hε')
  have le : qdot (ev (normalize W)) (ev (normalize W)) =
      c * c * qdot P P + 2 * qdot ⟨c * P.x, c * P.y, c * P.z⟩ ε + qdot ε ε := by
    unfold qdot ev
    dsimp only
    rw [ex, ey, ez]; ring
  have l := abs_le.1 U.len
  rw [le] at l
  have q0 := qdot_nonneg ε
  have q1 := cl_len hε'
  obtain ⟨d1, d2⟩ := abs_le.1 cp
  have a1 : c * c * qdot P P ≤ 1 + 14 / 10 ^ 6 := by norm_num at *; linarith
  have a2 : 1 - 14 / 10 ^ 6 ≤ c * c * qdot P P := by norm_num at *; linarith
  have cc0 := mul_self_nonneg c
  have b1 : c * c * (1 - κ) ≤ 1 + 14 / 10 ^ 6 := (mul_le_mul_of_nonneg_left (by linarith) cc0).trans a1
  have b2 : 1 - 14 / 10 ^ 6 ≤ c * c * (1 + κ) := a2.trans (mul_le_mul_of_nonneg_left (by linarith) cc0)
  have cc1 : c * c ≤ 10206 / 10000 := by
    have := mul_le_mul_of_nonneg_left hκ cc0
    norm_num at *
    linarith
  have cc2 : 98 / 100 ≤ c * c := by
    have := mul_le_mul_of_nonneg_left hκ cc0
    norm_num at *
    linarith
  have c1 : 98 / 100 ≤ c := by
    refine le_of_sq_le_sq ?_ c0.le
    rw [pow_two c]; norm_num; linarith
  have c2 : c * c * κ ≤ 10206 / 10000 * κ := mul_le_mul_of_nonneg_right cc1 κ0
  have f1 : c * c - 1 ≤ 14 / 10 ^ 6 + 10206 / 10000 * κ := by linarith
  have f2 : 1 - c * c ≤ 14 / 10 ^ 6 + 10206 / 10000 * κ := by linarith
  rw [abs_le]
  constructor
  · by_contra hh
    push Not at hh
    have g : 52 / 100 * κ + 1 / 10 ^ 5 < 1 - c := by linarith
    have h1 : (52 / 100 * κ + 1 / 10 ^ 5) * (198 / 100) ≤ (1 - c) * (1 + c) :=
      mul_le_mul g.le (by linarith) (by norm_num) (by have : 0 ≤ 52 / 100 * κ + 1 / 10 ^ 5 := by positivity
                                                      linarith)
    norm_num at *
    linarith
  · by_contra hh
    push Not at hh
    have h1 : (52 / 100 * κ + 1 / 10 ^ 5) * (198 / 100) ≤ (c - 1) * (1 + c) :=
      mul_le_mul hh.le (by linarith) (by norm_num) (by have : 0 ≤ 52 / 100 * κ + 1 / 10 ^ 5 := by positivity
                                                       linarith)
    norm_num at *
    linarith

/-! ### The shading space -/

/-- The data of a hit for which the shading space makes sense: a tangent and a normal of length one, perpendicular up to
`δ`. -/
def Good (δ : ℚ) (dpdu normal : V3 F32) : Prop :=
  Unit dpdu ∧ Unit normal ∧ |exactDot normal dpdu| ≤ δ ∧ 1 / 2 ^ 21 ≤ δ ∧ δ ≤ 1 / 1000

theorem exactDot_eq (a b : V3 F32) : exactDot a b = qdot (ev a) (ev b) := rfl

theorem qdot_comm (a b : V3 ℚ) : qdot a b = qdot b a := by unfold qdot; ring

theorem good_cross {δ : ℚ} {s n : V3 F32} (h : Good δ s n) :
    |qdot (qcross (ev n) (ev s)) (qcross (ev n) (ev s)) - 1| ≤ 23 / 10 ^ 6 + 1 / 1000 * δ := by
  obtain ⟨us, un, hd, d1, d2⟩ := h
  rw [lagrange]
  obtain ⟨s1, s2⟩ := abs_le.1 us.len
  obtain ⟨n1, n2⟩ := abs_le.1 un.len
  have q : qdot (ev n) (ev s) ^ 2 ≤ 1 / 1000 * δ := by
    have h1 : qdot (ev n) (ev s) ^ 2 = |exactDot n s| * |exactDot n s| := by rw [abs_mul_abs_self, exactDot_eq]; ring
    rw [h1]
    exact mul_le_mul (hd.trans d2) hd (abs_nonneg _) (by norm_num)
  have q0 := sq_nonneg (qdot (ev n) (ev s))
  generalize qdot (ev n) (ev s) ^ 2 = w at *
  have u : qdot (ev n) (ev n) * qdot (ev s) (ev s) ≤ (1 + 11 / 10 ^ 6) * (1 + 11 / 10 ^ 6) :=
    mul_le_mul (by linarith) (by linarith) (qdot_nonneg _) (by norm_num)
  have l : (1 - 11 / 10 ^ 6) * (1 - 11 / 10 ^ 6) ≤ qdot (ev n) (ev n) * qdot (ev s) (ev s) :=
    mul_le_mul (by linarith) (by linarith) (by norm_num) (qdot_nonneg _)
  generalize qdot (ev n) (ev n) * qdot (ev s) (ev s) = p at *
  have d0 : 0 ≤ 1 / 1000 * δ := q0.trans q
  generalize 1 / 1000 * δ = g at *
  rw [abs_le]
  norm_num at u l ⊢
  constructor <;> linarith

/-- **C170, the shading space.**  If the tangent and the normal of the hit have length one and are perpendicular up to
`δ`, the third vector of the shading space is finite, has length one, is perpendicular to both up to `8/2^24`, and is on
the side given by the right hand rule. -/
theorem C170_shading_frame {δ : ℚ} {dpdu normal : V3 F32} (h : Good δ dpdu normal) :
    let m := ofHit dpdu normal
    m.s = dpdu ∧ m.n = normal ∧ Unit m.t ∧ |exactDot m.t m.s| ≤ 8 / 2 ^ 24 ∧ |exactDot m.t m.n| ≤ 8 / 2 ^ 24 ∧
      99 / 100 ≤ exactTriple m.n m.s m.t := by
  have hx := good_cross h
  obtain ⟨us, un, hd, d1, d2⟩ := h
  dsimp only [ofHit]
  have low : (99 / 100 : ℚ) ^ 2 ≤ qdot (qcross (ev normal) (ev dpdu)) (qcross (ev normal) (ev dpdu)) := by
    have := (abs_le.1 hx).1
    norm_num at *
    linarith
  obtain ⟨pn, ps⟩ := cross_perp un us (by norm_num) low
  obtain ⟨U, c, c0, cm, cP, ε, hε, ex, ey, ez⟩ := cross_near un us (by norm_num) low
  have k : (7 / 2 ^ 24 / (99 / 100) : ℚ) ≤ 8 / 2 ^ 24 := by norm_num
  refine ⟨rfl, rfl, U, ps.trans k, pn.trans k, ?_⟩
  have l := U.len
  have tX : exactTriple normal dpdu (normalize (cross normal dpdu)) =
      qdot (qcross (ev normal) (ev dpdu)) (ev (normalize (cross normal dpdu))) := rfl
  have e : qdot (ev (normalize (cross normal dpdu))) (ev (normalize (cross normal dpdu))) =
      c * qdot (qcross (ev normal) (ev dpdu)) (ev (normalize (cross normal dpdu))) +
      qdot ε (ev (normalize (cross normal dpdu))) := by
    unfold qdot
    have x : (ev (normalize (cross normal dpdu))).x = c * (qcross (ev normal) (ev dpdu)).x + ε.x := ex
    have y : (ev (normalize (cross normal dpdu))).y = c * (qcross (ev normal) (ev dpdu)).y + ε.y := ey
    have z : (ev (normalize (cross normal dpdu))).z = c * (qcross (ev normal) (ev dpdu)).z + ε.z := ez
    rw [x, y, z]; ring
  have q := qdot_le (by norm_num) (by norm_num : (0 : ℚ) ≤ 1 + 6 / 10 ^ 6) (cl_len hε) U.le
  rw [tX]
  rw [e] at l
  have l1 := (abs_le.1 l).1
  have q2 := (abs_le.1 q).2
  have c2 : c * c * (99 / 100) ^ 2 ≤ 26 / 25 := (mul_le_mul_of_nonneg_left low (mul_self_nonneg c)).trans cP
  -- the multiple is about one
  have cx : c * c * qdot (qcross (ev normal) (ev dpdu)) (qcross (ev normal) (ev dpdu)) ≤ (1002 / 1000) ^ 2 := by
    have q' := qdot_le (A := 17321 / 10000 * (7 / 2 / 2 ^ 24 / (99 / 100))) (by norm_num) (by norm_num : (0 : ℚ) ≤ 1 + 6 / 10 ^ 6)
      (cl_len hε) U.le
    have f : qdot ⟨(ev (normalize (cross normal dpdu))).x - ε.x, (ev (normalize (cross normal dpdu))).y - ε.y,
        (ev (normalize (cross normal dpdu))).z - ε.z⟩ ⟨(ev (normalize (cross normal dpdu))).x - ε.x,
        (ev (normalize (cross normal dpdu))).y - ε.y, (ev (normalize (cross normal dpdu))).z - ε.z⟩ =
        c * c * qdot (qcross (ev normal) (ev dpdu)) (qcross (ev normal) (ev dpdu)) := by
      have x : (ev (normalize (cross normal dpdu))).x = c * (qcross (ev normal) (ev dpdu)).x + ε.x := ex
      have y : (ev (normalize (cross normal dpdu))).y = c * (qcross (ev normal) (ev dpdu)).y + ε.y := ey
      have z : (ev (normalize (cross normal dpdu))).z = c * (qcross (ev normal) (ev dpdu)).z + ε.z := ez
      rw [x, y, z]; unfold qdot; ring
    have g : qdot ⟨(ev (normalize (cross normal dpdu))).x - ε.x, (ev (normalize (cross normal dpdu))).y - ε.y,
        (ev (normalize (cross normal dpdu))).z - ε.z⟩ ⟨(ev (normalize (cross normal dpdu))).x - ε.x,
        (ev (normalize (cross normal dpdu))).y - ε.y, (ev (normalize (cross normal dpdu))).z - ε.z⟩ =
        qdot (ev (normalize (cross normal dpdu))) (ev (normalize (cross normal dpdu))) -
        2 * qdot ε (ev (normalize (cross normal dpdu))) + qdot ε ε := by unfold qdot; ring
    rw [← f, g]
    have ul := (abs_le.1 U.len).2
    have q1 := (abs_le.1 q').1
    have q3 := cl_len hε
    norm_num at *
    linarith
  have xx := (abs_le.1 hx).1
  have c1 : c ≤ 1003 / 1000 := by
    refine le_of_sq_le_sq ?_ (by norm_num)
    have lo : 999 / 1000 ≤ qdot (qcross (ev normal) (ev dpdu)) (qcross (ev normal) (ev dpdu)) := by
      norm_num at *; linarith
    have := mul_le_mul_of_nonneg_left lo (mul_self_nonneg c)
    rw [pow_two c]
    norm_num at *
    linarith
  by_contra hh
  push Not at hh
  have := mul_le_mul_of_nonneg_left hh.le c0.le
  norm_num at *
  linarith

theorem good_basis {δ : ℚ} {s n : V3 F32} (h : Good δ s n) :
    Basis (11 / 10 ^ 6) δ (ev s) (ev (ofHit s n).t) (ev n) ∧ Unit (ofHit s n).t := by
  obtain ⟨-, -, ut, ts, tn, -⟩ := C170_shading_frame h
  obtain ⟨us, un, hd, d1, d2⟩ := h
  have k : (8 / 2 ^ 24 : ℚ) ≤ 1 / 2 ^ 21 := by norm_num
  refine ⟨⟨⟨us.len, ut.len, un.len⟩, ?_, ?_, ?_⟩, ut⟩
  · rw [qdot_comm]; exact ts.trans (k.trans d1)
  · exact tn.trans (k.trans d1)
  · exact hd

theorem Unit.cl4 {v : V3 F32} (h : Unit v) : Cl (1 + 1 / 10 ^ 4) (ev v) := len_cl (by norm_num) (h.le.trans (by norm_num))

/-- A vector taken to the world, as a multiple of the exact combination. -/
theorem world_near {δ : ℚ} {s n v : V3 F32} (h : Good δ s n) (hv : Unit v) :
    Unit (toWorld (ofHit s n) v) ∧ ∃ c > 0, |c - 1| ≤ 22 / 10 ^ 6 + 1051 / 1000 * δ ∧
      ∃ ε : V3 ℚ, Cl (11 / 2 ^ 24) ε ∧ let P := combo (ev s) (ev (ofHit s n).t) (ev n) (ev v)
        (toWorld (ofHit s n) v).x.val = c * P.x + ε.x ∧ (toWorld (ofHit s n) v).y.val = c * P.y + ε.y ∧
        (toWorld (ofHit s n) v).z.val = c * P.z + ε.z := by
  obtain ⟨B, ut⟩ := good_basis h
  obtain ⟨us, un, hd, d1, d2⟩ := h
  obtain ⟨fW, E, hE, x, y, z⟩ := combo_near us.1 ut.1 un.1 us.cl4 ut.cl4 un.cl4 hv
  have cl := combo_len (v := ev v) B
  have vl := hv.len
  have vv : qdot (ev v) (ev v) ≤ 1 + 11 / 10 ^ 6 := by linarith [(abs_le.1 vl).2]
  have hP : |qdot (combo (ev s) (ev (ofHit s n).t) (ev n) (ev v)) (combo (ev s) (ev (ofHit s n).t) (ev n) (ev v)) - 1| ≤
      221 / 10 ^ 7 + 20001 / 10000 * δ := by
    have e : ∀ p q : ℚ, p - 1 = (p - q) + (q - 1) := fun p q => by ring
    rw [e _ (qdot (ev v) (ev v))]
    refine abs2 cl vl ?_
    have := mul_le_mul_of_nonneg_left vv (by linarith : 0 ≤ 11 / 10 ^ 6 + 2 * δ)
    norm_num at *
    linarith
  obtain ⟨U, c, c0, hc, -, ε, hε, e⟩ := near_one fW x y z hE hP (by norm_num at *; linarith)
  refine ⟨U, c, c0, hc.trans ?_, ε, hε, e⟩
  norm_num at *
  linarith

/-- **C170, to the world.**  A direction in the shading space is taken to a direction of length one whose components
along the tangent, the third vector and the normal are the coordinates of the direction, up to `4·10⁻⁵+3δ`. -/
theorem C170_to_world {δ : ℚ} {dpdu normal v : V3 F32} (h : Good δ dpdu normal) (hv : Unit v) :
    let m := ofHit dpdu normal
    Unit (toWorld m v) ∧ |exactDot (toWorld m v) dpdu - v.x.val| ≤ 4 / 10 ^ 5 + 3 * δ ∧
      |exactDot (toWorld m v) m.t - v.y.val| ≤ 4 / 10 ^ 5 + 3 * δ ∧
      |exactDot (toWorld m v) normal - v.z.val| ≤ 4 / 10 ^ 5 + 3 * δ := by
  intro m
  obtain ⟨U, c, c0, hc, ε, hε, x, y, z⟩ := world_near h hv
  obtain ⟨B, ut⟩ := good_basis h
  obtain ⟨us, un, hd, d1, d2⟩ := h
  obtain ⟨px, py, pz⟩ := combo_dots B (by norm_num : (0 : ℚ) ≤ 1 + 6 / 10 ^ 6) hv.le
  have one : ∀ {b : V3 F32} {q : ℚ}, Unit b → |q| ≤ 1 + 6 / 10 ^ 6 →
      |qdot (combo (ev dpdu) (ev (ofHit dpdu normal).t) (ev normal) (ev v)) (ev b) - q| ≤
        (11 / 10 ^ 6 + 3 / 2 * δ) * (1 + 6 / 10 ^ 6) → |exactDot (toWorld m v) b - q| ≤ 4 / 10 ^ 5 + 3 * δ := by
    intro b q hb hq hp
    have e : exactDot (toWorld m v) b - q =
        (c - 1) * qdot (combo (ev dpdu) (ev (ofHit dpdu normal).t) (ev normal) (ev v)) (ev b) +
        (qdot (combo (ev dpdu) (ev (ofHit dpdu normal).t) (ev normal) (ev v)) (ev b) - q) + qdot ε (ev b) := by
      unfold exactDot qdot
      rw [x, y, z]
      unfold ev
      ring
    rw [e]
    have s := qdot_le (by norm_num) (by norm_num : (0 : ℚ) ≤ 1 + 6 / 10 ^ 6) (cl_len hε) hb.le
    have pb : |qdot (combo (ev dpdu) (ev (ofHit dpdu normal).t) (ev normal) (ev v)) (ev b)| ≤ 1 + 1 / 100 := by
      have := abs_add_le (qdot (combo (ev dpdu) (ev (ofHit dpdu normal).t) (ev normal) (ev v)) (ev b) - q) q
      rw [sub_add_cancel] at this
      norm_num at *
      linarith
    refine abs3 (absm hc pb) hp s ?_
    norm_num at *
    linarith
  obtain ⟨vx, vy, vz⟩ := hv.cl
  exact ⟨U, one us vx px, one ut vy py, one un vz pz⟩

/-- The coordinates of a direction in the shading space, as a multiple of the exact inner products. -/
theorem shading_near {δ κ : ℚ} {s n w : V3 F32} (h : Good δ s n) (hw : Unit w)
    (hq : |qdot (dots (ev s) (ev (ofHit s n).t) (ev n) (ev w)) (dots (ev s) (ev (ofHit s n).t) (ev n) (ev w)) - 1| ≤ κ)
    (hκ : κ ≤ 1 / 50) :
    Unit (toShading (ofHit s n) w) ∧ ∃ c > 0, |c - 1| ≤ 52 / 100 * κ + 1 / 10 ^ 5 ∧
      ∃ ε : V3 ℚ, Cl (11 / 2 ^ 24) ε ∧ let P := dots (ev s) (ev (ofHit s n).t) (ev n) (ev w)
        (toShading (ofHit s n) w).x.val = c * P.x + ε.x ∧ (toShading (ofHit s n) w).y.val = c * P.y + ε.y ∧
        (toShading (ofHit s n) w).z.val = c * P.z + ε.z := by
  obtain ⟨-, ut⟩ := good_basis h
  obtain ⟨us, un, -, -, -⟩ := h
  obtain ⟨fW, E, hE, x, y, z⟩ := dots_near us ut un hw
  obtain ⟨U, c, c0, hc, -, ε, hε, e⟩ := near_one fW x y z hE hq hκ
  exact ⟨U, c, c0, hc, ε, hε, e⟩

/-- **C170, to the world and back.**  A direction of the shading space taken to the world and back differs by at most
`1.5·10⁻⁴+9δ` in each coordinate. -/
theorem C170_world_and_back {δ : ℚ} {dpdu normal v : V3 F32} (h : Good δ dpdu normal) (hv : Unit v) :
    let m := ofHit dpdu normal
    Unit (toShading m (toWorld m v)) ∧ Close (15 / 10 ^ 5 + 9 * δ) (toShading m (toWorld m v)) v := by
  intro m
  obtain ⟨U, ax, ay, az⟩ := C170_to_world h hv
  have d1 := h.2.2.2.1
  have d2 := h.2.2.2.2
  have q : ∃ d : V3 ℚ, Cl (4 / 10 ^ 5 + 3 * δ) d ∧
      qdot (ev (toWorld m v)) (ev dpdu) = v.x.val + d.x ∧ qdot (ev (toWorld m v)) (ev m.t) = v.y.val + d.y ∧
      qdot (ev (toWorld m v)) (ev normal) = v.z.val + d.z :=
    ⟨⟨exactDot (toWorld m v) dpdu - v.x.val, exactDot (toWorld m v) m.t - v.y.val, exactDot (toWorld m v) normal - v.z.val⟩,
      ⟨ax, ay, az⟩, by rw [← exactDot_eq]; ring, by rw [← exactDot_eq]; ring, by rw [← exactDot_eq]; ring⟩
  obtain ⟨d, hd, qx, qy, qz⟩ := q
  have lq : |qdot (dots (ev dpdu) (ev m.t) (ev normal) (ev (toWorld m v))) (dots (ev dpdu) (ev m.t) (ev normal) (ev (toWorld m v))) - 1|
      ≤ 11 / 10 ^ 6 + 3475 / 1000 * (4 / 10 ^ 5 + 3 * δ) := by
    have e : qdot (dots (ev dpdu) (ev m.t) (ev normal) (ev (toWorld m v))) (dots (ev dpdu) (ev m.t) (ev normal) (ev (toWorld m v))) - 1
        = (qdot (ev v) (ev v) - 1) + 2 * qdot d (ev v) + qdot d d := by
      unfold dots
      rw [qx, qy, qz]
      unfold qdot ev
      ring
    rw [e]
    have t0 : 0 ≤ 4 / 10 ^ 5 + 3 * δ := (abs_nonneg _).trans hd.1
    have l := cl_len hd
    have b := qdot_le (by positivity) (by norm_num : (0 : ℚ) ≤ 1 + 6 / 10 ^ 6) l hv.le
    have b2 : |2 * qdot d (ev v)| ≤ 2 * (17321 / 10000 * (4 / 10 ^ 5 + 3 * δ) * (1 + 6 / 10 ^ 6)) := by
      rw [abs_mul, abs_of_pos (by norm_num : (0 : ℚ) < 2)]; linarith
    have b3 : |qdot d d| ≤ 1 / 100 * (4 / 10 ^ 5 + 3 * δ) := by
      rw [abs_of_nonneg (qdot_nonneg d)]
      refine l.trans ?_
      have t1 : 4 / 10 ^ 5 + 3 * δ ≤ 305 / 100000 := by norm_num at *; linarith
      have e : (17321 / 10000 * (4 / 10 ^ 5 + 3 * δ)) ^ 2 = (17321 / 10000) ^ 2 * ((4 / 10 ^ 5 + 3 * δ) * (4 / 10 ^ 5 + 3 * δ)) := by ring
      rw [e]
      have := mul_le_mul_of_nonneg_right t1 t0
      generalize 4 / 10 ^ 5 + 3 * δ = t at *
      norm_num at *
      linarith
    refine abs3 hv.len b2 b3 ?_
    generalize 4 / 10 ^ 5 + 3 * δ = t at *
    norm_num at *
    linarith
  obtain ⟨U', c, c0, hc, ε, hε, x, y, z⟩ := shading_near h U lq (by norm_num at *; linarith)
  obtain ⟨vx, vy, vz⟩ := hv.cl
  have one : ∀ {r q p e d : ℚ}, r = c * q + e → q = p + d → |e| ≤ 11 / 2 ^ 24 → |d| ≤ 4 / 10 ^ 5 + 3 * δ → |p| ≤ 1 + 6 / 10 ^ 6 →
      |r - p| ≤ 15 / 10 ^ 5 + 9 * δ := by
    intro r q p e d hr hq he hd hp
    have hq' : |q| ≤ 1004 / 1000 := by
      rw [hq]
      refine abs2 hp hd ?_
      norm_num at *
      linarith
    have : r - p = (c - 1) * q + d + e := by rw [hr, hq]; ring
    rw [this]
    refine abs3 (absm hc hq') hd he ?_
    norm_num at *
    linarith
  exact ⟨U', one x qx hε.1 hd.1 vx, one y qy hε.2.1 hd.2.1 vy, one z qz hε.2.2 hd.2.2 vz⟩

/-- **Completeness.**  The components of a direction along the three vectors make up the direction. -/
theorem complete {δ : ℚ} {s n w : V3 F32} (h : Good δ s n) (hw : Unit w) :
    ∃ d : V3 ℚ, Cl (15 / 10 ^ 5 + 21 / 10 * δ) d ∧
      let K := combo (ev s) (ev (ofHit s n).t) (ev n) (dots (ev s) (ev (ofHit s n).t) (ev n) (ev w))
      K.x = w.x.val + d.x ∧ K.y = w.y.val + d.y ∧ K.z = w.z.val + d.z := by
  have hX := good_cross h
  obtain ⟨B, ut⟩ := good_basis h
  obtain ⟨us, un, hd, d1, d2⟩ := h
  have κ1 : 23 / 10 ^ 6 + 1 / 1000 * δ ≤ 1 / 50 := by norm_num at *; linarith
  obtain ⟨fW, E, hE, Ex, Ey, Ez⟩ := cross_err un us
  have kE : (22 / 10 / 2 ^ 24 : ℚ) ≤ 9 / 2 ^ 24 := by norm_num
  obtain ⟨-, c, c0, hc, -, ε, hε, tx, ty, tz⟩ := near_one fW Ex Ey Ez ⟨hE.1.trans kE, hE.2.1.trans kE, hE.2.2.trans kE⟩ hX κ1
  have et : (ofHit s n).t = normalize (cross n s) := rfl
  rw [et]
  rw [et] at ut B
  have Tx : (ev (normalize (cross n s))).x = c * (qcross (ev n) (ev s)).x + ε.x := tx
  have Ty : (ev (normalize (cross n s))).y = c * (qcross (ev n) (ev s)).y + ε.y := ty
  have Tz : (ev (normalize (cross n s))).z = c * (qcross (ev n) (ev s)).z + ε.z := tz
  have sc := us.cl
  have nc := un.cl
  have wc := hw.cl
  have sl := us.len
  have nl := un.len
  have q : ∀ {b : V3 F32}, Unit b → |qdot (ev w) (ev b)| ≤ 1 + 13 / 10 ^ 6 := fun hb =>
    (qdot_le (by norm_num) (by norm_num) hw.le hb.le).trans (by norm_num)
  have q0 := q us
  have q1 := q ut
  have q2 := q un
  have sn : |qdot (ev n) (ev s)| ≤ δ := hd
  have Xc : Cl (101 / 100) (qcross (ev n) (ev s)) := len_cl (by norm_num) (by
    have := (abs_le.1 hX).2
    norm_num at *
    linarith)
  have εX : |qdot ε (qcross (ev n) (ev s))| ≤ 2 / 10 ^ 6 := by
    refine (qdot_le (by norm_num) (by norm_num : (0 : ℚ) ≤ 101 / 100) (cl_len hε) ?_).trans (by norm_num)
    have := (abs_le.1 hX).2
    norm_num at *
    linarith
  have gc : |c - 1| ≤ 22 / 10 ^ 6 + 1 / 1000 * δ := hc.trans (by norm_num at *; linarith)
  clear hc hE Ex Ey Ez fW
  -- the vector `t × n` is the tangent, `s × t` is the normal
  have cb : |c| ≤ 1001 / 1000 := by
    have := abs_add_le (c - 1) 1
    rw [sub_add_cancel, abs_one] at this
    norm_num at *
    linarith
  have big : ∀ {g : ℚ}, |g - 1| ≤ 11 / 10 ^ 6 → |c * g - 1| ≤ 34 / 10 ^ 6 + 1 / 1000 * δ := by
    intro g hg
    have e : c * g - 1 = c * (g - 1) + (c - 1) := by ring
    rw [e]
    refine abs2 (absm cb hg) gc ?_
    norm_num
    linarith
  have dual : ∀ {g p r e1 e2 a1 a2 k : ℚ}, |g - 1| ≤ 11 / 10 ^ 6 → |p| ≤ 1 + 6 / 10 ^ 6 → |r| ≤ 1 + 6 / 10 ^ 6 → |e1| ≤ 11 / 2 ^ 24 →
      |e2| ≤ 11 / 2 ^ 24 → |a1| ≤ 1 + 6 / 10 ^ 6 → |a2| ≤ 1 + 6 / 10 ^ 6 → |k| ≤ δ →
      |(c * g - 1) * p + -(c * k * r) + (e1 * a1 - e2 * a2)| ≤ 37 / 10 ^ 6 + 101 / 100 * δ := by
    intro g p r e1 e2 a1 a2 k hg hp hr he1 he2 ha1 ha2 hk
    have z1 : |e1 * a1 - e2 * a2| ≤ 22 / 2 ^ 24 * (1 + 6 / 10 ^ 6) := by
      refine (abs_sub _ _).trans ?_
      have h1 := absm he1 ha1
      have h2 := absm he2 ha2
      linarith
    have z2 : |-(c * k * r)| ≤ 1001 / 1000 * δ * (1 + 6 / 10 ^ 6) := by
      rw [abs_neg]; exact absm (absm cb hk) hr
    refine abs3 (absm (big hg) hp) z2 z1 ?_
    norm_num at *
    linarith
  have id : ∀ {g0 g1 g2 wv dd : ℚ}, |g0| ≤ 37 / 10 ^ 6 + 101 / 100 * δ → |g1| ≤ 24 / 10 ^ 6 + 1 / 100 * δ → |g2| ≤ 37 / 10 ^ 6 + 101 / 100 * δ →
      |wv| ≤ 1 + 6 / 10 ^ 6 → |dd| ≤ 49 / 10 ^ 6 + 1 / 100 * δ →
      |-(qdot (ev w) (ev s) * g0) + -(qdot (ev w) (ev (normalize (cross n s))) * g1) + -(qdot (ev w) (ev n) * g2) + dd * wv| ≤
        15 / 10 ^ 5 + 21 / 10 * δ := by
    intro g0 g1 g2 wv dd h0 h1 h2 h3 h4
    refine abs2 (abs3 ?_ ?_ ?_ le_rfl) (absm h4 h3) (P := (1 + 13 / 10 ^ 6) * (37 / 10 ^ 6 + 101 / 100 * δ) +
      (1 + 13 / 10 ^ 6) * (24 / 10 ^ 6 + 1 / 100 * δ) + (1 + 13 / 10 ^ 6) * (37 / 10 ^ 6 + 101 / 100 * δ)) ?_
    · rw [abs_neg]; exact absm q0 h0
    · rw [abs_neg]; exact absm q1 h1
    · rw [abs_neg]; exact absm q2 h2
    · norm_num at *
      linarith
  have mid : ∀ {X e : ℚ}, |X| ≤ 101 / 100 → |e| ≤ 11 / 2 ^ 24 → |-((c - 1) * X) + -e| ≤ 24 / 10 ^ 6 + 1 / 100 * δ := by
    intro X e hx he
    refine abs2 (P := (22 / 10 ^ 6 + 1 / 1000 * δ) * (101 / 100)) (Q := 11 / 2 ^ 24) ?_ ?_ ?_
    · rw [abs_neg]; exact absm gc hx
    · rw [abs_neg]; exact he
    · norm_num at *
      linarith
  have dt : |c * qdot (qcross (ev n) (ev s)) (qcross (ev n) (ev s)) + qdot ε (qcross (ev n) (ev s)) - 1| ≤ 49 / 10 ^ 6 + 1 / 100 * δ := by
    have e : ∀ X y : ℚ, c * X + y - 1 = c * (X - 1) + (c - 1) + y := fun X y => by ring
    rw [e]
    refine abs3 (absm cb hX) gc εX ?_
    norm_num at *
    linarith
  have r0x := dual (g := qdot (ev n) (ev n)) (p := (ev s).x) (r := (ev n).x) (e1 := ε.y) (a1 := (ev n).z) (e2 := ε.z) (a2 := (ev n).y)
    (k := qdot (ev n) (ev s)) nl sc.1 nc.1 hε.2.1 hε.2.2 nc.2.2 nc.2.1 sn
  have r0y := dual (g := qdot (ev n) (ev n)) (p := (ev s).y) (r := (ev n).y) (e1 := ε.z) (a1 := (ev n).x) (e2 := ε.x) (a2 := (ev n).z)
    (k := qdot (ev n) (ev s)) nl sc.2.1 nc.2.1 hε.2.2 hε.1 nc.1 nc.2.2 sn
  have r0z := dual (g := qdot (ev n) (ev n)) (p := (ev s).z) (r := (ev n).z) (e1 := ε.x) (a1 := (ev n).y) (e2 := ε.y) (a2 := (ev n).x)
    (k := qdot (ev n) (ev s)) nl sc.2.2 nc.2.2 hε.1 hε.2.1 nc.2.1 nc.1 sn
  have r2x := dual (g := qdot (ev s) (ev s)) (p := (ev n).x) (r := (ev s).x) (e1 := ε.z) (a1 := (ev s).y) (e2 := ε.y) (a2 := (ev s).z)
    (k := qdot (ev n) (ev s)) sl nc.1 sc.1 hε.2.2 hε.2.1 sc.2.1 sc.2.2 sn
  have r2y := dual (g := qdot (ev s) (ev s)) (p := (ev n).y) (r := (ev s).y) (e1 := ε.x) (a1 := (ev s).z) (e2 := ε.z) (a2 := (ev s).x)
    (k := qdot (ev n) (ev s)) sl nc.2.1 sc.2.1 hε.1 hε.2.2 sc.2.2 sc.1 sn
  have r2z := dual (g := qdot (ev s) (ev s)) (p := (ev n).z) (r := (ev s).z) (e1 := ε.y) (a1 := (ev s).x) (e2 := ε.x) (a2 := (ev s).y)
    (k := qdot (ev n) (ev s)) sl nc.2.2 sc.2.2 hε.2.1 hε.1 sc.1 sc.2.1 sn
  have X := id r0x (mid Xc.1 hε.1) r2x wc.1 dt
  have Y := id r0y (mid Xc.2.1 hε.2.1) r2y wc.2.1 dt
  have Z := id r0z (mid Xc.2.2 hε.2.2) r2z wc.2.2 dt
  refine ⟨⟨_, _, _⟩, ⟨X, Y, Z⟩, ?_, ?_, ?_⟩
  · unfold combo dots
    dsimp only
    generalize hT : ev (normalize (cross n s)) = T at *
    simp only [qdot, Tx, Ty, Tz, qcross, ev]
    ring
  · unfold combo dots
    dsimp only
    generalize hT : ev (normalize (cross n s)) = T at *
    simp only [qdot, Tx, Ty, Tz, qcross, ev]
    ring
  · unfold combo dots
    dsimp only
    generalize hT : ev (normalize (cross n s)) = T at *
    simp only [qdot, Tx, Ty, Tz, qcross, ev]
    ring

/-- The exact components have a length of about one. -/
theorem dots_len {δ : ℚ} {dpdu normal w : V3 F32} (h : Good δ dpdu normal) (hw : Unit w) :
    |qdot (dots (ev dpdu) (ev (ofHit dpdu normal).t) (ev normal) (ev w)) (dots (ev dpdu) (ev (ofHit dpdu normal).t) (ev normal) (ev w)) - 1|
      ≤ 28 / 10 ^ 5 + 365 / 100 * δ := by
  obtain ⟨d, hd, kx, ky, kz⟩ := complete h hw
  have d1 := h.2.2.2.1
  have d2 := h.2.2.2.2
  have e : qdot (dots (ev dpdu) (ev (ofHit dpdu normal).t) (ev normal) (ev w)) (dots (ev dpdu) (ev (ofHit dpdu normal).t) (ev normal) (ev w)) - 1 =
      (qdot (ev w) (ev w) - 1) + qdot d (ev w) := by
    have f : qdot (dots (ev dpdu) (ev (ofHit dpdu normal).t) (ev normal) (ev w)) (dots (ev dpdu) (ev (ofHit dpdu normal).t) (ev normal) (ev w)) =
        qdot (combo (ev dpdu) (ev (ofHit dpdu normal).t) (ev normal) (dots (ev dpdu) (ev (ofHit dpdu normal).t) (ev normal) (ev w))) (ev w) := by
      unfold combo dots qdot; ring
    rw [f]
    generalize combo (ev dpdu) (ev (ofHit dpdu normal).t) (ev normal) (dots (ev dpdu) (ev (ofHit dpdu normal).t) (ev normal) (ev w)) = K at *
    unfold qdot
    rw [kx, ky, kz]
    unfold ev
    ring
  rw [e]
  have t0 : 0 ≤ 15 / 10 ^ 5 + 21 / 10 * δ := (abs_nonneg _).trans hd.1
  have b := qdot_le (by positivity) (by norm_num : (0 : ℚ) ≤ 1 + 6 / 10 ^ 6) (cl_len hd) hw.le
  refine abs2 hw.len b ?_
  norm_num at *
  linarith

/-- **C170, to the shading space.**  A direction of the world is taken to a direction of length one in the shading space,
whose coordinates are its components along the tangent, the third vector and the normal, up to `2·10⁻⁴+2δ`. -/
theorem C170_to_shading {δ : ℚ} {dpdu normal w : V3 F32} (h : Good δ dpdu normal) (hw : Unit w) :
    let m := ofHit dpdu normal
    Unit (toShading m w) ∧ |(toShading m w).x.val - exactDot w dpdu| ≤ 2 / 10 ^ 4 + 2 * δ ∧
      |(toShading m w).y.val - exactDot w m.t| ≤ 2 / 10 ^ 4 + 2 * δ ∧
      |(toShading m w).z.val - exactDot w normal| ≤ 2 / 10 ^ 4 + 2 * δ ∧
      ∃ c > 0, |c - 1| ≤ 16 / 10 ^ 5 + 19 / 10 * δ ∧ ∃ ε : V3 ℚ, Cl (11 / 2 ^ 24) ε ∧
        let P := dots (ev dpdu) (ev m.t) (ev normal) (ev w)
        (toShading m w).x.val = c * P.x + ε.x ∧ (toShading m w).y.val = c * P.y + ε.y ∧
        (toShading m w).z.val = c * P.z + ε.z := by
  intro m
  obtain ⟨d, hd, kx, ky, kz⟩ := complete h hw
  obtain ⟨-, ut⟩ := good_basis h
  have us := h.1
  have un := h.2.1
  have d1 := h.2.2.2.1
  have d2 := h.2.2.2.2
  have lq := dots_len h hw
  obtain ⟨U, c, c0, hc, ε, hε, x, y, z⟩ := shading_near h hw lq (by norm_num at *; linarith)
  have gc : |c - 1| ≤ 16 / 10 ^ 5 + 19 / 10 * δ := hc.trans (by norm_num at *; linarith)
  have one : ∀ {b : V3 F32} {r e : ℚ}, Unit b → r = c * qdot (ev w) (ev b) + e → |e| ≤ 11 / 2 ^ 24 →
      |r - exactDot w b| ≤ 2 / 10 ^ 4 + 2 * δ := by
    intro b r e hb hr he
    have q : |qdot (ev w) (ev b)| ≤ 1 + 13 / 10 ^ 6 := (qdot_le (by norm_num) (by norm_num) hw.le hb.le).trans (by norm_num)
    have f : r - exactDot w b = (c - 1) * qdot (ev w) (ev b) + e := by rw [hr, exactDot_eq]; ring
    rw [f]
    refine abs2 (absm gc q) he ?_
    norm_num at *
    linarith
  exact ⟨U, one us x hε.1, one ut y hε.2.1, one un z hε.2.2, c, c0, gc, ε, hε, x, y, z⟩

/-- **C170, to the shading space and back.**  A direction of the world taken to the shading space and back differs by at
most `4·10⁻⁴+6δ` in each coordinate. -/
theorem C170_shading_and_back {δ : ℚ} {dpdu normal w : V3 F32} (h : Good δ dpdu normal) (hw : Unit w) :
    let m := ofHit dpdu normal
    Unit (toWorld m (toShading m w)) ∧ Close (4 / 10 ^ 4 + 6 * δ) (toWorld m (toShading m w)) w := by
  intro m
  obtain ⟨d, hd, kx, ky, kz⟩ := complete h hw
  obtain ⟨U, -, -, -, c, c0, gc, ε, hε, x, y, z⟩ := C170_to_shading h hw
  obtain ⟨U', c', c0', gc', ε', hε', X, Y, Z⟩ := world_near h U
  obtain ⟨-, ut⟩ := good_basis h
  have us := h.1.cl
  have un := h.2.1.cl
  have ut' := ut.cl
  have d1 := h.2.2.2.1
  have d2 := h.2.2.2.2
  have wc := hw.cl
  have cb : |c'| ≤ 1002 / 1000 := by
    have := abs_add_le (c' - 1) 1
    rw [sub_add_cancel, abs_one] at this
    norm_num at *
    linarith
  have cc : |c' * c - 1| ≤ 184 / 10 ^ 6 + 298 / 100 * δ := by
    have e : c' * c - 1 = c' * (c - 1) + (c' - 1) := by ring
    rw [e]
    refine abs2 (absm cb gc) gc' ?_
    norm_num at *
    linarith
  have one : ∀ {r a b n k wv dv e' : ℚ}, |a| ≤ 1 + 6 / 10 ^ 6 → |b| ≤ 1 + 6 / 10 ^ 6 → |n| ≤ 1 + 6 / 10 ^ 6 →
      r = c' * (c * k + (a * ε.x + b * ε.y + n * ε.z)) + e' → k = wv + dv → |dv| ≤ 15 / 10 ^ 5 + 21 / 10 * δ → |wv| ≤ 1 + 6 / 10 ^ 6 →
      |e'| ≤ 11 / 2 ^ 24 → |r - wv| ≤ 4 / 10 ^ 4 + 6 * δ := by
    intro r a b n k wv dv e' ha hb hn hr hk hd hw he
    have s : |c' * (a * ε.x + b * ε.y + n * ε.z)| ≤ 1002 / 1000 * (33 / 2 ^ 24 * (1 + 6 / 10 ^ 6)) :=
      absm cb (abs3 (absm ha hε.1) (absm hb hε.2.1) (absm hn hε.2.2) (by norm_num))
    have k1 : |k| ≤ 1003 / 1000 := by
      rw [hk]
      refine abs2 hw hd ?_
      norm_num at *
      linarith
    have e : r - wv = ((c' * c - 1) * k + dv + c' * (a * ε.x + b * ε.y + n * ε.z)) + e' := by rw [hr, hk]; ring
    rw [e]
    refine abs2 (abs3 (absm cc k1) hd s le_rfl) he ?_
    norm_num at *
    linarith
  refine ⟨U', one us.1 ut'.1 un.1 ?_ kx hd.1 wc.1 hε'.1, one us.2.1 ut'.2.1 un.2.1 ?_ ky hd.2.1 wc.2.1 hε'.2.1,
    one us.2.2 ut'.2.2 un.2.2 ?_ kz hd.2.2 wc.2.2 hε'.2.2⟩
  · refine X.trans ?_
    unfold combo
    have e : ev (toShading (ofHit dpdu normal) w) = ⟨_, _, _⟩ := congrArg₂ (fun a (b : ℚ × ℚ) => (⟨a, b.1, b.2⟩ : V3 ℚ)) x (congrArg₂ Prod.mk y z)
    rw [e]
    dsimp only
    ring
  · refine Y.trans ?_
    unfold combo
    have e : ev (toShading (ofHit dpdu normal) w) = ⟨_, _, _⟩ := congrArg₂ (fun a (b : ℚ × ℚ) => (⟨a, b.1, b.2⟩ : V3 ℚ)) x (congrArg₂ Prod.mk y z)
    rw [e]
    dsimp only
    ring
  · refine Z.trans ?_
    unfold combo
    have e : ev (toShading (ofHit dpdu normal) w) = ⟨_, _, _⟩ := congrArg₂ (fun a (b : ℚ × ℚ) => (⟨a, b.1, b.2⟩ : V3 ℚ)) x (congrArg₂ Prod.mk y z)
    rw [e]
    dsimp only
    ring

/-- Binary32 numbers are at least the smallest one. -/
theorem grain {q : ℚ} (h : rnd32 q = q) (h0 : q ≠ 0) : 2 ^ (-149 : ℤ) ≤ |q| := by
  have pos : ∀ {q : ℚ}, rnd32 q = q → 0 < q → 2 ^ (-149 : ℤ) ≤ q := by
    intro q h1 h
    unfold rnd32 at h1
    set n := rne (q / 2 ^ ulp32 q) with hn
    have hp : (0 : ℚ) < 2 ^ ulp32 q := two_zpow_pos _
    have h2 : (0 : ℚ) < n := by
      by_contra hc
      push Not at hc
      have := mul_nonpos_of_nonpos_of_nonneg hc hp.le
      linarith
    have h3 : (1 : ℚ) ≤ n := by
      have : 0 < n := by exact_mod_cast h2
      exact_mod_cast this
    have h4 : (2 : ℚ) ^ (-149 : ℤ) ≤ 2 ^ ulp32 q := zpow_le_zpow_right₀ (by norm_num) (le_max_right _ _)
    calc (2 : ℚ) ^ (-149 : ℤ) ≤ 1 * 2 ^ ulp32 q := by rw [one_mul]; exact h4
      _ ≤ n * 2 ^ ulp32 q := mul_le_mul_of_nonneg_right h3 hp.le
      _ = _ := h1
  rcases lt_or_gt_of_ne h0 with hn | hp
  · rw [abs_of_neg hn]
    exact pos (by rw [rnd32_neg, h]) (by linarith)
  · rw [abs_of_pos hp]
    exact pos h hp

/-- **C170, the side.**  A direction is on the side of the normal in the shading space exactly if the inner product with the
normal, as computed, is positive. -/
theorem C170_side {δ : ℚ} {dpdu normal w : V3 F32} (h : Good δ dpdu normal) (hw : Unit w) :
    let m := ofHit dpdu normal
    (0 < (toShading m w).z.val ↔ 0 < (dot w normal).val) ∧ ((toShading m w).z.val < 0 ↔ (dot w normal).val < 0) := by
  intro m
  obtain ⟨-, ut⟩ := good_basis h
  have us := h.1
  have un := h.2.1
  have d1 := h.2.2.2.1
  have d2 := h.2.2.2.2
  have lq := dots_len h hw
  obtain ⟨fW, E, hE, x, y, z⟩ := dots_near us ut un hw
  obtain ⟨U, c, c0, hc, sc, -⟩ := near_one fW x y z hE lq (by norm_num at *; linarith)
  have c9 : 9 / 10 ≤ c := by
    have := (abs_le.1 hc).1
    norm_num at *
    linarith
  have s : |(toShading m w).z.val - c * (dot w normal).val| ≤ |c * (dot w normal).val| / 2 ^ 24 + 2 ^ (-150 : ℤ) := sc.2.2
  have ok : (dot w normal).Ok := fW.2.2.1
  have okr : rnd32 (toShading m w).z.val = (toShading m w).z.val := (ok_val U.1.2.2.1).1
  generalize (toShading m w).z.val = r at *
  have key : ∀ p : ℚ, 2 ^ (-149 : ℤ) ≤ p → ∀ q : ℚ, |q - c * p| ≤ |c * p| / 2 ^ 24 + 2 ^ (-150 : ℤ) → 0 < q := by
    intro p hp q hq
    have p0 : 0 < p := lt_of_lt_of_le (two_zpow_pos _) hp
    rw [abs_of_pos (mul_pos c0 p0)] at hq
    have := (abs_le.1 hq).1
    have h1 := mul_le_mul_of_nonneg_right c9 p0.le
    have t : (2 : ℚ) ^ (-150 : ℤ) = 2 ^ (-149 : ℤ) / 2 := by norm_num
    rw [t] at this
    have t0 := two_zpow_pos (-149)
    generalize (2 : ℚ) ^ (-149 : ℤ) = u at *
    generalize c * p = v at *
    norm_num at *
    linarith
  have tiny : (dot w normal).val ≠ 0 → 2 ^ (-149 : ℤ) ≤ |(dot w normal).val| := fun h0 => grain (ok_val ok).1 h0
  by_cases h0 : (dot w normal).val = 0
  · rw [h0, mul_zero, sub_zero, abs_zero, zero_div, _root_.zero_add] at s
    have r0 : r = 0 := by
      by_contra hr
      have g := grain okr hr
      have t : (2 : ℚ) ^ (-150 : ℤ) < 2 ^ (-149 : ℤ) := zpow_lt_zpow_right₀ (by norm_num) (by norm_num)
      linarith
    rw [h0, r0]
    simp
  · have t := tiny h0
    rcases lt_or_gt_of_ne h0 with hn | hp
    · have : 0 < -r := key (-(dot w normal).val) (by rwa [abs_of_neg hn] at t) (-r) (by
        have e : -r - c * -(dot w normal).val = -(r - c * (dot w normal).val) := by ring
        rw [e, abs_neg, mul_neg, abs_neg]; exact s)
      constructor <;> constructor <;> intro <;> linarith
    · have : 0 < r := key _ (by rwa [abs_of_pos hp] at t) _ s
      constructor <;> constructor <;> intro <;> linarith

/-! ### The frame of the camera -/

/-- The vector from `a` to `b`, exactly. -/
def exactSub (b a : V3 F32) : V3 ℚ := ⟨b.x.val - a.x.val, b.y.val - a.y.val, b.z.val - a.z.val⟩

theorem exists_max (D : V3 ℚ) : ∃ M, Cl M D ∧ M ^ 2 ≤ qdot D D ∧ 0 ≤ M := by
  have e : qdot D D = D.x ^ 2 + D.y ^ 2 + D.z ^ 2 := by unfold qdot; ring
  have hx := sq_nonneg D.x
  have hy := sq_nonneg D.y
  have hz := sq_nonneg D.z
  rcases le_total |D.x| |D.y| with h1 | h1
  · rcases le_total |D.y| |D.z| with h2 | h2
    · exact ⟨|D.z|, ⟨h1.trans h2, h2, le_rfl⟩, by rw [sq_abs, e]; linarith, abs_nonneg _⟩
    · exact ⟨|D.y|, ⟨h1, le_rfl, h2⟩, by rw [sq_abs, e]; linarith, abs_nonneg _⟩
  · rcases le_total |D.x| |D.z| with h2 | h2
    · exact ⟨|D.z|, ⟨h2, h1.trans h2, le_rfl⟩, by rw [sq_abs, e]; linarith, abs_nonneg _⟩
    · exact ⟨|D.x|, ⟨le_rfl, h1, h2⟩, by rw [sq_abs, e]; linarith, abs_nonneg _⟩

/-- **The direction of a vector** that is rounded once. -/
theorem dir_near {V : V3 F32} {D : V3 ℚ} (hV : FiniteVec V) (hD : Cl (2 ^ (62 : ℤ)) D) (h0 : 2 ^ (-100 : ℤ) ≤ qdot D D)
    (x : |V.x.val - D.x| ≤ |D.x| / 2 ^ 24 + 2 ^ (-150 : ℤ)) (y : |V.y.val - D.y| ≤ |D.y| / 2 ^ 24 + 2 ^ (-150 : ℤ))
    (z : |V.z.val - D.z| ≤ |D.z| / 2 ^ 24 + 2 ^ (-150 : ℤ)) :
    Unit (normalize V) ∧ ∃ c > 0, |c * c * qdot D D - 1| ≤ 12 / 10 ^ 6 ∧ ∃ ε : V3 ℚ, Cl (21 / 10 / 2 ^ 24) ε ∧
      (normalize V).x.val = c * D.x + ε.x ∧ (normalize V).y.val = c * D.y + ε.y ∧ (normalize V).z.val = c * D.z + ε.z := by
  obtain ⟨M, hM, hM2, M0⟩ := exists_max D
  have Mlow : 2 ^ (-51 : ℤ) ≤ M := by
    refine le_of_sq_le_sq ?_ M0
    have := cl_len hM
    have e : (17321 / 10000 * M) ^ 2 = (17321 / 10000) ^ 2 * M ^ 2 := by ring
    rw [e] at this
    have : 2 ^ (-100 : ℤ) ≤ (17321 / 10000) ^ 2 * M ^ 2 := h0.trans this
    have f : ((2 : ℚ) ^ (-51 : ℤ)) ^ 2 = 2 ^ (-100 : ℤ) / 4 := by norm_num
    rw [f]
    generalize (2 : ℚ) ^ (-100 : ℤ) = g at *
    norm_num at *
    linarith
  have tiny : (2 : ℚ) ^ (-150 : ℤ) ≤ 1 / 100 / 2 ^ 24 * M := by
    refine le_trans ?_ (mul_le_mul_of_nonneg_left Mlow (by norm_num))
    norm_num
  have rel : ∀ {v d : ℚ}, |v - d| ≤ |d| / 2 ^ 24 + 2 ^ (-150 : ℤ) → |d| ≤ M → |v - d| ≤ 101 / 100 / 2 ^ 24 * M := by
    intro v d h hd
    refine h.trans ?_
    have : |d| / 2 ^ 24 ≤ M / 2 ^ 24 := div_le_div_of_nonneg_right hd (by norm_num)
    generalize (2 : ℚ) ^ (-150 : ℤ) = g at *
    generalize |d| / 2 ^ 24 = k at *
    norm_num at *
    linarith
  have hE : Cl (101 / 100 / 2 ^ 24 * M) ⟨V.x.val - D.x, V.y.val - D.y, V.z.val - D.z⟩ := ⟨rel x hM.1, rel y hM.2.1, rel z hM.2.2⟩
  have wi : ∀ {v d : ℚ}, |v - d| ≤ |d| / 2 ^ 24 + 2 ^ (-150 : ℤ) → |d| ≤ 2 ^ (62 : ℤ) → |v| ≤ 2 ^ (63 : ℤ) := by
    intro v d h hd
    have := abs_add_le (v - d) d
    rw [sub_add_cancel] at this
    have t : (2 : ℚ) ^ (-150 : ℤ) ≤ 1 := by norm_num
    generalize (2 : ℚ) ^ (-150 : ℤ) = g at *
    norm_num at *
    linarith
  obtain ⟨U, c, c0, cm, cP, -, ε, hε, ex, ey, ez⟩ := normalize_near (W := V) (P := D) (m := M) hV ⟨wi x hD.1, wi y hD.2.1, wi z hD.2.2⟩
    (by ring) (by ring) (by ring) hE (Mlow.trans' (by norm_num)) hM2 (by
      norm_num
      linarith)
  have k : 101 / 100 / 2 ^ 24 + c * (101 / 100 / 2 ^ 24 * M) ≤ 21 / 10 / 2 ^ 24 := by
    have e : c * (101 / 100 / 2 ^ 24 * M) = c * M * (101 / 100 / 2 ^ 24) := by ring
    rw [e]
    norm_num at *
    linarith
  have hε' : Cl (21 / 10 / 2 ^ 24) ε := ⟨hε.1.trans k, hε.2.1.trans k, hε.2.2.trans k⟩
  refine ⟨U, c, c0, ?_, ε, hε', ex, ey, ez⟩
  have cp := qdot_le (a := ⟨c * D.x, c * D.y, c * D.z⟩) (b := ε) (A := 102 / 100) (by norm_num)
    (by norm_num : (0 : ℚ) ≤ 17321 / 10000 * (21 / 10 / 2 ^ 24))
    (by have e : qdot ⟨c * D.x, c * D.y, c * D.z⟩ ⟨c * D.x, c * D.y, c * D.z⟩ = c * c * qdot D D := by unfold qdot; ring
        rw [e]; norm_num at *; linarith) (cl_len hε')
  have le : qdot (ev (normalize V)) (ev (normalize V)) =
      c * c * qdot D D + 2 * qdot ⟨c * D.x, c * D.y, c * D.z⟩ ε + qdot ε ε := by
    unfold qdot ev
    dsimp only
    rw [ex, ey, ez]; ring
  have l := abs_le.1 U.len
  rw [le] at l
  have q0 := qdot_nonneg ε
  have q1 := cl_len hε'
  obtain ⟨d1, d2⟩ := abs_le.1 cp
  rw [abs_le]
  clear hE tiny Mlow rel wi x y z h0 hD
  constructor <;> · norm_num at *; linarith

/-- A camera that sees something: positions and up vector of a usual size, not too close, and the up vector has an angle to
the direction of view whose sine is at least `m`. -/
def Sees (m : ℚ) (pos eye up : V3 F32) : Prop :=
  (FiniteVec pos ∧ FiniteVec eye ∧ FiniteVec up) ∧ (Within (2 ^ (60 : ℤ)) pos ∧ Within (2 ^ (60 : ℤ)) eye ∧ Within (2 ^ (60 : ℤ)) up) ∧
  2 ^ (-100 : ℤ) ≤ exactLen2 up ∧ 2 ^ (-100 : ℤ) ≤ qdot (exactSub eye pos) (exactSub eye pos) ∧ 1 / 2 ^ 12 ≤ m ∧
  m ^ 2 * (qdot (ev up) (ev up) * qdot (exactSub eye pos) (exactSub eye pos)) ≤
    qdot (qcross (ev up) (exactSub eye pos)) (qcross (ev up) (exactSub eye pos))

theorem upVector_eq (up : V3 F32) : upVector up = normalize up := by
  unfold upVector
  by_cases h : isNormalized up = true
  · rw [if_pos h, normalize_of h]
  · rw [if_neg h]

theorem sees_dir {m : ℚ} {pos eye up : V3 F32} (h : Sees m pos eye up) :
    Unit (normalize (vsub eye pos)) ∧ ∃ c > 0, |c * c * qdot (exactSub eye pos) (exactSub eye pos) - 1| ≤ 12 / 10 ^ 6 ∧
      ∃ ε : V3 ℚ, Cl (21 / 10 / 2 ^ 24) ε ∧ (normalize (vsub eye pos)).x.val = c * (eye.x.val - pos.x.val) + ε.x ∧
        (normalize (vsub eye pos)).y.val = c * (eye.y.val - pos.y.val) + ε.y ∧
        (normalize (vsub eye pos)).z.val = c * (eye.z.val - pos.z.val) + ε.z := by
  obtain ⟨⟨fp, fe, -⟩, ⟨bp, be, -⟩, -, h0, -⟩ := h
  have one : ∀ {a b : F32}, a.Finite → b.Finite → |a.val| ≤ 2 ^ (60 : ℤ) → |b.val| ≤ 2 ^ (60 : ℤ) →
      (F32.sub a b).Finite ∧ |a.val - b.val| ≤ 2 ^ (62 : ℤ) ∧
      |(F32.sub a b).val - (a.val - b.val)| ≤ |a.val - b.val| / 2 ^ 24 + 2 ^ (-150 : ℤ) := by
    intro a b fa fb ha hb
    have hs : |a.val - b.val| ≤ 2 ^ (62 : ℤ) := by
      have := abs_sub a.val b.val
      norm_num at *
      linarith
    obtain ⟨f, v⟩ := sub_fin fa fb (lt_of_le_of_lt (rnd32_abs_le (by norm_num) hs) (pow_lt128 (by norm_num)))
    refine ⟨f, hs, ?_⟩
    rw [v]
    have := rnd32_err' (a.val - b.val)
    rwa [← mul_one_div]
  have x := one fe.1.2 fp.1.2 be.1 bp.1
  have y := one fe.2.1.2 fp.2.1.2 be.2.1 bp.2.1
  have z := one fe.2.2.2 fp.2.2.2 be.2.2 bp.2.2
  exact dir_near ⟨⟨ok_sub _ _, x.1⟩, ⟨ok_sub _ _, y.1⟩, ⟨ok_sub _ _, z.1⟩⟩ ⟨x.2.1, y.2.1, z.2.1⟩ h0 x.2.2 y.2.2 z.2.2

theorem sees_up {m : ℚ} {pos eye up : V3 F32} (h : Sees m pos eye up) :
    Unit (normalize up) ∧ ∃ c > 0, |c * c * qdot (ev up) (ev up) - 1| ≤ 12 / 10 ^ 6 ∧
      ∃ ε : V3 ℚ, Cl (21 / 10 / 2 ^ 24) ε ∧ (normalize up).x.val = c * up.x.val + ε.x ∧
        (normalize up).y.val = c * up.y.val + ε.y ∧ (normalize up).z.val = c * up.z.val + ε.z := by
  obtain ⟨⟨-, -, fu⟩, ⟨-, -, bu⟩, h0, -⟩ := h
  have k : (2 : ℚ) ^ (60 : ℤ) ≤ 2 ^ (62 : ℤ) := by norm_num
  have s : ∀ q : ℚ, |q - q| ≤ |q| / 2 ^ 24 + 2 ^ (-150 : ℤ) := fun q => by
    rw [sub_self, abs_zero]
    positivity
  rw [len2_eq] at h0
  exact dir_near (D := ev up) fu ⟨bu.1.trans k, bu.2.1.trans k, bu.2.2.trans k⟩ h0 (s _) (s _) (s _)

/-- The sine of the angle between the rounded vectors. -/
theorem sees_cross {m : ℚ} {pos eye up : V3 F32} (h : Sees m pos eye up) :
    (99 / 100 * m) ^ 2 ≤ qdot (qcross (ev (normalize up)) (ev (normalize (vsub eye pos))))
      (qcross (ev (normalize up)) (ev (normalize (vsub eye pos)))) := by
  obtain ⟨ud, c, c0, hc, β, hβ, dx, dy, dz⟩ := sees_dir h
  obtain ⟨uu, k, k0, hk, α, hα, ux, uy, uz⟩ := sees_up h
  obtain ⟨-, -, -, -, hm, hs⟩ := h
  have sc := ud.cl
  have su := uu.cl
  generalize hD : exactSub eye pos = D at *
  have ex : eye.x.val - pos.x.val = D.x := by rw [← hD]; rfl
  have ey : eye.y.val - pos.y.val = D.y := by rw [← hD]; rfl
  have ez : eye.z.val - pos.z.val = D.z := by rw [← hD]; rfl
  rw [ex] at dx
  rw [ey] at dy
  rw [ez] at dz
  generalize hV : ev up = V at *
  have vx : up.x.val = V.x := by rw [← hV]; rfl
  have vy : up.y.val = V.y := by rw [← hV]; rfl
  have vz : up.z.val = V.z := by rw [← hV]; rfl
  rw [vx] at ux
  rw [vy] at uy
  rw [vz] at uz
  have big : m ^ 2 * (9999 / 10000) ≤ k * k * (c * c) * qdot (qcross V D) (qcross V D) := by
    have h1 : (1 - 12 / 10 ^ 6) * (1 - 12 / 10 ^ 6) ≤ (k * k * qdot V V) * (c * c * qdot D D) :=
      mul_le_mul (by linarith [(abs_le.1 hk).1]) (by linarith [(abs_le.1 hc).1]) (by norm_num)
        (mul_nonneg (mul_self_nonneg _) (qdot_nonneg _))
    have h2 := mul_le_mul_of_nonneg_left hs (mul_nonneg (mul_self_nonneg k) (mul_self_nonneg c))
    have h3 := mul_le_mul_of_nonneg_left h1 (sq_nonneg m)
    have e : k * k * (c * c) * (m ^ 2 * (qdot V V * qdot D D)) = m ^ 2 * ((k * k * qdot V V) * (c * c * qdot D D)) := by ring
    rw [e] at h2
    have m2 := sq_nonneg m
    norm_num at *
    linarith
  -- the difference of the cross products
  have nu : ev (normalize up) = ⟨k * V.x + α.x, k * V.y + α.y, k * V.z + α.z⟩ := by unfold ev; rw [ux, uy, uz]
  have nd : ev (normalize (vsub eye pos)) = ⟨c * D.x + β.x, c * D.y + β.y, c * D.z + β.z⟩ := by unfold ev; rw [dx, dy, dz]
  rw [nu, nd]
  rw [nu] at su
  rw [nd] at sc
  have sm : ∀ {p e q f r g s t : ℚ}, |p + e| ≤ 1 + 6 / 10 ^ 6 → |q + f| ≤ 1 + 6 / 10 ^ 6 → |r + g| ≤ 1 + 6 / 10 ^ 6 →
      |s + t| ≤ 1 + 6 / 10 ^ 6 → |e| ≤ 21 / 10 / 2 ^ 24 → |f| ≤ 21 / 10 / 2 ^ 24 → |g| ≤ 21 / 10 / 2 ^ 24 →
      |t| ≤ 21 / 10 / 2 ^ 24 → |((p + e) * f + e * (q + f) + -(e * f)) + -((r + g) * t + g * (s + t) + -(g * t))| ≤ 85 / 10 / 2 ^ 24 := by
    intro p e q f r g s t hp hq hr hs he hf hg ht
    refine abs2 (P := 425 / 100 / 2 ^ 24) (Q := 425 / 100 / 2 ^ 24) (abs3 (absm hp hf) (absm he hq)
      (R := 21 / 10 / 2 ^ 24 * (21 / 10 / 2 ^ 24)) ?_ ?_) ?_ (by norm_num)
    · rw [abs_neg]; exact absm he hf
    · norm_num
    · rw [abs_neg]
      refine abs3 (absm hr ht) (absm hg hs) (R := 21 / 10 / 2 ^ 24 * (21 / 10 / 2 ^ 24)) ?_ ?_
      · rw [abs_neg]; exact absm hg ht
      · norm_num
  have zx := sm su.2.1 sc.2.2 su.2.2 sc.2.1 hα.2.1 hβ.2.2 hα.2.2 hβ.2.1
  have zy := sm su.2.2 sc.1 su.1 sc.2.2 hα.2.2 hβ.1 hα.1 hβ.2.2
  have zz := sm su.1 sc.2.1 su.2.1 sc.1 hα.1 hβ.2.1 hα.2.1 hβ.1
  have hζ : ∃ ζ : V3 ℚ, Cl (85 / 10 / 2 ^ 24) ζ ∧
      qcross ⟨k * V.x + α.x, k * V.y + α.y, k * V.z + α.z⟩ ⟨c * D.x + β.x, c * D.y + β.y, c * D.z + β.z⟩ =
      ⟨k * c * (qcross V D).x + ζ.x, k * c * (qcross V D).y + ζ.y, k * c * (qcross V D).z + ζ.z⟩ := by
    refine ⟨⟨_, _, _⟩, ⟨zx, zy, zz⟩, ?_⟩
    unfold qcross
    dsimp only
    congr 1 <;> ring
  obtain ⟨ζ, hζ, e⟩ := hζ
  rw [e]
  have eY : qdot ⟨k * c * (qcross V D).x, k * c * (qcross V D).y, k * c * (qcross V D).z⟩
      ⟨k * c * (qcross V D).x, k * c * (qcross V D).y, k * c * (qcross V D).z⟩ = k * k * (c * c) * qdot (qcross V D) (qcross V D) := by
    unfold qdot; ring
  have eS : qdot ⟨k * c * (qcross V D).x + ζ.x, k * c * (qcross V D).y + ζ.y, k * c * (qcross V D).z + ζ.z⟩
      ⟨k * c * (qcross V D).x + ζ.x, k * c * (qcross V D).y + ζ.y, k * c * (qcross V D).z + ζ.z⟩ =
      qdot ⟨k * c * (qcross V D).x, k * c * (qcross V D).y, k * c * (qcross V D).z⟩
      ⟨k * c * (qcross V D).x, k * c * (qcross V D).y, k * c * (qcross V D).z⟩ +
      2 * qdot ⟨k * c * (qcross V D).x, k * c * (qcross V D).y, k * c * (qcross V D).z⟩ ζ + qdot ζ ζ := by unfold qdot; ring
  rw [eS]
  rw [← eY] at big
  generalize (⟨k * c * (qcross V D).x, k * c * (qcross V D).y, k * c * (qcross V D).z⟩ : V3 ℚ) = Y at *
  have m0 : 0 < m := lt_of_lt_of_le (by norm_num) hm
  have m2 : 1 / 2 ^ 24 ≤ m ^ 2 := by
    have := pow_le_pow_left₀ (by norm_num) hm 2
    norm_num at *
    linarith
  have Yz : |qdot Y ζ| ≤ 4 / 1000 * qdot Y Y := by
    refine abs_le_of_sq_le_sq ?_ (mul_nonneg (by norm_num) (qdot_nonneg _))
    have c1 := cs3 Y ζ
    have c2 := mul_le_mul_of_nonneg_left (cl_len hζ) (qdot_nonneg Y)
    have c3 : (17321 / 10000 * (85 / 10 / 2 ^ 24)) ^ 2 ≤ (4 / 1000) ^ 2 * qdot Y Y := by
      have : (17321 / 10000 * (85 / 10 / 2 ^ 24) : ℚ) ^ 2 ≤ (4 / 1000) ^ 2 * (1 / 2 ^ 24 * (9999 / 10000)) := by norm_num
      refine this.trans (mul_le_mul_of_nonneg_left ?_ (by norm_num))
      exact (mul_le_mul_of_nonneg_right m2 (by norm_num)).trans big
    have c4 := mul_le_mul_of_nonneg_left c3 (qdot_nonneg Y)
    have e : (4 / 1000 * qdot Y Y) ^ 2 = qdot Y Y * ((4 / 1000) ^ 2 * qdot Y Y) := by ring
    rw [e]
    exact c1.trans (c2.trans c4)
  have l := (abs_le.1 Yz).1
  have z0 := qdot_nonneg ζ
  have e : (99 / 100 * m) ^ 2 = 9801 / 10000 * m ^ 2 := by ring
  rw [e]
  norm_num at big ⊢
  linarith [sq_nonneg m]

/-- The columns of the matrix. -/
def col0 (c : M4 F32) : V3 F32 := ⟨c.m00, c.m10, c.m20⟩
def col1 (c : M4 F32) : V3 F32 := ⟨c.m01, c.m11, c.m21⟩
def col2 (c : M4 F32) : V3 F32 := ⟨c.m02, c.m12, c.m22⟩
def col3 (c : M4 F32) : V3 F32 := ⟨c.m03, c.m13, c.m23⟩

/-- The cross product of two vectors of length one that are almost perpendicular, before it is normalised. -/
theorem cross_unit {a b : V3 F32} {δ : ℚ} (ha : Unit a) (hb : Unit b) (hd : |qdot (ev a) (ev b)| ≤ δ) (h : δ ≤ 1 / 500) :
    FiniteVec (cross a b) ∧ |exactLen2 (cross a b) - 1| ≤ 3 / 10 ^ 5 ∧
      |exactDot (cross a b) a| ≤ 4 / 2 ^ 24 ∧ |exactDot (cross a b) b| ≤ 4 / 2 ^ 24 := by
  obtain ⟨f, E, hE, x, y, z⟩ := cross_err ha hb
  have A : exactDot (cross a b) a = qdot E (ev a) := by
    unfold exactDot qdot
    rw [x, y, z]
    unfold qcross ev
    ring
  have B : exactDot (cross a b) b = qdot E (ev b) := by
    unfold exactDot qdot
    rw [x, y, z]
    unfold qcross ev
    ring
  have L : exactLen2 (cross a b) = (qdot (ev a) (ev a) * qdot (ev b) (ev b) - qdot (ev a) (ev b) ^ 2) +
      2 * qdot E (qcross (ev a) (ev b)) + qdot E E := by
    rw [← lagrange]
    unfold exactLen2
    rw [x, y, z]
    unfold qdot
    ring
  have l := cl_len hE
  have n : (17321 / 10000 * (22 / 10 / 2 ^ 24) * (1 + 6 / 10 ^ 6) : ℚ) ≤ 4 / 2 ^ 24 := by norm_num
  refine ⟨f, ?_, ?_, ?_⟩
  · rw [L]
    have u : qdot (ev a) (ev a) * qdot (ev b) (ev b) ≤ (1 + 11 / 10 ^ 6) * (1 + 11 / 10 ^ 6) :=
      mul_le_mul (by linarith [(abs_le.1 ha.len).2]) (by linarith [(abs_le.1 hb.len).2]) (qdot_nonneg _) (by norm_num)
    have v : (1 - 11 / 10 ^ 6) * (1 - 11 / 10 ^ 6) ≤ qdot (ev a) (ev a) * qdot (ev b) (ev b) :=
      mul_le_mul (by linarith [(abs_le.1 ha.len).1]) (by linarith [(abs_le.1 hb.len).1]) (by norm_num) (qdot_nonneg _)
    have w : qdot (ev a) (ev b) ^ 2 ≤ 4 / 10 ^ 6 := by
      rw [← sq_abs]
      refine (pow_le_pow_left₀ (abs_nonneg _) (hd.trans h) 2).trans (by norm_num)
    have w0 := sq_nonneg (qdot (ev a) (ev b))
    have g := qdot_le (a := E) (b := qcross (ev a) (ev b)) (B := 1 + 12 / 10 ^ 6) (by norm_num) (by norm_num) l (by
      rw [lagrange]
      norm_num at *
      linarith)
    have E0 := qdot_nonneg E
    obtain ⟨g1, g2⟩ := abs_le.1 g
    rw [abs_le]
    generalize qdot (ev a) (ev a) * qdot (ev b) (ev b) = p at *
    generalize qdot (ev a) (ev b) ^ 2 = q at *
    clear hd
    norm_num at u v w g1 g2 l ⊢
    constructor <;> linarith
  · rw [A]; exact (qdot_le (by norm_num) (by norm_num) l ha.le).trans n
  · rw [B]; exact (qdot_le (by norm_num) (by norm_num) l hb.le).trans n

theorem div_m {m : ℚ} (hm : 1 / 2 ^ 12 ≤ m) : 8 / 2 ^ 24 / m ≤ 1 / 500 := by
  have m0 : 0 < m := lt_of_lt_of_le (by norm_num) hm
  rw [div_le_iff₀ m0]
  norm_num at *
  linarith

theorem look_left {m : ℚ} {pos eye up : V3 F32} (h : Sees m pos eye up) :
    Unit (normalize (cross (normalize up) (normalize (vsub eye pos)))) ∧
    |exactDot (normalize (cross (normalize up) (normalize (vsub eye pos)))) (normalize (vsub eye pos))| ≤ 8 / 2 ^ 24 / m := by
  have hs := sees_cross h
  obtain ⟨ud, -⟩ := sees_dir h
  obtain ⟨uu, -⟩ := sees_up h
  have hm := h.2.2.2.2.1
  have m0 : 0 < m := lt_of_lt_of_le (by norm_num) hm
  have hm' : 1 / 2 ^ 16 ≤ 99 / 100 * m := by norm_num at *; linarith
  obtain ⟨-, p⟩ := cross_perp uu ud hm' hs
  obtain ⟨U, -⟩ := cross_near uu ud hm' hs
  refine ⟨U, p.trans ?_⟩
  rw [div_le_div_iff₀ (by positivity) m0]
  norm_num at *
  linarith

/-- **C170, the camera.**  The matrix of a camera has the vectors to the left, up and along the direction of view as its
columns: they are finite, have length one up to `3·10⁻⁵` and are perpendicular up to `8/2^24` by the sine of the angle
between the up vector and the direction of view; they are right handed.  The direction is that from the position to the
target, up is on the side of the given up vector, the fourth column is the position, and the last row is that of an affine
map. -/
theorem C170_camera_frame {m : ℚ} {pos target up : V3 F32} (h : Sees m pos target up) :
    let c := lookAtInverse pos target up
    Unit (col0 c) ∧ (FiniteVec (col1 c) ∧ |exactLen2 (col1 c) - 1| ≤ 3 / 10 ^ 5) ∧ Unit (col2 c) ∧
    |exactDot (col0 c) (col2 c)| ≤ 8 / 2 ^ 24 / m ∧ |exactDot (col1 c) (col0 c)| ≤ 4 / 2 ^ 24 ∧
    |exactDot (col1 c) (col2 c)| ≤ 4 / 2 ^ 24 ∧ 99 / 100 ≤ exactTriple (col0 c) (col1 c) (col2 c) ∧
    (∃ k > 0, |(col2 c).x.val - k * (target.x.val - pos.x.val)| ≤ 21 / 10 / 2 ^ 24 ∧
      |(col2 c).y.val - k * (target.y.val - pos.y.val)| ≤ 21 / 10 / 2 ^ 24 ∧
      |(col2 c).z.val - k * (target.z.val - pos.z.val)| ≤ 21 / 10 / 2 ^ 24) ∧
    0 < exactDot (col1 c) up ∧ col3 c = pos ∧ FPlace.LastRow c := by
  intro c
  have hs := sees_cross h
  obtain ⟨ul, ld⟩ := look_left h
  obtain ⟨ud, k, k0, -, β, hβ, dx, dy, dz⟩ := sees_dir h
  obtain ⟨uu, k', k0', -, α, hα, ux, uy, uz⟩ := sees_up h
  have hm := h.2.2.2.2.1
  have m0 : 0 < m := lt_of_lt_of_le (by norm_num) hm
  have hm' : 1 / 2 ^ 16 ≤ 99 / 100 * m := by norm_num at *; linarith
  obtain ⟨-, q, q0, qm, -, ε, hε, lx, ly, lz⟩ := cross_near uu ud hm' hs
  have c0 : col0 c = normalize (cross (normalize up) (normalize (vsub target pos))) := by
    show col0 (lookAtInverse pos target up) = _
    unfold lookAtInverse col0
    rw [upVector_eq]
  have c2 : col2 c = normalize (vsub target pos) := rfl
  have c1 : col1 c = cross (normalize (vsub target pos)) (normalize (cross (normalize up) (normalize (vsub target pos)))) := by
    show col1 (lookAtInverse pos target up) = _
    unfold lookAtInverse col1
    rw [upVector_eq]
  rw [c0, c1, c2]
  generalize hL : normalize (cross (normalize up) (normalize (vsub target pos))) = L at *
  generalize hD : normalize (vsub target pos) = D at *
  have dl : |qdot (ev D) (ev L)| ≤ 8 / 2 ^ 24 / m := by rw [qdot_comm]; exact ld
  obtain ⟨fn, ln, nd, nl⟩ := cross_unit ud ul dl (div_m hm)
  obtain ⟨-, E, hE, nx, ny, nz⟩ := cross_err ud ul
  refine ⟨ul, ⟨fn, ln⟩, ud, ld, nl, nd, ?_, ⟨k, k0, ?_, ?_, ?_⟩, ?_, rfl, ?_⟩
  · -- handed
    have e : exactTriple L (cross D L) D = qdot (qcross (ev D) (ev L)) (ev (cross D L)) := by
      unfold exactTriple qdot qcross ev; ring
    have e2 : qdot (ev (cross D L)) (ev (cross D L)) = qdot (qcross (ev D) (ev L)) (ev (cross D L)) + qdot E (ev (cross D L)) := by
      have x : (ev (cross D L)).x = (qcross (ev D) (ev L)).x + E.x := nx
      have y : (ev (cross D L)).y = (qcross (ev D) (ev L)).y + E.y := ny
      have z : (ev (cross D L)).z = (qcross (ev D) (ev L)).z + E.z := nz
      have : ∀ a b c : V3 ℚ, a.x = b.x + c.x → a.y = b.y + c.y → a.z = b.z + c.z → qdot a a = qdot b a + qdot c a := by
        intro a b c h1 h2 h3
        have i1 : a.x * a.x = (b.x + c.x) * a.x := by rw [← h1]
        have i2 : a.y * a.y = (b.y + c.y) * a.y := by rw [← h2]
        have i3 : a.z * a.z = (b.z + c.z) * a.z := by rw [← h3]
        unfold qdot
        linarith
      exact this _ _ _ x y z
    rw [len2_eq] at ln
    have ql := qdot_le (by norm_num) (by norm_num : (0 : ℚ) ≤ 101 / 100) (cl_len hE) (b := ev (cross D L)) (by
      have := (abs_le.1 ln).2
      norm_num at *
      linarith)
    have q2 := (abs_le.1 ql).2
    have l1 := (abs_le.1 ln).1
    rw [e]
    clear hm hm'
    norm_num at q2 l1 ⊢
    linarith
  · have e : D.x.val - k * (target.x.val - pos.x.val) = β.x := by rw [dx]; ring
    rw [e]; exact hβ.1
  · have e : D.y.val - k * (target.y.val - pos.y.val) = β.y := by rw [dy]; ring
    rw [e]; exact hβ.2.1
  · have e : D.z.val - k * (target.z.val - pos.z.val) = β.z := by rw [dz]; ring
    rw [e]; exact hβ.2.2
  · -- the side of the up vector
    have s1 : k' * exactDot (cross D L) up = qdot (qcross (ev D) (ev L)) (ev (normalize up)) + qdot E (ev (normalize up)) -
        qdot α (ev (cross D L)) := by
      have eu : ∀ a b c u : V3 ℚ, a.x = k' * u.x + b.x → a.y = k' * u.y + b.y → a.z = k' * u.z + b.z →
          k' * qdot c u = qdot c a - qdot b c := by
        intro a b c u h1 h2 h3
        unfold qdot
        rw [h1, h2, h3]; ring
      have := eu (ev (normalize up)) α (ev (cross D L)) (ev up) ux uy uz
      rw [exactDot_eq, this]
      have ed : qdot (ev (cross D L)) (ev (normalize up)) = qdot (qcross (ev D) (ev L)) (ev (normalize up)) + qdot E (ev (normalize up)) := by
        have x : (ev (cross D L)).x = (qcross (ev D) (ev L)).x + E.x := nx
        have y : (ev (cross D L)).y = (qcross (ev D) (ev L)).y + E.y := ny
        have z : (ev (cross D L)).z = (qcross (ev D) (ev L)).z + E.z := nz
        unfold qdot
        rw [x, y, z]; ring
      rw [ed]
    have s2 : qdot (qcross (ev D) (ev L)) (ev (normalize up)) = qdot (qcross (ev (normalize up)) (ev D)) (ev L) := by
      unfold qdot qcross; ring
    have s3 : qdot (ev L) (ev L) = q * qdot (qcross (ev (normalize up)) (ev D)) (ev L) + qdot ε (ev L) := by
      have x : (ev L).x = q * (qcross (ev (normalize up)) (ev D)).x + ε.x := lx
      have y : (ev L).y = q * (qcross (ev (normalize up)) (ev D)).y + ε.y := ly
      have z : (ev L).z = q * (qcross (ev (normalize up)) (ev D)).z + ε.z := lz
      have : ∀ a b c : V3 ℚ, a.x = q * b.x + c.x → a.y = q * b.y + c.y → a.z = q * b.z + c.z → qdot a a = q * qdot b a + qdot c a := by
        intro a b c h1 h2 h3
        have i1 : a.x * a.x = (q * b.x + c.x) * a.x := by rw [← h1]
        have i2 : a.y * a.y = (q * b.y + c.y) * a.y := by rw [← h2]
        have i3 : a.z * a.z = (q * b.z + c.z) * a.z := by rw [← h3]
        unfold qdot
        linarith
      exact this _ _ _ x y z
    have l1 := (abs_le.1 ul.len).1
    have εL := (abs_le.1 (qdot_le (by positivity) (by norm_num : (0 : ℚ) ≤ 1 + 6 / 10 ^ 6) (cl_len hε) ul.le)).2
    have small : 17321 / 10000 * (7 / 2 / 2 ^ 24 / (99 / 100 * m)) * (1 + 6 / 10 ^ 6) ≤ 1 / 100 := by
      have : 7 / 2 / 2 ^ 24 / (99 / 100 * m) ≤ 1 / 1000 := by
        rw [div_le_iff₀ (by positivity)]
        clear εL
        norm_num at *
        linarith
      norm_num at *
      linarith
    have big : 98 / 100 ≤ q * qdot (qcross (ev (normalize up)) (ev D)) (ev L) := by
      rw [s3] at l1
      have := εL.trans small
      norm_num at l1 ⊢
      linarith
    have T : 95 / 100 * m ≤ qdot (qcross (ev (normalize up)) (ev D)) (ev L) := by
      by_contra hh
      push Not at hh
      have h1 : q * qdot (qcross (ev (normalize up)) (ev D)) (ev L) ≤ q * (95 / 100 * m) := mul_le_mul_of_nonneg_left hh.le q0.le
      have h2 : q * (95 / 100 * m) = 95 / 99 * (q * (99 / 100 * m)) := by ring
      rw [h2] at h1
      have h3 : 95 / 99 * (q * (99 / 100 * m)) ≤ 95 / 99 * (51 / 50) := mul_le_mul_of_nonneg_left qm (by norm_num)
      have := big.trans (h1.trans h3)
      norm_num at this
    have e1 := (abs_le.1 (qdot_le (by norm_num) (by norm_num : (0 : ℚ) ≤ 1 + 6 / 10 ^ 6) (cl_len hE) uu.le)).1
    rw [len2_eq] at ln
    have e2 := (abs_le.1 (qdot_le (by norm_num) (by norm_num : (0 : ℚ) ≤ 101 / 100) (cl_len hα) (b := ev (cross D L)) (by
      have := (abs_le.1 ln).2
      norm_num at *
      linarith))).2
    have : 0 < k' * exactDot (cross D L) up := by
      rw [s1, s2]
      clear εL small big l1
      norm_num at hm T e1 e2 ⊢
      linarith
    exact (mul_pos_iff_of_pos_left k0').1 this
  · exact ⟨⟨trivial, rfl⟩, ⟨trivial, rfl⟩, ⟨trivial, rfl⟩, trivial, rfl⟩

/-! ### The rays of the cameras -/

theorem row_zero {a b c t : F32} (ha : FPlace.Upto 1 a) (hb : FPlace.Upto 1 b) (hc : FPlace.Upto 1 c) (ht : t.Ok ∧ t.Finite)
    (h : |t.val| ≤ 2 ^ (60 : ℤ)) :
    (FPlace.row a b c t ⟨zero false, zero false, zero false⟩).Finite ∧
    (FPlace.row a b c t ⟨zero false, zero false, zero false⟩).val = t.val := by
  have z : FPlace.Upto 59 (zero false) := ⟨trivial, by rw [show (zero false).val = 0 from rfl, abs_zero]; positivity⟩
  obtain ⟨u, v⟩ := FPlace.row_val (i := 1) (j := 59) ha hb hc (t := t) ⟨ht.2, by norm_num at h ⊢; exact h⟩
    (p := ⟨zero false, zero false, zero false⟩) ⟨z, z, z⟩ (by norm_num) (by norm_num)
  refine ⟨u.1, ?_⟩
  rw [v]
  unfold FPlace.rowQ
  rw [show (zero false).val = 0 from rfl]
  simp only [mul_zero, rnd32_zero, add_zero, _root_.zero_add, (ok_val ht.1).1]

theorem col_upto {v : V3 F32} (hf : FiniteVec v) (h : Cl (1 + 1 / 10 ^ 4) (ev v)) : FPlace.Upto3 1 v := by
  have l : (1 + 1 / 10 ^ 4 : ℚ) ≤ 2 ^ (1 : ℤ) := by norm_num
  exact ⟨⟨hf.1.2, h.1.trans l⟩, ⟨hf.2.1.2, h.2.1.trans l⟩, ⟨hf.2.2.2, h.2.2.trans l⟩⟩

theorem col1_cl {v : V3 F32} (h : |exactLen2 v - 1| ≤ 3 / 10 ^ 5) : Cl (1 + 1 / 10 ^ 4) (ev v) :=
  len_cl (by norm_num) (by rw [← len2_eq]; have := (abs_le.1 h).2; norm_num at *; linarith)

/-- **C170, where rays start.**  The rays of the perspective and of the panoramic camera start at the position of the
camera, without any error. -/
theorem C170_camera_origin {m : ℚ} {pos target up : V3 F32} (h : Sees m pos target up) :
    let o := eyePoint (lookAtInverse pos target up)
    (o.x.Finite ∧ o.y.Finite ∧ o.z.Finite) ∧ o.x.val = pos.x.val ∧ o.y.val = pos.y.val ∧ o.z.val = pos.z.val := by
  intro o
  obtain ⟨u0, ⟨f1, l1⟩, u2, -, -, -, -, -, -, e3, lr⟩ := C170_camera_frame h
  obtain ⟨⟨fp, -, -⟩, ⟨bp, -, -⟩, -⟩ := h
  obtain ⟨x0, y0, z0⟩ := u0.upto
  obtain ⟨x1, y1, z1⟩ := col_upto f1 (col1_cl l1)
  obtain ⟨x2, y2, z2⟩ := u2.upto
  have e : o = ⟨_, _, _⟩ := FPlace.C168_affine lr (p := ⟨zero false, zero false, zero false⟩) ⟨trivial, trivial, trivial⟩
  rw [e]
  have ex := row_zero x0 x1 x2 (t := pos.x) fp.1 bp.1
  have ey := row_zero y0 y1 y2 (t := pos.y) fp.2.1 bp.2.1
  have ez := row_zero z0 z1 z2 (t := pos.z) fp.2.2 bp.2.2
  exact ⟨⟨ex.1, ey.1, ez.1⟩, ex.2, ey.2, ez.2⟩

/-- The camera, as a basis. -/
theorem look_basis {m : ℚ} {pos target up : V3 F32} (h : Sees m pos target up) :
    let c := lookAtInverse pos target up
    Basis (3 / 10 ^ 5) (8 / 2 ^ 24 / m) (ev (col0 c)) (ev (col1 c)) (ev (col2 c)) ∧ m ≤ 1 + 1 / 10 ^ 4 := by
  intro c
  obtain ⟨u0, ⟨f1, l1⟩, u2, d02, d10, d12, -⟩ := C170_camera_frame h
  have m0 : 0 < m := lt_of_lt_of_le (by norm_num) h.2.2.2.2.1
  have m1 : m ≤ 1 + 1 / 10 ^ 4 := by
    obtain ⟨-, -, h0, h1, -, h2⟩ := h
    rw [len2_eq] at h0
    rw [lagrange] at h2
    have p : 0 < qdot (ev up) (ev up) * qdot (exactSub target pos) (exactSub target pos) :=
      mul_pos (lt_of_lt_of_le (two_zpow_pos _) h0) (lt_of_lt_of_le (two_zpow_pos _) h1)
    have q := sq_nonneg (qdot (ev up) (exactSub target pos))
    have : m ^ 2 ≤ 1 ^ 2 := by
      by_contra hh
      push Not at hh
      have := mul_lt_mul_of_pos_right hh p
      linarith
    exact (le_of_sq_le_sq this (by norm_num)).trans (by norm_num)
  have k : (4 / 2 ^ 24 : ℚ) ≤ 8 / 2 ^ 24 / m := by
    rw [le_div_iff₀ m0]
    norm_num at *
    linarith
  have g : (11 / 10 ^ 6 : ℚ) ≤ 3 / 10 ^ 5 := by norm_num
  rw [len2_eq] at l1
  refine ⟨⟨⟨u0.len.trans g, l1, u2.len.trans g⟩, ?_, d12.trans k, ?_⟩, m1⟩
  · rw [qdot_comm]; exact d10.trans k
  · rw [qdot_comm]; exact d02

/-- **C170, the direction of rays.**  For a vector of the space of the camera that can be normalised, the direction of the
ray is finite, of length one up to `5·10⁻⁵` (and `17/2^24` by the sine), and its components along the columns of the matrix
are the coordinates of the normalised vector up to `4·10⁻⁵` (and `13/2^24` by the sine). -/
theorem C170_camera_direction {m : ℚ} {pos target up d : V3 F32} (h : Sees m pos target up) (fd : FiniteVec d)
    (bd : Within (2 ^ (63 : ℤ)) d) (ld : 2 ^ (-126 : ℤ) ≤ exactLen2 d) :
    let c := lookAtInverse pos target up
    let w := eyeDirection c d
    FiniteVec w ∧ |exactLen2 w - 1| ≤ 5 / 10 ^ 5 + 17 / 2 ^ 24 / m ∧
    |exactDot w (col0 c) - (normalize d).x.val| ≤ 4 / 10 ^ 5 + 13 / 2 ^ 24 / m ∧
    |exactDot w (col1 c) - (normalize d).y.val| ≤ 4 / 10 ^ 5 + 13 / 2 ^ 24 / m ∧
    |exactDot w (col2 c) - (normalize d).z.val| ≤ 4 / 10 ^ 5 + 13 / 2 ^ 24 / m := by
  intro c w
  obtain ⟨B, m1⟩ := look_basis h
  obtain ⟨u0, ⟨f1, l1⟩, u2, -⟩ := C170_camera_frame h
  have c1 := col1_cl l1
  obtain ⟨fr, lr, -⟩ := C156_unit_partial d fd bd ld
  have ur : Unit (normalize d) := ⟨fr, lr⟩
  have hm := h.2.2.2.2.1
  have m0 : 0 < m := lt_of_lt_of_le (by norm_num) hm
  have dm := div_m hm
  have δ0 : 0 < 1 / 2 ^ 24 / m := by positivity
  have s8 : 8 / 2 ^ 24 / m = 8 * (1 / 2 ^ 24 / m) := by ring
  have s17 : 17 / 2 ^ 24 / m = 17 * (1 / 2 ^ 24 / m) := by ring
  have s13 : 13 / 2 ^ 24 / m = 13 * (1 / 2 ^ 24 / m) := by ring
  have e1 : (1 / 2 ^ 24 : ℚ) ≤ (1 + 1 / 10 ^ 4) * (1 / 2 ^ 24 / m) := by
    rw [← mul_div_assoc, le_div_iff₀ m0]
    norm_num at *
    linarith
  rw [s8] at B dm
  rw [s17, s13]
  generalize 1 / 2 ^ 24 / m = δ at *
  obtain ⟨fw, E, hE, x, y, z⟩ := combo_near u0.1 f1 u2.1 u0.cl4 c1 u2.cl4 ur
  have cl := combo_len (v := ev (normalize d)) B
  obtain ⟨px, py, pz⟩ := combo_dots B (by norm_num : (0 : ℚ) ≤ 1 + 6 / 10 ^ 6) ur.le
  have vl := ur.len
  have vv : qdot (ev (normalize d)) (ev (normalize d)) ≤ 1 + 11 / 10 ^ 6 := by linarith [(abs_le.1 vl).2]
  have hw : w = ⟨FPlace.row3 (col0 c).x (col1 c).x (col2 c).x (normalize d), FPlace.row3 (col0 c).y (col1 c).y (col2 c).y (normalize d),
    FPlace.row3 (col0 c).z (col1 c).z (col2 c).z (normalize d)⟩ := rfl
  have wx : w.x.val = (combo (ev (col0 c)) (ev (col1 c)) (ev (col2 c)) (ev (normalize d))).x + E.x := x
  have wy : w.y.val = (combo (ev (col0 c)) (ev (col1 c)) (ev (col2 c)) (ev (normalize d))).y + E.y := y
  have wz : w.z.val = (combo (ev (col0 c)) (ev (col1 c)) (ev (col2 c)) (ev (normalize d))).z + E.z := z
  have fw' : FiniteVec w := fw
  clear hw fw x y z
  have cl' : |qdot (combo (ev (col0 c)) (ev (col1 c)) (ev (col2 c)) (ev (normalize d)))
      (combo (ev (col0 c)) (ev (col1 c)) (ev (col2 c)) (ev (normalize d))) - qdot (ev (normalize d)) (ev (normalize d))| ≤
      (3 / 10 ^ 5 + 2 * (8 * δ)) * (1 + 11 / 10 ^ 6) :=
    cl.trans (mul_le_mul_of_nonneg_left vv (by positivity))
  change |qdot (combo (ev (col0 c)) (ev (col1 c)) (ev (col2 c)) (ev (normalize d))) (ev (col0 c)) - _| ≤ _ at px
  change |qdot (combo (ev (col0 c)) (ev (col1 c)) (ev (col2 c)) (ev (normalize d))) (ev (col1 c)) - _| ≤ _ at py
  change |qdot (combo (ev (col0 c)) (ev (col1 c)) (ev (col2 c)) (ev (normalize d))) (ev (col2 c)) - _| ≤ _ at pz
  generalize combo (ev (col0 c)) (ev (col1 c)) (ev (col2 c)) (ev (normalize d)) = P at *
  have PP : qdot P P ≤ (102 / 100) ^ 2 := by
    have := (abs_le.1 cl').2
    norm_num at *
    linarith
  have l := cl_len hE
  have PE := qdot_le (by norm_num) (by norm_num : (0 : ℚ) ≤ 102 / 100) l PP
  refine ⟨fw', ?_, ?_, ?_, ?_⟩
  · have e : exactLen2 w - 1 = ((qdot P P - qdot (ev (normalize d)) (ev (normalize d))) + (qdot (ev (normalize d)) (ev (normalize d)) - 1) +
        2 * qdot E P) + qdot E E := by
      unfold exactLen2
      rw [wx, wy, wz]
      unfold qdot
      ring
    rw [e]
    have b2 : |2 * qdot E P| ≤ 2 * (17321 / 10000 * (9 / 2 ^ 24) * (102 / 100)) := by
      rw [abs_mul, abs_of_pos (by norm_num : (0 : ℚ) < 2)]; linarith
    have b3 : |qdot E E| ≤ 1 / 10 ^ 8 := by
      rw [abs_of_nonneg (qdot_nonneg E)]
      exact l.trans (by norm_num)
    refine abs2 (abs3 cl' vl b2 le_rfl) b3 ?_
    norm_num at *
    linarith
  · have e : exactDot w (col0 c) - (normalize d).x.val = (qdot P (ev (col0 c)) - (normalize d).x.val) + qdot E (ev (col0 c)) := by
      unfold exactDot
      rw [wx, wy, wz]
      unfold qdot ev
      ring
    rw [e]
    refine abs2 px (qdot_le (by norm_num) (by norm_num : (0 : ℚ) ≤ 1 + 6 / 10 ^ 6) l u0.le) ?_
    norm_num at *
    linarith
  · have e : exactDot w (col1 c) - (normalize d).y.val = (qdot P (ev (col1 c)) - (normalize d).y.val) + qdot E (ev (col1 c)) := by
      unfold exactDot
      rw [wx, wy, wz]
      unfold qdot ev
      ring
    rw [e]
    rw [len2_eq] at l1
    refine abs2 py (qdot_le (by norm_num) (by norm_num : (0 : ℚ) ≤ 102 / 100) l (by
      have := (abs_le.1 l1).2
      norm_num at *
      linarith)) ?_
    norm_num at *
    linarith
  · have e : exactDot w (col2 c) - (normalize d).z.val = (qdot P (ev (col2 c)) - (normalize d).z.val) + qdot E (ev (col2 c)) := by
      unfold exactDot
      rw [wx, wy, wz]
      unfold qdot ev
      ring
    rw [e]
    refine abs2 pz (qdot_le (by norm_num) (by norm_num : (0 : ℚ) ≤ 1 + 6 / 10 ^ 6) l u2.le) ?_
    norm_num at *
    linarith

theorem row3_last {a b c : F32} (ha : FPlace.Upto 1 a) (hb : FPlace.Upto 1 b) (hc : FPlace.Upto 1 c) (ok : c.Ok) :
    (FPlace.row3 a b c ⟨zero false, zero false, num 1⟩).Finite ∧ (FPlace.row3 a b c ⟨zero false, zero false, num 1⟩).val = c.val := by
  have z : FPlace.Upto 1 (zero false) := ⟨trivial, by rw [show (zero false).val = 0 from rfl, abs_zero]; positivity⟩
  have o : FPlace.Upto 1 (num 1) := ⟨trivial, by rw [show (num 1).val = 1 from rfl]; norm_num⟩
  obtain ⟨u0, e0⟩ := FPlace.upto_mul ha z (by norm_num) (by norm_num)
  obtain ⟨u1, e1⟩ := FPlace.upto_mul hb z (by norm_num) (by norm_num)
  obtain ⟨u2, e2⟩ := FPlace.upto_mul hc o (by norm_num) (by norm_num)
  obtain ⟨u3, e3⟩ := FPlace.upto_add u0 u1 (by norm_num) (by norm_num)
  obtain ⟨u4, e4⟩ := FPlace.upto_add u3 (FPlace.upto_mono (by norm_num) u2) (by norm_num) (by norm_num)
  refine ⟨u4.1, ?_⟩
  unfold FPlace.row3
  rw [e4, e3, e0, e1, e2, show (zero false).val = 0 from rfl, show (num 1).val = 1 from rfl, mul_zero, mul_zero, mul_one, rnd32_zero,
    add_zero, rnd32_zero, _root_.zero_add, (ok_val ok).1, (ok_val ok).1]

/-- **C170, the orthographic camera.**  All rays have exactly the direction of view. -/
theorem C170_ortho_direction {m : ℚ} {pos target up : V3 F32} (h : Sees m pos target up) :
    let c := lookAtInverse pos target up
    let w := orthoDirection c
    (w.x.Finite ∧ w.y.Finite ∧ w.z.Finite) ∧ w.x.val = (col2 c).x.val ∧ w.y.val = (col2 c).y.val ∧ w.z.val = (col2 c).z.val := by
  intro c w
  obtain ⟨u0, ⟨f1, l1⟩, u2, -⟩ := C170_camera_frame h
  obtain ⟨x0, y0, z0⟩ := u0.upto
  obtain ⟨x1, y1, z1⟩ := col_upto f1 (col1_cl l1)
  obtain ⟨x2, y2, z2⟩ := u2.upto
  have ex := row3_last x0 x1 x2 u2.1.1.1
  have ey := row3_last y0 y1 y2 u2.1.2.1.1
  have ez := row3_last z0 z1 z2 u2.1.2.2.1
  exact ⟨⟨ex.1, ey.1, ez.1⟩, ex.2, ey.2, ez.2⟩

/-- **C170, the panoramic camera.**  If the values of the sines and cosines belong to angles up to `10⁻⁶` in the squares, the
direction of the ray is finite, of length one, and its components along the columns of the matrix are the spherical
coordinates up to `10⁻⁴` (and `22/2^24` by the sine of the angle between the up vector and the direction of view). -/
theorem C170_panorama_direction {m : ℚ} {pos target up : V3 F32} (h : Sees m pos target up) {st ct sp cp : F32}
    (fs : st.Finite) (fc : ct.Ok ∧ ct.Finite) (fs' : sp.Finite) (fc' : cp.Finite)
    (h1 : |st.val ^ 2 + ct.val ^ 2 - 1| ≤ 1 / 10 ^ 6) (h2 : |sp.val ^ 2 + cp.val ^ 2 - 1| ≤ 1 / 10 ^ 6) :
    let c := lookAtInverse pos target up
    let w := panoramaDirection c st ct sp cp
    Unit w ∧ |exactDot w (col0 c) - st.val * cp.val| ≤ 1 / 10 ^ 4 + 22 / 2 ^ 24 / m ∧
    |exactDot w (col1 c) - ct.val| ≤ 1 / 10 ^ 4 + 22 / 2 ^ 24 / m ∧
    |exactDot w (col2 c) - st.val * sp.val| ≤ 1 / 10 ^ 4 + 22 / 2 ^ 24 / m := by
  intro c w
  obtain ⟨B, m1⟩ := look_basis h
  obtain ⟨u0, ⟨f1, l1⟩, u2, -⟩ := C170_camera_frame h
  have c1 := col1_cl l1
  have hm := h.2.2.2.2.1
  have m0 : 0 < m := lt_of_lt_of_le (by norm_num) hm
  have dm := div_m hm
  have δ0 : 0 < 1 / 2 ^ 24 / m := by positivity
  have s8 : 8 / 2 ^ 24 / m = 8 * (1 / 2 ^ 24 / m) := by ring
  have s22 : 22 / 2 ^ 24 / m = 22 * (1 / 2 ^ 24 / m) := by ring
  rw [s8] at B dm
  rw [s22]
  generalize 1 / 2 ^ 24 / m = δ at *
  have sz : ∀ {a b : ℚ}, |a ^ 2 + b ^ 2 - 1| ≤ 1 / 10 ^ 6 → |a| ≤ 1 + 1 / 10 ^ 6 ∧ |b| ≤ 1 + 1 / 10 ^ 6 := by
    intro a b h
    have := (abs_le.1 h).2
    have ha := sq_nonneg a
    have hb := sq_nonneg b
    constructor <;> refine abs_le_of_sq_le_sq ?_ (by norm_num) <;> · norm_num at *; linarith
  obtain ⟨b1, b2⟩ := sz h1
  obtain ⟨b3, b4⟩ := sz h2
  have l : (1 + 1 / 10 ^ 6 : ℚ) ≤ 2 ^ (1 : ℤ) := by norm_num
  have prod : ∀ {x y : F32}, x.Finite → y.Finite → |x.val| ≤ 1 + 1 / 10 ^ 6 → |y.val| ≤ 1 + 1 / 10 ^ 6 →
      (F32.mul x y).Finite ∧ |(F32.mul x y).val - x.val * y.val| ≤ 11 / 10 / 2 ^ 24 := by
    intro x y fx fy hx hy
    have p := FPlace.ae_mul (k' := 1 / 2 ^ 24) (t' := 2 ^ (-150 : ℤ)) (FPlace.ae_self (j := 1) ⟨fx, hx.trans l⟩) (l := 1) ⟨fy, hy.trans l⟩ le_rfl
      (by norm_num) (by norm_num) (by norm_num) (by norm_num) (by norm_num)
    refine ⟨p.1, p.2.1.trans ?_⟩
    have : |x.val| * |y.val| ≤ (1 + 1 / 10 ^ 6) * (1 + 1 / 10 ^ 6) := mul_le_mul hx hy (abs_nonneg _) (by norm_num)
    have t : (2 : ℚ) ^ (-150 : ℤ) ≤ 1 / 2 ^ 60 := by norm_num
    generalize |x.val| * |y.val| = g at *
    norm_num at *
    linarith
  obtain ⟨gx, ex⟩ := prod fs fc' b1 b4
  obtain ⟨gz, ez⟩ := prod fs fs' b1 b3
  -- the vector in the space of the camera
  have ux : |st.val * cp.val| ≤ (1 + 1 / 10 ^ 6) * (1 + 1 / 10 ^ 6) := absm b1 b4
  have uz : |st.val * sp.val| ≤ (1 + 1 / 10 ^ 6) * (1 + 1 / 10 ^ 6) := absm b1 b3
  have up' : Unit ⟨F32.mul st cp, ct, F32.mul st sp⟩ := by
    refine ⟨⟨⟨mul_ok _ _, gx⟩, fc, ⟨mul_ok _ _, gz⟩⟩, ?_⟩
    unfold exactLen2
    dsimp only
    have q : ∃ a b : ℚ, (F32.mul st cp).val = st.val * cp.val + a ∧ (F32.mul st sp).val = st.val * sp.val + b ∧
        |a| ≤ 11 / 10 / 2 ^ 24 ∧ |b| ≤ 11 / 10 / 2 ^ 24 :=
      ⟨_, _, (add_sub_cancel _ _).symm, (add_sub_cancel _ _).symm, ex, ez⟩
    obtain ⟨a, b, qa, qb, ha, hb⟩ := q
    rw [qa, qb]
    have e : (st.val * cp.val + a) ^ 2 + ct.val ^ 2 + (st.val * sp.val + b) ^ 2 - 1 =
        ((st.val ^ 2 * (sp.val ^ 2 + cp.val ^ 2 - 1) + (st.val ^ 2 + ct.val ^ 2 - 1) + 2 * (st.val * cp.val * a)) +
        2 * (st.val * sp.val * b)) + (a * a + b * b) := by ring
    rw [e]
    have k1 : |st.val ^ 2| ≤ (1 + 1 / 10 ^ 6) ^ 2 := by rw [abs_pow]; exact pow_le_pow_left₀ (abs_nonneg _) b1 2
    have k2 : |2 * (st.val * cp.val * a)| ≤ 2 * ((1 + 1 / 10 ^ 6) * (1 + 1 / 10 ^ 6) * (11 / 10 / 2 ^ 24)) := by
      rw [abs_mul, abs_of_pos (by norm_num : (0 : ℚ) < 2)]; exact mul_le_mul_of_nonneg_left (absm ux ha) (by norm_num)
    have k3 : |2 * (st.val * sp.val * b)| ≤ 2 * ((1 + 1 / 10 ^ 6) * (1 + 1 / 10 ^ 6) * (11 / 10 / 2 ^ 24)) := by
      rw [abs_mul, abs_of_pos (by norm_num : (0 : ℚ) < 2)]; exact mul_le_mul_of_nonneg_left (absm uz hb) (by norm_num)
    exact abs2 (abs2 (abs3 (absm k1 h2) h1 k2 le_rfl) k3 le_rfl) (abs2 (absm ha ha) (absm hb hb) le_rfl) (by norm_num)
  obtain ⟨fw, E, hE, x, y, z⟩ := combo_near u0.1 f1 u2.1 u0.cl4 c1 u2.cl4 up'
  have cl := combo_len (v := ev ⟨F32.mul st cp, ct, F32.mul st sp⟩) B
  obtain ⟨px, py, pz⟩ := combo_dots B (by norm_num : (0 : ℚ) ≤ 1 + 6 / 10 ^ 6) up'.le
  have vl := up'.len
  have vv : qdot (ev ⟨F32.mul st cp, ct, F32.mul st sp⟩) (ev ⟨F32.mul st cp, ct, F32.mul st sp⟩) ≤ 1 + 11 / 10 ^ 6 := by
    linarith [(abs_le.1 vl).2]
  have cl' : |qdot (combo (ev (col0 c)) (ev (col1 c)) (ev (col2 c)) (ev ⟨F32.mul st cp, ct, F32.mul st sp⟩))
      (combo (ev (col0 c)) (ev (col1 c)) (ev (col2 c)) (ev ⟨F32.mul st cp, ct, F32.mul st sp⟩)) - 1| ≤ 42 / 10 ^ 6 + 161 / 10 * δ := by
    have e : ∀ p q : ℚ, p - 1 = (p - q) + (q - 1) := fun p q => by ring
    rw [e _ (qdot (ev ⟨F32.mul st cp, ct, F32.mul st sp⟩) (ev ⟨F32.mul st cp, ct, F32.mul st sp⟩))]
    refine abs2 cl vl ?_
    have := mul_le_mul_of_nonneg_left vv (by positivity : 0 ≤ 3 / 10 ^ 5 + 2 * (8 * δ))
    norm_num at *
    linarith
  obtain ⟨U, k, k0, hk, -, ε, hε, wx, wy, wz⟩ := near_one fw x y z hE cl' (by norm_num at *; linarith)
  change |qdot (combo (ev (col0 c)) (ev (col1 c)) (ev (col2 c)) (ev ⟨F32.mul st cp, ct, F32.mul st sp⟩)) (ev (col0 c)) - _| ≤ _ at px
  change |qdot (combo (ev (col0 c)) (ev (col1 c)) (ev (col2 c)) (ev ⟨F32.mul st cp, ct, F32.mul st sp⟩)) (ev (col1 c)) - _| ≤ _ at py
  change |qdot (combo (ev (col0 c)) (ev (col1 c)) (ev (col2 c)) (ev ⟨F32.mul st cp, ct, F32.mul st sp⟩)) (ev (col2 c)) - _| ≤ _ at pz
  have hx : w.x.val = k * (combo (ev (col0 c)) (ev (col1 c)) (ev (col2 c)) (ev ⟨F32.mul st cp, ct, F32.mul st sp⟩)).x + ε.x := wx
  have hy : w.y.val = k * (combo (ev (col0 c)) (ev (col1 c)) (ev (col2 c)) (ev ⟨F32.mul st cp, ct, F32.mul st sp⟩)).y + ε.y := wy
  have hz : w.z.val = k * (combo (ev (col0 c)) (ev (col1 c)) (ev (col2 c)) (ev ⟨F32.mul st cp, ct, F32.mul st sp⟩)).z + ε.z := wz
  have Uw : Unit w := U
  clear wx wy wz U x y z fw cl cl' vl vv
  generalize combo (ev (col0 c)) (ev (col1 c)) (ev (col2 c)) (ev ⟨F32.mul st cp, ct, F32.mul st sp⟩) = P at *
  have one : ∀ {b : V3 F32} {q r : ℚ}, qdot (ev b) (ev b) ≤ (101 / 100) ^ 2 → |q| ≤ 1 + 6 / 10 ^ 6 → |q - r| ≤ 11 / 10 / 2 ^ 24 →
      |qdot P (ev b) - q| ≤ (3 / 10 ^ 5 + 3 / 2 * (8 * δ)) * (1 + 6 / 10 ^ 6) → |exactDot w b - r| ≤ 1 / 10 ^ 4 + 22 * δ := by
    intro b q r hb hq hr hp
    have e : exactDot w b - r = ((k - 1) * qdot P (ev b) + (qdot P (ev b) - q) + qdot ε (ev b)) + (q - r) := by
      unfold exactDot
      rw [hx, hy, hz]
      unfold qdot ev
      ring
    rw [e]
    have s := qdot_le (by norm_num) (by norm_num : (0 : ℚ) ≤ 101 / 100) (cl_len hε) hb
    have pb : |qdot P (ev b)| ≤ 101 / 100 := by
      have := abs_add_le (qdot P (ev b) - q) q
      rw [sub_add_cancel] at this
      norm_num at *
      linarith
    refine abs2 (abs3 (absm hk pb) hp s le_rfl) hr ?_
    norm_num at *
    linarith
  obtain ⟨qx, qy, qz⟩ := up'.cl
  rw [len2_eq] at l1
  refine ⟨Uw, one (u0.le.trans (by norm_num)) qx ex px, one ?_ qy (le_of_eq_of_le (abs_eq_zero.2 (sub_self ct.val)) (by norm_num)) py, one (u2.le.trans (by norm_num)) qz ez pz⟩
  have := (abs_le.1 l1).2
  norm_num at *
  linarith

/-! ### Looking straight up or down -/

theorem zero_prod {a b : F32} (ha : a.Finite) (hb : b.Finite) (h : a.val * b.val = 0) : (F32.mul a b).Finite ∧ (F32.mul a b).val = 0 := by
  obtain ⟨f, v⟩ := mul_finite ha hb (by rw [h, rnd32_zero, abs_zero]; norm_num)
  exact ⟨f, by rw [v, h, rnd32_zero]⟩

theorem zero_diff {a b : F32} (ha : a.Finite ∧ a.val = 0) (hb : b.Finite ∧ b.val = 0) : (F32.sub a b).Finite ∧ (F32.sub a b).val = 0 := by
  obtain ⟨f, v⟩ := sub_fin ha.1 hb.1 (by rw [ha.2, hb.2, sub_zero, rnd32_zero, abs_zero]; norm_num)
  exact ⟨f, by rw [v, ha.2, hb.2, sub_zero, rnd32_zero]⟩

theorem nonfinite_mul {a b : F32} (h : ¬ a.Finite) : ¬ (F32.mul a b).Finite := by
  cases a <;> cases b <;> simp_all [F32.mul, F32.Finite] <;> split_ifs <;> simp

theorem nonfinite_add {a b : F32} (h : ¬ a.Finite) : ¬ (F32.add a b).Finite := by
  cases a <;> cases b <;> simp_all [F32.add, F32.Finite]; split_ifs <;> simp

/-- A vector along the second axis. -/
def Upright (v : V3 F32) : Prop := FiniteVec v ∧ v.x.val = 0 ∧ v.z.val = 0

theorem upright_normalize {v : V3 F32} (h : Upright v) (lo : 2 ^ (-50 : ℤ) ≤ |v.y.val|) (hi : |v.y.val| ≤ 2 ^ (62 : ℤ)) :
    Upright (normalize v) := by
  obtain ⟨f, x, z⟩ := h
  have l : exactLen2 v = |v.y.val| ^ 2 := by unfold exactLen2; rw [x, z, sq_abs]; ring
  have le := pow_le_pow_left₀ (two_zpow_pos _).le lo 2
  have w : Within (2 ^ (63 : ℤ)) v := by
    refine ⟨?_, hi.trans (by norm_num), ?_⟩
    · rw [x, abs_zero]; positivity
    · rw [z, abs_zero]; positivity
  obtain ⟨f', -, c, -, sx, -, sz⟩ := C156_unit_partial v f w (by rw [l]; refine le_trans ?_ le; norm_num)
  have one : ∀ {q : F32}, q.Ok → ∀ {d : ℚ}, d = 0 → |q.val - c * d| ≤ |c * d| / 2 ^ 24 + 2 ^ (-150 : ℤ) → q.val = 0 := by
    intro q ok d hd h
    subst hd
    rw [mul_zero, sub_zero, abs_zero, zero_div, _root_.zero_add] at h
    by_contra n
    have := grain (ok_val ok).1 n
    have : (2 : ℚ) ^ (-149 : ℤ) ≤ 2 ^ (-150 : ℤ) := this.trans h
    norm_num at this
  exact ⟨f', one f'.1.1 x sx, one f'.2.2.1 z sz⟩

theorem upright_cross {a b : V3 F32} (ha : Upright a) (hb : Upright b) :
    FiniteVec (cross a b) ∧ Within (2 ^ (-75 : ℤ)) (cross a b) := by
  obtain ⟨⟨fx, fy, fz⟩, ax, az⟩ := ha
  obtain ⟨⟨gx, gy, gz⟩, bx, bz⟩ := hb
  have x := zero_diff (zero_prod fy.2 gz.2 (by rw [bz, mul_zero])) (zero_prod fz.2 gy.2 (by rw [az, MulZeroClass.zero_mul]))
  have y := zero_diff (zero_prod fz.2 gx.2 (by rw [bx, mul_zero])) (zero_prod fx.2 gz.2 (by rw [ax, MulZeroClass.zero_mul]))
  have z := zero_diff (zero_prod fx.2 gy.2 (by rw [ax, MulZeroClass.zero_mul])) (zero_prod fy.2 gx.2 (by rw [bx, mul_zero]))
  refine ⟨⟨⟨add_ok _ _, x.1⟩, ⟨add_ok _ _, y.1⟩, ⟨add_ok _ _, z.1⟩⟩, ?_, ?_, ?_⟩
  · exact (by rw [x.2, abs_zero]; positivity : |(F32.sub (F32.mul a.y b.z) (F32.mul a.z b.y)).val| ≤ 2 ^ (-75 : ℤ))
  · exact (by rw [y.2, abs_zero]; positivity : |(F32.sub (F32.mul a.z b.x) (F32.mul a.x b.z)).val| ≤ 2 ^ (-75 : ℤ))
  · exact (by rw [z.2, abs_zero]; positivity : |(F32.sub (F32.mul a.x b.y) (F32.mul a.y b.x)).val| ≤ 2 ^ (-75 : ℤ))

/-- What C170 wants of cameras: a camera whose positions and up vector have a usual size, whose up vector is not zero and whose
target is not its position, sends rays with finite origins and directions. -/
def C170_statement : Prop :=
  ∀ (pos target up : V3 F32), FiniteVec pos ∧ FiniteVec target ∧ FiniteVec up →
    Within (2 ^ (60 : ℤ)) pos ∧ Within (2 ^ (60 : ℤ)) target ∧ Within (2 ^ (60 : ℤ)) up →
    2 ^ (-100 : ℤ) ≤ exactLen2 up → 2 ^ (-100 : ℤ) ≤ qdot (exactSub target pos) (exactSub target pos) →
    FPlace.Fin3 (eyePoint (lookAtInverse pos target up)) ∧ FPlace.Fin3 (orthoDirection (lookAtInverse pos target up))

/-- **C170, violated.**  A camera that looks straight along its up vector, for instance down on a scene with the usual up vector
`(0,1,0)`, has no frame: the left vector is a zero vector that is normalised, and no coordinate of the origin and of the
direction of any ray is a number. -/
theorem C170_violated_vertical {pos target up : V3 F32} (fp : FiniteVec pos) (ft : FiniteVec target)
    (hx : target.x.val = pos.x.val) (hz : target.z.val = pos.z.val) (lo : 2 ^ (-49 : ℤ) ≤ |target.y.val - pos.y.val|)
    (hi : |target.y.val - pos.y.val| ≤ 2 ^ (61 : ℤ)) (hu : Upright up) (lo' : 2 ^ (-50 : ℤ) ≤ |up.y.val|) (hi' : |up.y.val| ≤ 2 ^ (62 : ℤ)) :
    let c := lookAtInverse pos target up
    (¬ (eyePoint c).x.Finite ∧ ¬ (eyePoint c).y.Finite ∧ ¬ (eyePoint c).z.Finite) ∧
    ∀ d : V3 F32, ¬ (FPlace.mulVec c d).x.Finite ∧ ¬ (FPlace.mulVec c d).y.Finite ∧ ¬ (FPlace.mulVec c d).z.Finite := by
  intro c
  have zx : (F32.sub target.x pos.x).Finite ∧ (F32.sub target.x pos.x).val = 0 := by
    obtain ⟨f, v⟩ := sub_fin ft.1.2 fp.1.2 (by rw [hx, sub_self, rnd32_zero, abs_zero]; norm_num)
    exact ⟨f, by rw [v, hx, sub_self, rnd32_zero]⟩
  have zz : (F32.sub target.z pos.z).Finite ∧ (F32.sub target.z pos.z).val = 0 := by
    obtain ⟨f, v⟩ := sub_fin ft.2.2.2 fp.2.2.2 (by rw [hz, sub_self, rnd32_zero, abs_zero]; norm_num)
    exact ⟨f, by rw [v, hz, sub_self, rnd32_zero]⟩
  obtain ⟨fy, vy⟩ := sub_fin ft.2.1.2 fp.2.1.2 (lt_of_le_of_lt (rnd32_abs_le (by norm_num) hi) (pow_lt128 (by norm_num)))
  have by' := rnd32_err' (target.y.val - pos.y.val)
  have ly : 2 ^ (-50 : ℤ) ≤ |(F32.sub target.y pos.y).val| ∧ |(F32.sub target.y pos.y).val| ≤ 2 ^ (62 : ℤ) := by
    rw [vy]
    have a := abs_sub_abs_le_abs_sub (target.y.val - pos.y.val) (rnd32 (target.y.val - pos.y.val))
    have b := abs_sub_abs_le_abs_sub (rnd32 (target.y.val - pos.y.val)) (target.y.val - pos.y.val)
    rw [abs_sub_comm (target.y.val - pos.y.val) (rnd32 _)] at a
    have t : (2 : ℚ) ^ (-150 : ℤ) ≤ 2 ^ (-52 : ℤ) := by norm_num
    generalize |rnd32 (target.y.val - pos.y.val)| = r at *
    generalize |rnd32 (target.y.val - pos.y.val) - (target.y.val - pos.y.val)| = s at *
    generalize |target.y.val - pos.y.val| = q at *
    generalize (2 : ℚ) ^ (-150 : ℤ) = g at *
    constructor <;> · norm_num at *; linarith
  have hd : Upright (vsub target pos) := ⟨⟨⟨add_ok _ _, zx.1⟩, ⟨add_ok _ _, fy⟩, ⟨add_ok _ _, zz.1⟩⟩, zx.2, zz.2⟩
  obtain ⟨fc, wc⟩ := upright_cross (upright_normalize hu lo' hi') (upright_normalize hd ly.1 ly.2)
  obtain ⟨nx, ny, nz⟩ := C156_violated_small _ fc wc
  rw [← upVector_eq up] at nx ny nz
  have lr : FPlace.LastRow c := ⟨⟨trivial, rfl⟩, ⟨trivial, rfl⟩, ⟨trivial, rfl⟩, trivial, rfl⟩
  have r3 : ∀ {a b c' : F32} (p : V3 F32), ¬ a.Finite → ¬ (FPlace.row3 a b c' p).Finite := fun p h =>
    nonfinite_add (nonfinite_add (nonfinite_mul h))
  have r4 : ∀ {a b c' t : F32} (p : V3 F32), ¬ a.Finite → ¬ (FPlace.row a b c' t p).Finite := fun p h =>
    nonfinite_add (nonfinite_add (nonfinite_add (nonfinite_mul h)))
  refine ⟨?_, fun d => ⟨r3 d nx, r3 d ny, r3 d nz⟩⟩
  have e : eyePoint c = ⟨_, _, _⟩ := FPlace.C168_affine lr (p := ⟨zero false, zero false, zero false⟩) ⟨trivial, trivial, trivial⟩
  rw [e]
  exact ⟨r4 _ nx, r4 _ ny, r4 _ nz⟩

/-- A camera at `(0,10,0)` that looks down at the origin, with the up vector `(0,1,0)`. -/
theorem C170_violated_statement : ¬ C170_statement := by
  intro h
  have f0 : (zero false).Ok ∧ (zero false).Finite := ⟨trivial, trivial⟩
  have f1 : (num 1).Ok ∧ (num 1).Finite := ⟨⟨by norm_num, by decide +kernel, by norm_num⟩, trivial⟩
  have f10 : (num 10).Ok ∧ (num 10).Finite := ⟨⟨by norm_num, by decide +kernel, by norm_num⟩, trivial⟩
  have v0 : (zero false).val = 0 := rfl
  have v1 : (num 1).val = 1 := rfl
  have v10 : (num 10).val = 10 := rfl
  obtain ⟨⟨n, -⟩, -⟩ := C170_violated_vertical (pos := ⟨zero false, num 10, zero false⟩) (target := ⟨zero false, zero false, zero false⟩)
    (up := ⟨zero false, num 1, zero false⟩) ⟨f0, f10, f0⟩ ⟨f0, f0, f0⟩ rfl rfl (by rw [v0, v10]; norm_num) (by rw [v0, v10]; norm_num)
    ⟨⟨f0, f1, f0⟩, rfl, rfl⟩ (by rw [v1]; norm_num) (by rw [v1]; norm_num)
  refine n (h _ _ _ ⟨⟨f0, f10, f0⟩, ⟨f0, f0, f0⟩, ⟨f0, f1, f0⟩⟩ ⟨⟨?_, ?_, ?_⟩, ⟨?_, ?_, ?_⟩, ?_, ?_, ?_⟩ ?_ ?_).1.1
  all_goals first
    | (unfold exactLen2; dsimp only; rw [v0, v1]; norm_num)
    | (unfold qdot exactSub; dsimp only; rw [v0, v10]; norm_num)
    | (dsimp only; rw [v0]; norm_num)
    | (dsimp only; rw [v10]; norm_num)
    | (dsimp only; rw [v1]; norm_num)

/-! ### Examples -/

/-- `0.6f`, `0.8f`. -/
def e6 : F32 := num (5033165 / 2 ^ 23)
def e8 : F32 := num (13421773 / 2 ^ 24)
def e6m : F32 := num (-(5033165 / 2 ^ 23))

theorem e6_ok : e6.Ok ∧ e6.Finite := ⟨⟨by norm_num, by decide +kernel, by norm_num⟩, trivial⟩
theorem e8_ok : e8.Ok ∧ e8.Finite := ⟨⟨by norm_num, by decide +kernel, by norm_num⟩, trivial⟩
theorem e6m_ok : e6m.Ok ∧ e6m.Finite := ⟨⟨by norm_num, by decide +kernel, by norm_num⟩, trivial⟩

theorem unit1 : Unit ⟨e6, e8, zero false⟩ := ⟨⟨e6_ok, e8_ok, trivial, trivial⟩, by
  unfold exactLen2; dsimp only [e6, e8, val]; norm_num [abs_le]⟩

theorem unit2 : Unit ⟨e8, e6m, zero false⟩ := ⟨⟨e8_ok, e6m_ok, trivial, trivial⟩, by
  unfold exactLen2; dsimp only [e6m, e8, val]; norm_num [abs_le]⟩

/-- C170_shading_frame, C170_to_world, C170_to_shading, C170_world_and_back, C170_shading_and_back, C170_side: the frame of a slanted
surface and a slanted direction. -/
example : Good (1 / 10 ^ 4) ⟨e6, e8, zero false⟩ ⟨e8, e6m, zero false⟩ ∧ Unit ⟨zero false, e6, e8⟩ :=
  ⟨⟨unit1, unit2, by unfold exactDot; dsimp only [e6, e8, e6m, val]; norm_num, by norm_num, by norm_num⟩,
    ⟨⟨⟨trivial, trivial⟩, e6_ok, e8_ok⟩, by unfold exactLen2; dsimp only [e6, e8, val]; norm_num [abs_le]⟩⟩

/-- C170_camera_frame, C170_camera_origin, C170_camera_direction, C170_ortho_direction, C170_panorama_direction: a camera at
`(1,2,3)` that looks at the origin, with the up vector `(0,1,0)`. -/
example : Sees (1 / 2) ⟨num 1, num 2, num 3⟩ ⟨zero false, zero false, zero false⟩ ⟨zero false, num 1, zero false⟩ := by
  have f0 : (zero false).Ok ∧ (zero false).Finite := ⟨trivial, trivial⟩
  have f1 : (num 1).Ok ∧ (num 1).Finite := ⟨⟨by norm_num, by decide +kernel, by norm_num⟩, trivial⟩
  have f2 : (num 2).Ok ∧ (num 2).Finite := ⟨⟨by norm_num, by decide +kernel, by norm_num⟩, trivial⟩
  have f3 : (num 3).Ok ∧ (num 3).Finite := ⟨⟨by norm_num, by decide +kernel, by norm_num⟩, trivial⟩
  refine ⟨⟨⟨f1, f2, f3⟩, ⟨f0, f0, f0⟩, f0, f1, f0⟩, ⟨⟨?_, ?_, ?_⟩, ⟨?_, ?_, ?_⟩, ?_, ?_, ?_⟩, ?_, ?_, by norm_num, ?_⟩
  all_goals
    first
      | (unfold exactLen2; dsimp only [val]; norm_num)
      | (unfold qcross qdot exactSub ev; dsimp only [val]; norm_num)
      | (unfold qdot exactSub; dsimp only [val]; norm_num)
      | (dsimp only [val]; norm_num)

/-- C170_panorama_direction: values of sine and cosine. -/
example : |e6.val ^ 2 + e8.val ^ 2 - 1| ≤ 1 / 10 ^ 6 ∧ |e8.val ^ 2 + e6m.val ^ 2 - 1| ≤ 1 / 10 ^ 6 := by
  dsimp only [e6, e8, e6m, val]; norm_num [abs_le]

end Spectre.FFrame
