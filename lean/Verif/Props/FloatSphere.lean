import Verif.Model.FloatSphere
import Verif.Props.FloatTriangle
import Verif.Props.Normalize

/-
C162: the intersection of rays and spheres in binary32.
-/

namespace Spectre.FSphere

open Spectre.Geom Spectre.FTri F32

/-! ### Numbers with an error -/

/-- `x` is a finite number that stands for `q`, wrong by at most `n` times `2^-24` of the bound `B`. -/
def Nq (x : F32) (q B n : ℚ) : Prop := x.Finite ∧ |q| ≤ B ∧ |x.val - q| ≤ n * (B * (1 / 2 ^ 24))

theorem nq_round {x : F32} {e q B n : ℚ} (hx : |rnd32 e| < 2 ^ 128 → x.Finite ∧ x.val = rnd32 e)
    (h1 : 2 ^ (-100 : ℤ) ≤ B) (h2 : B ≤ 2 ^ (120 : ℤ)) (hq : |q| ≤ B) (hn : n ≤ 1000)
    (h : |e - q| ≤ n * (B * (1 / 2 ^ 24))) : Nq x q B (n + 1 + 1 / 100) := by
  have hB : 0 < B := lt_of_lt_of_le (two_zpow_pos _) h1
  have he : |e| ≤ B * (1 + 1 / 10000) := by
    have : |e| ≤ |q| + |e - q| := by
      have := abs_add_le q (e - q)
      rwa [add_sub_cancel] at this
    have h3 : n * (B * (1 / 2 ^ 24)) ≤ 1000 * (B * (1 / 2 ^ 24)) := mul_le_mul_of_nonneg_right hn (by positivity)
    have h4 : 1000 * (B * (1 / 2 ^ 24)) ≤ B * (1 / 10000) := by
      have : (1000 : ℚ) * (1 / 2 ^ 24) ≤ 1 / 10000 := by norm_num
      calc 1000 * (B * (1 / 2 ^ 24)) = B * (1000 * (1 / 2 ^ 24)) := by ring
        _ ≤ _ := mul_le_mul_of_nonneg_left this hB.le
    linarith
  have hr := rnd32_err' e
  have h5 : (2 : ℚ) ^ (-150 : ℤ) ≤ 2 ^ (-100 : ℤ) * (1 / 2 ^ 40) := by norm_num
  have h6 : (2 : ℚ) ^ (-150 : ℤ) ≤ B * (1 / 2 ^ 40) := h5.trans (mul_le_mul_of_nonneg_right h1 (by norm_num))
  have h7 : |rnd32 e - e| ≤ (1 + 1 / 100) * (B * (1 / 2 ^ 24)) := by
    have h8 : |e| * (1 / 2 ^ 24) ≤ B * (1 + 1 / 10000) * (1 / 2 ^ 24) := mul_le_mul_of_nonneg_right he (by norm_num)
    generalize (2 : ℚ) ^ (-150 : ℤ) = z at *
    generalize |rnd32 e - e| = y at *
    norm_num at *
    linarith
  obtain ⟨f1, f2⟩ := hx (by
    have : |rnd32 e| ≤ |e| + |rnd32 e - e| := by
      have := abs_add_le e (rnd32 e - e)
      rwa [add_sub_cancel] at this
    have h9 : |rnd32 e| ≤ 2 * B := by
      generalize |rnd32 e| = y at *
      generalize |rnd32 e - e| = y at *
      norm_num at *
      linarith
    refine lt_of_le_of_lt h9 ?_
    norm_num at h2 ⊢
    linarith)
  refine ⟨f1, hq, ?_⟩
  rw [f2]
  have : rnd32 e - q = (rnd32 e - e) + (e - q) := by ring
  rw [this]
  refine (abs_add_le _ _).trans ?_
  linarith

theorem nq_exact {x : F32} {B : ℚ} (hx : x.Finite) (h : |x.val| ≤ B) : Nq x x.val B 0 := ⟨hx, h, by simp⟩

theorem nq_val {x : F32} {q B n : ℚ} (h : Nq x q B n) (hB : 0 ≤ B) (hn : n ≤ 400) : |x.val| ≤ B * (1 + 1 / 10000) := by
  obtain ⟨-, h1, h2⟩ := h
  have : |x.val| ≤ |q| + |x.val - q| := by
    have := abs_add_le q (x.val - q)
    rwa [add_sub_cancel] at this
  have h3 : n * (B * (1 / 2 ^ 24)) ≤ 400 * (B * (1 / 2 ^ 24)) := mul_le_mul_of_nonneg_right hn (by positivity)
  generalize |x.val - q| = y at *
  generalize |x.val| = y at *
  generalize |q| = y at *
  norm_num at *
  linarith

theorem nq_mul {x y : F32} {q p B C n m : ℚ} (hx : Nq x q B n) (hy : Nq y p C m) (hB : 0 ≤ B) (hC : 0 ≤ C)
    (hn : n ≤ 100) (hm : m ≤ 100) (h1 : 2 ^ (-100 : ℤ) ≤ B * C) (h2 : B * C ≤ 2 ^ (120 : ℤ)) :
    Nq (F32.mul x y) (q * p) (B * C) (n + m + 1 + 1 / 50) := by
  have bx := nq_val hx hB (by linarith)
  obtain ⟨fx, bq, ex⟩ := hx
  obtain ⟨fy, bp, ey⟩ := hy
  have key := nq_round (x := F32.mul x y) (e := x.val * y.val) (q := q * p) (B := B * C) (n := n + m + 1 / 100)
    (fun h => mul_finite fx fy h) h1 h2 (by rw [abs_mul]; exact mul_le_mul bq bp (abs_nonneg _) hB) (by linarith) (by
      have e : x.val * y.val - q * p = x.val * (y.val - p) + p * (x.val - q) := by ring
      rw [e]
      refine (abs_add_le _ _).trans ?_
      rw [abs_mul, abs_mul]
      have a1 := mul_le_mul bx ey (abs_nonneg _) (by positivity)
      have a2 := mul_le_mul bp ex (abs_nonneg _) hC
      have a3 : B * (1 + 1 / 10000) * (m * (C * (1 / 2 ^ 24))) =
          (m + m * (1 / 10000)) * (B * C * (1 / 2 ^ 24)) := by ring
      have a4 : C * (n * (B * (1 / 2 ^ 24))) = n * (B * C * (1 / 2 ^ 24)) := by ring
      rw [a3] at a1
      rw [a4] at a2
      have a5 : m * (1 / 10000) * (B * C * (1 / 2 ^ 24)) ≤ 1 / 100 * (B * C * (1 / 2 ^ 24)) :=
        mul_le_mul_of_nonneg_right (by linarith) (by positivity)
      linarith)
  have e : n + m + 1 / 100 + 1 + 1 / 100 = n + m + 1 + 1 / 50 := by ring
  rwa [e] at key

theorem nq_sub {x y : F32} {q p B C D n m j : ℚ} (hx : Nq x q B n) (hy : Nq y p C m) (hD : |q - p| ≤ D)
    (hj : n * B + m * C ≤ j * D) (hj' : j ≤ 1000) (h1 : 2 ^ (-100 : ℤ) ≤ D) (h2 : D ≤ 2 ^ (120 : ℤ)) :
    Nq (F32.sub x y) (q - p) D (j + 1 + 1 / 100) := by
  obtain ⟨fx, -, ex⟩ := hx
  obtain ⟨fy, -, ey⟩ := hy
  refine nq_round (e := x.val - y.val) (fun h => sub_fin fx fy h) h1 h2 hD hj' ?_
  have e : x.val - y.val - (q - p) = (x.val - q) - (y.val - p) := by ring
  rw [e]
  refine (abs_sub _ _).trans ?_
  have : (n * B + m * C) * (1 / 2 ^ 24) ≤ j * D * (1 / 2 ^ 24) := mul_le_mul_of_nonneg_right hj (by norm_num)
  calc _ ≤ n * (B * (1 / 2 ^ 24)) + m * (C * (1 / 2 ^ 24)) := add_le_add ex ey
    _ = (n * B + m * C) * (1 / 2 ^ 24) := by ring
    _ ≤ _ := this
    _ = _ := by ring

/-- The sum of the products of the components, without signs. -/
def adot (a b : V3 ℚ) : ℚ := |a.x * b.x| + |a.y * b.y| + |a.z * b.z|

theorem qdot_le (a b : V3 ℚ) : |qdot a b| ≤ adot a b := by
  unfold qdot adot
  exact (abs_add_le _ _).trans (add_le_add_left (abs_add_le _ _) _)

/-- One rounding, for numbers below a bound. -/
theorem round_step {B e : ℚ} (h1 : 2 ^ (-100 : ℤ) ≤ B) (he : |e| ≤ B * (1 + 1 / 1000)) :
    |rnd32 e - e| ≤ (1 + 1 / 500) * (B * (1 / 2 ^ 24)) := by
  have hr := rnd32_err' e
  have h5 : (2 : ℚ) ^ (-150 : ℤ) ≤ 2 ^ (-100 : ℤ) * (1 / 2 ^ 40) := by norm_num
  have h6 : (2 : ℚ) ^ (-150 : ℤ) ≤ B * (1 / 2 ^ 40) := h5.trans (mul_le_mul_of_nonneg_right h1 (by norm_num))
  have hB : 0 < B := lt_of_lt_of_le (two_zpow_pos _) h1
  have h8 : |e| * (1 / 2 ^ 24) ≤ B * (1 + 1 / 1000) * (1 / 2 ^ 24) := mul_le_mul_of_nonneg_right he (by norm_num)
  generalize (2 : ℚ) ^ (-150 : ℤ) = z at *
  generalize |rnd32 e - e| = y at *
  norm_num at *
  linarith

theorem lt128_of {B e : ℚ} (h1 : 2 ^ (-100 : ℤ) ≤ B) (h2 : B ≤ 2 ^ (120 : ℤ)) (he : |e| ≤ B * (1 + 1 / 1000)) :
    |rnd32 e| < 2 ^ 128 := by
  have h3 := round_step h1 he
  have hB : 0 < B := lt_of_lt_of_le (two_zpow_pos _) h1
  have : |rnd32 e| ≤ |e| + |rnd32 e - e| := by
    have := abs_add_le e (rnd32 e - e)
    rwa [add_sub_cancel] at this
  have h9 : |rnd32 e| ≤ 2 * B := by
    generalize |rnd32 e| = y at *
    generalize |rnd32 e - e| = y at *
    norm_num at *
    linarith
  refine lt_of_le_of_lt h9 ?_
  norm_num at h2 ⊢
  linarith

theorem nq_dot {a b : V3 F32} {B : ℚ} (fa : a.x.Finite ∧ a.y.Finite ∧ a.z.Finite)
    (fb : b.x.Finite ∧ b.y.Finite ∧ b.z.Finite) (h : adot (ev a) (ev b) ≤ B) (h1 : 2 ^ (-100 : ℤ) ≤ B)
    (h2 : B ≤ 2 ^ (120 : ℤ)) : Nq (dot a b) (qdot (ev a) (ev b)) B (3 + 1 / 50) := by
  obtain ⟨ax, ay, az⟩ := fa
  obtain ⟨bx, b_y, bz⟩ := fb
  have hB : 0 < B := lt_of_lt_of_le (two_zpow_pos _) h1
  unfold adot ev at h
  simp only at h
  have h5 : (2 : ℚ) ^ (-150 : ℤ) ≤ 2 ^ (-100 : ℤ) * (1 / 2 ^ 40) := by norm_num
  have h6 : (2 : ℚ) ^ (-150 : ℤ) ≤ B * (1 / 2 ^ 40) := h5.trans (mul_le_mul_of_nonneg_right h1 (by norm_num))
  have px := rnd32_err' (a.x.val * b.x.val)
  have py := rnd32_err' (a.y.val * b.y.val)
  have pz := rnd32_err' (a.z.val * b.z.val)
  have nx := abs_nonneg (a.x.val * b.x.val)
  have ny := abs_nonneg (a.y.val * b.y.val)
  have nz := abs_nonneg (a.z.val * b.z.val)
  have one : ∀ e, |e| ≤ B → |e| ≤ B * (1 + 1 / 1000) := fun e he => by linarith
  obtain ⟨f1, v1⟩ := mul_finite ax bx (lt128_of h1 h2 (one _ (by linarith)))
  obtain ⟨f2, v2⟩ := mul_finite ay b_y (lt128_of h1 h2 (one _ (by linarith)))
  obtain ⟨f3, v3⟩ := mul_finite az bz (lt128_of h1 h2 (one _ (by linarith)))
  have near : ∀ m e : ℚ, |m| ≤ |e| + |m - e| := fun m e => by
    have := abs_add_le e (m - e)
    rwa [add_sub_cancel] at this
  have m1 := near (rnd32 (a.x.val * b.x.val)) (a.x.val * b.x.val)
  have m2 := near (rnd32 (a.y.val * b.y.val)) (a.y.val * b.y.val)
  have m3 := near (rnd32 (a.z.val * b.z.val)) (a.z.val * b.z.val)
  have s1 : |rnd32 (a.x.val * b.x.val) + rnd32 (a.y.val * b.y.val)| ≤ B * (1 + 1 / 1000) := by
    refine (abs_add_le _ _).trans ?_
    generalize (2 : ℚ) ^ (-150 : ℤ) = z at *
    generalize |a.x.val * b.x.val| = x1 at *
    generalize |a.y.val * b.y.val| = x2 at *
    generalize |a.z.val * b.z.val| = x3 at *
    clear one near h2
    norm_num at *
    linarith
  have r1 := round_step h1 s1
  obtain ⟨f4, v4⟩ := add_finite f1 f2 (by rw [v1, v2]; exact lt128_of h1 h2 s1)
  rw [v1, v2] at v4
  have m4 := near (rnd32 (rnd32 (a.x.val * b.x.val) + rnd32 (a.y.val * b.y.val)))
    (rnd32 (a.x.val * b.x.val) + rnd32 (a.y.val * b.y.val))
  have m5 := abs_add_le (rnd32 (a.x.val * b.x.val)) (rnd32 (a.y.val * b.y.val))
  have s2 : |rnd32 (rnd32 (a.x.val * b.x.val) + rnd32 (a.y.val * b.y.val)) + rnd32 (a.z.val * b.z.val)| ≤
      B * (1 + 1 / 1000) := by
    refine (abs_add_le _ _).trans ?_
    generalize (2 : ℚ) ^ (-150 : ℤ) = z at *
    generalize |a.x.val * b.x.val| = x1 at *
    generalize |a.y.val * b.y.val| = x2 at *
    generalize |a.z.val * b.z.val| = x3 at *
    clear one near h2 v1 v2 v3 v4
    norm_num at *
    linarith
  have r2 := round_step h1 s2
  obtain ⟨f5, v5⟩ := add_finite f4 f3 (by rw [v4, v3]; exact lt128_of h1 h2 s2)
  rw [v4, v3] at v5
  refine ⟨f5, (qdot_le _ _).trans h, ?_⟩
  show |(F32.add (F32.add (F32.mul a.x b.x) (F32.mul a.y b.y)) (F32.mul a.z b.z)).val - _| ≤ _
  rw [v5]
  have e : rnd32 (rnd32 (rnd32 (a.x.val * b.x.val) + rnd32 (a.y.val * b.y.val)) + rnd32 (a.z.val * b.z.val)) -
      qdot (ev a) (ev b) =
      (rnd32 (rnd32 (rnd32 (a.x.val * b.x.val) + rnd32 (a.y.val * b.y.val)) + rnd32 (a.z.val * b.z.val)) -
        (rnd32 (rnd32 (a.x.val * b.x.val) + rnd32 (a.y.val * b.y.val)) + rnd32 (a.z.val * b.z.val))) +
      (rnd32 (rnd32 (a.x.val * b.x.val) + rnd32 (a.y.val * b.y.val)) -
        (rnd32 (a.x.val * b.x.val) + rnd32 (a.y.val * b.y.val))) + (rnd32 (a.x.val * b.x.val) - a.x.val * b.x.val) +
      (rnd32 (a.y.val * b.y.val) - a.y.val * b.y.val) + (rnd32 (a.z.val * b.z.val) - a.z.val * b.z.val) := by
    unfold qdot ev; ring
  rw [e]
  refine (abs_add_le _ _).trans ?_
  refine (add_le_add_left ((abs_add_le _ _).trans (add_le_add_left ((abs_add_le _ _).trans
    (add_le_add_left (abs_add_le _ _) _)) _)) _).trans ?_
  generalize (2 : ℚ) ^ (-150 : ℤ) = z at *
  generalize |a.x.val * b.x.val| = x1 at *
  generalize |a.y.val * b.y.val| = x2 at *
  generalize |a.z.val * b.z.val| = x3 at *
  clear one near h2 v1 v2 v3 v4 v5 e
  norm_num at *
  linarith

/-! ### The coefficients and the discriminant -/

/-- The direction has about the length `P` and the origin is at most `R` from the centre of the sphere. -/
structure Bounds (o d : V3 F32) (P R : ℚ) : Prop where
  fo : o.x.Finite ∧ o.y.Finite ∧ o.z.Finite
  fd : d.x.Finite ∧ d.y.Finite ∧ d.z.Finite
  dd : qdot (ev d) (ev d) ≤ P ^ 2
  dd' : P ^ 2 ≤ 2 * qdot (ev d) (ev d)
  oo : qdot (ev o) (ev o) ≤ R ^ 2
  p1 : 1 / 2 ^ 20 ≤ P
  p2 : P ≤ 2 ^ 20
  r1 : 1 ≤ R
  r2 : R ≤ 2 ^ 20

/-- The exact coefficients. -/
def qa (d : V3 F32) : ℚ := qdot (ev d) (ev d)
def qb (o d : V3 F32) : ℚ := 2 * qdot (ev d) (ev o)
def qc (o : V3 F32) : ℚ := qdot (ev o) (ev o) - 1

/-- The exact discriminant. -/
def disc (o d : V3 F32) : ℚ := qb o d ^ 2 - 4 * qa d * qc o

theorem adot_self (a : V3 ℚ) : adot a a = qdot a a := by
  unfold adot qdot
  rw [abs_mul_self, abs_mul_self, abs_mul_self]

theorem adot_le {a b : V3 ℚ} {P R : ℚ} (hP : 0 ≤ P) (hR : 0 ≤ R) (h1 : qdot a a ≤ P ^ 2) (h2 : qdot b b ≤ R ^ 2) :
    adot a b ≤ P * R := by
  apply le_of_sq_le_sq ?_ (mul_nonneg hP hR)
  have e : adot a b ^ 2 ≤ qdot a a * qdot b b := by
    unfold adot qdot
    rw [abs_mul, abs_mul, abs_mul, ← abs_mul_abs_self a.x, ← abs_mul_abs_self a.y, ← abs_mul_abs_self a.z,
      ← abs_mul_abs_self b.x, ← abs_mul_abs_self b.y, ← abs_mul_abs_self b.z]
    generalize |a.x| = x1
    generalize |a.y| = x2
    generalize |a.z| = x3
    generalize |b.x| = y1
    generalize |b.y| = y2
    generalize |b.z| = y3
    nlinarith [sq_nonneg (x1 * y2 - x2 * y1), sq_nonneg (x1 * y3 - x3 * y1), sq_nonneg (x2 * y3 - x3 * y2)]
  refine e.trans ?_
  rw [mul_pow]
  refine mul_le_mul h1 h2 ?_ (by positivity)
  unfold qdot
  nlinarith [mul_self_nonneg b.x, mul_self_nonneg b.y, mul_self_nonneg b.z]

section
variable {o d : V3 F32} {P R : ℚ}

theorem Bounds.ppos (h : Bounds o d P R) : 0 < P := lt_of_lt_of_le (by norm_num) h.p1

theorem Bounds.rpos (h : Bounds o d P R) : 0 < R := lt_of_lt_of_le (by norm_num) h.r1

theorem range_pow {x : ℚ} (h1 : 1 / 2 ^ 90 ≤ x) (h2 : x ≤ 2 ^ 100) : 2 ^ (-100 : ℤ) ≤ x ∧ x ≤ 2 ^ (120 : ℤ) := by
  constructor
  · refine le_trans ?_ h1; norm_num
  · refine h2.trans ?_; norm_num

theorem Bounds.pp (h : Bounds o d P R) : 1 / 2 ^ 40 ≤ P ^ 2 ∧ P ^ 2 ≤ 2 ^ 40 := by
  have h0 := h.ppos
  constructor
  · have := pow_le_pow_left₀ (by norm_num) h.p1 2
    refine le_trans ?_ this; norm_num
  · have := pow_le_pow_left₀ h0.le h.p2 2
    refine this.trans ?_; norm_num

theorem Bounds.rr (h : Bounds o d P R) : 1 ≤ R ^ 2 ∧ R ^ 2 ≤ 2 ^ 40 := by
  have h0 := h.rpos
  constructor
  · exact one_le_pow₀ h.r1
  · have := pow_le_pow_left₀ h0.le h.r2 2
    refine this.trans ?_; norm_num

theorem Bounds.pr (h : Bounds o d P R) : 1 / 2 ^ 20 ≤ P * R ∧ P * R ≤ 2 ^ 40 := by
  have h0 := h.ppos
  have h1 := h.rpos
  constructor
  · have := mul_le_mul h.p1 h.r1 (by norm_num) h0.le
    linarith
  · have := mul_le_mul h.p2 h.r2 h1.le (by norm_num)
    refine this.trans ?_; norm_num

theorem Bounds.pprr (h : Bounds o d P R) : 1 / 2 ^ 40 ≤ P ^ 2 * R ^ 2 ∧ P ^ 2 * R ^ 2 ≤ 2 ^ 80 := by
  have h0 := h.ppos
  have h1 := h.rpos
  constructor
  · have := mul_le_mul h.pp.1 h.rr.1 (by norm_num) (by positivity)
    linarith
  · have := mul_le_mul h.pp.2 h.rr.2 (by positivity) (by norm_num)
    refine this.trans ?_; norm_num

theorem Bounds.a_pos (h : Bounds o d P R) : 0 < qa d := by
  have := h.pp.1
  have := h.dd'
  have : (0 : ℚ) < 1 / 2 ^ 40 := by norm_num
  unfold qa
  linarith

theorem Bounds.nA (h : Bounds o d P R) : Nq (coeffs o d).1 (qa d) (P ^ 2) (3 + 1 / 50) := by
  obtain ⟨r1, r2⟩ := range_pow (x := P ^ 2) (le_trans (by norm_num) h.pp.1) (h.pp.2.trans (by norm_num))
  exact nq_dot h.fd h.fd (by rw [adot_self]; exact h.dd) r1 r2

theorem Bounds.nB (h : Bounds o d P R) : Nq (coeffs o d).2.1 (qb o d) (2 * (P * R)) (4 + 1 / 20) := by
  obtain ⟨r1, r2⟩ := range_pow (x := P * R) (le_trans (by norm_num) h.pr.1) (h.pr.2.trans (by norm_num))
  obtain ⟨r3, r4⟩ := range_pow (x := 2 * (P * R)) (le_trans (by norm_num) (mul_le_mul_of_nonneg_left h.pr.1 (by norm_num)))
    (by have := h.pr.2; refine (mul_le_mul_of_nonneg_left this (by norm_num : (0:ℚ) ≤ 2)).trans (by norm_num))
  have h1 := nq_dot h.fd h.fo (adot_le h.ppos.le h.rpos.le h.dd h.oo) r1 r2
  have h2 := nq_mul (nq_exact (x := num 2) (B := 2) trivial (by norm_num [F32.val])) h1 (by norm_num)
    (mul_pos h.ppos h.rpos).le (by norm_num) (by norm_num) r3 r4
  refine ⟨h2.1, h2.2.1, h2.2.2.trans ?_⟩
  exact mul_le_mul_of_nonneg_right (by norm_num) (mul_nonneg (mul_nonneg (by norm_num) (mul_pos h.ppos h.rpos).le) (by norm_num))

theorem qdot_nonneg (a : V3 ℚ) : 0 ≤ qdot a a := by
  unfold qdot
  nlinarith [mul_self_nonneg a.x, mul_self_nonneg a.y, mul_self_nonneg a.z]

theorem Bounds.nC (h : Bounds o d P R) : Nq (coeffs o d).2.2 (qc o) (R ^ 2) (4 + 1 / 20) := by
  obtain ⟨r1, r2⟩ := range_pow (x := R ^ 2) (le_trans (by norm_num) h.rr.1) (h.rr.2.trans (by norm_num))
  have h1 := nq_dot h.fo h.fo (by rw [adot_self]; exact h.oo) r1 r2
  have h2 := nq_sub (j := 3 + 1 / 50) h1 (nq_exact (x := num 1) (B := 1) trivial (by norm_num [F32.val])) (D := R ^ 2) (by
    have := qdot_nonneg (ev o)
    have := h.oo
    have := h.rr.1
    show |qdot (ev o) (ev o) - 1| ≤ R ^ 2
    rw [abs_le]
    constructor <;> linarith) (by linarith) (by norm_num) r1 r2
  refine ⟨h2.1, h2.2.1, h2.2.2.trans ?_⟩
  exact mul_le_mul_of_nonneg_right (by norm_num) (by positivity)

/-- The computed discriminant. -/
def fdelta (o d : V3 F32) : F32 := delta (coeffs o d).1 (coeffs o d).2.1 (coeffs o d).2.2

theorem Bounds.disc_le (h : Bounds o d P R) : |disc o d| ≤ 8 * (P ^ 2 * R ^ 2) := by
  have hb := h.nB.2.1
  have hc := h.nC.2.1
  have ha : |qa d| ≤ P ^ 2 := h.nA.2.1
  have h1 : |qb o d ^ 2| ≤ 4 * (P ^ 2 * R ^ 2) := by
    rw [abs_pow]
    calc |qb o d| ^ 2 ≤ (2 * (P * R)) ^ 2 := pow_le_pow_left₀ (abs_nonneg _) hb 2
      _ = _ := by ring
  have h2 : |4 * qa d * qc o| ≤ 4 * (P ^ 2 * R ^ 2) := by
    rw [abs_mul, abs_mul]
    calc |(4 : ℚ)| * |qa d| * |qc o| ≤ 4 * P ^ 2 * R ^ 2 := by
          refine mul_le_mul ?_ hc (abs_nonneg _) (by positivity)
          rw [abs_of_pos (by norm_num : (0 : ℚ) < 4)]
          exact mul_le_mul_of_nonneg_left ha (by norm_num)
      _ = _ := by ring
  unfold disc
  refine (abs_sub _ _).trans ?_
  linarith

/-- The discriminant is computed with an error of at most `82·2^-24·P²R²`. -/
theorem Bounds.nDelta (h : Bounds o d P R) :
    (fdelta o d).Finite ∧ |(fdelta o d).val - disc o d| ≤ 82 * (P ^ 2 * R ^ 2 * (1 / 2 ^ 24)) := by
  have hP := h.ppos
  have hR := h.rpos
  obtain ⟨q1, q2⟩ := h.pprr
  obtain ⟨q3, q4⟩ := h.pp
  obtain ⟨r1, r2⟩ := range_pow (x := 4 * (P ^ 2 * R ^ 2)) (by norm_num at *; linarith) (by norm_num at *; linarith)
  obtain ⟨r3, r4⟩ := range_pow (x := 4 * P ^ 2) (by norm_num at *; linarith) (by norm_num at *; linarith)
  obtain ⟨r5, r6⟩ := range_pow (x := 8 * (P ^ 2 * R ^ 2)) (by norm_num at *; linarith) (by norm_num at *; linarith)
  have eb : 2 * (P * R) * (2 * (P * R)) = 4 * (P ^ 2 * R ^ 2) := by ring
  have ec : 4 * P ^ 2 * R ^ 2 = 4 * (P ^ 2 * R ^ 2) := by ring
  have b2 := nq_mul h.nB h.nB (by positivity) (by positivity) (by norm_num) (by norm_num) (by rw [eb]; exact r1)
    (by rw [eb]; exact r2)
  have a4 := nq_mul (nq_exact (x := num 4) (B := 4) trivial (by norm_num [F32.val])) h.nA (by norm_num) (by positivity)
    (by norm_num) (by norm_num) r3 r4
  have ac := nq_mul a4 h.nC (by positivity) (by positivity) (by norm_num) (by norm_num) (by rw [ec]; exact r1)
    (by rw [ec]; exact r2)
  rw [eb] at b2
  rw [ec] at ac
  have hd := h.disc_le
  have e : qb o d * qb o d - (num 4).val * qa d * qc o = disc o d := by unfold disc F32.val; ring
  have := nq_sub (j := 9 + 1 / 8) b2 ac (D := 8 * (P ^ 2 * R ^ 2)) (by rw [e]; exact hd)
    (by norm_num; linarith) (by norm_num) r5 r6
  rw [e] at this
  refine ⟨this.1, this.2.2.trans ?_⟩
  have : (0 : ℚ) ≤ P ^ 2 * R ^ 2 * (1 / 2 ^ 24) := by positivity
  calc _ = (9 + 1 / 8 + 1 + 1 / 100) * 8 * (P ^ 2 * R ^ 2 * (1 / 2 ^ 24)) := by ring
    _ ≤ _ := mul_le_mul_of_nonneg_right (by norm_num) this

end

/-! ### The solutions, for a direction and an origin of about the length one -/

theorem ab {x y X Y : ℚ} (h1 : |x| ≤ X) (h2 : |y| ≤ Y) : |x * y| ≤ X * Y := by
  rw [abs_mul]; exact mul_le_mul h1 h2 (abs_nonneg _) ((abs_nonneg _).trans h1)

theorem abadd {x y X Y : ℚ} (h1 : |x| ≤ X) (h2 : |y| ≤ Y) : |x + y| ≤ X + Y := (abs_add_le _ _).trans (add_le_add h1 h2)

theorem absub {x y X Y : ℚ} (h1 : |x| ≤ X) (h2 : |y| ≤ Y) : |x - y| ≤ X + Y := (abs_sub _ _).trans (add_le_add h1 h2)

/-- `2^-24`. -/
def u : ℚ := 1 / 16777216

theorem u_pos : 0 < u := by norm_num [u]

/-- The computed numbers of the main case: `α`, `β`, `γ` are exact, `a`, `b`, `c`, `D` computed with errors; `s` is the
root of `D`, `σ` the sign of `b`, `q` and `t` the roundings of `-(b + σs)/2` and `q/a`. -/
structure Main (α β γ a b c D s σ q : ℚ) : Prop where
  al : 1 / 2 ≤ α
  al' : α ≤ 1
  be : |β| ≤ 2
  ga : |γ| ≤ 1
  ea : |a - α| ≤ 4 * u
  eb : |b - β| ≤ 9 * u
  ec : |c - γ| ≤ 5 * u
  eD : |D - (β ^ 2 - 4 * α * γ)| ≤ 82 * u
  s0 : 0 < s
  es : |s ^ 2 - D| ≤ 3 * u * s ^ 2
  sg : σ = 1 ∨ σ = -1
  sb : 0 ≤ σ * b
  eq : |q - -(b + σ * s) / 2| ≤ (2 + 1 / 100) * u * |(b + σ * s) / 2|

section
variable {α β γ a b c D s σ q : ℚ}

theorem Main.s_le (h : Main α β γ a b c D s σ q) : s ≤ 284 / 100 := by
  have h1 := (abs_le.1 h.es).2
  have h2 := (abs_le.1 h.eD).2
  have h3 : β ^ 2 - 4 * α * γ ≤ 8 := by
    have b1 : |β ^ 2| ≤ 2 ^ 2 := by rw [abs_pow]; exact pow_le_pow_left₀ (abs_nonneg _) h.be 2
    have b2 : |α * γ| ≤ 1 * 1 := ab (by rw [abs_of_nonneg (by linarith [h.al])]; exact h.al') h.ga
    have := (abs_le.1 b1).2
    have := (abs_le.1 b2).1
    linarith
  by_contra hc
  push Not at hc
  have h4 : (284 / 100 : ℚ) ^ 2 ≤ s ^ 2 := pow_le_pow_left₀ (by norm_num) hc.le 2
  norm_num [u] at h1 h2 h4
  linarith

theorem Main.sum (h : Main α β γ a b c D s σ q) : |b + σ * s| = |b| + s ∧ |b + σ * s| ≤ 485 / 100 := by
  have e : |b + σ * s| = |b| + s := by
    rcases h.sg with e | e
    · have hb := h.sb
      rw [e, one_mul] at hb
      rw [e, one_mul, abs_of_nonneg hb, abs_of_nonneg (by linarith [h.s0])]
    · have hb := h.sb
      rw [e] at hb
      have hb' : b ≤ 0 := by linarith
      rw [e, abs_of_nonpos hb', abs_of_nonpos (by linarith [h.s0])]
      ring
  refine ⟨e, ?_⟩
  rw [e]
  have h1 : |b| ≤ |β| + |b - β| := by
    have := abs_add_le β (b - β)
    rwa [add_sub_cancel] at this
  have := h.be
  have := h.eb
  have := h.s_le
  norm_num [u] at *
  linarith

theorem Main.b_le (h : Main α β γ a b c D s σ q) : |b| ≤ 201 / 100 := by
  have h1 : |b| ≤ |β| + |b - β| := by
    have := abs_add_le β (b - β)
    rwa [add_sub_cancel] at this
  have := h.be
  have := h.eb
  norm_num [u] at *
  linarith

theorem Main.q_le (h : Main α β γ a b c D s σ q) : |q - -(b + σ * s) / 2| ≤ 5 * u ∧ |q| ≤ 243 / 100 := by
  obtain ⟨-, h2⟩ := h.sum
  have h1 := h.eq
  have e : |(b + σ * s) / 2| = |b + σ * s| / 2 := by rw [abs_div]; norm_num
  rw [e] at h1
  have e2 : |-(b + σ * s) / 2| = |b + σ * s| / 2 := by rw [abs_div, abs_neg]; norm_num
  have h3 : |q| ≤ |-(b + σ * s) / 2| + |q - -(b + σ * s) / 2| := by
    have := abs_add_le (-(b + σ * s) / 2) (q - -(b + σ * s) / 2)
    rwa [add_sub_cancel] at this
  rw [e2] at h3
  have h4 : (2 + 1 / 100) * u * (|b + σ * s| / 2) ≤ (2 + 1 / 100) * u * (485 / 100 / 2) :=
    mul_le_mul_of_nonneg_left (by linarith) (by norm_num [u])
  generalize |q - -(b + σ * s) / 2| = y at *
  generalize |b + σ * s| = y at *
  norm_num [u] at *
  constructor <;> linarith

theorem Main.sσ (h : Main α β γ a b c D s σ q) : σ ^ 2 = 1 := by
  rcases h.sg with e | e <;> rw [e] <;> norm_num

theorem Main.sδ (h : Main α β γ a b c D s σ q) : |s ^ 2 - (β ^ 2 - 4 * α * γ)| ≤ 107 * u := by
  have h1 := h.es
  have h2 := h.eD
  have h3 : s ^ 2 ≤ (284 / 100) ^ 2 := pow_le_pow_left₀ h.s0.le h.s_le 2
  have : s ^ 2 - (β ^ 2 - 4 * α * γ) = (s ^ 2 - D) + (D - (β ^ 2 - 4 * α * γ)) := by ring
  rw [this]
  refine (abadd h1 h2).trans ?_
  norm_num [u] at *
  linarith

/-- The first solution: on one side of the nearest point, with a small residual. -/
theorem Main.first (h : Main α β γ a b c D s σ q) {t : ℚ} (ht : |t - q / a| ≤ (1 + 1 / 100) * u * |q / a|) :
    |2 * α * t + β + σ * s| ≤ 72 * u ∧ |α * t ^ 2 + β * t + γ| ≤ 260 * u := by
  obtain ⟨-, hs2⟩ := h.sum
  obtain ⟨hq1, hq2⟩ := h.q_le
  have ha : 49 / 100 ≤ a := by
    have h1 := (abs_le.1 h.ea).1
    have := h.al
    norm_num [u] at *
    linarith
  have ha0 : 0 < a := by linarith
  have hinv : |1 / a| ≤ 100 / 49 := by
    rw [abs_of_pos (by positivity), div_le_iff₀ ha0]; linarith
  have hα : |α| ≤ 1 := by rw [abs_of_nonneg (by linarith [h.al])]; exact h.al'
  have hqa : |q / a| ≤ 5 := by
    have : q / a = q * (1 / a) := by ring
    rw [this]
    exact (ab hq2 hinv).trans (by norm_num)
  have ht' : |t - q / a| ≤ 6 * u := by
    refine ht.trans ?_
    have : (1 + 1 / 100) * u * |q / a| ≤ (1 + 1 / 100) * u * 5 := mul_le_mul_of_nonneg_left hqa (by norm_num [u])
    refine this.trans ?_
    norm_num [u]
  -- `2αt + β + σs`
  have e : 2 * α * t + β + σ * s = 2 * (α * (t - q / a)) + 2 * ((α - a) * (q / a)) + 2 * (q - -(b + σ * s) / 2) - (b - β) := by
    field_simp
    ring
  have hρ : |2 * α * t + β + σ * s| ≤ 72 * u := by
    rw [e]
    have k1 := ab (show |(2 : ℚ)| ≤ 2 by norm_num) (ab hα ht')
    have k2 := ab (show |(2 : ℚ)| ≤ 2 by norm_num) (ab (show |α - a| ≤ 4 * u by rw [abs_sub_comm]; exact h.ea) hqa)
    have k3 := ab (show |(2 : ℚ)| ≤ 2 by norm_num) hq1
    refine (absub (abadd (abadd k1 k2) k3) h.eb).trans ?_
    norm_num [u]
  refine ⟨hρ, ?_⟩
  have hα0 : 0 < α := by linarith [h.al]
  have e2 : α * t ^ 2 + β * t + γ =
      (1 / (4 * α)) * ((s ^ 2 - (β ^ 2 - 4 * α * γ)) - 2 * (σ * s * (2 * α * t + β + σ * s)) + (2 * α * t + β + σ * s) ^ 2) := by
    field_simp
    linear_combination s ^ 2 * h.sσ
  rw [e2]
  have hσs : |σ * s| ≤ 1 * (284 / 100) := ab (by rcases h.sg with e | e <;> rw [e] <;> norm_num)
    (by rw [abs_of_pos h.s0]; exact h.s_le)
  have i1 : |1 / (4 * α)| ≤ 1 / 2 := by
    rw [abs_of_pos (by positivity), div_le_div_iff₀ (by positivity) (by norm_num)]
    linarith [h.al]
  have i2 := ab (show |(2 : ℚ)| ≤ 2 by norm_num) (ab hσs hρ)
  have i3 : |(2 * α * t + β + σ * s) ^ 2| ≤ (72 * u) ^ 2 := by
    rw [abs_pow]; exact pow_le_pow_left₀ (abs_nonneg _) hρ 2
  refine (ab i1 (abadd (absub h.sδ i2) i3)).trans ?_
  norm_num [u]

set_option maxHeartbeats 800000 in
/-- The second solution. -/
theorem Main.second (h : Main α β γ a b c D s σ q) (hδ : 400 * u ≤ β ^ 2 - 4 * α * γ) {t : ℚ}
    (ht : |t - c / q| ≤ (1 + 1 / 100) * u * |c / q| + 1 / 2 ^ 60) :
    0 < σ * (2 * α * t + β) ∧ |α * t ^ 2 + β * t + γ| ≤ 360 * u := by
  obtain ⟨hs1, hs2⟩ := h.sum
  obtain ⟨hq1, hq2⟩ := h.q_le
  have hα : |α| ≤ 1 := by rw [abs_of_nonneg (by linarith [h.al])]; exact h.al'
  have hσ : |σ| ≤ 1 := by rcases h.sg with e | e <;> rw [e] <;> norm_num
  set q0 := -(b + σ * s) / 2 with hq0
  have hq0a : |q0| = (|b| + s) / 2 := by rw [hq0, abs_div, abs_neg, hs1]; norm_num
  have hq0b : |q0| ≤ 243 / 100 := by rw [hq0a, ← hs1]; linarith
  -- `s` is not small
  have hs293 : 292 * u ≤ s ^ 2 := by
    have := (abs_le.1 h.sδ).1
    have := u_pos
    linarith
  have hs4 : (4 : ℚ) / 1000 ≤ s := by
    by_contra hc
    push Not at hc
    have : s ^ 2 ≤ (4 / 1000) ^ 2 := pow_le_pow_left₀ h.s0.le hc.le 2
    norm_num [u] at *
    linarith
  have hq0s : s / 2 ≤ |q0| := by rw [hq0a]; linarith [abs_nonneg b]
  have hqs : s / 2 * (999 / 1000) ≤ |q| := by
    have : |q0| ≤ |q| + |q - q0| := by
      have := abs_sub_abs_le_abs_sub q0 q
      rw [abs_sub_comm] at this
      linarith
    norm_num [u] at *
    linarith
  have hqpos : 0 < |q| := lt_of_lt_of_le (by linarith) hqs
  have hqne : q ≠ 0 := abs_pos.1 hqpos
  have hq0pos : 0 < |q0| := lt_of_lt_of_le (by linarith) hq0s
  have hq0ne : q0 ≠ 0 := abs_pos.1 hq0pos
  -- the equation of the computed root
  have hroot : q0 ^ 2 + b * q0 + (b ^ 2 - s ^ 2) / 4 = 0 := by
    rw [hq0]
    linear_combination s ^ 2 / 4 * h.sσ
  set K := α * c - (b ^ 2 - s ^ 2) / 4 with hK
  have hKle : |K| ≤ 41 * u := by
    have e : K = α * (c - γ) - (b - β) * (b + β) / 4 + (s ^ 2 - (β ^ 2 - 4 * α * γ)) / 4 := by rw [hK]; ring
    have k1 := ab hα h.ec
    have k2 : |(b - β) * (b + β) / 4| ≤ 9 * u * (201 / 100 + 2) / 4 := by
      rw [abs_div, abs_of_pos (by norm_num : (0 : ℚ) < 4)]
      exact div_le_div_of_nonneg_right (ab h.eb (abadd h.b_le h.be)) (by norm_num)
    have k3 : |(s ^ 2 - (β ^ 2 - 4 * α * γ)) / 4| ≤ 107 * u / 4 := by
      rw [abs_div, abs_of_pos (by norm_num : (0 : ℚ) < 4)]
      exact div_le_div_of_nonneg_right h.sδ (by norm_num)
    rw [e]
    refine (abadd (absub k1 k2) k3).trans ?_
    norm_num [u]
  -- the size of `c` against `q`
  have hcle : |c| ≤ 101 / 100 := by
    have h1 : |c| ≤ |γ| + |c - γ| := by
      have := abs_add_le γ (c - γ)
      rwa [add_sub_cancel] at this
    have := h.ga
    have := h.ec
    norm_num [u] at *
    linarith
  have hq0sq : q0 ^ 2 = (|b| + s) ^ 2 / 4 := by rw [← sq_abs, hq0a]; ring
  have hq0c : |c| ≤ 32 / 10 * q0 ^ 2 := by
    have k1 : |(b ^ 2 - s ^ 2) / 4| ≤ q0 ^ 2 := by
      rw [hq0sq, abs_div, abs_of_pos (by norm_num : (0 : ℚ) < 4)]
      apply div_le_div_of_nonneg_right _ (by norm_num)
      have := h.s0
      have := abs_nonneg b
      rw [← sq_abs b, abs_le]
      constructor <;> nlinarith
    have k2 : |α * c| ≤ q0 ^ 2 + 41 * u := by
      have : α * c = (b ^ 2 - s ^ 2) / 4 + K := by rw [hK]; ring
      rw [this]
      exact abadd k1 hKle
    have k3 : 73 * u ≤ q0 ^ 2 := by
      have : s ^ 2 ≤ (|b| + s) ^ 2 := pow_le_pow_left₀ h.s0.le (by linarith [abs_nonneg b]) 2
      rw [hq0sq]
      linarith
    have hu := u_pos
    rw [abs_mul, abs_of_nonneg (by linarith [h.al] : (0 : ℚ) ≤ α)] at k2
    have k4 : 1 / 2 * |c| ≤ α * |c| := mul_le_mul_of_nonneg_right h.al (abs_nonneg _)
    linarith
  have hqc : |c| ≤ 33 / 10 * q ^ 2 := by
    have : q0 ^ 2 ≤ 1001 / 1000 * q ^ 2 := by
      have h1 : |q0| ≤ |q| * (1 + 1 / 10000) := by
        have h1 : |q0| ≤ |q| + |q - q0| := by
          have := abs_sub_abs_le_abs_sub q0 q
          rw [abs_sub_comm] at this
          linarith
        have h2 := h.eq
        have e : |(b + σ * s) / 2| = |q0| := by rw [hq0, neg_div, abs_neg]
        rw [e] at h2
        generalize |q - q0| = y at *
        norm_num [u] at *
        linarith
      have := pow_le_pow_left₀ (abs_nonneg q0) h1 2
      rw [sq_abs, mul_pow, sq_abs] at this
      have h3 : (0 : ℚ) ≤ q ^ 2 := sq_nonneg _
      norm_num at *
      linarith
    have h3 : (0 : ℚ) ≤ q ^ 2 := sq_nonneg _
    linarith
  have hx : |c / q| ≤ 2 := by
    rw [abs_div, div_le_iff₀ hqpos]
    by_contra hc
    push Not at hc
    have h1 := mul_self_lt_mul_self (by positivity) hc
    rw [← sq_abs q] at hqc
    have h2 : |c| * |c| ≤ 101 / 100 * |c| := mul_le_mul_of_nonneg_right hcle (abs_nonneg _)
    nlinarith
  -- the error of the division
  have he : |t - c / q| ≤ 3 * u := by
    refine ht.trans ?_
    have : (1 + 1 / 100) * u * |c / q| ≤ (1 + 1 / 100) * u * 2 := mul_le_mul_of_nonneg_left hx (by norm_num [u])
    norm_num [u] at *
    linarith
  constructor
  · -- which side
    have e : 2 * α * t + β = σ * s + (2 * (α * (t - c / q)) + 2 * (K / q) - (b - β) + (q0 + b) * (2 * ((q - q0) / q))) := by
      have kK : K = α * c + q0 ^ 2 + b * q0 := by rw [hK]; linear_combination -hroot
      have k1 : q * (c / q) = c := mul_div_cancel₀ _ hqne
      have k2 : q * (K / q) = K := mul_div_cancel₀ _ hqne
      have k3 : q * ((q - q0) / q) = q - q0 := mul_div_cancel₀ _ hqne
      have k4 : 2 * q0 = -(b + σ * s) := by rw [hq0]; ring
      apply mul_left_cancel₀ hqne
      linear_combination 2 * α * k1 - 2 * k2 - 2 * (q0 + b) * k3 - 2 * kK - q * k4
    have h1 := ab (show |(2 : ℚ)| ≤ 2 by norm_num) (ab hα he)
    have h2 : |K / q| ≤ 41 * u / (s / 2 * (999 / 1000)) := by
      rw [abs_div]
      exact div_le_div₀ (by norm_num [u]) hKle (by linarith) hqs
    have h3 : |q0 + b| ≤ 243 / 100 + 201 / 100 := abadd hq0b h.b_le
    have h4 : |(q - q0) / q| ≤ 3 * u := by
      rw [abs_div, div_le_iff₀ hqpos]
      have h2 := h.eq
      have e : |(b + σ * s) / 2| = |q0| := by rw [hq0, neg_div, abs_neg]
      rw [e] at h2
      have h1 : |q0| ≤ |q| + |q - q0| := by
        have := abs_sub_abs_le_abs_sub q0 q
        rw [abs_sub_comm] at this
        linarith
      generalize |q - q0| = y at *
      norm_num [u] at *
      linarith
    have h5 := ab h3 (ab (show |(2 : ℚ)| ≤ 2 by norm_num) h4)
    have h6 := abadd (absub (abadd h1 (ab (show |(2 : ℚ)| ≤ 2 by norm_num) h2)) h.eb) h5
    have h7 : 2 * (41 * u / (s / 2 * (999 / 1000))) ≤ 9 / 10 * s := by
      have hs := h.s0
      have : 2 * (41 * u / (s / 2 * (999 / 1000))) = (164 * 1000 / 999 * u) / s := by field_simp; ring
      rw [this, div_le_iff₀ hs]
      have hu := u_pos
      have hss : 9 / 10 * s * s = 9 / 10 * s ^ 2 := by ring
      rw [hss]
      linarith
    rw [e]
    set ρ := 2 * (α * (t - c / q)) + 2 * (K / q) - (b - β) + (q0 + b) * (2 * ((q - q0) / q)) with hρ
    have h8 : |σ * ρ| ≤ 1 * (9 / 10 * s + 42 * u) := ab hσ (h6.trans (by norm_num [u] at *; linarith))
    have h9 := (abs_le.1 h8).1
    have : σ * (σ * s + ρ) = s + σ * ρ := by linear_combination s * h.sσ
    rw [this]
    norm_num [u] at *
    linarith
  · -- the residual
    have hG : |α * c + β * q + q ^ 2| ≤ 98 * u := by
      have e : α * c + β * q + q ^ 2 = K + (β - b) * q + b * (q - q0) + (q - q0) * (q + q0) := by
        rw [hK]; linear_combination hroot
      rw [e]
      have k1 := ab (show |β - b| ≤ 9 * u by rw [abs_sub_comm]; exact h.eb) hq2
      have k2 := ab h.b_le hq1
      have k3 := ab hq1 (abadd hq2 hq0b)
      refine (abadd (abadd (abadd hKle k1) k2) k3).trans ?_
      norm_num [u]
    have hxr : |α * (c / q) ^ 2 + β * (c / q) + γ| ≤ 329 * u := by
      have e : α * (c / q) ^ 2 + β * (c / q) + γ = c / q ^ 2 * (α * c + β * q + q ^ 2) - (c - γ) := by
        field_simp
        ring
      have k : |c / q ^ 2| ≤ 33 / 10 := by
        have : 0 < q ^ 2 := by positivity
        rw [abs_div, abs_of_pos this, div_le_iff₀ this]
        exact hqc
      rw [e]
      refine (absub (ab k hG) h.ec).trans ?_
      norm_num [u]
    have e : α * t ^ 2 + β * t + γ = (α * (c / q) ^ 2 + β * (c / q) + γ) +
        (t - c / q) * (α * (2 * (c / q) + (t - c / q)) + β) := by ring
    rw [e]
    have k1 := abadd (ab hα (abadd (ab (show |(2 : ℚ)| ≤ 2 by norm_num) hx) he)) h.be
    refine (abadd hxr (ab he k1)).trans ?_
    norm_num [u]
end
/-! ### The computed solutions -/

theorem ok_ge {x : F32} (hk : x.Ok) (h : 0 < x.val) : 2 ^ (-149 : ℤ) ≤ x.val := by
  obtain ⟨h1, -⟩ := ok_val hk
  unfold rnd32 at h1
  set n := rne (x.val / 2 ^ ulp32 x.val) with hn
  have hp : (0 : ℚ) < 2 ^ ulp32 x.val := two_zpow_pos _
  have h2 : (0 : ℚ) < n := by
    by_contra hc
    push Not at hc
    have := mul_nonpos_of_nonpos_of_nonneg hc hp.le
    linarith
  have h3 : (1 : ℚ) ≤ n := by
    have : 0 < n := by exact_mod_cast h2
    exact_mod_cast this
  have h4 : (2 : ℚ) ^ (-149 : ℤ) ≤ 2 ^ ulp32 x.val := zpow_le_zpow_right₀ (by norm_num) (le_max_right _ _)
  calc (2 : ℚ) ^ (-149 : ℤ) ≤ 1 * 2 ^ ulp32 x.val := by rw [one_mul]; exact h4
    _ ≤ n * 2 ^ ulp32 x.val := mul_le_mul_of_nonneg_right h3 hp.le
    _ = _ := h1

/-- One rounding of a number of ordinary size: finite, and a relative error. -/
theorem rel_step {x : F32} {e : ℚ} (hx : |rnd32 e| < 2 ^ 128 → x.Finite ∧ x.val = rnd32 e) (h1 : 2 ^ (-120 : ℤ) ≤ |e|)
    (h2 : |e| ≤ 2 ^ (100 : ℤ)) : x.Finite ∧ |x.val - e| ≤ u * |e| := by
  have h3 := rnd32_rel (q := e) (le_trans (zpow_le_zpow_right₀ (by norm_num) (by norm_num)) h1)
  obtain ⟨f1, f2⟩ := hx (by
    have : |rnd32 e| ≤ |e| + |rnd32 e - e| := by
      have := abs_add_le e (rnd32 e - e)
      rwa [add_sub_cancel] at this
    norm_num at *
    linarith)
  refine ⟨f1, ?_⟩
  rw [f2]
  refine h3.trans (le_of_eq ?_)
  unfold u
  ring

theorem finite_pos {x : F32} (hx : x.Finite) (h : 0 < x.val) : ∃ q, x = num q := by
  cases x with
  | nan => exact absurd hx id
  | inf s => exact absurd hx id
  | zero s => exact absurd h (lt_irrefl _)
  | num q => exact ⟨q, rfl⟩

section
variable {o d : V3 F32} {P R : ℚ}

theorem delta_ok (a b c : F32) : (delta a b c).Ok := add_ok _ _

/-- `q` in `equation2`. -/
def froot (o d : V3 F32) : F32 := root (coeffs o d).2.1 (fdelta o d)

theorem Bounds.root (h : Bounds o d P R) (hD : 0 < (fdelta o d).val) :
    ∃ s σ : ℚ, 0 < s ∧ |s ^ 2 - (fdelta o d).val| ≤ 3 * u * s ^ 2 ∧ (σ = 1 ∨ σ = -1) ∧ 0 ≤ σ * (coeffs o d).2.1.val ∧
      (froot o d).Finite ∧ 2 ^ (-77 : ℤ) ≤ |(froot o d).val| ∧ |(froot o d).val| ≤ 2 ^ (50 : ℤ) ∧
      |(froot o d).val - -((coeffs o d).2.1.val + σ * s) / 2| ≤
        (2 + 1 / 100) * u * |((coeffs o d).2.1.val + σ * s) / 2| := by
  obtain ⟨fD, eD⟩ := h.nDelta
  have fB := h.nB.1
  have bB := nq_val h.nB (by have := h.pr.1; have := h.ppos; have := h.rpos; positivity) (by norm_num)
  have hk : (fdelta o d).Ok := delta_ok _ _ _
  have hlow := ok_ge hk hD
  unfold froot
  set B := (coeffs o d).2.1 with hB
  have hBle : |B.val| ≤ 2 ^ (42 : ℤ) := by
    have := h.pr.2
    norm_num at *
    linarith
  set D := fdelta o d with hDd
  have hDle : D.val < 2 ^ (2 * 43 : ℤ) := by
    have h1 := (abs_le.1 eD).2
    have h2 := (abs_le.1 h.disc_le).2
    have := h.pprr.2
    norm_num at *
    linarith
  obtain ⟨q, hq⟩ := finite_pos fD hD
  have hqv : D.val = q := by rw [hq]; rfl
  rw [hqv] at hD hlow hDle eD ⊢
  have hS : F32.sqrt D = num (sqrt32 q) := by
    rw [hq]
    show (if q < 0 then nan else num (sqrt32 q)) = _
    rw [if_neg (not_lt.2 hD.le)]
  obtain ⟨s0, s1, s2⟩ := sqrt32_sq hD
  have s3 : sqrt32 q ≤ 2 ^ (43 : ℤ) := sqrt32_le hD hDle
  have s4 : 2 ^ (-75 : ℤ) ≤ sqrt32 q := le_sqrt32 hD (le_trans (by norm_num) hlow)
  set s := sqrt32 q with hs
  clear_value s
  have es : |s ^ 2 - q| ≤ 3 * u * s ^ 2 := by
    have : 0 ≤ s ^ 2 := by positivity
    unfold u
    rw [abs_le]
    constructor
    · norm_num at *; linarith
    · norm_num at *; linarith
  -- one common step for the two signs
  have step : ∀ σ : ℚ, (σ = 1 ∨ σ = -1) → 0 ≤ σ * B.val → ∀ M : F32,
      (|rnd32 (B.val + σ * s)| < 2 ^ 128 → M.Finite ∧ M.val = rnd32 (B.val + σ * s)) →
      (F32.mul (num (-1 / 2)) M).Finite ∧ 2 ^ (-77 : ℤ) ≤ |(F32.mul (num (-1 / 2)) M).val| ∧
      |(F32.mul (num (-1 / 2)) M).val| ≤ 2 ^ (50 : ℤ) ∧
      |(F32.mul (num (-1 / 2)) M).val - -(B.val + σ * s) / 2| ≤ (2 + 1 / 100) * u * |(B.val + σ * s) / 2| := by
    intro σ hσ hσB M hM
    have e : |B.val + σ * s| = |B.val| + s := by
      rcases hσ with e | e
      · rw [e, one_mul] at hσB
        rw [e, one_mul, abs_of_nonneg hσB, abs_of_nonneg (by linarith)]
      · rw [e] at hσB
        have hb' : B.val ≤ 0 := by linarith
        rw [e, abs_of_nonpos hb', abs_of_nonpos (by linarith)]
        ring
    have hB0 := abs_nonneg B.val
    obtain ⟨fM, eM⟩ := rel_step hM (by rw [e]; norm_num at *; linarith [abs_nonneg B.val]) (by rw [e]; norm_num at *; linarith)
    set w := B.val + σ * s with hw
    have hwlo : 2 ^ (-75 : ℤ) ≤ |w| := by rw [e]; linarith
    have hwhi : |w| ≤ 2 ^ (44 : ℤ) := by rw [e]; norm_num at *; linarith
    clear_value w
    have hMlo : |w| * (1 - u) ≤ |M.val| := by
      have := abs_sub_abs_le_abs_sub w M.val
      rw [abs_sub_comm] at this
      linarith
    have hMhi : |M.val| ≤ |w| * (1 + u) := by
      have := abs_sub_abs_le_abs_sub M.val w
      linarith
    have ha : |(num (-1 / 2)).val * M.val| = |M.val| / 2 := by
      show |(-1 / 2 : ℚ) * M.val| = _
      rw [abs_mul]; norm_num; ring
    obtain ⟨fQ, eQ⟩ := rel_step (x := F32.mul (num (-1 / 2)) M) (fun h => mul_finite trivial fM h)
      (by rw [ha]; norm_num [u] at *; linarith) (by rw [ha]; norm_num [u] at *; linarith)
    rw [ha] at eQ
    have hv : (num (-1 / 2)).val * M.val = -M.val / 2 := by show (-1 / 2 : ℚ) * M.val = _; ring
    rw [hv] at eQ
    set Q := (F32.mul (num (-1 / 2)) M).val with hQ
    have hfin : |Q - -w / 2| ≤ (2 + 1 / 100) * u * |w / 2| := by
      have e1 : Q - -w / 2 = (Q - -M.val / 2) - (M.val - w) / 2 := by ring
      have e2 : |(M.val - w) / 2| ≤ u * |w| / 2 := by
        rw [abs_div, abs_of_pos (by norm_num : (0 : ℚ) < 2)]
        linarith
      rw [e1, abs_div w, abs_of_pos (by norm_num : (0 : ℚ) < 2)]
      refine (absub eQ e2).trans ?_
      have : u * (|M.val| / 2) ≤ u * (|w| * (1 + u) / 2) := mul_le_mul_of_nonneg_left (by linarith) u_pos.le
      norm_num [u] at *
      linarith [abs_nonneg w]
    have hlo : |w / 2| * (1 - 3 * u) ≤ |Q| := by
      have := abs_sub_abs_le_abs_sub (-w / 2) Q
      rw [abs_sub_comm, neg_div, abs_neg, ← neg_div] at this
      have h0 := abs_nonneg (w / 2)
      generalize |w / 2| = z at *
      norm_num [u] at *
      linarith
    have hhi : |Q| ≤ |w / 2| * (1 + 3 * u) := by
      have := abs_sub_abs_le_abs_sub Q (-w / 2)
      rw [show |-w / 2| = |w / 2| by rw [neg_div, abs_neg]] at this
      have h0 := abs_nonneg (w / 2)
      generalize |w / 2| = z at *
      norm_num [u] at *
      linarith
    have hw2 : |w / 2| = |w| / 2 := by rw [abs_div]; norm_num
    rw [hw2] at hlo hhi
    refine ⟨fQ, ?_, ?_, hfin⟩
    · norm_num [u] at *; linarith
    · norm_num [u] at *; linarith
  unfold FSphere.root
  rw [hS, lt_finite fB (show (zero false).Finite from trivial)]
  show ∃ s σ : ℚ, _
  by_cases hneg : B.val < 0
  · have hz : decide (B.val < (zero false).val) = true := decide_eq_true hneg
    rw [if_pos hz]
    refine ⟨s, -1, s0, es, Or.inr rfl, by linarith, ?_⟩
    apply step (-1) (Or.inr rfl) (by linarith)
    intro hh
    have : B.val + -1 * s = B.val - (num s).val := by show _ = B.val - s; ring
    rw [this] at hh ⊢
    exact sub_fin fB trivial hh
  · have hz : ¬ decide (B.val < (zero false).val) = true := by rw [decide_eq_true_eq]; exact hneg
    rw [if_neg hz]
    push Not at hneg
    refine ⟨s, 1, s0, es, Or.inl rfl, by linarith, ?_⟩
    apply step 1 (Or.inl rfl) (by linarith)
    intro hh
    have : B.val + 1 * s = B.val + (num s).val := by show _ = B.val + s; ring
    rw [this] at hh ⊢
    exact add_finite fB trivial hh
end
section
variable {o d : V3 F32} {P R : ℚ}

theorem scale_le {x B k : ℚ} (hB : 0 < B) (h : |x| ≤ k * B) : |x / B| ≤ k := by
  rw [abs_div, abs_of_pos hB, div_le_iff₀ hB]
  exact h

theorem Bounds.main (h : Bounds o d P R) (hD : 0 < (fdelta o d).val) :
    ((froot o d).Finite ∧ 2 ^ (-77 : ℤ) ≤ |(froot o d).val| ∧ |(froot o d).val| ≤ 2 ^ (50 : ℤ)) ∧
    ∃ s σ : ℚ, Main (qa d / P ^ 2) (qb o d / (P * R)) (qc o / R ^ 2) ((coeffs o d).1.val / P ^ 2)
      ((coeffs o d).2.1.val / (P * R)) ((coeffs o d).2.2.val / R ^ 2) ((fdelta o d).val / (P ^ 2 * R ^ 2)) (s / (P * R)) σ
      ((froot o d).val / (P * R)) := by
  obtain ⟨s, σ, s0, es, hσ, hσB, fQ, q1, q2, eQ⟩ := h.root hD
  have hP := h.ppos
  have hR := h.rpos
  have hPR : 0 < P * R := mul_pos hP hR
  have hPP : 0 < P ^ 2 := by positivity
  have hRR : 0 < R ^ 2 := by positivity
  have hPPRR : 0 < P ^ 2 * R ^ 2 := by positivity
  refine ⟨⟨fQ, q1, q2⟩, s, σ, ?_⟩
  obtain ⟨-, -, eA⟩ := h.nA
  obtain ⟨-, bB, eB⟩ := h.nB
  obtain ⟨-, bC, eC⟩ := h.nC
  obtain ⟨-, eD⟩ := h.nDelta
  have hu : u = 1 / 2 ^ 24 := by norm_num [u]
  refine ⟨?_, ?_, ?_, ?_, ?_, ?_, ?_, ?_, div_pos s0 hPR, ?_, hσ, ?_, ?_⟩
  · rw [le_div_iff₀ hPP]
    have := h.dd'
    unfold qa
    linarith
  · rw [div_le_iff₀ hPP, one_mul]
    exact h.dd
  · exact scale_le hPR (by linarith)
  · exact scale_le hRR (by linarith)
  · rw [← sub_div]
    apply scale_le hPP
    rw [hu]
    have : 0 < P ^ 2 * (1 / 2 ^ 24) := by positivity
    linarith
  · rw [← sub_div]
    apply scale_le hPR
    rw [hu]
    have : 0 < P * R * (1 / 2 ^ 24) := by positivity
    linarith
  · rw [← sub_div]
    apply scale_le hRR
    rw [hu]
    have : 0 < R ^ 2 * (1 / 2 ^ 24) := by positivity
    linarith
  · have e : (fdelta o d).val / (P ^ 2 * R ^ 2) - ((qb o d / (P * R)) ^ 2 - 4 * (qa d / P ^ 2) * (qc o / R ^ 2)) =
        ((fdelta o d).val - disc o d) / (P ^ 2 * R ^ 2) := by
      unfold disc
      field_simp
    rw [e]
    apply scale_le hPPRR
    rw [hu]
    linarith
  · have e : (s / (P * R)) ^ 2 - (fdelta o d).val / (P ^ 2 * R ^ 2) = (s ^ 2 - (fdelta o d).val) / (P ^ 2 * R ^ 2) := by
      field_simp
    rw [e]
    apply scale_le hPPRR
    refine es.trans (le_of_eq ?_)
    field_simp
  · have : σ * ((coeffs o d).2.1.val / (P * R)) = σ * (coeffs o d).2.1.val / (P * R) := by ring
    rw [this]
    exact div_nonneg hσB hPR.le
  · have e1 : (froot o d).val / (P * R) - -((coeffs o d).2.1.val / (P * R) + σ * (s / (P * R))) / 2 =
        ((froot o d).val - -((coeffs o d).2.1.val + σ * s) / 2) / (P * R) := by ring
    have e2 : ((coeffs o d).2.1.val / (P * R) + σ * (s / (P * R))) / 2 =
        ((coeffs o d).2.1.val + σ * s) / 2 / (P * R) := by ring
    rw [e1, e2, abs_div, abs_div (((coeffs o d).2.1.val + σ * s) / 2), abs_of_pos hPR, ← mul_div_assoc]
    exact div_le_div_of_nonneg_right eQ hPR.le

/-- By how much the square of the distance from the centre differs from one at `o + t d`. -/
def height (o d : V3 F32) (t : ℚ) : ℚ := qa d * t ^ 2 + qb o d * t + qc o

theorem height_eq (o d : V3 F32) (t : ℚ) : height o d t =
    (o.x.val + t * d.x.val) ^ 2 + (o.y.val + t * d.y.val) ^ 2 + (o.z.val + t * d.z.val) ^ 2 - 1 := by
  unfold height qa qb qc qdot ev
  ring

/-- The two computed solutions of the main case. -/
theorem Bounds.solutions (h : Bounds o d P R) (hD : 0 < (fdelta o d).val) :
    (div (froot o d) (coeffs o d).1).Finite ∧ (div (coeffs o d).2.2 (froot o d)).Finite ∧
    |height o d (div (froot o d) (coeffs o d).1).val| ≤ 260 * u * R ^ 2 ∧
    (400 * u * (P ^ 2 * R ^ 2) ≤ disc o d →
      |height o d (div (coeffs o d).2.2 (froot o d)).val| ≤ 360 * u * R ^ 2 ∧
      (2 * qa d * (div (froot o d) (coeffs o d).1).val + qb o d) *
        (2 * qa d * (div (coeffs o d).2.2 (froot o d)).val + qb o d) < 0) := by
  obtain ⟨⟨fQ, q1, q2⟩, s, σ, M⟩ := h.main hD
  have hP := h.ppos
  have hR := h.rpos
  have hPR : 0 < P * R := mul_pos hP hR
  have hPP : 0 < P ^ 2 := by positivity
  have hRR : 0 < R ^ 2 := by positivity
  obtain ⟨fA, bA, eA⟩ := h.nA
  obtain ⟨fC, bC, eC⟩ := h.nC
  set Q := froot o d with hQ
  set A := (coeffs o d).1 with hA
  set C := (coeffs o d).2.2 with hC
  have hQne : Q.val ≠ 0 := abs_pos.1 (lt_of_lt_of_le (two_zpow_pos _) q1)
  have hA1 : P ^ 2 * (49 / 100) ≤ A.val := by
    have h1 := (abs_le.1 eA).1
    have h2 := h.dd'
    have h3 : qa d = qdot (ev d) (ev d) := rfl
    norm_num at *
    linarith
  have hA2 : A.val ≤ P ^ 2 * 2 := by
    have h1 := (abs_le.1 eA).2
    have h2 := h.dd
    have h3 : qa d = qdot (ev d) (ev d) := rfl
    norm_num at *
    linarith
  have hA0 : 0 < A.val := lt_of_lt_of_le (by positivity) hA1
  have hA3 : 1 / 2 ^ 42 ≤ A.val := by
    have := h.pp.1
    norm_num at *
    linarith
  have hA4 : A.val ≤ 2 ^ 41 := by
    have := h.pp.2
    norm_num at *
    linarith
  -- the first solution
  have habs : |Q.val / A.val| = |Q.val| / A.val := by rw [abs_div, abs_of_pos hA0]
  obtain ⟨f1, e1⟩ := rel_step (x := div Q A) (e := Q.val / A.val) (fun hh => div_finite fQ fA hA0.ne' hh) (by
      rw [habs, le_div_iff₀ hA0]
      calc (2 : ℚ) ^ (-120 : ℤ) * A.val ≤ 2 ^ (-120 : ℤ) * 2 ^ 41 := mul_le_mul_of_nonneg_left hA4 (two_zpow_pos _).le
        _ ≤ 2 ^ (-77 : ℤ) := by norm_num
        _ ≤ _ := q1) (by
      rw [habs, div_le_iff₀ hA0]
      calc |Q.val| ≤ 2 ^ (50 : ℤ) := q2
        _ ≤ 2 ^ (100 : ℤ) * (1 / 2 ^ 42) := by norm_num
        _ ≤ _ := mul_le_mul_of_nonneg_left hA3 (two_zpow_pos _).le)
  -- the second solution
  have hC1 : |C.val| ≤ 2 ^ (42 : ℤ) := by
    have h1 := nq_val h.nC hRR.le (by norm_num)
    have := h.rr.2
    norm_num at *
    linarith
  have hx : |C.val / Q.val| ≤ 2 ^ (119 : ℤ) := by
    rw [abs_div, div_le_iff₀ (lt_of_lt_of_le (two_zpow_pos _) q1)]
    calc |C.val| ≤ 2 ^ (42 : ℤ) := hC1
      _ = 2 ^ (119 : ℤ) * 2 ^ (-77 : ℤ) := by norm_num
      _ ≤ _ := mul_le_mul_of_nonneg_left q1 (two_zpow_pos _).le
  have hr := rnd32_err' (C.val / Q.val)
  obtain ⟨f2, v2⟩ := div_finite fC fQ hQne (by
    have : |rnd32 (C.val / Q.val)| ≤ |C.val / Q.val| + |rnd32 (C.val / Q.val) - C.val / Q.val| := by
      have := abs_add_le (C.val / Q.val) (rnd32 (C.val / Q.val) - C.val / Q.val)
      rwa [add_sub_cancel] at this
    generalize |C.val / Q.val| = x at *
    norm_num at *
    linarith)
  have hscale : ∀ t, height o d t = R ^ 2 * (qa d / P ^ 2 * (t * (P / R)) ^ 2 + qb o d / (P * R) * (t * (P / R)) + qc o / R ^ 2) := by
    intro t
    unfold height
    field_simp
  have hline : ∀ t, 2 * qa d * t + qb o d = P * R * (2 * (qa d / P ^ 2) * (t * (P / R)) + qb o d / (P * R)) := by
    intro t
    field_simp
  have hres : ∀ t k, |qa d / P ^ 2 * (t * (P / R)) ^ 2 + qb o d / (P * R) * (t * (P / R)) + qc o / R ^ 2| ≤ k →
      |height o d t| ≤ k * R ^ 2 := by
    intro t k hk
    rw [hscale, abs_mul, abs_of_pos hRR, _root_.mul_comm]
    exact mul_le_mul_of_nonneg_right hk hRR.le
  have hpr : 0 < P / R := div_pos hP hR
  have r1 := M.first (t := (div Q A).val * (P / R)) (by
    have e : (div Q A).val * (P / R) - Q.val / (P * R) / (A.val / P ^ 2) = ((div Q A).val - Q.val / A.val) * (P / R) := by
      field_simp
    have e' : Q.val / (P * R) / (A.val / P ^ 2) = Q.val / A.val * (P / R) := by field_simp
    rw [e, e', abs_mul, abs_mul, abs_of_pos hpr, ← mul_assoc]
    refine mul_le_mul_of_nonneg_right (e1.trans ?_) hpr.le
    have := mul_nonneg u_pos.le (abs_nonneg (Q.val / A.val))
    linarith)
  refine ⟨f1, f2, hres _ _ r1.2, fun hd => ?_⟩
  have hδ : 400 * u ≤ (qb o d / (P * R)) ^ 2 - 4 * (qa d / P ^ 2) * (qc o / R ^ 2) := by
    have e : (qb o d / (P * R)) ^ 2 - 4 * (qa d / P ^ 2) * (qc o / R ^ 2) = disc o d / (P ^ 2 * R ^ 2) := by
      unfold disc
      field_simp
    rw [e, le_div_iff₀ (by positivity)]
    exact hd
  have r2 := M.second hδ (t := (div C Q).val * (P / R)) (by
    have e : (div C Q).val * (P / R) - C.val / R ^ 2 / (Q.val / (P * R)) = ((div C Q).val - C.val / Q.val) * (P / R) := by
      field_simp
    have e' : C.val / R ^ 2 / (Q.val / (P * R)) = C.val / Q.val * (P / R) := by field_simp
    rw [e, e', abs_mul, abs_mul, abs_of_pos hpr, v2]
    have h1 := mul_le_mul_of_nonneg_right hr hpr.le
    refine h1.trans ?_
    have h2 : P / R ≤ 2 ^ 20 := by
      rw [div_le_iff₀ hR]
      have := h.p2
      have := h.r1
      nlinarith
    have h3 : (2 : ℚ) ^ (-150 : ℤ) * (P / R) ≤ 1 / 2 ^ 60 := by
      refine (mul_le_mul_of_nonneg_left h2 (two_zpow_pos _).le).trans ?_
      norm_num
    have h4 : 0 ≤ |C.val / Q.val| * (P / R) := mul_nonneg (abs_nonneg _) hpr.le
    have h5 : (|C.val / Q.val| * (1 / 2 ^ 24) + 2 ^ (-150 : ℤ)) * (P / R) =
      u * (|C.val / Q.val| * (P / R)) + 2 ^ (-150 : ℤ) * (P / R) := by unfold u; ring
    rw [h5]
    have h6 := mul_nonneg u_pos.le h4
    linarith)
  refine ⟨hres _ _ r2.2, ?_⟩
  rw [hline, hline]
  have s1 : σ * (2 * (qa d / P ^ 2) * ((div Q A).val * (P / R)) + qb o d / (P * R)) < 0 := by
    have hs4 : 72 * u < s / (P * R) := by
      have h1 := (abs_le.1 M.sδ).1
      have h2 : 292 * u < (s / (P * R)) ^ 2 := by
        have := u_pos
        linarith
      by_contra hc
      push Not at hc
      have := pow_le_pow_left₀ M.s0.le hc 2
      norm_num [u] at this h2
      linarith
    have h1 := r1.1
    rcases M.sg with e | e
    · rw [e] at h1 ⊢
      have := (abs_le.1 h1).2
      linarith
    · rw [e] at h1 ⊢
      have := (abs_le.1 h1).1
      linarith
  have hprod := mul_neg_of_neg_of_pos s1 r2.1
  have e : ∀ x y : ℚ, σ * x * (σ * y) = x * y := by
    intro x y
    linear_combination x * y * M.sσ
  rw [e] at hprod
  have e2 : ∀ x y : ℚ, P * R * x * (P * R * y) = (P * R) ^ 2 * (x * y) := by intro x y; ring
  rw [e2]
  exact mul_neg_of_pos_of_neg (by positivity) hprod

theorem tiny_val : tiny.Finite ∧ 0 < tiny.val ∧ tiny.val ≤ 1 / 9999 := by
  refine ⟨?_, ?_, ?_⟩
  · exact (round_finite (s := false) (q := 1 / 10000) (by decide +kernel)).1
  · decide +kernel
  · decide +kernel

/-- Sums that round to something not negative. -/
theorem add_nonneg_of {x y : F32} (hx : x.Finite) (hy : y.Finite) (h1 : |x.val + y.val| ≤ 2 ^ (100 : ℤ)) :
    (F32.add x y).Finite ∧ (0 ≤ (F32.add x y).val → -2 ^ (-100 : ℤ) ≤ x.val + y.val) ∧
      ((F32.add x y).val < 0 → x.val + y.val < 0) := by
  have hr := rnd32_err' (x.val + y.val)
  obtain ⟨f, v⟩ := add_finite hx hy (by
    have : |rnd32 (x.val + y.val)| ≤ |x.val + y.val| + |rnd32 (x.val + y.val) - (x.val + y.val)| := by
      have := abs_add_le (x.val + y.val) (rnd32 (x.val + y.val) - (x.val + y.val))
      rwa [add_sub_cancel] at this
    generalize |x.val + y.val| = z at *
    norm_num at *
    linarith)
  refine ⟨f, ?_, ?_⟩
  · intro h0
    rw [v] at h0
    by_contra hc
    push Not at hc
    have hp := two_zpow_pos (-100)
    have hneg : x.val + y.val < 0 := by linarith
    rw [abs_of_neg hneg] at hr
    have := (abs_le.1 hr).2
    norm_num at *
    linarith
  · intro h0
    rw [v] at h0
    by_contra hc
    push Not at hc
    have := rnd32_mono hc
    rw [rnd32_zero] at this
    linarith

/-- The one computed solution of the tangent case. -/
theorem Bounds.tangent (h : Bounds o d P R) (h0 : (fdelta o d).val ≤ 0)
    (h1 : 0 ≤ (F32.add (fdelta o d) tiny).val) :
    (div (F32.neg (coeffs o d).2.1) (F32.mul (coeffs o d).1 (num 2))).Finite ∧
    |height o d (div (F32.neg (coeffs o d).2.1) (F32.mul (coeffs o d).1 (num 2))).val| ≤
      (tiny.val + 84 * u * (P ^ 2 * R ^ 2)) / (4 * qa d) := by
  have hP := h.ppos
  have hR := h.rpos
  have hPR : 0 < P * R := mul_pos hP hR
  have hPP : 0 < P ^ 2 := by positivity
  have hRR : 0 < R ^ 2 := by positivity
  have hPPRR : 0 < P ^ 2 * R ^ 2 := by positivity
  have hA := h.a_pos
  have hAP : qa d ≤ P ^ 2 := h.dd
  have hAP' : P ^ 2 ≤ 2 * qa d := h.dd'
  obtain ⟨fA, bA, eA⟩ := h.nA
  have vB := nq_val h.nB (by positivity) (by norm_num)
  obtain ⟨fB, bB, eB⟩ := h.nB
  obtain ⟨fD, eD⟩ := h.nDelta
  obtain ⟨ft, t0, t1⟩ := tiny_val
  have hDle : |(fdelta o d).val| ≤ 9 * 2 ^ 80 := by
    have h2 := h.disc_le
    have := h.pprr.2
    have : |(fdelta o d).val| ≤ |disc o d| + |(fdelta o d).val - disc o d| := by
      have := abs_add_le (disc o d) ((fdelta o d).val - disc o d)
      rwa [add_sub_cancel] at this
    generalize |(fdelta o d).val - disc o d| = z at *
    generalize |(fdelta o d).val| = z at *
    norm_num at *
    linarith
  have hlow := (add_nonneg_of fD ft (by
    refine (abadd hDle (show |tiny.val| ≤ 1 by rw [abs_of_pos t0]; linarith)).trans ?_
    norm_num)).2.1 h1
  set A := (coeffs o d).1 with hAd
  set B := (coeffs o d).2.1 with hBd
  have hA1 : P ^ 2 * (49 / 100) ≤ A.val := by
    have h1 := (abs_le.1 eA).1
    norm_num at *
    linarith
  have hA2 : A.val ≤ P ^ 2 * (101 / 100) := by
    have h1 := (abs_le.1 eA).2
    norm_num at *
    linarith
  have hA0 : 0 < A.val := lt_of_lt_of_le (by positivity) hA1
  have hpp := h.pp
  have hm : |A.val * (num 2).val| = 2 * A.val := by
    show |A.val * 2| = _
    rw [abs_of_pos (by positivity)]; ring
  obtain ⟨fm, em⟩ := rel_step (x := F32.mul A (num 2)) (fun hh => mul_finite fA trivial hh)
    (by rw [hm]; norm_num at *; linarith) (by rw [hm]; norm_num at *; linarith)
  rw [hm] at em
  have hm' : A.val * (num 2).val = 2 * A.val := by show A.val * 2 = _; ring
  rw [hm'] at em
  obtain ⟨fn, vn⟩ := neg_finite fB
  set m := F32.mul A (num 2) with hmd
  have hm1 : P ^ 2 * (97 / 100) ≤ m.val := by
    have h1 := (abs_le.1 em).1
    norm_num [u] at *
    linarith
  have hm0 : 0 < m.val := lt_of_lt_of_le (by positivity) hm1
  have hm2 : |m.val - 2 * qa d| ≤ 9 * u * P ^ 2 := by
    have e : m.val - 2 * qa d = (m.val - 2 * A.val) + 2 * (A.val - qa d) := by ring
    rw [e]
    refine (abadd em (ab (show |(2 : ℚ)| ≤ 2 by norm_num) eA)).trans ?_
    norm_num [u] at *
    linarith
  -- the quotient
  have hPRq : P * R / P ^ 2 = R / P := by field_simp
  have hx : |B.val / m.val| ≤ 21 / 10 * (R / P) := by
    rw [abs_div, abs_of_pos hm0, div_le_iff₀ hm0]
    have : 21 / 10 * (R / P) * (P ^ 2 * (97 / 100)) = 21 / 10 * (97 / 100) * (P * R) := by field_simp
    have h2 : 21 / 10 * (R / P) * (P ^ 2 * (97 / 100)) ≤ 21 / 10 * (R / P) * m.val :=
      mul_le_mul_of_nonneg_left hm1 (by positivity)
    norm_num at *
    linarith
  have hRP : R / P ≤ 2 ^ 40 := by
    rw [div_le_iff₀ hP]
    have := h.p1
    have := h.r2
    norm_num at *
    linarith
  have hRP' : 1 / 2 ^ 20 ≤ R / P := by
    rw [le_div_iff₀ hP]
    have := h.p2
    have := h.r1
    norm_num at *
    linarith
  have hnv : (F32.neg B).val / m.val = -(B.val / m.val) := by rw [vn, neg_div]
  have hr := rnd32_err' ((F32.neg B).val / m.val)
  obtain ⟨fT, vT⟩ := div_finite fn fm hm0.ne' (by
    have : |rnd32 ((F32.neg B).val / m.val)| ≤ |(F32.neg B).val / m.val| +
        |rnd32 ((F32.neg B).val / m.val) - (F32.neg B).val / m.val| := by
      have := abs_add_le ((F32.neg B).val / m.val) (rnd32 ((F32.neg B).val / m.val) - (F32.neg B).val / m.val)
      rwa [add_sub_cancel] at this
    rw [hnv, abs_neg] at hr this
    rw [hnv]
    generalize |B.val / m.val| = x at *
    norm_num at *
    linarith)
  refine ⟨fT, ?_⟩
  rw [← vT, hnv, abs_neg] at hr
  set T := (div (F32.neg B) m).val with hT
  clear_value T
  have he : |T - -(B.val / m.val)| ≤ 22 / 10 * u * (R / P) := by
    refine hr.trans ?_
    have h2 : (2 : ℚ) ^ (-150 : ℤ) ≤ 1 / 10 * u * (1 / 2 ^ 20) := by norm_num [u]
    have h3 : 1 / 10 * u * (1 / 2 ^ 20) ≤ 1 / 10 * u * (R / P) := mul_le_mul_of_nonneg_left hRP' (by norm_num [u])
    have h4 : |B.val / m.val| * (1 / 2 ^ 24) ≤ 21 / 10 * (R / P) * u := by
      have : u = 1 / 2 ^ 24 := by norm_num [u]
      rw [this]
      exact mul_le_mul_of_nonneg_right hx (by norm_num)
    linarith
  have hlin : |2 * qa d * T + qb o d| ≤ 40 * u * (P * R) := by
    have e : 2 * qa d * T + qb o d = 2 * (qa d * (T - -(B.val / m.val))) + (m.val - 2 * qa d) * (B.val / m.val) -
        (B.val - qb o d) := by
      field_simp
      ring
    rw [e]
    have k1 := ab (show |(2 : ℚ)| ≤ 2 by norm_num) (ab (show |qa d| ≤ P ^ 2 from bA) he)
    have k2 := ab hm2 hx
    refine (absub (abadd k1 k2) eB).trans ?_
    have e1 : 2 * (P ^ 2 * (22 / 10 * u * (R / P))) = 44 / 10 * u * (P * R) := by field_simp; ring
    have e2 : 9 * u * P ^ 2 * (21 / 10 * (R / P)) = 189 / 10 * u * (P * R) := by field_simp; ring
    have e3 : (4 + 1 / 20) * (2 * (P * R) * (1 / 2 ^ 24)) = 81 / 10 * u * (P * R) := by unfold u; ring
    rw [e1, e2, e3]
    have := mul_pos u_pos hPR
    linarith
  have hsq : (2 * qa d * T + qb o d) ^ 2 ≤ 1 / 1000 * u * (P ^ 2 * R ^ 2) := by
    rw [← sq_abs]
    refine (pow_le_pow_left₀ (abs_nonneg _) hlin 2).trans ?_
    have : (40 * u * (P * R)) ^ 2 = (1600 * u) * (u * (P ^ 2 * R ^ 2)) := by ring
    rw [this]
    have h3 : 1600 * u ≤ 1 / 1000 := by norm_num [u]
    have := mul_le_mul_of_nonneg_right h3 (mul_pos u_pos hPPRR).le
    linarith
  have hh : height o d T = ((2 * qa d * T + qb o d) ^ 2 - disc o d) / (4 * qa d) := by
    unfold height disc
    field_simp
    ring
  rw [hh, abs_div, abs_of_pos (by positivity : 0 < 4 * qa d)]
  apply div_le_div_of_nonneg_right _ (by positivity)
  have hsq0 := sq_nonneg (2 * qa d * T + qb o d)
  have hu : u = 1 / 2 ^ 24 := by norm_num [u]
  have hw : (2 : ℚ) ^ (-100 : ℤ) ≤ u * (P ^ 2 * R ^ 2) := by
    have := mul_le_mul_of_nonneg_left h.pprr.1 u_pos.le
    refine le_trans ?_ this
    norm_num [u]
  rw [show P ^ 2 * R ^ 2 * (1 / 2 ^ 24) = u * (P ^ 2 * R ^ 2) by rw [hu]; ring] at eD
  obtain ⟨d1, d2⟩ := abs_le.1 eD
  rw [abs_le]
  constructor <;> linarith
end
/-! ### The theorems -/

theorem zero_le {x : F32} (h : x.Finite) : le (zero false) x = decide (0 ≤ x.val) := by
  cases x with
  | nan => exact absurd h id
  | inf s => exact absurd h id
  | zero s => rfl
  | num q =>
    show (decide ((0 : ℚ) < q) || decide ((0 : ℚ) = q)) = decide (0 ≤ q)
    rw [← Bool.decide_or]
    exact decide_eq_decide.2 le_iff_lt_or_eq.symm

theorem le_zero {x : F32} (h : x.Finite) : le x (zero false) = decide (x.val ≤ 0) := by
  cases x with
  | nan => exact absurd h id
  | inf s => exact absurd h id
  | zero s => rfl
  | num q =>
    show (decide (q < (0 : ℚ)) || decide (q = (0 : ℚ))) = decide (q ≤ 0)
    rw [← Bool.decide_or]
    exact decide_eq_decide.2 le_iff_lt_or_eq.symm

/-- The solutions of the two cases. -/
def mainSol (o d : V3 F32) : F32 × F32 := (div (froot o d) (coeffs o d).1, div (coeffs o d).2.2 (froot o d))
def tangentSol (o d : V3 F32) : F32 := div (F32.neg (coeffs o d).2.1) (F32.mul (coeffs o d).1 (num 2))

section
variable {o d : V3 F32} {P R : ℚ}

theorem Bounds.sum_range (h : Bounds o d P R) : |(fdelta o d).val + tiny.val| ≤ 2 ^ (100 : ℤ) := by
  obtain ⟨fD, eD⟩ := h.nDelta
  obtain ⟨ft, t0, t1⟩ := tiny_val
  have hDle : |(fdelta o d).val| ≤ 9 * 2 ^ 80 := by
    have h2 := h.disc_le
    have := h.pprr.2
    have : |(fdelta o d).val| ≤ |disc o d| + |(fdelta o d).val - disc o d| := by
      have := abs_add_le (disc o d) ((fdelta o d).val - disc o d)
      rwa [add_sub_cancel] at this
    generalize |(fdelta o d).val - disc o d| = z at *
    generalize |(fdelta o d).val| = z at *
    norm_num at *
    linarith
  refine (abadd hDle (show |tiny.val| ≤ 1 by rw [abs_of_pos t0]; linarith)).trans ?_
  norm_num

theorem Bounds.equation2_eq (h : Bounds o d P R) :
    equation2 (coeffs o d).1 (coeffs o d).2.1 (coeffs o d).2.2 =
      if (fdelta o d).val ≤ 0 then
        if 0 ≤ (F32.add (fdelta o d) tiny).val then some (tangentSol o d, tangentSol o d) else none
      else some (mainSol o d) := by
  obtain ⟨fD, -⟩ := h.nDelta
  obtain ⟨fS, sS, sS'⟩ := add_nonneg_of fD tiny_val.1 h.sum_range
  unfold equation2
  simp only
  rw [show delta (coeffs o d).1 (coeffs o d).2.1 (coeffs o d).2.2 = fdelta o d from rfl, le_zero fD, zero_le fS, zero_le fD]
  by_cases h0 : (fdelta o d).val ≤ 0
  · rw [if_pos h0]
    by_cases h1 : 0 ≤ (F32.add (fdelta o d) tiny).val
    · rw [if_pos h1, decide_eq_true h0, decide_eq_true h1]; rfl
    · rw [if_neg h1, decide_eq_true h0, decide_eq_false h1]
      have h2 : ¬ 0 ≤ (fdelta o d).val := by
        intro hc
        have h3 := sS' (not_le.1 h1)
        have := tiny_val.2.1
        linarith
      rw [decide_eq_false h2]; rfl
  · rw [if_neg h0, decide_eq_false h0]
    have h2 : 0 ≤ (fdelta o d).val := (not_le.1 h0).le
    rw [decide_eq_true h2]; rfl

/-- Full statement of C162: a ray is reported to hit the sphere when some point of it, not before `minDist`, is in it. -/
def C162_statement : Prop := ∀ (o d : V3 F32) (P R : ℚ), Bounds o d P R →
  ((intersect isNan (fun _ => false) o d (inf false)).isSome = true ↔ ∃ t, minDist.val ≤ t ∧ height o d t ≤ 0)

/-- **C162.** Lines that pass the sphere far enough are never hits. -/
theorem C162_miss_partial (h : Bounds o d P R) (hd : disc o d ≤ -(tiny.val + 84 * u * (P ^ 2 * R ^ 2)))
    (isnan masked : F32 → Bool) (distance : F32) : intersect isnan masked o d distance = none := by
  obtain ⟨fD, eD⟩ := h.nDelta
  have hpos : 0 < P ^ 2 * R ^ 2 := lt_of_lt_of_le (by norm_num) h.pprr.1
  have hu : u = 1 / 2 ^ 24 := by norm_num [u]
  have hw : (2 : ℚ) ^ (-100 : ℤ) < u * (P ^ 2 * R ^ 2) := by
    have := mul_le_mul_of_nonneg_left h.pprr.1 u_pos.le
    refine lt_of_lt_of_le ?_ this
    norm_num [u]
  rw [show P ^ 2 * R ^ 2 * (1 / 2 ^ 24) = u * (P ^ 2 * R ^ 2) by rw [hu]; ring] at eD
  have d1 := (abs_le.1 eD).2
  have t0 := tiny_val.2.1
  have hp := two_zpow_pos (-100)
  have h1 : (fdelta o d).val ≤ 0 := by linarith
  have h2 : ¬ 0 ≤ (F32.add (fdelta o d) tiny).val := by
    intro hc
    have := (add_nonneg_of fD tiny_val.1 h.sum_range).2.1 hc
    linarith
  unfold intersect
  rw [h.equation2_eq, if_pos h1, if_neg h2]

theorem ordered_cases (s : F32 × F32) (h1 : s.1.Finite) (h2 : s.2.Finite) :
    (ordered s = s ∧ s.1.val ≤ s.2.val) ∨ (ordered s = (s.2, s.1) ∧ s.2.val < s.1.val) := by
  unfold ordered
  rw [lt_finite h2 h1]
  by_cases hc : s.2.val < s.1.val
  · rw [decide_eq_true hc]; exact Or.inr ⟨rfl, hc⟩
  · rw [decide_eq_false hc]; exact Or.inl ⟨rfl, not_lt.1 hc⟩

/-- What is reported is one of the two solutions, and not before `minDist`. -/
theorem intersect_some {isnan masked : F32 → Bool} (hn : isnan nan = true) {distance t : F32} {s : F32 × F32}
    (he : equation2 (coeffs o d).1 (coeffs o d).2.1 (coeffs o d).2.2 = some s) (h1 : s.1.Finite) (h2 : s.2.Finite)
    (h : intersect isnan masked o d distance = some t) :
    (t = s.1 ∨ t = s.2) ∧ minDist.val ≤ t.val ∧ masked t = false ∧
      ((∀ x, masked x = false) → F32.lt distance t = false) := by
  unfold intersect at h
  rw [he] at h
  simp only at h
  have hm := minDist_val.1
  have key : ∀ a b : F32, a.Finite → b.Finite → a.val ≤ b.val →
      (if F32.lt distance a then none
        else if F32.lt a minDist && (F32.lt b minDist || F32.lt distance b) then none
        else if masked (if F32.lt a minDist then b else a) = false then some (if F32.lt a minDist then b else a)
        else if isnan (if F32.lt a minDist then nan else b) = false then
          if masked (if F32.lt a minDist then nan else b) = false then some (if F32.lt a minDist then nan else b) else none
        else none) = some t →
      (t = a ∨ t = b) ∧ minDist.val ≤ t.val ∧ masked t = false ∧
        ((∀ x, masked x = false) → F32.lt distance t = false) := by
    intro a b fa fb hab hh
    rw [lt_finite fa hm, lt_finite fb hm] at hh
    by_cases hda : F32.lt distance a = true
    · rw [if_pos hda] at hh; cases hh
    rw [if_neg hda] at hh
    by_cases ha : a.val < minDist.val
    · rw [decide_eq_true ha] at hh
      simp only [Bool.true_and, if_true] at hh
      by_cases hb : (decide (b.val < minDist.val) || F32.lt distance b) = true
      · rw [if_pos hb] at hh; cases hh
      rw [if_neg hb] at hh
      rw [Bool.not_eq_true, Bool.or_eq_false_iff, decide_eq_false_iff_not] at hb
      by_cases hma : masked b = false
      · rw [if_pos hma] at hh
        cases hh
        exact ⟨Or.inr rfl, not_lt.1 hb.1, hma, fun _ => hb.2⟩
      · rw [if_neg hma, hn] at hh
        cases hh
    · rw [decide_eq_false ha] at hh
      simp only [Bool.false_and, Bool.false_eq_true, if_false] at hh
      rw [not_lt] at ha
      by_cases hma : masked a = false
      · rw [if_pos hma] at hh
        cases hh
        exact ⟨Or.inl rfl, ha, hma, fun _ => by rwa [Bool.not_eq_true] at hda⟩
      · rw [if_neg hma] at hh
        split at hh
        · split at hh
          · rename_i hmb
            cases hh
            exact ⟨Or.inr rfl, ha.trans hab, hmb, fun hx => absurd (hx a) hma⟩
          · cases hh
        · cases hh
  rcases ordered_cases s h1 h2 with ⟨e, hle⟩ | ⟨e, hle⟩
  · rw [e] at h
    exact key _ _ h1 h2 hle h
  · rw [e] at h
    obtain ⟨k1, k2⟩ := key _ _ h2 h1 hle.le h
    exact ⟨k1.symm, k2⟩

/-- **C162.** Whatever is reported is a finite distance, not before `minDist`, at which the mask accepts the point. -/
theorem C162_numbers (h : Bounds o d P R) {masked : F32 → Bool} {distance t : F32}
    (hi : intersect isNan masked o d distance = some t) :
    t.Finite ∧ minDist.val ≤ t.val ∧ masked t = false ∧ ((∀ x, masked x = false) → F32.lt distance t = false) := by
  have he := h.equation2_eq
  by_cases h0 : (fdelta o d).val ≤ 0
  · rw [if_pos h0] at he
    by_cases h1 : 0 ≤ (F32.add (fdelta o d) tiny).val
    · rw [if_pos h1] at he
      obtain ⟨f, -⟩ := h.tangent h0 h1
      obtain ⟨k1, k2⟩ := intersect_some (by rfl) he f f hi
      refine ⟨?_, k2⟩
      rcases k1 with e | e <;> rw [e] <;> exact f
    · rw [if_neg h1] at he
      unfold intersect at hi
      rw [he] at hi
      cases hi
  · rw [if_neg h0] at he
    obtain ⟨f1, f2, -⟩ := h.solutions (not_le.1 h0)
    obtain ⟨k1, k2⟩ := intersect_some (by rfl) he f1 f2 hi
    refine ⟨?_, k2⟩
    rcases k1 with e | e <;> rw [e]
    · exact f1
    · exact f2

theorem Bounds.main_of_disc (h : Bounds o d P R) (hd : 400 * u * (P ^ 2 * R ^ 2) ≤ disc o d) : 0 < (fdelta o d).val := by
  obtain ⟨fD, eD⟩ := h.nDelta
  have hpos : 0 < P ^ 2 * R ^ 2 := lt_of_lt_of_le (by norm_num) h.pprr.1
  have hu : u = 1 / 2 ^ 24 := by norm_num [u]
  rw [show P ^ 2 * R ^ 2 * (1 / 2 ^ 24) = u * (P ^ 2 * R ^ 2) by rw [hu]; ring] at eD
  have := (abs_le.1 eD).1
  have := mul_pos u_pos hpos
  linarith

/-- **C162.** A ray that properly crosses the sphere is reported at a point of its surface, up to `360·2^-24` of the
squared distance between origin and centre. -/
theorem C162_surface_partial (h : Bounds o d P R) (hd : 400 * u * (P ^ 2 * R ^ 2) ≤ disc o d) {masked : F32 → Bool}
    {distance t : F32} (hi : intersect isNan masked o d distance = some t) : |height o d t.val| ≤ 360 * u * R ^ 2 := by
  have hD := h.main_of_disc hd
  have he := h.equation2_eq
  rw [if_neg (not_le.2 hD)] at he
  obtain ⟨f1, f2, r1, r2⟩ := h.solutions hD
  obtain ⟨k1, -⟩ := intersect_some (by rfl) he f1 f2 hi
  have : 0 < u * R ^ 2 := mul_pos u_pos (by have := h.rpos; positivity)
  rcases k1 with e | e <;> rw [e]
  · refine r1.trans ?_; linarith
  · exact (r2 hd).1

/-- **C162.** Where the computed discriminant is not positive the reported point is next to the surface as far as the
constant `1e-4` allows. -/
theorem C162_touch_partial (h : Bounds o d P R) (hd : (fdelta o d).val ≤ 0) {masked : F32 → Bool}
    {distance t : F32} (hi : intersect isNan masked o d distance = some t) :
    |height o d t.val| ≤ (tiny.val + 84 * u * (P ^ 2 * R ^ 2)) / (4 * qa d) := by
  have he := h.equation2_eq
  rw [if_pos hd] at he
  by_cases h1 : 0 ≤ (F32.add (fdelta o d) tiny).val
  · rw [if_pos h1] at he
    obtain ⟨f, r⟩ := h.tangent hd h1
    obtain ⟨k1, -⟩ := intersect_some (by rfl) he f f hi
    rcases k1 with e | e <;> rw [e] <;> exact r
  · rw [if_neg h1] at he
    unfold intersect at hi
    rw [he] at hi
    cases hi

theorem height_convex (h : Bounds o d P R) {a b s k : ℚ} (h1 : a ≤ s) (h2 : s ≤ b) (ha : height o d a ≤ k)
    (hb : height o d b ≤ k) : height o d s ≤ k := by
  have hA := h.a_pos
  rcases eq_or_lt_of_le (h1.trans h2) with e | hab
  · have : s = a := le_antisymm (by rw [e]; exact h2) h1
    rw [this]; exact ha
  have e : (b - a) * height o d s = (b - s) * height o d a + (s - a) * height o d b - (b - a) * (qa d * ((s - a) * (b - s))) := by
    unfold height; ring
  have p1 := mul_le_mul_of_nonneg_left ha (sub_nonneg.2 h2)
  have p2 := mul_le_mul_of_nonneg_left hb (sub_nonneg.2 h1)
  have p3 : 0 ≤ (b - a) * (qa d * ((s - a) * (b - s))) :=
    mul_nonneg (by linarith) (mul_nonneg hA.le (mul_nonneg (sub_nonneg.2 h1) (sub_nonneg.2 h2)))
  have p4 : (b - a) * height o d s ≤ (b - a) * k := by rw [e]; linarith
  exact le_of_mul_le_mul_left p4 (by linarith)

/-- **C162.** A ray with a point inside of the sphere by more than the error is a hit.  The hit comes before that point,
or the ray was inside of the sphere (up to the error) from `minDist` to that point. -/
theorem C162_hit_partial (h : Bounds o d P R) {t0 : ℚ} (ht0 : minDist.val ≤ t0) (hin : height o d t0 < -(360 * u * R ^ 2)) :
    ∃ t, intersect isNan (fun _ => false) o d (inf false) = some t ∧ t.Finite ∧ minDist.val ≤ t.val ∧
      |height o d t.val| ≤ 360 * u * R ^ 2 ∧
      (t.val < t0 ∨ ∀ s, minDist.val ≤ s → s ≤ t0 → height o d s ≤ 360 * u * R ^ 2) := by
  have hA := h.a_pos
  have hRR : 0 < R ^ 2 := by have := h.rpos; positivity
  have hPP : 0 < P ^ 2 := by have := h.ppos; positivity
  have hAP' : P ^ 2 ≤ 2 * qa d := h.dd'
  have huR := mul_pos u_pos hRR
  have hdd : disc o d = (2 * qa d * t0 + qb o d) ^ 2 - 4 * qa d * height o d t0 := by
    unfold disc height; ring
  have hd : 400 * u * (P ^ 2 * R ^ 2) ≤ disc o d := by
    rw [hdd]
    have h1 := sq_nonneg (2 * qa d * t0 + qb o d)
    have h2 : 4 * qa d * (360 * u * R ^ 2) ≤ 4 * qa d * -height o d t0 :=
      mul_le_mul_of_nonneg_left (by linarith) (by linarith)
    have h3 : P ^ 2 * (720 * (u * R ^ 2)) ≤ 2 * qa d * (720 * (u * R ^ 2)) :=
      mul_le_mul_of_nonneg_right hAP' (by linarith)
    have h4 := mul_pos hPP huR
    linarith
  have hD := h.main_of_disc hd
  have he := h.equation2_eq
  rw [if_neg (not_le.2 hD)] at he
  obtain ⟨f1, f2, r1, r2⟩ := h.solutions hD
  obtain ⟨r2, r3⟩ := r2 hd
  -- an order of the solutions around the point
  have order : ∀ a b : ℚ, |height o d a| ≤ 360 * u * R ^ 2 → |height o d b| ≤ 360 * u * R ^ 2 →
      (2 * qa d * a + qb o d) * (2 * qa d * b + qb o d) < 0 → a ≤ b → a < t0 ∧ t0 < b := by
    intro a b ha hb hab hle
    have ea : height o d a - height o d t0 = (a - t0) * (qa d * (a + t0) + qb o d) := by unfold height; ring
    have eb : height o d b - height o d t0 = (b - t0) * (qa d * (b + t0) + qb o d) := by unfold height; ring
    have pa : 0 < (a - t0) * (qa d * (a + t0) + qb o d) := by
      rw [← ea]; have := (abs_le.1 ha).1; linarith
    have pb : 0 < (b - t0) * (qa d * (b + t0) + qb o d) := by
      rw [← eb]; have := (abs_le.1 hb).1; linarith
    have hsign : 2 * qa d * a + qb o d < 0 ∧ 0 < 2 * qa d * b + qb o d := by
      have hmono : 2 * qa d * a + qb o d ≤ 2 * qa d * b + qb o d := by
        have := mul_le_mul_of_nonneg_left hle (by linarith : 0 ≤ 2 * qa d)
        linarith
      rcases mul_neg_iff.1 hab with ⟨x, y⟩ | ⟨x, y⟩
      · linarith
      · exact ⟨x, y⟩
    constructor
    · by_contra hc
      push Not at hc
      have h1 : qa d * (a + t0) ≤ 2 * qa d * a := by
        have := mul_le_mul_of_nonneg_left hc hA.le
        linarith
      have := mul_nonpos_of_nonneg_of_nonpos (sub_nonneg.2 hc) (show qa d * (a + t0) + qb o d ≤ 0 by linarith)
      linarith
    · by_contra hc
      push Not at hc
      have h1 : 2 * qa d * b ≤ qa d * (b + t0) := by
        have := mul_le_mul_of_nonneg_left hc hA.le
        linarith
      have := mul_nonpos_of_nonpos_of_nonneg (sub_nonpos.2 hc) (show 0 ≤ qa d * (b + t0) + qb o d by linarith)
      linarith
  have key : ∀ a b : F32, a.Finite → b.Finite → ordered (mainSol o d) = (a, b) → a.val ≤ b.val →
      |height o d a.val| ≤ 360 * u * R ^ 2 → |height o d b.val| ≤ 360 * u * R ^ 2 →
      (2 * qa d * a.val + qb o d) * (2 * qa d * b.val + qb o d) < 0 →
      ∃ t, intersect isNan (fun _ => false) o d (inf false) = some t ∧ t.Finite ∧ minDist.val ≤ t.val ∧
        |height o d t.val| ≤ 360 * u * R ^ 2 ∧
        (t.val < t0 ∨ ∀ s, minDist.val ≤ s → s ≤ t0 → height o d s ≤ 360 * u * R ^ 2) := by
    intro a b fa fb ho hle ha hb hab
    obtain ⟨o1, o2⟩ := order _ _ ha hb hab hle
    have hm := minDist_val.1
    have hinf : ∀ x : F32, x.Finite → F32.lt (inf false) x = false := by
      intro x hx
      cases x <;> rfl
    have hi : intersect isNan (fun _ => false) o d (inf false) = some (if a.val < minDist.val then b else a) := by
      unfold intersect
      rw [he]
      simp only
      rw [ho]
      simp only
      rw [hinf a fa, hinf b fb, lt_finite fa hm, lt_finite fb hm]
      have : ¬ b.val < minDist.val := by linarith
      rw [decide_eq_false this]
      by_cases hc : a.val < minDist.val
      · rw [decide_eq_true hc, if_pos hc]; rfl
      · rw [decide_eq_false hc, if_neg hc]; rfl
    refine ⟨_, hi, ?_⟩
    by_cases hc : a.val < minDist.val
    · rw [if_pos hc]
      refine ⟨fb, by linarith, hb, Or.inr fun s s1 s2 => ?_⟩
      exact height_convex h (a := a.val) (b := t0) (by linarith) s2 (abs_le.1 ha).2 (by linarith)
    · rw [if_neg hc]
      exact ⟨fa, not_lt.1 hc, ha, Or.inl o1⟩
  have r1' : |height o d (mainSol o d).1.val| ≤ 360 * u * R ^ 2 := r1.trans (by linarith)
  rcases ordered_cases (mainSol o d) f1 f2 with ⟨e, hle⟩ | ⟨e, hle⟩
  · exact key _ _ f1 f2 e hle r1' r2 r3
  · exact key _ _ f2 f1 e hle.le r2 r1' (by rw [_root_.mul_comm]; exact r3)
end

/-! ### A ray aimed at the centre that misses -/

/-- The direction `(1/2, 7/8, 7/8)`, and the origin 2417 of it before the centre. -/
def farD : V3 F32 := ⟨num (1 / 2), num (7 / 8), num (7 / 8)⟩
def farO : V3 F32 := ⟨num (-2417 / 2), num (-16919 / 8), num (-16919 / 8)⟩

theorem farO_ok : (farO.x.Ok ∧ farO.y.Ok ∧ farO.z.Ok) ∧ (farD.x.Ok ∧ farD.y.Ok ∧ farD.z.Ok) := by
  refine ⟨⟨⟨?_, ?_, ?_⟩, ⟨?_, ?_, ?_⟩, ⟨?_, ?_, ?_⟩⟩, ⟨⟨?_, ?_, ?_⟩, ⟨?_, ?_, ?_⟩, ⟨?_, ?_, ?_⟩⟩⟩ <;> decide +kernel

theorem far_bounds : Bounds farO farD (3 / 2) 4096 := by
  refine ⟨⟨trivial, trivial, trivial⟩, ⟨trivial, trivial, trivial⟩, ?_, ?_, ?_, ?_, ?_, ?_, ?_⟩ <;>
    norm_num [qdot, ev, farO, farD, F32.val]

theorem far_miss (isnan masked : F32 → Bool) (distance : F32) : intersect isnan masked farO farD distance = none := by
  have h : equation2 (coeffs farO farD).1 (coeffs farO farD).2.1 (coeffs farO farD).2.2 = none := by decide +kernel
  unfold intersect
  rw [h]

theorem far_centre : farO.x.val + 2417 * farD.x.val = 0 ∧ farO.y.val + 2417 * farD.y.val = 0 ∧
    farO.z.val + 2417 * farD.z.val = 0 := by
  norm_num [farO, farD, F32.val]

/-- **C162 is violated.** A ray through the centre of a sphere, from about 3200 radii away, is never a hit. -/
theorem C162_violated_far : Bounds farO farD (3 / 2) 4096 ∧ height farO farD 2417 = -1 ∧
    ∀ isnan masked distance, intersect isnan masked farO farD distance = none := by
  refine ⟨far_bounds, ?_, far_miss⟩
  obtain ⟨h1, h2, h3⟩ := far_centre
  rw [height_eq, h1, h2, h3]
  norm_num

theorem C162_violated_statement : ¬ C162_statement := by
  intro h
  have h1 := (h farO farD (3 / 2) 4096 far_bounds).2 ⟨2417, ?_, ?_⟩
  · rw [far_miss] at h1
    cases h1
  · rw [minDist_val.2]
    decide +kernel
  · rw [C162_violated_far.2.1]; norm_num

/-! ### Examples -/

/-- A ray from `(0, 0, -3)` along the third axis, past the centre by a quarter of the radius. -/
def exO : V3 F32 := ⟨num (1 / 4), zero false, num (-3)⟩
def exD : V3 F32 := ⟨zero false, zero false, num 1⟩

theorem ex_bounds : Bounds exO exD 1 4 := by
  refine ⟨⟨trivial, trivial, trivial⟩, ⟨trivial, trivial, trivial⟩, ?_, ?_, ?_, ?_, ?_, ?_, ?_⟩ <;>
    norm_num [qdot, ev, exO, exD, F32.val]

/-- The hypotheses of `C162_hit_partial` and `C162_surface_partial` hold for it: the hit comes before `t = 3`. -/
example : ∃ t, intersect isNan (fun _ => false) exO exD (inf false) = some t ∧ t.Finite ∧
    |height exO exD t.val| ≤ 360 * u * 4 ^ 2 ∧ t.val < 3 := by
  obtain ⟨t, h1, h2, -, h3, h4⟩ := C162_hit_partial ex_bounds (t0 := 3)
    (by rw [minDist_val.2]; decide +kernel) (by rw [height_eq]; norm_num [exO, exD, F32.val, u])
  refine ⟨t, h1, h2, h3, ?_⟩
  rcases h4 with h4 | h4
  · exact h4
  · exfalso
    have := h4 1 (by rw [minDist_val.2]; decide +kernel) (by norm_num)
    rw [height_eq] at this
    norm_num [exO, exD, F32.val, u] at this

example : 400 * u * (1 ^ 2 * 4 ^ 2) ≤ disc exO exD := by
  norm_num [disc, qa, qb, qc, qdot, ev, exO, exD, F32.val, u]

/-- A line two radii from the centre is never hit. -/
def missO : V3 F32 := ⟨num 2, zero false, num (-3)⟩

example (isnan masked : F32 → Bool) (distance : F32) : intersect isnan masked missO exD distance = none := by
  apply C162_miss_partial (P := 1) (R := 4)
  · refine ⟨⟨trivial, trivial, trivial⟩, ⟨trivial, trivial, trivial⟩, ?_, ?_, ?_, ?_, ?_, ?_, ?_⟩ <;>
      norm_num [qdot, ev, missO, exD, F32.val]
  · have := tiny_val.2.2
    generalize tiny.val = z at *
    norm_num [disc, qa, qb, qc, qdot, ev, missO, exD, F32.val, u]
    linarith

/-- A tangent: the computed discriminant is zero, and the touching point is reported. -/
def touchO : V3 F32 := ⟨num 1, zero false, num (-3)⟩

example : Bounds touchO exD 1 4 ∧ (fdelta touchO exD).val ≤ 0 ∧
    intersect isNan (fun _ => false) touchO exD (inf false) = some (num 3) := by
  refine ⟨⟨⟨trivial, trivial, trivial⟩, ⟨trivial, trivial, trivial⟩, ?_, ?_, ?_, ?_, ?_, ?_, ?_⟩, ?_, ?_⟩
  any_goals norm_num [qdot, ev, touchO, exD, F32.val]
  all_goals decide +kernel

/-! ### The marker for a missing second solution -/

/-- From the centre along the third axis: the solutions are -1 and 1. -/
def inO : V3 F32 := ⟨zero false, zero false, zero false⟩

theorem in_delta : fdelta inO exD = num 4 := by decide +kernel

theorem in_equation : equation2 (coeffs inO exD).1 (coeffs inO exD).2.1 (coeffs inO exD).2.2 = some (num (-1), num 1) := by
  have h4 : F32.sqrt (num 4) = num 2 := by
    show (if (4 : ℚ) < 0 then nan else num (sqrt32 4)) = num 2
    rw [if_neg (by norm_num)]
    have := Normalize.sqrt32_pow 1
    norm_num at this
    rw [this]
  have hr : froot inO exD = num (-1) := by
    unfold froot root
    rw [in_delta, h4]
    decide +kernel
  unfold equation2
  simp only
  rw [show delta (coeffs inO exD).1 (coeffs inO exD).2.1 (coeffs inO exD).2.2 = fdelta inO exD from rfl,
    show root (coeffs inO exD).2.1 (fdelta inO exD) = froot inO exD from rfl, hr, in_delta]
  decide +kernel

/-- **C162 is violated** where the compiler takes `std::isnan` for false (`-Ofast`, CMakeLists.txt:16): from inside of the
sphere, with the exit masked, a hit at the distance NaN is reported if the mask accepts the point that is not a number. -/
theorem C162_violated_fastmath {masked : F32 → Bool} (h1 : masked (num 1) = true) (h2 : masked nan = false) :
    intersect (fun _ => false) masked inO exD (inf false) = some nan ∧
      intersect isNan masked inO exD (inf false) = none := by
  have ho : ordered (num (-1), num 1) = (num (-1), num 1) := by decide +kernel
  have hl : F32.lt (num (-1)) minDist = true := by decide +kernel
  have hl' : F32.lt (num 1) minDist = false := by decide +kernel
  have e1 : F32.lt (inf false) (num (-1)) = false := rfl
  have e2 : F32.lt (inf false) (num 1) = false := rfl
  constructor
  · unfold intersect
    rw [in_equation]
    simp only [ho, hl, hl', e1, e2, h1, h2, Bool.or_self, Bool.and_false, Bool.false_eq_true, if_false, if_true, Bool.true_eq_false]
  · unfold intersect
    rw [in_equation]
    simp only [ho, hl, hl', e1, e2, h1, h2, Bool.or_self, Bool.and_false, Bool.false_eq_true, if_false, if_true, Bool.true_eq_false,
      isNan]

/-- The marker works where `std::isnan` does: without a second solution the mask is asked about one point, a number. -/
theorem C162_marker {o d : V3 F32} {P R : ℚ} (h : Bounds o d P R) (m1 m2 : F32 → Bool) (hm : ∀ x : F32, x.Finite → m1 x = m2 x)
    (distance : F32) : intersect isNan m1 o d distance = intersect isNan m2 o d distance := by
  have key : ∀ s : F32 × F32, s.1.Finite → s.2.Finite →
      equation2 (coeffs o d).1 (coeffs o d).2.1 (coeffs o d).2.2 = some s →
      intersect isNan m1 o d distance = intersect isNan m2 o d distance := by
    intro s f1 f2 he
    have fo : (ordered s).1.Finite ∧ (ordered s).2.Finite := by
      unfold ordered
      split
      · exact ⟨f2, f1⟩
      · exact ⟨f1, f2⟩
    unfold intersect
    rw [he]
    simp only
    by_cases c : F32.lt (ordered s).1 minDist = true
    · rw [if_pos c, if_pos c, hm _ fo.2]
      rfl
    · rw [if_neg c, if_neg c, hm _ fo.1, hm _ fo.2]
  have he := h.equation2_eq
  by_cases h0 : (fdelta o d).val ≤ 0
  · rw [if_pos h0] at he
    by_cases h1 : 0 ≤ (F32.add (fdelta o d) tiny).val
    · rw [if_pos h1] at he
      obtain ⟨f, -⟩ := h.tangent h0 h1
      exact key _ f f he
    · rw [if_neg h1] at he
      unfold intersect
      rw [he]
  · rw [if_neg h0] at he
    obtain ⟨f1, f2, -⟩ := h.solutions (not_le.1 h0)
    exact key _ f1 f2 he
end Spectre.FSphere
