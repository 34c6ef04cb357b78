import Verif.Model.FloatTriangle
import Verif.Model.IeeeLemmas
import Mathlib.Tactic.Positivity
import Mathlib.Tactic.FieldSimp
import Mathlib.Tactic.Linarith
import Mathlib.Tactic.LinearCombination

/-
C160: the intersection of rays and triangles in binary32.
-/

namespace Spectre.FTri

open Spectre.Geom F32

/-! ### Numbers with an error -/

/-- `x` is a finite number of at most `2^k` that stands for `q`, wrong by at most `n` half units in the last place. -/
def Nr (x : F32) (q : ℚ) (k : ℤ) (n : ℚ) : Prop :=
  x.Finite ∧ |x.val| ≤ 2 ^ k ∧ |q| ≤ 2 ^ k ∧ |x.val - q| ≤ n * (2 ^ k * (1 / 2 ^ 24))

theorem rnd32_abs_le {q : ℚ} {k : ℤ} (hk : -149 ≤ k) (h : |q| ≤ 2 ^ k) : |rnd32 q| ≤ 2 ^ k := by
  rw [abs_le] at h ⊢
  refine ⟨?_, rnd32_lt hk h.2⟩
  have := rnd32_lt hk (q := -q) (by linarith [h.1])
  rw [rnd32_neg] at this
  linarith

theorem rnd32_err_pow {q : ℚ} {k : ℤ} (hk : -126 ≤ k) (h : |q| ≤ 2 ^ k) : |rnd32 q - q| ≤ 2 ^ k * (1 / 2 ^ 24) := by
  refine (rnd32_err q).trans (max_le (mul_le_mul_of_nonneg_right h (by norm_num)) ?_)
  have : (2 : ℚ) ^ k * (1 / 2 ^ 24) = 2 ^ (k + -24) := by
    rw [zpow_add₀ (by norm_num)]; norm_num
  rw [this]
  exact zpow_le_zpow_right₀ (by norm_num) (by omega)

theorem pow_lt128 {k : ℤ} (hk : k ≤ 127) : (2 : ℚ) ^ k < 2 ^ 128 := by
  rw [show (2 : ℚ) ^ 128 = 2 ^ (128 : ℤ) by norm_num]
  exact zpow_lt_zpow_right₀ (by norm_num) (by omega)

theorem nr_of {x : F32} {q e : ℚ} {k : ℤ} {n : ℚ} (hx : x.Finite ∧ x.val = rnd32 e) (hk : -126 ≤ k) (he : |e| ≤ 2 ^ k)
    (hq : |q| ≤ 2 ^ k) (h : |e - q| ≤ n * (2 ^ k * (1 / 2 ^ 24))) : Nr x q k (n + 1) := by
  refine ⟨hx.1, ?_, hq, ?_⟩
  · rw [hx.2]; exact rnd32_abs_le (by omega) he
  · rw [hx.2]
    have h1 := rnd32_err_pow hk he
    have : rnd32 e - q = (rnd32 e - e) + (e - q) := by ring
    rw [this]
    refine (abs_add_le _ _).trans ?_
    linarith

/-- A number that is not rounded. -/
theorem nr_self {x : F32} {k : ℤ} (hx : x.Finite) (h : |x.val| ≤ 2 ^ k) : Nr x x.val k 0 :=
  ⟨hx, h, h, by simp⟩

theorem nr_mul {x y : F32} {q p : ℚ} {i j : ℤ} {n m : ℚ} (hx : Nr x q i n) (hy : Nr y p j m) (h1 : -126 ≤ i + j)
    (h2 : i + j ≤ 127) : Nr (F32.mul x y) (q * p) (i + j) (n + m + 1) := by
  obtain ⟨fx, bx, bq, ex⟩ := hx
  obtain ⟨fy, by', bp, ey⟩ := hy
  have hp : (2 : ℚ) ^ (i + j) = 2 ^ i * 2 ^ j := zpow_add₀ (by norm_num) _ _
  have hi := two_zpow_pos i
  have hj := two_zpow_pos j
  have hb : |x.val * y.val| ≤ 2 ^ (i + j) := by
    rw [abs_mul, hp]; exact mul_le_mul bx by' (abs_nonneg _) hi.le
  refine nr_of (mul_finite fx fy (lt_of_le_of_lt (rnd32_abs_le (by omega) hb) (pow_lt128 h2))) h1 hb ?_ ?_
  · rw [abs_mul, hp]; exact mul_le_mul bq bp (abs_nonneg _) hi.le
  · have e : x.val * y.val - q * p = x.val * (y.val - p) + p * (x.val - q) := by ring
    rw [e]
    refine (abs_add_le _ _).trans ?_
    rw [abs_mul, abs_mul, hp]
    have a1 := mul_le_mul bx ey (abs_nonneg _) hi.le
    have a2 := mul_le_mul bp ex (abs_nonneg _) hj.le
    calc _ ≤ _ := add_le_add a1 a2
      _ = _ := by ring

theorem nr_add {x y : F32} {q p : ℚ} {i : ℤ} {n m : ℚ} (hx : Nr x q i n) (hy : Nr y p i m) (h1 : -126 ≤ i)
    (h2 : i ≤ 126) : Nr (F32.add x y) (q + p) (i + 1) ((n + m) / 2 + 1) := by
  obtain ⟨fx, bx, bq, ex⟩ := hx
  obtain ⟨fy, by', bp, ey⟩ := hy
  have hp : (2 : ℚ) ^ (i + 1) = 2 ^ i * 2 := by rw [zpow_add₀ (by norm_num), zpow_one]
  have hb : |x.val + y.val| ≤ 2 ^ (i + 1) := by
    refine (abs_add_le _ _).trans ?_; rw [hp]; linarith
  refine nr_of (add_finite fx fy (lt_of_le_of_lt (rnd32_abs_le (by omega) hb) (pow_lt128 (by omega)))) (by omega) hb ?_ ?_
  · refine (abs_add_le _ _).trans ?_; rw [hp]; linarith
  · have e : x.val + y.val - (q + p) = (x.val - q) + (y.val - p) := by ring
    rw [e, hp]
    refine (abs_add_le _ _).trans ?_
    calc _ ≤ _ := add_le_add ex ey
      _ = _ := by ring

theorem nr_neg {x : F32} {q : ℚ} {i : ℤ} {n : ℚ} (hx : Nr x q i n) : Nr (F32.neg x) (-q) i n := by
  obtain ⟨fx, bx, bq, ex⟩ := hx
  obtain ⟨f1, f2⟩ := neg_finite fx
  refine ⟨f1, by rw [f2, abs_neg]; exact bx, by rw [abs_neg]; exact bq, ?_⟩
  rw [f2, show -x.val - -q = -(x.val - q) by ring, abs_neg]; exact ex

theorem nr_sub {x y : F32} {q p : ℚ} {i : ℤ} {n m : ℚ} (hx : Nr x q i n) (hy : Nr y p i m) (h1 : -126 ≤ i)
    (h2 : i ≤ 126) : Nr (F32.sub x y) (q - p) (i + 1) ((n + m) / 2 + 1) := by
  rw [sub_eq_add_neg]
  exact nr_add hx (nr_neg hy) h1 h2

theorem nr_lift {x : F32} {q : ℚ} {i : ℤ} {n : ℚ} (hx : Nr x q i n) : Nr x q (i + 1) (n / 2) := by
  obtain ⟨fx, bx, bq, ex⟩ := hx
  have hp : (2 : ℚ) ^ (i + 1) = 2 ^ i * 2 := by rw [zpow_add₀ (by norm_num), zpow_one]
  have hi := two_zpow_pos i
  refine ⟨fx, by rw [hp]; linarith, by rw [hp]; linarith, ?_⟩
  rw [hp]
  calc _ ≤ _ := ex
    _ = _ := by ring

/-- A difference of two given numbers. -/
theorem nr_diff {x y : F32} {k : ℤ} (hx : x.Finite) (hy : y.Finite) (h : |x.val - y.val| ≤ 2 ^ k) (h1 : -126 ≤ k)
    (h2 : k ≤ 127) : Nr (F32.sub x y) (x.val - y.val) k 1 := by
  have := nr_of (n := 0) (q := x.val - y.val)
    (sub_fin hx hy (lt_of_le_of_lt (rnd32_abs_le (by omega) h) (pow_lt128 h2))) h1 h h (by simp)
  simpa using this

/-- Componentwise. -/
def NrV (v : V3 F32) (q : V3 ℚ) (k : ℤ) (n : ℚ) : Prop := Nr v.x q.x k n ∧ Nr v.y q.y k n ∧ Nr v.z q.z k n

def qcross (a b : V3 ℚ) : V3 ℚ := ⟨a.y * b.z - a.z * b.y, a.z * b.x - a.x * b.z, a.x * b.y - a.y * b.x⟩

def qdot (a b : V3 ℚ) : ℚ := a.x * b.x + a.y * b.y + a.z * b.z

theorem nr_cross {a b : V3 F32} {p q : V3 ℚ} {i j : ℤ} {n m : ℚ} (ha : NrV a p i n) (hb : NrV b q j m)
    (h1 : -126 ≤ i + j) (h2 : i + j ≤ 126) : NrV (cross a b) (qcross p q) (i + j + 1) (n + m + 2) := by
  obtain ⟨ax, ay, az⟩ := ha
  obtain ⟨bx, b_y, bz⟩ := hb
  have e : (n + m + 1 + (n + m + 1)) / 2 + 1 = n + m + 2 := by ring
  have h3 : i + j ≤ 127 := by omega
  refine ⟨?_, ?_, ?_⟩
  · have := nr_sub (nr_mul ay bz h1 h3) (nr_mul az b_y h1 h3) h1 h2; rwa [e] at this
  · have := nr_sub (nr_mul az bx h1 h3) (nr_mul ax bz h1 h3) h1 h2; rwa [e] at this
  · have := nr_sub (nr_mul ax b_y h1 h3) (nr_mul ay bx h1 h3) h1 h2; rwa [e] at this

theorem nr_dot {a b : V3 F32} {p q : V3 ℚ} {i j : ℤ} {n m : ℚ} (ha : NrV a p i n) (hb : NrV b q j m)
    (h1 : -126 ≤ i + j) (h2 : i + j ≤ 125) : Nr (dot a b) (qdot p q) (i + j + 1 + 1) ((n + m + 1) * 3 / 4 + 3 / 2) := by
  obtain ⟨ax, ay, az⟩ := ha
  obtain ⟨bx, b_y, bz⟩ := hb
  have h3 : i + j ≤ 127 := by omega
  have := nr_add (nr_add (nr_mul ax bx h1 h3) (nr_mul ay b_y h1 h3) h1 (by omega)) (nr_lift (nr_mul az bz h1 h3))
    (by omega) (by omega)
  have e : ((n + m + 1 + (n + m + 1)) / 2 + 1 + (n + m + 1) / 2) / 2 + 1 = (n + m + 1) * 3 / 4 + 3 / 2 := by ring
  rwa [e] at this

/-! ### The quotient -/

theorem quot {N D : F32} {Δ u s K : ℚ} (hN : N.Finite) (hD : D.Finite) (hΔ : Δ ≠ 0)
    (e1 : |N.val - u * Δ| ≤ 3 / 8 * K * s * |Δ|) (e2 : |D.val - Δ| ≤ 3 / 8 * K * |Δ|) (hK : K ≤ 1 / 4)
    (hK' : 1 / 2 ^ 20 ≤ K) (hs : 2 ^ (-60 : ℤ) ≤ s) (hs' : s ≤ 2 ^ (60 : ℤ)) (hu : |u| ≤ 2 ^ (80 : ℤ))
    (d1 : 2 ^ (-126 : ℤ) ≤ |D.val|) (d2 : |D.val| ≤ 2 ^ (120 : ℤ)) :
    (F32.mul N (div (num 1) D)).Finite ∧ |(F32.mul N (div (num 1) D)).val - u| ≤ K * (s + |u|) := by
  have hD0 : D.val ≠ 0 := by
    intro h
    rw [h, abs_zero] at d1
    exact absurd d1 (not_le.2 (two_zpow_pos _))
  have hA : 0 < |D.val| := abs_pos.2 hD0
  have hs0 : 0 < s := lt_of_lt_of_le (two_zpow_pos _) hs
  have hu0 := abs_nonneg u
  have hw : 0 < s + |u| := by linarith
  have hi1 : |1 / D.val| ≤ 2 ^ (126 : ℤ) := by
    rw [abs_div, abs_one, div_le_iff₀ hA]
    have : (2 : ℚ) ^ (126 : ℤ) * 2 ^ (-126 : ℤ) = 1 := by rw [← zpow_add₀ (by norm_num)]; norm_num
    calc (1 : ℚ) = _ := this.symm
      _ ≤ _ := mul_le_mul_of_nonneg_left d1 (two_zpow_pos _).le
  have hi2 : 2 ^ (-126 : ℤ) ≤ |1 / D.val| := by
    rw [abs_div, abs_one, le_div_iff₀ hA]
    have h2 : (2 : ℚ) ^ (-126 : ℤ) * 2 ^ (120 : ℤ) ≤ 1 := by
      rw [← zpow_add₀ (by norm_num)]
      exact zpow_le_one_of_nonpos₀ (by norm_num) (by norm_num)
    exact (mul_le_mul_of_nonneg_left d2 (two_zpow_pos _).le).trans h2
  obtain ⟨fI, vI⟩ := div_finite (a := num 1) (b := D) trivial hD hD0
    (lt_of_le_of_lt (rnd32_abs_le (by norm_num) (show |(num 1).val / D.val| ≤ 2 ^ (126 : ℤ) from hi1)) (pow_lt128 (by norm_num)))
  have vI' : (div (num 1) D).val = rnd32 (1 / D.val) := vI
  have eI : |(div (num 1) D).val - 1 / D.val| * |D.val| ≤ 1 / 2 ^ 24 := by
    rw [vI']
    have := rnd32_rel hi2
    have h3 := mul_le_mul_of_nonneg_right this hA.le
    have h4 : |1 / D.val| * (1 / 2 ^ 24) * |D.val| = 1 / 2 ^ 24 := by
      rw [abs_div, abs_one]; field_simp
    linarith
  generalize (div (num 1) D) = I at fI eI
  clear vI vI' hi1 hi2
  -- the numerator
  have hΔ' : 0 < |Δ| := abs_pos.2 hΔ
  have hAΔ : 29 / 32 * |Δ| ≤ |D.val| := by
    have h1 : |Δ| ≤ |D.val| + |D.val - Δ| := by
      have := abs_add_le D.val (Δ - D.val)
      rw [show D.val + (Δ - D.val) = Δ by ring, abs_sub_comm] at this
      exact this
    have h2 : 3 / 8 * K * |Δ| ≤ 3 / 32 * |Δ| := by
      apply mul_le_mul_of_nonneg_right _ hΔ'.le; linarith
    linarith
  have hND : |N.val - u * D.val| ≤ 12 / 29 * K * (s + |u|) * |D.val| := by
    have h1 : N.val - u * D.val = (N.val - u * Δ) + u * (Δ - D.val) := by ring
    rw [h1]
    refine (abs_add_le _ _).trans ?_
    rw [abs_mul, abs_sub_comm Δ]
    have h2 := mul_le_mul_of_nonneg_left e2 hu0
    have h3 : 3 / 8 * K * (s + |u|) * |Δ| ≤ 3 / 8 * K * (s + |u|) * (32 / 29 * |D.val|) := by
      apply mul_le_mul_of_nonneg_left
      · linarith
      · have : 0 ≤ K := le_trans (by norm_num) hK'
        positivity
    calc _ ≤ 3 / 8 * K * s * |Δ| + |u| * (3 / 8 * K * |Δ|) := add_le_add e1 h2
      _ = 3 / 8 * K * (s + |u|) * |Δ| := by ring
      _ ≤ _ := h3
      _ = _ := by ring
  have hN' : |N.val| ≤ 32 / 29 * (s + |u|) * |D.val| := by
    have h1 : |N.val| ≤ |u| * |D.val| + |N.val - u * D.val| := by
      have := abs_add_le (u * D.val) (N.val - u * D.val)
      rwa [show u * D.val + (N.val - u * D.val) = N.val by ring, abs_mul] at this
    have h2 : 12 / 29 * K * (s + |u|) * |D.val| ≤ 3 / 29 * ((s + |u|) * |D.val|) := by
      have := mul_le_mul_of_nonneg_right hK (show 0 ≤ 12 / 29 * ((s + |u|) * |D.val|) by positivity)
      linarith
    have h3 : |u| * |D.val| ≤ (s + |u|) * |D.val| := mul_le_mul_of_nonneg_right (by linarith) hA.le
    linarith
  -- the product
  have hx : |N.val * I.val - u| ≤ 12 / 29 * K * (s + |u|) + 32 / 29 * (s + |u|) * (1 / 2 ^ 24) := by
    have h1 : (N.val * I.val - u) = N.val * (I.val - 1 / D.val) + (N.val - u * D.val) / D.val := by
      field_simp; ring
    rw [h1]
    refine (abs_add_le _ _).trans ?_
    have h2 : |(N.val - u * D.val) / D.val| ≤ 12 / 29 * K * (s + |u|) := by
      rw [abs_div, div_le_iff₀ hA]; exact hND
    have h3 : |N.val * (I.val - 1 / D.val)| ≤ 32 / 29 * (s + |u|) * (1 / 2 ^ 24) := by
      rw [abs_mul]
      calc _ ≤ 32 / 29 * (s + |u|) * |D.val| * |I.val - 1 / D.val| := mul_le_mul_of_nonneg_right hN' (abs_nonneg _)
        _ = 32 / 29 * (s + |u|) * (|I.val - 1 / D.val| * |D.val|) := by ring
        _ ≤ _ := mul_le_mul_of_nonneg_left eI (by positivity)
    linarith
  have hKw : K * (s + |u|) ≤ 1 / 4 * (s + |u|) := mul_le_mul_of_nonneg_right hK hw.le
  have hKw' : 1 / 2 ^ 20 * (s + |u|) ≤ K * (s + |u|) := mul_le_mul_of_nonneg_right hK' hw.le
  have hx2 : |N.val * I.val| ≤ 6 / 5 * (s + |u|) := by
    have h1 : |N.val * I.val| ≤ |N.val * I.val - u| + |u| := by
      have := abs_add_le (N.val * I.val - u) u
      rwa [sub_add_cancel] at this
    have h2 : 12 / 29 * K * (s + |u|) = 12 / 29 * (K * (s + |u|)) := by ring
    norm_num at *
    linarith
  have hx3 : |N.val * I.val| ≤ 2 ^ (82 : ℤ) := by
    have : (2 : ℚ) ^ (60 : ℤ) ≤ 2 ^ (80 : ℤ) := zpow_le_zpow_right₀ (by norm_num) (by norm_num)
    have e : (2 : ℚ) ^ (82 : ℤ) = 2 ^ (80 : ℤ) * 4 := by norm_num
    rw [e]
    linarith
  obtain ⟨f, v⟩ := mul_finite hN fI (lt_of_le_of_lt (rnd32_abs_le (by norm_num) hx3) (pow_lt128 (by norm_num)))
  refine ⟨f, ?_⟩
  rw [v]
  have h1 : rnd32 (N.val * I.val) - u = (rnd32 (N.val * I.val) - N.val * I.val) + (N.val * I.val - u) := by ring
  rw [h1]
  refine (abs_add_le _ _).trans ?_
  have h2 := rnd32_err' (N.val * I.val)
  have h3 : (2 : ℚ) ^ (-150 : ℤ) ≤ 1 / 2 ^ 30 * s := by
    refine le_trans ?_ (mul_le_mul_of_nonneg_left hs (by norm_num))
    norm_num
  have h4 : 12 / 29 * K * (s + |u|) = 12 / 29 * (K * (s + |u|)) := by ring
  have h5 := mul_le_mul_of_nonneg_right hx2 (show (0 : ℚ) ≤ 1 / 2 ^ 24 by norm_num)
  rw [h4] at hx
  generalize K * (s + |u|) = Z at *
  generalize |rnd32 (N.val * I.val) - N.val * I.val| = R at *
  generalize |N.val * I.val - u| = R2 at *
  generalize |N.val * I.val| * (1 / 2 ^ 24) = R3 at *
  generalize (2 : ℚ) ^ (-150 : ℤ) = R4 at *
  generalize |u| = U at *
  clear hx2 hx3 hN' hND e1 e2 hK hK' hs hs' hu d1 d2 hA eI hΔ' hAΔ h1 h4
  norm_num at *
  linarith

/-! ### Bounds -/

/-- Finite numbers; the direction is at most `2^p`, the edges `2^q`, the distance to the first corner `2^r`. -/
structure Bounds (o d a b c : V3 F32) (p q r : ℤ) : Prop where
  fo : o.x.Finite ∧ o.y.Finite ∧ o.z.Finite
  fd : d.x.Finite ∧ d.y.Finite ∧ d.z.Finite
  fa : a.x.Finite ∧ a.y.Finite ∧ a.z.Finite
  fb : b.x.Finite ∧ b.y.Finite ∧ b.z.Finite
  fc : c.x.Finite ∧ c.y.Finite ∧ c.z.Finite
  dir : |d.x.val| ≤ 2 ^ p ∧ |d.y.val| ≤ 2 ^ p ∧ |d.z.val| ≤ 2 ^ p
  ab : |b.x.val - a.x.val| ≤ 2 ^ q ∧ |b.y.val - a.y.val| ≤ 2 ^ q ∧ |b.z.val - a.z.val| ≤ 2 ^ q
  ac : |c.x.val - a.x.val| ≤ 2 ^ q ∧ |c.y.val - a.y.val| ≤ 2 ^ q ∧ |c.z.val - a.z.val| ≤ 2 ^ q
  ao : |o.x.val - a.x.val| ≤ 2 ^ r ∧ |o.y.val - a.y.val| ≤ 2 ^ r ∧ |o.z.val - a.z.val| ≤ 2 ^ r
  rp : -30 ≤ p ∧ p ≤ 30
  rq : -30 ≤ q ∧ q ≤ 30
  rr : -30 ≤ r ∧ r ≤ 30

/-- The exact vector. -/
def ev (v : V3 F32) : V3 ℚ := ⟨v.x.val, v.y.val, v.z.val⟩

def qsub (a b : V3 ℚ) : V3 ℚ := ⟨a.x - b.x, a.y - b.y, a.z - b.z⟩

/-- The exact determinant: the volume spanned by the direction and the edges. -/
def exactDet (d a b c : V3 ℚ) : ℚ := qdot (qcross d (qsub c a)) (qsub b a)

section
variable {o d a b c : V3 F32} {p q r : ℤ}

theorem Bounds.dirN (h : Bounds o d a b c p q r) : NrV d (ev d) p 0 :=
  ⟨nr_self h.fd.1 h.dir.1, nr_self h.fd.2.1 h.dir.2.1, nr_self h.fd.2.2 h.dir.2.2⟩

theorem Bounds.abN (h : Bounds o d a b c p q r) : NrV (vsub b a) (qsub (ev b) (ev a)) q 1 := by
  have h1 := h.rq
  exact ⟨nr_diff h.fb.1 h.fa.1 h.ab.1 (by omega) (by omega), nr_diff h.fb.2.1 h.fa.2.1 h.ab.2.1 (by omega) (by omega),
    nr_diff h.fb.2.2 h.fa.2.2 h.ab.2.2 (by omega) (by omega)⟩

theorem Bounds.acN (h : Bounds o d a b c p q r) : NrV (vsub c a) (qsub (ev c) (ev a)) q 1 := by
  have h1 := h.rq
  exact ⟨nr_diff h.fc.1 h.fa.1 h.ac.1 (by omega) (by omega), nr_diff h.fc.2.1 h.fa.2.1 h.ac.2.1 (by omega) (by omega),
    nr_diff h.fc.2.2 h.fa.2.2 h.ac.2.2 (by omega) (by omega)⟩

theorem Bounds.aoN (h : Bounds o d a b c p q r) : NrV (vsub o a) (qsub (ev o) (ev a)) r 1 := by
  have h1 := h.rr
  exact ⟨nr_diff h.fo.1 h.fa.1 h.ao.1 (by omega) (by omega), nr_diff h.fo.2.1 h.fa.2.1 h.ao.2.1 (by omega) (by omega),
    nr_diff h.fo.2.2 h.fa.2.2 h.ao.2.2 (by omega) (by omega)⟩

/-- The determinant and the three numerators, with their errors. -/
theorem Bounds.parts (h : Bounds o d a b c p q r) :
    Nr (dot (cross d (vsub c a)) (vsub b a)) (exactDet (ev d) (ev a) (ev b) (ev c)) (p + 2 * q + 3) (21 / 4) ∧
    Nr (dot (cross d (vsub c a)) (vsub o a)) (qdot (qcross (ev d) (qsub (ev c) (ev a))) (qsub (ev o) (ev a)))
      (p + q + r + 3) (21 / 4) ∧
    Nr (dot d (cross (vsub o a) (vsub b a))) (qdot (ev d) (qcross (qsub (ev o) (ev a)) (qsub (ev b) (ev a))))
      (p + q + r + 3) (21 / 4) ∧
    Nr (dot (vsub c a) (cross (vsub o a) (vsub b a)))
      (qdot (qsub (ev c) (ev a)) (qcross (qsub (ev o) (ev a)) (qsub (ev b) (ev a)))) (2 * q + r + 3) 6 := by
  have h1 := h.rp
  have h2 := h.rq
  have h3 := h.rr
  have pv := nr_cross h.dirN h.acN (by omega) (by omega)
  have qv := nr_cross h.aoN h.abN (by omega) (by omega)
  refine ⟨?_, ?_, ?_, ?_⟩
  · have := nr_dot pv h.abN (by omega) (by omega)
    rw [show p + q + 1 + q + 1 + 1 = p + 2 * q + 3 by ring] at this
    norm_num at this
    exact this
  · have := nr_dot pv h.aoN (by omega) (by omega)
    rw [show p + q + 1 + r + 1 + 1 = p + q + r + 3 by ring] at this
    norm_num at this
    exact this
  · have := nr_dot h.dirN qv (by omega) (by omega)
    rw [show p + (r + q + 1) + 1 + 1 = p + q + r + 3 by ring] at this
    norm_num at this
    exact this
  · have := nr_dot h.acN qv (by omega) (by omega)
    rw [show q + (r + q + 1) + 1 + 1 = 2 * q + r + 3 by ring] at this
    norm_num at this
    exact this

end

/-- Specification: at the distance `t` the ray is in the plane of the triangle, at the coordinates `u` and `v`. -/
def Meets (o d a b c : V3 ℚ) (u v t : ℚ) : Prop :=
  o.x + t * d.x = a.x + u * (b.x - a.x) + v * (c.x - a.x) ∧
  o.y + t * d.y = a.y + u * (b.y - a.y) + v * (c.y - a.y) ∧
  o.z + t * d.z = a.z + u * (b.z - a.z) + v * (c.z - a.z)

/-- How much the rounding can change the coordinates, relatively: the worse the flatter the ray or the triangle. -/
def spread (p q : ℤ) (Δ : ℚ) : ℚ := 2 ^ (p + 2 * q - 17) / |Δ|

theorem cramer {o d a b c : V3 ℚ} {u v t : ℚ} (h : Meets o d a b c u v t) :
    qdot (qcross d (qsub c a)) (qsub o a) = u * exactDet d a b c ∧
    qdot d (qcross (qsub o a) (qsub b a)) = v * exactDet d a b c ∧
    qdot (qsub c a) (qcross (qsub o a) (qsub b a)) = t * exactDet d a b c := by
  obtain ⟨h1, h2, h3⟩ := h
  have e1 : o.x = a.x + u * (b.x - a.x) + v * (c.x - a.x) - t * d.x := by linarith
  have e2 : o.y = a.y + u * (b.y - a.y) + v * (c.y - a.y) - t * d.y := by linarith
  have e3 : o.z = a.z + u * (b.z - a.z) + v * (c.z - a.z) - t * d.z := by linarith
  simp only [qdot, qcross, qsub, exactDet, e1, e2, e3]
  refine ⟨?_, ?_, ?_⟩ <;> ring

theorem bound_coord {n Δ u : ℚ} {i j : ℤ} (hn : |n| ≤ 2 ^ i) (hΔ : 2 ^ j ≤ |Δ|) (e : n = u * Δ) : |u| ≤ 2 ^ (i - j) := by
  have hj := two_zpow_pos j
  have h1 : |u| * |Δ| ≤ 2 ^ i := by rw [← abs_mul, ← e]; exact hn
  have h2 : |u| * 2 ^ j ≤ |u| * |Δ| := mul_le_mul_of_nonneg_left hΔ (abs_nonneg _)
  rw [zpow_sub₀ (by norm_num), le_div_iff₀ hj]
  linarith

theorem coords {o d a b c : V3 F32} {p q r : ℤ} (h : Bounds o d a b c p q r) {u v t : ℚ}
    (hm : Meets (ev o) (ev d) (ev a) (ev b) (ev c) u v t)
    (h0 : exactDet (ev d) (ev a) (ev b) (ev c) ≠ 0)
    (hK : spread p q (exactDet (ev d) (ev a) (ev b) (ev c)) ≤ 1 / 4) :
    let K := spread p q (exactDet (ev d) (ev a) (ev b) (ev c))
    let D := dot (cross d (vsub c a)) (vsub b a)
    let U := F32.mul (dot (cross d (vsub c a)) (vsub o a)) (div (num 1) D)
    let V := F32.mul (dot d (cross (vsub o a) (vsub b a))) (div (num 1) D)
    let T := F32.mul (dot (vsub c a) (cross (vsub o a) (vsub b a))) (div (num 1) D)
    1 / 2 ^ 20 ≤ K ∧ D.Finite ∧ D.val ≠ 0 ∧
    (U.Finite ∧ |U.val - u| ≤ K * (2 ^ (r - q) + |u|)) ∧
    (V.Finite ∧ |V.val - v| ≤ K * (2 ^ (r - q) + |v|)) ∧
    (T.Finite ∧ |T.val - t| ≤ K * (2 ^ (r - p) + |t|)) := by
  intro K D U V T
  obtain ⟨hD, hU, hV, hT⟩ := h.parts
  obtain ⟨c1, c2, c3⟩ := cramer hm
  have r1 := h.rp
  have r2 := h.rq
  have r3 := h.rr
  rw [c1] at hU
  rw [c2] at hV
  rw [c3] at hT
  change Nr D _ _ _ at hD
  have hKd : K = spread p q (exactDet (ev d) (ev a) (ev b) (ev c)) := rfl
  clear_value K
  rw [← hKd] at hK
  generalize exactDet (ev d) (ev a) (ev b) (ev c) = Δ at *
  have hΔ : 0 < |Δ| := abs_pos.2 h0
  have hKΔ : K * |Δ| = 2 ^ (p + 2 * q - 17) := by
    rw [hKd]
    unfold spread
    rw [div_mul_cancel₀ _ hΔ.ne']
  have hlow : 2 ^ (p + 2 * q - 15) ≤ |Δ| := by
    have h1 : K * |Δ| ≤ 1 / 4 * |Δ| := mul_le_mul_of_nonneg_right hK hΔ.le
    rw [hKΔ] at h1
    have : (2 : ℚ) ^ (p + 2 * q - 15) = 2 ^ (p + 2 * q - 17) * 4 := by
      rw [show p + 2 * q - 15 = (p + 2 * q - 17) + 2 by ring, zpow_add₀ (by norm_num)]; norm_num
    rw [this]; linarith
  have hKlow : 1 / 2 ^ 20 ≤ K := by
    rw [hKd]
    unfold spread
    rw [le_div_iff₀ hΔ]
    have h1 := mul_le_mul_of_nonneg_left hD.2.2.1 (show (0 : ℚ) ≤ 1 / 2 ^ 20 by norm_num)
    refine h1.trans (le_of_eq ?_)
    rw [show p + 2 * q + 3 = (p + 2 * q - 17) + 20 by ring, zpow_add₀ (by norm_num)]
    generalize (2 : ℚ) ^ (p + 2 * q - 17) = B
    norm_num
    ring
  have e2 : |D.val - Δ| ≤ 3 / 8 * K * |Δ| := by
    refine hD.2.2.2.trans ?_
    rw [show 3 / 8 * K * |Δ| = 3 / 8 * (K * |Δ|) by ring, hKΔ, show p + 2 * q + 3 = (p + 2 * q - 17) + 20 by ring,
      zpow_add₀ (by norm_num)]
    have := two_zpow_pos (p + 2 * q - 17)
    norm_num
    linarith
  have hDa : 29 / 32 * |Δ| ≤ |D.val| := by
    have h1 : |Δ| ≤ |D.val| + |D.val - Δ| := by
      have := abs_add_le D.val (Δ - D.val)
      rw [show D.val + (Δ - D.val) = Δ by ring, abs_sub_comm] at this
      exact this
    have h2 : 3 / 8 * K * |Δ| ≤ 3 / 32 * |Δ| := by
      apply mul_le_mul_of_nonneg_right _ hΔ.le
      have : K ≤ 1 / 4 := hK
      linarith
    linarith
  have d1 : 2 ^ (-126 : ℤ) ≤ |D.val| := by
    have h1 : (2 : ℚ) ^ (-126 : ℤ) * 2 ≤ 2 ^ (p + 2 * q - 15) := by
      rw [← zpow_add_one₀ (by norm_num)]
      exact zpow_le_zpow_right₀ (by norm_num) (by omega)
    have := two_zpow_pos (-126)
    linarith
  have d2 : |D.val| ≤ 2 ^ (120 : ℤ) := hD.2.1.trans (zpow_le_zpow_right₀ (by norm_num) (by omega))
  have hD0 : D.val ≠ 0 := by
    intro e
    rw [e, abs_zero] at d1
    exact absurd d1 (not_le.2 (two_zpow_pos _))
  have hs1 : (2 : ℚ) ^ (-60 : ℤ) ≤ 2 ^ (r - q) := zpow_le_zpow_right₀ (by norm_num) (by omega)
  have hs2 : (2 : ℚ) ^ (r - q) ≤ 2 ^ (60 : ℤ) := zpow_le_zpow_right₀ (by norm_num) (by omega)
  have hs3 : (2 : ℚ) ^ (-60 : ℤ) ≤ 2 ^ (r - p) := zpow_le_zpow_right₀ (by norm_num) (by omega)
  have hs4 : (2 : ℚ) ^ (r - p) ≤ 2 ^ (60 : ℤ) := zpow_le_zpow_right₀ (by norm_num) (by omega)
  have err : ∀ {N : F32} {n : ℚ} {w : ℚ}, Nr N (w * Δ) (p + q + r + 3) n → n ≤ 6 →
      |N.val - w * Δ| ≤ 3 / 8 * K * 2 ^ (r - q) * |Δ| := by
    intro N n w hN hn
    refine hN.2.2.2.trans ?_
    rw [show 3 / 8 * K * 2 ^ (r - q) * |Δ| = 3 / 8 * (K * |Δ| * 2 ^ (r - q)) by ring, hKΔ, ← zpow_add₀ (by norm_num),
      show p + q + r + 3 = (p + 2 * q - 17 + (r - q)) + 20 by ring, zpow_add₀ (by norm_num) (p + 2 * q - 17 + (r - q))]
    have := two_zpow_pos (p + 2 * q - 17 + (r - q))
    generalize (2 : ℚ) ^ (p + 2 * q - 17 + (r - q)) = B at *
    have h1 := mul_le_mul_of_nonneg_right hn (show 0 ≤ B * (1 / 16) by positivity)
    norm_num at *
    linarith
  have err3 : |(dot (vsub c a) (cross (vsub o a) (vsub b a))).val - t * Δ| ≤ 3 / 8 * K * 2 ^ (r - p) * |Δ| := by
    refine hT.2.2.2.trans ?_
    rw [show 3 / 8 * K * 2 ^ (r - p) * |Δ| = 3 / 8 * (K * |Δ| * 2 ^ (r - p)) by ring, hKΔ, ← zpow_add₀ (by norm_num),
      show 2 * q + r + 3 = (p + 2 * q - 17 + (r - p)) + 20 by ring, zpow_add₀ (by norm_num) (p + 2 * q - 17 + (r - p))]
    have := two_zpow_pos (p + 2 * q - 17 + (r - p))
    generalize (2 : ℚ) ^ (p + 2 * q - 17 + (r - p)) = B at *
    norm_num at *
    linarith
  have big : ∀ {w n : ℚ} {i : ℤ}, |w * Δ| ≤ 2 ^ i → i - (p + 2 * q - 15) ≤ 80 → |w| ≤ 2 ^ (80 : ℤ) := by
    intro w n i hw hi
    exact (bound_coord hw hlow rfl).trans (zpow_le_zpow_right₀ (by norm_num) hi)
  refine ⟨hKlow, hD.1, hD0, ?_, ?_, ?_⟩
  · exact quot hU.1 hD.1 h0 (err hU (by norm_num)) e2 hK hKlow hs1 hs2 (big (n := 0) hU.2.2.1 (by omega)) d1 d2
  · exact quot hV.1 hD.1 h0 (err hV (by norm_num)) e2 hK hKlow hs1 hs2 (big (n := 0) hV.2.2.1 (by omega)) d1 d2
  · exact quot hT.1 hD.1 h0 err3 e2 hK hKlow hs3 hs4 (big (n := 0) hT.2.2.1 (by omega)) d1 d2

theorem eq_zero_iff {x : F32} (h : x.Finite) : F32.eq x (zero false) = decide (x.val = 0) := by
  cases x <;> simp only [F32.Finite] at h <;> rfl

theorem lt_zero {x : F32} (h : x.Finite) : F32.lt x (zero false) = decide (x.val < 0) := lt_finite h trivial

theorem one_lt {x : F32} (h : x.Finite) : F32.lt (num 1) x = decide (1 < x.val) := lt_finite (a := num 1) trivial h

theorem minDist_val : minDist.Finite ∧ minDist.val = rnd32 (1 / 100) :=
  round_finite (by decide +kernel)

theorem intersect_eq (o d a b c : V3 F32) (distance : F32) :
    intersect o d a b c distance =
      let D := dot (cross d (vsub c a)) (vsub b a)
      let U := F32.mul (dot (cross d (vsub c a)) (vsub o a)) (div (num 1) D)
      let V := F32.mul (dot d (cross (vsub o a) (vsub b a))) (div (num 1) D)
      let T := F32.mul (dot (vsub c a) (cross (vsub o a) (vsub b a))) (div (num 1) D)
      if F32.eq D (zero false) then none
      else if F32.lt U (zero false) || F32.lt (num 1) U then none
      else if F32.lt V (zero false) || F32.lt (num 1) (F32.add U V) then none
      else if F32.lt T minDist || F32.lt distance T then none
      else some ⟨U, V, T⟩ := rfl

theorem add_eq_round {a b : F32} (ha : a.Finite) (hb : b.Finite) : ∃ s, F32.add a b = F32.round s (a.val + b.val) := by
  cases a <;> cases b <;> simp only [F32.Finite] at ha hb <;> exact ⟨_, rfl⟩

theorem one_lt_add {a b : F32} (ha : a.Finite) (hb : b.Finite) (h : 1 < rnd32 (a.val + b.val)) :
    F32.lt (num 1) (F32.add a b) = true := by
  obtain ⟨s, e⟩ := add_eq_round ha hb
  have h0 : ¬ a.val + b.val < 0 := by
    intro hc
    have := rnd32_mono hc.le
    rw [rnd32_zero] at this
    linarith
  have h1 : a.val + b.val ≠ 0 := by
    intro hc
    rw [hc, rnd32_zero] at h
    linarith
  rw [e]
  unfold F32.round
  rw [if_neg h1, if_neg (by linarith)]
  split
  · rw [decide_eq_false h0]; rfl
  · show decide ((1 : ℚ) < rnd32 (a.val + b.val)) = true
    rw [decide_eq_true_eq]; exact h

/-- Full statement of C160: the test is that of exact arithmetic, with a distance that is a number. -/
def C160_statement : Prop := ∀ (o d a b c : V3 F32) (u v t : ℚ),
  (∀ x ∈ [o, d, a, b, c], x.x.Finite ∧ x.y.Finite ∧ x.z.Finite) →
  Meets (ev o) (ev d) (ev a) (ev b) (ev c) u v t → exactDet (ev d) (ev a) (ev b) (ev c) ≠ 0 →
  ((intersect o d a b c (inf false)).isSome = true ↔ 0 ≤ u ∧ 0 ≤ v ∧ u + v ≤ 1 ∧ minDist.val ≤ t)

/-- **C160.** A ray that passes inside of the triangle by more than the spread of the coordinates hits it, and the
coordinates and the distance are right up to that spread. -/
theorem C160_hit_partial {o d a b c : V3 F32} {p q r : ℤ} (h : Bounds o d a b c p q r) {u v t : ℚ}
    (hm : Meets (ev o) (ev d) (ev a) (ev b) (ev c) u v t) (h0 : exactDet (ev d) (ev a) (ev b) (ev c) ≠ 0) {K : ℚ}
    (hKd : K = spread p q (exactDet (ev d) (ev a) (ev b) (ev c))) (hK : K ≤ 1 / 4)
    (hu : K * (2 ^ (r - q) + 1) ≤ u) (hv : K * (2 ^ (r - q) + 1) ≤ v)
    (huv : u + v + K * (2 * 2 ^ (r - q) + 1) ≤ 1) (ht : minDist.val + K * (2 ^ (r - p) + t) ≤ t) (distance : F32)
    (hd : distance = inf false ∨ distance.Finite ∧ t + K * (2 ^ (r - p) + t) ≤ distance.val) :
    ∃ x, intersect o d a b c distance = some x ∧ x.u.Finite ∧ x.v.Finite ∧ x.dist.Finite ∧
      |x.u.val - u| ≤ K * (2 ^ (r - q) + 1) ∧ |x.v.val - v| ≤ K * (2 ^ (r - q) + 1) ∧
      |x.dist.val - t| ≤ K * (2 ^ (r - p) + t) := by
  obtain ⟨hKl, fD, hD0, ⟨fU, eU⟩, ⟨fV, eV⟩, ⟨fT, eT⟩⟩ := coords h hm h0 (hKd ▸ hK)
  rw [← hKd] at hKl eU eV eT
  have hK0 : 0 < K := lt_of_lt_of_le (by norm_num) hKl
  have hs := two_zpow_pos (r - q)
  have hs' := two_zpow_pos (r - p)
  have hu0 : 0 ≤ u := le_trans (by positivity) hu
  have hv0 : 0 ≤ v := le_trans (by positivity) hv
  have hm0 : 0 < minDist.val := by rw [minDist_val.2]; decide +kernel
  have hmp : 0 ≤ minDist.val + K * 2 ^ (r - p) := by positivity
  have ht0 : 0 ≤ t := by
    by_contra hc
    have h1 : 0 ≤ (1 - K) * t := by
      have : (1 - K) * t = t - K * t := by ring
      rw [this]
      have : K * (2 ^ (r - p) + t) = K * 2 ^ (r - p) + K * t := by ring
      linarith
    have h2 : (1 - K) * t < 0 := mul_neg_of_pos_of_neg (by linarith) (not_le.1 hc)
    linarith
  rw [abs_of_nonneg hu0] at eU
  rw [abs_of_nonneg hv0] at eV
  rw [abs_of_nonneg ht0] at eT
  have hu1 : u ≤ 1 := by
    have : 0 ≤ K * (2 * 2 ^ (r - q) + 1) := by positivity
    linarith
  have hv1 : v ≤ 1 := by
    have : 0 ≤ K * (2 * 2 ^ (r - q) + 1) := by positivity
    linarith
  have eU' := eU.trans (mul_le_mul_of_nonneg_left (by linarith : 2 ^ (r - q) + u ≤ 2 ^ (r - q) + 1) hK0.le)
  have eV' := eV.trans (mul_le_mul_of_nonneg_left (by linarith : 2 ^ (r - q) + v ≤ 2 ^ (r - q) + 1) hK0.le)
  have hsum : K * (2 ^ (r - q) + u) + K * (2 ^ (r - q) + v) ≤ K * (2 * 2 ^ (r - q) + 1) := by
    rw [← mul_add]
    have huv1 : u + v ≤ 1 := by
      have : 0 ≤ K * (2 * 2 ^ (r - q) + 1) := by positivity
      linarith
    exact mul_le_mul_of_nonneg_left (by linarith) hK0.le
  have aU := abs_le.1 eU
  have aV := abs_le.1 eV
  have aU' := abs_le.1 eU'
  have aV' := abs_le.1 eV'
  have aT := abs_le.1 eT
  rw [intersect_eq]
  dsimp only
  rw [eq_zero_iff fD, lt_zero fU, one_lt fU, lt_zero fV]
  generalize F32.mul (dot (cross d (vsub c a)) (vsub o a)) (div (num 1) (dot (cross d (vsub c a)) (vsub b a))) = U at *
  generalize F32.mul (dot d (cross (vsub o a) (vsub b a))) (div (num 1) (dot (cross d (vsub c a)) (vsub b a))) = V at *
  generalize F32.mul (dot (vsub c a) (cross (vsub o a) (vsub b a)))
    (div (num 1) (dot (cross d (vsub c a)) (vsub b a))) = T at *
  refine ⟨⟨U, V, T⟩, ?_, fU, fV, fT, eU', eV', eT⟩
  have hU0 : 0 ≤ U.val := by linarith
  have hV0 : 0 ≤ V.val := by linarith
  have hUV : U.val + V.val ≤ 1 := by linarith
  have hr1 : rnd32 (U.val + V.val) ≤ 1 := by
    have := rnd32_lt (q := U.val + V.val) (k := 0) (by norm_num) (by simpa using hUV)
    simpa using this
  have hr0 : 0 ≤ rnd32 (U.val + V.val) := rnd32_nonneg (by linarith)
  obtain ⟨fS, eS⟩ := add_finite fU fV (by
    rw [abs_of_nonneg hr0]; exact lt_of_le_of_lt hr1 (by norm_num))
  rw [one_lt fS, eS, lt_finite fT minDist_val.1]
  have hT1 : ¬ T.val < minDist.val := by linarith
  have hT2 : F32.lt distance T = false := by
    rcases hd with rfl | ⟨fd, hd⟩
    · cases T <;> simp only [F32.Finite] at fT <;> rfl
    · rw [lt_finite fd fT]
      simp only [decide_eq_false_iff_not, not_lt]
      linarith
  rw [hT2]
  simp [hD0, not_lt.2 hU0, not_lt.2 hV0, not_lt.2 hr1, hT1, not_lt.2 (show U.val ≤ 1 by linarith)]

/-- **C160.** A ray that passes by the triangle by more than the spread does not hit it. -/
theorem C160_miss_partial {o d a b c : V3 F32} {p q r : ℤ} (h : Bounds o d a b c p q r) {u v t : ℚ}
    (hm : Meets (ev o) (ev d) (ev a) (ev b) (ev c) u v t) (h0 : exactDet (ev d) (ev a) (ev b) (ev c) ≠ 0) {K : ℚ}
    (hKd : K = spread p q (exactDet (ev d) (ev a) (ev b) (ev c))) (hK : K ≤ 1 / 4) (distance : F32)
    (hmiss : u < -(K * (2 ^ (r - q) + |u|)) ∨ v < -(K * (2 ^ (r - q) + |v|)) ∨
      1 + K * (2 * 2 ^ (r - q) + |u| + |v| + 1) < u + v ∨ t < minDist.val - K * (2 ^ (r - p) + |t|) ∨
      distance.Finite ∧ distance.val + K * (2 ^ (r - p) + |t|) < t) :
    intersect o d a b c distance = none := by
  obtain ⟨hKl, fD, hD0, ⟨fU, eU⟩, ⟨fV, eV⟩, ⟨fT, eT⟩⟩ := coords h hm h0 (hKd ▸ hK)
  rw [← hKd] at hKl eU eV eT
  have hs := two_zpow_pos (r - q)
  have hK0 : 0 < K := lt_of_lt_of_le (by norm_num) hKl
  have aU := abs_le.1 eU
  have aV := abs_le.1 eV
  have aT := abs_le.1 eT
  rw [intersect_eq]
  dsimp only
  rw [eq_zero_iff fD, lt_zero fU, one_lt fU, lt_zero fV]
  generalize F32.mul (dot (cross d (vsub c a)) (vsub o a)) (div (num 1) (dot (cross d (vsub c a)) (vsub b a))) = U at *
  generalize F32.mul (dot d (cross (vsub o a) (vsub b a))) (div (num 1) (dot (cross d (vsub c a)) (vsub b a))) = V at *
  generalize F32.mul (dot (vsub c a) (cross (vsub o a) (vsub b a)))
    (div (num 1) (dot (cross d (vsub c a)) (vsub b a))) = T at *
  have hr : 1 < U.val + V.val - K → U.val ≤ 1 → 0 ≤ V.val → F32.lt (num 1) (F32.add U V) = true := by
    intro h1 h2 _
    have hk : (2 : ℚ) ^ (-20 : ℤ) ≤ K := by norm_num at hKl ⊢; linarith
    have h3 : (1 : ℚ) + 1 / 2 ^ 23 ≤ rnd32 (U.val + V.val) := by
      have h4 : rnd32 (1 + 1 / 2 ^ 23) = 1 + 1 / 2 ^ 23 := by
        have := rnd32_rep (2 ^ 23 + 1) (-23) (by norm_num) (by norm_num)
        norm_num at this ⊢
        exact this
      rw [← h4]
      apply rnd32_mono
      norm_num at hk ⊢
      linarith
    exact one_lt_add fU fV (lt_of_lt_of_le (by norm_num) h3)
  by_cases c1 : U.val < 0
  · simp [c1, hD0]
  · by_cases c2 : 1 < U.val
    · simp [c2, hD0]
    · by_cases c3 : V.val < 0
      · simp [c1, c2, c3, hD0]
      · rcases hmiss with h1 | h1 | h1 | h1 | ⟨fd, h1⟩
        · exact absurd (show U.val < 0 by linarith) c1
        · exact absurd (show V.val < 0 by linarith) c3
        · have h2 : 1 < U.val + V.val - K := by
            have : K * (2 * 2 ^ (r - q) + |u| + |v| + 1) = K * (2 ^ (r - q) + |u|) + K * (2 ^ (r - q) + |v|) + K := by ring
            linarith
          rw [hr h2 (not_lt.1 c2) (not_lt.1 c3)]
          simp [c1, c2, c3, hD0]
        · have h2 : T.val < minDist.val := by linarith
          rw [lt_finite fT minDist_val.1]
          simp [c1, c2, c3, hD0, h2]
        · have h2 : F32.lt distance T = true := by
            rw [lt_finite fd fT, decide_eq_true_eq]; linarith
          rw [h2]
          simp [c1, c2, c3, hD0]

theorem mul_eq_round {a b : F32} (ha : a.Finite) (hb : b.Finite) : ∃ s, F32.mul a b = F32.round s (a.val * b.val) := by
  cases a <;> cases b <;> simp only [F32.Finite] at ha hb <;> exact ⟨_, rfl⟩

theorem round_ne_nan (s : Bool) (q : ℚ) : F32.round s q ≠ nan := by
  unfold F32.round
  split
  · simp
  · split
    · simp
    · split <;> simp

theorem finite_or_inf {x : F32} (h : x ≠ nan) : x.Finite ∨ ∃ s, x = inf s := by
  cases x
  · exact absurd rfl h
  · exact Or.inr ⟨_, rfl⟩
  · exact Or.inl trivial
  · exact Or.inl trivial

/-- **C160.** If the determinant does not underflow, what is reported for a hit are numbers: coordinates between zero and
one with a sum of at most one, and a distance in the allowed range. -/
theorem C160_numbers {o d a b c : V3 F32} {p q r : ℤ} (h : Bounds o d a b c p q r)
    (hd : (det d a b c).val = 0 ∨ 2 ^ (-126 : ℤ) ≤ |(det d a b c).val|) (distance : F32) (x : Hit)
    (hx : intersect o d a b c distance = some x) :
    x.u.Finite ∧ x.v.Finite ∧ x.dist ≠ nan ∧ 0 ≤ x.u.val ∧ 0 ≤ x.v.val ∧ rnd32 (x.u.val + x.v.val) ≤ 1 ∧
    F32.lt x.dist minDist = false ∧ F32.lt distance x.dist = false ∧ (distance.Finite → x.dist.Finite) := by
  obtain ⟨hD, hU, hV, hT⟩ := h.parts
  have r1 := h.rp
  have r2 := h.rq
  rw [intersect_eq] at hx
  dsimp only at hx
  change (det d a b c).val = 0 ∨ _ at hd
  rw [show det d a b c = dot (cross d (vsub c a)) (vsub b a) from rfl] at hd
  rw [eq_zero_iff hD.1] at hx
  by_cases h0 : (dot (cross d (vsub c a)) (vsub b a)).val = 0
  · simp [h0] at hx
  have hd' := hd.resolve_left h0
  have hA : 0 < |(dot (cross d (vsub c a)) (vsub b a)).val| := abs_pos.2 h0
  have hi1 : |1 / (dot (cross d (vsub c a)) (vsub b a)).val| ≤ 2 ^ (126 : ℤ) := by
    rw [abs_div, abs_one, div_le_iff₀ hA]
    have : (2 : ℚ) ^ (126 : ℤ) * 2 ^ (-126 : ℤ) = 1 := by rw [← zpow_add₀ (by norm_num)]; norm_num
    calc (1 : ℚ) = _ := this.symm
      _ ≤ _ := mul_le_mul_of_nonneg_left hd' (two_zpow_pos _).le
  obtain ⟨fI, -⟩ := div_finite (a := num 1) (b := dot (cross d (vsub c a)) (vsub b a)) trivial hD.1 h0
    (lt_of_le_of_lt (rnd32_abs_le (by norm_num) (show |(num 1).val / _| ≤ 2 ^ (126 : ℤ) from hi1)) (pow_lt128 (by norm_num)))
  have nU : F32.mul (dot (cross d (vsub c a)) (vsub o a)) (div (num 1) (dot (cross d (vsub c a)) (vsub b a))) ≠ nan := by
    obtain ⟨s, e⟩ := mul_eq_round hU.1 fI
    rw [e]; exact round_ne_nan _ _
  have nV : F32.mul (dot d (cross (vsub o a) (vsub b a))) (div (num 1) (dot (cross d (vsub c a)) (vsub b a))) ≠ nan := by
    obtain ⟨s, e⟩ := mul_eq_round hV.1 fI
    rw [e]; exact round_ne_nan _ _
  have nT : F32.mul (dot (vsub c a) (cross (vsub o a) (vsub b a)))
      (div (num 1) (dot (cross d (vsub c a)) (vsub b a))) ≠ nan := by
    obtain ⟨s, e⟩ := mul_eq_round hT.1 fI
    rw [e]; exact round_ne_nan _ _
  generalize F32.mul (dot (cross d (vsub c a)) (vsub o a)) (div (num 1) (dot (cross d (vsub c a)) (vsub b a))) = U at *
  generalize F32.mul (dot d (cross (vsub o a) (vsub b a))) (div (num 1) (dot (cross d (vsub c a)) (vsub b a))) = V at *
  generalize F32.mul (dot (vsub c a) (cross (vsub o a) (vsub b a)))
    (div (num 1) (dot (cross d (vsub c a)) (vsub b a))) = T at *
  rw [decide_eq_false h0, if_neg (by decide)] at hx
  split at hx
  · cases hx
  rename_i c1
  split at hx
  · cases hx
  rename_i c2
  split at hx
  · cases hx
  rename_i c3
  cases hx
  simp only [Bool.or_eq_true, not_or, Bool.not_eq_true] at c1 c2 c3
  have fU : U.Finite := by
    rcases finite_or_inf nU with f | ⟨s, rfl⟩
    · exact f
    · cases s
      · exact absurd c1.2 (by decide)
      · exact absurd c1.1 (by decide)
  have fV : V.Finite := by
    rcases finite_or_inf nV with f | ⟨s, rfl⟩
    · exact f
    · cases s
      · exfalso
        have : F32.add U (inf false) = inf false := by
          cases U <;> simp only [F32.Finite] at fU <;> rfl
        rw [this] at c2
        exact absurd c2.2 (by decide)
      · exact absurd c2.1 (by decide)
  rw [lt_zero fU] at c1
  rw [lt_zero fV] at c2
  refine ⟨fU, fV, nT, ?_, ?_, ?_, c3.1, c3.2, ?_⟩
  · simpa using c1.1
  · simpa using c2.1
  · by_contra hc
    exact absurd (one_lt_add fU fV (not_le.1 hc)) (by simp [c2.2])
  · intro fd
    rcases finite_or_inf nT with f | ⟨s, e⟩
    · exact f
    · subst e
      exfalso
      cases s
      · have : F32.lt distance (inf false) = true := by
          cases distance <;> simp only [F32.Finite] at fd <;> rfl
        rw [this] at c3
        exact absurd c3.2 (by decide)
      · exact absurd c3.1 (by decide +kernel)

/-! ### Where it fails -/

/-- The rectangle with the corners (1,1), (4,1), (4,2) and (1,2), as two triangles. -/
def rectA : V3 F32 := ⟨num 1, num 1, zero false⟩
def rectB : V3 F32 := ⟨num 4, num 1, zero false⟩
def rectC : V3 F32 := ⟨num 4, num 2, zero false⟩
def rectD : V3 F32 := ⟨num 1, num 2, zero false⟩

/-- A ray that crosses the rectangle close to the diagonal. -/
def crackO : V3 F32 := ⟨num (-6094265 / 536870912), num (-5070101 / 524288), num 9⟩
def crackD : V3 F32 := ⟨num 2, num 11, num (-9)⟩

/-- **C160 fails: there are cracks between triangles.** The ray crosses the rectangle at a point strictly inside, strictly
inside one of its two triangles, and misses both. -/
theorem C160_violated_crack :
    (∃ u v, 0 < u ∧ 0 < v ∧ u + v < 1 ∧ Meets (ev crackO) (ev crackD) (ev rectA) (ev rectC) (ev rectD) u v 1) ∧
    exactDet (ev crackD) (ev rectA) (ev rectC) (ev rectD) ≠ 0 ∧
    intersect crackO crackD rectA rectB rectC (inf false) = none ∧
    intersect crackO crackD rectA rectC rectD (inf false) = none := by
  refine ⟨⟨(2 - 6094265 / 536870912 - 1) / 3, (11 - 5070101 / 524288 - 1) - (2 - 6094265 / 536870912 - 1) / 3, ?_⟩, ?_, ?_, ?_⟩
  · norm_num [Meets, ev, crackO, crackD, rectA, rectC, rectD, F32.val]
  · norm_num [exactDet, qdot, qcross, qsub, ev, crackD, rectA, rectC, rectD, F32.val]
  · decide +kernel
  · decide +kernel

/-- Two edges of a very large triangle, and a ray that leads away from its plane. -/
def bigB : V3 F32 := ⟨num 8796093022208, zero false, zero false⟩
def bigC : V3 F32 := ⟨zero false, num 8796093022208, num 8796093022208⟩
def bigO : V3 F32 := ⟨num 2199023255552, num 8796093022208, num 4398046511104⟩
def bigD : V3 F32 := ⟨zero false, num 1, zero false⟩
def origin : V3 F32 := ⟨zero false, zero false, zero false⟩

/-- **C160 fails: a hit at a distance that is no number.** The plane of the triangle lies behind the origin of the ray;
the products overflow, the distance is infinity minus infinity, and no comparison rejects it.  After that no distance is
rejected as too far. -/
theorem C160_violated_nan :
    Meets (ev bigO) (ev bigD) (ev origin) (ev bigB) (ev bigC) (1 / 4) (1 / 2) (-4398046511104) ∧
    (intersect bigO bigD origin bigB bigC (num 1)).map (·.dist) = some nan ∧
    ∀ x, F32.lt nan x = false := by
  refine ⟨?_, ?_, fun x => rfl⟩
  · norm_num [Meets, ev, bigO, bigD, origin, bigB, bigC, F32.val]
  · decide +kernel

theorem C160_violated_statement : ¬ C160_statement := by
  intro h
  obtain ⟨⟨u, v, hu, hv, huv, hm⟩, h0, -, hn⟩ := C160_violated_crack
  have := (h crackO crackD rectA rectC rectD u v 1 (by
    intro x hx
    simp only [List.mem_cons, List.not_mem_nil, or_false] at hx
    rcases hx with rfl | rfl | rfl | rfl | rfl <;> exact ⟨trivial, trivial, trivial⟩) hm h0).2
    ⟨hu.le, hv.le, huv.le, by rw [minDist_val.2]; decide +kernel⟩
  rw [hn] at this
  cases this

/-! ### Interpolated values -/

theorem intersect_ok {o d a b c : V3 F32} {distance : F32} {x : Hit} (hx : intersect o d a b c distance = some x) :
    x.u.Ok ∧ x.v.Ok ∧ F32.lt (num 1) x.u = false := by
  rw [intersect_eq] at hx
  dsimp only at hx
  split at hx
  · cases hx
  split at hx
  · cases hx
  rename_i c1
  split at hx
  · cases hx
  split at hx
  · cases hx
  cases hx
  refine ⟨mul_ok _ _, mul_ok _ _, ?_⟩
  simp only [Bool.or_eq_true, not_or, Bool.not_eq_true] at c1
  exact c1.2

/-- **C160.** What is interpolated over a hit, texture coordinates and normals, is right up to 19 half units in the last place
of the largest value at the corners. -/
theorem C160_interpolated {o d a b c : V3 F32} {p q r : ℤ} (h : Bounds o d a b c p q r)
    (hd : (det d a b c).val = 0 ∨ 2 ^ (-126 : ℤ) ≤ |(det d a b c).val|) (distance : F32) (x : Hit)
    (hx : intersect o d a b c distance = some x) {ta tb tc : F32} {j : ℤ} (h1 : -126 ≤ j) (h2 : j ≤ 124)
    (fa : ta.Finite) (fb : tb.Finite) (fc : tc.Finite) (ba : |ta.val| ≤ 2 ^ j) (bb : |tb.val| ≤ 2 ^ j)
    (bc : |tc.val| ≤ 2 ^ j) :
    (blend x ta tb tc).Finite ∧
    |(blend x ta tb tc).val - ((1 - x.u.val - x.v.val) * ta.val + x.u.val * tb.val + x.v.val * tc.val)| ≤
      19 * (2 ^ j * (1 / 2 ^ 24)) := by
  obtain ⟨fu, fv, -, u0, v0, uv, -⟩ := C160_numbers h hd distance x hx
  obtain ⟨ou, ov, u1⟩ := intersect_ok hx
  have u1 : x.u.val ≤ 1 := by rw [one_lt fu] at u1; simpa using u1
  have v1 : x.v.val ≤ 1 := by
    have := rnd32_mono (a := x.v.val) (b := x.u.val + x.v.val) (by linarith)
    rw [(ok_val ov).1] at this
    linarith
  have p0 : (2 : ℚ) ^ (0 : ℤ) = 1 := by norm_num
  have nu : Nr x.u x.u.val 0 0 := nr_self fu (by rw [p0, abs_of_nonneg u0]; exact u1)
  have nv : Nr x.v x.v.val 0 0 := nr_self fv (by rw [p0, abs_of_nonneg v0]; exact v1)
  have w1 : Nr (F32.sub (num 1) x.u) (1 - x.u.val) 0 1 :=
    nr_diff (x := num 1) trivial fu (by
      show |1 - x.u.val| ≤ _
      rw [p0, abs_of_nonneg (by linarith)]; linarith) (by norm_num) (by norm_num)
  have w := nr_sub w1 nv (by norm_num) (by norm_num)
  have A := nr_mul w (nr_self fa ba) (by omega) (by omega)
  have B := nr_lift (nr_mul nu (nr_self fb bb) (by omega) (by omega))
  have C := nr_lift (nr_lift (nr_mul nv (nr_self fc bc) (by omega) (by omega)))
  rw [show (0 : ℤ) + 1 + j = j + 1 by ring] at A
  rw [show (0 : ℤ) + j + 1 = j + 1 by ring] at B
  rw [show (0 : ℤ) + j + 1 + 1 = j + 1 + 1 by ring] at C
  have S := nr_add (nr_add A B (by omega) (by omega)) C (by omega) (by omega)
  refine ⟨S.1, S.2.2.2.trans (le_of_eq ?_)⟩
  have e : (2 : ℚ) ^ (j + 1 + 1 + 1) = 2 ^ j * 8 := by
    rw [show j + 1 + 1 + 1 = j + 3 by ring, zpow_add₀ (by norm_num)]; norm_num
  rw [e]
  ring

/-! ### Inputs that satisfy the hypotheses -/

def unitB : V3 F32 := ⟨num 1, zero false, zero false⟩
def unitC : V3 F32 := ⟨zero false, num 1, zero false⟩
def down (x y : F32) : V3 F32 := ⟨x, y, num (-1)⟩
def up : V3 F32 := ⟨zero false, zero false, num 1⟩

theorem unit_bounds : Bounds (down (num (1 / 4)) (num (1 / 4))) up origin unitB unitC 0 0 0 := by
  constructor <;> first
    | exact ⟨trivial, trivial, trivial⟩
    | norm_num [up, down, origin, unitB, unitC, F32.val]

theorem unit_bounds' : Bounds (down (num 2) (num (1 / 4))) up origin unitB unitC 0 0 1 := by
  constructor <;> first
    | exact ⟨trivial, trivial, trivial⟩
    | norm_num [up, down, origin, unitB, unitC, F32.val]

theorem unit_det : exactDet (ev up) (ev origin) (ev unitB) (ev unitC) = -1 := by
  norm_num [exactDet, qdot, qcross, qsub, ev, up, origin, unitB, unitC, F32.val]

theorem unit_spread : (1 : ℚ) / 131072 = spread 0 0 (exactDet (ev up) (ev origin) (ev unitB) (ev unitC)) := by
  rw [unit_det]; norm_num [spread]

/-- The middle of the unit triangle is hit, with the coordinates 1/4 and 1/4 up to 2/131072. -/
example : ∃ x, intersect (down (num (1 / 4)) (num (1 / 4))) up origin unitB unitC (inf false) = some x ∧
    |x.u.val - 1 / 4| ≤ 1 / 65536 := by
  have hm := rnd32_err_pow (q := 1 / 100) (k := 0) (by norm_num) (by norm_num)
  obtain ⟨x, h1, -, -, -, h2, -, -⟩ := C160_hit_partial (u := 1 / 4) (v := 1 / 4) (t := 1) unit_bounds
    (by norm_num [Meets, ev, up, down, origin, unitB, unitC, F32.val]) (by rw [unit_det]; norm_num) unit_spread
    (by norm_num) (by norm_num) (by norm_num) (by norm_num)
    (by rw [minDist_val.2]; have := abs_le.1 hm; norm_num at this ⊢; linarith) (inf false) (Or.inl rfl)
  exact ⟨x, h1, h2.trans (by norm_num)⟩

/-- A point beside the triangle is not hit. -/
example : intersect (down (num 2) (num (1 / 4))) up origin unitB unitC (inf false) = none :=
  C160_miss_partial (u := 2) (v := 1 / 4) (t := 1) unit_bounds'
    (by norm_num [Meets, ev, up, down, origin, unitB, unitC, F32.val]) (by rw [unit_det]; norm_num) unit_spread
    (by norm_num) (inf false) (Or.inr (Or.inr (Or.inl (by norm_num [abs_of_pos]))))

example : ∃ x, intersect (down (num (1 / 4)) (num (1 / 4))) up origin unitB unitC (num 5) = some x ∧ x.dist.Finite :=
  have hx : intersect (down (num (1 / 4)) (num (1 / 4))) up origin unitB unitC (num 5) =
      some ⟨num (1 / 4), num (1 / 4), num 1⟩ := by decide +kernel
  ⟨_, hx, (C160_numbers unit_bounds (Or.inr (by
    rw [show (det up origin unitB unitC).val = -1 from by decide +kernel]; norm_num)) _ _ hx).2.2.2.2.2.2.2.2 trivial⟩

/-- A texture coordinate at the middle of the unit triangle. -/
example (x : Hit) (hx : intersect (down (num (1 / 4)) (num (1 / 4))) up origin unitB unitC (num 5) = some x) :
    |(blend x (num 0) (num 1) (num (1 / 2))).val - (x.u.val + x.v.val / 2)| ≤ 19 * (1 / 2 ^ 24) := by
  have := (C160_interpolated unit_bounds (Or.inr (by
    rw [show (det up origin unitB unitC).val = -1 from by decide +kernel]; norm_num)) _ x hx (ta := num 0) (tb := num 1)
    (tc := num (1 / 2)) (j := 0) (by norm_num) (by norm_num) trivial trivial trivial (by norm_num [F32.val])
    (by norm_num [F32.val]) (by norm_num [F32.val])).2
  norm_num [F32.val] at this ⊢
  convert this using 3
  ring

end Spectre.FTri
