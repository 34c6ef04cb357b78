import Verif.Model.Filters
import Mathlib.Analysis.SpecialFunctions.Trigonometric.Bounds
import Mathlib.Tactic.Linarith
import Mathlib.Tactic.NormNum
import Mathlib.Tactic.Positivity
import Mathlib.Tactic.Ring
import Mathlib.Tactic.FieldSimp

/-
Properties C81 (weights are in [0,1]) and C82 (shape of the filters).
-/

namespace Spectre.Filters

/-! ### C81 -/

/-- The documented range of a weight (filter.hpp:47-48): inside of the filter range it is in [0,1]. -/
def InUnit (f : Filter) : Prop :=
  ∀ x y, |x| ≤ f.rx → |y| ≤ f.ry → 0 ≤ f.weight x y ∧ f.weight x y ≤ 1

theorem prod_unit {a b : ℝ} (ha : 0 ≤ a) (ha1 : a ≤ 1) (hb : 0 ≤ b) (hb1 : b ≤ 1) :
    0 ≤ a * b ∧ a * b ≤ 1 := ⟨mul_nonneg ha hb, mul_le_one₀ ha1 hb hb1⟩

/-- **C81** (box). -/
theorem C81_box_partial : InUnit box := fun _ _ _ _ => by norm_num [box]

theorem tent1_unit (x : ℝ) : 0 ≤ max 0 (2 - |x|) / 2 ∧ max 0 (2 - |x|) / 2 ≤ 1 := by
  have h1 : 0 ≤ max 0 (2 - |x|) := le_max_left _ _
  have h2 : max 0 (2 - |x|) ≤ 2 := max_le (by norm_num) (by linarith [abs_nonneg x])
  constructor <;> linarith

/-- **C81** (tent). -/
theorem C81_tent_partial : InUnit tent := by
  intro x y _ _
  have e : tent.weight x y = (max 0 (2 - |x|) / 2) * (max 0 (2 - |y|) / 2) := by
    simp only [tent]; ring
  rw [e]
  exact prod_unit (tent1_unit x).1 (tent1_unit x).2 (tent1_unit y).1 (tent1_unit y).2

theorem gauss1_unit (a : ℝ) (ha : 0 ≤ a) (x : ℝ) :
    0 ≤ max 0 (Real.exp (-a * x * x) - Real.exp (-a * 2 * 2)) ∧
    max 0 (Real.exp (-a * x * x) - Real.exp (-a * 2 * 2)) ≤ 1 := by
  refine ⟨le_max_left _ _, max_le (by norm_num) ?_⟩
  have h1 : Real.exp (-a * x * x) ≤ 1 := by
    rw [Real.exp_le_one_iff]
    have := mul_nonneg ha (mul_self_nonneg x)
    linarith
  have h2 := Real.exp_pos (-a * 2 * 2)
  linarith

/-- **C81** (gaussian): for every falloff that is not negative. -/
theorem C81_gaussian_partial (a : ℝ) (ha : 0 ≤ a) : InUnit (gaussian a) := fun x y _ _ =>
  prod_unit (gauss1_unit a ha x).1 (gauss1_unit a ha x).2 (gauss1_unit a ha y).1 (gauss1_unit a ha y).2

theorem mabs (x : ℝ) : |x * (1 / 2) * 2| = |x| := by congr 1; ring

/-- The outer piece, factored. -/
theorem mitchell1_outer (b c x : ℝ) (h : 1 < x) :
    mitchell1 b c x = (2 - x) ^ 2 * (b * (2 - x) - 6 * c * (x - 1)) / 6 := by
  unfold mitchell1; rw [if_pos h]; ring

theorem mitchell1_unit (b x : ℝ) (hb : 0 ≤ b) (hb1 : b ≤ 1) (h0 : 0 ≤ x) (h2 : x ≤ 2) :
    0 ≤ mitchell1 b 0 x ∧ mitchell1 b 0 x ≤ 1 := by
  rcases lt_or_ge 1 x with h | h
  · rw [mitchell1_outer b 0 x h]
    have e : (2 - x) ^ 2 * (b * (2 - x) - 6 * 0 * (x - 1)) / 6 = b * (2 - x) ^ 3 / 6 := by ring
    rw [e]
    have p0 : 0 ≤ (2 - x) ^ 3 := pow_nonneg (by linarith) 3
    have p1 : (2 - x) ^ 3 ≤ 1 := pow_le_one₀ (by linarith) (by linarith)
    have := prod_unit hb hb1 p0 p1
    constructor <;> linarith [this.1, this.2]
  · unfold mitchell1
    rw [if_neg (not_lt.2 h)]
    -- a combination of the two curves for b = 0 and b = 1
    have a0 : 0 ≤ (1 - x) ^ 2 * (2 * x + 1) := by positivity
    have a1 : (1 - x) ^ 2 * (2 * x + 1) ≤ 1 := by
      have := mul_nonneg (mul_nonneg h0 h0) (by linarith : 0 ≤ 3 - 2 * x)
      nlinarith [this]
    have b0 : 0 ≤ (3 * x ^ 3 - 6 * x ^ 2 + 4) / 6 := by
      have := mul_nonneg h0 h0
      have h3 : 0 ≤ x ^ 3 := by positivity
      nlinarith [mul_nonneg h0 (by linarith : 0 ≤ 1 - x), mul_nonneg h3 (by linarith : 0 ≤ 1 - x)]
    have b1 : (3 * x ^ 3 - 6 * x ^ 2 + 4) / 6 ≤ 1 := by
      have := mul_nonneg (mul_nonneg h0 h0) (by linarith : 0 ≤ 2 - x)
      nlinarith [this]
    have e : ((12 - 9 * b - 6 * 0) * x * x * x + (-18 + 12 * b + 6 * 0) * x * x + (6 - 2 * b)) * (1 / 6) =
        (1 - b) * ((1 - x) ^ 2 * (2 * x + 1)) + b * ((3 * x ^ 3 - 6 * x ^ 2 + 4) / 6) := by ring
    rw [e]
    have hb' : 0 ≤ 1 - b := by linarith
    constructor
    · exact add_nonneg (mul_nonneg hb' a0) (mul_nonneg hb b0)
    · nlinarith [mul_nonneg hb' (by linarith : 0 ≤ 1 - (1 - x) ^ 2 * (2 * x + 1)),
        mul_nonneg hb (by linarith : 0 ≤ 1 - (3 * x ^ 3 - 6 * x ^ 2 + 4) / 6)]

/-- **C81** (Mitchell): holds when the second parameter is 0 and the first is in [0,1]. -/
theorem C81_mitchell_partial (b : ℝ) (hb : 0 ≤ b) (hb1 : b ≤ 1) : InUnit (mitchell b 0) := by
  intro x y hx hy
  simp only [mitchell, mabs] at *
  have h1 := mitchell1_unit b |x| hb hb1 (abs_nonneg x) hx
  have h2 := mitchell1_unit b |y| hb hb1 (abs_nonneg y) hy
  exact prod_unit h1.1 h1.2 h2.1 h2.2

/-- **C81** is violated by every Mitchell filter with a positive second parameter (and `b < 3`): there is a
negative lobe near the border. -/
theorem C81_violated_mitchell (b c : ℝ) (hc : 0 < c) (hb : b < 3) : ¬ InUnit (mitchell b c) := by
  intro h
  have hd : 0 < |b| + 6 * c := by positivity
  obtain ⟨e, he⟩ : ∃ e, e = 3 * c / (|b| + 6 * c) := ⟨_, rfl⟩
  have hmul : e * (|b| + 6 * c) = 3 * c := by rw [he]; field_simp
  have he0 : 0 < e := by rw [he]; positivity
  have he1 : e ≤ 1 / 2 := by
    rw [he, div_le_iff₀ hd]; linarith [abs_nonneg b]
  have hx : |2 - e| = 2 - e := abs_of_pos (by linarith)
  have h1 := (h (2 - e) 0 (by rw [hx]; simp only [mitchell]; linarith) (by simp [mitchell])).1
  simp only [mitchell, mabs, hx, abs_zero] at h1
  rw [mitchell1_outer b c (2 - e) (by linarith)] at h1
  have i0 : mitchell1 b c 0 = (6 - 2 * b) / 6 := by
    unfold mitchell1; rw [if_neg (by norm_num)]; ring
  rw [i0] at h1
  have k : b * (2 - (2 - e)) - 6 * c * ((2 - e) - 1) < 0 := by
    have : b * e ≤ |b| * e := mul_le_mul_of_nonneg_right (le_abs_self b) he0.le
    nlinarith
  have q : 0 < (2 - (2 - e)) ^ 2 := by
    have : (2 - (2 - e)) = e := by ring
    rw [this]; positivity
  have n := mul_neg_of_neg_of_pos (div_neg_of_neg_of_pos (mul_neg_of_pos_of_neg q k)
    (by norm_num : (0 : ℝ) < 6)) (by linarith : 0 < (6 - 2 * b) / 6)
  linarith

/-- **C81** is violated by the default filter of the program, Mitchell with both parameters 0.33
(config_driver.cpp:34-38). -/
theorem C81_violated_default : ¬ InUnit (mitchell (33 / 100) (33 / 100)) :=
  C81_violated_mitchell _ _ (by norm_num) (by norm_num)

theorem sinc_le (z : ℝ) : |Real.sin z / z| ≤ 1 := by
  rcases eq_or_ne z 0 with rfl | h
  · simp
  · rw [abs_div, div_le_one (abs_pos.2 h)]
    exact (Real.abs_sin_lt_abs h).le

theorem lanczos1_abs (t x w : ℝ) (h : lanczos1 t x = some w) : |w| ≤ 1 := by
  simp only [lanczos1] at h
  split at h
  · cases h; simp
  split at h
  · cases h; simp
  split at h
  · cases h
  · cases h
    rw [abs_mul]
    exact mul_le_one₀ (sinc_le _) (abs_nonneg _) (sinc_le _)

/-- **C81** (Lanczos): the upper half. The full claim also has `0 ≤ w`, which is violated below. -/
theorem C81_lanczos_partial (t x y w : ℝ) (h : lanczos t x y = some w) : -1 ≤ w ∧ w ≤ 1 := by
  unfold lanczos at h
  cases hx : lanczos1 t x with
  | none => rw [hx] at h; cases h
  | some a =>
    cases hy : lanczos1 t y with
    | none => rw [hx, hy] at h; cases h
    | some b =>
      rw [hx, hy] at h
      cases h
      have : |a * b| ≤ 1 := by
        rw [abs_mul]
        exact mul_le_one₀ (lanczos1_abs t x a hx) (abs_nonneg _) (lanczos1_abs t y b hy)
      exact abs_le.1 this

/-- **C81** (Lanczos): the weight is a number whenever the parameter is not 0. -/
theorem C81_lanczos_defined (t x y : ℝ) (ht : t ≠ 0) : (lanczos t x y).isSome := by
  have k : ∀ z, ∃ w, lanczos1 t z = some w := by
    intro z
    simp only [lanczos1]
    split
    · exact ⟨_, rfl⟩
    · rename_i hz
      split
      · exact ⟨_, rfl⟩
      · rw [if_neg]
        · exact ⟨_, rfl⟩
        · have : 0 < |z * (1 / 4)| := by linarith [not_lt.1 hz]
          exact mul_ne_zero (mul_ne_zero this.ne' Real.pi_ne_zero) ht
  obtain ⟨a, ha⟩ := k x
  obtain ⟨b, hb⟩ := k y
  simp [lanczos, ha, hb]

/-- **C81** is violated by the Lanczos filter for tau = 2: the first side lobe is negative. -/
theorem C81_violated_lanczos : ∃ w, lanczos 2 3 0 = some w ∧ w < 0 := by
  have hpi := Real.pi_pos
  have e3 : |(3 : ℝ) * (1 / 4)| = 3 / 4 := by rw [abs_of_pos] <;> norm_num
  have hne : (3 / 4 * Real.pi * 2 : ℝ) ≠ 0 := by positivity
  have l3 : lanczos1 2 3 = some (Real.sin (3 / 4 * Real.pi * 2) / (3 / 4 * Real.pi * 2) *
      (Real.sin (3 / 4 * Real.pi) / (3 / 4 * Real.pi))) := by
    simp only [lanczos1, e3]
    rw [if_neg (by norm_num), if_neg (by norm_num), if_neg hne]
  have l0 : lanczos1 2 0 = some 1 := by
    simp only [lanczos1]
    rw [if_pos (by norm_num)]
  refine ⟨_, by rw [lanczos, l3, l0], ?_⟩
  have s1 : Real.sin (3 / 4 * Real.pi * 2) < 0 := by
    have : Real.sin (3 / 4 * Real.pi * 2) = - Real.sin (Real.pi / 2) := by
      rw [← Real.sin_add_pi]; congr 1; ring
    rw [this, Real.sin_pi_div_two]; norm_num
  have s2 : 0 < Real.sin (3 / 4 * Real.pi) :=
    Real.sin_pos_of_pos_of_lt_pi (by positivity) (by linarith)
  have d1 : (0 : ℝ) < 3 / 4 * Real.pi * 2 := by positivity
  have d2 : (0 : ℝ) < 3 / 4 * Real.pi := by positivity
  have := mul_neg_of_neg_of_pos (div_neg_of_neg_of_pos s1 d1) (div_pos s2 d2)
  linarith

/-- **C81.** A Lanczos filter with parameter 0 has undefined (NaN) weights at every pixel that is neither the
centre nor outside. -/
theorem C81_violated_lanczos_nan (x y : ℝ) (h : 1 / 100000 ≤ |x * (1 / 4)|) (h' : |x * (1 / 4)| ≤ 1) :
    lanczos 0 x y = none := by
  have : lanczos1 0 x = none := by
    simp only [lanczos1, mul_zero]
    rw [if_neg (not_lt.2 h), if_neg (not_lt.2 h'), if_pos trivial]
  rw [lanczos, this]

/-! ### C82 -/

/-- The filter treats the four quadrants and the two axes alike. -/
def Symmetric (f : Filter) : Prop :=
  f.rx = f.ry ∧ ∀ x y, f.weight (-x) y = f.weight x y ∧ f.weight x y = f.weight y x

/-- **C82.** Every filter is symmetric. -/
theorem C82_symmetric (a b c : ℝ) :
    Symmetric box ∧ Symmetric tent ∧ Symmetric (gaussian a) ∧ Symmetric (mitchell b c) := by
  refine ⟨⟨rfl, fun x y => ⟨rfl, rfl⟩⟩, ⟨rfl, fun x y => ⟨?_, ?_⟩⟩, ⟨rfl, fun x y => ⟨?_, ?_⟩⟩,
    ⟨rfl, fun x y => ⟨?_, ?_⟩⟩⟩
  · simp only [tent, abs_neg]
  · simp only [tent]; ring
  · simp only [gaussian]; congr 4; ring
  · simp only [gaussian]; ring
  · simp only [mitchell, neg_mul, abs_neg]
  · simp only [mitchell]; ring

/-- **C82.** The Lanczos filter is symmetric. -/
theorem C82_symmetric_lanczos (t x y : ℝ) :
    lanczos t (-x) y = lanczos t x y ∧ lanczos t x y = lanczos t y x := by
  constructor
  · simp only [lanczos, lanczos1, neg_mul, abs_neg]
  · simp only [lanczos]
    cases lanczos1 t x <;> cases lanczos1 t y <;> simp [mul_comm]

theorem mitchell1_two (b c : ℝ) : mitchell1 b c 2 = 0 := by
  unfold mitchell1
  rw [if_pos (by norm_num)]; ring

/-- **C82.** The weight vanishes on the border of the range, so that a sample moving out of the range
fades out: tent, gaussian, Mitchell. -/
theorem C82_border (a b c y : ℝ) :
    tent.weight tent.rx y = 0 ∧ (gaussian a).weight (gaussian a).rx y = 0 ∧
    (mitchell b c).weight (mitchell b c).rx y = 0 := by
  refine ⟨?_, ?_, ?_⟩
  · simp [tent]
  · simp [gaussian]
  · simp only [mitchell]
    have : |(2 : ℝ) * (1 / 2) * 2| = 2 := by norm_num
    rw [this, mitchell1_two, zero_mul]

/-- **C82.** The Lanczos weight vanishes on the border of the range whenever it is defined. -/
theorem C82_border_lanczos (t : ℝ) (ht : t ≠ 0) : lanczos1 t 4 = some 0 := by
  have e : |(4 : ℝ) * (1 / 4)| = 1 := by norm_num
  have hne : (1 : ℝ) * Real.pi * t ≠ 0 := mul_ne_zero (by simp [Real.pi_ne_zero]) ht
  simp only [lanczos1, e]
  rw [if_neg (by norm_num), if_neg (by norm_num), if_neg hne]
  simp

/-- **C82.** The Lanczos weight is 0 at every offset outside of the range and on its border. -/
theorem C82_outside_lanczos (t x y : ℝ) (ht : t ≠ 0) (hx : 4 ≤ |x|) : lanczos t x y = some 0 := by
  have r : |x * (1 / 4)| = |x| / 4 := by rw [abs_mul]; norm_num; ring
  have lx : lanczos1 t x = some 0 := by
    rcases eq_or_lt_of_le hx with e | l
    · rw [← C82_border_lanczos t ht]
      simp only [lanczos1, r, ← e]; norm_num
    · simp only [lanczos1, r]
      rw [if_neg (by linarith), if_pos (by linarith)]
  obtain ⟨w, hw⟩ := Option.isSome_iff_exists.1 (C81_lanczos_defined t x y ht)
  rw [lanczos, lx] at hw ⊢
  cases ly : lanczos1 t y with
  | none => rw [ly] at hw; cases hw
  | some b => simp

/-- **C82.** The pieces of the Mitchell filter join with equal value: the filter is continuous. -/
theorem C82_mitchell_continuous (b c : ℝ) : Continuous (mitchell1 b c) := by
  have e : mitchell1 b c = fun x => if x ≤ 1 then
      ((12 - 9 * b - 6 * c) * x * x * x + (-18 + 12 * b + 6 * c) * x * x + (6 - 2 * b)) * (1 / 6)
    else ((-b - 6 * c) * x * x * x + (6 * b + 30 * c) * x * x + (-12 * b - 48 * c) * x + (8 * b + 24 * c)) * (1 / 6) := by
    funext x
    unfold mitchell1
    by_cases h : 1 < x
    · rw [if_pos h, if_neg (not_le.2 h)]
    · rw [if_neg h, if_pos (not_lt.1 h)]
  rw [e]
  refine Continuous.if_le (by fun_prop) (by fun_prop) continuous_id continuous_const ?_
  intro x hx
  have hx : x = 1 := hx
  subst hx; ring

/-- The weights of the four pixels of a row around a sample at distance `t` from one of them. -/
def rowSum (f : ℝ → ℝ) (t : ℝ) : ℝ := f |t + 1| + f |t| + f |t - 1| + f |t - 2|

/-- **C82.** Partition of unity: whatever the parameters and wherever the sample is, the Mitchell weights
given to the 16 pixels around it sum to 1. -/
theorem C82_mitchell_unity (b c t u : ℝ) (h0 : 0 ≤ t) (h1 : t < 1) (h2 : 0 ≤ u) (h3 : u < 1) :
    rowSum (fun x => rowSum (fun y => (mitchell b c).weight x y) u) t = 1 := by
  have row : ∀ s, 0 ≤ s → s < 1 → rowSum (mitchell1 b c) s = 1 := by
    intro s a d
    have e1 : |s + 1| = 1 + s := by rw [abs_of_nonneg] <;> linarith
    have e2 : |s| = s := abs_of_nonneg a
    have e3 : |s - 1| = 1 - s := by rw [abs_of_neg] <;> linarith
    have e4 : |s - 2| = 2 - s := by rw [abs_of_neg] <;> linarith
    have i2 : mitchell1 b c s =
        ((12 - 9 * b - 6 * c) * s * s * s + (-18 + 12 * b + 6 * c) * s * s + (6 - 2 * b)) * (1 / 6) := by
      unfold mitchell1; rw [if_neg (by linarith)]
    have i3 : mitchell1 b c (1 - s) = ((12 - 9 * b - 6 * c) * (1 - s) * (1 - s) * (1 - s) +
        (-18 + 12 * b + 6 * c) * (1 - s) * (1 - s) + (6 - 2 * b)) * (1 / 6) := by
      unfold mitchell1; rw [if_neg (by linarith)]
    have i4 := mitchell1_outer b c (2 - s) (by linarith)
    have i1 : mitchell1 b c (1 + s) = (2 - (1 + s)) ^ 2 * (b * (2 - (1 + s)) - 6 * c * ((1 + s) - 1)) / 6 := by
      rcases eq_or_lt_of_le a with e | e
      · subst e; unfold mitchell1; rw [if_neg (by norm_num)]; ring
      · exact mitchell1_outer b c (1 + s) (by linarith)
    simp only [rowSum, e1, e2, e3, e4]
    rw [i1, i2, i3, i4]; ring
  have rt := row t h0 h1
  have ru := row u h2 h3
  simp only [rowSum] at rt ru ⊢
  simp only [mitchell, mabs, abs_abs]
  calc _ = (mitchell1 b c |t + 1| + mitchell1 b c |t| + mitchell1 b c |t - 1| + mitchell1 b c |t - 2|) *
      (mitchell1 b c |u + 1| + mitchell1 b c |u| + mitchell1 b c |u - 1| + mitchell1 b c |u - 2|) := by ring
    _ = 1 := by rw [rt, ru, one_mul]

/-- **C82.** The tent weights of the 16 pixels sum to 4, wherever the sample is. -/
theorem C82_tent_constant (t u : ℝ) (h0 : 0 ≤ t) (h1 : t < 1) (h2 : 0 ≤ u) (h3 : u < 1) :
    rowSum (fun x => rowSum (fun y => tent.weight x y) u) t = 4 := by
  have row : ∀ s : ℝ, 0 ≤ s → s < 1 → rowSum (fun x => max 0 (2 - |x|) / 2) s = 2 := by
    intro s a d
    have e1 : |s + 1| = 1 + s := by rw [abs_of_nonneg] <;> linarith
    have e2 : |s| = s := abs_of_nonneg a
    have e3 : |s - 1| = 1 - s := by rw [abs_of_neg] <;> linarith
    have e4 : |s - 2| = 2 - s := by rw [abs_of_neg] <;> linarith
    simp only [rowSum, abs_abs]
    rw [e1, e2, e3, e4]
    rw [max_eq_right (by linarith), max_eq_right (by linarith), max_eq_right (by linarith),
      max_eq_right (by linarith)]
    ring
  have rt := row t h0 h1
  have ru := row u h2 h3
  simp only [rowSum, abs_abs] at rt ru ⊢
  simp only [tent, abs_abs]
  calc _ = (max 0 (2 - |t + 1|) / 2 + max 0 (2 - |t|) / 2 + max 0 (2 - |t - 1|) / 2 + max 0 (2 - |t - 2|) / 2) *
      (max 0 (2 - |u + 1|) / 2 + max 0 (2 - |u|) / 2 + max 0 (2 - |u - 1|) / 2 + max 0 (2 - |u - 2|) / 2) := by ring
    _ = 4 := by rw [rt, ru]; norm_num

example : InUnit (mitchell 1 0) ∧ InUnit (gaussian 2) :=
  ⟨C81_mitchell_partial 1 (by norm_num) (by norm_num), C81_gaussian_partial 2 (by norm_num)⟩

example : lanczos 0 2 1 = none :=
  C81_violated_lanczos_nan 2 1 (by rw [abs_of_pos] <;> norm_num) (by rw [abs_of_pos] <;> norm_num)

example : (lanczos 3 1 1).isSome ∧ lanczos1 3 4 = some 0 ∧ lanczos 3 (-5) 1 = some 0 :=
  ⟨C81_lanczos_defined 3 1 1 (by norm_num), C82_border_lanczos 3 (by norm_num),
    C82_outside_lanczos 3 (-5) 1 (by norm_num) (by norm_num)⟩

example : rowSum (fun x => rowSum (fun y => tent.weight x y) (1 / 4)) 0 = 4 :=
  C82_tent_constant _ _ (by norm_num) (by norm_num) (by norm_num) (by norm_num)

example : rowSum (fun x => rowSum (fun y => (mitchell (1 / 3) (1 / 3)).weight x y) (1 / 4)) (1 / 2) = 1 :=
  C82_mitchell_unity _ _ _ _ (by norm_num) (by norm_num) (by norm_num) (by norm_num)

end Spectre.Filters
