import Verif.Model.OrenNayar
import Mathlib.Tactic.Linarith
import Mathlib.Tactic.Positivity
import Mathlib.Tactic.FieldSimp
import Mathlib.Tactic.LinearCombination

/-
Property C97: the rough diffuse reflection is the model of Oren and Nayar.
-/

namespace Spectre.OrenNayar

open Spectre.Geom Spectre.Specular

/-! ### Specification -/

/-- Cosine of the difference of the azimuths of two directions: the angle of their projections. -/
noncomputable def azimuth (v w : V3 ℝ) : ℝ :=
  (v.x * w.x + v.y * w.y) / (Real.sqrt (v.x ^ 2 + v.y ^ 2) * Real.sqrt (w.x ^ 2 + w.y ^ 2))

/-- Sine of the angle with the normal. -/
noncomputable def sinOf (v : V3 ℝ) : ℝ := Real.sqrt (v.x ^ 2 + v.y ^ 2)

/-- The simplified model of Oren and Nayar: `(A + B max(0, cos Δφ) sin α tan β)/π` with `α` the larger and
`β` the smaller of the angles with the normal. -/
noncomputable def model (A B : ℝ) (v w : V3 ℝ) : ℝ :=
  (A + B * max 0 (azimuth v w) * max (sinOf v) (sinOf w) * min (sinOf v / |v.z|) (sinOf w / |w.z|)) / Real.pi

/-! ### Coefficients -/

/-- **C97.** The coefficients stay in their ranges for every roughness. -/
theorem C97_coefficients (s : ℝ) :
    1 / 2 < coeffA s ∧ coeffA s ≤ 1 ∧ 0 ≤ coeffB s ∧ coeffB s < 45 / 100 := by
  have h := mul_self_nonneg s
  simp only [coeffA, coeffB]
  generalize s * s = q at h
  have d : 0 < 2 * (q + 33 / 100) := by linarith
  refine ⟨?_, ?_, by positivity, ?_⟩
  · have : q / (2 * (q + 33 / 100)) < 1 / 2 := by rw [div_lt_div_iff₀ d (by norm_num)]; linarith
    linarith
  · have : 0 ≤ q / (2 * (q + 33 / 100)) := by positivity
    linarith
  · rw [div_lt_iff₀ (by linarith)]; linarith

/-- **C97.** A rougher surface has smaller `A` and larger `B`. -/
theorem C97_monotone (s t : ℝ) (h0 : 0 ≤ s) (h : s < t) : coeffA t < coeffA s ∧ coeffB s < coeffB t := by
  have q : s * s < t * t := by nlinarith
  have p := mul_self_nonneg s
  simp only [coeffA, coeffB]
  generalize s * s = a at *
  generalize t * t = b at *
  constructor
  · have : a / (2 * (a + 33 / 100)) < b / (2 * (b + 33 / 100)) := by
      rw [div_lt_div_iff₀ (by linarith) (by linarith)]; nlinarith
    linarith
  · rw [div_lt_div_iff₀ (by linarith) (by linarith)]; nlinarith

/-! ### Value -/

theorem sine_nonneg (c : ℝ) : 0 ≤ sine c := Real.sqrt_nonneg _

theorem sine_unit (v : V3 ℝ) (h : dot v v = 1) : sine v.z = sinOf v := by
  simp only [dot] at h
  have e : 1 - v.z * v.z = v.x ^ 2 + v.y ^ 2 := by linear_combination (-1 : ℝ) * h
  rw [sine, sinOf, e, max_eq_right (by positivity)]

theorem maxcos_nonneg (v w : V3 ℝ) : 0 ≤ maxcos v w := le_max_left _ _

theorem maxcos_comm (v w : V3 ℝ) : maxcos v w = maxcos w v := by
  simp only [maxcos]; congr 1; ring

/-- The value is undefined exactly if both directions are grazing. -/
theorem C97_defined (s : ℝ) (v w : V3 ℝ) : value s v w = none ↔ v.z = 0 ∧ w.z = 0 := by
  unfold value
  simp only
  constructor
  · intro h
    split at h
    · split at h
      · rename_i l
        rw [Option.map_eq_none_iff, sdiv] at h
        split at h
        · rename_i z; rw [z] at l; exact absurd l (not_lt.2 (abs_nonneg _))
        · cases h
      · rename_i l
        rw [Option.map_eq_none_iff, sdiv] at h
        split at h
        · rename_i z
          rw [z] at l
          exact ⟨abs_eq_zero.1 z, abs_eq_zero.1 (le_antisymm (not_lt.1 l) (abs_nonneg _))⟩
        · cases h
    · cases h
  · rintro ⟨hv, hw⟩
    simp [hv, hw, sine, sdiv]

/-- **C97.** Reciprocal: the directions can be exchanged. -/
theorem C97_symmetric (s : ℝ) (v w : V3 ℝ) : value s v w = value s w v := by
  unfold value
  simp only [maxcos_comm v w]
  by_cases c : 0 < sine w.z ∧ 0 < sine v.z
  · rw [if_pos c, if_pos c.symm]
    rcases lt_trichotomy |v.z| |w.z| with l | e | l
    · rw [if_pos l, if_neg (not_lt.2 l.le)]
    · rw [if_neg (by rw [e]; exact lt_irrefl _), if_neg (by rw [e]; exact lt_irrefl _), e]
      have : sine v.z = sine w.z := by
        simp only [sine, ← abs_mul_abs_self v.z, e, abs_mul_abs_self]
      rw [this]
    · rw [if_neg (not_lt.2 l.le), if_pos l]
  · rw [if_neg c, if_neg (fun h => c h.symm)]

/-- **C97.** Never negative, in fact never below `A/π`. -/
theorem C97_lower (s : ℝ) (v w : V3 ℝ) (x : ℝ) (h : value s v w = some x) : coeffA s / Real.pi ≤ x ∧ 0 < x := by
  obtain ⟨a0, _, b0, _⟩ := C97_coefficients s
  have hp := Real.pi_pos
  have base : 0 < coeffA s / Real.pi := by have : 0 < coeffA s := by linarith
                                           positivity
  suffices k : coeffA s / Real.pi ≤ x from ⟨k, lt_of_lt_of_le base k⟩
  have key : ∀ a b : ℝ, 0 ≤ a → 0 ≤ b →
      coeffA s / Real.pi ≤ 1 / Real.pi * (coeffA s + coeffB s * maxcos v w * a * b) := by
    intro a b ha hb
    rw [one_div_mul_eq_div]
    have := maxcos_nonneg v w
    have q : 0 ≤ coeffB s * maxcos v w * a * b := by positivity
    gcongr
    linarith
  unfold value at h
  simp only at h
  split at h
  · split at h
    · simp only [Option.map_eq_some_iff] at h
      obtain ⟨t, ht, rfl⟩ := h
      refine key _ _ (sine_nonneg _) ?_
      simp only [sdiv] at ht
      split at ht
      · cases ht
      · cases ht; exact div_nonneg (sine_nonneg _) (abs_nonneg _)
    · simp only [Option.map_eq_some_iff] at h
      obtain ⟨t, ht, rfl⟩ := h
      refine key _ _ (sine_nonneg _) ?_
      simp only [sdiv] at ht
      split at ht
      · cases ht
      · cases ht; exact div_nonneg (sine_nonneg _) (abs_nonneg _)
  · cases h; rw [one_div_mul_eq_div]

/-- **C97.** Without roughness it is the perfectly diffuse reflection `1/π`. -/
theorem C97_smooth (v w : V3 ℝ) (h : v.z ≠ 0 ∨ w.z ≠ 0) : value 0 v w = some (1 / Real.pi) := by
  cases e : value 0 v w with
  | none => have := (C97_defined 0 v w).1 e; tauto
  | some x =>
    have a : coeffA 0 = 1 := by simp [coeffA]
    have b : coeffB 0 = 0 := by simp [coeffB]
    unfold value at e
    simp only [a, b, zero_mul, add_zero, mul_one] at e
    split at e
    · split at e
      · simp only [Option.map_eq_some_iff] at e; obtain ⟨_, _, rfl⟩ := e; rfl
      · simp only [Option.map_eq_some_iff] at e; obtain ⟨_, _, rfl⟩ := e; rfl
    · cases e; rfl

/-- The azimuths of the code: the sines lose their sign. -/
theorem maxcos_unit (v w : V3 ℝ) (hv : dot v v = 1) (hw : dot w w = 1) (pv : 0 < sinOf v) (pw : 0 < sinOf w) :
    maxcos v w = max 0 ((v.x * w.x + |v.y| * |w.y|) / (sinOf v * sinOf w)) := by
  have one : ∀ u : V3 ℝ, dot u u = 1 → 0 < sinOf u →
      clamp1 (u.x / sine u.z) = u.x / sinOf u ∧
      max 0 (Real.sqrt (1 - u.x / sinOf u * (u.x / sinOf u))) = |u.y| / sinOf u := by
    intro u hu pu
    have sq : sinOf u ^ 2 = u.x ^ 2 + u.y ^ 2 := Real.sq_sqrt (by positivity)
    have ax : |u.x| ≤ sinOf u := by
      rw [← Real.sqrt_sq_eq_abs]; exact Real.sqrt_le_sqrt (by nlinarith [sq_nonneg u.y])
    obtain ⟨l, r⟩ := abs_le.1 ax
    constructor
    · rw [sine_unit u hu, clamp1]
      have h1 : ¬ u.x / sinOf u < -1 := by rw [not_lt, le_div_iff₀ pu]; linarith
      have h2 : ¬ 1 < u.x / sinOf u := by rw [not_lt, div_le_iff₀ pu]; linarith
      rw [if_neg h1, if_neg h2]
    · rw [max_eq_right (Real.sqrt_nonneg _)]
      have e : 1 - u.x / sinOf u * (u.x / sinOf u) = (|u.y| / sinOf u) ^ 2 := by
        rw [div_pow, sq_abs, div_mul_div_comm, ← pow_two, ← pow_two, eq_div_iff (by positivity), sub_mul,
          div_mul_cancel₀ _ (by positivity), sq]
        ring
      rw [e, Real.sqrt_sq (by positivity)]
  obtain ⟨c1, s1⟩ := one v hv pv
  obtain ⟨c2, s2⟩ := one w hw pw
  simp only [maxcos, c1, c2, s1, s2]
  congr 1
  field_simp

theorem value_eq (s : ℝ) (v w : V3 ℝ) (hv : dot v v = 1) (hw : dot w w = 1) (zv : v.z ≠ 0) (zw : w.z ≠ 0)
    (pv : 0 < sinOf v) (pw : 0 < sinOf w) :
    value s v w = some ((coeffA s + coeffB s * maxcos v w * max (sinOf v) (sinOf w) *
      min (sinOf v / |v.z|) (sinOf w / |w.z|)) / Real.pi) := by
  have av : 0 < |v.z| := abs_pos.2 zv
  have aw : 0 < |w.z| := abs_pos.2 zw
  have mono : ∀ a b : V3 ℝ, dot a a = 1 → dot b b = 1 → |a.z| ≤ |b.z| → sinOf b ≤ sinOf a := by
    intro a b ha hb l
    simp only [dot] at ha hb
    apply Real.sqrt_le_sqrt
    have := sq_le_sq' (by linarith [abs_nonneg a.z, abs_nonneg b.z]) l
    rw [sq_abs, sq_abs] at this
    nlinarith
  unfold value
  simp only [sine_unit v hv, sine_unit w hw]
  rw [if_pos ⟨pw, pv⟩]
  split
  · rename_i l
    have m := mono v w hv hw l.le
    have t : sinOf w / |w.z| ≤ sinOf v / |v.z| := div_le_div₀ pv.le m av l.le
    rw [sdiv_some' aw.ne', max_eq_left m, min_eq_right t]
    simp only [Option.map_some, Option.some.injEq]; ring
  · rename_i l
    have m := mono w v hw hv (not_lt.1 l)
    have t : sinOf v / |v.z| ≤ sinOf w / |w.z| := div_le_div₀ pw.le m aw (not_lt.1 l)
    rw [sdiv_some' av.ne', max_eq_right m, min_eq_left t]
    simp only [Option.map_some, Option.some.injEq]; ring
where
  sdiv_some' {a b : ℝ} (h : b ≠ 0) : sdiv a b = some (a / b) := if_neg h

/-- **C97.** The coefficients are those published by Oren and Nayar, at every roughness. -/
theorem C97_published (s : ℝ) :
    (1 - coeffA s) * (s ^ 2 + 0.33) = 0.5 * s ^ 2 ∧ coeffB s * (s ^ 2 + 0.09) = 0.45 * s ^ 2 := by
  have p := sq_nonneg s
  simp only [coeffA, coeffB, ← pow_two]
  generalize s ^ 2 = q at *
  have h1 : q + 33 / 100 ≠ 0 := by linarith
  have h2 : q + 9 / 100 ≠ 0 := by linarith
  constructor
  · norm_num; field_simp
  · norm_num; field_simp

/-- **C97.** For unit directions whose y components do not have opposite signs the value is the model. -/
theorem C97_model_partial (s : ℝ) (v w : V3 ℝ) (hv : dot v v = 1) (hw : dot w w = 1) (zv : v.z ≠ 0) (zw : w.z ≠ 0)
    (hy : 0 ≤ v.y * w.y) : value s v w = some (model (coeffA s) (coeffB s) v w) := by
  have nn : ∀ u : V3 ℝ, 0 ≤ sinOf u := fun u => Real.sqrt_nonneg _
  rcases eq_or_lt_of_le (nn v) with ev | pv
  · have : value s v w = some (1 / Real.pi * coeffA s) := by
      unfold value; simp only; rw [if_neg]; rw [sine_unit v hv, ← ev]; simp
    rw [this, model]
    have az : azimuth v w = 0 := by
      have : Real.sqrt (v.x ^ 2 + v.y ^ 2) = 0 := ev.symm
      rw [azimuth, this]; simp
    rw [az]; simp [div_eq_inv_mul]
  rcases eq_or_lt_of_le (nn w) with ew | pw
  · have : value s v w = some (1 / Real.pi * coeffA s) := by
      unfold value; simp only; rw [if_neg]; rw [sine_unit w hw, ← ew]; simp
    rw [this, model]
    have az : azimuth v w = 0 := by
      have : Real.sqrt (w.x ^ 2 + w.y ^ 2) = 0 := ew.symm
      rw [azimuth, this]; simp
    rw [az]; simp [div_eq_inv_mul]
  rw [value_eq s v w hv hw zv zw pv pw, maxcos_unit v w hv hw pv pw, ← abs_mul, abs_of_nonneg hy]
  rfl

/-- **C97.** In general the value is never below the model: the reflection is at least as bright. -/
theorem C97_brighter_partial (s : ℝ) (v w : V3 ℝ) (hv : dot v v = 1) (hw : dot w w = 1) (zv : v.z ≠ 0)
    (zw : w.z ≠ 0) : ∃ x, value s v w = some x ∧ model (coeffA s) (coeffB s) v w ≤ x := by
  have nn : ∀ u : V3 ℝ, 0 ≤ sinOf u := fun u => Real.sqrt_nonneg _
  by_cases hy : 0 ≤ v.y * w.y
  · exact ⟨_, C97_model_partial s v w hv hw zv zw hy, le_rfl⟩
  push Not at hy
  have pos : ∀ u : V3 ℝ, u.y ≠ 0 → 0 < sinOf u := fun u h => Real.sqrt_pos.2 (by positivity)
  have pv := pos v (by rintro e; rw [e] at hy; simp at hy)
  have pw := pos w (by rintro e; rw [e] at hy; simp at hy)
  refine ⟨_, value_eq s v w hv hw zv zw pv pw, ?_⟩
  rw [maxcos_unit v w hv hw pv pw, model]
  obtain ⟨_, _, b0, _⟩ := C97_coefficients s
  have az : azimuth v w ≤ (v.x * w.x + |v.y| * |w.y|) / (sinOf v * sinOf w) := by
    rw [azimuth]
    change _ / (sinOf v * sinOf w) ≤ _
    rw [← abs_mul]
    gcongr
    exact le_abs_self _
  have m : 0 ≤ min (sinOf v / |v.z|) (sinOf w / |w.z|) :=
    le_min (div_nonneg (nn v) (abs_nonneg _)) (div_nonneg (nn w) (abs_nonneg _))
  have M : 0 ≤ max (sinOf v) (sinOf w) := le_trans (nn v) (le_max_left _ _)
  have hp := Real.pi_pos
  gcongr

/-- **C97** is violated by directions with y components of opposite signs: light falling at 45 degrees along
the y axis and seen from the opposite side is treated as if it was seen along its own direction. -/
theorem C97_violated_azimuth (s : ℝ) (hs : s ≠ 0) :
    value s ⟨0, 4 / 5, 3 / 5⟩ ⟨0, -4 / 5, 3 / 5⟩ = value s ⟨0, 4 / 5, 3 / 5⟩ ⟨0, 4 / 5, 3 / 5⟩ ∧
    value s ⟨0, 4 / 5, 3 / 5⟩ ⟨0, -4 / 5, 3 / 5⟩ ≠
      some (model (coeffA s) (coeffB s) ⟨0, 4 / 5, 3 / 5⟩ ⟨0, -4 / 5, 3 / 5⟩) ∧
    model (coeffA s) (coeffB s) ⟨0, 4 / 5, 3 / 5⟩ ⟨0, -4 / 5, 3 / 5⟩ = coeffA s / Real.pi := by
  have e1 : sinOf ⟨0, 4 / 5, 3 / 5⟩ = 4 / 5 := by
    rw [sinOf, show (0 : ℝ) ^ 2 + (4 / 5) ^ 2 = (4 / 5) ^ 2 by norm_num]; exact Real.sqrt_sq (by norm_num)
  have e2 : sinOf ⟨0, -4 / 5, 3 / 5⟩ = 4 / 5 := by
    rw [sinOf, show (0 : ℝ) ^ 2 + (-4 / 5) ^ 2 = (4 / 5) ^ 2 by norm_num]; exact Real.sqrt_sq (by norm_num)
  have u1 : dot (⟨0, 4 / 5, 3 / 5⟩ : V3 ℝ) ⟨0, 4 / 5, 3 / 5⟩ = 1 := by norm_num [dot]
  have u2 : dot (⟨0, -4 / 5, 3 / 5⟩ : V3 ℝ) ⟨0, -4 / 5, 3 / 5⟩ = 1 := by norm_num [dot]
  have p1 : 0 < sinOf ⟨0, 4 / 5, 3 / 5⟩ := by rw [e1]; norm_num
  have p2 : 0 < sinOf ⟨0, -4 / 5, 3 / 5⟩ := by rw [e2]; norm_num
  have z : (3 / 5 : ℝ) ≠ 0 := by norm_num
  have m1 := maxcos_unit _ _ u1 u2 p1 p2
  have m2 := maxcos_unit _ _ u1 u1 p1 p1
  have n1 : maxcos ⟨0, 4 / 5, 3 / 5⟩ ⟨0, -4 / 5, 3 / 5⟩ = 1 := by
    rw [m1, e1, e2]; norm_num [abs_of_pos, abs_of_neg]
  have n2 : maxcos ⟨0, 4 / 5, 3 / 5⟩ ⟨0, 4 / 5, 3 / 5⟩ = 1 := by
    rw [m2, e1]; norm_num [abs_of_pos]
  have M : model (coeffA s) (coeffB s) ⟨0, 4 / 5, 3 / 5⟩ ⟨0, -4 / 5, 3 / 5⟩ = coeffA s / Real.pi := by
    have : azimuth ⟨0, 4 / 5, 3 / 5⟩ ⟨0, -4 / 5, 3 / 5⟩ = -1 := by
      have : azimuth ⟨0, 4 / 5, 3 / 5⟩ ⟨0, -4 / 5, 3 / 5⟩ = (0 * 0 + 4 / 5 * (-4 / 5)) /
        (sinOf ⟨0, 4 / 5, 3 / 5⟩ * sinOf ⟨0, -4 / 5, 3 / 5⟩) := rfl
      rw [this, e1, e2]; norm_num
    rw [model, this]; norm_num
  have B : 0 < coeffB s := by
    have := mul_self_pos.2 hs
    simp only [coeffB]; positivity
  have hp := Real.pi_pos
  refine ⟨?_, ?_, M⟩
  · rw [value_eq s _ _ u1 u2 z z p1 p2, value_eq s _ _ u1 u1 z z p1 p1, n1, n2, e1, e2]
  · rw [M, value_eq s _ _ u1 u2 z z p1 p2, n1, e1, e2, abs_of_pos (by norm_num)]
    intro h
    rw [Option.some.injEq, div_left_inj' hp.ne', max_self, min_self] at h
    nlinarith

-- Directions on the same side along y satisfy the hypotheses of the theorem.
example : value (1 / 2) ⟨3 / 5, 0, 4 / 5⟩ ⟨0, 4 / 5, 3 / 5⟩ =
    some (model (coeffA (1 / 2)) (coeffB (1 / 2)) ⟨3 / 5, 0, 4 / 5⟩ ⟨0, 4 / 5, 3 / 5⟩) :=
  C97_model_partial _ _ _ (by norm_num [dot]) (by norm_num [dot]) (by norm_num) (by norm_num) (by norm_num)

end Spectre.OrenNayar
