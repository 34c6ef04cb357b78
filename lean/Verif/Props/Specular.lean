import Verif.Model.Specular
import Mathlib.Tactic.Linarith
import Mathlib.Tactic.NormNum
import Mathlib.Tactic.Positivity
import Mathlib.Tactic.Ring
import Mathlib.Tactic.FieldSimp
import Mathlib.Tactic.LinearCombination

/-
Properties C83 (Fresnel reflectance), C84 (specular reflection), C85 (specular refraction).
-/

namespace Spectre.Specular

open Spectre.Geom

/-! ### Specification -/

/-- Reflectance of an interface between two dielectrics of index `ni` (incident side) and `nt`; `ci` and
`ct` are the cosines of incident and transmitted ray: the mean over the two polarisations. -/
noncomputable def fresnelSpec (ni nt ci ct : ℝ) : ℝ :=
  (((ni * ci - nt * ct) / (ni * ci + nt * ct)) ^ 2 + ((nt * ci - ni * ct) / (nt * ci + ni * ct)) ^ 2) / 2

/-- Snell's law for the cosines: `ni sin θi = nt sin θt`, squared. -/
def Snell (ni nt ci ct : ℝ) : Prop := ni ^ 2 * (1 - ci ^ 2) = nt ^ 2 * (1 - ct ^ 2)

theorem sdiv_some {a b : ℝ} (h : b ≠ 0) : sdiv a b = some (a / b) := if_neg h

theorem part_spec (ei et ci ct : ℝ) (h1 : 0 < ei) (h2 : 0 < et) (hc : 0 ≤ ci) (ht : 0 ≤ ct) (h : 0 < ci + ct) :
    fresnelPart ei et ci ct = some (fresnelSpec ei et ci ct) := by
  have d : ∀ a b : ℝ, 0 < a → 0 < b → a * ci + b * ct ≠ 0 := by
    intro a b ha hb
    have u := mul_nonneg ha.le hc
    have v := mul_nonneg hb.le ht
    rcases eq_or_lt_of_le hc with e | e
    · have w := mul_pos hb (by linarith : 0 < ct)
      exact (by linarith : 0 < a * ci + b * ct).ne'
    · have w := mul_pos ha e
      exact (by linarith : 0 < a * ci + b * ct).ne'
  simp only [fresnelPart, sdiv_some (d ei et h1 h2), sdiv_some (d et ei h2 h1), fresnelSpec,
    Option.bind_eq_bind, Option.bind_some]
  congr 1; ring

theorem sq_quot_le (a b : ℝ) (ha : 0 ≤ a) (hb : 0 ≤ b) : ((a - b) / (a + b)) ^ 2 ≤ 1 := by
  rcases eq_or_lt_of_le (add_nonneg ha hb) with e | e
  · rw [← e]; simp
  · rw [div_pow, div_le_one (by positivity)]
    nlinarith [mul_nonneg ha hb]

theorem spec_unit (ni nt ci ct : ℝ) (h1 : 0 < ni) (h2 : 0 < nt) (hc : 0 ≤ ci) (ht : 0 ≤ ct) :
    0 ≤ fresnelSpec ni nt ci ct ∧ fresnelSpec ni nt ci ct ≤ 1 := by
  unfold fresnelSpec
  have a := sq_quot_le (ni * ci) (nt * ct) (by positivity) (by positivity)
  have b := sq_quot_le (nt * ci) (ni * ct) (by positivity) (by positivity)
  constructor
  · positivity
  · linarith

/-! ### C83 -/

/-- **C83** (conductors): for every metal and every non-negative cosine the reflectance is a number in [0,1];
at normal incidence it is `((n-1)²+k²)/((n+1)²+k²)` and at grazing incidence 1. -/
theorem C83_conductor_partial (n k c : ℝ) (hn : 0 < n) (hc : 0 ≤ c) :
    ∃ r, conductor n k c = some r ∧ 0 ≤ r ∧ r ≤ 1 ∧
      (c = 1 → r = ((n - 1) ^ 2 + k ^ 2) / ((n + 1) ^ 2 + k ^ 2)) ∧ (c = 0 → r = 1) := by
  have hk := mul_self_nonneg k
  have d1 : 0 < n * n + k * k + n * (c * 2) + c * c := by positivity
  have d2 : 0 < (n * n + k * k) * (c * c) + n * (c * 2) + 1 := by positivity
  have n1 : 0 ≤ n * n + k * k - n * (c * 2) + c * c := by nlinarith [sq_nonneg (n - c)]
  have n2 : 0 ≤ (n * n + k * k) * (c * c) - n * (c * 2) + 1 := by
    nlinarith [sq_nonneg (n * c - 1), mul_nonneg hk (mul_self_nonneg c)]
  have q := mul_nonneg hn.le hc
  refine ⟨_, by
    simp only [conductor, sdiv_some d1.ne', sdiv_some d2.ne', Option.bind_eq_bind, Option.bind_some]; rfl,
    ?_, ?_, ?_, ?_⟩
  · positivity
  · have a : (n * n + k * k - n * (c * 2) + c * c) / (n * n + k * k + n * (c * 2) + c * c) ≤ 1 := by
      rw [div_le_one d1]; linarith
    have b : ((n * n + k * k) * (c * c) - n * (c * 2) + 1) / ((n * n + k * k) * (c * c) + n * (c * 2) + 1) ≤ 1 := by
      rw [div_le_one d2]; linarith
    linarith
  · rintro rfl
    have e : n * n + k * k - n * (1 * 2) + 1 * 1 = (n - 1) ^ 2 + k ^ 2 := by ring
    have e' : n * n + k * k + n * (1 * 2) + 1 * 1 = (n + 1) ^ 2 + k ^ 2 := by ring
    have e2 : (n * n + k * k) * (1 * 1) - n * (1 * 2) + 1 = (n - 1) ^ 2 + k ^ 2 := by ring
    have e2' : (n * n + k * k) * (1 * 1) + n * (1 * 2) + 1 = (n + 1) ^ 2 + k ^ 2 := by ring
    rw [e, e', e2, e2']; ring
  · rintro rfl
    simp only [mul_zero, zero_mul, sub_zero, add_zero]
    rw [div_self (by positivity)]; norm_num

example : ∃ r, conductor (1 / 5) 3 (1 / 2) = some r ∧ 0 ≤ r ∧ r ≤ 1 := by
  obtain ⟨r, h, a, b, _⟩ := C83_conductor_partial (1 / 5) 3 (1 / 2) (by norm_num) (by norm_num)
  exact ⟨r, h, a, b⟩

/-- **C83** is violated by a conductor seen from behind: with a negative cosine the "reflectance" is above 1
for every metal (`Dielectric::eval` takes the absolute value, `Conductor::eval` does not). -/
theorem C83_violated_conductor (n k c : ℝ) (hn : 0 < n) (hk : 0 < k) (hc : c < 0) :
    ∃ r, conductor n k c = some r ∧ 1 < r := by
  have d1 : 0 < n * n + k * k + n * (c * 2) + c * c := by nlinarith [sq_nonneg (n + c), mul_pos hk hk]
  have d2 : 0 < (n * n + k * k) * (c * c) + n * (c * 2) + 1 := by
    nlinarith [sq_nonneg (n * c + 1), mul_pos (mul_pos hk hk) (mul_pos_of_neg_of_neg hc hc)]
  have q : n * c < 0 := mul_neg_of_pos_of_neg hn hc
  refine ⟨_, by
    simp only [conductor, sdiv_some d1.ne', sdiv_some d2.ne', Option.bind_eq_bind, Option.bind_some]; rfl, ?_⟩
  have a : 1 < (n * n + k * k - n * (c * 2) + c * c) / (n * n + k * k + n * (c * 2) + c * c) := by
    rw [one_lt_div d1]; linarith
  have b : 1 < ((n * n + k * k) * (c * c) - n * (c * 2) + 1) / ((n * n + k * k) * (c * c) + n * (c * 2) + 1) := by
    rw [one_lt_div d2]; linarith
  linarith

example : ∃ r, conductor (1 / 5) 3 (-1 / 2) = some r ∧ 1 < r :=
  C83_violated_conductor _ _ _ (by norm_num) (by norm_num) (by norm_num)

/-- Result of the dielectric for given side indices and cosine. -/
noncomputable def dielSide (ei et c : ℝ) : Option ℝ := do
  let q ← sdiv ei et
  let sint := q * Real.sqrt (max 0 (1 - c * c))
  if 1 ≤ sint then some 1
  else fresnelPart ei et c (Real.sqrt (max 0 (1 - sint * sint)))

theorem sint_sq (ei et c : ℝ) (hc1 : c * c ≤ 1) :
    (ei / et * Real.sqrt (max 0 (1 - c * c))) * (ei / et * Real.sqrt (max 0 (1 - c * c))) =
      ei ^ 2 * (1 - c ^ 2) / et ^ 2 := by
  have h0 : 0 ≤ 1 - c * c := by linarith
  rw [max_eq_right h0]
  have := Real.mul_self_sqrt h0
  calc _ = (ei / et) * (ei / et) * (Real.sqrt (1 - c * c) * Real.sqrt (1 - c * c)) := by ring
    _ = _ := by rw [this]; ring

theorem side_spec (ei et c : ℝ) (h1 : 0 < ei) (h2 : 0 < et) (hc : 0 ≤ c) (hc1 : c ≤ 1) :
    (∀ ct, 0 < ct → Snell ei et c ct → dielSide ei et c = some (fresnelSpec ei et c ct)) ∧
    ((¬ ∃ ct, 0 < ct ∧ Snell ei et c ct) → dielSide ei et c = some 1) := by
  have cc : c * c ≤ 1 := by nlinarith
  have ss := sint_sq ei et c cc
  obtain ⟨s, hs⟩ : ∃ s, s = ei / et * Real.sqrt (max 0 (1 - c * c)) := ⟨_, rfl⟩
  rw [← hs] at ss
  have s0 : 0 ≤ s := by rw [hs]; positivity
  have e2 : 0 < et ^ 2 := by positivity
  constructor
  · intro ct hct hsn
    have hsq : s * s = 1 - ct ^ 2 := by
      rw [ss, hsn]; field_simp
    have lt : ¬ 1 ≤ s := by
      intro h
      have : 0 < ct ^ 2 := by positivity
      nlinarith
    have k : Real.sqrt (max 0 (1 - s * s)) = ct := by
      rw [hsq, show 1 - (1 - ct ^ 2) = ct ^ 2 by ring, max_eq_right (by positivity), Real.sqrt_sq hct.le]
    simp only [dielSide, sdiv_some h2.ne', Option.bind_eq_bind, Option.bind_some]
    rw [← hs, if_neg lt, k, part_spec ei et c ct h1 h2 hc hct.le (by linarith)]
  · intro h
    simp only [dielSide, sdiv_some h2.ne', Option.bind_eq_bind, Option.bind_some]
    rw [← hs, if_pos]
    by_contra hlt
    push Not at hlt
    apply h
    have : 0 < 1 - s * s := by nlinarith
    refine ⟨Real.sqrt (1 - s * s), Real.sqrt_pos.2 this, ?_⟩
    unfold Snell
    rw [Real.sq_sqrt this.le, ss]; field_simp; ring

/-- **C83** (dielectrics): for all positive indices and every cosine in [-1,1] (negative: from inside) the
reflectance is the one of Fresnel's equations for the transmitted angle given by Snell's law, 1 if there
is no such angle, and in any case in [0,1]. -/
theorem C83_dielectric (a b c : ℝ) (ha : 0 < a) (hb : 0 < b) (hc : |c| ≤ 1) :
    (∀ ct, 0 < ct → Snell (if c < 0 then b else a) (if c < 0 then a else b) |c| ct →
      dielectric a b c = some (fresnelSpec (if c < 0 then b else a) (if c < 0 then a else b) |c| ct)) ∧
    ((¬ ∃ ct, 0 < ct ∧ Snell (if c < 0 then b else a) (if c < 0 then a else b) |c| ct) →
      dielectric a b c = some 1) ∧
    ∃ r, dielectric a b c = some r ∧ 0 ≤ r ∧ r ≤ 1 := by
  have key : dielectric a b c = dielSide (if c < 0 then b else a) (if c < 0 then a else b) |c| := by
    unfold dielectric dielSide
    by_cases h : c < 0
    · simp only [if_pos h, abs_of_neg h]
    · simp only [if_neg h, abs_of_nonneg (not_lt.1 h)]
  have p1 : 0 < (if c < 0 then b else a) := by split <;> assumption
  have p2 : 0 < (if c < 0 then a else b) := by split <;> assumption
  have sp := side_spec _ _ |c| p1 p2 (abs_nonneg c) hc
  rw [key]
  refine ⟨sp.1, sp.2, ?_⟩
  by_cases h : ∃ ct, 0 < ct ∧ Snell (if c < 0 then b else a) (if c < 0 then a else b) |c| ct
  · obtain ⟨ct, h0, hs⟩ := h
    exact ⟨_, sp.1 ct h0 hs, spec_unit _ _ _ _ p1 p2 (abs_nonneg c) h0.le⟩
  · exact ⟨1, sp.2 h, by norm_num, le_refl 1⟩

example : dielectric 1 (3 / 2) 1 = some (1 / 25) := by
  have h := (C83_dielectric 1 (3 / 2) 1 (by norm_num) (by norm_num) (by norm_num)).1 1 (by norm_num)
    (by norm_num [Snell])
  rw [h]; norm_num [fresnelSpec]

/-- **C83.** The interface reflects equally in both directions along a path: the reflectance of the ray
that arrives from inside along the transmitted ray is the one from outside. -/
theorem C83_reciprocal (a b ci ct : ℝ) (ha : 0 < a) (hb : 0 < b) (h1 : 0 < ci) (h1' : ci ≤ 1) (h2 : 0 < ct)
    (h2' : ct ≤ 1) (h : Snell a b ci ct) : dielectric a b ci = dielectric a b (-ct) := by
  have A := (C83_dielectric a b ci ha hb (by rwa [abs_of_pos h1])).1 ct h2
  have B := (C83_dielectric a b (-ct) ha hb (by rwa [abs_neg, abs_of_pos h2])).1 ci h1
  rw [if_neg (not_lt.2 h1.le), if_neg (not_lt.2 h1.le), abs_of_pos h1] at A
  rw [if_pos (by linarith), if_pos (by linarith), abs_neg, abs_of_pos h2] at B
  rw [A h, B h.symm]
  unfold fresnelSpec
  congr 1
  have e1 : ((a * ci - b * ct) / (a * ci + b * ct)) ^ 2 = ((b * ct - a * ci) / (b * ct + a * ci)) ^ 2 := by
    rw [div_pow, div_pow]; congr 1 <;> ring
  have e2 : ((b * ci - a * ct) / (b * ci + a * ct)) ^ 2 = ((a * ct - b * ci) / (a * ct + b * ci)) ^ 2 := by
    rw [div_pow, div_pow]; congr 1 <;> ring
  rw [e1, e2]

example : Snell 1 (5 / 4) (3 / 5) (Real.sqrt (369 / 625)) := by
  unfold Snell; rw [Real.sq_sqrt (by norm_num)]; norm_num

/-! ### C84 -/

/-- `wi` is the mirror image of `wo` about the z axis. -/
def Mirror (wo wi : V3 ℝ) : Prop := dot wi wi = dot wo wo ∧ wi.z = wo.z ∧ cross ⟨wo.x + wi.x, wo.y + wi.y, wo.z + wi.z⟩ ⟨0, 0, 1⟩ = ⟨0, 0, 0⟩

/-- The factor by which the radiance is multiplied along the sampled direction. -/
noncomputable def Sample.weight (s : Sample) : ℝ := s.value * |s.wi.z| / s.pdf

theorem mirror_neg (wo : V3 ℝ) : Mirror wo ⟨-wo.x, -wo.y, wo.z⟩ := by
  refine ⟨by simp only [dot]; ring, rfl, ?_⟩
  simp [cross]

/-- **C84** (conductors): the sampled direction is the mirror direction and the radiance is multiplied by
the reflectance. -/
theorem C84_conductor_partial (n k : ℝ) (wo : V3 ℝ) (hn : 0 < n) (hz : 0 < wo.z) :
    ∃ s r, conductorReflection n k wo = some s ∧ conductor n k wo.z = some r ∧ Mirror wo s.wi ∧ s.weight = r := by
  have hk := mul_self_nonneg k
  have d1 : 0 < n * n + k * k + n * (wo.z * 2) + wo.z * wo.z := by positivity
  have d2 : 0 < (n * n + k * k) * (wo.z * wo.z) + n * (wo.z * 2) + 1 := by positivity
  have d3 : |wo.z| ≠ 0 := (abs_pos.2 hz.ne').ne'
  refine ⟨_, _, by
    simp only [conductorReflection, sdiv_some d1.ne', sdiv_some d2.ne', sdiv_some d3, Option.bind_eq_bind,
      Option.bind_some]; rfl, by
    simp only [conductor, sdiv_some d1.ne', sdiv_some d2.ne', Option.bind_eq_bind, Option.bind_some]; rfl,
    mirror_neg wo, ?_⟩
  simp only [Sample.weight, div_one]
  rw [div_mul_cancel₀ _ d3]

/-- **C84** is violated by a metal seen from behind: the weight is above 1, so that light is gained at each
bounce. -/
theorem C84_violated_conductor (n k : ℝ) (wo : V3 ℝ) (hn : 0 < n) (hk : 0 < k) (hz : wo.z < 0) :
    ∃ s, conductorReflection n k wo = some s ∧ 1 < s.weight := by
  obtain ⟨r, hr, h1⟩ := C83_violated_conductor n k wo.z hn hk hz
  have d1 : 0 < n * n + k * k + n * (wo.z * 2) + wo.z * wo.z := by
    nlinarith [sq_nonneg (n + wo.z), mul_pos hk hk]
  have d2 : 0 < (n * n + k * k) * (wo.z * wo.z) + n * (wo.z * 2) + 1 := by
    nlinarith [sq_nonneg (n * wo.z + 1), mul_pos (mul_pos hk hk) (mul_pos_of_neg_of_neg hz hz)]
  have d3 : |wo.z| ≠ 0 := (abs_pos.2 hz.ne).ne'
  simp only [conductor, sdiv_some d1.ne', sdiv_some d2.ne', Option.bind_eq_bind, Option.bind_some,
    Option.some.injEq] at hr
  refine ⟨_, by
    simp only [conductorReflection, sdiv_some d1.ne', sdiv_some d2.ne', sdiv_some d3, Option.bind_eq_bind,
      Option.bind_some]; rfl, ?_⟩
  simp only [Sample.weight, div_one]
  rw [div_mul_cancel₀ _ d3, hr]; exact h1

/-- **C84** (dielectrics): whenever a transmitted ray exists, the sampled direction is the mirror direction
and the radiance is multiplied by the reflectance. -/
theorem C84_dielectric_partial (a b : ℝ) (wo : V3 ℝ) (ha : 0 < a) (hb : 0 < b) (hz : wo.z ≠ 0) (h1 : |wo.z| ≤ 1)
    (ct : ℝ) (hct : 0 < ct)
    (hs : Snell (if wo.z < 0 then b else a) (if wo.z < 0 then a else b) |wo.z| ct) :
    ∃ s r, dielectricReflection a b wo = some s ∧ dielectric a b wo.z = some r ∧ Mirror wo s.wi ∧ s.weight = r := by
  have D := (C83_dielectric a b wo.z ha hb h1).1 ct hct hs
  have d3 : |wo.z| ≠ 0 := (abs_pos.2 hz).ne'
  have le_lt : wo.z ≤ 0 ↔ wo.z < 0 := ⟨fun h => lt_of_le_of_ne h hz, le_of_lt⟩
  obtain ⟨ei, hei⟩ : ∃ ei, ei = if wo.z < 0 then b else a := ⟨_, rfl⟩
  obtain ⟨et, het⟩ : ∃ et, et = if wo.z < 0 then a else b := ⟨_, rfl⟩
  rw [← hei, ← het] at hs D
  have p1 : 0 < ei := by rw [hei]; split <;> assumption
  have p2 : 0 < et := by rw [het]; split <;> assumption
  have hc : (if wo.z ≤ 0 then |wo.z| else wo.z) = |wo.z| := by
    split
    · rfl
    · rename_i h; exact (abs_of_pos (not_le.1 h)).symm
  have cc : |wo.z| * |wo.z| ≤ 1 := by nlinarith [abs_nonneg wo.z]
  have ss := sint_sq ei et |wo.z| cc
  obtain ⟨s, hs'⟩ : ∃ s, s = ei / et * Real.sqrt (max 0 (1 - |wo.z| * |wo.z|)) := ⟨_, rfl⟩
  rw [← hs'] at ss
  have s0 : 0 ≤ s := by rw [hs']; positivity
  have hsq : s * s = 1 - ct ^ 2 := by rw [ss, hs]; field_simp
  have lt : ¬ 1 < s := by
    intro h
    have : 0 < ct ^ 2 := by positivity
    nlinarith
  have k : Real.sqrt (max 0 (1 - s * s)) = ct := by
    rw [hsq, show 1 - (1 - ct ^ 2) = ct ^ 2 by ring, max_eq_right (by positivity), Real.sqrt_sq hct.le]
  have P := part_spec ei et |wo.z| ct p1 p2 (abs_nonneg _) hct.le (by linarith [abs_nonneg wo.z])
  refine ⟨⟨fresnelSpec ei et |wo.z| ct / |wo.z|, ⟨-wo.x, -wo.y, wo.z⟩, 1⟩, _, ?_, D, mirror_neg wo, ?_⟩
  · simp only [le_lt] at hc
    simp only [dielectricReflection, hc, le_lt, ← hei, ← het, sdiv_some p2.ne', Option.bind_eq_bind,
      Option.bind_some]
    rw [← hs', if_neg lt, k, P]
    simp only [Option.bind_some, sdiv_some d3]
  · simp only [Sample.weight, div_one]
    rw [div_mul_cancel₀ _ d3]

example : ∃ s r, dielectricReflection 1 (3 / 2) ⟨0, 0, 1⟩ = some s ∧ dielectric 1 (3 / 2) 1 = some r ∧
    Mirror ⟨0, 0, 1⟩ s.wi ∧ s.weight = r :=
  C84_dielectric_partial 1 (3 / 2) ⟨0, 0, 1⟩ (by norm_num) (by norm_num) (by norm_num) (by norm_num) 1
    (by norm_num) (by norm_num [Snell])

/-- **C84** is violated by every total internal reflection: the reflectance is 1, but the radiance is
multiplied by the cosine (reflection.cpp:90-91 lacks the division of line 103). -/
theorem C84_violated_total (a b : ℝ) (wo : V3 ℝ) (ha : 0 < a) (hz : wo.z < 0) (h1 : -1 < wo.z)
    (ht : a ^ 2 < b ^ 2 * (1 - wo.z ^ 2)) (hb : 0 < b) :
    dielectric a b wo.z = some 1 ∧
    ∃ s, dielectricReflection a b wo = some s ∧ Mirror wo s.wi ∧ s.weight = |wo.z| ∧ s.weight < 1 := by
  have habs : |wo.z| < 1 := abs_lt.2 ⟨h1, by linarith⟩
  have cc : |wo.z| * |wo.z| ≤ 1 := by nlinarith [abs_nonneg wo.z]
  have ss := sint_sq b a |wo.z| cc
  obtain ⟨s, hs'⟩ : ∃ s, s = b / a * Real.sqrt (max 0 (1 - |wo.z| * |wo.z|)) := ⟨_, rfl⟩
  rw [← hs'] at ss
  have s0 : 0 ≤ s := by rw [hs']; positivity
  have a2 : 0 < a ^ 2 := by positivity
  have big : 1 < s := by
    have : 1 < s * s := by
      rw [ss, sq_abs, one_lt_div a2]; exact ht
    nlinarith
  constructor
  · refine (C83_dielectric a b wo.z ha hb habs.le).2.1 ?_
    rintro ⟨ct, h0, hs⟩
    rw [if_pos hz, if_pos hz] at hs
    unfold Snell at hs
    rw [sq_abs] at hs
    have : 0 < ct ^ 2 := by positivity
    nlinarith [mul_pos a2 this]
  · refine ⟨⟨1, ⟨-wo.x, -wo.y, wo.z⟩, 1⟩, ?_, mirror_neg wo, ?_, ?_⟩
    · simp only [dielectricReflection, if_pos hz.le, sdiv_some ha.ne', Option.bind_eq_bind, Option.bind_some]
      rw [← hs', if_pos big]
    · simp [Sample.weight]
    · simpa [Sample.weight] using habs

example : ∃ s, dielectricReflection 1 (3 / 2) ⟨4 / 5, 0, -3 / 5⟩ = some s ∧ s.weight < 1 := by
  obtain ⟨_, s, h, _, _, h4⟩ := C84_violated_total 1 (3 / 2) ⟨4 / 5, 0, -3 / 5⟩ (by norm_num) (by norm_num)
    (by norm_num) (by norm_num) (by norm_num)
  exact ⟨s, h, h4⟩

/-! ### C85 -/

/-- `wi` is the transmitted direction of `wo` through the plane `z = 0`, from a medium of index `ni` to one
of index `nt`: unit length, other side, components along the plane related by Snell's law (as vectors, so
that the directions and the normal are in one plane). -/
def Transmitted (ni nt : ℝ) (wo wi : V3 ℝ) : Prop :=
  dot wi wi = 1 ∧ wo.z * wi.z < 0 ∧ nt * wi.x = -(ni * wo.x) ∧ nt * wi.y = -(ni * wo.y)

/-- Index of the medium of a direction. -/
noncomputable def side (a b z : ℝ) : ℝ := if 0 < z then a else b

/-- **C85.** For every unit direction that is not grazing: if the squared sine of the transmitted angle is
below 1, the sampled direction is the transmitted one, and the radiance is multiplied by the transmittance
(1 minus the reflectance of C83) and the square of the ratio of the indices; otherwise the sample is black. -/
theorem C85_refraction (a b : ℝ) (wo : V3 ℝ) (ha : 0 < a) (hb : 0 < b) (hu : dot wo wo = 1) (hz : wo.z ≠ 0) :
    (side a b wo.z ^ 2 * (1 - wo.z ^ 2) < side b a wo.z ^ 2 →
      ∃ s r, refraction a b wo = some (.ray s) ∧ dielectric a b wo.z = some r ∧
        Transmitted (side a b wo.z) (side b a wo.z) wo s.wi ∧
        s.weight = (1 - r) * (side a b wo.z / side b a wo.z) ^ 2) ∧
    (side b a wo.z ^ 2 ≤ side a b wo.z ^ 2 * (1 - wo.z ^ 2) → refraction a b wo = some .total) := by
  obtain ⟨ei, hei⟩ : ∃ ei, ei = side a b wo.z := ⟨_, rfl⟩
  obtain ⟨et, het⟩ : ∃ et, et = side b a wo.z := ⟨_, rfl⟩
  have p1 : 0 < ei := by rw [hei]; unfold side; split <;> assumption
  have p2 : 0 < et := by rw [het]; unfold side; split <;> assumption
  have c : (if 0 < wo.z then wo.z else |wo.z|) = |wo.z| := by
    split
    · rename_i h; exact (abs_of_pos h).symm
    · rfl
  have e1 : (if 0 < wo.z then a else b) = ei := by rw [hei]; rfl
  have e2 : (if 0 < wo.z then b else a) = et := by rw [het]; rfl
  have et2 : 0 < et ^ 2 := by positivity
  have sq : ei / et * (ei / et) * (1 - wo.z * wo.z) = ei ^ 2 * (1 - wo.z ^ 2) / et ^ 2 := by ring
  rw [← hei, ← het]
  constructor
  · intro hlt
    have hs : ei ^ 2 * (1 - wo.z ^ 2) / et ^ 2 < 1 := by rw [div_lt_one et2]; exact hlt
    obtain ⟨ct, hct⟩ : ∃ ct, ct = Real.sqrt (1 - ei ^ 2 * (1 - wo.z ^ 2) / et ^ 2) := ⟨_, rfl⟩
    have ct0 : 0 < ct := by rw [hct]; exact Real.sqrt_pos.2 (by linarith)
    have ct2 : ct ^ 2 = 1 - ei ^ 2 * (1 - wo.z ^ 2) / et ^ 2 := by rw [hct, Real.sq_sqrt (by linarith)]
    have sn : Snell ei et |wo.z| ct := by
      unfold Snell; rw [ct2, sq_abs]; field_simp; ring
    have wz1 : wo.z ^ 2 ≤ 1 := by
      simp only [dot] at hu
      nlinarith [mul_self_nonneg wo.x, mul_self_nonneg wo.y]
    have wz : |wo.z| ≤ 1 := abs_le_one_iff_mul_self_le_one.2 (by nlinarith)
    have s1 : (if wo.z < 0 then b else a) = ei := by
      rw [← e1]; rcases lt_or_gt_of_ne hz with h | h
      · rw [if_pos h, if_neg (not_lt.2 h.le)]
      · rw [if_pos h, if_neg (not_lt.2 h.le)]
    have s2 : (if wo.z < 0 then a else b) = et := by
      rw [← e2]; rcases lt_or_gt_of_ne hz with h | h
      · rw [if_pos h, if_neg (not_lt.2 h.le)]
      · rw [if_pos h, if_neg (not_lt.2 h.le)]
    have D := (C83_dielectric a b wo.z ha hb wz).1 ct ct0
    rw [s1, s2] at D
    have P := part_spec ei et |wo.z| ct p1 p2 (abs_nonneg _) ct0.le (by linarith [abs_nonneg wo.z])
    have az : |if 0 < wo.z then -ct else ct| = ct := by
      split
      · rw [abs_neg, abs_of_pos ct0]
      · exact abs_of_pos ct0
    refine ⟨⟨(1 - fresnelSpec ei et |wo.z| ct) * (ei * ei / (et * et)) / ct,
      ⟨ei / et * -wo.x, ei / et * -wo.y, if 0 < wo.z then -ct else ct⟩, 1⟩, _, ?_, D sn, ?_, ?_⟩
    · simp only [refraction, e1, e2, c, sdiv_some p2.ne', Option.bind_eq_bind, Option.bind_some, sq]
      rw [if_neg (not_le.2 hs), ← hct, P]
      simp only [Option.bind_some, sdiv_some (mul_pos p2 p2).ne', az, sdiv_some ct0.ne']
    · refine ⟨?_, ?_, by field_simp, by field_simp⟩
      · simp only [dot] at hu ⊢
        have : (if 0 < wo.z then -ct else ct) * (if 0 < wo.z then -ct else ct) = ct ^ 2 := by
          split <;> ring
        rw [this, ct2]
        have hxy : wo.x * wo.x + wo.y * wo.y = 1 - wo.z ^ 2 := by linear_combination hu
        rw [← hxy]
        field_simp; ring
      · rcases lt_or_gt_of_ne hz with h | h
        · simp only [if_neg (not_lt.2 h.le)]; exact mul_neg_of_neg_of_pos h ct0
        · simp only [if_pos h]; exact mul_neg_of_pos_of_neg h (by linarith)
    · simp only [Sample.weight, az, div_one]
      rw [div_mul_cancel₀ _ ct0.ne']; ring
  · intro hge
    simp only [refraction, e1, e2, sdiv_some p2.ne', Option.bind_eq_bind, Option.bind_some, sq]
    rw [if_pos]
    rw [le_div_iff₀ et2]; linarith

theorem opp_pos {x y : ℝ} (h : x * y < 0) (hx : x < 0) : 0 < y := by
  by_contra hn
  exact absurd h (not_lt.2 (mul_nonneg_of_nonpos_of_nonpos hx.le (not_lt.1 hn)))

theorem opp_neg {x y : ℝ} (h : x * y < 0) (hx : 0 < x) : y < 0 := by
  by_contra hn
  exact absurd h (not_lt.2 (mul_nonneg hx.le (not_lt.1 hn)))

theorem unit_z {w : V3 ℝ} (h : dot w w = 1) : |w.z| ≤ 1 := by
  simp only [dot] at h
  exact abs_le_one_iff_mul_self_le_one.2 (by nlinarith [mul_self_nonneg w.x, mul_self_nonneg w.y])

/-- **C85.** Light paths are reversible: sampling from the transmitted direction gives the first direction
back, and the product of the two weights is the square of the transmittance (the scales cancel). -/
theorem C85_reversible (a b : ℝ) (wo : V3 ℝ) (ha : 0 < a) (hb : 0 < b) (hu : dot wo wo = 1) (hz : wo.z ≠ 0)
    (s : Sample) (h : refraction a b wo = some (.ray s)) :
    ∃ s' r, refraction a b s.wi = some (.ray s') ∧ s'.wi = wo ∧ dielectric a b wo.z = some r ∧
      s.weight * s'.weight = (1 - r) ^ 2 := by
  have R := C85_refraction a b wo ha hb hu hz
  rcases lt_or_ge (side a b wo.z ^ 2 * (1 - wo.z ^ 2)) (side b a wo.z ^ 2) with hlt | hge
  swap
  · rw [R.2 hge] at h; cases h
  obtain ⟨s1, r, h1, hd, ⟨tu, tz, tx, ty⟩, hw⟩ := R.1 hlt
  rw [h1] at h
  cases h
  have p1 : 0 < side a b wo.z := by unfold side; split <;> assumption
  have p2 : 0 < side b a wo.z := by unfold side; split <;> assumption
  have sw1 : side a b s.wi.z = side b a wo.z := by
    unfold side
    rcases lt_or_gt_of_ne hz with hh | hh
    · have : 0 < s.wi.z := opp_pos tz hh
      rw [if_pos this, if_neg (not_lt.2 hh.le)]
    · have : s.wi.z < 0 := opp_neg tz hh
      rw [if_neg (not_lt.2 this.le), if_pos hh]
  have sw2 : side b a s.wi.z = side a b wo.z := by
    unfold side
    rcases lt_or_gt_of_ne hz with hh | hh
    · have : 0 < s.wi.z := opp_pos tz hh
      rw [if_pos this, if_neg (not_lt.2 hh.le)]
    · have : s.wi.z < 0 := opp_neg tz hh
      rw [if_neg (not_lt.2 this.le), if_pos hh]
  have wz' : s.wi.z ≠ 0 := by rintro e; rw [e, mul_zero] at tz; exact lt_irrefl _ tz
  generalize hni : side a b wo.z = ni at *
  generalize hnt : side b a wo.z = nt at *
  have wzabs := unit_z hu
  have tzabs := unit_z tu
  have R' := C85_refraction a b s.wi ha hb tu wz'
  rw [sw1, sw2] at R'
  simp only [dot] at hu tu
  have snell : nt ^ 2 * (1 - s.wi.z ^ 2) = ni ^ 2 * (1 - wo.z ^ 2) := by
    have ex : nt ^ 2 * (s.wi.x * s.wi.x) = ni ^ 2 * (wo.x * wo.x) := by linear_combination (nt * s.wi.x - ni * wo.x) * tx
    have ey : nt ^ 2 * (s.wi.y * s.wi.y) = ni ^ 2 * (wo.y * wo.y) := by linear_combination (nt * s.wi.y - ni * wo.y) * ty
    linear_combination ex + ey + nt ^ 2 * (-tu) + ni ^ 2 * hu
  have wz2 : 0 < wo.z ^ 2 := by positivity
  obtain ⟨s2, r2, h2, hd2, ⟨tu2, tz2, tx2, ty2⟩, hw2⟩ := R'.1 (by rw [snell]; nlinarith [mul_pos (mul_pos p1 p1) wz2])
  have back : s2.wi = wo := by
    have hx : s2.wi.x = wo.x := by
      have : ni * s2.wi.x = ni * wo.x := by rw [tx2, tx, neg_neg]
      exact mul_left_cancel₀ p1.ne' this
    have hy : s2.wi.y = wo.y := by
      have : ni * s2.wi.y = ni * wo.y := by rw [ty2, ty, neg_neg]
      exact mul_left_cancel₀ p1.ne' this
    have hz2 : s2.wi.z = wo.z := by
      simp only [dot] at tu2
      rw [hx, hy] at tu2
      have e : (s2.wi.z - wo.z) * (s2.wi.z + wo.z) = 0 := by linear_combination tu2 - hu
      rcases mul_eq_zero.1 e with e | e
      · linarith
      · exfalso
        have : s2.wi.z = -wo.z := by linarith
        rw [this] at tz2
        nlinarith
    exact V3.ext hx hy hz2
  refine ⟨s2, r, h2, back, hd, ?_⟩
  have rr : r2 = r := by
    -- the reflectances agree
    unfold side at hni hnt
    rcases lt_or_gt_of_ne hz with hh | hh
    · have hp : 0 < s.wi.z := opp_pos tz hh
      rw [if_neg (not_lt.2 hh.le)] at hni hnt
      subst hni hnt
      have := C83_reciprocal a b s.wi.z (-wo.z) ha hb hp (le_trans (le_abs_self _) tzabs) (by linarith)
        (by linarith [neg_abs_le wo.z]) (by unfold Snell; rw [neg_sq]; exact snell)
      rw [neg_neg, hd, hd2] at this; exact Option.some.inj this
    · have hp : s.wi.z < 0 := opp_neg tz hh
      rw [if_pos hh] at hni hnt
      subst hni hnt
      have := C83_reciprocal a b wo.z (-s.wi.z) ha hb hh (le_trans (le_abs_self _) wzabs) (by linarith)
        (by linarith [neg_abs_le s.wi.z]) (by unfold Snell; rw [neg_sq]; exact snell.symm)
      rw [neg_neg, hd, hd2] at this; exact (Option.some.inj this).symm
  rw [hw, hw2, rr]
  field_simp

/-- **C85.** Glass neither gains nor loses light: the weight of the reflection of C84 and the one of the
refraction (without the factor for the change of solid angle) sum to 1. -/
theorem C85_energy (a b : ℝ) (wo : V3 ℝ) (ha : 0 < a) (hb : 0 < b) (hu : dot wo wo = 1) (hz : wo.z ≠ 0)
    (st : Sample) (h : refraction a b wo = some (.ray st)) :
    ∃ sr, dielectricReflection a b wo = some sr ∧
      sr.weight + st.weight * (side b a wo.z / side a b wo.z) ^ 2 = 1 := by
  have R := C85_refraction a b wo ha hb hu hz
  rcases lt_or_ge (side a b wo.z ^ 2 * (1 - wo.z ^ 2)) (side b a wo.z ^ 2) with hlt | hge
  swap
  · rw [R.2 hge] at h; cases h
  obtain ⟨s1, r, h1, hd, ⟨tu, tz, tx, ty⟩, hw⟩ := R.1 hlt
  rw [h1] at h
  cases h
  have s1 : (if wo.z < 0 then b else a) = side a b wo.z := by
    unfold side; rcases lt_or_gt_of_ne hz with h | h
    · rw [if_pos h, if_neg (not_lt.2 h.le)]
    · rw [if_pos h, if_neg (not_lt.2 h.le)]
  have s2 : (if wo.z < 0 then a else b) = side b a wo.z := by
    unfold side; rcases lt_or_gt_of_ne hz with h | h
    · rw [if_pos h, if_neg (not_lt.2 h.le)]
    · rw [if_pos h, if_neg (not_lt.2 h.le)]
  have p1 : 0 < side a b wo.z := by unfold side; split <;> assumption
  have p2 : 0 < side b a wo.z := by unfold side; split <;> assumption
  have C := C84_dielectric_partial a b wo ha hb hz (unit_z hu) |st.wi.z|
    (abs_pos.2 (by rintro e; rw [e, mul_zero] at tz; exact lt_irrefl _ tz))
  rw [s1, s2] at C
  generalize side a b wo.z = ni at *
  generalize side b a wo.z = nt at *
  simp only [dot] at hu tu
  have snell : ni ^ 2 * (1 - wo.z ^ 2) = nt ^ 2 * (1 - st.wi.z ^ 2) := by
    have ex : nt ^ 2 * (st.wi.x * st.wi.x) = ni ^ 2 * (wo.x * wo.x) := by
      linear_combination (nt * st.wi.x - ni * wo.x) * tx
    have ey : nt ^ 2 * (st.wi.y * st.wi.y) = ni ^ 2 * (wo.y * wo.y) := by
      linear_combination (nt * st.wi.y - ni * wo.y) * ty
    linear_combination -ex - ey + nt ^ 2 * tu - ni ^ 2 * hu
  obtain ⟨sr, r', hr, hd', _, hw'⟩ := C (by unfold Snell; rw [sq_abs, sq_abs]; exact snell)
  rw [hd] at hd'
  cases hd'
  refine ⟨sr, hr, ?_⟩
  rw [hw', hw]
  field_simp; ring

example : ∃ s s' : Sample, refraction 1 (3 / 2) ⟨3 / 5, 0, -4 / 5⟩ = some (.ray s) ∧
    refraction 1 (3 / 2) s.wi = some (.ray s') ∧ s'.wi = ⟨3 / 5, 0, -4 / 5⟩ := by
  have hu : dot (⟨3 / 5, 0, -4 / 5⟩ : V3 ℝ) ⟨3 / 5, 0, -4 / 5⟩ = 1 := by norm_num [dot]
  obtain ⟨s, r, h, _⟩ := (C85_refraction 1 (3 / 2) ⟨3 / 5, 0, -4 / 5⟩ (by norm_num) (by norm_num) hu
    (by norm_num)).1 (by norm_num [side])
  obtain ⟨s', _, h', e, _⟩ := C85_reversible 1 (3 / 2) _ (by norm_num) (by norm_num) hu (by norm_num) s h
  exact ⟨s, s', h, h', e⟩

/-- The other outcome of C85: beyond the critical angle. -/
example : refraction 1 (3 / 2) ⟨4 / 5, 0, -3 / 5⟩ = some .total :=
  (C85_refraction 1 (3 / 2) ⟨4 / 5, 0, -3 / 5⟩ (by norm_num) (by norm_num) (by norm_num [dot])
    (by norm_num)).2 (by norm_num [side])

end Spectre.Specular
