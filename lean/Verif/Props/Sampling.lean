import Verif.Props.Specular
import Mathlib.MeasureTheory.Integral.IntervalIntegral.FundThmCalculus
import Mathlib.Analysis.SpecialFunctions.Integrals.Basic

/-
Properties C86 (cosine sampling of the hemisphere) and C87 (reflected and refracted vectors).
-/

namespace Spectre.Specular

open Spectre.Geom MeasureTheory

/-! ### C86 -/

theorem cosine_z (wo : V3 ℝ) (r0 r1 : ℝ) (h0 : 0 ≤ r1) :
    (cosineSample wo r0 r1).1.z = (if wo.z < 0 then -1 else 1) * Real.sqrt (max 0 (1 - r1)) := by
  have e : 1 - Real.sqrt r1 * Real.cos (2 * Real.pi * r0) * (Real.sqrt r1 * Real.cos (2 * Real.pi * r0)) -
      Real.sqrt r1 * Real.sin (2 * Real.pi * r0) * (Real.sqrt r1 * Real.sin (2 * Real.pi * r0)) = 1 - r1 := by
    have h1 := Real.mul_self_sqrt h0
    have h2 := Real.sin_sq_add_cos_sq (2 * Real.pi * r0)
    linear_combination (-(Real.sqrt r1 * Real.sqrt r1)) * h2 - h1
  simp only [cosineSample, e]
  split <;> ring

/-- **C86.** For all random numbers in [0,1], the sampled direction is a unit vector in the hemisphere of
the outgoing direction, at the azimuth `2π r0`, and the cosine of its inclination is `√(1-r1)`. -/
theorem C86_direction (wo : V3 ℝ) (r0 r1 : ℝ) (h0 : 0 ≤ r1) (h1 : r1 ≤ 1) :
    let w := (cosineSample wo r0 r1).1
    dot w w = 1 ∧ 0 ≤ wo.z * w.z ∧ |w.z| = Real.sqrt (1 - r1) ∧
    w.x = Real.sqrt (1 - w.z ^ 2) * Real.cos (2 * Real.pi * r0) ∧
    w.y = Real.sqrt (1 - w.z ^ 2) * Real.sin (2 * Real.pi * r0) := by
  intro w
  have hz : w.z = (if wo.z < 0 then -1 else 1) * Real.sqrt (1 - r1) := by
    have := cosine_z wo r0 r1 h0
    rwa [max_eq_right (by linarith)] at this
  have hx : w.x = Real.sqrt r1 * Real.cos (2 * Real.pi * r0) := rfl
  have hy : w.y = Real.sqrt r1 * Real.sin (2 * Real.pi * r0) := rfl
  have sq : w.z ^ 2 = 1 - r1 := by
    rw [hz, mul_pow, Real.sq_sqrt (by linarith)]
    split <;> ring
  have s0 := Real.sqrt_nonneg (1 - r1)
  refine ⟨?_, ?_, ?_, ?_, ?_⟩
  · have a := Real.mul_self_sqrt h0
    have b := Real.sin_sq_add_cos_sq (2 * Real.pi * r0)
    simp only [dot]
    rw [hx, hy]
    linear_combination sq + (Real.sqrt r1 * Real.sqrt r1) * b + a
  · rw [hz]
    split
    · rename_i h; nlinarith
    · rename_i h; have := not_lt.1 h; nlinarith [mul_nonneg this s0]
  · rw [hz, abs_mul, abs_of_nonneg s0]
    split <;> simp
  · rw [sq, hx]; congr 2; ring
  · rw [sq, hy]; congr 2; ring

/-- **C86.** The pdf given with the sample is the one `Bdf::pdf` gives for that pair of directions, if the
outgoing direction is not grazing. -/
theorem C86_pdf_agrees_partial (wo : V3 ℝ) (r0 r1 : ℝ) (h0 : 0 ≤ r1) (h1 : r1 ≤ 1) (hz : wo.z ≠ 0) :
    cosinePdf wo (cosineSample wo r0 r1).1 = (cosineSample wo r0 r1).2 := by
  have e : (cosineSample wo r0 r1).2 = |(cosineSample wo r0 r1).1.z| * (1 / Real.pi) := rfl
  have nn := (C86_direction wo r0 r1 h0 h1).2.1
  rw [e, cosinePdf]
  split
  · rfl
  · rename_i h
    have z0 : wo.z * (cosineSample wo r0 r1).1.z = 0 := le_antisymm (not_lt.1 h) nn
    rcases mul_eq_zero.1 z0 with h' | h'
    · exact absurd h' hz
    · rw [h']; simp

/-- **C86** is violated for a grazing outgoing direction: samples have a positive pdf, `Bdf::pdf` says 0. -/
theorem C86_violated_grazing (wo : V3 ℝ) (r0 r1 : ℝ) (h0 : 0 ≤ r1) (h1 : r1 < 1) (hz : wo.z = 0) :
    cosinePdf wo (cosineSample wo r0 r1).1 = 0 ∧ 0 < (cosineSample wo r0 r1).2 := by
  constructor
  · simp [cosinePdf, hz]
  · have a := (C86_direction wo r0 r1 h0 h1.le).2.2.1
    have e : (cosineSample wo r0 r1).2 = |(cosineSample wo r0 r1).1.z| * (1 / Real.pi) := rfl
    rw [e, a]
    have := Real.sqrt_pos.2 (by linarith : 0 < 1 - r1)
    have := Real.pi_pos
    positivity

/-- **C86.** The pdf is the density of the samples with respect to the solid angle: for a uniform `r1`, the
probability that the inclination has its cosine in `[a,b]` is the integral of the pdf over that zone of the
hemisphere (whose element of solid angle is `2π dz`).  The azimuth is uniform by `C86_direction`. -/
theorem C86_density (wo : V3 ℝ) (r0 a b : ℝ) (ha : 0 ≤ a) (hab : a ≤ b) (hb : b ≤ 1) (hz : wo.z ≠ 0) :
    volume {r1 : ℝ | r1 ∈ Set.Icc 0 1 ∧ |(cosineSample wo r0 r1).1.z| ∈ Set.Icc a b} =
      ENNReal.ofReal (∫ z in a..b, 2 * Real.pi * cosinePdf wo ⟨0, 0, if wo.z < 0 then -z else z⟩) := by
  have set : {r1 : ℝ | r1 ∈ Set.Icc 0 1 ∧ |(cosineSample wo r0 r1).1.z| ∈ Set.Icc a b} =
      Set.Icc (1 - b ^ 2) (1 - a ^ 2) := by
    ext r
    simp only [Set.mem_ofPred_eq, Set.mem_Icc]
    constructor
    · rintro ⟨⟨h0, h1⟩, h2, h3⟩
      rw [(C86_direction wo r0 r h0 h1).2.2.1] at h2 h3
      have q := Real.sq_sqrt (by linarith : 0 ≤ 1 - r)
      constructor
      · nlinarith [Real.sqrt_nonneg (1 - r)]
      · nlinarith [Real.sqrt_nonneg (1 - r)]
    · rintro ⟨h2, h3⟩
      have h0 : 0 ≤ r := by nlinarith
      have h1 : r ≤ 1 := by nlinarith
      refine ⟨⟨h0, h1⟩, ?_⟩
      rw [(C86_direction wo r0 r h0 h1).2.2.1]
      exact ⟨Real.le_sqrt_of_sq_le (by linarith), Real.sqrt_le_iff.2 ⟨by linarith, by linarith⟩⟩
  have int : (∫ z in a..b, 2 * Real.pi * cosinePdf wo ⟨0, 0, if wo.z < 0 then -z else z⟩) = b ^ 2 - a ^ 2 := by
    have e : Set.EqOn (fun z : ℝ => 2 * Real.pi * cosinePdf wo ⟨0, 0, if wo.z < 0 then -z else z⟩)
        (fun z => 2 * z) (Set.uIcc a b) := by
      intro z hz'
      rw [Set.uIcc_of_le hab] at hz'
      have z0 : 0 ≤ z := le_trans ha hz'.1
      have hpi := Real.pi_ne_zero
      have key : cosinePdf wo ⟨0, 0, if wo.z < 0 then -z else z⟩ = z * (1 / Real.pi) := by
        rcases eq_or_lt_of_le z0 with h | h
        · subst h; simp [cosinePdf]
        · rcases lt_or_gt_of_ne hz with g | g
          · simp only [cosinePdf, if_pos g]
            rw [if_pos (by nlinarith), abs_neg, abs_of_pos h]
          · simp only [cosinePdf, if_neg (not_lt.2 g.le)]
            rw [if_pos (by positivity), abs_of_pos h]
      simp only [key]
      field_simp
    rw [intervalIntegral.integral_congr e, intervalIntegral.integral_const_mul, integral_id]
    ring
  rw [set, int, Real.volume_Icc]
  congr 1; ring

/-- **C86.** With the Lambertian value `1/π` (lambertian.cpp:21-25) every sample that is not grazing has the
weight 1: no variance and no gain of light. -/
theorem C86_lambertian (wo : V3 ℝ) (r0 r1 : ℝ) (h0 : 0 ≤ r1) (h1 : r1 < 1) :
    1 / Real.pi * |(cosineSample wo r0 r1).1.z| / (cosineSample wo r0 r1).2 = 1 := by
  have a := (C86_direction wo r0 r1 h0 h1.le).2.2.1
  have e : (cosineSample wo r0 r1).2 = |(cosineSample wo r0 r1).1.z| * (1 / Real.pi) := rfl
  have := Real.sqrt_pos.2 (by linarith : 0 < 1 - r1)
  have hp := Real.pi_pos
  rw [e, a]
  field_simp

example : |(cosineSample ⟨0, 0, -1⟩ (1 / 4) (3 / 4)).1.z| = 1 / 2 := by
  rw [(C86_direction ⟨0, 0, -1⟩ (1 / 4) (3 / 4) (by norm_num) (by norm_num)).2.2.1]
  rw [show (1 : ℝ) - 3 / 4 = (1 / 2) ^ 2 by norm_num, Real.sqrt_sq (by norm_num)]

/-! ### C87 -/

/-- **C87.** For a unit normal, `reflect` flips the component along the normal and keeps the rest; it keeps
the length and is its own inverse. -/
theorem C87_reflect (s n : V3 ℝ) (hn : dot n n = 1) :
    dot (reflect s n) n = -dot s n ∧ cross (reflect s n) n = cross s n ∧
    dot (reflect s n) (reflect s n) = dot s s ∧ reflect (reflect s n) n = s := by
  obtain ⟨a, b, c⟩ := s
  obtain ⟨x, y, z⟩ := n
  simp only [dot] at hn
  refine ⟨?_, ?_, ?_, ?_⟩
  · simp only [reflect, dot]; linear_combination (-2 * (a * x + b * y + c * z)) * hn
  · simp only [reflect, dot, cross, V3.mk.injEq]
    refine ⟨?_, ?_, ?_⟩ <;> ring
  · simp only [reflect, dot]; linear_combination (4 * (a * x + b * y + c * z) ^ 2) * hn
  · simp only [reflect, dot, V3.mk.injEq]
    refine ⟨?_, ?_, ?_⟩
    · linear_combination (4 * (a * x + b * y + c * z) * x) * hn
    · linear_combination (4 * (a * x + b * y + c * z) * y) * hn
    · linear_combination (4 * (a * x + b * y + c * z) * z) * hn

/-- The direction is refracted: unit, Snell's law for the components along the interface, other side. -/
def RefractSpec (s n : V3 ℝ) (eta : ℝ) (t : V3 ℝ) : Prop :=
  dot t t = 1 ∧ cross t n = ⟨-(eta * (cross s n).x), -(eta * (cross s n).y), -(eta * (cross s n).z)⟩ ∧
  dot t n * dot s n ≤ 0

/-- What `refract` does for any unit vectors. -/
theorem refract_eq (s n : V3 ℝ) (eta : ℝ) (hs : dot s s = 1) (hn : dot n n = 1) (t : V3 ℝ)
    (h : refract s n eta = some t) :
    dot t t = 1 ∧ cross t n = ⟨-(eta * (cross s n).x), -(eta * (cross s n).y), -(eta * (cross s n).z)⟩ ∧
    dot t n = -Real.sqrt (1 - (1 - dot s n ^ 2) * eta ^ 2) := by
  have cs : dot s n ^ 2 ≤ 1 := by
    simp only [dot] at *
    nlinarith [sq_nonneg (s.x * n.y - s.y * n.x), sq_nonneg (s.y * n.z - s.z * n.y), sq_nonneg (s.x * n.z - s.z * n.x)]
  simp only [refract] at h
  have m : max 0 (1 - dot s n * dot s n) = 1 - dot s n ^ 2 := by
    rw [max_eq_right (by nlinarith)]; ring
  rw [m] at h
  have m2 : (1 - dot s n ^ 2) * eta * eta = (1 - dot s n ^ 2) * eta ^ 2 := by ring
  rw [m2] at h
  split at h
  · cases h
  · rename_i hle
    have nn : 0 ≤ 1 - (1 - dot s n ^ 2) * eta ^ 2 := by linarith [not_lt.1 hle]
    have q := Real.sq_sqrt nn
    obtain ⟨c, hc⟩ : ∃ c, c = Real.sqrt (1 - (1 - dot s n ^ 2) * eta ^ 2) := ⟨_, rfl⟩
    rw [← hc] at h q ⊢
    obtain ⟨d, hd⟩ : ∃ d, d = dot s n := ⟨_, rfl⟩
    rw [← hd] at h q
    cases h
    obtain ⟨a1, a2, a3⟩ := s
    obtain ⟨x, y, z⟩ := n
    simp only [dot] at hs hn hd
    refine ⟨?_, ?_, ?_⟩
    · simp only [dot]
      linear_combination eta ^ 2 * hs + (d * eta - c) ^ 2 * hn + q + 2 * eta * (d * eta - c) * hd
    · simp only [cross, V3.mk.injEq]
      refine ⟨?_, ?_, ?_⟩ <;> ring
    · simp only [dot]
      linear_combination (d * eta - c) * hn + eta * hd

/-- **C87.** `refract` of a unit vector on the side of the unit normal is the refracted vector; there is none
exactly when the sine of the transmitted angle would be above 1. -/
theorem C87_refract_partial (s n : V3 ℝ) (eta : ℝ) (hs : dot s s = 1) (hn : dot n n = 1) (hd : 0 ≤ dot s n) :
    (∀ t, refract s n eta = some t → RefractSpec s n eta t) ∧
    (refract s n eta = none ↔ 1 < (1 - dot s n ^ 2) * eta ^ 2) := by
  constructor
  · intro t h
    obtain ⟨h1, h2, h3⟩ := refract_eq s n eta hs hn t h
    refine ⟨h1, h2, ?_⟩
    rw [h3]
    have := Real.sqrt_nonneg (1 - (1 - dot s n ^ 2) * eta ^ 2)
    nlinarith [mul_nonneg this hd]
  · have cs : dot s n ^ 2 ≤ 1 := by
      simp only [dot] at *
      nlinarith [sq_nonneg (s.x * n.y - s.y * n.x), sq_nonneg (s.y * n.z - s.z * n.y), sq_nonneg (s.x * n.z - s.z * n.x)]
    have m : max 0 (1 - dot s n * dot s n) = 1 - dot s n ^ 2 := by
      rw [max_eq_right (by nlinarith)]; ring
    have m2 : (1 - dot s n ^ 2) * eta * eta = (1 - dot s n ^ 2) * eta ^ 2 := by ring
    simp only [refract, m, m2]
    split
    · simpa using by assumption
    · simpa using by rename_i h; exact not_lt.1 h

example : ∃ t, refract ⟨3 / 5, 0, 4 / 5⟩ ⟨0, 0, 1⟩ (2 / 3) = some t := by
  have h := (C87_refract_partial ⟨3 / 5, 0, 4 / 5⟩ ⟨0, 0, 1⟩ (2 / 3) (by norm_num [dot]) (by norm_num [dot])
    (by norm_num [dot])).2
  cases e : refract ⟨3 / 5, 0, 4 / 5⟩ ⟨0, 0, 1⟩ (2 / 3) with
  | some t => exact ⟨t, rfl⟩
  | none => rw [e] at h; norm_num [dot] at h

/-- **C87** is violated for every vector on the other side of the normal: the result is on the same side as
the argument.  `MicrofacetT::sample_value` (microfacet.cpp:147) does call it so, since `sample_wh` only
makes the z of the two vectors agree. -/
theorem C87_violated_behind (s n : V3 ℝ) (eta : ℝ) (hs : dot s s = 1) (hn : dot n n = 1) (hd : dot s n < 0)
    (ht : (1 - dot s n ^ 2) * eta ^ 2 < 1) :
    ∃ t, refract s n eta = some t ∧ 0 < dot t n * dot s n ∧ ¬ RefractSpec s n eta t := by
  have cs : dot s n ^ 2 ≤ 1 := by
    simp only [dot] at *
    nlinarith [sq_nonneg (s.x * n.y - s.y * n.x), sq_nonneg (s.y * n.z - s.z * n.y), sq_nonneg (s.x * n.z - s.z * n.x)]
  have m : max 0 (1 - dot s n * dot s n) = 1 - dot s n ^ 2 := by
    rw [max_eq_right (by nlinarith)]; ring
  have m2 : (1 - dot s n ^ 2) * eta * eta = (1 - dot s n ^ 2) * eta ^ 2 := by ring
  have ex : ∃ t, refract s n eta = some t := by
    simp only [refract, m, m2]
    rw [if_neg (not_lt.2 ht.le)]
    exact ⟨_, rfl⟩
  obtain ⟨t, h⟩ := ex
  have h3 := (refract_eq s n eta hs hn t h).2.2
  have pos : 0 < dot t n * dot s n := by
    rw [h3]
    have := Real.sqrt_pos.2 (by linarith : 0 < 1 - (1 - dot s n ^ 2) * eta ^ 2)
    nlinarith
  exact ⟨t, h, pos, fun hh => absurd hh.2.2 (not_le.2 pos)⟩

/-- A pair as produced by `sample_wh`: both with a positive z, on opposite sides. -/
example : ∃ s n : V3 ℝ, 0 < s.z ∧ 0 < n.z ∧ dot s s = 1 ∧ dot n n = 1 ∧ dot s n < 0 ∧
    (1 - dot s n ^ 2) * (2 / 3) ^ 2 < 1 :=
  ⟨⟨-24 / 25, 0, 7 / 25⟩, ⟨4 / 5, 0, 3 / 5⟩, by norm_num, by norm_num, by norm_num [dot], by norm_num [dot],
    by norm_num [dot], by norm_num [dot]⟩

end Spectre.Specular
