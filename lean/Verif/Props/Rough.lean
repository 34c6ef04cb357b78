import Verif.Props.Sampling
import Verif.Props.Microfacet

/-
Properties C90 (masking of microfacets), C91 (rough reflection), C92 (rough refraction) and C93 (the
isotropic case of the anisotropic distribution).
-/

namespace Spectre.Microfacet

open Spectre.Geom Spectre.Specular

/-! ### C90 -/

/-- Smith's masking for GGX: `2/(1+√(1+α² tan²θ))`. -/
noncomputable def smithGGX (a2 : ℝ) (v : V3 ℝ) : ℝ := 2 / (1 + Real.sqrt (1 + a2 * ((1 - v.z ^ 2) / v.z ^ 2)))

/-- **C90** (GGX): masking is in [0,1], in fact positive off grazing, and 1 along the normal. -/
theorem C90_ggx_partial (a2 : ℝ) (h : 0 ≤ a2) (v : V3 ℝ) (hz : v.z ≠ 0) :
    0 < ggxG1 a2 v ∧ ggxG1 a2 v ≤ 1 ∧ (|v.z| = 1 → ggxG1 a2 v = 1) := by
  have z2 : v.z * v.z ≠ 0 := mul_self_ne_zero.2 hz
  have zp : 0 < v.z * v.z := lt_of_le_of_ne (mul_self_nonneg _) (Ne.symm z2)
  have m0 : 0 ≤ max 0 (1 - v.z * v.z * (v.z * v.z)) := le_max_left _ _
  have q : 0 ≤ a2 * max 0 (1 - v.z * v.z * (v.z * v.z)) / (v.z * v.z) := by positivity
  have s1 : 1 ≤ Real.sqrt (1 + a2 * max 0 (1 - v.z * v.z * (v.z * v.z)) / (v.z * v.z)) := by
    rw [Real.one_le_sqrt]; linarith
  simp only [ggxG1, z2, if_false]
  refine ⟨by positivity, ?_, ?_⟩
  · rw [div_le_one (by linarith)]; linarith
  · intro h1
    have : v.z * v.z = 1 := by rw [← abs_mul_abs_self, h1, one_mul]
    rw [this]; norm_num

/-- **C90** is violated by GGX in every direction that is neither normal nor grazing: the masking is
stronger than Smith's (the sine is computed as `√(1-cos⁴)`). -/
theorem C90_violated_ggx (a2 : ℝ) (h : 0 < a2) (v : V3 ℝ) (hz : v.z ≠ 0) (h1 : |v.z| < 1) :
    ggxG1 a2 v < smithGGX a2 v := by
  have z2 : v.z * v.z ≠ 0 := mul_self_ne_zero.2 hz
  have zp : 0 < v.z * v.z := lt_of_le_of_ne (mul_self_nonneg _) (Ne.symm z2)
  have zl : v.z * v.z < 1 := by rw [← abs_mul_abs_self]; nlinarith [abs_nonneg v.z]
  have m : max 0 (1 - v.z * v.z * (v.z * v.z)) = 1 - v.z * v.z * (v.z * v.z) := max_eq_right (by nlinarith)
  simp only [ggxG1, z2, if_false, smithGGX, m]
  have lt : 1 + a2 * ((1 - v.z ^ 2) / v.z ^ 2) < 1 + a2 * (1 - v.z * v.z * (v.z * v.z)) / (v.z * v.z) := by
    rw [show v.z ^ 2 = v.z * v.z by ring, ← mul_div_assoc]
    have : a2 * (1 - v.z * v.z) / (v.z * v.z) < a2 * (1 - v.z * v.z * (v.z * v.z)) / (v.z * v.z) := by
      apply div_lt_div_of_pos_right _ zp
      apply mul_lt_mul_of_pos_left _ h
      nlinarith
    linarith
  have n0 : 0 ≤ 1 + a2 * ((1 - v.z ^ 2) / v.z ^ 2) := by
    have : 0 ≤ (1 - v.z ^ 2) / v.z ^ 2 := div_nonneg (by nlinarith) (by positivity)
    positivity
  have s := Real.sqrt_lt_sqrt n0 lt
  have s0 := Real.sqrt_nonneg (1 + a2 * ((1 - v.z ^ 2) / v.z ^ 2))
  apply div_lt_div_of_pos_left (by norm_num) (by linarith) (by linarith)

/-- **C90** (Blinn and Beckmann): the fit is in [0, 1+1/10000]. -/
theorem C90_fit_partial (c : ℝ) (h : 0 ≤ c) : 0 ≤ fit c ∧ fit c ≤ 1 + 1 / 10000 := by
  unfold fit
  split
  · norm_num
  · have d : 0 < 1 + 2276 / 1000 * c + 2577 / 1000 * c * c := by positivity
    constructor
    · positivity
    · rw [div_le_iff₀ d]
      nlinarith [sq_nonneg (c - 159 / 100)]

theorem fit_above : 1 < fit (158 / 100) := by
  unfold fit
  rw [if_neg (by norm_num)]
  norm_num

/-- **C90** is violated by Beckmann for every roughness: there is a direction in which more than all the
microfacets are visible. -/
theorem C90_violated_beckmann (a : ℝ) (h : 0 < a) : ∃ v : V3 ℝ, dot v v = 1 ∧ 1 < beckmannG1 a v := by
  obtain ⟨q, hq⟩ : ∃ q, q = Real.sqrt (1 + (158 / 100 * a) ^ 2) := ⟨_, rfl⟩
  have p : 0 < 1 + (158 / 100 * a) ^ 2 := by positivity
  have q2 : q ^ 2 = 1 + (158 / 100 * a) ^ 2 := by rw [hq, Real.sq_sqrt p.le]
  have q0 : 0 < q := by rw [hq]; exact Real.sqrt_pos.2 p
  have c0 : 0 < 158 / 100 * a / q := by positivity
  refine ⟨⟨1 / q, 0, 158 / 100 * a / q⟩, ?_, ?_⟩
  · simp only [dot]; field_simp; nlinarith
  · have lt1 : 158 / 100 * a / q < 1 := by
      rw [div_lt_one q0]; nlinarith
    have s : Real.sqrt (max 0 (1 - 158 / 100 * a / q * (158 / 100 * a / q))) = 1 / q := by
      have : 1 - 158 / 100 * a / q * (158 / 100 * a / q) = (1 / q) ^ 2 := by
        field_simp; nlinarith
      rw [this, max_eq_right (by positivity), Real.sqrt_sq (by positivity)]
    simp only [beckmannG1, abs_of_pos c0, c0.ne', if_false, not_le.2 lt1, s]
    have : 158 / 100 * a / q / (1 / q * a) = 158 / 100 := by field_simp
    rw [this]; exact fit_above

/-- **C90** (anisotropic GGX): away from the normal and from grazing directions, the masking is in (0,1]. -/
theorem C90_aniso_partial (ax ay : ℝ) (wo wi : V3 ℝ) (ho : wo.z ≠ 0 ∧ |wo.z| < 1) (hi : wi.z ≠ 0 ∧ |wi.z| < 1) :
    0 < anisoG ax ay wo wi ∧ anisoG ax ay wo wi ≤ 1 := by
  have l : ∀ v : V3 ℝ, v.z ≠ 0 ∧ |v.z| < 1 → 0 ≤ lambda v ax ay := by
    intro v hv
    have zl : v.z * v.z < 1 := by rw [← abs_mul_abs_self]; nlinarith [abs_nonneg v.z, hv.2]
    have t : |Real.sqrt (max 0 (1 - v.z * v.z)) / v.z| ≠ 0 := by
      rw [abs_ne_zero]
      refine div_ne_zero (Real.sqrt_ne_zero'.2 ?_) hv.1
      rw [max_eq_right (by linarith)]; linarith
    simp only [lambda, hv.1, t, if_false]
    have : 1 ≤ Real.sqrt (1 + |Real.sqrt (max 0 (1 - v.z * v.z)) / v.z| * |Real.sqrt (max 0 (1 - v.z * v.z)) / v.z| *
        Real.sqrt (v.x * v.x / (Real.sqrt (max 0 (1 - v.z * v.z)) * Real.sqrt (max 0 (1 - v.z * v.z))) * ax * ax +
          v.y * v.y / (Real.sqrt (max 0 (1 - v.z * v.z)) * Real.sqrt (max 0 (1 - v.z * v.z))) * ay * ay) *
        Real.sqrt (v.x * v.x / (Real.sqrt (max 0 (1 - v.z * v.z)) * Real.sqrt (max 0 (1 - v.z * v.z))) * ax * ax +
          v.y * v.y / (Real.sqrt (max 0 (1 - v.z * v.z)) * Real.sqrt (max 0 (1 - v.z * v.z))) * ay * ay)) := by
      rw [Real.one_le_sqrt]
      have : ∀ a b : ℝ, 0 ≤ a * a * b * b := fun a b => by nlinarith [mul_self_nonneg (a * b)]
      linarith [this |Real.sqrt (max 0 (1 - v.z * v.z)) / v.z| (Real.sqrt (v.x * v.x / (Real.sqrt (max 0 (1 - v.z * v.z)) * Real.sqrt (max 0 (1 - v.z * v.z))) * ax * ax +
          v.y * v.y / (Real.sqrt (max 0 (1 - v.z * v.z)) * Real.sqrt (max 0 (1 - v.z * v.z))) * ay * ay))]
    linarith
  have a := l wo ho
  have b := l wi hi
  unfold anisoG
  constructor
  · positivity
  · rw [div_le_one (by linarith)]; linarith

/-- **C90** is violated by the anisotropic GGX along the normal, where every microfacet is visible: the
masking is 1/3. -/
theorem C90_violated_aniso (ax ay : ℝ) : anisoG ax ay ⟨0, 0, 1⟩ ⟨0, 0, 1⟩ = 1 / 3 := by
  have l : lambda ⟨0, 0, 1⟩ ax ay = 1 := by simp [lambda]
  rw [anisoG, l]; norm_num

-- A direction between the normal and grazing satisfies the hypotheses of all of C90.
example : ggxG1 (1 / 4) ⟨3 / 5, 0, 4 / 5⟩ < smithGGX (1 / 4) ⟨3 / 5, 0, 4 / 5⟩ ∧
    anisoG (1 / 2) (1 / 3) ⟨3 / 5, 0, 4 / 5⟩ ⟨0, 4 / 5, -3 / 5⟩ ≤ 1 :=
  ⟨C90_violated_ggx _ (by norm_num) _ (by norm_num) (by norm_num [abs_of_pos]),
    (C90_aniso_partial _ _ _ _ ⟨by norm_num, by norm_num [abs_of_pos]⟩ ⟨by norm_num, by norm_num [abs_lt]⟩).2⟩

/-! ### C93 -/

/-- **C93.** With equal roughness along both axes the anisotropic distribution is the isotropic one, in every
unit direction but the normal. -/
theorem C93_isotropic_partial (a : ℝ) (ha : a ≠ 0) (h : V3 ℝ) (hu : dot h h = 1) (hz : |h.z| ≠ 1) :
    anisoD a a h = ggxD (a * a) h := by
  simp only [dot] at hu
  by_cases z0 : h.z = 0
  · simp [anisoD, ggxD, z0]
  have s : h.x * h.x + h.y * h.y = 1 - h.z * h.z := by linarith
  have s0 : 0 ≤ 1 - h.z * h.z := by nlinarith [mul_self_nonneg h.x, mul_self_nonneg h.y]
  have sn : 1 - h.z * h.z ≠ 0 := by
    intro e
    apply hz
    have : |h.z| * |h.z| = 1 := by rw [abs_mul_abs_self]; linarith
    nlinarith [abs_nonneg h.z]
  have sp : 0 < 1 - h.z * h.z := lt_of_le_of_ne s0 (Ne.symm sn)
  simp only [anisoD, ggxD, z0, if_false, max_eq_right s0, sn]
  have hp := Real.pi_ne_zero
  have e : h.x * h.x * (1 / (1 - h.z * h.z)) * (1 / a) * (1 / a) + h.y * h.y * (1 / (1 - h.z * h.z)) * (1 / a) * (1 / a)
      = 1 / (a * a) := by
    have : h.x * h.x * (1 / (1 - h.z * h.z)) * (1 / a) * (1 / a) + h.y * h.y * (1 / (1 - h.z * h.z)) * (1 / a) * (1 / a)
      = (h.x * h.x + h.y * h.y) * (1 / (1 - h.z * h.z)) * (1 / (a * a)) := by field_simp
    rw [this, s, mul_one_div_cancel sn, one_mul]
  rw [e]
  have zz : 0 < h.z * h.z := lt_of_le_of_ne (mul_self_nonneg _) (Ne.symm (mul_self_ne_zero.2 z0))
  have aa : 0 < a * a := lt_of_le_of_ne (mul_self_nonneg _) (Ne.symm (mul_self_ne_zero.2 ha))
  have k1 : 1 + 1 / (a * a) * ((1 - h.z * h.z) * (1 / (h.z * h.z))) =
      (a * a + (1 - h.z * h.z) / (h.z * h.z)) / (a * a) := by field_simp
  rw [k1]
  have pos : 0 < a * a + (1 - h.z * h.z) / (h.z * h.z) := by positivity
  generalize a * a + (1 - h.z * h.z) / (h.z * h.z) = Q at *
  have qn := pos.ne'
  field_simp

/-- **C93** is violated along the normal, the most frequent direction: 1 instead of `1/(π a²)`. -/
theorem C93_violated_normal (a : ℝ) (ha : a ≠ 0) (h1 : a ^ 2 * Real.pi ≠ 1) :
    anisoD a a ⟨0, 0, 1⟩ = 1 ∧ ggxD (a * a) ⟨0, 0, 1⟩ = 1 / (Real.pi * a ^ 2) ∧
    anisoD a a ⟨0, 0, 1⟩ ≠ ggxD (a * a) ⟨0, 0, 1⟩ := by
  have hp := Real.pi_ne_zero
  have A : anisoD a a ⟨0, 0, 1⟩ = 1 := by simp [anisoD]
  have B : ggxD (a * a) ⟨0, 0, 1⟩ = 1 / (Real.pi * a ^ 2) := by
    simp only [ggxD]; norm_num; field_simp
  refine ⟨A, B, ?_⟩
  rw [A, B]
  intro e
  apply h1
  rw [eq_div_iff (by positivity)] at e
  linarith

example : anisoD (1 / 2) (1 / 2) ⟨3 / 5, 0, 4 / 5⟩ = ggxD (1 / 4) ⟨3 / 5, 0, 4 / 5⟩ := by
  have := C93_isotropic_partial (1 / 2) (by norm_num) ⟨3 / 5, 0, 4 / 5⟩ (by norm_num [dot]) (by norm_num [abs_of_pos])
  rw [this]; norm_num

/-! ### C91 -/

theorem scale_dot (v w : V3 ℝ) (c : ℝ) : dot (scale v c) w = c * dot v w := by simp only [dot, scale]; ring

theorem dot_comm (v w : V3 ℝ) : dot v w = dot w v := by simp only [dot]; ring

theorem add_comm' (v w : V3 ℝ) : add v w = add w v := by simp only [add, V3.mk.injEq]; refine ⟨?_, ?_, ?_⟩ <;> ring

theorem normalize_unit (v : V3 ℝ) (h : dot v v = 1) : normalize v = v := by
  simp only [normalize, h, Real.sqrt_one, scale]; norm_num

/-- Normalising a positive multiple of a unit vector. -/
theorem normalize_scale (v : V3 ℝ) (c : ℝ) (h : dot v v = 1) (hc : 0 < c) : normalize (scale v c) = v := by
  have e : dot (scale v c) (scale v c) = c ^ 2 := by
    simp only [dot, scale] at *; linear_combination c ^ 2 * h
  simp only [normalize, e, Real.sqrt_sq hc.le]
  obtain ⟨x, y, z⟩ := v
  simp only [scale, V3.mk.injEq]
  have := hc.ne'
  refine ⟨?_, ?_, ?_⟩ <;> field_simp

theorem normalize_scale_neg (v : V3 ℝ) (c : ℝ) (h : dot v v = 1) (hc : c < 0) : normalize (scale v c) = neg v := by
  have e : scale v c = scale (neg v) (-c) := by simp only [scale, neg, V3.mk.injEq]; refine ⟨?_, ?_, ?_⟩ <;> ring
  rw [e]
  exact normalize_scale _ _ (by simp only [dot, neg] at *; linarith) (by linarith)

/-- **C91.** Rough reflection is reciprocal: exchanging the two (unit) directions does not change the value,
for every distribution with a symmetric masking term. -/
theorem C91_reciprocal (d : Dist) (F : ℝ → ℝ) (hG : ∀ a b, d.G a b = d.G b a) (wo wi : V3 ℝ)
    (ho : dot wo wo = 1) (hi : dot wi wi = 1) : valueR d F wo wi = valueR d F wi wo := by
  have hh : dot wi (normalize (add wo wi)) = dot wo (normalize (add wo wi)) := by
    simp only [normalize, scale, add, dot] at *
    linear_combination (1 / Real.sqrt ((wo.x + wi.x) * (wo.x + wi.x) + (wo.y + wi.y) * (wo.y + wi.y) +
      (wo.z + wi.z) * (wo.z + wi.z))) * (hi - ho)
  unfold valueR
  rw [mul_comm wo.z wi.z, add_comm' wi wo, hG wo wi]
  by_cases c : wi.z * wo.z < 0
  · rw [if_pos c, if_pos c]
  rw [if_neg c, if_neg c]
  simp only
  by_cases k : |wo.z| = 0 ∨ |wi.z| = 0 ∨ ((add wo wi).x = 0 ∧ (add wo wi).y = 0 ∧ (add wo wi).z = 0)
  · rw [if_pos k, if_pos (by tauto)]
  · rw [if_neg k, if_neg (by tauto), hh]
    congr 1; ring

/-- The masking of every distribution is symmetric. -/
theorem C91_symmetric_masking (a2 e ax ay : ℝ) (wo wi : V3 ℝ) :
    (ggx a2).G wo wi = (ggx a2).G wi wo ∧ (blinn e).G wo wi = (blinn e).G wi wo ∧
    anisoG ax ay wo wi = anisoG ax ay wi wo := by
  refine ⟨mul_comm _ _, mul_comm _ _, ?_⟩
  simp only [anisoG]; congr 1; ring

/-- The reflected direction. -/
theorem reflected (wo wh : V3 ℝ) (ho : dot wo wo = 1) (hh : dot wh wh = 1) :
    dot (neg (reflect wo wh)) (neg (reflect wo wh)) = 1 ∧
    add wo (neg (reflect wo wh)) = scale wh (2 * dot wo wh) ∧
    (neg (reflect wo wh)).z = 2 * dot wo wh * wh.z - wo.z := by
  refine ⟨?_, ?_, ?_⟩
  · have := (C87_reflect wo wh hh).2.2.1
    rw [ho] at this
    rw [← this]; simp only [neg, dot]; ring
  · simp only [add, neg, reflect, scale, V3.mk.injEq]; refine ⟨?_, ?_, ?_⟩ <;> ring
  · simp only [neg, reflect]; ring

/-- **C91.** For every unit outgoing direction that is not grazing and every unit half vector on its side:
either the sample is rejected, or the sampled direction is the unit mirror image about the half vector, the
pdf is a non-negative number, it is the one `pdf` gives for the pair, and the half vector `value` computes is
the sampled one.  (The pdf of the distribution is not negative.) -/
theorem C91_sample_partial (d : Dist) (hd : ∀ a b, 0 ≤ d.pdf a b) (wo wh : V3 ℝ) (ho : dot wo wo = 1)
    (hh : dot wh wh = 1) (hz : wo.z ≠ 0) (hs : 0 ≤ wo.z * wh.z) :
    (sampleR d wo wh).2 = some 0 ∨
    (0 < dot wo wh ∧ dot (sampleR d wo wh).1 (sampleR d wo wh).1 = 1 ∧
      normalize (add wo (sampleR d wo wh).1) = wh ∧
      dot wo (sampleR d wo wh).1 = 2 * dot wo wh ^ 2 - 1 ∧
      ∃ p, 0 ≤ p ∧ (sampleR d wo wh).2 = some p ∧ pdfR d wo (sampleR d wo wh).1 = some p) := by
  obtain ⟨r1, r2, r3⟩ := reflected wo wh ho hh
  have nw := normalize_unit _ r1
  unfold sampleR
  simp only [nw]
  by_cases c : wo.z * (neg (reflect wo wh)).z < 0
  · left; rw [if_pos c]
  · right
    rw [if_neg c]
    have dp : 0 < dot wo wh := by
      by_contra hn
      push Not at hn
      apply c
      rw [r3]
      have : 0 < wo.z * wo.z := lt_of_le_of_ne (mul_self_nonneg _) (Ne.symm (mul_self_ne_zero.2 hz))
      nlinarith [mul_nonneg hs (neg_nonneg.2 hn)]
    have half : normalize (add wo (neg (reflect wo wh))) = wh := by
      rw [r2]; exact normalize_scale wh _ hh (by linarith)
    have den : 4 * dot wo wh ≠ 0 := by positivity
    refine ⟨dp, r1, half, ?_, d.pdf wo wh / (4 * dot wo wh), ?_, ?_, ?_⟩
    · simp only [neg, reflect, dot] at *
      linear_combination (-1 : ℝ) * ho
    · exact div_nonneg (hd _ _) (by linarith)
    · simp only [sdiv_some den]
    · simp only [pdfR, c, if_false, half, sdiv_some den]

/-- The pdfs of the distributions are not negative. -/
theorem ggx_pdf_nonneg (a2 : ℝ) (h : 0 ≤ a2) (a b : V3 ℝ) : 0 ≤ (ggx a2).pdf a b := by
  have hp := Real.pi_pos
  simp only [ggx, basePdf]
  refine mul_nonneg ?_ (abs_nonneg _)
  unfold ggxD
  split
  · exact le_rfl
  · simp only
    refine div_nonneg h ?_
    have := mul_self_nonneg (a2 + max 0 (1 - b.z * b.z) / (b.z * b.z))
    have := mul_self_nonneg b.z
    positivity

/-- **C91** is violated for a grazing outgoing direction: the sample is accepted with a negative pdf. -/
theorem C91_violated_grazing : ∃ p, (sampleR (ggx (1 / 4)) ⟨1, 0, 0⟩ ⟨-4 / 5, 0, 3 / 5⟩).2 = some p ∧ p < 0 := by
  have ho : dot (⟨1, 0, 0⟩ : V3 ℝ) ⟨1, 0, 0⟩ = 1 := by norm_num [dot]
  have hh : dot (⟨-4 / 5, 0, 3 / 5⟩ : V3 ℝ) ⟨-4 / 5, 0, 3 / 5⟩ = 1 := by norm_num [dot]
  have dd : dot (⟨1, 0, 0⟩ : V3 ℝ) ⟨-4 / 5, 0, 3 / 5⟩ = -4 / 5 := by norm_num [dot]
  obtain ⟨r1, _, _⟩ := reflected _ _ ho hh
  have hp := Real.pi_pos
  refine ⟨(ggx (1 / 4)).pdf ⟨1, 0, 0⟩ ⟨-4 / 5, 0, 3 / 5⟩ / (4 * (-4 / 5)), ?_, ?_⟩
  · unfold sampleR
    simp only [zero_mul, lt_irrefl, if_false, dd]
    exact sdiv_some (by norm_num)
  · apply div_neg_of_pos_of_neg _ (by norm_num)
    simp only [ggx, basePdf, ggxD]
    norm_num
    positivity

-- A sample that is accepted: a direction 37 degrees off the normal, mirrored about the normal.
example : ∃ p, 0 ≤ p ∧ (sampleR (ggx (1 / 4)) ⟨3 / 5, 0, 4 / 5⟩ ⟨0, 0, 1⟩).2 = some p ∧ p ≠ 0 := by
  have hp := Real.pi_pos
  have r : (neg (reflect ⟨3 / 5, 0, 4 / 5⟩ ⟨0, 0, 1⟩) : V3 ℝ).z = 4 / 5 := by norm_num [neg, reflect, dot]
  have d : dot (⟨3 / 5, 0, 4 / 5⟩ : V3 ℝ) ⟨0, 0, 1⟩ = 4 / 5 := by norm_num [dot]
  have nw := normalize_unit _ (reflected (⟨3 / 5, 0, 4 / 5⟩ : V3 ℝ) ⟨0, 0, 1⟩ (by norm_num [dot]) (by norm_num [dot])).1
  refine ⟨(ggx (1 / 4)).pdf ⟨3 / 5, 0, 4 / 5⟩ ⟨0, 0, 1⟩ / (4 * (4 / 5)), ?_, ?_, ?_⟩
  · exact div_nonneg (ggx_pdf_nonneg _ (by norm_num) _ _) (by norm_num)
  · unfold sampleR
    simp only [nw, r, d]
    rw [if_neg (by norm_num)]
    exact sdiv_some (by norm_num)
  · apply ne_of_gt
    apply div_pos _ (by norm_num)
    simp only [ggx, basePdf, ggxD]
    norm_num
    exact hp

/-! ### C92 -/

/-- The half vector of the refracted direction is a multiple of the one used for the refraction. -/
theorem half_refracted (wo wh : V3 ℝ) (no ni : ℝ) (hi : 0 < ni) (ho : dot wo wo = 1) (hh : dot wh wh = 1)
    (wi : V3 ℝ) (h : refract wo wh (no / ni) = some wi) :
    add (scale (neg wo) no) (neg (scale wi ni)) =
      scale wh (ni * Real.sqrt (1 - (1 - dot wo wh ^ 2) * (no / ni) ^ 2) - no * dot wo wh) := by
  have cs : dot wo wh ^ 2 ≤ 1 := by
    simp only [dot] at *
    nlinarith [sq_nonneg (wo.x * wh.y - wo.y * wh.x), sq_nonneg (wo.y * wh.z - wo.z * wh.y), sq_nonneg (wo.x * wh.z - wo.z * wh.x)]
  have m : max 0 (1 - dot wo wh * dot wo wh) = 1 - dot wo wh ^ 2 := by
    rw [max_eq_right (by nlinarith)]; ring
  have m2 : (1 - dot wo wh ^ 2) * (no / ni) * (no / ni) = (1 - dot wo wh ^ 2) * (no / ni) ^ 2 := by ring
  simp only [refract, m, m2] at h
  split at h
  · cases h
  · cases h
    generalize Real.sqrt (1 - (1 - dot wo wh ^ 2) * (no / ni) ^ 2) = c
    generalize dot wo wh = e
    simp only [add, neg, scale, V3.mk.injEq]
    refine ⟨?_, ?_, ?_⟩ <;> (field_simp; ring)

/-- A distribution whose pdf does not distinguish a half vector from its opposite. -/
def Even (d : Dist) : Prop := ∀ wo wh, d.pdf wo (neg wh) = d.pdf wo wh

theorem ggx_even (a2 : ℝ) : Even (ggx a2) := by
  intro wo wh
  simp only [ggx, basePdf, ggxD, neg, neg_eq_zero, neg_mul_neg, abs_neg]

theorem jacobian_even (no ni : ℝ) (wo wi wh : V3 ℝ) : jacobian no ni wo wi (neg wh) = jacobian no ni wo wi wh := by
  have e1 : dot wi (neg wh) = -dot wi wh := by simp only [dot, neg]; ring
  have e2 : dot wo (neg wh) = -dot wo wh := by simp only [dot, neg]; ring
  simp only [jacobian, e1, e2, abs_neg]
  congr 1; ring

/-- **C92.** For every even distribution, different indices, a (unit) half vector and outgoing direction:
whenever a direction on the other side is sampled, `pdf` gives the pdf that was reported with it. -/
theorem C92_pdf_agrees_partial (d : Dist) (hd : Even d) (a b : ℝ) (ha : 0 < a) (hb : 0 < b) (hab : a ≠ b)
    (wo wh : V3 ℝ) (ho : dot wo wo = 1) (hh : dot wh wh = 1) (hs : 0 ≤ dot wo wh)
    (wi : V3 ℝ) (p : ℝ) (h : sampleT d a b wo wh = .ray wi p) (hz : wo.z * wi.z ≤ 0) :
    pdfT d a b wo wi = some p := by
  unfold sampleT at h
  split at h
  · cases h
  rename_i z0
  simp only at h
  obtain ⟨no, hno⟩ : ∃ no, no = (etas a b wo.z).1 := ⟨_, rfl⟩
  obtain ⟨ni, hni⟩ : ∃ ni, ni = (etas a b wo.z).2 := ⟨_, rfl⟩
  rw [← hno, ← hni] at h
  have pno : 0 < no := by rw [hno]; unfold etas; split <;> assumption
  have pni : 0 < ni := by rw [hni]; unfold etas; split <;> assumption
  have ne : no ≠ ni := by
    rw [hno, hni]; unfold etas; split
    · exact hab
    · exact Ne.symm hab
  cases hr : refract wo wh (no / ni) with
  | none => rw [hr] at h; cases h
  | some t =>
    rw [hr] at h
    simp only at h
    have tu := (refract_eq wo wh (no / ni) ho hh t hr).1
    have hv := half_refracted wo wh no ni pni ho hh t hr
    rw [normalize_unit t tu] at h
    cases hj : jacobian no ni wo t wh with
    | none => rw [hj] at h; cases h
    | some j =>
      rw [hj] at h
      simp only [SampledT.ray.injEq] at h
      obtain ⟨h1, h2⟩ := h
      subst h1
      unfold pdfT
      rw [if_neg (not_lt.2 hz)]
      simp only [← hno, ← hni]
      obtain ⟨k, hk⟩ : ∃ k, k = ni * Real.sqrt (1 - (1 - dot wo wh ^ 2) * (no / ni) ^ 2) - no * dot wo wh := ⟨_, rfl⟩
      rw [← hk] at hv
      have k0 : k ≠ 0 := by
        intro e
        rw [e] at hk
        have nn : 0 ≤ 1 - (1 - dot wo wh ^ 2) * (no / ni) ^ 2 := by
          by_contra hn
          push Not at hn
          have := (C87_refract_partial wo wh (no / ni) ho hh hs).2.2 (by linarith)
          rw [this] at hr; cases hr
        have sq := Real.sq_sqrt nn
        have e1 : ni * Real.sqrt (1 - (1 - dot wo wh ^ 2) * (no / ni) ^ 2) = no * dot wo wh := by linarith
        have e2 : ni ^ 2 * (1 - (1 - dot wo wh ^ 2) * (no / ni) ^ 2) = no ^ 2 * dot wo wh ^ 2 := by
          rw [← sq]; linear_combination (ni * Real.sqrt (1 - (1 - dot wo wh ^ 2) * (no / ni) ^ 2) + no * dot wo wh) * e1
        have e3 : ni ^ 2 = no ^ 2 := by
          have : ni ^ 2 * (1 - (1 - dot wo wh ^ 2) * (no / ni) ^ 2) = ni ^ 2 - (1 - dot wo wh ^ 2) * no ^ 2 := by
            field_simp
          rw [this] at e2; linarith
        apply ne
        nlinarith [sq_nonneg (ni - no)]
      have nz : ¬ ((scale wh k).x = 0 ∧ (scale wh k).y = 0 ∧ (scale wh k).z = 0) := by
        rintro ⟨x0, y0, w0⟩
        simp only [scale, mul_eq_zero, k0, or_false] at x0 y0 w0
        simp only [dot, x0, y0, w0] at hh
        norm_num at hh
      rw [hv, if_neg nz]
      rcases lt_or_gt_of_ne k0 with kn | kp
      · rw [normalize_scale_neg wh k hh kn, jacobian_even, hj, hd]
        simp [h2]
      · rw [normalize_scale wh k hh kp, hj]
        simp [h2]

theorem refract_normal (η z : ℝ) (hz : z = 1 ∨ z = -1) : refract ⟨0, 0, z⟩ ⟨0, 0, z⟩ η = some ⟨0, 0, -z⟩ := by
  have d : dot (⟨0, 0, z⟩ : V3 ℝ) ⟨0, 0, z⟩ = 1 := by rcases hz with rfl | rfl <;> norm_num [dot]
  simp only [refract, d]
  norm_num
  ring

-- The straight ray into glass: sampled with a positive pdf, on the other side.
example : ∃ p, 0 < p ∧ sampleT (ggx (1 / 4)) 1 (3 / 2) ⟨0, 0, 1⟩ ⟨0, 0, 1⟩ = .ray ⟨0, 0, -1⟩ p ∧
    pdfT (ggx (1 / 4)) 1 (3 / 2) ⟨0, 0, 1⟩ ⟨0, 0, -1⟩ = some p := by
  have hp := Real.pi_pos
  have et : etas 1 (3 / 2) 1 = (1, 3 / 2) := by simp [etas]
  have j : jacobian 1 (3 / 2) ⟨0, 0, 1⟩ ⟨0, 0, -1⟩ ⟨0, 0, 1⟩ = some 4 := by
    simp only [jacobian, dot]; rw [sdiv_some (by norm_num)]; norm_num
  have nu : normalize (⟨0, 0, -1⟩ : V3 ℝ) = ⟨0, 0, -1⟩ := normalize_unit _ (by norm_num [dot])
  have h : sampleT (ggx (1 / 4)) 1 (3 / 2) ⟨0, 0, 1⟩ ⟨0, 0, 1⟩ =
      .ray ⟨0, 0, -1⟩ ((ggx (1 / 4)).pdf ⟨0, 0, 1⟩ ⟨0, 0, 1⟩ * 4) := by
    unfold sampleT
    simp only [et, refract_normal (1 / (3 / 2)) 1 (Or.inl rfl), j, nu]
    norm_num
  refine ⟨_, ?_, h, C92_pdf_agrees_partial _ (ggx_even _) _ _ (by norm_num) (by norm_num) (by norm_num) _ _
    (by norm_num [dot]) (by norm_num [dot]) (by norm_num [dot]) _ _ h (by norm_num)⟩
  simp only [ggx, basePdf, ggxD]
  norm_num
  exact hp

/-- **C92** is violated by the Blinn distribution for rays leaving the material, already for the straight
ray: a positive pdf is reported with the sample and 0 by `pdf`. -/
theorem C92_violated_blinn (e : ℝ) (he : 0 ≤ e) :
    ∃ p, 0 < p ∧ sampleT (blinn e) 1 (3 / 2) ⟨0, 0, -1⟩ ⟨0, 0, -1⟩ = .ray ⟨0, 0, 1⟩ p ∧
    pdfT (blinn e) 1 (3 / 2) ⟨0, 0, -1⟩ ⟨0, 0, 1⟩ = some 0 := by
  have hp := Real.pi_pos
  have et : etas 1 (3 / 2) (-1) = (3 / 2, 1) := by simp [etas]
  have r := refract_normal (3 / 2 / 1) (-1) (Or.inr rfl)
  have j : jacobian (3 / 2) 1 ⟨0, 0, -1⟩ ⟨0, 0, 1⟩ ⟨0, 0, -1⟩ = some 9 := by
    simp only [jacobian, dot]; rw [sdiv_some (by norm_num)]; norm_num
  have j' : jacobian (3 / 2) 1 ⟨0, 0, -1⟩ ⟨0, 0, 1⟩ ⟨0, 0, 1⟩ = some 9 := by
    simp only [jacobian, dot]; rw [sdiv_some (by norm_num)]; norm_num
  have pd : (blinn e).pdf ⟨0, 0, -1⟩ ⟨0, 0, -1⟩ = (e + 2) / (2 * Real.pi) := by
    simp only [blinn, blinnPdf, dot]; norm_num
  have pd0 : (blinn e).pdf ⟨0, 0, -1⟩ ⟨0, 0, 1⟩ = 0 := by
    simp only [blinn, blinnPdf, dot]; norm_num
  have nu : normalize (⟨0, 0, 1⟩ : V3 ℝ) = ⟨0, 0, 1⟩ := normalize_unit _ (by norm_num [dot])
  refine ⟨(e + 2) / (2 * Real.pi) * 9, by positivity, ?_, ?_⟩
  · unfold sampleT
    simp only [et, r, neg_neg, j, pd, nu]
    norm_num
  · unfold pdfT
    have hv : add (scale (neg ⟨0, 0, -1⟩) (3 / 2)) (neg (scale ⟨0, 0, 1⟩ 1)) = scale (⟨0, 0, 1⟩ : V3 ℝ) (1 / 2) := by
      simp only [add, scale, neg, V3.mk.injEq]; norm_num
    simp only [et]
    rw [if_neg (by norm_num), hv, if_neg (by norm_num [scale]),
      normalize_scale _ _ (by norm_num [dot]) (by norm_num), j', pd0]
    simp

/-- The half vector with the given tangential components. -/
noncomputable def around (u v : ℝ) : V3 ℝ := ⟨u, v, Real.sqrt (1 - u ^ 2 - v ^ 2)⟩

/-- For the straight ray, the refracted direction depends on the half vector by `(u,v) ↦ (η-1)·(u,v)` to
first order. -/
theorem refract_around (η u v : ℝ) (h : u ^ 2 + v ^ 2 < 1) (h' : (u ^ 2 + v ^ 2) * η ^ 2 ≤ 1) :
    ∃ t, refract ⟨0, 0, 1⟩ (around u v) η = some t ∧
      t.x = u * (Real.sqrt (1 - u ^ 2 - v ^ 2) * η - Real.sqrt (1 - (u ^ 2 + v ^ 2) * η ^ 2)) ∧
      t.y = v * (Real.sqrt (1 - u ^ 2 - v ^ 2) * η - Real.sqrt (1 - (u ^ 2 + v ^ 2) * η ^ 2)) := by
  have d : dot (⟨0, 0, 1⟩ : V3 ℝ) (around u v) = Real.sqrt (1 - u ^ 2 - v ^ 2) := by simp [dot, around]
  have n0 : 0 ≤ 1 - u ^ 2 - v ^ 2 := by linarith
  have m : max 0 (1 - Real.sqrt (1 - u ^ 2 - v ^ 2) * Real.sqrt (1 - u ^ 2 - v ^ 2)) = u ^ 2 + v ^ 2 := by
    rw [Real.mul_self_sqrt n0, max_eq_right (by nlinarith [sq_nonneg u, sq_nonneg v])]; ring
  have m2 : (u ^ 2 + v ^ 2) * η * η = (u ^ 2 + v ^ 2) * η ^ 2 := by ring
  simp only [refract, d, m, m2]
  rw [if_neg (not_lt.2 h')]
  refine ⟨_, rfl, ?_, ?_⟩ <;> simp [around]

theorem deriv_core (η : ℝ) :
    HasDerivAt (fun u : ℝ => u * (Real.sqrt (1 - u ^ 2) * η - Real.sqrt (1 - u ^ 2 * η ^ 2))) (η - 1) 0 := by
  have a : HasDerivAt (fun u : ℝ => 1 - u ^ 2) 0 0 := by
    simpa using (hasDerivAt_pow 2 (0 : ℝ)).const_sub 1
  have b : HasDerivAt (fun u : ℝ => 1 - u ^ 2 * η ^ 2) 0 0 := by
    simpa using ((hasDerivAt_pow 2 (0 : ℝ)).mul_const (η ^ 2)).const_sub 1
  have sa := a.sqrt (by norm_num)
  have sb := b.sqrt (by norm_num)
  refine HasDerivAt.congr_deriv ((hasDerivAt_id (0 : ℝ)).mul ((sa.mul_const η).sub sb)) ?_
  norm_num

/-- **C92** is violated: the Jacobian is not the one of the change from half vector to refracted direction.
For the straight ray through any interface, moving the half vector by a small `(u,v)` moves the refracted
direction by `(η-1)(u,v)`, where `η = no/ni`: so the density changes by the factor `1/(η-1)²`; the code uses
`η²` times that. -/
theorem C92_violated_jacobian (no ni : ℝ) (ho : 0 < no) (hi : 0 < ni) (hne : no ≠ ni) :
    ∃ tx ty : ℝ → ℝ,
      (∀ᶠ u in nhds (0 : ℝ), ∃ t, refract ⟨0, 0, 1⟩ (around u 0) (no / ni) = some t ∧ t.x = tx u ∧ t.y = 0) ∧
      (∀ᶠ v in nhds (0 : ℝ), ∃ t, refract ⟨0, 0, 1⟩ (around 0 v) (no / ni) = some t ∧ t.y = ty v ∧ t.x = 0) ∧
      HasDerivAt tx (no / ni - 1) 0 ∧ HasDerivAt ty (no / ni - 1) 0 ∧
      ∃ j, jacobian no ni ⟨0, 0, 1⟩ ⟨0, 0, -1⟩ (around 0 0) = some j ∧
        j * ((no / ni - 1) * (no / ni - 1)) = (no / ni) ^ 2 ∧ j * ((no / ni - 1) * (no / ni - 1)) ≠ 1 := by
  have near : ∀ᶠ u in nhds (0 : ℝ), u ^ 2 < 1 ∧ u ^ 2 * (no / ni) ^ 2 ≤ 1 := by
    have c1 : ∀ᶠ u in nhds (0 : ℝ), u ^ 2 < 1 := by
      have : ContinuousAt (fun u : ℝ => u ^ 2) 0 := by fun_prop
      exact this.eventually_lt continuousAt_const (by norm_num)
    have c2 : ∀ᶠ u in nhds (0 : ℝ), u ^ 2 * (no / ni) ^ 2 < 1 := by
      have : ContinuousAt (fun u : ℝ => u ^ 2 * (no / ni) ^ 2) 0 := by fun_prop
      exact this.eventually_lt continuousAt_const (by norm_num)
    filter_upwards [c1, c2] with u h1 h2
    exact ⟨h1, h2.le⟩
  refine ⟨_, _, ?_, ?_, deriv_core (no / ni), deriv_core (no / ni), ?_⟩
  · filter_upwards [near] with u hu
    obtain ⟨t, h1, h2, h3⟩ := refract_around (no / ni) u 0 (by simpa using hu.1) (by simpa using hu.2)
    exact ⟨t, h1, by simpa using h2, by simpa using h3⟩
  · filter_upwards [near] with v hv
    obtain ⟨t, h1, h2, h3⟩ := refract_around (no / ni) 0 v (by simpa using hv.1) (by simpa using hv.2)
    exact ⟨t, h1, by simpa using h3, by simpa using h2⟩
  · have a0 : around 0 0 = ⟨0, 0, 1⟩ := by simp [around]
    have d : (no - ni) ≠ 0 := sub_ne_zero.2 hne
    refine ⟨no * no / ((no - ni) * (no - ni)), ?_, ?_, ?_⟩
    · rw [a0]
      simp only [jacobian, dot]
      have e : ni * (0 * 0 + 0 * 0 + -1 * 1) + no * (0 * 0 + 0 * 0 + 1 * 1) = no - ni := by ring
      rw [e, sdiv_some (mul_self_ne_zero.2 d)]
      norm_num
    · have : no / ni - 1 = (no - ni) / ni := by field_simp
      rw [this]; field_simp
    · have : no * no / ((no - ni) * (no - ni)) * ((no / ni - 1) * (no / ni - 1)) = (no / ni) ^ 2 := by
        have : no / ni - 1 = (no - ni) / ni := by field_simp
        rw [this]; field_simp
      rw [this]
      intro h1
      apply hne
      have : no / ni = 1 := by
        have p : 0 < no / ni := by positivity
        nlinarith
      field_simp at this
      exact this

end Spectre.Microfacet
