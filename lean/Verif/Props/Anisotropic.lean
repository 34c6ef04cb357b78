import Verif.Props.HalfVec
import Mathlib.MeasureTheory.Function.JacobianOneDim
import Mathlib.MeasureTheory.Measure.Lebesgue.Basic

/-
Properties C88 and C89 for the anisotropic distribution: the half vectors are drawn with the reported
density, for every measurable set of directions, and the distribution is normalised.
-/

namespace Spectre.Microfacet

open Spectre.Geom Spectre.Specular MeasureTheory Set

/-! ### Spec -/

/-- The direction of cosine `z` and azimuth `phi`. -/
noncomputable def polar (phi z : ℝ) : V3 ℝ :=
  ⟨Real.sqrt (1 - z ^ 2) * Real.cos phi, Real.sqrt (1 - z ^ 2) * Real.sin phi, z⟩

/-- A direction of the upper hemisphere moved to the side of `wo`. -/
noncomputable def onSide (wo h : V3 ℝ) : V3 ℝ := if wo.z < 0 then neg h else h

/-- Integral over the hemisphere, in the coordinates azimuth and cosine (the solid angle is their product). -/
noncomputable def hemisphere (f : ℝ → ℝ → ENNReal) : ENNReal :=
  ∫⁻ phi in Ioo (-(Real.pi / 2)) (3 * Real.pi / 2), ∫⁻ z in Ioo (0 : ℝ) 1, f phi z

/-- Probability with which two independent uniform random numbers in [0,1) are mapped into `H`. -/
noncomputable def drawn2 (sample : ℝ → ℝ → V3 ℝ) (H : Set (V3 ℝ)) : ENNReal :=
  volume {r : ℝ × ℝ | r.1 ∈ Ico (0 : ℝ) 1 ∧ r.2 ∈ Ico (0 : ℝ) 1 ∧ sample r.1 r.2 ∈ H}

/-! ### Change of variables -/

theorem push (s : Set ℝ) (f f' w : ℝ → ℝ) (g : ℝ → ENNReal) (hs : MeasurableSet s)
    (hf' : ∀ x ∈ s, HasDerivAt f (f' x) x) (hf : InjOn f s) (hw : ∀ x ∈ s, |f' x| * w (f x) = 1) :
    ∫⁻ x in s, g (f x) = ∫⁻ y in f '' s, ENNReal.ofReal (w y) * g y := by
  rw [lintegral_image_eq_lintegral_abs_deriv_mul hs (fun x hx => (hf' x hx).hasDerivWithinAt) hf]
  refine setLIntegral_congr_fun hs fun x hx => ?_
  rw [← mul_assoc, ← ENNReal.ofReal_mul (abs_nonneg _), hw x hx, ENNReal.ofReal_one, one_mul]

/-- The half turn made by the azimuth while the second random number runs over half of the unit interval. -/
theorem half_turn (k : ℝ) (hk : 0 < k) :
    (fun r => Real.arctan (k * Real.tan (2 * Real.pi * r - Real.pi / 2))) '' Ioo 0 (1 / 2) =
      Ioo (-(Real.pi / 2)) (Real.pi / 2) ∧
    InjOn (fun r => Real.arctan (k * Real.tan (2 * Real.pi * r - Real.pi / 2))) (Ioo 0 (1 / 2)) := by
  have hp := Real.pi_pos
  have rng : ∀ r ∈ Ioo (0 : ℝ) (1 / 2), 2 * Real.pi * r - Real.pi / 2 ∈ Ioo (-(Real.pi / 2)) (Real.pi / 2) := by
    rintro r ⟨h0, h1⟩
    constructor <;> nlinarith
  constructor
  · ext φ
    constructor
    · rintro ⟨r, -, rfl⟩
      exact ⟨Real.neg_pi_div_two_lt_arctan _, Real.arctan_lt_pi_div_two _⟩
    · rintro ⟨h0, h1⟩
      have a0 := Real.neg_pi_div_two_lt_arctan (Real.tan φ / k)
      have a1 := Real.arctan_lt_pi_div_two (Real.tan φ / k)
      refine ⟨(Real.arctan (Real.tan φ / k) + Real.pi / 2) / (2 * Real.pi), ⟨?_, ?_⟩, ?_⟩
      · apply div_pos <;> linarith
      · rw [div_lt_iff₀ (by linarith)]; linarith
      · simp only
        rw [mul_div_cancel₀ _ (by positivity), add_sub_cancel_right, Real.tan_arctan, mul_div_cancel₀ _ hk.ne',
          Real.arctan_tan h0 h1]
  · intro x hx y hy e
    have e1 := Real.arctan_injective e
    have e2 := mul_left_cancel₀ hk.ne' e1
    have e3 := Real.injOn_tan (rng x hx) (rng y hy) e2
    have : 2 * Real.pi * x = 2 * Real.pi * y := by linarith
    exact mul_left_cancel₀ (by positivity) this

theorem phi_first (ax ay r : ℝ) (hr : r < 1 / 2) :
    anisoPhi ax ay r = Real.arctan (ay / ax * Real.tan (2 * Real.pi * r - Real.pi / 2)) := by
  simp only [anisoPhi, if_neg (not_lt.2 hr.le)]
  rw [← Real.tan_add_pi (2 * Real.pi * r - Real.pi / 2)]
  congr 3; ring

theorem phi_second (ax ay r : ℝ) (hr : 1 / 2 < r) :
    anisoPhi ax ay r =
      Real.arctan (ay / ax * Real.tan (2 * Real.pi * (r - 1 / 2) - Real.pi / 2)) + Real.pi := by
  simp only [anisoPhi, if_pos hr]
  rw [← Real.tan_add_pi (2 * Real.pi * (r - 1 / 2) - Real.pi / 2),
    ← Real.tan_add_pi (2 * Real.pi * (r - 1 / 2) - Real.pi / 2 + Real.pi)]
  congr 4; ring

theorem first_image (ax ay : ℝ) (hx : 0 < ax) (hy : 0 < ay) :
    anisoPhi ax ay '' Ioo 0 (1 / 2) = Ioo (-(Real.pi / 2)) (Real.pi / 2) ∧ InjOn (anisoPhi ax ay) (Ioo 0 (1 / 2)) := by
  obtain ⟨a, b⟩ := half_turn (ay / ax) (div_pos hy hx)
  have e : EqOn (fun r => Real.arctan (ay / ax * Real.tan (2 * Real.pi * r - Real.pi / 2))) (anisoPhi ax ay)
      (Ioo 0 (1 / 2)) := fun r h => (phi_first ax ay r h.2).symm
  exact ⟨by rw [← a, image_congr e], b.congr e⟩

theorem second_image (ax ay : ℝ) (hx : 0 < ax) (hy : 0 < ay) :
    anisoPhi ax ay '' Ioo (1 / 2) 1 = Ioo (Real.pi / 2) (3 * Real.pi / 2) ∧ InjOn (anisoPhi ax ay) (Ioo (1 / 2) 1) := by
  obtain ⟨a, b⟩ := half_turn (ay / ax) (div_pos hy hx)
  constructor
  · ext φ
    constructor
    · rintro ⟨r, hr, rfl⟩
      rw [phi_second ax ay r hr.1]
      have h0 := Real.neg_pi_div_two_lt_arctan (ay / ax * Real.tan (2 * Real.pi * (r - 1 / 2) - Real.pi / 2))
      have h1 := Real.arctan_lt_pi_div_two (ay / ax * Real.tan (2 * Real.pi * (r - 1 / 2) - Real.pi / 2))
      constructor <;> linarith
    · rintro ⟨h0, h1⟩
      have : φ - Real.pi ∈ Ioo (-(Real.pi / 2)) (Real.pi / 2) := ⟨by linarith, by linarith⟩
      rw [← a] at this
      obtain ⟨r, hr, e⟩ := this
      refine ⟨r + 1 / 2, ⟨by linarith [hr.1], by linarith [hr.2]⟩, ?_⟩
      rw [phi_second ax ay _ (by linarith [hr.1]), add_sub_cancel_right]
      simp only at e
      linarith
  · intro x hx' y hy' e
    rw [phi_second ax ay x hx'.1, phi_second ax ay y hy'.1] at e
    have := b ⟨by linarith [hx'.1], by linarith [hx'.2]⟩ ⟨by linarith [hy'.1], by linarith [hy'.2]⟩ (add_right_cancel e)
    linarith

theorem cos_ne (r : ℝ) (h0 : 0 < r) (h1 : r < 1) (hr : r ≠ 1 / 2) :
    Real.cos (2 * Real.pi * r + 1 / 2 * Real.pi) ≠ 0 := by
  have hp := Real.pi_pos
  rw [show 2 * Real.pi * r + 1 / 2 * Real.pi = 2 * Real.pi * r + Real.pi / 2 by ring, Real.cos_add_pi_div_two, neg_ne_zero]
  rcases lt_or_gt_of_ne hr with h | h
  · exact (Real.sin_pos_of_pos_of_lt_pi (by positivity) (by nlinarith)).ne'
  · rw [show 2 * Real.pi * r = (2 * Real.pi * r - Real.pi) + Real.pi by ring, Real.sin_add_pi, neg_ne_zero]
    exact (Real.sin_pos_of_pos_of_lt_pi (by nlinarith) (by nlinarith)).ne'

/-- Density of the azimuth. -/
theorem azimuth_law (ax ay : ℝ) (hx : 0 < ax) (hy : 0 < ay) (g : ℝ → ENNReal) :
    ∫⁻ r in Ico (0 : ℝ) 1, g (anisoPhi ax ay r) =
      ∫⁻ φ in Ioo (-(Real.pi / 2)) (3 * Real.pi / 2),
        ENNReal.ofReal (along ax ay φ / (2 * Real.pi * ax * ay)) * g φ := by
  have hp := Real.pi_pos
  have w : ∀ r, |2 * Real.pi * ax * ay / along ax ay (anisoPhi ax ay r)| *
      (along ax ay (anisoPhi ax ay r) / (2 * Real.pi * ax * ay)) = 1 := by
    intro r
    have := along_pos ax ay (anisoPhi ax ay r) hx hy
    rw [abs_of_pos (by positivity)]
    field_simp
  have A := push (Ioo 0 (1 / 2)) (anisoPhi ax ay) (fun r => 2 * Real.pi * ax * ay / along ax ay (anisoPhi ax ay r))
    (fun φ => along ax ay φ / (2 * Real.pi * ax * ay)) g measurableSet_Ioo
    (fun r h => aniso_azimuth ax ay r hx hy h.2.ne' (cos_ne r h.1 (by linarith [h.2]) h.2.ne))
    (first_image ax ay hx hy).2 (fun r _ => w r)
  have B := push (Ioo (1 / 2) 1) (anisoPhi ax ay) (fun r => 2 * Real.pi * ax * ay / along ax ay (anisoPhi ax ay r))
    (fun φ => along ax ay φ / (2 * Real.pi * ax * ay)) g measurableSet_Ioo
    (fun r h => aniso_azimuth ax ay r hx hy h.1.ne (cos_ne r (by linarith [h.1]) h.2 h.1.ne'))
    (second_image ax ay hx hy).2 (fun r _ => w r)
  rw [(first_image ax ay hx hy).1] at A
  rw [(second_image ax ay hx hy).1] at B
  have split : ∀ (a b c : ℝ) (f : ℝ → ENNReal), a < b → b < c →
      ∫⁻ x in Ioo a c, f x = (∫⁻ x in Ioo a b, f x) + ∫⁻ x in Ioo b c, f x := by
    intro a b c f h1 h2
    rw [← Ioc_union_Ioo_eq_Ioo h1.le h2, lintegral_union measurableSet_Ioo
      (Set.disjoint_left.2 fun x hx hy => absurd hx.2 (not_le.2 hy.1)), setLIntegral_congr Ioo_ae_eq_Ioc.symm]
  rw [setLIntegral_congr Ioo_ae_eq_Ico.symm, split 0 (1 / 2) 1 _ (by norm_num) (by norm_num), A, B,
    ← split _ _ _ _ (by linarith) (by linarith)]

theorem anisoCos_sq (ax ay φ r : ℝ) (hx : 0 < ax) (hy : 0 < ay) (h0 : 0 ≤ r) (h1 : r < 1) :
    0 < anisoCos ax ay φ r ∧ anisoCos ax ay φ r ^ 2 = (1 - r) / (1 - r + along ax ay φ * r) := by
  have p := along_pos ax ay φ hx hy
  have n0 : 0 < 1 - r := by linarith
  have q : 1 ≤ 1 + along ax ay φ * r / (1 - r) := by
    have : 0 ≤ along ax ay φ * r / (1 - r) := by positivity
    linarith
  rw [anisoCos_eq]
  refine ⟨(inv_sqrt_le _ q).1, ?_⟩
  rw [div_pow, Real.sq_sqrt (by linarith)]
  field_simp

/-- The first random number recovered from the cosine. -/
theorem recover (ax ay φ r : ℝ) (hx : 0 < ax) (hy : 0 < ay) (h0 : 0 ≤ r) (h1 : r < 1) :
    1 - r = anisoCos ax ay φ r ^ 2 * along ax ay φ /
      (1 - anisoCos ax ay φ r ^ 2 + anisoCos ax ay φ r ^ 2 * along ax ay φ) := by
  have p := along_pos ax ay φ hx hy
  rw [(anisoCos_sq ax ay φ r hx hy h0 h1).2]
  have n0 : 0 < 1 - r := by linarith
  have d : 0 < 1 - r + along ax ay φ * r := by positivity
  have e : 1 - (1 - r) / (1 - r + along ax ay φ * r) + (1 - r) / (1 - r + along ax ay φ * r) * along ax ay φ =
      along ax ay φ / (1 - r + along ax ay φ * r) := by field_simp; ring
  rw [e]
  field_simp

theorem cos_image (ax ay φ : ℝ) (hx : 0 < ax) (hy : 0 < ay) :
    anisoCos ax ay φ '' Ioo 0 1 = Ioo 0 1 ∧ InjOn (anisoCos ax ay φ) (Ioo 0 1) := by
  have p := along_pos ax ay φ hx hy
  constructor
  · ext z
    constructor
    · rintro ⟨r, ⟨h0, h1⟩, rfl⟩
      obtain ⟨c, s⟩ := anisoCos_sq ax ay φ r hx hy h0.le h1
      refine ⟨c, ?_⟩
      have : anisoCos ax ay φ r ^ 2 < 1 := by
        have d : 0 < 1 - r + along ax ay φ * r := by
          have : 0 < 1 - r := by linarith
          positivity
        rw [s, div_lt_one d]
        have : 0 < along ax ay φ * r := by positivity
        linarith
      nlinarith
    · rintro ⟨h0, h1⟩
      have z2 : 0 < 1 - z ^ 2 := by nlinarith
      have d : 0 < 1 - z ^ 2 + z ^ 2 * along ax ay φ := by positivity
      refine ⟨(1 - z ^ 2) / (1 - z ^ 2 + z ^ 2 * along ax ay φ), ⟨by positivity, ?_⟩, ?_⟩
      · rw [div_lt_one d]
        have : 0 < z ^ 2 * along ax ay φ := by positivity
        linarith
      · obtain ⟨c, s⟩ := anisoCos_sq ax ay φ ((1 - z ^ 2) / (1 - z ^ 2 + z ^ 2 * along ax ay φ)) hx hy (by positivity)
          (by rw [div_lt_one d]
              have : 0 < z ^ 2 * along ax ay φ := by positivity
              linarith)
        have : anisoCos ax ay φ ((1 - z ^ 2) / (1 - z ^ 2 + z ^ 2 * along ax ay φ)) ^ 2 = z ^ 2 := by
          rw [s]
          have e1 : 1 - (1 - z ^ 2) / (1 - z ^ 2 + z ^ 2 * along ax ay φ) =
              z ^ 2 * along ax ay φ / (1 - z ^ 2 + z ^ 2 * along ax ay φ) := by field_simp; ring
          rw [e1, mul_div_assoc', ← add_div, div_div_div_cancel_right₀ d.ne']
          rw [div_eq_iff (by positivity)]; ring
        exact (pow_left_inj₀ c.le h0.le two_ne_zero).1 this
  · intro x hx' y hy' e
    have a := recover ax ay φ x hx hy hx'.1.le hx'.2
    have b := recover ax ay φ y hx hy hy'.1.le hy'.2
    rw [e, ← b] at a
    linarith

/-- Density of the cosine, for a given azimuth. -/
theorem cosine_law (ax ay φ : ℝ) (hx : 0 < ax) (hy : 0 < ay) (g : ℝ → ENNReal) :
    ∫⁻ r in Ico (0 : ℝ) 1, g (anisoCos ax ay φ r) =
      ∫⁻ z in Ioo (0 : ℝ) 1,
        ENNReal.ofReal (2 * z * along ax ay φ / (1 - z ^ 2 + z ^ 2 * along ax ay φ) ^ 2) * g z := by
  have p := along_pos ax ay φ hx hy
  have A := push (Ioo 0 1) (anisoCos ax ay φ)
    (fun r => -(along ax ay φ / (1 - r) ^ 2) / 2 * anisoCos ax ay φ r ^ 3)
    (fun z => 2 * z * along ax ay φ / (1 - z ^ 2 + z ^ 2 * along ax ay φ) ^ 2) g measurableSet_Ioo
    (fun r h => aniso_cosine ax ay φ r hx hy h.1.le h.2) (cos_image ax ay φ hx hy).2 (by
      intro r h
      obtain ⟨c, s⟩ := anisoCos_sq ax ay φ r hx hy h.1.le h.2
      have rc := recover ax ay φ r hx hy h.1.le h.2
      have n0 : 0 < 1 - r := by linarith [h.2]
      have d : 0 < 1 - anisoCos ax ay φ r ^ 2 + anisoCos ax ay φ r ^ 2 * along ax ay φ := by
        by_contra hd
        have : anisoCos ax ay φ r ^ 2 * along ax ay φ /
          (1 - anisoCos ax ay φ r ^ 2 + anisoCos ax ay φ r ^ 2 * along ax ay φ) ≤ 0 :=
          div_nonpos_of_nonneg_of_nonpos (by positivity) (not_lt.1 hd)
        linarith
      rw [show -(along ax ay φ / (1 - r) ^ 2) / 2 * anisoCos ax ay φ r ^ 3 =
        -(along ax ay φ / (1 - r) ^ 2 / 2 * anisoCos ax ay φ r ^ 3) by ring, abs_neg, abs_of_pos (by positivity), rc]
      generalize anisoCos ax ay φ r = w at *
      generalize along ax ay φ = L at *
      have d' := d.ne'
      field_simp
      exact div_self (by rwa [mul_comm L]))
  rw [(cos_image ax ay φ hx hy).1] at A
  rw [setLIntegral_congr Ioo_ae_eq_Ico.symm, A]

/-- The reported density of a direction. -/
theorem density (ax ay φ z : ℝ) (wo : V3 ℝ) (hx : 0 < ax) (hy : 0 < ay) (h0 : 0 < z) (h1 : z < 1) :
    basePdf (anisoD ax ay) (onSide wo (polar φ z)) =
      along ax ay φ / (2 * Real.pi * ax * ay) *
        (2 * z * along ax ay φ / (1 - z ^ 2 + z ^ 2 * along ax ay φ) ^ 2) := by
  have even : ∀ v : V3 ℝ, basePdf (anisoD ax ay) (neg v) = basePdf (anisoD ax ay) v := by
    intro v; simp only [basePdf, anisoD, neg, neg_eq_zero, neg_mul_neg, abs_neg]
  have side : basePdf (anisoD ax ay) (onSide wo (polar φ z)) = basePdf (anisoD ax ay) (polar φ z) := by
    unfold onSide; split
    · exact even _
    · rfl
  have p := along_pos ax ay φ hx hy
  have hp := Real.pi_pos
  have s2pos : 0 < 1 - z ^ 2 := by nlinarith
  have s2 : max 0 (1 - z * z) = 1 - z ^ 2 := by rw [max_eq_right, pow_two]; nlinarith
  have ss := Real.mul_self_sqrt s2pos.le
  have cc : max 0 (1 - z * z) ≠ 0 := by rw [s2]; exact s2pos.ne'
  rw [side]
  simp only [basePdf, anisoD, polar, h0.ne', if_false, cc]
  rw [s2, abs_of_pos h0]
  have al : Real.cos φ ^ 2 / ax ^ 2 + Real.sin φ ^ 2 / ay ^ 2 = 1 / along ax ay φ := by rw [along, one_div_one_div]
  have e1 : Real.sqrt (1 - z ^ 2) * Real.cos φ * (Real.sqrt (1 - z ^ 2) * Real.cos φ) * (1 / (1 - z ^ 2)) * (1 / ax) * (1 / ax)
      + Real.sqrt (1 - z ^ 2) * Real.sin φ * (Real.sqrt (1 - z ^ 2) * Real.sin φ) * (1 / (1 - z ^ 2)) * (1 / ay) * (1 / ay)
      = 1 / along ax ay φ := by
    rw [← al]
    have a1 : Real.sqrt (1 - z ^ 2) * Real.cos φ * (Real.sqrt (1 - z ^ 2) * Real.cos φ) = (1 - z ^ 2) * Real.cos φ ^ 2 := by
      linear_combination Real.cos φ ^ 2 * ss
    have a2 : Real.sqrt (1 - z ^ 2) * Real.sin φ * (Real.sqrt (1 - z ^ 2) * Real.sin φ) = (1 - z ^ 2) * Real.sin φ ^ 2 := by
      linear_combination Real.sin φ ^ 2 * ss
    rw [a1, a2]
    have := s2pos.ne'
    field_simp
  rw [e1]
  generalize along ax ay φ = L at *
  have d : 0 < 1 - z ^ 2 + z ^ 2 * L := by positivity
  have t2 : 1 + 1 / L * ((1 - z ^ 2) * (1 / (z * z))) = (1 - z ^ 2 + z ^ 2 * L) / (z ^ 2 * L) := by
    field_simp; ring
  rw [t2]
  field_simp

theorem sample_polar (ax ay r0 r1 : ℝ) (wo : V3 ℝ) (hx : 0 < ax) (hy : 0 < ay) (h0 : 0 ≤ r0) (h1 : r0 < 1) :
    anisoSample ax ay wo r0 r1 = onSide wo (polar (anisoPhi ax ay r1) (anisoCos ax ay (anisoPhi ax ay r1) r0)) := by
  obtain ⟨c, s⟩ := anisoCos_sq ax ay (anisoPhi ax ay r1) r0 hx hy h0 h1
  have p := along_pos ax ay (anisoPhi ax ay r1) hx hy
  have n0 : 0 < 1 - r0 := by linarith
  have le : anisoCos ax ay (anisoPhi ax ay r1) r0 ^ 2 ≤ 1 := by
    rw [s, div_le_one (by positivity)]
    have : 0 ≤ along ax ay (anisoPhi ax ay r1) * r0 := by positivity
    linarith
  simp only [anisoSample, whOf, onSide, polar]
  rw [max_eq_right (by nlinarith), ← pow_two (anisoCos ax ay (anisoPhi ax ay r1) r0)]
  by_cases hz : wo.z < 0
  · rw [if_pos hz, if_pos (mul_neg_of_neg_of_pos hz c)]
  · rw [if_neg hz, if_neg (not_lt.2 (mul_nonneg (not_lt.1 hz) c.le))]

theorem measurable_sample (ax ay : ℝ) :
    Measurable fun r : ℝ × ℝ => (anisoPhi ax ay r.2, anisoCos ax ay (anisoPhi ax ay r.2) r.1) := by
  have tan : Measurable Real.tan := by
    have : Real.tan = fun x => Real.sin x / Real.cos x := by funext x; exact Real.tan_eq_sin_div_cos x
    rw [this]; exact Real.measurable_sin.div Real.measurable_cos
  have phi : Measurable (anisoPhi ax ay) := by
    have b : Measurable fun r : ℝ => Real.arctan (ay / ax * Real.tan (2 * Real.pi * r + 1 / 2 * Real.pi)) :=
      Real.continuous_arctan.measurable.comp ((tan.comp (by fun_prop)).const_mul _)
    unfold anisoPhi
    exact Measurable.ite measurableSet_Ioi (b.add_const _) b
  have phi2 : Measurable fun r : ℝ × ℝ => anisoPhi ax ay r.2 := phi.comp measurable_snd
  refine phi2.prodMk ?_
  simp only [anisoCos]
  fun_prop

/-- **C89** (anisotropic GGX): for every set `H` of half vectors (whose azimuths and cosines form a measurable
set), the probability with which the two random numbers are mapped into `H` is the integral of the reported
density over `H`. -/
theorem C89_aniso (ax ay : ℝ) (wo : V3 ℝ) (hx : 0 < ax) (hy : 0 < ay) (H : Set (V3 ℝ))
    (hH : MeasurableSet {p : ℝ × ℝ | onSide wo (polar p.1 p.2) ∈ H}) :
    drawn2 (anisoSample ax ay wo) H =
      hemisphere fun φ z => H.indicator (fun h => ENNReal.ofReal (basePdf (anisoD ax ay) h)) (onSide wo (polar φ z)) := by
  classical
  obtain ⟨S, hS⟩ : ∃ S, S = {p : ℝ × ℝ | onSide wo (polar p.1 p.2) ∈ H} := ⟨_, rfl⟩
  rw [← hS] at hH
  have mem : ∀ φ z, (φ, z) ∈ S ↔ onSide wo (polar φ z) ∈ H := by intro φ z; rw [hS]; rfl
  have e : {r : ℝ × ℝ | r.1 ∈ Ico (0 : ℝ) 1 ∧ r.2 ∈ Ico (0 : ℝ) 1 ∧ anisoSample ax ay wo r.1 r.2 ∈ H} =
      (Ico (0 : ℝ) 1 ×ˢ Ico (0 : ℝ) 1) ∩
        ((fun r : ℝ × ℝ => (anisoPhi ax ay r.2, anisoCos ax ay (anisoPhi ax ay r.2) r.1)) ⁻¹' S) := by
    ext ⟨r0, r1⟩
    simp only [mem_ofPred_eq, mem_inter_iff, mem_prod, mem_preimage]
    constructor
    · rintro ⟨a, b, c⟩
      rw [sample_polar ax ay r0 r1 wo hx hy a.1 a.2] at c
      exact ⟨⟨a, b⟩, (mem _ _).2 c⟩
    · rintro ⟨⟨a, b⟩, c⟩
      rw [sample_polar ax ay r0 r1 wo hx hy a.1 a.2]
      exact ⟨a, b, (mem _ _).1 c⟩
  have m : MeasurableSet ((Ico (0 : ℝ) 1 ×ˢ Ico (0 : ℝ) 1) ∩
      ((fun r : ℝ × ℝ => (anisoPhi ax ay r.2, anisoCos ax ay (anisoPhi ax ay r.2) r.1)) ⁻¹' S)) :=
    (measurableSet_Ico.prod measurableSet_Ico).inter (measurable_sample ax ay hH)
  rw [drawn2, e, Measure.volume_eq_prod, Measure.prod_apply_symm m]
  -- the slices
  have sl : ∀ r1 : ℝ, volume ((fun r0 : ℝ => (r0, r1)) ⁻¹' ((Ico (0 : ℝ) 1 ×ˢ Ico (0 : ℝ) 1) ∩
      ((fun r : ℝ × ℝ => (anisoPhi ax ay r.2, anisoCos ax ay (anisoPhi ax ay r.2) r.1)) ⁻¹' S))) =
      (Ico (0 : ℝ) 1).indicator (fun r1 => ∫⁻ r0 in Ico (0 : ℝ) 1,
        S.indicator (fun _ => (1 : ENNReal)) (anisoPhi ax ay r1, anisoCos ax ay (anisoPhi ax ay r1) r0)) r1 := by
    intro r1
    by_cases h1 : r1 ∈ Ico (0 : ℝ) 1
    · rw [indicator_of_mem h1]
      have mm : MeasurableSet {r0 : ℝ | (anisoPhi ax ay r1, anisoCos ax ay (anisoPhi ax ay r1) r0) ∈ S} :=
        (measurable_sample ax ay |>.comp (measurable_id.prodMk measurable_const)) hH
      have q : (fun r0 : ℝ => S.indicator (fun _ => (1 : ENNReal)) (anisoPhi ax ay r1, anisoCos ax ay (anisoPhi ax ay r1) r0)) =
          {r0 : ℝ | (anisoPhi ax ay r1, anisoCos ax ay (anisoPhi ax ay r1) r0) ∈ S}.indicator fun _ => 1 := by
        funext r0
        by_cases h : (anisoPhi ax ay r1, anisoCos ax ay (anisoPhi ax ay r1) r0) ∈ S
        · rw [indicator_of_mem h, indicator_of_mem (by exact h)]
        · rw [indicator_of_notMem h, indicator_of_notMem (by exact h)]
      rw [q, lintegral_indicator mm, setLIntegral_const, one_mul, Measure.restrict_apply mm]
      congr 1
      ext r0
      simp only [mem_preimage, mem_inter_iff, mem_prod, mem_ofPred_eq]
      tauto
    · rw [indicator_of_notMem h1]
      have : ((fun r0 : ℝ => (r0, r1)) ⁻¹' ((Ico (0 : ℝ) 1 ×ˢ Ico (0 : ℝ) 1) ∩
        ((fun r : ℝ × ℝ => (anisoPhi ax ay r.2, anisoCos ax ay (anisoPhi ax ay r.2) r.1)) ⁻¹' S))) = ∅ := by
        ext r0
        simp only [mem_preimage, mem_inter_iff, mem_prod, mem_empty_iff_false, iff_false]
        tauto
      rw [this, measure_empty]
  simp_rw [sl]
  rw [lintegral_indicator measurableSet_Ico]
  rw [azimuth_law ax ay hx hy fun φ => ∫⁻ r0 in Ico (0 : ℝ) 1,
        S.indicator (fun _ => (1 : ENNReal)) (φ, anisoCos ax ay φ r0)]
  unfold hemisphere
  refine setLIntegral_congr_fun measurableSet_Ioo fun φ _ => ?_
  rw [cosine_law ax ay φ hx hy fun z => S.indicator (fun _ => (1 : ENNReal)) (φ, z)]
  rw [← lintegral_const_mul' _ _ ENNReal.ofReal_ne_top]
  refine setLIntegral_congr_fun measurableSet_Ioo fun z hz => ?_
  have p := along_pos ax ay φ hx hy
  have hp := Real.pi_pos
  beta_reduce
  by_cases h : onSide wo (polar φ z) ∈ H
  · rw [indicator_of_mem h, indicator_of_mem ((mem φ z).2 h), mul_one, density ax ay φ z wo hx hy hz.1 hz.2,
      ENNReal.ofReal_mul (by positivity)]
  · rw [indicator_of_notMem h, indicator_of_notMem (fun c => h ((mem φ z).1 c)), mul_zero, mul_zero]

example : drawn2 (anisoSample (1 / 2) (1 / 5) ⟨0, 0, 1⟩) {h | 1 / 2 ≤ h.z} =
    hemisphere fun φ z => {h : V3 ℝ | 1 / 2 ≤ h.z}.indicator
      (fun h => ENNReal.ofReal (basePdf (anisoD (1 / 2) (1 / 5)) h)) (onSide ⟨0, 0, 1⟩ (polar φ z)) := by
  refine C89_aniso _ _ _ (by norm_num) (by norm_num) _ ?_
  have : {p : ℝ × ℝ | onSide ⟨0, 0, 1⟩ (polar p.1 p.2) ∈ {h : V3 ℝ | 1 / 2 ≤ h.z}} = {p : ℝ × ℝ | 1 / 2 ≤ p.2} := by
    ext p; norm_num [onSide, polar]
  rw [this]
  exact measurableSet_le measurable_const measurable_snd

/-- **C88** (anisotropic GGX): the projected area of all the microfacets is the one of the surface. -/
theorem C88_aniso (ax ay : ℝ) (hx : 0 < ax) (hy : 0 < ay) :
    (hemisphere fun φ z => ENNReal.ofReal (anisoD ax ay (polar φ z) * z)) = 1 := by
  have h := C89_aniso ax ay ⟨0, 0, 1⟩ hx hy univ (by simp)
  have l : drawn2 (anisoSample ax ay ⟨0, 0, 1⟩) univ = 1 := by
    have e : {r : ℝ × ℝ | r.1 ∈ Ico (0 : ℝ) 1 ∧ r.2 ∈ Ico (0 : ℝ) 1 ∧ anisoSample ax ay ⟨0, 0, 1⟩ r.1 r.2 ∈ univ} =
        Ico (0 : ℝ) 1 ×ˢ Ico (0 : ℝ) 1 := by ext r; simp only [mem_ofPred_eq, mem_univ, and_true, mem_prod]
    rw [drawn2, e, Measure.volume_eq_prod, Measure.prod_prod]
    simp
  rw [l] at h
  rw [h]
  unfold hemisphere
  refine setLIntegral_congr_fun measurableSet_Ioo fun φ _ => ?_
  refine setLIntegral_congr_fun measurableSet_Ioo fun z hz => ?_
  simp only [indicator_univ, basePdf, onSide]
  norm_num [polar, abs_of_pos hz.1]

example : (hemisphere fun φ z => ENNReal.ofReal (anisoD (1 / 2) (1 / 5) (polar φ z) * z)) = 1 :=
  C88_aniso _ _ (by norm_num) (by norm_num)

end Spectre.Microfacet
