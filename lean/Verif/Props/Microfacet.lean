import Verif.Model.Microfacet
import Mathlib.MeasureTheory.Integral.IntervalIntegral.FundThmCalculus
import Mathlib.Analysis.SpecialFunctions.Integrals.Basic
import Mathlib.Tactic.Linarith
import Mathlib.Tactic.NormNum
import Mathlib.Tactic.Positivity
import Mathlib.Tactic.Ring
import Mathlib.Tactic.FieldSimp
import Mathlib.Tactic.LinearCombination

/-
Properties C88 (the distributions are normalised), C89 (half vectors are drawn with the density that is
reported), C90 (masking).
-/

namespace Spectre.Microfacet

open Spectre.Geom Spectre.Specular MeasureTheory

/-! ### Specification -/

/-- The projected area of the microfacets with the cosine of their inclination in `[a,b]`, for a
distribution that only depends on the inclination: `∫ D cos dω`, the element of solid angle being `2π dz`. -/
noncomputable def projected (D : V3 ℝ → ℝ) (a b : ℝ) : ℝ :=
  ∫ z in a..b, 2 * Real.pi * (D ⟨Real.sqrt (1 - z ^ 2), 0, z⟩ * z)

/-- Probability reported by a pdf for the zone `[a,b]`. -/
noncomputable def reported (pdf : V3 ℝ → ℝ) (a b : ℝ) : ℝ :=
  ∫ z in a..b, 2 * Real.pi * pdf ⟨Real.sqrt (1 - z ^ 2), 0, z⟩

/-- Probability with which a uniform random number in [0,1] is mapped to the zone `[a,b]`. -/
noncomputable def drawn (cosine : ℝ → ℝ) (a b : ℝ) : ENNReal :=
  volume {r : ℝ | r ∈ Set.Icc 0 1 ∧ cosine r ∈ Set.Icc a b}

/-! ### GGX -/

theorem ggx_den (a2 z : ℝ) (ha : 0 < a2) (h0 : 0 ≤ z) (h1 : z ≤ 1) : 0 < 1 + (a2 - 1) * z ^ 2 := by
  have : 0 ≤ 1 - z ^ 2 := by nlinarith
  rcases eq_or_lt_of_le h0 with e | e
  · rw [← e]; norm_num
  · have : 0 < a2 * z ^ 2 := by positivity
    nlinarith

theorem ggx_integrand (a2 z : ℝ) (h0 : 0 ≤ z) (h1 : z ≤ 1) (x y : ℝ) :
    2 * Real.pi * (ggxD a2 ⟨x, y, z⟩ * z) = 2 * a2 * z / (1 + (a2 - 1) * z ^ 2) ^ 2 := by
  have hp := Real.pi_ne_zero
  rcases eq_or_lt_of_le h0 with e | e
  · rw [← e]; simp [ggxD]
  · have e' := e.ne'
    have m : max 0 (1 - z * z) = 1 - z * z := max_eq_right (by nlinarith)
    simp only [ggxD, e', if_false, m]
    have k : (a2 + (1 - z * z) / (z * z)) * (a2 + (1 - z * z) / (z * z)) * (z * z) * (z * z) =
        (1 + (a2 - 1) * z ^ 2) ^ 2 := by field_simp; ring
    rw [k]
    rcases eq_or_ne (1 + (a2 - 1) * z ^ 2) 0 with d | d
    · rw [d]; simp
    · field_simp

theorem ggx_projected (a2 a b : ℝ) (h : 0 < a2) (ha : 0 ≤ a) (hab : a ≤ b) (hb : b ≤ 1) :
    projected (ggxD a2) a b =
      (1 - a ^ 2) / (1 + (a2 - 1) * a ^ 2) - (1 - b ^ 2) / (1 + (a2 - 1) * b ^ 2) := by
  unfold projected
  have e : Set.EqOn (fun z : ℝ => 2 * Real.pi * (ggxD a2 ⟨Real.sqrt (1 - z ^ 2), 0, z⟩ * z))
      (fun z => 2 * a2 * z / (1 + (a2 - 1) * z ^ 2) ^ 2) (Set.uIcc a b) := by
    intro z hz
    rw [Set.uIcc_of_le hab] at hz
    exact ggx_integrand a2 z (by linarith [hz.1]) (by linarith [hz.2]) _ _
  rw [intervalIntegral.integral_congr e]
  have den : ∀ z ∈ Set.uIcc a b, 1 + (a2 - 1) * z ^ 2 ≠ 0 := by
    intro z hz
    rw [Set.uIcc_of_le hab] at hz
    exact (ggx_den a2 z h (by linarith [hz.1]) (by linarith [hz.2])).ne'
  have D : ∀ z ∈ Set.uIcc a b,
      HasDerivAt (fun z => -((1 - z ^ 2) / (1 + (a2 - 1) * z ^ 2))) (2 * a2 * z / (1 + (a2 - 1) * z ^ 2) ^ 2) z := by
    intro z hz
    have d := den z hz
    have n1 : HasDerivAt (fun z : ℝ => 1 - z ^ 2) (-(2 * z)) z := by
      simpa using ((hasDerivAt_pow 2 z).const_sub 1)
    have n2 : HasDerivAt (fun z : ℝ => 1 + (a2 - 1) * z ^ 2) ((a2 - 1) * (2 * z)) z := by
      simpa using (((hasDerivAt_pow 2 z).const_mul (a2 - 1)).const_add 1)
    refine HasDerivAt.congr_deriv (n1.div n2 d).neg ?_
    field_simp; ring
  rw [intervalIntegral.integral_eq_sub_of_hasDerivAt D]
  · ring
  · apply ContinuousOn.intervalIntegrable
    apply ContinuousOn.div (by fun_prop) (by fun_prop)
    intro z hz
    exact pow_ne_zero 2 (den z hz)

/-- **C88** (GGX): the projected area of all the microfacets is the one of the surface. -/
theorem C88_ggx_partial (a2 : ℝ) (h : 0 < a2) : projected (ggxD a2) 0 1 = 1 := by
  rw [ggx_projected a2 0 1 h le_rfl zero_le_one le_rfl]
  norm_num

/-! ### Blinn -/

/-- **C88** (Blinn). -/
theorem C88_blinn_partial (e : ℝ) (h : 0 ≤ e) : projected (blinnD e) 0 1 = 1 := by
  unfold projected
  have hp := Real.pi_ne_zero
  have q : Set.EqOn (fun z : ℝ => 2 * Real.pi * (blinnD e ⟨Real.sqrt (1 - z ^ 2), 0, z⟩ * z))
      (fun z => (e + 2) * z ^ (e + 1)) (Set.uIcc 0 1) := by
    intro z hz
    rw [Set.uIcc_of_le zero_le_one] at hz
    simp only [blinnD]
    rw [abs_of_nonneg hz.1]
    have : z ^ (e + 1) = z ^ e * z := by
      rw [Real.rpow_add_of_nonneg hz.1 h zero_le_one, Real.rpow_one]
    rw [this]; field_simp
  rw [intervalIntegral.integral_congr q, intervalIntegral.integral_const_mul,
    integral_rpow (Or.inl (by linarith))]
  rw [Real.one_rpow, Real.zero_rpow (by linarith)]
  have : e + 1 + 1 ≠ 0 := by linarith
  field_simp; ring

/-! ### Beckmann -/

theorem beck_projected (α a : ℝ) (hα : α ≠ 0) (ha : 0 < a) (b : ℝ) (hab : a ≤ b) :
    projected (beckmannD α) a b = (Real.exp (-((1 - b ^ 2) / b ^ 2) / α ^ 2) ^ 2 -
      Real.exp (-((1 - a ^ 2) / a ^ 2) / α ^ 2) ^ 2) / 2 := by
  unfold projected
  have hp := Real.pi_ne_zero
  have q : Set.EqOn (fun z : ℝ => 2 * Real.pi * (beckmannD α ⟨Real.sqrt (1 - z ^ 2), 0, z⟩ * z))
      (fun z => 2 * z / (z ^ 4 * α ^ 2) * Real.exp (-((1 - z ^ 2) / z ^ 2) / α ^ 2) ^ 2) (Set.uIcc a b) := by
    intro z hz
    rw [Set.uIcc_of_le hab] at hz
    have z0 : 0 < z := by linarith [hz.1]
    simp only [beckmannD]
    rw [if_neg (mul_self_ne_zero.2 z0.ne')]
    rw [show z * z = z ^ 2 by ring, show α * α = α ^ 2 by ring]
    field_simp
  rw [intervalIntegral.integral_congr q]
  have D : ∀ z ∈ Set.uIcc a b, HasDerivAt (fun z => Real.exp (-((1 - z ^ 2) / z ^ 2) / α ^ 2) ^ 2 / 2)
      (2 * z / (z ^ 4 * α ^ 2) * Real.exp (-((1 - z ^ 2) / z ^ 2) / α ^ 2) ^ 2) z := by
    intro z hz
    rw [Set.uIcc_of_le hab] at hz
    have z0 : z ≠ 0 := (by linarith [hz.1] : 0 < z).ne'
    have n1 : HasDerivAt (fun z : ℝ => 1 - z ^ 2) (-(2 * z)) z := by
      simpa using ((hasDerivAt_pow 2 z).const_sub 1)
    have n2 : HasDerivAt (fun z : ℝ => z ^ 2) (2 * z) z := by simpa using hasDerivAt_pow 2 z
    have n3 := (((n1.div n2 (pow_ne_zero 2 z0)).neg.div_const (α ^ 2)).exp.pow 2).div_const 2
    refine HasDerivAt.congr_deriv n3 ?_
    change (2 : ℕ) * Real.exp (-((1 - z ^ 2) / z ^ 2) / α ^ 2) ^ (2 - 1) *
      (Real.exp (-((1 - z ^ 2) / z ^ 2) / α ^ 2) * (-((-(2 * z) * z ^ 2 - (1 - z ^ 2) * (2 * z)) / (z ^ 2) ^ 2) / α ^ 2)) / 2 = _
    generalize Real.exp (-((1 - z ^ 2) / z ^ 2) / α ^ 2) = E
    simp only [Nat.cast_ofNat, show 2 - 1 = 1 by rfl, pow_one]
    field_simp
    ring
  rw [intervalIntegral.integral_eq_sub_of_hasDerivAt D]
  · ring
  · apply ContinuousOn.intervalIntegrable
    rw [Set.uIcc_of_le hab]
    have z0 : ∀ z ∈ Set.Icc a b, z ≠ 0 := fun z hz => (by linarith [hz.1] : 0 < z).ne'
    apply ContinuousOn.mul
    · apply ContinuousOn.div (by fun_prop) (by fun_prop)
      intro z hz
      exact mul_ne_zero (pow_ne_zero 4 (z0 z hz)) (pow_ne_zero 2 hα)
    · apply ContinuousOn.pow
      apply ContinuousOn.rexp
      apply ContinuousOn.div_const
      apply ContinuousOn.neg
      exact ContinuousOn.div (by fun_prop) (by fun_prop) fun z hz => pow_ne_zero 2 (z0 z hz)

/-- **C88** is violated by the Beckmann distribution of every roughness: the projected area of the
microfacets is below one half of the surface, whatever zone is considered (the exponential is multiplied
twice). -/
theorem C88_violated_beckmann (α a : ℝ) (hα : α ≠ 0) (ha : 0 < a) (h1 : a ≤ 1) :
    projected (beckmannD α) a 1 < 1 / 2 := by
  rw [beck_projected α a hα ha 1 h1]
  have := Real.exp_pos (-((1 - a ^ 2) / a ^ 2) / α ^ 2)
  have e : -((1 - (1 : ℝ) ^ 2) / 1 ^ 2) / α ^ 2 = 0 := by norm_num
  rw [e, Real.exp_zero]
  nlinarith [mul_pos this this]

/-! ### C89 -/

theorem reported_base (D : V3 ℝ → ℝ) (a b : ℝ) (ha : 0 ≤ a) (hab : a ≤ b) :
    reported (basePdf D) a b = projected D a b := by
  unfold reported projected
  apply intervalIntegral.integral_congr
  intro z hz
  rw [Set.uIcc_of_le hab] at hz
  simp only [basePdf, abs_of_nonneg (by linarith [hz.1] : 0 ≤ z)]

/-- **C89** (GGX): the half vectors are drawn with the density reported by `pdf`. -/
theorem C89_ggx_partial (a2 a b : ℝ) (h : 0 < a2) (ha : 0 ≤ a) (hab : a ≤ b) (hb : b ≤ 1) :
    drawn (ggxCos a2) a b = ENNReal.ofReal (reported (basePdf (ggxD a2)) a b) := by
  have den : ∀ z, 0 ≤ z → z ≤ 1 → 0 < 1 + (a2 - 1) * z ^ 2 := fun z h0 h1 => ggx_den a2 z h h0 h1
  have dr : ∀ r, 0 ≤ r → r ≤ 1 → 0 < r * (a2 - 1) + 1 := by
    intro r h0 h1
    rcases eq_or_lt_of_le h0 with e | e
    · rw [← e]; norm_num
    · nlinarith [mul_pos e h]
  have set : {r : ℝ | r ∈ Set.Icc 0 1 ∧ ggxCos a2 r ∈ Set.Icc a b} =
      Set.Icc ((1 - b ^ 2) / (1 + (a2 - 1) * b ^ 2)) ((1 - a ^ 2) / (1 + (a2 - 1) * a ^ 2)) := by
    have dA := den a ha (by linarith)
    have dB := den b (by linarith) hb
    have key : ∀ r, 0 ≤ r → r ≤ 1 → (ggxCos a2 r ∈ Set.Icc a b ↔
        (1 - b ^ 2) / (1 + (a2 - 1) * b ^ 2) ≤ r ∧ r ≤ (1 - a ^ 2) / (1 + (a2 - 1) * a ^ 2)) := by
      intro r h0 h1
      have d := dr r h0 h1
      have q0 : 0 ≤ (1 - r) / (r * (a2 - 1) + 1) := div_nonneg (by linarith) d.le
      have s : ggxCos a2 r = Real.sqrt ((1 - r) / (r * (a2 - 1) + 1)) := by
        unfold ggxCos; rw [max_eq_right q0]
      rw [s, Set.mem_Icc, Real.le_sqrt ha, Real.sqrt_le_left (by linarith), le_div_iff₀ d, div_le_iff₀ d,
        div_le_iff₀ dB, le_div_iff₀ dA]
      constructor
      · rintro ⟨u, v⟩; constructor <;> nlinarith
      · rintro ⟨u, v⟩; constructor <;> nlinarith
      exact q0
    ext r
    simp only [Set.mem_ofPred_eq, Set.mem_Icc]
    constructor
    · rintro ⟨⟨h0, h1⟩, h2⟩
      exact (key r h0 h1).1 h2
    · rintro ⟨h2, h3⟩
      have h0 : 0 ≤ r := le_trans (div_nonneg (by nlinarith) dB.le) h2
      have h1 : r ≤ 1 := by
        refine le_trans h3 ?_
        rw [div_le_one dA]; nlinarith [mul_nonneg h.le (sq_nonneg a)]
      exact ⟨⟨h0, h1⟩, (key r h0 h1).2 ⟨h2, h3⟩⟩
  rw [drawn, set, Real.volume_Icc, reported_base _ _ _ ha hab, ggx_projected a2 a b h ha hab hb]

/-- The density with which Blinn's half vectors are drawn. -/
theorem blinn_drawn (e a b : ℝ) (h : 0 ≤ e) (ha : 0 ≤ a) (hab : a ≤ b) (hb : b ≤ 1) :
    drawn (blinnCos e) a b = ENNReal.ofReal (b ^ (e + 1) - a ^ (e + 1)) := by
  have e1 : 0 < e + 1 := by linarith
  have set : {r : ℝ | r ∈ Set.Icc 0 1 ∧ blinnCos e r ∈ Set.Icc a b} = Set.Icc (a ^ (e + 1)) (b ^ (e + 1)) := by
    have key : ∀ r, 0 ≤ r → (blinnCos e r ∈ Set.Icc a b ↔ a ^ (e + 1) ≤ r ∧ r ≤ b ^ (e + 1)) := by
      intro r h0
      have back : (r ^ (1 / (e + 1))) ^ (e + 1) = r := by
        rw [← Real.rpow_mul h0, one_div_mul_cancel e1.ne', Real.rpow_one]
      have p0 : 0 ≤ r ^ (1 / (e + 1)) := Real.rpow_nonneg h0 _
      unfold blinnCos
      rw [Set.mem_Icc, ← Real.rpow_le_rpow_iff ha p0 e1, ← Real.rpow_le_rpow_iff p0 (by linarith) e1, back]
    ext r
    simp only [Set.mem_ofPred_eq, Set.mem_Icc]
    constructor
    · rintro ⟨⟨h0, _⟩, h2⟩; exact (key r h0).1 h2
    · rintro ⟨h2, h3⟩
      have h0 : 0 ≤ r := le_trans (Real.rpow_nonneg ha _) h2
      have h1 : r ≤ 1 := le_trans h3 (Real.rpow_le_one (by linarith) hb e1.le)
      exact ⟨⟨h0, h1⟩, (key r h0).2 ⟨h2, h3⟩⟩
  rw [drawn, set, Real.volume_Icc]

/-- **C89** is violated by the Blinn distribution for every exponent: the reported pdf is `(e+2)/(e+1)` times
the density of the half vectors, on every zone. -/
theorem C89_violated_blinn (e a b : ℝ) (h : 0 ≤ e) (ha : 0 ≤ a) (hab : a < b) (hb : b ≤ 1) :
    drawn (blinnCos e) a b = ENNReal.ofReal ((e + 1) / (e + 2) * reported (blinnPdf e ⟨0, 0, 1⟩) a b) ∧
    drawn (blinnCos e) a b < ENNReal.ofReal (reported (blinnPdf e ⟨0, 0, 1⟩) a b) := by
  have hp := Real.pi_ne_zero
  have e1 : 0 < e + 1 := by linarith
  have int : reported (blinnPdf e ⟨0, 0, 1⟩) a b = (e + 2) / (e + 1) * (b ^ (e + 1) - a ^ (e + 1)) := by
    unfold reported
    have q : ∀ᵐ z : ℝ, z ∈ Set.uIoc a b →
        2 * Real.pi * blinnPdf e ⟨0, 0, 1⟩ ⟨Real.sqrt (1 - z ^ 2), 0, z⟩ = (e + 2) * z ^ e := by
      refine Filter.Eventually.of_forall fun z hz => ?_
      rw [Set.uIoc_of_le hab.le] at hz
      have z0 : 0 < z := by linarith [hz.1]
      have d : dot (⟨0, 0, 1⟩ : V3 ℝ) ⟨Real.sqrt (1 - z ^ 2), 0, z⟩ = z := by simp [dot]
      simp only [blinnPdf, d, z0, if_true, abs_of_pos z0]
      field_simp
    rw [intervalIntegral.integral_congr_ae q, intervalIntegral.integral_const_mul,
      integral_rpow (Or.inl (by linarith))]
    field_simp
  have lt : a ^ (e + 1) < b ^ (e + 1) := Real.rpow_lt_rpow ha hab e1
  rw [blinn_drawn e a b h ha hab.le hb, int]
  constructor
  · congr 1; field_simp
  · have : 1 < (e + 2) / (e + 1) := by rw [one_lt_div e1]; linarith
    rw [ENNReal.ofReal_lt_ofReal_iff]
    · nlinarith
    · have : 0 < b ^ (e + 1) - a ^ (e + 1) := by linarith
      positivity

/-- The density with which Beckmann's half vectors are drawn. -/
theorem beck_drawn (α a b : ℝ) (hα : 0 < α) (ha : 0 < a) (hab : a ≤ b) (hb : b ≤ 1) :
    drawn (beckmannCos α) a b = ENNReal.ofReal (Real.exp (-((1 - b ^ 2) / b ^ 2) / α ^ 2) -
      Real.exp (-((1 - a ^ 2) / a ^ 2) / α ^ 2)) := by
  have b0 : 0 < b := by linarith
  have a2 : 0 < α ^ 2 := by positivity
  have key : ∀ r z, 0 ≤ r → r < 1 → 0 < z → (z ≤ beckmannCos α r ↔
      Real.exp (-((1 - z ^ 2) / z ^ 2) / α ^ 2) ≤ 1 - r) ∧ (beckmannCos α r ≤ z ↔
      1 - r ≤ Real.exp (-((1 - z ^ 2) / z ^ 2) / α ^ 2)) := by
    intro r z h0 h1 hz
    have l0 : Real.log (1 - r) ≤ 0 := Real.log_nonpos (by linarith) (by linarith)
    have s0 : 0 < 1 - α * α * Real.log (1 - r) := by nlinarith
    have sq := Real.sqrt_pos.2 s0
    have z2 : 0 < z ^ 2 := by positivity
    have hz1 : 0 < 1 / z := by positivity
    have e1 : ∀ t : ℝ, -((1 - z ^ 2) / z ^ 2) / α ^ 2 ≤ t ↔ 1 - α * α * t ≤ (1 / z) ^ 2 := by
      intro t
      rw [div_le_iff₀ a2, div_pow, one_pow, sub_div, div_self z2.ne']
      constructor <;> intro h <;> linarith
    have e2 : ∀ t : ℝ, t ≤ -((1 - z ^ 2) / z ^ 2) / α ^ 2 ↔ (1 / z) ^ 2 ≤ 1 - α * α * t := by
      intro t
      rw [le_div_iff₀ a2, div_pow, one_pow, sub_div, div_self z2.ne']
      constructor <;> intro h <;> linarith
    simp only [beckmannCos]
    constructor
    · rw [← Real.le_log_iff_exp_le (by linarith), e1, ← Real.sqrt_le_left hz1.le, le_div_iff₀ sq,
        le_div_iff₀ hz, mul_comm]
    · rw [← Real.log_le_iff_le_exp (by linarith), e2, ← Real.le_sqrt hz1.le, div_le_iff₀ sq,
        div_le_iff₀ hz, mul_comm]
      exact s0.le
  have ea := Real.exp_pos (-((1 - a ^ 2) / a ^ 2) / α ^ 2)
  have eb : Real.exp (-((1 - b ^ 2) / b ^ 2) / α ^ 2) ≤ 1 := by
    rw [Real.exp_le_one_iff]
    have : 0 ≤ (1 - b ^ 2) / b ^ 2 := div_nonneg (by nlinarith) (by positivity)
    rw [neg_div]
    have := div_nonneg this a2.le
    linarith
  -- the point r = 1 is not in the zone, or does not count
  have set : {r : ℝ | r ∈ Set.Icc 0 1 ∧ beckmannCos α r ∈ Set.Icc a b} \ {1} =
      Set.Icc (1 - Real.exp (-((1 - b ^ 2) / b ^ 2) / α ^ 2)) (1 - Real.exp (-((1 - a ^ 2) / a ^ 2) / α ^ 2)) := by
    ext r
    simp only [Set.mem_sdiff, Set.mem_ofPred_eq, Set.mem_Icc, Set.mem_singleton_iff]
    constructor
    · rintro ⟨⟨⟨h0, h1⟩, h2, h3⟩, h4⟩
      have h1' : r < 1 := lt_of_le_of_ne h1 h4
      have ka := (key r a h0 h1' ha).1.1 h2
      have kb := (key r b h0 h1' b0).2.1 h3
      constructor <;> linarith
    · rintro ⟨h2, h3⟩
      have h0 : 0 ≤ r := by linarith
      have h1 : r < 1 := by linarith
      exact ⟨⟨⟨h0, h1.le⟩, (key r a h0 h1 ha).1.2 (by linarith), (key r b h0 h1 b0).2.2 (by linarith)⟩, h1.ne⟩
  have : drawn (beckmannCos α) a b =
      volume ({r : ℝ | r ∈ Set.Icc 0 1 ∧ beckmannCos α r ∈ Set.Icc a b} \ {1}) :=
    (measure_sdiff_null (by simp)).symm
  rw [this, set, Real.volume_Icc]
  congr 1; ring

/-- **C89** is violated by the Beckmann distribution for every roughness and every zone around the pole: the
reported probability is smaller than the actual one. -/
theorem C89_violated_beckmann (α a : ℝ) (hα : 0 < α) (ha : 0 < a) (h1 : a < 1) :
    ENNReal.ofReal (reported (basePdf (beckmannD α)) a 1) < drawn (beckmannCos α) a 1 := by
  rw [beck_drawn α a 1 hα ha h1.le le_rfl, reported_base _ _ _ ha.le h1.le, beck_projected α a hα.ne' ha 1 h1.le]
  have e : -((1 - (1 : ℝ) ^ 2) / 1 ^ 2) / α ^ 2 = 0 := by norm_num
  rw [e, Real.exp_zero]
  have lt : Real.exp (-((1 - a ^ 2) / a ^ 2) / α ^ 2) < 1 := by
    rw [Real.exp_lt_one_iff]
    have : 0 < (1 - a ^ 2) / a ^ 2 := div_pos (by nlinarith) (by positivity)
    rw [neg_div]
    have := div_pos this (by positivity : 0 < α ^ 2)
    linarith
  have p := Real.exp_pos (-((1 - a ^ 2) / a ^ 2) / α ^ 2)
  rw [ENNReal.ofReal_lt_ofReal_iff (by linarith)]
  nlinarith

example : projected (ggxD (ggxA2 (1 / 2))) 0 1 = 1 ∧ projected (beckmannD (1 / 2)) (1 / 10) 1 < 1 / 2 :=
  ⟨C88_ggx_partial _ (by norm_num [ggxA2, clamp]),
    C88_violated_beckmann _ _ (by norm_num) (by norm_num) (by norm_num)⟩

example : drawn (ggxCos (ggxA2 (1 / 2))) (1 / 4) (3 / 4) =
    ENNReal.ofReal (reported (basePdf (ggxD (ggxA2 (1 / 2)))) (1 / 4) (3 / 4)) :=
  C89_ggx_partial _ _ _ (by norm_num [ggxA2, clamp]) (by norm_num) (by norm_num) (by norm_num)

end Spectre.Microfacet
