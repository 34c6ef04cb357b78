import Verif.Props.Rough
import Mathlib.Analysis.SpecialFunctions.Trigonometric.ArctanDeriv
import Mathlib.Analysis.SpecialFunctions.Trigonometric.Deriv

/-
Properties C89 (anisotropic distribution), C95 (sampled half vectors) and C96 (reciprocity of the rough
refraction).
-/

namespace Spectre.Microfacet

open Spectre.Geom Spectre.Specular

/-! ### C95 -/

/-- A unit vector that is not on the side opposite to `wo`. -/
def HalfVector (wo wh : V3 ℝ) : Prop := dot wh wh = 1 ∧ 0 ≤ wo.z * wh.z

theorem whOf_half (wo : V3 ℝ) (c s phi : ℝ) (h : c * c + s * s = 1) : HalfVector wo (whOf wo c s phi) := by
  have t := Real.sin_sq_add_cos_sq phi
  have u : dot (⟨s * Real.cos phi, s * Real.sin phi, c⟩ : V3 ℝ) ⟨s * Real.cos phi, s * Real.sin phi, c⟩ = 1 := by
    simp only [dot]; linear_combination h + s ^ 2 * t
  unfold whOf
  simp only
  split
  · rename_i hn
    refine ⟨?_, ?_⟩
    · rw [← u]; simp only [dot, neg]; ring
    · simp only [neg]; nlinarith
  · rename_i hn
    exact ⟨u, not_lt.1 hn⟩

theorem cos_sin (c : ℝ) (h0 : 0 ≤ c) (h1 : c ≤ 1) :
    c * c + Real.sqrt (max 0 (1 - c * c)) * Real.sqrt (max 0 (1 - c * c)) = 1 := by
  have : 0 ≤ 1 - c * c := by nlinarith
  rw [max_eq_right this, Real.mul_self_sqrt this]; ring

/-- **C95** (Blinn): for all random numbers. -/
theorem C95_blinn (e r0 r1 : ℝ) (wo : V3 ℝ) (he : 0 ≤ e) (h0 : 0 ≤ r0) (h1 : r0 ≤ 1) :
    HalfVector wo (blinnSample e wo r0 r1) := by
  have q : 0 ≤ 1 / (e + 1) := by positivity
  exact whOf_half _ _ _ _ (cos_sin _ (Real.rpow_nonneg h0 _) (Real.rpow_le_one h0 h1 q))

theorem inv_sqrt_le (q : ℝ) (h : 1 ≤ q) : 0 < 1 / Real.sqrt q ∧ 1 / Real.sqrt q ≤ 1 := by
  have : 1 ≤ Real.sqrt q := by rwa [Real.one_le_sqrt]
  exact ⟨by positivity, by rw [div_le_one (by linarith)]; exact this⟩

/-- **C95** (Beckmann). -/
theorem C95_beckmann (a r0 r1 : ℝ) (wo : V3 ℝ) (h0 : 0 ≤ r0) (h1 : r0 < 1) :
    HalfVector wo (beckmannSample a wo r0 r1) := by
  have l : Real.log (1 - r0) ≤ 0 := Real.log_nonpos (by linarith) (by linarith)
  have q : 1 ≤ 1 - a * a * Real.log (1 - r0) := by nlinarith [mul_self_nonneg a]
  obtain ⟨c0, c1⟩ := inv_sqrt_le _ q
  have c0' : 0 < beckmannCos a r0 := c0
  have c1' : beckmannCos a r0 ≤ 1 := c1
  refine whOf_half _ _ _ _ ?_
  have := cos_sin _ c0'.le c1'
  rwa [max_eq_right (by nlinarith)] at this

/-- **C95** (GGX). -/
theorem C95_ggx (a2 r0 r1 : ℝ) (wo : V3 ℝ) (ha : 0 ≤ a2) (h0 : 0 ≤ r0) (h1 : r0 < 1) :
    HalfVector wo (ggxSample a2 wo r0 r1) := by
  have den : 0 < r0 * (a2 - 1) + 1 := by nlinarith [mul_nonneg h0 ha]
  have p0 : 0 ≤ (1 - r0) / (r0 * (a2 - 1) + 1) := div_nonneg (by linarith) den.le
  have p1 : (1 - r0) / (r0 * (a2 - 1) + 1) ≤ 1 := by
    rw [div_le_one den]; nlinarith [mul_nonneg h0 ha]
  refine whOf_half _ _ _ _ ?_
  rw [ggxCos, max_eq_right p0, Real.mul_self_sqrt p0, max_eq_right (by linarith), Real.mul_self_sqrt (by linarith)]
  ring

/-- `1/(cos²φ/ax² + sin²φ/ay²)`, the squared roughness along an azimuth. -/
noncomputable def along (ax ay phi : ℝ) : ℝ := 1 / (Real.cos phi ^ 2 / ax ^ 2 + Real.sin phi ^ 2 / ay ^ 2)

theorem along_pos (ax ay phi : ℝ) (hx : 0 < ax) (hy : 0 < ay) : 0 < along ax ay phi := by
  unfold along
  have t := Real.sin_sq_add_cos_sq phi
  have : 0 < Real.cos phi ^ 2 / ax ^ 2 + Real.sin phi ^ 2 / ay ^ 2 := by
    rcases eq_or_ne (Real.cos phi) 0 with e | e
    · rw [e] at t ⊢
      have : Real.sin phi ^ 2 = 1 := by linarith
      rw [this]; positivity
    · positivity
  positivity

theorem anisoCos_eq (ax ay phi r0 : ℝ) :
    anisoCos ax ay phi r0 = 1 / Real.sqrt (1 + along ax ay phi * r0 / (1 - r0)) := by
  simp only [anisoCos, along, pow_two]

/-- **C95** (anisotropic GGX). -/
theorem C95_aniso (ax ay r0 r1 : ℝ) (wo : V3 ℝ) (hx : 0 < ax) (hy : 0 < ay) (h0 : 0 ≤ r0) (h1 : r0 < 1) :
    HalfVector wo (anisoSample ax ay wo r0 r1) := by
  have p := along_pos ax ay (anisoPhi ax ay r1) hx hy
  have q : 1 ≤ 1 + along ax ay (anisoPhi ax ay r1) * r0 / (1 - r0) := by
    have : 0 ≤ along ax ay (anisoPhi ax ay r1) * r0 / (1 - r0) := div_nonneg (by positivity) (by linarith)
    linarith
  obtain ⟨c0, c1⟩ := inv_sqrt_le _ q
  rw [← anisoCos_eq] at c0 c1
  exact whOf_half _ _ _ _ (cos_sin _ c0.le c1)

example : HalfVector ⟨0, 3 / 5, -4 / 5⟩ (anisoSample (1 / 2) (1 / 10) ⟨0, 3 / 5, -4 / 5⟩ (1 / 3) (7 / 8)) :=
  C95_aniso _ _ _ _ _ (by norm_num) (by norm_num) (by norm_num) (by norm_num)

/-! ### C89, anisotropic -/

/-- The azimuth turns at the rate `2π ax ay / along`. -/
theorem aniso_azimuth (ax ay r1 : ℝ) (hx : 0 < ax) (hy : 0 < ay) (hr : 1 / 2 ≠ r1)
    (hc : Real.cos (2 * Real.pi * r1 + 1 / 2 * Real.pi) ≠ 0) :
    HasDerivAt (anisoPhi ax ay) (2 * Real.pi * ax * ay / along ax ay (anisoPhi ax ay r1)) r1 := by
  obtain ⟨ψ, hψ⟩ : ∃ ψ, ψ = 2 * Real.pi * r1 + 1 / 2 * Real.pi := ⟨_, rfl⟩
  rw [← hψ] at hc
  have lin : HasDerivAt (fun r : ℝ => 2 * Real.pi * r + 1 / 2 * Real.pi) (2 * Real.pi) r1 := by
    have := ((hasDerivAt_id r1).const_mul (2 * Real.pi)).add_const (1 / 2 * Real.pi)
    simpa using this
  have tn : HasDerivAt (fun r : ℝ => Real.tan (2 * Real.pi * r + 1 / 2 * Real.pi))
      (1 / Real.cos ψ ^ 2 * (2 * Real.pi)) r1 := by
    have t := Real.hasDerivAt_tan hc
    rw [hψ] at t ⊢
    exact t.comp r1 lin
  have base := (tn.const_mul (ay / ax)).arctan
  have val : ∀ φ : ℝ, φ = Real.arctan (ay / ax * Real.tan ψ) ∨ φ = Real.arctan (ay / ax * Real.tan ψ) + Real.pi →
      1 / (1 + (ay / ax * Real.tan ψ) ^ 2) * (ay / ax * (1 / Real.cos ψ ^ 2 * (2 * Real.pi))) =
        2 * Real.pi * ax * ay / along ax ay φ := by
    intro φ hφ
    have c2 : Real.cos φ ^ 2 = 1 / (1 + (ay / ax * Real.tan ψ) ^ 2) := by
      have := Real.cos_sq_arctan (ay / ax * Real.tan ψ)
      rcases hφ with e | e <;> rw [e]
      · exact this
      · rw [Real.cos_add_pi, neg_sq]; exact this
    have s2 : Real.sin φ ^ 2 = (ay / ax * Real.tan ψ) ^ 2 / (1 + (ay / ax * Real.tan ψ) ^ 2) := by
      have := Real.sin_sq_add_cos_sq φ
      have p : (0 : ℝ) < 1 + (ay / ax * Real.tan ψ) ^ 2 := by positivity
      have e : Real.sin φ ^ 2 = 1 - 1 / (1 + (ay / ax * Real.tan ψ) ^ 2) := by rw [← c2]; linarith
      rw [e, eq_div_iff p.ne', sub_mul, one_div_mul_cancel p.ne']; ring
    have sec : 1 / Real.cos ψ ^ 2 = 1 + Real.tan ψ ^ 2 := by
      rw [Real.tan_eq_sin_div_cos]
      have := Real.sin_sq_add_cos_sq ψ
      field_simp
      linarith
    rw [along, c2, s2, sec]
    have p : (0 : ℝ) < 1 + (ay / ax * Real.tan ψ) ^ 2 := by positivity
    generalize Real.tan ψ = T at *
    have hx' := hx.ne'
    have hy' := hy.ne'
    have e1 : 1 / (1 + (ay / ax * T) ^ 2) / ax ^ 2 + (ay / ax * T) ^ 2 / (1 + (ay / ax * T) ^ 2) / ay ^ 2 =
        (1 + T ^ 2) / (ax ^ 2 * (1 + (ay / ax * T) ^ 2)) := by
      field_simp
    rw [e1]
    field_simp
  rcases lt_or_gt_of_ne hr with lt | gt
  · -- second half
    have ev : (fun r => Real.arctan (ay / ax * Real.tan (2 * Real.pi * r + 1 / 2 * Real.pi)) + Real.pi) =ᶠ[nhds r1]
        anisoPhi ax ay := by
      filter_upwards [lt_mem_nhds lt] with r h
      simp only [anisoPhi, if_pos h]
    have e : anisoPhi ax ay r1 = Real.arctan (ay / ax * Real.tan ψ) + Real.pi := by
      simp only [anisoPhi, if_pos lt, hψ]
    rw [← val _ (Or.inr e)]
    refine (HasDerivAt.congr_of_eventuallyEq ?_ ev.symm)
    have := base.add_const Real.pi
    rw [← hψ] at this
    exact this
  · have ev : (fun r => Real.arctan (ay / ax * Real.tan (2 * Real.pi * r + 1 / 2 * Real.pi))) =ᶠ[nhds r1]
        anisoPhi ax ay := by
      filter_upwards [gt_mem_nhds gt] with r h
      simp only [anisoPhi, if_neg (not_lt.2 h.le)]
    have e : anisoPhi ax ay r1 = Real.arctan (ay / ax * Real.tan ψ) := by
      simp only [anisoPhi, if_neg (not_lt.2 gt.le), hψ]
    rw [← val _ (Or.inl e)]
    refine (HasDerivAt.congr_of_eventuallyEq ?_ ev.symm)
    rw [← hψ] at base
    exact base

/-- The cosine falls with the first random number. -/
theorem aniso_cosine (ax ay phi r0 : ℝ) (hx : 0 < ax) (hy : 0 < ay) (h0 : 0 ≤ r0) (h1 : r0 < 1) :
    HasDerivAt (anisoCos ax ay phi)
      (-(along ax ay phi / (1 - r0) ^ 2) / 2 * anisoCos ax ay phi r0 ^ 3) r0 := by
  have p := along_pos ax ay phi hx hy
  have n0 : 1 - r0 ≠ 0 := by linarith
  have q : 0 < 1 + along ax ay phi * r0 / (1 - r0) := by
    have : 0 ≤ along ax ay phi * r0 / (1 - r0) := div_nonneg (by positivity) (by linarith)
    linarith
  have f : HasDerivAt (fun r : ℝ => 1 + along ax ay phi * r / (1 - r)) (along ax ay phi / (1 - r0) ^ 2) r0 := by
    have num : HasDerivAt (fun r : ℝ => along ax ay phi * r) (along ax ay phi) r0 := by
      simpa using (hasDerivAt_id r0).const_mul (along ax ay phi)
    have den : HasDerivAt (fun r : ℝ => 1 - r) (-1) r0 := by
      simpa using (hasDerivAt_id r0).const_sub 1
    refine ((num.div den n0).const_add 1).congr_deriv ?_
    field_simp
    ring
  have s := f.sqrt q.ne'
  have sp := Real.sqrt_pos.2 q
  have ev : anisoCos ax ay phi = fun r => (Real.sqrt (1 + along ax ay phi * r / (1 - r)))⁻¹ := by
    funext r; rw [anisoCos_eq, one_div]
  have d := s.inv sp.ne'
  rw [ev]
  refine d.congr_deriv ?_
  simp only
  generalize Real.sqrt (1 + along ax ay phi * r0 / (1 - r0)) = w at *
  have := sp.ne'
  field_simp

/-- **C89** (anisotropic GGX): at almost every pair of random numbers (the first not 0, the second not 0, 1/2
or 1) the half vector, as a function of the pair, has a derivative, and the density of the distribution
times the change of solid angle is 1: `|dω/(dr0 dr1)| = |dcosθ/dr0 · dφ/dr1|`.  The statement about
probabilities of regions is `C89_aniso` in Props/Anisotropic.lean. -/
theorem C89_aniso_rate (ax ay r0 r1 : ℝ) (hx : 0 < ax) (hy : 0 < ay) (h0 : 0 < r0) (h1 : r0 < 1)
    (hr : 1 / 2 ≠ r1) (hc : Real.cos (2 * Real.pi * r1 + 1 / 2 * Real.pi) ≠ 0) (wo : V3 ℝ) :
    ∃ dphi dcos, HasDerivAt (anisoPhi ax ay) dphi r1 ∧ 0 < dphi ∧
      HasDerivAt (anisoCos ax ay (anisoPhi ax ay r1)) dcos r0 ∧ dcos < 0 ∧
      basePdf (anisoD ax ay) (anisoSample ax ay wo r0 r1) * (dphi * |dcos|) = 1 := by
  obtain ⟨φ, hφ⟩ : ∃ φ, φ = anisoPhi ax ay r1 := ⟨_, rfl⟩
  have A := aniso_azimuth ax ay r1 hx hy hr hc
  have B := aniso_cosine ax ay φ r0 hx hy h0.le h1
  have p := along_pos ax ay φ hx hy
  have hp := Real.pi_pos
  have n0 : 0 < 1 - r0 := by linarith
  have q : 1 < 1 + along ax ay φ * r0 / (1 - r0) := by
    have : 0 < along ax ay φ * r0 / (1 - r0) := by positivity
    linarith
  have cpos := (inv_sqrt_le _ q.le).1
  rw [← anisoCos_eq] at cpos
  obtain ⟨c, hc'⟩ : ∃ c, c = anisoCos ax ay φ r0 := ⟨_, rfl⟩
  rw [← hc'] at cpos B
  have c2 : c ^ 2 = (1 - r0) / (1 - r0 + along ax ay φ * r0) := by
    rw [hc', anisoCos_eq, div_pow, Real.sq_sqrt (by linarith)]
    field_simp
  have den : 0 < 1 - r0 + along ax ay φ * r0 := by positivity
  have neg' : -(along ax ay φ / (1 - r0) ^ 2) / 2 * c ^ 3 < 0 := by
    have : 0 < along ax ay φ / (1 - r0) ^ 2 / 2 * c ^ 3 := by positivity
    have e : -(along ax ay φ / (1 - r0) ^ 2) / 2 * c ^ 3 = -(along ax ay φ / (1 - r0) ^ 2 / 2 * c ^ 3) := by ring
    rw [e]; linarith
  rw [← hφ] at A
  refine ⟨_, _, A, by positivity, hφ ▸ B, neg', ?_⟩
  -- the density
  have s2 : max 0 (1 - c * c) = 1 - c ^ 2 := by
    rw [max_eq_right, pow_two]
    have : c ^ 2 ≤ 1 := by rw [c2, div_le_one den]; nlinarith [mul_pos p h0]
    nlinarith
  have s2pos : 0 < 1 - c ^ 2 := by
    rw [c2, sub_pos, div_lt_one den]; nlinarith [mul_pos p h0]
  have even : ∀ v : V3 ℝ, basePdf (anisoD ax ay) (neg v) = basePdf (anisoD ax ay) v := by
    intro v; simp only [basePdf, anisoD, neg, neg_eq_zero, neg_mul_neg, abs_neg]
  have smp : basePdf (anisoD ax ay) (anisoSample ax ay wo r0 r1) =
      basePdf (anisoD ax ay) ⟨Real.sqrt (1 - c ^ 2) * Real.cos φ, Real.sqrt (1 - c ^ 2) * Real.sin φ, c⟩ := by
    simp only [anisoSample, ← hφ, ← hc', s2, whOf]
    split
    · exact even _
    · rfl
  rw [smp]
  have cn := cpos.ne'
  have ss := Real.mul_self_sqrt s2pos.le
  have cc : max 0 (1 - c * c) ≠ 0 := by rw [s2]; exact s2pos.ne'
  simp only [basePdf, anisoD, cn, if_false, cc]
  rw [s2, abs_of_neg neg', abs_of_pos cpos]
  have al : Real.cos φ ^ 2 / ax ^ 2 + Real.sin φ ^ 2 / ay ^ 2 = 1 / along ax ay φ := by rw [along, one_div_one_div]
  have e1 : Real.sqrt (1 - c ^ 2) * Real.cos φ * (Real.sqrt (1 - c ^ 2) * Real.cos φ) * (1 / (1 - c ^ 2)) * (1 / ax) * (1 / ax)
      + Real.sqrt (1 - c ^ 2) * Real.sin φ * (Real.sqrt (1 - c ^ 2) * Real.sin φ) * (1 / (1 - c ^ 2)) * (1 / ay) * (1 / ay)
      = 1 / along ax ay φ := by
    rw [← al]
    have a1 : Real.sqrt (1 - c ^ 2) * Real.cos φ * (Real.sqrt (1 - c ^ 2) * Real.cos φ) = (1 - c ^ 2) * Real.cos φ ^ 2 := by
      linear_combination Real.cos φ ^ 2 * ss
    have a2 : Real.sqrt (1 - c ^ 2) * Real.sin φ * (Real.sqrt (1 - c ^ 2) * Real.sin φ) = (1 - c ^ 2) * Real.sin φ ^ 2 := by
      linear_combination Real.sin φ ^ 2 * ss
    rw [a1, a2]
    have := s2pos.ne'
    field_simp
  rw [e1]
  generalize along ax ay φ = L at *
  have t2 : 1 + 1 / L * ((1 - c ^ 2) * (1 / (c * c))) = 1 / (1 - r0) := by
    have : (1 - c ^ 2) * (1 / (c * c)) = L * r0 / (1 - r0) := by
      rw [← pow_two, c2]
      have := den.ne'
      field_simp
      ring
    rw [this]; field_simp; ring
  rw [t2]
  field_simp

example : ∃ dphi dcos, HasDerivAt (anisoPhi (1 / 2) (1 / 5)) dphi (1 / 4) ∧ 0 < dphi ∧
      HasDerivAt (anisoCos (1 / 2) (1 / 5) (anisoPhi (1 / 2) (1 / 5) (1 / 4))) dcos (1 / 3) ∧ dcos < 0 ∧
      basePdf (anisoD (1 / 2) (1 / 5)) (anisoSample (1 / 2) (1 / 5) ⟨0, 0, 1⟩ (1 / 3) (1 / 4)) * (dphi * |dcos|) = 1 := by
  refine C89_aniso_rate _ _ _ _ (by norm_num) (by norm_num) (by norm_num) (by norm_num) (by norm_num) ?_ _
  rw [show 2 * Real.pi * (1 / 4) + 1 / 2 * Real.pi = Real.pi by ring]
  simp

/-! ### C96 -/

/-- The half vector of a pair on opposite sides, pointing upwards. -/
noncomputable def upHalf (no ni : ℝ) (wo wi : V3 ℝ) : V3 ℝ :=
  let w := normalize (add (scale (neg wo) no) (neg (scale wi ni)))
  if w.z < 0 then neg w else w

/-- **C96.** Exchanging the directions multiplies the value by the squared ratio of the indices, if the
reflectance seen from both directions is the same: for all distributions with symmetric masking and all
directions on opposite sides. -/
theorem C96_reciprocal (d : Dist) (F : ℝ → ℝ) (hG : ∀ a b, d.G a b = d.G b a) (a b : ℝ) (wo wi : V3 ℝ)
    (ho : 0 < wo.z) (hi : wi.z < 0)
    (hF : F (dot wi (upHalf a b wo wi)) = F (dot wo (upHalf a b wo wi))) :
    valueT d F a b wo wi * b ^ 2 = valueT d F a b wi wo * a ^ 2 := by
  have sw : add (scale (neg wi) b) (neg (scale wo a)) = add (scale (neg wo) a) (neg (scale wi b)) := by
    simp only [add, scale, neg, V3.mk.injEq]; refine ⟨?_, ?_, ?_⟩ <;> ring
  have n1 : ¬ 0 < wo.z * wi.z := not_lt.2 (mul_nonpos_of_nonneg_of_nonpos ho.le hi.le)
  have n2 : ¬ 0 < wi.z * wo.z := by rwa [mul_comm]
  have e1 : etas a b wo.z = (a, b) := by simp [etas, ho]
  have e2 : etas a b wi.z = (b, a) := by simp [etas, not_lt.2 hi.le]
  unfold valueT
  have m1 : ¬ (wo.z = 0 ∨ wi.z = 0) := by rintro (h | h) <;> linarith
  have m2 : ¬ (wi.z = 0 ∨ wo.z = 0) := by rintro (h | h) <;> linarith
  rw [if_neg n1, if_neg n2, if_neg m1, if_neg m2]
  simp only [e1, e2, sw]
  by_cases z : (add (scale (neg wo) a) (neg (scale wi b))).x = 0 ∧ (add (scale (neg wo) a) (neg (scale wi b))).y = 0 ∧
      (add (scale (neg wo) a) (neg (scale wi b))).z = 0
  · rw [if_pos z, if_pos z]; ring
  · rw [if_neg z, if_neg z]
    unfold upHalf at hF
    simp only at hF
    generalize (if (normalize (add (scale (neg wo) a) (neg (scale wi b)))).z < 0 then
      neg (normalize (add (scale (neg wo) a) (neg (scale wi b)))) else
      normalize (add (scale (neg wo) a) (neg (scale wi b)))) = w at hF ⊢
    rw [hF, hG wi wo]
    have k : ∀ x : ℝ, |x| * b ^ 2 = |x * b ^ 2| := fun x => by rw [abs_mul, abs_of_nonneg (sq_nonneg b)]
    have k' : ∀ x : ℝ, |x| * a ^ 2 = |x * a ^ 2| := fun x => by rw [abs_mul, abs_of_nonneg (sq_nonneg a)]
    rw [mul_assoc _ (|_|) (b ^ 2), mul_assoc _ (|_|) (a ^ 2), k, k', add_comm (b * dot wi w) (a * dot wo w),
      mul_comm wi.z wo.z]
    congr 2
    ring

/-- The half vector satisfies Snell's law with both directions. -/
theorem upHalf_snell (a b : ℝ) (wo wi : V3 ℝ) (ho : dot wo wo = 1) (hi : dot wi wi = 1)
    (hn : ¬ ((add (scale (neg wo) a) (neg (scale wi b))).x = 0 ∧ (add (scale (neg wo) a) (neg (scale wi b))).y = 0 ∧
      (add (scale (neg wo) a) (neg (scale wi b))).z = 0)) :
    a ^ 2 * (1 - dot wo (upHalf a b wo wi) ^ 2) = b ^ 2 * (1 - dot wi (upHalf a b wo wi) ^ 2) := by
  obtain ⟨h, hh⟩ : ∃ h, h = add (scale (neg wo) a) (neg (scale wi b)) := ⟨_, rfl⟩
  rw [← hh] at hn
  have L : 0 < dot h h := by
    simp only [dot]
    by_contra hle
    push Not at hle
    apply hn
    have x := mul_self_nonneg h.x
    have y := mul_self_nonneg h.y
    have z := mul_self_nonneg h.z
    exact ⟨mul_self_eq_zero.1 (by linarith), mul_self_eq_zero.1 (by linarith), mul_self_eq_zero.1 (by linarith)⟩
  have k : (1 / Real.sqrt (dot h h)) ^ 2 * dot h h = 1 := by
    rw [div_pow, Real.sq_sqrt L.le]; field_simp
  have sq : ∀ v : V3 ℝ, dot v (upHalf a b wo wi) ^ 2 = (1 / Real.sqrt (dot h h)) ^ 2 * dot v h ^ 2 := by
    intro v
    have : dot v (normalize h) = 1 / Real.sqrt (dot h h) * dot v h := by
      simp only [normalize, scale, dot]; ring
    unfold upHalf
    simp only [← hh]
    split
    · have e : dot v (neg (normalize h)) = -dot v (normalize h) := by simp only [dot, neg]; ring
      rw [e, neg_sq, this]; ring
    · rw [this]; ring
  rw [sq, sq]
  generalize (1 / Real.sqrt (dot h h)) ^ 2 = g at *
  have dd : dot h h = a ^ 2 + b ^ 2 + 2 * a * b * dot wo wi := by
    rw [hh]; simp only [add, scale, neg, dot] at *
    linear_combination a ^ 2 * ho + b ^ 2 * hi
  have d1 : dot wo h = -(a + b * dot wo wi) := by
    rw [hh]; simp only [add, scale, neg, dot] at *
    linear_combination (-a) * ho
  have d2 : dot wi h = -(a * dot wo wi + b) := by
    rw [hh]; simp only [add, scale, neg, dot] at *
    linear_combination (-b) * hi
  rw [dd] at k
  rw [d1, d2]
  generalize dot wo wi = e at *
  linear_combination (b ^ 2 - a ^ 2) * k

/-- **C96.** In particular for the Fresnel term of the code, whenever the microfacet is seen from its front by
`wo` and from its back by `wi`. -/
theorem C96_dielectric (d : Dist) (hG : ∀ a b, d.G a b = d.G b a) (a b : ℝ) (ha : 0 < a) (hb : 0 < b)
    (wo wi : V3 ℝ) (uo : dot wo wo = 1) (ui : dot wi wi = 1) (ho : 0 < wo.z) (hi : wi.z < 0)
    (fo : 0 < dot wo (upHalf a b wo wi)) (fi : dot wi (upHalf a b wo wi) < 0) :
    valueT d (fun c => (dielectric a b c).getD 0) a b wo wi * b ^ 2 =
    valueT d (fun c => (dielectric a b c).getD 0) a b wi wo * a ^ 2 := by
  refine C96_reciprocal d _ hG a b wo wi ho hi ?_
  have hn : ¬ ((add (scale (neg wo) a) (neg (scale wi b))).x = 0 ∧ (add (scale (neg wo) a) (neg (scale wi b))).y = 0 ∧
      (add (scale (neg wo) a) (neg (scale wi b))).z = 0) := by
    rintro ⟨x, y, z⟩
    have : upHalf a b wo wi = ⟨0, 0, 0⟩ := by
      unfold upHalf
      generalize add (scale (neg wo) a) (neg (scale wi b)) = h at x y z
      obtain ⟨hx, hy, hz⟩ := h
      simp only at x y z
      subst x y z
      simp [normalize, scale]
    rw [this] at fo; simp [dot] at fo
  have S := upHalf_snell a b wo wi uo ui hn
  have bound : ∀ v : V3 ℝ, dot v v = 1 → dot v (upHalf a b wo wi) ^ 2 ≤ 1 := by
    intro v hv
    have uu : dot (upHalf a b wo wi) (upHalf a b wo wi) = 1 := by
      obtain ⟨h, hh⟩ : ∃ h, h = add (scale (neg wo) a) (neg (scale wi b)) := ⟨_, rfl⟩
      rw [← hh] at hn
      have L : 0 < dot h h := by
        simp only [dot]
        by_contra hle
        push Not at hle
        apply hn
        have x := mul_self_nonneg h.x
        have y := mul_self_nonneg h.y
        have z := mul_self_nonneg h.z
        exact ⟨mul_self_eq_zero.1 (by linarith), mul_self_eq_zero.1 (by linarith), mul_self_eq_zero.1 (by linarith)⟩
      have nn : dot (normalize h) (normalize h) = 1 := by
        have k : (1 / Real.sqrt (dot h h)) ^ 2 * dot h h = 1 := by
          rw [div_pow, Real.sq_sqrt L.le]; field_simp
        rw [← k]; simp only [normalize, scale]; simp only [dot]; ring
      unfold upHalf
      simp only [← hh]
      split
      · rw [← nn]; simp only [dot, neg]; ring
      · exact nn
    generalize upHalf a b wo wi = w at *
    simp only [dot] at *
    nlinarith [sq_nonneg (v.x * w.y - v.y * w.x), sq_nonneg (v.y * w.z - v.z * w.y), sq_nonneg (v.x * w.z - v.z * w.x)]
  have b1 := bound wo uo
  have b2 := bound wi ui
  generalize dot wo (upHalf a b wo wi) = co at *
  generalize dot wi (upHalf a b wo wi) = ci at *
  have R := C83_reciprocal a b co (-ci) ha hb fo (by nlinarith) (by linarith) (by nlinarith)
    (by unfold Snell; linear_combination S)
  rw [neg_neg] at R
  simp only [R]

-- Straight through the surface.
example : valueT (ggx (1 / 4)) (fun c => (dielectric 1 (3 / 2) c).getD 0) 1 (3 / 2) ⟨0, 0, 1⟩ ⟨0, 0, -1⟩ * (3 / 2) ^ 2 =
    valueT (ggx (1 / 4)) (fun c => (dielectric 1 (3 / 2) c).getD 0) 1 (3 / 2) ⟨0, 0, -1⟩ ⟨0, 0, 1⟩ * 1 ^ 2 := by
  have e : upHalf 1 (3 / 2) ⟨0, 0, 1⟩ ⟨0, 0, -1⟩ = ⟨0, 0, 1⟩ := by
    have : normalize (add (scale (neg ⟨0, 0, 1⟩) 1) (neg (scale ⟨0, 0, -1⟩ (3 / 2)))) = ⟨0, 0, 1⟩ := by
      have : add (scale (neg ⟨0, 0, 1⟩) 1) (neg (scale ⟨0, 0, -1⟩ (3 / 2))) = scale (⟨0, 0, 1⟩ : V3 ℝ) (1 / 2) := by
        simp only [add, scale, neg, V3.mk.injEq]; norm_num
      rw [this]
      exact normalize_scale _ _ (by norm_num [dot]) (by norm_num)
    unfold upHalf
    simp only [this]; norm_num
  refine C96_dielectric _ (fun a b => by simp only [ggx]; ring) _ _ (by norm_num) (by norm_num) _ _ (by norm_num [dot])
    (by norm_num [dot]) (by norm_num) (by norm_num) ?_ ?_ <;> rw [e] <;> norm_num [dot]

/-- **C96** is violated: a pair of directions which no microfacet refracts into each other, because both see
the same side of it, has a value other than 0 (for every reflectance but total). -/
theorem C96_violated_backfacing (a2 : ℝ) (ha : 0 < a2) (F : ℝ → ℝ) (hF : ∀ c, F c ≠ 1) :
    dot (⟨4 / 5, 0, 3 / 5⟩ : V3 ℝ) (upHalf 1 (3 / 2) ⟨4 / 5, 0, 3 / 5⟩ ⟨4 / 5, 0, -3 / 5⟩) < 0 ∧
    dot (⟨4 / 5, 0, -3 / 5⟩ : V3 ℝ) (upHalf 1 (3 / 2) ⟨4 / 5, 0, 3 / 5⟩ ⟨4 / 5, 0, -3 / 5⟩) < 0 ∧
    valueT (ggx a2) F 1 (3 / 2) ⟨4 / 5, 0, 3 / 5⟩ ⟨4 / 5, 0, -3 / 5⟩ ≠ 0 := by
  have h : add (scale (neg ⟨4 / 5, 0, 3 / 5⟩) 1) (neg (scale ⟨4 / 5, 0, -3 / 5⟩ (3 / 2))) = (⟨-2, 0, 3 / 10⟩ : V3 ℝ) := by
    simp only [add, scale, neg, V3.mk.injEq]; norm_num
  obtain ⟨k, hk, kp⟩ : ∃ k, k = 1 / Real.sqrt (dot (⟨-2, 0, 3 / 10⟩ : V3 ℝ) ⟨-2, 0, 3 / 10⟩) ∧ 0 < k := by
    refine ⟨_, rfl, ?_⟩
    have : 0 < dot (⟨-2, 0, 3 / 10⟩ : V3 ℝ) ⟨-2, 0, 3 / 10⟩ := by norm_num [dot]
    positivity
  have n : normalize (⟨-2, 0, 3 / 10⟩ : V3 ℝ) = ⟨-2 * k, 0, 3 / 10 * k⟩ := by
    simp only [normalize, scale, ← hk]; simp
  have zp : ¬ 3 / 10 * k < 0 := by linarith
  have u : upHalf 1 (3 / 2) ⟨4 / 5, 0, 3 / 5⟩ ⟨4 / 5, 0, -3 / 5⟩ = ⟨-2 * k, 0, 3 / 10 * k⟩ := by
    simp only [upHalf, h, n, zp, if_false]
  have d1 : dot (⟨4 / 5, 0, 3 / 5⟩ : V3 ℝ) ⟨-2 * k, 0, 3 / 10 * k⟩ = -(142 / 100) * k := by simp only [dot]; ring
  have d2 : dot (⟨4 / 5, 0, -3 / 5⟩ : V3 ℝ) ⟨-2 * k, 0, 3 / 10 * k⟩ = -(178 / 100) * k := by simp only [dot]; ring
  rw [u]
  refine ⟨by rw [d1]; linarith, by rw [d2]; linarith, ?_⟩
  have Dn : ggxD a2 ⟨-2 * k, 0, 3 / 10 * k⟩ ≠ 0 := by
    have z : 3 / 10 * k ≠ 0 := by positivity
    have zz : 0 < 3 / 10 * k * (3 / 10 * k) := by positivity
    simp only [ggxD, z, if_false]
    have : 0 < a2 + max 0 (1 - 3 / 10 * k * (3 / 10 * k)) / (3 / 10 * k * (3 / 10 * k)) := by
      have : 0 ≤ max 0 (1 - 3 / 10 * k * (3 / 10 * k)) / (3 / 10 * k * (3 / 10 * k)) := div_nonneg (le_max_left _ _) zz.le
      linarith
    have := Real.pi_pos
    positivity
  have Gn : ∀ v : V3 ℝ, v.z ≠ 0 → ggxG1 a2 v ≠ 0 := by
    intro v hv
    have : v.z * v.z ≠ 0 := mul_self_ne_zero.2 hv
    simp only [ggxG1, this, if_false]
    positivity
  have G1 := Gn ⟨4 / 5, 0, 3 / 5⟩ (by norm_num)
  have G2 := Gn ⟨4 / 5, 0, -3 / 5⟩ (by norm_num)
  have et : etas 1 (3 / 2) (3 / 5) = (1, 3 / 2) := by simp [etas]
  unfold valueT
  simp only [et, h, n, zp, if_false]
  rw [if_neg (by norm_num), if_neg (by norm_num), if_neg (by norm_num), d1, d2]
  refine mul_ne_zero (sub_ne_zero.2 (hF _).symm) (abs_ne_zero.2 (div_ne_zero ?_ ?_))
  · have : -(142 / 100) * k ≠ 0 := by simp [kp.ne']
    have : -(178 / 100) * k ≠ 0 := by simp [kp.ne']
    simp only [ggx]
    positivity
  · have : 1 * (-(142 / 100) * k) + 3 / 2 * (-(178 / 100) * k) = -(409 / 100) * k := by ring
    rw [this]
    have : -(409 / 100) * k ≠ 0 := by simp [kp.ne']
    exact mul_ne_zero (mul_ne_zero this this) (by norm_num)

/-- **C96.** The value is not negative if the reflectance does not exceed 1. -/
theorem C96_nonneg (d : Dist) (F : ℝ → ℝ) (hF : ∀ c, F c ≤ 1) (a b : ℝ) (wo wi : V3 ℝ) :
    0 ≤ valueT d F a b wo wi := by
  unfold valueT
  split
  · exact le_rfl
  · split
    · exact le_rfl
    · simp only
      split
      · exact le_rfl
      · exact mul_nonneg (sub_nonneg.2 (hF _)) (abs_nonneg _)

/-! ### C90, C93: parameters -/

/-- Smith's auxiliary function for an ellipsoidal distribution. -/
noncomputable def smithLambda (ax ay : ℝ) (v : V3 ℝ) : ℝ :=
  (Real.sqrt (1 + ((ax * v.x) ^ 2 + (ay * v.y) ^ 2) / v.z ^ 2) - 1) / 2

/-- **C90.** Away from the normal and from grazing directions, the anisotropic masking is Smith's. -/
theorem C90_smith_aniso_partial (ax ay : ℝ) (wo wi : V3 ℝ) (ho : wo.z ≠ 0 ∧ |wo.z| < 1) (hi : wi.z ≠ 0 ∧ |wi.z| < 1) :
    anisoG ax ay wo wi = 1 / (1 + smithLambda ax ay wo + smithLambda ax ay wi) := by
  have l : ∀ v : V3 ℝ, v.z ≠ 0 ∧ |v.z| < 1 → lambda v ax ay = smithLambda ax ay v := by
    intro v hv
    have zl : v.z * v.z < 1 := by rw [← abs_mul_abs_self]; nlinarith [abs_nonneg v.z, hv.2]
    have sp : 0 < 1 - v.z * v.z := by linarith
    have t : |Real.sqrt (max 0 (1 - v.z * v.z)) / v.z| ≠ 0 := by
      rw [abs_ne_zero]
      refine div_ne_zero (Real.sqrt_ne_zero'.2 ?_) hv.1
      rw [max_eq_right sp.le]; exact sp
    rw [max_eq_right sp.le] at t
    simp only [lambda, hv.1, if_false, max_eq_right sp.le, Real.mul_self_sqrt sp.le, smithLambda]
    rw [if_neg t]
    have t2 : |Real.sqrt (1 - v.z * v.z) / v.z| * |Real.sqrt (1 - v.z * v.z) / v.z| = (1 - v.z * v.z) / v.z ^ 2 := by
      rw [abs_mul_abs_self, div_mul_div_comm, Real.mul_self_sqrt sp.le, pow_two]
    have nn : 0 ≤ v.x * v.x / (1 - v.z * v.z) * ax * ax + v.y * v.y / (1 - v.z * v.z) * ay * ay := by
      have e : v.x * v.x / (1 - v.z * v.z) * ax * ax + v.y * v.y / (1 - v.z * v.z) * ay * ay =
          ((v.x * ax) ^ 2 + (v.y * ay) ^ 2) / (1 - v.z * v.z) := by ring
      rw [e]; positivity
    rw [t2, mul_assoc ((1 - v.z * v.z) / v.z ^ 2), Real.mul_self_sqrt nn]
    have e : (1 - v.z * v.z) / v.z ^ 2 * (v.x * v.x / (1 - v.z * v.z) * ax * ax + v.y * v.y / (1 - v.z * v.z) * ay * ay) =
        ((ax * v.x) ^ 2 + (ay * v.y) ^ 2) / v.z ^ 2 := by
      have k := sp.ne'
      generalize 1 - v.z * v.z = S at k
      have := hv.1
      field_simp
    rw [e]; ring
  rw [anisoG, l wo ho, l wi hi]

/-- **C90.** The masking of Blinn with exponent `e` is the one of Beckmann with roughness `√(2/(e+2))`. -/
theorem C90_blinn_beckmann (e : ℝ) (he : 0 ≤ e) (v : V3 ℝ) :
    blinnG1 e v = beckmannG1 (Real.sqrt (2 / (e + 2))) v := by
  simp only [blinnG1, beckmannG1]
  split
  · rfl
  · split
    · rfl
    · rename_i h0 h1
      push Not at h1
      have cp : 0 < |v.z| := lt_of_le_of_ne (abs_nonneg _) (Ne.symm h0)
      have sp : 0 < 1 - |v.z| * |v.z| := by nlinarith
      rw [max_eq_right sp.le]
      congr 1
      have k : Real.sqrt (1 / 2 * e + 1) * Real.sqrt (2 / (e + 2)) = 1 := by
        rw [← Real.sqrt_mul (by positivity)]
        have : (1 / 2 * e + 1) * (2 / (e + 2)) = 1 := by field_simp
        rw [this, Real.sqrt_one]
      have q := Real.sqrt_pos.2 sp
      have r : 0 < Real.sqrt (2 / (e + 2)) := Real.sqrt_pos.2 (by positivity)
      have r' : 0 < Real.sqrt (1 / 2 * e + 1) := Real.sqrt_pos.2 (by positivity)
      generalize Real.sqrt (1 / 2 * e + 1) = A at *
      generalize Real.sqrt (2 / (e + 2)) = B at *
      generalize Real.sqrt (1 - |v.z| * |v.z|) = s at *
      generalize |v.z| = c at *
      rw [div_div_eq_mul_div, div_eq_div_iff q.ne' (by positivity)]
      linear_combination c * s * k

/-- **C93.** As constructed from a roughness in (0,1]. -/
theorem C93_constructed_partial (a : ℝ) (h0 : 0 < a) (h1 : a ≤ 1) (h : V3 ℝ) (hu : dot h h = 1) (hz : |h.z| ≠ 1) :
    anisoD a a h = ggxD (ggxA2 a) h := by
  rw [C93_isotropic_partial a h0.ne' h hu hz]
  simp only [ggxA2, clamp, if_neg (not_lt.2 h0.le), if_neg (not_lt.2 h1)]

/-- Walter et al. 2007, equation 21, with the half vector `h`. -/
noncomputable def walter (D G F no ni : ℝ) (wo wi h : V3 ℝ) : ℝ :=
  |dot wi h| * |dot wo h| / (|wi.z| * |wo.z|) * (no ^ 2 * (1 - F) * G * D / (ni * dot wi h + no * dot wo h) ^ 2)

/-- **C96.** From above, the value is that of the published formula for the half vector turned upwards. -/
theorem C96_walter (d : Dist) (F : ℝ → ℝ) (a b : ℝ) (wo wi : V3 ℝ) (ho : 0 < wo.z) (hi : wi.z < 0)
    (hD : 0 ≤ d.D (upHalf a b wo wi)) (hG : 0 ≤ d.G wo wi) (hne : add (scale (neg wo) a) (neg (scale wi b)) ≠ ⟨0, 0, 0⟩) :
    valueT d F a b wo wi =
      walter (d.D (upHalf a b wo wi)) (d.G wo wi) (F (dot wi (upHalf a b wo wi))) a b wo wi (upHalf a b wo wi) := by
  have n1 : ¬ 0 < wo.z * wi.z := not_lt.2 (mul_nonpos_of_nonneg_of_nonpos ho.le hi.le)
  have e1 : etas a b wo.z = (a, b) := by simp [etas, ho]
  have nz : ¬ ((add (scale (neg wo) a) (neg (scale wi b))).x = 0 ∧ (add (scale (neg wo) a) (neg (scale wi b))).y = 0 ∧
      (add (scale (neg wo) a) (neg (scale wi b))).z = 0) := by
    rintro ⟨x, y, z⟩
    apply hne
    ext <;> assumption
  unfold valueT
  rw [if_neg n1, if_neg (by rintro (h | h) <;> linarith), e1]
  simp only
  rw [if_neg nz]
  have u : (if (normalize (add (scale (neg wo) a) (neg (scale wi b)))).z < 0
      then neg (normalize (add (scale (neg wo) a) (neg (scale wi b))))
      else normalize (add (scale (neg wo) a) (neg (scale wi b)))) = upHalf a b wo wi := rfl
  rw [u]
  generalize upHalf a b wo wi = h at hD
  unfold walter
  generalize dot wo h = p
  generalize dot wi h = q
  rw [abs_div, abs_mul, abs_mul, abs_mul, abs_mul, abs_mul, abs_mul, abs_mul, abs_of_nonneg hD, abs_of_nonneg hG,
    abs_mul_abs_self, abs_mul_abs_self, abs_mul wo.z]
  generalize hs : a * p + b * q = s
  have hs' : b * q + a * p = s := by rw [← hs]; ring
  rw [hs']
  have h1 : |wo.z| ≠ 0 := by rw [abs_ne_zero]; exact ho.ne'
  have h2 : |wi.z| ≠ 0 := by rw [abs_ne_zero]; exact hi.ne
  generalize |wo.z| = X at *
  generalize |wi.z| = Y at *
  by_cases s0 : s = 0
  · subst s0; simp
  · field_simp

/-- **C90.** Seen along the normal nothing is masked. -/
theorem C90_normal (e a a2 : ℝ) (v : V3 ℝ) (h : |v.z| = 1) : blinnG1 e v = 1 ∧ beckmannG1 a v = 1 ∧ ggxG1 a2 v = 1 := by
  have z2 : v.z * v.z = 1 := by rw [← abs_mul_abs_self, h, one_mul]
  refine ⟨by simp [blinnG1, h], by simp [beckmannG1, h], ?_⟩
  simp only [ggxG1, z2]
  norm_num

example : anisoD (1 / 2) (1 / 2) ⟨3 / 5, 0, 4 / 5⟩ = ggxD (ggxA2 (1 / 2)) ⟨3 / 5, 0, 4 / 5⟩ ∧
    anisoG (1 / 2) (1 / 3) ⟨3 / 5, 0, 4 / 5⟩ ⟨0, 4 / 5, -3 / 5⟩ =
      1 / (1 + smithLambda (1 / 2) (1 / 3) ⟨3 / 5, 0, 4 / 5⟩ + smithLambda (1 / 2) (1 / 3) ⟨0, 4 / 5, -3 / 5⟩) ∧
    blinnG1 6 ⟨3 / 5, 0, 4 / 5⟩ = beckmannG1 (Real.sqrt (2 / (6 + 2))) ⟨3 / 5, 0, 4 / 5⟩ :=
  ⟨C93_constructed_partial _ (by norm_num) (by norm_num) _ (by norm_num [dot]) (by norm_num [abs_of_pos]),
    C90_smith_aniso_partial _ _ _ _ ⟨by norm_num, by norm_num [abs_of_pos]⟩ ⟨by norm_num, by norm_num [abs_lt]⟩,
    C90_blinn_beckmann 6 (by norm_num) _⟩

end Spectre.Microfacet
