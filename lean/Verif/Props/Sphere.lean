import Verif.Model.Light
import Verif.Props.Frame
import Mathlib.Analysis.SpecialFunctions.Trigonometric.Deriv
import Mathlib.Analysis.SpecialFunctions.Integrals.Basic

/-
C105: the parametrisation of the sphere.  C106: points sampled on the sphere and surface of placed shapes.
-/

namespace Spectre.Light
open Spectre.Geom Spectre.Frame

/-! ### C105 -/

/-- Spherical coordinates as the specification wants them: longitude `2πu` and colatitude `π(1-v)`. -/
noncomputable def sph (u v : ℝ) : V3 ℝ :=
  ⟨Real.sin (Real.pi - Real.pi * v) * Real.cos (2 * Real.pi * u),
   Real.sin (Real.pi - Real.pi * v) * Real.sin (2 * Real.pi * u), Real.cos (Real.pi - Real.pi * v)⟩

/-- `d` is the derivative of the curve `f` at `t`. -/
def Tangent (f : ℝ → V3 ℝ) (d : V3 ℝ) (t : ℝ) : Prop :=
  HasDerivAt (fun s => (f s).x) d.x t ∧ HasDerivAt (fun s => (f s).y) d.y t ∧ HasDerivAt (fun s => (f s).z) d.z t

/-- Partial derivatives of `sph`. -/
noncomputable def sphU (u v : ℝ) : V3 ℝ :=
  ⟨-(2 * Real.pi) * (sph u v).y, 2 * Real.pi * (sph u v).x, 0⟩
noncomputable def sphV (u v : ℝ) : V3 ℝ :=
  ⟨-Real.pi * (Real.cos (Real.pi - Real.pi * v) * Real.cos (2 * Real.pi * u)),
   -Real.pi * (Real.cos (Real.pi - Real.pi * v) * Real.sin (2 * Real.pi * u)),
   Real.pi * Real.sin (Real.pi - Real.pi * v)⟩

theorem sphU_tangent (u v : ℝ) : Tangent (fun s => sph s v) (sphU u v) u := by
  have l : HasDerivAt (fun s : ℝ => 2 * Real.pi * s) (2 * Real.pi) u := by
    simpa using (hasDerivAt_id u).const_mul (2 * Real.pi)
  refine ⟨?_, ?_, ?_⟩
  · refine (l.cos.const_mul (Real.sin (Real.pi - Real.pi * v))).congr_deriv ?_
    simp only [sphU, sph]; ring
  · refine (l.sin.const_mul (Real.sin (Real.pi - Real.pi * v))).congr_deriv ?_
    simp only [sphU, sph]; ring
  · exact hasDerivAt_const u _

theorem sphV_tangent (u v : ℝ) : Tangent (fun s => sph u s) (sphV u v) v := by
  have l : HasDerivAt (fun s : ℝ => Real.pi - Real.pi * s) (-Real.pi) v := by
    simpa using ((hasDerivAt_id v).const_mul Real.pi).const_sub Real.pi
  refine ⟨?_, ?_, ?_⟩
  · refine (l.sin.mul_const (Real.cos (2 * Real.pi * u))).congr_deriv ?_
    simp only [sphV]; ring
  · refine (l.sin.mul_const (Real.sin (2 * Real.pi * u))).congr_deriv ?_
    simp only [sphV]; ring
  · refine l.cos.congr_deriv ?_
    simp only [sphV]; ring

theorem azimuth_range (p : V3 ℝ) : 0 ≤ azimuth p ∧ azimuth p < 2 * Real.pi := by
  have h1 := Complex.neg_pi_lt_arg ⟨p.x, p.y⟩
  have h2 := Complex.arg_le_pi ⟨p.x, p.y⟩
  have := Real.pi_pos
  unfold azimuth
  simp only
  split <;> constructor <;> linarith

theorem azimuth_polar (p : V3 ℝ) :
    Real.sqrt (p.x * p.x + p.y * p.y) * Real.cos (azimuth p) = p.x ∧
    Real.sqrt (p.x * p.x + p.y * p.y) * Real.sin (azimuth p) = p.y := by
  have n : Real.sqrt (p.x * p.x + p.y * p.y) = ‖(⟨p.x, p.y⟩ : ℂ)‖ := by
    rw [Complex.norm_def, Complex.normSq_mk]
  have c := Complex.norm_mul_cos_arg ⟨p.x, p.y⟩
  have s := Complex.norm_mul_sin_arg ⟨p.x, p.y⟩
  rw [n]
  unfold azimuth
  simp only
  split
  · rw [Real.cos_add_two_pi, Real.sin_add_two_pi]; exact ⟨c, s⟩
  · exact ⟨c, s⟩

theorem clamp1_id {z : ℝ} (h : -1 ≤ z) (h' : z ≤ 1) : clamp1 z = z := by
  unfold clamp1
  rw [if_neg (by linarith), if_neg (by linarith)]

/-- **C105.** For a hit on the unit sphere off the axis the texture coordinates lie in `[0,1) × (0,1)`, they
are the coordinates of that very point, and the two tangents are the derivatives of the parametrisation. -/
theorem C105_parametrisation (p : V3 ℝ) (hp : dot p p = 1) (ha : p.x ≠ 0 ∨ p.y ≠ 0) :
    ∃ h, computeUvs p = some h ∧ 0 ≤ h.u ∧ h.u < 1 ∧ 0 < h.v ∧ h.v < 1 ∧ sph h.u h.v = p ∧
      Tangent (fun s => sph s h.v) h.dpdu h.u ∧ Tangent (fun s => sph h.u s) h.dpdv h.v := by
  have pp := Real.pi_pos
  have r0 : 0 < p.x * p.x + p.y * p.y := by
    rcases ha with h | h
    · have := mul_self_pos.mpr h; nlinarith [mul_self_nonneg p.y]
    · have := mul_self_pos.mpr h; nlinarith [mul_self_nonneg p.x]
  have q0 := Real.sqrt_pos.mpr r0
  have hz : p.x * p.x + p.y * p.y = 1 - p.z ^ 2 := by unfold dot at hp; linarith
  have z1 : -1 < p.z := by nlinarith
  have z2 : p.z < 1 := by nlinarith
  have cl := clamp1_id z1.le z2.le
  have sn : Real.sin (Real.arccos p.z) = Real.sqrt (p.x * p.x + p.y * p.y) := by
    rw [Real.sin_arccos, hz]
  have cn : Real.cos (Real.arccos p.z) = p.z := Real.cos_arccos z1.le z2.le
  obtain ⟨a0, a1⟩ := azimuth_range p
  obtain ⟨ac, as⟩ := azimuth_polar p
  have t0 : 0 < Real.arccos p.z := by rw [Real.arccos_pos]; exact z2
  have t1 : Real.arccos p.z < Real.pi := by
    refine lt_of_le_of_ne (Real.arccos_le_pi _) ?_
    intro e
    rw [e, Real.cos_pi] at cn
    linarith
  have eu : 2 * Real.pi * (azimuth p * (1 / (2 * Real.pi))) = azimuth p := by field_simp
  have ev : Real.pi - Real.pi * ((Real.arccos p.z - Real.pi) * (1 / (0 - Real.pi))) = Real.arccos p.z := by
    rw [zero_sub]; field_simp; ring
  have hs : sph (azimuth p * (1 / (2 * Real.pi))) ((Real.arccos p.z - Real.pi) * (1 / (0 - Real.pi))) = p := by
    unfold sph
    rw [eu, ev, sn, cn, ac, as]
  have e : computeUvs p = some ⟨azimuth p * (1 / (2 * Real.pi)),
      (Real.arccos p.z - Real.pi) * (1 / (0 - Real.pi)), ⟨-(2 * Real.pi) * p.y, 2 * Real.pi * p.x, 0⟩,
      Frame.scale ⟨p.z * (p.x * (1 / Real.sqrt (p.x * p.x + p.y * p.y))),
        p.z * (p.y * (1 / Real.sqrt (p.x * p.x + p.y * p.y))), -Real.sin (Real.arccos p.z)⟩ (0 - Real.pi)⟩ := by
    unfold computeUvs
    simp only [cl]
    rw [if_neg q0.ne']
  have tu := sphU_tangent (azimuth p * (1 / (2 * Real.pi))) ((Real.arccos p.z - Real.pi) * (1 / (0 - Real.pi)))
  have tv := sphV_tangent (azimuth p * (1 / (2 * Real.pi))) ((Real.arccos p.z - Real.pi) * (1 / (0 - Real.pi)))
  refine ⟨_, e, ?_, ?_, ?_, ?_, hs, ?_, ?_⟩
  · exact mul_nonneg a0 (by positivity)
  · show azimuth p * (1 / (2 * Real.pi)) < 1
    rw [mul_one_div, div_lt_one (by positivity)]; exact a1
  · show 0 < (Real.arccos p.z - Real.pi) * (1 / (0 - Real.pi))
    rw [mul_one_div]
    exact div_pos_of_neg_of_neg (by linarith) (by linarith)
  · show (Real.arccos p.z - Real.pi) * (1 / (0 - Real.pi)) < 1
    rw [mul_one_div, div_lt_one_of_neg (by linarith)]; linarith
  · unfold sphU at tu
    rw [hs] at tu
    exact tu
  · have q : sphV (azimuth p * (1 / (2 * Real.pi))) ((Real.arccos p.z - Real.pi) * (1 / (0 - Real.pi))) =
        Frame.scale ⟨p.z * (p.x * (1 / Real.sqrt (p.x * p.x + p.y * p.y))),
          p.z * (p.y * (1 / Real.sqrt (p.x * p.x + p.y * p.y))), -Real.sin (Real.arccos p.z)⟩ (0 - Real.pi) := by
      have c1 : p.x * (1 / Real.sqrt (p.x * p.x + p.y * p.y)) = Real.cos (azimuth p) := by
        rw [mul_one_div, div_eq_iff q0.ne', mul_comm]; exact ac.symm
      have c2 : p.y * (1 / Real.sqrt (p.x * p.x + p.y * p.y)) = Real.sin (azimuth p) := by
        rw [mul_one_div, div_eq_iff q0.ne', mul_comm]; exact as.symm
      unfold sphV
      rw [eu, ev, cn, c1, c2]
      simp only [Frame.scale, V3.mk.injEq]
      refine ⟨by ring, by ring, by ring⟩
    rw [q] at tv
    exact tv

/-- **C105.** The coordinates are the only ones in `[0,1) × (0,1)`: no other pair describes the same point. -/
theorem C105_unique (u v u' v' : ℝ) (hu : 0 ≤ u) (hu1 : u < 1) (hv : 0 < v) (hv1 : v < 1) (hu' : 0 ≤ u')
    (hu1' : u' < 1) (hv' : 0 < v') (hv1' : v' < 1) (h : sph u v = sph u' v') : u = u' ∧ v = v' := by
  have pp := Real.pi_pos
  have hz := congrArg V3.z h
  have hx := congrArg V3.x h
  have hy := congrArg V3.y h
  simp only [sph] at hx hy hz
  have ev : Real.pi - Real.pi * v = Real.pi - Real.pi * v' :=
    Real.injOn_cos ⟨by nlinarith, by nlinarith⟩ ⟨by nlinarith, by nlinarith⟩ hz
  have v_eq : v = v' := by
    have : Real.pi * v = Real.pi * v' := by linarith
    exact mul_left_cancel₀ pp.ne' this
  subst v_eq
  have s0 : 0 < Real.sin (Real.pi - Real.pi * v) := Real.sin_pos_of_pos_of_lt_pi (by nlinarith) (by nlinarith)
  have c := mul_left_cancel₀ s0.ne' hx
  have s := mul_left_cancel₀ s0.ne' hy
  refine ⟨?_, rfl⟩
  have k : Real.cos (2 * Real.pi * u - 2 * Real.pi * u') = 1 := by
    rw [Real.cos_sub, c, s]
    nlinarith [Real.sin_sq_add_cos_sq (2 * Real.pi * u')]
  have z : 2 * Real.pi * u - 2 * Real.pi * u' = 0 := by
    rw [← Real.cos_eq_one_iff_of_lt_of_lt (by nlinarith) (by nlinarith)]
    exact k
  have : 2 * Real.pi * u = 2 * Real.pi * u' := by linarith
  exact mul_left_cancel₀ (by positivity) this

/-- **C105.** The tangents are orthogonal to each other and to the normal, and `dpdu × dpdv` points outwards. -/
theorem C105_frame (p : V3 ℝ) (hp : dot p p = 1) (ha : p.x ≠ 0 ∨ p.y ≠ 0) (h : Param) (e : computeUvs p = some h) :
    dot p h.dpdu = 0 ∧ dot p h.dpdv = 0 ∧ dot h.dpdu h.dpdv = 0 ∧ h.dpdu ≠ ⟨0, 0, 0⟩ ∧
      ∃ c, 0 < c ∧ cross h.dpdu h.dpdv = Frame.scale p c := by
  have pp := Real.pi_pos
  have r0 : 0 < p.x * p.x + p.y * p.y := by
    rcases ha with h | h
    · have := mul_self_pos.mpr h; nlinarith [mul_self_nonneg p.y]
    · have := mul_self_pos.mpr h; nlinarith [mul_self_nonneg p.x]
  have q0 := Real.sqrt_pos.mpr r0
  have hz : p.x * p.x + p.y * p.y = 1 - p.z ^ 2 := by unfold dot at hp; linarith
  have z1 : -1 < p.z := by nlinarith
  have z2 : p.z < 1 := by nlinarith
  have cl := clamp1_id z1.le z2.le
  have sn : Real.sin (Real.arccos p.z) = Real.sqrt (p.x * p.x + p.y * p.y) := by
    rw [Real.sin_arccos, hz]
  have sq := Real.mul_self_sqrt r0.le
  unfold computeUvs at e
  simp only [cl, sn] at e
  rw [if_neg q0.ne'] at e
  generalize Real.sqrt (p.x * p.x + p.y * p.y) = q at *
  simp only [Option.some.injEq] at e
  subst e
  simp only [dot, Frame.scale, cross]
  have iq : q * (1 / q) = 1 := by field_simp
  refine ⟨by ring, ?_, by ring, ?_, 2 * Real.pi * Real.pi * q, by positivity, ?_⟩
  · have : p.x * (p.z * (p.x * (1 / q)) * (0 - Real.pi)) + p.y * (p.z * (p.y * (1 / q)) * (0 - Real.pi)) +
        p.z * (-q * (0 - Real.pi)) = -Real.pi * p.z * ((p.x * p.x + p.y * p.y) * (1 / q) - q) := by ring
    rw [this, ← sq, mul_assoc q, iq]; ring
  · intro c
    simp only [V3.mk.injEq] at c
    rcases ha with h | h
    · exact h (by have := c.2.1; simpa [pp.ne'] using this)
    · exact h (by have := c.1; simpa [pp.ne'] using this)
  · simp only [V3.mk.injEq]
    refine ⟨by ring, by ring, ?_⟩
    have : -(2 * Real.pi) * p.y * (p.z * (p.y * (1 / q)) * (0 - Real.pi)) -
        2 * Real.pi * p.x * (p.z * (p.x * (1 / q)) * (0 - Real.pi)) =
        2 * Real.pi * Real.pi * p.z * ((p.x * p.x + p.y * p.y) * (1 / q)) := by ring
    rw [this, ← sq, mul_assoc q, iq]; ring

example : ∃ h, computeUvs ⟨3 / 5, 0, 4 / 5⟩ = some h ∧ 0 ≤ h.u ∧ h.u < 1 ∧ 0 < h.v ∧ h.v < 1 ∧
    sph h.u h.v = ⟨3 / 5, 0, 4 / 5⟩ ∧ Tangent (fun s => sph s h.v) h.dpdu h.u ∧
    Tangent (fun s => sph h.u s) h.dpdv h.v :=
  C105_parametrisation _ (by norm_num [dot]) (by norm_num)

/-- At a pole: texture coordinates `(0, 1)` or `(0, 0)`, and the point moved off the sphere. -/
theorem hit_pole (eps : ℝ) (he : 0 < eps) (z : ℝ) (hz : z = 1 ∨ z = -1) :
    ∃ dv, sphereHit eps ⟨0, 0, z⟩ =
      some (⟨eps, 0, z⟩, ⟨0, (1 + z) / 2, ⟨0, 2 * Real.pi * eps, 0⟩, dv⟩, ⟨0, 0, z⟩) := by
  have pp := Real.pi_pos
  have az : azimuth ⟨eps, 0, z⟩ = 0 := by
    have : Complex.arg ⟨eps, 0⟩ = 0 := Complex.arg_ofReal_of_nonneg he.le
    unfold azimuth
    simp only
    rw [this, if_neg (lt_irrefl _)]
  have cl : clamp1 z = z := by rcases hz with h | h <;> rw [h] <;> exact clamp1_id (by norm_num) (by norm_num)
  have r : Real.sqrt (eps * eps + 0 * 0) ≠ 0 := by
    rw [mul_zero, add_zero, Real.sqrt_mul_self he.le]; exact he.ne'
  have v : (Real.arccos z - Real.pi) * (1 / (0 - Real.pi)) = (1 + z) / 2 := by
    rcases hz with h | h <;> rw [h]
    · rw [Real.arccos_one]; field_simp; norm_num
    · rw [Real.arccos_neg_one]; simp
  unfold sphereHit Shapes.shifted
  simp only [and_self, if_true]
  unfold computeUvs
  simp only [cl, az, v]
  rw [if_neg r]
  simp

/-- **C105.** Every hit on the sphere, poles included, has finite texture coordinates in `[0,1) × [0,1]` and a
tangent `dpdu` that is not zero and orthogonal to the normal, so that the shading space can be built. -/
theorem C105_hit (eps : ℝ) (he : 0 < eps) (p : V3 ℝ) (hp : dot p p = 1) :
    ∃ q h, sphereHit eps p = some (q, h, p) ∧ 0 ≤ h.u ∧ h.u < 1 ∧ 0 ≤ h.v ∧ h.v ≤ 1 ∧ dot p h.dpdu = 0 ∧
      h.dpdu ≠ ⟨0, 0, 0⟩ ∧ sph h.u h.v = p := by
  have pp := Real.pi_pos
  by_cases ha : p.x = 0 ∧ p.y = 0
  · have z : p.z = 1 ∨ p.z = -1 := by
      have : p.z * p.z = 1 := by unfold dot at hp; rw [ha.1, ha.2] at hp; linarith
      exact mul_self_eq_one_iff.mp this
    have e : p = ⟨0, 0, p.z⟩ := by ext <;> simp [ha.1, ha.2]
    obtain ⟨dv, h⟩ := hit_pole eps he p.z z
    rw [e]
    refine ⟨_, _, h, le_refl _, one_pos, ?_, ?_, ?_, ?_, ?_⟩
    · show 0 ≤ (1 + p.z) / 2
      rcases z with z | z <;> rw [z] <;> norm_num
    · show (1 + p.z) / 2 ≤ 1
      rcases z with z | z <;> rw [z] <;> norm_num
    · simp [dot]
    · simp [pp.ne', he.ne']
    · simp only [sph]
      rcases z with z | z <;> rw [z] <;> norm_num
  · have ha' : p.x ≠ 0 ∨ p.y ≠ 0 := by
      by_contra c
      push Not at c
      exact ha c
    obtain ⟨h, e, u0, u1, v0, v1, s, -⟩ := C105_parametrisation p hp ha'
    obtain ⟨f1, -, -, f4, -⟩ := C105_frame p hp ha' h e
    refine ⟨p, h, ?_, u0, u1, v0.le, v1.le, f1, f4, s⟩
    unfold sphereHit Shapes.shifted
    rw [if_neg ha, e]; rfl

example : ∃ q h, sphereHit (1 / 1000) ⟨0, 0, -1⟩ = some (q, h, ⟨0, 0, -1⟩) ∧ 0 ≤ h.u ∧ h.u < 1 ∧ 0 ≤ h.v ∧
    h.v ≤ 1 ∧ dot ⟨0, 0, -1⟩ h.dpdu = 0 ∧ h.dpdu ≠ ⟨0, 0, 0⟩ ∧ sph h.u h.v = ⟨0, 0, -1⟩ :=
  C105_hit _ (by norm_num) _ (by norm_num [dot])

/-- **C105, violated at the poles.** The point reported for a hit at a pole is not on the sphere. -/
theorem C105_violated_pole (eps : ℝ) (he : 0 < eps) :
    ∃ q h, sphereHit eps ⟨0, 0, 1⟩ = some (q, h, ⟨0, 0, 1⟩) ∧ dot q q = 1 + eps * eps ∧ dot q q ≠ 1 := by
  obtain ⟨dv, h⟩ := hit_pole eps he 1 (Or.inl rfl)
  refine ⟨_, _, h, ?_, ?_⟩
  · simp [dot]; ring
  · simp [dot, he.ne']

/-! ### C106: sampling -/

/-- **C106.** A point sampled on the sphere lies on it, and every point of the sphere can be sampled. -/
theorem C106_sample :
    (∀ r0 r1, 0 ≤ r0 → r0 ≤ 1 → dot (sphereSample r0 r1) (sphereSample r0 r1) = 1) ∧
    (∀ p, dot p p = 1 → ∃ r0 r1, 0 ≤ r0 ∧ r0 ≤ 1 ∧ 0 ≤ r1 ∧ r1 < 1 ∧ sphereSample r0 r1 = p) := by
  constructor
  · intro r0 r1 h0 h1
    have h : 0 ≤ 1 - (1 - 2 * r0) * (1 - 2 * r0) := by nlinarith
    have s := Real.mul_self_sqrt h
    have t := Real.sin_sq_add_cos_sq (2 * Real.pi * r1)
    simp only [sphereSample, dot, max_eq_right h]
    generalize Real.sqrt _ = q at *
    nlinarith
  · intro p hp
    have pp := Real.pi_pos
    have hz : p.x * p.x + p.y * p.y = 1 - p.z ^ 2 := by unfold dot at hp; linarith
    have z2 : p.z ^ 2 ≤ 1 := by nlinarith [mul_self_nonneg p.x, mul_self_nonneg p.y]
    obtain ⟨a0, a1⟩ := azimuth_range p
    obtain ⟨ac, as⟩ := azimuth_polar p
    refine ⟨(1 - p.z) / 2, azimuth p / (2 * Real.pi), by nlinarith, by nlinarith, by positivity, ?_, ?_⟩
    · rw [div_lt_one (by positivity)]; exact a1
    · have e1 : 1 - 2 * ((1 - p.z) / 2) = p.z := by ring
      have e2 : 2 * Real.pi * (azimuth p / (2 * Real.pi)) = azimuth p := by field_simp
      have e3 : max 0 (1 - p.z * p.z) = p.x * p.x + p.y * p.y := by
        rw [hz, max_eq_right (by nlinarith)]; ring
      unfold sphereSample
      simp only [e1, e2, e3, ac, as]

/-- **C106.** The sampling is uniform: as a parametrisation of the sphere by the two random numbers it stretches
every area by the same factor `4π`, the area of the sphere. -/
theorem C106_uniform (r0 r1 : ℝ) (h0 : 0 < r0) (h1 : r0 < 1) :
    ∃ a b, Tangent (fun s => sphereSample s r1) a r0 ∧ Tangent (fun s => sphereSample r0 s) b r1 ∧
      len (cross a b) = 4 * Real.pi := by
  have pp := Real.pi_pos
  have h : 0 < 1 - (1 - 2 * r0) * (1 - 2 * r0) := by nlinarith
  have q0 := Real.sqrt_pos.mpr h
  have lin : HasDerivAt (fun s : ℝ => 1 - 2 * s) (-2) r0 := by
    simpa using ((hasDerivAt_id r0).const_mul (2 : ℝ)).const_sub 1
  have rad : HasDerivAt (fun s : ℝ => Real.sqrt (max 0 (1 - (1 - 2 * s) * (1 - 2 * s))))
      (2 * (1 - 2 * r0) / Real.sqrt (1 - (1 - 2 * r0) * (1 - 2 * r0))) r0 := by
    have d := (((lin.mul lin).const_sub 1).sqrt (f := fun s => 1 - (1 - 2 * s) * (1 - 2 * s)) h.ne')
    have d' : HasDerivAt (fun y => Real.sqrt (1 - (1 - 2 * y) * (1 - 2 * y)))
        (2 * (1 - 2 * r0) / Real.sqrt (1 - (1 - 2 * r0) * (1 - 2 * r0))) r0 := d.congr_deriv (by
      generalize Real.sqrt _ = q at q0 ⊢
      field_simp; ring)
    refine d'.congr_of_eventuallyEq ?_
    filter_upwards [Ioo_mem_nhds h0 h1] with s hs
    rw [max_eq_right]
    nlinarith [hs.1, hs.2]
  have ang : HasDerivAt (fun s : ℝ => 2 * Real.pi * s) (2 * Real.pi) r1 := by
    simpa using (hasDerivAt_id r1).const_mul (2 * Real.pi)
  refine ⟨⟨_, _, -2⟩, ⟨_, _, 0⟩, ⟨rad.mul_const _, rad.mul_const _, lin⟩,
    ⟨ang.cos.const_mul _, ang.sin.const_mul _, hasDerivAt_const _ _⟩, ?_⟩
  simp only [max_eq_right h.le]
  have s := Real.mul_self_sqrt h.le
  have t := Real.sin_sq_add_cos_sq (2 * Real.pi * r1)
  generalize Real.sqrt _ = q at *
  generalize Real.sin (2 * Real.pi * r1) = sn at *
  generalize Real.cos (2 * Real.pi * r1) = cs at *
  generalize hz : 1 - 2 * r0 = z at *
  unfold len
  have : dot (cross ⟨2 * z / q * cs, 2 * z / q * sn, -2⟩ ⟨q * (-sn * (2 * Real.pi)), q * (cs * (2 * Real.pi)), 0⟩)
      (cross ⟨2 * z / q * cs, 2 * z / q * sn, -2⟩ ⟨q * (-sn * (2 * Real.pi)), q * (cs * (2 * Real.pi)), 0⟩) =
      (4 * Real.pi) ^ 2 := by
    have k : 2 * z / q * q = 2 * z := by field_simp
    have hz2 : z * z = 1 - q * q := by linarith
    simp only [dot, cross]
    have c3 : 2 * z / q * cs * (q * (cs * (2 * Real.pi))) - 2 * z / q * sn * (q * (-sn * (2 * Real.pi))) =
        (2 * z / q * q) * (2 * Real.pi) * (sn ^ 2 + cs ^ 2) := by ring
    rw [c3, k, t]
    linear_combination (16 * Real.pi ^ 2 * q ^ 2) * t + 16 * Real.pi ^ 2 * hz2
  rw [this, Real.sqrt_sq (by positivity)]

example : ∃ a b, Tangent (fun s => sphereSample s (1 / 3)) a (1 / 4) ∧
    Tangent (fun s => sphereSample (1 / 4) s) b (1 / 3) ∧ len (cross a b) = 4 * Real.pi :=
  C106_uniform _ _ (by norm_num) (by norm_num)

/-! ### C106: surfaces -/

/-- Area of the image of the unit sphere under the linear part of `m`: the surface integral over the
parametrisation `sph`. -/
noncomputable def sphereArea (m : M4 ℝ) : ℝ :=
  ∫ v in (0 : ℝ)..1, ∫ u in (0 : ℝ)..1, len (cross (mulVec m (sphU u v)) (mulVec m (sphV u v)))

/-- `m` multiplies all lengths by `s` (and keeps angles). -/
def Similarity (m : M4 ℝ) (s : ℝ) : Prop := ∀ v w, dot (mulVec m v) (mulVec m w) = s ^ 2 * dot v w

/-- The images of the axes are orthogonal. -/
def OrthoCols (m : M4 ℝ) : Prop :=
  dot (mulVec m ⟨1, 0, 0⟩) (mulVec m ⟨0, 1, 0⟩) = 0 ∧ dot (mulVec m ⟨1, 0, 0⟩) (mulVec m ⟨0, 0, 1⟩) = 0 ∧
  dot (mulVec m ⟨0, 1, 0⟩) (mulVec m ⟨0, 0, 1⟩) = 0

theorem len_nonneg (v : V3 ℝ) : 0 ≤ len v := Real.sqrt_nonneg _

theorem len_sq (v : V3 ℝ) : len v * len v = dot v v := by
  refine Real.mul_self_sqrt ?_
  unfold dot; nlinarith [mul_self_nonneg v.x, mul_self_nonneg v.y, mul_self_nonneg v.z]

theorem len_eq {v : V3 ℝ} {c : ℝ} (hc : 0 ≤ c) (h : dot v v = c * c) : len v = c := by
  unfold len; rw [h, Real.sqrt_mul_self hc]

theorem lagrange (a b : V3 ℝ) : dot (cross a b) (cross a b) = dot a a * dot b b - dot a b * dot a b := by
  simp only [dot, cross]; ring

theorem similar_cross {m : M4 ℝ} {s : ℝ} (h : Similarity m s) (a b : V3 ℝ) :
    len (cross (mulVec m a) (mulVec m b)) = s ^ 2 * len (cross a b) := by
  refine len_eq (mul_nonneg (sq_nonneg _) (len_nonneg _)) ?_
  have := len_sq (cross a b)
  rw [lagrange, h, h, h]
  rw [lagrange] at this
  linear_combination -(s ^ 4) * this

theorem sph_cross (u v : ℝ) (h0 : 0 ≤ v) (h1 : v ≤ 1) :
    len (cross (sphU u v) (sphV u v)) = 2 * Real.pi ^ 2 * Real.sin (Real.pi - Real.pi * v) := by
  have pp := Real.pi_pos
  have s0 : 0 ≤ Real.sin (Real.pi - Real.pi * v) := Real.sin_nonneg_of_nonneg_of_le_pi (by nlinarith) (by nlinarith)
  refine len_eq (by positivity) ?_
  have t1 := Real.sin_sq_add_cos_sq (2 * Real.pi * u)
  have t2 := Real.sin_sq_add_cos_sq (Real.pi - Real.pi * v)
  rw [lagrange]
  simp only [dot, sphU, sphV, sph]
  generalize Real.sin (2 * Real.pi * u) = a at *
  generalize Real.cos (2 * Real.pi * u) = b at *
  generalize Real.sin (Real.pi - Real.pi * v) = c at *
  generalize Real.cos (Real.pi - Real.pi * v) = d at *
  linear_combination (4 * Real.pi ^ 4 * c ^ 2 * ((a ^ 2 + b ^ 2) * d ^ 2 + c ^ 2 + d ^ 2)) * t1 +
    4 * Real.pi ^ 4 * c ^ 2 * t2

theorem sphere_area_one : ∫ v in (0 : ℝ)..1, 2 * Real.pi ^ 2 * Real.sin (Real.pi - Real.pi * v) = 4 * Real.pi := by
  have pp := Real.pi_pos
  rw [intervalIntegral.integral_const_mul]
  have : ∫ v in (0 : ℝ)..1, Real.sin (Real.pi - Real.pi * v) = 2 / Real.pi := by
    rw [intervalIntegral.integral_comp_sub_mul _ pp.ne', integral_sin]
    simp; ring
  rw [this]; field_simp; ring

theorem mulVec_axes (m : M4 ℝ) : mulVec m ⟨1, 0, 0⟩ = ⟨m.m00, m.m10, m.m20⟩ ∧
    mulVec m ⟨0, 1, 0⟩ = ⟨m.m01, m.m11, m.m21⟩ ∧ mulVec m ⟨0, 0, 1⟩ = ⟨m.m02, m.m12, m.m22⟩ := by
  simp [mulVec]

/-- **C106.** The surface computed for a sphere is the area of its image when the transform scales all
directions by the same factor. -/
theorem C106_sphere_partial (m : M4 ℝ) (s : ℝ) (h : Similarity m s) :
    sphereSurface m = sphereArea m ∧ sphereSurface m = 4 * Real.pi * s ^ 2 := by
  have c : (getScale m).x = |s| := by
    have := h ⟨1, 0, 0⟩ ⟨1, 0, 0⟩
    rw [(mulVec_axes m).1] at this
    refine len_eq (abs_nonneg s) ?_
    rw [this, abs_mul_abs_self]; simp [dot]; ring
  have e : sphereSurface m = 4 * Real.pi * s ^ 2 := by
    unfold sphereSurface
    simp only [c]
    rw [mul_assoc, abs_mul_abs_self]; ring
  refine ⟨?_, e⟩
  rw [e]
  unfold sphereArea
  have k : ∀ v ∈ Set.uIcc (0 : ℝ) 1,
      ∫ u in (0 : ℝ)..1, len (cross (mulVec m (sphU u v)) (mulVec m (sphV u v))) =
      s ^ 2 * (2 * Real.pi ^ 2 * Real.sin (Real.pi - Real.pi * v)) := by
    intro v hv
    rw [Set.uIcc_of_le zero_le_one] at hv
    simp only [similar_cross h, sph_cross _ v hv.1 hv.2]
    simp
  rw [intervalIntegral.integral_congr k, intervalIntegral.integral_const_mul, sphere_area_one]
  ring

/-- The linear part of a placed instance. -/
theorem placement_dot (p r s v w : V3 ℝ) :
    dot (mulVec (placement p r s) v) (mulVec (placement p r s) w) =
    s.x ^ 2 * (v.x * w.x) + s.y ^ 2 * (v.y * w.y) + s.z ^ 2 * (v.z * w.z) := by
  have tx := Real.sin_sq_add_cos_sq r.x
  have ty := Real.sin_sq_add_cos_sq r.y
  have tz := Real.sin_sq_add_cos_sq r.z
  -- one rotation at a time
  have rx : ∀ a b, dot (mulVec (rotateX r.x) a) (mulVec (rotateX r.x) b) = dot a b := by
    intro a b; simp only [dot, mulVec, rotateX]; linear_combination (a.y * b.y + a.z * b.z) * tx
  have ry : ∀ a b, dot (mulVec (rotateY r.y) a) (mulVec (rotateY r.y) b) = dot a b := by
    intro a b; simp only [dot, mulVec, rotateY]; linear_combination (a.x * b.x + a.z * b.z) * ty
  have rz : ∀ a b, dot (mulVec (rotateZ r.z) a) (mulVec (rotateZ r.z) b) = dot a b := by
    intro a b; simp only [dot, mulVec, rotateZ]; linear_combination (a.x * b.x + a.y * b.y) * tz
  have e : ∀ a, mulVec (placement p r s) a =
      mulVec (rotateZ r.z) (mulVec (rotateY r.y) (mulVec (rotateX r.x) ⟨s.x * a.x, s.y * a.y, s.z * a.z⟩)) := by
    intro a
    simp only [placement, mulVec, mul, translation, scaling, rotateX, rotateY, rotateZ, V3.mk.injEq]
    refine ⟨by ring, by ring, by ring⟩
  rw [e, e, rz, ry, rx]
  simp only [dot]; ring

theorem placement_scale (p r s : V3 ℝ) : getScale (placement p r s) = ⟨|s.x|, |s.y|, |s.z|⟩ := by
  obtain ⟨a, b, c⟩ := mulVec_axes (placement p r s)
  unfold getScale
  rw [← a, ← b, ← c]
  congr 1 <;> refine len_eq (abs_nonneg _) ?_ <;> rw [placement_dot, abs_mul_abs_self] <;> ring

theorem placement_ortho (p r s : V3 ℝ) : OrthoCols (placement p r s) := by
  unfold OrthoCols
  simp [placement_dot]

/-- **C106.** A sphere of the scene with the same scale on the three axes, however rotated. -/
theorem C106_sphere_placed (p r : V3 ℝ) (s : ℝ) :
    sphereSurface (placement p r ⟨s, s, s⟩) = sphereArea (placement p r ⟨s, s, s⟩) ∧
    sphereSurface (placement p r ⟨s, s, s⟩) = 4 * Real.pi * s ^ 2 := by
  refine C106_sphere_partial _ s ?_
  intro v w
  rw [placement_dot]; simp only [dot]; ring

example : sphereSurface (placement ⟨1, 2, 3⟩ ⟨0, 1, 0⟩ ⟨3, 3, 3⟩) = 4 * Real.pi * 3 ^ 2 :=
  (C106_sphere_placed _ _ 3).2

theorem placement_cross (p r s a b : V3 ℝ) :
    dot (cross (mulVec (placement p r s) a) (mulVec (placement p r s) b))
      (cross (mulVec (placement p r s) a) (mulVec (placement p r s) b)) =
    (s.y * s.z * (cross a b).x) ^ 2 + (s.x * s.z * (cross a b).y) ^ 2 + (s.x * s.y * (cross a b).z) ^ 2 := by
  rw [lagrange, placement_dot, placement_dot, placement_dot]
  simp only [cross]; ring

theorem area_continuous (m : M4 ℝ) :
    Continuous (fun q : ℝ × ℝ => len (cross (mulVec m (sphU q.2 q.1)) (mulVec m (sphV q.2 q.1)))) := by
  simp only [len, cross, mulVec, sphU, sphV, sph, dot]
  fun_prop

/-- **C106, violated for a sphere scaled differently on the axes.** With scale `(1, 2, 2)` the surface computed
is that of the unit sphere, while the ellipsoid has more than twice that area. -/
theorem C106_violated_sphere :
    sphereSurface (placement ⟨0, 0, 0⟩ ⟨0, 0, 0⟩ ⟨1, 2, 2⟩) = 4 * Real.pi ∧
    2 * (4 * Real.pi) ≤ sphereArea (placement ⟨0, 0, 0⟩ ⟨0, 0, 0⟩ ⟨1, 2, 2⟩) := by
  constructor
  · unfold sphereSurface
    rw [placement_scale]; simp
  · generalize hm : placement ⟨0, 0, 0⟩ ⟨0, 0, 0⟩ ⟨1, 2, 2⟩ = m
    have low : ∀ a b, 2 * len (cross a b) ≤ len (cross (mulVec m a) (mulVec m b)) := by
      intro a b
      refine abs_le_of_sq_le_sq' ?_ (len_nonneg _) |>.2
      have e := placement_cross ⟨0, 0, 0⟩ ⟨0, 0, 0⟩ ⟨1, 2, 2⟩ a b
      rw [hm] at e
      have l1 := len_sq (cross (mulVec m a) (mulVec m b))
      have l2 := len_sq (cross a b)
      rw [e] at l1
      simp only [dot] at l2
      nlinarith [mul_self_nonneg (cross a b).x]
    have cont := area_continuous m
    have inner : ∀ v, 0 ≤ v → v ≤ 1 → 2 * (2 * Real.pi ^ 2 * Real.sin (Real.pi - Real.pi * v)) ≤
        ∫ u in (0 : ℝ)..1, len (cross (mulVec m (sphU u v)) (mulVec m (sphV u v))) := by
      intro v h0 h1
      have c : ∫ u in (0 : ℝ)..1, 2 * len (cross (sphU u v) (sphV u v)) =
          2 * (2 * Real.pi ^ 2 * Real.sin (Real.pi - Real.pi * v)) := by
        simp only [sph_cross _ v h0 h1]
        simp
      rw [← c]
      refine intervalIntegral.integral_mono_on zero_le_one ?_ ?_ (fun u _ => low _ _)
      · simp only [sph_cross _ v h0 h1]
        exact intervalIntegrable_const
      · exact (cont.comp (by fun_prop : Continuous fun u : ℝ => (v, u))).intervalIntegrable _ _
    unfold sphereArea
    rw [← sphere_area_one, ← intervalIntegral.integral_const_mul]
    refine intervalIntegral.integral_mono_on zero_le_one ?_ ?_ (fun v hv => inner v hv.1 hv.2)
    · exact (by fun_prop : Continuous fun v : ℝ => 2 * (2 * Real.pi ^ 2 * Real.sin (Real.pi - Real.pi * v))).intervalIntegrable _ _
    · exact (intervalIntegral.continuous_parametric_intervalIntegral_of_continuous' cont 0 1).intervalIntegrable _ _

/-- **C106.** The surface computed for a triangle is the area of its image for every transform that keeps the
axes orthogonal. -/
theorem C106_triangle_partial (m : M4 ℝ) (ha : Affine m) (ho : OrthoCols m) (a b c : V3 ℝ) :
    triangleSurfaceIn m a b c = triangleSurface (mulPoint m a) (mulPoint m b) (mulPoint m c) := by
  obtain ⟨o1, o2, o3⟩ := ho
  obtain ⟨x1, x2, x3⟩ := mulVec_axes m
  rw [x1, x2] at o1
  rw [x1, x3] at o2
  rw [x2, x3] at o3
  have lx := len_sq ⟨m.m00, m.m10, m.m20⟩
  have ly := len_sq ⟨m.m01, m.m11, m.m21⟩
  have lz := len_sq ⟨m.m02, m.m12, m.m22⟩
  unfold triangleSurfaceIn triangleSurface
  simp only [Geom.mulPoint_affine ha]
  congr 1
  unfold len
  congr 1
  rw [lagrange, lagrange]
  simp only [getScale, scaled, sub]
  simp only [dot] at *
  generalize len ⟨m.m00, m.m10, m.m20⟩ = p at *
  generalize len ⟨m.m01, m.m11, m.m21⟩ = q at *
  generalize len ⟨m.m02, m.m12, m.m22⟩ = r at *
  have key : ∀ d e : V3 ℝ, d.x * p * (e.x * p) + d.y * q * (e.y * q) + d.z * r * (e.z * r) =
      (m.m00 * d.x + m.m01 * d.y + m.m02 * d.z) * (m.m00 * e.x + m.m01 * e.y + m.m02 * e.z) +
      (m.m10 * d.x + m.m11 * d.y + m.m12 * d.z) * (m.m10 * e.x + m.m11 * e.y + m.m12 * e.z) +
      (m.m20 * d.x + m.m21 * d.y + m.m22 * d.z) * (m.m20 * e.x + m.m21 * e.y + m.m22 * e.z) := by
    intro d e
    linear_combination (d.x * e.x) * lx + (d.y * e.y) * ly + (d.z * e.z) * lz -
      (d.x * e.y + d.y * e.x) * o1 - (d.x * e.z + d.z * e.x) * o2 - (d.y * e.z + d.z * e.y) * o3
  have k1 := key ⟨b.x - a.x, b.y - a.y, b.z - a.z⟩ ⟨b.x - a.x, b.y - a.y, b.z - a.z⟩
  have k2 := key ⟨c.x - a.x, c.y - a.y, c.z - a.z⟩ ⟨c.x - a.x, c.y - a.y, c.z - a.z⟩
  have k3 := key ⟨b.x - a.x, b.y - a.y, b.z - a.z⟩ ⟨c.x - a.x, c.y - a.y, c.z - a.z⟩
  simp only at k1 k2 k3
  congr 1
  · congr 1
    · refine Eq.trans ?_ (k1.trans ?_) <;> ring
    · refine Eq.trans ?_ (k2.trans ?_) <;> ring
  · congr 1 <;> refine Eq.trans ?_ (k3.trans ?_) <;> ring

theorem placement_affine (p r s : V3 ℝ) : Affine (placement p r s) := by
  simp [Affine, placement, mul, translation, scaling, rotateX, rotateY, rotateZ]

/-- **C106.** Every transform of the scene is of that kind. -/
theorem C106_triangle_placed (p r s a b c : V3 ℝ) :
    triangleSurfaceIn (placement p r s) a b c =
    triangleSurface (mulPoint (placement p r s) a) (mulPoint (placement p r s) b) (mulPoint (placement p r s) c) :=
  C106_triangle_partial _ (placement_affine p r s) (placement_ortho p r s) a b c

example : triangleSurfaceIn (placement ⟨1, 0, 0⟩ ⟨1, 2, 3⟩ ⟨1, 2, 3⟩) ⟨0, 0, 0⟩ ⟨1, 0, 0⟩ ⟨0, 1, 1⟩ =
    triangleSurface (mulPoint (placement ⟨1, 0, 0⟩ ⟨1, 2, 3⟩ ⟨1, 2, 3⟩) ⟨0, 0, 0⟩)
      (mulPoint (placement ⟨1, 0, 0⟩ ⟨1, 2, 3⟩ ⟨1, 2, 3⟩) ⟨1, 0, 0⟩)
      (mulPoint (placement ⟨1, 0, 0⟩ ⟨1, 2, 3⟩ ⟨1, 2, 3⟩) ⟨0, 1, 1⟩) :=
  C106_triangle_placed _ _ _ _ _ _

/-- **C106, violated for transforms with shear** (the program does not build any). -/
theorem C106_violated_shear :
    ∃ m, Affine m ∧ triangleSurfaceIn m ⟨0, 0, 0⟩ ⟨1, 0, 0⟩ ⟨0, 1, 0⟩ = 5 / 8 ∧
      triangleSurface (mulPoint m ⟨0, 0, 0⟩) (mulPoint m ⟨1, 0, 0⟩) (mulPoint m ⟨0, 1, 0⟩) = 1 / 2 := by
  refine ⟨⟨1, 3 / 4, 0, 0, 0, 1, 0, 0, 0, 0, 1, 0, 0, 0, 0, 1⟩, ⟨rfl, rfl, rfl, rfl⟩, ?_, ?_⟩
  · have l1 : len ⟨1, 0, 0⟩ = 1 := len_eq (by norm_num) (by norm_num [dot])
    have l2 : len ⟨3 / 4, 1, 0⟩ = 5 / 4 := len_eq (by norm_num) (by norm_num [dot])
    have l3 : len ⟨0, 0, 1⟩ = 1 := len_eq (by norm_num) (by norm_num [dot])
    unfold triangleSurfaceIn getScale
    simp only [l1, l2, l3]
    have : len (cross (sub (scaled ⟨1, 5 / 4, 1⟩ ⟨1, 0, 0⟩) (scaled ⟨1, 5 / 4, 1⟩ ⟨0, 0, 0⟩))
        (sub (scaled ⟨1, 5 / 4, 1⟩ ⟨0, 1, 0⟩) (scaled ⟨1, 5 / 4, 1⟩ ⟨0, 0, 0⟩))) = 5 / 4 :=
      len_eq (by norm_num) (by norm_num [dot, cross, sub, scaled])
    rw [this]; norm_num
  · unfold triangleSurface
    rw [Geom.mulPoint_affine ⟨rfl, rfl, rfl, rfl⟩, Geom.mulPoint_affine ⟨rfl, rfl, rfl, rfl⟩,
      Geom.mulPoint_affine ⟨rfl, rfl, rfl, rfl⟩]
    rw [len_eq (c := 1) (by norm_num) (by norm_num [dot, cross, sub])]; norm_num

/-- **C106.** The surface computed for a box is the sum of the areas of the images of its six faces, for every
transform of the scene. -/
theorem C106_box_placed (p r s : V3 ℝ) :
    boxSurfaceIn (placement p r s) =
    2 * len (cross (mulVec (placement p r s) ⟨1, 0, 0⟩) (mulVec (placement p r s) ⟨0, 1, 0⟩)) +
    2 * len (cross (mulVec (placement p r s) ⟨1, 0, 0⟩) (mulVec (placement p r s) ⟨0, 0, 1⟩)) +
    2 * len (cross (mulVec (placement p r s) ⟨0, 1, 0⟩) (mulVec (placement p r s) ⟨0, 0, 1⟩)) := by
  have h : ∀ a b c, 0 ≤ c → (s.y * s.z * (cross a b).x) ^ 2 + (s.x * s.z * (cross a b).y) ^ 2 +
      (s.x * s.y * (cross a b).z) ^ 2 = c * c →
      len (cross (mulVec (placement p r s) a) (mulVec (placement p r s) b)) = c := by
    intro a b c hc e
    refine len_eq hc ?_
    rw [placement_cross, e]
  rw [h ⟨1, 0, 0⟩ ⟨0, 1, 0⟩ (|s.x| * |s.y|) (by positivity) ?_,
    h ⟨1, 0, 0⟩ ⟨0, 0, 1⟩ (|s.x| * |s.z|) (by positivity) ?_,
    h ⟨0, 1, 0⟩ ⟨0, 0, 1⟩ (|s.y| * |s.z|) (by positivity) ?_]
  · unfold boxSurfaceIn Shapes.boxSurface
    rw [placement_scale]; ring
  all_goals
    simp only [cross]
    rw [← abs_mul, abs_mul_abs_self]; ring

end Spectre.Light
