import Verif.Props.Sphere
import Verif.Props.Shapes
import Mathlib.Analysis.SpecialFunctions.Integrability.Basic
import Mathlib.MeasureTheory.Integral.IntervalIntegral.FundThmCalculus
import Mathlib.MeasureTheory.Integral.IntervalIntegral.DerivIntegrable

/-
C107: densities and distances of the area lights under a transform.  C108: density of the directions sampled
towards a sphere.
-/

namespace Spectre.Light
open Spectre.Geom Spectre.Frame

/-! ### C107 -/

/-- Density, per unit of solid angle at `p`, of a point chosen uniformly on a surface of area `area`: `q` is the
point and `n` the unit normal there. -/
noncomputable def solidPdf (p q n : V3 ℝ) (area : ℝ) : ℝ :=
  dist2 p q / (|dot n (Frame.scale (sub q p) (1 / Real.sqrt (dist2 p q)))| * area)

/-- The model of the light answers the ray with a positive distance and a unit normal. -/
def ProperAt (l : AreaLight) (r : Ray ℝ) : Prop := ∀ d n, l.model r l.far = some (d, n) → 0 < d ∧ dot n n = 1

/-- The ray, in object space, traced by `sample_visible_surface` towards the sampled point. -/
def Aimed (l : AreaLight) (x pos : V3 ℝ) (r : Ray ℝ) : Prop :=
  r.o = mulPoint l.worldToObj pos ∧ unit (sub x r.o) = some r.d

theorem dist2_eq (p q : V3 ℝ) : dist2 p q = dot (sub q p) (sub q p) := by
  simp only [dist2, dot, sub]; ring

theorem dist2_apply (o d : V3 ℝ) (t : ℝ) : dist2 o ((Ray.mk o d).apply t) = t ^ 2 * dot d d := by
  simp only [dist2, dot, Ray.apply]; ring

theorem neg_dot (n d : V3 ℝ) : |dot n (neg d)| = |dot n d| := by
  rw [← abs_neg]; congr 1; simp only [dot, neg]; ring

theorem mulVec_sub (m : M4 ℝ) (ha : Affine m) (a b : V3 ℝ) :
    sub (mulPoint m a) (mulPoint m b) = mulVec m (sub a b) := by
  rw [Geom.mulPoint_affine ha, Geom.mulPoint_affine ha]
  simp only [sub, mulVec, V3.mk.injEq]
  refine ⟨by ring, by ring, by ring⟩

theorem mulVec_scale (m : M4 ℝ) (v : V3 ℝ) (c : ℝ) : mulVec m (Frame.scale v c) = Frame.scale (mulVec m v) c := by
  simp only [mulVec, Frame.scale, V3.mk.injEq]
  refine ⟨by ring, by ring, by ring⟩

theorem map_back {tol : ℝ} (ht : 0 ≤ tol) {m w : M4 ℝ} (ha : Affine m) (hw : inverse tol m = some w) (x : V3 ℝ) :
    mulVec m (mulVec w x) = x := by
  have wa := C26_inverse_affine tol ht m w hw ha
  have r1 := (C26_round_trip tol ht m w hw ha x ⟨x, x⟩ 0).2.1
  have r2 := (C26_round_trip tol ht m w hw ha ⟨0, 0, 0⟩ ⟨x, x⟩ 0).2.1
  have : sub (mulPoint m (mulPoint w x)) (mulPoint m (mulPoint w ⟨0, 0, 0⟩)) = x := by
    rw [r1, r2]; simp [sub]
  rw [mulVec_sub m ha, mulVec_sub w wa] at this
  have e : sub x ⟨0, 0, 0⟩ = x := by simp [sub]
  rw [e] at this
  exact this

/-- The world-space normal of a similarity. -/
theorem similar_normal {tol s : ℝ} (ht : 0 ≤ tol) {m w : M4 ℝ} (ha : Affine m) (hw : inverse tol m = some w)
    (hs : 0 < s) (h : Similarity m s) {n nw : V3 ℝ} (hn : dot n n = 1) (e : unit (transformNormal n w) = some nw)
    (v : V3 ℝ) : dot nw (mulVec m v) = s * dot n v := by
  have key := C26_normal_orthogonal tol ht m w hw ha
  have surj := map_back ht ha hw
  have sq : dot (transformNormal n w) (transformNormal n w) = 1 / s ^ 2 := by
    have k1 := key n (mulVec w (transformNormal n w))
    rw [surj] at k1
    have k2 := h n (mulVec w (transformNormal n w))
    rw [surj, dot_comm, key n n, hn] at k2
    rw [k1]
    rw [eq_div_iff (by positivity), mul_comm]; exact k2.symm
  unfold unit at e
  rw [if_neg (by rw [sq]; positivity)] at e
  simp only [Option.some.injEq] at e
  have q : Real.sqrt (dot (transformNormal n w) (transformNormal n w)) = 1 / s := by
    rw [sq, Real.sqrt_div zero_le_one, Real.sqrt_one, Real.sqrt_sq hs.le]
  rw [← e, q, scale_dot, key]
  field_simp

/-- The transform of the light multiplies the lengths by `s`. -/
structure Scaled (tol : ℝ) (l : AreaLight) (s : ℝ) : Prop where
  affine : Affine l.objToWorld
  inv : inverse tol l.objToWorld = some l.worldToObj
  pos : 0 < s
  similar : Similarity l.objToWorld s

/-- **C107.** What `sample_visible_surface` returns for a light scaled by `s`: `q` is the point of the light seen
in the direction `wi`, `n` the normal there, both in world space.  The direction is right; the density is the
density of the solid angle divided by `s²` and the distance is the distance divided by `s`. -/
theorem C107_sample (tol : ℝ) (ht : 0 ≤ tol) (l : AreaLight) (s : ℝ) (h : Scaled tol l s) (x pos wi : V3 ℝ)
    (hp : ∀ r, Aimed l x pos r → ProperAt l r) (pdf d : ℝ) (lit : Prop) (e : sampleVisible l x pos = .sample wi pdf d lit) :
    ∃ q n, dot n n = 1 ∧ unit (sub q pos) = some wi ∧ pdf = solidPdf pos q n l.area / s ^ 2 ∧
      d = Real.sqrt (dist2 pos q) / s ∧ (lit ↔ dot n wi < 0) := by
  obtain ⟨ha, hw, hs, hsim⟩ := h
  unfold sampleVisible at e
  simp only at e
  generalize ho : mulPoint l.worldToObj pos = o at e
  cases hd : unit (sub x o) with
  | none => rw [hd] at e; cases e
  | some dir =>
    rw [hd] at e
    simp only at e
    obtain ⟨du, -⟩ := unit_some hd
    cases hm : l.model ⟨o, dir⟩ l.far with
    | none => rw [hm] at e; cases e
    | some r =>
      obtain ⟨t, n⟩ := r
      rw [hm] at e
      simp only at e
      obtain ⟨t0, hn⟩ := hp ⟨o, dir⟩ ⟨ho.symm, hd⟩ _ _ hm
      split at e
      · cases e
      rename_i hden
      cases hu : unit (mulVec l.objToWorld dir) with
      | none => rw [hu] at e; cases e
      | some wv =>
        rw [hu] at e
        simp only [Visible.sample.injEq] at e
        obtain ⟨e1, e2, e3, e4⟩ := e
        subst e1 e3
        have n0 : dot (transformNormal n l.worldToObj) (transformNormal n l.worldToObj) ≠ 0 := by
          intro c
          have z := dot_zero c
          have := C26_normal_orthogonal tol ht _ _ hw ha n n
          rw [z, hn] at this
          simp [dot] at this
        obtain ⟨nw, hnw⟩ := unit_exists n0
        have nn := similar_normal ht ha hw hs hsim hn hnw
        have pe : mulPoint l.objToWorld o = pos := by rw [← ho]; exact (C26_round_trip tol ht _ _ hw ha pos ⟨pos, pos⟩ 0).2.1
        have qe : sub (mulPoint l.objToWorld ((Ray.mk o dir).apply t)) pos = Frame.scale (mulVec l.objToWorld dir) t := by
          rw [← pe, mulVec_sub _ ha, ← mulVec_scale]
          congr 1
          simp only [sub, Ray.apply, Frame.scale, V3.mk.injEq]
          refine ⟨by ring, by ring, by ring⟩
        have dd : dist2 pos (mulPoint l.objToWorld ((Ray.mk o dir).apply t)) = (s * t) ^ 2 := by
          rw [dist2_eq, qe, dot_scale, scale_dot, hsim, du]; ring
        have sd : Real.sqrt (dist2 pos (mulPoint l.objToWorld ((Ray.mk o dir).apply t))) = s * t := by
          rw [dd, Real.sqrt_sq (by positivity)]
        have wve : wv = Frame.scale (mulVec l.objToWorld dir) (1 / s) := by
          unfold unit at hu
          split at hu
          · cases hu
          · simp only [Option.some.injEq] at hu
            rw [← hu, hsim, du, mul_one, Real.sqrt_sq hs.le]
        have nwv : dot nw wv = dot n dir := by
          rw [wve, dot_scale, nn]; field_simp
        refine ⟨mulPoint l.objToWorld ((Ray.mk o dir).apply t), nw, (unit_some hnw).1, ?_, ?_, ?_, ?_⟩
        · rw [qe]
          unfold unit
          have : dot (Frame.scale (mulVec l.objToWorld dir) t) (Frame.scale (mulVec l.objToWorld dir) t) = (s * t) ^ 2 := by
            rw [dot_scale, scale_dot, hsim, du]; ring
          rw [this, if_neg (by positivity), Real.sqrt_sq (by positivity), wve]
          simp only [Frame.scale, Option.some.injEq, V3.mk.injEq]
          refine ⟨?_, ?_, ?_⟩ <;> field_simp
        · have sc : Frame.scale (Frame.scale (mulVec l.objToWorld dir) t) (1 / (s * t)) = wv := by
            rw [wve]
            simp only [Frame.scale, V3.mk.injEq]
            refine ⟨?_, ?_, ?_⟩ <;> field_simp
          unfold solidPdf
          rw [sd, qe, sc, nwv, dd, ← e2, dist2_apply, du, neg_dot]
          generalize |dot n dir| * l.area = den
          field_simp
        · rw [sd]; field_simp
        · rw [← e4, nwv]
          have : dot n (neg dir) = -dot n dir := by simp only [dot, neg]; ring
          rw [this]
          constructor <;> intro h <;> linarith

/-- **C107.** What `pdf` returns for the same light and a unit direction that meets it at `q`: the density of the
solid angle divided by `s`. -/
theorem C107_pdf (tol : ℝ) (ht : 0 ≤ tol) (l : AreaLight) (s : ℝ) (h : Scaled tol l s) (p wi : V3 ℝ)
    (hwi : dot wi wi = 1) (hp : ProperAt l (mulRay l.worldToObj ⟨p, wi⟩)) (v : ℝ) (e : lightPdf l p wi = some v) :
    (l.model (mulRay l.worldToObj ⟨p, wi⟩) l.far = none ∧ v = 0) ∨
    ∃ q n t, 0 < t ∧ q = (Ray.mk p wi).apply t ∧ dot n n = 1 ∧ v = solidPdf p q n l.area / s := by
  obtain ⟨ha, hw, hs, hsim⟩ := h
  unfold lightPdf at e
  simp only at e
  cases hm : l.model (mulRay l.worldToObj ⟨p, wi⟩) l.far with
  | none =>
    rw [hm] at e
    simp only [Option.some.injEq] at e
    exact Or.inl ⟨rfl, e.symm⟩
  | some r =>
    obtain ⟨t, n⟩ := r
    right
    rw [hm] at e
    simp only at e
    obtain ⟨t0, hn⟩ := hp _ _ hm
    split at e
    · cases e
    simp only [Option.some.injEq] at e
    have n0 : dot (transformNormal n l.worldToObj) (transformNormal n l.worldToObj) ≠ 0 := by
      intro c
      have z := dot_zero c
      have := C26_normal_orthogonal tol ht _ _ hw ha n n
      rw [z, hn] at this
      simp [dot] at this
    obtain ⟨nw, hnw⟩ := unit_exists n0
    have nn := similar_normal ht ha hw hs hsim hn hnw
    have back := map_back ht ha hw wi
    have dd : dot (mulVec l.worldToObj wi) (mulVec l.worldToObj wi) = 1 / s ^ 2 := by
      have := hsim (mulVec l.worldToObj wi) (mulVec l.worldToObj wi)
      rw [back, hwi] at this
      rw [eq_div_iff (by positivity), mul_comm]; exact this.symm
    have nd : dot n (mulVec l.worldToObj wi) = dot nw wi / s := by
      have := nn (mulVec l.worldToObj wi)
      rw [back] at this
      rw [this]; field_simp
    have wd : dist2 p ((Ray.mk p wi).apply t) = t ^ 2 := by rw [dist2_apply, hwi, mul_one]
    refine ⟨_, nw, t, t0, rfl, (unit_some hnw).1, ?_⟩
    have sc : Frame.scale (sub ((Ray.mk p wi).apply t) p) (1 / t) = wi := by
      simp only [Frame.scale, sub, Ray.apply]
      ext <;> simp <;> field_simp
    have od : dist2 (mulRay l.worldToObj ⟨p, wi⟩).o ((mulRay l.worldToObj ⟨p, wi⟩).apply t) = t ^ 2 / s ^ 2 := by
      have := dist2_apply (mulPoint l.worldToObj p) (mulVec l.worldToObj wi) t
      rw [dd] at this
      rw [show t ^ 2 / s ^ 2 = t ^ 2 * (1 / s ^ 2) by ring, ← this]; rfl
    have rd : (mulRay l.worldToObj ⟨p, wi⟩).d = mulVec l.worldToObj wi := rfl
    unfold solidPdf
    rw [wd, Real.sqrt_sq t0.le, sc, ← e, od, rd, neg_dot, nd, abs_div, abs_of_pos hs]
    generalize |dot nw wi| = c
    by_cases hc : c = 0
    · simp [hc]
    · by_cases hA : l.area = 0
      · simp [hA]
      · field_simp

/-- **C107.** For a light that is only moved and rotated both densities are those of the solid angle, and the
distance is the distance. -/
theorem C107_rigid_partial (tol : ℝ) (ht : 0 ≤ tol) (l : AreaLight) (h : Scaled tol l 1) :
    (∀ x pos wi pdf d lit, (∀ r, Aimed l x pos r → ProperAt l r) → sampleVisible l x pos = .sample wi pdf d lit →
      ∃ q n, dot n n = 1 ∧ unit (sub q pos) = some wi ∧ pdf = solidPdf pos q n l.area ∧
        d = Real.sqrt (dist2 pos q)) ∧
    (∀ p wi v, dot wi wi = 1 → ProperAt l (mulRay l.worldToObj ⟨p, wi⟩) → lightPdf l p wi = some v → v ≠ 0 →
      ∃ q n t, 0 < t ∧ q = (Ray.mk p wi).apply t ∧ dot n n = 1 ∧ v = solidPdf p q n l.area) := by
  constructor
  · intro x pos wi pdf d lit hp e
    obtain ⟨q, n, a, b, c, f, -⟩ := C107_sample tol ht l 1 h x pos wi hp pdf d lit e
    exact ⟨q, n, a, b, by rw [c]; simp, by rw [f]; simp⟩
  · intro p wi v hwi hp e hv
    rcases C107_pdf tol ht l 1 h p wi hwi hp v e with ⟨-, z⟩ | ⟨q, n, t, a, b, c, f⟩
    · exact absurd z hv
    · exact ⟨q, n, t, a, b, c, by rw [f]; simp⟩

/-! ### Rays that meet the unit sphere -/

/-- The nearer of two intersections in front of the origin, for a ray from outside. -/
theorem sphere_near (eps far : ℝ) (o d : V3 ℝ) (hd : dot d d = 1) (hb : dot d o < 0)
    (hdisc : 0 < dot d o * dot d o - (dot o o - 1))
    (he : eps ≤ -dot d o - Real.sqrt (dot d o * dot d o - (dot o o - 1)))
    (hf : -dot d o - Real.sqrt (dot d o * dot d o - (dot o o - 1)) ≤ far) :
    sphereLight eps ⟨o, d⟩ far = some (-dot d o - Real.sqrt (dot d o * dot d o - (dot o o - 1)),
      (Ray.mk o d).apply (-dot d o - Real.sqrt (dot d o * dot d o - (dot o o - 1)))) := by
  have q0 := Real.sqrt_pos.mpr hdisc
  have qq := Real.mul_self_sqrt hdisc.le
  have sd : Real.sqrt (2 * dot d o * (2 * dot d o) - 4 * 1 * (dot o o - 1)) =
      2 * Real.sqrt (dot d o * dot d o - (dot o o - 1)) := by
    rw [show 2 * dot d o * (2 * dot d o) - 4 * 1 * (dot o o - 1) =
      (dot d o * dot d o - (dot o o - 1)) * 2 ^ 2 by ring, Real.sqrt_mul hdisc.le, Real.sqrt_sq (by norm_num)]
    ring
  have eq2 : Shapes.equation2 1 (2 * dot d o) (dot o o - 1) =
      some (-dot d o + Real.sqrt (dot d o * dot d o - (dot o o - 1)),
        -dot d o - Real.sqrt (dot d o * dot d o - (dot o o - 1))) := by
    unfold Shapes.equation2
    simp only
    rw [if_neg (by rintro ⟨h, -⟩; nlinarith), if_pos (by nlinarith), if_pos (by linarith), sd]
    generalize Real.sqrt (dot d o * dot d o - (dot o o - 1)) = q at *
    generalize dot d o = b at *
    have e1 : -(1 / 2) * (2 * b - 2 * q) = -b + q := by ring
    have e2 : dot o o - 1 = (-b - q) * (-b + q) := by linarith
    have p : (-b + q) ≠ 0 := by linarith
    rw [e1, e2, mul_div_assoc, div_self p, div_one, mul_one]
  unfold sphereLight Shapes.sphereIntersect
  simp only [hd]
  rw [eq2]
  generalize Real.sqrt (dot d o * dot d o - (dot o o - 1)) = q at *
  have h1 : -dot d o - q < -dot d o + q := by linarith
  have h2 : ¬far < -dot d o - q := by linarith
  have h3 : ¬-dot d o - q < eps := by linarith
  simp [h1, h2, h3]

/-- Such a hit is on the sphere. -/
theorem near_unit (o d : V3 ℝ) (hd : dot d d = 1) (hdisc : 0 < dot d o * dot d o - (dot o o - 1)) :
    dot ((Ray.mk o d).apply (-dot d o - Real.sqrt (dot d o * dot d o - (dot o o - 1))))
      ((Ray.mk o d).apply (-dot d o - Real.sqrt (dot d o * dot d o - (dot o o - 1)))) = 1 := by
  have qq := Real.mul_self_sqrt hdisc.le
  generalize Real.sqrt (dot d o * dot d o - (dot o o - 1)) = q at *
  have : ∀ t, dot ((Ray.mk o d).apply t) ((Ray.mk o d).apply t) = dot o o + 2 * t * dot d o + t ^ 2 * dot d d := by
    intro t; simp only [Ray.apply, dot]; ring
  rw [this, hd]
  linear_combination qq

theorem sphere_eps (eps far d : ℝ) (r : Ray ℝ) (n : V3 ℝ) (h : sphereLight eps r far = some (d, n)) : eps ≤ d := by
  unfold sphereLight Shapes.sphereIntersect at h
  simp only at h
  generalize Shapes.equation2 (dot r.d r.d) (2 * dot r.d r.o) (dot r.o r.o - 1) = eq at h
  cases eq with
  | none => simp at h
  | some s =>
    obtain ⟨s1, s2⟩ := s
    simp only at h
    generalize (if s2 < s1 then (s2, s1) else (s1, s2) : ℝ × ℝ) = ss at h
    obtain ⟨a, b⟩ := ss
    simp only at h
    split at h
    · cases h
    · split at h
      · cases h
      · rename_i k
        by_cases ha : a < eps
        · simp only [ha, if_true, Option.some.injEq, Prod.mk.injEq] at h
          rw [← h.1]
          by_contra c
          exact k ⟨ha, Or.inl (not_le.mp c)⟩
        · simp only [ha, if_false, if_true, Option.some.injEq, Prod.mk.injEq] at h
          rw [← h.1]; exact not_lt.mp ha

/-- **C107.** The sphere answers properly every ray that goes through two of its points. -/
theorem C107_sphere_proper (l : AreaLight) (eps : ℝ) (he : 0 < eps) (hm : l.model = sphereLight eps) (r : Ray ℝ)
    (hr : dot r.d r.d ≠ 0) (s t : ℝ) (hst : s ≠ t) (h1 : dot (r.apply s) (r.apply s) = 1)
    (h2 : dot (r.apply t) (r.apply t) = 1) : ProperAt l r := by
  intro d n h
  rw [hm] at h
  have disc : 0 < 2 * dot r.d r.o * (2 * dot r.d r.o) - 4 * dot r.d r.d * (dot r.o r.o - 1) := by
    have k : ∀ x, dot (r.apply x) (r.apply x) = dot r.d r.d * x ^ 2 + 2 * dot r.d r.o * x + dot r.o r.o := by
      intro x; simp only [dot, Ray.apply]; ring
    rw [k] at h1 h2
    have e : dot r.d r.d * (s + t) = -(2 * dot r.d r.o) := by
      have : (s - t) * (dot r.d r.d * (s + t) + 2 * dot r.d r.o) = 0 := by linear_combination h1 - h2
      rcases mul_eq_zero.mp this with c | c
      · exact absurd (sub_eq_zero.mp c) hst
      · linarith
    have f : 2 * dot r.d r.o * (2 * dot r.d r.o) - 4 * dot r.d r.d * (dot r.o r.o - 1) =
        (dot r.d r.d * (s - t)) ^ 2 := by
      generalize dot r.d r.d = a at *
      generalize dot r.d r.o = b at *
      generalize dot r.o r.o = c at *
      have b2 : 2 * b = -(a * (s + t)) := by linarith
      have c2 : c - 1 = a * s * t := by
        have : c - 1 = -(a * s ^ 2) - 2 * b * s := by linarith
        rw [this, b2]; ring
      rw [b2, c2]; ring
    rw [f]
    have : dot r.d r.d * (s - t) ≠ 0 := mul_ne_zero hr (sub_ne_zero.mpr hst)
    positivity
  exact ⟨lt_of_lt_of_le he (sphere_eps eps _ d r n h), (Shapes.C29_sphere_on_surface eps _ r _ d n hr disc h).2⟩

/-- A sphere of radius 2 at the origin, as placed by the program. -/
noncomputable def doubled (eps far : ℝ) : AreaLight :=
  ⟨placement ⟨0, 0, 0⟩ ⟨0, 0, 0⟩ ⟨2, 2, 2⟩, scaling ⟨1 / 2, 1 / 2, 1 / 2⟩, sphereLight eps,
    sphereSurface (placement ⟨0, 0, 0⟩ ⟨0, 0, 0⟩ ⟨2, 2, 2⟩), far⟩

theorem placement_two : placement ⟨0, 0, 0⟩ ⟨0, 0, 0⟩ ⟨2, 2, 2⟩ = scaling ⟨2, 2, 2⟩ := by
  simp [placement, mul, translation, scaling, rotateX, rotateY, rotateZ]

theorem doubled_scaled (eps far : ℝ) : Scaled (1 / 100000) (doubled eps far) 2 := by
  refine ⟨placement_affine _ _ _, ?_, by norm_num, ?_⟩
  · show inverse (1 / 100000) (placement ⟨0, 0, 0⟩ ⟨0, 0, 0⟩ ⟨2, 2, 2⟩) = some (scaling ⟨1 / 2, 1 / 2, 1 / 2⟩)
    rw [placement_two]
    have d8 : det (scaling ⟨2, 2, 2⟩) = 8 := by norm_num [det, scaling, inv]
    unfold inverse
    rw [d8, if_neg (by norm_num)]
    simp only [Option.some.injEq]
    ext <;> norm_num [scaling, inv]
  · intro v w
    show dot (mulVec (placement _ _ _) v) (mulVec (placement _ _ _) w) = _
    rw [placement_dot]; simp only [dot]; ring

/-- **C107, violated for scaled lights.** A sphere of radius 2 seen from distance 4 along the axis: the nearest
point is at distance 2 and its density is `4/(16π)`; the sampling reports `1/(16π)` and distance 1, the density
function reports `2/(16π)`. -/
theorem C107_violated_scaled (eps far : ℝ) (he : eps ≤ 1) (hf : 2 ≤ far) :
    (∃ lit, sampleVisible (doubled eps far) ⟨0, 0, -1⟩ ⟨0, 0, -4⟩ =
      .sample ⟨0, 0, 1⟩ (1 / (16 * Real.pi)) 1 lit) ∧
    lightPdf (doubled eps far) ⟨0, 0, -4⟩ ⟨0, 0, 1⟩ = some (2 / (16 * Real.pi)) ∧
    solidPdf ⟨0, 0, -4⟩ ⟨0, 0, -2⟩ ⟨0, 0, -1⟩ (sphereSurface (doubled eps far).objToWorld) = 4 / (16 * Real.pi) ∧
    Real.sqrt (dist2 ⟨0, 0, -4⟩ ⟨0, 0, -2⟩) = 2 := by
  have pp := Real.pi_pos
  have area : sphereSurface (placement ⟨0, 0, 0⟩ ⟨0, 0, 0⟩ ⟨2, 2, 2⟩) = 16 * Real.pi := by
    rw [(C106_sphere_placed _ _ 2).2]; ring
  have o : mulPoint (scaling ⟨1 / 2, 1 / 2, 1 / 2⟩) ⟨0, 0, -4⟩ = ⟨0, 0, -2⟩ := by
    norm_num [mulPoint, scaling]
  have d2 : dist2 ⟨0, 0, -4⟩ ⟨0, 0, -2⟩ = 2 ^ 2 := by norm_num [dist2]
  have r2 : Real.sqrt (dist2 ⟨0, 0, -4⟩ ⟨0, 0, -2⟩) = 2 := by rw [d2, Real.sqrt_sq (by norm_num)]
  refine ⟨?_, ?_, ?_, r2⟩
  · have u1 : unit (sub ⟨0, 0, -1⟩ ⟨0, 0, -2⟩) = some ⟨0, 0, 1⟩ := by
      have : (sub ⟨0, 0, -1⟩ ⟨0, 0, -2⟩ : V3 ℝ) = ⟨0, 0, 1⟩ := by norm_num [sub]
      rw [this]; exact unit_unit (by norm_num [dot])
    have u2 : unit (mulVec (placement ⟨0, 0, 0⟩ ⟨0, 0, 0⟩ ⟨2, 2, 2⟩) ⟨0, 0, 1⟩) = some ⟨0, 0, 1⟩ := by
      have : mulVec (placement ⟨0, 0, 0⟩ ⟨0, 0, 0⟩ ⟨2, 2, 2⟩) ⟨0, 0, 1⟩ = (⟨0, 0, 2⟩ : V3 ℝ) := by
        rw [placement_two]; norm_num [mulVec, scaling]
      rw [this]
      have l : Real.sqrt (dot ⟨0, 0, 2⟩ ⟨0, 0, 2⟩) = 2 := by
        rw [show dot (⟨0, 0, 2⟩ : V3 ℝ) ⟨0, 0, 2⟩ = 2 ^ 2 by norm_num [dot], Real.sqrt_sq (by norm_num)]
      unfold unit
      rw [l, if_neg (by norm_num [dot])]
      norm_num [Frame.scale]
    have disc : dot (⟨0, 0, 1⟩ : V3 ℝ) ⟨0, 0, -2⟩ * dot (⟨0, 0, 1⟩ : V3 ℝ) ⟨0, 0, -2⟩ -
        (dot (⟨0, 0, -2⟩ : V3 ℝ) ⟨0, 0, -2⟩ - 1) = 1 := by norm_num [dot]
    have t1 : -dot (⟨0, 0, 1⟩ : V3 ℝ) ⟨0, 0, -2⟩ - Real.sqrt 1 = 1 := by norm_num [dot]
    have hit := sphere_near eps far ⟨0, 0, -2⟩ ⟨0, 0, 1⟩ (by norm_num [dot]) (by norm_num [dot])
      (by rw [disc]; norm_num) (by rw [disc, t1]; exact he) (by rw [disc, t1]; linarith)
    rw [disc, t1] at hit
    have ap : (Ray.mk (⟨0, 0, -2⟩ : V3 ℝ) ⟨0, 0, 1⟩).apply 1 = ⟨0, 0, -1⟩ := by norm_num [Ray.apply]
    rw [ap] at hit
    have ad : |dot (⟨0, 0, -1⟩ : V3 ℝ) (neg ⟨0, 0, 1⟩)| = 1 := by norm_num [dot, neg]
    refine ⟨0 < dot (⟨0, 0, -1⟩ : V3 ℝ) (neg ⟨0, 0, 1⟩), ?_⟩
    unfold sampleVisible doubled
    simp only [o, u1, hit, u2, ap, ad, area]
    rw [if_neg (by positivity), one_mul]
    congr 1
    norm_num [dist2]
  · have ray : mulRay (scaling ⟨1 / 2, 1 / 2, 1 / 2⟩) ⟨⟨0, 0, -4⟩, ⟨0, 0, 1⟩⟩ = ⟨⟨0, 0, -2⟩, ⟨0, 0, 1 / 2⟩⟩ := by
      unfold mulRay; rw [o]; norm_num [mulVec, scaling]
    have eq2 : Shapes.equation2 (1 / 4) (-2) 3 = some (6, 2) := by
      unfold Shapes.equation2
      norm_num
    have ap : (Ray.mk (⟨0, 0, -2⟩ : V3 ℝ) ⟨0, 0, 1 / 2⟩).apply 2 = ⟨0, 0, -1⟩ := by norm_num [Ray.apply]
    have hit : sphereLight eps ⟨⟨0, 0, -2⟩, ⟨0, 0, 1 / 2⟩⟩ far = some (2, ⟨0, 0, -1⟩) := by
      have c1 : dot (⟨0, 0, 1 / 2⟩ : V3 ℝ) ⟨0, 0, 1 / 2⟩ = 1 / 4 := by norm_num [dot]
      have c2 : 2 * dot (⟨0, 0, 1 / 2⟩ : V3 ℝ) ⟨0, 0, -2⟩ = -2 := by norm_num [dot]
      have c3 : dot (⟨0, 0, -2⟩ : V3 ℝ) ⟨0, 0, -2⟩ - 1 = 3 := by norm_num [dot]
      have h2 : ¬far < 2 := by linarith
      have h3 : ¬(2 : ℝ) < eps := by linarith
      unfold sphereLight Shapes.sphereIntersect
      simp only [c1, c2, c3]
      rw [eq2]
      simp only [show (2 : ℝ) < 6 by norm_num, if_true, h2, h3, false_and, if_false, ap]
    have ad : |dot (⟨0, 0, -1⟩ : V3 ℝ) (neg ⟨0, 0, 1 / 2⟩)| = 1 / 2 := by norm_num [dot, neg]
    unfold lightPdf doubled
    simp only [ray, hit, ap, ad, area]
    rw [if_neg (by positivity)]
    congr 1
    have : dist2 ⟨0, 0, -2⟩ ⟨0, 0, -1⟩ = 1 := by norm_num [dist2]
    rw [this]; field_simp
  · show solidPdf ⟨0, 0, -4⟩ ⟨0, 0, -2⟩ ⟨0, 0, -1⟩ (sphereSurface (placement ⟨0, 0, 0⟩ ⟨0, 0, 0⟩ ⟨2, 2, 2⟩)) = _
    unfold solidPdf
    rw [r2, area, d2]
    have : |dot (⟨0, 0, -1⟩ : V3 ℝ) (Frame.scale (sub ⟨0, 0, -2⟩ ⟨0, 0, -4⟩) (1 / 2))| = 1 := by
      norm_num [dot, Frame.scale, sub]
    rw [this]; norm_num

example (far : ℝ) (hf : 2 ≤ far) : ∃ wi pdf d lit q n,
    sampleVisible (doubled (1 / 1000) far) ⟨0, 0, -1⟩ ⟨0, 0, -4⟩ = .sample wi pdf d lit ∧ dot n n = 1 ∧
    unit (sub q ⟨0, 0, -4⟩) = some wi ∧ pdf = solidPdf ⟨0, 0, -4⟩ q n (doubled (1 / 1000) far).area / 2 ^ 2 ∧
    d = Real.sqrt (dist2 ⟨0, 0, -4⟩ q) / 2 := by
  obtain ⟨⟨lit, e⟩, -⟩ := C107_violated_scaled (1 / 1000) far (by norm_num) hf
  obtain ⟨q, n, a, b, c, d, -⟩ := C107_sample _ (by norm_num) _ 2 (doubled_scaled (1 / 1000) far) ⟨0, 0, -1⟩
    ⟨0, 0, -4⟩ _ (by
      rintro r ⟨h1, h2⟩
      have o : mulPoint (doubled (1 / 1000) far).worldToObj ⟨0, 0, -4⟩ = ⟨0, 0, -2⟩ := by
        norm_num [doubled, mulPoint, scaling]
      rw [o] at h1
      rw [h1] at h2
      have : (sub ⟨0, 0, -1⟩ ⟨0, 0, -2⟩ : V3 ℝ) = ⟨0, 0, 1⟩ := by norm_num [sub]
      rw [this, unit_unit (by norm_num [dot])] at h2
      simp only [Option.some.injEq] at h2
      have hr : r = ⟨⟨0, 0, -2⟩, ⟨0, 0, 1⟩⟩ := by
        obtain ⟨ro, rd⟩ := r
        simp only at h1 h2
        rw [h1, h2]
      rw [hr]
      exact C107_sphere_proper _ (1 / 1000) (by norm_num) rfl _ (by norm_num [dot]) 1 3 (by norm_num)
        (by norm_num [dot, Ray.apply]) (by norm_num [dot, Ray.apply])) _ _ _ e
  exact ⟨_, _, _, _, q, n, e, a, b, c, d⟩

/-- **C107.** A ray sampled on the light starts on the surface of the light and leaves it on the side of the
normal, for every invertible transform. -/
theorem C107_emitted (tol : ℝ) (ht : 0 ≤ tol) (l : AreaLight) (ha : Affine l.objToWorld)
    (hw : inverse tol l.objToWorld = some l.worldToObj) (x n : V3 ℝ) (r2 r3 : ℝ) (h0 : 0 ≤ r2) (h1 : r2 ≤ 1) :
    (sampleSurface l x n r2 r3).1.o = mulPoint l.objToWorld x ∧
    0 ≤ dot (transformNormal n l.worldToObj) (sampleSurface l x n r2 r3).1.d ∧
    ∃ d, dot d d = 1 ∧ (sampleSurface l x n r2 r3).1.d = mulVec l.objToWorld d := by
  have us := C106_sample.1 r2 r3 h0 h1
  unfold sampleSurface
  simp only [mulRay]
  refine ⟨trivial, ?_, _, ?_, rfl⟩
  · rw [C26_normal_orthogonal tol ht _ _ hw ha]
    split
    · rename_i c
      have : dot n (neg (sphereSample r2 r3)) = -dot (sphereSample r2 r3) n := by simp only [dot, neg]; ring
      rw [this]; linarith
    · rename_i c
      rw [dot_comm]; linarith
  · split
    · have : ∀ v, dot (neg v) (neg v) = dot v v := by intro v; simp only [dot, neg]; ring
      rw [this]; exact us
    · exact us

/-- **C107.** The density reported for such a ray is that of a point chosen uniformly on the surface and a direction chosen
uniformly on the hemisphere: summed over the directions of the hemisphere it gives one over the area. -/
theorem C107_emitted_density (l : AreaLight) (x n : V3 ℝ) (r2 r3 : ℝ) :
    ∫ th in (0 : ℝ)..Real.pi / 2, ∫ _ph in (0 : ℝ)..2 * Real.pi, (sampleSurface l x n r2 r3).2 * Real.sin th =
      1 / l.area := by
  have pp := Real.pi_pos.ne'
  simp only [sampleSurface, intervalIntegral.integral_const, smul_eq_mul, sub_zero]
  simp only [intervalIntegral.integral_const_mul, integral_sin, Real.cos_zero, Real.cos_pi_div_two]
  field_simp
  norm_num

/-- **C107, violated for scaled lights:** the direction of such a ray is not of unit length. -/
theorem C107_violated_emitted (eps far : ℝ) (x n : V3 ℝ) (r2 r3 : ℝ) (h0 : 0 ≤ r2) (h1 : r2 ≤ 1) :
    dot (sampleSurface (doubled eps far) x n r2 r3).1.d (sampleSurface (doubled eps far) x n r2 r3).1.d = 4 := by
  have h := doubled_scaled eps far
  obtain ⟨-, -, d, hd, e⟩ := C107_emitted _ (by norm_num) (doubled eps far) h.affine h.inv x n r2 r3 h0 h1
  rw [e, h.similar, hd]; norm_num

/-! ### C108 -/

/-- Direction at angle `θ` from the `z` axis. -/
noncomputable def polar (th ph : ℝ) : V3 ℝ :=
  ⟨Real.sin th * Real.cos ph, Real.sin th * Real.sin ph, Real.cos th⟩

/-- The unit sphere as a light, not transformed. -/
noncomputable def unitLight (eps far : ℝ) : AreaLight := ⟨identity, identity, sphereLight eps, 4 * Real.pi, far⟩

/-- Distance of the nearer intersection at angle `θ`, for an observer at distance `D` from the centre. -/
noncomputable def nearDist (D th : ℝ) : ℝ := D * Real.cos th - Real.sqrt (1 - D ^ 2 * Real.sin th ^ 2)

/-- The density reported for a direction within the cone of the sphere. -/
theorem unit_pdf (eps far D th ph : ℝ) (hD : 1 < D) (he : eps ≤ D - 1) (hf : D ≤ far)
    (hc : 0 < Real.cos th) (hs : 0 < 1 - D ^ 2 * Real.sin th ^ 2) :
    lightPdf (unitLight eps far) ⟨0, 0, -D⟩ (polar th ph) =
      some (nearDist D th ^ 2 / (Real.sqrt (1 - D ^ 2 * Real.sin th ^ 2) * (4 * Real.pi))) := by
  have pp := Real.pi_pos
  have t1 := Real.sin_sq_add_cos_sq th
  have t2 := Real.sin_sq_add_cos_sq ph
  have hd : dot (polar th ph) (polar th ph) = 1 := by
    simp only [dot, polar]; linear_combination (Real.sin th ^ 2) * t2 + t1
  have hb : dot (polar th ph) ⟨0, 0, -D⟩ = -(D * Real.cos th) := by simp [dot, polar]; ring
  have ho : dot (⟨0, 0, -D⟩ : V3 ℝ) ⟨0, 0, -D⟩ = D ^ 2 := by simp [dot]; ring
  have disc : dot (polar th ph) ⟨0, 0, -D⟩ * dot (polar th ph) ⟨0, 0, -D⟩ -
      (dot (⟨0, 0, -D⟩ : V3 ℝ) ⟨0, 0, -D⟩ - 1) = 1 - D ^ 2 * Real.sin th ^ 2 := by
    rw [hb, ho]; linear_combination D ^ 2 * t1
  have q0 := Real.sqrt_pos.mpr hs
  have qq := Real.mul_self_sqrt hs.le
  have c1 : Real.cos th ≤ 1 := Real.cos_le_one th
  have near : nearDist D th = -dot (polar th ph) ⟨0, 0, -D⟩ - Real.sqrt (1 - D ^ 2 * Real.sin th ^ 2) := by
    rw [hb, nearDist]; ring
  -- the hit is at least `D - 1` away
  have lo : D - 1 ≤ nearDist D th := by
    unfold nearDist
    generalize Real.sqrt (1 - D ^ 2 * Real.sin th ^ 2) = q at *
    have a : q ^ 2 = D ^ 2 * Real.cos th ^ 2 - D ^ 2 + 1 := by nlinarith
    have b : 0 ≤ 1 - D * (1 - Real.cos th) := by
      nlinarith [mul_nonneg (mul_nonneg (by linarith : (0 : ℝ) ≤ D) (by linarith : (0 : ℝ) ≤ 1 - Real.cos th))
        (by nlinarith : (0 : ℝ) ≤ D * (1 + Real.cos th) - 1)]
    have : q ≤ 1 - D * (1 - Real.cos th) := by
      refine (abs_le_of_sq_le_sq' ?_ b).2
      nlinarith [mul_nonneg (mul_nonneg (by linarith : (0 : ℝ) ≤ D) (by linarith : (0 : ℝ) ≤ 1 - Real.cos th))
        (by linarith : (0 : ℝ) ≤ 2 * D - 2)]
    linarith
  have hi : nearDist D th ≤ far := by unfold nearDist; nlinarith
  have hit := sphere_near eps far ⟨0, 0, -D⟩ (polar th ph) hd (by rw [hb]; nlinarith)
    (by rw [disc]; exact hs) (by rw [disc, ← near]; linarith) (by rw [disc, ← near]; exact hi)
  rw [disc, ← near] at hit
  have ray : mulRay (identity : M4 ℝ) ⟨⟨0, 0, -D⟩, polar th ph⟩ = ⟨⟨0, 0, -D⟩, polar th ph⟩ := by
    simp [mulRay, mulPoint, mulVec, identity]
  have nd : dot ((Ray.mk ⟨0, 0, -D⟩ (polar th ph)).apply (nearDist D th)) (polar th ph) =
      -Real.sqrt (1 - D ^ 2 * Real.sin th ^ 2) := by
    have : ∀ (o d : V3 ℝ) t, dot ((Ray.mk o d).apply t) d = dot d o + t * dot d d := by
      intro o d t; simp only [Ray.apply, dot]; ring
    rw [this, hd, hb, nearDist]; ring
  unfold lightPdf unitLight
  simp only [ray, hit]
  rw [neg_dot, nd, abs_neg, abs_of_pos q0, if_neg (by positivity), dist2_apply, hd, mul_one]

/-- Height (minus the distance of the centre) of the nearer intersection. -/
noncomputable def nearHeight (D th : ℝ) : ℝ := nearDist D th * Real.cos th - D

theorem height_deriv (D th : ℝ) (hs : 0 < 1 - D ^ 2 * Real.sin th ^ 2) :
    HasDerivAt (nearHeight D) (nearDist D th ^ 2 * Real.sin th / Real.sqrt (1 - D ^ 2 * Real.sin th ^ 2)) th := by
  have q0 := Real.sqrt_pos.mpr hs
  have d1 : HasDerivAt (fun x => 1 - D ^ 2 * Real.sin x ^ 2) (-(D ^ 2 * (2 * Real.sin th * Real.cos th))) th := by
    have := (((Real.hasDerivAt_sin th).pow 2).const_mul (D ^ 2)).const_sub 1
    exact this.congr_deriv (by simp)
  have d2 := d1.sqrt hs.ne'
  have d3 : HasDerivAt (nearDist D) (D * -Real.sin th - -(D ^ 2 * (2 * Real.sin th * Real.cos th)) /
      (2 * Real.sqrt (1 - D ^ 2 * Real.sin th ^ 2))) th :=
    ((Real.hasDerivAt_cos th).const_mul D).sub d2
  have d4 := (d3.mul (Real.hasDerivAt_cos th)).sub_const D
  refine d4.congr_deriv ?_
  unfold nearDist
  generalize Real.sqrt (1 - D ^ 2 * Real.sin th ^ 2) = q at *
  field_simp
  ring

theorem height_zero (D : ℝ) : nearHeight D 0 = -1 := by simp [nearHeight, nearDist]

/-- The part of the density that does not depend on the azimuth. -/
theorem reported_inner (D al : ℝ) (hD : 1 < D) (h0 : 0 ≤ al) (h1 : al < Real.pi / 2) (h2 : D * Real.sin al ≤ 1) :
    ∫ th in (0 : ℝ)..al, nearDist D th ^ 2 * Real.sin th / Real.sqrt (1 - D ^ 2 * Real.sin th ^ 2) =
      1 + nearHeight D al := by
  have pp := Real.pi_pos
  have der : ∀ x ∈ Set.Ioo 0 al, HasDerivAt (nearHeight D)
      (nearDist D x ^ 2 * Real.sin x / Real.sqrt (1 - D ^ 2 * Real.sin x ^ 2)) x := by
    intro x hx
    refine height_deriv D x ?_
    have s0 : 0 < Real.sin x := Real.sin_pos_of_pos_of_lt_pi hx.1 (by linarith [hx.2])
    have s1 : Real.sin x < Real.sin al := Real.sin_lt_sin_of_lt_of_le_pi_div_two (by linarith [hx.1]) h1.le hx.2
    have a : D * Real.sin x < 1 := by nlinarith
    have b : 0 < D * Real.sin x := by positivity
    nlinarith
  have cont : ContinuousOn (nearHeight D) (Set.Icc 0 al) := by
    unfold nearHeight nearDist
    fun_prop
  have nn : ∀ x ∈ Set.Ioo 0 al, 0 ≤ nearDist D x ^ 2 * Real.sin x / Real.sqrt (1 - D ^ 2 * Real.sin x ^ 2) := by
    intro x hx
    have s0 : 0 < Real.sin x := Real.sin_pos_of_pos_of_lt_pi hx.1 (by linarith [hx.2])
    positivity
  have int : IntervalIntegrable (fun x => nearDist D x ^ 2 * Real.sin x / Real.sqrt (1 - D ^ 2 * Real.sin x ^ 2))
      MeasureTheory.volume 0 al := by
    refine intervalIntegral.intervalIntegrable_deriv_of_nonneg (g := nearHeight D) ?_ ?_ ?_
    · rw [Set.uIcc_of_le h0]; exact cont
    · rw [min_eq_left h0, max_eq_right h0]; exact der
    · rw [min_eq_left h0, max_eq_right h0]; exact nn
  rw [intervalIntegral.integral_eq_sub_of_hasDerivAt_of_le h0 cont der int, height_zero]
  ring

/-- **C108.** The density that `pdf` reports for the directions within the angle `al` around a sphere, integrated
over them: `(1 + nearHeight)/2`, the part of the sphere in front of the observer and within that angle. -/
theorem C108_reported (eps far D al : ℝ) (hD : 1 < D) (he : eps ≤ D - 1) (hf : D ≤ far) (h0 : 0 ≤ al)
    (h1 : al < Real.pi / 2) (h2 : D * Real.sin al ≤ 1) :
    ∫ ph in (0 : ℝ)..2 * Real.pi, ∫ th in (0 : ℝ)..al,
      (lightPdf (unitLight eps far) ⟨0, 0, -D⟩ (polar th ph)).getD 0 * Real.sin th = (1 + nearHeight D al) / 2 := by
  have pp := Real.pi_pos
  have inner : ∀ ph, ∫ th in (0 : ℝ)..al,
      (lightPdf (unitLight eps far) ⟨0, 0, -D⟩ (polar th ph)).getD 0 * Real.sin th =
      (1 + nearHeight D al) / (4 * Real.pi) := by
    intro ph
    rw [← reported_inner D al hD h0 h1 h2, ← intervalIntegral.integral_div]
    refine intervalIntegral.integral_congr_Ioo_of_le h0 ?_
    intro th hth
    have s0 : 0 < Real.sin th := Real.sin_pos_of_pos_of_lt_pi hth.1 (by linarith [hth.2])
    have s1 : Real.sin th < Real.sin al := Real.sin_lt_sin_of_lt_of_le_pi_div_two (by linarith [hth.1]) h1.le hth.2
    have a : D * Real.sin th < 1 := by nlinarith
    have b : 0 < D * Real.sin th := by positivity
    have hs : 0 < 1 - D ^ 2 * Real.sin th ^ 2 := by nlinarith
    have q0 := Real.sqrt_pos.mpr hs
    simp only
    rw [unit_pdf eps far D th ph hD he hf (Real.cos_pos_of_mem_Ioo ⟨by linarith [hth.1], by linarith [hth.2]⟩) hs]
    simp only [Option.getD_some]
    generalize Real.sqrt (1 - D ^ 2 * Real.sin th ^ 2) = q at *
    field_simp
  simp only [inner]
  rw [intervalIntegral.integral_const, smul_eq_mul]
  field_simp
  ring

/-- **C108.** The direction returned by the sampling is that of the sampled point, be it on the side of the
observer or on the other. -/
theorem C108_direction (eps far : ℝ) (x pos wi : V3 ℝ) (pdf d : ℝ) (lit : Prop)
    (e : sampleVisible (unitLight eps far) x pos = .sample wi pdf d lit) : unit (sub x pos) = some wi := by
  unfold sampleVisible unitLight at e
  have o : mulPoint (identity : M4 ℝ) pos = pos := by simp [mulPoint, identity]
  simp only [o] at e
  cases hd : unit (sub x pos) with
  | none => rw [hd] at e; cases e
  | some dir =>
    rw [hd] at e
    simp only at e
    split at e
    · cases e
    · split at e
      · cases e
      · have v : mulVec (identity : M4 ℝ) dir = dir := by simp [mulVec, identity]
        rw [v, unit_unit (unit_some hd).1] at e
        simp only [Visible.sample.injEq] at e
        rw [e.1]

/-- The sampled point lies, seen from distance `D`, within the angle `al` of the axis. -/
def Within (D al r0 r1 : ℝ) : Prop :=
  ∃ wi, unit (sub (sphereSample r0 r1) ⟨0, 0, -D⟩) = some wi ∧ Real.cos al ≤ wi.z

theorem within_iff (D al r0 r1 : ℝ) (hD : 1 < D) (h0 : 0 ≤ r0) (h1 : r0 ≤ 1) (ha : 0 < Real.cos al)
    (h2 : 0 ≤ 1 - D ^ 2 * Real.sin al ^ 2) :
    Within D al r0 r1 ↔ ¬((1 + D * Real.sin al ^ 2 - Real.cos al * Real.sqrt (1 - D ^ 2 * Real.sin al ^ 2)) / 2 < r0 ∧
      r0 < (1 + D * Real.sin al ^ 2 + Real.cos al * Real.sqrt (1 - D ^ 2 * Real.sin al ^ 2)) / 2) := by
  have us := C106_sample.1 r0 r1 h0 h1
  have t1 := Real.sin_sq_add_cos_sq al
  have hz : (sphereSample r0 r1).z = 1 - 2 * r0 := rfl
  have qq := Real.mul_self_sqrt h2
  have q0 := Real.sqrt_nonneg (1 - D ^ 2 * Real.sin al ^ 2)
  have n2 : dot (sub (sphereSample r0 r1) ⟨0, 0, -D⟩) (sub (sphereSample r0 r1) ⟨0, 0, -D⟩) =
      1 + 2 * D * (1 - 2 * r0) + D ^ 2 := by
    have : ∀ p : V3 ℝ, dot (sub p ⟨0, 0, -D⟩) (sub p ⟨0, 0, -D⟩) = dot p p + 2 * D * p.z + D ^ 2 := by
      intro p; simp only [dot, sub]; ring
    rw [this, us, hz]
  have npos : 0 < 1 + 2 * D * (1 - 2 * r0) + D ^ 2 := by nlinarith
  have zpos : 0 < 1 - 2 * r0 + D := by linarith
  unfold Within unit
  rw [n2, if_neg npos.ne']
  simp only [Option.some.injEq, exists_eq_left', Frame.scale, sub, hz]
  rw [mul_one_div, le_div_iff₀ (Real.sqrt_pos.mpr npos)]
  have e : Real.cos al * Real.sqrt (1 + 2 * D * (1 - 2 * r0) + D ^ 2) ≤ 1 - 2 * r0 - -D ↔
      Real.cos al ^ 2 * (1 + 2 * D * (1 - 2 * r0) + D ^ 2) ≤ (1 - 2 * r0 + D) ^ 2 := by
    have w := Real.mul_self_sqrt npos.le
    have w0 := Real.sqrt_nonneg (1 + 2 * D * (1 - 2 * r0) + D ^ 2)
    rw [sub_neg_eq_add, ← abs_of_nonneg (mul_nonneg ha.le w0), ← abs_of_pos zpos, ← sq_le_sq, mul_pow,
      Real.sq_sqrt npos.le, abs_of_pos zpos]
  rw [e]
  generalize Real.sqrt (1 - D ^ 2 * Real.sin al ^ 2) = q at *
  generalize Real.cos al = c at *
  generalize Real.sin al = s at *
  have fac : (1 - 2 * r0 + D) ^ 2 - c ^ 2 * (1 + 2 * D * (1 - 2 * r0) + D ^ 2) =
      (1 - 2 * r0 + D * s ^ 2 + c * q) * (1 - 2 * r0 + D * s ^ 2 - c * q) := by
    have c2 : c ^ 2 = 1 - s ^ 2 := by linarith
    have q2 : q ^ 2 = 1 - D ^ 2 * s ^ 2 := by rw [← qq]; ring
    linear_combination (-(2 * D * (1 - 2 * r0)) - D ^ 2 - 1 + q ^ 2) * c2 +
      (1 - s ^ 2) * q2
  have cq : 0 ≤ c * q := by positivity
  rw [← sub_nonneg, fac]
  constructor
  · rintro h ⟨a, b⟩
    nlinarith
  · intro h
    by_cases hh : (1 + D * s ^ 2 - c * q) / 2 < r0
    · have : ¬r0 < (1 + D * s ^ 2 + c * q) / 2 := fun k => h ⟨hh, k⟩
      nlinarith
    · nlinarith

/-- **C108.** The probability with which the sampling really produces a direction within the angle `al`: it counts
the points of both sides of the sphere. -/
theorem C108_actual (D al r1 : ℝ) (hD : 1 < D) (h0 : 0 ≤ al) (h1 : al < Real.pi / 2) (h2 : D * Real.sin al ≤ 1) :
    MeasureTheory.volume {r0 : ℝ | (0 ≤ r0 ∧ r0 ≤ 1) ∧ Within D al r0 r1} =
      ENNReal.ofReal (1 - Real.cos al * Real.sqrt (1 - D ^ 2 * Real.sin al ^ 2)) := by
  have pp := Real.pi_pos
  have ca : 0 < Real.cos al := Real.cos_pos_of_mem_Ioo ⟨by linarith, h1⟩
  have c1 := Real.cos_le_one al
  have sa : 0 ≤ Real.sin al := Real.sin_nonneg_of_nonneg_of_le_pi h0 (by linarith)
  have b : 0 ≤ D * Real.sin al := by positivity
  have hs : 0 ≤ 1 - D ^ 2 * Real.sin al ^ 2 := by nlinarith
  have q0 := Real.sqrt_nonneg (1 - D ^ 2 * Real.sin al ^ 2)
  have qq := Real.mul_self_sqrt hs
  have t1 := Real.sin_sq_add_cos_sq al
  have set : {r0 : ℝ | (0 ≤ r0 ∧ r0 ≤ 1) ∧ Within D al r0 r1} = Set.Icc 0 1 \
      Set.Ioo ((1 + D * Real.sin al ^ 2 - Real.cos al * Real.sqrt (1 - D ^ 2 * Real.sin al ^ 2)) / 2)
        ((1 + D * Real.sin al ^ 2 + Real.cos al * Real.sqrt (1 - D ^ 2 * Real.sin al ^ 2)) / 2) := by
    ext r0
    constructor
    · rintro ⟨r, w⟩
      exact ⟨r, (within_iff D al r0 r1 hD r.1 r.2 ca hs).mp w⟩
    · rintro ⟨r, w⟩
      exact ⟨r, (within_iff D al r0 r1 hD r.1 r.2 ca hs).mpr w⟩
  rw [set]
  generalize Real.sqrt (1 - D ^ 2 * Real.sin al ^ 2) = q at *
  generalize Real.cos al = c at *
  generalize Real.sin al = s at *
  have q1 : q ≤ 1 := by nlinarith
  have lo : 0 ≤ (1 + D * s ^ 2 - c * q) / 2 := by
    have : c * q ≤ 1 := by nlinarith
    have : 0 ≤ D * s ^ 2 := by positivity
    linarith
  have hi : (1 + D * s ^ 2 + c * q) / 2 ≤ 1 := by
    have k : c * q ≤ 1 - D * s ^ 2 := by
      refine (abs_le_of_sq_le_sq' ?_ ?_).2
      · have c2 : c ^ 2 = 1 - s ^ 2 := by linarith
        have q2 : q ^ 2 = 1 - D ^ 2 * s ^ 2 := by rw [← qq]; ring
        rw [mul_pow, c2, q2]
        nlinarith [mul_nonneg (sq_nonneg s) (sq_nonneg (D - 1))]
      · nlinarith [sq_nonneg s]
    linarith
  rw [MeasureTheory.measure_sdiff (by
      intro x hx
      exact ⟨by linarith [hx.1], by linarith [hx.2]⟩) measurableSet_Ioo.nullMeasurableSet (by simp),
    Real.volume_Icc, Real.volume_Ioo, ← ENNReal.ofReal_sub _ (by nlinarith)]
  congr 1
  ring

/-- **C108, violated for the sphere.** For every angle of the cone the density reported adds up to less than the
probability: over the whole visible cone it gives `(1 - 1/D)/2`, less than one half, instead of 1. -/
theorem C108_violated (eps far D : ℝ) (hD : 1 < D) (he : eps ≤ D - 1) (hf : D ≤ far) :
    (∀ al, 0 < al → al < Real.pi / 2 → D * Real.sin al ≤ 1 →
      ∫ ph in (0 : ℝ)..2 * Real.pi, ∫ th in (0 : ℝ)..al,
        (lightPdf (unitLight eps far) ⟨0, 0, -D⟩ (polar th ph)).getD 0 * Real.sin th <
      1 - Real.cos al * Real.sqrt (1 - D ^ 2 * Real.sin al ^ 2)) ∧
    ∫ ph in (0 : ℝ)..2 * Real.pi, ∫ th in (0 : ℝ)..Real.arcsin (1 / D),
        (lightPdf (unitLight eps far) ⟨0, 0, -D⟩ (polar th ph)).getD 0 * Real.sin th = (1 - 1 / D) / 2 := by
  have pp := Real.pi_pos
  have D0 : 0 < D := by linarith
  constructor
  · intro al h0 h1 h2
    rw [C108_reported eps far D al hD he hf h0.le h1 h2]
    have ca : 0 < Real.cos al := Real.cos_pos_of_mem_Ioo ⟨by linarith, h1⟩
    have sa : 0 < Real.sin al := Real.sin_pos_of_pos_of_lt_pi h0 (by linarith)
    have b : 0 ≤ D * Real.sin al := by positivity
    have hs : 0 ≤ 1 - D ^ 2 * Real.sin al ^ 2 := by nlinarith
    have q0 := Real.sqrt_nonneg (1 - D ^ 2 * Real.sin al ^ 2)
    have qq := Real.mul_self_sqrt hs
    have t1 := Real.sin_sq_add_cos_sq al
    unfold nearHeight nearDist
    generalize Real.sqrt (1 - D ^ 2 * Real.sin al ^ 2) = q at *
    generalize Real.cos al = c at *
    generalize Real.sin al = s at *
    have q1 : q ≤ 1 := by nlinarith
    have c1 : c < 1 := by nlinarith
    have cq : c * q < 1 := by nlinarith
    have k : 0 < D * s ^ 2 := by positivity
    have c2 : c ^ 2 = 1 - s ^ 2 := by linarith
    nlinarith
  · have d1 : 1 / D < 1 := by rw [div_lt_one D0]; exact hD
    have d0 : 0 < 1 / D := by positivity
    have sn : Real.sin (Real.arcsin (1 / D)) = 1 / D := Real.sin_arcsin (by linarith) d1.le
    rw [C108_reported eps far D _ hD he hf (Real.arcsin_nonneg.mpr d0.le) (Real.arcsin_lt_pi_div_two.mpr d1)
      (by rw [sn]; field_simp; exact le_refl _)]
    have cs : Real.cos (Real.arcsin (1 / D)) ^ 2 = 1 - (1 / D) ^ 2 := by
      rw [Real.cos_arcsin, Real.sq_sqrt (by nlinarith)]
    unfold nearHeight nearDist
    rw [sn]
    have z : 1 - D ^ 2 * (1 / D) ^ 2 = 0 := by field_simp; ring
    rw [z, Real.sqrt_zero, sub_zero, mul_assoc, ← sq, cs]
    field_simp
    ring

example : ∫ ph in (0 : ℝ)..2 * Real.pi, ∫ th in (0 : ℝ)..Real.arcsin (1 / 2),
    (lightPdf (unitLight (1 / 1000) 100) ⟨0, 0, -2⟩ (polar th ph)).getD 0 * Real.sin th = (1 - 1 / 2) / 2 :=
  (C108_violated (1 / 1000) 100 2 (by norm_num) (by norm_num) (by norm_num)).2

end Spectre.Light
