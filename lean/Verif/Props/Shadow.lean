import Verif.Props.Light
import Verif.Props.Integrator

/-
C109: shadows of the area lights.  C110: combination of the two ways of sampling a light.
-/

namespace Spectre.Light
open Spectre.Geom Spectre.Frame Spectre.Integrator

/-! ### C109 -/

/-- **C109.** What the shadow test of `direct_l` answers for a sample of a light scaled by `s` (ray_tracer.cpp:32-38):
whether something lies nearer than the distance of the light divided by `s`. -/
theorem C109_test (tol err : ℝ) (ht : 0 ≤ tol) (l : AreaLight) (s : ℝ) (h : Scaled tol l s) (x pos wi : V3 ℝ)
    (hp : ∀ r, Aimed l x pos r → ProperAt l r) (pdf d : ℝ) (lit : Prop)
    (e : sampleVisible l x pos = .sample wi pdf d lit) (scene : List (Occluder (Ray ℝ) ℝ))
    (cache : Cache (Ray ℝ) ℝ) (hc : CacheOk scene cache) :
    ∃ q b cache', unit (sub q pos) = some wi ∧ isOccluded err scene cache 0 ⟨pos, wi⟩ d = some (b, cache') ∧
      (b = true ↔ Occluded err scene ⟨pos, wi⟩ (Real.sqrt (dist2 pos q) / s)) := by
  obtain ⟨q, n, -, hq, -, hd, -⟩ := C107_sample tol ht l s h x pos wi hp pdf d lit e
  obtain ⟨b, c', e', -, hb⟩ := isOccluded_spec err scene cache hc 0 (by decide) ⟨pos, wi⟩ d
  rw [hd] at hb
  exact ⟨q, b, c', hq, e', hb⟩

/-- **C109.** For a light that is not scaled: a sample is in the shadow exactly when something lies between the
point and the light. -/
theorem C109_rigid_partial (tol err : ℝ) (ht : 0 ≤ tol) (l : AreaLight) (h : Scaled tol l 1) (x pos wi : V3 ℝ)
    (hp : ∀ r, Aimed l x pos r → ProperAt l r) (pdf d : ℝ) (lit : Prop)
    (e : sampleVisible l x pos = .sample wi pdf d lit) (scene : List (Occluder (Ray ℝ) ℝ))
    (cache : Cache (Ray ℝ) ℝ) (hc : CacheOk scene cache) :
    ∃ q b cache', unit (sub q pos) = some wi ∧ isOccluded err scene cache 0 ⟨pos, wi⟩ d = some (b, cache') ∧
      (b = true ↔ Occluded err scene ⟨pos, wi⟩ (Real.sqrt (dist2 pos q))) := by
  have := C109_test tol err ht l 1 h x pos wi hp pdf d lit e scene cache hc
  simpa using this

/-- A sphere of radius `s` at the origin, as placed by the program. -/
noncomputable def sized (eps far s : ℝ) : AreaLight :=
  ⟨placement ⟨0, 0, 0⟩ ⟨0, 0, 0⟩ ⟨s, s, s⟩, scaling ⟨1 / s, 1 / s, 1 / s⟩, sphereLight eps,
    sphereSurface (placement ⟨0, 0, 0⟩ ⟨0, 0, 0⟩ ⟨s, s, s⟩), far⟩

theorem placement_sized (s : ℝ) : placement ⟨0, 0, 0⟩ ⟨0, 0, 0⟩ ⟨s, s, s⟩ = scaling ⟨s, s, s⟩ := by
  simp [placement, mul, translation, scaling, rotateX, rotateY, rotateZ]

/-- The sample towards the nearest point of such a sphere, from distance `D·s`. -/
theorem sized_sample (eps far s D : ℝ) (hs : 0 < s) (hD : 1 < D) (he : eps ≤ D - 1) (hf : D - 1 ≤ far) :
    ∃ lit, sampleVisible (sized eps far s) ⟨0, 0, -1⟩ ⟨0, 0, -(D * s)⟩ =
      .sample ⟨0, 0, 1⟩ ((D - 1) ^ 2 / (4 * Real.pi * s ^ 2)) (D - 1) lit := by
  have pp := Real.pi_pos
  have area : sphereSurface (placement ⟨0, 0, 0⟩ ⟨0, 0, 0⟩ ⟨s, s, s⟩) = 4 * Real.pi * s ^ 2 :=
    (C106_sphere_placed _ _ s).2
  have o : mulPoint (scaling ⟨1 / s, 1 / s, 1 / s⟩) ⟨0, 0, -(D * s)⟩ = ⟨0, 0, -D⟩ := by
    simp [mulPoint, scaling]; field_simp
  have u1 : unit (sub ⟨0, 0, -1⟩ ⟨0, 0, -D⟩) = some ⟨0, 0, 1⟩ := by
    have l : Real.sqrt (dot (sub ⟨0, 0, -1⟩ ⟨0, 0, -D⟩) (sub ⟨0, 0, -1⟩ ⟨0, 0, -D⟩)) = D - 1 := by
      rw [show dot (sub ⟨0, 0, -1⟩ ⟨0, 0, -D⟩ : V3 ℝ) (sub ⟨0, 0, -1⟩ ⟨0, 0, -D⟩) = (D - 1) ^ 2 by
        simp only [dot, sub]; ring, Real.sqrt_sq (by linarith)]
    unfold unit
    rw [l, if_neg (by
      rw [show dot (sub ⟨0, 0, -1⟩ ⟨0, 0, -D⟩ : V3 ℝ) (sub ⟨0, 0, -1⟩ ⟨0, 0, -D⟩) = (D - 1) ^ 2 by
        simp only [dot, sub]; ring]
      have : 0 < D - 1 := by linarith
      positivity)]
    have : (-1 - -D) * (1 / (D - 1)) = 1 := by
      have : D - 1 ≠ 0 := by linarith
      field_simp; ring
    simp only [Frame.scale, sub, this, sub_zero, zero_mul]
  have u2 : unit (mulVec (placement ⟨0, 0, 0⟩ ⟨0, 0, 0⟩ ⟨s, s, s⟩) ⟨0, 0, 1⟩) = some ⟨0, 0, 1⟩ := by
    have : mulVec (placement ⟨0, 0, 0⟩ ⟨0, 0, 0⟩ ⟨s, s, s⟩) ⟨0, 0, 1⟩ = (⟨0, 0, s⟩ : V3 ℝ) := by
      rw [placement_sized]; simp [mulVec, scaling]
    rw [this]
    have l : Real.sqrt (dot ⟨0, 0, s⟩ ⟨0, 0, s⟩) = s := by
      rw [show dot (⟨0, 0, s⟩ : V3 ℝ) ⟨0, 0, s⟩ = s ^ 2 by simp [dot]; ring, Real.sqrt_sq hs.le]
    unfold unit
    rw [l, if_neg (by simp [dot, hs.ne'])]
    simp [Frame.scale, hs.ne']
  have disc : dot (⟨0, 0, 1⟩ : V3 ℝ) ⟨0, 0, -D⟩ * dot (⟨0, 0, 1⟩ : V3 ℝ) ⟨0, 0, -D⟩ -
      (dot (⟨0, 0, -D⟩ : V3 ℝ) ⟨0, 0, -D⟩ - 1) = 1 := by simp [dot]
  have t1 : -dot (⟨0, 0, 1⟩ : V3 ℝ) ⟨0, 0, -D⟩ - Real.sqrt 1 = D - 1 := by simp [dot]
  have hit := sphere_near eps far ⟨0, 0, -D⟩ ⟨0, 0, 1⟩ (by norm_num [dot]) (by simp [dot]; linarith)
    (by rw [disc]; norm_num) (by rw [disc, t1]; exact he) (by rw [disc, t1]; exact hf)
  rw [disc, t1] at hit
  have ap : (Ray.mk (⟨0, 0, -D⟩ : V3 ℝ) ⟨0, 0, 1⟩).apply (D - 1) = ⟨0, 0, -1⟩ := by
    simp [Ray.apply]; ring
  rw [ap] at hit
  have ad : |dot (⟨0, 0, -1⟩ : V3 ℝ) (neg ⟨0, 0, 1⟩)| = 1 := by norm_num [dot, neg]
  refine ⟨0 < dot (⟨0, 0, -1⟩ : V3 ℝ) (neg ⟨0, 0, 1⟩), ?_⟩
  unfold sampleVisible sized
  simp only [o, u1, hit, u2, ap, ad, area]
  rw [if_neg (by positivity), one_mul]
  congr 1
  simp only [dist2]; ring

/-- **C109, violated: a light made smaller shadows itself.** Sphere of radius `s < 1` alone in the scene, seen from
the point at distance `D·s` of its centre: the light sample in the direction of its nearest point, at distance
`(D - 1)·s`, is reported to be in the shadow as soon as `(D - 1)(1 - s)` exceeds the tolerance. -/
theorem C109_violated_dark (eps far err s D : ℝ) (hs : 0 < s) (hD : 1 < D) (he : eps ≤ D - 1)
    (hf : D - 1 ≤ far) (hd : err < (D - 1) * (1 - s)) (light : Occluder (Ray ℝ) ℝ)
    (hl : light.hit ⟨⟨0, 0, -(D * s)⟩, ⟨0, 0, 1⟩⟩ = some ((D - 1) * s)) :
    ∃ pdf d lit cache', sampleVisible (sized eps far s) ⟨0, 0, -1⟩ ⟨0, 0, -(D * s)⟩ = .sample ⟨0, 0, 1⟩ pdf d lit ∧
      isOccluded err [light] emptyCache 0 ⟨⟨0, 0, -(D * s)⟩, ⟨0, 0, 1⟩⟩ d = some (true, cache') ∧
      (0 ≤ err → ¬Occluded err [light] ⟨⟨0, 0, -(D * s)⟩, ⟨0, 0, 1⟩⟩ ((D - 1) * s)) := by
  obtain ⟨lit, e⟩ := sized_sample eps far s D hs hD he hf
  obtain ⟨b, c', e', -, hb⟩ := isOccluded_spec err [light] emptyCache (by intro n a h; cases h) 0 (by decide)
    ⟨⟨0, 0, -(D * s)⟩, ⟨0, 0, 1⟩⟩ (D - 1)
  refine ⟨_, _, lit, c', e, ?_, ?_⟩
  · rw [e', hb.mpr ⟨light, by simp, _, hl, by linarith⟩]
  · rintro h0 ⟨a, ha, d, h1, h2⟩
    rw [List.mem_singleton] at ha
    rw [ha, hl] at h1
    simp only [Option.some.injEq] at h1
    linarith

/-- With the tolerance of the program, `10⁻³`, and a light half the size, from twice its radius. -/
example (light : Occluder (Ray ℝ) ℝ) (hl : light.hit ⟨⟨0, 0, -(2 * (1 / 2))⟩, ⟨0, 0, 1⟩⟩ = some ((2 - 1) * (1 / 2))) :
    ∃ pdf d lit cache', sampleVisible (sized (1 / 100) 10000 (1 / 2)) ⟨0, 0, -1⟩ ⟨0, 0, -(2 * (1 / 2))⟩ =
        .sample ⟨0, 0, 1⟩ pdf d lit ∧
      isOccluded (1 / 1000) [light] emptyCache 0 ⟨⟨0, 0, -(2 * (1 / 2))⟩, ⟨0, 0, 1⟩⟩ d = some (true, cache') ∧
      (0 ≤ (1 / 1000 : ℝ) → ¬Occluded (1 / 1000) [light] ⟨⟨0, 0, -(2 * (1 / 2))⟩, ⟨0, 0, 1⟩⟩ ((2 - 1) * (1 / 2))) :=
  C109_violated_dark (1 / 100) 10000 (1 / 1000) (1 / 2) 2 (by norm_num) (by norm_num) (by norm_num)
    (by norm_num) (by norm_num) light hl

/-- **C109, violated: something in front of a light made larger is not noticed.** An asset at distance `d'` beyond
`D - 1` but in front of the light, which is at `(D - 1)·s`. -/
theorem C109_violated_missed (eps far err s D d' : ℝ) (hs : 0 < s) (hD : 1 < D) (he : eps ≤ D - 1)
    (hf : D - 1 ≤ far) (h0 : 0 ≤ err) (h1 : D - 1 ≤ d') (h2 : d' + err < (D - 1) * s)
    (light block : Occluder (Ray ℝ) ℝ)
    (hl : light.hit ⟨⟨0, 0, -(D * s)⟩, ⟨0, 0, 1⟩⟩ = some ((D - 1) * s))
    (hb : block.hit ⟨⟨0, 0, -(D * s)⟩, ⟨0, 0, 1⟩⟩ = some d') :
    ∃ pdf d lit cache', sampleVisible (sized eps far s) ⟨0, 0, -1⟩ ⟨0, 0, -(D * s)⟩ = .sample ⟨0, 0, 1⟩ pdf d lit ∧
      isOccluded err [light, block] emptyCache 0 ⟨⟨0, 0, -(D * s)⟩, ⟨0, 0, 1⟩⟩ d = some (false, cache') ∧
      Occluded err [light, block] ⟨⟨0, 0, -(D * s)⟩, ⟨0, 0, 1⟩⟩ ((D - 1) * s) := by
  obtain ⟨lit, e⟩ := sized_sample eps far s D hs hD he hf
  obtain ⟨b, c', e', -, hbb⟩ := isOccluded_spec err [light, block] emptyCache (by intro n a h; cases h) 0 (by decide)
    ⟨⟨0, 0, -(D * s)⟩, ⟨0, 0, 1⟩⟩ (D - 1)
  refine ⟨_, _, lit, c', e, ?_, block, by simp, d', hb, h2⟩
  cases b with
  | false => exact e'
  | true =>
    obtain ⟨a, ha, d, k1, k2⟩ := hbb.mp rfl
    simp only [List.mem_cons, List.not_mem_nil, or_false] at ha
    rcases ha with ha | ha
    · rw [ha, hl] at k1
      simp only [Option.some.injEq] at k1
      nlinarith
    · rw [ha, hb] at k1
      simp only [Option.some.injEq] at k1
      linarith

example (light block : Occluder (Ray ℝ) ℝ) (hl : light.hit ⟨⟨0, 0, -(2 * 2)⟩, ⟨0, 0, 1⟩⟩ = some ((2 - 1) * 2))
    (hb : block.hit ⟨⟨0, 0, -(2 * 2)⟩, ⟨0, 0, 1⟩⟩ = some (3 / 2)) :
    ∃ pdf d lit cache', sampleVisible (sized (1 / 100) 10000 2) ⟨0, 0, -1⟩ ⟨0, 0, -(2 * 2)⟩ =
        .sample ⟨0, 0, 1⟩ pdf d lit ∧
      isOccluded (1 / 1000) [light, block] emptyCache 0 ⟨⟨0, 0, -(2 * 2)⟩, ⟨0, 0, 1⟩⟩ d = some (false, cache') ∧
      Occluded (1 / 1000) [light, block] ⟨⟨0, 0, -(2 * 2)⟩, ⟨0, 0, 1⟩⟩ ((2 - 1) * 2) :=
  C109_violated_missed (1 / 100) 10000 (1 / 1000) 2 2 (3 / 2) (by norm_num) (by norm_num) (by norm_num)
    (by norm_num) (by norm_num) (by norm_num) (by norm_num) light block hl hb

/-! ### C110 -/

/-- What the two techniques of `direct_l` expect together for one direction, per unit of its contribution:
`actual` is the density with which the light is really sampled, `sampled` the density returned with the sample,
`evaluated` the density computed by `pdf`, `mat` the density of the material. -/
noncomputable def misTotal (actual sampled evaluated mat : ℝ) : ℝ :=
  actual * misLight sampled mat + mat * misBsdf mat evaluated

/-- **C110.** If the light reports the density it samples with, each direction that both techniques can produce
counts exactly once. -/
theorem C110_once_partial (p mat : ℝ) (hp : 0 < p) (hm : 0 < mat) : misTotal p p p mat = 1 := by
  unfold misTotal misLight misBsdf
  rw [if_pos ⟨hp, hm⟩, if_pos ⟨hm, hp.ne'⟩]
  field_simp
  ring

example : misTotal 2 2 2 (1 / 3) = 1 := C110_once_partial _ _ (by norm_num) (by norm_num)

/-- **C110.** No direction that the light cannot produce is counted by sampling the material, and none at all if
the light is not seen in that direction. -/
theorem C110_unseen (mat : ℝ) : misTotal 0 0 0 mat = 0 := by
  unfold misTotal misLight misBsdf
  simp

/-- **C110, violated for scaled lights.** With the densities of C107 for factor 2 a direction counts `2.2` times. -/
theorem C110_violated_scaled : misTotal 4 (4 / 2 ^ 2) (4 / 2) 1 = 11 / 5 := by
  unfold misTotal misLight misBsdf
  norm_num

/-- **C110, violated for spheres.** The light is sampled with density `near + other` (C108) and reports `near`:
every direction counts more than once. -/
theorem C110_violated_sphere (near other mat : ℝ) (hn : 0 < near) (ho : 0 < other) (hm : 0 < mat) :
    1 < misTotal (near + other) near near mat := by
  have e : misTotal (near + other) near near mat = misTotal near near near mat + other * misLight near mat := by
    unfold misTotal; ring
  rw [e, C110_once_partial near mat hn hm]
  have : 0 < misLight near mat := by
    unfold misLight
    rw [if_pos ⟨hn, hm⟩]
    positivity
  nlinarith [mul_pos ho this]

end Spectre.Light
