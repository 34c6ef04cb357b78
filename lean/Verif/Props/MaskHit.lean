import Verif.Model.MaskHit
import Verif.Props.Texture

/-
C141: whether a masked point is hit depends on the ray and the scene.
-/

namespace Spectre.MaskHit

open Spectre.Img Spectre.Geom

/-- The mask does not look at differentials: there is no map, or the map is not filtered. -/
def Plain (m : Mask) : Prop := ∀ t, m.map = some t → t.unfiltered = true

theorem isMasked_plain {m : Mask} (hm : Plain m) (h h' : Diff) (uv : ℝ × ℝ) : isMasked m h uv = isMasked m h' uv := by
  unfold isMasked
  cases ht : m.map with
  | none => rfl
  | some t => simp only [mapValue, hm t ht, if_true]

theorem triangleHit_plain {m : Mask} (hm : Plain m) (eps : ℝ) (t : Tri ℝ) (h h' : Diff) (r : Ray ℝ) (d : ℝ) :
    triangleHit eps t m h r d = triangleHit eps t m h' r d := by
  unfold triangleHit
  cases triIntersect eps (fun _ => false) t r d with
  | none => rfl
  | some hit => simp only [isMasked_plain hm (triangleDiff h) (triangleDiff h')]

theorem worker_cons {eps d : ℝ} {s : Shot} {ss : List Shot} {h : Diff} {rs : List (Option (Hit ℝ))}
    (hw : worker eps d (s :: ss) h = some rs) : ∃ res h' rest, triangleHit eps s.tri s.mask h s.ray d = some res ∧
      worker eps d ss h' = some rest ∧ rs = res :: rest := by
  simp only [worker, Option.bind_eq_bind, Option.bind_eq_some_iff] at hw
  obtain ⟨res, h1, hw⟩ := hw
  cases res with
  | none =>
    simp only [Option.bind_some, Option.bind_eq_some_iff, Option.pure_def, Option.some.injEq] at hw
    obtain ⟨rest, h3, h4⟩ := hw
    exact ⟨none, h, rest, h1, h3, h4.symm⟩
  | some hit =>
    simp only [Option.bind_eq_some_iff, Option.pure_def, Option.some.injEq] at hw
    obtain ⟨h', _, rest, h3, h4⟩ := hw
    exact ⟨some hit, h', rest, h1, h3, h4.symm⟩

/-- **C141.** Without filtered masks, the hit of a ray is that of the ray on its own, whatever was rendered before, and
nothing uninitialised is read. -/
theorem C141_plain_partial (eps d : ℝ) (ss : List Shot) (hm : ∀ s ∈ ss, Plain s.mask) (h : Diff) (rs : List (Option (Hit ℝ)))
    (hw : worker eps d ss h = some rs) :
    ss.map (fun s => triangleHit eps s.tri s.mask {} s.ray d) = rs.map some := by
  induction ss generalizing h rs with
  | nil => simp only [worker, Option.some.injEq] at hw; subst hw; rfl
  | cons s ss ih =>
    obtain ⟨res, h', rest, h1, h3, h4⟩ := worker_cons hw
    subst h4
    simp only [List.map_cons]
    rw [ih (fun s' hs' => hm s' (by simp [hs'])) h' rest h3, triangleHit_plain (hm s (by simp)) eps s.tri {} h, h1]

/-- **C141.** Rays whose differentials are switched off (the later rays of the path tracer, path_tracer.cpp:65-66) look at
the map without differentials, whatever is in the other members. -/
theorem C141_secondary (m : Mask) (h h' : Diff) (hf : h.flag = some false) (hf' : h'.flag = some false) (uv : ℝ × ℝ) :
    isMasked m (triangleDiff h) uv = isMasked m (triangleDiff h') uv ∧
    isMasked m (triangleDiff h) uv = isMasked m (sphereDiff h') uv := by
  unfold isMasked
  cases m.map with
  | none => exact ⟨rfl, rfl⟩
  | some t => simp only [mapValue, triangleDiff, sphereDiff, hf, hf', and_self]

/-- **C141.** What such rays look at is the point of the map, with no extent. -/
theorem C141_point (m : Mask) (t : Image) (hm : m.map = some t) (h : Diff) (hf : h.flag = some false) (uv : ℝ × ℝ) (u v : ℝ)
    (hu : Tex.mapCoord uv.1 t.scale.1 t.shift.1 = some u) (hv : Tex.mapCoord uv.2 t.scale.2 t.shift.2 = some v) :
    isMasked m (triangleDiff h) uv = (t.filter u v 0 0 0 0).map fun p => !Tex.isVisible (some p) m.channel m.inverted := by
  unfold isMasked
  simp only [hm, mapValue, triangleDiff, hf, hu, hv, ite_self]

theorem triangleHit_off (eps : ℝ) (t : Tri ℝ) (m : Mask) (h h' : Diff) (hf : h.flag = some false)
    (hf' : h'.flag = some false) (r : Ray ℝ) (d : ℝ) : triangleHit eps t m h r d = triangleHit eps t m h' r d := by
  unfold triangleHit
  cases triIntersect eps (fun _ => false) t r d with
  | none => rfl
  | some hit => simp only [(C141_secondary m h h' hf hf' hit.uv).1]

theorem worker_off (eps d : ℝ) (ss : List Shot) (h h' : Diff) (hf : h.flag = some false) (hf' : h'.flag = some false) :
    worker eps d ss h = worker eps d ss h' := by
  induction ss generalizing h h' with
  | nil => rfl
  | cons s ss ih =>
    simp only [worker, triangleHit_off eps s.tri s.mask h h' hf hf' s.ray d]
    cases triangleHit eps s.tri s.mask h' s.ray d with
    | none => rfl
    | some res =>
      cases res with
      | none => simp only [Option.bind_eq_bind, Option.bind_some, ih h h' hf hf']
      | some hit =>
        cases hd : s.diff hit with
        | undefined => simp [hd, assign]
        | refused =>
          simp only [Option.bind_eq_bind, Option.bind_some, hd, assign]
          rw [ih { h with flag := some false } { h' with flag := some false } rfl rfl]
        | ok du dv => simp [hd, assign]

/-- **C141.** A ray without differentials (`calculate_differentials` refuses) clears what the rays before have left: what
the next rays hit does not depend on it. -/
theorem C141_refused (eps d : ℝ) (s : Shot) (ss : List Shot) (h h' : Diff) (hit : Hit ℝ)
    (h1 : triangleHit eps s.tri s.mask h s.ray d = some (some hit))
    (h2 : triangleHit eps s.tri s.mask h' s.ray d = some (some hit)) (hd : s.diff hit = .refused) :
    worker eps d (s :: ss) h = worker eps d (s :: ss) h' ∧
    worker eps d (s :: ss) h = (worker eps d ss ⟨none, none, some false⟩).map (some hit :: ·) := by
  have key : ∀ k : Diff, triangleHit eps s.tri s.mask k s.ray d = some (some hit) →
      worker eps d (s :: ss) k = (worker eps d ss ⟨none, none, some false⟩).map (some hit :: ·) := by
    intro k hk
    simp only [worker, hk, Option.bind_eq_bind, Option.bind_some, hd, assign]
    rw [worker_off eps d ss { k with flag := some false } ⟨none, none, some false⟩ rfl rfl]
    cases worker eps d ss ⟨none, none, some false⟩ <;> rfl
  exact ⟨by rw [key h h1, key h' h2], key h h1⟩

/-- **C141, violated.** With a filtered mask, the first ray of a worker, every shadow ray (occlusion_tester.cpp:15), every
ray to a light (area_light.cpp:75 and 121) and every ray of the material sampling (ray_tracer.cpp:65) that reaches the
triangle reads the uninitialised `differentials`. -/
theorem C141_violated_uninitialised (eps d : ℝ) (t : Tri ℝ) (m : Mask) (i : Image) (hm : m.map = some i)
    (hf : i.unfiltered = false) (r : Ray ℝ) (hit : Hit ℝ) (hr : triIntersect eps (fun _ => false) t r d = some hit) :
    triangleHit eps t m {} r d = none := by
  have h : mapValue i {} hit.uv = none := by
    unfold mapValue
    simp only [hf]
    split <;> simp
  unfold triangleHit
  simp only [hr, isMasked, hm, triangleDiff]
  rw [h]
  rfl

/-! A map of two by two texels, of which only the first is visible -/

def corner : Nat → Pixel := fun i => if i = 0 then 0xFFFFFFFF else 0

noncomputable def cornerMap : List (Nat × (Nat → Pixel)) := Tex.levels corner 2 2

theorem cornerMap_pyramid : Tex.pyramid corner 2 = some cornerMap := by
  have : 1 + Nat.log 2 2 = 2 := by decide
  simp [Tex.pyramid, this, cornerMap]

theorem cornerMap_length : cornerMap.length = 2 := rfl

/-- Small differentials: the texel itself. -/
theorem corner_small (a b c e : ℝ) (h : max (max |a| |b|) (max |c| |e|) ≤ 1 / 2) :
    Tex.trilinear cornerMap (1 / 4) (1 / 4) a b c e = some 0xFFFFFFFF := by
  have hle : Tex.footprint a b c e ≤ 1 / 2 := by
    unfold Tex.footprint
    exact max_le h (by norm_num)
  have hpos : 0 < Tex.footprint a b c e := lt_of_lt_of_le (by norm_num) (le_max_right _ _)
  have hlog : Real.logb 2 (Tex.footprint a b c e) ≤ -1 := by
    rw [Real.logb_le_iff_le_rpow (by norm_num) hpos]
    rw [Real.rpow_neg_one]
    linarith
  unfold Tex.trilinear Tex.trilinearAt
  rw [cornerMap_length, if_pos (by push_cast; linarith)]
  have := Tex.C70_centre cornerMap 0 2 corner rfl (by norm_num) 0 0 (by norm_num) (by norm_num)
  norm_num at this
  rw [this]
  rfl

/-- Large differentials: the mean of the map. -/
theorem corner_large (a b c e : ℝ) (h : 1 < max (max |a| |b|) (max |c| |e|)) :
    Tex.trilinear cornerMap (1 / 4) (1 / 4) a b c e = some 0x3F3F3F3F := by
  have hgt : 1 < Tex.footprint a b c e := lt_of_lt_of_le h (le_max_left _ _)
  have hlog : 0 < Real.logb 2 (Tex.footprint a b c e) := Real.logb_pos (by norm_num) hgt
  unfold Tex.trilinear Tex.trilinearAt
  rw [cornerMap_length, if_neg (by push_cast; linarith), if_pos (by push_cast; linarith)]
  decide

noncomputable def cornerImage : Image := { unfiltered := false, filter := fun u v a b c e => Tex.trilinear cornerMap u v a b c e }
noncomputable def cornerMask : Mask := { map := some cornerImage }

theorem quarter : Tex.mapCoord (1 / 4) 1 0 = some (1 / 4) := by
  unfold Tex.mapCoord Tex.wrapCoord
  rw [if_neg (by norm_num)]
  norm_num

theorem corner_masked (h : Diff) (du dv : ℝ × ℝ) (hf : h.flag = some true) (hu : h.du = some du) (hv : h.dv = some dv) :
    (max (max |du.1| |dv.1|) (max |du.2| |dv.2|) ≤ 1 / 2 → isMasked cornerMask h (1 / 4, 1 / 4) = some false) ∧
    (1 < max (max |du.1| |dv.1|) (max |du.2| |dv.2|) → isMasked cornerMask h (1 / 4, 1 / 4) = some true) := by
  have e : isMasked cornerMask h (1 / 4, 1 / 4) = (Tex.trilinear cornerMap (1 / 4) (1 / 4) du.1 dv.1 du.2 dv.2).map
      fun p => !Tex.isVisible (some p) 0 false := by
    simp only [isMasked, cornerMask, cornerImage, mapValue, quarter, hf, hu, hv, Tex.scaledDifferentials]
    simp
  constructor
  · intro hs
    rw [e, corner_small _ _ _ _ hs]
    decide
  · intro hl
    rw [e, corner_large _ _ _ _ hl]
    decide

theorem corner_inverted {h : Diff} {b : Bool} (hb : isMasked cornerMask h (1 / 4, 1 / 4) = some b) :
    isMasked { cornerMask with inverted := true } h (1 / 4, 1 / 4) = some (!b) := by
  simp only [isMasked, cornerMask, Option.map_eq_some_iff] at hb ⊢
  obtain ⟨p, hp, hb⟩ := hb
  refine ⟨p, hp, ?_⟩
  rw [← hb]
  simp [Tex.isVisible]

/-- The triangle of the witnesses, with its corners as coordinates of the texture. -/
def tri : Tri ℝ := ⟨⟨0, 0, 0⟩, ⟨1, 0, 0⟩, ⟨0, 1, 0⟩, (0, 0), (1, 0), (0, 1)⟩
noncomputable def ray : Ray ℝ := ⟨⟨1 / 4, 1 / 4, -1⟩, ⟨0, 0, 1⟩⟩

theorem tri_hit : triIntersect (1 / 100000) (fun _ => false) tri ray 1000 =
    some ⟨1, ⟨1 / 4, 1 / 4, 0⟩, (1 / 4, 1 / 4)⟩ := by
  simp only [triIntersect, tri, ray, Geom.sub, cross, dot, Ray.apply]
  norm_num

/-- **C141, violated.** The same ray at the same masked triangle hits or misses depending on the ray rendered before it
by the same worker (here: an object without mask, hit with differentials of 1/10 or of 2), hence on the schedule of the
jobs. -/
theorem C141_violated_stale : ∃ (before before' last : Shot) (hit : Hit ℝ),
    worker (1 / 100000) 1000 [before, last] {} = some [some hit, some hit] ∧
    worker (1 / 100000) 1000 [before', last] {} = some [some hit, none] := by
  refine ⟨⟨tri, {}, ray, fun _ => .ok (1 / 10, 0) (0, 1 / 10)⟩, ⟨tri, {}, ray, fun _ => .ok (2, 0) (0, 2)⟩,
    ⟨tri, cornerMask, ray, fun _ => .refused⟩, ⟨1, ⟨1 / 4, 1 / 4, 0⟩, (1 / 4, 1 / 4)⟩, ?_, ?_⟩
  · have h := (corner_masked (triangleDiff ⟨some (1 / 10, 0), some (0, 1 / 10), some true⟩) (1 / 10, 0) (1 / 10, 0) rfl rfl
      rfl).1 (by norm_num [abs_of_pos])
    simp only [worker, triangleHit, tri_hit, assign]
    simp only [isMasked, Option.map_some, Option.bind_eq_bind, Option.bind_some] at h ⊢
    simp only [Bool.false_eq_true, if_false, Option.bind_some, h, Option.map_some, Option.pure_def]
  · have h := (corner_masked (triangleDiff ⟨some (2, 0), some (0, 2), some true⟩) (2, 0) (2, 0) rfl rfl
      rfl).2 (by norm_num)
    simp only [worker, triangleHit, tri_hit, assign]
    simp only [isMasked, Option.map_some, Option.bind_eq_bind, Option.bind_some] at h ⊢
    simp only [Bool.false_eq_true, if_false, if_true, Option.bind_some, h, Option.map_some, Option.pure_def]

/-- **C141, violated.** A triangle gives its mask `du` in the place of `dv`: with the same differentials, a sphere is
masked at a point where a triangle is not, and the other way round when the mask is inverted. -/
theorem C141_violated_dv : ∃ (m m' : Mask) (uv : ℝ × ℝ) (h : Diff),
    isMasked m (triangleDiff h) uv = some false ∧ isMasked m (sphereDiff h) uv = some true ∧
    isMasked m' (triangleDiff h) uv = some true ∧ isMasked m' (sphereDiff h) uv = some false := by
  have h1 := (corner_masked ⟨some (0, 0), some (0, 0), some true⟩ (0, 0) (0, 0) rfl rfl rfl).1 (by norm_num)
  have h2 := (corner_masked ⟨some (0, 0), some (2, 2), some true⟩ (0, 0) (2, 2) rfl rfl rfl).2 (by norm_num)
  refine ⟨cornerMask, { cornerMask with inverted := true }, (1 / 4, 1 / 4), ⟨some (0, 0), some (2, 2), some true⟩, h1, h2,
    ?_, ?_⟩
  · exact corner_inverted h1
  · exact corner_inverted h2

example : Plain {} ∧ triangleHit (1 / 100000) tri {} {} ray 1000 = some (some ⟨1, ⟨1 / 4, 1 / 4, 0⟩, (1 / 4, 1 / 4)⟩) := by
  refine ⟨by intro t ht; simp at ht, ?_⟩
  simp only [triangleHit, tri_hit, isMasked, Option.map_some, Bool.false_eq_true, if_false]

example : ({ flag := some false } : Diff).flag = some false ∧
    isMasked cornerMask (triangleDiff { flag := some false }) (1 / 4, 1 / 4) = some false := by
  refine ⟨rfl, ?_⟩
  have h := corner_small 0 0 0 0 (by norm_num)
  simp only [isMasked, cornerMask, cornerImage, mapValue, quarter, triangleDiff, Bool.false_eq_true, if_false, h]
  decide

example : cornerMask.map = some cornerImage ∧ cornerImage.unfiltered = false ∧
    triangleHit (1 / 100000) tri cornerMask {} ray 1000 = none :=
  ⟨rfl, rfl, C141_violated_uninitialised _ _ _ _ cornerImage rfl rfl _ _ tri_hit⟩

end Spectre.MaskHit
