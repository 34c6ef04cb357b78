import Verif.Model.Texture
import Verif.Model.Geom
import Verif.Model.Frame

/-
Masked intersections and the differentials they look at: /repo/src/primitives/triangle.cpp:84-116, sphere.cpp:96-139,
/repo/src/textures/texture_image.cpp:59-92, mask_boolean.cpp:13-36, and the `HitPoint` that /repo/src/renderer.cpp:184
uses again for every primary ray.

Members that were never assigned are `none`; reading them is undefined, with `none` as result.  Real arithmetic.
-/

namespace Spectre.MaskHit

open Spectre.Img Spectre.Geom

/-- The members `du`, `dv` and `differentials` of `HitPoint`, hit_point.hpp:50-57; the struct has no constructor. -/
structure Diff where
  du : Option (ℝ × ℝ) := none
  dv : Option (ℝ × ℝ) := none
  flag : Option Bool := none

/-- `TextureImage`, texture_image.hpp:164-170; `filter` is the image map with its arguments in the order
`u, v, dudx, dvdx, dudy, dvdy`. -/
structure Image where
  unfiltered : Bool
  filter : ℝ → ℝ → ℝ → ℝ → ℝ → ℝ → Option Pixel
  scale : ℝ × ℝ := (1, 1)
  shift : ℝ × ℝ := (0, 0)

/-- `TextureImage::map_value`, texture_image.cpp:59-92. -/
noncomputable def mapValue (t : Image) (h : Diff) (uv : ℝ × ℝ) : Option Pixel :=
  match Tex.mapCoord uv.1 t.scale.1 t.shift.1, Tex.mapCoord uv.2 t.scale.2 t.shift.2 with
  | some u, some v =>
    if t.unfiltered then t.filter u v 0 0 0 0
    else
      match h.flag with
      | none => none
      | some false => t.filter u v 0 0 0 0
      | some true =>
        match h.du, h.dv with
        | some du, some dv =>
          let d := Tex.scaledDifferentials du dv t.scale
          t.filter u v d.1 d.2.1 d.2.2.1 d.2.2.2
        | _, _ => none
  | _, _ => none

/-- `MaskBoolean`, mask_boolean.hpp. -/
structure Mask where
  map : Option Image := none
  channel : Fin 4 := 0
  inverted : Bool := false

/-- `MaskBoolean::is_masked`, mask_boolean.cpp:13-36. -/
noncomputable def isMasked (m : Mask) (h : Diff) (uv : ℝ × ℝ) : Option Bool :=
  match m.map with
  | none => some false
  | some t => (mapValue t h uv).map fun p => !Tex.isVisible (some p) m.channel m.inverted

/-- The differentials that `Triangle::intersect` gives to the mask, triangle.cpp:103-105. -/
def triangleDiff (h : Diff) : Diff := { du := h.du, dv := h.du, flag := h.flag }

/-- The differentials that `Sphere::intersect` gives to the mask, sphere.cpp:106-108. -/
def sphereDiff (h : Diff) : Diff := { du := h.du, dv := h.dv, flag := h.flag }

/-- `Triangle::intersect`, triangle.cpp:55-122: the mask is asked last, line 106. -/
noncomputable def triangleHit (eps : ℝ) (t : Tri ℝ) (m : Mask) (h : Diff) (r : Ray ℝ) (distance : ℝ) :
    Option (Option (Hit ℝ)) :=
  match triIntersect eps (fun _ => false) t r distance with
  | none => some none
  | some hit => (isMasked m (triangleDiff h) hit.uv).map fun b => if b then none else some hit

/-- A primary ray: the triangle it is tested against, its mask, the ray, and what `calculate_differentials` finds. -/
structure Shot where
  tri : Tri ℝ
  mask : Mask
  ray : Ray ℝ
  diff : Hit ℝ → Frame.Differentials

/-- `calculate_differentials`, hit_point.cpp:6-67, on the members of the hit; results that are not finite are undefined. -/
def assign (h : Diff) : Frame.Differentials → Option Diff
  | .undefined => none
  | .refused => some { h with flag := some false }
  | .ok du dv => some ⟨some du, some dv, some true⟩

/-- The primary rays of one worker, renderer.cpp:184 and 223-240: every ray finds `h` as the rays before have left it. -/
noncomputable def worker (eps distance : ℝ) : List Shot → Diff → Option (List (Option (Hit ℝ)))
  | [], _ => some []
  | s :: ss, h => do
    let res ← triangleHit eps s.tri s.mask h s.ray distance
    let h' ← match res with
      | none => some h
      | some hit => assign h (s.diff hit)
    let rest ← worker eps distance ss h'
    pure (res :: rest)

end Spectre.MaskHit
