import Verif.Model.FloatPlace
import Verif.Model.FloatBox

/-
Model in binary32 of what `Asset::intersect` does with the hit of a shape (src/primitives/asset.cpp).
`Model/Asset.lean` has the same code in exact arithmetic.
-/

namespace Spectre.FAsset

open Spectre.Geom Spectre.FPlace Spectre.FMat F32

/-- The members of `HitPoint` that `Asset::intersect` transforms, hit_point.hpp:19-31. -/
structure Hit where
  point : V3 F32
  normal : V3 F32
  dpdu : V3 F32
  dpdv : V3 F32

/-- Back to world space, asset.cpp:38-47.  `m` is `objToWorld` and `i` is `worldToObj`. -/
def world (m i : M4 F32) (h : Hit) : Hit where
  point := mulPoint m h.point
  normal := Normalize.normalize (transformNormal h.normal i)
  dpdu := Normalize.normalize (mulVec m h.dpdu)
  dpdv := Normalize.normalize (mulVec m h.dpdv)

/-- `Asset::intersect`, asset.cpp:28-50, for a shape that reports a distance and a hit. -/
def intersect (m i : M4 F32) (shape : V3 F32 → V3 F32 → F32 → Option (F32 × Hit)) (o d : V3 F32) (D : F32) :
    Option (F32 × Hit) :=
  (shape (objectRay i o d).1 (objectRay i o d).2 D).map fun h => (h.1, world m i h.2)

/-- `Box::intersect` as a shape, box.cpp:113-130: `dpdv` is not written, `before` is what it was. -/
def box (before : V3 F32) (o d : V3 F32) (D : F32) : Option (F32 × Hit) :=
  (FBox.intersect o d D).map fun h => (h.distance, ⟨h.point, h.normal, h.dpdu, before⟩)

/-- `Vec3::Vec3()`, vec3.cpp:8-13: the members of a new `HitPoint`. -/
def origin3 : V3 F32 := ⟨zip, zip, zip⟩

end Spectre.FAsset
