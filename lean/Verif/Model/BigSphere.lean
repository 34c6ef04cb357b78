import Verif.Model.Asset

/-
The sphere as the shape of an instance (src/primitives/sphere.cpp).
-/

namespace Spectre.BigSphere
open Spectre.Geom

/-- `Sphere::intersect` as a shape, sphere.cpp:102-118, 138-141: the point is moved off the axis, the normal is the
unmoved point.  The intersection itself is `Shapes.sphereIntersect`. -/
noncomputable def sphereShape (eps : ℝ) (masked : V3 ℝ → Bool) : Asset.ShapeFn ℝ := fun r d =>
  (Shapes.sphereIntersect eps masked r d).map fun h => ⟨h.1, Shapes.shifted eps h.2, h.2⟩

end Spectre.BigSphere
