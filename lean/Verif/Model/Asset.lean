import Verif.Model.Shapes

/-
Model of the instances of shapes (src/primitives/asset.cpp): constructor and intersection.
-/

namespace Spectre.Asset
open Spectre.Geom

variable {K : Type} [Field K] [LinearOrder K] [IsStrictOrderedRing K]

/-- What a shape writes in a `HitPoint`, as far as it is used here: point and normal. -/
structure ShapeHit (K : Type) where
  dist : K
  point : V3 K
  normal : V3 K

/-- The intersection of a shape in its own space: ray, current distance. -/
abbrev ShapeFn (K : Type) := Ray K → K → Option (ShapeHit K)

/-- `class Asset`, asset.hpp:150-170: the two matrices.  `none` is a matrix that was never written
(`Matrix4() = default`, matrix4.hpp:86): its contents are indeterminate. -/
structure Asset (K : Type) where
  objToWorld : M4 K
  worldToObj : Option (M4 K)

/-- `Asset::Asset`, asset.cpp:8-17: the result of `inverse` is ignored, and `inverse` does not write its
output when it fails (matrix4.cpp:412-413). -/
def mk (eps : K) (m : M4 K) : Asset K := ⟨m, inverse eps m⟩

/-- Outcomes of `Asset::intersect`. -/
inductive Outcome (K : Type) where
  /-- a matrix with indeterminate contents was read -/
  | undefined
  | miss
  | hit (h : ShapeHit K)

/-- `Asset::intersect`, asset.cpp:29-50.  The normalisation of the normal and the tangents are not
modelled. -/
def intersect (a : Asset K) (shape : ShapeFn K) (r : Ray K) (distance : K) : Outcome K :=
  match a.worldToObj with
  | none => .undefined
  | some w =>
    match shape (mulRay w r) distance with
    | none => .miss
    | some h => .hit ⟨h.dist, mulPoint a.objToWorld h.point, transformNormal h.normal w⟩

/-- `Box::intersect` as a shape, box.cpp:116-123: point and normal from the distance and the axis. -/
def boxShape (eps : K) (masked : Bool) : ShapeFn K := fun r d =>
  (Shapes.boxIntersect eps masked r d).map fun h =>
    ⟨h.1, r.apply h.1,
      if h.2.1 = 0 then ⟨h.2.2, 0, 0⟩ else if h.2.1 = 1 then ⟨0, h.2.2, 0⟩ else ⟨0, 0, h.2.2⟩⟩

/-- `Triangle::intersect` as a shape, with the geometric normal (triangle.cpp:119-120 uses the
interpolated vertex normals, which are not modelled). -/
def triShape (eps : K) (masked : K × K → Bool) (t : Tri K) : ShapeFn K := fun r d =>
  (triIntersect eps masked t r d).map fun h => ⟨h.dist, h.point, cross (sub t.b t.a) (sub t.c t.a)⟩

/-- The tangents `dpdu`, `dpdv` of a triangle hit, triangle.cpp:89-102; `none` is the division by zero of
degenerate texture coordinates (the result is not finite; there is a TODO about it in the code). -/
def triTangents (t : Tri K) : Option (V3 K × V3 K) :=
  let d00 := t.ta.1 - t.tc.1
  let d01 := t.tb.1 - t.tc.1
  let d10 := t.ta.2 - t.tc.2
  let d11 := t.tb.2 - t.tc.2
  let uvdet := d00 * d11 - d01 * d10
  if uvdet = 0 then none
  else
    let inv := 1 / uvdet
    let ac := sub t.a t.c
    let bc := sub t.b t.c
    some (⟨(ac.x * d11 - bc.x * d10) * inv, (ac.y * d11 - bc.y * d10) * inv, (ac.z * d11 - bc.z * d10) * inv⟩,
      ⟨(bc.x * d00 - ac.x * d01) * inv, (bc.y * d00 - ac.y * d01) * inv, (bc.z * d00 - ac.z * d01) * inv⟩)

end Spectre.Asset
