import Verif.Model.FloatTriangle
import Verif.Model.FloatPlace

/-
Model in binary32 of the shading space (src/materials/shading_space.cpp), of the frame of the camera
(`Matrix4::set_lookAt_inverse`, src/geometry/matrix4.cpp) and of the directions of the rays of the cameras.  `Model/Frame.lean` and `Model/Camera.lean` have the same code in exact
arithmetic.  `sinf`, `cosf` and `tanf` are parameters.
-/

namespace Spectre.FFrame

open Spectre.Geom Spectre.FTri Spectre.Normalize F32

/-- `class ShadingSpace`, shading_space.hpp:73-80. -/
structure Space where
  s : V3 F32
  t : V3 F32
  n : V3 F32

/-- `ShadingSpace::ShadingSpace`, shading_space.cpp:6-10. -/
def ofHit (dpdu normal : V3 F32) : Space := ⟨dpdu, normalize (cross normal dpdu), normal⟩

/-- `ShadingSpace::to_world`, shading_space.cpp:12-17. -/
def toWorld (m : Space) (v : V3 F32) : V3 F32 :=
  normalize ⟨F32.add (F32.add (F32.mul m.s.x v.x) (F32.mul m.t.x v.y)) (F32.mul m.n.x v.z),
    F32.add (F32.add (F32.mul m.s.y v.x) (F32.mul m.t.y v.y)) (F32.mul m.n.y v.z),
    F32.add (F32.add (F32.mul m.s.z v.x) (F32.mul m.t.z v.y)) (F32.mul m.n.z v.z)⟩

/-- `ShadingSpace::to_shading`, shading_space.cpp:19-22. -/
def toShading (m : Space) (w : V3 F32) : V3 F32 := normalize ⟨dot w m.s, dot w m.t, dot w m.n⟩

/-- `newup`, matrix4.cpp:243-248. -/
def upVector (up : V3 F32) : V3 F32 := if isNormalized up then up else normalize up

/-- `Matrix4::set_lookAt_inverse`, matrix4.cpp:240-271. -/
def lookAtInverse (pos eye up : V3 F32) : M4 F32 :=
  let newup := upVector up
  let dir := normalize (vsub eye pos)
  let left := normalize (cross newup dir)
  let newup := cross dir left
  ⟨left.x, newup.x, dir.x, pos.x, left.y, newup.y, dir.y, pos.y, left.z, newup.z, dir.z, pos.z,
   zero false, zero false, zero false, num 1⟩

/-- `camera2world*Point3(0,0,0)`, camera_perspective.cpp:68, 81 and camera360.cpp:20: the origin of the rays. -/
def eyePoint (c : M4 F32) : V3 F32 := FPlace.mulPoint c ⟨zero false, zero false, zero false⟩

/-- `camera2world*normalize(d)`, camera_perspective.cpp:73-75, 84: the direction of a ray, for a vector `d` in the space of
the camera. -/
def eyeDirection (c : M4 F32) (d : V3 F32) : V3 F32 := FPlace.mulVec c (normalize d)

/-- The direction of the rays of the orthographic camera, camera_orthographic.cpp:75, 84. -/
def orthoDirection (c : M4 F32) : V3 F32 := FPlace.mulVec c ⟨zero false, zero false, num 1⟩

/-- The direction of `Camera360::create_single_ray`, camera360.cpp:21-23, for the values of `sinf(theta)`, `cosf(theta)`,
`sinf(phi)` and `cosf(phi)`. -/
def panoramaDirection (c : M4 F32) (st ct sp cp : F32) : V3 F32 :=
  normalize (FPlace.mulVec c ⟨F32.mul st cp, ct, F32.mul st sp⟩)

end Spectre.FFrame
