import Verif.Model.Frame
import Verif.Model.Specular

/-
Model of the cameras (src/cameras/camera.cpp, camera_orthographic.cpp, camera_perspective.cpp, camera360.cpp) and
of `Matrix4::set_lookAt_inverse` (src/geometry/matrix4.cpp), over the reals and without rounding.

`normalize` is exact (the code leaves a vector whose squared length differs by less than 1E-5 from 1 as it is);
normalising the zero vector, dividing by zero and reading an uninitialised matrix are `none`.  Sizes of images
are natural numbers, as they are checked by the configuration (an `int` in the code).
-/

namespace Spectre.Camera

open Spectre.Geom Spectre.Frame
open Spectre.Specular (sdiv)

/-- `Vec3::is_normalized`, vec3.cpp:158-163. -/
def isNormalized (v : V3 ℝ) : Prop := 1 - 1 / 100000 < dot v v ∧ dot v v < 1 + 1 / 100000

open Classical in
/-- `newup`, matrix4.cpp:243-248. -/
noncomputable def upVector (up : V3 ℝ) : Option (V3 ℝ) := if isNormalized up then some up else unit up

/-- `Matrix4::set_lookAt_inverse`, matrix4.cpp:240-271. -/
noncomputable def lookAtInverse (pos eye up : V3 ℝ) : Option (M4 ℝ) := do
  let newup ← upVector up
  let dir ← unit (sub eye pos)
  let left ← unit (cross newup dir)
  let newup := cross dir left
  some ⟨left.x, newup.x, dir.x, pos.x, left.y, newup.y, dir.y, pos.y, left.z, newup.z, dir.z, pos.z, 0, 0, 0, 1⟩

/-- `bounds`, camera_orthographic.cpp:12-27 and camera_perspective.cpp:23-38. -/
noncomputable def bounds (width height : Nat) : ℝ × ℝ × ℝ × ℝ :=
  let aspect : ℝ := width / height
  if 1 < aspect then (-aspect, aspect, -1, 1) else (-1, 1, -1 / aspect, 1 / aspect)

/-- `raster2screen`, camera_orthographic.cpp:51-58 (with the entries left from lines 30-33) and
camera_perspective.cpp:40-57. -/
noncomputable def raster2screen (width height : Nat) : M4 ℝ :=
  let b := bounds width height
  ⟨(b.2.1 - b.1) / width, 0, 0, b.1, 0, (b.2.2.1 - b.2.2.2) / height, 0, b.2.2.2, 0, 0, 1, 0, 0, 0, 0, 1⟩

/-- `CameraOrthographic`: `camera2world`, `raster2world`, `dx`, `dy`. -/
structure Ortho where
  camera2world : M4 ℝ
  raster2world : M4 ℝ
  dx : V3 ℝ
  dy : V3 ℝ

/-- `screen2camera`, camera_orthographic.cpp:28-35 with `f=1`, `n=0`. -/
def orthoScreen : M4 ℝ := ⟨1, 0, 0, 0, 0, 1, 0, 0, 0, 0, 1 - 0, 0, 0, 0, 0, 1⟩

/-- `CameraOrthographic::CameraOrthographic`, camera_orthographic.cpp:6-67. -/
noncomputable def ortho (pos target up : V3 ℝ) (width height : Nat) : Option Ortho := do
  let c ← lookAtInverse pos target up
  let r2c := mul (mul identity orthoScreen) (raster2screen width height)
  some ⟨c, mul (mul c orthoScreen) (raster2screen width height), mulVec r2c ⟨1, 0, 0⟩, mulVec r2c ⟨0, -1, 0⟩⟩

/-- `CameraOrthographic::create_single_ray`, camera_orthographic.cpp:80-85. -/
noncomputable def orthoRay (c : Ortho) (x y : ℝ) : Ray ℝ :=
  ⟨mulPoint c.raster2world ⟨x, y, 0⟩, mulVec c.camera2world ⟨0, 0, 1⟩⟩

/-- `CameraOrthographic::create_ray`, camera_orthographic.cpp:69-78: the ray and its two neighbours. -/
noncomputable def orthoRays (c : Ortho) (x y : ℝ) : Ray ℝ × Ray ℝ × Ray ℝ :=
  let d := mulVec c.camera2world ⟨0, 0, 1⟩
  (⟨mulPoint c.raster2world ⟨x, y, 0⟩, d⟩,
   ⟨mulPoint c.raster2world ⟨x + c.dx.x, y + c.dx.y, c.dx.z⟩, d⟩,
   ⟨mulPoint c.raster2world ⟨x + c.dy.x, y + c.dy.y, c.dy.z⟩, d⟩)

/-- `CameraPerspective`: `camera2world`, `raster2camera`, `dx`, `dy`. -/
structure Persp where
  camera2world : M4 ℝ
  raster2camera : M4 ℝ
  dx : V3 ℝ
  dy : V3 ℝ

/-- `camera2screen`, camera_perspective.cpp:11-19, for `inv_aspect_ratio = k`. -/
noncomputable def perspScreen (k : ℝ) : M4 ℝ :=
  let f : ℝ := 1000
  let n : ℝ := 1 / 100
  ⟨k, 0, 0, 0, 0, k, 0, 0, 0, 0, f / (f - n), -f * n / (f - n), 0, 0, 1, 0⟩

/-- `CameraPerspective::CameraPerspective`, camera_perspective.cpp:6-63.  If the matrix is not inverted,
`screen2camera` is left uninitialised. -/
noncomputable def persp (pos target up : V3 ℝ) (width height : Nat) (fov : ℝ) : Option Persp := do
  let c ← lookAtInverse pos target up
  let k ← sdiv 1 (Real.tan (fov / 2))
  let s2c ← inverse (1 / 100000) (perspScreen k)
  let r2c := mul (mul identity s2c) (raster2screen width height)
  some ⟨c, r2c, sub (mulPoint r2c ⟨1, 0, 0⟩) (mulPoint r2c ⟨0, 0, 0⟩),
    sub (mulPoint r2c ⟨0, 1, 0⟩) (mulPoint r2c ⟨0, 0, 0⟩)⟩

/-- `CameraPerspective::create_single_ray`, camera_perspective.cpp:78-85. -/
noncomputable def perspRay (c : Persp) (x y : ℝ) : Option (Ray ℝ) := do
  let d ← unit (mulPoint c.raster2camera ⟨x, y, 0⟩)
  some ⟨mulPoint c.camera2world ⟨0, 0, 0⟩, mulVec c.camera2world d⟩

/-- `CameraPerspective::create_ray`, camera_perspective.cpp:65-76: the ray and its two neighbours. -/
noncomputable def perspRays (c : Persp) (x y : ℝ) : Option (Ray ℝ × Ray ℝ × Ray ℝ) := do
  let o := mulPoint c.camera2world ⟨0, 0, 0⟩
  let dir := mulPoint c.raster2camera ⟨x, y, 0⟩
  let d ← unit dir
  let dx ← unit (Frame.add dir c.dx)
  let dy ← unit (Frame.add dir c.dy)
  some (⟨o, mulVec c.camera2world d⟩, ⟨o, mulVec c.camera2world dx⟩, ⟨o, mulVec c.camera2world dy⟩)

/-- `ConfigDriver::build_camera`, config_driver.cpp:240-244: `fov` is the number in the file. -/
noncomputable def configured (pos target up : V3 ℝ) (width height : Nat) (fov : ℝ) : Option Persp :=
  persp pos target up width height fov

/-- `Camera360::create_single_ray`, camera360.cpp:6-24, in the space of the camera. -/
noncomputable def panorama (width height : Nat) (x y : ℝ) : V3 ℝ :=
  let theta := Real.pi * y * (1 / height)
  let phi := 2 * Real.pi * x * (1 / width)
  ⟨Real.sin theta * Real.cos phi, Real.cos theta, Real.sin theta * Real.sin phi⟩

/-- `Camera360::create_single_ray`, camera360.cpp:14-24. -/
noncomputable def panoramaRay (c : M4 ℝ) (width height : Nat) (x y : ℝ) : Option (Ray ℝ) := do
  let d ← unit (mulVec c (panorama width height x y))
  some ⟨mulPoint c ⟨0, 0, 0⟩, d⟩

/-- `Camera::create_ray` with offsets, camera.cpp:17-30, for a camera without its own (`Camera360`). -/
noncomputable def panoramaRays (c : M4 ℝ) (width height : Nat) (x y : ℝ) : Option (Ray ℝ × Ray ℝ × Ray ℝ) := do
  let r ← panoramaRay c width height x y
  let rx ← panoramaRay c width height (x + 1) y
  let ry ← panoramaRay c width height x (y + 1)
  some (r, rx, ry)

end Spectre.Camera
