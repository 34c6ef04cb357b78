import Verif.Model.Frame
import Verif.Model.Shapes
import Mathlib.Analysis.SpecialFunctions.Complex.Arg
import Mathlib.Analysis.SpecialFunctions.Trigonometric.Inverse

/-
Model of the placement of a shape in the scene (src/parsers/config_driver.cpp, src/geometry/matrix4.cpp), of
the surface and of the parametrisation of the sphere (src/primitives/sphere.cpp), of the surfaces of the other
shapes and of the area lights (src/lights/area_light.cpp), in exact arithmetic.
-/

namespace Spectre.Light
open Spectre.Geom Spectre.Frame

/-! ### Placement -/

/-- `Matrix4::set_translation`, matrix4.cpp:114-132. -/
def translation (p : V3 ℝ) : M4 ℝ := ⟨1, 0, 0, p.x, 0, 1, 0, p.y, 0, 0, 1, p.z, 0, 0, 0, 1⟩

/-- `Matrix4::set_scale(Vec3)`, matrix4.cpp:154-172. -/
def scaling (s : V3 ℝ) : M4 ℝ := ⟨s.x, 0, 0, 0, 0, s.y, 0, 0, 0, 0, s.z, 0, 0, 0, 0, 1⟩

/-- `Matrix4::set_rotate_x`, matrix4.cpp:174-194. -/
noncomputable def rotateX (a : ℝ) : M4 ℝ :=
  ⟨1, 0, 0, 0, 0, Real.cos a, -Real.sin a, 0, 0, Real.sin a, Real.cos a, 0, 0, 0, 0, 1⟩

/-- `Matrix4::set_rotate_y`, matrix4.cpp:196-216. -/
noncomputable def rotateY (a : ℝ) : M4 ℝ :=
  ⟨Real.cos a, 0, Real.sin a, 0, 0, 1, 0, 0, -Real.sin a, 0, Real.cos a, 0, 0, 0, 0, 1⟩

/-- `Matrix4::set_rotate_z`, matrix4.cpp:218-238. -/
noncomputable def rotateZ (a : ℝ) : M4 ℝ :=
  ⟨Real.cos a, -Real.sin a, 0, 0, Real.sin a, Real.cos a, 0, 0, 0, 0, 1, 0, 0, 0, 0, 1⟩

/-- The matrix of an instance, config_driver.cpp:612-626. -/
noncomputable def placement (position rotation size : V3 ℝ) : M4 ℝ :=
  let r := mul (mul (rotateZ rotation.z) (rotateY rotation.y)) (rotateX rotation.x)
  mul (mul (translation position) r) (scaling size)

/-- `Vec3::length`. -/
noncomputable def len (v : V3 ℝ) : ℝ := Real.sqrt (dot v v)

/-- `Matrix4::get_scale`, matrix4.cpp:442-448. -/
noncomputable def getScale (m : M4 ℝ) : V3 ℝ :=
  ⟨len ⟨m.m00, m.m10, m.m20⟩, len ⟨m.m01, m.m11, m.m21⟩, len ⟨m.m02, m.m12, m.m22⟩⟩

/-! ### Surfaces -/

/-- `Sphere::surface(const Matrix4*)`, sphere.cpp:158-163. -/
noncomputable def sphereSurface (m : M4 ℝ) : ℝ :=
  let val := (getScale m).x
  4 * Real.pi * val * val

/-- `Triangle::surface()`, triangle.cpp:41-44. -/
noncomputable def triangleSurface (a b c : V3 ℝ) : ℝ := 1 / 2 * len (cross (sub b a) (sub c a))

/-- A point scaled by components, triangle.cpp:49-51. -/
def scaled (s p : V3 ℝ) : V3 ℝ := ⟨p.x * s.x, p.y * s.y, p.z * s.z⟩

/-- `Triangle::surface(const Matrix4*)`, triangle.cpp:46-53. -/
noncomputable def triangleSurfaceIn (m : M4 ℝ) (a b c : V3 ℝ) : ℝ :=
  let s := getScale m
  1 / 2 * len (cross (sub (scaled s b) (scaled s a)) (sub (scaled s c) (scaled s a)))

/-- `Box::surface(const Matrix4*)`, box.cpp:51-56. -/
noncomputable def boxSurfaceIn (m : M4 ℝ) : ℝ := Shapes.boxSurface (getScale m)

/-! ### Sphere -/

/-- `clamp(z, -1, 1)`, utility.hpp:172-180. -/
noncomputable def clamp1 (z : ℝ) : ℝ := if z < -1 then -1 else if 1 < z then 1 else z

/-- The texture coordinates and tangents written in a `HitPoint`. -/
structure Param where
  u : ℝ
  v : ℝ
  dpdu : V3 ℝ
  dpdv : V3 ℝ

/-- The azimuth, sphere.cpp:8-9; `atan2f(y, x)` is the argument of `x + iy`. -/
noncomputable def azimuth (p : V3 ℝ) : ℝ :=
  let phi := Complex.arg ⟨p.x, p.y⟩
  if phi < 0 then phi + 2 * Real.pi else phi

/-- `compute_uvs`, sphere.cpp:6-22; `none` is the division by zero on the axis (`invzrad` infinite, tangents
not a number). -/
noncomputable def computeUvs (p : V3 ℝ) : Option Param :=
  let theta := Real.arccos (clamp1 p.z)
  let thetamin := Real.pi
  let thetad := 0 - thetamin
  let zrad := Real.sqrt (p.x * p.x + p.y * p.y)
  if zrad = 0 then none
  else
    let cosphi := p.x * (1 / zrad)
    let sinphi := p.y * (1 / zrad)
    some ⟨azimuth p * (1 / (2 * Real.pi)), (theta - thetamin) * (1 / thetad),
      ⟨-(2 * Real.pi) * p.y, 2 * Real.pi * p.x, 0⟩,
      Frame.scale ⟨p.z * cosphi, p.z * sinphi, -Real.sin theta⟩ thetad⟩

/-- What `Sphere::intersect` writes for the hit at `p`, sphere.cpp:102-117, 122-134 and 144-145: the (shifted)
point, its parametrisation and the normal. -/
noncomputable def sphereHit (eps : ℝ) (p : V3 ℝ) : Option (V3 ℝ × Param × V3 ℝ) :=
  (computeUvs (Shapes.shifted eps p)).map fun h => (Shapes.shifted eps p, h, p)

/-- `Sphere::sample_point`, sphere.cpp:165-179 (point and normal have the same coordinates), and the direction
of `AreaLight::sample_surface`, area_light.cpp:37-42. -/
noncomputable def sphereSample (r0 r1 : ℝ) : V3 ℝ :=
  let z := 1 - 2 * r0
  let r := Real.sqrt (max 0 (1 - z * z))
  let phi := 2 * Real.pi * r1
  ⟨r * Real.cos phi, r * Real.sin phi, z⟩

/-! ### Area lights -/

/-- The intersection with the model of the light, in object space: ray and current distance; the result is the
new distance and the normal. -/
abbrev LightFn := Ray ℝ → ℝ → Option (ℝ × V3 ℝ)

/-- `Sphere::intersect` (never masked) with what a light reads, sphere.cpp:63-151. -/
noncomputable def sphereLight (eps : ℝ) : LightFn := fun r d => Shapes.sphereIntersect eps (fun _ => false) r d

/-- `class AreaLight`, area_light.hpp, with the matrices of its `Asset`.  `far` is `FLT_MAX`. -/
structure AreaLight where
  objToWorld : M4 ℝ
  worldToObj : M4 ℝ
  model : LightFn
  area : ℝ
  far : ℝ

/-- Squared distance of two points, area_light.cpp:93-95, 129-131. -/
def dist2 (p q : V3 ℝ) : ℝ := (p.x - q.x) * (p.x - q.x) + (p.y - q.y) * (p.y - q.y) + (p.z - q.z) * (p.z - q.z)

/-- Opposite vector. -/
def neg (v : V3 ℝ) : V3 ℝ := ⟨-v.x, -v.y, -v.z⟩

/-- Outcomes of `AreaLight::sample_visible_surface`. -/
inductive Visible where
  /-- a zero vector was normalised, or the model missed the ray and the fields of `hit` are read without having
  been written -/
  | undefined
  /-- infinite density: `pdf = 0` and black, area_light.cpp:97-102 -/
  | black
  /-- direction, density, distance and whether light is emitted in that direction -/
  | sample (wi : V3 ℝ) (pdf distance : ℝ) (lit : Prop)

/-- `AreaLight::sample_visible_surface`, area_light.cpp:57-114, from the point sampled on the model. -/
noncomputable def sampleVisible (l : AreaLight) (lightPoint pos : V3 ℝ) : Visible :=
  let o := mulPoint l.worldToObj pos
  match unit (sub lightPoint o) with
  | none => .undefined
  | some d =>
    match l.model ⟨o, d⟩ l.far with
    | none => .undefined
    | some (distance, normal) =>
      let lp := (Ray.mk o d).apply distance
      let den := |dot normal (neg d)| * l.area
      if den = 0 then .black
      else
        match unit (mulVec l.objToWorld d) with
        | none => .undefined
        | some wi => .sample wi (dist2 o lp / den) distance (0 < dot normal (neg d))

/-- `AreaLight::pdf(const Point3*, const Vec3*)`, area_light.cpp:116-134; `none` is the division by zero. -/
noncomputable def lightPdf (l : AreaLight) (p wi : V3 ℝ) : Option ℝ :=
  let ray := mulRay l.worldToObj ⟨p, wi⟩
  match l.model ray l.far with
  | none => some 0
  | some (distance, normal) =>
    let lp := ray.apply distance
    let den := |dot normal (neg ray.d)| * l.area
    if den = 0 then none else some (dist2 ray.o lp / den)

/-- `AreaLight::sample_surface`, area_light.cpp:28-55, from the point and normal sampled on the model: the ray
leaving the light and the density of the pair. -/
noncomputable def sampleSurface (l : AreaLight) (point n : V3 ℝ) (r2 r3 : ℝ) : Ray ℝ × ℝ :=
  let d := sphereSample r2 r3
  let d := if dot d n < 0 then neg d else d
  (mulRay l.objToWorld ⟨point, d⟩, 1 / l.area * (1 / (2 * Real.pi)))

/-! ### Direct light -/

/-- Factor of `bsdf_f*direct_l*absdot` for the direction sampled on the light, ray_tracer.cpp:34-46;
`lightpdf` comes from `sample_visible_surface`. -/
noncomputable def misLight (lightpdf bsdfpdf : ℝ) : ℝ :=
  if 0 < lightpdf ∧ 0 < bsdfpdf then
    lightpdf * lightpdf / (lightpdf * lightpdf + bsdfpdf * bsdfpdf) / lightpdf
  else 0

/-- Factor for the direction sampled by the material, ray_tracer.cpp:56-71; `lightpdf` comes from `pdf`. -/
noncomputable def misBsdf (bsdfpdf lightpdf : ℝ) : ℝ :=
  if 0 < bsdfpdf ∧ lightpdf ≠ 0 then
    bsdfpdf * bsdfpdf / (bsdfpdf * bsdfpdf + lightpdf * lightpdf) / bsdfpdf
  else 0

end Spectre.Light
