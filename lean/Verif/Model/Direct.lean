import Verif.Model.Ieee
import Verif.Model.Geom

/-
Model of the numbers in the direct light in binary32: the sample of a light (src/lights/area_light.cpp) from
the point found on it, and the weights of light and material sampling (src/integrators/ray_tracer.cpp).
-/

namespace Spectre.Direct

open Spectre.Geom F32

/-- `Ray::apply`, ray.cpp:24-29. -/
def apply (o d : V3 F32) (t : F32) : V3 F32 :=
  ⟨add o.x (mul d.x t), add o.y (mul d.y t), add o.z (mul d.z t)⟩

/-- `dot`, vec3.hpp:767-772. -/
def fdot (a b : V3 F32) : F32 := add (add (mul a.x b.x) (mul a.y b.y)) (mul a.z b.z)

/-- `-v`, vec3.cpp:455-458. -/
def vneg (v : V3 F32) : V3 F32 := ⟨neg v.x, neg v.y, neg v.z⟩

/-- Square of the distance of two points, area_light.cpp:93-95. -/
def dist2 (o p : V3 F32) : F32 :=
  add (add (mul (sub o.x p.x) (sub o.x p.x)) (mul (sub o.y p.y) (sub o.y p.y))) (mul (sub o.z p.z) (sub o.z p.z))

/-- `FLT_MAX`. -/
def fltMax : F32 := num (2 ^ 128 - 2 ^ 104)

/-- The density, area_light.cpp:90-96: the point is taken at `distance` on the ray, `n` is `hit.normal_h`. -/
def density (o d : V3 F32) (distance : F32) (n : V3 F32) (area : F32) : F32 :=
  div (dist2 o (apply o d distance)) (mul (abs (fdot n (vneg d))) area)

/-- What the intersection with the model of the light says, area_light.cpp:75: distance and normal. -/
abbrev Hit := Option (F32 × V3 F32)

/-- Result of `sample_visible_surface`: one channel of the light, density and distance. -/
structure LightSample where
  light : F32
  pdf : F32
  distance : F32

/-- `sample_visible_surface`, area_light.cpp:61-118, without the directions, which are not changed by the
result of the intersection.  On a miss `distance` is still `FLT_MAX` and the normal that of a new `HitPoint`,
`Normal()`, vec3.cpp:486-491 (the shapes write both only if they return true, sphere.cpp:107-145,
triangle.cpp:106-121, box.cpp:113-121). -/
def sampleVisible (hit : Hit) (o d : V3 F32) (area c : F32) : LightSample :=
  let distance := match hit with | some (t, _) => t | none => fltMax
  let n := match hit with | some (_, n) => n | none => ⟨zero false, zero false, zero false⟩
  let pdf := density o d distance n area
  if pdf.isInf then ⟨zero false, zero false, fltMax⟩
  else ⟨if lt (zero false) (fdot n (vneg d)) then c else zero false, pdf, distance⟩

/-- Weight of a sample with density `a` against a strategy with density `b`, ray_tracer.cpp:42-43, 60. -/
def weight (a b : F32) : F32 := div (mul a a) (add (mul a a) (mul b b))

/-- What the light sample adds to the radiance if nothing is in the way, ray_tracer.cpp:34-47 (one channel;
`bsdf` is the value of the material, `bsdfpdf` its density, `cos` is `absdot(wi, *normal_s)`). -/
def lightTerm (s : LightSample) (bsdf bsdfpdf cos : F32) : F32 :=
  if lt (zero false) s.pdf && !s.light.isZero then
    if !bsdf.isZero && lt (zero false) bsdfpdf then
      div (mul (mul (mul bsdf s.light) cos) (weight s.pdf bsdfpdf)) s.pdf
    else zero false
  else zero false

end Spectre.Direct
