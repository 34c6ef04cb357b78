import Verif.Model.FloatMaterial
import Verif.Model.FloatTriangle
import Verif.Model.Compare
import Verif.Model.Shapes

/-
Model in binary32 of the choice of points on lights: `Sphere`, `Triangle`, `Box` and `Mesh::sample_point` of src/primitives
with the arrays of densities of box.cpp and mesh.cpp, and of the density of emitted rays of src/lights/area_light.cpp.
`Model/Shapes.lean` and `Model/Light.lean` have the same code in exact arithmetic.  `cosf` and `sinf` are given as the two
numbers they return.
-/

namespace Spectre.FLight

open Spectre.Geom Spectre.FMat Spectre.FTri F32

/-- `lerp`, utility.hpp:192-195. -/
def lerp (v lo hi : F32) : F32 := add (F32.mul (sub one v) lo) (F32.mul v hi)

/-- `inverse_lerp`, utility.hpp:207-210. -/
def inverseLerp (v lo hi : F32) : F32 := div (sub v lo) (sub hi lo)

/-! ### Box -/

/-- `Box::get_densities_array`, box.cpp:134-143, from the scale of the transform. -/
def boxDensities (s : V3 F32) : Fin 6 → F32
  | 0 => F32.mul s.x s.y
  | 1 => F32.mul (F32.mul s.x s.y) two
  | 2 => add (F32.mul (F32.mul s.x s.y) two) (F32.mul s.x s.z)
  | 3 => add (add (F32.mul (F32.mul s.x s.y) two) (F32.mul s.x s.z)) (F32.mul s.x s.z)
  | 4 => add (add (add (F32.mul (F32.mul s.x s.y) two) (F32.mul s.x s.z)) (F32.mul s.x s.z)) (F32.mul s.z s.y)
  | 5 => add (add (add (add (F32.mul (F32.mul s.x s.y) two) (F32.mul s.x s.z)) (F32.mul s.x s.z)) (F32.mul s.z s.y)) (F32.mul s.z s.y)

/-- `Box::surface(const Matrix4*)`, box.cpp:51-56. -/
def boxSurface (s : V3 F32) : F32 :=
  add (F32.mul (F32.mul two (add s.x s.z)) s.y) (F32.mul (F32.mul two s.x) s.z)

/-- `Box::sample_point`, box.cpp:145-229: point and normal. -/
def boxSample (d : Fin 6 → F32) (r0 r1 : F32) : V3 F32 × V3 F32 :=
  let res := lerp r0 zip (d 5)
  if lt res (d 0) then (⟨inverseLerp res zip (d 0), r1, one⟩, ⟨zip, zip, one⟩)
  else if lt res (d 1) then (⟨inverseLerp (sub res (d 0)) zip (sub (d 1) (d 0)), r1, zip⟩, ⟨zip, zip, num (-1)⟩)
  else if lt res (d 2) then (⟨inverseLerp (sub res (d 1)) zip (sub (d 2) (d 1)), zip, r1⟩, ⟨zip, num (-1), zip⟩)
  else if lt res (d 3) then (⟨inverseLerp (sub res (d 2)) zip (sub (d 3) (d 2)), one, r1⟩, ⟨zip, one, zip⟩)
  else if lt res (d 4) then (⟨zip, r1, inverseLerp (sub res (d 3)) zip (sub (d 4) (d 3))⟩, ⟨num (-1), zip, zip⟩)
  else (⟨one, r1, inverseLerp (sub res (d 4)) zip (sub (d 5) (d 4))⟩, ⟨one, zip, zip⟩)

/-! ### Mesh -/

/-- `Mesh::get_densities_array`, mesh.cpp:160-168, from the surfaces of the triangles. -/
def densities : F32 → List F32 → List F32
  | _, [] => []
  | sum, s :: l => add sum s :: densities (add sum s) l

/-- `Mesh::surface`, mesh.cpp:145-153, from the surfaces of the triangles. -/
def meshSurface (l : List F32) : F32 := l.foldl add zip

/-- The search loop, mesh.cpp:201-211, with at most `fuel` iterations. -/
def search (d : List F32) (ext : F32) : Nat → Nat → Nat → Shapes.Pick F32
  | 0, start, stop => .searching start stop
  | fuel + 1, start, stop =>
    let mid := (start + stop) / 2
    match d[mid]?, d[mid + 1]? with
    | some dm, some dn =>
      if Compare.le dm ext && lt ext dn then .tri mid (inverseLerp (sub ext dm) zip (sub dn dm))
      else if lt ext dm then search d ext fuel start mid
      else search d ext fuel mid stop
    | _, _ => .outOfBounds

/-- `Mesh::sample_point`, mesh.cpp:170-217: the triangle and the number it is sampled with. -/
def meshPick (d : List F32) (r0 : F32) (fuel : Nat) : Shapes.Pick F32 :=
  match d[0]?, d[d.length - 1]? with
  | some d0, some dl =>
    let ext := lerp r0 zip dl
    if lt ext d0 then .tri 0 (inverseLerp ext zip d0)
    else if d.length = 1 then .outOfBounds
    else
      match d[d.length - 2]? with
      | some dp =>
        if lt dp ext then .tri (d.length - 1) (inverseLerp (sub ext dp) zip (sub dl dp))
        else search d ext fuel 0 (d.length - 1)
      | none => .outOfBounds
  | _, _ => .outOfBounds

/-! ### Triangle and sphere -/

/-- The three weights of `Triangle::sample_point`, triangle.cpp:124-128. -/
def weights (r0 r1 : F32) : F32 × F32 × F32 :=
  let sq := F32.sqrt (fmax zip r0)
  let u := sub one sq
  let v := F32.mul r1 sq
  (u, v, sub (sub one u) v)

/-- `Triangle::sample_point`, triangle.cpp:121-132: the point. -/
def triSample (a b c : V3 F32) (r0 r1 : F32) : V3 F32 :=
  let (u, v, w) := weights r0 r1
  ⟨add (add (F32.mul u a.x) (F32.mul v b.x)) (F32.mul w c.x), add (add (F32.mul u a.y) (F32.mul v b.y)) (F32.mul w c.y),
    add (add (F32.mul u a.z) (F32.mul v b.z)) (F32.mul w c.z)⟩

/-- `Sphere::sample_point`, sphere.cpp:165-179, and the direction of `AreaLight::sample_surface`, area_light.cpp:39-45; `cs` and
`sn` are `cosf` and `sinf` of `TWO_PI*r1`. -/
def sphereSample (r0 cs sn : F32) : V3 F32 :=
  let z := sub one (F32.mul two r0)
  let r := F32.sqrt (fmax zip (sub one (F32.mul z z)))
  ⟨F32.mul r cs, F32.mul r sn, z⟩

end Spectre.FLight
