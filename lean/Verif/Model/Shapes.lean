import Verif.Model.Geom
import Mathlib.Data.Real.Sqrt

/-
Model of the sphere and box intersections (src/primitives/sphere.cpp, box.cpp), of the quadratic
equation solver (src/utility/utility.hpp) and of the point sampling on meshes, boxes and triangles
(src/primitives/mesh.cpp, box.cpp, triangle.cpp), in exact arithmetic.
-/

namespace Spectre.Shapes
open Spectre.Geom

/-! ### Sphere -/

/-- `equation2`, utility.hpp:289-312, over the reals; `none` is `return false`. -/
noncomputable def equation2 (a b c : ℝ) : Option (ℝ × ℝ) :=
  let delta := b * b - 4 * a * c
  if delta ≤ 0 ∧ 0 ≤ delta + 1 / 10000 then some (-b / (a * 2), -b / (a * 2))
  else if 0 ≤ delta then
    let q := if b < 0 then -(1 / 2) * (b - Real.sqrt delta) else -(1 / 2) * (b + Real.sqrt delta)
    some (q / a, c / q)
  else none

/-- The point given to the mask, sphere.cpp:102-105 and 122-125: moved off the axis. -/
noncomputable def shifted (eps : ℝ) (p : V3 ℝ) : V3 ℝ := if p.x = 0 ∧ p.y = 0 then ⟨eps, p.y, p.z⟩ else p

/-- `Sphere::intersect`, sphere.cpp:63-151.  `masked` is the answer of the mask for the hit at a (shifted)
point, of which the texture coordinates are a function.  The `NaN` put in `sol2` is `none`.  The result is
the new `*distance` and the unshifted point, from which the normal is taken. -/
noncomputable def sphereIntersect (eps : ℝ) (masked : V3 ℝ → Bool) (r : Ray ℝ) (distance : ℝ) :
    Option (ℝ × V3 ℝ) :=
  let a := dot r.d r.d
  let b := 2 * dot r.d r.o
  let c := dot r.o r.o - 1
  match equation2 a b c with
  | none => none
  | some (s1, s2) =>
    let (sol1, sol2) := if s2 < s1 then (s2, s1) else (s1, s2)
    if distance < sol1 then none
    else if sol1 < eps ∧ (sol2 < eps ∨ distance < sol2) then none
    else
      let (sol1, sol2) : ℝ × Option ℝ := if sol1 < eps then (sol2, none) else (sol1, some sol2)
      if masked (shifted eps (r.apply sol1)) = false then some (sol1, r.apply sol1)
      else
        match sol2 with
        | none => none
        | some s => if masked (shifted eps (r.apply s)) = false then some (s, r.apply s) else none

/-! ### Box -/

section
variable {K : Type} [Field K] [LinearOrder K] [IsStrictOrderedRing K]

/-- One slab of `Box::intersect`: the two parameters in order, box.cpp:67-71. -/
def slab (o d : K) : K × K :=
  let invr := 1 / d
  let near := (-o) * invr
  let far := (1 - o) * invr
  if far < near then (far, near) else (near, far)

/-- `sign`, utility.hpp:235-238. -/
def sgn (a : K) : K := if 0 ≤ a then 1 else -1

/-- Component of a vector, `operator[]`. -/
def V3.get (v : V3 K) (i : Nat) : K := if i = 0 then v.x else if i = 1 then v.y else v.z

/-- `Box::intersect`, box.cpp:58-132, for rays whose direction components are not zero (division by zero
is not modelled here).  `masked` is the answer of the mask, which here does not depend on the hit.  The
result: new distance, the axis of the normal and its sign. -/
def boxIntersect (eps : K) (masked : Bool) (r : Ray K) (distance : K) : Option (K × Nat × K) :=
  let sx := slab r.o.x r.d.x
  let sy := slab r.o.y r.d.y
  let (mint, axis) := if sx.1 < sy.1 then (sy.1, 1) else (sx.1, 0)
  let maxt := if sy.2 < sx.2 then sy.2 else sx.2
  if maxt < mint then none
  else
    let sz := slab r.o.z r.d.z
    let (mint, axis) := if mint < sz.1 then (sz.1, 2) else (mint, axis)
    let maxt := if sz.2 < maxt then sz.2 else maxt
    if maxt < mint then none
    else if eps < mint then
      if distance < mint ∨ masked = true then none
      else some (mint, axis, -sgn (V3.get r.d axis))
    else if eps < maxt then
      if distance < maxt ∨ masked = true then none
      else some (maxt, axis, -(-sgn (V3.get r.d axis)))
    else none

/-! ### Sampling points -/

/-- `lerp`, utility.hpp:192-195. -/
def lerp (v lo hi : K) : K := (1 - v) * lo + v * hi

/-- `inverse_lerp`, utility.hpp:207-210. -/
def inverseLerp (v lo hi : K) : K := (v - lo) / (hi - lo)

/-- `Box::get_densities_array`, box.cpp:134-143, from the scale of the transform. -/
def boxDensities (s : V3 K) : Fin 6 → K
  | 0 => s.x * s.y
  | 1 => s.x * s.y * 2
  | 2 => s.x * s.y * 2 + s.x * s.z
  | 3 => s.x * s.y * 2 + s.x * s.z + s.x * s.z
  | 4 => s.x * s.y * 2 + s.x * s.z + s.x * s.z + s.z * s.y
  | 5 => s.x * s.y * 2 + s.x * s.z + s.x * s.z + s.z * s.y + s.z * s.y

/-- `Box::surface(const Matrix4*)`, box.cpp:51-56. -/
def boxSurface (s : V3 K) : K :=
  let la := 2 * (s.x + s.z) * s.y
  la + 2 * s.x * s.z

/-- `Box::sample_point`, box.cpp:145-229: point and normal. -/
def boxSample (d : Fin 6 → K) (r0 r1 : K) : V3 K × V3 K :=
  let res := lerp r0 0 (d 5)
  if res < d 0 then (⟨inverseLerp res 0 (d 0), r1, 1⟩, ⟨0, 0, 1⟩)
  else if res < d 1 then (⟨inverseLerp (res - d 0) 0 (d 1 - d 0), r1, 0⟩, ⟨0, 0, -1⟩)
  else if res < d 2 then (⟨inverseLerp (res - d 1) 0 (d 2 - d 1), 0, r1⟩, ⟨0, -1, 0⟩)
  else if res < d 3 then (⟨inverseLerp (res - d 2) 0 (d 3 - d 2), 1, r1⟩, ⟨0, 1, 0⟩)
  else if res < d 4 then (⟨0, r1, inverseLerp (res - d 3) 0 (d 4 - d 3)⟩, ⟨-1, 0, 0⟩)
  else (⟨1, r1, inverseLerp (res - d 4) 0 (d 5 - d 4)⟩, ⟨1, 0, 0⟩)

/-- `Mesh::get_densities_array`, mesh.cpp:160-168, from the surfaces of the triangles. -/
def densities : K → List K → List K
  | _, [] => []
  | sum, s :: l => (sum + s) :: densities (sum + s) l

/-- Outcomes of the choice of a triangle in `Mesh::sample_point`. -/
inductive Pick (K : Type) where
  /-- triangle `index`, with the remapped random number -/
  | tri (index : Nat) (sample01 : K)
  /-- a read outside of the densities array -/
  | outOfBounds
  /-- the search goes on (out of fuel) -/
  | searching (start stop : Nat)

/-- The search loop, mesh.cpp:201-216, with at most `fuel` iterations. -/
def search (d : List K) (ext : K) : Nat → Nat → Nat → Pick K
  | 0, start, stop => .searching start stop
  | fuel + 1, start, stop =>
    let mid := (start + stop) / 2
    match d[mid]?, d[mid + 1]? with
    | some dm, some dn =>
      if dm ≤ ext ∧ ext < dn then .tri mid (inverseLerp (ext - dm) 0 (dn - dm))
      else if ext < dm then search d ext fuel start mid
      else search d ext fuel mid stop
    | _, _ => .outOfBounds

/-- `Mesh::sample_point`, mesh.cpp:170-217: the triangle and the number it is sampled with.
`densities[end-1]` with `end = 0` is out of bounds. -/
def meshPick (d : List K) (r0 : K) (fuel : Nat) : Pick K :=
  match d[0]?, d[d.length - 1]? with
  | some d0, some dl =>
    let ext := lerp r0 0 dl
    if ext < d0 then .tri 0 (inverseLerp ext 0 d0)
    else if d.length = 1 then .outOfBounds
    else
      match d[d.length - 2]? with
      | some dp =>
        if dp < ext then .tri (d.length - 1) (inverseLerp (ext - dp) 0 (dl - dp))
        else search d ext fuel 0 (d.length - 1)
      | none => .outOfBounds
  | _, _ => .outOfBounds

end

/-- `Triangle::sample_point`, triangle.cpp:124-135. -/
noncomputable def triSample (t : Tri ℝ) (r0 r1 : ℝ) : V3 ℝ :=
  let r0 := max 0 r0
  let sq := Real.sqrt r0
  let u := 1 - sq
  let v := r1 * sq
  let w := 1 - u - v
  ⟨u * t.a.x + v * t.b.x + w * t.c.x, u * t.a.y + v * t.b.y + w * t.c.y, u * t.a.z + v * t.b.z + w * t.c.z⟩

end Spectre.Shapes
