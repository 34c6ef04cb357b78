import Verif.Model.Geom
import Verif.Model.Texture
import Mathlib.Analysis.SpecialFunctions.Sqrt

/-
Model of the shading space (src/materials/shading_space.cpp), of the bump mappings (src/materials/bump.cpp,
src/textures/texture_normal.cpp, src/textures/texture_height.cpp) and of the ray differentials
(src/primitives/hit_point.cpp), over the reals and without rounding.

`normalize` is exact (the code leaves a vector whose squared length differs by less than 1E-5 from 1 as it
is); normalising the zero vector and dividing by zero, which give NaNs in the code, are `none`.
-/

namespace Spectre.Frame

open Spectre.Geom

/-- `v+w`, vec3.cpp:326-329. -/
def add (v w : V3 ℝ) : V3 ℝ := ⟨v.x + w.x, v.y + w.y, v.z + w.z⟩

/-- `v*c`, vec3.cpp. -/
def scale (v : V3 ℝ) (c : ℝ) : V3 ℝ := ⟨v.x * c, v.y * c, v.z * c⟩

/-- `Vec3::normalize`, vec3.cpp:135-156; `none` is the zero vector. -/
noncomputable def unit (v : V3 ℝ) : Option (V3 ℝ) :=
  if dot v v = 0 then none else some (scale v (1 / Real.sqrt (dot v v)))

/-- `class ShadingSpace`, shading_space.hpp:73-80. -/
structure Space where
  s : V3 ℝ
  t : V3 ℝ
  n : V3 ℝ

/-- `ShadingSpace::ShadingSpace`, shading_space.cpp:6-10. -/
noncomputable def ofHit (dpdu normal : V3 ℝ) : Option Space :=
  (unit (cross normal dpdu)).map fun t => ⟨dpdu, t, normal⟩

/-- `ShadingSpace::to_world`, shading_space.cpp:12-17. -/
noncomputable def toWorld (m : Space) (v : V3 ℝ) : Option (V3 ℝ) :=
  unit ⟨m.s.x * v.x + m.t.x * v.y + m.n.x * v.z, m.s.y * v.x + m.t.y * v.y + m.n.y * v.z,
    m.s.z * v.x + m.t.z * v.y + m.n.z * v.z⟩

/-- `ShadingSpace::to_shading`, shading_space.cpp:19-22. -/
noncomputable def toShading (m : Space) (v : V3 ℝ) : Option (V3 ℝ) := unit ⟨dot v m.s, dot v m.t, dot v m.n⟩

/-- The vector stored in a texel of a normal map, texture_normal.cpp:15-30. -/
noncomputable def texelVector (r g b : BitVec 8) : V3 ℝ :=
  ⟨r.toNat * (1 / 255) * 2 - 1, g.toNat * (1 / 255) * 2 - 1, b.toNat * (1 / 255) * 2 - 1⟩

/-- `TextureNormal::bump`, texture_normal.cpp:30-43, for the vector `v` of the texel: the matrix and the normal. -/
noncomputable def bumpNormal (dpdu dpdv normal v : V3 ℝ) : Option (Space × V3 ℝ) := do
  let on ← unit (cross dpdu dpdv)
  let ot ← unit (cross dpdu on)
  let w ← toWorld ⟨dpdu, ot, on⟩ v
  let n ← unit w
  let s ← unit (sub dpdu (scale n (dot n dpdu)))
  let t ← unit (cross n s)
  some (⟨s, t, n⟩, if dot n normal < 0 then scale n (-1) else n)

/-- `TextureHeight::gradient`, texture_height.cpp:13-60; `tex` is the selected channel of `map_value`, `du` and
`dv` are the differentials of the hit. -/
noncomputable def gradient (tex : ℝ × ℝ → BitVec 8) (uv du dv : ℝ × ℝ) : ℝ × ℝ :=
  let original : ℝ := (tex uv).toNat
  let eu := 1 / 2 * (|du.1| + |du.2|)
  let eu := if eu = 0 then 1 / 100 else eu
  let shiftedU : ℝ := (tex (uv.1 + eu, uv.2)).toNat
  let ev := 1 / 2 * (|dv.1| + |dv.2|)
  let ev := if ev = 0 then 1 / 100 else ev
  let shiftedV : ℝ := (tex (uv.1, uv.2 + ev)).toNat
  ((shiftedU - original) * (1 / 255) / eu, (shiftedV - original) * (1 / 255) / ev)

/-- `TextureHeight::bump`, texture_height.cpp:62-77, for the gradient `(u,v)`: the matrix and the normal. -/
noncomputable def bumpHeight (dpdu dpdv normal : V3 ℝ) (u v : ℝ) : Option (Space × V3 ℝ) := do
  let dpdu := add dpdu (scale normal (u - dot normal dpdu))
  let dpdv := add dpdv (scale normal (v - dot normal dpdv))
  let n ← unit (cross dpdu dpdv)
  let s ← unit (sub dpdu (scale n (dot dpdu n)))
  let t ← unit (cross n s)
  let n := if dot n normal < 0 then scale n (-1) else n
  some (⟨s, t, n⟩, n)

/-- The two axes used, hit_point.cpp:25-45. -/
noncomputable def axes (n : V3 ℝ) : Fin 3 × Fin 3 :=
  if |n.y| < |n.x| ∧ |n.z| < |n.x| then (1, 2) else if |n.z| < |n.y| then (0, 2) else (0, 1)

/-- Point where a differential ray meets the tangent plane, hit_point.cpp:10-20; `none` is a division by zero. -/
noncomputable def planeHit (p n : V3 ℝ) (r : Ray ℝ) : Option (V3 ℝ) :=
  let d := -dot n p
  if dot n r.d = 0 then none
  else some (r.apply (-(dot n r.o + d) / dot n r.d))

/-- Outcome of `calculate_differentials`: not finite, refused (`differentials=false`), or `du` and `dv`. -/
inductive Differentials where
  | undefined
  | refused
  | ok (du dv : ℝ × ℝ)

/-- `calculate_differentials`, hit_point.cpp:6-67. -/
noncomputable def differentials (p n dpdu dpdv : V3 ℝ) (rx ry : Ray ℝ) : Differentials :=
  match planeHit p n rx, planeHit p n ry with
  | some px, some py =>
    let a := axes n
    let a00 := dpdu.f a.1
    let a01 := dpdv.f a.1
    let a10 := dpdu.f a.2
    let a11 := dpdv.f a.2
    let bx0 := px.f a.1 - p.f a.1
    let bx1 := px.f a.2 - p.f a.2
    let by0 := py.f a.1 - p.f a.1
    let by1 := py.f a.2 - p.f a.2
    let det := a00 * a11 - a01 * a10
    if 1 / 100000 < |det| then
      let inv := 1 / det
      .ok ((a11 * bx0 - a01 * bx1) * inv, (a11 * by0 - a01 * by1) * inv)
        ((a00 * bx1 - a10 * bx0) * inv, (a00 * by1 - a10 * by0) * inv)
    else .refused
  | _, _ => .undefined

end Spectre.Frame
