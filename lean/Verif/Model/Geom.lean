import Verif.Model.AABB
import Mathlib.Algebra.Order.Field.Basic
import Mathlib.Algebra.Order.AbsoluteValue.Basic

/-
Model of `src/geometry/matrix4.cpp`, `ray.cpp`, the vector operations of `vec3.hpp`/`point3.hpp`, and of
the shapes in `src/primitives/` (triangle, box, sphere bounding boxes), in exact arithmetic over an
ordered field `K`.
-/

namespace Spectre.Geom

/-- `Point3`, `Vec3`, `Normal`. -/
@[ext] structure V3 (K : Type) where
  x : K
  y : K
  z : K
deriving DecidableEq

/-- `class Matrix4`, matrix4.hpp. -/
@[ext] structure M4 (K : Type) where
  m00 : K
  m01 : K
  m02 : K
  m03 : K
  m10 : K
  m11 : K
  m12 : K
  m13 : K
  m20 : K
  m21 : K
  m22 : K
  m23 : K
  m30 : K
  m31 : K
  m32 : K
  m33 : K
deriving DecidableEq

variable {K : Type} [Field K] [LinearOrder K] [IsStrictOrderedRing K]

/-- `dot`, vec3.hpp. -/
def dot (a b : V3 K) : K := a.x * b.x + a.y * b.y + a.z * b.z

/-- `cross`, vec3.cpp / vec3.hpp. -/
def cross (a b : V3 K) : V3 K :=
  ⟨a.y * b.z - a.z * b.y, a.z * b.x - a.x * b.z, a.x * b.y - a.y * b.x⟩

/-- Differences of points. -/
def sub (a b : V3 K) : V3 K := ⟨a.x - b.x, a.y - b.y, a.z - b.z⟩

/-- `struct Ray`, ray.hpp. -/
structure Ray (K : Type) where
  o : V3 K
  d : V3 K

/-- `Ray::apply`, ray.cpp:24-29. -/
def Ray.apply (r : Ray K) (t : K) : V3 K := ⟨r.o.x + r.d.x * t, r.o.y + r.d.y * t, r.o.z + r.d.z * t⟩

/-- `set_identity`, matrix4.cpp:94-112. -/
def identity : M4 K where
  m00 := 1
  m01 := 0
  m02 := 0
  m03 := 0
  m10 := 0
  m11 := 1
  m12 := 0
  m13 := 0
  m20 := 0
  m21 := 0
  m22 := 1
  m23 := 0
  m30 := 0
  m31 := 0
  m32 := 0
  m33 := 1

/-- The 16 entries of `inv` in `Matrix4::inverse`, matrix4.cpp:297-407 (transcribed by script). -/
def inv (m : M4 K) : Nat → K
  | 0 => m.m11 * m.m22 * m.m33 - m.m11 * m.m23 * m.m32 - m.m21 * m.m12 * m.m33 + m.m21 * m.m13 * m.m32 + m.m31 * m.m12 * m.m23 - m.m31 * m.m13 * m.m22
  | 1 => -m.m01 * m.m22 * m.m33 + m.m01 * m.m23 * m.m32 + m.m21 * m.m02 * m.m33 - m.m21 * m.m03 * m.m32 - m.m31 * m.m02 * m.m23 + m.m31 * m.m03 * m.m22
  | 2 => m.m01 * m.m12 * m.m33 - m.m01 * m.m13 * m.m32 - m.m11 * m.m02 * m.m33 + m.m11 * m.m03 * m.m32 + m.m31 * m.m02 * m.m13 - m.m31 * m.m03 * m.m12
  | 3 => -m.m01 * m.m12 * m.m23 + m.m01 * m.m13 * m.m22 + m.m11 * m.m02 * m.m23 - m.m11 * m.m03 * m.m22 - m.m21 * m.m02 * m.m13 + m.m21 * m.m03 * m.m12
  | 4 => -m.m10 * m.m22 * m.m33 + m.m10 * m.m23 * m.m32 + m.m20 * m.m12 * m.m33 - m.m20 * m.m13 * m.m32 - m.m30 * m.m12 * m.m23 + m.m30 * m.m13 * m.m22
  | 5 => m.m00 * m.m22 * m.m33 - m.m00 * m.m23 * m.m32 - m.m20 * m.m02 * m.m33 + m.m20 * m.m03 * m.m32 + m.m30 * m.m02 * m.m23 - m.m30 * m.m03 * m.m22
  | 6 => -m.m00 * m.m12 * m.m33 + m.m00 * m.m13 * m.m32 + m.m10 * m.m02 * m.m33 - m.m10 * m.m03 * m.m32 - m.m30 * m.m02 * m.m13 + m.m30 * m.m03 * m.m12
  | 7 => m.m00 * m.m12 * m.m23 - m.m00 * m.m13 * m.m22 - m.m10 * m.m02 * m.m23 + m.m10 * m.m03 * m.m22 + m.m20 * m.m02 * m.m13 - m.m20 * m.m03 * m.m12
  | 8 => m.m10 * m.m21 * m.m33 - m.m10 * m.m23 * m.m31 - m.m20 * m.m11 * m.m33 + m.m20 * m.m13 * m.m31 + m.m30 * m.m11 * m.m23 - m.m30 * m.m13 * m.m21
  | 9 => -m.m00 * m.m21 * m.m33 + m.m00 * m.m23 * m.m31 + m.m20 * m.m01 * m.m33 - m.m20 * m.m03 * m.m31 - m.m30 * m.m01 * m.m23 + m.m30 * m.m03 * m.m21
  | 10 => m.m00 * m.m11 * m.m33 - m.m00 * m.m13 * m.m31 - m.m10 * m.m01 * m.m33 + m.m10 * m.m03 * m.m31 + m.m30 * m.m01 * m.m13 - m.m30 * m.m03 * m.m11
  | 11 => -m.m00 * m.m11 * m.m23 + m.m00 * m.m13 * m.m21 + m.m10 * m.m01 * m.m23 - m.m10 * m.m03 * m.m21 - m.m20 * m.m01 * m.m13 + m.m20 * m.m03 * m.m11
  | 12 => -m.m10 * m.m21 * m.m32 + m.m10 * m.m22 * m.m31 + m.m20 * m.m11 * m.m32 - m.m20 * m.m12 * m.m31 - m.m30 * m.m11 * m.m22 + m.m30 * m.m12 * m.m21
  | 13 => m.m00 * m.m21 * m.m32 - m.m00 * m.m22 * m.m31 - m.m20 * m.m01 * m.m32 + m.m20 * m.m02 * m.m31 + m.m30 * m.m01 * m.m22 - m.m30 * m.m02 * m.m21
  | 14 => -m.m00 * m.m11 * m.m32 + m.m00 * m.m12 * m.m31 + m.m10 * m.m01 * m.m32 - m.m10 * m.m02 * m.m31 - m.m30 * m.m01 * m.m12 + m.m30 * m.m02 * m.m11
  | _ => m.m00 * m.m11 * m.m22 - m.m00 * m.m12 * m.m21 - m.m10 * m.m01 * m.m22 + m.m10 * m.m02 * m.m21 + m.m20 * m.m01 * m.m12 - m.m20 * m.m02 * m.m11

/-- `det`, matrix4.cpp:409-410. -/
def det (m : M4 K) : K := m.m00 * inv m 0 + m.m01 * inv m 4 + m.m02 * inv m 8 + m.m03 * inv m 12

/-- `operator*(const Matrix4&)`, `operator*=` and `mul`, matrix4.cpp:538-622, 624-723, 847-928. -/
def mul (a b : M4 K) : M4 K where
  m00 := a.m00 * b.m00 + a.m01 * b.m10 + a.m02 * b.m20 + a.m03 * b.m30
  m01 := a.m00 * b.m01 + a.m01 * b.m11 + a.m02 * b.m21 + a.m03 * b.m31
  m02 := a.m00 * b.m02 + a.m01 * b.m12 + a.m02 * b.m22 + a.m03 * b.m32
  m03 := a.m00 * b.m03 + a.m01 * b.m13 + a.m02 * b.m23 + a.m03 * b.m33
  m10 := a.m10 * b.m00 + a.m11 * b.m10 + a.m12 * b.m20 + a.m13 * b.m30
  m11 := a.m10 * b.m01 + a.m11 * b.m11 + a.m12 * b.m21 + a.m13 * b.m31
  m12 := a.m10 * b.m02 + a.m11 * b.m12 + a.m12 * b.m22 + a.m13 * b.m32
  m13 := a.m10 * b.m03 + a.m11 * b.m13 + a.m12 * b.m23 + a.m13 * b.m33
  m20 := a.m20 * b.m00 + a.m21 * b.m10 + a.m22 * b.m20 + a.m23 * b.m30
  m21 := a.m20 * b.m01 + a.m21 * b.m11 + a.m22 * b.m21 + a.m23 * b.m31
  m22 := a.m20 * b.m02 + a.m21 * b.m12 + a.m22 * b.m22 + a.m23 * b.m32
  m23 := a.m20 * b.m03 + a.m21 * b.m13 + a.m22 * b.m23 + a.m23 * b.m33
  m30 := a.m30 * b.m00 + a.m31 * b.m10 + a.m32 * b.m20 + a.m33 * b.m30
  m31 := a.m30 * b.m01 + a.m31 * b.m11 + a.m32 * b.m21 + a.m33 * b.m31
  m32 := a.m30 * b.m02 + a.m31 * b.m12 + a.m32 * b.m22 + a.m33 * b.m32
  m33 := a.m30 * b.m03 + a.m31 * b.m13 + a.m32 * b.m23 + a.m33 * b.m33

/-- `inverse`, matrix4.cpp:412-434: `flt_equal(det,0)` with the tolerance `eps` of utility.hpp:222-225. -/
def inverse (eps : K) (m : M4 K) : Option (M4 K) :=
  if |det m - 0| ≤ eps then none
  else
    let d := 1 / det m
    some {
      m00 := inv m 0 * d
      m01 := inv m 1 * d
      m02 := inv m 2 * d
      m03 := inv m 3 * d
      m10 := inv m 4 * d
      m11 := inv m 5 * d
      m12 := inv m 6 * d
      m13 := inv m 7 * d
      m20 := inv m 8 * d
      m21 := inv m 9 * d
      m22 := inv m 10 * d
      m23 := inv m 11 * d
      m30 := inv m 12 * d
      m31 := inv m 13 * d
      m32 := inv m 14 * d
      m33 := inv m 15 * d }


/-- `transpose`, matrix4.cpp:273-291. -/
def transpose (m : M4 K) : M4 K :=
  ⟨m.m00, m.m10, m.m20, m.m30, m.m01, m.m11, m.m21, m.m31, m.m02, m.m12, m.m22, m.m32, m.m03, m.m13, m.m23, m.m33⟩

/-- `operator*(const Point3&)`, matrix4.cpp:765-782. -/
def mulPoint (m : M4 K) (p : V3 K) : V3 K :=
  let x := m.m00 * p.x + m.m01 * p.y + m.m02 * p.z + m.m03
  let y := m.m10 * p.x + m.m11 * p.y + m.m12 * p.z + m.m13
  let z := m.m20 * p.x + m.m21 * p.y + m.m22 * p.z + m.m23
  let w := m.m30 * p.x + m.m31 * p.y + m.m32 * p.z + m.m33
  if w = 1 then ⟨x, y, z⟩
  else
    let w := 1 / w
    ⟨x * w, y * w, z * w⟩

/-- `operator*(const Vec3&)`, matrix4.cpp:784-789. -/
def mulVec (m : M4 K) (v : V3 K) : V3 K :=
  ⟨m.m00 * v.x + m.m01 * v.y + m.m02 * v.z, m.m10 * v.x + m.m11 * v.y + m.m12 * v.z,
   m.m20 * v.x + m.m21 * v.y + m.m22 * v.z⟩

/-- `operator*(const Ray&)`, matrix4.cpp:791-796. -/
def mulRay (m : M4 K) (r : Ray K) : Ray K := ⟨mulPoint m r.o, mulVec m r.d⟩

/-- `transform_normal`, matrix4.cpp:800-805. -/
def transformNormal (n : V3 K) (i : M4 K) : V3 K :=
  ⟨i.m00 * n.x + i.m10 * n.y + i.m20 * n.z, i.m01 * n.x + i.m11 * n.y + i.m21 * n.z,
   i.m02 * n.x + i.m12 * n.y + i.m22 * n.z⟩

open AABB (fmin fmax)

/-- Componentwise `min`/`max` of points, point3.hpp:198-218. -/
def pmin (a b : V3 K) : V3 K := ⟨fmin a.x b.x, fmin a.y b.y, fmin a.z b.z⟩
def pmax (a b : V3 K) : V3 K := ⟨fmax a.x b.x, fmax a.y b.y, fmax a.z b.z⟩

/-- The coordinates of a point as the functions used by the bounding boxes. -/
def V3.f (p : V3 K) : Fin 3 → K := fun i => match i with | 0 => p.x | 1 => p.y | 2 => p.z

/-- Minimum and maximum of the transforms of the eight corners of a box: mesh.cpp:103-131 with `lo`, `hi`
the bounds; sphere.cpp:46-58 and box.cpp:24-36 with constant bounds. -/
def corners (m : M4 K) (lo hi : V3 K) : V3 K × V3 K :=
  let p0 := mulPoint m ⟨lo.x, lo.y, lo.z⟩
  let p1 := mulPoint m ⟨hi.x, lo.y, lo.z⟩
  let p2 := mulPoint m ⟨hi.x, hi.y, lo.z⟩
  let p3 := mulPoint m ⟨lo.x, hi.y, lo.z⟩
  let p4 := mulPoint m ⟨lo.x, lo.y, hi.z⟩
  let p5 := mulPoint m ⟨hi.x, lo.y, hi.z⟩
  let p6 := mulPoint m ⟨hi.x, hi.y, hi.z⟩
  let p7 := mulPoint m ⟨lo.x, hi.y, hi.z⟩
  (pmin (pmin (pmin (pmin (pmin (pmin (pmin p0 p1) p2) p3) p4) p5) p6) p7,
   pmax (pmax (pmax (pmax (pmax (pmax (pmax p0 p1) p2) p3) p4) p5) p6) p7)

/-- `AABB(pmi, pma)`, AABB.cpp:18-34. -/
def boxOf (c : V3 K × V3 K) : AABB.Box K := ⟨c.1.f, c.2.f⟩

/-- `Sphere::compute_AABB(const Matrix4*)`, sphere.cpp:34-61. -/
def sphereWorldBox (m : M4 K) : AABB.Box K := boxOf (corners m ⟨-1, -1, -1⟩ ⟨1, 1, 1⟩)

/-- `Box::compute_AABB(const Matrix4*)`, box.cpp:13-39. -/
def boxWorldBox (m : M4 K) : AABB.Box K := boxOf (corners m ⟨0, 0, 0⟩ ⟨1, 1, 1⟩)

/-- `class Triangle`, positions and texture coordinates of the vertices. -/
structure Tri (K : Type) where
  a : V3 K
  b : V3 K
  c : V3 K
  ta : K × K
  tb : K × K
  tc : K × K

/-- `Triangle::compute_AABB`, triangle.cpp:12-20. -/
def triBox (t : Tri K) : AABB.Box K := ⟨(pmin (pmin t.a t.b) t.c).f, (pmax (pmax t.a t.b) t.c).f⟩

/-- `Mesh::aabb` after `finalize`, mesh.cpp:73-78; the empty box the loop starts from is left out (its
union with a box is that box, `C24_empty_left`), so the mesh is given as a first triangle and the rest. -/
def meshBox (t : Tri K) (ts : List (Tri K)) : AABB.Box K :=
  ts.foldl (fun b t => AABB.engulf b (triBox t)) (triBox t)

/-- `Mesh::compute_AABB(const Matrix4*)`, mesh.cpp:94-133. -/
def meshWorldBox (m : M4 K) (t : Tri K) (ts : List (Tri K)) : AABB.Box K :=
  let b := meshBox t ts
  let c := corners m ⟨b.lo 0, b.lo 1, b.lo 2⟩ ⟨b.hi 0, b.hi 1, b.hi 2⟩
  boxOf (pmin c.1 c.2, pmax c.1 c.2)

/-- What an intersection writes: new distance, hit point, texture coordinates. -/
structure Hit (K : Type) where
  dist : K
  point : V3 K
  uv : K × K

/-- `Triangle::intersect`, triangle.cpp:55-122.  `masked uv` is the answer of `mask->is_masked`; the
derivatives `dpdu`, `dpdv` and the interpolated normal are not modelled.  `eps` is
`SELF_INTERSECT_ERROR`, settings.h:21.  `none` is `return false`. -/
def triIntersect (eps : K) (masked : K × K → Bool) (t : Tri K) (r : Ray K) (distance : K) : Option (Hit K) :=
  let ba := sub t.b t.a
  let ca := sub t.c t.a
  let pv := cross r.d ca
  let det := dot pv ba
  if det = 0 then none
  else
    let invdet := 1 / det
    let tv := sub r.o t.a
    let u := dot pv tv * invdet
    if u < 0 ∨ 1 < u then none
    else
      let qv := cross tv ba
      let v := dot r.d qv * invdet
      if v < 0 ∨ 1 < u + v then none
      else
        let dist := dot ca qv * invdet
        if dist < eps ∨ distance < dist then none
        else
          let w := 1 - u - v
          let uv := (w * t.ta.1 + u * t.tb.1 + v * t.tc.1, w * t.ta.2 + u * t.tb.2 + v * t.tc.2)
          if masked uv then none
          else some ⟨dist, r.apply dist, uv⟩

end Spectre.Geom
