import Verif.Model.Normalize
import Verif.Model.Compare

/-
Model in binary32 of placing objects: the matrices of a placement (config_driver.cpp), their product, inverse and their
application to points, vectors and normals (matrix4.cpp), and the boxes of the placed sphere, box and triangle
(sphere.cpp, box.cpp, triangle.cpp).  `Model/Geom.lean` has the same code in exact arithmetic.  The sines and cosines of
the rotations are parameters.
-/

namespace Spectre.FPlace

open Spectre.Geom F32

/-- One coordinate of `Matrix4::operator*(const Point3&)`, matrix4.cpp:767-770: the sums are taken from the left. -/
def row (a b c t : F32) (p : V3 F32) : F32 :=
  F32.add (F32.add (F32.add (F32.mul a p.x) (F32.mul b p.y)) (F32.mul c p.z)) t

/-- `Matrix4::operator*(const Point3&)`, matrix4.cpp:765-782. -/
def mulPoint (m : M4 F32) (p : V3 F32) : V3 F32 :=
  let x := row m.m00 m.m01 m.m02 m.m03 p
  let y := row m.m10 m.m11 m.m12 m.m13 p
  let z := row m.m20 m.m21 m.m22 m.m23 p
  let w := row m.m30 m.m31 m.m32 m.m33 p
  if F32.eq w (num 1) then ⟨x, y, z⟩
  else
    let w := F32.div (num 1) w
    ⟨F32.mul x w, F32.mul y w, F32.mul z w⟩

/-- One coordinate of `Matrix4::operator*(const Vec3&)`. -/
def row3 (a b c : F32) (p : V3 F32) : F32 := F32.add (F32.add (F32.mul a p.x) (F32.mul b p.y)) (F32.mul c p.z)

/-- `Matrix4::operator*(const Vec3&)`, matrix4.cpp:784-789. -/
def mulVec (m : M4 F32) (p : V3 F32) : V3 F32 :=
  ⟨row3 m.m00 m.m01 m.m02 p, row3 m.m10 m.m11 m.m12 p, row3 m.m20 m.m21 m.m22 p⟩

/-- An entry of a product of matrices: a row times a column. -/
def dot4 (a b c d x y z w : F32) : F32 :=
  F32.add (F32.add (F32.add (F32.mul a x) (F32.mul b y)) (F32.mul c z)) (F32.mul d w)

/-- `Matrix4::operator*(const Matrix4&)`, matrix4.cpp:538-622. -/
def mulMat (a b : M4 F32) : M4 F32 where
  m00 := dot4 a.m00 a.m01 a.m02 a.m03 b.m00 b.m10 b.m20 b.m30
  m01 := dot4 a.m00 a.m01 a.m02 a.m03 b.m01 b.m11 b.m21 b.m31
  m02 := dot4 a.m00 a.m01 a.m02 a.m03 b.m02 b.m12 b.m22 b.m32
  m03 := dot4 a.m00 a.m01 a.m02 a.m03 b.m03 b.m13 b.m23 b.m33
  m10 := dot4 a.m10 a.m11 a.m12 a.m13 b.m00 b.m10 b.m20 b.m30
  m11 := dot4 a.m10 a.m11 a.m12 a.m13 b.m01 b.m11 b.m21 b.m31
  m12 := dot4 a.m10 a.m11 a.m12 a.m13 b.m02 b.m12 b.m22 b.m32
  m13 := dot4 a.m10 a.m11 a.m12 a.m13 b.m03 b.m13 b.m23 b.m33
  m20 := dot4 a.m20 a.m21 a.m22 a.m23 b.m00 b.m10 b.m20 b.m30
  m21 := dot4 a.m20 a.m21 a.m22 a.m23 b.m01 b.m11 b.m21 b.m31
  m22 := dot4 a.m20 a.m21 a.m22 a.m23 b.m02 b.m12 b.m22 b.m32
  m23 := dot4 a.m20 a.m21 a.m22 a.m23 b.m03 b.m13 b.m23 b.m33
  m30 := dot4 a.m30 a.m31 a.m32 a.m33 b.m00 b.m10 b.m20 b.m30
  m31 := dot4 a.m30 a.m31 a.m32 a.m33 b.m01 b.m11 b.m21 b.m31
  m32 := dot4 a.m30 a.m31 a.m32 a.m33 b.m02 b.m12 b.m22 b.m32
  m33 := dot4 a.m30 a.m31 a.m32 a.m33 b.m03 b.m13 b.m23 b.m33

/-- `Matrix4::set_translation`, matrix4.cpp:114-132. -/
def translation (v : V3 F32) : M4 F32 :=
  ⟨num 1, zero false, zero false, v.x, zero false, num 1, zero false, v.y, zero false, zero false, num 1, v.z,
   zero false, zero false, zero false, num 1⟩

/-- `Matrix4::set_scale(Vec3)`, matrix4.cpp:154-172. -/
def scale (v : V3 F32) : M4 F32 :=
  ⟨v.x, zero false, zero false, zero false, zero false, v.y, zero false, zero false, zero false, zero false, v.z, zero false,
   zero false, zero false, zero false, num 1⟩

/-- `Matrix4::set_rotate_x`, matrix4.cpp:174-194. -/
def rotateX (c s : F32) : M4 F32 :=
  ⟨num 1, zero false, zero false, zero false, zero false, c, neg s, zero false, zero false, s, c, zero false,
   zero false, zero false, zero false, num 1⟩

/-- `Matrix4::set_rotate_y`, matrix4.cpp:196-216. -/
def rotateY (c s : F32) : M4 F32 :=
  ⟨c, zero false, s, zero false, zero false, num 1, zero false, zero false, neg s, zero false, c, zero false,
   zero false, zero false, zero false, num 1⟩

/-- `Matrix4::set_rotate_z`, matrix4.cpp:218-238. -/
def rotateZ (c s : F32) : M4 F32 :=
  ⟨c, neg s, zero false, zero false, s, c, zero false, zero false, zero false, zero false, num 1, zero false,
   zero false, zero false, zero false, num 1⟩

/-- The cosine and the sine of an angle of the scene. -/
structure Angle where
  c : F32
  s : F32

/-- `transform`, config_driver.cpp:612-626. -/
def placement (position : V3 F32) (x y z : Angle) (size : V3 F32) : M4 F32 :=
  mulMat (mulMat (translation position) (mulMat (mulMat (rotateZ z.c z.s) (rotateY y.c y.s)) (rotateX x.c x.s))) (scale size)

/-- A product of three factors. -/
def mul3 (a b c : F32) : F32 := F32.mul (F32.mul a b) c

/-- The 16 entries of `inv` in `Matrix4::inverse`, matrix4.cpp:297-407 (transcribed by script). -/
def inv (m : M4 F32) : ℕ → F32
  | 0 => F32.sub (F32.add (F32.add (F32.sub (F32.sub (mul3 m.m11 m.m22 m.m33) (mul3 m.m11 m.m23 m.m32)) (mul3 m.m21
      m.m12 m.m33)) (mul3 m.m21 m.m13 m.m32)) (mul3 m.m31 m.m12 m.m23)) (mul3 m.m31 m.m13 m.m22)
  | 1 => F32.add (F32.sub (F32.sub (F32.add (F32.add (mul3 (neg m.m01) m.m22 m.m33) (mul3 m.m01 m.m23 m.m32)) (mul3
      m.m21 m.m02 m.m33)) (mul3 m.m21 m.m03 m.m32)) (mul3 m.m31 m.m02 m.m23)) (mul3 m.m31 m.m03 m.m22)
  | 2 => F32.sub (F32.add (F32.add (F32.sub (F32.sub (mul3 m.m01 m.m12 m.m33) (mul3 m.m01 m.m13 m.m32)) (mul3 m.m11
      m.m02 m.m33)) (mul3 m.m11 m.m03 m.m32)) (mul3 m.m31 m.m02 m.m13)) (mul3 m.m31 m.m03 m.m12)
  | 3 => F32.add (F32.sub (F32.sub (F32.add (F32.add (mul3 (neg m.m01) m.m12 m.m23) (mul3 m.m01 m.m13 m.m22)) (mul3
      m.m11 m.m02 m.m23)) (mul3 m.m11 m.m03 m.m22)) (mul3 m.m21 m.m02 m.m13)) (mul3 m.m21 m.m03 m.m12)
  | 4 => F32.add (F32.sub (F32.sub (F32.add (F32.add (mul3 (neg m.m10) m.m22 m.m33) (mul3 m.m10 m.m23 m.m32)) (mul3
      m.m20 m.m12 m.m33)) (mul3 m.m20 m.m13 m.m32)) (mul3 m.m30 m.m12 m.m23)) (mul3 m.m30 m.m13 m.m22)
  | 5 => F32.sub (F32.add (F32.add (F32.sub (F32.sub (mul3 m.m00 m.m22 m.m33) (mul3 m.m00 m.m23 m.m32)) (mul3 m.m20
      m.m02 m.m33)) (mul3 m.m20 m.m03 m.m32)) (mul3 m.m30 m.m02 m.m23)) (mul3 m.m30 m.m03 m.m22)
  | 6 => F32.add (F32.sub (F32.sub (F32.add (F32.add (mul3 (neg m.m00) m.m12 m.m33) (mul3 m.m00 m.m13 m.m32)) (mul3
      m.m10 m.m02 m.m33)) (mul3 m.m10 m.m03 m.m32)) (mul3 m.m30 m.m02 m.m13)) (mul3 m.m30 m.m03 m.m12)
  | 7 => F32.sub (F32.add (F32.add (F32.sub (F32.sub (mul3 m.m00 m.m12 m.m23) (mul3 m.m00 m.m13 m.m22)) (mul3 m.m10
      m.m02 m.m23)) (mul3 m.m10 m.m03 m.m22)) (mul3 m.m20 m.m02 m.m13)) (mul3 m.m20 m.m03 m.m12)
  | 8 => F32.sub (F32.add (F32.add (F32.sub (F32.sub (mul3 m.m10 m.m21 m.m33) (mul3 m.m10 m.m23 m.m31)) (mul3 m.m20
      m.m11 m.m33)) (mul3 m.m20 m.m13 m.m31)) (mul3 m.m30 m.m11 m.m23)) (mul3 m.m30 m.m13 m.m21)
  | 9 => F32.add (F32.sub (F32.sub (F32.add (F32.add (mul3 (neg m.m00) m.m21 m.m33) (mul3 m.m00 m.m23 m.m31)) (mul3
      m.m20 m.m01 m.m33)) (mul3 m.m20 m.m03 m.m31)) (mul3 m.m30 m.m01 m.m23)) (mul3 m.m30 m.m03 m.m21)
  | 10 => F32.sub (F32.add (F32.add (F32.sub (F32.sub (mul3 m.m00 m.m11 m.m33) (mul3 m.m00 m.m13 m.m31)) (mul3 m.m10
      m.m01 m.m33)) (mul3 m.m10 m.m03 m.m31)) (mul3 m.m30 m.m01 m.m13)) (mul3 m.m30 m.m03 m.m11)
  | 11 => F32.add (F32.sub (F32.sub (F32.add (F32.add (mul3 (neg m.m00) m.m11 m.m23) (mul3 m.m00 m.m13 m.m21)) (mul3
      m.m10 m.m01 m.m23)) (mul3 m.m10 m.m03 m.m21)) (mul3 m.m20 m.m01 m.m13)) (mul3 m.m20 m.m03 m.m11)
  | 12 => F32.add (F32.sub (F32.sub (F32.add (F32.add (mul3 (neg m.m10) m.m21 m.m32) (mul3 m.m10 m.m22 m.m31)) (mul3
      m.m20 m.m11 m.m32)) (mul3 m.m20 m.m12 m.m31)) (mul3 m.m30 m.m11 m.m22)) (mul3 m.m30 m.m12 m.m21)
  | 13 => F32.sub (F32.add (F32.add (F32.sub (F32.sub (mul3 m.m00 m.m21 m.m32) (mul3 m.m00 m.m22 m.m31)) (mul3 m.m20
      m.m01 m.m32)) (mul3 m.m20 m.m02 m.m31)) (mul3 m.m30 m.m01 m.m22)) (mul3 m.m30 m.m02 m.m21)
  | 14 => F32.add (F32.sub (F32.sub (F32.add (F32.add (mul3 (neg m.m00) m.m11 m.m32) (mul3 m.m00 m.m12 m.m31)) (mul3
      m.m10 m.m01 m.m32)) (mul3 m.m10 m.m02 m.m31)) (mul3 m.m30 m.m01 m.m12)) (mul3 m.m30 m.m02 m.m11)
  | _ => F32.sub (F32.add (F32.add (F32.sub (F32.sub (mul3 m.m00 m.m11 m.m22) (mul3 m.m00 m.m12 m.m21)) (mul3 m.m10
      m.m01 m.m22)) (mul3 m.m10 m.m02 m.m21)) (mul3 m.m20 m.m01 m.m12)) (mul3 m.m20 m.m02 m.m11)

/-- `det`, matrix4.cpp:409-410. -/
def det (m : M4 F32) : F32 :=
  F32.add (F32.add (F32.add (F32.mul m.m00 (inv m 0)) (F32.mul m.m01 (inv m 4))) (F32.mul m.m02 (inv m 8)))
    (F32.mul m.m03 (inv m 12))

/-- `EPSILON`, utility.hpp:28. -/
def epsilon : F32 := F32.round false (1 / 100000)

/-- `Matrix4::inverse`, matrix4.cpp:293-435; `flt_equal`, utility.hpp:222-225. -/
def inverse (m : M4 F32) : Option (M4 F32) :=
  if Compare.le (F32.abs (F32.sub (det m) (zero false))) epsilon then none
  else
    let d := F32.div (num 1) (det m)
    let e := fun i => F32.mul (inv m i) d
    some ⟨e 0, e 1, e 2, e 3, e 4, e 5, e 6, e 7, e 8, e 9, e 10, e 11, e 12, e 13, e 14, e 15⟩

/-- `min`, `max` of two numbers, utility.hpp:115-118, 129-132. -/
def smin (a b : F32) : F32 := if F32.lt a b then a else b
@[inherit_doc smin]
def smax (a b : F32) : F32 := if F32.lt b a then a else b

/-- `min`, `max` of two points, point3.hpp:198-202, 214-218. -/
def pmin (a b : V3 F32) : V3 F32 := ⟨smin a.x b.x, smin a.y b.y, smin a.z b.z⟩
@[inherit_doc pmin]
def pmax (a b : V3 F32) : V3 F32 := ⟨smax a.x b.x, smax a.y b.y, smax a.z b.z⟩

/-- A box: the lower and the upper corner. -/
structure Box where
  lo : V3 F32
  hi : V3 F32

/-- The box of the eight corners with the coordinates `l` and `h`, sphere.cpp:46-60 and box.cpp:24-38, in the order of the
code. -/
def corners (m : M4 F32) (l h : F32) : Box :=
  let p0 := mulPoint m ⟨l, l, l⟩
  let p1 := mulPoint m ⟨h, l, l⟩
  let p2 := mulPoint m ⟨h, h, l⟩
  let p3 := mulPoint m ⟨l, h, l⟩
  let p4 := mulPoint m ⟨l, l, h⟩
  let p5 := mulPoint m ⟨h, l, h⟩
  let p6 := mulPoint m ⟨h, h, h⟩
  let p7 := mulPoint m ⟨l, h, h⟩
  ⟨pmin (pmin (pmin (pmin (pmin (pmin (pmin p0 p1) p2) p3) p4) p5) p6) p7,
   pmax (pmax (pmax (pmax (pmax (pmax (pmax p0 p1) p2) p3) p4) p5) p6) p7⟩

/-- `Sphere::compute_AABB(const Matrix4*)`, sphere.cpp:34-61. -/
def sphereBox (m : M4 F32) : Box := corners m (num (-1)) (num 1)

/-- `Box::compute_AABB(const Matrix4*)`, box.cpp:13-39. -/
def boxBox (m : M4 F32) : Box := corners m (zero false) (num 1)

/-- `Triangle::compute_AABB(const Matrix4*)`, triangle.cpp:22-39. -/
def triangleBox (m : M4 F32) (a b c : V3 F32) : Box :=
  let p0 := mulPoint m a
  let p1 := mulPoint m b
  let p2 := mulPoint m c
  ⟨pmin (pmin p0 p1) p2, pmax (pmax p0 p1) p2⟩

/-- `transform_normal`, matrix4.cpp:800-805: the transposed inverse. -/
def transformNormal (n : V3 F32) (i : M4 F32) : V3 F32 :=
  ⟨row3 i.m00 i.m10 i.m20 n, row3 i.m01 i.m11 i.m21 n, row3 i.m02 i.m12 i.m22 n⟩

/-- The object ray of `Asset::intersect`, asset.cpp:32, matrix4.cpp:791-796. -/
def objectRay (i : M4 F32) (o d : V3 F32) : V3 F32 × V3 F32 := (mulPoint i o, mulVec i d)

end Spectre.FPlace
