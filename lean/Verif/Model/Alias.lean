import Verif.Model.Ieee
import Mathlib.Logic.Function.Basic
import Mathlib.Data.List.Basic

/-
Model of the operations on vectors and matrices that write through a reference or a pointer while they read through others
(src/geometry/vec2.cpp, vec3.cpp, point3.cpp, matrix4.cpp), on a memory of binary32 numbers, so that arguments may be the same
object.  An object is the address of its first member; `Vec2` and `Point2` have two, `Vec3`, `Point3` and `Normal` three and
`Matrix4` sixteen members, in the order of their names.
-/

namespace Spectre.Alias

open F32

/-- The memory, one number per address. -/
abbrev Mem := ℕ → F32

/-- An assignment: where to, and the value of the right side. -/
abbrev Write := ℕ × (Mem → F32)

/-- Assignments one after the other. -/
def run : List Write → Mem → Mem
  | [], m => m
  | (d, e) :: l, m => run l (Function.update m d (e m))

/-- Assignments to the `n` members of `o`. -/
def members (n o : ℕ) (e : ℕ → Mem → F32) : List Write := (List.range n).map fun i => (o + i, e i)

/-- `a op= b` for two objects: vec2.cpp:180-184, 202-206, 224-228, 260-271, vec3.cpp:336-341, 360-365, 384-389, 422-434 (and
for `Normal` 730-735, 754-759, 778-783, 816-828), point2.cpp:63-67, 79-83, point3.cpp:76-81, 93-98, matrix4.cpp:498-536.
`f` is the operation.  The debug build refuses to divide by zero; the release build is modelled. -/
def compound (f : F32 → F32 → F32) (n a b : ℕ) : Mem → Mem :=
  run (members n a fun i m => f (m (a + i)) (m (b + i)))

/-- `sum` and `sub`, matrix4.cpp:807-845. -/
def combine (f : F32 → F32 → F32) (a b o : ℕ) : Mem → Mem :=
  run (members 16 o fun i m => f (m (a + i)) (m (b + i)))

/-- One member in `clamp`; nothing is written where nothing is assigned. -/
def clamp1 (v lo hi : F32) : F32 := if F32.lt v lo then lo else if F32.lt hi v then hi else v

/-- `clamp`, vec2.cpp:106-113, vec3.cpp:180-196, 648-658. -/
def clamp (n a lo hi : ℕ) : Mem → Mem :=
  run (members n a fun i m => clamp1 (m (a + i)) (m (lo + i)) (m (hi + i)))

/-- One member in `max` and `min` of a vector, vec3.cpp:213-216, 236-239. -/
def pick (before : F32 → F32 → Bool) (x y : F32) : F32 := if before x y then x else y

/-- `max` and `min` of vectors, vec2.cpp:136-166, vec3.cpp:210-254, 672-716: all members are computed before the first is
written. -/
def extreme (before : F32 → F32 → Bool) (n a b : ℕ) (m : Mem) : Mem :=
  run (members n a fun i _ => pick before (m (a + i)) (m (b + i))) m

/-- `max` and `min` of points, point2.cpp:40-54, point3.cpp:44-62: members are written one after the other. -/
def pointExtreme (before : F32 → F32 → Bool) (n a b : ℕ) : Mem → Mem :=
  run (members n a fun i m => pick before (m (b + i)) (m (a + i)))

/-- `Vec3::dot`, vec3.cpp:92-100. -/
def dot (a b : ℕ) (m : Mem) : F32 :=
  F32.add (F32.add (F32.mul (m a) (m b)) (F32.mul (m (a + 1)) (m (b + 1)))) (F32.mul (m (a + 2)) (m (b + 2)))

/-- `Vec3::reflect`, vec3.cpp:256-278. -/
def reflect (a c : ℕ) (m : Mem) : Mem :=
  let d := dot a c m
  run (members 3 a fun i m => F32.sub (m (a + i)) (F32.mul (F32.mul (num 2) d) (m (c + i)))) m

/-- `max(0.f, f)` of utility.hpp:129-132. -/
def positive (f : F32) : F32 := if F32.lt f (zero false) then zero false else f

/-- The factor `cosi*eta-cost` of `Vec3::refract`, or nothing if the reflection is total, vec3.cpp:286-297. -/
def refractFactor (sqrt : F32 → F32) (cosi eta : F32) : Option F32 :=
  let sin2i := positive (F32.sub (num 1) (F32.mul cosi cosi))
  let sin2t := F32.mul (F32.mul sin2i eta) eta
  if F32.lt (num 1) sin2t then none else some (F32.sub (F32.mul cosi eta) (sqrt (F32.sub (num 1) sin2t)))

/-- `Vec3::refract`, vec3.cpp:280-322: `*this = -*this*eta` and then `*this += interface*factor`, where the product is a new
vector. -/
def refract (sqrt : F32 → F32) (a c : ℕ) (eta : F32) (m : Mem) : Mem :=
  match refractFactor sqrt (dot a c m) eta with
  | none => m
  | some k =>
    let m' := run (members 3 a fun i _ => F32.mul (neg (m (a + i))) eta) m
    run (members 3 a fun i m => F32.add (m (a + i)) (F32.mul (m' (c + i)) k)) m'

/-- The members of a cross product. -/
def crossAt (a b : ℕ) (m : Mem) : ℕ → F32
  | 0 => F32.sub (F32.mul (m (a + 1)) (m (b + 2))) (F32.mul (m (a + 2)) (m (b + 1)))
  | 1 => F32.sub (F32.mul (m (a + 2)) (m b)) (F32.mul (m a) (m (b + 2)))
  | _ => F32.sub (F32.mul (m a) (m (b + 1))) (F32.mul (m (a + 1)) (m b))

/-- `Vec3::cross(target, output)`, vec3.cpp:121-126. -/
def cross (a b o : ℕ) : Mem → Mem := run (members 3 o fun i m => crossAt a b m i)

/-- `Matrix4::transpose`, matrix4.cpp:273-291. -/
def transpose (a o : ℕ) : Mem → Mem := run (members 16 o fun i m => m (a + 4 * (i % 4) + i / 4))

/-- A member of the product of two matrices, matrix4.cpp:541-544, the other fifteen 546-619. -/
def productAt (a b : ℕ) (m : Mem) (i : ℕ) : F32 :=
  let t k := F32.mul (m (a + 4 * (i / 4) + k)) (m (b + 4 * k + i % 4))
  F32.add (F32.add (F32.add (t 0) (t 1)) (t 2)) (t 3)

/-- `mul`, matrix4.cpp:847-928. -/
def mul (a b o : ℕ) : Mem → Mem := run (members 16 o fun i m => productAt a b m i)

/-- `Matrix4::operator*=`, matrix4.cpp:624-723: the members are computed in an array first. -/
def mulAssign (a b : ℕ) (m : Mem) : Mem := run (members 16 a fun i _ => productAt a b m i) m

/-- `Matrix4::inverse`, matrix4.cpp:293-435: members are computed in an array and written if the determinant is not near
zero.  `inv` stands for the expressions of `Geom.inv` and for the division: sixteen numbers from sixteen. -/
def inverse (inv : (ℕ → F32) → Option (ℕ → F32)) (a o : ℕ) (m : Mem) : Mem :=
  match inv (fun i => m (a + i)) with
  | none => m
  | some v => run (members 16 o fun i _ => v i) m

end Spectre.Alias
