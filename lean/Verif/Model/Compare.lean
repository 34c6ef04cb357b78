import Verif.Model.Alias
import Verif.Model.IeeeLemmas

/-
Model in binary32 of the comparisons and of the bounding of vectors, points, normals and matrices (src/geometry/).  An object is
the list of its members.  `clamp1` and `pick` of `Model/Alias.lean` are the member operations of `clamp`, `max` and `min`.
-/

namespace Spectre.Compare

open F32

/-- `<=`. -/
def le (a b : F32) : Bool := F32.lt a b || F32.eq a b

/-- `FLT_EPSILON` of `<cfloat>`. -/
def fltEps : F32 := num (1 / 2 ^ 23)

/-- `EPSILON`, utility.hpp:28. -/
def epsilon : F32 := F32.round false (1 / 100000)

/-- `std::fabs(a-b)<=eps`: vec3.cpp:462-464 and `flt_equal`, utility.hpp:222-225. -/
def near (eps a b : F32) : Bool := le (F32.abs (F32.sub a b)) eps

/-- `std::fabs(a-b)>eps`, vec3.cpp:469-471. -/
def far (eps a b : F32) : Bool := F32.lt eps (F32.abs (F32.sub a b))

/-- `operator==` of vectors and points, vec2.cpp:296-300, vec3.cpp:460-465, point2.cpp:85-94, point3.cpp:105-115.  The
messages of the debug build are left out. -/
def vecEq : List F32 → List F32 → Bool
  | a :: l, b :: r => near fltEps a b && vecEq l r
  | _, _ => true

/-- `operator!=` of vectors and points, vec2.cpp:302-306, vec3.cpp:467-472, point2.cpp:96-105, point3.cpp:117-127. -/
def vecNe : List F32 → List F32 → Bool
  | a :: l, b :: r => far fltEps a b || vecNe l r
  | _, _ => false

/-- `Normal::operator==`, vec3.cpp:854-857. -/
def normalEq : List F32 → List F32 → Bool
  | a :: l, b :: r => F32.eq a b && normalEq l r
  | _, _ => true

/-- `Normal::operator!=`, vec3.cpp:859-862. -/
def normalNe : List F32 → List F32 → Bool
  | a :: l, b :: r => !F32.eq a b || normalNe l r
  | _, _ => false

/-- `Matrix4::operator==`, matrix4.cpp:725-743. -/
def matEq : List F32 → List F32 → Bool
  | a :: l, b :: r => near epsilon a b && matEq l r
  | _, _ => true

/-- `Matrix4::operator!=`, matrix4.cpp:745-763. -/
def matNe (a b : List F32) : Bool := !matEq a b

/-- A member in `saturate`, vec2.cpp:115-121, vec3.cpp:198-208, 660-670. -/
def saturate1 (v : F32) : F32 := if F32.lt v (zero false) then zero false else if F32.lt (num 1) v then num 1 else v

/-- A member of the vector maximum, vec3.cpp:213-216. -/
def vecMax (x y : F32) : F32 := Alias.pick (fun x y => F32.lt y x) x y

/-- A member of the vector minimum, vec3.cpp:236-239. -/
def vecMin (x y : F32) : F32 := Alias.pick F32.lt x y

/-- A member of the point maximum `x.max(p)`, point3.cpp:46-47. -/
def pointMax (x p : F32) : F32 := if F32.lt x p then p else x

/-- A member of the point minimum, point3.cpp:56-57. -/
def pointMin (x p : F32) : F32 := if F32.lt p x then p else x

end Spectre.Compare
