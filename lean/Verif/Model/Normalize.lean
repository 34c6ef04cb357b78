import Verif.Model.Direct

/-
Model of `sqrtf` and of the normalisation of vectors in binary32 (src/geometry/vec3.cpp, vec3.hpp), in the
build without `DEBUG`.
-/

namespace Spectre

/-- The binary32 number next to the square root of a positive number.  The result has 24 bits: `q` is scaled to
`s` in `[2^46, 2^48)`, whose root is rounded to an integer.  There are no ties to decide for a binary32 `q`: the
square of a half-integer of 25 bits has more than 24 bits. -/
def sqrt32 (q : ℚ) : ℚ :=
  let e := Int.log 2 q / 2 - 23
  let s := q / 4 ^ e
  let n := Nat.sqrt ⌊s⌋₊
  (if ((n : ℚ) + 1 / 2) ^ 2 < s then (n : ℚ) + 1 else n) * 2 ^ e

namespace F32

/-- `sqrtf`. -/
def sqrt : F32 → F32
  | nan => nan
  | inf false => inf false
  | inf true => nan
  | zero s => zero s
  | num q => if q < 0 then nan else num (sqrt32 q)

end F32

namespace Normalize

open Spectre.Geom Spectre.Direct F32

/-- `Vec3::length2`, vec3.cpp:107-110, and the same expression in `normalize` and `is_normalized`. -/
def flen2 (v : V3 F32) : F32 := add (add (mul v.x v.x) (mul v.y v.y)) (mul v.z v.z)

/-- `1E-5f`. -/
def tol : F32 := F32.round false (1 / 100000)

/-- `1.f-1E-5f`. -/
def low : F32 := sub (num 1) tol

/-- `1.f+1E-5f`. -/
def high : F32 := add (num 1) tol

/-- The test of `normalize` and `is_normalized`, vec3.cpp:140, 158-163 (`Vec3`), 609, 627-631 (`Normal`). -/
def isNormalized (v : V3 F32) : Bool := lt low (flen2 v) && lt (flen2 v) high

/-- `Vec3::normalize`, vec3.cpp:135-156; the same code is `normalize(const Vec3&)`, vec3.hpp:900-922,
`Normal::normalize`, vec3.cpp:604-625, and `normalize(const Normal&)`, vec3.hpp:930-950. -/
def normalize (v : V3 F32) : V3 F32 :=
  if isNormalized v then v
  else
    let len := div (num 1) (F32.sqrt (flen2 v))
    ⟨mul v.x len, mul v.y len, mul v.z len⟩

end Normalize

end Spectre
