import Verif.Model.FloatTriangle

/-
Model in binary32 of `equation2` (src/utility/utility.hpp) and of `Sphere::intersect` (src/primitives/sphere.cpp).
`Model/Shapes.lean` has the same code in exact arithmetic.
-/

namespace Spectre.FSphere

open Spectre.Geom Spectre.FTri F32

/-- `<=` of two floats. -/
def le (a b : F32) : Bool := F32.lt a b || F32.eq a b

/-- `1e-4f`, utility.hpp:293. -/
def tiny : F32 := F32.round false (1 / 10000)

/-- `delta`, utility.hpp:292. -/
def delta (a b c : F32) : F32 := F32.sub (F32.mul b b) (F32.mul (F32.mul (num 4) a) c)

/-- `q`, utility.hpp:301-305. -/
def root (b delta : F32) : F32 :=
  if F32.lt b (zero false) then F32.mul (num (-1 / 2)) (F32.sub b (F32.sqrt delta))
  else F32.mul (num (-1 / 2)) (F32.add b (F32.sqrt delta))

/-- `equation2`, utility.hpp:289-312; `none` is `return false`. -/
def equation2 (a b c : F32) : Option (F32 × F32) :=
  let dl := delta a b c
  if le dl (zero false) && le (zero false) (F32.add dl tiny) then
    let s := div (F32.neg b) (F32.mul a (num 2))
    some (s, s)
  else if le (zero false) dl then
    let q := root b dl
    some (div q a, div c q)
  else none

/-- The coefficients of the equation, sphere.cpp:71-73. -/
def coeffs (o d : V3 F32) : F32 × F32 × F32 :=
  (dot d d, F32.mul (num 2) (dot d o), F32.sub (dot o o) (num 1))

/-- The solutions in order, sphere.cpp:78-79. -/
def ordered (s : F32 × F32) : F32 × F32 := if F32.lt s.2 s.1 then (s.2, s.1) else s

/-- `Sphere::intersect`, sphere.cpp:63-136: the new `*distance`.  `masked` is the answer of the mask for the point at a
distance on the ray, `isnan` what the compiler makes of `std::isnan`. -/
def intersect (isnan : F32 → Bool) (masked : F32 → Bool) (o d : V3 F32) (distance : F32) : Option F32 :=
  match equation2 (coeffs o d).1 (coeffs o d).2.1 (coeffs o d).2.2 with
  | none => none
  | some s =>
    let sol1 := (ordered s).1
    let sol2 := (ordered s).2
    if F32.lt distance sol1 then none
    else if F32.lt sol1 minDist && (F32.lt sol2 minDist || F32.lt distance sol2) then none
    else
      let first := if F32.lt sol1 minDist then sol2 else sol1
      let second := if F32.lt sol1 minDist then nan else sol2
      if masked first = false then some first
      else if isnan second = false then
        if masked second = false then some second else none
      else none

end Spectre.FSphere
