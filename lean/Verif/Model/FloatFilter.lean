import Verif.Model.FloatMicrofacet

/-
Model in binary32 of the pixels that a sample updates (src/cameras/image_film.cpp) and of the reconstruction filters
(src/samplers/filter_*.cpp).  `Model/Film.lean` and `Model/Filters.lean` have the same code in exact arithmetic.  `expf` and
`sinf` are parameters.
-/

namespace Spectre.FFilter

open Spectre.FMat F32

/-- The conversion of a float to `int`; `none` is undefined behaviour. -/
def toInt (q : ℤ) : Option ℤ := if -2 ^ 31 ≤ q ∧ q < 2 ^ 31 then some q else none

/-- `(int)ceilf(v)`, image_film.cpp:56-57. -/
def ceilInt : F32 → Option ℤ
  | nan => none
  | inf _ => none
  | v => toInt ⌈v.val⌉

/-- `(int)floorf(v)`, image_film.cpp:58-59. -/
def floorInt : F32 → Option ℤ
  | nan => none
  | inf _ => none
  | v => toInt ⌊v.val⌋

/-- `centre_x` and `centre_y`, image_film.cpp:54-55. -/
def centre (pos : F32) : F32 := F32.sub pos (num (1 / 2))

/-- The first pixel updated along an axis, image_film.cpp:56-57, 60-61. -/
def low (pos range : F32) : Option ℤ := (ceilInt (F32.sub (centre pos) range)).map (max · 0)

/-- The end of the pixels updated along an axis, image_film.cpp:58-59, 62-63. -/
def high (pos range : F32) (size : ℤ) : Option ℤ := (floorInt (F32.add (centre pos) range)).map (min · size)

/-- The offset that is given to the filter, image_film.cpp:69. -/
def offset (x : ℤ) (pos : F32) : F32 := F32.sub (F32.round false x) (centre pos)

/-- `FilterTent::weight`, filter_tent.cpp:14-18. -/
def tent (x y : F32) : F32 :=
  div (F32.mul (div (fmax zip (F32.sub two (F32.abs x))) two) (fmax zip (F32.sub two (F32.abs y)))) two

/-- The constructor of `FilterGaussian`, filter_gaussian.cpp:11-19: `precomputed_exp_x` (and `y`). -/
def gaussEnd (exp : F32 → F32) (a : F32) : F32 := exp (F32.mul (F32.mul (neg a) two) two)

/-- One factor of `FilterGaussian::weight`, filter_gaussian.cpp:26. -/
def gauss1 (exp : F32 → F32) (a x : F32) : F32 :=
  fmax zip (F32.sub (exp (F32.mul (F32.mul (neg a) x) x)) (gaussEnd exp a))

/-- `FilterGaussian::weight`, filter_gaussian.cpp:21-28. -/
def gaussian (exp : F32 → F32) (a x y : F32) : F32 := F32.mul (gauss1 exp a x) (gauss1 exp a y)

/-- The argument of an axis of `FilterMitchell::weight`, filter_mitchell.cpp:21-22. -/
def mitchellArg (x : F32) : F32 := F32.abs (F32.mul (F32.mul x (num (1 / 2))) two)

/-- One axis of `FilterMitchell::weight`, filter_mitchell.cpp:20, 25-39 (repeated for y, 40-54). -/
def mitchell1 (b c x : F32) : F32 :=
  let sixth := F32.div one (num 6)
  if F32.lt one x then
    let r := F32.mul (F32.mul (F32.mul (F32.sub (neg b) (F32.mul (num 6) c)) x) x) x
    let r := F32.add r (F32.mul (F32.mul (F32.add (F32.mul (num 6) b) (F32.mul (num 30) c)) x) x)
    let r := F32.add r (F32.mul (F32.sub (F32.mul (num (-12)) b) (F32.mul (num 48) c)) x)
    let r := F32.add r (F32.add (F32.mul (num 8) b) (F32.mul (num 24) c))
    F32.mul r sixth
  else
    let r := F32.mul (F32.mul (F32.mul (F32.sub (F32.sub (num 12) (F32.mul (num 9) b)) (F32.mul (num 6) c)) x) x) x
    let r := F32.add r
      (F32.mul (F32.mul (F32.add (F32.add (num (-18)) (F32.mul (num 12) b)) (F32.mul (num 6) c)) x) x)
    let r := F32.add r (F32.sub (num 6) (F32.mul two b))
    F32.mul r sixth

/-- `FilterMitchell::weight`, filter_mitchell.cpp:18-56. -/
def mitchell (b c x y : F32) : F32 := F32.mul (mitchell1 b c (mitchellArg x)) (mitchell1 b c (mitchellArg y))

/-- `1E-5f`, filter_lanczos.cpp:22. -/
def small : F32 := F32.round false (1 / 100000)

/-- One axis of `FilterLanczos::weight`, filter_lanczos.cpp:19-32 (repeated for y, 33-44). -/
def lanczos1 (sin : F32 → F32) (tau x : F32) : F32 :=
  let r := F32.abs (F32.mul x (num (1 / 4)))
  if F32.lt r small then one
  else if F32.lt one r then zip
  else
    let r := F32.mul r FMicro.onePi
    F32.mul (div (sin (F32.mul r tau)) (F32.mul r tau)) (div (sin r) r)

/-- `FilterLanczos::weight`, filter_lanczos.cpp:17-46. -/
def lanczos (sin : F32 → F32) (tau x y : F32) : F32 := F32.mul (lanczos1 sin tau x) (lanczos1 sin tau y)

end Spectre.FFilter
