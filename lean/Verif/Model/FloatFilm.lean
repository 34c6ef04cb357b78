import Verif.Model.FloatMaterial

/-
Model in binary32 of a pixel of the film (src/cameras/image_film.cpp) and of the conversion to sRGB
(src/utility/color.cpp).  `Model/Color.lean` has the same code over the reals.  `powf` is a parameter.  Which samples reach
a pixel, and in which order, is the matter of `Model/Film.lean`; here a pixel is given by the list of its samples.
-/

namespace Spectre.FFilm

open Spectre.Geom Spectre.FMat F32

/-- `min(float, float)`, utility.hpp:115-118. -/
def fmin (a b : F32) : F32 := if lt a b then a else b

/-- `struct Pixel`, image_film.hpp:35-52. -/
structure Pix where
  x : F32
  y : F32
  z : F32
  samples : F32

/-- A pixel after `zero_out`, image_film.cpp:12. -/
def Pix.empty : Pix := ⟨zip, zip, zip, zip⟩

/-- `if(color.r<0)color.r = 0;`, image_film.cpp:49-51. -/
def positive (v : F32) : F32 := if lt v zip then zip else v

/-- A sample reaches a pixel with a weight, image_film.cpp:49-51, 86-91 (and 77-80 with 109-114 or 132-137: the same
products, added later). -/
def Pix.put (p : Pix) (c : V3 F32) (weight : F32) : Pix :=
  ⟨add p.x (F32.mul (positive c.x) weight), add p.y (F32.mul (positive c.y) weight),
    add p.z (F32.mul (positive c.z) weight), add p.samples weight⟩

/-- All samples of a pixel, in the order in which they are added. -/
def collect (l : List (V3 F32 × F32)) : Pix := l.foldl (fun p e => p.put e.1 e.2) Pix.empty

/-- A row of the matrix of `ColorXYZ::to_sRGB`, color.cpp:160-162. -/
def row (c : V3 F32) (a b d : F32) : F32 := add (add (F32.mul c.x a) (F32.mul c.y b)) (F32.mul c.z d)

/-- A literal of the source, rounded by the compiler. -/
def lit (q : ℚ) : F32 := F32.round false q

/-- One channel, color.cpp:164-175; `pow` is `powf(r, EXP)`. -/
def encode (pow : F32 → F32) (v : F32) : F32 :=
  if lt (lit 0.0031308) v then sub (F32.mul (lit 1.055) (pow v)) (lit 0.055) else F32.mul v (lit 12.92)

/-- `ColorXYZ::to_sRGB`, color.cpp:153-178. -/
def toSrgb (pow : F32 → F32) (c : V3 F32) : V3 F32 :=
  ⟨encode pow (row c (lit 3.2404542) (lit (-1.5371385)) (lit (-0.4985314))),
    encode pow (row c (lit (-0.9692660)) (lit 1.8760108) (lit 0.0415560)),
    encode pow (row c (lit 0.0556434) (lit (-0.2040259)) (lit 1.0572252))⟩

/-- The conversion `(uint32_t)` of a float: the integer part, undefined (`none`) if it is not an `uint32_t`. -/
def toUint : F32 → Option Nat
  | nan => none
  | inf _ => none
  | v => if -1 < v.val ∧ v.val < 2 ^ 32 then some ⌊v.val⌋.toNat else none

/-- `(uint32_t)::min((::max(0.f, v)*0xFF), 255.0f)`, image_film.cpp:170, 172, 174. -/
def byte (v : F32) : Option Nat := toUint (fmin (F32.mul (fmax zip v) (num 255)) (num 255))

/-- The colour of a pixel, image_film.cpp:158-166. -/
def develop (pow : F32 → F32) (p : Pix) : V3 F32 :=
  if lt zip p.samples then
    let weight := div one p.samples
    toSrgb pow ⟨F32.mul p.x weight, F32.mul p.y weight, F32.mul p.z weight⟩
  else ⟨zip, zip, zip⟩

/-- The bytes of a saved pixel, image_film.cpp:157-174: red, green, blue; `none` is undefined behaviour. -/
def savePixel (pow : F32 → F32) (p : Pix) : Option (Nat × Nat × Nat) := do
  let rgb := develop pow p
  let r ← byte rgb.x
  let g ← byte rgb.y
  let b ← byte rgb.z
  some (r, g, b)

end Spectre.FFilm
