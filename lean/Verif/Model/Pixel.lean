/-
Packed pixels and byte order, /repo/src/utility/imageio/imageio.h:43-65 and imageio.c:132-157,
/repo/src/utility/imageio/endianness.h, /repo/src/utility/utility.hpp:314-338.

Bytes are `BitVec 8`, packed BGRA pixels `BitVec 32` (blue in the high byte, alpha in the low one).
A shift of a promoted byte into the sign bit of an `int` (`row[..] << 24`) is taken as GCC and Clang
define it (wrapping); strict C99 leaves it undefined.  Little endian host.
-/

namespace Spectre.Img

abbrev Byte := BitVec 8
abbrev Pixel := BitVec 32

/-- `BGRA_BLUE`, imageio.h:62. -/
def blue (p : Pixel) : Byte := ((p &&& 0xFF000000#32) >>> 24).setWidth 8
/-- `BGRA_GREEN`, imageio.h:59. -/
def green (p : Pixel) : Byte := ((p &&& 0x00FF0000#32) >>> 16).setWidth 8
/-- `BGRA_RED`, imageio.h:56. -/
def red (p : Pixel) : Byte := ((p &&& 0x0000FF00#32) >>> 8).setWidth 8
/-- `BGRA_ALPHA`, imageio.h:65. -/
def alpha (p : Pixel) : Byte := (p &&& 0x000000FF#32).setWidth 8

/-- The opaque pixel built from three components, e.g. imageio.c:151-154. -/
def mk (r g b : Byte) : Pixel :=
  0x000000FF#32 ||| (r.setWidth 32 <<< 8) ||| (g.setWidth 32 <<< 16) ||| (b.setWidth 32 <<< 24)

/-- `BGRAtoRGB`, imageio.c:132-143; `len` counts pixels.  `none`: a read outside of the input. -/
def bgraToRgb (inp : List Pixel) : Nat → Option (List Byte)
  | 0 => some []
  | len + 1 => match inp with
    | [] => none
    | p :: rest => (bgraToRgb rest len).map fun l => red p :: green p :: blue p :: l

/-- `RGBtoBGRA`, imageio.c:145-157; `len` counts *bytes*, three are consumed in each iteration.
`none`: a read outside of the input. -/
def rgbToBgra (inp : List Byte) (len : Nat) : Option (List Pixel) :=
  if len = 0 then some []
  else match inp with
    | r :: g :: b :: rest => (rgbToBgra rest (len - 3)).map fun l => mk r g b :: l
    | _ => none
termination_by len

/-- `swap_endianness(uint32_t)`, utility.hpp:321-325. -/
def swap32 (n : BitVec 32) : BitVec 32 :=
  ((n &&& 0x000000FF#32) <<< 24) ||| ((n &&& 0x0000FF00#32) <<< 8) |||
    ((n &&& 0x00FF0000#32) >>> 8) ||| ((n &&& 0xFF000000#32) >>> 24)

/-- `swap_endianness(uint16_t)`, utility.hpp:334-337. -/
def swap16 (n : BitVec 16) : BitVec 16 := ((n &&& 0x00FF#16) <<< 8) ||| ((n &&& 0xFF00#16) >>> 8)

/-- `ENDIANNESS_BIG16`, endianness.h:14, assigned to a `uint16_t`.  The operands are promoted to `int`. -/
def big16 (v : BitVec 16) : BitVec 16 := ((v &&& 0xFF#16) >>> 8) ||| (v <<< 8)

/-- `ENDIANNESS_BIG32`, endianness.h:15-18. -/
def big32 (v : BitVec 32) : BitVec 32 :=
  ((v &&& 0xFF000000#32) >>> 24) ||| ((v &&& 0x00FF0000#32) >>> 8) |||
    ((v &&& 0x0000FF00#32) <<< 8) ||| (v <<< 24)

/-- The bytes of a 16-bit number in memory (little endian). -/
def le16 (v : BitVec 16) : List Byte := [v.setWidth 8, (v >>> 8).setWidth 8]
/-- The bytes of a 32-bit number in memory (little endian). -/
def le32 (v : BitVec 32) : List Byte :=
  [v.setWidth 8, (v >>> 8).setWidth 8, (v >>> 16).setWidth 8, (v >>> 24).setWidth 8]

/-- Read a 16-bit number at an offset. -/
def rd16 (f : List Byte) (o : Nat) : BitVec 16 :=
  (f.getD o 0).setWidth 16 ||| ((f.getD (o + 1) 0).setWidth 16 <<< 8)
/-- Read a 32-bit number at an offset. -/
def rd32 (f : List Byte) (o : Nat) : BitVec 32 :=
  (f.getD o 0).setWidth 32 ||| ((f.getD (o + 1) 0).setWidth 32 <<< 8) |||
    ((f.getD (o + 2) 0).setWidth 32 <<< 16) ||| ((f.getD (o + 3) 0).setWidth 32 <<< 24)

end Spectre.Img
