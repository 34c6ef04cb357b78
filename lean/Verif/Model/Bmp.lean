import Verif.Model.Pixel

/-
BMP files, /repo/src/utility/imageio/bmp.c and bmp.h:19-64.

A file is its list of bytes.  Outcome `none`: undefined behaviour (signed overflow, division by zero,
negative sizes, an access outside of a buffer).  `malloc` and `fwrite` are assumed to succeed.  Widths
and heights handed to the writer are natural numbers (those of the film); those in a file that is read
are arbitrary 32-bit integers.
-/

namespace Spectre.Bmp

open Spectre.Img

/-- `padding = (width*bpp)%4`, bmp.c:95 and 139. -/
def padding (bpp w : Nat) : Nat := (w * bpp) % 4

/-- `bmp_size`, bmp.c:8-13, for 24 bits per pixel: `(1<<24) & 0xFFFF` is zero. -/
def bmpSize (w h : Nat) : Nat := 14 + 40 + 4 * (((1 <<< 24) &&& 0xFFFF) + h * ((w * 24 + 31) / 32))

/-- `create_bmp_header`, bmp.c:61-77, as the 54 bytes of both packed structs. -/
def header (w h : Nat) : List Byte :=
  le16 19778#16 ++ le32 (BitVec.ofNat 32 (bmpSize w h)) ++ le16 0#16 ++ le16 0#16 ++ le32 54#32 ++
  (le32 40#32 ++ le32 (BitVec.ofNat 32 w) ++ le32 (BitVec.ofInt 32 (-(h : Int))) ++ le16 1#16 ++ le16 24#16 ++
    le32 0#32 ++ le32 0#32 ++ le32 0#32 ++ le32 0#32 ++ le32 0#32 ++ le32 0#32)

/-- Bytes of one pixel, bmp.c:103-105. -/
def pixelBytes (p : Pixel) : List Byte := [blue p, green p, red p]

/-- One row as written, bmp.c:101-108; `junk` are the padding bytes, which are never initialised. -/
def writeRow (junk : Nat → Byte) (w : Nat) (px : List Pixel) : List Byte :=
  px.flatMap pixelBytes ++ (List.range (padding 3 w)).map junk

/-- The rows, bmp.c:99-109. -/
def writeRows (junk : Nat → Byte) (w : Nat) (data : List Pixel) : Nat → List Byte
  | 0 => []
  | n + 1 => writeRow junk w (data.take w) ++ writeRows junk w (data.drop w) n

/-- No signed overflow in `bmp_size`, `data_idx` and the row length. -/
def Fits (w h : Nat) : Prop := w * 24 + 31 < 2 ^ 31 ∧ bmpSize w h < 2 ^ 31

instance (w h : Nat) : Decidable (Fits w h) := by unfold Fits; infer_instance

/-- `bmp_write`, bmp.c:79-115: contents of the file and returned flag. -/
def write (junk : Nat → Byte) (w h : Nat) (data : List Pixel) : Option (List Byte × Bool) :=
  if Fits w h ∧ w * h ≤ data.length then
    some (header w h ++ writeRows junk w data h, decide (3 * (w * h) = w * h * 3))
  else none

/-- `bmp_dimensions`, bmp.c:36-59: `some none` is failure, `none` the overflow of `-INT_MIN`. -/
def dimensions (f : List Byte) : Option (Option (Int × Int)) :=
  if 54 ≤ f.length ∧ rd16 f 0 = 19778#16 then
    let h := (rd32 f 22).toInt
    if h = -2 ^ 31 then none else some (some ((rd32 f 18).toInt, if h ≥ 0 then h else -h))
  else some none

/-- The pixel assembled from a row, bmp.c:164-171. -/
def readPixel (bpp : Nat) (row : List Byte) (x : Nat) : Pixel :=
  let p := mk (row.getD (x * bpp + 2) 0) (row.getD (x * bpp + 1) 0) (row.getD (x * bpp) 0)
  if bpp = 4 then p &&& ((row.getD (x * bpp + 3) 0).setWidth 32 ||| 0xFFFFFF00#32) else p

/-- The rows, bmp.c:146-177: `n` rows are left; their index is `n-1` if the file is bottom-up and
`height-n` if it is top-down.  `values` has `cap` elements.  The result is the buffer and `written`. -/
def readRows (bpp w h : Nat) (down : Bool) (cap : Nat) :
    Nat → List Byte → (Nat → Pixel) → Nat → Option ((Nat → Pixel) × Nat)
  | 0, _, buf, written => some (buf, written)
  | n + 1, rest, buf, written =>
    let len := bpp * w + padding bpp w
    if 0 < len ∧ len ≤ rest.length then
      let y := if down then h - (n + 1) else n
      if y * w + w ≤ cap then
        readRows bpp w h down cap n (rest.drop len)
          (fun i => if y * w ≤ i ∧ i < y * w + w then readPixel bpp (rest.take len) (i - y * w) else buf i)
          (written + w)
      else none
    else some (buf, written)

/-- `bmp_read`, bmp.c:117-184. -/
def read (f : List Byte) (cap : Nat) (buf : Nat → Pixel) : Option (Bool × (Nat → Pixel)) :=
  if 54 ≤ f.length ∧ rd16 f 0 = 19778#16 ∧ rd32 f 30 = 0#32 ∧ rd32 f 46 = 0#32 ∧
      (rd16 f 28 = 24#16 ∨ rd16 f 28 = 32#16) then
    let height := (rd32 f 22).toInt
    let width := (rd32 f 18).toInt
    let bpp := if rd16 f 28 = 24#16 then 3 else 4
    if height = 0 ∨ height = -2 ^ 31 ∨ width < 0 then none
    else
      let w := width.toNat
      let h := height.natAbs
      if bpp * w + padding bpp w < 2 ^ 31 ∧ w * h < 2 ^ 31 then
        match readRows bpp w h (decide (height < 0)) cap h (f.drop (rd32 f 10).toNat) buf 0 with
        | none => none
        | some (buf', written) => some (decide (written = h * w), buf')
      else none
  else some (false, buf)

end Spectre.Bmp
