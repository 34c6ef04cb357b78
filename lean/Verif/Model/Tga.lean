import Verif.Model.Pixel

/-
TGA files, /repo/src/utility/imageio/tga.c and tga.h:26-52.

A file is its list of bytes; `malloc` and `fwrite` are assumed to succeed.  Sizes handed to the writer are
natural numbers.  The two nested loops of the reader are one loop over a state here: one iteration either
handles a packet (body of the inner loop) or ends the row (line 275 and lines 156-157 of the next
iteration of the outer loop).
-/

namespace Spectre.Tga

open Spectre.Img

/-- Undefined behaviour; `fuel` is no behaviour of the code but the end of the loop bound of the model
(which is never reached, see `Props/Tga.lean`). -/
inductive Fault | outOfBounds | overflow | fuel
deriving DecidableEq, Repr

/-- The header, tga.h:26-52, as the writer fills it, tga.c:86-91. -/
def header (w h : Nat) : List Byte :=
  [0#8, 0#8, 2#8] ++ le16 0#16 ++ le16 0#16 ++ [0#8] ++ le16 0#16 ++ le16 0#16 ++
    le16 (BitVec.ofNat 16 w) ++ le16 (BitVec.ofNat 16 h) ++ [24#8, 0x20#8]

/-- Bytes of one pixel, tga.c:99-101. -/
def pixelBytes (p : Pixel) : List Byte := [blue p, green p, red p]

/-- `tga_write`, tga.c:74-111.  `data_idx` and `width*height*BPP` are `int`s. -/
def write (w h : Nat) (data : List Pixel) : Except Fault (List Byte × Bool) :=
  if w * h * 3 ≥ 2 ^ 31 ∨ w ≥ 2 ^ 31 ∨ h ≥ 2 ^ 31 then .error .overflow
  else if w * h ≤ data.length then
    .ok (header w h ++ (data.take (w * h)).flatMap pixelBytes, decide (3 * (w * h) = w * h * 3))
  else .error .outOfBounds

/-- `valid_header`, tga.c:18-39. -/
def validHeader (f : List Byte) : Bool :=
  decide (18 ≤ f.length) &&
  (f.getD 2 0 == 2#8 || f.getD 2 0 == 0xA#8) &&
  (f.getD 16 0 == 24#8 || f.getD 16 0 == 32#8 || f.getD 16 0 == 16#8 || f.getD 16 0 == 15#8) &&
  f.getD 1 0 == 0#8 &&
  (f.getD 17 0 &&& 0xF0#8 == 0#8 || f.getD 17 0 &&& 0xF0#8 == 0x20#8)

/-- `tga_dimensions`, tga.c:41-58. -/
def dimensions (f : List Byte) : Option (Nat × Nat) :=
  if validHeader f then some ((rd16 f 12).toNat, (rd16 f 14).toNat) else none

/-- The pixel in the bytes that follow the packet header, tga.c:162-186, 198-222 and 243-267. -/
def decodePixel (bpp : Nat) (b : List Byte) : Pixel :=
  if bpp = 3 then mk (b.getD 2 0) (b.getD 1 0) (b.getD 0 0)
  else if bpp = 4 then
    (b.getD 3 0).setWidth 32 ||| ((b.getD 2 0).setWidth 32 <<< 8) ||| ((b.getD 1 0).setWidth 32 <<< 16) |||
      ((b.getD 0 0).setWidth 32 <<< 24)
  else mk ((b.getD 1 0 &&& 0x7C#8) <<< 1) (((b.getD 1 0 &&& 0x03#8) <<< 6) ||| ((b.getD 0 0 &&& 0xE0#8) >>> 2))
    ((b.getD 0 0 &&& 0x1F#8) <<< 3)

/-- Constants of a file, tga.c:127-152. -/
structure Cfg where
  bpp : Nat
  compressed : Bool
  w : Nat
  h : Nat
  down : Bool

/-- tga.c:143, 149. -/
def Cfg.inc (c : Cfg) : Int := if c.down then 1 else -1
/-- tga.c:144, 150. -/
def Cfg.ymax (c : Cfg) : Int := if c.down then c.h else -1
/-- tga.c:145, 151. -/
def Cfg.y0 (c : Cfg) : Int := if c.down then 0 else c.h - 1

/-- The variables of the loop. -/
structure St where
  x : Int
  y : Int
  i : Int
  written : Nat
  rest : List Byte
  buf : Nat → Pixel

/-- `values[i] = …`: a buffer of `WIDTH*HEIGHT` pixels. -/
def store (c : Cfg) (st : St) (p : Pixel) : Except Fault St :=
  if 0 ≤ st.i ∧ st.i < (c.w * c.h : Nat) then
    .ok { st with buf := fun k => if (k : Int) = st.i then p else st.buf k }
  else .error .outOfBounds

/-- `i++; written++; x++`, tga.c:187-189, 223-225, 268-270. -/
def bump (st : St) : St := { st with i := st.i + 1, written := st.written + 1, x := st.x + 1 }

/-- End of line inside of a run, tga.c:226-237. -/
def wrap (c : Cfg) (st : St) : St :=
  if st.x = c.w then
    if st.y + c.inc = c.ymax then
      { st with y := c.ymax - c.inc, x := c.w, i := (c.ymax - c.inc) * c.w }
    else { st with y := st.y + c.inc, x := 0, i := (st.y + c.inc) * c.w }
  else st

/-- The loop over a run packet, tga.c:196-238. -/
def runLoop (c : Cfg) (p : Pixel) : Nat → St → Except Fault St
  | 0, st => .ok st
  | n + 1, st =>
    match store c st p with
    | .error e => .error e
    | .ok st' => runLoop c p n (wrap c (bump st'))

/-- Length of a run packet, tga.c:195. -/
def runLen (b : Byte) : Nat := 1 + (b &&& 0x7F#8).toNat

/-- Number of bytes of an `fread`, tga.c:158. -/
def Cfg.chunk (c : Cfg) : Nat := c.bpp + (if c.compressed then 1 else 0)

/-- Body of the inner loop, tga.c:160-273, for the bytes `px` just read. -/
def packet (c : Cfg) (px : List Byte) (st : St) : Except Fault St :=
  if c.compressed then
    if px.getD 0 0 &&& 0x80#8 ≠ 0#8 then
      runLoop c (decodePixel c.bpp (px.drop 1)) (runLen (px.getD 0 0)) st
    else (store c st (decodePixel c.bpp (px.drop 1))).map bump
  else (store c st (decodePixel c.bpp px)).map bump

/-- Both loops, tga.c:154-276. -/
def loop (c : Cfg) : Nat → St → Except Fault St
  | 0, _ => .error .fuel
  | fuel + 1, st =>
    if st.y = c.ymax then .ok st
    else if st.x < c.w ∧ c.chunk ≤ st.rest.length then
      match packet c (st.rest.take c.chunk) { st with rest := st.rest.drop c.chunk } with
      | .error e => .error e
      | .ok st' => loop c fuel st'
    else loop c fuel { st with y := st.y + c.inc, i := (st.y + c.inc) * c.w, x := 0 }

/-- Constants of a file with a valid header, tga.c:127-152. -/
def cfg (f : List Byte) : Cfg where
  bpp := if f.getD 16 0 = 15#8 then 2 else (f.getD 16 0 >>> 3).toNat
  compressed := f.getD 2 0 == 0xA#8
  w := (rd16 f 12).toNat
  h := (rd16 f 14).toNat
  down := f.getD 17 0 &&& 0x20#8 != 0#8

/-- State before the loop; `SKIPME` is the length of the identification field (a colour map is
excluded by `valid_header`), tga.c:137-153. -/
def start (f : List Byte) (buf : Nat → Pixel) : St :=
  { x := 0, y := (cfg f).y0, i := (cfg f).y0 * (cfg f).w, written := 0,
    rest := f.drop (18 + (f.getD 0 0).toNat), buf := buf }

/-- `tga_read`, tga.c:113-281, into a buffer of the dimensions in the file. -/
def read (f : List Byte) (buf : Nat → Pixel) : Except Fault (Bool × (Nat → Pixel)) :=
  if validHeader f then
    if (cfg f).w * (cfg f).h ≥ 2 ^ 31 then .error .overflow
    else
      match loop (cfg f) (f.length + (cfg f).h + 1) (start f buf) with
      | .error e => .error e
      | .ok st => .ok (decide ((cfg f).w * (cfg f).h = st.written), st.buf)
  else .ok (false, buf)

end Spectre.Tga
