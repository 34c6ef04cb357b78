import Verif.Model.Pixel
import Verif.Model.Float32

/-
PPM files, /repo/src/utility/imageio/ppm.c.

A file is its list of bytes.  The C library calls are modelled by what they do to the unread rest of the
file: `%c`, `%u`, `%hu`, `%d` (white space skipped, optional sign, digits), `%5s`, `fseek(1, SEEK_CUR)`,
`fread` of one whole item.  Undefined behaviour is a `Fault`: reading a variable that a failed conversion
left unwritten, a number that does not fit its type, a `float` that does not fit a `uint8_t`.
`float` arithmetic is binary32 (`fl`); all magnitudes are far from under- and overflow.  Division by a
zero depth gives infinity or NaN and is treated apart.  `malloc` and `fopen` succeed.  The pixels stored at
`values[0], values[1], ...` in this order are returned as a list.
-/

namespace Spectre.Ppm

open Spectre.Img

/-- Undefined behaviour. -/
inductive Fault
  | uninit   -- an unwritten variable is read
  | range    -- a scanned number does not fit the variable
  | conv     -- a `float` outside of the range of `uint8_t` is converted
  deriving DecidableEq, Repr

/-- `isspace`. -/
def isSpace (b : Byte) : Bool := (9 ≤ b.toNat && b.toNat ≤ 13) || b.toNat == 32
/-- `isdigit`. -/
def isDigit (b : Byte) : Bool := 48 ≤ b.toNat && b.toNat ≤ 57

/-- White space skipped by all conversions but `%c`. -/
def skipSpace (s : List Byte) : List Byte := s.dropWhile isSpace

/-- Value of a string of digits. -/
def value (ds : List Byte) : Nat := ds.foldl (fun a b => 10 * a + (b.toNat - 48)) 0

/-- A decimal integer without sign: value and rest. -/
def scanNat (s : List Byte) : Option (Nat × List Byte) :=
  if (s.takeWhile isDigit).isEmpty then none else some (value (s.takeWhile isDigit), s.dropWhile isDigit)

/-- The decimal integer of `%d`, `%u`, `%hu`; `none` is a matching or an input failure. -/
def scanInt (s : List Byte) : Option (Int × List Byte) :=
  match skipSpace s with
  | [] => none
  | b :: t =>
    if b = 45#8 then (scanNat t).map fun r => (-(r.1 : Int), r.2)
    else if b = 43#8 then (scanNat t).map fun r => ((r.1 : Int), r.2)
    else (scanNat (b :: t)).map fun r => ((r.1 : Int), r.2)

/-- `%u` or `%hu` into an uninitialised variable that is read afterwards. -/
def scanU (bits : Nat) (s : List Byte) : Except Fault (Nat × List Byte) :=
  match scanInt s with
  | none => .error .uninit
  | some (z, t) => if 0 ≤ z ∧ z < 2 ^ bits then .ok (z.toNat, t) else .error .range

/-- Conversion of a `float` to `uint8_t`. -/
def toByte (q : ℚ) : Except Fault Byte :=
  if -1 < q ∧ q < 256 then .ok (BitVec.ofNat 8 ⌊q⌋.toNat) else .error .conv

/-- `(uint8_t)((v/depth)*255)`, ppm.c:130-132. -/
def sample8 (v d : Nat) : Except Fault Byte :=
  if d = 0 then .error .conv else toByte (fl (fl ((v : ℚ) / d) * 255))

/-- `(uint8_t)(CLAMP((v/depth), 0.f, 1.f)*255)`, ppm.c:96-102 and 157-163.  The macro (line 6) has no
parentheses around its expansion: the factor belongs to the last alternative only.
Zero depth: infinity is above one, NaN takes the last alternative. -/
def sampleClamp (v d : Nat) : Except Fault Byte :=
  if d = 0 then (if v = 0 then .error .conv else toByte 1)
  else if fl ((v : ℚ) / d) < 0 then toByte 0
  else if 1 < fl ((v : ℚ) / d) then toByte 1
  else toByte (fl (fl ((v : ℚ) / d) * 255))

/-- One pixel of three bytes, ppm.c:130-136. -/
def pixel8 (d : Nat) (row : List Byte) : Except Fault Pixel := do
  let r ← sample8 (row.getD 0 0).toNat d
  let g ← sample8 (row.getD 1 0).toNat d
  let b ← sample8 (row.getD 2 0).toNat d
  pure (mk r g b)

/-- One pixel of three 16-bit samples, ppm.c:154-167. -/
def pixel16 (d : Nat) (row : List Byte) : Except Fault Pixel := do
  let r ← sampleClamp (big16 (rd16 row 0)).toNat d
  let g ← sampleClamp (big16 (rd16 row 2)).toNat d
  let b ← sampleClamp (big16 (rd16 row 4)).toNat d
  pure (mk r g b)

/-- The loop over `x`, ppm.c:126-138 and 150-169: `w` pixels of `step` bytes. -/
def decodeRow (px : List Byte → Except Fault Pixel) (step : Nat) : Nat → List Byte → Except Fault (List Pixel)
  | 0, _ => .ok []
  | n + 1, row => do
    let p ← px row
    let ps ← decodeRow px step n (row.drop step)
    pure (p :: ps)

/-- The loop over `y`, ppm.c:123-140 and 147-171.  The number of bytes requested is computed from the 32-bit
product `width*3`, `k` is the size of a sample; `fread` of zero bytes returns zero. -/
def rowLoop (px : List Byte → Except Fault Pixel) (k w : Nat) : Nat → List Byte → Except Fault (List Pixel)
  | 0, _ => .ok []
  | h + 1, s =>
    let n := k * (w * 3 % 2 ^ 32)
    if n = 0 ∨ s.length < n then .ok []
    else if 2 ^ 32 ≤ w * 3 then .error .uninit
    else do
      let ps ← decodeRow px (k * 3) w (s.take n)
      let qs ← rowLoop px k w h (s.drop n)
      pure (ps ++ qs)

/-- State of the ASCII reader: unread input, `val`, `num_val`. -/
structure Text where
  rest : List Byte
  val : Option (List Byte)
  num : Option Nat

/-- `fscanf("%5s", val); sscanf(val, "%hu", &num_val)` and the conversion, e.g. ppm.c:94-96. -/
def textSample (d : Nat) (t : Text) : Except Fault (Byte × Text) := do
  let s := skipSpace t.rest
  let tok := (s.takeWhile fun b => !isSpace b).take 5
  let t1 : Text := if tok.isEmpty then { t with rest := s } else { t with rest := s.drop tok.length, val := some tok }
  match t1.val with
  | none => .error .uninit
  | some v =>
    let t2 ← match scanInt v with
      | none => pure t1
      | some (z, _) => if 0 ≤ z ∧ z < 2 ^ 16 then pure { t1 with num := some z.toNat } else .error .range
    match t2.num with
    | none => .error .uninit
    | some n =>
      let b ← sampleClamp n d
      pure (b, t2)

/-- The loop over the pixels of an ASCII file, ppm.c:91-106. -/
def textLoop (d : Nat) : Nat → Text → Except Fault (List Pixel)
  | 0, _ => .ok []
  | n + 1, t => do
    let r ← textSample d t
    let g ← textSample d r.2
    let b ← textSample d g.2
    let ps ← textLoop d n b.2
    pure (mk r.1 g.1 b.1 :: ps)

/-- `ppm_read`, ppm.c:64-180: return value and the pixels stored. -/
def read (f : List Byte) : Except Fault (Bool × List Pixel) :=
  match f with
  | m0 :: m1 :: s =>
    if m0 = 80#8 then do
      let w ← scanU 32 s
      let h ← scanU 32 w.2
      let d ← scanU 16 h.2
      if m1 = 51#8 then do
        let ps ← textLoop d.1 (w.1 * h.1 % 2 ^ 32) ⟨d.2, none, none⟩
        pure (true, ps)
      else if m1 = 54#8 then do
        let ps ← if d.1 ≤ 255 then rowLoop (pixel8 d.1) 1 w.1 h.1 (d.2.drop 1)
          else rowLoop (pixel16 d.1) 2 w.1 h.1 (d.2.drop 1)
        pure (decide (ps.length % 2 ^ 32 = w.1 * h.1 % 2 ^ 32), ps)
      else pure (false, [])
    else pure (false, [])
  | _ => .error .uninit

/-- `ppm_dimensions`, ppm.c:32-48: `none` if rejected; a component that is not scanned is left as it was. -/
def dimensions (f : List Byte) (w0 h0 : Int) : Except Fault (Option (Int × Int)) :=
  match f with
  | m0 :: m1 :: s =>
    if m0 = 80#8 ∧ (m1 = 51#8 ∨ m1 = 54#8) then
      match scanInt s with
      | none => .ok (some (w0, h0))
      | some (w, t) =>
        if -2 ^ 31 ≤ w ∧ w < 2 ^ 31 then
          match scanInt t with
          | none => .ok (some (w, h0))
          | some (h, _) => if -2 ^ 31 ≤ h ∧ h < 2 ^ 31 then .ok (some (w, h)) else .error .range
        else .error .range
    else .ok none
  | _ => .error .uninit

/-- `%d` of a natural number. -/
def dec (n : Nat) : List Byte :=
  if n < 10 then [BitVec.ofNat 8 (48 + n)] else dec (n / 10) ++ [BitVec.ofNat 8 (48 + n % 10)]
termination_by n

/-- The three bytes of a pixel, ppm.c:20-24. -/
def pixelBytes (p : Pixel) : List Byte := [red p, green p, blue p]

/-- `ppm_write`, ppm.c:8-30, for non-negative sizes: file and return value.  `none`: undefined (overflow of
`width*height*3`, or a read outside of the array). -/
def write (w h : Nat) (data : List Pixel) : Option (List Byte × Bool) :=
  if w < 2 ^ 31 ∧ h < 2 ^ 31 ∧ w * h * 3 < 2 ^ 31 ∧ w * h ≤ data.length then
    some ([80#8, 54#8, 32#8] ++ dec w ++ [32#8] ++ dec h ++ [32#8, 50#8, 53#8, 53#8, 32#8] ++
      (data.take (w * h)).flatMap pixelBytes,
      decide (((data.take (w * h)).flatMap pixelBytes).length = w * h * 3))
  else none

end Spectre.Ppm
