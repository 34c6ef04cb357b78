import Verif.Model.Float32
import Mathlib.Data.Nat.Sqrt
import Mathlib.Data.Nat.Log

/-
The checks of the scene settings, /repo/src/parsers/config_driver.cpp:131-158, the formatting of durations,
/repo/src/utility/utility.cpp:6-35, and the scalar helpers, /repo/src/utility/utility.hpp:115-260.

`none` is undefined behaviour (signed overflow, a conversion out of range, a division by zero, a write out of
bounds).
-/

namespace Spectre.Config

/-- `INT_MAX`. -/
def intMax : Nat := 2 ^ 31 - 1

/-! ### Samples per pixel -/

/-- `n / 2^k` rounded to the nearest integer, ties to even. -/
def roundHE (n k : Nat) : Nat :=
  let q := n / 2 ^ k
  let r := n % 2 ^ k
  if 2 ^ k < 2 * r ∨ (2 * r = 2 ^ k ∧ q % 2 = 1) then q + 1 else q

/-- `(float)n` for a non-negative `int`: 24 significant bits, ties to even.  The result is an integer. -/
def toF32 (n : Nat) : Nat :=
  if n < 2 ^ 24 then n
  else
    let k := Nat.log 2 n - 23
    roundHE n k * 2 ^ k

/-- The square root of `m` rounded to the nearest integer (`√m` is never half way). -/
def roundSqrt (m : Nat) : Nat := if Nat.sqrt m * Nat.sqrt m + Nat.sqrt m < m then Nat.sqrt m + 1 else Nat.sqrt m

/-- The number of fractional bits of a binary32 number in the binade of `√n`. -/
def fracBits (n : Nat) : Nat := 23 - Nat.log 2 n / 2

/-- `sqrtf` of the positive integer `n < 2^46`, correctly rounded: the significand, in units of `2^-fracBits n`. -/
def sqrtSig (n : Nat) : Nat := roundSqrt (n * 4 ^ fracBits n)

/-- `(int)root` of `root = sqrtf((float)spp)`. -/
def rootInt (spp : Nat) : Nat := sqrtSig (toF32 spp) / 2 ^ fracBits (toF32 spp)

/-- `root + .5f` in units of `2^-fracBits`: when the sum needs a 25th bit it is rounded to an even number. -/
def rootHalf (spp : Nat) : Nat :=
  let s := sqrtSig (toF32 spp) + 2 ^ (fracBits (toF32 spp) - 1)
  if s < 2 ^ 24 then s else roundHE s 1 * 2

/-- `check_spp` for the stratified sampler and a positive number of samples, config_driver.cpp:145-158. -/
def checkSpp (spp : Nat) : Option Nat :=
  if rootInt spp * rootInt spp = spp then some spp
  else
    let k := rootHalf spp / 2 ^ fracBits (toF32 spp)
    if k * k ≤ intMax then some (k * k) else none

/-! ### Resolution -/

/-- `check_resolution`, config_driver.cpp:131-143, for non-negative `width` and `height`.  The quotient of a zero
height is infinite and 0 is added. -/
def checkResolution (width height : Nat) : Option (Nat × Nat) :=
  let rem := width % 32
  if rem = 0 then some (width, height)
  else
    let aspect := fl (fl width / fl height)
    let add : ℚ := if height = 0 then 0 else fl (((32 - rem : Nat) : ℚ) / aspect)
    let w := width + (32 - rem)
    if w ≤ intMax then
      if add < 2 ^ 31 then
        let h := height + ⌊add⌋₊
        if h ≤ intMax then
          if h % 2 = 1 then if h + 1 ≤ intMax then some (w, h + 1) else none
          else some (w, h)
        else none
      else none
    else none

/-! ### Durations -/

/-- `%d` of a non-negative number. -/
def dec (n : Nat) : List Char := if n < 10 then [Nat.digitChar n] else dec (n / 10) ++ [Nat.digitChar (n % 10)]

/-- One part: `snprintf(out, 17, "%d<unit> ", n)`. -/
def part (n : Nat) (unit : Char) : List Char := if n = 0 then [] else dec n ++ [unit, ' ']

/-- `format_seconds`, utility.cpp:6-35: the characters written without the terminator; the messages are those of
localization.h:111-114.  The buffer has `MAX_TIME_FORMAT_LENGTH = 17` bytes (renderer.cpp:135); a longer text is
written out of bounds because every `snprintf` is given the size of the whole buffer. -/
def formatSeconds (secs : Nat) : Option (List Char) :=
  if 8640000 ≤ secs then some "more than 100d".toList
  else if secs = 0 then some "less than 1s".toList
  else
    let mins := secs / 60
    let s := secs % 60
    let hours := mins / 60
    let mins := mins % 60
    let days := hours / 24
    let hours := hours % 24
    let out := part days 'd' ++ part hours 'h' ++ part mins 'm' ++ part s 's'
    if out.length + 1 ≤ 17 then some out else none

/-! ### Scalars -/

section
variable {K : Type} [Field K] [LinearOrder K] [IsStrictOrderedRing K]

/-- `min`, utility.hpp:115-118. -/
def fmin (a b : K) : K := if a < b then a else b
/-- `max`, utility.hpp:129-132. -/
def fmax (a b : K) : K := if b < a then a else b
/-- `clamp`, utility.hpp:172-180. -/
def clamp (v lo hi : K) : K := if v < lo then lo else if hi < v then hi else v
/-- `lerp`, utility.hpp:192-195. -/
def lerp (v lo hi : K) : K := (1 - v) * lo + v * hi
/-- `inverse_lerp`, utility.hpp:207-210; exact arithmetic, so `none` where the code divides by zero. -/
def inverseLerp (v lo hi : K) : Option K := if hi - lo = 0 then none else some ((v - lo) / (hi - lo))
/-- `sign`, utility.hpp:235-238. -/
def sign (a : K) : Int := if 0 ≤ a then 1 else -1
/-- `flt_equal`, utility.hpp:222-225, with `EPSILON`. -/
def fltEqual (eps a b : K) : Bool := decide (|a - b| ≤ eps)
/-- `equation1`, utility.hpp:266-276 (release build). -/
def equation1 (a b : K) : Option K := if a = 0 then none else some (-b / a)

end

/-- `nearest_uint`, utility.hpp:251-255: 32-bit words; `res%multiple` is computed on `unsigned`. -/
def nearestUint (num multiple : BitVec 32) : Option (BitVec 32) :=
  if multiple = 0 then none
  else
    let res := num + multiple / 2
    some (res - res % multiple)

end Spectre.Config
