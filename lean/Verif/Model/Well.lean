/-
Model of `src/utility/wellrng.cpp` (class `WELLrng`, WELL1024a generator).

`unsigned int` words are `BitVec 32`.  The index `state_i` is `Fin 32`: the constructor sets it to
0 and every update masks it with `0x1F`, and `Fin 32` addition is addition followed by that mask.
-/

namespace Spectre.Well

/-- Fields `state_i` and `state[WELL_R]`, wellrng.hpp:58-59.  The scratch members `z0,z1,z2`
are overwritten before being read in each call and are local here. -/
structure State where
  i : Fin 32
  s : Fin 32 → BitVec 32

/-- Constructor, wellrng.cpp:12-19. -/
def seed (w : Fin 32 → BitVec 32) : State := { i := 0, s := w }

/-- `x ^ (x << k)`, the shape used at wellrng.cpp:26-31. -/
def xl (k : Nat) (x : BitVec 32) : BitVec 32 := x ^^^ (x <<< k)

/-- `x ^ (x >> k)`, the shape used at wellrng.cpp:24-25. -/
def xr (k : Nat) (x : BitVec 32) : BitVec 32 := x ^^^ (x >>> k)

/-- Array write `state[j] = v`. -/
def upd (s : Fin 32 → BitVec 32) (j : Fin 32) (v : BitVec 32) : Fin 32 → BitVec 32 :=
  fun k => if k = j then v else s k

/-- The state change of `getNumber`, wellrng.cpp:23-33, statement by statement. -/
def step (st : State) : State :=
  let z0 := st.s (st.i + 31)
  let z1 := st.s st.i ^^^ xr 8 (st.s (st.i + 3))
  let z2 := xl 19 (st.s (st.i + 24)) ^^^ xl 14 (st.s (st.i + 10))
  let s1 := upd st.s st.i (z1 ^^^ z2)
  let s2 := upd s1 (st.i + 31) (xl 11 z0 ^^^ xl 7 z1 ^^^ xl 13 z2)
  { i := st.i + 31, s := s2 }

/-- The integer `state[state_i]` converted to float by `getNumber`, wellrng.cpp:34,
read after the update. -/
def word (st : State) : BitVec 32 := st.s st.i

/-- State after `n` draws. -/
def run (st : State) : Nat → State
  | 0 => st
  | n + 1 => step (run st n)

/-- Integer produced by draw number `n` (0-based). -/
def draw (st : State) (n : Nat) : BitVec 32 := word (run st (n + 1))

/-- `(float)u` for a 32-bit unsigned integer under the default IEEE-754 binary32 rounding
(round to nearest, ties to even); the result is an integer below `2^32+1` and is given exactly.
wellrng.cpp:34. -/
def toFloat32 (u : BitVec 32) : Nat :=
  let n := u.toNat
  if n < 2 ^ 24 then n else
    let e := n.log2 - 23
    let q := n / 2 ^ e
    let r := n % 2 ^ e
    let half := 2 ^ (e - 1)
    if r < half ∨ (r = half ∧ q % 2 = 0) then q * 2 ^ e else (q + 1) * 2 ^ e

/-- The constant `2.32830643653869628906e-10f` is `2^-32`; the product is a scaling by a power of
two, hence exact (no underflow: the smallest non-zero value is `2^-32`).  The returned float is
`numerator / 2^32`.  wellrng.cpp:34. -/
def numerator (u : BitVec 32) : Nat := toFloat32 u

end Spectre.Well
