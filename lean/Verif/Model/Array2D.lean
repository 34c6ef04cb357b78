/-
Model of `src/utility/array2D.hpp` (class template `Array2D<T>`).

Integers are modelled exactly: `uint32_t` and `int` are `BitVec 32` with
wrap-around.  The heap block is a list of cells; an access outside the block is
undefined behaviour in C++ and is the outcome `none` here.
Not modelled: `malloc` failure, and the byte size product `sizeof(T)*side*side`
(a 64-bit `size_t`); the block has `side*side` cells.
-/

namespace Spectre.Array2D

/-- `LOG_BS`, array2D.hpp:23 (release value; the test build uses 3). -/
def logBS : Nat := 5

/-- `BLOCK_SIDE = 1<<LOG_BS`, array2D.hpp:28. -/
def blockSide : Nat := 2 ^ logBS

/-- Bit smearing `side |= side>>1; ... side |= side>>16`, array2D.hpp:94-98. -/
def smear (v : BitVec 32) : BitVec 32 :=
  let v := v ||| v >>> 1
  let v := v ||| v >>> 2
  let v := v ||| v >>> 4
  let v := v ||| v >>> 8
  v ||| v >>> 16

/-- Rounding of the requested side, array2D.hpp:88-101 (also 123-137). -/
def ctorSide (side : BitVec 32) : BitVec 32 :=
  let side := if side < BitVec.ofNat 32 blockSide then BitVec.ofNat 32 blockSide else side
  if side &&& (side - 1) ≠ 0 then
    let s := smear (side - 1) + 1
    if s = 0 then s + 1 else s
  else side

/-- The object: `blocks_no_side` and the heap block (array2D.hpp:228-231). -/
structure Arr (α : Type) where
  blocks : BitVec 32
  data : List α

/-- Constructor `Array2D(uint32_t side)`, array2D.hpp:85-104.  `malloc` leaves the
cells indeterminate: `junk` is an arbitrary content. -/
def mk (side : BitVec 32) (junk : Nat → α) : Arr α :=
  let s := ctorSide side
  { blocks := s >>> logBS, data := (List.range (s.toNat * s.toNat)).map junk }

/-- Address computation of `get`/`set`, array2D.hpp:172-180.
`x,y` are `int`; `yblock*blocks_no_side+xblock` is computed in `uint32_t` because
`blocks_no_side` is unsigned, and the product by `BLOCK_SIDE*BLOCK_SIDE` too; the
conversion back to `int` reinterprets the bits. -/
def address (blocks x y : BitVec 32) : Int :=
  let xblock := x.sshiftRight logBS
  let yblock := y.sshiftRight logBS
  let mask : BitVec 32 := BitVec.ofNat 32 (blockSide - 1)
  let xoffset := x &&& mask
  let yoffset := y &&& mask
  let blockOffset : BitVec 32 := BitVec.ofNat 32 (blockSide * blockSide) * (yblock * blocks + xblock)
  let dataOffset : BitVec 32 := BitVec.ofNat 32 blockSide * yoffset + xoffset
  blockOffset.toInt + dataOffset.toInt

/-- `get`, array2D.hpp:169-181; `none` = read outside the heap block. -/
def Arr.get (a : Arr α) (x y : BitVec 32) : Option α :=
  let i := address a.blocks x y
  if 0 ≤ i then a.data[i.toNat]? else none

/-- `set`, array2D.hpp:190-202; `none` = write outside the heap block. -/
def Arr.set (a : Arr α) (x y : BitVec 32) (v : α) : Option (Arr α) :=
  let i := address a.blocks x y
  if 0 ≤ i ∧ i.toNat < a.data.length then
    some { a with data := a.data.set i.toNat v }
  else none

/-- A sequence of `set` calls. -/
def Arr.sets (a : Arr α) : List (BitVec 32 × BitVec 32 × α) → Option (Arr α)
  | [] => some a
  | (x, y, v) :: ops => (a.set x y v).bind fun a' => a'.sets ops

/-- The element count `blocks_no_side*blocks_no_side*BLOCK_SIDE*BLOCK_SIDE`, evaluated in
`uint32_t` before being widened to `size_t`; array2D.hpp:150, 208, 218. -/
def Arr.arrayLen (a : Arr α) : Nat :=
  (a.blocks * a.blocks * BitVec.ofNat 32 blockSide * BitVec.ofNat 32 blockSide).toNat

/-- `zero_out`, array2D.hpp:216-220: `memset` of the first `arrayLen` cells. -/
def Arr.zeroOut (a : Arr α) (zero : α) : Arr α :=
  { a with data := (a.data.mapIdx fun i v => if i < a.arrayLen then zero else v) }

/-- Copy constructor / assignment, array2D.hpp:147-154, 205-213: allocates and copies
`arrayLen` cells. -/
def Arr.copy (a : Arr α) : Arr α :=
  { blocks := a.blocks, data := a.data.take a.arrayLen }

/-- The row-major list of `set` calls issued by the second constructor,
array2D.hpp:141-143 (`values[y*old_side+x]`; `values` is the caller's array). -/
def ctorWrites (side : Nat) (values : Nat → α) : List (BitVec 32 × BitVec 32 × α) :=
  (List.range side).flatMap fun y =>
    (List.range side).map fun x =>
      (BitVec.ofNat 32 x, BitVec.ofNat 32 y, values (y * side + x))

/-- Constructor `Array2D(const T* values, uint32_t side)`, array2D.hpp:118-144. -/
def mkValues (side : BitVec 32) (values : Nat → α) (junk : Nat → α) : Option (Arr α) :=
  (mk side junk).sets (ctorWrites side.toNat values)

end Spectre.Array2D
