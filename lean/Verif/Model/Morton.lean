import Verif.Model.Float32

/-
Model of the Morton code of `src/accelerators/bvh.cpp`.
`uint64_t` is `BitVec 64`.
-/

namespace Spectre.Morton

/-- One smear step `(val | val << k) & m`. -/
def smearStep (k : Nat) (m : BitVec 64) (v : BitVec 64) : BitVec 64 := (v ||| v <<< k) &&& m

/-- `expand`, bvh.cpp:90-100. -/
def expand (val : BitVec 64) : BitVec 64 :=
  let val := val &&& 0x1FFFFF#64
  let val := smearStep 32 0x1F00000000FFFF#64 val
  let val := smearStep 16 0x1F0000FF0000FF#64 val
  let val := smearStep 8 0x100F00f00F00F00F#64 val
  let val := smearStep 4 0x10C30C30C30C30C3#64 val
  smearStep 2 0x1249249249249249#64 val

/-- `mortonCode` without BMI2, bvh.cpp:111-115, on the integer grid coordinates. -/
def mortonShift (x y z : BitVec 64) : BitVec 64 :=
  expand x ||| (expand y <<< 1) ||| (expand z <<< 2)

/-- Number of set bits of `m` below position `i`. -/
def rank (m : BitVec 64) (i : Nat) : Nat :=
  (List.range i).countP fun j => m.getLsbD j

/-- The instruction `_pdep_u64(v, m)`: the low bits of `v` are scattered, in order, to the set
positions of `m`; the other bits of the result are 0. -/
def pdep (v m : BitVec 64) : BitVec 64 :=
  BitVec.setWidth 64 (BitVec.ofBoolListLE
    ((List.range 64).map fun i => m.getLsbD i && v.getLsbD (rank m i)))

/-- `mortonCode` with BMI2, bvh.cpp:119-121. -/
def mortonPdep (x y z : BitVec 64) : BitVec 64 :=
  pdep x 0x9249249249249249#64 ||| pdep y 0x2492492492492492#64 ||| pdep z 0x4924924924924924#64

/-- Grid coordinate of a centroid along one axis in binary32: `(c-lo)` (Point3 difference),
multiplied by the reciprocal extent `1.f/(hi-lo)`, multiplied by `0x1FFFFF`, truncated to
`uint64_t`; bvh.cpp:105, 111, 328-337.  A zero extent makes the reciprocal infinite and the
product `0*inf` a NaN, whose conversion to an integer is undefined: outcome `none`. -/
def gridCoord (c lo hi : ℚ) : Option ℤ :=
  if fl (hi - lo) = 0 then none
  else some ⌊fl (fl (fl (c - lo) * fl (1 / fl (hi - lo))) * 2097151)⌋

end Spectre.Morton
