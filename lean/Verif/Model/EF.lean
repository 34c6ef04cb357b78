import Verif.Model.AABB

/-
Exact numbers extended with the two infinities and NaN.

Some routines of the renderer divide by direction components that may be zero and rely on the IEEE
rules for infinities.  `EF K` keeps these special values while the finite part is computed exactly in
the ordered field `K` (no rounding).  Simplifications: there is one zero, so `1/0` is always `+inf`
(the reciprocal of a negative zero would be `-inf`), and no overflow to infinity.
-/

namespace Spectre

/-- Extended number. -/
inductive EF (K : Type) where
  | nan
  | ninf
  | fin (q : K)
  | pinf
deriving DecidableEq

namespace EF
variable {K : Type} [Field K] [LinearOrder K] [IsStrictOrderedRing K]

/-- IEEE `<`: false as soon as one operand is NaN. -/
def lt : EF K → EF K → Bool
  | nan, _ => false
  | _, nan => false
  | ninf, ninf => false
  | ninf, _ => true
  | fin _, ninf => false
  | fin a, fin b => decide (a < b)
  | fin _, pinf => true
  | pinf, _ => false

/-- IEEE `<=`. -/
def le : EF K → EF K → Bool
  | nan, _ => false
  | _, nan => false
  | ninf, _ => true
  | fin _, ninf => false
  | fin a, fin b => decide (a ≤ b)
  | fin _, pinf => true
  | pinf, pinf => true
  | pinf, _ => false

/-- `1.f/x` for a finite `x`. -/
def recip (x : K) : EF K := if x = 0 then pinf else fin (1 / x)

/-- Product of a finite number and an extended one (`x * inf` is NaN for `x = 0`). -/
def mulFin (x : K) : EF K → EF K
  | nan => nan
  | fin y => fin (x * y)
  | pinf => if x = 0 then nan else if 0 < x then pinf else ninf
  | ninf => if x = 0 then nan else if 0 < x then ninf else pinf

end EF

namespace AABB
variable {K : Type} [Field K] [LinearOrder K] [IsStrictOrderedRing K]

/-- Slab parameters of one axis as in `AABB.slab`, but for any direction; AABB.cpp:158-161, 170-171,
ray.hpp:121-126. -/
def slabE (b : Box K) (r : Ray K) (i : Fin 3) : EF K × EF K :=
  let inv := EF.recip (r.d i)
  if EF.lt inv (EF.fin 0) then (EF.mulFin (b.hi i - r.o i) inv, EF.mulFin (b.lo i - r.o i) inv)
  else (EF.mulFin (b.lo i - r.o i) inv, EF.mulFin (b.hi i - r.o i) inv)

/-- Refinement step with IEEE comparisons, AABB.cpp:163-168 and 173-178. -/
def clipE (cur : EF K × EF K) (s : EF K × EF K) : Option (EF K × EF K) :=
  if EF.lt s.2 cur.1 || EF.lt cur.2 s.1 then none
  else some (if EF.lt cur.1 s.1 then s.1 else cur.1, if EF.lt s.2 cur.2 then s.2 else cur.2)

/-- `AABB::intersect` with precomputed ray properties for any direction, AABB.cpp:153-182. -/
def intersectE (b : Box K) (r : Ray K) : Option (EF K × EF K) :=
  (clipE (slabE b r 0) (slabE b r 1)).bind fun c => clipE c (slabE b r 2)

end AABB
end Spectre
