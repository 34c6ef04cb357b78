import Mathlib.Algebra.Order.Field.Basic
import Mathlib.Order.BoundedOrder.Lattice
import Mathlib.Order.WithBot

/-
Model of `src/geometry/AABB.cpp` and of `RayProperties` (src/geometry/ray.hpp:111-141).

Coordinates are indexed by `Fin 3` (x, y, z).  The combination operations only compare numbers, so
they are modelled over an arbitrary linear order (with end points for the infinities of the empty
box).  The slab test is modelled in exact arithmetic over an ordered field `K`, for rays whose
direction components are all non-zero (otherwise the C++ code computes with infinities and NaN).
-/

namespace Spectre.AABB

/-- `Point3 bounds[2]`, AABB.hpp. -/
structure Box (L : Type) where
  lo : Fin 3 → L
  hi : Fin 3 → L

/-- `min(float,float)`, utility.hpp:112-115: `f1<f2?f1:f2`. -/
def fmin {L : Type} [LinearOrder L] (a b : L) : L := if a < b then a else b

/-- `max(float,float)`, utility.hpp:126-129: `f1>f2?f1:f2`. -/
def fmax {L : Type} [LinearOrder L] (a b : L) : L := if b < a then a else b

/-- Default constructor: the empty box (+inf, -inf), AABB.cpp:6-10. -/
def empty {L : Type} [LinearOrder L] [BoundedOrder L] : Box L := ⟨fun _ => ⊤, fun _ => ⊥⟩

/-- Constructor from one point, AABB.cpp:12-16. -/
def ofPoint {L : Type} (p : Fin 3 → L) : Box L := ⟨p, p⟩

/-- `engulf(const Point3&)` and `operator+(const Point3&)`, AABB.cpp:36-46, 187-192, 202-206;
`min`/`max` on points are componentwise, point3.hpp:198-218. -/
def engulfPoint {L : Type} [LinearOrder L] (b : Box L) (p : Fin 3 → L) : Box L :=
  ⟨fun i => fmin (b.lo i) (p i), fun i => fmax (b.hi i) (p i)⟩

/-- `engulf(const AABB&)` and `operator+(const AABB&)`, AABB.cpp:48-58, 194-200, 208-212. -/
def engulf {L : Type} [LinearOrder L] (a b : Box L) : Box L :=
  ⟨fun i => fmin (a.lo i) (b.lo i), fun i => fmax (a.hi i) (b.hi i)⟩

/-- `inside`, AABB.cpp:60-65. -/
def inside {L : Type} [LinearOrder L] (b : Box L) (p : Fin 3 → L) : Bool :=
  decide (b.lo 0 ≤ p 0) && decide (p 0 ≤ b.hi 0) && decide (b.lo 1 ≤ p 1) && decide (p 1 ≤ b.hi 1) &&
    decide (b.lo 2 ≤ p 2) && decide (p 2 ≤ b.hi 2)

variable {K : Type} [Field K] [LinearOrder K] [IsStrictOrderedRing K]

/-- `surface`, AABB.cpp:67-71. -/
def surface (b : Box K) : K :=
  let dx := b.hi 0 - b.lo 0
  let dy := b.hi 1 - b.lo 1
  let dz := b.hi 2 - b.lo 2
  2 * (dx * dy + dx * dz + dy * dz)

/-- `volume`, AABB.cpp:73-77. -/
def volume (b : Box K) : K :=
  (b.hi 0 - b.lo 0) * (b.hi 1 - b.lo 1) * (b.hi 2 - b.lo 2)

/-- `longest_axis`, AABB.cpp:79-88. -/
def longestAxis (b : Box K) : Fin 3 :=
  let dx := b.hi 0 - b.lo 0
  let dy := b.hi 1 - b.lo 1
  let dz := b.hi 2 - b.lo 2
  if dy ≤ dx ∧ dz ≤ dx then 0 else if dz ≤ dy then 1 else 2

/-- `center`, AABB.cpp:90-95. -/
def center (b : Box K) : Fin 3 → K := fun i => (b.lo i + b.hi i) * (1 / 2)

/-- `class Ray` (origin, direction), ray.hpp. -/
structure Ray (K : Type) where
  o : Fin 3 → K
  d : Fin 3 → K

/-- Slab parameters of one axis: `(bounds[isInvNeg]-origin)*inverse` and
`(bounds[1-isInvNeg]-origin)*inverse` with `inverse = 1/direction`; AABB.cpp:158-161, 170-171 and
ray.hpp:121-126. -/
def slab (b : Box K) (r : Ray K) (i : Fin 3) : K × K :=
  let inv := 1 / r.d i
  if inv < 0 then ((b.hi i - r.o i) * inv, (b.lo i - r.o i) * inv)
  else ((b.lo i - r.o i) * inv, (b.hi i - r.o i) * inv)

/-- One refinement `if(mint>maxyt || minyt>maxt) return false; if(minyt>mint) mint = minyt;
if(maxyt<maxt) maxt = maxyt;`, AABB.cpp:163-168 and 173-178. -/
def clip (cur : K × K) (s : K × K) : Option (K × K) :=
  if s.2 < cur.1 ∨ cur.2 < s.1 then none
  else some (if cur.1 < s.1 then s.1 else cur.1, if s.2 < cur.2 then s.2 else cur.2)

/-- `intersect(const Ray*, const RayProperties*, float*, float*)`, AABB.cpp:153-182.  `none` is the
return value `false`. -/
def intersect (b : Box K) (r : Ray K) : Option (K × K) :=
  (clip (slab b r 0) (slab b r 1)).bind fun c => clip c (slab b r 2)

/-- Slab of the variant that recomputes the divisions, AABB.cpp:100-122, 131-140: the order of the
bounds follows the sign of the direction. -/
def slab' (b : Box K) (r : Ray K) (i : Fin 3) : K × K :=
  let inv := 1 / r.d i
  if 0 ≤ r.d i then ((b.lo i - r.o i) * inv, (b.hi i - r.o i) * inv)
  else ((b.hi i - r.o i) * inv, (b.lo i - r.o i) * inv)

/-- `intersect(const Ray*, float*, float*)`, AABB.cpp:97-151. -/
def intersectNoProps (b : Box K) (r : Ray K) : Option (K × K) :=
  (clip (slab' b r 0) (slab' b r 1)).bind fun c => clip c (slab' b r 2)

/-- `operator==`, AABB.cpp:234-237: compares surfaces only. -/
def eqOp (a b : Box K) : Prop := surface a = surface b

end Spectre.AABB
