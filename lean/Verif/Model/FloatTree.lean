import Verif.Model.Ieee
import Verif.Model.KdTree

/-
The ray-box test (src/geometry/AABB.cpp, src/geometry/ray.hpp) and the traversal of the kd-tree
(src/accelerators/kdtree.cpp) in binary32, with rounding, overflow, signed zeros, infinities and NaN.

Boxes and split planes are finite floats, given by their value; the sign of a zero coordinate is dropped (it changes
only the sign of zero distances, which no comparison sees).  The build is that of Model/KdTree.lean over ℚ: it copies
and compares coordinates, which is exact, and leaves the choice of the splits open.
-/

namespace Spectre.FTree

open Spectre.AABB F32
open Spectre.KdTree (Node Kd Err)

/-- A finite float with a given value. -/
def ofQ (q : ℚ) : F32 := if q = 0 then zero false else num q

/-- `<=` on floats. -/
def leF (a b : F32) : Bool := lt a b || eq a b

/-- `Ray`, ray.hpp: origin and direction. -/
structure FRay where
  o : Fin 3 → F32
  d : Fin 3 → F32

/-- `RayProperties::inverseX` and so on, ray.hpp:121-123. -/
def FRay.inv (r : FRay) (i : Fin 3) : F32 := div (num 1) (r.d i)

/-- `RayProperties::isXInvNeg` and so on, ray.hpp:124-126. -/
def FRay.isNeg (r : FRay) (i : Fin 3) : Bool := lt (r.inv i) (zero false)

/-- Distance of the plane with coordinate `x` on axis `i`, AABB.cpp:158-161, 170-171; kdtree.cpp:442-443. -/
def FRay.plane (r : FRay) (i : Fin 3) (x : ℚ) : F32 := mul (sub (ofQ x) (r.o i)) (r.inv i)

/-- Entry and exit of one axis, AABB.cpp:158-161, 170-171. -/
def slab (b : Box ℚ) (r : FRay) (i : Fin 3) : F32 × F32 :=
  if r.isNeg i then (r.plane i (b.hi i), r.plane i (b.lo i)) else (r.plane i (b.lo i), r.plane i (b.hi i))

/-- Refinement with the next axis, AABB.cpp:163-168 and 173-178. -/
def clip (cur s : F32 × F32) : Option (F32 × F32) :=
  if lt s.2 cur.1 || lt cur.2 s.1 then none
  else some (if lt cur.1 s.1 then s.1 else cur.1, if lt s.2 cur.2 then s.2 else cur.2)

/-- `AABB::intersect` with ray properties, AABB.cpp:153-182. -/
def boxTest (b : Box ℚ) (r : FRay) : Option (F32 × F32) :=
  (clip (slab b r 0) (slab b r 1)).bind fun c => clip c (slab b r 2)

/-- `FLT_MAX`. -/
def fltMax : F32 := num (2 ^ 128 - 2 ^ 104)

/-- `KdTravNode`, kdtree.cpp:117-122. -/
structure Job where
  node : Nat
  mint : F32
  maxt : F32

variable {A : Type}

/-- Loop over the assets of a leaf, kdtree.cpp:484-499; `isect a best` is the virtual call
`asset->intersect(r, &best, h)`: `some t` when it returns true and sets the distance to `t`. -/
def leafLoop (box : A → Box ℚ) (r : FRay) (isect : A → F32 → Option F32) :
    List A → F32 × Option A → F32 × Option A
  | [], s => s
  | a :: l, s =>
    match boxTest (box a) r with
    | none => leafLoop box r isect l s
    | some (res1, _) =>
      if lt res1 s.1 then
        match isect a s.1 with
        | some t => leafLoop box r isect l (t, some a)
        | none => leafLoop box r isect l s
      else leafLoop box r isect l s

/-- `leftBelow`, kdtree.cpp:448-450. -/
def FRay.leftBelow (r : FRay) (ax : Fin 3) (x : ℚ) : Bool :=
  lt (r.o ax) (ofQ x) || (eq (r.o ax) (ofQ x) && leF (r.d ax) (zero false))

/-- Main loop of `intersect`, kdtree.cpp:433-512, with a bound on the number of iterations. -/
def traverse (box : A → Box ℚ) (assets : List A) (nodes : List (Node ℚ)) (r : FRay)
    (isect : A → F32 → Option F32) :
    Nat → Job → List Job → F32 × Option A → Except Err (F32 × Option A)
  | 0, _, _, _ => .error .fuel
  | n + 1, j, stack, s =>
    if lt s.1 j.mint then .ok s
    else
      match nodes[j.node]? with
      | none => .error .index
      | some (.inner split ax other) =>
        let planet := r.plane ax split
        let near := if r.leftBelow ax split then j.node + 1 else other
        let far := if r.leftBelow ax split then other else j.node + 1
        if lt j.maxt planet || leF planet (zero false) then
          traverse box assets nodes r isect n { j with node := near } stack s
        else if lt planet j.mint then
          traverse box assets nodes r isect n { j with node := far } stack s
        else if stack.length < 15 then
          traverse box assets nodes r isect n ⟨near, j.mint, planet⟩ (⟨far, planet, j.maxt⟩ :: stack) s
        else .error .stack
      | some (.leaf off cnt) =>
        if off + cnt ≤ assets.length then
          let s' := leafLoop box r isect ((assets.drop off).take cnt) s
          match stack with
          | [] => .ok s'
          | j' :: rest => traverse box assets nodes r isect n j' rest s'
        else .error .index

/-- `intersect`, kdtree.cpp:415-514; the answer `none` is `false`. -/
def intersect (box : A → Box ℚ) (isect : A → F32 → Option F32) (fuel : Nat) (k : Kd ℚ A) (r : FRay) :
    Except Err (Option (F32 × A)) :=
  match k.scene.bind fun b => boxTest b r with
  | none => .ok none
  | some (mint, maxt) =>
    (traverse box k.assets.list k.nodes r isect fuel ⟨0, mint, maxt⟩ [] (fltMax, none)).map fun s =>
      s.2.map fun a => (s.1, a)

end Spectre.FTree
