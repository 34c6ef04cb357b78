import Verif.Model.FloatTree
import Verif.Model.Bvh

/-
The construction of the BVH of a mesh (src/accelerators/bvh.cpp) with the surfaces of src/geometry/AABB.cpp computed
in binary32, and its traversal with the ray-box test in binary32 (Model/FloatTree.lean).

Model/Bvh.lean computes surfaces exactly and takes them to be finite.  Here they may overflow: the loops that look for
the smallest surface start at INFINITY with `<`, so an infinite surface (or NaN) is never taken, and the positions
`left` and `right` keep their previous value.
-/

namespace Spectre.FBvh

open Spectre.AABB F32
open Spectre.Bvh (BT VBox vjoin axisOf makePartition)
open Spectre.FTree (FRay ofQ boxTest)

/-- Extent of a box on an axis: `bounds[1]-bounds[0]`, AABB.cpp:69. -/
def extent (b : Box ℚ) (i : Fin 3) : F32 := sub (ofQ (b.hi i)) (ofQ (b.lo i))

/-- `surface`, AABB.cpp:67-71. -/
def surface (b : Box ℚ) : F32 :=
  mul (num 2) (add (add (mul (extent b 0) (extent b 1)) (mul (extent b 0) (extent b 2))) (mul (extent b 1) (extent b 2)))

/-- First position with the smallest value, the loops `val<best_area` and `val<best` that start at INFINITY,
bvh.cpp:132-146 and 171-183. -/
def argmin (f : Nat → F32) (l : List Nat) : Option Nat :=
  (l.foldl (fun (acc : F32 × Option Nat) i => if lt (f i) acc.1 then (f i, some i) else acc) (inf false, none)).2

/-- Surface of the union of two clusters, bvh.cpp:138-139, 176. -/
def pairVal (c : List (BT (VBox ℚ))) (i j : Nat) : F32 :=
  surface (vjoin (c.getD i default).box (c.getD j default).box).1

/-- `findBestMatch(c, c->at(self))`, bvh.cpp:130-148: 0 when no union has a finite surface. -/
def findBest (c : List (BT (VBox ℚ))) (self : Nat) : Nat :=
  (argmin (fun i => pairVal c i self) ((List.range c.length).filter (· ≠ self))).getD 0

/-- The best pair of a round, bvh.cpp:171-183; `prev`: `left` and `right` as the previous round of the same call left
them (`none`: still 0xFFFFFFFF). -/
def choose (c : List (BT (VBox ℚ))) (cl : List Nat) (prev : Option (Nat × Nat)) : Option (Nat × Nat) :=
  match argmin (fun i => pairVal c i (cl.getD i 0)) (List.range c.length) with
  | some left => some (left, cl.getD left 0)
  | none => prev

/-- One round of the merging loop, bvh.cpp:171-218: the new clusters, the new `closest`, and the pair.  `none`: an
`at()` out of range, which is an exception. -/
def combineStep (axis n : Nat) (c : List (BT (VBox ℚ))) (cl : List Nat) (prev : Option (Nat × Nat)) :
    Option (List (BT (VBox ℚ)) × List Nat × Option (Nat × Nat)) :=
  if cl.all (· < c.length) then
    match choose c cl prev with
    | none => none
    | some (left, right) =>
      if left < c.length ∧ right < c.length then
        let a := c.getD left default
        let b := c.getD right default
        let c1 := c.set left (.node (vjoin a.box b.box) axis a b)
        let c2 := (c1.set right (c1.getD (c1.length - 1) default)).dropLast
        let m := c2.length
        if n < m then
          if left < m then
            let cl1 := (cl.set right (cl.getD m 0)).set left (findBest c2 left)
            some (c2, (List.range m).map (fun i =>
              let x := cl1.getD i 0
              let y := if x = left ∨ x = right then findBest c2 i else x
              if y = m then right else y), some (left, right))
          else none
        else some (c2, [], some (left, right))
      else none
  else none

/-- The loop `while(c->size()>n)`, bvh.cpp:169-219; `fuel` bounds the number of rounds. -/
def combineLoop (axis n : Nat) :
    Nat → List (BT (VBox ℚ)) → List Nat → Option (Nat × Nat) → Option (List (BT (VBox ℚ)))
  | 0, c, _, _ => some c
  | fuel + 1, c, cl, prev =>
    if n < c.length then
      match combineStep axis n c cl prev with
      | none => none
      | some (c', cl', prev') => combineLoop axis n fuel c' cl' prev'
    else some c

/-- `combineCluster`, bvh.cpp:154-222. -/
def combineCluster (c : List (BT (VBox ℚ))) (n axis : Nat) : Option (List (BT (VBox ℚ))) :=
  combineLoop axis n c.length c ((List.range c.length).map fun i => findBest c i) none

/-- Bounding box of `len ≥ 1` triangles from `off`, bvh.cpp:272-273. -/
def leafBox (boxes : Nat → VBox ℚ) (off : Nat) : Nat → VBox ℚ
  | 0 => default
  | 1 => boxes off
  | n + 1 => vjoin (leafBox boxes off n) (boxes (off + n))

/-- `traverseTree`, bvh.cpp:259-293, on the sorted primitives, see Model/Bvh.lean. -/
def traverseTree (F : Nat → Nat) (boxes : Nat → VBox ℚ) (mc : Nat → Nat) :
    Nat → Nat → Nat → Nat → Option (List (BT (VBox ℚ)))
  | 0, _, _, _ => none
  | fuel + 1, offs, len, k =>
    if len = 0 then some []
    else if len < 4 then combineCluster [.leaf (leafBox boxes offs len) offs len] (F 4) (axisOf k)
    else
      let part := makePartition mc offs (offs + len - 1) k
      match traverseTree F boxes mc fuel offs (part - offs) (k - 1),
            traverseTree F boxes mc fuel part (offs + len - part) (k - 1) with
      | some l, some r => combineCluster (l ++ r) (F len) (axisOf k)
      | _, _ => none

/-- The tree built for sorted primitives, bvh.cpp:309-318, 342-347. -/
def buildTree (F : Nat → Nat) (boxes : Nat → VBox ℚ) (mc : Nat → Nat) (len : Nat) : Option (BT (VBox ℚ)) :=
  if len < 4 then some (.leaf (leafBox boxes 0 len) 0 len)
  else
    (traverseTree F boxes mc (len + 64) 0 len 63).bind fun c =>
      (combineCluster c 1 (axisOf 63)).bind fun c' => c'[0]?

/-- The value of a float, for the comparison `dmin>*distance`, bvh.cpp:423. -/
def value : F32 → EF ℚ
  | .nan => .nan
  | .inf s => if s then .ninf else .pinf
  | .zero _ => .fin 0
  | .num q => .fin q

/-- The box test of the traversal, bvh.cpp:421. -/
def test (r : FRay) (b : VBox ℚ) : Option (EF ℚ) := (boxTest b.1 r).map fun p => value p.1

/-- Sign flags read by axis, bvh.cpp:444. -/
def negFlag (r : FRay) (ax : Nat) : Bool := r.isNeg (Fin.ofNat 3 ax)

end Spectre.FBvh
