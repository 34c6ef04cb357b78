import Verif.Model.EF
import Verif.Model.Morton
import Mathlib.Tactic.Order

/-
Model of `src/accelerators/bvh.cpp` (builder, flattening, traversal).

* The builder only combines bounding boxes and compares surfaces; it is modelled over an arbitrary
  box algebra `Alg β K` (the real one is `aabbAlg`).  Surfaces are finite numbers.
* Pointers to build nodes are pairwise different, so the pointer comparison in `findBestMatch` is a
  comparison of positions in the cluster array.
* `AAC_F` is a parameter `F : Nat → Nat` (it involves `powf`).
* The returned node count `created` (used to size one allocation) is modelled by `BT.size`, C19.
-/

namespace Spectre.Bvh

/-- Operations on bounding boxes used by the builder. -/
structure Alg (β K : Type) where
  join : β → β → β
  surf : β → K

/-- `BvhBuildNode`, bvh.cpp:39-68. -/
inductive BT (β : Type) where
  | leaf (box : β) (off len : Nat)
  | node (box : β) (axis : Nat) (l r : BT β)

/-- `bounding` of a build node. -/
def BT.box {β : Type} : BT β → β
  | .leaf b _ _ => b
  | .node b _ _ _ => b

instance {β : Type} [Inhabited β] : Inhabited (BT β) := ⟨.leaf default 0 0⟩

variable {β K : Type} [Inhabited β] [LinearOrder K]

/-- First index with the smallest value: the loops `val<best_area` / `val<best` starting from
INFINITY, bvh.cpp:132-146 and 171-183. -/
def argmin (f : Nat → K) (l : List Nat) : Option Nat :=
  l.foldl (fun acc i => match acc with
    | none => some i
    | some j => if f i < f j then some i else some j) none

/-- Surface of the union of clusters `i` and `j`. -/
def pairVal (alg : Alg β K) (c : List (BT β)) (i j : Nat) : K :=
  alg.surf (alg.join (c.getD i default).box (c.getD j default).box)

/-- `findBestMatch(c, c->at(self))`, bvh.cpp:130-148; 0 when there is no other cluster. -/
def findBest (alg : Alg β K) (c : List (BT β)) (self : Nat) : Nat :=
  (argmin (fun i => pairVal alg c i self) ((List.range c.length).filter (· ≠ self))).getD 0

/-- One round of the merging loop, bvh.cpp:171-218.  `cl` is `closest` (entries past the current
number of clusters are dropped, they are never read again).  `n` is the requested number.  `none`: an
`at()` out of range (exception), including the initial value 0xFFFFFFFF of `left`. -/
def combineStep (alg : Alg β K) (axis n : Nat) (c : List (BT β)) (cl : List Nat) :
    Option (List (BT β) × List Nat) :=
  if cl.all (· < c.length) then
    match argmin (fun i => pairVal alg c i (cl.getD i 0)) (List.range c.length) with
    | none => none
    | some left =>
      let right := cl.getD left 0
      let a := c.getD left default
      let b := c.getD right default
      let c1 := c.set left (.node (alg.join a.box b.box) axis a b)
      let c2 := (c1.set right (c1.getD (c1.length - 1) default)).dropLast
      let m := c2.length
      if n < m then
        if left < m then
          let cl1 := (cl.set right (cl.getD m 0)).set left (findBest alg c2 left)
          some (c2, (List.range m).map fun i =>
            let x := cl1.getD i 0
            let y := if x = left ∨ x = right then findBest alg c2 i else x
            if y = m then right else y)
        else none
      else some (c2, [])
  else none

/-- The loop `while(c->size()>n)`, bvh.cpp:169-219; `fuel` bounds the number of rounds. -/
def combineLoop (alg : Alg β K) (axis n : Nat) :
    Nat → List (BT β) → List Nat → Option (List (BT β))
  | 0, c, _ => some c
  | fuel + 1, c, cl =>
    if n < c.length then
      match combineStep alg axis n c cl with
      | none => none
      | some (c', cl') => combineLoop alg axis n fuel c' cl'
    else some c

/-- `combineCluster`, bvh.cpp:154-222. -/
def combineCluster (alg : Alg β K) (c : List (BT β)) (n axis : Nat) : Option (List (BT β)) :=
  combineLoop alg axis n c.length c ((List.range c.length).map fun i => findBest alg c i)

/-- Binary search of `makePartition`, bvh.cpp:237-248; `bit i` is `(mc[i].morton & m) != 0`.  The first
argument bounds the number of rounds. -/
def bisect (bit : Nat → Bool) : Nat → Nat → Nat → Nat
  | 0, left, _ => left
  | fuel + 1, left, right =>
    let cur := (left + right) / 2
    if left < cur then
      if bit cur = false then bisect bit fuel cur right else bisect bit fuel left cur
    else left

/-- `makePartition`, bvh.cpp:229-249.  The bit mask `m` is `2^(k-1)`, or 0 for `k = 0`. -/
def makePartition (mc : Nat → Nat) (start end' k : Nat) : Nat :=
  let bit := fun i => decide (k ≠ 0) && (mc i).testBit (k - 1)
  if bit start = bit end' ∨ k = 0 then start + (end' - start) / 2
  else bisect bit (end' - start) start end'

/-- `BSF(bit)%3`, bvh.cpp:71-80, 266 (`ffs` is one-based, 0 for 0). -/
def axisOf (k : Nat) : Nat := k % 3

/-- Bounding box of the triangles `off .. off+len-1` (in sorted order), bvh.cpp:272-273; `len ≥ 1`. -/
def leafBox (alg : Alg β K) (boxes : Nat → β) (off : Nat) : Nat → β
  | 0 => default
  | 1 => boxes off
  | n + 1 => alg.join (leafBox alg boxes off n) (boxes (off + n))

/-- `traverseTree`, bvh.cpp:259-293, on the sorted primitives: `boxes i` and `mc i` are the bounding
box and the Morton code of the `i`-th primitive after sorting.  `AAC_DELTA` = 4.  `none`: exception in
`combineCluster`, or recursion deeper than `fuel`. -/
def traverseTree (alg : Alg β K) (F : Nat → Nat) (boxes : Nat → β) (mc : Nat → Nat) :
    Nat → Nat → Nat → Nat → Option (List (BT β))
  | 0, _, _, _ => none
  | fuel + 1, offs, len, k =>
    if len = 0 then some []
    else if len < 4 then
      combineCluster alg [.leaf (leafBox alg boxes offs len) offs len] (F 4) (axisOf k)
    else
      let part := makePartition mc offs (offs + len - 1) k
      match traverseTree alg F boxes mc fuel offs (part - offs) (k - 1),
            traverseTree alg F boxes mc fuel part (offs + len - part) (k - 1) with
      | some l, some r => combineCluster alg (l ++ r) (F len) (axisOf k)
      | _, _ => none

/-- The tree built by `buildTree` for sorted primitives, bvh.cpp:309-318, 342-347 (`morton_flag` is
`2^62`).  The recursion bound is shown to be sufficient. -/
def buildTree (alg : Alg β K) (F : Nat → Nat) (boxes : Nat → β) (mc : Nat → Nat) (len : Nat) :
    Option (BT β) :=
  if len < 4 then some (.leaf (leafBox alg boxes 0 len) 0 len)
  else
    (traverseTree alg F boxes mc (len + 64) 0 len 63).bind fun c =>
      (combineCluster alg c 1 (axisOf 63)).bind fun c' => c'[0]?

/-- Number of nodes. -/
def BT.size : BT β → Nat
  | .leaf _ _ _ => 1
  | .node _ _ l r => 1 + l.size + r.size

/-- Flattened node, bvh.hpp:44-65: `leaf box offset len` or `inner box sibling axis`. -/
inductive FNode (β : Type) where
  | leaf (box : β) (off len : Nat)
  | inner (box : β) (sibling axis : Nat)

/-- `flatten`, bvh.cpp:376-403; `ni` is `*index`. -/
def BT.flatten : BT β → Nat → List (FNode β)
  | .leaf b off len, _ => [.leaf b off len]
  | .node b ax l r, ni =>
    let nl := l.flatten (ni + 1)
    .inner b (ni + 1 + nl.length) ax :: (nl ++ r.flatten (ni + 1 + nl.length))

/-- Outcomes of a traversal that goes wrong. -/
inductive Err where
  | stack     -- write past `jobs[BVH_MAX_DEPTH]`
  | index     -- read past `nodesList`
  | fuel      -- not finished within the given number of iterations
deriving DecidableEq

/-- State of the search: `*distance`, and `h->index` when `found`. -/
abbrev Search (K : Type) := K × Option Nat

/-- Loop over the triangles of a leaf, bvh.cpp:426-434.  `isect i d`: `tris[i].intersect` called with
`*distance = d`; `some t` when it returns true having set the distance to `t`. -/
def leafLoop (isect : Nat → K → Option K) : List Nat → Search K → Search K
  | [], s => s
  | i :: l, s =>
    match isect i s.1 with
    | some t => leafLoop isect l (t, some i)
    | none => leafLoop isect l s

/-- The visit test `bounding.intersect(..) && !(found && dmin>*distance)`, bvh.cpp:421-425. -/
def accept (test : β → Option (EF K)) (lt : EF K → EF K → Bool) (s : Search K) (b : β) : Bool :=
  match test b with
  | none => false
  | some dmin => !(s.2.isSome && lt (.fin s.1) dmin)

/-- Main loop of `intersect`, bvh.cpp:419-459.  `test b` is the box test: `some dmin` on success;
`neg ax` is the sign flag of axis `ax`. -/
def traverse (test : β → Option (EF K)) (lt : EF K → EF K → Bool) (neg : Nat → Bool)
    (isect : Nat → K → Option K) (nodes : List (FNode β)) :
    Nat → Nat → List Nat → Search K → Except Err (Search K)
  | 0, _, _, _ => .error .fuel
  | fuel + 1, i, stack, s =>
    match nodes[i]? with
    | none => .error .index
    | some nd =>
      match nd with
      | .leaf b off len =>
        let s' := if accept test lt s b then leafLoop isect (List.range' off len) s else s
        match stack with
        | [] => .ok s'
        | j :: rest => traverse test lt neg isect nodes fuel j rest s'
      | .inner b sib ax =>
        if accept test lt s b then
          if stack.length < 32 then
            if neg ax then traverse test lt neg isect nodes fuel sib ((i + 1) :: stack) s
            else traverse test lt neg isect nodes fuel (i + 1) (sib :: stack) s
          else .error .stack
        else
          match stack with
          | [] => .ok s
          | j :: rest => traverse test lt neg isect nodes fuel j rest s

/-- Bounding boxes of triangles and unions of them: never empty. -/
abbrev VBox (K : Type) [LinearOrder K] := {b : AABB.Box K // ∀ i, b.lo i ≤ b.hi i}

section mesh
variable {K : Type} [Field K] [LinearOrder K] [IsStrictOrderedRing K]

instance : Inhabited (VBox K) := ⟨⟨⟨fun _ => 0, fun _ => 0⟩, fun _ => le_refl _⟩⟩

/-- `operator+` of two boxes, AABB.cpp:208-212. -/
def vjoin (a b : VBox K) : VBox K :=
  ⟨AABB.engulf a.1 b.1, fun i => by
    have ha := a.2 i
    have hb := b.2 i
    simp only [AABB.engulf, AABB.fmin, AABB.fmax]
    split <;> split <;> order⟩

/-- The real box algebra: `operator+` and `surface()`, AABB.cpp:67-71, 208-212. -/
def vAlg : Alg (VBox K) K := ⟨vjoin, fun b => AABB.surface b.1⟩

/-- The box test of the traversal: `bounding.intersect(r,&rp,&dmin,&dmax)`, bvh.cpp:421. -/
def vTest (r : AABB.Ray K) (b : VBox K) : Option (EF K) := (AABB.intersectE b.1 r).map Prod.fst

/-- Flags `rp.isXInvNeg` and following, ray.hpp:121-129, read by axis in bvh.cpp:444. -/
def vNeg (r : AABB.Ray K) (ax : Nat) : Bool :=
  EF.lt (EF.recip (r.d (Fin.ofNat 3 ax))) (EF.fin 0)
end mesh

/-- Search loop for `aacF`: least `k` with `16 n^3 ≤ k^10`. -/
def aacSearch (n : Nat) : Nat → Nat → Nat
  | 0, k => k
  | f + 1, k => if 16 * n ^ 3 ≤ k ^ 10 then k else aacSearch n f (k + 1)

/-- `(int)AAC_F(n)`, bvh.cpp:15-23: the ceiling of `4^0.7 * 0.5 * n^0.3`, computed exactly
(`k ≥ 4^0.7*0.5*n^0.3` iff `k^10 ≥ 16 n^3`).  The code uses `powf`. -/
def aacF (n : Nat) : Nat := aacSearch n (n + 1) 1

/-- Centroids of the triangles' boxes, bvh.cpp:325-330 (exact; `center()` rounds twice). -/
def centers (boxes : List (VBox ℚ)) : List (Fin 3 → ℚ) := boxes.map fun b => AABB.center b.1

/-- `centroidaabb`, bvh.cpp:324-331 (at least one centroid). -/
def centroidBox : List (Fin 3 → ℚ) → AABB.Box ℚ
  | [] => AABB.ofPoint fun _ => 0
  | c :: cs => cs.foldl AABB.engulfPoint (AABB.ofPoint c)

/-- Morton code of one centroid, bvh.cpp:333-342; `none` for the undefined conversion (`gridCoord`). -/
def keyOf (cb : AABB.Box ℚ) (c : Fin 3 → ℚ) : Option Nat :=
  match Morton.gridCoord (c 0) (cb.lo 0) (cb.hi 0), Morton.gridCoord (c 1) (cb.lo 1) (cb.hi 1),
      Morton.gridCoord (c 2) (cb.lo 2) (cb.hi 2) with
  | some x, some y, some z =>
    some (Morton.mortonShift (BitVec.ofInt 64 x) (BitVec.ofInt 64 y) (BitVec.ofInt 64 z)).toNat
  | _, _, _ => none

/-- All Morton codes, in the order of the triangles. -/
def keysOf (cb : AABB.Box ℚ) : List (Fin 3 → ℚ) → Option (List Nat)
  | [] => some []
  | c :: cs =>
    match keyOf cb c, keysOf cb cs with
    | some k, some ks => some (k :: ks)
    | _, _ => none

/-- `std::sort(prims, prims+len)`, bvh.cpp:345: `sort keys` lists the original indices in sorted order.
Equal keys may end up in any order, so the sort is a parameter, restricted by this specification. -/
def SortOk (sort : List Nat → List Nat) : Prop :=
  ∀ keys, (sort keys).Perm (List.range keys.length) ∧
    (sort keys).Pairwise fun i j => keys.getD i 0 ≤ keys.getD j 0

/-- `Bvh::buildTree` on a mesh given by the boxes of its triangles in file order, bvh.cpp:309-374: the
tree, and for each slot of the reordered triangle array the original index of the triangle there
(bvh.cpp:362-373; small meshes are not reordered, bvh.cpp:312-321). -/
def buildMesh (F : Nat → Nat) (sort : List Nat → List Nat) (boxes : List (VBox ℚ)) :
    Option (BT (VBox ℚ) × List Nat) :=
  if boxes.length < 4 then
    (buildTree vAlg F (fun i => boxes.getD i default) (fun _ => 0) boxes.length).map
      fun t => (t, List.range boxes.length)
  else
    match keysOf (centroidBox (centers boxes)) (centers boxes) with
    | none => none
    | some keys =>
      let order := sort keys
      (buildTree vAlg F (fun i => boxes.getD (order.getD i 0) default)
        (fun i => keys.getD (order.getD i 0) 0) boxes.length).map fun t => (t, order)

end Spectre.Bvh
