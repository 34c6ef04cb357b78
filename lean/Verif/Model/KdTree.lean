import Verif.Model.EF
import Mathlib.Data.Nat.Notation

/-
Model of `src/accelerators/kdtree.cpp`: asset list, builder, flattening and traversal.

* Coordinates and ray parameters are exact numbers of an ordered field `K` (no rounding); parameters
  of the traversal are `EF K`, so infinities and NaN arising from zero direction components are kept.
* An asset is an opaque identifier of type `A` with a bounding box and an intersection routine.
* The packed `KdTreeNode` is replaced by the constructor `Node` (packing is verified separately, C12).
* `std::sort` is an arbitrary function that returns a sorted permutation.
-/

namespace Spectre.KdTree
open Spectre.AABB

/-! ### Asset list -/

/-- `_MAX_ASSETS_`, settings.h. -/
def maxAssets : Nat := 4096

/-- `assetsList` (contents), `assets_number = list.length`, `assets_allocated`. -/
structure AssetList (A : Type) where
  list : List A
  alloc : Nat

/-- Constructor, kdtree.cpp:131-143 (`KDNODE_ALLOC` = 1). -/
def AssetList.init {A : Type} : AssetList A := ⟨[], 1⟩

/-- `addAsset`, kdtree.cpp:151-170.  `Console.severe` only prints.  `none` is the write past the end
of the allocation in `assetsList[assets_number++] = addme`. -/
def AssetList.add {A : Type} (s : AssetList A) (a : A) : Option (AssetList A) :=
  let alloc := if s.list.length = s.alloc then Nat.min (2 * s.alloc) maxAssets else s.alloc
  if s.list.length < alloc then some ⟨s.list ++ [a], alloc⟩ else none

/-- A sequence of `addAsset` calls. -/
def AssetList.addAll {A : Type} (s : AssetList A) : List A → Option (AssetList A)
  | [] => some s
  | a :: l => (s.add a).bind fun s' => s'.addAll l

/-! ### Builder -/

/-- `SplitCandidate`, kdtree.cpp:103-108. -/
structure Cand (K A : Type) where
  pos : K
  isLeft : Bool
  who : A

/-- `KdTreeBuildNode`, kdtree.cpp:84-99, with the assets of a leaf in place of offset and number. -/
inductive Tree (K A : Type) where
  | leaf (assets : List A)
  | node (axis : Fin 3) (split : K) (left right : Tree K A)

variable {K : Type} [Field K] [LinearOrder K] [IsStrictOrderedRing K] {A : Type}

/-- Filling of `sc[axis]`, kdtree.cpp:301-309. -/
def cands (box : A → Box K) (axis : Fin 3) (l : List A) : List (Cand K A) :=
  l.flatMap fun a => [⟨(box a).lo axis, true, a⟩, ⟨(box a).hi axis, false, a⟩]

/-- `as_left`, kdtree.cpp:388-390. -/
def lefts (s : List (Cand K A)) (best : Nat) : List A :=
  ((s.take best).filter fun c => c.isLeft).map fun c => c.who

/-- `as_right`, kdtree.cpp:391-393. -/
def rights (s : List (Cand K A)) (best : Nat) : List A :=
  ((s.drop (best + 1)).filter fun c => !c.isLeft).map fun c => c.who

/-- `area_left`, kdtree.cpp:403, 405. -/
def areaLeft (b : Box K) (axis : Fin 3) (x : K) : Box K :=
  ⟨b.lo, fun i => if i = axis then x else b.hi i⟩

/-- `area_right`, kdtree.cpp:404, 406. -/
def areaRight (b : Box K) (axis : Fin 3) (x : K) : Box K :=
  ⟨fun i => if i = axis then x else b.lo i, b.hi⟩

/-- `build`, kdtree.cpp:257-413, with the choice of the split left open: `pick` receives the assets,
the area and the sorted candidates of each axis and returns the axis and the index of the chosen
candidate, or `none` for the two reasons to make a leaf at lines 365-375.  The first argument is
`KD_MAX_DEPTH - depth`.  The case of an index out of range does not occur for the picks of the code
(`C13_sah_split_inside`). -/
def build (box : A → Box K) (sort : List (Cand K A) → List (Cand K A))
    (pick : List A → Box K → (Fin 3 → List (Cand K A)) → Option (Fin 3 × Nat)) :
    Nat → List A → Box K → Tree K A
  | 0, l, _ => .leaf l
  | d + 1, l, area =>
    if l.length ≤ 3 then .leaf l
    else
      match pick l area (fun ax => sort (cands box ax l)) with
      | none => .leaf l
      | some (ax, i) =>
        let s := sort (cands box ax l)
        match s[i]? with
        | none => .leaf l
        | some c =>
          .node ax c.pos
            (build box sort pick d (lefts s i) (areaLeft area ax c.pos))
            (build box sort pick d (rights s i) (areaRight area ax c.pos))

/-- Running values of the loop at kdtree.cpp:315-354: `left_a`, `right_a`, and best cost with the
index of its candidate (`none` while `best_cost` is still INFINITY). -/
structure Scan (K : Type) where
  left : Nat
  right : Nat
  best : Option (K × Nat)

/-- Cost of a split at `x`, kdtree.cpp:324-344 (`SAH_DESCEND` 1, `SAH_INTERSECT` 50). -/
def sahCost (area : Box K) (axis : Fin 3) (x : K) (left right : Nat) : K :=
  let diag := fun i => area.hi i - area.lo i
  let o1 := diag (axis + 1)
  let o2 := diag (axis + 2)
  let inv := 1 / surface area
  let al := 2 * (o1 * o2 + (x - area.lo axis) * (o1 + o2)) * inv
  let ar := 2 * (o1 * o2 + (area.hi axis - x) * (o1 + o2)) * inv
  let bonus : K := if left = 0 ∨ right = 0 then 1 else 0
  1 + 50 * (1 - bonus) * (al * (left : K) + ar * (right : K))

/-- One iteration of the loop, kdtree.cpp:318-353. -/
def scanStep (area : Box K) (axis : Fin 3) (s : Scan K) (i : Nat) (c : Cand K A) : Scan K :=
  let right := if c.isLeft then s.right else s.right - 1
  let best :=
    if area.lo axis < c.pos ∧ c.pos < area.hi axis then
      let cost := sahCost area axis c.pos s.left right
      match s.best with
      | none => some (cost, i)
      | some (bc, bi) => if cost < bc then some (cost, i) else some (bc, bi)
    else s.best
  ⟨if c.isLeft then s.left + 1 else s.left, right, best⟩

/-- The loop over all candidates of an axis, starting at index `i`. -/
def scan (area : Box K) (axis : Fin 3) : Nat → Scan K → List (Cand K A) → Scan K
  | _, s, [] => s
  | i, s, c :: l => scan area axis (i + 1) (scanStep area axis s i c) l

/-- The search loop over the axes, kdtree.cpp:298-362; the first argument is `isSearching`. -/
def searchAxes (l : List A) (area : Box K) (s : Fin 3 → List (Cand K A)) :
    Nat → Fin 3 → Option (Fin 3 × K × Nat)
  | 0, _ => none
  | n + 1, ax =>
    match (scan area ax 0 ⟨0, l.length, none⟩ (s ax)).best with
    | some (cost, i) => some (ax, cost, i)
    | none => searchAxes l area s n (ax + 1)

/-- The choice made by the code, kdtree.cpp:293-294, 298-362, 365. -/
def sahPick (l : List A) (area : Box K) (s : Fin 3 → List (Cand K A)) : Option (Fin 3 × Nat) :=
  match searchAxes l area s 3 (longestAxis area) with
  | none => none
  | some (ax, cost, i) =>
    if 4 * (50 * (l.length : K)) < cost ∧ l.length < 16 then none else some (ax, i)

/-! ### Flattening -/

/-- `KdTreeNode`: `leaf offset number` or `inner split axis other_child`; kdtree.cpp:21-39. -/
inductive Node (K : Type) where
  | leaf (off num : Nat)
  | inner (split : K) (axis : Fin 3) (other : Nat)

/-- Leaf assets in the order in which `build` appends them (left subtree first), kdtree.cpp:274-275,
369-370, 409-411. -/
def Tree.assets : Tree K A → List A
  | .leaf l => l
  | .node _ _ l r => l.assets ++ r.assets

/-- `finalize`, kdtree.cpp:172-210: nodes in depth-first order; `ni` is `nodes_index` and `ao` the
offset in the asset list of the first leaf. -/
def Tree.flatten : Tree K A → Nat → Nat → List (Node K)
  | .leaf l, _, ao => [.leaf ao l.length]
  | .node ax x l r, ni, ao =>
    let nl := l.flatten (ni + 1) ao
    let other := ni + 1 + nl.length
    .inner x ax other :: (nl ++ r.flatten other (ao + l.assets.length))

/-- State of the `KdTree` class.  `scene = none` is the default constructed box (+inf, -inf). -/
structure Kd (K A : Type) where
  assets : AssetList A
  nodes : List (Node K)
  scene : Option (Box K)

/-- Default constructed tree, kdtree.cpp:131-143. -/
def Kd.init : Kd K A := ⟨AssetList.init, [], none⟩

/-- `addAsset` on the class. -/
def Kd.add (k : Kd K A) (a : A) : Option (Kd K A) :=
  (k.assets.add a).map fun s => { k with assets := s }

/-- A sequence of `addAsset` calls on the class. -/
def Kd.addAll (k : Kd K A) (l : List A) : Option (Kd K A) :=
  (k.assets.addAll l).map fun s => { k with assets := s }

/-- `buildTree`, kdtree.cpp:212-255: scene box, build (which clears and refills the asset list), and
flattening after the nodes already present (`nodes_index` is not reset).  `none`: the asset list
overflowed while the leaves were appended. -/
def Kd.buildTree (box : A → Box K) (sort : List (Cand K A) → List (Cand K A))
    (pick : List A → Box K → (Fin 3 → List (Cand K A)) → Option (Fin 3 × Nat))
    (k : Kd K A) : Option (Kd K A) :=
  match k.assets.list with
  | [] => some k
  | a :: l =>
    let scene := (l.map box).foldl engulf (box a)
    let t := build box sort pick 15 (a :: l) scene
    (AssetList.addAll ⟨[], k.assets.alloc⟩ t.assets).map fun s =>
      ⟨s, k.nodes ++ t.flatten k.nodes.length 0, some scene⟩

/-! ### Traversal -/

/-- A pending entry of `jobs`: node index, mint, maxt; kdtree.cpp:117-122. -/
structure Job (K : Type) where
  node : Nat
  mint : EF K
  maxt : EF K

/-- Why a traversal can go wrong. -/
inductive Err where
  | stack     -- write past `jobs[KD_MAX_DEPTH]`
  | index     -- read past `nodesList` or `assetsList`
  | fuel      -- not finished within the given number of iterations
deriving DecidableEq, Repr

/-- Loop over the assets of a leaf, kdtree.cpp:484-499.  `isect a best` is the virtual call
`asset->intersect(r, &best, h)`: `some t` when it returns true and sets the distance to `t`.  The pair
is (`bestdistance`, `h->asset_h`). -/
def leafLoop (box : A → Box K) (r : Ray K) (isect : A → K → Option K) :
    List A → K × Option A → K × Option A
  | [], s => s
  | a :: l, s =>
    match intersectE (box a) r with
    | none => leafLoop box r isect l s
    | some (res1, _) =>
      if EF.lt res1 (EF.fin s.1) then
        match isect a s.1 with
        | some t => leafLoop box r isect l (t, some a)
        | none => leafLoop box r isect l s
      else leafLoop box r isect l s

/-- Main loop of `intersect`, kdtree.cpp:433-512, with a bound on the number of iterations. -/
def traverse (box : A → Box K) (assets : List A) (nodes : List (Node K)) (r : Ray K)
    (isect : A → K → Option K) :
    Nat → Job K → List (Job K) → K × Option A → Except Err (K × Option A)
  | 0, _, _, _ => .error .fuel
  | n + 1, j, stack, s =>
    if EF.lt (EF.fin s.1) j.mint then .ok s
    else
      match nodes[j.node]? with
      | none => .error .index
      | some (.inner split ax other) =>
        let planet := EF.mulFin (split - r.o ax) (EF.recip (r.d ax))
        let leftBelow := r.o ax < split ∨ (r.o ax = split ∧ r.d ax ≤ 0)
        let near := if leftBelow then j.node + 1 else other
        let far := if leftBelow then other else j.node + 1
        if EF.lt j.maxt planet || EF.le planet (EF.fin 0) then
          traverse box assets nodes r isect n { j with node := near } stack s
        else if EF.lt planet j.mint then
          traverse box assets nodes r isect n { j with node := far } stack s
        else if stack.length < 15 then
          traverse box assets nodes r isect n ⟨near, j.mint, planet⟩ (⟨far, planet, j.maxt⟩ :: stack) s
        else .error .stack
      | some (.leaf off num) =>
        if off + num ≤ assets.length then
          let s' := leafLoop box r isect ((assets.drop off).take num) s
          match stack with
          | [] => .ok s'
          | j' :: rest => traverse box assets nodes r isect n j' rest s'
        else .error .index

/-- `intersect`, kdtree.cpp:415-514.  `big` is FLT_MAX.  The answer `none` is `false`.  No ray meets
the default constructed scene box: its slab parameters are +inf and -inf on every axis. -/
def Kd.intersect (box : A → Box K) (isect : A → K → Option K) (big : K) (fuel : Nat)
    (k : Kd K A) (r : Ray K) : Except Err (Option (K × A)) :=
  match k.scene.bind fun b => intersectE b r with
  | none => .ok none
  | some (mint, maxt) =>
    (traverse box k.assets.list k.nodes r isect fuel ⟨0, mint, maxt⟩ [] (big, none)).map fun s =>
      s.2.map fun a => (s.1, a)

end Spectre.KdTree
