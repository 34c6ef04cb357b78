import Verif.Props.Bvh
import Verif.Props.AABB
import Mathlib.Data.List.GetD
import Mathlib.Data.List.Sort

/-
C19-C23 for real meshes: the abstract results of `Verif.Props.Bvh` for the bounding boxes of the code,
the stack overflow of C22 and the material mix-up of C23.
-/

namespace Spectre.Bvh
open Spectre.EF Spectre.AABB

section general
variable {K : Type} [Field K] [LinearOrder K] [IsStrictOrderedRing K]

theorem leafBox_succ {β K : Type} [Inhabited β] [LinearOrder K] (alg : Alg β K) (boxes : Nat → β)
    (off n : Nat) :
    leafBox alg boxes off (n + 2) = alg.join (leafBox alg boxes off (n + 1)) (boxes (off + (n + 1))) := rfl

/-- The boxes of the code form an admissible algebra. -/
theorem vAlg_ok : AlgOk (vAlg (K := K)) where
  comm a b := by
    apply Subtype.ext
    exact C24_comm a.1 b.1
  mono a b d := by
    refine (C24_surface_mono (engulf a.1 b.1) _ (vjoin a b).2 ?_).2
    intro p hp
    have := C24_engulf_least a.1 b.1 (engulf a.1 (engulf b.1 d.1)) a.2 b.2 (fun q hq => by
      rcases hq with hq | hq
      · exact C24_engulf_contains _ _ _ (Or.inl hq)
      · exact C24_engulf_contains _ _ _ (Or.inr (C24_engulf_contains _ _ _ (Or.inl hq)))) p hp
    exact this

/-- A property of a box that is kept when the box grows holds for a node if it holds for the box of one
of the triangles below. -/
theorem node_has (P : VBox K → Prop) (hl : ∀ a b, P a → P (vjoin a b)) (hr : ∀ a b, P b → P (vjoin a b))
    (boxes : Nat → VBox K) (t : BT (VBox K)) (h1 : t.LeafOk vAlg boxes) (h2 : t.BoxOk vAlg) (i : Nat)
    (hi : i ∈ tris t.leaves) (hp : P (boxes i)) : P t.box := by
  induction t with
  | leaf b off len =>
    obtain ⟨_, _, rfl⟩ := h1
    simp only [tris, BT.leaves, List.flatMap_cons, List.flatMap_nil, List.append_nil,
      List.mem_range'_1] at hi
    simp only [BT.box]
    induction len with
    | zero => omega
    | succ n ih =>
      cases n with
      | zero =>
        have : i = off := by omega
        subst this
        exact hp
      | succ n =>
        rw [leafBox_succ]
        by_cases h : i = off + (n + 1)
        · subst h; exact hr _ _ hp
        · exact hl _ _ (ih (by omega) (by omega) trivial ⟨hi.1, by omega⟩)
  | node b ax l r ihl ihr =>
    obtain ⟨rfl, hbl, hbr⟩ := h2
    simp only [tris, BT.leaves, List.flatMap_append, List.mem_append] at hi
    simp only [BT.box]
    rcases hi with hi | hi
    · exact hl _ _ (ihl h1.1 hbl hi)
    · exact hr _ _ (ihr h1.2 hbr hi)

/-- A property kept by unions holds for all node boxes if it holds for the triangles' boxes. -/
theorem node_all (P : VBox K → Prop) (hj : ∀ a b, P a → P b → P (vjoin a b))
    (boxes : Nat → VBox K) (hp : ∀ i, P (boxes i)) (t : BT (VBox K)) (h1 : t.LeafOk vAlg boxes)
    (h2 : t.BoxOk vAlg) : P t.box := by
  induction t with
  | leaf b off len =>
    obtain ⟨h, _, rfl⟩ := h1
    simp only [BT.box]
    induction len with
    | zero => omega
    | succ n ih =>
      cases n with
      | zero => exact hp off
      | succ n =>
        rw [leafBox_succ]
        exact hj _ _ (ih (by omega) (by omega) trivial) (hp _)
  | node b ax l r ihl ihr =>
    obtain ⟨rfl, hbl, hbr⟩ := h2
    exact hj _ _ (ihl h1.1 hbl) (ihr h1.2 hbr)

theorem generic_join (r : Ray K) (a b : VBox K) (ha : Generic a.1 r) (hb : Generic b.1 r) :
    Generic (vjoin a b).1 r := by
  intro i hd
  simp only [vjoin, engulf, fmin, fmax]
  refine ⟨?_, ?_⟩ <;> split
  · exact (ha i hd).1
  · exact (hb i hd).1
  · exact (ha i hd).2
  · exact (hb i hd).2

/-- The box test accepts every ray that hits something inside the box, with an entry distance not
after the hit. -/
theorem vTest_accepts (r : Ray K) (b : VBox K) (hg : Generic b.1 r) (t : K) (hm : Mem b.1 (r.at t)) :
    Accepts (vTest r) EF.lt t b := by
  obtain ⟨h1, h2⟩ := C25_general_direction b.1 r b.2 hg
  unfold Accepts vTest
  cases e : intersectE b.1 r with
  | none => exact absurd hm (h2 e t)
  | some p =>
    obtain ⟨n1, n2, h3, h4⟩ := h1 p e
    refine ⟨p.1, rfl, ?_⟩
    intro d hd
    obtain ⟨q1, _⟩ := (h4 t).1 hm
    have := EF.le_trans' (EF.lt_le hd) q1
    unfold EF.Le at this
    simpa [EF.le] using this

theorem accOk_of_boxes (r : Ray K) (boxes : Nat → VBox K) (hg : ∀ i, Generic (boxes i).1 r)
    (hit : Nat → Option K) (hin : ∀ i t, hit i = some t → Mem (boxes i).1 (r.at t))
    (t : BT (VBox K)) (h1 : t.LeafOk vAlg boxes) (h2 : t.BoxOk vAlg) :
    AccOk (vTest r) EF.lt hit t := by
  have base : ∀ (t : BT (VBox K)), t.LeafOk vAlg boxes → t.BoxOk vAlg → ∀ i ∈ tris t.leaves, ∀ d,
      hit i = some d → Accepts (vTest r) EF.lt d t.box := by
    intro t h1 h2 i hi d hd
    refine vTest_accepts r _ ?_ d ?_
    · exact node_all (fun b => Generic b.1 r) (generic_join r) boxes hg t h1 h2
    · exact node_has (fun b => Mem b.1 (r.at d)) (fun a b h => C24_engulf_contains _ _ _ (Or.inl h))
        (fun a b h => C24_engulf_contains _ _ _ (Or.inr h)) boxes t h1 h2 i hi (hin i d hd)
  induction t with
  | leaf b off len =>
    intro i hi d hd
    exact base _ h1 h2 i (by simpa [tris, BT.leaves] using hi) d hd
  | node b ax l r ihl ihr =>
    exact ⟨fun i hi d hd => base _ h1 h2 i hi d hd, ihl h1.1 h2.2.1, ihr h1.2 h2.2.2⟩

/-- **C21** for the whole accelerator: for every mesh of `len` triangles with non-empty boxes, any
Morton codes, every ray in general position and every triangle test that reports points inside the
triangle's box, building and traversing finds the nearest triangle below `d0`, or reports that there
is none -- provided the traversal did not overflow its stack. -/
theorem C21_mesh_closest_hit (F : Nat → Nat) (hF : ∀ n, 1 ≤ F n) (boxes : Nat → VBox K)
    (mc : Nat → Nat) (len : Nat) (hlen : 1 ≤ len) (r : Ray K) (hg : ∀ i, Generic (boxes i).1 r)
    (hit : Nat → Option K) (isect : Nat → K → Option K) (ho : Oracle hit isect)
    (hin : ∀ i t, hit i = some t → Mem (boxes i).1 (r.at t)) (d0 : K) :
    ∃ t, buildTree vAlg F boxes mc len = some t ∧
      (run (vTest r) EF.lt (vNeg r) isect t d0 = .error .stack ∧ 32 < t.height ∨
      ∃ s, run (vTest r) EF.lt (vNeg r) isect t d0 = .ok s ∧
        (∀ i, s.2 = some i → i < len ∧ hit i = some s.1 ∧ s.1 ≤ d0 ∧
          ∀ j < len, ∀ d, hit j = some d → s.1 ≤ d) ∧
        (s.2 = none → s.1 = d0 ∧ ∀ j < len, ∀ d, hit j = some d → d0 ≤ d)) := by
  obtain ⟨t, e, hp, hlo, hbo⟩ := C19_build_partitions vAlg vAlg_ok F hF boxes mc len hlen
  refine ⟨t, e, ?_⟩
  rcases C21_terminates (vTest r) EF.lt (vNeg r) isect t d0 with ⟨s, hs⟩ | h
  · refine Or.inr ⟨s, hs, ?_⟩
    have hm : ∀ j, j ∈ tris t.leaves ↔ j < len := fun j => by rw [hp.mem_iff]; simp
    have := C21_equals_brute_force (vTest r) EF.lt (vNeg r) isect hit ho t
      (accOk_of_boxes r boxes hg hit hin t hlo hbo) d0 s hs
    simpa only [hm] using this
  · exact Or.inl h

theorem aacSearch_ge (n f k : Nat) : k ≤ aacSearch n f k := by
  induction f generalizing k with
  | zero => exact Nat.le_refl _
  | succ f ih =>
    rw [aacSearch]
    split
    · exact Nat.le_refl _
    · exact Nat.le_trans (Nat.le_succ _) (ih (k + 1))

theorem aacF_pos (n : Nat) : 1 ≤ aacF n := aacSearch_ge _ _ _

theorem aacSearch_spec (n f k : Nat) (hn : n + 2 ≤ f + k) : 16 * n ^ 3 ≤ aacSearch n f k ^ 10 := by
  induction f generalizing k with
  | zero =>
    rw [aacSearch]
    have h1 : (n + 2) ^ 10 ≤ k ^ 10 := Nat.pow_le_pow_left (by omega) 10
    have h2 : n ^ 3 ≤ (n + 2) ^ 3 := Nat.pow_le_pow_left (by omega) 3
    have h3 : 16 * (n + 2) ^ 3 ≤ (n + 2) ^ 10 := by
      have : 2 ^ 7 ≤ (n + 2) ^ 7 := Nat.pow_le_pow_left (by omega) 7
      calc 16 * (n + 2) ^ 3 ≤ (n + 2) ^ 7 * (n + 2) ^ 3 := Nat.mul_le_mul_right _ (by omega)
        _ = (n + 2) ^ 10 := by rw [← Nat.pow_add]
    omega
  | succ f ih =>
    rw [aacSearch]
    split
    · assumption
    · exact ih (k + 1) (by omega)

/-- **C22** (restricted to meshes of at most 33 triangles): the stack suffices for every ray, every
triangle test and every sort. -/
theorem C22_small_mesh_partial (F : Nat → Nat) (hF : ∀ n, 1 ≤ F n) (boxes : Nat → VBox K)
    (mc : Nat → Nat) (len : Nat) (hlen : 1 ≤ len) (hsmall : len ≤ 33) (r : Ray K)
    (isect : Nat → K → Option K) (d0 : K) :
    ∃ t s, buildTree vAlg F boxes mc len = some t ∧
      run (vTest r) EF.lt (vNeg r) isect t d0 = .ok s := by
  obtain ⟨t, e, hp, hlo, hbo⟩ := C19_build_partitions vAlg vAlg_ok F hF boxes mc len hlen
  have h1 := height_lt_leaves t
  have h2 := leaves_le_tris vAlg boxes t hlo
  have h3 := hp.length_eq
  rw [List.length_range] at h3
  obtain ⟨s, hs⟩ := C22_height_partial (vTest r) EF.lt (vNeg r) isect t d0 (by omega)
  exact ⟨t, s, e, hs⟩

end general

/-! ### C22: the stack does overflow -/

section transfer
variable {β γ K L : Type} [Inhabited β] [Inhabited γ] [LinearOrder K] [LinearOrder L]

/-- Replace the boxes of a tree. -/
def BT.map (f : β → γ) : BT β → BT γ
  | .leaf b o l => .leaf (f b) o l
  | .node b ax l r => .node (f b) ax (l.map f) (r.map f)

/-- `f` translates one box algebra into another, preserving comparisons of surfaces. -/
structure Hom (A : Alg β K) (B : Alg γ L) (f : β → γ) : Prop where
  default : f default = default
  join : ∀ a b, f (A.join a b) = B.join (f a) (f b)
  surf : ∀ a b, B.surf (f a) < B.surf (f b) ↔ A.surf a < A.surf b

theorem argmin_congr (f : Nat → K) (g : Nat → L) (h : ∀ i j, g i < g j ↔ f i < f j) (l : List Nat) :
    argmin g l = argmin f l := by
  unfold argmin
  congr 1
  funext acc i
  cases acc with
  | none => rfl
  | some j =>
    simp only
    by_cases c : f i < f j
    · rw [if_pos c, if_pos ((h i j).2 c)]
    · rw [if_neg c, if_neg (fun hc => c ((h i j).1 hc))]

variable {A : Alg β K} {B : Alg γ L} {f : β → γ}

theorem map_box (t : BT β) : (t.map f).box = f t.box := by cases t <;> rfl

theorem getD_mapT (h : Hom A B f) (c : List (BT β)) (i : Nat) :
    (c.map (BT.map f)).getD i default = (c.getD i default).map f := by
  rw [List.getD_eq_getElem?_getD, List.getD_eq_getElem?_getD, List.getElem?_map]
  cases c[i]? with
  | some x => rfl
  | none => simp only [Option.map_none, Option.getD_none]; show default = BT.leaf _ _ _; rw [h.default]; rfl

theorem pairVal_lt (h : Hom A B f) (c : List (BT β)) (i j i' j' : Nat) :
    pairVal B (c.map (BT.map f)) i j < pairVal B (c.map (BT.map f)) i' j' ↔
      pairVal A c i j < pairVal A c i' j' := by
  unfold pairVal
  simp only [getD_mapT h, map_box, ← h.join]
  exact h.surf _ _

theorem findBest_map (h : Hom A B f) (c : List (BT β)) (self : Nat) :
    findBest B (c.map (BT.map f)) self = findBest A c self := by
  unfold findBest
  rw [List.length_map, argmin_congr _ _ (fun i j => pairVal_lt h c i self j self)]

theorem combineStep_map (h : Hom A B f) (axis n : Nat) (c : List (BT β)) (cl : List Nat) :
    combineStep B axis n (c.map (BT.map f)) cl =
      (combineStep A axis n c cl).map fun p => (p.1.map (BT.map f), p.2) := by
  unfold combineStep
  rw [List.length_map, argmin_congr _ _ (fun i j => pairVal_lt h c i (cl.getD i 0) j (cl.getD j 0))]
  by_cases hc : (cl.all fun x => decide (x < c.length)) = true
  · rw [if_pos hc, if_pos hc]
    cases argmin (fun i => pairVal A c i (cl.getD i 0)) (List.range c.length) with
    | none => rfl
    | some left =>
      simp only
      have e1 : (c.map (BT.map f)).set left (BT.node
            (B.join ((c.map (BT.map f)).getD left default).box
              ((c.map (BT.map f)).getD (cl.getD left 0) default).box) axis
            ((c.map (BT.map f)).getD left default) ((c.map (BT.map f)).getD (cl.getD left 0) default)) =
          (c.set left (BT.node (A.join (c.getD left default).box (c.getD (cl.getD left 0) default).box)
            axis (c.getD left default) (c.getD (cl.getD left 0) default))).map (BT.map f) := by
        rw [List.map_set]
        simp only [getD_mapT h, map_box, BT.map, h.join]
      rw [e1]
      generalize c.set left _ = c1
      have e2 : ((c1.map (BT.map f)).set (cl.getD left 0)
            ((c1.map (BT.map f)).getD ((c1.map (BT.map f)).length - 1) default)).dropLast =
          ((c1.set (cl.getD left 0) (c1.getD (c1.length - 1) default)).dropLast).map (BT.map f) := by
        rw [List.map_dropLast, List.map_set, getD_mapT h, List.length_map]
      rw [e2]
      generalize (c1.set (cl.getD left 0) (c1.getD (c1.length - 1) default)).dropLast = c2
      simp only [List.length_map, findBest_map h]
      split
      · split
        · rfl
        · rfl
      · rfl
  · rw [if_neg hc, if_neg hc]
    rfl

theorem combineLoop_map (h : Hom A B f) (axis n fuel : Nat) (c : List (BT β)) (cl : List Nat) :
    combineLoop B axis n fuel (c.map (BT.map f)) cl =
      (combineLoop A axis n fuel c cl).map (List.map (BT.map f)) := by
  induction fuel generalizing c cl with
  | zero => rfl
  | succ fuel ih =>
    rw [combineLoop, combineLoop, List.length_map]
    split
    · rw [combineStep_map h]
      cases combineStep A axis n c cl with
      | none => rfl
      | some p => exact ih p.1 p.2
    · rfl

theorem combineCluster_map (h : Hom A B f) (c : List (BT β)) (n axis : Nat) :
    combineCluster B (c.map (BT.map f)) n axis =
      (combineCluster A c n axis).map (List.map (BT.map f)) := by
  unfold combineCluster
  simp only [List.length_map, findBest_map h]
  exact combineLoop_map h axis n _ c _

theorem leafBox_map (h : Hom A B f) (boxes : Nat → β) (off len : Nat) :
    leafBox B (fun i => f (boxes i)) off len = f (leafBox A boxes off len) := by
  induction len with
  | zero => exact h.default.symm
  | succ n ih =>
    cases n with
    | zero => rfl
    | succ n =>
      rw [leafBox_succ, leafBox_succ, ih, h.join]

theorem traverseTree_map (h : Hom A B f) (F : Nat → Nat) (boxes : Nat → β) (mc : Nat → Nat)
    (fuel offs len k : Nat) :
    traverseTree B F (fun i => f (boxes i)) mc fuel offs len k =
      (traverseTree A F boxes mc fuel offs len k).map (List.map (BT.map f)) := by
  induction fuel generalizing offs len k with
  | zero => rfl
  | succ fuel ih =>
    rw [traverseTree, traverseTree]
    split
    · rfl
    · split
      · rw [leafBox_map h]
        exact combineCluster_map h [.leaf (leafBox A boxes offs len) offs len] _ _
      · simp only
        rw [ih, ih]
        cases traverseTree A F boxes mc fuel offs (makePartition mc offs (offs + len - 1) k - offs)
            (k - 1) with
        | none => rfl
        | some l =>
          cases traverseTree A F boxes mc fuel (makePartition mc offs (offs + len - 1) k)
              (offs + len - makePartition mc offs (offs + len - 1) k) (k - 1) with
          | none => rfl
          | some r =>
            simp only [Option.map_some]
            rw [← List.map_append]
            exact combineCluster_map h _ _ _

/-- Building commutes with a translation of the boxes. -/
theorem buildTree_map (h : Hom A B f) (F : Nat → Nat) (boxes : Nat → β) (mc : Nat → Nat) (len : Nat) :
    buildTree B F (fun i => f (boxes i)) mc len = (buildTree A F boxes mc len).map (BT.map f) := by
  unfold buildTree
  split
  · rw [leafBox_map h]; rfl
  · rw [traverseTree_map h]
    cases traverseTree A F boxes mc (len + 64) 0 len 63 with
    | none => rfl
    | some c =>
      simp only [Option.map_some, Option.bind_some]
      rw [combineCluster_map h]
      cases combineCluster A c 1 (axisOf 63) with
      | none => rfl
      | some c' => simp only [Option.map_some, Option.bind_some, List.getElem?_map]

/-- Number of nodes visited by always descending into the child visited first. -/
def firstPath (neg : Nat → Bool) : BT β → Nat
  | .leaf _ _ _ => 0
  | .node _ ax l r => 1 + if neg ax then firstPath neg r else firstPath neg l

theorem firstPath_map (neg : Nat → Bool) (t : BT β) : firstPath neg (t.map f) = firstPath neg t := by
  induction t with
  | leaf => rfl
  | node b ax l r ihl ihr => simp only [BT.map, firstPath, ihl, ihr]

/-- All boxes of the tree satisfy `P`. -/
def BT.AllBox (P : β → Prop) : BT β → Prop
  | .leaf b _ _ => P b
  | .node b _ l r => P b ∧ l.AllBox P ∧ r.AllBox P

theorem allBox_map (P : γ → Prop) (hP : ∀ x, P (f x)) (t : BT β) : (t.map f).AllBox P := by
  induction t with
  | leaf => exact hP _
  | node b ax l r ihl ihr => exact ⟨hP _, ihl, ihr⟩

/-- A ray accepted by all boxes overflows the stack as soon as the first descent is longer than 32. -/
theorem descent_overflows (test : β → Option (EF K)) (lt : EF K → EF K → Bool) (neg : Nat → Bool)
    (isect : Nat → K → Option K) (nodes : List (FNode β)) (d0 : K) :
    ∀ (t : BT β) (i : Nat) (st : List Nat) (fuel : Nat), Repr nodes i t →
      t.AllBox (fun b => (test b).isSome = true) → st.length ≤ 32 →
      32 < st.length + firstPath neg t → t.height < fuel →
      traverse test lt neg isect nodes fuel i st (d0, none) = .error .stack := by
  intro t
  induction t with
  | leaf b off len =>
    intro i st fuel _ _ h1 h2 _
    simp only [firstPath] at h2
    omega
  | node b ax l r ihl ihr =>
    intro i st fuel hr hb h1 h2 hf
    obtain ⟨sib, hr0, hrl, hrr⟩ := hr
    obtain ⟨hb0, hbl, hbr⟩ := hb
    cases fuel with
    | zero => omega
    | succ fuel =>
      rw [traverse.eq_def]
      simp only [hr0]
      have hacc : accept test lt (d0, none) b = true := by
        unfold accept
        obtain ⟨d, hd⟩ := Option.isSome_iff_exists.1 hb0
        rw [hd]
        rfl
      rw [if_pos hacc]
      simp only [BT.height] at hf
      simp only [firstPath] at h2
      by_cases hs : st.length < 32
      · rw [if_pos hs]
        by_cases hn : neg ax = true
        · rw [if_pos hn] at h2
          rw [if_pos hn]
          exact ihr sib ((i + 1) :: st) fuel hrr hbr (by simp; omega) (by simp; omega) (by omega)
        · rw [if_neg hn] at h2
          rw [if_neg hn]
          exact ihl (i + 1) (sib :: st) fuel hrl hbl (by simp; omega) (by simp; omega) (by omega)
      · rw [if_neg hs]

theorem height_lt_size (t : BT β) : t.height < t.size := by
  induction t with
  | leaf => simp [BT.height, BT.size]
  | node b ax l r ihl ihr => simp only [BT.height, BT.size]; omega

theorem run_overflows (test : β → Option (EF K)) (lt : EF K → EF K → Bool) (neg : Nat → Bool)
    (isect : Nat → K → Option K) (t : BT β) (d0 : K)
    (hb : t.AllBox (fun b => (test b).isSome = true)) (hp : 32 < firstPath neg t) :
    run test lt neg isect t d0 = .error .stack := by
  have hr := C21_flatten_repr t [] []
  simp only [List.nil_append, List.append_nil, List.length_nil] at hr
  exact descent_overflows test lt neg isect (t.flatten 0) d0 t 0 [] t.size hr hb (by simp)
    (by simpa using hp) (height_lt_size t)

end transfer

/-- Box algebra of nested boxes: a box is its position in the chain. -/
def natAlg : Alg Nat Nat := ⟨max, id⟩

/-- Number of triangles of the witness. -/
def wN : Nat := 560

/-- The largest Morton code. -/
def topKey : Nat := 2 ^ 63 - 1

/-- `AAC_F` where the value for 4 triangles is `v` (it is exactly 2, and a rounding error of `powf`
could make it 3). -/
def aacFv (v n : Nat) : Nat := if n = 4 then v else aacF n

/-- The build of the witness, on positions: the first descent is longer than the stack. -/
theorem witness_path : ∀ v ∈ [2, 3],
    (match buildTree natAlg (aacFv v) (fun i => i) (fun i => if i = wN - 1 then topKey else 0) wN with
      | none => false
      | some t => decide (32 < firstPath (fun _ => false) t)) = true := by
  decide +kernel

/-- Nested boxes: cubes around the origin, and a last one around (1,1,1) containing the others. -/
def nested (i : Nat) : VBox ℚ :=
  if i < wN - 1 then ⟨⟨fun _ => -(i : ℚ), fun _ => i⟩, fun _ => by
    have : (0 : ℚ) ≤ i := Nat.cast_nonneg i
    linarith⟩
  else ⟨⟨fun _ => -(i : ℚ), fun _ => i + 2⟩, fun _ => by
    have : (0 : ℚ) ≤ i := Nat.cast_nonneg i
    linarith⟩

theorem nested_lo (i : Nat) (ax : Fin 3) : (nested i).1.lo ax = -(i : ℚ) := by
  unfold nested; split <;> rfl

theorem nested_hi (i : Nat) (ax : Fin 3) :
    (nested i).1.hi ax = if i < wN - 1 then (i : ℚ) else i + 2 := by
  unfold nested; split <;> rfl

theorem nested_hi_lt {i j : Nat} (h : i < j) (ax : Fin 3) : (nested i).1.hi ax < (nested j).1.hi ax := by
  have : (i : ℚ) < j := by exact_mod_cast h
  rw [nested_hi, nested_hi]
  split <;> split
  · exact this
  · linarith
  · omega
  · linarith

theorem nested_join {i j : Nat} (h : i ≤ j) : vjoin (nested i) (nested j) = nested j := by
  apply Subtype.ext
  apply Box.ext'
  · intro ax
    simp only [vjoin, engulf, fmin, nested_lo]
    rcases Nat.eq_or_lt_of_le h with rfl | h
    · simp
    · have : (i : ℚ) < j := by exact_mod_cast h
      rw [if_neg (by linarith)]
  · intro ax
    simp only [vjoin, engulf, fmax]
    rcases Nat.eq_or_lt_of_le h with rfl | h
    · simp
    · have := nested_hi_lt h ax
      rw [if_neg (by linarith)]

theorem nested_surf {i j : Nat} (h : i < j) : surface (nested i).1 < surface (nested j).1 := by
  have h0 := nested_hi_lt h 0
  have hc : (i : ℚ) < j := by exact_mod_cast h
  have hn := (nested i).2 0
  unfold surface
  simp only [nested_lo, nested_hi] at *
  generalize (if i < wN - 1 then (i : ℚ) else i + 2) = a at *
  generalize (if j < wN - 1 then (j : ℚ) else j + 2) = b at *
  have h1 : 0 ≤ a - -(i : ℚ) := by linarith
  have h2 : a - -(i : ℚ) < b - -(j : ℚ) := by linarith
  have := mul_self_lt_mul_self h1 h2
  linarith

theorem nested_hom : Hom natAlg (vAlg (K := ℚ)) nested where
  default := by
    apply Subtype.ext
    apply Box.ext'
    · intro ax; rw [nested_lo]; simp; rfl
    · intro ax; rw [nested_hi]; simp [wN]; rfl
  join a b := by
    show nested (max a b) = vjoin (nested a) (nested b)
    rcases Nat.le_total a b with h | h
    · rw [nested_join h, Nat.max_eq_right h]
    · rw [show vjoin (nested a) (nested b) = vjoin (nested b) (nested a) from vAlg_ok.comm _ _,
        nested_join h, Nat.max_eq_left h]
  surf a b := by
    show surface (nested a).1 < surface (nested b).1 ↔ a < b
    constructor
    · intro h
      by_contra hc
      rcases Nat.eq_or_lt_of_le (Nat.le_of_not_lt hc) with rfl | hc
      · exact lt_irrefl _ h
      · exact lt_asymm h (nested_surf hc)
    · exact nested_surf

/-! The build only looks at the given triangles. -/

section congr
variable {β K : Type} [Inhabited β] [LinearOrder K]

theorem leafBox_congr (alg : Alg β K) {b b' : Nat → β} (off len : Nat)
    (h : ∀ i, off ≤ i → i < off + len → b i = b' i) : leafBox alg b off len = leafBox alg b' off len := by
  induction len with
  | zero => rfl
  | succ n ih =>
    cases n with
    | zero => exact h off (Nat.le_refl _) (by omega)
    | succ n =>
      rw [leafBox_succ, leafBox_succ, ih (fun i h1 h2 => h i h1 (by omega)), h _ (by omega) (by omega)]

theorem bisect_congr {p q : Nat → Bool} (fuel left right : Nat)
    (h : ∀ i, left ≤ i → i ≤ right → p i = q i) : bisect p fuel left right = bisect q fuel left right := by
  induction fuel generalizing left right with
  | zero => rfl
  | succ fuel ih =>
    rw [bisect, bisect]
    by_cases hc : left < (left + right) / 2
    · rw [if_pos hc, if_pos hc, h _ (by omega) (by omega),
        ih _ _ (fun i h1 h2 => h i (by omega) (by omega)),
        ih _ _ (fun i h1 h2 => h i (by omega) (by omega))]
    · rw [if_neg hc, if_neg hc]

theorem makePartition_congr {m m' : Nat → Nat} (start end' k : Nat) (hse : start ≤ end')
    (h : ∀ i, start ≤ i → i ≤ end' → m i = m' i) :
    makePartition m start end' k = makePartition m' start end' k := by
  unfold makePartition
  simp only [h start (Nat.le_refl _) hse, h end' hse (Nat.le_refl _)]
  rw [bisect_congr (p := fun i => decide (k ≠ 0) && (m i).testBit (k - 1))
    (q := fun i => decide (k ≠ 0) && (m' i).testBit (k - 1)) _ _ _ (fun i h1 h2 => by rw [h i h1 h2])]

theorem traverseTree_congr (alg : Alg β K) (F : Nat → Nat) {b b' : Nat → β} {m m' : Nat → Nat}
    (fuel offs len k : Nat) (hb : ∀ i, offs ≤ i → i < offs + len → b i = b' i)
    (hm : ∀ i, offs ≤ i → i < offs + len → m i = m' i) :
    traverseTree alg F b m fuel offs len k = traverseTree alg F b' m' fuel offs len k := by
  induction fuel generalizing offs len k with
  | zero => rfl
  | succ fuel ih =>
    rw [traverseTree, traverseTree]
    by_cases h0 : len = 0
    · rw [if_pos h0, if_pos h0]
    · rw [if_neg h0, if_neg h0]
      by_cases h4 : len < 4
      · rw [if_pos h4, if_pos h4, leafBox_congr alg offs len hb]
      · rw [if_neg h4, if_neg h4]
        simp only
        rw [makePartition_congr (m := m) (m' := m') offs (offs + len - 1) k (by omega)
          (fun i h1 h2 => hm i h1 (by omega))]
        obtain ⟨m1, m2, _⟩ := makePartition_range m' offs len k (by omega)
        rw [ih offs _ _ (fun i h1 h2 => hb i h1 (by omega)) (fun i h1 h2 => hm i h1 (by omega)),
          ih _ _ _ (fun i h1 h2 => hb i (by omega) (by omega))
            (fun i h1 h2 => hm i (by omega) (by omega))]

theorem buildTree_congr (alg : Alg β K) (F : Nat → Nat) {b b' : Nat → β} {m m' : Nat → Nat} (len : Nat)
    (hb : ∀ i < len, b i = b' i) (hm : ∀ i < len, m i = m' i) :
    buildTree alg F b m len = buildTree alg F b' m' len := by
  unfold buildTree
  rw [leafBox_congr alg 0 len (fun i _ h => hb i (by omega)),
    traverseTree_congr alg F (len + 64) 0 len 63 (fun i _ h => hb i (by omega))
      (fun i _ h => hm i (by omega))]

end congr

/-! Facts about a legal sort. -/

theorem sort_length {sort : List Nat → List Nat} (hs : SortOk sort) (keys : List Nat) :
    (sort keys).length = keys.length := by
  rw [(hs keys).1.length_eq, List.length_range]

theorem sort_nodup {sort : List Nat → List Nat} (hs : SortOk sort) (keys : List Nat) :
    (sort keys).Nodup := (hs keys).1.nodup_iff.2 List.nodup_range

theorem sort_mem {sort : List Nat → List Nat} (hs : SortOk sort) (keys : List Nat) (j : Nat) :
    j ∈ sort keys ↔ j < keys.length := by
  rw [(hs keys).1.mem_iff, List.mem_range]

/-- A single largest key at the end stays at the end. -/
theorem sort_last {sort : List Nat → List Nat} (hs : SortOk sort) (n : Nat) (top : Nat) (ht : 0 < top) :
    (sort (List.replicate n 0 ++ [top])).idxOf n = n := by
  generalize hk : List.replicate n 0 ++ [top] = keys
  have hl : keys.length = n + 1 := by rw [← hk]; simp
  have hsl := sort_length hs keys
  have hmem : n ∈ sort keys := (sort_mem hs keys n).2 (by omega)
  have hi := List.idxOf_lt_length_iff.2 hmem
  by_contra hne
  have hlt : (sort keys).idxOf n < n := by omega
  have hp := List.pairwise_iff_getElem.1 (hs keys).2 ((sort keys).idxOf n) n hi (by omega) hlt
  have e1 : (sort keys)[(sort keys).idxOf n] = n := List.getElem_idxOf hi
  have hx : (sort keys)[n]'(by omega) ≠ n := by
    intro h
    have := (List.Nodup.getElem_inj_iff (sort_nodup hs keys) (hi := hi) (hj := by omega)).1
      (e1.trans h.symm)
    omega
  have hx2 : (sort keys)[n]'(by omega) < n + 1 := by
    rw [← hl]
    exact (sort_mem hs keys _).1 (List.getElem_mem _)
  rw [e1] at hp
  generalize (sort keys)[n]'(by omega) = x at *
  rw [← hk, List.getD_append _ _ _ x (by simp; omega), List.getD_append_right _ _ _ n (by simp)] at hp
  simp only [List.length_replicate, Nat.sub_self] at hp
  rw [List.getD_eq_getElem (List.replicate n 0) _ (by simp; omega)] at hp
  simp at hp
  omega

theorem keysOf_replicate (cb : Box ℚ) (c d : Fin 3 → ℚ) (k k' n : Nat) (h1 : keyOf cb c = some k)
    (h2 : keyOf cb d = some k') :
    keysOf cb (List.replicate n c ++ [d]) = some (List.replicate n k ++ [k']) := by
  induction n with
  | zero => simp [keysOf, h2]
  | succ n ih => simp only [List.replicate_succ, List.cons_append, keysOf, h1, ih]

theorem centroidBox_replicate (n : Nat) :
    centroidBox (List.replicate (n + 1) (fun _ => 0) ++ [fun _ => 1]) = ⟨fun _ => 0, fun _ => 1⟩ := by
  have h : ∀ n, (List.replicate n (fun _ : Fin 3 => (0 : ℚ))).foldl engulfPoint (ofPoint fun _ => 0) =
      ofPoint fun _ => 0 := by
    intro n
    induction n with
    | zero => rfl
    | succ n ih =>
      rw [List.replicate_succ, List.foldl_cons]
      have : engulfPoint (ofPoint fun _ => (0 : ℚ)) (fun _ => 0) = ofPoint fun _ => 0 := by
        simp [engulfPoint, ofPoint, fmin, fmax]
      rw [this, ih]
  rw [List.replicate_succ, List.cons_append]
  simp only [centroidBox]
  rw [List.foldl_append, h]
  have : ¬ (1 : ℚ) < 0 := by norm_num
  simp [engulfPoint, ofPoint, fmin, fmax, this]

theorem key_zero : keyOf ⟨fun _ => 0, fun _ => 1⟩ (fun _ => 0) = some 0 := by
  have : Morton.gridCoord 0 0 1 = some 0 := by
    simp [Morton.gridCoord, fl_zero, fl_one]
  simp only [keyOf, this]
  decide +kernel

theorem key_one : keyOf ⟨fun _ => 0, fun _ => 1⟩ (fun _ => 1) = some topKey := by
  have : Morton.gridCoord 1 0 1 = some 2097151 := by
    have := fl_int 2097151 (by norm_num)
    norm_num at this
    simp [Morton.gridCoord, fl_one, this]
  simp only [keyOf, this]
  decide +kernel

/-- The statement of C22 for the model. -/
def C22_statement (F : Nat → Nat) (sort : List Nat → List Nat) : Prop :=
  ∀ boxes t order, buildMesh F sort boxes = some (t, order) →
    ∀ (r : Ray ℚ) isect d0, run (vTest r) EF.lt (vNeg r) isect t d0 ≠ .error .stack

theorem wKeys_length : (List.replicate (wN - 1) 0 ++ [topKey]).length = wN := by
  rw [List.length_append, List.length_replicate]
  rfl

/-- The witness mesh for a given sort: 560 triangles, with nested bounding boxes in sorted order. -/
def wMesh (sort : List Nat → List Nat) : List (VBox ℚ) :=
  (List.range wN).map fun j => nested ((sort (List.replicate (wN - 1) 0 ++ [topKey])).idxOf j)

theorem wMesh_centers {sort : List Nat → List Nat} (hs : SortOk sort) :
    centers (wMesh sort) = List.replicate (wN - 1) (fun _ => 0) ++ [fun _ => 1] := by
  have hlast := sort_last hs (wN - 1) topKey (by decide)
  unfold centers wMesh
  rw [List.map_map]
  generalize hσ : sort (List.replicate (wN - 1) 0 ++ [topKey]) = σ at *
  have hsub : ∀ j ∈ List.range (wN - 1), ((fun b : VBox ℚ => center b.1) ∘ fun j => nested (σ.idxOf j)) j =
      fun _ => 0 := by
    intro j hj
    have hj' := List.mem_range.1 hj
    have hne : σ.idxOf j < wN - 1 := by
      have hm : j ∈ σ := by
        rw [← hσ, sort_mem hs, wKeys_length]; omega
      have hl : σ.length = wN := by rw [← hσ, sort_length hs, wKeys_length]
      have hi := List.idxOf_lt_length_iff.2 hm
      by_contra hc
      have hmm : wN - 1 ∈ σ := by
        rw [← hσ, sort_mem hs, wKeys_length]; decide
      have e1 := List.getElem_idxOf hi
      have e2 := List.getElem_idxOf (List.idxOf_lt_length_iff.2 hmm)
      have : σ.idxOf j = σ.idxOf (wN - 1) := by omega
      simp only [this] at e1
      rw [e1] at e2
      omega
    funext ax
    simp only [Function.comp, center, nested_lo, nested_hi, if_pos hne]
    ring
  have hsplit : List.range wN = List.range (wN - 1) ++ [wN - 1] := by
    conv_lhs => rw [show wN = wN - 1 + 1 from rfl]
    exact List.range_succ
  rw [hsplit, List.map_append, List.map_congr_left hsub]
  refine congrArg₂ _ ?_ ?_
  · rw [List.map_const', List.length_range]
  · simp only [List.map_cons, List.map_nil, Function.comp, hlast]
    refine congrArg (fun x => [x]) ?_
    funext ax
    simp only [center, nested_lo, nested_hi, if_neg (Nat.lt_irrefl _)]
    ring

/-- The ray from the origin along (1,1,1). -/
def wRay : Ray ℚ := ⟨fun _ => 0, fun _ => 1⟩

theorem wRay_accepted (i : Nat) : (vTest wRay (nested i)).isSome = true := by
  obtain ⟨_, h⟩ := C25_general_direction (nested i).1 wRay (nested i).2 (by
    intro ax h
    simp [wRay] at h)
  unfold vTest
  rw [Option.isSome_map]
  cases e : intersectE (nested i).1 wRay with
  | some p => rfl
  | none =>
    exfalso
    refine h e 0 ?_
    intro ax
    have h0 : (0 : ℚ) ≤ i := Nat.cast_nonneg i
    simp only [Ray.at, wRay, nested_lo, nested_hi]
    constructor
    · simp
    · split <;> simp
      linarith

/-- **C22 is violated**: whatever the (legal) order in which the sort leaves equal Morton codes, some
mesh of 560 triangles makes the traversal write past the 32-entry job stack for the ray from the origin
along (1,1,1). -/
theorem C22_violated (sort : List Nat → List Nat) (hs : SortOk sort) (v : Nat) (hv : v ∈ [2, 3]) :
    ¬ C22_statement (aacFv v) sort := by
  intro hC
  have hlen : (wMesh sort).length = wN := by simp [wMesh]
  have hc := wMesh_centers hs
  have hb : centroidBox (centers (wMesh sort)) = ⟨fun _ => 0, fun _ => 1⟩ := by
    rw [hc]; exact centroidBox_replicate (wN - 2)
  have hk : keysOf (centroidBox (centers (wMesh sort))) (centers (wMesh sort)) =
      some (List.replicate (wN - 1) 0 ++ [topKey]) := by
    rw [hb, hc]
    exact keysOf_replicate _ _ _ _ _ _ key_zero key_one
  have hσl : (sort (List.replicate (wN - 1) 0 ++ [topKey])).length = wN := by
    rw [sort_length hs, wKeys_length]
  have hnd := sort_nodup hs (List.replicate (wN - 1) 0 ++ [topKey])
  have hmem := sort_mem hs (List.replicate (wN - 1) 0 ++ [topKey])
  have hlast := sort_last hs (wN - 1) topKey (by decide)
  have hkl := wKeys_length
  have hw : wMesh sort = (List.range wN).map fun j =>
    nested ((sort (List.replicate (wN - 1) 0 ++ [topKey])).idxOf j) := rfl
  generalize hσ : sort (List.replicate (wN - 1) 0 ++ [topKey]) = σ at *
  have hgetlt : ∀ i, i < wN → σ.getD i 0 < wN := by
    intro i hi
    rw [List.getD_eq_getElem _ _ (by omega), ← hkl]
    exact (hmem _).1 (List.getElem_mem _)
  have hidx : ∀ i, i < wN → σ.idxOf (σ.getD i 0) = i := by
    intro i hi
    rw [List.getD_eq_getElem _ _ (by omega)]
    exact hnd.idxOf_getElem i (by omega)
  have hboxes : ∀ i < wN, (wMesh sort).getD (σ.getD i 0) default = nested i := by
    intro i hi
    have := hgetlt i hi
    rw [hw, List.getD_eq_getElem _ _ (by rw [List.length_map, List.length_range]; omega)]
    rw [List.getElem_map, List.getElem_range, hidx i hi]
  have hkeys : ∀ i < wN, (List.replicate (wN - 1) 0 ++ [topKey]).getD (σ.getD i 0) 0 =
      if i = wN - 1 then topKey else 0 := by
    intro i hi
    have h1 := hgetlt i hi
    have h2 := hidx i hi
    generalize σ.getD i 0 = x at *
    by_cases hx : x = wN - 1
    · subst hx
      rw [hlast] at h2
      rw [if_pos h2.symm, List.getD_append_right _ _ _ _ (by simp)]
      simp
    · have : i ≠ wN - 1 := by
        intro h
        apply hx
        have hm : x ∈ σ := (hmem x).2 (by omega)
        have e1 := List.getElem_idxOf (List.idxOf_lt_length_iff.2 hm)
        have hm2 : wN - 1 ∈ σ := (hmem _).2 (by rw [hkl]; decide)
        have e2 := List.getElem_idxOf (List.idxOf_lt_length_iff.2 hm2)
        have : σ.idxOf x = σ.idxOf (wN - 1) := by omega
        simp only [this] at e1
        rw [e1] at e2
        exact e2
      rw [if_neg this, List.getD_append _ _ _ _ (by simp; omega),
        List.getD_eq_getElem _ _ (by simp; omega)]
      simp
  have hbuild : buildTree vAlg (aacFv v) (fun i => (wMesh sort).getD (σ.getD i 0) default)
      (fun i => (List.replicate (wN - 1) 0 ++ [topKey]).getD (σ.getD i 0) 0) wN =
      (buildTree natAlg (aacFv v) (fun i => i) (fun i => if i = wN - 1 then topKey else 0) wN).map
        (BT.map nested) := by
    rw [← buildTree_map nested_hom]
    exact buildTree_congr _ _ _ hboxes hkeys
  have hwit := witness_path v hv
  cases e : buildTree natAlg (aacFv v) (fun i => i) (fun i => if i = wN - 1 then topKey else 0) wN with
  | none => rw [e] at hwit; simp at hwit
  | some t =>
    rw [e] at hwit hbuild
    simp only [decide_eq_true_eq] at hwit
    have hbm : buildMesh (aacFv v) sort (wMesh sort) = some (t.map nested, σ) := by
      unfold buildMesh
      rw [if_neg (by rw [hlen]; decide), hk]
      simp only
      rw [hσ, hlen, hbuild]
      rfl
    refine hC (wMesh sort) _ _ hbm wRay (fun _ _ => none) 0 ?_
    refine run_overflows _ _ _ _ _ _ (allBox_map _ wRay_accepted t) ?_
    rw [firstPath_map]
    have : vNeg wRay = fun _ => false := by
      funext ax
      simp [vNeg, wRay, EF.recip, EF.lt]
    rw [this]
    exact hwit

/-! ### C23: materials after reordering -/

/-- `Asset::get_material(h.index)`, asset.cpp:77-80: the material list `index` is the association of the
parsed file (parser_obj.cpp:466-470, config_driver.cpp:637-642), read at the slot of the triangle
array. -/
def shaded {M : Type} (assoc : List M) (slot : Nat) : Option M := assoc[slot]?

/-- The statement of C23: the triangle stored in `slot` after the build, which is triangle `order[slot]`
of the file, is shaded with the material the file gave to that triangle. -/
def C23_statement (F : Nat → Nat) (sort : List Nat → List Nat) : Prop :=
  ∀ boxes t order, buildMesh F sort boxes = some (t, order) →
    ∀ assoc : List Nat, assoc.length = boxes.length → ∀ slot < boxes.length,
      shaded assoc slot = assoc[order.getD slot 0]?

theorem buildMesh_order (F : Nat → Nat) (sort : List Nat → List Nat) (boxes : List (VBox ℚ))
    (t : BT (VBox ℚ)) (order : List Nat) (h : buildMesh F sort boxes = some (t, order)) :
    (boxes.length < 4 ∧ order = List.range boxes.length) ∨
    (4 ≤ boxes.length ∧ ∃ keys, keysOf (centroidBox (centers boxes)) (centers boxes) = some keys ∧
      order = sort keys) := by
  unfold buildMesh at h
  split at h
  · rename_i h4
    left
    refine ⟨h4, ?_⟩
    cases e : buildTree vAlg F (fun i => boxes.getD i default) (fun _ => 0) boxes.length with
    | none => rw [e] at h; simp at h
    | some t' => rw [e] at h; simp at h; exact h.2.symm
  · rename_i h4
    right
    refine ⟨by omega, ?_⟩
    cases e : keysOf (centroidBox (centers boxes)) (centers boxes) with
    | none => rw [e] at h; simp at h
    | some keys =>
      rw [e] at h
      simp only [Option.map_eq_some_iff] at h
      obtain ⟨_, _, h⟩ := h
      exact ⟨keys, rfl, (congrArg Prod.snd h).symm⟩

theorem keysOf_length (cb : Box ℚ) (cs : List (Fin 3 → ℚ)) (keys : List Nat) (h : keysOf cb cs = some keys) :
    keys.length = cs.length := by
  induction cs generalizing keys with
  | nil => simp [keysOf] at h; subst h; rfl
  | cons c cs ih =>
    rw [keysOf] at h
    split at h
    · rename_i k ks h1 h2
      simp only [Option.some.injEq] at h
      subst h
      simp [ih ks h2]
    · simp at h

/-- A strictly increasing key list can only be left as it is. -/
theorem sort_of_increasing {sort : List Nat → List Nat} (hs : SortOk sort) (keys : List Nat)
    (hk : keys.Pairwise (· < ·)) : sort keys = List.range keys.length := by
  refine ((hs keys).1.eq_of_pairwise (le := (· ≤ ·)) (fun a b _ _ h1 h2 => Nat.le_antisymm h1 h2) ?_ ?_)
  · refine List.Pairwise.imp_of_mem ?_ (hs keys).2
    intro a b ha hb hab
    have ha' := (sort_mem hs keys a).1 ha
    have hb' := (sort_mem hs keys b).1 hb
    by_contra hc
    have := List.pairwise_iff_getElem.1 hk b a hb' ha' (by omega)
    rw [List.getD_eq_getElem _ _ ha', List.getD_eq_getElem _ _ hb'] at hab
    omega
  · exact (List.pairwise_lt_range).imp Nat.le_of_lt

/-- **C23** (restricted): materials are right for meshes with fewer than 4 triangles, for meshes with a
single material, and for meshes whose triangles are already listed in strictly increasing Morton order;
the full statement fails (`C23_violated`). -/
theorem C23_unmoved_partial (F : Nat → Nat) (sort : List Nat → List Nat) (hs : SortOk sort)
    (boxes : List (VBox ℚ)) (t : BT (VBox ℚ)) (order : List Nat)
    (h : buildMesh F sort boxes = some (t, order)) {M : Type} (assoc : List M)
    (hl : assoc.length = boxes.length)
    (hc : boxes.length < 4 ∨ (∃ m, assoc = List.replicate boxes.length m) ∨
      ∃ keys, keysOf (centroidBox (centers boxes)) (centers boxes) = some keys ∧ keys.Pairwise (· < ·))
    (slot : Nat) (hslot : slot < boxes.length) : shaded assoc slot = assoc[order.getD slot 0]? := by
  have hid : order = List.range boxes.length → shaded assoc slot = assoc[order.getD slot 0]? := by
    rintro rfl
    rw [List.getD_eq_getElem _ _ (by simpa using hslot), List.getElem_range]
    rfl
  rcases buildMesh_order F sort boxes t order h with ⟨_, ho⟩ | ⟨h4, keys, hk, ho⟩
  · exact hid ho
  · have hkl := keysOf_length _ _ _ hk
    simp only [centers, List.length_map] at hkl
    rcases hc with hc | ⟨m, rfl⟩ | ⟨keys', hk', hinc⟩
    · omega
    · have hlt : order.getD slot 0 < boxes.length := by
        subst ho
        rw [List.getD_eq_getElem _ _ (by rw [sort_length hs]; omega), ← hkl]
        exact (sort_mem hs keys _).1 (List.getElem_mem _)
      unfold shaded
      rw [List.getElem?_replicate, List.getElem?_replicate, if_pos hslot, if_pos hlt]
    · rw [hk] at hk'
      simp only [Option.some.injEq] at hk'
      subst hk'
      exact hid (by rw [ho, sort_of_increasing hs keys hinc, hkl])

/-- Four triangles with centroids 1, 1/2, 1/4, 0 along the diagonal, in this order in the file. -/
def mMesh : List (VBox ℚ) :=
  [1, 1 / 2, 1 / 4, 0].map fun c : ℚ => ⟨⟨fun _ => c - 1, fun _ => c + 1⟩, fun _ => by linarith⟩

theorem mMesh_centers : centers mMesh = [fun _ => 1, fun _ => 1 / 2, fun _ => 1 / 4, fun _ => 0] := by
  unfold centers mMesh
  simp only [List.map_cons, List.map_nil]
  refine congrArg₂ _ ?_ (congrArg₂ _ ?_ (congrArg₂ _ ?_ (congrArg₂ _ ?_ rfl))) <;>
    · funext ax; simp only [center]; norm_num

theorem grid_half : Morton.gridCoord (1 / 2) 0 1 = some 1048575 := by
  have h1 := fl_rep 1 (-1) (by norm_num)
  have h2 := fl_rep 2097151 (-1) (by norm_num)
  norm_num at h1 h2
  simp only [Morton.gridCoord, sub_zero, fl_one, div_one, mul_one]
  norm_num [h1, h2]

theorem grid_quarter : Morton.gridCoord (1 / 4) 0 1 = some 524287 := by
  have h1 := fl_rep 1 (-2) (by norm_num)
  have h2 := fl_rep 2097151 (-2) (by norm_num)
  norm_num at h1 h2
  simp only [Morton.gridCoord, sub_zero, fl_one, div_one, mul_one]
  norm_num [h1, h2]

/-- Keys of the four triangles: strictly decreasing. -/
theorem mMesh_keys : ∃ k2 k3, k2 < topKey ∧ k3 < k2 ∧ 0 < k3 ∧
    keysOf (centroidBox (centers mMesh)) (centers mMesh) = some [topKey, k2, k3, 0] := by
  have hb : centroidBox (centers mMesh) = ⟨fun _ => 0, fun _ => 1⟩ := by
    rw [mMesh_centers]
    simp only [centroidBox, List.foldl_cons, List.foldl_nil, engulfPoint, ofPoint, fmin, fmax]
    norm_num
  have k2 : keyOf ⟨fun _ => 0, fun _ => 1⟩ (fun _ => 1 / 2) =
      some (Morton.mortonShift (BitVec.ofInt 64 1048575) (BitVec.ofInt 64 1048575)
        (BitVec.ofInt 64 1048575)).toNat := by
    simp only [keyOf, grid_half]
  have k3 : keyOf ⟨fun _ => 0, fun _ => 1⟩ (fun _ => 1 / 4) =
      some (Morton.mortonShift (BitVec.ofInt 64 524287) (BitVec.ofInt 64 524287)
        (BitVec.ofInt 64 524287)).toNat := by
    simp only [keyOf, grid_quarter]
  refine ⟨(Morton.mortonShift (BitVec.ofInt 64 1048575) (BitVec.ofInt 64 1048575)
        (BitVec.ofInt 64 1048575)).toNat, (Morton.mortonShift (BitVec.ofInt 64 524287)
        (BitVec.ofInt 64 524287) (BitVec.ofInt 64 524287)).toNat, by decide +kernel,
        by decide +kernel, by decide +kernel, ?_⟩
  rw [hb, mMesh_centers]
  simp only [keysOf, key_one, key_zero, k2, k3]

/-- **C23 is violated** for every legal sort: with four triangles listed from far to near and four
different materials, the triangle that ends in slot 0 is the last one of the file but is shaded with
the material of the first. -/
theorem C23_violated (sort : List Nat → List Nat) (hs : SortOk sort) : ¬ C23_statement aacF sort := by
  intro hC
  obtain ⟨k2, k3, h1, h2, h3, hk⟩ := mMesh_keys
  have hord : (sort [topKey, k2, k3, 0]).getD 0 0 = 3 := by
    have hl := sort_length hs [topKey, k2, k3, 0]
    have hm := (sort_mem hs [topKey, k2, k3, 0] 3).2 (by simp)
    have hmm := sort_mem hs [topKey, k2, k3, 0]
    have hp := (hs [topKey, k2, k3, 0]).2
    generalize sort [topKey, k2, k3, 0] = σ at *
    cases σ with
    | nil => simp at hl
    | cons x rest =>
      rcases List.mem_cons.1 hm with h | h
      · simp [← h]
      · have := (List.pairwise_cons.1 hp).1 3 h
        have hx := (hmm x).1 (by simp)
        simp only [List.length_cons, List.length_nil] at hx
        have hx' : x = 0 ∨ x = 1 ∨ x = 2 ∨ x = 3 := by omega
        have ht : 0 < topKey := by decide
        rcases hx' with rfl | rfl | rfl | rfl
        · simp at this; omega
        · simp at this; omega
        · simp at this; omega
        · simp
  obtain ⟨t, e, _⟩ := C19_build_partitions vAlg vAlg_ok aacF aacF_pos
    (fun i => mMesh.getD ((sort [topKey, k2, k3, 0]).getD i 0) default)
    (fun i => [topKey, k2, k3, 0].getD ((sort [topKey, k2, k3, 0]).getD i 0) 0) 4 (by omega)
  have hbm : buildMesh aacF sort mMesh = some (t, sort [topKey, k2, k3, 0]) := by
    unfold buildMesh
    rw [if_neg (by simp [mMesh]), hk]
    simp only
    rw [show mMesh.length = 4 from rfl, e]
    rfl
  have := hC mMesh t _ hbm [0, 1, 2, 3] rfl 0 (by simp [mMesh])
  rw [hord] at this
  simp [shaded] at this

/-- The stable insertion sort satisfies the specification, so the hypotheses on `sort` can be met. -/
def isort (keys : List Nat) : List Nat :=
  (List.range keys.length).insertionSort fun i j => keys.getD i 0 ≤ keys.getD j 0

theorem isort_ok : SortOk isort := by
  intro keys
  refine ⟨List.perm_insertionSort _ _, ?_⟩
  have : Std.Total (α := Nat) (fun i j => keys.getD i 0 ≤ keys.getD j 0) := ⟨fun a b => Nat.le_total _ _⟩
  have : IsTrans Nat (fun i j => keys.getD i 0 ≤ keys.getD j 0) := ⟨fun a b c => Nat.le_trans⟩
  exact List.pairwise_insertionSort _ _

example : ¬ C22_statement (aacFv 2) isort := C22_violated isort isort_ok 2 (by simp)
example : ¬ C23_statement aacF isort := C23_violated isort isort_ok

/-- Non-vacuity of C19-C21: nine unit cubes in a row, with a ray hitting all of them. -/
def exBoxes (i : Nat) : VBox ℚ :=
  ⟨⟨fun _ => 2 * i + 1, fun _ => 2 * i + 2⟩, fun _ => by linarith⟩

example : ∃ c', combineCluster vAlg [.leaf (exBoxes 0) 0 1, .leaf (exBoxes 5) 1 2, .leaf (exBoxes 1) 3 1]
    1 0 = some c' ∧ c'.length = 1 ∧ (c'.flatMap BT.leaves).Perm [(0, 1), (1, 2), (3, 1)] := by
  obtain ⟨c', h1, h2⟩ := C20_combine_cluster (vAlg (K := ℚ)) vAlg_ok
    [.leaf (exBoxes 0) 0 1, .leaf (exBoxes 5) 1 2, .leaf (exBoxes 1) 3 1] 1 0 (Nat.le_refl _)
  exact ⟨c', h1, by rw [h2.length]; rfl, h2.leaves⟩

example : ∃ t, buildTree vAlg aacF exBoxes (fun i => i) 9 = some t ∧
    (∃ s, run (vTest wRay) EF.lt (vNeg wRay)
      (fun i b => if (2 * i + 1 : ℚ) < b then some (2 * (i : ℚ) + 1) else none) t 100 = .ok s ∧
      s = (1, some 0)) := by
  obtain ⟨t, s, e, hs⟩ := C22_small_mesh_partial (K := ℚ) aacF aacF_pos exBoxes (fun i => i) 9 (by omega)
    (by omega) wRay (fun i b => if (2 * i + 1 : ℚ) < b then some (2 * (i : ℚ) + 1) else none) 100
  have ho : Oracle (fun i : Nat => some (2 * (i : ℚ) + 1))
      (fun i b => if (2 * i + 1 : ℚ) < b then some (2 * (i : ℚ) + 1) else none) := by
    constructor
    · intro i d t h
      split at h
      · rename_i hlt
        simp only [Option.some.injEq] at h
        subst h
        exact ⟨rfl, hlt.le⟩
      · simp at h
    · intro i d t h hlt
      simp only [Option.some.injEq] at h
      subst h
      simp only [if_pos hlt]
  obtain ⟨t', e', h⟩ := C21_mesh_closest_hit aacF aacF_pos exBoxes (fun i => i) 9 (by omega) wRay
    (by intro i ax h; simp [wRay] at h) _ _ ho (by
      intro i t h
      simp only [Option.some.injEq] at h
      subst h
      intro ax
      simp only [exBoxes, Ray.at, wRay]
      constructor <;> linarith) 100
  rw [e] at e'
  simp only [Option.some.injEq] at e'
  subst e'
  rw [hs] at h
  refine ⟨t, e, s, hs, ?_⟩
  rcases h with h | ⟨s', e2, h1, h2⟩
  · simp at h
  · simp only [Except.ok.injEq] at e2
    subst e2
    obtain ⟨d, o⟩ := s
    cases o with
    | none =>
      exfalso
      obtain ⟨_, h⟩ := h2 rfl
      have := h 0 (by omega) 1 (by simp)
      norm_num at this
    | some i =>
      obtain ⟨_, h3, _, h4⟩ := h1 i rfl
      have h5 := h4 0 (by omega) 1 (by simp)
      simp only [Option.some.injEq] at h3
      have hi : (0 : ℚ) ≤ i := Nat.cast_nonneg i
      simp only at h5
      have : (i : ℚ) = 0 := by linarith
      have hi0 : i = 0 := by exact_mod_cast this
      subst hi0
      simp at h3
      rw [← h3]

end Spectre.Bvh
