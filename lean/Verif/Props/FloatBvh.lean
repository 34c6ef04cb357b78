import Verif.Model.FloatBvh
import Verif.Props.FloatTree
import Verif.Props.BvhMesh

/-
C153: the BVH built with surfaces in binary32 holds every triangle when the coordinates stay below 2^61, and loses
triangles when surfaces overflow.
C154: the traversal of that BVH in binary32 returns the closest hit.
-/

namespace Spectre.FBvh

open Spectre.AABB Spectre.EF F32
open Spectre.Bvh (BT VBox vjoin axisOf makePartition Alg AlgOk tris Oracle Accepts AccOk run)
open Spectre.FTree (FRay ofQ boxTest toE kr Rep RayOk Off OffBox)

/-! ### Surfaces -/

/-- The surface with every operation rounded and no overflow. -/
def ext (b : Box ℚ) (i : Fin 3) : ℚ := rnd32 (b.hi i - b.lo i)

/-- The rounded surface. -/
def surf (b : Box ℚ) : ℚ :=
  rnd32 (2 * rnd32 (rnd32 (rnd32 (ext b 0 * ext b 1) + rnd32 (ext b 0 * ext b 2)) + rnd32 (ext b 1 * ext b 2)))

/-- Boxes with coordinates up to 2^61. -/
def Small (b : Box ℚ) : Prop := ∀ i, |b.lo i| ≤ 2 ^ 61 ∧ |b.hi i| ≤ 2 ^ 61

/-- The code's boxes with rounded surfaces. -/
def fAlg : Alg (VBox ℚ) ℚ := ⟨vjoin, fun b => surf b.1⟩

theorem kr_small {q : ℚ} (h0 : 0 ≤ q) (h : q ≤ 2 ^ 127) : kr q = .fin (rnd32 q) := by
  have h1 : rnd32 q ≤ 2 ^ 127 := by exact_mod_cast rnd32_lt (k := 127) (by norm_num) (by exact_mod_cast h)
  have h2 := rnd32_nonneg h0
  unfold kr
  rw [if_neg (not_le.2 (lt_of_le_of_lt h1 (by norm_num))), if_neg (not_le.2 (lt_of_lt_of_le (by norm_num) h2))]

theorem round_small {s : Bool} {q : ℚ} (h0 : 0 ≤ q) (h : q ≤ 2 ^ 127) :
    (F32.round s q).Finite ∧ (F32.round s q).val = rnd32 q := by
  have e := FTree.toE_round s q
  rw [kr_small h0 h] at e
  cases hx : F32.round s q with
  | nan => rw [hx] at e; cases e
  | inf t => rw [hx] at e; cases t <;> cases e
  | zero t => rw [hx] at e; injection e with e; exact ⟨trivial, e⟩
  | num x => rw [hx] at e; injection e with e; exact ⟨trivial, e⟩

theorem add_small {a b : F32} (ha : a.Finite) (hb : b.Finite) (h0 : 0 ≤ a.val + b.val) (h : a.val + b.val ≤ 2 ^ 127) :
    (add a b).Finite ∧ (add a b).val = rnd32 (a.val + b.val) := by
  cases a with
  | nan => exact ha.elim
  | inf s => exact ha.elim
  | zero s => cases b with
    | nan => exact hb.elim
    | inf s => exact hb.elim
    | _ => exact round_small h0 h
  | num q => cases b with
    | nan => exact hb.elim
    | inf s => exact hb.elim
    | _ => exact round_small h0 h

theorem mul_small {a b : F32} (ha : a.Finite) (hb : b.Finite) (h0 : 0 ≤ a.val * b.val) (h : a.val * b.val ≤ 2 ^ 127) :
    (mul a b).Finite ∧ (mul a b).val = rnd32 (a.val * b.val) := by
  cases a with
  | nan => exact ha.elim
  | inf s => exact ha.elim
  | zero s => cases b with
    | nan => exact hb.elim
    | inf s => exact hb.elim
    | _ => exact round_small h0 h
  | num q => cases b with
    | nan => exact hb.elim
    | inf s => exact hb.elim
    | _ => exact round_small h0 h

theorem ext_nonneg {b : Box ℚ} (h : ∀ i, b.lo i ≤ b.hi i) (i : Fin 3) : 0 ≤ ext b i :=
  rnd32_nonneg (sub_nonneg.2 (h i))

theorem ext_le {b : Box ℚ} (hs : Small b) (i : Fin 3) : ext b i ≤ 2 ^ 62 := by
  have := hs i
  have h1 := abs_le.1 this.1
  have h2 := abs_le.1 this.2
  have : b.hi i - b.lo i ≤ 2 ^ (62 : ℤ) := by norm_num at *; linarith [h1.1, h2.2]
  exact_mod_cast rnd32_lt (by norm_num) this

theorem extent_spec {b : Box ℚ} (h : ∀ i, b.lo i ≤ b.hi i) (hs : Small b) (i : Fin 3) :
    (extent b i).Finite ∧ (extent b i).val = ext b i := by
  have h1 := abs_le.1 (hs i).1
  have h2 := abs_le.1 (hs i).2
  have h3 := h i
  have fin : ∀ q, (ofQ q).Finite := by intro q; unfold ofQ; split <;> trivial
  have nfin : ∀ q, (neg (ofQ q)).Finite ∧ (neg (ofQ q)).val = -q := by
    intro q
    unfold ofQ
    split
    · rename_i h; subst h; exact ⟨trivial, by simp [neg, val]⟩
    · exact ⟨trivial, rfl⟩
  have := add_small (fin (b.hi i)) (nfin (b.lo i)).1 (by rw [FTree.ofQ_val, (nfin _).2]; linarith)
    (by rw [FTree.ofQ_val, (nfin _).2]; norm_num at *; linarith [h1.1, h2.2])
  rw [FTree.ofQ_val, (nfin _).2, ← sub_eq_add_neg] at this
  exact this

/-- The surface in binary32 of a box that is not too large. -/
theorem surface_spec {b : Box ℚ} (h : ∀ i, b.lo i ≤ b.hi i) (hs : Small b) :
    (surface b).Finite ∧ (surface b).val = surf b := by
  have prod : ∀ i j, (mul (extent b i) (extent b j)).Finite ∧
      (mul (extent b i) (extent b j)).val = rnd32 (ext b i * ext b j) ∧
      0 ≤ rnd32 (ext b i * ext b j) ∧ rnd32 (ext b i * ext b j) ≤ 2 ^ 124 := by
    intro i j
    obtain ⟨f1, v1⟩ := extent_spec h hs i
    obtain ⟨f2, v2⟩ := extent_spec h hs j
    have n1 := ext_nonneg h i
    have n2 := ext_nonneg h j
    have hp : ext b i * ext b j ≤ 2 ^ 124 := by
      calc _ ≤ (2 : ℚ) ^ 62 * 2 ^ 62 := mul_le_mul (ext_le hs i) (ext_le hs j) n2 (by norm_num)
        _ = 2 ^ 124 := by norm_num
    have := mul_small f1 f2 (by rw [v1, v2]; positivity) (by
      rw [v1, v2]; exact le_trans hp (by norm_num))
    rw [v1, v2] at this
    refine ⟨this.1, this.2, rnd32_nonneg (by positivity), ?_⟩
    exact_mod_cast rnd32_lt (k := 124) (by norm_num) (by exact_mod_cast hp)
  obtain ⟨f1, v1, n1, l1⟩ := prod 0 1
  obtain ⟨f2, v2, n2, l2⟩ := prod 0 2
  obtain ⟨f3, v3, n3, l3⟩ := prod 1 2
  obtain ⟨f4, v4⟩ := add_small f1 f2 (by rw [v1, v2]; linarith) (by rw [v1, v2]; norm_num at *; linarith)
  rw [v1, v2] at v4
  have n4 : 0 ≤ rnd32 (rnd32 (ext b 0 * ext b 1) + rnd32 (ext b 0 * ext b 2)) := rnd32_nonneg (by linarith)
  have l4 : rnd32 (rnd32 (ext b 0 * ext b 1) + rnd32 (ext b 0 * ext b 2)) ≤ 2 ^ 125 := by
    exact_mod_cast rnd32_lt (k := 125) (by norm_num) (by norm_num at *; linarith)
  obtain ⟨f5, v5⟩ := add_small f4 f3 (by rw [v3, v4]; linarith) (by rw [v3, v4]; norm_num at *; linarith)
  rw [v3, v4] at v5
  have n5 : 0 ≤ rnd32 (rnd32 (rnd32 (ext b 0 * ext b 1) + rnd32 (ext b 0 * ext b 2)) + rnd32 (ext b 1 * ext b 2)) :=
    rnd32_nonneg (by linarith)
  have l5 : rnd32 (rnd32 (rnd32 (ext b 0 * ext b 1) + rnd32 (ext b 0 * ext b 2)) + rnd32 (ext b 1 * ext b 2)) ≤ 2 ^ 126 := by
    exact_mod_cast rnd32_lt (k := 126) (by norm_num) (by norm_num at *; linarith)
  have e2 : (num 2).val = 2 := rfl
  obtain ⟨f6, v6⟩ := mul_small (a := num 2) trivial f5 (by rw [v5, e2]; linarith) (by
    rw [v5, e2]; norm_num at *; linarith)
  rw [v5, e2] at v6
  exact ⟨f6, v6⟩

theorem surf_mono {b c : Box ℚ} (hb : ∀ i, b.lo i ≤ b.hi i) (h : ∀ i, c.lo i ≤ b.lo i ∧ b.hi i ≤ c.hi i) :
    surf b ≤ surf c := by
  have e : ∀ i, ext b i ≤ ext c i := fun i => rnd32_mono (by linarith [(h i).1, (h i).2])
  have n : ∀ i, 0 ≤ ext b i := ext_nonneg hb
  have p : ∀ i j, rnd32 (ext b i * ext b j) ≤ rnd32 (ext c i * ext c j) := fun i j =>
    rnd32_mono (mul_le_mul (e i) (e j) (n j) (le_trans (n i) (e i)))
  unfold surf
  apply rnd32_mono
  refine mul_le_mul_of_nonneg_left ?_ (by norm_num)
  exact rnd32_mono (add_le_add (rnd32_mono (add_le_add (p 0 1) (p 0 2))) (p 1 2))

theorem vjoin_bounds (a b : VBox ℚ) (i : Fin 3) :
    (vjoin a b).1.lo i = min (a.1.lo i) (b.1.lo i) ∧ (vjoin a b).1.hi i = max (a.1.hi i) (b.1.hi i) := by
  simp only [vjoin, engulf, fmin, fmax]
  constructor
  · split
    · rename_i h; exact (min_eq_left (le_of_lt h)).symm
    · rename_i h; exact (min_eq_right (not_lt.1 h)).symm
  · split
    · rename_i h; exact (max_eq_left (le_of_lt h)).symm
    · rename_i h; exact (max_eq_right (not_lt.1 h)).symm

theorem fAlg_ok : AlgOk fAlg where
  comm a b := Subtype.ext (C24_comm a.1 b.1)
  mono a b d := by
    refine surf_mono (vjoin a b).2 fun i => ?_
    simp only [fAlg, (vjoin_bounds _ _ i).1, (vjoin_bounds _ _ i).2]
    constructor
    · exact min_le_min le_rfl (min_le_left _ _)
    · exact max_le_max le_rfl (le_max_left _ _)

theorem small_join {a b : VBox ℚ} (ha : Small a.1) (hb : Small b.1) : Small (vjoin a b).1 := by
  intro i
  rw [(vjoin_bounds a b i).1, (vjoin_bounds a b i).2]
  constructor
  · rcases min_choice (a.1.lo i) (b.1.lo i) with h | h <;> rw [h]
    · exact (ha i).1
    · exact (hb i).1
  · rcases max_choice (a.1.hi i) (b.1.hi i) with h | h <;> rw [h]
    · exact (ha i).2
    · exact (hb i).2

/-! ### The construction -/

theorem argmin_eq (f : Nat → F32) (g : Nat → ℚ) (l : List Nat) (h : ∀ i ∈ l, (f i).Finite ∧ (f i).val = g i) :
    argmin f l = Bvh.argmin g l := by
  have key : ∀ (l : List Nat), (∀ i ∈ l, (f i).Finite ∧ (f i).val = g i) → ∀ (acc : F32 × Option Nat),
      (acc = (inf false, none) ∨ ∃ j, acc = (f j, some j) ∧ (f j).Finite ∧ (f j).val = g j) →
      (l.foldl (fun (acc : F32 × Option Nat) i => if lt (f i) acc.1 then (f i, some i) else acc) acc).2 =
        l.foldl (fun acc i => match acc with
          | none => some i
          | some j => if g i < g j then some i else some j) acc.2 := by
    intro l
    induction l with
    | nil => intro _ acc _; rfl
    | cons i l ih =>
      intro hl acc hacc
      obtain ⟨fi, vi⟩ := hl i (by simp)
      rw [List.foldl_cons, List.foldl_cons]
      rcases hacc with rfl | ⟨j, rfl, fj, vj⟩
      · have : lt (f i) (inf false) = true := by
          cases hx : f i with
          | nan => rw [hx] at fi; exact fi.elim
          | inf s => rw [hx] at fi; exact fi.elim
          | zero s => rfl
          | num q => rfl
        simp only [this, if_true]
        exact ih (fun k hk => hl k (by simp [hk])) _ (Or.inr ⟨i, rfl, fi, vi⟩)
      · have e : lt (f i) (f j) = decide (g i < g j) := by
          rw [← vi, ← vj]
          cases hx : f i with
          | nan => rw [hx] at fi; exact fi.elim
          | inf s => rw [hx] at fi; exact fi.elim
          | zero s => cases hy : f j with
            | nan => rw [hy] at fj; exact fj.elim
            | inf s => rw [hy] at fj; exact fj.elim
            | _ => rfl
          | num q => cases hy : f j with
            | nan => rw [hy] at fj; exact fj.elim
            | inf s => rw [hy] at fj; exact fj.elim
            | _ => rfl
        simp only [e, decide_eq_true_eq]
        by_cases c : g i < g j
        · rw [if_pos c, if_pos c]
          exact ih (fun k hk => hl k (by simp [hk])) _ (Or.inr ⟨i, rfl, fi, vi⟩)
        · rw [if_neg c, if_neg c]
          exact ih (fun k hk => hl k (by simp [hk])) _ (Or.inr ⟨j, rfl, fj, vj⟩)
  exact key l h _ (Or.inl rfl)

/-- All clusters have small boxes. -/
def SmallAll (c : List (BT (VBox ℚ))) : Prop := ∀ t ∈ c, Small t.box.1

theorem small_default : Small (default : VBox ℚ).1 := by
  intro i
  show |(0 : ℚ)| ≤ 2 ^ 61 ∧ |(0 : ℚ)| ≤ 2 ^ 61
  norm_num

theorem small_getD {c : List (BT (VBox ℚ))} (h : SmallAll c) (i : Nat) : Small (c.getD i default).box.1 := by
  rw [List.getD_eq_getElem?_getD]
  cases e : c[i]? with
  | none => exact small_default
  | some t => exact h t (List.mem_of_getElem? e)

theorem pairVal_spec {c : List (BT (VBox ℚ))} (h : SmallAll c) (i j : Nat) :
    (pairVal c i j).Finite ∧ (pairVal c i j).val = Bvh.pairVal fAlg c i j :=
  surface_spec (vjoin _ _).2 (small_join (small_getD h i) (small_getD h j))

theorem findBest_eq {c : List (BT (VBox ℚ))} (h : SmallAll c) (self : Nat) :
    findBest c self = Bvh.findBest fAlg c self := by
  unfold findBest Bvh.findBest
  rw [argmin_eq _ _ _ fun i _ => pairVal_spec h i self]

theorem argmin_mem (g : Nat → ℚ) (l : List Nat) (j : Nat) (h : Bvh.argmin g l = some j) : j ∈ l := by
  rcases Bvh.argmin_spec g l with ⟨-, e⟩ | ⟨k, e, pre, post, hl, -, -⟩
  · rw [e] at h; cases h
  · rw [e] at h; cases h; rw [hl]; simp

theorem mem_step {c : List (BT (VBox ℚ))} {left right : Nat} {x t : BT (VBox ℚ)}
    (h : t ∈ ((c.set left x).set right ((c.set left x).getD ((c.set left x).length - 1) default)).dropLast) :
    t ∈ c ∨ t = x ∨ t = default := by
  have h1 := List.mem_of_mem_dropLast h
  rcases List.mem_or_eq_of_mem_set h1 with h2 | h2
  · rcases List.mem_or_eq_of_mem_set h2 with h3 | h3
    · exact Or.inl h3
    · exact Or.inr (Or.inl h3)
  · rw [List.getD_eq_getElem?_getD] at h2
    cases e : (c.set left x)[(c.set left x).length - 1]? with
    | none => rw [e] at h2; exact Or.inr (Or.inr h2)
    | some y =>
      rw [e] at h2
      have h3 := List.mem_of_getElem? e
      simp only [Option.getD_some] at h2
      subst h2
      rcases List.mem_or_eq_of_mem_set h3 with h4 | h4
      · exact Or.inl h4
      · exact Or.inr (Or.inl h4)

theorem combineStep_eq {c : List (BT (VBox ℚ))} (h : SmallAll c) (hc : c ≠ []) (axis n : Nat) (cl : List Nat)
    (prev : Option (Nat × Nat)) :
    (combineStep axis n c cl prev).map (fun p => (p.1, p.2.1)) = Bvh.combineStep fAlg axis n c cl ∧
      ∀ p, combineStep axis n c cl prev = some p → SmallAll p.1 := by
  unfold combineStep Bvh.combineStep choose
  rw [argmin_eq _ _ _ fun i _ => pairVal_spec h i _]
  by_cases hcl : (cl.all fun x => decide (x < c.length)) = true
  · rw [if_pos hcl, if_pos hcl]
    cases ha : Bvh.argmin (fun i => Bvh.pairVal fAlg c i (cl.getD i 0)) (List.range c.length) with
    | none =>
      exfalso
      rcases Bvh.argmin_spec (fun i => Bvh.pairVal fAlg c i (cl.getD i 0)) (List.range c.length) with
        ⟨e, -⟩ | ⟨k, e, -⟩
      · exact hc (List.length_eq_zero_iff.1 (by simpa using e))
      · rw [ha] at e; cases e
    | some left =>
      have hlt : left < c.length := List.mem_range.1 (argmin_mem _ _ _ ha)
      have hrt : cl.getD left 0 < c.length := by
        rw [List.getD_eq_getElem?_getD]
        cases e : cl[left]? with
        | none => exact lt_of_le_of_lt (Nat.zero_le _) hlt
        | some x => simpa using List.all_eq_true.1 hcl x (List.mem_of_getElem? e)
      simp only [hlt, hrt, and_self, if_true]
      have hs : SmallAll ((c.set left (BT.node (vjoin (c.getD left default).box (c.getD (cl.getD left 0) default).box)
          axis (c.getD left default) (c.getD (cl.getD left 0) default))).set (cl.getD left 0)
          ((c.set left (BT.node (vjoin (c.getD left default).box (c.getD (cl.getD left 0) default).box)
          axis (c.getD left default) (c.getD (cl.getD left 0) default))).getD ((c.set left (BT.node (vjoin (c.getD left
          default).box (c.getD (cl.getD left 0) default).box) axis (c.getD left default)
          (c.getD (cl.getD left 0) default))).length - 1) default)).dropLast := by
        intro t ht
        rcases mem_step ht with h1 | rfl | rfl
        · exact h t h1
        · exact small_join (small_getD h left) (small_getD h _)
        · exact small_default
      simp only [show fAlg.join = vjoin from rfl, ← findBest_eq hs]
      split
      · split
        · exact ⟨rfl, fun p hp => by cases hp; exact hs⟩
        · exact ⟨rfl, fun p hp => by cases hp⟩
      · exact ⟨rfl, fun p hp => by cases hp; exact hs⟩
  · rw [if_neg hcl, if_neg hcl]
    exact ⟨rfl, fun p hp => by cases hp⟩

theorem combineLoop_eq (axis n : Nat) : ∀ (fuel : Nat) {c : List (BT (VBox ℚ))} (_ : SmallAll c) (cl : List Nat)
    (prev : Option (Nat × Nat)),
    combineLoop axis n fuel c cl prev = Bvh.combineLoop fAlg axis n fuel c cl ∧
      ∀ c', combineLoop axis n fuel c cl prev = some c' → SmallAll c'
  | 0, c, h, cl, prev => ⟨rfl, fun c' e => by cases e; exact h⟩
  | fuel + 1, c, h, cl, prev => by
    rw [combineLoop, Bvh.combineLoop]
    by_cases hn : n < c.length
    · rw [if_pos hn, if_pos hn]
      obtain ⟨e1, e2⟩ := combineStep_eq h (by rintro rfl; simp at hn) axis n cl prev
      rw [← e1]
      cases hx : combineStep axis n c cl prev with
      | none => exact ⟨rfl, fun c' e => by cases e⟩
      | some p => exact combineLoop_eq axis n fuel (e2 p hx) p.2.1 p.2.2
    · rw [if_neg hn, if_neg hn]
      exact ⟨rfl, fun c' e => by cases e; exact h⟩

theorem combineCluster_eq {c : List (BT (VBox ℚ))} (h : SmallAll c) (n axis : Nat) :
    combineCluster c n axis = Bvh.combineCluster fAlg c n axis ∧
      ∀ c', combineCluster c n axis = some c' → SmallAll c' := by
  unfold combineCluster Bvh.combineCluster
  simp only [findBest_eq h]
  exact combineLoop_eq axis n _ h _ _

theorem leafBox_eq (alg : Alg (VBox ℚ) ℚ) (hj : alg.join = vjoin) (boxes : Nat → VBox ℚ) (off : Nat) : ∀ len,
    leafBox boxes off len = Bvh.leafBox alg boxes off len
  | 0 => rfl
  | 1 => rfl
  | n + 2 => by
    rw [Bvh.leafBox_succ, hj, ← leafBox_eq alg hj boxes off (n + 1)]
    rfl

theorem leafBox_small {boxes : Nat → VBox ℚ} (h : ∀ i, Small (boxes i).1) (off : Nat) : ∀ len,
    Small (leafBox boxes off len).1
  | 0 => small_default
  | 1 => h off
  | n + 2 => small_join (leafBox_small h off (n + 1)) (h _)

theorem traverseTree_eq (F : Nat → Nat) {boxes : Nat → VBox ℚ} (h : ∀ i, Small (boxes i).1) (mc : Nat → Nat) :
    ∀ (fuel offs len k : Nat),
      traverseTree F boxes mc fuel offs len k = Bvh.traverseTree fAlg F boxes mc fuel offs len k ∧
        ∀ c, traverseTree F boxes mc fuel offs len k = some c → SmallAll c
  | 0, _, _, _ => ⟨rfl, fun c e => by cases e⟩
  | fuel + 1, offs, len, k => by
    rw [traverseTree, Bvh.traverseTree]
    by_cases h0 : len = 0
    · rw [if_pos h0, if_pos h0]
      exact ⟨rfl, fun c e => by cases e; intro t ht; cases ht⟩
    · rw [if_neg h0, if_neg h0]
      by_cases h4 : len < 4
      · rw [if_pos h4, if_pos h4, ← leafBox_eq fAlg rfl]
        refine combineCluster_eq (fun t ht => ?_) _ _
        rw [List.mem_singleton.1 ht]
        exact leafBox_small h offs len
      · rw [if_neg h4, if_neg h4]
        simp only
        obtain ⟨l1, l2⟩ := traverseTree_eq F h mc fuel offs (makePartition mc offs (offs + len - 1) k - offs) (k - 1)
        obtain ⟨r1, r2⟩ := traverseTree_eq F h mc fuel (makePartition mc offs (offs + len - 1) k)
          (offs + len - makePartition mc offs (offs + len - 1) k) (k - 1)
        rw [← l1, ← r1]
        cases hl : traverseTree F boxes mc fuel offs (makePartition mc offs (offs + len - 1) k - offs) (k - 1) with
        | none => exact ⟨rfl, fun c e => by cases e⟩
        | some l =>
          cases hr : traverseTree F boxes mc fuel (makePartition mc offs (offs + len - 1) k)
              (offs + len - makePartition mc offs (offs + len - 1) k) (k - 1) with
          | none => exact ⟨rfl, fun c e => by cases e⟩
          | some r =>
            refine combineCluster_eq (fun t ht => ?_) _ _
            rcases List.mem_append.1 ht with ht | ht
            · exact l2 l hl t ht
            · exact r2 r hr t ht

/-- With coordinates up to 2^61 the construction in binary32 is that of the exact model with rounded surfaces. -/
theorem buildTree_eq (F : Nat → Nat) {boxes : Nat → VBox ℚ} (h : ∀ i, Small (boxes i).1) (mc : Nat → Nat) (len : Nat) :
    buildTree F boxes mc len = Bvh.buildTree fAlg F boxes mc len := by
  unfold buildTree Bvh.buildTree
  split
  · rw [leafBox_eq fAlg rfl]
  · obtain ⟨e1, e2⟩ := traverseTree_eq F h mc (len + 64) 0 len 63
    rw [← e1]
    cases hx : traverseTree F boxes mc (len + 64) 0 len 63 with
    | none => rfl
    | some c =>
      simp only [Option.bind_some]
      rw [(combineCluster_eq (e2 c hx) 1 (axisOf 63)).1]


theorem leafOk_alg {alg : Alg (VBox ℚ) ℚ} (hj : alg.join = vjoin) {boxes : Nat → VBox ℚ} {t : BT (VBox ℚ)}
    (h1 : t.LeafOk alg boxes) (h2 : t.BoxOk alg) : t.LeafOk Bvh.vAlg boxes ∧ t.BoxOk Bvh.vAlg := by
  induction t with
  | leaf b off len =>
    refine ⟨⟨h1.1, h1.2.1, ?_⟩, trivial⟩
    rw [h1.2.2, ← leafBox_eq alg hj, ← leafBox_eq Bvh.vAlg rfl]
  | node b ax l r ihl ihr =>
    obtain ⟨h, hl, hr⟩ := h2
    rw [hj] at h
    exact ⟨⟨(ihl h1.1 hl).1, (ihr h1.2 hr).1⟩, h, (ihl h1.1 hl).2, (ihr h1.2 hr).2⟩

/-! ### C153: the construction in binary32 -/

/-- The leaves of a tree hold each of `len` triangles once, 1 to 3 per leaf, and the boxes of the nodes are the unions
of the boxes of their triangles. -/
def Complete (boxes : Nat → VBox ℚ) (len : Nat) (t : BT (VBox ℚ)) : Prop :=
  (tris t.leaves).Perm (List.range len) ∧ t.LeafOk Bvh.vAlg boxes ∧ t.BoxOk Bvh.vAlg

/-- Boxes whose coordinates are finite floats. -/
def FloatBox (b : Box ℚ) : Prop := ∀ i, Rep (b.lo i) ∧ Rep (b.hi i) ∧ |b.lo i| < 2 ^ 128 ∧ |b.hi i| < 2 ^ 128

/-- Full statement of C153: the tree of every mesh with finite coordinates is complete. -/
def C153_statement : Prop := ∀ (boxes : Nat → VBox ℚ) (mc : Nat → Nat) (len : Nat), 1 ≤ len →
  (∀ i, FloatBox (boxes i).1) → ∃ t, buildTree Bvh.aacF boxes mc len = some t ∧ Complete boxes len t

/-- **C153** (coordinates up to 2^61).  The construction in binary32 never throws and its tree holds every triangle
once, for every Morton codes and every function `AAC_F`. -/
theorem C153_build_partial (F : Nat → Nat) (hF : ∀ n, 1 ≤ F n) (boxes : Nat → VBox ℚ) (mc : Nat → Nat) (len : Nat)
    (hlen : 1 ≤ len) (h : ∀ i, Small (boxes i).1) :
    ∃ t, buildTree F boxes mc len = some t ∧ Complete boxes len t := by
  obtain ⟨t, e, hp, hl, hb⟩ := Bvh.C19_build_partitions fAlg fAlg_ok F hF boxes mc len hlen
  refine ⟨t, ?_, hp, leafOk_alg rfl hl hb⟩
  rw [buildTree_eq F h, e]

/-- Two triangles near the origin and two far away from them: the boxes are unit cubes at the origin, and cubes with
sides 2^50 at distance 2^70. -/
def farBoxes (i : Nat) : VBox ℚ :=
  if i < 2 then ⟨⟨fun _ => 0, fun _ => 1⟩, fun _ => by norm_num⟩
  else ⟨⟨fun _ => 2 ^ 70, fun _ => 2 ^ 70 + 2 ^ 50⟩, fun _ => by norm_num⟩

/-- Morton codes of the smallest and of the largest grid cell. -/
def farCodes (i : Nat) : Nat := if i < 2 then 0 else 2 ^ 63 - 1

theorem far_tree : (buildTree Bvh.aacF farBoxes farCodes 4).map (fun t => t.leaves) = some [(1, 3)] := by decide +kernel

theorem far_float (i : Nat) : FloatBox (farBoxes i).1 := by
  have r0 : Rep 0 := rnd32_zero
  have r1 : Rep 1 := by have := rnd32_pow 0 (by norm_num); rw [zpow_zero] at this; exact this
  have r2 : Rep (2 ^ 70) := by have := rnd32_pow 70 (by norm_num); exact_mod_cast this
  have r3 : Rep (2 ^ 70 + 2 ^ 50) := by
    have := rnd32_rep (2 ^ 20 + 1) 50 (by norm_num) (by norm_num)
    have e : ((2 ^ 20 + 1 : ℤ) : ℚ) * 2 ^ (50 : ℤ) = 2 ^ 70 + 2 ^ 50 := by norm_num
    rw [e] at this
    exact this
  intro j
  unfold farBoxes
  split
  · exact ⟨r0, r1, by norm_num, by norm_num⟩
  · exact ⟨r2, r3, by norm_num, by norm_num⟩

/-- **C153, violated.** When the surface of the union of two clusters overflows, no partner is found for either; each
keeps the initial partner 0, cluster 0 is merged with itself and then overwritten by the other one: of four triangles
with finite coordinates the tree holds only three, and no error is reported. -/
theorem C153_violated_overflow : ¬ C153_statement := by
  intro h
  obtain ⟨t, e, hp, -⟩ := h farBoxes farCodes 4 (by norm_num) far_float
  have := far_tree
  rw [e] at this
  simp only [Option.map_some, Option.some.injEq] at this
  have hl := hp.length_eq
  rw [this] at hl
  simp [tris] at hl

/-- **C153** (overflow in general).  When the surface of the union of two clusters overflows but that of the first does
not, the merge of the two drops the first cluster. -/
theorem C153_lost (a b : BT (VBox ℚ)) (axis : Nat) (h : surface (vjoin a.box b.box).1 = inf false)
    (ha : lt (surface (vjoin a.box a.box).1) (inf false) = true) :
    combineCluster [a, b] 1 axis = some [b] := by
  have e : surface (vjoin b.box a.box).1 = inf false := by
    rw [← h]
    congr 1
    exact C24_comm b.box.1 a.box.1
  have ii : F32.lt (inf false) (inf false) = false := rfl
  have ia : F32.lt (inf false) (surface (vjoin a.box a.box).1) = false := by
    cases hx : surface (vjoin a.box a.box).1 <;> rfl
  have f0 : findBest [a, b] 0 = 0 := by
    simp [findBest, argmin, pairVal, List.range_succ, List.range_zero, e, ii]
  have f1 : findBest [a, b] 1 = 0 := by
    simp [findBest, argmin, pairVal, List.range_succ, List.range_zero, h, ii]
  have hc : choose [a, b] [0, 0] none = some (0, 0) := by
    have : argmin (fun i => pairVal [a, b] i ([0, 0].getD i 0)) (List.range [a, b].length) = some 0 := by
      simp [argmin, pairVal, List.range_succ, List.range_zero, ha, e, ia]
    unfold choose
    rw [this]
    rfl
  unfold combineCluster
  simp only [List.length_cons, List.length_nil, List.range_succ, List.range_zero, List.nil_append,
    List.map_cons, List.map_nil, f0, f1, List.cons_append]
  simp [combineLoop, combineStep, hc]

/-! ### C154: the traversal in binary32 -/

theorem value_toE (x : F32) : value x = toE x := by cases x <;> rfl

theorem offBox_join {r : FRay} {a b : VBox ℚ} (ha : FTree.BoxOk a.1 ∧ OffBox r a.1)
    (hb : FTree.BoxOk b.1 ∧ OffBox r b.1) : FTree.BoxOk (vjoin a b).1 ∧ OffBox r (vjoin a b).1 := by
  constructor
  · intro i
    refine ⟨?_, ?_, (vjoin a b).2 i⟩
    · rw [(vjoin_bounds a b i).1]
      rcases min_choice (a.1.lo i) (b.1.lo i) with h | h <;> rw [h]
      · exact (ha.1 i).1
      · exact (hb.1 i).1
    · rw [(vjoin_bounds a b i).2]
      rcases max_choice (a.1.hi i) (b.1.hi i) with h | h <;> rw [h]
      · exact (ha.1 i).2.1
      · exact (hb.1 i).2.1
  · intro i
    rw [(vjoin_bounds a b i).1, (vjoin_bounds a b i).2]
    constructor
    · rcases min_choice (a.1.lo i) (b.1.lo i) with h | h <;> rw [h]
      · exact (ha.2 i).1
      · exact (hb.2 i).1
    · rcases max_choice (a.1.hi i) (b.1.hi i) with h | h <;> rw [h]
      · exact (ha.2 i).2
      · exact (hb.2 i).2

/-- The box of a triangle is accepted by the test in binary32, at a distance that is not after the hit. -/
def Reached (r : FRay) (b : Box ℚ) (t : ℚ) : Prop :=
  ∃ p, boxTest b r = some p ∧ Le (toE p.1) (.fin t) ∧ toE p.2 ≠ .ninf

theorem accOk {r : FRay} (hr : RayOk r) {boxes : Nat → VBox ℚ} (hb : ∀ i, FTree.BoxOk (boxes i).1)
    (hg : ∀ i, OffBox r (boxes i).1) {hit : Nat → Option ℚ} (hin : ∀ i t, hit i = some t → Reached r (boxes i).1 t)
    {t : BT (VBox ℚ)} (h1 : t.LeafOk Bvh.vAlg boxes) (h2 : t.BoxOk Bvh.vAlg) : AccOk (test r) EF.lt hit t := by
  have base : ∀ (t : BT (VBox ℚ)), t.LeafOk Bvh.vAlg boxes → t.BoxOk Bvh.vAlg → ∀ i ∈ tris t.leaves, ∀ d,
      hit i = some d → Accepts (test r) EF.lt d t.box := by
    intro t h1 h2 i hi d hd
    have ok := Bvh.node_all (fun b => FTree.BoxOk b.1 ∧ OffBox r b.1) (fun a b => offBox_join) boxes
      (fun i => ⟨hb i, hg i⟩) t h1 h2
    have sub := Bvh.node_has (fun b => ∀ j, b.1.lo j ≤ (boxes i).1.lo j ∧ (boxes i).1.hi j ≤ b.1.hi j)
      (fun a b h j => by
        rw [(vjoin_bounds a b j).1, (vjoin_bounds a b j).2]
        exact ⟨le_trans (min_le_left _ _) (h j).1, le_trans (h j).2 (le_max_left _ _)⟩)
      (fun a b h j => by
        rw [(vjoin_bounds a b j).1, (vjoin_bounds a b j).2]
        exact ⟨le_trans (min_le_right _ _) (h j).1, le_trans (h j).2 (le_max_right _ _)⟩)
      boxes t h1 h2 i hi (fun j => ⟨le_rfl, le_rfl⟩)
    obtain ⟨p, hp, hle, hni⟩ := hin i d hd
    obtain ⟨q, hq, hq1, -⟩ := FTree.C151_contains hr (hb i) ok.1 (hg i) ok.2 sub hp
      (by intro h; rw [h] at hle; cases hle) hni
    refine ⟨toE q.1, by unfold test; rw [hq]; simp [value_toE], ?_⟩
    intro d' hd'
    have := EF.le_trans' (EF.lt_le hd') (EF.le_trans' hq1 hle)
    unfold EF.Le at this
    simpa [EF.le] using this
  induction t with
  | leaf b off len =>
    intro i hi d hd
    exact base _ h1 h2 i (by simpa [tris, BT.leaves] using hi) d hd
  | node b ax l r ihl ihr =>
    exact ⟨fun i hi d hd => base _ h1 h2 i hi d hd, ihl h1.1 h2.2.1, ihr h1.2 h2.2.2⟩

/-- **C154.** Build and traversal in binary32 find the closest triangle: for every mesh with float coordinates up to
2^61, every Morton codes, every finite ray that lies in no face plane of a triangle's box, and every triangle test that
reports only hits whose triangle's own box is accepted not after the hit, the result is the nearest hit below `d0`, or
that there is none -- unless the traversal overflows its stack, on a tree of more than 32 levels. -/
theorem C154_mesh_closest_hit (F : Nat → Nat) (hF : ∀ n, 1 ≤ F n) (boxes : Nat → VBox ℚ) (mc : Nat → Nat) (len : Nat)
    (hlen : 1 ≤ len) (hs : ∀ i, Small (boxes i).1) (hb : ∀ i, FTree.BoxOk (boxes i).1) (r : FRay) (hr : RayOk r)
    (hg : ∀ i, OffBox r (boxes i).1) (hit : Nat → Option ℚ) (isect : Nat → ℚ → Option ℚ) (ho : Oracle hit isect)
    (hin : ∀ i t, hit i = some t → Reached r (boxes i).1 t) (d0 : ℚ) :
    ∃ t, buildTree F boxes mc len = some t ∧
      (run (test r) EF.lt (negFlag r) isect t d0 = .error .stack ∧ 32 < t.height ∨
      ∃ s, run (test r) EF.lt (negFlag r) isect t d0 = .ok s ∧
        (∀ i, s.2 = some i → i < len ∧ hit i = some s.1 ∧ s.1 ≤ d0 ∧ ∀ j < len, ∀ d, hit j = some d → s.1 ≤ d) ∧
        (s.2 = none → s.1 = d0 ∧ ∀ j < len, ∀ d, hit j = some d → d0 ≤ d)) := by
  obtain ⟨t, e, hp, hl, hbo⟩ := C153_build_partial F hF boxes mc len hlen hs
  refine ⟨t, e, ?_⟩
  rcases Bvh.C21_terminates (test r) EF.lt (negFlag r) isect t d0 with ⟨s, h⟩ | h
  · refine Or.inr ⟨s, h, ?_⟩
    have hm : ∀ j, j ∈ tris t.leaves ↔ j < len := fun j => by rw [hp.mem_iff]; simp
    have := Bvh.C21_equals_brute_force (test r) EF.lt (negFlag r) isect hit ho t (accOk hr hb hg hin hl hbo) d0 s h
    simpa only [hm] using this
  · exact Or.inl h

/-! ### Examples -/

/-- Cubes along the diagonal. -/
def diagBoxes (i : Nat) : VBox ℚ :=
  ⟨⟨fun _ => 2 * (min i 4 : ℕ) + 1, fun _ => 2 * (min i 4 : ℕ) + 2⟩, fun _ => by norm_num⟩

theorem diagBoxes_ok (i : Nat) : Small (diagBoxes i).1 ∧ FTree.BoxOk (diagBoxes i).1 := by
  have h : min i 4 ≤ 4 := min_le_right _ _
  obtain ⟨-, h1, h2⟩ := FTree.exNum_ok _ h
  have hq : ((min i 4 : ℕ) : ℚ) ≤ 4 := by exact_mod_cast h
  have hz : (0 : ℚ) ≤ ((min i 4 : ℕ) : ℚ) := by positivity
  refine ⟨fun j => ?_, fun j => ⟨h1, h2, (diagBoxes i).2 j⟩⟩
  simp only [diagBoxes]
  generalize ((min i 4 : ℕ) : ℚ) = x at hq hz
  constructor <;> rw [abs_le] <;> constructor <;> norm_num <;> linarith

/-- The construction of five cubes. -/
example : ∃ t, buildTree Bvh.aacF diagBoxes (fun i => i) 5 = some t ∧ Complete diagBoxes 5 t :=
  C153_build_partial _ Bvh.aacF_pos _ _ _ (by norm_num) fun i => (diagBoxes_ok i).1

/-- Clusters that meet the hypotheses of `C153_lost`. -/
example : combineCluster [.leaf (farBoxes 0) 0 1, .leaf (farBoxes 2) 1 3] 1 0 = some [.leaf (farBoxes 2) 1 3] :=
  C153_lost _ _ 0 (by decide +kernel) (by decide +kernel)

/-- The cubes 2 and 4 are hit, at the distances 12 and 20. -/
def diagHit (i : Nat) : Option ℚ := if i = 2 ∨ i = 4 then some (4 * i + 4) else none

/-- The test of a cube. -/
def diagIsect (i : Nat) (d : ℚ) : Option ℚ := (diagHit i).bind fun t => if t < d then some t else none

theorem diag_oracle : Oracle diagHit diagIsect where
  sound i d t h := by
    unfold diagIsect at h
    cases e : diagHit i with
    | none => rw [e] at h; cases h
    | some v =>
      rw [e, Option.bind_some] at h
      split at h
      · rename_i hlt; cases h; exact ⟨rfl, le_of_lt hlt⟩
      · cases h
  complete i d t h hlt := by
    unfold diagIsect
    rw [h, Option.bind_some, if_pos hlt]

theorem diag_reached (i : Nat) (t : ℚ) (h : diagHit i = some t) : Reached FTree.diagRay (diagBoxes i).1 t := by
  unfold diagHit at h
  split at h
  · rename_i hi
    cases h
    rcases hi with rfl | rfl
    · have e : (boxTest (diagBoxes 2).1 FTree.diagRay).any (fun p => EF.le (toE p.1) (.fin 12) && decide (toE p.2 ≠ .ninf)) = true := by
        decide +kernel
      cases hx : boxTest (diagBoxes 2).1 FTree.diagRay with
      | none => rw [hx] at e; cases e
      | some p =>
        rw [hx] at e
        simp only [Option.any_some, Bool.and_eq_true, decide_eq_true_eq] at e
        exact ⟨p, hx, by have := e.1; unfold EF.Le; norm_num; exact this, e.2⟩
    · have e : (boxTest (diagBoxes 4).1 FTree.diagRay).any (fun p => EF.le (toE p.1) (.fin 20) && decide (toE p.2 ≠ .ninf)) = true := by
        decide +kernel
      cases hx : boxTest (diagBoxes 4).1 FTree.diagRay with
      | none => rw [hx] at e; cases e
      | some p =>
        rw [hx] at e
        simp only [Option.any_some, Bool.and_eq_true, decide_eq_true_eq] at e
        exact ⟨p, hx, by have := e.1; unfold EF.Le; norm_num; exact this, e.2⟩
  · cases h

/-- The hypotheses of `C154_mesh_closest_hit` hold for the cubes and the diagonal. -/
example := C154_mesh_closest_hit Bvh.aacF Bvh.aacF_pos diagBoxes (fun i => i) 5 (by norm_num)
  (fun i => (diagBoxes_ok i).1) (fun i => (diagBoxes_ok i).2) FTree.diagRay FTree.diagRay_ok
  (fun i j => by
    have : (FTree.diagRay.inv j).isInf = false := by fin_cases j <;> decide +kernel
    constructor <;> intro h <;> rw [this] at h <;> cases h)
  diagHit diagIsect diag_oracle diag_reached 100

/-- The nearer of the two hits is found. -/
example : ((buildTree Bvh.aacF diagBoxes (fun i => i) 5).map fun t =>
    (run (test FTree.diagRay) EF.lt (negFlag FTree.diagRay) diagIsect t 100).toOption) = some (some (12, some 2)) := by
  decide +kernel

end Spectre.FBvh
