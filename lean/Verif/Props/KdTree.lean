import Verif.Model.KdTree
import Verif.Props.EF
import Mathlib.Data.List.Perm.Basic
import Mathlib.Data.List.Sort

/-
Properties C13 (coverage of the build), C14 (closest hit), C15 (traversal stack), C16 (asset list
allocation) and C17 (rebuild).
-/

namespace Spectre.KdTree
open Spectre.AABB Spectre.EF

/-! ### C16 -/

section alloc
variable {A : Type}

def AssetList.Inv (s : AssetList A) : Prop :=
  s.list.length ≤ s.alloc ∧ 1 ≤ s.alloc ∧ s.alloc ≤ maxAssets

theorem AssetList.inv_init : (AssetList.init : AssetList A).Inv := by
  simp [AssetList.Inv, AssetList.init, maxAssets]

theorem AssetList.add_ok (s : AssetList A) (a : A) (h : s.Inv) (hl : s.list.length < maxAssets) :
    ∃ s', s.add a = some s' ∧ s'.list = s.list ++ [a] ∧ s'.Inv := by
  obtain ⟨h1, h2, h3⟩ := h
  unfold maxAssets at *
  have e : Nat.min (2 * s.alloc) 4096 = min (2 * s.alloc) 4096 := rfl
  unfold AssetList.add maxAssets
  simp only [e]
  by_cases hc : s.list.length = s.alloc
  · rw [if_pos hc, if_pos (by omega)]
    refine ⟨_, rfl, rfl, ?_⟩
    simp only [AssetList.Inv, maxAssets, List.length_append, List.length_cons, List.length_nil]
    omega
  · rw [if_neg hc, if_pos (by omega)]
    refine ⟨_, rfl, rfl, ?_⟩
    simp only [AssetList.Inv, maxAssets, List.length_append, List.length_cons, List.length_nil]
    omega

theorem AssetList.add_full (s : AssetList A) (a : A) (h : s.Inv) (hl : s.list.length = maxAssets) :
    s.add a = none := by
  obtain ⟨h1, h2, h3⟩ := h
  unfold maxAssets at *
  have e : Nat.min (2 * s.alloc) 4096 = min (2 * s.alloc) 4096 := rfl
  unfold AssetList.add maxAssets
  simp only [e]
  have hc : s.list.length = s.alloc := by omega
  rw [if_pos hc, if_neg (by omega)]

theorem AssetList.addAll_ok (l : List A) (s : AssetList A) (h : s.Inv)
    (hl : s.list.length + l.length ≤ maxAssets) :
    ∃ s', s.addAll l = some s' ∧ s'.list = s.list ++ l ∧ s'.Inv := by
  induction l generalizing s with
  | nil => exact ⟨s, rfl, by simp, h⟩
  | cons a l ih =>
    simp only [List.length_cons] at hl
    obtain ⟨s1, e1, e2, e3⟩ := s.add_ok a h (by omega)
    obtain ⟨s2, f1, f2, f3⟩ := ih s1 e3 (by rw [e2]; simp; omega)
    exact ⟨s2, by simp [AssetList.addAll, e1, f1], by rw [f2, e2]; simp, f3⟩

theorem AssetList.addAll_overflow (l : List A) (s : AssetList A) (h : s.Inv)
    (hs : s.list.length ≤ maxAssets) (hl : maxAssets < s.list.length + l.length) :
    s.addAll l = none := by
  induction l generalizing s with
  | nil => simp at hl; omega
  | cons a l ih =>
    simp only [List.length_cons] at hl
    by_cases hc : s.list.length = maxAssets
    · simp [AssetList.addAll, s.add_full a h hc]
    · obtain ⟨s1, e1, e2, e3⟩ := s.add_ok a h (by omega)
      simp only [AssetList.addAll, e1, Option.bind_some]
      apply ih s1 e3
      · rw [e2]; simp; omega
      · rw [e2]; simp; omega

/-- Full statement of C16: however many assets are added, every write stays inside the allocation. -/
def C16_statement (A : Type) : Prop := ∀ l : List A, (AssetList.init.addAll l).isSome = true

/-- **C16 is violated**: the limit check only prints a message, and the 4097th asset is written past
the end of the list. -/
theorem C16_violated : ¬ C16_statement Nat := by
  intro h
  have hlen : maxAssets < (List.replicate 4097 0).length := by
    rw [List.length_replicate]; unfold maxAssets; omega
  have := h (List.replicate 4097 0)
  generalize List.replicate 4097 0 = l at hlen this
  rw [AssetList.addAll_overflow _ _ AssetList.inv_init (by simp [AssetList.init])
    (by simpa [AssetList.init] using hlen)] at this
  simp at this

/-- **C16, exact boundary**: a sequence of additions is safe if and only if it has at most 4096
assets. -/
theorem C16_safe_iff (l : List A) : (AssetList.init.addAll l).isSome = true ↔ l.length ≤ maxAssets := by
  constructor
  · intro h
    by_contra hc
    push Not at hc
    rw [AssetList.addAll_overflow _ _ AssetList.inv_init (by simp [AssetList.init])
      (by simpa [AssetList.init] using hc)] at h
    simp at h
  · intro h
    obtain ⟨s, e, _⟩ := AssetList.addAll_ok l _ AssetList.inv_init (by simpa [AssetList.init] using h)
    simp [e]

/-- **C16**, proved part: up to the limit all assets are stored, in order, and the allocation never
exceeds the limit.  Missing from the full statement: rejection of further assets. -/
theorem C16_within_limit_partial (l : List A) (h : l.length ≤ maxAssets) :
    ∃ s, AssetList.init.addAll l = some s ∧ s.list = l ∧ s.list.length ≤ s.alloc ∧
      s.alloc ≤ maxAssets := by
  obtain ⟨s, e1, e2, e3⟩ := AssetList.addAll_ok l _ AssetList.inv_init
    (by simpa [AssetList.init] using h)
  exact ⟨s, e1, by simpa [AssetList.init] using e2, e3.1, e3.2.2⟩

example : (List.replicate 4096 7).length ≤ maxAssets := by
  rw [List.length_replicate]; unfold maxAssets; omega

end alloc

/-! ### C13 -/

variable {K : Type} [Field K] [LinearOrder K] [IsStrictOrderedRing K] {A : Type}

/-- A legal `std::sort` for the comparator of kdtree.cpp:111-114: some permutation, ordered by `pos`;
nothing is said about equal positions. -/
def SortOk (sort : List (Cand K A) → List (Cand K A)) : Prop :=
  ∀ l, (sort l).Perm l ∧ (sort l).Pairwise fun a b => a.pos ≤ b.pos

/-- Independent spec: a leaf containing the point `p` lists `a`.  A point on the split plane belongs
to both halves. -/
def Reaches : Tree K A → (Fin 3 → K) → A → Prop
  | .leaf l, _, a => a ∈ l
  | .node ax x l r, p, a => (p ax ≤ x ∧ Reaches l p a) ∨ (x ≤ p ax ∧ Reaches r p a)

theorem mem_cands {box : A → Box K} {ax : Fin 3} {l : List A} {c : Cand K A} :
    c ∈ cands box ax l ↔ c.who ∈ l ∧ ((c.isLeft = true ∧ c.pos = (box c.who).lo ax) ∨
      (c.isLeft = false ∧ c.pos = (box c.who).hi ax)) := by
  unfold cands
  simp only [List.mem_flatMap, List.mem_cons, List.not_mem_nil, or_false]
  constructor
  · rintro ⟨a, ha, rfl | rfl⟩
    · simp [ha]
    · simp [ha]
  · rintro ⟨h, ⟨h1, h2⟩ | ⟨h1, h2⟩⟩
    · refine ⟨c.who, h, Or.inl ?_⟩
      cases c; simp_all
    · refine ⟨c.who, h, Or.inr ?_⟩
      cases c; simp_all

theorem mem_lefts {s : List (Cand K A)} {i j : Nat} {c : Cand K A} (hj : s[j]? = some c) (hji : j < i)
    (hc : c.isLeft = true) : c.who ∈ lefts s i := by
  unfold lefts
  simp only [List.mem_map, List.mem_filter]
  refine ⟨c, ⟨?_, hc⟩, rfl⟩
  rw [List.mem_iff_getElem?]
  exact ⟨j, by rw [List.getElem?_take, if_pos hji, hj]⟩

theorem mem_rights {s : List (Cand K A)} {i j : Nat} {c : Cand K A} (hj : s[j]? = some c) (hji : i < j)
    (hc : c.isLeft = false) : c.who ∈ rights s i := by
  unfold rights
  simp only [List.mem_map, List.mem_filter]
  refine ⟨c, ⟨?_, by simp [hc]⟩, rfl⟩
  rw [List.mem_iff_getElem?]
  refine ⟨j - (i + 1), ?_⟩
  rw [List.getElem?_drop, ← hj]
  congr 1
  omega

theorem pairwise_le {s : List (Cand K A)} (h : s.Pairwise fun a b => a.pos ≤ b.pos) {i j : Nat}
    {c d : Cand K A} (hi : s[i]? = some c) (hj : s[j]? = some d) (hij : i ≤ j) : c.pos ≤ d.pos := by
  rcases Nat.lt_or_ge i j with h' | h'
  · obtain ⟨hi1, hi2⟩ := List.getElem?_eq_some_iff.1 hi
    obtain ⟨hj1, hj2⟩ := List.getElem?_eq_some_iff.1 hj
    have := List.pairwise_iff_getElem.1 h i j hi1 hj1 h'
    rw [hi2, hj2] at this
    exact this
  · have e : i = j := by omega
    subst e
    rw [hi] at hj
    simp only [Option.some.injEq] at hj
    rw [hj]

/-- Splitting a sorted candidate list keeps every box with extent on the side(s) it overlaps. -/
theorem split_covers {s : List (Cand K A)} (h : s.Pairwise fun a b => a.pos ≤ b.pos) {i : Nat}
    {c : Cand K A} (hi : s[i]? = some c) {a : A} {lo hi' : K} (hlt : lo < hi')
    (hL : (⟨lo, true, a⟩ : Cand K A) ∈ s) (hR : (⟨hi', false, a⟩ : Cand K A) ∈ s)
    {x : K} (hx1 : lo ≤ x) (hx2 : x ≤ hi') :
    (x ≤ c.pos ∧ a ∈ lefts s i) ∨ (c.pos ≤ x ∧ a ∈ rights s i) := by
  obtain ⟨j, hj⟩ := List.mem_iff_getElem?.1 hL
  obtain ⟨k, hk⟩ := List.mem_iff_getElem?.1 hR
  have right : c.pos < hi' → a ∈ rights s i := by
    intro hlt'
    have : i < k := by
      by_contra hc
      have := pairwise_le h hk hi (by omega)
      exact absurd hlt' (not_lt.2 this)
    exact mem_rights hk this rfl
  rcases lt_or_ge lo c.pos with h1 | h1
  · have hji : j < i := by
      by_contra hc
      have := pairwise_le h hi hj (by omega)
      exact absurd h1 (not_lt.2 this)
    rcases le_or_gt x c.pos with h2 | h2
    · exact Or.inl ⟨h2, mem_lefts hj hji rfl⟩
    · exact Or.inr ⟨h2.le, right (lt_of_lt_of_le h2 hx2)⟩
  · exact Or.inr ⟨le_trans h1 hx1, right (lt_of_le_of_lt h1 hlt)⟩

theorem lefts_subset {s : List (Cand K A)} {i : Nat} {a : A} (h : a ∈ lefts s i) :
    ∃ c ∈ s, c.who = a := by
  unfold lefts at h
  simp only [List.mem_map, List.mem_filter] at h
  obtain ⟨c, ⟨h1, _⟩, h2⟩ := h
  exact ⟨c, List.mem_of_mem_take h1, h2⟩

theorem rights_subset {s : List (Cand K A)} {i : Nat} {a : A} (h : a ∈ rights s i) :
    ∃ c ∈ s, c.who = a := by
  unfold rights at h
  simp only [List.mem_map, List.mem_filter] at h
  obtain ⟨c, ⟨h1, _⟩, h2⟩ := h
  exact ⟨c, List.mem_of_mem_drop h1, h2⟩

theorem sort_who {box : A → Box K} {sort : List (Cand K A) → List (Cand K A)} (hs : SortOk sort)
    {ax : Fin 3} {l : List A} {a : A} (h : ∃ c ∈ sort (cands box ax l), c.who = a) : a ∈ l := by
  obtain ⟨c, h1, h2⟩ := h
  have := (mem_cands.1 (((hs _).1.mem_iff).1 h1)).1
  rwa [h2] at this

/-- Case analysis on what `build` does. -/
theorem build_succ_cases (box : A → Box K) (sort : List (Cand K A) → List (Cand K A))
    (pick : List A → Box K → (Fin 3 → List (Cand K A)) → Option (Fin 3 × Nat))
    (d : Nat) (l : List A) (area : Box K) :
    build box sort pick (d + 1) l area = .leaf l ∨
    ∃ ax i c, (sort (cands box ax l))[i]? = some c ∧
      build box sort pick (d + 1) l area = .node ax c.pos
        (build box sort pick d (lefts (sort (cands box ax l)) i) (areaLeft area ax c.pos))
        (build box sort pick d (rights (sort (cands box ax l)) i) (areaRight area ax c.pos)) := by
  rw [build]
  split
  · exact Or.inl rfl
  · split
    · exact Or.inl rfl
    · rename_i ax i _
      simp only
      split
      · exact Or.inl rfl
      · rename_i c hc
        exact Or.inr ⟨ax, i, c, hc, rfl⟩

/-- **C13.** For any choice of splits and any tie order of the sort, a point inside the box of an
asset lies in a leaf that lists the asset.  (Boxes must have extent along every axis.) -/
theorem C13_every_asset_reachable (box : A → Box K) (sort : List (Cand K A) → List (Cand K A))
    (hs : SortOk sort)
    (pick : List A → Box K → (Fin 3 → List (Cand K A)) → Option (Fin 3 × Nat))
    (d : Nat) (l : List A) (area : Box K) (hflat : ∀ a ∈ l, ∀ i, (box a).lo i < (box a).hi i)
    (a : A) (ha : a ∈ l) (p : Fin 3 → K) (hp : Mem (box a) p) :
    Reaches (build box sort pick d l area) p a := by
  induction d generalizing l area with
  | zero => exact ha
  | succ d ih =>
    rcases build_succ_cases box sort pick d l area with h | ⟨ax, i, c, hc, h⟩
    · rw [h]; exact ha
    · rw [h]
      have hL : (⟨(box a).lo ax, true, a⟩ : Cand K A) ∈ sort (cands box ax l) :=
        ((hs _).1.mem_iff).2 (mem_cands.2 ⟨ha, Or.inl ⟨rfl, rfl⟩⟩)
      have hR : (⟨(box a).hi ax, false, a⟩ : Cand K A) ∈ sort (cands box ax l) :=
        ((hs _).1.mem_iff).2 (mem_cands.2 ⟨ha, Or.inr ⟨rfl, rfl⟩⟩)
      rcases split_covers (hs _).2 hc (hflat a ha ax) hL hR (hp ax).1 (hp ax).2 with ⟨h1, h2⟩ | ⟨h1, h2⟩
      · exact Or.inl ⟨h1, ih _ _ (fun b hb => hflat b (sort_who hs (lefts_subset hb))) h2⟩
      · exact Or.inr ⟨h1, ih _ _ (fun b hb => hflat b (sort_who hs (rights_subset hb))) h2⟩

/-- **C13.** No leaf lists an asset that was not given. -/
theorem C13_no_foreign_asset (box : A → Box K) (sort : List (Cand K A) → List (Cand K A))
    (hs : SortOk sort)
    (pick : List A → Box K → (Fin 3 → List (Cand K A)) → Option (Fin 3 × Nat))
    (d : Nat) (l : List A) (area : Box K) (a : A)
    (ha : a ∈ (build box sort pick d l area).assets) : a ∈ l := by
  induction d generalizing l area with
  | zero => exact ha
  | succ d ih =>
    rcases build_succ_cases box sort pick d l area with h | ⟨ax, i, c, hc, h⟩
    · rw [h] at ha; exact ha
    · rw [h] at ha
      rcases List.mem_append.1 ha with ha | ha
      · exact sort_who hs (lefts_subset (ih _ _ ha))
      · exact sort_who hs (rights_subset (ih _ _ ha))

/-- Height of a tree (a leaf has height 0). -/
def Tree.height : Tree K A → Nat
  | .leaf _ => 0
  | .node _ _ l r => Nat.max l.height r.height + 1

/-- **C15.** The tree built at depth budget `d` has height at most `d`. -/
theorem C15_height_bound (box : A → Box K) (sort : List (Cand K A) → List (Cand K A))
    (pick : List A → Box K → (Fin 3 → List (Cand K A)) → Option (Fin 3 × Nat))
    (d : Nat) (l : List A) (area : Box K) : (build box sort pick d l area).height ≤ d := by
  induction d generalizing l area with
  | zero => exact Nat.le_refl _
  | succ d ih =>
    rcases build_succ_cases box sort pick d l area with h | ⟨ax, i, c, hc, h⟩
    · rw [h]; exact Nat.zero_le _
    · rw [h]
      exact Nat.succ_le_succ (Nat.max_le.2 ⟨ih _ _, ih _ _⟩)

theorem count_left (box : A → Box K) (ax : Fin 3) (l : List A) :
    ((cands box ax l).filter fun c => c.isLeft).length = l.length ∧
    ((cands box ax l).filter fun c => !c.isLeft).length = l.length := by
  induction l with
  | nil => simp [cands]
  | cons a l ih =>
    unfold cands at ih
    simp [cands, ih.1, ih.2]

/-- **C13.** The child lists fit their buffers (`as_left` has room for `a_n`, `as_right` for more),
and the candidate arrays allocated for the root suffice in every recursive call. -/
theorem C13_child_buffers (box : A → Box K) (sort : List (Cand K A) → List (Cand K A))
    (hs : SortOk sort) (ax : Fin 3) (l : List A) (i : Nat) :
    (lefts (sort (cands box ax l)) i).length ≤ l.length ∧
    (rights (sort (cands box ax l)) i).length ≤ l.length ∧
    (sort (cands box ax l)).length = 2 * l.length := by
  have hp := (hs (cands box ax l)).1
  refine ⟨?_, ?_, ?_⟩
  · unfold lefts
    rw [List.length_map]
    have h1 := ((List.take_sublist i (sort (cands box ax l))).filter fun c => c.isLeft).length_le
    have h2 := (hp.filter fun c => c.isLeft).length_eq
    rw [(count_left box ax l).1] at h2
    omega
  · unfold rights
    rw [List.length_map]
    have h1 := ((List.drop_sublist (i + 1) (sort (cands box ax l))).filter
      fun c => !c.isLeft).length_le
    have h2 := (hp.filter fun c => !c.isLeft).length_eq
    rw [(count_left box ax l).2] at h2
    omega
  · rw [hp.length_eq]
    unfold cands
    induction l with
    | nil => rfl
    | cons a l ih => simp at ih ⊢; omega

/-- The scan returns an index of the list, and the position there is strictly inside the area. -/
theorem scan_index (area : Box K) (ax : Fin 3) (full : List (Cand K A)) :
    ∀ (l : List (Cand K A)) (i : Nat) (s : Scan K), full.drop i = l →
      (∀ c j, s.best = some (c, j) → ∃ e, full[j]? = some e ∧ area.lo ax < e.pos ∧ e.pos < area.hi ax) →
      ∀ c j, (scan area ax i s l).best = some (c, j) →
        ∃ e, full[j]? = some e ∧ area.lo ax < e.pos ∧ e.pos < area.hi ax := by
  intro l
  induction l with
  | nil => intro i s _ h; exact h
  | cons c l ih =>
    intro i s hd h
    have hi : full[i]? = some c := by
      have : (full.drop i)[0]? = some c := by rw [hd]; rfl
      simpa using this
    rw [scan]
    apply ih (i + 1) _ (by rw [← List.drop_drop, hd]; rfl)
    intro c' j' hb
    unfold scanStep at hb
    simp only at hb
    generalize (if c.isLeft = true then s.right else s.right - 1) = rr at hb
    split at hb
    · rename_i hin
      split at hb
      · simp only [Option.some.injEq, Prod.mk.injEq] at hb
        obtain ⟨_, rfl⟩ := hb
        exact ⟨c, hi, hin.1, hin.2⟩
      · rename_i bc bi hbest
        split at hb
        · simp only [Option.some.injEq, Prod.mk.injEq] at hb
          obtain ⟨_, rfl⟩ := hb
          exact ⟨c, hi, hin.1, hin.2⟩
        · rw [← hbest] at hb
          exact h c' j' hb
    · exact h c' j' hb

theorem searchAxes_index (l : List A) (area : Box K) (s : Fin 3 → List (Cand K A)) :
    ∀ (n : Nat) (ax0 ax : Fin 3) (c : K) (i : Nat), searchAxes l area s n ax0 = some (ax, c, i) →
      ∃ e, (s ax)[i]? = some e ∧ area.lo ax < e.pos ∧ e.pos < area.hi ax := by
  intro n
  induction n with
  | zero => intro _ _ _ _ h; simp [searchAxes] at h
  | succ n ih =>
    intro ax0 ax c i h
    rw [searchAxes] at h
    split at h
    · rename_i cost j hb
      simp only [Option.some.injEq, Prod.mk.injEq] at h
      obtain ⟨rfl, rfl, rfl⟩ := h
      exact scan_index area ax0 (s ax0) (s ax0) 0 ⟨0, l.length, none⟩ (by simp) (by simp) _ _ hb
    · exact ih _ _ _ _ h

/-- **C13.** The candidate chosen by the surface area heuristic exists and lies strictly inside the
current area, so both halves are smaller than the area. -/
theorem C13_sah_split_inside (l : List A) (area : Box K) (s : Fin 3 → List (Cand K A)) (ax : Fin 3)
    (i : Nat) (h : sahPick l area s = some (ax, i)) :
    ∃ e, (s ax)[i]? = some e ∧ area.lo ax < e.pos ∧ e.pos < area.hi ax := by
  unfold sahPick at h
  split at h
  · exact absurd h (by simp)
  · rename_i ax' c i' hs
    split at h
    · exact absurd h (by simp)
    · simp only [Option.some.injEq, Prod.mk.injEq] at h
      obtain ⟨rfl, rfl⟩ := h
      exact searchAxes_index l area s _ _ _ _ _ hs

/-! ### Flattened tree -/

/-- `nodes[i]` is the root of a flattened copy of `t` whose leaves point into `assets`. -/
def Repr (nodes : List (Node K)) (assets : List A) : Nat → Tree K A → Prop
  | i, .leaf l => ∃ off, nodes[i]? = some (.leaf off l.length) ∧ off + l.length ≤ assets.length ∧
      (assets.drop off).take l.length = l
  | i, .node ax x l r => ∃ o, nodes[i]? = some (.inner x ax o) ∧ Repr nodes assets (i + 1) l ∧
      Repr nodes assets o r

/-- Number of nodes. -/
def Tree.size : Tree K A → Nat
  | .leaf _ => 1
  | .node _ _ l r => 1 + l.size + r.size

theorem flatten_length (t : Tree K A) (ni ao : Nat) : (t.flatten ni ao).length = t.size := by
  induction t generalizing ni ao with
  | leaf l => rfl
  | node ax x l r ihl ihr =>
    simp [Tree.flatten, Tree.size, ihl, ihr]
    omega

/-- **C13.** `finalize` produces an array representing the tree. -/
theorem C13_flatten_repr (t : Tree K A) (pre post : List (Node K)) (apre apost : List A) :
    Repr (pre ++ t.flatten pre.length apre.length ++ post) (apre ++ t.assets ++ apost) pre.length t := by
  induction t generalizing pre post apre apost with
  | leaf l =>
    refine ⟨apre.length, ?_, ?_, ?_⟩
    · simp [Tree.flatten]
    · simp [Tree.assets]
    · simp [Tree.assets]
  | node ax x l r ihl ihr =>
    set nl := l.flatten (pre.length + 1) apre.length with hnl
    set other := pre.length + 1 + nl.length with hother
    set nr := r.flatten other (apre.length + l.assets.length) with hnr
    have e : pre ++ (Tree.node ax x l r).flatten pre.length apre.length ++ post =
        pre ++ [.inner x ax other] ++ nl ++ nr ++ post := by
      simp [Tree.flatten, ← hnl, ← hother, ← hnr]
    rw [e]
    refine ⟨other, ?_, ?_, ?_⟩
    · simp
    · have h := ihl (pre ++ [.inner x ax other]) (nr ++ post) apre (r.assets ++ apost)
      simp only [List.length_append, List.length_cons, List.length_nil, Nat.zero_add, ← hnl,
        List.append_assoc] at h
      simpa [Tree.assets, List.append_assoc] using h
    · have h := ihr (pre ++ [.inner x ax other] ++ nl) post (apre ++ l.assets) apost
      have hlen : (pre ++ [Node.inner x ax other] ++ nl).length = other := by
        simp [hother]; omega
      rw [hlen] at h
      simp only [List.length_append, ← hnr] at h
      simpa [Tree.assets, List.append_assoc] using h

/-! ### C14, C15: traversal -/

/-- What an asset's intersection routine must guarantee for a ray: `hitT a` is the distance of the
closest hit of `a` alone. -/
structure Oracle (box : A → Box K) (r : Ray K) (hitT : A → Option K) (isect : A → K → Option K)
    (all : List A) : Prop where
  /-- it only reports the closest hit, and only when not farther than the current distance -/
  sound : ∀ a ∈ all, ∀ b t, isect a b = some t → hitT a = some t ∧ t ≤ b
  /-- it reports the closest hit when it is nearer than the current distance -/
  complete : ∀ a ∈ all, ∀ b t, hitT a = some t → t < b → isect a b = some t
  /-- hits are in front of the origin -/
  pos : ∀ a ∈ all, ∀ t, hitT a = some t → 0 < t
  /-- hits are inside the bounding box -/
  inbox : ∀ a ∈ all, ∀ t, hitT a = some t → Mem (box a) (r.at t)

/-- The state of the search is consistent: either nothing found and the distance is still `big`, or
the recorded asset has its closest hit at the recorded distance. -/
def Attained (hitT : A → Option K) (all : List A) (big : K) (s : K × Option A) : Prop :=
  (s.2 = none ∧ s.1 = big) ∨ ∃ a ∈ all, s.2 = some a ∧ hitT a = some s.1

theorem leafLoop_spec {box : A → Box K} {r : Ray K} {hitT : A → Option K} {isect : A → K → Option K}
    {all : List A} (ho : Oracle box r hitT isect all) (hne : ∀ a ∈ all, NonEmpty (box a))
    (hg : ∀ a ∈ all, Generic (box a) r) (big : K) (l : List A) (hl : ∀ a ∈ l, a ∈ all)
    (s : K × Option A) (hs : Attained hitT all big s) :
    Attained hitT all big (leafLoop box r isect l s) ∧ (leafLoop box r isect l s).1 ≤ s.1 ∧
      ∀ a ∈ l, ∀ t, hitT a = some t → (leafLoop box r isect l s).1 ≤ t := by
  induction l generalizing s with
  | nil => exact ⟨hs, le_refl _, by simp⟩
  | cons a l ih =>
    have ha : a ∈ all := hl a List.mem_cons_self
    have hl' : ∀ b ∈ l, b ∈ all := fun b hb => hl b (List.mem_cons_of_mem _ hb)
    obtain ⟨k1, k2⟩ := C25_general_direction (box a) r (hne a ha) (hg a ha)
    -- combine the tail with a head that is already dominated
    have skip : (∀ t, hitT a = some t → s.1 ≤ t) →
        Attained hitT all big (leafLoop box r isect l s) ∧ (leafLoop box r isect l s).1 ≤ s.1 ∧
        ∀ b ∈ a :: l, ∀ t, hitT b = some t → (leafLoop box r isect l s).1 ≤ t := by
      intro hdom
      obtain ⟨i1, i2, i3⟩ := ih hl' s hs
      refine ⟨i1, i2, ?_⟩
      intro b hb t ht
      rcases List.mem_cons.1 hb with rfl | hb
      · exact le_trans i2 (hdom t ht)
      · exact i3 b hb t ht
    rw [leafLoop]
    cases hbox : intersectE (box a) r with
    | none =>
      exact skip fun t ht => absurd (ho.inbox a ha t ht) (k2 hbox t)
    | some p =>
      obtain ⟨res1, res2⟩ := p
      obtain ⟨p1, _, _, p4⟩ := k1 _ hbox
      simp only at p1 p4 ⊢
      split
      · rename_i hlt
        cases hi : isect a s.1 with
        | none =>
          refine skip fun t ht => ?_
          by_contra hc
          push Not at hc
          rw [ho.complete a ha s.1 t ht hc] at hi
          exact absurd hi (by simp)
        | some t =>
          obtain ⟨h1, h2⟩ := ho.sound a ha s.1 t hi
          obtain ⟨i1, i2, i3⟩ := ih hl' (t, some a) (Or.inr ⟨a, ha, rfl, h1⟩)
          simp only at i1 i2 i3 ⊢
          refine ⟨i1, le_trans i2 h2, ?_⟩
          intro b hb t' ht'
          rcases List.mem_cons.1 hb with rfl | hb
          · rw [h1] at ht'
            simp only [Option.some.injEq] at ht'
            rw [← ht']
            exact i2
          · exact i3 b hb t' ht'
      · rename_i hlt
        refine skip fun t ht => ?_
        have hle := (p4 t).1 (ho.inbox a ha t ht)
        rw [Bool.not_eq_true] at hlt
        have := EF.le_trans' ((not_lt_iff p1 (by simp)).1 hlt) hle.1
        simpa [Le, EF.le] using this

/-- Every split plane is in general position with respect to the ray. -/
def PlanesGeneric (r : Ray K) : Tree K A → Prop
  | .leaf _ => True
  | .node ax x l rt => (r.d ax = 0 → r.o ax ≠ x) ∧ PlanesGeneric r l ∧ PlanesGeneric r rt

/-- Parameter of the split plane, kdtree.cpp:442-443. -/
def planeT (r : Ray K) (ax : Fin 3) (x : K) : EF K := EF.mulFin (x - r.o ax) (EF.recip (r.d ax))

/-- Condition `leftBelow`, kdtree.cpp:448-450. -/
def LeftBelow (r : Ray K) (ax : Fin 3) (x : K) : Prop := r.o ax < x ∨ (r.o ax = x ∧ r.d ax ≤ 0)

instance (r : Ray K) (ax : Fin 3) (x : K) : Decidable (LeftBelow r ax x) := by
  unfold LeftBelow; infer_instance

theorem planeT_ne_nan (r : Ray K) (ax : Fin 3) (x : K) (hg : r.d ax = 0 → r.o ax ≠ x) :
    planeT r ax x ≠ nan := by
  unfold planeT EF.recip
  by_cases h : r.d ax = 0
  · have h0 := hg h
    rw [if_pos h]
    have e : x - r.o ax ≠ 0 := fun h => h0 (by linarith)
    simp only [EF.mulFin, if_neg e]
    split <;> simp
  · rw [if_neg h]; simp [EF.mulFin]

theorem plane_far (r : Ray K) (ax : Fin 3) (x t : K) (ht : 0 < t) (hg : r.d ax = 0 → r.o ax ≠ x)
    (h : (LeftBelow r ax x ∧ x ≤ r.at t ax) ∨ (¬ LeftBelow r ax x ∧ r.at t ax ≤ x)) :
    Le (planeT r ax x) (fin t) ∧ EF.le (planeT r ax x) (fin 0) = false := by
  unfold LeftBelow Ray.at at h
  unfold planeT EF.recip
  rcases lt_trichotomy (r.d ax) 0 with hd | hd | hd
  · have htd : t * r.d ax < 0 := mul_neg_of_pos_of_neg ht hd
    rw [if_neg hd.ne]
    simp only [EF.mulFin, Le, EF.le, decide_eq_true_eq, decide_eq_false_iff_not, not_le, mul_one_div]
    rcases h with ⟨h1 | h1, h2⟩ | ⟨h1, h2⟩
    · exfalso; linarith
    · exfalso; linarith [h1.1]
    · push Not at h1
      have hox : x < r.o ax := by
        rcases lt_or_eq_of_le h1.1 with h3 | h3
        · exact h3
        · exact absurd (h1.2 h3.symm) (not_lt.2 hd.le)
      rw [div_le_iff_of_neg hd]
      exact ⟨by linarith, div_pos_of_neg_of_neg (by linarith) hd⟩
  · exfalso
    rw [hd, mul_zero, add_zero] at h
    have hg := hg hd
    rcases h with ⟨h1 | h1, h2⟩ | ⟨h1, h2⟩
    · exact absurd h2 (not_le.2 h1)
    · exact hg h1.1
    · push Not at h1
      exact hg (le_antisymm h2 h1.1)
  · have htd : 0 < t * r.d ax := mul_pos ht hd
    rw [if_neg hd.ne']
    simp only [EF.mulFin, Le, EF.le, decide_eq_true_eq, decide_eq_false_iff_not, not_le, mul_one_div]
    rcases h with ⟨h1 | h1, h2⟩ | ⟨h1, h2⟩
    · rw [div_le_iff₀ hd]
      exact ⟨by linarith, div_pos (by linarith) hd⟩
    · exfalso; linarith [h1.2]
    · exfalso
      push Not at h1
      linarith [h1.1]

theorem plane_near (r : Ray K) (ax : Fin 3) (x t : K) (hg : r.d ax = 0 → r.o ax ≠ x)
    (h : (LeftBelow r ax x ∧ r.at t ax ≤ x) ∨ (¬ LeftBelow r ax x ∧ x ≤ r.at t ax)) :
    Le (fin t) (planeT r ax x) ∨ EF.le (planeT r ax x) (fin 0) = true := by
  unfold LeftBelow Ray.at at h
  unfold planeT EF.recip
  rcases lt_trichotomy (r.d ax) 0 with hd | hd | hd
  · rw [if_neg hd.ne]
    simp only [EF.mulFin, Le, EF.le, decide_eq_true_eq, mul_one_div]
    rw [le_div_iff_of_neg hd, div_le_iff_of_neg hd]
    rcases h with ⟨h1 | h1, h2⟩ | ⟨h1, h2⟩
    · right; linarith
    · right; linarith [h1.1]
    · left; linarith
  · have h0 := hg hd
    rw [if_pos hd]
    have e : x - r.o ax ≠ 0 := fun h => h0 (by linarith)
    simp only [EF.mulFin, if_neg e]
    split
    · left; simp [Le, EF.le]
    · right; simp [EF.le]
  · rw [if_neg hd.ne']
    simp only [EF.mulFin, Le, EF.le, decide_eq_true_eq, mul_one_div]
    rw [le_div_iff₀ hd, div_le_iff₀ hd]
    rcases h with ⟨h1 | h1, h2⟩ | ⟨h1, h2⟩
    · left; linarith
    · left; linarith
    · right
      push Not at h1
      linarith [h1.1]

/-- The hit of `a` at `t` is still to be found in the pending entry `(j, tr)`. -/
def Covered (r : Ray K) (e : Job K × Tree K A) (a : A) (t : K) : Prop :=
  Le e.1.mint (fin t) ∧ Le (fin t) e.1.maxt ∧ Reaches e.2 (r.at t) a

/-- The intervals on the stack follow each other. -/
def Chain (hi : EF K) : List (Job K × Tree K A) → Prop
  | [] => True
  | e :: rest => Le hi e.1.mint ∧ Le e.1.mint e.1.maxt ∧ Chain e.1.maxt rest

theorem chain_mint {hi : EF K} {st : List (Job K × Tree K A)} (h : Chain hi st) :
    ∀ e ∈ st, Le hi e.1.mint := by
  induction st generalizing hi with
  | nil => simp
  | cons e st ih =>
    obtain ⟨h1, h2, h3⟩ := h
    intro e' he'
    rcases List.mem_cons.1 he' with rfl | he'
    · exact h1
    · exact EF.le_trans' (EF.le_trans' h1 h2) (ih h3 e' he')

/-- Stack entry number `k` (from the bottom) has a tree of height at most `15 - k`. -/
def Fits : List (Job K × Tree K A) → Prop
  | [] => True
  | e :: rest => e.2.height + rest.length ≤ 15 ∧ Fits rest

/-- Total number of nodes still to visit. -/
def todo : List (Job K × Tree K A) → Nat
  | [] => 0
  | e :: rest => e.2.size + todo rest

/-- Conditions on one pending entry. -/
structure EntryOk (nodes : List (Node K)) (assets : List A) (r : Ray K) (all : List A)
    (e : Job K × Tree K A) : Prop where
  repr : Repr nodes assets e.1.node e.2
  planes : PlanesGeneric r e.2
  sub : ∀ a ∈ e.2.assets, a ∈ all

theorem le_ne_nan {a b : EF K} (h : Le a b) : a ≠ nan ∧ b ≠ nan := by
  cases a <;> cases b <;> simp_all [Le, EF.le]

theorem traverse_spec {box : A → Box K} {r : Ray K} {hitT : A → Option K} {isect : A → K → Option K}
    {all : List A} (ho : Oracle box r hitT isect all) (hne : ∀ a ∈ all, NonEmpty (box a))
    (hg : ∀ a ∈ all, Generic (box a) r) (big : K) (assets : List A) (nodes : List (Node K)) :
    ∀ (fuel : Nat) (e : Job K × Tree K A) (st : List (Job K × Tree K A)) (s : K × Option A),
      EntryOk nodes assets r all e → (∀ e' ∈ st, EntryOk nodes assets r all e') →
      Le e.1.mint e.1.maxt → Chain e.1.maxt st → Fits (e :: st) → todo (e :: st) ≤ fuel →
      Attained hitT all big s →
      (∀ a ∈ all, ∀ t, hitT a = some t → s.1 ≤ t ∨ ∃ e' ∈ e :: st, Covered r e' a t) →
      ∃ s', traverse box assets nodes r isect fuel e.1 (st.map Prod.fst) s = .ok s' ∧
        Attained hitT all big s' ∧ ∀ a ∈ all, ∀ t, hitT a = some t → s'.1 ≤ t := by
  intro fuel
  induction fuel with
  | zero =>
    intro e st s _ _ _ _ _ hf
    exfalso
    have : 1 ≤ e.2.size := by cases e.2 <;> simp [Tree.size]; omega
    simp only [todo] at hf
    omega
  | succ fuel ih =>
    intro e st s he hst hle hch hfit htodo hs hcov
    obtain ⟨⟨ni, mint, maxt⟩, tr⟩ := e
    simp only at hle hch
    obtain ⟨hmin, hmax⟩ := le_ne_nan hle
    rw [traverse]
    by_cases hprune : EF.lt (EF.fin s.1) mint = true
    · simp only [hprune, if_true]
      refine ⟨s, rfl, hs, ?_⟩
      intro a ha t ht
      rcases hcov a ha t ht with h | ⟨e', he', hc⟩
      · exact h
      · have h1 : Le mint e'.1.mint := by
          rcases List.mem_cons.1 he' with rfl | he'
          · exact EF.le_self hmin
          · exact EF.le_trans' hle (chain_mint hch e' he')
        have := EF.le_trans' (EF.le_trans' (lt_le hprune) h1) hc.1
        simpa [Le, EF.le] using this
    · simp only [hprune, if_false, Bool.false_eq_true]
      obtain ⟨hrepr, hplanes, hsub⟩ := he
      simp only at hrepr hplanes hsub
      cases tr with
      | leaf l =>
        obtain ⟨off, hn, hb, htake⟩ := hrepr
        simp only [hn, hb, if_true, htake]
        obtain ⟨l1, l2, l3⟩ := leafLoop_spec ho hne hg big l hsub s hs
        have hcov' : ∀ a ∈ all, ∀ t, hitT a = some t →
            (leafLoop box r isect l s).1 ≤ t ∨ ∃ e' ∈ st, Covered r e' a t := by
          intro a ha t ht
          rcases hcov a ha t ht with h | ⟨e', he', hc⟩
          · exact Or.inl (le_trans l2 h)
          · rcases List.mem_cons.1 he' with rfl | he'
            · exact Or.inl (l3 a hc.2.2 t ht)
            · exact Or.inr ⟨e', he', hc⟩
        cases st with
        | nil =>
          refine ⟨_, rfl, l1, ?_⟩
          intro a ha t ht
          rcases hcov' a ha t ht with h | ⟨e', he', _⟩
          · exact h
          · simp at he'
        | cons e1 st =>
          simp only [List.map_cons]
          refine ih e1 st _ (hst e1 List.mem_cons_self)
            (fun e' he' => hst e' (List.mem_cons_of_mem _ he')) hch.2.1 hch.2.2 hfit.2 ?_ l1 hcov'
          simp only [todo, Tree.size] at htodo ⊢
          omega
      | node ax x tl trt =>
        obtain ⟨o, hn, hrl, hrr⟩ := hrepr
        obtain ⟨hp, hpl, hpr⟩ := hplanes
        simp only [hn]
        have hsubl : ∀ a ∈ tl.assets, a ∈ all :=
          fun a ha => hsub a (List.mem_append.2 (Or.inl ha))
        have hsubr : ∀ a ∈ trt.assets, a ∈ all :=
          fun a ha => hsub a (List.mem_append.2 (Or.inr ha))
        have hplane := planeT_ne_nan r ax x hp
        -- near and far children
        obtain ⟨nn, nf, tn, tf, e1, e2, hokn, hokf, hside, hsz, hht⟩ :
            ∃ nn nf tn tf, (if LeftBelow r ax x then ni + 1 else o) = nn ∧
              (if LeftBelow r ax x then o else ni + 1) = nf ∧
              (∀ m M, EntryOk nodes assets r all (⟨nn, m, M⟩, tn)) ∧
              (∀ m M, EntryOk nodes assets r all (⟨nf, m, M⟩, tf)) ∧
              (∀ a t, Reaches (Tree.node ax x tl trt) (r.at t) a →
                (((LeftBelow r ax x ∧ r.at t ax ≤ x) ∨ (¬ LeftBelow r ax x ∧ x ≤ r.at t ax)) ∧
                  Reaches tn (r.at t) a) ∨
                (((LeftBelow r ax x ∧ x ≤ r.at t ax) ∨ (¬ LeftBelow r ax x ∧ r.at t ax ≤ x)) ∧
                  Reaches tf (r.at t) a)) ∧
              tn.size + tf.size = tl.size + trt.size ∧
              (tn.height ≤ Nat.max tl.height trt.height ∧
                tf.height ≤ Nat.max tl.height trt.height) := by
          by_cases hlb : LeftBelow r ax x
          · refine ⟨ni + 1, o, tl, trt, by rw [if_pos hlb], by rw [if_pos hlb],
              fun m M => ⟨hrl, hpl, hsubl⟩, fun m M => ⟨hrr, hpr, hsubr⟩, ?_, rfl,
              Nat.le_max_left _ _, Nat.le_max_right _ _⟩
            rintro a t (⟨h1, h2⟩ | ⟨h1, h2⟩)
            · exact Or.inl ⟨Or.inl ⟨hlb, h1⟩, h2⟩
            · exact Or.inr ⟨Or.inl ⟨hlb, h1⟩, h2⟩
          · refine ⟨o, ni + 1, trt, tl, by rw [if_neg hlb], by rw [if_neg hlb],
              fun m M => ⟨hrr, hpr, hsubr⟩, fun m M => ⟨hrl, hpl, hsubl⟩, ?_, Nat.add_comm _ _,
              Nat.le_max_right _ _, Nat.le_max_left _ _⟩
            rintro a t (⟨h1, h2⟩ | ⟨h1, h2⟩)
            · exact Or.inr ⟨Or.inr ⟨hlb, h1⟩, h2⟩
            · exact Or.inl ⟨Or.inr ⟨hlb, h1⟩, h2⟩
        have e1' : (if r.o ax < x ∨ r.o ax = x ∧ r.d ax ≤ 0 then ni + 1 else o) = nn := e1
        have e2' : (if r.o ax < x ∨ r.o ax = x ∧ r.d ax ≤ 0 then o else ni + 1) = nf := e2
        have e3 : EF.mulFin (x - r.o ax) (EF.recip (r.d ax)) = planeT r ax x := rfl
        simp only [e1', e2', e3]
        simp only [todo, Tree.size] at htodo
        have hfit1 : Nat.max tl.height trt.height + 1 + st.length ≤ 15 := hfit.1
        by_cases hc1 : (EF.lt maxt (planeT r ax x) || EF.le (planeT r ax x) (EF.fin 0)) = true
        · simp only [hc1, if_true]
          refine ih (⟨nn, mint, maxt⟩, tn) st s (hokn _ _) hst hle hch ⟨?_, hfit.2⟩ ?_ hs ?_
          · simp only; omega
          · simp only [todo]; omega
          · intro a ha t ht
            rcases hcov a ha t ht with h | ⟨e', he', hc⟩
            · exact Or.inl h
            · rcases List.mem_cons.1 he' with rfl | he'
              · obtain ⟨c1, c2, c3⟩ := hc
                simp only at c1 c2 c3
                rcases hside a t c3 with ⟨hs', hr⟩ | ⟨hs', hr⟩
                · exact Or.inr ⟨_, List.mem_cons_self, c1, c2, hr⟩
                · exfalso
                  obtain ⟨f1, f2⟩ := plane_far r ax x t (ho.pos a ha t ht) hp hs'
                  rw [f2, Bool.or_false] at hc1
                  exact lt_not_le hc1 (EF.le_trans' f1 c2)
              · exact Or.inr ⟨e', List.mem_cons_of_mem _ he', hc⟩
        · simp only [hc1, if_false, Bool.false_eq_true]
          simp only [Bool.or_eq_true, not_or, Bool.not_eq_true] at hc1
          by_cases hc2 : EF.lt (planeT r ax x) mint = true
          · simp only [hc2, if_true]
            refine ih (⟨nf, mint, maxt⟩, tf) st s (hokf _ _) hst hle hch ⟨?_, hfit.2⟩ ?_ hs ?_
            · simp only; omega
            · simp only [todo]; omega
            · intro a ha t ht
              rcases hcov a ha t ht with h | ⟨e', he', hc⟩
              · exact Or.inl h
              · rcases List.mem_cons.1 he' with rfl | he'
                · obtain ⟨c1, c2, c3⟩ := hc
                  simp only at c1 c2 c3
                  rcases hside a t c3 with ⟨hs', hr⟩ | ⟨hs', hr⟩
                  · exfalso
                    rcases plane_near r ax x t hp hs' with f | f
                    · exact lt_not_le hc2 (EF.le_trans' c1 f)
                    · rw [hc1.2] at f; exact absurd f (by simp)
                  · exact Or.inr ⟨_, List.mem_cons_self, c1, c2, hr⟩
                · exact Or.inr ⟨e', List.mem_cons_of_mem _ he', hc⟩
          · simp only [hc2, if_false, Bool.false_eq_true, List.length_map]
            rw [Bool.not_eq_true] at hc2
            have hpm : Le (planeT r ax x) maxt := (not_lt_iff hmax hplane).1 hc1.1
            have hmp : Le mint (planeT r ax x) := (not_lt_iff hplane hmin).1 hc2
            rw [if_pos (by omega)]
            refine ih (⟨nn, mint, planeT r ax x⟩, tn) ((⟨nf, planeT r ax x, maxt⟩, tf) :: st) s
              (hokn _ _) ?_ hmp ?_ ?_ ?_ hs ?_
            · intro e' he'
              rcases List.mem_cons.1 he' with rfl | he'
              · exact hokf _ _
              · exact hst e' he'
            · exact ⟨EF.le_self hplane, hpm, hch⟩
            · refine ⟨?_, ?_, hfit.2⟩
              · simp only [List.length_cons]; omega
              · simp only; omega
            · simp only [todo]; omega
            · intro a ha t ht
              rcases hcov a ha t ht with h | ⟨e', he', hc⟩
              · exact Or.inl h
              · rcases List.mem_cons.1 he' with rfl | he'
                · obtain ⟨c1, c2, c3⟩ := hc
                  simp only at c1 c2 c3
                  rcases hside a t c3 with ⟨hs', hr⟩ | ⟨hs', hr⟩
                  · rcases plane_near r ax x t hp hs' with f | f
                    · exact Or.inr ⟨_, List.mem_cons_self, c1, f, hr⟩
                    · rw [hc1.2] at f; exact absurd f (by simp)
                  · obtain ⟨f1, f2⟩ := plane_far r ax x t (ho.pos a ha t ht) hp hs'
                    exact Or.inr ⟨_, List.mem_cons_of_mem _ List.mem_cons_self, f1, c2, hr⟩
                · exact Or.inr ⟨e', List.mem_cons_of_mem _ (List.mem_cons_of_mem _ he'), hc⟩

theorem build_planes (box : A → Box K) (sort : List (Cand K A) → List (Cand K A)) (hs : SortOk sort)
    (pick : List A → Box K → (Fin 3 → List (Cand K A)) → Option (Fin 3 × Nat)) (r : Ray K)
    (d : Nat) (l : List A) (area : Box K) (hg : ∀ a ∈ l, Generic (box a) r) :
    PlanesGeneric r (build box sort pick d l area) := by
  induction d generalizing l area with
  | zero => trivial
  | succ d ih =>
    rcases build_succ_cases box sort pick d l area with h | ⟨ax, i, c, hc, h⟩
    · rw [h]; trivial
    · rw [h]
      refine ⟨?_, ih _ _ fun a ha => hg a (sort_who hs (lefts_subset ha)),
        ih _ _ fun a ha => hg a (sort_who hs (rights_subset ha))⟩
      intro hd
      have hm := mem_cands.1 (((hs _).1.mem_iff).1 (List.mem_of_getElem? hc))
      rcases hm with ⟨h1, ⟨_, h2⟩ | ⟨_, h2⟩⟩
      · rw [h2]; exact (hg _ h1 ax hd).1
      · rw [h2]; exact (hg _ h1 ax hd).2

/-- The faces of the scene box are faces of asset boxes. -/
theorem scene_faces (l : List (Box K)) (b : Box K) (i : Fin 3) :
    (∃ c ∈ b :: l, (l.foldl engulf b).lo i = c.lo i) ∧
    (∃ c ∈ b :: l, (l.foldl engulf b).hi i = c.hi i) := by
  induction l generalizing b with
  | nil => exact ⟨⟨b, by simp, rfl⟩, ⟨b, by simp, rfl⟩⟩
  | cons x l ih =>
    obtain ⟨⟨c1, m1, e1⟩, ⟨c2, m2, e2⟩⟩ := ih (engulf b x)
    constructor
    · rw [List.foldl_cons, e1]
      rcases List.mem_cons.1 m1 with rfl | m1
      · simp only [engulf, fmin]
        split
        · exact ⟨b, by simp, rfl⟩
        · exact ⟨x, by simp, rfl⟩
      · exact ⟨c1, by simp [m1], rfl⟩
    · rw [List.foldl_cons, e2]
      rcases List.mem_cons.1 m2 with rfl | m2
      · simp only [engulf, fmax]
        split
        · exact ⟨b, by simp, rfl⟩
        · exact ⟨x, by simp, rfl⟩
      · exact ⟨c2, by simp [m2], rfl⟩

/-- Add all assets to a fresh tree and build it. -/
def construct (box : A → Box K) (sort : List (Cand K A) → List (Cand K A))
    (pick : List A → Box K → (Fin 3 → List (Cand K A)) → Option (Fin 3 × Nat)) (l : List A) :
    Option (Kd K A) :=
  (Kd.init.addAll l).bind fun k => k.buildTree box sort pick

/-- Shape of a tree constructed from scratch. -/
theorem construct_shape {box : A → Box K} {sort : List (Cand K A) → List (Cand K A)}
    {pick : List A → Box K → (Fin 3 → List (Cand K A)) → Option (Fin 3 × Nat)} {l : List A}
    {k : Kd K A} (h : construct box sort pick l = some k) :
    (l = [] ∧ k.scene = none) ∨ ∃ a l', l = a :: l' ∧
      ∃ scene, scene = (l'.map box).foldl engulf (box a) ∧ k.scene = some scene ∧
      k.assets.list = (build box sort pick 15 l scene).assets ∧
      k.nodes = (build box sort pick 15 l scene).flatten 0 0 := by
  unfold construct Kd.addAll at h
  obtain ⟨k1, h1, h2⟩ := Option.bind_eq_some_iff.1 h
  obtain ⟨s1, h3, rfl⟩ := Option.map_eq_some_iff.1 h1
  have hlen : l.length ≤ maxAssets := by
    apply (C16_safe_iff l).1
    show (AssetList.addAll AssetList.init l).isSome = true
    have : AssetList.addAll AssetList.init l = some s1 := h3
    rw [this]; rfl
  obtain ⟨s, e1, e2, e3⟩ := AssetList.addAll_ok l _ AssetList.inv_init
    (by simpa [AssetList.init] using hlen)
  have hs : s1 = s := by
    have h3' : AssetList.addAll AssetList.init l = some s1 := h3
    rw [h3'] at e1
    simpa using e1
  subst hs
  have e2' : s1.list = l := by simpa [AssetList.init] using e2
  unfold Kd.buildTree at h2
  simp only [e2'] at h2
  cases l with
  | nil =>
    simp only [Option.some.injEq] at h2
    subst h2
    exact Or.inl ⟨rfl, rfl⟩
  | cons a l' =>
    simp only at h2
    right
    refine ⟨a, l', rfl, _, rfl, ?_⟩
    generalize (l'.map box).foldl engulf (box a) = scene at h2 ⊢
    obtain ⟨s2, h4, rfl⟩ := Option.map_eq_some_iff.1 h2
    generalize build box sort pick 15 (a :: l') scene = t at h4 ⊢
    have hinv : (⟨[], s1.alloc⟩ : AssetList A).Inv := ⟨Nat.zero_le _, e3.2.1, e3.2.2⟩
    have hlen2 : t.assets.length ≤ maxAssets := by
      by_contra hc
      push Not at hc
      rw [AssetList.addAll_overflow _ _ hinv (Nat.zero_le _) (by simpa using hc)] at h4
      exact absurd h4 (by simp)
    obtain ⟨s3, g1, g2, _⟩ := AssetList.addAll_ok t.assets _ hinv (by simpa using hlen2)
    rw [h4] at g1
    simp only [Option.some.injEq] at g1
    subst g1
    refine ⟨rfl, by simpa using g2, ?_⟩
    simp [Kd.init]

/-- Full statement of C14 (in exact arithmetic): for every constructed tree and every ray the
traversal returns the closest hit of all assets. -/
def C14_statement : Prop :=
  ∀ (box : Nat → Box ℚ) (sort : List (Cand ℚ Nat) → List (Cand ℚ Nat)), SortOk sort →
    ∀ (l : List Nat) (k : Kd ℚ Nat), construct box sort sahPick l = some k →
    (∀ a ∈ l, ∀ i, (box a).lo i < (box a).hi i) →
    ∀ (r : Ray ℚ) (hitT : Nat → Option ℚ) (isect : Nat → ℚ → Option ℚ),
      Oracle box r hitT isect l → ∀ big : ℚ, (∀ a ∈ l, ∀ t, hitT a = some t → t < big) →
      ∃ res, k.intersect box isect big k.nodes.length r = .ok res ∧
        (res = none ↔ ∀ a ∈ l, hitT a = none)

/-- **C14**, all rays but those lying in the plane of a box face.  For a tree built from scratch over boxes with extent, with any legal sort and any
choice of splits, and a ray that does not lie in the plane of a box face: the traversal never
overflows its stack, never reads outside the arrays, ends within as many iterations as there are
nodes, and returns the closest hit over all assets; it answers "no hit" exactly when no asset is
hit. -/
theorem C14_closest_hit_partial (box : A → Box K) (sort : List (Cand K A) → List (Cand K A))
    (hs : SortOk sort)
    (pick : List A → Box K → (Fin 3 → List (Cand K A)) → Option (Fin 3 × Nat)) (l : List A)
    (k : Kd K A) (hk : construct box sort pick l = some k)
    (hflat : ∀ a ∈ l, ∀ i, (box a).lo i < (box a).hi i)
    (r : Ray K) (hitT : A → Option K) (isect : A → K → Option K)
    (ho : Oracle box r hitT isect l) (hg : ∀ a ∈ l, Generic (box a) r)
    (big : K) (hbig : ∀ a ∈ l, ∀ t, hitT a = some t → t < big)
    (fuel : Nat) (hfuel : k.nodes.length ≤ fuel) :
    ∃ res, k.intersect box isect big fuel r = .ok res ∧
      (res = none ↔ ∀ a ∈ l, hitT a = none) ∧
      ∀ t a, res = some (t, a) → a ∈ l ∧ hitT a = some t ∧
        ∀ b ∈ l, ∀ t', hitT b = some t' → t ≤ t' := by
  have hne : ∀ a ∈ l, NonEmpty (box a) := fun a ha i => (hflat a ha i).le
  rcases construct_shape hk with ⟨rfl, hsc⟩ | ⟨a0, l', hl, scene, hscene, e1, e2, e3⟩
  · refine ⟨none, ?_, by simp, by simp⟩
    simp [Kd.intersect, hsc]
  · set tr := build box sort pick 15 l scene with htr
    have hinsc : ∀ a ∈ l, ∀ p, Mem (box a) p → Mem scene p := by
      intro a ha p hp
      rw [hscene]
      rw [hl] at ha
      rcases List.mem_cons.1 ha with rfl | ha
      · have := C24_fold_contains (box a :: l'.map box) (box a) (box a) (by simp) p hp
        rw [List.foldl_cons, C24_idem] at this
        exact this
      · exact C24_fold_contains _ (box a) _ (List.mem_map_of_mem ha) p hp
    have hscne : NonEmpty scene := by
      intro i
      have ha0 : a0 ∈ l := by rw [hl]; simp
      have := hinsc a0 ha0 (box a0).lo (fun i => ⟨le_refl _, hne a0 ha0 i⟩) i
      exact le_trans this.1 this.2
    have hscg : Generic scene r := by
      intro i hd
      obtain ⟨⟨c1, m1, f1⟩, ⟨c2, m2, f2⟩⟩ := scene_faces (l'.map box) (box a0) i
      rw [← List.map_cons (f := box), ← hl] at m1 m2
      rw [← hscene] at f1 f2
      obtain ⟨a1, n1, rfl⟩ := List.mem_map.1 m1
      obtain ⟨a2, n2, rfl⟩ := List.mem_map.1 m2
      rw [f1, f2]
      exact ⟨(hg a1 n1 i hd).1, (hg a2 n2 i hd).2⟩
    obtain ⟨k1, k2⟩ := C25_general_direction scene r hscne hscg
    unfold Kd.intersect
    rw [e1]
    simp only [Option.bind_some]
    cases hi : intersectE scene r with
    | none =>
      refine ⟨none, rfl, ?_, by simp⟩
      simp only [true_iff]
      intro a ha
      cases ht : hitT a with
      | none => rfl
      | some t => exact absurd (hinsc a ha _ (ho.inbox a ha t ht)) (k2 hi t)
    | some p =>
      obtain ⟨mint, maxt⟩ := p
      obtain ⟨p1, p2, p3, p4⟩ := k1 _ hi
      simp only at p1 p2 p3 p4 ⊢
      have hrepr : Repr k.nodes k.assets.list 0 tr := by
        have := C13_flatten_repr tr [] [] [] []
        simpa [e2, e3] using this
      have hsub : ∀ a ∈ tr.assets, a ∈ l := fun a ha => C13_no_foreign_asset box sort hs pick _ _ _ a ha
      obtain ⟨s', h1, h2, h3⟩ := traverse_spec ho hne hg big k.assets.list k.nodes fuel
        (⟨0, mint, maxt⟩, tr) [] (big, none)
        ⟨hrepr, build_planes box sort hs pick r _ _ _ hg, hsub⟩ (by simp) p3 trivial
        ⟨by simpa using C15_height_bound box sort pick 15 l scene, trivial⟩
        (by rw [e3, flatten_length] at hfuel; simpa [todo] using hfuel)
        (Or.inl ⟨rfl, rfl⟩)
        (by
          intro a ha t ht
          have hm := ho.inbox a ha t ht
          have := (p4 t).1 (hinsc a ha _ hm)
          exact Or.inr ⟨_, List.mem_cons_self, this.1, this.2,
            C13_every_asset_reachable box sort hs pick 15 l scene hflat a ha _ hm⟩)
      simp only [List.map_nil] at h1
      refine ⟨s'.2.map fun a => (s'.1, a), by rw [h1]; rfl, ?_, ?_⟩
      · rcases h2 with ⟨g1, g2⟩ | ⟨a, ha, g1, g2⟩
        · rw [g1]
          simp only [Option.map_none, true_iff]
          intro a ha
          cases ht : hitT a with
          | none => rfl
          | some t =>
            have := h3 a ha t ht
            rw [g2] at this
            exact absurd this (not_le.2 (hbig a ha t ht))
        · rw [g1]
          simp only [Option.map_some, reduceCtorEq, false_iff]
          intro hall
          rw [hall a ha] at g2
          exact absurd g2 (by simp)
      · intro t a hres
        rcases h2 with ⟨g1, g2⟩ | ⟨a', ha', g1, g2⟩
        · rw [g1] at hres; exact absurd hres (by simp)
        · rw [g1] at hres
          simp only [Option.map_some, Option.some.injEq, Prod.mk.injEq] at hres
          obtain ⟨rfl, rfl⟩ := hres
          exact ⟨ha', g2, h3⟩

/-- Traversal of represented trees of bounded height runs to completion, whatever the numbers are
(NaN included) and whatever the assets answer. -/
theorem traverse_safe (box : A → Box K) (r : Ray K) (isect : A → K → Option K)
    (assets : List A) (nodes : List (Node K)) :
    ∀ (fuel : Nat) (e : Job K × Tree K A) (st : List (Job K × Tree K A)) (s : K × Option A),
      (∀ e' ∈ e :: st, Repr nodes assets e'.1.node e'.2) → Fits (e :: st) → todo (e :: st) ≤ fuel →
      ∃ s', traverse box assets nodes r isect fuel e.1 (st.map Prod.fst) s = .ok s' := by
  intro fuel
  induction fuel with
  | zero =>
    intro e st s _ _ hf
    exfalso
    have : 1 ≤ e.2.size := by cases e.2 <;> simp [Tree.size]; omega
    simp only [todo] at hf
    omega
  | succ fuel ih =>
    intro e st s hrep hfit htodo
    obtain ⟨⟨ni, mint, maxt⟩, tr⟩ := e
    have hst : ∀ e' ∈ st, Repr nodes assets e'.1.node e'.2 :=
      fun e' he' => hrep e' (List.mem_cons_of_mem _ he')
    have hrepr := hrep _ List.mem_cons_self
    rw [traverse]
    split
    · exact ⟨s, rfl⟩
    · cases tr with
      | leaf l =>
        obtain ⟨off, hn, hb, htake⟩ := hrepr
        simp only at hn
        simp only [hn, hb, if_true]
        cases st with
        | nil => exact ⟨_, rfl⟩
        | cons e1 st =>
          simp only [List.map_cons]
          refine ih e1 st _ hst hfit.2 ?_
          simp only [todo, Tree.size] at htodo ⊢
          omega
      | node ax x tl trt =>
        obtain ⟨o, hn, hrl, hrr⟩ := hrepr
        simp only at hn hrl hrr
        simp only [hn]
        simp only [todo, Tree.size] at htodo
        have hfit1 : Nat.max tl.height trt.height + 1 + st.length ≤ 15 := hfit.1
        have hml : tl.height ≤ Nat.max tl.height trt.height := Nat.le_max_left _ _
        have hmr : trt.height ≤ Nat.max tl.height trt.height := Nat.le_max_right _ _
        obtain ⟨nn, nf, tn, tf, e1', e2', hokn, hokf, hsz, h1, h2⟩ :
            ∃ nn nf tn tf, (if r.o ax < x ∨ r.o ax = x ∧ r.d ax ≤ 0 then ni + 1 else o) = nn ∧
              (if r.o ax < x ∨ r.o ax = x ∧ r.d ax ≤ 0 then o else ni + 1) = nf ∧
              Repr nodes assets nn tn ∧ Repr nodes assets nf tf ∧
              tn.size + tf.size = tl.size + trt.size ∧
              tn.height ≤ Nat.max tl.height trt.height ∧
              tf.height ≤ Nat.max tl.height trt.height := by
          by_cases hlb : r.o ax < x ∨ r.o ax = x ∧ r.d ax ≤ 0
          · exact ⟨ni + 1, o, tl, trt, by rw [if_pos hlb], by rw [if_pos hlb], hrl, hrr, rfl, hml, hmr⟩
          · exact ⟨o, ni + 1, trt, tl, by rw [if_neg hlb], by rw [if_neg hlb], hrr, hrl,
              Nat.add_comm _ _, hmr, hml⟩
        simp only [e1', e2']
        generalize EF.mulFin (x - r.o ax) (EF.recip (r.d ax)) = planet
        split
        · refine ih (⟨nn, mint, maxt⟩, tn) st s ?_ ⟨?_, hfit.2⟩ ?_
          · intro e' he'
            rcases List.mem_cons.1 he' with rfl | he'
            · exact hokn
            · exact hst e' he'
          · simp only; omega
          · simp only [todo]; omega
        · split
          · refine ih (⟨nf, mint, maxt⟩, tf) st s ?_ ⟨?_, hfit.2⟩ ?_
            · intro e' he'
              rcases List.mem_cons.1 he' with rfl | he'
              · exact hokf
              · exact hst e' he'
            · simp only; omega
            · simp only [todo]; omega
          · rw [if_pos (by rw [List.length_map]; omega)]
            refine ih (⟨nn, mint, planet⟩, tn) ((⟨nf, planet, maxt⟩, tf) :: st) s ?_ ⟨?_, ?_, hfit.2⟩ ?_
            · intro e' he'
              rcases List.mem_cons.1 he' with rfl | he'
              · exact hokn
              · rcases List.mem_cons.1 he' with rfl | he'
                · exact hokf
                · exact hst e' he'
            · simp only [List.length_cons]; omega
            · simp only; omega
            · simp only [todo]; omega

/-- **C15.** For every tree built from scratch, every ray (degenerate ones included) and every
behaviour of the assets, the traversal completes: no write past the 15 entries of the stack, no read
outside the node and asset arrays, and at most as many iterations as there are nodes. -/
theorem C15_stack_never_overflows (box : A → Box K) (sort : List (Cand K A) → List (Cand K A))
    (pick : List A → Box K → (Fin 3 → List (Cand K A)) → Option (Fin 3 × Nat)) (l : List A)
    (k : Kd K A) (hk : construct box sort pick l = some k)
    (r : Ray K) (isect : A → K → Option K) (big : K) :
    ∃ res, k.intersect box isect big k.nodes.length r = .ok res := by
  rcases construct_shape hk with ⟨rfl, hsc⟩ | ⟨a0, l', hl, scene, hscene, e1, e2, e3⟩
  · exact ⟨none, by simp [Kd.intersect, hsc]⟩
  · unfold Kd.intersect
    rw [e1]
    simp only [Option.bind_some]
    cases hi : intersectE scene r with
    | none => exact ⟨none, rfl⟩
    | some p =>
      obtain ⟨mint, maxt⟩ := p
      have hrepr : Repr k.nodes k.assets.list 0 (build box sort pick 15 l scene) := by
        have := C13_flatten_repr (build box sort pick 15 l scene) [] [] [] []
        simpa [e2, e3] using this
      obtain ⟨s', h1⟩ := traverse_safe box r isect k.assets.list k.nodes k.nodes.length
        (⟨0, mint, maxt⟩, build box sort pick 15 l scene) [] (big, none)
        (by
          intro e' he'
          rcases List.mem_cons.1 he' with rfl | he'
          · exact hrepr
          · simp at he')
        ⟨by simpa using C15_height_bound box sort pick 15 l scene, trivial⟩
        (by rw [e3, flatten_length]; simp [todo])
      simp only [List.map_nil] at h1
      exact ⟨s'.2.map fun a => (s'.1, a), by simp only [h1]; rfl⟩

/-! ### Witnesses and examples -/

/-- Insertion sort by position, used for the examples. -/
def isort : List (Cand ℚ Nat) → List (Cand ℚ Nat) := List.insertionSort fun a b => a.pos ≤ b.pos

theorem isort_ok : SortOk isort := by
  intro l
  have : Std.Total fun a b : Cand ℚ Nat => a.pos ≤ b.pos := ⟨fun a b => le_total a.pos b.pos⟩
  have : IsTrans (Cand ℚ Nat) fun a b => a.pos ≤ b.pos := ⟨fun a b c => le_trans⟩
  exact ⟨List.perm_insertionSort _ l, List.pairwise_insertionSort _ l⟩

/-- Example scene: cubes along the diagonal; cube `n` spans from `2n+1` to `2n+2` on every axis. -/
def exBox (n : Nat) : Box ℚ := ⟨fun _ => 2 * n + 1, fun _ => 2 * n + 2⟩

/-- Example ray along the diagonal, entering cube `n` at `2n+1`. -/
def exRay : Ray ℚ := ⟨fun _ => 0, fun _ => 1⟩

/-- Closest hit of each cube of the example. -/
def exHit (n : Nat) : Option ℚ := some (2 * n + 1)

/-- Intersection routine of the example. -/
def exIsect (n : Nat) (b : ℚ) : Option ℚ := if (2 * n + 1 : ℚ) < b then some (2 * n + 1) else none

theorem exOracle (l : List Nat) : Oracle exBox exRay exHit exIsect l where
  sound := by
    intro a _ b t h
    unfold exIsect at h
    split at h
    · simp only [Option.some.injEq] at h
      subst h
      exact ⟨rfl, by linarith⟩
    · exact absurd h (by simp)
  complete := by
    intro a _ b t h hlt
    simp only [exHit, Option.some.injEq] at h
    subst h
    simp [exIsect, hlt]
  pos := by
    intro a _ t h
    simp only [exHit, Option.some.injEq] at h
    subst h
    positivity
  inbox := by
    intro a _ t h
    simp only [exHit, Option.some.injEq] at h
    subst h
    intro i
    simp only [exBox, exRay, Ray.at]
    constructor <;> linarith

/-- Non-vacuity of C13, C14 and C15: five cubes, the actual split heuristic, and all hypotheses. -/
example : (construct exBox isort sahPick [3, 1, 4, 0, 2]).isSome = true ∧ SortOk isort ∧
    (∀ a ∈ [3, 1, 4, 0, 2], ∀ i, (exBox a).lo i < (exBox a).hi i) ∧
    Oracle exBox exRay exHit exIsect [3, 1, 4, 0, 2] ∧
    (∀ a ∈ [3, 1, 4, 0, 2], Generic (exBox a) exRay) ∧
    (∀ a ∈ [3, 1, 4, 0, 2], ∀ t, exHit a = some t → t < 100) := by
  refine ⟨by decide +kernel, isort_ok, ?_, exOracle _, ?_, ?_⟩
  · intro a _ i; simp only [exBox]; linarith
  · intro a _ i hd
    simp [exRay] at hd
  · intro a ha t ht
    simp only [exHit, Option.some.injEq] at ht
    subst ht
    simp at ha
    rcases ha with rfl | rfl | rfl | rfl | rfl <;> norm_num

/-- The example tree has inner nodes, and the query returns cube 0 at distance 1. -/
example : ∃ k, construct exBox isort sahPick [3, 1, 4, 0, 2] = some k ∧ 1 < k.nodes.length ∧
    (∃ res, k.intersect exBox exIsect 100 k.nodes.length exRay = .ok res ∧ res = some (1, 0)) := by
  have h : (construct exBox isort sahPick [3, 1, 4, 0, 2]).isSome = true := by decide +kernel
  obtain ⟨k, hk⟩ := Option.isSome_iff_exists.1 h
  refine ⟨k, hk, ?_, ?_⟩
  · have : ((construct exBox isort sahPick [3, 1, 4, 0, 2]).map fun k =>
        decide (1 < k.nodes.length)) = some true := by decide +kernel
    rw [hk] at this
    simpa using this
  · have : ((construct exBox isort sahPick [3, 1, 4, 0, 2]).map fun k =>
        (k.intersect exBox exIsect 100 k.nodes.length exRay).toOption) = some (some (some (1, 0))) := by
      decide +kernel
    rw [hk] at this
    simp only [Option.map_some, Option.some.injEq] at this
    cases hr : k.intersect exBox exIsect 100 k.nodes.length exRay with
    | error e => rw [hr] at this; simp [Except.toOption] at this
    | ok res =>
      rw [hr] at this
      simp only [Except.toOption, Option.some.injEq] at this
      exact ⟨res, rfl, this⟩

/-- One cube `[0,1]^3`; a ray in the plane `x = 0` of one of its faces, hitting the edge at `t = 1`. -/
def faceRay : Ray ℚ := ⟨fun i => if i = 0 then 0 else -1, fun i => if i = 0 then 0 else 1⟩

def unitBox (_ : Nat) : Box ℚ := ⟨fun _ => 0, fun _ => 1⟩

def faceIsect (_ : Nat) (b : ℚ) : Option ℚ := if 1 < b then some 1 else none

theorem faceOracle : Oracle unitBox faceRay (fun _ => some 1) faceIsect [0] where
  sound := by
    intro a _ b t h
    unfold faceIsect at h
    split at h
    · simp only [Option.some.injEq] at h
      subst h
      exact ⟨rfl, by linarith⟩
    · exact absurd h (by simp)
  complete := by
    intro a _ b t h hlt
    simp only [Option.some.injEq] at h
    subst h
    simp [faceIsect, hlt]
  pos := by
    intro a _ t h
    simp only [Option.some.injEq] at h
    subst h
    norm_num
  inbox := by
    intro a _ t h
    simp only [Option.some.injEq] at h
    subst h
    intro i
    fin_cases i <;> norm_num [unitBox, faceRay, Ray.at]

/-- **C14 is violated** by rays lying in the plane of a box face (direction component zero and
origin on the face): the entry parameter of the box test is NaN, `res1<bestdistance` is false and the
asset is skipped although the ray hits it. -/
theorem C14_violated_face_plane : ¬ C14_statement := by
  intro h
  have hc : (construct unitBox isort sahPick [0]).isSome = true := by decide +kernel
  obtain ⟨k, hk⟩ := Option.isSome_iff_exists.1 hc
  obtain ⟨res, h1, h2⟩ := h unitBox isort isort_ok [0] k hk
    (by intro a _ i; simp [unitBox]) faceRay (fun _ => some 1) faceIsect faceOracle 100
    (by intro a _ t ht; simp only [Option.some.injEq] at ht; subst ht; norm_num)
  have : ((construct unitBox isort sahPick [0]).map fun k =>
      (k.intersect unitBox faceIsect 100 k.nodes.length faceRay).toOption) = some (some none) := by
    decide +kernel
  rw [hk] at this
  simp only [Option.map_some, Option.some.injEq, h1, Except.toOption] at this
  have := h2.1 this 0 (by simp)
  simp at this

/-! ### The non-flatness precondition of C13 is needed -/

/-- A legal sort that puts right sides before left sides at equal positions. -/
def rsort : List (Cand ℚ Nat) → List (Cand ℚ Nat) :=
  List.insertionSort fun a b => a.pos < b.pos ∨ (a.pos = b.pos ∧ (a.isLeft = false ∨ b.isLeft = true))

theorem rsort_ok : SortOk rsort := by
  intro l
  have : Std.Total fun a b : Cand ℚ Nat =>
      a.pos < b.pos ∨ (a.pos = b.pos ∧ (a.isLeft = false ∨ b.isLeft = true)) := by
    refine ⟨fun a b => ?_⟩
    rcases lt_trichotomy a.pos b.pos with h | h | h
    · exact Or.inl (Or.inl h)
    · cases ha : a.isLeft <;> cases hb : b.isLeft <;> simp [h]
    · exact Or.inr (Or.inl h)
  have : IsTrans (Cand ℚ Nat) fun a b =>
      a.pos < b.pos ∨ (a.pos = b.pos ∧ (a.isLeft = false ∨ b.isLeft = true)) := by
    refine ⟨fun a b c h1 h2 => ?_⟩
    rcases h1 with h1 | ⟨h1, h1'⟩ <;> rcases h2 with h2 | ⟨h2, h2'⟩
    · exact Or.inl (lt_trans h1 h2)
    · exact Or.inl (by rw [← h2]; exact h1)
    · exact Or.inl (by rw [h1]; exact h2)
    · refine Or.inr ⟨h1.trans h2, ?_⟩
      rcases h1' with h | h
      · exact Or.inl h
      · rcases h2' with h' | h'
        · rw [h] at h'; exact absurd h' (by simp)
        · exact Or.inr h'
  refine ⟨List.perm_insertionSort _ l, (List.pairwise_insertionSort _ l).imp ?_⟩
  rintro a b (h | ⟨h, _⟩)
  · exact h.le
  · exact h.le

/-- Four boxes along x; number 2 is a plane (no extent along x). -/
def flatBox (n : Nat) : Box ℚ :=
  if n = 2 then ⟨fun i => if i = 0 then 4 else 0, fun i => if i = 0 then 4 else 1⟩
  else ⟨fun i => if i = 0 then 2 * n else 0, fun i => if i = 0 then 2 * n + 1 else 1⟩

/-- **C13**, why boxes must have extent: with the split heuristic of the code and a legal sort, a flat
asset is dropped by the build and appears in no leaf at all. -/
theorem C13_flat_asset_lost : SortOk rsort ∧
    ∃ k, construct flatBox rsort sahPick [0, 1, 2, 3] = some k ∧ 2 ∉ k.assets.list := by
  refine ⟨rsort_ok, ?_⟩
  have h : ((construct flatBox rsort sahPick [0, 1, 2, 3]).map fun k => k.assets.list) =
      some [0, 1, 3] := by decide +kernel
  obtain ⟨k, hk, hl⟩ := Option.map_eq_some_iff.1 h
  exact ⟨k, hk, by rw [hl]; simp⟩

/-! ### C17 -/

/-- Full statement of C17: add `l₁`, build, add `l₂`, build again; the tree found at the root of the
node array lists every asset of `l₁ ++ l₂` for the points of its box. -/
def C17_statement : Prop :=
  ∀ (box : Nat → Box ℚ) (l₁ l₂ : List Nat) (k k₁ k₂ : Kd ℚ Nat),
    (∀ a ∈ l₁ ++ l₂, ∀ i, (box a).lo i < (box a).hi i) →
    construct box isort sahPick l₁ = some k → k.addAll l₂ = some k₁ →
    k₁.buildTree box isort sahPick = some k₂ →
    ∃ t, Repr k₂.nodes k₂.assets.list 0 t ∧
      ∀ a ∈ l₁ ++ l₂, ∀ p, Mem (box a) p → Reaches t p a

/-- **C17 is violated**: `nodes_index` is not reset, so the second tree is stored after the first and
traversal still starts at the first one.  Here asset 1 is never listed. -/
theorem C17_violated : ¬ C17_statement := by
  intro h
  have h0 : ((construct exBox isort sahPick [0]).bind fun k => (k.addAll [1]).bind fun k₁ =>
      k₁.buildTree exBox isort sahPick).isSome = true := by decide +kernel
  obtain ⟨k₂, hk₂⟩ := Option.isSome_iff_exists.1 h0
  have hk₂' := hk₂
  obtain ⟨k, hk, hk₂⟩ := Option.bind_eq_some_iff.1 hk₂
  obtain ⟨k₁, hk₁, hk₂⟩ := Option.bind_eq_some_iff.1 hk₂
  obtain ⟨t, ht, hall⟩ := h exBox [0] [1] k k₁ k₂
    (by intro a _ i; simp only [exBox]; linarith) hk hk₁ hk₂
  have hn : (((construct exBox isort sahPick [0]).bind fun k => (k.addAll [1]).bind fun k₁ =>
      k₁.buildTree exBox isort sahPick).map fun k : Kd ℚ Nat =>
      (match (k.nodes : List (Node ℚ))[0]? with
        | some (Node.leaf off num) => decide (off = 0 ∧ num = 1)
        | _ => false) && decide (k.assets.list = [0, 1])) = some true := by decide +kernel
  rw [hk₂'] at hn
  simp only [Option.map_some, Option.some.injEq, Bool.and_eq_true, decide_eq_true_eq] at hn
  obtain ⟨hn, ha⟩ := hn
  rw [ha] at ht
  have hr := hall 1 (by simp) (fun _ => 3) (by intro i; simp only [exBox]; norm_num)
  cases t with
  | leaf l =>
    obtain ⟨off, e1, e2, e3⟩ := ht
    rw [e1] at hn
    simp only [decide_eq_true_eq] at hn
    obtain ⟨rfl, hl⟩ := hn
    rw [hl] at e3
    rw [← e3] at hr
    simp [Reaches] at hr
  | node ax x l r =>
    obtain ⟨o, e1, _⟩ := ht
    rw [e1] at hn
    simp at hn

/-- **C17**, proved part: the first build on a fresh tree (which is all the renderer does) puts a tree
at the root of the node array that lists every asset added.  Missing: a second build. -/
theorem C17_first_build_partial (box : A → Box K) (sort : List (Cand K A) → List (Cand K A))
    (hs : SortOk sort)
    (pick : List A → Box K → (Fin 3 → List (Cand K A)) → Option (Fin 3 × Nat)) (l : List A)
    (hl : l ≠ []) (k : Kd K A) (hk : construct box sort pick l = some k)
    (hflat : ∀ a ∈ l, ∀ i, (box a).lo i < (box a).hi i) :
    ∃ t, Repr k.nodes k.assets.list 0 t ∧ (∀ a ∈ l, ∀ p, Mem (box a) p → Reaches t p a) ∧
      (∀ a ∈ t.assets, a ∈ l) := by
  rcases construct_shape hk with ⟨rfl, hsc⟩ | ⟨a0, l', hl, scene, hscene, e1, e2, e3⟩
  · exact absurd rfl hl
  · refine ⟨build box sort pick 15 l scene, ?_, ?_, ?_⟩
    · have := C13_flatten_repr (build box sort pick 15 l scene) [] [] [] []
      simpa [e2, e3] using this
    · exact fun a ha p hp => C13_every_asset_reachable box sort hs pick 15 l scene hflat a ha p hp
    · exact fun a ha => C13_no_foreign_asset box sort hs pick _ _ _ a ha

end Spectre.KdTree
