import Verif.Props.KdTree
import Mathlib.Tactic.FieldSimp
import Mathlib.Tactic.FinCases

/-
Property C94: the plane chosen by the builder of the kd-tree is the cheapest one according to the surface
area heuristic.
-/

namespace Spectre.KdTree
open Spectre.AABB

variable {K : Type} [Field K] [LinearOrder K] [IsStrictOrderedRing K] {A : Type}

/-! ### Specification -/

/-- Expected cost of traversing a node split at `x` on an axis, with `nl` and `nr` assets in the halves: the
descent, plus the intersections weighted by the probability that a ray through the node hits each half; only
the descent is counted if a half is empty. -/
def splitCost (area : Box K) (ax : Fin 3) (x : K) (nl nr : Nat) : K :=
  if nl = 0 ∨ nr = 0 then 1
  else 1 + 50 * (surface (areaLeft area ax x) / surface area * nl + surface (areaRight area ax x) / surface area * nr)

/-- The cost of splitting at the `j`-th candidate, with the assets the builder would hand to the halves. -/
def costAt (area : Box K) (ax : Fin 3) (s : List (Cand K A)) (j : Nat) (c : Cand K A) : K :=
  splitCost area ax c.pos (lefts s j).length (rights s j).length

/-- A candidate strictly inside of the area. -/
def Inside (area : Box K) (ax : Fin 3) (c : Cand K A) : Prop := area.lo ax < c.pos ∧ c.pos < area.hi ax

/-- Points of a box. -/
def Contains (b : Box K) (p : Fin 3 → K) : Prop := ∀ i, b.lo i ≤ p i ∧ p i ≤ b.hi i

/-- **C94.** The areas of the children are the two parts of the area on either side of the plane. -/
theorem C94_halves (area : Box K) (ax : Fin 3) (x : K) (h1 : area.lo ax ≤ x) (h2 : x ≤ area.hi ax) (p : Fin 3 → K) :
    (Contains (areaLeft area ax x) p ↔ Contains area p ∧ p ax ≤ x) ∧
    (Contains (areaRight area ax x) p ↔ Contains area p ∧ x ≤ p ax) := by
  constructor <;> constructor
  · intro h
    have hx : p ax ≤ x := by simpa [areaLeft] using (h ax).2
    refine ⟨fun i => ⟨(h i).1, ?_⟩, hx⟩
    by_cases e : i = ax
    · subst e; exact hx.trans h2
    · simpa [areaLeft, e] using (h i).2
  · rintro ⟨h, hx⟩ i
    refine ⟨(h i).1, ?_⟩
    by_cases e : i = ax
    · subst e; simpa [areaLeft] using hx
    · simpa [areaLeft, e] using (h i).2
  · intro h
    have hx : x ≤ p ax := by simpa [areaRight] using (h ax).1
    refine ⟨fun i => ⟨?_, (h i).2⟩, hx⟩
    by_cases e : i = ax
    · subst e; exact h1.trans hx
    · simpa [areaRight, e] using (h i).1
  · rintro ⟨h, hx⟩ i
    refine ⟨?_, (h i).2⟩
    by_cases e : i = ax
    · subst e; simpa [areaRight] using hx
    · simpa [areaRight, e] using (h i).1

/-! ### The loop -/

theorem surface_left (area : Box K) (ax : Fin 3) (x : K) :
    surface (areaLeft area ax x) = 2 * ((area.hi (ax + 1) - area.lo (ax + 1)) * (area.hi (ax + 2) - area.lo (ax + 2)) +
      (x - area.lo ax) * ((area.hi (ax + 1) - area.lo (ax + 1)) + (area.hi (ax + 2) - area.lo (ax + 2)))) := by
  fin_cases ax <;> simp [surface, areaLeft] <;> ring

theorem surface_right (area : Box K) (ax : Fin 3) (x : K) :
    surface (areaRight area ax x) = 2 * ((area.hi (ax + 1) - area.lo (ax + 1)) * (area.hi (ax + 2) - area.lo (ax + 2)) +
      (area.hi ax - x) * ((area.hi (ax + 1) - area.lo (ax + 1)) + (area.hi (ax + 2) - area.lo (ax + 2)))) := by
  fin_cases ax <;> simp [surface, areaRight] <;> ring

theorem sahCost_eq (area : Box K) (ax : Fin 3) (x : K) (nl nr : Nat) :
    sahCost area ax x nl nr = splitCost area ax x nl nr := by
  unfold sahCost splitCost
  simp only
  split
  · simp
  · rw [surface_left, surface_right]
    ring

theorem lefts_len (s : List (Cand K A)) (i : Nat) (c : Cand K A) (h : s[i]? = some c) :
    (lefts s (i + 1)).length = (lefts s i).length + if c.isLeft then 1 else 0 := by
  have : s.take (i + 1) = s.take i ++ [c] := by
    rw [List.take_add_one, h]; rfl
  unfold lefts
  rw [this]
  simp only [List.filter_append, List.map_append, List.length_append, List.length_map]
  cases hc : c.isLeft <;> simp [hc]

/-- Right edges up to an index. -/
def passed (s : List (Cand K A)) (i : Nat) : Nat := ((s.take i).filter fun c => !c.isLeft).length

theorem passed_succ (s : List (Cand K A)) (i : Nat) (c : Cand K A) (h : s[i]? = some c) :
    passed s (i + 1) = passed s i + if c.isLeft then 0 else 1 := by
  have : s.take (i + 1) = s.take i ++ [c] := by
    rw [List.take_add_one, h]; rfl
  unfold passed
  rw [this]
  simp only [List.filter_append, List.length_append]
  cases hc : c.isLeft <;> simp [hc]

theorem passed_rights (s : List (Cand K A)) (i : Nat) :
    passed s (i + 1) + (rights s i).length = (s.filter fun c => !c.isLeft).length := by
  unfold passed rights
  rw [List.length_map, ← List.length_append, ← List.filter_append, List.take_append_drop]

/-- What the running values mean after `i` candidates. -/
structure Inv (area : Box K) (ax : Fin 3) (full : List (Cand K A)) (n i : Nat) (s : Scan K) : Prop where
  left : s.left = (lefts full i).length
  right : s.right + passed full i = n
  nothing : s.best = none → ∀ j c, j < i → full[j]? = some c → ¬ Inside area ax c
  best : ∀ b k, s.best = some (b, k) → (∃ c, full[k]? = some c ∧ Inside area ax c ∧ b = costAt area ax full k c) ∧
    ∀ j c, j < i → full[j]? = some c → Inside area ax c → b ≤ costAt area ax full j c

theorem inv_step (area : Box K) (ax : Fin 3) (full : List (Cand K A)) (n i : Nat) (s : Scan K) (c : Cand K A)
    (hn : (full.filter fun c => !c.isLeft).length = n) (h : Inv area ax full n i s) (hc : full[i]? = some c) :
    Inv area ax full n (i + 1) (scanStep area ax s i c) := by
  have pr := passed_rights full i
  have ps := passed_succ full i c hc
  have ll := lefts_len full i c hc
  obtain ⟨r, hr⟩ : ∃ r, r = if c.isLeft then s.right else s.right - 1 := ⟨_, rfl⟩
  have hR : r = (rights full i).length := by
    have := h.right
    rw [hn] at pr
    cases hb : c.isLeft <;> simp only [hb, if_true, if_false, Bool.false_eq_true] at hr ps <;> omega
  have cost : sahCost area ax c.pos s.left r = costAt area ax full i c := by
    rw [sahCost_eq, costAt, h.left, hR]
  unfold scanStep
  simp only [← hr]
  constructor
  · simp only; rw [ll, h.left]; split <;> rfl
  · simp only; rw [hR, ← hn]; omega
  · simp only
    intro hb j d hj hd
    split at hb
    · exfalso
      split at hb
      · cases hb
      · split at hb <;> cases hb
    · rename_i ni
      rcases Nat.lt_succ_iff_lt_or_eq.1 hj with lt | rfl
      · exact h.nothing hb j d lt hd
      · rw [hc] at hd; cases hd; exact ni
  · simp only
    intro b k hb
    split at hb
    · rename_i hin
      split at hb
      · rename_i hnone
        simp only [Option.some.injEq, Prod.mk.injEq] at hb
        obtain ⟨rfl, rfl⟩ := hb
        refine ⟨⟨c, hc, hin, cost⟩, ?_⟩
        intro j d hj hd hdin
        rcases Nat.lt_succ_iff_lt_or_eq.1 hj with lt | rfl
        · exact absurd hdin (h.nothing hnone j d lt hd)
        · rw [hc] at hd; cases hd; exact cost.le
      · rename_i bc bi hbest
        obtain ⟨w, mn⟩ := h.best _ _ hbest
        split at hb
        · rename_i lt'
          simp only [Option.some.injEq, Prod.mk.injEq] at hb
          obtain ⟨rfl, rfl⟩ := hb
          refine ⟨⟨c, hc, hin, cost⟩, ?_⟩
          intro j d hj hd hdin
          rcases Nat.lt_succ_iff_lt_or_eq.1 hj with lt | rfl
          · exact lt'.le.trans (mn j d lt hd hdin)
          · rw [hc] at hd; cases hd; exact cost.le
        · rename_i ge
          simp only [Option.some.injEq, Prod.mk.injEq] at hb
          obtain ⟨rfl, rfl⟩ := hb
          refine ⟨w, ?_⟩
          intro j d hj hd hdin
          rcases Nat.lt_succ_iff_lt_or_eq.1 hj with lt | rfl
          · exact mn j d lt hd hdin
          · rw [hc] at hd; cases hd; rw [← cost]; exact not_lt.1 ge
    · rename_i ni
      obtain ⟨w, mn⟩ := h.best _ _ hb
      refine ⟨w, ?_⟩
      intro j d hj hd hdin
      rcases Nat.lt_succ_iff_lt_or_eq.1 hj with lt | rfl
      · exact mn j d lt hd hdin
      · rw [hc] at hd; cases hd; exact absurd hdin ni

theorem inv_scan (area : Box K) (ax : Fin 3) (full : List (Cand K A)) (n : Nat)
    (hn : (full.filter fun c => !c.isLeft).length = n) :
    ∀ (l : List (Cand K A)) (i : Nat) (s : Scan K), full.drop i = l → i ≤ full.length → Inv area ax full n i s →
      Inv area ax full n full.length (scan area ax i s l) := by
  intro l
  induction l with
  | nil =>
    intro i s hd hi h
    have : full.length ≤ i := List.drop_eq_nil_iff.1 hd
    have : i = full.length := by omega
    subst this; exact h
  | cons c l ih =>
    intro i s hd hi h
    have hc : full[i]? = some c := by
      have : (full.drop i)[0]? = some c := by rw [hd]; rfl
      simpa using this
    have hlt : i < full.length := by
      by_contra hge
      rw [List.drop_eq_nil_of_le (by omega)] at hd; cases hd
    exact ih (i + 1) _ (by rw [← List.drop_drop, hd]; rfl) hlt (inv_step _ _ _ _ _ _ _ hn h hc)

theorem inv_start (area : Box K) (ax : Fin 3) (full : List (Cand K A)) (n : Nat) :
    Inv area ax full n 0 ⟨0, n, none⟩ where
  left := by simp [lefts]
  right := by simp [passed]
  nothing := by intro _ j c h; omega
  best := by intro b k h; cases h

theorem edges (box : A → Box K) (ax : Fin 3) (l : List A) :
    ((cands box ax l).filter fun c => !c.isLeft).length = l.length ∧
    ((cands box ax l).filter fun c => c.isLeft).length = l.length := by
  induction l with
  | nil => exact ⟨rfl, rfl⟩
  | cons a l ih =>
    obtain ⟨h1, h2⟩ := ih
    unfold cands at *
    simp only [List.flatMap_cons, List.filter_append, List.length_append, List.length_cons, h1, h2]
    constructor <;> simp <;> omega

theorem scanned (box : A → Box K) (l : List A) (area : Box K) (ax : Fin 3) (s : List (Cand K A))
    (hp : s.Perm (cands box ax l)) : Inv area ax s l.length s.length (scan area ax 0 ⟨0, l.length, none⟩ s) := by
  refine inv_scan area ax s l.length ?_ s 0 _ rfl (Nat.zero_le _) (inv_start _ _ _ _)
  rw [(hp.filter _).length_eq]; exact (edges box ax l).1

theorem search_some (l : List A) (area : Box K) (s : Fin 3 → List (Cand K A)) :
    ∀ n a ax c i, searchAxes l area s n a = some (ax, c, i) →
      (scan area ax 0 ⟨0, l.length, none⟩ (s ax)).best = some (c, i) := by
  intro n
  induction n with
  | zero => intro a ax c i h; cases h
  | succ n ih =>
    intro a ax c i h
    rw [searchAxes] at h
    split at h
    · rename_i hb
      simp only [Option.some.injEq, Prod.mk.injEq] at h
      obtain ⟨rfl, rfl, rfl⟩ := h
      exact hb
    · exact ih _ _ _ _ h

/-- **C94.** The chosen candidate is inside of the area, and no other candidate of the same axis has a smaller
expected cost, counted with the assets and boxes the halves really receive.  (Candidates: the edges of the
boxes in any order; missing for the full claim: the other two axes.) -/
theorem C94_cheapest_partial (box : A → Box K) (l : List A) (area : Box K) (s : Fin 3 → List (Cand K A))
    (hp : ∀ ax, (s ax).Perm (cands box ax l)) (ax : Fin 3) (i : Nat) (h : sahPick l area s = some (ax, i)) :
    ∃ c, (s ax)[i]? = some c ∧ Inside area ax c ∧
      ∀ j d, (s ax)[j]? = some d → Inside area ax d → costAt area ax (s ax) i c ≤ costAt area ax (s ax) j d := by
  unfold sahPick at h
  split at h
  · cases h
  rename_i ax' c' i' hs
  split at h
  · cases h
  simp only [Option.some.injEq, Prod.mk.injEq] at h
  obtain ⟨rfl, rfl⟩ := h
  have inv := scanned box l area ax' (s ax') (hp ax')
  obtain ⟨⟨c, h1, h2, rfl⟩, h3⟩ := inv.best _ _ (search_some l area s _ _ _ _ _ hs)
  refine ⟨c, h1, h2, fun j d hd hin => h3 j d ?_ hd hin⟩
  exact (List.getElem?_eq_some_iff.1 hd).1

/-- A box with an interior. -/
def Solid (b : Box K) : Prop := ∀ i, b.lo i < b.hi i

theorem surface_pos (b : Box K) (h : Solid b) : 0 < surface b := by
  have h0 := sub_pos.2 (h 0)
  have h1 := sub_pos.2 (h 1)
  have h2 := sub_pos.2 (h 2)
  unfold surface
  simp only
  positivity

theorem half_le (area : Box K) (hS : Solid area) (ax : Fin 3) (x : K) (h1 : area.lo ax < x) (h2 : x < area.hi ax) :
    (0 ≤ surface (areaLeft area ax x) ∧ surface (areaLeft area ax x) ≤ surface area) ∧
    (0 ≤ surface (areaRight area ax x) ∧ surface (areaRight area ax x) ≤ surface area) := by
  have e : surface area = surface (areaLeft area ax (area.hi ax)) := by
    congr 1
    unfold areaLeft
    obtain ⟨lo, hi⟩ := area
    simp only [Box.mk.injEq, true_and]
    funext i; split
    · rename_i hh; rw [hh]
    · rfl
  rw [e]
  simp only [surface_left, surface_right]
  have a := sub_pos.2 (hS (ax + 1))
  have b := sub_pos.2 (hS (ax + 2))
  generalize area.hi (ax + 1) - area.lo (ax + 1) = p at *
  generalize area.hi (ax + 2) - area.lo (ax + 2) = q at *
  have k1 : 0 < x - area.lo ax := sub_pos.2 h1
  have k2 : 0 < area.hi ax - x := sub_pos.2 h2
  have k3 : area.hi ax - area.lo ax = (x - area.lo ax) + (area.hi ax - x) := by ring
  rw [k3]
  have pq : 0 < p * q := mul_pos a b
  have m1 : 0 < (x - area.lo ax) * (p + q) := mul_pos k1 (by linarith)
  have m2 : 0 < (area.hi ax - x) * (p + q) := mul_pos k2 (by linarith)
  refine ⟨⟨by linarith, ?_⟩, by linarith, ?_⟩ <;> rw [add_mul] <;> linarith

/-- **C94** is violated: the test that is meant to refuse splits which do not pay ("best cost sucks") never
refuses one.  In a solid area, whatever the assets are, a leaf is made only if no axis has a candidate strictly
inside. -/
theorem C94_violated_never_refused (box : A → Box K) (l : List A) (hl : l ≠ []) (area : Box K) (hS : Solid area)
    (s : Fin 3 → List (Cand K A)) (hp : ∀ ax, (s ax).Perm (cands box ax l)) (h : sahPick l area s = none) :
    ∀ ax, ∀ c ∈ s ax, ¬ Inside area ax c := by
  unfold sahPick at h
  split at h
  · rename_i hs
    have all : ∀ ax, (scan area ax 0 ⟨0, l.length, none⟩ (s ax)).best = none := by
      intro ax
      generalize longestAxis area = a at hs
      simp only [searchAxes] at hs
      split at hs
      · cases hs
      rename_i h0
      split at hs
      · cases hs
      rename_i h1
      split at hs
      · cases hs
      rename_i h2
      fin_cases a <;> fin_cases ax <;> assumption
    intro ax c hc
    obtain ⟨j, hj⟩ := List.getElem?_of_mem hc
    exact (scanned box l area ax (s ax) (hp ax)).nothing (all ax) j c (List.getElem?_eq_some_iff.1 hj).1 hj
  · rename_i ax cost i hs
    exfalso
    split at h
    swap
    · cases h
    rename_i hc
    obtain ⟨⟨c, h1, h2, rfl⟩, _⟩ := (scanned box l area ax (s ax) (hp ax)).best _ _ (search_some l area s _ _ _ _ _ hs)
    have len : (1 : K) ≤ (l.length : K) := by
      have : 1 ≤ l.length := List.length_pos_iff.2 hl
      exact_mod_cast this
    have hL : ((lefts (s ax) i).length : K) ≤ (l.length : K) := by
      have : (lefts (s ax) i).length ≤ l.length := by
        unfold lefts
        rw [List.length_map, ← (edges box ax l).2, ← ((hp ax).filter _).length_eq]
        exact ((List.take_sublist _ _).filter _).length_le
      exact_mod_cast this
    have hR : ((rights (s ax) i).length : K) ≤ (l.length : K) := by
      have : (rights (s ax) i).length ≤ l.length := by
        unfold rights
        rw [List.length_map, ← (edges box ax l).1, ← ((hp ax).filter _).length_eq]
        exact ((List.drop_sublist _ _).filter _).length_le
      exact_mod_cast this
    have sp := surface_pos area hS
    obtain ⟨⟨a0, a1⟩, b0, b1⟩ := half_le area hS ax c.pos h2.1 h2.2
    have q1 : surface (areaLeft area ax c.pos) / surface area ≤ 1 := (div_le_one sp).2 a1
    have q2 : surface (areaRight area ax c.pos) / surface area ≤ 1 := (div_le_one sp).2 b1
    have n1 : (0 : K) ≤ ((lefts (s ax) i).length : K) := Nat.cast_nonneg _
    have n2 : (0 : K) ≤ ((rights (s ax) i).length : K) := Nat.cast_nonneg _
    have lt := hc.1
    unfold costAt splitCost at lt
    split at lt
    · linarith
    · have u1 := mul_le_mul_of_nonneg_right q1 n1
      have u2 := mul_le_mul_of_nonneg_right q2 n2
      linarith

/-! ### Witnesses -/

/-- Four boxes which overlap along x, and are far apart along y. -/
def four (a : Fin 4) : Box ℚ :=
  if a.val < 2 then ⟨![0, 0, 0], ![6, 1, 9]⟩ else ⟨![4, 8, 0], ![10, 9, 9]⟩

def fourArea : Box ℚ := ⟨![0, 0, 0], ![10, 9, 9]⟩

instance : DecidableEq (Cand ℚ (Fin 4)) := fun a b =>
  decidable_of_iff (a.pos = b.pos ∧ a.isLeft = b.isLeft ∧ a.who = b.who)
    (by cases a; cases b; simp)

/-- Their edges, sorted. -/
def fourEdges (ax : Fin 3) : List (Cand ℚ (Fin 4)) :=
  match ax with
  | 0 => [⟨0, true, 0⟩, ⟨0, true, 1⟩, ⟨4, true, 2⟩, ⟨4, true, 3⟩, ⟨6, false, 0⟩, ⟨6, false, 1⟩, ⟨10, false, 2⟩, ⟨10, false, 3⟩]
  | 1 => [⟨0, true, 0⟩, ⟨0, true, 1⟩, ⟨1, false, 0⟩, ⟨1, false, 1⟩, ⟨8, true, 2⟩, ⟨8, true, 3⟩, ⟨9, false, 2⟩, ⟨9, false, 3⟩]
  | 2 => [⟨0, true, 0⟩, ⟨0, true, 1⟩, ⟨0, true, 2⟩, ⟨0, true, 3⟩, ⟨9, false, 0⟩, ⟨9, false, 1⟩, ⟨9, false, 2⟩, ⟨9, false, 3⟩]

theorem fourEdges_sorted (ax : Fin 3) : (fourEdges ax).Perm (cands four ax [0, 1, 2, 3]) ∧
    (fourEdges ax).Pairwise fun a b => a.pos ≤ b.pos := by
  revert ax; decide +kernel

instance (area : Box ℚ) (ax : Fin 3) (c : Cand ℚ (Fin 4)) : Decidable (Inside area ax c) := by
  unfold Inside; infer_instance

/-- **C94** is violated: the search stops at the first axis that has any candidate ("repeat for every axis" says
the code).  Here it splits along x, at one and a half times the cost of the split along y. -/
theorem C94_violated_axis : ∃ i c, sahPick [0, 1, 2, 3] fourArea fourEdges = some (0, i) ∧ (fourEdges 0)[i]? = some c ∧
    ∃ j d, (fourEdges 1)[j]? = some d ∧ Inside fourArea 1 d ∧
      3 / 2 * costAt fourArea 1 (fourEdges 1) j d < costAt fourArea 0 (fourEdges 0) i c := by
  refine ⟨2, ⟨4, true, 2⟩, by decide +kernel, rfl, 3, ⟨1, false, 1⟩, rfl, by decide +kernel, by decide +kernel⟩

-- The hypotheses of `C94_cheapest_partial` hold for the four boxes.
example : ∃ c, (fourEdges 0)[2]? = some c ∧ Inside fourArea 0 c ∧ ∀ j d, (fourEdges 0)[j]? = some d →
    Inside fourArea 0 d → costAt fourArea 0 (fourEdges 0) 2 c ≤ costAt fourArea 0 (fourEdges 0) j d :=
  C94_cheapest_partial four _ _ _ (fun ax => (fourEdges_sorted ax).1) 0 2 (by decide +kernel)

example : Solid fourArea := by intro i; fin_cases i <;> simp [fourArea]

end Spectre.KdTree
