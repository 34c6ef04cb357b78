import Verif.Model.Memory
import Mathlib.Data.List.Nodup
import Mathlib.Data.List.Perm.Basic
import Mathlib.Tactic.Common

/-
Properties of the memory of meshes (C139) and of the ownership of shapes, arrays and assets (C140).
-/

namespace Spectre.Memory

/-! ## C139: the triangles of a mesh -/

variable {T : Type}

/-- The mesh holds the given triangles, in order, and has room for at least one. -/
def Holds (max : Nat) (m : Tris T) (ts : List T) : Prop :=
  m.count = ts.length ∧ m.tris.take m.count = ts.map some ∧ m.count ≤ m.tris.length ∧ 0 < m.tris.length ∧
    m.tris.length ≤ max

theorem newSize_gt (max alloc : Nat) (h0 : 0 < alloc) (h : alloc < max) :
    alloc < newSize max alloc ∧ newSize max alloc ≤ max ∧ newSize max alloc ≤ 2 * alloc := by
  unfold newSize
  split <;> simp_all [Nat.shiftLeft_eq] <;> omega

theorem take_set_succ {A : Type} (l : List A) (c : Nat) (x : A) (h : c < l.length) :
    (l.set c x).take (c + 1) = l.take c ++ [x] := by
  induction l generalizing c with
  | nil => simp at h
  | cons a l ih =>
    cases c with
    | zero => simp
    | succ c => simpa using ih c (by simpa using h)

theorem take_resized (m : Tris T) (size : Nat) (h : m.count ≤ m.tris.length) (hs : m.count ≤ size) :
    (resized m size).take m.count = m.tris.take m.count := by
  have : (m.tris.take m.count).length = m.count := by simp [h]
  unfold resized
  rw [List.take_take, Nat.min_eq_left hs, List.take_left' this]

theorem add_holds {max : Nat} {m : Tris T} {ts : List T} (h : Holds max m ts) (t : T) :
    (ts.length = max → add max m t = .refused) ∧
    (ts.length ≠ max → ∃ m', add max m t = .stored m' ∧ Holds max m' (ts ++ [t]) ∧
      (m'.tris.length = m.tris.length ∨ m.count = m.tris.length ∧ m'.tris.length ≤ 2 * m.tris.length)) := by
  obtain ⟨hc, ht, hl, h0, hm⟩ := h
  refine ⟨fun e => by simp [add, hc, e], fun e => ?_⟩
  have hlen : m.count < max := by omega
  unfold add
  rw [if_neg (by omega)]
  by_cases hg : m.count = m.tris.length
  · have hn := newSize_gt max m.tris.length h0 (by omega)
    have htr := take_resized m (newSize max m.tris.length) hl (by omega)
    have hrl : (resized m (newSize max m.tris.length)).length = newSize max m.tris.length := by
      simp [resized]; omega
    simp only [if_pos hg]
    rw [if_pos (by omega)]
    refine ⟨_, rfl, ⟨by simp [hc], ?_, ?_, ?_, ?_⟩, Or.inr ⟨hg, ?_⟩⟩
    · rw [take_set_succ _ _ _ (by omega), htr, ht]; simp
    all_goals simp only [List.length_set]; omega
  · simp only [if_neg hg]
    rw [if_pos (by omega)]
    refine ⟨_, rfl, ⟨by simp [hc], ?_, by simp; omega, by simpa using h0, by simpa using hm⟩, Or.inl (by simp)⟩
    rw [take_set_succ _ _ _ (by omega), ht]; simp

theorem addAll_holds {max : Nat} (ts : List T) {m : Tris T} {us : List T} (h : Holds max m us) :
    ∃ m', addAll max ts m = some m' ∧ Holds max m' ((us ++ ts).take max) ∧
      (m'.tris.length ≤ m.tris.length ∨ m'.tris.length ≤ 2 * m'.count) := by
  induction ts generalizing m us with
  | nil =>
    refine ⟨m, rfl, ?_, Or.inl (Nat.le_refl _)⟩
    have : us.length ≤ max := by have := h.1; have := h.2.2.1; have := h.2.2.2.2; omega
    simpa [List.take_of_length_le this] using h
  | cons t ts ih =>
    have hle : us.length ≤ max := by have := h.1; have := h.2.2.1; have := h.2.2.2.2; omega
    by_cases e : us.length = max
    · obtain ⟨m', h1, h2, h3⟩ := ih h
      refine ⟨m', by simp [addAll, (add_holds h t).1 e, h1], ?_, h3⟩
      have : (us ++ t :: ts).take max = (us ++ ts).take max := by
        rw [List.take_append_of_le_length (by omega), List.take_append_of_le_length (by omega)]
      rw [this]; exact h2
    · obtain ⟨m1, h1, h2, h3⟩ := (add_holds h t).2 e
      obtain ⟨m', h4, h5, h6⟩ := ih h2
      refine ⟨m', by simp [addAll, h1, h4], by simpa using h5, ?_⟩
      have hc1 := h2.1
      have hc' := h5.1
      have hmono : m1.count ≤ m'.count := by
        rw [hc1, hc', List.length_take]; simp at *; omega
      have hcm := h.1
      simp at hc1
      rcases h3 with h3 | ⟨h3, h3'⟩ <;> rcases h6 with h6 | h6
      · left; omega
      · right; exact h6
      · right; omega
      · right; exact h6

/-- **C139.** A mesh made for at least one triangle holds every triangle added, in order, up to the limit; nothing is
written outside of the array; and the array has at most twice the room needed (or the room asked for). -/
theorem C139_stored_partial (max size : Nat) (h0 : 0 < size) (hs : size ≤ max) (ts : List T) :
    ∃ m, addAll max ts (Tris.new T size) = some m ∧ m.count = min max ts.length ∧
      m.tris.take m.count = (ts.take max).map some ∧ m.count ≤ m.tris.length ∧ m.tris.length ≤ max ∧
      m.tris.length ≤ Nat.max size (2 * m.count) := by
  have h : Holds max (Tris.new T size) ([] : List T) := by
    refine ⟨rfl, rfl, ?_, ?_, ?_⟩ <;> simp [Tris.new] <;> omega
  obtain ⟨m, h1, h2, h3⟩ := addAll_holds ts h
  obtain ⟨ha, hb, hc, hd, he⟩ := h2
  refine ⟨m, h1, by simpa using ha, by simpa using hb, hc, he, ?_⟩
  rcases h3 with h3 | h3
  · exact Nat.le_trans (by simpa [Tris.new] using h3) (Nat.le_max_left _ _)
  · exact Nat.le_trans h3 (Nat.le_max_right _ _)

/-- **C139.** After `finalize` the array has exactly the triangles, all of them given. -/
theorem C139_finalized_partial (max size : Nat) (h0 : 0 < size) (hs : size ≤ max) (ts : List T) :
    ∃ m, addAll max ts (Tris.new T size) = some m ∧ (shrink m).tris = (ts.take max).map some := by
  obtain ⟨m, h1, h2, h3, h4, -, -⟩ := C139_stored_partial max size h0 hs ts
  refine ⟨m, h1, ?_⟩
  unfold shrink
  split
  · have : (m.tris.take m.count).length = m.count := by simp [h4]
    rw [← h3]
    simp only [resized, Nat.sub_self, List.replicate_zero, List.append_nil]
    exact List.take_of_length_le (by omega)
  · rename_i h
    rw [← h3, List.take_of_length_le (by omega)]

example : addAll 65 [1, 2, 3] (Tris.new Nat 1) = some ⟨[some 1, some 2, some 3, none], 3⟩ := by rfl
example : (shrink ⟨[some 1, some 2, some 3, none], 3⟩ : Tris Nat).tris = [some 1, some 2, some 3] := by rfl
example : (addAll 3 [1, 2, 3, 4, 5] (Tris.new Nat 1)).map (·.tris) = some [some 1, some 2, some 3] := by rfl

/-- **C139, violated.** A mesh without room never gets any: its first triangle is written outside of the array. -/
theorem C139_violated (max : Nat) (hm : 0 < max) (t : T) : add max (Tris.new T 0) t = .outOfBounds := by
  simp [add, Tris.new, resized, newSize, Nat.ne_of_lt hm, hm]

/-- **C139, violated.** So is the first triangle added to a mesh that was finalised while it was empty. -/
theorem C139_violated_finalized (max size : Nat) (hm : 0 < max) (t : T) :
    add max (shrink (Tris.new T size)) t = .outOfBounds := by
  cases size with
  | zero => simp [shrink, Tris.new, add, resized, newSize, Nat.ne_of_lt hm, hm]
  | succ n => simp [shrink, Tris.new, add, resized, newSize, Nat.ne_of_lt hm, hm]

/-! ## C140: ownership -/

/-- What an event does to the set of blocks allocated; `none`: a block is freed or used that is not allocated. -/
def exec (L : Block → Bool) : List Event → Option (Block → Bool)
  | [] => some L
  | .alloc b :: es => if L b then none else exec (fun c => if c = b then true else L c) es
  | .free b :: es => if L b then exec (fun c => if c = b then false else L c) es else none
  | .use b :: es => if L b then exec L es else none

theorem exec_append (L : Block → Bool) (xs ys : List Event) :
    exec L (xs ++ ys) = (exec L xs).bind fun L' => exec L' ys := by
  induction xs generalizing L with
  | nil => rfl
  | cons e es ih =>
    cases e <;> simp only [List.cons_append, exec] <;> split <;> simp_all

theorem exec_frees (bs : List Block) (L : Block → Bool) (hn : bs.Nodup) (hl : ∀ b ∈ bs, L b = true) :
    exec L (bs.map .free) = some fun c => L c && !decide (c ∈ bs) := by
  induction bs generalizing L with
  | nil => simp [exec]
  | cons b bs ih =>
    have hn' := List.nodup_cons.mp hn
    simp only [List.map_cons, exec, hl b (by simp), if_true]
    rw [ih _ hn'.2]
    · congr 1; funext c
      by_cases hc : c = b
      · simp [hc]
      · simp [hc]
    · intro c hc
      have : c ≠ b := fun e => hn'.1 (e ▸ hc)
      simp [this, hl c (by simp [hc])]

theorem exec_uses (bs : List Block) (L : Block → Bool) (hl : ∀ b ∈ bs, L b = true) :
    exec L (bs.map .use) = some L := by
  induction bs with
  | nil => rfl
  | cons b bs ih =>
    simp only [List.map_cons, exec, hl b (by simp), if_true]
    exact ih fun c hc => hl c (by simp [hc])

variable {Name : Type} [DecidableEq Name]

/-- The blocks allocated by the parsing of meshes. -/
def liveD (d : Driver Name) : Block → Bool
  | .sphere => true
  | .mesh k => decide (k ∈ d.shapes.map Prod.snd)
  | .materials k | .association k => decide (k ∈ d.shapes.map Prod.snd) || decide (k ∈ d.duplicates.map Prod.snd)
  | _ => false

/-- Numbers are given once. -/
structure Fresh (d : Driver Name) : Prop where
  shapes : ∀ k ∈ d.shapes.map Prod.snd, k < d.next
  dups : ∀ k ∈ d.duplicates.map Prod.snd, k < d.next
  nodup : (d.shapes.map Prod.snd).Nodup
  disjoint : ∀ k ∈ d.duplicates.map Prod.snd, k ∉ d.shapes.map Prod.snd

theorem decide_snd (l : List (Name × Nat)) (n : Name) (x k : Nat) :
    decide (k ∈ (l ++ [(n, x)]).map Prod.snd) = (decide (k ∈ l.map Prod.snd) || decide (k = x)) := by
  rw [Bool.eq_iff_iff]; simp only [decide_eq_true_eq, Bool.or_eq_true, List.map_append, List.mem_append]; simp

theorem parseObj_live (ns : List Name) (d : Driver Name) (h : Fresh d) :
    exec (liveD d) (parseObj ns d).1 = some (liveD (parseObj ns d).2) ∧ Fresh (parseObj ns d).2 := by
  induction ns generalizing d with
  | nil =>
    have h1 : d.next ∉ d.shapes.map Prod.snd := fun e => Nat.lt_irrefl _ (h.shapes _ e)
    refine ⟨?_, ⟨fun k hk => Nat.lt_succ_of_lt (h.shapes k hk), fun k hk => Nat.lt_succ_of_lt (h.dups k hk), h.nodup,
      h.disjoint⟩⟩
    have hl : liveD d (.mesh d.next) = false := by simp only [liveD]; simpa using h1
    simp only [parseObj, exec, hl, if_true, Bool.false_eq_true, if_false]
    congr 1
    funext c
    by_cases hc : c = .mesh d.next
    · subst hc; simp only [if_true]; exact hl.symm
    · simp only [if_neg hc]; rfl
  | cons n ns ih =>
    have h1 : d.next ∉ d.shapes.map Prod.snd := fun e => Nat.lt_irrefl _ (h.shapes _ e)
    have h2 : d.next ∉ d.duplicates.map Prod.snd := fun e => Nat.lt_irrefl _ (h.dups _ e)
    have hl : liveD d (.mesh d.next) = false := by simp only [liveD]; simpa using h1
    have hm : liveD d (.materials d.next) = false := by simp only [liveD]; simpa using ⟨by simpa using h1, by simpa using h2⟩
    have ha : liveD d (.association d.next) = false := by
      simp only [liveD]; simpa using ⟨by simpa using h1, by simpa using h2⟩
    by_cases hn : n ∈ d.shapes.map Prod.fst
    · have hf : Fresh { d with next := d.next + 1, duplicates := d.duplicates ++ [(n, d.next)] } := by
        refine ⟨fun k hk => Nat.lt_succ_of_lt (h.shapes k hk), ?_, h.nodup, ?_⟩
        · intro k hk
          simp only [List.map_append, List.mem_append, List.map_cons, List.map_nil, List.mem_singleton] at hk
          rcases hk with hk | rfl
          · exact Nat.lt_succ_of_lt (h.dups k hk)
          · exact Nat.lt_succ_self _
        · intro k hk
          simp only [List.map_append, List.mem_append, List.map_cons, List.map_nil, List.mem_singleton] at hk
          rcases hk with hk | rfl
          · exact h.disjoint k hk
          · exact h1
      have := ih _ hf
      refine ⟨?_, by simp only [parseObj, if_pos hn]; exact this.2⟩
      simp only [parseObj, if_pos hn]
      rw [exec_append]
      have e : exec (liveD d) ([.alloc (.mesh d.next), .use (.mesh d.next), .alloc (.materials d.next),
          .alloc (.association d.next)] ++ [.free (.mesh d.next)]) =
          some (liveD { d with next := d.next + 1, duplicates := d.duplicates ++ [(n, d.next)] }) := by
        simp only [List.cons_append, List.nil_append, exec, hl, hm, ha]
        simp
        funext c
        cases c <;> simp only [liveD, decide_snd] <;> simp
        · rename_i k; by_cases hk : k = d.next
          · rw [hk]; simp only [decide_eq_false h1]; simp
          · simp [hk]
        · rename_i k; by_cases hk : k = d.next <;> simp [hk]
        · rename_i k; by_cases hk : k = d.next <;> simp [hk]
      rw [e]
      exact this.1
    · have hf : Fresh { d with next := d.next + 1, shapes := d.shapes ++ [(n, d.next)] } := by
        refine ⟨?_, fun k hk => Nat.lt_succ_of_lt (h.dups k hk), ?_, ?_⟩
        · intro k hk
          simp only [List.map_append, List.mem_append, List.map_cons, List.map_nil, List.mem_singleton] at hk
          rcases hk with hk | rfl
          · exact Nat.lt_succ_of_lt (h.shapes k hk)
          · exact Nat.lt_succ_self _
        · simp only [List.map_append, List.map_cons, List.map_nil]
          rw [List.nodup_append]
          refine ⟨h.nodup, by simp, ?_⟩
          intro a ha b hb e
          simp at hb
          subst hb; subst e
          exact h1 ha
        · intro k hk
          simp only [List.map_append, List.mem_append, List.map_cons, List.map_nil, List.mem_singleton]
          rintro (e | rfl)
          · exact h.disjoint k hk e
          · exact h2 hk
      have := ih _ hf
      refine ⟨?_, by simp only [parseObj, if_neg hn]; exact this.2⟩
      simp only [parseObj, if_neg hn]
      rw [exec_append]
      have e : exec (liveD d) [.alloc (.mesh d.next), .use (.mesh d.next), .alloc (.materials d.next),
          .alloc (.association d.next)] =
          some (liveD { d with next := d.next + 1, shapes := d.shapes ++ [(n, d.next)] }) := by
        simp only [exec, hl, hm, ha]
        simp
        funext c
        cases c <;> simp only [liveD, decide_snd] <;> simp
        all_goals rename_i k; by_cases hk : k = d.next <;> simp [hk]
      rw [e]
      exact this.1

theorem parseObjs_live (fs : List (List Name)) (d : Driver Name) (h : Fresh d) :
    exec (liveD d) (parseObjs fs d).1 = some (liveD (parseObjs fs d).2) ∧ Fresh (parseObjs fs d).2 := by
  induction fs generalizing d with
  | nil => exact ⟨rfl, h⟩
  | cons f fs ih =>
    obtain ⟨h1, h2⟩ := parseObj_live f d h
    obtain ⟨h3, h4⟩ := ih _ h2
    refine ⟨?_, h4⟩
    simp only [parseObjs]
    rw [exec_append, h1]
    exact h3

/-- The numbers of the objects that are spheres. -/
def sphereIds : List (Object Name) → Nat → List Nat
  | [], _ => []
  | o :: os, i => (if o.name = none then [i] else []) ++ sphereIds os (i + 1)

/-- The blocks allocated while objects are built: `S` are the spheres, `A` the assets. -/
def liveB (d : Driver Name) (S A : List Nat) : Block → Bool
  | .sphereMaterials i | .sphereAssociation i => decide (i ∈ S)
  | .asset i => decide (i ∈ A)
  | b => liveD d b

/-- The assets made. -/
def Built.made (b : Built) : List Nat := b.assets.map Prod.fst ++ b.refused

/-- What holds while objects are built. -/
structure Good (d : Driver Name) (isUsed : Name → Bool) (i : Nat) (S : List Nat) (b : Built) : Prop where
  spheres : ∀ k ∈ S, k < i
  made : ∀ k ∈ b.made, k < i
  nodup : b.made.Nodup
  shape : ∀ a ∈ b.assets, a.2 = .sphere ∨ ∃ n k, (n, k) ∈ d.shapes ∧ isUsed n = true ∧ a.2 = .mesh k

theorem liveB_alloc_spheres (d : Driver Name) (S A : List Nat) (i : Nat) (hS : i ∉ S) (hA : i ∉ A) (rest : List Event) :
    exec (liveB d S A) ([.alloc (.sphereMaterials i), .alloc (.sphereAssociation i)] ++ [.alloc (.asset i), .use .sphere] ++ rest) =
      exec (liveB d (S ++ [i]) (A ++ [i])) rest := by
  have h1 : liveB d S A (.sphereMaterials i) = false := by simpa [liveB] using hS
  have h2 : liveB d S A (.sphereAssociation i) = false := by simpa [liveB] using hS
  have h3 : liveB d S A (.asset i) = false := by simpa [liveB] using hA
  have h4 : liveB d S A .sphere = true := rfl
  simp only [List.cons_append, List.nil_append, exec, h1, h2, h3, h4]
  simp
  congr 1
  funext c
  cases c <;> simp [liveB]
  all_goals rename_i k; by_cases hk : k = i <;> simp [hk]

theorem liveB_alloc_mesh (d : Driver Name) (S A : List Nat) (i k : Nat) (hA : i ∉ A) (hk : k ∈ d.shapes.map Prod.snd)
    (rest : List Event) :
    exec (liveB d S A) ([.use (.materials k), .use (.association k)] ++ [.alloc (.asset i), .use (.mesh k)] ++ rest) =
      exec (liveB d S (A ++ [i])) rest := by
  have h1 : liveB d S A (.materials k) = true := by
    show (decide (k ∈ d.shapes.map Prod.snd) || _) = true
    rw [decide_eq_true hk]; rfl
  have h2 : liveB d S A (.association k) = true := h1
  have h3 : liveB d S A (.asset i) = false := by simpa [liveB] using hA
  have h4 : liveB d S A (.mesh k) = true := decide_eq_true hk
  simp only [List.cons_append, List.nil_append, exec, h1, h2, h3, h4]
  simp
  congr 1
  funext c
  cases c <;> simp [liveB]
  all_goals rename_i k; by_cases hk : k = i <;> simp [hk]

theorem liveB_perm (d : Driver Name) (S : List Nat) {A B : List Nat} (h : ∀ k, k ∈ A ↔ k ∈ B) :
    liveB d S A = liveB d S B := by
  funext c
  cases c <;> simp [liveB, h]

theorem buildObjects_live (d : Driver Name) (isUsed : Name → Bool) (os : List (Object Name))
    (hu : ∀ o ∈ os, ∀ n, o.name = some n → n ∈ d.shapes.map Prod.fst → isUsed n = true)
    (i : Nat) (S : List Nat) (b : Built) (h : Good d isUsed i S b) :
    exec (liveB d S b.made) (buildObjects d.shapes os i b).1 =
      some (liveB d (S ++ sphereIds os i) (buildObjects d.shapes os i b).2.made) ∧
    Good d isUsed (i + os.length) (S ++ sphereIds os i) (buildObjects d.shapes os i b).2 := by
  induction os generalizing i S b with
  | nil => simpa [buildObjects, exec, sphereIds] using h
  | cons o os ih =>
    have ih' := ih (fun o' ho' => hu o' (List.mem_cons_of_mem _ ho'))
    have hS : i ∉ S := fun e => Nat.lt_irrefl _ (h.spheres i e)
    have hA : i ∉ b.made := fun e => Nat.lt_irrefl _ (h.made i e)
    have hlen : i + (o :: os).length = i + 1 + os.length := by simp; omega
    -- the state after one object with shape `s`
    have next : ∀ (s : Block) (S' : List Nat),
        (s = .sphere ∨ ∃ n k, (n, k) ∈ d.shapes ∧ isUsed n = true ∧ s = .mesh k) → (∀ k ∈ S', k < i + 1) →
        ∀ b' : Built, b' = (if o.light = false then { b with assets := b.assets ++ [(i, s)] }
          else if b.lights < 32 then { b with assets := b.assets ++ [(i, s)], lights := b.lights + 1 }
          else { b with refused := b.refused ++ [i] }) →
        (∀ k, k ∈ b'.made ↔ k ∈ b.made ++ [i]) ∧ Good d isUsed (i + 1) S' b' := by
      intro s S' hs hS' b' hb'
      have hn := h.nodup
      simp only [Built.made] at hn hA
      have hmem : ∀ k, k ∈ b'.made ↔ k ∈ b.made ++ [i] := by
        intro k
        rw [hb']
        split
        · simp only [Built.made, List.map_append, List.mem_append, List.map_cons, List.map_nil, List.mem_singleton]; tauto
        · split
          · simp only [Built.made, List.map_append, List.mem_append, List.map_cons, List.map_nil, List.mem_singleton]
            tauto
          · simp only [Built.made, List.mem_append, List.mem_singleton]; tauto
      refine ⟨hmem, hS', ?_, ?_, ?_⟩
      · intro k hk
        rw [hmem, List.mem_append, List.mem_singleton] at hk
        rcases hk with hk | rfl
        · exact Nat.lt_succ_of_lt (h.made k hk)
        · exact Nat.lt_succ_self _
      · have hp : b'.made.Perm (b.made ++ [i]) := by
          rw [hb']
          split
          · simp only [Built.made, List.map_append, List.map_cons, List.map_nil, List.append_assoc]
            exact List.Perm.append_left _ List.perm_append_comm
          · split
            · simp only [Built.made, List.map_append, List.map_cons, List.map_nil, List.append_assoc]
              exact List.Perm.append_left _ List.perm_append_comm
            · simp only [Built.made, List.append_assoc]; exact List.Perm.refl _
        rw [hp.nodup_iff, List.nodup_append]
        refine ⟨h.nodup, by simp, ?_⟩
        intro a ha c hc e
        simp at hc
        exact hA (by rw [← hc, ← e]; exact ha)
      · intro a ha
        have : a ∈ b.assets ∨ a = (i, s) := by
          rw [hb'] at ha
          split at ha
          · simpa using ha
          · split at ha
            · simpa using ha
            · exact Or.inl ha
        rcases this with ha | rfl
        · exact h.shape a ha
        · exact hs
    cases hn : o.name with
    | none =>
      have hs : shapeOf d.shapes o = some .sphere := by simp [shapeOf, hn]
      have hi : sphereIds (o :: os) i = [i] ++ sphereIds os (i + 1) := by simp [sphereIds, hn]
      simp only [buildObjects, hs]
      obtain ⟨hm, hg⟩ := next .sphere (S ++ [i]) (Or.inl rfl) (by
        intro k hk
        rcases List.mem_append.mp hk with hk | hk
        · exact Nat.lt_succ_of_lt (h.spheres k hk)
        · simp at hk; omega) _ rfl
      have := ih' (i + 1) (S ++ [i]) _ hg
      rw [liveB_perm d _ hm] at this
      rw [liveB_alloc_spheres d S b.made i hS hA, hi, hlen, ← List.append_assoc]
      exact this
    | some n =>
      have hi : sphereIds (o :: os) i = sphereIds os (i + 1) := by simp [sphereIds, hn]
      cases hf : d.shapes.find? fun p => p.1 = n with
      | none =>
        have hs : shapeOf d.shapes o = none := by simp [shapeOf, hn, hf]
        simp only [buildObjects, hs]
        have hg : Good d isUsed (i + 1) S b :=
          ⟨fun k hk => Nat.lt_succ_of_lt (h.spheres k hk), fun k hk => Nat.lt_succ_of_lt (h.made k hk), h.nodup, h.shape⟩
        rw [hi, hlen]
        exact ih' (i + 1) S b hg
      | some p =>
        have hs : shapeOf d.shapes o = some (.mesh p.2) := by simp [shapeOf, hn, hf]
        have hp := List.mem_of_find?_eq_some hf
        have hpn : p.1 = n := by simpa using List.find?_some hf
        simp only [buildObjects, hs]
        have hused : isUsed n = true := hu o (by simp) n hn (List.mem_map.mpr ⟨p, hp, hpn⟩)
        obtain ⟨hm, hg⟩ := next (.mesh p.2) S (Or.inr ⟨p.1, p.2, hp, by rw [hpn]; exact hused, rfl⟩)
          (fun k hk => Nat.lt_succ_of_lt (h.spheres k hk)) _ rfl
        have := ih' (i + 1) S _ hg
        rw [liveB_perm d _ hm] at this
        rw [liveB_alloc_mesh d S b.made i p.2 hA (List.mem_map.mpr ⟨p, hp, rfl⟩), hi, hlen]
        exact this

def cleaned (isUsed : Name → Bool) (order : List (Name × Nat)) : List Block :=
  order.flatMap fun p => (if isUsed p.1 then [] else [.mesh p.2]) ++ [.materials p.2, .association p.2]

theorem cleanUp_eq (isUsed : Name → Bool) (order : List (Name × Nat)) :
    cleanUp isUsed order = (cleaned isUsed order).map .free := by
  unfold cleanUp cleaned
  rw [List.map_flatMap]
  congr 1
  funext p
  split <;> simp

theorem mem_cleaned (isUsed : Name → Bool) (order : List (Name × Nat)) (b : Block) :
    b ∈ cleaned isUsed order ↔ ∃ p ∈ order, (isUsed p.1 = false ∧ b = .mesh p.2) ∨ b = .materials p.2 ∨
      b = .association p.2 := by
  unfold cleaned
  rw [List.mem_flatMap]
  constructor
  · rintro ⟨p, hp, hb⟩
    refine ⟨p, hp, ?_⟩
    split at hb <;> simp_all
  · rintro ⟨p, hp, hb⟩
    refine ⟨p, hp, ?_⟩
    split <;> simp_all

theorem nodup_cleaned (isUsed : Name → Bool) (order : List (Name × Nat)) (h : (order.map Prod.snd).Nodup) :
    (cleaned isUsed order).Nodup := by
  induction order with
  | nil => simp [cleaned]
  | cons p ps ih =>
    rw [List.map_cons, List.nodup_cons] at h
    have hc : cleaned isUsed (p :: ps) =
        ((if isUsed p.1 then [] else [.mesh p.2]) ++ [.materials p.2, .association p.2]) ++ cleaned isUsed ps := rfl
    rw [hc, List.nodup_append]
    refine ⟨by split <;> simp, ih h.2, ?_⟩
    intro a ha b hb e
    subst e
    obtain ⟨q, hq, hb⟩ := (mem_cleaned isUsed ps a).mp hb
    have hne : q.2 ≠ p.2 := fun e => h.1 (List.mem_map.mpr ⟨q, hq, e⟩)
    split at ha <;> simp at ha <;> rcases hb with ⟨-, hb⟩ | hb | hb <;> subst hb <;> simp_all

theorem inherited_nodup (isUsed : Name → Bool) (order : List (Name × Nat)) (h : (order.map Prod.snd).Nodup) :
    (inherited isUsed order).Nodup := by
  unfold inherited
  rw [List.nodup_cons]
  refine ⟨by simp, ?_⟩
  have h1 : ((order.filter fun p => isUsed p.1).map Prod.snd).Nodup :=
    h.sublist (List.Sublist.map _ List.filter_sublist)
  have h2 : (order.filter fun p => isUsed p.1).map (fun p => Block.mesh p.2) =
      ((order.filter fun p => isUsed p.1).map Prod.snd).map Block.mesh := by
    rw [List.map_map]; rfl
  rw [h2]
  exact List.Nodup.map (fun a b e => by injection e) h1

/-- What is never freed: the arrays of meshes whose name was taken, the arrays made for spheres, and the lights after
the 32nd. -/
def Leaked (files : List (List Name)) (os : List (Object Name)) (b : Block) : Prop :=
  (∃ p ∈ (parseObjs files {}).2.duplicates, b = .materials p.2 ∨ b = .association p.2) ∨
  (∃ i ∈ sphereIds os 0, b = .sphereMaterials i ∨ b = .sphereAssociation i) ∨
  (∃ i ∈ (buildObjects (parseObjs files {}).2.shapes os 0 {}).2.refused, b = .asset i)

/-- **C140.** Whatever the files and the objects, and whatever the orders of the maps: no block is freed twice or used
after it was freed, and what is left allocated at the end is exactly what `Leaked` says. -/
theorem C140_ownership (files : List (List Name)) (os : List (Object Name)) (order : List (Name × Nat))
    (sorder : List Block) (aorder : List (Nat × Block))
    (ho : order.Perm (parseObjs files {}).2.shapes)
    (hs : sorder.Perm (inherited (used (parseObjs files {}).2.shapes os) order))
    (ha : aorder.Perm (buildObjects (parseObjs files {}).2.shapes os 0 {}).2.assets) :
    ∃ L, exec (fun _ => false) (program files os order sorder aorder) = some L ∧
      ∀ b, L b = true ↔ Leaked files os b := by
  set d := (parseObjs files {}).2 with hd
  set u := used d.shapes os with hu
  set B := (buildObjects d.shapes os 0 {}).2 with hB
  have hf0 : Fresh ({} : Driver Name) := by constructor <;> simp
  obtain ⟨p1, hf⟩ := parseObjs_live files ({} : Driver Name) hf0
  rw [← hd] at p1 hf
  have hgood : Good d u 0 [] {} := by constructor <;> simp [Built.made]
  have huse : ∀ o ∈ os, ∀ n, o.name = some n → n ∈ d.shapes.map Prod.fst → u n = true := by
    intro o ho n hn hm
    rw [hu, used, Bool.and_eq_true]
    exact ⟨decide_eq_true hm, List.any_eq_true.mpr ⟨o, ho, decide_eq_true hn⟩⟩
  obtain ⟨p2, hg⟩ := buildObjects_live d u os huse 0 [] {} hgood
  rw [← hB] at p2 hg
  simp only [List.nil_append] at p2 hg
  have hids : (order.map Prod.snd).Nodup := (ho.map Prod.snd).nodup_iff.mpr hf.nodup
  have hmemo : ∀ q, q ∈ order ↔ q ∈ d.shapes := fun q => ho.mem_iff
  have uniq : ∀ q ∈ d.shapes, ∀ q' ∈ d.shapes, q.2 = q'.2 → q = q' := fun q hq q' hq' e =>
    List.inj_on_of_nodup_map hf.nodup hq hq' e
  have start : exec (fun _ => false) [.alloc .sphere] = some (liveD ({} : Driver Name)) := by
    simp only [exec]
    simp
    funext c
    cases c <;> simp [liveD]
  have q2 : liveD d = liveB d [] ({} : Built).made := by
    funext c; cases c <;> simp [liveB, liveD, Built.made]
  -- the cleaning
  have c1 := exec_frees (cleaned u order) (liveB d (sphereIds os 0) B.made) (nodup_cleaned u order hids) (by
    intro b hb
    obtain ⟨q, hq, h⟩ := (mem_cleaned u order b).mp hb
    have hq' : q.2 ∈ d.shapes.map Prod.snd := List.mem_map.mpr ⟨q, (hmemo q).mp hq, rfl⟩
    rcases h with ⟨-, rfl⟩ | rfl | rfl
    · exact decide_eq_true hq'
    · show (decide _ || _) = true
      rw [decide_eq_true hq']; rfl
    · show (decide _ || _) = true
      rw [decide_eq_true hq']; rfl)
  -- shapes of assets are not cleaned
  have kept : ∀ n k, (n, k) ∈ d.shapes → u n = true → Block.mesh k ∉ cleaned u order := by
    intro n k hk hun hc
    obtain ⟨q, hq, h⟩ := (mem_cleaned u order _).mp hc
    rcases h with ⟨h1, h2⟩ | h | h
    · have : q = (n, k) := uniq q ((hmemo q).mp hq) _ hk (by injection h2 with e; exact e.symm)
      rw [this] at h1
      simp [hun] at h1
    · cases h
    · cases h
  have ksphere : Block.sphere ∉ cleaned u order := by
    intro hc
    obtain ⟨q, hq, h⟩ := (mem_cleaned u order _).mp hc
    rcases h with ⟨-, h⟩ | h | h <;> cases h
  have kasset : ∀ i, Block.asset i ∉ cleaned u order := by
    intro i hc
    obtain ⟨q, hq, h⟩ := (mem_cleaned u order _).mp hc
    rcases h with ⟨-, h⟩ | h | h <;> cases h
  -- rendering
  have c2 := exec_uses (B.assets.flatMap fun a => [.asset a.1, a.2])
    (fun c => liveB d (sphereIds os 0) B.made c && !decide (c ∈ cleaned u order)) (by
      intro b hb
      obtain ⟨a, haB, hb⟩ := List.mem_flatMap.mp hb
      have hin : a.1 ∈ B.made := List.mem_append.mpr (Or.inl (List.mem_map.mpr ⟨a, haB, rfl⟩))
      simp only [List.mem_cons, List.not_mem_nil, or_false] at hb
      rcases hb with rfl | rfl
      · have : liveB d (sphereIds os 0) B.made (.asset a.1) = true := decide_eq_true hin
        simp [this, kasset]
      · rcases hg.shape a haB with e | ⟨n, k, hk, hun, e⟩
        · rw [e]
          have : liveB d (sphereIds os 0) B.made .sphere = true := rfl
          simp [this, ksphere]
        · rw [e]
          have : liveB d (sphereIds os 0) B.made (.mesh k) = true :=
            decide_eq_true (List.mem_map.mpr ⟨(n, k), hk, rfl⟩)
          simp [this, kept n k hk hun])
  rw [List.map_flatMap] at c2
  -- the end
  have hsn : sorder.Nodup := hs.nodup_iff.mpr (inherited_nodup u order hids)
  have hsm : ∀ b, b ∈ sorder ↔ b = .sphere ∨ ∃ n k, (n, k) ∈ d.shapes ∧ u n = true ∧ b = .mesh k := by
    intro b
    rw [hs.mem_iff, inherited, List.mem_cons, List.mem_map]
    apply or_congr_right
    constructor
    · rintro ⟨q, hq, rfl⟩
      rw [List.mem_filter] at hq
      exact ⟨q.1, q.2, (hmemo q).mp hq.1, hq.2, rfl⟩
    · rintro ⟨n, k, hk, hun, rfl⟩
      exact ⟨(n, k), List.mem_filter.mpr ⟨(hmemo _).mpr hk, hun⟩, rfl⟩
  have c3 := exec_frees sorder (fun c => liveB d (sphereIds os 0) B.made c && !decide (c ∈ cleaned u order)) hsn (by
    intro b hb
    rcases (hsm b).mp hb with rfl | ⟨n, k, hk, hun, rfl⟩
    · have : liveB d (sphereIds os 0) B.made .sphere = true := rfl
      simp [this, ksphere]
    · have : liveB d (sphereIds os 0) B.made (.mesh k) = true := decide_eq_true (List.mem_map.mpr ⟨(n, k), hk, rfl⟩)
      simp [this, kept n k hk hun])
  have hsa : ∀ i, Block.asset i ∉ sorder := by
    intro i hi
    rcases (hsm _).mp hi with h | ⟨n, k, -, -, h⟩ <;> cases h
  have han : (aorder.map fun a => Block.asset a.1).Nodup := by
    have h1 : (aorder.map Prod.fst).Nodup := (ha.map Prod.fst).nodup_iff.mpr (List.nodup_append.mp hg.nodup).1
    have h2 : aorder.map (fun a => Block.asset a.1) = (aorder.map Prod.fst).map Block.asset := by
      rw [List.map_map]; rfl
    rw [h2]
    exact List.Nodup.map (fun a b e => by injection e) h1
  have c4 := exec_frees (aorder.map fun a => Block.asset a.1)
    (fun c => (liveB d (sphereIds os 0) B.made c && !decide (c ∈ cleaned u order)) && !decide (c ∈ sorder)) han (by
      intro b hb
      obtain ⟨a, haa, rfl⟩ := List.mem_map.mp hb
      have hin : a.1 ∈ B.made := List.mem_append.mpr (Or.inl (List.mem_map.mpr ⟨a, ha.mem_iff.mp haa, rfl⟩))
      have : liveB d (sphereIds os 0) B.made (.asset a.1) = true := decide_eq_true hin
      simp [this, kasset, hsa])
  rw [List.map_map] at c4
  refine ⟨fun c => (liveB d (sphereIds os 0) B.made c && !decide (c ∈ cleaned u order) && !decide (c ∈ sorder)) &&
      !decide (c ∈ aorder.map fun a => Block.asset a.1), ?_, fun b => ?_⟩
  · simp only [program]
    rw [exec_append, exec_append, exec_append, exec_append, exec_append, exec_append, start, Option.bind_some, p1,
      Option.bind_some, ← hd, q2, p2, Option.bind_some, cleanUp_eq, c1, Option.bind_some]
    erw [c2]
    rw [Option.bind_some, c3, Option.bind_some]
    exact c4
  · have hal : ∀ b, (∀ i, b ≠ Block.asset i) → b ∉ aorder.map fun a => Block.asset a.1 := by
      intro b hb h
      obtain ⟨a, -, rfl⟩ := List.mem_map.mp h
      exact hb _ rfl
    have arr : ∀ k, (k ∈ d.shapes.map Prod.snd ∨ k ∈ d.duplicates.map Prod.snd) ∧ ¬ (∃ q ∈ order, k = q.2) ↔
        ∃ q ∈ d.duplicates, k = q.2 := by
      intro k
      constructor
      · rintro ⟨h | h, h2⟩
        · obtain ⟨q, hq, e⟩ := List.mem_map.mp h
          exact absurd ⟨q, (hmemo q).mpr hq, e.symm⟩ h2
        · obtain ⟨q, hq, e⟩ := List.mem_map.mp h
          exact ⟨q, hq, e.symm⟩
      · rintro ⟨q, hq, rfl⟩
        have hm : q.2 ∈ d.duplicates.map Prod.snd := List.mem_map.mpr ⟨q, hq, rfl⟩
        refine ⟨Or.inr hm, ?_⟩
        rintro ⟨r, hr, e⟩
        exact hf.disjoint _ hm (List.mem_map.mpr ⟨r, (hmemo r).mp hr, e.symm⟩)
    simp only [Bool.and_eq_true, Bool.not_eq_true', decide_eq_false_iff_not, Leaked]
    rw [← hd, ← hB]
    cases b with
    | sphere =>
      constructor
      · rintro ⟨⟨-, h⟩, -⟩
        exact absurd ((hsm _).mpr (Or.inl rfl)) h
      · rintro (⟨_, _, h | h⟩ | ⟨_, _, h | h⟩ | ⟨_, _, h⟩) <;> cases h
    | mesh k =>
      constructor
      · rintro ⟨⟨⟨h1, h2⟩, h3⟩, -⟩
        exfalso
        obtain ⟨q, hq, e⟩ := List.mem_map.mp (of_decide_eq_true h1)
        cases hq1 : u q.1 with
        | true => exact h3 ((hsm _).mpr (Or.inr ⟨q.1, q.2, hq, hq1, by rw [e]⟩))
        | false => exact h2 ((mem_cleaned u order _).mpr ⟨q, (hmemo q).mpr hq, Or.inl ⟨hq1, by rw [e]⟩⟩)
      · rintro (⟨_, _, h | h⟩ | ⟨_, _, h | h⟩ | ⟨_, _, h⟩) <;> cases h
    | materials k =>
      have hl : liveB d (sphereIds os 0) B.made (.materials k) = true ↔
          k ∈ d.shapes.map Prod.snd ∨ k ∈ d.duplicates.map Prod.snd := by
        show (decide _ || decide _) = true ↔ _
        rw [Bool.or_eq_true, decide_eq_true_eq, decide_eq_true_eq]
      have hns : Block.materials k ∉ sorder := by
        intro h; rcases (hsm _).mp h with h | ⟨_, _, _, _, h⟩ <;> cases h
      have hc : Block.materials k ∈ cleaned u order ↔ ∃ q ∈ order, k = q.2 := by
        rw [mem_cleaned]; simp
      rw [hl, hc]
      constructor
      · rintro ⟨⟨h, -⟩, -⟩
        obtain ⟨q, hq, e⟩ := (arr k).mp h
        exact Or.inl ⟨q, hq, Or.inl (by rw [e])⟩
      · rintro (⟨q, hq, h | h⟩ | ⟨_, _, h | h⟩ | ⟨_, _, h⟩) <;> first | (cases h; done) | skip
        injection h with e
        exact ⟨⟨(arr k).mpr ⟨q, hq, e⟩, hns⟩, hal _ (by simp)⟩
    | association k =>
      have hl : liveB d (sphereIds os 0) B.made (.association k) = true ↔
          k ∈ d.shapes.map Prod.snd ∨ k ∈ d.duplicates.map Prod.snd := by
        show (decide _ || decide _) = true ↔ _
        rw [Bool.or_eq_true, decide_eq_true_eq, decide_eq_true_eq]
      have hns : Block.association k ∉ sorder := by
        intro h; rcases (hsm _).mp h with h | ⟨_, _, _, _, h⟩ <;> cases h
      have hc : Block.association k ∈ cleaned u order ↔ ∃ q ∈ order, k = q.2 := by
        rw [mem_cleaned]; simp
      rw [hl, hc]
      constructor
      · rintro ⟨⟨h, -⟩, -⟩
        obtain ⟨q, hq, e⟩ := (arr k).mp h
        exact Or.inl ⟨q, hq, Or.inr (by rw [e])⟩
      · rintro (⟨q, hq, h | h⟩ | ⟨_, _, h | h⟩ | ⟨_, _, h⟩) <;> first | (cases h; done) | skip
        injection h with e
        exact ⟨⟨(arr k).mpr ⟨q, hq, e⟩, hns⟩, hal _ (by simp)⟩
    | sphereMaterials i =>
      have hns : Block.sphereMaterials i ∉ sorder := by
        intro h; rcases (hsm _).mp h with h | ⟨_, _, _, _, h⟩ <;> cases h
      have hc : Block.sphereMaterials i ∉ cleaned u order := by rw [mem_cleaned]; simp
      constructor
      · rintro ⟨⟨⟨h, -⟩, -⟩, -⟩
        exact Or.inr (Or.inl ⟨i, of_decide_eq_true h, Or.inl rfl⟩)
      · rintro (⟨q, hq, h | h⟩ | ⟨j, hj, h | h⟩ | ⟨_, _, h⟩) <;> first | (cases h; done) | skip
        injection h with e
        subst e
        exact ⟨⟨⟨decide_eq_true hj, hc⟩, hns⟩, hal _ (by simp)⟩
    | sphereAssociation i =>
      have hns : Block.sphereAssociation i ∉ sorder := by
        intro h; rcases (hsm _).mp h with h | ⟨_, _, _, _, h⟩ <;> cases h
      have hc : Block.sphereAssociation i ∉ cleaned u order := by rw [mem_cleaned]; simp
      constructor
      · rintro ⟨⟨⟨h, -⟩, -⟩, -⟩
        exact Or.inr (Or.inl ⟨i, of_decide_eq_true h, Or.inr rfl⟩)
      · rintro (⟨q, hq, h | h⟩ | ⟨j, hj, h | h⟩ | ⟨_, _, h⟩) <;> first | (cases h; done) | skip
        injection h with e
        subst e
        exact ⟨⟨⟨decide_eq_true hj, hc⟩, hns⟩, hal _ (by simp)⟩
    | asset i =>
      have hai : Block.asset i ∈ aorder.map (fun a => Block.asset a.1) ↔ i ∈ B.assets.map Prod.fst := by
        rw [List.mem_map, List.mem_map]
        constructor
        · rintro ⟨a, h, e⟩
          injection e with e
          exact ⟨a, ha.mem_iff.mp h, e⟩
        · rintro ⟨a, h, e⟩
          exact ⟨a, ha.mem_iff.mpr h, by rw [e]⟩
      rw [hai]
      constructor
      · rintro ⟨⟨⟨h, -⟩, -⟩, h2⟩
        rcases List.mem_append.mp (of_decide_eq_true h : i ∈ B.made) with h | h
        · exact absurd h h2
        · exact Or.inr (Or.inr ⟨i, h, rfl⟩)
      · rintro (⟨q, hq, h | h⟩ | ⟨j, hj, h | h⟩ | ⟨j, hj, h⟩) <;> first | (cases h; done) | skip
        injection h with e
        subst e
        refine ⟨⟨⟨decide_eq_true (List.mem_append.mpr (Or.inr hj)), kasset _⟩, hsa _⟩, ?_⟩
        intro h
        exact (List.nodup_append.mp hg.nodup).2.2 _ h _ hj rfl

/-! What is leaked, in terms of the files and the objects -/

theorem parseObj_names (ns : List Name) (d : Driver Name) :
    ((parseObj ns d).2.shapes.map Prod.fst ++ (parseObj ns d).2.duplicates.map Prod.fst).Perm
      ((d.shapes.map Prod.fst ++ d.duplicates.map Prod.fst) ++ ns) ∧
    ((d.shapes.map Prod.fst).Nodup → ((parseObj ns d).2.shapes.map Prod.fst).Nodup) ∧
    ((∀ n ∈ d.duplicates.map Prod.fst, n ∈ d.shapes.map Prod.fst) →
      ∀ n ∈ (parseObj ns d).2.duplicates.map Prod.fst, n ∈ (parseObj ns d).2.shapes.map Prod.fst) := by
  induction ns generalizing d with
  | nil => simp [parseObj]
  | cons n ns ih =>
    by_cases hn : n ∈ d.shapes.map Prod.fst
    · obtain ⟨h1, h2, h3⟩ := ih { d with next := d.next + 1, duplicates := d.duplicates ++ [(n, d.next)] }
      simp only [parseObj, if_pos hn]
      refine ⟨h1.trans ?_, h2, fun h => h3 ?_⟩
      · simp
      · intro m hm
        simp only [List.map_append, List.mem_append, List.map_cons, List.map_nil, List.mem_singleton] at hm
        rcases hm with hm | rfl
        · exact h m hm
        · exact hn
    · obtain ⟨h1, h2, h3⟩ := ih { d with next := d.next + 1, shapes := d.shapes ++ [(n, d.next)] }
      simp only [parseObj, if_neg hn]
      refine ⟨h1.trans ?_, fun h => h2 ?_, fun h => h3 ?_⟩
      · simp only [List.map_append, List.map_cons, List.map_nil, List.append_assoc]
        refine List.Perm.append_left _ ?_
        exact (List.perm_middle (a := n) (l₁ := d.duplicates.map Prod.fst) (l₂ := ns)).symm
      · simp only [List.map_append, List.map_cons, List.map_nil]
        rw [List.nodup_append]
        refine ⟨h, by simp, ?_⟩
        intro a ha b hb e
        simp at hb
        exact hn (by rw [← hb, ← e]; exact ha)
      · intro m hm
        simp only [List.map_append, List.mem_append]
        exact Or.inl (h m hm)

theorem parseObjs_names (fs : List (List Name)) (d : Driver Name) :
    ((parseObjs fs d).2.shapes.map Prod.fst ++ (parseObjs fs d).2.duplicates.map Prod.fst).Perm
      ((d.shapes.map Prod.fst ++ d.duplicates.map Prod.fst) ++ fs.flatten) ∧
    ((d.shapes.map Prod.fst).Nodup → ((parseObjs fs d).2.shapes.map Prod.fst).Nodup) ∧
    ((∀ n ∈ d.duplicates.map Prod.fst, n ∈ d.shapes.map Prod.fst) →
      ∀ n ∈ (parseObjs fs d).2.duplicates.map Prod.fst, n ∈ (parseObjs fs d).2.shapes.map Prod.fst) := by
  induction fs generalizing d with
  | nil => simp [parseObjs]
  | cons f fs ih =>
    obtain ⟨a1, a2, a3⟩ := parseObj_names f d
    obtain ⟨b1, b2, b3⟩ := ih (parseObj f d).2
    simp only [parseObjs]
    refine ⟨b1.trans ?_, fun h => b2 (a2 h), fun h => b3 (a3 h)⟩
    simp only [List.flatten_cons, ← List.append_assoc]
    exact a1.append_right _

/-- **C140.** The meshes kept have all the names of the files, each once; so many meshes leave their arrays behind as
there are names given again. -/
theorem C140_duplicates (files : List (List Name)) :
    ((parseObjs files {}).2.shapes.map Prod.fst).Nodup ∧
    (∀ n, n ∈ (parseObjs files {}).2.shapes.map Prod.fst ↔ n ∈ files.flatten) ∧
    (parseObjs files {}).2.shapes.length + (parseObjs files {}).2.duplicates.length = files.flatten.length := by
  obtain ⟨h1, h2, h3⟩ := parseObjs_names files ({} : Driver Name)
  simp only [List.map_nil, List.nil_append] at h1
  refine ⟨h2 (by simp), ?_, ?_⟩
  · intro n
    rw [← h1.mem_iff, List.mem_append]
    constructor
    · exact Or.inl
    · rintro (h | h)
      · exact h
      · exact h3 (by simp) n h
  · simpa using h1.length_eq

theorem buildObjects_refused (shapes : List (Name × Nat)) (os : List (Object Name)) (i : Nat) (b : Built)
    (h : b.lights + (os.filter fun o => o.light).length ≤ 32) :
    (buildObjects shapes os i b).2.refused = b.refused := by
  induction os generalizing i b with
  | nil => rfl
  | cons o os ih =>
    simp only [buildObjects]
    cases hs : shapeOf shapes o with
    | none =>
      refine ih (i + 1) b ?_
      cases ho : o.light <;> simp [ho] at h <;> omega
    | some s =>
      simp only
      cases ho : o.light
      · simp only [if_true]
        simp [ho] at h
        exact ih (i + 1) _ h
      · simp [ho] at h
        have hl : b.lights < 32 := by omega
        simp only [hl, if_true, Bool.true_eq_false, if_false]
        exact ih (i + 1) _ (by simp only; omega)

theorem sphereIds_nil (os : List (Object Name)) (i : Nat) (h : ∀ o ∈ os, o.name ≠ none) : sphereIds os i = [] := by
  induction os generalizing i with
  | nil => rfl
  | cons o os ih =>
    simp only [sphereIds, if_neg (h o (by simp)), List.nil_append]
    exact ih (i + 1) fun o' ho' => h o' (by simp [ho'])

/-- **C140.** If no name of a mesh is given twice, no object is a sphere, and there are at most 32 lights, then everything
is freed exactly once. -/
theorem C140_nothing_left_partial (files : List (List Name)) (os : List (Object Name)) (h1 : files.flatten.Nodup)
    (h2 : ∀ o ∈ os, o.name ≠ none) (h3 : (os.filter fun o => o.light).length ≤ 32) (b : Block) : ¬ Leaked files os b := by
  have hd : (parseObjs files {}).2.duplicates = [] := by
    obtain ⟨a1, a2, a3⟩ := parseObjs_names files ({} : Driver Name)
    simp only [List.map_nil, List.nil_append] at a1
    have hn := a1.nodup_iff.mpr h1
    cases he : (parseObjs files {}).2.duplicates with
    | nil => rfl
    | cons p ps =>
      exfalso
      have hm : p.1 ∈ (parseObjs files {}).2.duplicates.map Prod.fst := by rw [he]; simp
      exact (List.nodup_append.mp hn).2.2 _ (a3 (by simp) _ hm) _ hm rfl
  unfold Leaked
  rw [hd, sphereIds_nil os 0 h2, buildObjects_refused _ os 0 {} (by simpa using h3)]
  simp

theorem mem_sphereIds (os : List (Object Name)) (i j : Nat) :
    j ∈ sphereIds os i ↔ ∃ k o, j = i + k ∧ os[k]? = some o ∧ o.name = none := by
  induction os generalizing i with
  | nil => simp [sphereIds]
  | cons o os ih =>
    simp only [sphereIds, List.mem_append, ih]
    constructor
    · rintro (h | ⟨k, o', rfl, h, h'⟩)
      · split at h
        · rename_i hn
          simp at h
          exact ⟨0, o, by omega, rfl, hn⟩
        · simp at h
      · exact ⟨k + 1, o', by omega, by simpa using h, h'⟩
    · rintro ⟨k, o', rfl, h, h'⟩
      cases k with
      | zero => left; simp at h; subst h; simp [h']
      | succ k => right; exact ⟨k, o', by omega, by simpa using h, h'⟩

/-- **C140, violated.** Every sphere of a scene leaves two arrays behind. -/
theorem C140_violated_sphere (files : List (List Name)) (os : List (Object Name)) (i : Nat) (o : Object Name)
    (h : os[i]? = some o) (hn : o.name = none) :
    Leaked files os (.sphereMaterials i) ∧ Leaked files os (.sphereAssociation i) := by
  have hm : i ∈ sphereIds os 0 := (mem_sphereIds os 0 i).mpr ⟨i, o, by omega, h, hn⟩
  exact ⟨Or.inr (Or.inl ⟨i, hm, Or.inl rfl⟩), Or.inr (Or.inl ⟨i, hm, Or.inr rfl⟩)⟩

/-- **C140, violated.** So does every mesh whose name was given before: if a name occurs twice, arrays are left behind. -/
theorem C140_violated_duplicate (files : List (List Name)) (os : List (Object Name)) (h : ¬ files.flatten.Nodup) :
    ∃ k, Leaked files os (.materials k) ∧ Leaked files os (.association k) := by
  obtain ⟨a1, a2, a3⟩ := parseObjs_names files ({} : Driver Name)
  simp only [List.map_nil, List.nil_append] at a1
  cases he : (parseObjs files {}).2.duplicates with
  | nil =>
    rw [he] at a1
    simp only [List.map_nil, List.append_nil] at a1
    exact absurd (a1.nodup_iff.mp (a2 (by simp))) h
  | cons p ps =>
    have hm : p ∈ (parseObjs files {}).2.duplicates := by rw [he]; simp
    exact ⟨p.2, Or.inl ⟨p, hm, Or.inl rfl⟩, Or.inl ⟨p, hm, Or.inr rfl⟩⟩

/-- **C140, violated.** The 33rd light is left behind. -/
theorem C140_violated_lights : Leaked ([] : List (List Nat)) (List.replicate 33 ⟨none, true⟩) (.asset 32) :=
  Or.inr (Or.inr ⟨32, by decide +kernel, rfl⟩)

/-- Two files with three meshes, one name twice; an object of each kept mesh but one, and a sphere that is a light: the
program runs to its end with blocks left behind. -/
example : ((exec (fun _ => false) (program [["a", "b"], ["a"]] [⟨some "a", false⟩, ⟨none, true⟩, ⟨some "c", false⟩]
    [("b", 1), ("a", 0)] [.mesh 0, .sphere] [(0, .mesh 0), (1, .sphere)])).map fun L =>
      [L (.mesh 0), L (.mesh 1), L (.materials 0), L (.materials 3), L (.sphereMaterials 1), L (.asset 1)]) =
    some [false, false, false, true, true, false] := by decide +kernel

/-- Freeing twice and use after free are told apart from the rest. -/
example : exec (fun _ => false) [.alloc .sphere, .free .sphere, .free .sphere] = none := by rfl
example : exec (fun _ => false) [.alloc (.mesh 0), .free (.mesh 0), .use (.mesh 0)] = none := by rfl

end Spectre.Memory
