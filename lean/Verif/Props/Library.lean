import Verif.Model.Library
import Mathlib.Data.List.Perm.Subperm
import Mathlib.Data.List.Nodup
import Mathlib.Data.List.Induction

/-
C53, C54, C55: libraries and scene.
-/

namespace Spectre.Lib

/-! ### Maps -/

theorem find_insert (m : Map) (n k : String) (p : Nat) :
    (m.insert n p).find k = if k = n then some ((m.find n).getD p) else m.find k := by
  unfold Map.insert
  cases h : m.find n with
  | none =>
    simp only [Map.find, Option.getD_none]
    by_cases e : k = n
    · rw [if_pos e.symm, if_pos e]
    · rw [if_neg (fun h => e h.symm), if_neg e]
  | some q =>
    simp only [Option.getD_some]
    split
    · rename_i e; rw [e, h]
    · rfl

/-- Keys are distinct. -/
def Map.WF (m : Map) : Prop := (m.map Prod.fst).Nodup

theorem find_none {m : Map} {n : String} : m.find n = none ↔ n ∉ m.map Prod.fst := by
  induction m with
  | nil => simp [Map.find]
  | cons a m ih =>
    obtain ⟨k, p⟩ := a
    rw [Map.find]
    by_cases e : k = n
    · rw [if_pos e]; simp [e]
    · rw [if_neg e, ih, List.map_cons, List.mem_cons, not_or]
      exact ⟨fun h => ⟨fun h' => e h'.symm, h⟩, fun h => h.2⟩

theorem WF.insert {m : Map} (h : m.WF) (n : String) (p : Nat) : (m.insert n p).WF := by
  unfold Map.insert
  cases hf : m.find n with
  | none => exact List.nodup_cons.2 ⟨find_none.1 hf, h⟩
  | some q => exact h

theorem erase_keys (m : Map) (n : String) : (m.erase n).Sublist m := by
  induction m with
  | nil => exact List.Sublist.refl _
  | cons a m ih =>
    obtain ⟨k, p⟩ := a
    rw [Map.erase]
    split
    · exact List.sublist_cons_self _ _
    · exact ih.cons_cons _

theorem WF.erase {m : Map} (h : m.WF) (n : String) : (m.erase n).WF :=
  List.Nodup.sublist ((erase_keys m n).map _) h

theorem find_erase {m : Map} (h : m.WF) (n k : String) : (m.erase n).find k = if k = n then none else m.find k := by
  induction m with
  | nil => simp [Map.find, Map.erase]
  | cons a m ih =>
    obtain ⟨x, p⟩ := a
    obtain ⟨h1, h2⟩ := List.nodup_cons.1 h
    rw [Map.erase]
    by_cases e : x = n
    · rw [if_pos e, Map.find]
      by_cases e2 : k = n
      · rw [if_pos e2, e2, ← e]; exact find_none.2 h1
      · rw [if_neg e2, if_neg (by rw [e]; exact fun h => e2 h.symm)]
    · rw [if_neg e, Map.find, Map.find, ih h2]
      by_cases e2 : x = k
      · rw [if_pos e2, if_pos e2, if_neg (by rw [← e2]; exact e)]
      · rw [if_neg e2, if_neg e2]

theorem erase_perm {m : Map} {n : String} {p : Nat} (h : m.find n = some p) :
    (p :: (m.erase n).ptrs).Perm m.ptrs := by
  induction m with
  | nil => simp [Map.find] at h
  | cons a m ih =>
    obtain ⟨x, q⟩ := a
    rw [Map.find] at h
    rw [Map.erase]
    split at h
    · rename_i e
      injection h with h
      rw [if_pos e, h]
      exact List.Perm.refl _
    · rename_i e
      rw [if_neg e]
      exact (List.Perm.swap _ _ _).trans ((ih h).cons _)

theorem find_mem {m : Map} {n : String} {p : Nat} (h : m.find n = some p) : p ∈ m.ptrs :=
  (erase_perm h).mem_iff.1 List.mem_cons_self

/-! ### C53 -/

/-- A call that removes what is stored under `n`. -/
def resets (n : String) : MOp → Prop
  | .add _ _ => False
  | .erase m => m = n
  | .clear => True

/-- A call that adds under `n`. -/
def adds (n : String) : MOp → Prop
  | .add m _ => m = n
  | _ => False

/-- Nothing was added under `n` since the last call that removes it. -/
def Unbound (ops : List MOp) (n : String) : Prop :=
  ∃ before after, ops = before ++ after ∧ (before = [] ∨ ∃ o, resets n o ∧ before.getLast? = some o) ∧ ∀ o ∈ after, ¬ adds n o

/-- `p` is the first object added under `n` since the last call that removes it. -/
def FirstAdded (ops : List MOp) (n : String) (p : Nat) : Prop :=
  ∃ before after, ops = before ++ MOp.add n p :: after ∧ Unbound before n ∧ ∀ o ∈ after, ¬ resets n o

/-- The library is in order. -/
structure MInv (d : Nat) (s : Mtl) : Prop where
  dflt : s.dflt = d
  found : s.lib.find "Default" = some d
  wf : s.lib.WF

theorem mstep {d : Nat} {s : Mtl} (h : MInv d s) (o : MOp) : ∃ s', s.step o = some s' ∧ MInv d s' ∧
    ∀ n, n ≠ "Default" → s'.get n =
      match o with
      | .add m p => if n = m then some ((s.get n).getD p) else s.get n
      | .erase m => if n = m then none else s.get n
      | .clear => none := by
  obtain ⟨h1, h2, h3⟩ := h
  unfold Mtl.get
  cases o with
  | add m p =>
    refine ⟨_, rfl, ⟨h1, ?_, WF.insert h3 m p⟩, ?_⟩
    · simp only
      rw [find_insert]
      split
      · rename_i e; rw [← e, h2]; rfl
      · exact h2
    · intro n hn
      simp only
      rw [find_insert]
      split
      · rename_i e; rw [e]
      · rfl
  | erase m =>
    unfold Mtl.step
    by_cases e : m = "Default"
    · simp only [e, if_true]
      refine ⟨_, rfl, ⟨h1, h2, h3⟩, ?_⟩
      intro n hn
      rw [if_neg hn]
    · simp only [e, if_false]
      cases hf : s.lib.find m with
      | none =>
        refine ⟨_, rfl, ⟨h1, h2, h3⟩, ?_⟩
        intro n hn
        split
        · rename_i e2; rw [e2, hf]
        · rfl
      | some p =>
        refine ⟨_, rfl, ⟨h1, ?_, WF.erase h3 m⟩, ?_⟩
        · simp only
          rw [find_erase h3, if_neg (fun h => e h.symm)]
          exact h2
        · intro n hn
          simp only
          rw [find_erase h3]
  | clear =>
    unfold Mtl.step
    simp only [h2]
    refine ⟨_, rfl, ⟨h1, rfl, ?_⟩, ?_⟩
    · simp [Map.WF, Map.insert, Map.find]
    · intro n hn
      simp only [Map.insert, Map.find]
      rw [if_neg (fun h => hn h.symm)]

theorem mrun {d : Nat} (ops : List MOp) {s : Mtl} (h : MInv d s) : ∃ s', s.run ops = some s' ∧ MInv d s' := by
  induction ops generalizing s with
  | nil => exact ⟨s, rfl, h⟩
  | cons o os ih =>
    obtain ⟨s1, e1, h1, -⟩ := mstep h o
    obtain ⟨s2, e2, h2⟩ := ih h1
    exact ⟨s2, by rw [Mtl.run, e1]; exact e2, h2⟩

theorem mrun_append (s : Mtl) (a b : List MOp) : s.run (a ++ b) = (s.run a).bind (·.run b) := by
  induction a generalizing s with
  | nil => rfl
  | cons o os ih =>
    rw [List.cons_append, Mtl.run, Mtl.run]
    cases s.step o with
    | none => rfl
    | some s' => exact ih s'

theorem init_inv (d : Nat) : MInv d (Mtl.init d) := ⟨rfl, rfl, by simp [Map.WF, Mtl.init]⟩

/-- The state after the calls. -/
theorem mspec (d : Nat) (ops : List MOp) : ∃ s, (Mtl.init d).run ops = some s ∧ MInv d s ∧ ∀ n, n ≠ "Default" →
    (s.get n = none → Unbound ops n) ∧ (∀ p, s.get n = some p → FirstAdded ops n p) := by
  induction ops using List.reverseRecOn with
  | nil =>
    refine ⟨_, rfl, init_inv d, ?_⟩
    intro n hn
    refine ⟨fun _ => ⟨[], [], rfl, Or.inl rfl, by simp⟩, ?_⟩
    intro p hp
    simp only [Mtl.get, Mtl.init, Map.find] at hp
    rw [if_neg (fun h => hn h.symm)] at hp
    cases hp
  | append_singleton os o ih =>
    obtain ⟨s, e, hinv, hs⟩ := ih
    obtain ⟨s', e', hinv', hget⟩ := mstep hinv o
    refine ⟨s', by rw [mrun_append, e]; simp only [Option.bind_some, Mtl.run, e'], hinv', ?_⟩
    intro n hn
    have hg := hget n hn
    obtain ⟨i1, i2⟩ := hs n hn
    -- keeping and extending
    have keepU : ¬ adds n o → Unbound os n → Unbound (os ++ [o]) n := by
      rintro ha ⟨a, b, rfl, hb, hc⟩
      refine ⟨a, b ++ [o], by simp, hb, ?_⟩
      intro x hx
      rw [List.mem_append, List.mem_singleton] at hx
      rcases hx with hx | rfl
      · exact hc x hx
      · exact ha
    have keepF : ∀ p, ¬ resets n o → FirstAdded os n p → FirstAdded (os ++ [o]) n p := by
      rintro p ha ⟨a, b, rfl, hb, hc⟩
      refine ⟨a, b ++ [o], by simp, hb, ?_⟩
      intro x hx
      rw [List.mem_append, List.mem_singleton] at hx
      rcases hx with hx | rfl
      · exact hc x hx
      · exact ha
    have reset : resets n o → Unbound (os ++ [o]) n := fun hr =>
      ⟨os ++ [o], [], by simp, Or.inr ⟨o, hr, by simp⟩, by simp⟩
    cases o with
    | add m q =>
      simp only at hg
      by_cases en : n = m
      · rw [if_pos en] at hg
        refine ⟨fun h => (by rw [hg] at h; cases h), ?_⟩
        intro p hp
        rw [hg] at hp
        injection hp with hp
        cases hgn : s.get n with
        | none =>
          rw [hgn, Option.getD_none] at hp
          subst hp
          subst en
          exact ⟨os, [], by simp, i1 hgn, by simp⟩
        | some r =>
          rw [hgn, Option.getD_some] at hp
          subst hp
          exact keepF r (by simp [resets]) (i2 r hgn)
      · rw [if_neg en] at hg
        rw [hg]
        exact ⟨fun h => keepU (by simp [adds]; exact fun h => en h.symm) (i1 h), fun p h => keepF p (by simp [resets]) (i2 p h)⟩
    | erase m =>
      simp only at hg
      by_cases en : n = m
      · rw [if_pos en] at hg
        exact ⟨fun _ => reset (by simp [resets, en]), fun p h => (by rw [hg] at h; cases h)⟩
      · rw [if_neg en] at hg
        rw [hg]
        exact ⟨fun h => keepU (by simp [adds]) (i1 h), fun p h => keepF p (by simp [resets]; exact fun h => en h.symm) (i2 p h)⟩
    | clear =>
      simp only at hg
      exact ⟨fun _ => reset (by simp [resets]), fun p h => (by rw [hg] at h; cases h)⟩

theorem keep_none {d : Nat} (n : String) (hn : n ≠ "Default") (ops : List MOp) {s s' : Mtl} (hi : MInv d s) (h : s.get n = none)
    (hops : ∀ o ∈ ops, ¬ adds n o) (hr : s.run ops = some s') : s'.get n = none := by
  induction ops generalizing s with
  | nil => injection hr with hr; rw [← hr]; exact h
  | cons o os ih =>
    obtain ⟨s1, e1, h1, hg⟩ := mstep hi o
    rw [Mtl.run, e1] at hr
    refine ih h1 ?_ (fun x hx => hops x (List.mem_cons_of_mem _ hx)) hr
    rw [hg n hn]
    have := hops o List.mem_cons_self
    cases o with
    | add m p => simp only; rw [if_neg (by intro e; exact this e.symm)]; exact h
    | erase m => simp only; split; rfl; exact h
    | clear => rfl

theorem keep_some {d : Nat} (n : String) (hn : n ≠ "Default") (p : Nat) (ops : List MOp) {s s' : Mtl} (hi : MInv d s)
    (h : s.get n = some p) (hops : ∀ o ∈ ops, ¬ resets n o) (hr : s.run ops = some s') : s'.get n = some p := by
  induction ops generalizing s with
  | nil => injection hr with hr; rw [← hr]; exact h
  | cons o os ih =>
    obtain ⟨s1, e1, h1, hg⟩ := mstep hi o
    rw [Mtl.run, e1] at hr
    refine ih h1 ?_ (fun x hx => hops x (List.mem_cons_of_mem _ hx)) hr
    rw [hg n hn]
    have := hops o List.mem_cons_self
    cases o with
    | add m q => simp only; rw [h]; split <;> rfl
    | erase m => simp only; rw [if_neg (by intro e; exact this e.symm)]; exact h
    | clear => exact absurd trivial this

theorem unbound_none {d : Nat} (ops : List MOp) (n : String) (hn : n ≠ "Default") (h : Unbound ops n) (s : Mtl)
    (hr : (Mtl.init d).run ops = some s) : s.get n = none := by
  obtain ⟨a, b, rfl, hb, hc⟩ := h
  rw [mrun_append] at hr
  obtain ⟨sa, ea, hia⟩ := mrun a (init_inv d)
  rw [ea, Option.bind_some] at hr
  refine keep_none n hn b hia ?_ hc hr
  rcases hb with rfl | ⟨o, ho, hl⟩
  · injection ea with ea
    rw [← ea]
    simp only [Mtl.get, Mtl.init, Map.find]
    rw [if_neg (fun h => hn h.symm)]
  · obtain ⟨a', rfl⟩ : ∃ a', a = a' ++ [o] := by
      rw [List.getLast?_eq_some_iff] at hl
      exact hl
    rw [mrun_append] at ea
    obtain ⟨s1, e1, h1⟩ := mrun a' (init_inv d)
    rw [e1, Option.bind_some, Mtl.run] at ea
    obtain ⟨s2, e2, h2, hg⟩ := mstep h1 o
    rw [e2] at ea
    injection ea with ea
    rw [← ea, hg n hn]
    cases o with
    | add m p => exact absurd ho (by simp [resets])
    | erase m => simp only; rw [if_pos (Eq.symm ho)]
    | clear => rfl

/-- **C53**: for every sequence of calls a name gives the first object added under it since it was last removed, and
the default material stays what it is. -/
theorem C53_library (d : Nat) (ops : List MOp) : ∃ s, (Mtl.init d).run ops = some s ∧ s.get "Default" = some d ∧ s.dflt = d ∧
    ∀ n, n ≠ "Default" → (s.get n = none ↔ Unbound ops n) ∧ ∀ p, s.get n = some p ↔ FirstAdded ops n p := by
  obtain ⟨s, e, hinv, hs⟩ := mspec d ops
  refine ⟨s, e, hinv.found, hinv.dflt, ?_⟩
  intro n hn
  obtain ⟨h1, h2⟩ := hs n hn
  refine ⟨⟨h1, fun h => unbound_none ops n hn h s e⟩, fun p => ⟨h2 p, ?_⟩⟩
  rintro ⟨a, b, rfl, hu, hb⟩
  obtain ⟨sa, ea, hia⟩ := mrun a (init_inv d)
  have hna := unbound_none a n hn hu sa ea
  rw [mrun_append, ea, Option.bind_some, Mtl.run] at e
  obtain ⟨s2, e2, hi2, hg⟩ := mstep hia (MOp.add n p)
  rw [e2] at e
  refine keep_some n hn p b hi2 ?_ hb e
  rw [hg n hn]
  simp [hna]

/-- The objects given to the library. -/
def given : List MOp → List Nat
  | [] => []
  | .add _ p :: os => p :: given os
  | _ :: os => given os

theorem mtl_owned {d : Nat} (ops : List MOp) {s s' : Mtl} (hi : MInv d s) (hr : s.run ops = some s') :
    (s'.lib.ptrs ++ s'.freed).Subperm (given ops ++ (s.lib.ptrs ++ s.freed)) ∧
    (∀ x ∈ s'.freed, x ∈ s.freed ∨ x ∈ given ops ∨ x ∈ (s.lib.erase "Default").ptrs) := by
  induction ops generalizing s with
  | nil =>
    injection hr with hr
    subst hr
    exact ⟨List.Subperm.refl _, fun x hx => Or.inl hx⟩
  | cons o os ih =>
    obtain ⟨s1, e1, h1, -⟩ := mstep hi o
    rw [Mtl.run, e1] at hr
    obtain ⟨i1, i2⟩ := ih h1 hr
    cases o with
    | add m p =>
      injection e1 with e1
      subst e1
      simp only at i1 i2
      unfold Map.insert at i1 i2
      cases hf : s.lib.find m with
      | none =>
        rw [hf] at i1 i2
        simp only [Map.ptrs, List.map_cons, List.cons_append] at i1
        refine ⟨i1.trans (List.Perm.subperm ?_), ?_⟩
        · rw [given, List.cons_append]; exact List.perm_middle
        · intro x hx
          rcases i2 x hx with h | h | h
          · exact Or.inl h
          · exact Or.inr (Or.inl (List.mem_cons_of_mem _ h))
          · simp only [Map.erase] at h
            split at h
            · rename_i e; rw [e] at hf; rw [hi.found] at hf; cases hf
            · simp only [Map.ptrs, List.map_cons, List.mem_cons] at h
              rcases h with h | h
              · exact Or.inr (Or.inl (by rw [h]; exact List.mem_cons_self))
              · exact Or.inr (Or.inr h)
      | some q =>
        rw [hf] at i1 i2
        refine ⟨i1.trans (List.Sublist.subperm (List.sublist_cons_self _ _)), ?_⟩
        intro x hx
        rcases i2 x hx with h | h | h
        · exact Or.inl h
        · exact Or.inr (Or.inl (List.mem_cons_of_mem _ h))
        · exact Or.inr (Or.inr h)
    | erase m =>
      unfold Mtl.step at e1
      by_cases e : m = "Default"
      · simp only [e, if_true] at e1
        injection e1 with e1
        subst e1
        exact ⟨i1, i2⟩
      · simp only [e, if_false] at e1
        cases hf : s.lib.find m with
        | none =>
          rw [hf] at e1
          injection e1 with e1
          subst e1
          exact ⟨i1, i2⟩
        | some p =>
          rw [hf] at e1
          injection e1 with e1
          subst e1
          simp only at i1 i2
          refine ⟨i1.trans (List.Perm.subperm (List.Perm.append_left _ ?_)), ?_⟩
          · exact List.perm_middle.trans ((erase_perm hf).append_right _)
          · have hsub : ∀ x, x ∈ ((s.lib.erase m).erase "Default").ptrs → x ∈ (s.lib.erase "Default").ptrs := by
              intro x hx
              have hcomm : ∀ l : Map, (l.erase m).erase "Default" = (l.erase "Default").erase m := by
                intro l
                induction l with
                | nil => rfl
                | cons a l ih =>
                  obtain ⟨k, q⟩ := a
                  simp only [Map.erase]
                  by_cases c1 : k = m
                  · have c2 : k ≠ "Default" := by rw [c1]; exact e
                    simp [c1, c2, Map.erase, e]
                  · by_cases c2 : k = "Default"
                    · simp [c1, c2, Map.erase, Ne.symm e]
                    · simp [c1, c2, Map.erase, ih]
              rw [hcomm] at hx
              exact ((erase_keys _ m).map Prod.snd).subset hx
            have hp : p ∈ (s.lib.erase "Default").ptrs := by
              apply find_mem (n := m)
              rw [find_erase hi.wf, if_neg e, hf]
            intro x hx
            rcases i2 x hx with h | h | h
            · rcases List.mem_cons.1 h with rfl | h
              · exact Or.inr (Or.inr hp)
              · exact Or.inl h
            · exact Or.inr (Or.inl h)
            · exact Or.inr (Or.inr (hsub x h))
    | clear =>
      unfold Mtl.step at e1
      simp only [hi.found] at e1
      injection e1 with e1
      subst e1
      simp only at i1 i2
      refine ⟨i1.trans (List.Perm.subperm (List.Perm.append_left _ ?_)), ?_⟩
      · have : (Map.insert [] "Default" d).ptrs = [d] := rfl
        rw [this, List.singleton_append, ← List.cons_append]
        exact (erase_perm hi.found).append_right _
      · intro x hx
        rcases i2 x hx with h | h | h
        · rcases List.mem_append.1 h with h | h
          · exact Or.inr (Or.inr h)
          · exact Or.inl h
        · exact Or.inr (Or.inl h)
        · simp [Map.insert, Map.find, Map.erase, Map.ptrs] at h

/-- **C53**, ownership: when every object is given once, nothing is freed twice, nothing found in the library has been
freed, and the default material is never freed. -/
theorem C53_no_dangling (d : Nat) (ops : List MOp) (hfresh : (d :: given ops).Nodup) (s : Mtl)
    (hr : (Mtl.init d).run ops = some s) :
    s.freed.Nodup ∧ d ∉ s.freed ∧ ∀ n p, s.get n = some p → p ∉ s.freed := by
  obtain ⟨h1, h2⟩ := mtl_owned ops (init_inv d) hr
  have hnd : (s.lib.ptrs ++ s.freed).Nodup := by
    have : (given ops ++ ((Mtl.init d).lib.ptrs ++ (Mtl.init d).freed)).Nodup := by
      have e : (given ops ++ ((Mtl.init d).lib.ptrs ++ (Mtl.init d).freed)).Perm (d :: given ops) := by
        simp only [Mtl.init, Map.ptrs, List.map_cons, List.map_nil, List.append_nil]
        exact List.perm_append_comm
      exact e.nodup_iff.2 hfresh
    obtain ⟨l, hp, hs⟩ := h1
    exact hp.nodup_iff.1 (hs.nodup this)
  rw [List.nodup_append] at hnd
  refine ⟨hnd.2.1, ?_, ?_⟩
  · intro hm
    rcases h2 d hm with h | h | h
    · simp [Mtl.init] at h
    · exact (List.nodup_cons.1 hfresh).1 h
    · simp [Mtl.init, Map.erase, Map.ptrs] at h
  · intro n p hp hm
    exact hnd.2.2 p (find_mem hp) p hm rfl

example : ∃ s, (Mtl.init 0).run [.add "Red" 1, .add "Red" 2, .add "Default" 3, .erase "Red", .add "Red" 4, .erase "Default"] = some s ∧
    s.get "Red" = some 4 ∧ s.get "Default" = some 0 ∧ s.freed = [1] := ⟨_, rfl, by decide⟩

/-! ### C54 -/

/-- The objects given to the library. -/
def inherited : List TOp → List Nat
  | [] => []
  | .inheritTexture _ p :: os => p :: inherited os
  | .inheritUnnamed p :: os => p :: inherited os
  | .inheritMap _ p :: os => p :: inherited os
  | _ :: os => inherited os

/-- What the library owns. -/
def Tex.owned (s : Tex) : List Nat := s.texlib.ptrs ++ s.maplib.ptrs ++ s.unref

/-- No name is used while it is taken. -/
def NamesFree : Tex → List TOp → Prop
  | _, [] => True
  | s, o :: os =>
    (match o with
      | .inheritTexture n _ => s.texlib.find n = none
      | .inheritMap n _ => s.maplib.find n = none
      | _ => True) ∧ NamesFree (s.step o) os

/-- One call moves objects, takes one over or ignores one. -/
theorem tstep (s : Tex) (o : TOp) :
    (s.step o).defaults = s.defaults ∧
    (((s.step o).owned ++ (s.step o).freed).Perm (inherited [o] ++ (s.owned ++ s.freed)) ∨
      (s.step o = s ∧ ¬ NamesFree s [o])) := by
  cases o with
  | inheritTexture n p =>
    refine ⟨rfl, ?_⟩
    cases hf : s.texlib.find n with
    | none => left; simp [Tex.step, Map.insert, hf, Tex.owned, inherited, Map.ptrs]
    | some q => right; refine ⟨?_, ?_⟩; · simp [Tex.step, Map.insert, hf]
                · simp [NamesFree, hf]
  | inheritUnnamed p =>
    refine ⟨rfl, Or.inl ?_⟩
    have e : (s.step (.inheritUnnamed p)).owned ++ (s.step (.inheritUnnamed p)).freed = s.owned ++ p :: s.freed := by
      simp [Tex.step, Tex.owned]
    rw [e]
    exact List.perm_middle
  | inheritMap n p =>
    refine ⟨rfl, ?_⟩
    cases hf : s.maplib.find n with
    | none =>
      left
      simp only [Tex.step, Map.insert, hf, Tex.owned, inherited, Map.ptrs, List.map_cons, List.singleton_append, List.append_assoc,
        List.cons_append]
      exact List.perm_middle
    | some q => right; refine ⟨?_, ?_⟩; · simp [Tex.step, Map.insert, hf]
                · simp [NamesFree, hf]
  | eraseTexture n =>
    cases hf : s.texlib.find n with
    | none => simp [Tex.step, hf, inherited]
    | some p =>
      refine ⟨by simp [Tex.step, hf], Or.inl ?_⟩
      simp only [Tex.step, hf, Tex.owned, inherited, List.nil_append]
      exact List.perm_middle.trans (by
        rw [← List.cons_append, ← List.cons_append, ← List.cons_append]
        exact (((erase_perm hf).append_right _).append_right _).append_right _)
  | eraseMap n =>
    cases hf : s.maplib.find n with
    | none => simp [Tex.step, hf, inherited]
    | some p =>
      refine ⟨by simp [Tex.step, hf], Or.inl ?_⟩
      simp only [Tex.step, hf, Tex.owned, inherited, List.nil_append]
      refine List.perm_middle.trans ?_
      simp only [List.append_assoc]
      refine List.perm_middle.symm.trans (List.Perm.append_left _ ?_)
      rw [← List.cons_append]
      exact (erase_perm hf).append_right _
  | clear =>
    refine ⟨rfl, Or.inl ?_⟩
    simp [Tex.step, Tex.owned, inherited, Map.ptrs]

theorem inherited_cons (o : TOp) (os : List TOp) : inherited (o :: os) = inherited [o] ++ inherited os := by
  cases o <;> rfl

theorem trun (ops : List TOp) (s : Tex) : (s.run ops).defaults = s.defaults ∧
    ((s.run ops).owned ++ (s.run ops).freed).Subperm (inherited ops ++ (s.owned ++ s.freed)) ∧
    (NamesFree s ops → ((s.run ops).owned ++ (s.run ops).freed).Perm (inherited ops ++ (s.owned ++ s.freed))) := by
  induction ops generalizing s with
  | nil => exact ⟨rfl, List.Subperm.refl _, fun _ => List.Perm.refl _⟩
  | cons o os ih =>
    obtain ⟨i0, i1, i2⟩ := ih (s.step o)
    obtain ⟨h0, h⟩ := tstep s o
    have hrun : s.run (o :: os) = (s.step o).run os := rfl
    rw [hrun, inherited_cons]
    refine ⟨i0.trans h0, ?_, ?_⟩
    · refine i1.trans ?_
      rcases h with h | ⟨h, -⟩
      · refine List.Perm.subperm ((h.append_left _).trans ?_)
        rw [← List.append_assoc]
        exact List.perm_append_comm.append_right _
      · rw [h, List.append_assoc]
        exact (List.sublist_append_right _ _).subperm
    · rintro ⟨n1, n2⟩
      refine (i2 n2).trans ?_
      rcases h with h | ⟨-, h⟩
      · refine (h.append_left _).trans ?_
        rw [← List.append_assoc]
        exact List.perm_append_comm.append_right _
      · exact absurd ⟨n1, trivial⟩ h

/-- **C54**, partial: whatever the calls, provided every object is given once, nothing is freed twice, nothing found
in the library has been freed, the defaults are never freed before the end, and `clear` leaves nothing behind.  When no
name is used twice at a time, every object is owned or freed exactly once, and the destructor frees each exactly once. -/
theorem C54_ownership_partial (a b c : Nat) (ops : List TOp) (hfresh : ([b, c, a] ++ inherited ops).Nodup) :
    let s := (Tex.init a b c).run ops
    (s.owned ++ s.freed).Nodup ∧ s.defaults = [b, c, a] ∧ (∀ x ∈ s.defaults, x ∉ s.freed) ∧
    (∀ n p, s.texlib.find n = some p → p ∉ s.freed) ∧ (∀ n p, s.maplib.find n = some p → p ∉ s.freed) ∧
    (s.step .clear).owned = [] ∧ (s.destroy.freed).Nodup ∧
    (NamesFree (Tex.init a b c) ops → (s.owned ++ s.freed).Perm (inherited ops) ∧
      s.destroy.freed.Perm ([b, c, a] ++ inherited ops)) := by
  intro s
  obtain ⟨h0, h1, h2⟩ := trun ops (Tex.init a b c)
  have hinit : (inherited ops ++ ((Tex.init a b c).owned ++ (Tex.init a b c).freed)) = inherited ops := by
    simp [Tex.init, Tex.owned, Map.ptrs]
  rw [hinit] at h1 h2
  change s.defaults = [b, c, a] at h0
  change (s.owned ++ s.freed).Subperm _ at h1
  have hfr := List.nodup_append.1 hfresh
  have hnd : (s.owned ++ s.freed).Nodup := by
    obtain ⟨l, hp, hs⟩ := h1
    exact hp.nodup_iff.1 (hs.nodup hfr.2.1)
  have hsub : ∀ x ∈ s.owned ++ s.freed, x ∈ inherited ops := fun x hx => h1.subset hx
  have hdis := (List.nodup_append.1 hnd).2.2
  have hdfreed : s.destroy.freed = [b, c, a] ++ (s.owned ++ s.freed) := by
    unfold Tex.destroy Tex.step Tex.owned
    simp only [h0, List.append_assoc]
  refine ⟨hnd, h0, ?_, ?_, ?_, rfl, ?_, ?_⟩
  · intro x hx hf
    rw [h0] at hx
    exact hfr.2.2 x hx x (hsub x (List.mem_append_right _ hf)) rfl
  · intro n p hp hf
    exact hdis p (List.mem_append_left _ (List.mem_append_left _ (find_mem hp))) p hf rfl
  · intro n p hp hf
    exact hdis p (List.mem_append_left _ (List.mem_append_right _ (find_mem hp))) p hf rfl
  · rw [hdfreed]
    obtain ⟨l, hp, hs⟩ := h1
    rw [List.nodup_append]
    refine ⟨hfr.1, hnd, ?_⟩
    intro x hx y hy e
    exact hfr.2.2 x hx y (hsub y hy) e
  · intro hn
    refine ⟨h2 hn, ?_⟩
    rw [hdfreed]
    exact (h2 hn).append_left _

/-- **C54 is violated**: an object given under a name that is taken is neither owned nor freed, not even at the end. -/
theorem C54_violated (a b c p q : Nat) (n : String) (hq : q ∉ [a, b, c, p]) :
    let s := (Tex.init a b c).run [.inheritTexture n p, .inheritTexture n q]
    q ∉ s.owned ∧ q ∉ s.freed ∧ q ∉ s.destroy.freed := by
  simp only [List.mem_cons, not_or] at hq
  obtain ⟨h1, h2, h3, h4, -⟩ := hq
  simp [Tex.run, Tex.step, Tex.init, Map.insert, Map.find, Tex.owned, Map.ptrs, Tex.destroy, h1, h2, h3, h4]

/-- **C54 is violated** in another way: a texture refers to its image map, which can be erased alone; the texture found
in the library then refers to a freed map.  `mapOf` is the map a texture was made with. -/
theorem C54_dangling_map (a b c m t : Nat) (mapOf : Nat → Nat) (h : mapOf t = m) :
    let s := (Tex.init a b c).run [.inheritMap "m" m, .inheritTexture "t" t, .eraseMap "m"]
    s.texlib.find "t" = some t ∧ mapOf t ∈ s.freed := by
  simp [Tex.run, Tex.step, Tex.init, Map.insert, Map.find, h]

/-- **C54**, partial: as long as maps are not erased alone and textures are made with maps of the library, the map of
every texture found is in the library. -/
theorem C54_maps_partial (mapOf : Nat → Nat) (ops : List TOp) (s : Tex)
    (hinv : ∀ t ∈ s.texlib.ptrs, mapOf t ∈ s.maplib.ptrs) (hno : ∀ n, TOp.eraseMap n ∉ ops)
    (hmade : ∀ pre n t post, ops = pre ++ TOp.inheritTexture n t :: post → mapOf t ∈ (s.run pre).maplib.ptrs) :
    ∀ t ∈ (s.run ops).texlib.ptrs, mapOf t ∈ (s.run ops).maplib.ptrs := by
  induction ops generalizing s with
  | nil => exact hinv
  | cons o os ih =>
    change ∀ t ∈ ((s.step o).run os).texlib.ptrs, _ ∈ ((s.step o).run os).maplib.ptrs
    apply ih
    · cases o with
      | inheritTexture n p =>
        have hm := hmade [] n p os rfl
        change mapOf p ∈ s.maplib.ptrs at hm
        intro t ht
        simp only [Tex.step, Map.insert] at ht ⊢
        split at ht
        · simp only [Map.ptrs, List.map_cons, List.mem_cons] at ht
          rcases ht with rfl | ht
          · exact hm
          · exact hinv t ht
        · exact hinv t ht
      | inheritUnnamed p => exact hinv
      | inheritMap n p =>
        intro t ht
        have := hinv t ht
        simp only [Tex.step, Map.insert]
        split
        · exact List.mem_cons_of_mem _ this
        · exact this
      | eraseTexture n =>
        intro t ht
        cases e : s.texlib.find n with
        | none => simp only [Tex.step, e] at ht ⊢; exact hinv t ht
        | some p =>
          simp only [Tex.step, e] at ht ⊢
          exact hinv t (((erase_keys _ n).map Prod.snd).subset ht)
      | eraseMap n => exact absurd List.mem_cons_self (hno n)
      | clear => intro t ht; simp [Tex.step, Map.ptrs] at ht
    · exact fun n h => hno n (List.mem_cons_of_mem _ h)
    · intro pre n t post e
      exact hmade (o :: pre) n t post (by rw [e]; rfl)

example : ([101, 102, 100] ++ inherited [.inheritMap "a" 1, .inheritTexture "a" 2, .inheritUnnamed 3, .eraseTexture "a", .inheritTexture "a" 4]).Nodup ∧
    NamesFree (Tex.init 100 101 102) [.inheritMap "a" 1, .inheritTexture "a" 2, .inheritUnnamed 3, .eraseTexture "a", .inheritTexture "a" 4] := by
  refine ⟨by decide, ?_⟩
  simp [NamesFree, Tex.step, Tex.init, Map.find, Map.insert, Map.erase]

/-! ### C55 -/

/-- The scene is in order. -/
structure SInv (s : Scene) : Prop where
  max : s.lights.length ≤ 32
  sub : ∀ x ∈ s.lights, x ∈ s.assets
  nodup : s.assets.Nodup
  lnodup : s.lights.Nodup
  kd : ∀ x, x ∈ s.kd ↔ x ∈ s.assets

theorem sstep {s : Scene} (h : SInv s) (o : SOp) : SInv (s.step o) := by
  obtain ⟨h1, h2, h3, h4, h5⟩ := h
  have snd : ∀ (l : List Nat) a, l.Nodup → a ∉ l → (l ++ [a]).Nodup := by
    intro l a hl ha
    rw [List.nodup_append]
    refine ⟨hl, List.nodup_singleton _, ?_⟩
    intro x hx y hy e
    rw [List.mem_singleton] at hy
    rw [e, hy] at hx
    exact ha hx
  cases o with
  | asset a =>
    by_cases ha : a ∈ s.assets
    · refine ⟨h1, ?_, ?_, h4, ?_⟩ <;> simp only [Scene.step, ha, if_true]
      · exact h2
      · exact h3
      · intro x
        rw [List.mem_append, List.mem_singleton, h5]
        constructor
        · rintro (h | rfl)
          · exact h
          · exact ha
        · exact Or.inl
    · refine ⟨h1, ?_, ?_, h4, ?_⟩ <;> simp only [Scene.step, ha, if_false]
      · exact fun x hx => List.mem_append_left _ (h2 x hx)
      · exact snd _ _ h3 ha
      · intro x; rw [List.mem_append, List.mem_append, h5]
  | light a =>
    unfold Scene.step
    simp only
    split
    · rename_i hl
      split
      · exact ⟨h1, h2, h3, h4, h5⟩
      · rename_i ha
        refine ⟨by simp; omega, ?_, snd _ _ h3 ha, snd _ _ h4 (fun h => ha (h2 a h)), ?_⟩
        · intro x hx
          rw [List.mem_append] at hx ⊢
          rcases hx with hx | hx
          · exact Or.inl (h2 x hx)
          · exact Or.inr hx
        · intro x; simp only [List.mem_append]; rw [h5]
    · exact ⟨h1, h2, h3, h4, h5⟩

theorem srun {s : Scene} (h : SInv s) (ops : List SOp) : SInv (s.run ops) := by
  induction ops generalizing s with
  | nil => exact h
  | cons o os ih => exact ih (sstep h o)

theorem sinit : SInv Scene.init := ⟨by simp [Scene.init], by simp [Scene.init], by simp [Scene.init], by simp [Scene.init],
  by simp [Scene.init]⟩

/-- **C55**, the lights: at most 32, each once, each also an asset; the kd-tree is given exactly the assets. -/
theorem C55_lights (ops : List SOp) : let s := Scene.init.run ops
    s.lights.length ≤ 32 ∧ s.lights.Nodup ∧ (∀ x ∈ s.lights, x ∈ s.assets) ∧ s.assets.Nodup ∧ ∀ x, x ∈ s.kd ↔ x ∈ s.assets := by
  intro s
  obtain ⟨h1, h2, h3, h4, h5⟩ := srun sinit ops
  exact ⟨h1, h4, h2, h3, h5⟩

/-- Every asset is inherited once. -/
def AssetsOnce : Scene → List SOp → Prop
  | _, [] => True
  | s, o :: os => (match o with | .asset a => a ∉ s.assets | .light _ => True) ∧ AssetsOnce (s.step o) os

/-- **C55**, partial: the kd-tree has each asset once when `inherit_asset` is not given an asset again. -/
theorem C55_once_partial (ops : List SOp) (s : Scene) (hs : s.kd = s.assets) (h : AssetsOnce s ops) :
    (s.run ops).kd = (s.run ops).assets := by
  induction ops generalizing s with
  | nil => exact hs
  | cons o os ih =>
    obtain ⟨h1, h2⟩ := h
    refine ih (s.step o) ?_ h2
    cases o with
    | asset a => simp only [Scene.step]; rw [if_neg h1, hs]
    | light a =>
      simp only [Scene.step]
      split
      · split
        · exact hs
        · simp only [hs]
      · exact hs

/-- **C55 is violated** by every asset given to `inherit_asset` again: it is in the kd-tree twice. -/
theorem C55_violated (s : Scene) (h : SInv s) (a : Nat) (ha : a ∈ s.assets) :
    (s.step (.asset a)).assets = s.assets ∧ 2 ≤ (s.step (.asset a)).kd.count a := by
  refine ⟨by simp [Scene.step, ha], ?_⟩
  have : 1 ≤ s.kd.count a := List.count_pos_iff.2 ((h.kd a).2 ha)
  simp only [Scene.step, List.count_append, List.count_singleton_self]
  omega

/-- The 33rd light is not in the scene at all, not even as a shape. -/
theorem C55_dropped (s : Scene) (h : s.lights.length = 32) (a : Nat) : s.step (.light a) = s := by
  simp [Scene.step, h]

example : AssetsOnce Scene.init [.asset 1, .light 2, .asset 3, .light 2] := by
  simp [AssetsOnce, Scene.step, Scene.init]

example : (Scene.init.run [.asset 1, .asset 1]).kd = [1, 1] := by decide

end Spectre.Lib
