import Verif.Props.SceneScanner

/-!
# Lexemes written next to each other are read back (C121)

A lexeme is a text that is one token when it stands alone.  Written one after the other with a blank, a newline or a
punctuation mark in between, lexemes should be read back as they are: this is what makes the layout of a scene file
irrelevant (`src/parsers/README.md:7`, "a whitespace is sufficient").
-/

namespace Spectre.Scene

/-! ## Specification -/

/-- The text is one token, by rule `n`, when it stands alone. -/
def Lexeme (n : Nat) (u : List Byte) : Prop := IsToken u n u.length

/-- Blank, tab, carriage return, newline, `:`, `[`, `]`, `{`, `}`, `,`, `#`. -/
def separators : List Byte := [32, 9, 13, 10, 58, 91, 93, 123, 125, 44, 35]

/-- The rules for `:`, `[`, `]`, `{`, `}`, `,`, for blanks and for newlines. -/
def closedRules : List Nat := [1, 2, 3, 4, 5, 6, 110, 111]

/-- Every text followed by a byte. -/
def spaced : List (Nat × List Byte × Byte) → List Byte
  | [] => []
  | (_, u, c) :: l => u ++ c :: spaced l

/-- A blank (rule 110) or a newline (rule 111) with its rule. -/
def blankRule (c : Byte) : Option Nat := if c = 32 ∨ c = 9 ∨ c = 13 then some 110 else if c = 10 then some 111 else none

/-! ## Checks on the machine -/

/-- The states inside a string with single quotes after a backslash. -/
def afterBackslash (q : Nat) : Bool := Nat.beq q 61 || Nat.beq q 144 || Nat.beq q 145 || Nat.beq q 146

/-- No transition over the first `n` classes, that of the backslash excepted, leads into these states. -/
def avoids (q : Nat) : Nat → Bool
  | 0 => true
  | n + 1 =>
    (Nat.beq n 39 || match followP 3 q n with
      | none => false
      | some t => !afterBackslash t) && avoids q n

/-- The classes of the separators. -/
def sepClasses : List Nat := [5, 2, 4, 3, 16, 38, 40, 65, 66, 10, 7]

def checkReadback (q : Nat) : Bool :=
  (afterBackslash q || avoids q 67) &&
    (afterBackslash q || Nat.beq (look yyAcceptP q) 0 || Nat.ble 109 (look yyAcceptP q) ||
      sepClasses.all fun c => isState 443 (followP 3 q c)) &&
    ((!(closedRules.any fun n => Nat.beq n (look yyAcceptP q))) || allClasses q 443 67 ||
      -- class 0 is the end of the buffer
      (List.range 66).all fun c => isState 443 (followP 3 q (c + 1)))

set_option maxRecDepth 100000 in
theorem readback_states : (checkReadback 1 && (List.range 439).all fun i => checkReadback (i + 4)) = true := by
  decide +kernel

set_option maxRecDepth 100000 in
theorem readback_classes : ((List.range 256).all fun b => Nat.beq b 92 || !Nat.beq (classP b) 39) = true ∧
    separators.map (fun c => classP c.val) = sepClasses := by decide +kernel

theorem readback_check {q : Nat} (h : Valid q) : checkReadback q = true := by
  have := readback_states
  rw [Bool.and_eq_true] at this
  rcases h with rfl | ⟨h1, h2⟩
  · exact this.1
  · have h3 := List.all_eq_true.1 this.2 (q - 4) (List.mem_range.2 (by omega))
    rwa [show q - 4 + 4 = q by omega] at h3

theorem isState_next {q c t : Nat} (hq : q < 448) (hc : c < 67) (h : isState t (followP 3 q c) = true) :
    nextState q c = some t := by
  unfold isState at h
  split at h
  · cases h
  · rename_i x e
    rw [Nat.eq_of_beq_eq_true h] at e
    exact next_eq hq hc e

theorem avoids_spec {q : Nat} (hq : q < 448) : ∀ {n c : Nat}, avoids q n = true → n ≤ 67 → c < n → c ≠ 39 →
    ∃ t, nextState q c = some t ∧ afterBackslash t = false
  | 0, c, _, _, h, _ => by omega
  | n + 1, c, h, hn, hc, h39 => by
    simp only [avoids, Bool.and_eq_true, Bool.or_eq_true] at h
    by_cases e : c = n
    · subst e
      rcases h.1 with h1 | h1
      · exact absurd (Nat.eq_of_beq_eq_true h1) h39
      · split at h1
        · cases h1
        · rename_i t ht
          exact ⟨t, next_eq hq (by omega) ht, by simpa using h1⟩
    · exact avoids_spec hq h.2 (by omega) (by omega) h39

/-! ## States of longer texts -/

theorem state_append (u v : List Byte) : ∀ p, p ≤ u.length → stateAt (u ++ v) p = stateAt u p
  | 0, _ => rfl
  | p + 1, h => by
    rw [stateAt, stateAt, state_append u v p (by omega), List.getElem?_append_left (by omega)]

theorem avoided {u : List Byte} (h : (92 : Byte) ∉ u) : ∀ {p q : Nat}, stateAt u p = some q → afterBackslash q = false
  | 0, q, hs => by
    simp only [stateAt, Option.some.injEq] at hs
    subst hs
    rfl
  | p + 1, q, hs => by
    have hp : p < u.length := (at_state hs).le
    cases hs' : stateAt u p with
    | none => rw [stateAt, hs'] at hs; cases hs
    | some q₀ =>
      have ha := avoided h hs'
      have hv := (at_state hs').valid
      have hc := readback_check hv
      simp only [checkReadback, Bool.and_eq_true, ha, Bool.false_or] at hc
      have hcl : classP u[p].val ≠ 39 := by
        intro e
        have := List.all_eq_true.1 readback_classes.1 u[p].val (List.mem_range.2 u[p].isLt)
        rw [e] at this
        simp only [Bool.or_eq_true, Nat.beq_refl, Bool.not_true, Bool.false_eq_true, or_false] at this
        have e2 : u[p] = (92 : Byte) := Fin.ext (Nat.eq_of_beq_eq_true this)
        exact h (e2 ▸ List.getElem_mem hp)
      have hl := byte_class u[p]
      obtain ⟨t, h1, h2⟩ := avoids_spec (by have := hv.lt; omega) hc.1.1 (Nat.le_refl _) hl.2.1 hcl
      obtain ⟨t', h3, -, -, h4⟩ := state_succ hs' hp
      rw [h1] at h3
      cases h3
      rw [hs] at h4
      split at h4
      · cases h4
      · cases h4; exact h2

theorem lexeme_state {u : List Byte} {n : Nat} (h : Lexeme n u) :
    ∃ q, stateAt u u.length = some q ∧ look yyAcceptP q = n ∧ 0 < n := by
  have hm : RuleMatches n u := by have := h.matched; rwa [List.take_length] at this
  have hn : 0 < n := by obtain ⟨m, r, e, -⟩ := hm; omega
  cases hs : stateAt u u.length with
  | none => exact absurd h.matched (state_none hs _ _ (Nat.le_refl _) (Nat.le_refl _))
  | some q =>
    have ha := at_state hs
    have hl := (ha.lang n []).1 (by rw [List.take_length, List.append_nil]; exact hm)
    obtain ⟨-, -, -, h0, h1⟩ := accept_spec ha.valid
    have hpos : 0 < look yyAcceptP q := by
      rcases Nat.eq_zero_or_pos (look yyAcceptP q) with e | e
      · exact absurd hl (h0 e n)
      · exact e
    obtain ⟨h2, h3⟩ := h1 hpos
    refine ⟨q, rfl, ?_, hn⟩
    rcases Nat.lt_or_eq_of_le (h3 n hl) with e | e
    · have := (ha.lang (look yyAcceptP q) []).2 h2
      rw [List.append_nil] at this
      exact absurd this (h.first _ e)
    · exact e

/-- If nothing continues after the lexeme, it is the token of the longer text. -/
theorem lexeme_stop {u v : List Byte} {n : Nat} (h : Lexeme n u)
    (hv : ∀ c v', v = c :: v' → ∀ q, stateAt u u.length = some q → look yyAcceptP q = n → nextState q (classP c.val) = some 443) :
    IsToken (u ++ v) n u.length := by
  obtain ⟨q, h1, h2, h3⟩ := lexeme_state h
  have hs : stateAt (u ++ v) u.length = some q := by rw [state_append _ _ _ (Nat.le_refl _), h1]
  have hr : recs (u ++ v) (u.length + 1) = some (q, u.length) := by
    rw [recs, hs]
    simp only [h2]
    rw [if_neg (by omega)]
  have := token_of hr (by rw [List.length_append]; omega) (fun hl => by
    rw [stateAt, hs]
    cases v with
    | nil => rw [List.append_nil] at hl; omega
    | cons c v' =>
      have e : (u ++ c :: v')[u.length]? = some c := by simp
      rw [e]
      simp only [hv c v' rfl q h1 h2, if_true])
  rwa [h2] at this

/-! ## Theorems -/

/-- C121: A lexeme without backslash is read back when a separator follows it. -/
theorem C121_separated_partial {u v : List Byte} {n : Nat} {c : Byte} (h : Lexeme n u) (hn : n < 109)
    (hb : (92 : Byte) ∉ u) (hc : c ∈ separators) : IsToken (u ++ c :: v) n u.length := by
  refine lexeme_stop h fun c' v' e q hs ha => ?_
  cases e
  have hv := (at_state hs).valid
  have hq := readback_check hv
  have hpos := (lexeme_state h).choose_spec.2.2
  simp only [checkReadback, Bool.and_eq_true, avoided hb hs, Bool.false_or, Bool.or_eq_true, ha] at hq
  rcases hq.1.2 with (h1 | h1) | h1
  · have := Nat.eq_of_beq_eq_true h1; omega
  · rw [Nat.ble_eq] at h1; omega
  · have hmem : classP c.val ∈ sepClasses := by
      rw [← readback_classes.2]
      exact List.mem_map.2 ⟨c, hc, rfl⟩
    exact isState_next (by have := hv.lt; omega) (byte_class c).2.1 (List.all_eq_true.1 h1 _ hmem)

/-- C121: A punctuation mark, blank or newline is read back whatever follows it. -/
theorem C121_closed {u v : List Byte} {n : Nat} (h : Lexeme n u) (hn : n ∈ closedRules) :
    IsToken (u ++ v) n u.length := by
  refine lexeme_stop h fun c v' e q hs ha => ?_
  have hv := (at_state hs).valid
  have hq := readback_check hv
  simp only [checkReadback, Bool.and_eq_true, Bool.or_eq_true, ha] at hq
  have hl := byte_class c
  have hlt : q < 448 := by have := hv.lt; omega
  rcases hq.2 with (h1 | h1) | h1
  · have : (closedRules.any fun m => Nat.beq m n) = true := List.any_eq_true.2 ⟨n, hn, Nat.beq_refl n⟩
    rw [this] at h1; cases h1
  · have key : ∀ k, allClasses q 443 k = true → ∀ c, c < k → isState 443 (followP 3 q c) = true := by
      intro k
      induction k with
      | zero => intro _ c hc; omega
      | succ k ih =>
        intro h c hc
        simp only [allClasses, Bool.and_eq_true] at h
        by_cases e : c = k
        · rw [e]; exact h.1
        · exact ih h.2 c (by omega)
    exact isState_next hlt hl.2.1 (key 67 h1 _ hl.2.1)
  · have := List.all_eq_true.1 h1 (classP c.val - 1) (List.mem_range.2 (by omega))
    rw [show classP c.val - 1 + 1 = classP c.val by omega] at this
    exact isState_next hlt hl.2.1 this

theorem blank_lexeme {c : Byte} {n : Nat} (h : blankRule c = some n) : Lexeme n [c] ∧ n ∈ closedRules ∧ c ∈ separators := by
  unfold blankRule at h
  split at h
  · rename_i hc
    cases h
    rcases hc with rfl | rfl | rfl
    · exact ⟨C120_exactly.1 (by decide +kernel), by decide, by decide⟩
    · exact ⟨C120_exactly.1 (by decide +kernel), by decide, by decide⟩
    · exact ⟨C120_exactly.1 (by decide +kernel), by decide, by decide⟩
  · split at h
    · rename_i hc
      cases h
      subst hc
      exact ⟨C120_exactly.1 (by decide +kernel), by decide, by decide⟩
    · cases h

/-- C121: Lexemes without backslash, each followed by a blank or newline, are read back, with the blanks in between. -/
theorem C121_spaced_partial : ∀ (l : List (Nat × List Byte × Byte)),
    (∀ x ∈ l, Lexeme x.1 x.2.1 ∧ x.1 < 109 ∧ (92 : Byte) ∉ x.2.1 ∧ (blankRule x.2.2).isSome) →
    Tokenises (spaced l) (l.flatMap fun x => [(x.1, x.2.1), ((blankRule x.2.2).getD 0, [x.2.2])])
  | [], _ => .nil
  | (n, u, c) :: l, h => by
    obtain ⟨h1, h2, h3, h4⟩ := h _ List.mem_cons_self
    obtain ⟨m, hm⟩ := Option.isSome_iff_exists.1 h4
    obtain ⟨h5, h6, h7⟩ := blank_lexeme hm
    have ih := C121_spaced_partial l fun x hx => h x (List.mem_cons_of_mem _ hx)
    have t1 : IsToken (u ++ c :: spaced l) n u.length := C121_separated_partial h1 h2 h3 h7
    have t2 : IsToken ([c] ++ spaced l) m 1 := C121_closed h5 h6
    have r2 : Tokenises ([c] ++ spaced l) ((m, [c]) :: _) := Tokenises.cons t2 ih
    have d1 : (u ++ c :: spaced l).drop u.length = [c] ++ spaced l := by simp
    have r1 := Tokenises.cons t1 (d1 ▸ r2)
    rw [List.take_left] at r1
    simp only [hm, Option.getD_some, List.flatMap_cons, List.cons_append, List.nil_append, spaced] at r1 ⊢
    exact r1

/-- C121, violated: `'a\'` is a string ("escaping is not supported", README.md:82), but when another string follows,
the two are read as one token. -/
theorem C121_violated_backslash : Lexeme 79 (bytes "'a\\'") ∧ IsToken (bytes "'a\\'" ++ 32 :: bytes "'b'") 79 6 :=
  ⟨C120_exactly.1 (by decide +kernel), C120_exactly.1 (by decide +kernel)⟩

/-- C121, violated: between double quotes a text that ends with a backslash is no string at all; its first character is
unknown. -/
theorem C121_violated_quote : IsToken (bytes "\"folder\\\"") 112 1 := C120_exactly.1 (by decide +kernel)

/-- C121, violated: `E10`, documented as a number (README.md:81), is none; and `pt`, the integrator of the documented
example (README.md:24), is platinum. -/
theorem C121_violated_documented : IsToken (bytes "E10") 112 1 ∧ IsToken (bytes "pt") 87 2 :=
  ⟨C120_exactly.1 (by decide +kernel), C120_exactly.1 (by decide +kernel)⟩

/-! ## Examples -/

/-- The hypotheses of `C121_separated_partial` and `C121_closed` hold for a keyword, a number, a string and a colon. -/
example : Lexeme 10 (bytes "resolution") ∧ Lexeme 78 (bytes "-.5e3") ∧ Lexeme 79 (bytes "\"a b\"") ∧
    (92 : Byte) ∉ bytes "\"a b\"" ∧ Lexeme 1 (bytes ":") ∧ 1 ∈ closedRules ∧ (58 : Byte) ∈ separators :=
  ⟨C120_exactly.1 (by decide +kernel), C120_exactly.1 (by decide +kernel), C120_exactly.1 (by decide +kernel),
    by decide +kernel, C120_exactly.1 (by decide +kernel), by decide, by decide⟩

example : spaced [(11, bytes "spp", 32), (1, bytes ":", 10), (76, bytes "4", 32)] = bytes "spp :\n4 " := by
  decide +kernel

end Spectre.Scene
