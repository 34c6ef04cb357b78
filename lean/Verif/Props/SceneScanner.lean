import Verif.Props.SceneLexCert

/-!
# The scanner of the scene files finds the longest match (C120)

The specification: `Matches` says what text a pattern matches, `IsToken` what Flex promises: the rule that matches
the longest beginning of the text, and the first such rule if there are several.
-/

namespace Spectre.Scene

/-! ## Specification -/

/-- The texts matched by a pattern. -/
inductive Matches : RE → List Byte → Prop
  | eps : Matches .eps []
  | cls {m : Nat} {b : Byte} (h : m.testBit b.val = true) : Matches (.cls m) [b]
  | seq {r s : RE} {u v : List Byte} (h : Matches r u) (h' : Matches s v) : Matches (.seq r s) (u ++ v)
  | left {r s : RE} {u : List Byte} (h : Matches r u) : Matches (.alt r s) u
  | right {r s : RE} {u : List Byte} (h : Matches s u) : Matches (.alt r s) u
  | nil {r : RE} : Matches (.star r) []
  | cons {r : RE} {u v : List Byte} (h : Matches r u) (h' : Matches (.star r) v) : Matches (.star r) (u ++ v)

/-- Rule number `n` (from 1) matches the text. -/
def RuleMatches (n : Nat) (u : List Byte) : Prop := ∃ m r, n = m + 1 ∧ lexRules[m]? = some r ∧ Matches r.1 u

/-- The token at the beginning of `text` is its first `len` bytes, by rule `n`: no rule matches more, and no rule
before `n` matches as much. -/
structure IsToken (text : List Byte) (n len : Nat) : Prop where
  some_text : 0 < len ∧ len ≤ text.length
  matched : RuleMatches n (text.take len)
  longest : ∀ k n', len < k → k ≤ text.length → ¬ RuleMatches n' (text.take k)
  first : ∀ n', n' < n → ¬ RuleMatches n' (text.take len)

/-- The text is divided into these tokens, one after the other. -/
inductive Tokenises : List Byte → List (Nat × List Byte) → Prop
  | nil : Tokenises [] []
  | cons {text : List Byte} {n len : Nat} {l : List (Nat × List Byte)} (h : IsToken text n len)
      (h' : Tokenises (text.drop len) l) : Tokenises text ((n, text.take len) :: l)

/-! ## Derivatives -/

theorem matches_nil {r : RE} : Matches r [] ↔ nullable r = true := by
  constructor
  · intro h
    generalize hu : ([] : List Byte) = u at h
    induction h with
    | eps => rfl
    | cls h => cases hu
    | seq h h' ih ih' =>
      obtain ⟨rfl, rfl⟩ := List.append_eq_nil_iff.1 hu.symm
      simp [nullable, ih rfl, ih' rfl]
    | left h ih => simp [nullable, ih hu]
    | right h ih => simp [nullable, ih hu]
    | nil => rfl
    | cons h h' ih ih' => rfl
  · intro h
    induction r with
    | eps => exact .eps
    | cls m => cases h
    | seq r s ih ih' =>
      simp only [nullable, Bool.and_eq_true] at h
      have := Matches.seq (ih h.1) (ih' h.2)
      simpa using this
    | alt r s ih ih' =>
      simp only [nullable, Bool.or_eq_true] at h
      rcases h with h | h
      · exact .left (ih h)
      · exact .right (ih' h)
    | star r ih => exact .nil

theorem matches_cat {r s : RE} {u : List Byte} : Matches (cat r s) u ↔ ∃ v w, u = v ++ w ∧ Matches r v ∧ Matches s w := by
  constructor
  · intro h
    cases r with
    | eps => exact ⟨[], u, rfl, .eps, h⟩
    | _ => cases h with | seq h h' => exact ⟨_, _, rfl, h, h'⟩
  · rintro ⟨v, w, rfl, h, h'⟩
    cases r with
    | eps => cases h; exact h'
    | _ => exact .seq h h'

/-- A nonempty text matched by an iteration begins with a nonempty match. -/
theorem star_cons {r : RE} {b : Byte} {u : List Byte} (h : Matches (.star r) (b :: u)) :
    ∃ v w, u = v ++ w ∧ Matches r (b :: v) ∧ Matches (.star r) w := by
  generalize hs : RE.star r = s at h
  generalize hu : b :: u = t at h
  induction h with
  | eps => cases hs
  | cls => cases hs
  | seq => cases hs
  | left => cases hs
  | right => cases hs
  | nil => cases hu
  | @cons r' x y h h' ih ih' =>
    cases hs
    cases x with
    | nil => exact ih' rfl hu
    | cons a x =>
      cases hu
      exact ⟨x, y, rfl, h, h'⟩

theorem matches_pd (b : Byte) : ∀ (r : RE) (u : List Byte), Matches r (b :: u) ↔ ∃ r' ∈ pd b.val r, Matches r' u
  | .eps, u => by
    simp only [pd, List.not_mem_nil, false_and, exists_false, iff_false]
    intro h; cases h
  | .cls m, u => by
    simp only [pd]
    constructor
    · intro h
      cases h with
      | cls h => rw [h]; exact ⟨.eps, by simp, .eps⟩
    · rintro ⟨r', hr, h⟩
      split at hr
      · rename_i hb
        simp only [List.mem_singleton] at hr
        subst hr
        cases h
        exact .cls hb
      · simp at hr
  | .alt r s, u => by
    simp only [pd, List.mem_append]
    constructor
    · intro h
      cases h with
      | left h => obtain ⟨r', h1, h2⟩ := (matches_pd b r u).1 h; exact ⟨r', Or.inl h1, h2⟩
      | right h => obtain ⟨r', h1, h2⟩ := (matches_pd b s u).1 h; exact ⟨r', Or.inr h1, h2⟩
    · rintro ⟨r', h1 | h1, h2⟩
      · exact .left ((matches_pd b r u).2 ⟨r', h1, h2⟩)
      · exact .right ((matches_pd b s u).2 ⟨r', h1, h2⟩)
  | .star r, u => by
    simp only [pd, List.mem_map]
    constructor
    · intro h
      obtain ⟨v, w, rfl, h1, h2⟩ := star_cons h
      obtain ⟨r', h3, h4⟩ := (matches_pd b r v).1 h1
      exact ⟨_, ⟨r', h3, rfl⟩, matches_cat.2 ⟨v, w, rfl, h4, h2⟩⟩
    · rintro ⟨_, ⟨r', h3, rfl⟩, h⟩
      obtain ⟨v, w, rfl, h4, h2⟩ := matches_cat.1 h
      exact Matches.cons ((matches_pd b r v).2 ⟨r', h3, h4⟩) h2
  | .seq r s, u => by
    have key : Matches (.seq r s) (b :: u) ↔
        (∃ r' ∈ (pd b.val r).map (cat · s), Matches r' u) ∨ (nullable r = true ∧ ∃ r' ∈ pd b.val s, Matches r' u) := by
      constructor
      · intro h
        generalize hu : b :: u = t at h
        cases h with
        | @seq _ _ x y h h' =>
          cases x with
          | nil =>
            obtain rfl : b :: u = y := hu
            exact Or.inr ⟨matches_nil.1 h, (matches_pd b s u).1 h'⟩
          | cons a x =>
            cases hu
            obtain ⟨r', h3, h4⟩ := (matches_pd b r x).1 h
            exact Or.inl ⟨_, List.mem_map.2 ⟨r', h3, rfl⟩, matches_cat.2 ⟨x, y, rfl, h4, h'⟩⟩
      · rintro (⟨_, hm, h⟩ | ⟨hn, r', h1, h2⟩)
        · obtain ⟨r', h3, rfl⟩ := List.mem_map.1 hm
          obtain ⟨v, w, rfl, h4, h2⟩ := matches_cat.1 h
          exact Matches.seq (u := b :: v) ((matches_pd b r v).2 ⟨r', h3, h4⟩) h2
        · exact Matches.seq (u := []) (matches_nil.2 hn) ((matches_pd b s u).2 ⟨r', h1, h2⟩)
    rw [key, pd]
    split
    · rename_i hn
      simp only [List.mem_append, hn, true_and]
      constructor
      · rintro (⟨x, h1, h2⟩ | ⟨x, h1, h2⟩)
        · exact ⟨x, Or.inl h1, h2⟩
        · exact ⟨x, Or.inr h1, h2⟩
      · rintro ⟨x, h1 | h1, h2⟩
        · exact Or.inl ⟨x, h1, h2⟩
        · exact Or.inr ⟨x, h1, h2⟩
    · rename_i hn
      simp [hn]

theorem eqRE_eq : ∀ (r s : RE), eqRE r s = true → r = s
  | .eps, .eps, _ => rfl
  | .cls m, .cls n, h => by rw [Nat.eq_of_beq_eq_true h]
  | .seq r s, .seq r' s', h => by
    simp only [eqRE, Bool.and_eq_true] at h
    rw [eqRE_eq r r' h.1, eqRE_eq s s' h.2]
  | .alt r s, .alt r' s', h => by
    simp only [eqRE, Bool.and_eq_true] at h
    rw [eqRE_eq r r' h.1, eqRE_eq s s' h.2]
  | .star r, .star r', h => by
    simp only [eqRE] at h
    rw [eqRE_eq r r' h]
  | .eps, .cls _, h | .eps, .seq _ _, h | .eps, .alt _ _, h | .eps, .star _, h => by cases h
  | .cls _, .eps, h | .cls _, .seq _ _, h | .cls _, .alt _ _, h | .cls _, .star _, h => by cases h
  | .seq _ _, .eps, h | .seq _ _, .cls _, h | .seq _ _, .alt _ _, h | .seq _ _, .star _, h => by cases h
  | .alt _ _, .eps, h | .alt _ _, .cls _, h | .alt _ _, .seq _ _, h | .alt _ _, .star _, h => by cases h
  | .star _, .eps, h | .star _, .cls _, h | .star _, .seq _ _, h | .star _, .alt _ _, h => by cases h

theorem hasEntry_mem {l : List (Nat × RE)} {p : Nat × RE} (h : hasEntry l p = true) : p ∈ l := by
  unfold hasEntry at h
  obtain ⟨x, hx, e⟩ := List.any_eq_true.1 h
  simp only [Bool.and_eq_true] at e
  have h1 := Nat.eq_of_beq_eq_true e.1
  have h2 := eqRE_eq _ _ e.2
  have : x = p := by cases x; cases p; simp_all
  exact this ▸ hx

/-! ## Classes of bytes -/

theorem uniform_cat {r s : RE} (h : uniform r = true) (h' : uniform s = true) : uniform (cat r s) = true := by
  cases r <;> simp_all [cat, uniform]

theorem uniform_pd (b : Nat) : ∀ (r : RE), uniform r = true → ∀ r' ∈ pd b r, uniform r' = true
  | .eps, _, r', h => by simp [pd] at h
  | .cls m, _, r', h => by
    simp only [pd] at h
    split at h
    · simp only [List.mem_singleton] at h; subst h; rfl
    · simp at h
  | .alt r s, hu, r', h => by
    simp only [uniform, Bool.and_eq_true] at hu
    simp only [pd, List.mem_append] at h
    rcases h with h | h
    · exact uniform_pd b r hu.1 r' h
    · exact uniform_pd b s hu.2 r' h
  | .star r, hu, r', h => by
    simp only [pd, List.mem_map] at h
    obtain ⟨x, hx, rfl⟩ := h
    have hr : uniform r = true := by simpa only [uniform] using hu
    exact uniform_cat (uniform_pd b r hr x hx) hu
  | .seq r s, hu, r', h => by
    simp only [uniform, Bool.and_eq_true] at hu
    have key : ∀ x ∈ (pd b r).map (cat · s), uniform x = true := by
      intro x hx
      obtain ⟨y, hy, rfl⟩ := List.mem_map.1 hx
      exact uniform_cat (uniform_pd b r hu.1 y hy) hu.2
    rw [pd] at h
    split at h
    · rcases List.mem_append.1 h with h | h
      · exact key _ h
      · exact uniform_pd b s hu.2 r' h
    · exact key _ h

theorem uniform_bit {m c x y : Nat} (hc : c ∈ classMasks) (h : uniform (.cls m) = true) (hx : c.testBit x = true)
    (hy : c.testBit y = true) : m.testBit x = m.testBit y := by
  simp only [uniform] at h
  have := List.all_eq_true.1 h c hc
  split at this
  · rename_i e
    have z : ∀ i, c.testBit i = true → m.testBit i = false := by
      intro i hi
      have := congrArg (Nat.testBit · i) e
      simpa [Nat.testBit_and, hi] using this
    rw [z x hx, z y hy]
  · rename_i k e
    have e' := Nat.eq_of_beq_eq_true this
    have z : ∀ i, c.testBit i = true → m.testBit i = true := by
      intro i hi
      have := congrArg (Nat.testBit · i) (e.trans e')
      simpa [Nat.testBit_and, hi] using this
    rw [z x hx, z y hy]

theorem pd_uniform {c x y : Nat} (hc : c ∈ classMasks) (hx : c.testBit x = true) (hy : c.testBit y = true) :
    ∀ (r : RE), uniform r = true → pd x r = pd y r
  | .eps, _ => rfl
  | .cls m, h => by rw [pd, pd, uniform_bit hc h hx hy]
  | .alt r s, h => by
    simp only [uniform, Bool.and_eq_true] at h
    rw [pd, pd, pd_uniform hc hx hy r h.1, pd_uniform hc hx hy s h.2]
  | .seq r s, h => by
    simp only [uniform, Bool.and_eq_true] at h
    rw [pd, pd, pd_uniform hc hx hy r h.1, pd_uniform hc hx hy s h.2]
  | .star r, h => by
    simp only [uniform] at h
    rw [pd, pd, pd_uniform hc hx hy r h]

theorem byte_check (b : Byte) : checkByte b.val = true := by
  have := List.all_eq_true.1 lex_bytes b.val (List.mem_range.2 b.isLt)
  exact this

/-- The class of a byte and a representative of it. -/
theorem byte_class (b : Byte) : 0 < classP b.val ∧ classP b.val < 67 ∧
    ∀ r, uniform r = true → pd b.val r = pd (repsN.getD (classP b.val) 0) r := by
  have h := byte_check b
  unfold checkByte at h
  simp only [Bool.and_eq_true] at h
  obtain ⟨⟨⟨⟨h1, h2⟩, h3⟩, h4⟩, -⟩ := h
  rw [Nat.blt_eq] at h1 h2
  refine ⟨h1, h2, fun r hr => ?_⟩
  refine pd_uniform ?_ h3 h4 r hr
  have hl : classP b.val < classMasks.length := by rw [residuals_length.2.2.1]; exact h2
  rw [List.getD_eq_getElem?_getD, List.getElem?_eq_getElem hl]
  exact List.getElem_mem hl

/-! ## The packed tables -/

theorem look_lt {l : List Nat} {p n k : Nat} (h : pack l = p ∧ (∀ z ∈ l, z < k) ∧ l.length = n) (hk : k ≤ 1024) {i : Nat}
    (hi : i < n) : l[i]? = some (look p i) ∧ look p i < k := by
  have e := look_nat (l := l) (p := p) (n := n) ⟨h.1, fun z hz => Nat.lt_of_lt_of_le (h.2.1 z hz) hk, h.2.2⟩ hi
  exact ⟨e, h.2.1 _ (List.mem_of_getElem? e)⟩

theorem follow_eq (fuel : Nat) : ∀ {q c : Nat}, q < 448 → c < 67 → follow fuel q c = followP fuel q c := by
  induction fuel with
  | zero => intros; rfl
  | succ fuel ih =>
    intro q c hq hc
    obtain ⟨e1, l1⟩ := look_lt base_pack (by omega) hq
    have hi : look yyBaseP q + c < 649 := by omega
    obtain ⟨e2, -⟩ := look_lt chk_pack (by omega) hi
    obtain ⟨e3, -⟩ := look_lt nxt_pack (by omega) hi
    obtain ⟨e4, l4⟩ := look_lt def_pack (by omega) hq
    obtain ⟨e5, l5⟩ := look_lt meta_pack (by omega) hc
    rw [follow, followP, e1]
    simp only [e2, e3, e4, e5]
    by_cases h : look yyChkP (look yyBaseP q + c) = q
    · rw [if_pos h, show Nat.beq (look yyChkP (look yyBaseP q + c)) q = true by rw [Nat.beq_eq]; exact h]
    · rw [if_neg h, show Nat.beq (look yyChkP (look yyBaseP q + c)) q = false by
        rw [Bool.eq_false_iff, ne_eq, Nat.beq_eq]; exact h]
      by_cases h' : 444 ≤ look yyDefP q
      · rw [if_pos h', show Nat.ble 444 (look yyDefP q) = true by rw [Nat.ble_eq]; exact h', ih l4 l5]
      · rw [if_neg h', show Nat.ble 444 (look yyDefP q) = false by
          rw [Bool.eq_false_iff, ne_eq, Nat.ble_eq]; exact h', ih l4 hc]

theorem followP_more : ∀ (fuel k : Nat) {q c t : Nat}, followP fuel q c = some t → followP (fuel + k) q c = some t
  | 0, k, q, c, t, h => by cases h
  | fuel + 1, k, q, c, t, h => by
    rw [show fuel + 1 + k = fuel + k + 1 by omega]
    rw [followP] at h ⊢
    split
    · rename_i e; rw [e] at h; exact h
    · rename_i e
      rw [e] at h
      simp only at h
      split
      · rename_i e'; rw [e'] at h; exact followP_more fuel k h
      · rename_i e'; rw [e'] at h; exact followP_more fuel k h

theorem next_eq {q c t : Nat} (hq : q < 448) (hc : c < 67) (h : followP 3 q c = some t) : nextState q c = some t := by
  rw [nextState, follow_eq 448 hq hc]
  exact followP_more 3 445 h

/-! ## States -/

/-- The states reached over bytes. -/
def Valid (q : Nat) : Prop := q = 1 ∨ (3 < q ∧ q < 443)

theorem Valid.lt {q : Nat} (h : Valid q) : q < 443 := by
  rcases h with rfl | h
  · decide
  · exact h.2

theorem states_aux : ∀ (l : List (List (Nat × RE))) (k : Nat), checkLexFrom k l = true → ∀ i, i < l.length →
    3 < k + i → k + i < 443 → checkLexState (k + i) (l.getD i []) = true
  | [], _, _, i, hi, _, _ => by simp at hi
  | x :: xs, k, h, 0, _, h3, h4 => by
    simp only [checkLexFrom, Bool.and_eq_true, Bool.or_eq_true, Bool.not_eq_true'] at h
    rcases h.1 with e | e
    · exfalso
      rw [Bool.and_eq_false_iff] at e
      rcases e with e | e
      · have : Nat.blt 3 k = true := by rw [Nat.blt_eq]; exact h3
        rw [e] at this; cases this
      · have : Nat.blt k 443 = true := by rw [Nat.blt_eq]; exact h4
        rw [e] at this; cases this
    · exact e
  | x :: xs, k, h, i + 1, hi, h3, h4 => by
    simp only [checkLexFrom, Bool.and_eq_true] at h
    have := states_aux xs (k + 1) h.2 i (by simpa using hi) (by omega) (by omega)
    rw [show k + 1 + i = k + (i + 1) by omega] at this
    exact this

theorem state_check {q : Nat} (h : Valid q) : checkLexState q (residualsAt q) = true := by
  rcases h with rfl | ⟨h3, h4⟩
  · exact lex_start
  · have := states_aux residuals 0 lex_states q (by rw [residuals_length.1]; omega) (by omega) (by omega)
    rw [Nat.zero_add] at this
    rw [residualsAt, show Nat.beq q 1 = false by rw [Bool.eq_false_iff, ne_eq, Nat.beq_eq]; omega]
    exact this

theorem classes_aux {q : Nat} {l : List (Nat × RE)} : ∀ (bs : List Nat) (k : Nat), checkClasses q l k bs = true →
    ∀ i, i < bs.length → checkCell q l (k + i) (bs.getD i 0) = true
  | [], _, _, i, hi => by simp at hi
  | x :: xs, k, h, 0, _ => by
    simp only [checkClasses, Bool.and_eq_true] at h
    exact h.1
  | x :: xs, k, h, i + 1, hi => by
    simp only [checkClasses, Bool.and_eq_true] at h
    have := classes_aux xs (k + 1) h.2 i (by simpa using hi)
    rw [show k + 1 + i = k + (i + 1) by omega] at this
    exact this

theorem cell_check {q c : Nat} (h : Valid q) (h0 : 0 < c) (hc : c < 67) :
    checkCell q (residualsAt q) c (repsN.getD c 0) = true := by
  have := state_check h
  simp only [checkLexState, Bool.and_eq_true] at this
  obtain ⟨⟨⟨⟨h1, -⟩, -⟩, -⟩, -⟩ := this
  obtain ⟨k, rfl⟩ : ∃ k, c = 1 + k := ⟨c - 1, by omega⟩
  have := classes_aux _ _ h1 k (by rw [List.length_tail, residuals_length.2.1]; omega)
  rwa [show repsN.tail.getD k 0 = repsN.getD (1 + k) 0 by
    rw [List.getD_eq_getElem?_getD, List.getD_eq_getElem?_getD, List.getElem?_tail, Nat.add_comm]] at this

/-- The text `u` may follow in state `q`, completing a match of rule `n`. -/
def Lang (q n : Nat) (u : List Byte) : Prop := ∃ r, (n, r) ∈ residualsAt q ∧ Matches r u

/-- All expressions of a state are made of classes of the scanner. -/
def Uni (q : Nat) : Prop := ∀ p ∈ residualsAt q, uniform p.2 = true

theorem mem_derive {b : Nat} {l : List (Nat × RE)} {p : Nat × RE} :
    p ∈ derive b l ↔ ∃ r, (p.1, r) ∈ l ∧ p.2 ∈ pd b r := by
  simp only [derive, List.mem_flatMap, List.mem_map]
  constructor
  · rintro ⟨x, hx, r, hr, rfl⟩
    exact ⟨x.2, hx, hr⟩
  · rintro ⟨r, h, h'⟩
    exact ⟨_, h, p.2, h', rfl⟩

/-- One step over a byte: either nothing can match any more, or the next state describes what may follow. -/
theorem step_byte {q : Nat} (hq : Valid q) (hu : Uni q) (b : Byte) :
    ∃ t, nextState q (classP b.val) = some t ∧
      ((t = 443 ∧ ∀ n u, ¬ Lang q n (b :: u)) ∨
       ((3 < t ∧ t < 443) ∧ Uni t ∧ ∀ n u, Lang q n (b :: u) ↔ Lang t n u)) := by
  obtain ⟨h0, h1, hp⟩ := byte_class b
  have h := cell_check hq h0 h1
  unfold checkCell at h
  have lq := hq.lt
  split at h
  · cases h
  rename_i t e
  refine ⟨t, next_eq (by omega) h1 e, ?_⟩
  have hl : ∀ n u, Lang q n (b :: u) ↔ ∃ r, (n, r) ∈ derive (repsN.getD (classP b.val) 0) (residualsAt q) ∧ Matches r u := by
    intro n u
    constructor
    · rintro ⟨r, hm, hr⟩
      obtain ⟨r', h2, h3⟩ := (matches_pd b r u).1 hr
      rw [hp r (hu _ hm)] at h2
      exact ⟨r', mem_derive.2 ⟨r, hm, h2⟩, h3⟩
    · rintro ⟨r', hm, hr⟩
      obtain ⟨r, h2, h3⟩ := mem_derive.1 hm
      refine ⟨r, h2, (matches_pd b r u).2 ⟨r', ?_, hr⟩⟩
      rw [hp r (hu _ h2)]
      exact h3
  split at h
  · rename_i et
    split at h
    · rename_i ed
      refine Or.inl ⟨Nat.eq_of_beq_eq_true et, fun n u hh => ?_⟩
      obtain ⟨r, hm, -⟩ := (hl n u).1 hh
      rw [ed] at hm
      simp at hm
    · cases h
  · simp only [Bool.and_eq_true] at h
    obtain ⟨⟨⟨h3, h4⟩, h5⟩, h6⟩ := h
    rw [Nat.blt_eq] at h3 h4
    have hm : ∀ p, p ∈ derive (repsN.getD (classP b.val) 0) (residualsAt q) ↔ p ∈ residualsAt t := fun p =>
      ⟨fun hp => hasEntry_mem (List.all_eq_true.1 h5 p hp), fun hp => hasEntry_mem (List.all_eq_true.1 h6 p hp)⟩
    refine Or.inr ⟨⟨h3, h4⟩, fun p hpm => ?_, fun n u => ?_⟩
    · obtain ⟨r, h7, h8⟩ := mem_derive.1 ((hm p).2 hpm)
      exact uniform_pd _ r (hu _ h7) _ h8
    · rw [hl]
      simp only [hm]
      rfl

theorem mem_numbered : ∀ (l : List (RE × RuleAction)) (k n : Nat) (r : RE),
    (n, r) ∈ numbered l k ↔ ∃ m a, n = k + m ∧ l[m]? = some (r, a)
  | [], k, n, r => by simp [numbered]
  | x :: xs, k, n, r => by
    simp only [numbered, List.mem_cons, Prod.mk.injEq, mem_numbered xs (k + 1) n r]
    constructor
    · rintro (⟨rfl, rfl⟩ | ⟨m, a, rfl, h⟩)
      · exact ⟨0, x.2, rfl, rfl⟩
      · exact ⟨m + 1, a, by omega, h⟩
    · rintro ⟨m, a, rfl, h⟩
      cases m with
      | zero =>
        simp only [List.getElem?_cons_zero, Option.some.injEq] at h
        exact Or.inl ⟨rfl, by rw [h]⟩
      | succ m => exact Or.inr ⟨m, a, by omega, h⟩

theorem lang_start (n : Nat) (u : List Byte) : Lang 1 n u ↔ RuleMatches n u := by
  unfold Lang RuleMatches
  rw [show residualsAt 1 = numbered lexRules 1 from rfl]
  constructor
  · rintro ⟨r, h, hm⟩
    obtain ⟨m, a, rfl, e⟩ := (mem_numbered _ _ _ _).1 h
    exact ⟨m, _, by omega, e, hm⟩
  · rintro ⟨m, r, rfl, e, hm⟩
    exact ⟨r.1, (mem_numbered _ _ _ _).2 ⟨m, r.2, by omega, e⟩, hm⟩

theorem uni_start : Uni 1 := by
  intro p h
  rw [show residualsAt 1 = numbered lexRules 1 from rfl] at h
  obtain ⟨m, a, -, e⟩ := (mem_numbered _ _ p.1 p.2).1 h
  exact List.all_eq_true.1 lex_uniform _ (List.mem_of_getElem? e)

theorem leastNull_spec : ∀ (l : List (Nat × RE)), (∀ p ∈ l, 0 < p.1) →
    (leastNull l = 0 → ∀ p ∈ l, nullable p.2 = false) ∧
    (0 < leastNull l → (∃ r, (leastNull l, r) ∈ l ∧ nullable r = true) ∧
      ∀ p ∈ l, nullable p.2 = true → leastNull l ≤ p.1)
  | [], _ => by simp [leastNull]
  | p :: l, h => by
    obtain ⟨i0, i1⟩ := leastNull_spec l (fun x hx => h x (List.mem_cons_of_mem _ hx))
    have hp := h p List.mem_cons_self
    unfold leastNull
    split
    · rename_i hn
      refine ⟨fun e x hx => ?_, fun e => ?_⟩
      · rcases List.mem_cons.1 hx with rfl | hx
        · exact hn
        · exact i0 e x hx
      · obtain ⟨⟨r, h1, h2⟩, h3⟩ := i1 e
        refine ⟨⟨r, List.mem_cons_of_mem _ h1, h2⟩, fun x hx hx' => ?_⟩
        rcases List.mem_cons.1 hx with rfl | hx
        · rw [hn] at hx'; cases hx'
        · exact h3 x hx hx'
    · rename_i hn
      split
      · rename_i e
        refine ⟨fun e => by omega, fun _ => ⟨⟨p.2, List.mem_cons_self, hn⟩, fun x hx hx' => ?_⟩⟩
        rcases List.mem_cons.1 hx with rfl | hx
        · exact Nat.le_refl _
        · rw [i0 e x hx] at hx'; cases hx'
      · rename_i m e
        rw [e] at i1
        obtain ⟨⟨r, h1, h2⟩, h3⟩ := i1 (by omega)
        split
        · rename_i hb
          rw [Nat.ble_eq] at hb
          refine ⟨fun e => by omega, fun _ => ⟨⟨p.2, List.mem_cons_self, hn⟩, fun x hx hx' => ?_⟩⟩
          rcases List.mem_cons.1 hx with rfl | hx
          · exact Nat.le_refl _
          · exact Nat.le_trans hb (h3 x hx hx')
        · rename_i hb
          have hb' : ¬ p.1 ≤ m + 1 := by
            intro hc
            rw [show Nat.ble p.1 (m + 1) = true by rw [Nat.ble_eq]; exact hc] at hb
            cases hb
          refine ⟨fun e => by omega, fun _ => ⟨⟨r, List.mem_cons_of_mem _ h1, h2⟩, fun x hx hx' => ?_⟩⟩
          rcases List.mem_cons.1 hx with rfl | hx
          · omega
          · exact h3 x hx hx'

/-- The rule accepted in a state is the least one that matches what has been read. -/
theorem accept_spec {q : Nat} (h : Valid q) : yyAccept[q]? = some (look yyAcceptP q) ∧ look yyAcceptP q < 113 ∧
    nextState q 0 = some 3 ∧ (look yyAcceptP q = 0 → ∀ n, ¬ Lang q n []) ∧
    (0 < look yyAcceptP q → Lang q (look yyAcceptP q) [] ∧ ∀ n, Lang q n [] → look yyAcceptP q ≤ n) := by
  have hl := h.lt
  have := state_check h
  simp only [checkLexState, Bool.and_eq_true] at this
  obtain ⟨⟨⟨⟨-, h2⟩, h3⟩, h4⟩, h5⟩ := this
  have e := Nat.eq_of_beq_eq_true h2
  rw [Nat.blt_eq] at h3
  obtain ⟨s0, s1⟩ := leastNull_spec (residualsAt q) (fun p hp => by
    have := List.all_eq_true.1 h5 p hp
    rwa [Nat.blt_eq] at this)
  refine ⟨look_nat accept_pack (by omega), h3, ?_, fun z n => ?_, fun z => ?_⟩
  · unfold isState at h4
    split at h4
    · cases h4
    · rename_i x ex
      rw [Nat.eq_of_beq_eq_true h4] at ex
      exact next_eq (by omega) (by omega) ex
  · rintro ⟨r, hm, hr⟩
    have := s0 (e ▸ z) _ hm
    rw [matches_nil.1 hr] at this
    cases this
  · rw [e] at z ⊢
    obtain ⟨⟨r, h6, h7⟩, h8⟩ := s1 z
    refine ⟨⟨r, h6, matches_nil.2 h7⟩, ?_⟩
    rintro n ⟨r', hm, hr⟩
    exact h8 _ hm (matches_nil.1 hr)

/-! ## Reading the text -/

/-- The state after the first `p` bytes; `none` once nothing can match any more. -/
def stateAt (text : List Byte) : Nat → Option Nat
  | 0 => some 1
  | p + 1 =>
    match stateAt text p, text[p]? with
    | some q, some b =>
      match nextState q (classP b.val) with
      | some t => if t = 443 then none else some t
      | none => none
    | _, _ => none

/-- The last accepting state before position `p`, with its position. -/
def recs (text : List Byte) : Nat → Last
  | 0 => none
  | p + 1 =>
    match stateAt text p with
    | none => recs text p
    | some q => if look yyAcceptP q = 0 then recs text p else some (q, p)

theorem accept_one : look yyAcceptP 1 = 0 := by
  have := lex_eob
  simp only [Bool.and_eq_true] at this
  exact Nat.eq_of_beq_eq_true this.2

theorem accept_three : look yyAcceptP 3 = 114 := by
  have := lex_eob
  simp only [Bool.and_eq_true] at this
  exact Nat.eq_of_beq_eq_true this.1.2

theorem eob_next {c : Nat} (hc : c < 67) : nextState 3 c = some 443 := by
  have := lex_eob
  simp only [Bool.and_eq_true] at this
  have key : ∀ n, allClasses 3 443 n = true → ∀ c, c < n → isState 443 (followP 3 3 c) = true := by
    intro n
    induction n with
    | zero => intro _ c hc; omega
    | succ n ih =>
      intro h c hc
      simp only [allClasses, Bool.and_eq_true] at h
      by_cases e : c = n
      · rw [e]; exact h.1
      · exact ih h.2 c (by omega)
  have h := key 67 this.1.1 c hc
  unfold isState at h
  split at h
  · cases h
  · rename_i x e
    rw [Nat.eq_of_beq_eq_true h] at e
    exact next_eq (by omega) hc e

/-- What is known about the state after `p` bytes. -/
structure At (text : List Byte) (p q : Nat) : Prop where
  valid : Valid q
  uni : Uni q
  zero : p = 0 ↔ q = 1
  le : p ≤ text.length
  lang : ∀ n u, RuleMatches n (text.take p ++ u) ↔ Lang q n u

theorem at_step {text : List Byte} {p q : Nat} (h : At text p q) {b : Byte} (hb : text[p]? = some b) :
    ∃ t, nextState q (classP b.val) = some t ∧
      ((t = 443 ∧ ∀ n u, ¬ Lang q n (b :: u)) ∨ (t ≠ 443 ∧ At text (p + 1) t)) := by
  obtain ⟨t, h1, h2 | ⟨⟨h3, h4⟩, h5, h6⟩⟩ := step_byte h.valid h.uni b
  · exact ⟨t, h1, Or.inl h2⟩
  · have hlen : p < text.length := by
      rcases Nat.lt_or_ge p text.length with hl | hl
      · exact hl
      · rw [List.getElem?_eq_none hl] at hb; cases hb
    refine ⟨t, h1, Or.inr ⟨by omega, Or.inr ⟨h3, h4⟩, h5, by omega, hlen, fun n u => ?_⟩⟩
    rw [List.take_add_one, hb]
    simp only [Option.toList_some, List.append_assoc, List.cons_append, List.nil_append]
    rw [h.lang, h6]

theorem at_state {text : List Byte} : ∀ {p q : Nat}, stateAt text p = some q → At text p q
  | 0, q, h => by
    simp only [stateAt, Option.some.injEq] at h
    subst h
    exact ⟨Or.inl rfl, uni_start, by simp, Nat.zero_le _, fun n u => by simp [lang_start]⟩
  | p + 1, q, h => by
    rw [stateAt] at h
    split at h
    · rename_i q' b hq hb
      obtain ⟨t, h1, h2⟩ := at_step (at_state hq) hb
      rw [h1] at h
      simp only at h
      split at h
      · cases h
      · rename_i ht
        cases h
        rcases h2 with ⟨e, -⟩ | ⟨-, h2⟩
        · exact absurd e ht
        · exact h2
    · cases h

theorem state_none {text : List Byte} : ∀ {p : Nat}, stateAt text p = none → ∀ k n, p ≤ k → k ≤ text.length →
    ¬ RuleMatches n (text.take k)
  | 0, h => by simp [stateAt] at h
  | p + 1, h => by
    intro k n hk hl hm
    cases hs : stateAt text p with
    | none => exact state_none hs k n (by omega) hl hm
    | some q =>
      have hb : text[p]? = some text[p] := List.getElem?_eq_getElem (by omega)
      have ha := at_state hs
      obtain ⟨t, h1, h2⟩ := at_step ha hb
      rw [stateAt, hs, hb] at h
      simp only [h1] at h
      split at h
      · rename_i ht
        rcases h2 with ⟨-, h2⟩ | ⟨h2, -⟩
        · have e : text.take k = text.take p ++ text[p] :: (text.drop (p + 1)).take (k - (p + 1)) := by
            conv_lhs => rw [show k = p + 1 + (k - (p + 1)) by omega, List.take_add, List.take_add_one, hb]
            rw [Option.toList_some, List.append_assoc]
            rfl
          rw [e, ha.lang] at hm
          exact h2 _ _ hm
        · exact absurd ht h2
      · cases h

theorem recs_some {text : List Byte} : ∀ {p : Nat} {q k : Nat}, recs text p = some (q, k) →
    k < p ∧ stateAt text k = some q ∧ 0 < look yyAcceptP q ∧
    ∀ j q', k < j → j < p → stateAt text j = some q' → look yyAcceptP q' = 0
  | 0, q, k, h => by simp [recs] at h
  | p + 1, q, k, h => by
    rw [recs] at h
    split at h
    · rename_i hs
      obtain ⟨h1, h2, h3, h4⟩ := recs_some h
      refine ⟨by omega, h2, h3, fun j q' hj hp hq => ?_⟩
      by_cases e : j = p
      · rw [e, hs] at hq; cases hq
      · exact h4 j q' hj (by omega) hq
    · rename_i q₁ hs
      split at h
      · rename_i ha
        obtain ⟨h1, h2, h3, h4⟩ := recs_some h
        refine ⟨by omega, h2, h3, fun j q' hj hp hq => ?_⟩
        by_cases e : j = p
        · rw [e, hs] at hq; cases hq; exact ha
        · exact h4 j q' hj (by omega) hq
      · cases h
        exact ⟨by omega, hs, by omega, fun j q' hj hp => by omega⟩

/-- The first byte leads to an accepting state. -/
theorem state_first {text : List Byte} (h : text ≠ []) : ∃ q, stateAt text 1 = some q ∧ 0 < look yyAcceptP q := by
  cases text with
  | nil => exact absurd rfl h
  | cons b text =>
    have hb := byte_check b
    unfold checkByte at hb
    simp only [Bool.and_eq_true] at hb
    obtain ⟨⟨⟨⟨-, hc⟩, -⟩, -⟩, hb⟩ := hb
    rw [Nat.blt_eq] at hc
    split at hb
    · cases hb
    · rename_i t e
      rw [Nat.blt_eq] at hb
      have hn := next_eq (by omega) hc e
      obtain ⟨t', h1, h2⟩ := at_step (text := b :: text) (p := 0) (q := 1) (at_state rfl) (b := b) rfl
      rw [hn] at h1
      cases h1
      have h443 : t ≠ 443 := by
        rcases h2 with ⟨rfl, h2⟩ | ⟨h2, -⟩
        · intro _
          have : look yyAcceptP 443 = 0 := by decide +kernel
          omega
        · exact h2
      refine ⟨t, ?_, hb⟩
      rw [stateAt]
      simp only [stateAt, List.getElem?_cons_zero, hn, if_neg h443]

theorem recs_later {text : List Byte} (h : text ≠ []) : ∀ p, ∃ x, recs text (p + 2) = some x
  | 0 => by
    obtain ⟨q, h1, h2⟩ := state_first h
    rw [recs, h1]
    exact ⟨_, if_neg (by omega)⟩
  | p + 1 => by
    obtain ⟨x, hx⟩ := recs_later h p
    rw [recs]
    split
    · exact ⟨x, hx⟩
    · split
      · exact ⟨x, hx⟩
      · exact ⟨_, rfl⟩

/-- The last accepting state is the token. -/
theorem token_of {text : List Byte} {p q k : Nat} (h : recs text p = some (q, k)) (hp : p ≤ text.length + 1)
    (hn : p ≤ text.length → stateAt text p = none) : IsToken text (look yyAcceptP q) k := by
  obtain ⟨h1, h2, h3, h4⟩ := recs_some h
  have ha := at_state h2
  obtain ⟨-, -, -, -, hs⟩ := accept_spec ha.valid
  obtain ⟨s1, s2⟩ := hs h3
  have hk := ha.le
  have hl : ∀ n, RuleMatches n (text.take k) ↔ Lang q n [] := fun n => by
    have := ha.lang n []
    rwa [List.append_nil] at this
  refine ⟨⟨?_, hk⟩, (hl _).2 s1, fun j n' hj hjl hm => ?_, fun n' hn' hm => ?_⟩
  · rcases Nat.eq_zero_or_pos k with e | e
    · rw [ha.zero.1 e, accept_one] at h3; omega
    · exact e
  · cases hs : stateAt text j with
    | none => exact state_none hs j n' (Nat.le_refl _) hjl hm
    | some q' =>
      have ha' := at_state hs
      have hm' : Lang q' n' [] := by
        have := ha'.lang n' []
        rw [List.append_nil] at this
        exact this.1 hm
      rcases Nat.lt_or_ge j p with hjp | hjp
      · exact (accept_spec ha'.valid).2.2.2.1 (h4 j q' hj hjp hs) n' hm'
      · have : ∀ d, stateAt text (p + d) = none := by
          intro d
          induction d with
          | zero => exact hn (by omega)
          | succ d ih => rw [← Nat.add_assoc, stateAt, ih]
        rw [show j = p + (j - p) by omega, this] at hs
        cases hs
  · have := s2 n' ((hl n').1 hm)
    omega

/-! ## The machine -/

theorem char_lt {text : List Byte} {p : Nat} (h : p < text.length) : charAt text p = some text[p].val := by
  rw [charAt, if_pos (by omega), List.getD_eq_getElem?_getD, List.getElem?_eq_getElem h]
  rfl

theorem char_end {text : List Byte} {p : Nat} (h : text.length ≤ p) (h' : p ≤ text.length + 1) :
    charAt text p = some 0 := by
  rw [charAt, if_pos (by omega), List.getD_eq_getElem?_getD, List.getElem?_eq_none h]
  rfl

theorem char_class {text : List Byte} {p b : Nat} (h : charAt text p = some b) : ∃ c, yyEc[b]? = some c ∧ c < 67 := by
  have hb : b < 256 := by
    rw [charAt] at h
    split at h
    · cases h; exact Fin.isLt _
    · cases h
  obtain ⟨e, l⟩ := look_lt ec_pack (by omega) hb
  exact ⟨_, e, l⟩

theorem class_eq (b : Byte) (h : b.val ≠ 0) : yyEc[b.val]? = some (classP b.val) := by
  obtain ⟨e, -⟩ := look_lt ec_pack (by omega) b.isLt
  rw [e]
  obtain ⟨k, hk⟩ : ∃ k, b.val = k + 1 := ⟨b.val - 1, by omega⟩
  rw [hk]
  rfl

/-- The remembered state is the last accepting one before `p`, if there is one. -/
def Agree (text : List Byte) (last : Last) (p : Nat) : Prop := ∀ x, recs text p = some x → last = some x

theorem remember_agree {text : List Byte} {p q : Nat} {last : Last} (hs : stateAt text p = some q)
    (h : Agree text last p) : ∃ last', remember' q p last = some last' ∧ Agree text last' (p + 1) := by
  have ha := at_state hs
  obtain ⟨e, -⟩ := accept_spec ha.valid
  rw [remember', e]
  cases hq : look yyAcceptP q with
  | zero =>
    refine ⟨last, rfl, fun x hx => ?_⟩
    rw [recs, hs] at hx
    simp only [hq, if_true] at hx
    exact h x hx
  | succ a =>
    refine ⟨some (q, p), rfl, fun x hx => ?_⟩
    rw [recs, hs] at hx
    simp only [hq] at hx
    rw [if_neg (by omega)] at hx
    exact hx

theorem state_succ {text : List Byte} {p q : Nat} (hs : stateAt text p = some q) (hp : p < text.length) :
    ∃ t, nextState q (classP text[p].val) = some t ∧ t < 444 ∧ 1 < t ∧ stateAt text (p + 1) = if t = 443 then none else some t := by
  obtain ⟨t, h1, h2⟩ := at_step (at_state hs) (List.getElem?_eq_getElem hp)
  refine ⟨t, h1, ?_, ?_, ?_⟩
  · rcases h2 with ⟨rfl, -⟩ | ⟨-, h2⟩
    · omega
    · have := h2.valid.lt; omega
  · rcases h2 with ⟨rfl, -⟩ | ⟨-, h2⟩
    · omega
    · rcases h2.valid with e | e
      · have := h2.zero.2 e; omega
      · omega
  · rw [stateAt, hs, List.getElem?_eq_getElem hp]
    simp only [h1]

/-- The matching loop ends where nothing can match any more, or at a byte 0. -/
theorem loop_spec {text : List Byte} : ∀ (d p q fuel : Nat) (last : Last), text.length = p + d → d + 2 ≤ fuel →
    stateAt text p = some q → Agree text last p →
    ∃ p' q', p ≤ p' ∧ p' ≤ text.length ∧ stateAt text p' = some q' ∧
      ((p' < text.length ∧ stateAt text (p' + 1) = none ∧
        ∃ last', matchLoop text fuel q p last = some last' ∧ Agree text last' (p' + 1)) ∨
       (charAt text p' = some 0 ∧ matchLoop text fuel q p last = some (some (3, p' + 1)))) := by
  intro d
  induction d with
  | zero =>
    intro p q fuel last hl hf hs ha
    obtain ⟨fuel, rfl⟩ : ∃ k, fuel = k + 2 := ⟨fuel - 2, by omega⟩
    refine ⟨p, q, Nat.le_refl _, by omega, hs, Or.inr ⟨char_end (by omega) (by omega), ?_⟩⟩
    exact eob_end (char_end (by omega) (by omega)) (by omega) hs ha
  | succ d ih =>
    intro p q fuel last hl hf hs ha
    have hp : p < text.length := by omega
    obtain ⟨fuel, rfl⟩ : ∃ k, fuel = k + 2 := ⟨fuel - 2, by omega⟩
    by_cases hb : text[p].val = 0
    · have hc : charAt text p = some 0 := by rw [char_lt hp, hb]
      exact ⟨p, q, Nat.le_refl _, by omega, hs, Or.inr ⟨hc, eob_end hc (by omega) hs ha⟩⟩
    · obtain ⟨last', hr, ha'⟩ := remember_agree hs ha
      obtain ⟨t, h1, h2, -, h3⟩ := state_succ hs hp
      have e : matchLoop text (fuel + 2) q p last =
          if t = 443 then some last' else matchLoop text (fuel + 1) t (p + 1) last' := by
        rw [matchLoop, char_lt hp]
        simp only [class_eq _ hb, hr, h1]
      by_cases ht : t = 443
      · rw [if_pos ht] at e h3
        exact ⟨p, q, Nat.le_refl _, by omega, hs, Or.inl ⟨hp, h3, last', e, ha'⟩⟩
      · rw [if_neg ht] at e h3
        obtain ⟨p', q', i1, i2, i3, i4⟩ := ih (p + 1) t (fuel + 1) last' (by omega) (by omega) h3 ha'
        rw [← e] at i4
        exact ⟨p', q', by omega, i2, i3, i4⟩
where
  eob_end {text : List Byte} {p q fuel : Nat} {last : Last} (hc : charAt text p = some 0) (hp : p ≤ text.length)
      (hs : stateAt text p = some q) (ha : Agree text last p) :
      matchLoop text (fuel + 2) q p last = some (some (3, p + 1)) := by
    obtain ⟨last', hr, -⟩ := remember_agree hs ha
    have h0 : yyEc[0]? = some 0 := by decide +kernel
    have h3 : yyAccept[3]? = some 114 := by decide +kernel
    have ⟨b, hb⟩ : ∃ b, charAt text (p + 1) = some b := by
      rw [charAt, if_pos (by omega)]
      exact ⟨_, rfl⟩
    obtain ⟨c, hc', hl⟩ := char_class hb
    rw [matchLoop, hc]
    simp only [h0, hr, (accept_spec (at_state hs).valid).2.2.1]
    rw [if_neg (by omega), matchLoop, hb]
    simp only [hc', remember', h3, eob_next hl, if_true]

theorem prev_spec {text : List Byte} : ∀ (n q : Nat) (last : Last), stateAt text n = some q →
    ∃ last', prevState text n last = some (q, last') ∧ Agree text last' n
  | 0, q, last, h => by
    simp only [stateAt, Option.some.injEq] at h
    subst h
    exact ⟨last, rfl, fun x hx => by simp [recs] at hx⟩
  | n + 1, q, last, h => by
    have hn : n < text.length := (at_state h).le
    cases hs : stateAt text n with
    | none => rw [stateAt, hs] at h; cases h
    | some q₀ =>
      obtain ⟨l₁, h1, h2⟩ := prev_spec n q₀ last hs
      obtain ⟨l₂, h3, h4⟩ := remember_agree hs h2
      obtain ⟨t, h5, -, -, h6⟩ := state_succ hs hn
      rw [h] at h6
      split at h6
      · cases h6
      cases h6
      refine ⟨l₂, ?_, h4⟩
      rw [prevState, h1, char_lt hn]
      have hc : (if text[n].val = 0 then some 1 else yyEc[text[n].val]?) = some (classP text[n].val) := by
        split
        · rename_i e; rw [e]; rfl
        · rename_i e; exact class_eq _ e
      simp only [hc, h3, h5]

/-- At an accepting state the action of its rule follows. -/
theorem action_token {text : List Byte} {fuel q k : Nat} {last : Last} (hq : Valid q) (ha : 0 < look yyAcceptP q) :
    lexFrom text (fuel + 1) last (.action q k) = some (.token (look yyAcceptP q) k) := by
  obtain ⟨e, hl, -⟩ := accept_spec hq
  rw [lexFrom.eq_def]
  simp only [e]
  generalize look yyAcceptP q = a at *
  split
  · rename_i h; cases h
  · rename_i h; simp only [Option.some.injEq] at h; omega
  · rename_i h; simp only [Option.some.injEq] at h; omega
  · rename_i h; rw [Option.some.inj h]

theorem lex_spec {text : List Byte} : ∀ (d p q fuel : Nat) (last : Last), text.length = p + d → 2 * d + 4 ≤ fuel →
    stateAt text p = some q → Agree text last p →
    (text = [] ∧ lexFrom text fuel last (.matching q p) = some .eof) ∨
    ∃ r k, lexFrom text fuel last (.matching q p) = some (.token r k) ∧ IsToken text r k := by
  intro d
  induction d using Nat.strongRecOn with
  | _ d ih =>
    intro p q fuel last hl hf hs ha
    obtain ⟨fuel, rfl⟩ : ∃ k, fuel = k + 4 := ⟨fuel - 4, by omega⟩
    obtain ⟨p', q', h1, h2, h3, h4⟩ := loop_spec d p q (text.length + 3) last hl (by omega) hs ha
    -- the last accepting state is a token
    have fin : ∀ (f : Nat) (L : Last) (x : Nat × Nat) (j : Nat), recs text j = some x → j ≤ text.length + 1 →
        (j ≤ text.length → stateAt text j = none) →
        ∃ r k, lexFrom text (f + 1) L (.action x.1 x.2) = some (.token r k) ∧ IsToken text r k := by
      intro f L x j hx hj hn
      have hr := recs_some (q := x.1) (k := x.2) hx
      exact ⟨_, _, action_token (at_state hr.2.1).valid hr.2.2.1, token_of hx hj hn⟩
    rcases h4 with ⟨h5, h6, last', h7, h8⟩ | ⟨h5, h7⟩
    · -- nothing matches any more
      right
      have hne : text ≠ [] := by rintro rfl; simp at h5
      have hp' : 0 < p' := by
        rcases Nat.eq_zero_or_pos p' with e | e
        · obtain ⟨q₁, e1, -⟩ := state_first hne
          rw [e, e1] at h6; cases h6
        · exact e
      obtain ⟨x, hx⟩ := recs_later hne (p' - 1)
      rw [show p' - 1 + 2 = p' + 1 by omega] at hx
      obtain rfl := h8 x hx
      obtain ⟨r, k, e1, e2⟩ := fin (fuel + 2) (some x) x (p' + 1) hx (by omega) (fun _ => h6)
      refine ⟨r, k, ?_, e2⟩
      rw [lexFrom, h7]
      exact e1
    · have h3' : yyAccept[3]? = some 114 := by decide +kernel
      obtain ⟨last₁, p1, p2⟩ := prev_spec (text := text) p' q' (some (3, p' + 1)) h3
      have e0 : lexFrom text (fuel + 4) last (.matching q p) =
          lexFrom text (fuel + 3) (some (3, p' + 1)) (.action 3 (p' + 1)) := by
        rw [lexFrom, h7]
      by_cases hlt : p' < text.length
      · -- a byte 0 of the file
        right
        have hne : text ≠ [] := by rintro rfl; simp at hlt
        have hb : text[p'].val = 0 := by
          rw [char_lt hlt] at h5
          exact Option.some.inj h5
        obtain ⟨last₂, r1, r2⟩ := remember_agree h3 p2
        obtain ⟨t, n1, n2, n4, n3⟩ := state_succ h3 hlt
        rw [hb] at n1
        have et : tryNul q' p' last₁ = some (if t = 443 then 0 else t, last₂) := by
          rw [tryNul, r1, show nextState q' 1 = some t from n1]
        by_cases ht : t = 443
        · rw [if_pos ht] at n3 et
          have hp' : 0 < p' := by
            rcases Nat.eq_zero_or_pos p' with e | e
            · obtain ⟨q₁, e1, -⟩ := state_first hne
              rw [e, e1] at n3; cases n3
            · exact e
          obtain ⟨x, hx⟩ := recs_later hne (p' - 1)
          rw [show p' - 1 + 2 = p' + 1 by omega] at hx
          obtain rfl := r2 x hx
          obtain ⟨r, k, e1, e2⟩ := fin (fuel + 1) (some x) x (p' + 1) hx (by omega) (fun _ => n3)
          refine ⟨r, k, ?_, e2⟩
          rw [e0, lexFrom, h3']
          simp only [if_pos (show p' + 1 ≤ text.length from hlt), Nat.add_sub_cancel, p1, et]
          exact e1
        · rw [if_neg ht] at n3 et
          have hne' := ih (text.length - (p' + 1)) (by omega) (p' + 1) t (fuel + 2) last₂ (by omega) (by omega) n3 r2
          rcases hne' with ⟨e, -⟩ | ⟨r, k, e1, e2⟩
          · exact absurd e hne
          · refine ⟨r, k, ?_, e2⟩
            rw [e0, lexFrom, h3']
            obtain ⟨t, rfl⟩ : ∃ j, t = j + 1 := ⟨t - 1, by omega⟩
            simp only [if_pos (show p' + 1 ≤ text.length from hlt), Nat.add_sub_cancel, p1, et]
            exact e1
      · -- the end of the file
        have hend : p' = text.length := by omega
        by_cases hz : text.length = 0
        · left
          refine ⟨List.eq_nil_of_length_eq_zero hz, ?_⟩
          rw [e0, lexFrom, h3']
          simp only
          rw [if_neg (by omega), if_pos (by omega), if_pos (by omega)]
        · right
          have hne : text ≠ [] := by rintro rfl; simp at hz
          obtain ⟨last₁, p1, p2⟩ := prev_spec (text := text) text.length q' (some (3, p' + 1)) (hend ▸ h3)
          have e1 : lexFrom text (fuel + 3) (some (3, p' + 1)) (.action 3 (p' + 1)) =
              lexFrom text (fuel + 2) last₁ (.action q' text.length) := by
            rw [lexFrom, h3']
            simp only
            rw [if_neg (by omega), if_pos (by omega), if_neg (by omega), p1]
          rw [e0, e1]
          have hv := (at_state h3).valid
          rcases Nat.eq_zero_or_pos (look yyAcceptP q') with hq | hq
          · -- the last state does not accept
            have hr : recs text (text.length + 1) = recs text text.length := by
              rw [recs, ← hend, h3]
              simp only [hq, if_true]
            obtain ⟨x, hx⟩ := recs_later hne (text.length - 1)
            rw [show text.length - 1 + 2 = text.length + 1 by omega] at hx
            obtain rfl := p2 x (hr ▸ hx)
            obtain ⟨r, k, e2, e3⟩ := fin fuel (some x) x (text.length + 1) hx (by omega) (fun h => by omega)
            refine ⟨r, k, ?_, e3⟩
            rw [lexFrom, (accept_spec hv).1, hq]
            exact e2
          · have hr : recs text (text.length + 1) = some (q', text.length) := by
              rw [recs, ← hend, h3]
              simp only
              rw [if_neg (by omega)]
            exact ⟨_, _, action_token hv hq, token_of hr (by omega) (fun h => by omega)⟩

/-! ## Theorems -/

/-- The bytes of a text (in the examples all characters are ASCII). -/
def bytes (s : String) : List Byte := s.toList.map fun c => Fin.ofNat 256 c.toNat

/-- C120: At the end of the file the scanner reports the end, anywhere else it returns the token Flex promises. -/
theorem C120_end : lexOne [] = some .eof := by
  rcases lex_spec (text := []) 0 0 1 6 none rfl (by omega) rfl (fun x hx => by simp [recs] at hx) with ⟨-, h⟩ | ⟨r, k, -, h⟩
  · exact h
  · have := h.some_text; simp at this; omega

theorem C120_token {text : List Byte} (h : text ≠ []) :
    ∃ n len, lexOne text = some (.token n len) ∧ IsToken text n len := by
  rcases lex_spec (text := text) text.length 0 1 (2 * text.length + 6) none (by omega) (by omega) rfl
    (fun x hx => by simp [recs] at hx) with ⟨e, -⟩ | h'
  · exact absurd e h
  · exact h'

/-- C120: There is only one such token. -/
theorem C120_unique {text : List Byte} {n len n' len' : Nat} (h : IsToken text n len) (h' : IsToken text n' len') :
    n = n' ∧ len = len' := by
  have hl : len = len' := by
    rcases Nat.lt_trichotomy len len' with e | e | e
    · exact absurd h'.matched (h.longest _ _ e h'.some_text.2)
    · exact e
    · exact absurd h.matched (h'.longest _ _ e h.some_text.2)
  subst hl
  refine ⟨?_, rfl⟩
  rcases Nat.lt_trichotomy n n' with e | e | e
  · exact absurd h.matched (h'.first _ e)
  · exact e
  · exact absurd h'.matched (h.first _ e)

/-- C120: The scanner returns a token exactly if it is the longest match of the first rule. -/
theorem C120_exactly {text : List Byte} {n len : Nat} : lexOne text = some (.token n len) ↔ IsToken text n len := by
  constructor
  · intro h
    have hne : text ≠ [] := by
      rintro rfl
      rw [C120_end] at h
      cases h
    obtain ⟨n', len', h1, h2⟩ := C120_token hne
    rw [h1] at h
    cases h
    exact h2
  · intro h
    have hne : text ≠ [] := by
      rintro rfl
      have := h.some_text; simp at this; omega
    obtain ⟨n', len', h1, h2⟩ := C120_token hne
    obtain ⟨rfl, rfl⟩ := C120_unique h h2
    exact h1

theorem all_spec : ∀ (fuel : Nat) (text : List Byte), text.length < fuel →
    ∃ l, lexAll fuel text = some l ∧ Tokenises text l
  | 0, text, h => by omega
  | fuel + 1, text, h => by
    by_cases hne : text = []
    · subst hne
      exact ⟨[], by rw [lexAll, C120_end], .nil⟩
    · obtain ⟨n, len, h1, h2⟩ := C120_token hne
      have := h2.some_text
      obtain ⟨l, h3, h4⟩ := all_spec fuel (text.drop len) (by rw [List.length_drop]; omega)
      refine ⟨(n, text.take len) :: l, ?_, .cons h2 h4⟩
      rw [lexAll, h1]
      simp only [h3]

/-- C120: Every file is divided into tokens, in one way, and the scanner does not leave its tables or its buffer
(these outcomes are `none`) and does not stop early. -/
theorem C120_all (text : List Byte) {fuel : Nat} (h : text.length < fuel) :
    ∃ l, lexAll fuel text = some l ∧ Tokenises text l ∧ ∀ l', Tokenises text l' → l' = l := by
  obtain ⟨l, h1, h2⟩ := all_spec fuel text h
  refine ⟨l, h1, h2, ?_⟩
  clear h1
  intro l' h3
  induction h2 generalizing l' with
  | nil =>
    cases h3 with
    | nil => rfl
    | cons h h' => have := h.some_text; simp at this; omega
  | @cons text n len l h4 h5 ih =>
    have hs := h4.some_text
    cases h3 with
    | nil => simp at hs; omega
    | cons h h' =>
      obtain ⟨rfl, rfl⟩ := C120_unique h h4
      rw [ih (by rw [List.length_drop]; omega) _ h']

/-- C120: The tokens, put together, are the file. -/
theorem C120_whole {text : List Byte} {l : List (Nat × List Byte)} (h : Tokenises text l) :
    (l.map (·.2)).flatten = text := by
  induction h with
  | nil => rfl
  | @cons text n len l h h' ih =>
    rw [List.map_cons, List.flatten_cons, ih]
    exact List.take_append_drop _ _

/-! ## Examples -/

/-- The longest match at the beginning of `resolution: 1` is the keyword (rule 10). -/
example : lexOne (bytes "resolution: 1") = some (.token 10 10) := by decide +kernel

example : IsToken (bytes "resolution: 1") 10 10 := C120_exactly.1 (by decide +kernel)

/-- `12` is matched by `uint` and `float`; `uint` is first. -/
example : IsToken (bytes "12]") 76 2 := C120_exactly.1 (by decide +kernel)

/-- `12.5e3` is longer as a `float`; after `12.5e` the exponent is missing and the scanner backs up. -/
example : IsToken (bytes "12.5e3") 78 6 ∧ IsToken (bytes "12.5e,") 78 4 :=
  ⟨C120_exactly.1 (by decide +kernel), C120_exactly.1 (by decide +kernel)⟩

/-- A byte 0 inside a string, and a string that is not closed. -/
example : lexOne (bytes "'a\u0000b' ") = some (.token 79 5) ∧ lexOne (bytes "'a\u0000b ") = some (.token 112 1) := by
  decide +kernel

example : lexAll 20 (bytes "spp: 4#c\n") = some
    [(11, bytes "spp"), (1, bytes ":"), (110, bytes " "), (76, bytes "4"), (109, bytes "#c"), (111, bytes "\n")] := by
  decide +kernel

example : [] ≠ bytes "spp" := by decide +kernel

end Spectre.Scene
