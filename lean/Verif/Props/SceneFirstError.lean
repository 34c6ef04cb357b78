import Verif.Model.SceneError
import Verif.Props.SceneGrammar

/-!
# A syntax error is found at the first token that cannot be right (C128)

The specification is `Begins`: a list of tokens begins some file of the grammar.  The parser stops at the first token
with which the tokens so far do not begin a file any more.
-/

namespace Spectre.Scene

/-! ## Specification -/

/-- `Derives ss w`: the tokens `w` can be split into one part for each symbol of `ss`; a token stands for itself, a
nonterminal for the right-hand side of one of its rules in config_parser.y. -/
inductive Derives : List Sym → List Tok → Prop
  | nil : Derives [] []
  | tok {ss w} (a : Tok) (h : Derives ss w) : Derives (.t a :: ss) (a :: w)
  | rule {ss w w'} (n : Nat) (A : NT) (rhs : List Sym) (hr : grammar[n]? = some (A, rhs)) (h : Derives rhs w)
      (h' : Derives ss w') : Derives (.n A :: ss) (w ++ w')

/-- The tokens of a correct file. -/
def Grammatical (w : List Tok) : Prop := Derives [.n .file] w

/-- The tokens are the first ones of a correct file and its end. -/
def Begins (p : List Tok) : Prop := ∃ v w, p ++ v = w ++ [.END] ∧ Grammatical w

/-! ## Derivations -/

theorem Derives.append {ss₁ ss₂ : List Sym} {w₁ w₂ : List Tok} (h₁ : Derives ss₁ w₁) (h₂ : Derives ss₂ w₂) :
    Derives (ss₁ ++ ss₂) (w₁ ++ w₂) := by
  induction h₁ with
  | nil => exact h₂
  | tok a h ih => exact .tok a ih
  | rule n A rhs hr h h' _ ih' =>
    rw [List.append_assoc]
    exact .rule n A rhs hr h ih'

theorem Derives.split : ∀ (ss₁ : List Sym) {ss₂ : List Sym} {w : List Tok}, Derives (ss₁ ++ ss₂) w →
    ∃ w₁ w₂, w = w₁ ++ w₂ ∧ Derives ss₁ w₁ ∧ Derives ss₂ w₂
  | [], ss₂, w, h => ⟨[], w, rfl, .nil, h⟩
  | X :: ss₁, ss₂, w, h => by
      rw [List.cons_append] at h
      cases h with
      | tok a h =>
        obtain ⟨w₁, w₂, rfl, h₁, h₂⟩ := Derives.split ss₁ h
        exact ⟨_, w₂, rfl, .tok a h₁, h₂⟩
      | rule n A rhs hr h h' =>
        obtain ⟨w₁, w₂, rfl, h₁, h₂⟩ := Derives.split ss₁ h'
        exact ⟨_, w₂, (List.append_assoc _ _ _).symm, .rule n A rhs hr h h₁, h₂⟩

theorem derives_of {V D : Type} {sem : Nat → List V → D → Option (V × D)} {ss : List Sym} {w : List (Tok × V)}
    {d d' : D} {vs : List V} (h : Parses sem ss w d vs d') : Derives ss (w.map Prod.fst) := by
  induction h with
  | nil => exact .nil
  | tok a v h ih => exact .tok a ih
  | rule n A rhs hr h ha h' ih ih' =>
    rw [List.map_append]
    exact .rule n A rhs hr ih ih'

theorem parses_blind {ss : List Sym} {w : List Tok} (h : Derives ss w) :
    ∃ vs, Parses blind ss (w.map fun t => (t, ())) () vs () := by
  induction h with
  | nil => exact ⟨[], .nil _⟩
  | tok a h ih =>
    obtain ⟨vs, ih⟩ := ih
    exact ⟨_, .tok a () ih⟩
  | rule n A rhs hr h h' ih ih' =>
    obtain ⟨vs, ih⟩ := ih
    obtain ⟨vs', ih'⟩ := ih'
    rw [List.map_append]
    exact ⟨_, .rule n A rhs hr ih rfl ih'⟩

/-! ## Every symbol stands for something -/

/-- The nonterminals that have a rule with only terminals and nonterminals of the list. -/
def productive (l : List NT) : List NT :=
  (grammar.filter fun r => r.2.all fun X => match X with | .t _ => true | .n A => l.contains A).map (·.1)

theorem productive_derives {l : List NT} (hl : ∀ A ∈ l, ∃ w, Derives [.n A] w) :
    ∀ A ∈ productive l, ∃ w, Derives [.n A] w := by
  intro A hA
  simp only [productive, List.mem_map, List.mem_filter] at hA
  obtain ⟨⟨A', rhs⟩, ⟨hr, ha⟩, rfl⟩ := hA
  obtain ⟨n, hn⟩ := List.getElem?_of_mem hr
  have key : ∀ ss : List Sym, (ss.all fun X => match X with | .t _ => true | .n A => l.contains A) = true →
      ∃ w, Derives ss w := by
    intro ss
    induction ss with
    | nil => exact fun _ => ⟨[], .nil⟩
    | cons X ss ih =>
      intro h
      rw [List.all_cons, Bool.and_eq_true] at h
      obtain ⟨w, hw⟩ := ih h.2
      cases X with
      | t a => exact ⟨_, .tok a hw⟩
      | n A =>
        obtain ⟨w', hw'⟩ := hl A (by simpa using h.1)
        exact ⟨_, hw'.append hw⟩
  obtain ⟨w, hw⟩ := key rhs ha
  exact ⟨w ++ [], .rule n A' rhs hn hw .nil⟩

theorem derives_nt (A : NT) : ∃ w, Derives [.n A] w := by
  have h0 : ∀ B ∈ ([] : List NT), ∃ w, Derives [.n B] w := by simp
  have h := productive_derives (productive_derives (productive_derives (productive_derives (productive_derives
    (productive_derives h0)))))
  refine h A ?_
  have hall : ∀ n < 33, ∀ B, ntOf (109 + n) = some B →
      B ∈ productive (productive (productive (productive (productive (productive []))))) := by decide +kernel
  have hn := nt_num A
  exact hall (A.num - 109) (by omega) A (by rw [show 109 + (A.num - 109) = A.num by omega]; exact ntOf_num A)

theorem derives_all : ∀ ss : List Sym, ∃ w, Derives ss w
  | [] => ⟨[], .nil⟩
  | .t a :: ss => by
      obtain ⟨w, h⟩ := derives_all ss
      exact ⟨_, .tok a h⟩
  | .n A :: ss => by
      obtain ⟨w, h⟩ := derives_all ss
      obtain ⟨w', h'⟩ := derives_nt A
      exact ⟨_, h'.append h⟩

/-! ## The stack can always be completed -/

/-- The symbol after the dot of an item. -/
def afterDot (i : Nat × Nat × Nat) : Option Nat := ((ruleN i.1).2.drop i.2.1).head?

/-- Symbols after the dot of items whose dot is not at the beginning, or of the first rule. -/
def kernelSyms (l : List (Nat × Nat × Nat)) : List Nat :=
  (l.filter fun i => Nat.blt 0 i.2.1 || Nat.beq i.1 1).filterMap afterDot

/-- The same with the symbols after the dot of initial items of a nonterminal already there. -/
def growSyms (l : List (Nat × Nat × Nat)) (m : List Nat) : List Nat :=
  m ++ (l.filter fun i => Nat.beq i.2.1 0 && m.contains (ruleN i.1).1).filterMap afterDot

/-- Every initial item is there because of other items. -/
def checkReach (l : List (Nat × Nat × Nat)) : Bool :=
  l.all fun i => Nat.blt 0 i.2.1 || Nat.beq i.1 1 ||
    (growSyms l (growSyms l (growSyms l (growSyms l (kernelSyms l))))).contains (ruleN i.1).1

set_option maxRecDepth 100000 in
theorem reach_all : itemsN.all checkReach = true := by decide +kernel

/-- The symbols on the stack, the rest of the rule of an item, and some more symbols, make up a file and its end. -/
def Completes (ss : List Sym) (n k : Nat) : Prop :=
  ∀ A rhs, grammar[n - 1]? = some (A, rhs) → ∃ δ, ∀ x, Derives (ss.reverse ++ rhs.drop k ++ δ) x →
    Derives [.n .file, .t .END] x

theorem ruleN_of {n : Nat} {A : NT} {rhs : List Sym} (hn : 1 ≤ n) (h : grammar[n - 1]? = some (A, rhs)) :
    ruleN n = (A.num, rhs.map Sym.num) := by
  have := (rule_num h).1
  rwa [Nat.sub_add_cancel hn] at this

theorem drop_sym {rhs : List Sym} {k X : Nat} {γ : List Nat} (h : (rhs.map Sym.num).drop k = X :: γ) :
    ∃ Y, Y.num = X ∧ rhs.drop k = Y :: rhs.drop (k + 1) := by
  rw [← List.map_drop] at h
  cases hd : rhs.drop k with
  | nil => rw [hd] at h; simp at h
  | cons Y ys =>
    rw [hd] at h
    refine ⟨Y, (List.cons.inj h).1, ?_⟩
    rw [← List.tail_drop, hd]
    rfl

/-- From an item with the dot before a nonterminal to the initial items of that nonterminal. -/
theorem completes_initial {st : List (Nat × Unit)} {ss : List Sym} {m j la X : Nat} {γ : List Nat} (hst : topState st < 300)
    (hm : (m, j, la) ∈ itemsAt (topState st)) (hd : (ruleN m).2.drop j = X :: γ) (h : Completes ss m j) {n : Nat}
    (hn : 1 ≤ n) (hX : (ruleN n).1 = X) : Completes ss n 0 := by
  intro A rhs hr
  obtain ⟨h1, h2⟩ := item_range hst hm
  obtain ⟨B, rhs', hr'⟩ := rule_of_num h1 h2
  obtain ⟨δ, hδ⟩ := h B rhs' hr'
  rw [ruleN_of h1 hr'] at hd
  obtain ⟨Y, hY, hdrop⟩ := drop_sym hd
  rw [ruleN_of hn hr] at hX
  have hYA : Y = .n A := sym_num_inj (by rw [hY, ← hX]; rfl)
  subst hYA
  refine ⟨rhs'.drop (j + 1) ++ δ, fun x hx => hδ x ?_⟩
  rw [List.drop_zero, List.append_assoc] at hx
  obtain ⟨w₁, w₂, rfl, h₁, h₂⟩ := Derives.split ss.reverse hx
  obtain ⟨w₃, w₄, rfl, h₃, h₄⟩ := Derives.split rhs h₂
  rw [hdrop, List.append_assoc]
  exact h₁.append (.rule _ A rhs hr h₃ h₄)

theorem start_items {n k la : Nat} (h : (n, k, la) ∈ itemsAt 0) : k = 0 := by
  have h0 : (itemsAt 0).all (fun i => Nat.beq i.2.1 0) = true := by decide +kernel
  have := List.all_eq_true.1 h0 _ h
  rwa [Nat.beq_eq] at this

theorem completes_all : ∀ (N : Nat) (st : List (Nat × Unit)) (ss : List Sym), st.length < N → Stk st ss →
    ∀ n k la, (n, k, la) ∈ itemsAt (topState st) → Completes ss n k := by
  intro N
  induction N with
  | zero => intro st ss hN; omega
  | succ N ih =>
    intro st ss hN h
    have htop := h.top.1
    -- items whose dot is not at the beginning
    have hker : ∀ n k la, (n, k + 1, la) ∈ itemsAt (topState st) → Completes ss n (k + 1) := by
      intro n k la hi
      cases h with
      | nil => exact absurd (start_items hi) (by simp)
      | @push st ss h s v X n' k' la' β hi' hd' ht =>
        obtain ⟨t, ht', h0, h3, -, hb, -⟩ := item_next h.top.1 hi' hd'
        rw [ht] at ht'
        obtain rfl := Option.some.inj ht'
        obtain ⟨⟨γ, hγ⟩, m, hm⟩ := hb n k la hi
        intro A rhs hr
        obtain ⟨δ, hδ⟩ := ih st ss (by simpa using hN) h n k m hm A rhs hr
        refine ⟨δ, fun x hx => hδ x ?_⟩
        rw [ruleN_of (item_range htop hi).1 hr] at hγ
        obtain ⟨Y, hY, hdrop⟩ := drop_sym hγ
        obtain rfl := sym_num_inj hY
        rw [hdrop]
        simpa using hx
    have hone : ∀ la, (1, 0, la) ∈ itemsAt (topState st) → Completes ss 1 0 := by
      intro la hi
      have := h.top.2.1 (start_item htop hi)
      subst this
      cases h
      intro A rhs hr
      have hg : grammar[1 - 1]? = some (NT.accept_, [.n NT.file, .t Tok.END]) := by rfl
      rw [hg] at hr
      obtain ⟨rfl, rfl⟩ := Prod.mk.inj (Option.some.inj hr)
      exact ⟨[], fun x hx => by simpa using hx⟩
    -- nonterminals after the dot
    have hgrow : ∀ m, (∀ X ∈ m, ∃ n k la γ, (n, k, la) ∈ itemsAt (topState st) ∧ (ruleN n).2.drop k = X :: γ ∧
        Completes ss n k) → ∀ X ∈ growSyms (itemsAt (topState st)) m, ∃ n k la γ,
        (n, k, la) ∈ itemsAt (topState st) ∧ (ruleN n).2.drop k = X :: γ ∧ Completes ss n k := by
      intro m hm X hX
      rw [growSyms, List.mem_append] at hX
      rcases hX with hX | hX
      · exact hm X hX
      · obtain ⟨⟨n, k, la⟩, hi, hX⟩ := List.mem_filterMap.1 hX
        rw [List.mem_filter, Bool.and_eq_true, Nat.beq_eq, List.contains_iff_mem] at hi
        obtain ⟨hi, hk, hl⟩ := hi
        simp only at hk hl
        subst hk
        obtain ⟨n', k', la', γ, h1, h2, h3⟩ := hm _ hl
        have hd : ∃ γ, (ruleN n).2.drop 0 = X :: γ := by
          unfold afterDot at hX
          simp only at hX
          cases hd : (ruleN n).2.drop 0 with
          | nil => rw [hd] at hX; simp at hX
          | cons Y ys => rw [hd] at hX; exact ⟨ys, by rw [show Y = X by simpa using hX]⟩
        obtain ⟨γ', hγ'⟩ := hd
        exact ⟨n, 0, la, γ', hi, hγ', completes_initial htop h1 h2 h3 (item_range htop hi).1 rfl⟩
    have hkern : ∀ X ∈ kernelSyms (itemsAt (topState st)), ∃ n k la γ, (n, k, la) ∈ itemsAt (topState st) ∧
        (ruleN n).2.drop k = X :: γ ∧ Completes ss n k := by
      intro X hX
      obtain ⟨⟨n, k, la⟩, hi, hX⟩ := List.mem_filterMap.1 hX
      rw [List.mem_filter, Bool.or_eq_true, Nat.blt_eq, Nat.beq_eq] at hi
      obtain ⟨hi, hk⟩ := hi
      simp only at hk
      have hd : ∃ γ, (ruleN n).2.drop k = X :: γ := by
        unfold afterDot at hX
        simp only at hX
        cases hd : (ruleN n).2.drop k with
        | nil => rw [hd] at hX; simp at hX
        | cons Y ys => rw [hd] at hX; exact ⟨ys, by rw [show Y = X by simpa using hX]⟩
      obtain ⟨γ', hγ'⟩ := hd
      refine ⟨n, k, la, γ', hi, hγ', ?_⟩
      cases k with
      | succ k => exact hker n k la hi
      | zero =>
        rcases hk with hk | hk
        · omega
        · subst hk; exact hone la hi
    intro n k la hi
    cases k with
    | succ k => exact hker n k la hi
    | zero =>
      by_cases hn : n = 1
      · subst hn; exact hone la hi
      · have hmem : itemsAt (topState st) ∈ itemsN := by
          unfold itemsAt
          rw [List.getD_eq_getElem?_getD, List.getElem?_eq_getElem (by rw [items_length]; exact htop)]
          exact List.getElem_mem _
        have := List.all_eq_true.1 (List.all_eq_true.1 reach_all _ hmem) _ hi
        rw [Bool.or_eq_true, Bool.or_eq_true, Nat.blt_eq, Nat.beq_eq, List.contains_iff_mem] at this
        rcases this with (h1 | h1) | h1
        · simp at h1
        · exact absurd h1 hn
        · obtain ⟨n', k', la', γ, h2, h3, h4⟩ := hgrow _ (hgrow _ (hgrow _ (hgrow _ hkern))) _ h1
          exact completes_initial htop h2 h3 h4 (item_range htop hi).1 rfl

/-- The symbols of a stack begin a file. -/
theorem stack_begins {st : List (Nat × Unit)} {ss : List Sym} (h : Stk st ss) :
    ∃ δ, ∀ x, Derives (ss.reverse ++ δ) x → Derives [.n .file, .t .END] x := by
  have hitem : ∃ n k la, (n, k, la) ∈ itemsAt (topState st) := by
    cases h with
    | nil => exact ⟨1, 0, 1, by show (1, 0, 1) ∈ itemsAt 0; decide +kernel⟩
    | @push st ss h s v X n' k' la' β hi' hd' ht =>
      obtain ⟨t, ht', h0, h3, ⟨m, hm, -⟩, -⟩ := item_next h.top.1 hi' hd'
      rw [ht] at ht'
      obtain rfl := Option.some.inj ht'
      exact ⟨_, _, _, hm⟩
  obtain ⟨n, k, la, hi⟩ := hitem
  obtain ⟨h1, h2⟩ := item_range h.top.1 hi
  obtain ⟨A, rhs, hr⟩ := rule_of_num h1 h2
  obtain ⟨δ, hδ⟩ := completes_all _ st ss (Nat.lt_succ_self _) h n k la hi A rhs hr
  exact ⟨rhs.drop k ++ δ, fun x hx => hδ x (by rwa [List.append_assoc])⟩

/-! ## The machine does not look further than one token -/

theorem step_inl {st : List (Nat × Unit)} {t : Tok × Unit} {inp : List (Tok × Unit)} {c : Bare}
    (h : step blind ⟨st, t :: inp, ()⟩ = .inl c) : ∃ st', (c = ⟨st', inp, ()⟩ ∧
      ∀ inp', step blind ⟨st, t :: inp', ()⟩ = .inl ⟨st', inp', ()⟩) ∨ (c = ⟨st', t :: inp, ()⟩ ∧
      ∀ inp', step blind ⟨st, t :: inp', ()⟩ = .inl ⟨st', t :: inp', ()⟩) := by
  unfold step at h ⊢
  simp only at h ⊢
  split at h
  · cases h
  · rename_i h30
    simp only [if_neg h30]
    cases ha : action (topState st) t.1.num with
    | ub => rw [ha] at h; cases h
    | error => rw [ha] at h; cases h
    | shift s =>
      rw [ha] at h
      cases h
      exact ⟨_, .inl ⟨rfl, fun inp' => rfl⟩⟩
    | reduce n =>
      rw [ha] at h
      simp only at h ⊢
      cases h1 : yyr1[n]? with
      | none => rw [h1] at h; cases h
      | some A =>
        cases h2 : yyr2[n]? with
        | none => rw [h1, h2] at h; cases h
        | some k =>
          rw [h1, h2] at h
          simp only at h ⊢
          split at h
          · rename_i hk
            simp only [if_pos hk]
            simp only [blind] at h ⊢
            cases hg : gotoState (topState (st.drop k)) A with
            | none => rw [hg] at h; cases h
            | some s =>
              rw [hg] at h
              cases h
              exact ⟨_, .inr ⟨rfl, fun inp' => rfl⟩⟩
          · cases h

theorem step_reject {st : List (Nat × Unit)} {t : Tok × Unit} {inp inp' : List (Tok × Unit)}
    (h : step blind ⟨st, t :: inp, ()⟩ = .inr (.reject ())) : step blind ⟨st, t :: inp', ()⟩ = .inr (.reject ()) := by
  unfold step at h ⊢
  simp only at h ⊢
  split at h
  · cases h
  · rename_i h30
    simp only [if_neg h30]
    cases ha : action (topState st) t.1.num with
    | ub => rw [ha] at h; cases h
    | error => rfl
    | shift s => rw [ha] at h; cases h
    | reduce n =>
      rw [ha] at h
      simp only at h
      cases h1 : yyr1[n]? with
      | none => rw [h1] at h; cases h
      | some A =>
        cases h2 : yyr2[n]? with
        | none => rw [h1, h2] at h; cases h
        | some k =>
          rw [h1, h2] at h
          simp only at h
          split at h
          · simp only [blind] at h
            cases hg : gotoState (topState (st.drop k)) A with
            | none => rw [hg] at h; cases h
            | some s => rw [hg] at h; cases h
          · cases h

theorem steps_suffix {c c' : Bare} (h : Steps blind c c') : c'.inp <:+ c.inp := by
  induction h with
  | refl => exact List.suffix_refl _
  | @head c c₁ c' hs _ ih =>
    obtain ⟨st, inp, d⟩ := c
    cases inp with
    | nil =>
      exfalso
      unfold step at hs
      simp only at hs
      split at hs <;> cases hs
    | cons t inp =>
      obtain ⟨st', ⟨rfl, -⟩ | ⟨rfl, -⟩⟩ := step_inl hs
      · exact ih.trans (List.suffix_cons _ _)
      · exact ih

theorem steps_change {c c' : Bare} (h : Steps blind c c') : ∀ {x : List (Tok × Unit)} {t : Tok × Unit}
    {rest rest' : List (Tok × Unit)}, c.inp = x ++ t :: rest → c'.inp = t :: rest →
    Steps blind ⟨c.stack, x ++ t :: rest', ()⟩ ⟨c'.stack, t :: rest', ()⟩ := by
  induction h with
  | refl c =>
    intro x t rest rest' h1 h2
    rw [h2] at h1
    have : x = [] := by
      have := congrArg List.length h1
      simp only [List.length_append, List.length_cons] at this
      exact List.length_eq_zero_iff.1 (by omega)
    subst this
    exact .refl _
  | @head c c₁ c' hs hs' ih =>
    intro x t rest rest' h1 h2
    obtain ⟨st, inp, d⟩ := c
    simp only at h1
    subst h1
    have hsuf := steps_suffix hs'
    cases x with
    | nil =>
      rw [List.nil_append] at hs
      obtain ⟨st', ⟨rfl, -⟩ | ⟨rfl, hh⟩⟩ := step_inl hs
      · rw [h2] at hsuf
        have := hsuf.length_le
        simp only [List.length_cons] at this
        omega
      · exact .head (hh rest') (ih (x := []) rfl h2)
    | cons a x =>
      rw [List.cons_append] at hs
      obtain ⟨st', ⟨rfl, hh⟩ | ⟨rfl, hh⟩⟩ := step_inl hs
      · exact .head (hh _) (ih (x := x) rfl h2)
      · exact .head (hh _) (ih (x := a :: x) rfl h2)

/-! ## Where the machine stops -/

/-- The machine on the tokens `inp`, which are followed by `r` in the file, stops after some steps. -/
theorem left_spec {w₀ r : List (Tok × Unit)} : ∀ (N : Nat) (st : List (Nat × Unit)) (inp : List (Tok × Unit))
    (ss : List Sym), Inv blind w₀ () ⟨st, inp ++ r, ()⟩ ss → (ss.map symWeight).sum + 9 * (inp ++ r).length ≤ N →
    ∃ st' inp' ss', Steps blind ⟨st, inp, ()⟩ ⟨st', inp', ()⟩ ∧ Inv blind w₀ () ⟨st', inp' ++ r, ()⟩ ss' ∧
      ((topState st' = 30 ∧ leftOver (N + 1) ⟨st, inp, ()⟩ = some none) ∨
       (topState st' ≠ 30 ∧ leftOver (N + 1) ⟨st, inp, ()⟩ = some (some inp'.length) ∧
        (inp' = [] ∨ step blind ⟨st', inp', ()⟩ = .inr (.reject ())))) := by
  intro N
  induction N with
  | zero =>
    intro st inp ss h hN
    have h2 : (inp ++ r).length = 0 := by omega
    have h1 : inp ++ r = [] := List.length_eq_zero_iff.1 h2
    have h3 := h.last h1
    obtain ⟨rfl, rfl⟩ := List.append_eq_nil_iff.1 h1
    refine ⟨st, [], ss, .refl _, h, .inl ⟨h3, ?_⟩⟩
    simp only [leftOver, step]
    rw [if_pos h3]
  | succ N ih =>
    intro st inp ss h hN
    by_cases h30 : topState st = 30
    · refine ⟨st, inp, ss, .refl _, h, .inl ⟨h30, ?_⟩⟩
      rw [leftOver]
      simp only [step]
      rw [if_pos h30]
    · cases inp with
      | nil =>
        refine ⟨st, [], ss, .refl _, h, .inr ⟨h30, ?_, .inl rfl⟩⟩
        rw [leftOver]
        simp only [step]
        rw [if_neg h30]
        simp
      | cons t inp =>
        rcases inv_step h with ⟨c', ss', hs, h', hlt⟩ | ⟨hs, _⟩ | hs | ⟨_, n, A, rhs, done, vs, d₁, _, hb, _⟩
        · rw [List.cons_append] at hs
          obtain ⟨st', ⟨rfl, hh⟩ | ⟨rfl, hh⟩⟩ := step_inl hs
          · obtain ⟨st'', inp'', ss'', h1, h2, h3⟩ := ih st' inp ss' h' (by
              simp only [List.cons_append, List.length_cons] at hlt hN ⊢; omega)
            refine ⟨st'', inp'', ss'', .head (hh inp) h1, h2, ?_⟩
            rw [leftOver, hh inp]
            exact h3
          · obtain ⟨st'', inp'', ss'', h1, h2, h3⟩ := ih st' (t :: inp) ss' h' (by
              simp only [List.cons_append, List.length_cons] at hlt hN ⊢; omega)
            refine ⟨st'', inp'', ss'', .head (hh inp) h1, h2, ?_⟩
            rw [leftOver, hh inp]
            exact h3
        · exact absurd hs h30
        · have hs' := step_reject (inp' := inp) hs
          refine ⟨st, t :: inp, ss, .refl _, h, .inr ⟨h30, ?_, .inr hs'⟩⟩
          rw [leftOver, hs']
        · exact absurd hb (by simp [blind])

theorem file_end {x : List Tok} (h : Derives [.n .file, .t .END] x) : ∃ w, x = w ++ [.END] ∧ Grammatical w := by
  obtain ⟨w₁, w₂, rfl, h₁, h₂⟩ := Derives.split [.n .file] h
  cases h₂ with
  | tok a h₂ =>
    cases h₂
    exact ⟨w₁, rfl, h₁⟩

/-- What has been read so far begins a file. -/
theorem inv_begins {w₀ : List (Tok × Unit)} {c : Bare} {ss : List Sym} (h : Inv blind w₀ () c ss) :
    ∃ done, done ++ c.inp = w₀ ∧ Begins (done.map Prod.fst) := by
  obtain ⟨done, hd, hp⟩ := h.parse
  obtain ⟨δ, hδ⟩ := stack_begins h.stk
  obtain ⟨v, hv⟩ := derives_all δ
  obtain ⟨w, hw, hf⟩ := file_end (hδ _ ((derives_of hp).append hv))
  exact ⟨done, hd, v, w, hw, hf⟩

/-- Where the machine reports an error, the next token is wrong. -/
theorem reject_not {x : List (Tok × Unit)} {t : Tok × Unit} {rest : List (Tok × Unit)} {st : List (Nat × Unit)}
    (h : Steps blind ⟨[], x ++ t :: rest, ()⟩ ⟨st, t :: rest, ()⟩)
    (hr : step blind ⟨st, t :: rest, ()⟩ = .inr (.reject ())) : ¬ Begins (x.map Prod.fst ++ [t.1]) := by
  rintro ⟨v, w, hw, hf⟩
  obtain ⟨vs, hp⟩ := parses_blind hf
  obtain ⟨N, hN⟩ := complete_run () hp
  have e : w.map (fun t => (t, ())) ++ [(Tok.END, ())] = x ++ t :: v.map fun t => (t, ()) := by
    have := congrArg (List.map fun t => (t, ())) hw
    simp only [List.map_append, List.map_map, List.map_cons, List.map_nil] at this
    rw [← this, show ((fun t => (t, ())) ∘ Prod.fst : Tok × Unit → Tok × Unit) = id from rfl, List.map_id]
    simp
  have h1 := steps_change h (rest' := v.map fun t => (t, ())) rfl rfl
  obtain ⟨M, hM⟩ := steps_run h1 (step_reject (inp' := v.map fun t => (t, ())) hr)
  rw [initial, e] at hN
  exact absurd (run_det hN hM) (by simp)

/-! ## The theorem -/

theorem begins_prefix {p q : List Tok} (h : Begins (p ++ q)) : Begins p := by
  obtain ⟨v, w, h1, h2⟩ := h
  exact ⟨q ++ v, w, by rw [← List.append_assoc, h1], h2⟩

/-- In the final state the end of the file has been read. -/
theorem final_done {w₀ : List (Tok × Unit)} {c : Bare} {ss : List Sym} (h : Inv blind w₀ () c ss)
    (h30 : topState c.stack = 30) {done : List (Tok × Unit)} (hd : done ++ c.inp = w₀) : Tok.END ∈ done.map Prod.fst := by
  obtain ⟨hst, ⟨done', hdone, hp⟩, -, -⟩ := h
  obtain rfl := List.append_cancel_right (hd.trans hdone.symm)
  have hi : (1, 2, 1) ∈ itemsAt (topState c.stack) := by rw [h30]; decide +kernel
  obtain ⟨hk, htake, ⟨la', hi0⟩, hst'⟩ := Stk.back 2 hst 1 1 hi
  have hnil := hst'.top.2.1 (start_item hst'.top.1 hi0)
  have hlen := hst.top.2.2
  have hl2 : ss.length = 2 := by
    have := congrArg List.length hnil
    rw [List.length_drop, List.length_nil] at this
    omega
  have hss : ss = [.t .END, .n .file] := by
    rw [List.take_of_length_le (by omega)] at htake
    have : ss.map Sym.num = ([.t .END, .n .file] : List Sym).map Sym.num := by
      rw [htake]; decide +kernel
    exact List.map_injective_iff.2 sym_num_inj this
  subst hss
  obtain ⟨w, hw, -⟩ := file_end (derives_of hp)
  rw [hw]
  simp

/-- What `stopsAt` finds. -/
def StopsHere (ts : List Tok) (k : Nat) : Prop :=
  k ≤ ts.length ∧ Begins (ts.take k) ∧ (k = ts.length → Tok.END ∉ ts) ∧ (k < ts.length → ¬ Begins (ts.take (k + 1)))

theorem begins_take {ts : List Tok} {k k' : Nat} (h : Begins (ts.take k')) (hk : k ≤ k') : Begins (ts.take k) := by
  rw [← List.take_append_drop k (ts.take k'), List.take_take, Nat.min_eq_left hk] at h
  exact begins_prefix h

theorem stopsHere_unique {ts : List Tok} {k k' : Nat} (h : StopsHere ts k) (h' : StopsHere ts k') : k = k' := by
  rcases Nat.lt_trichotomy k k' with hh | hh | hh
  · exact absurd (begins_take h'.2.1 hh) (h.2.2.2 (by have := h'.1; omega))
  · exact hh
  · exact absurd (begins_take h.2.1 hh) (h'.2.2.2 (by have := h.1; omega))

theorem stop_cases (ts : List Tok) (hts : Tok.END ∉ ts.dropLast) :
    (∃ k, stopsAt ts = some k ∧ StopsHere ts k) ∨
    (stopsAt ts = none ∧ ∃ w, ts = w ++ [.END] ∧ Grammatical w) := by
  obtain ⟨r, w₀, hw₀, hr, hr', hInv⟩ : ∃ r w₀ : List (Tok × Unit), w₀ = ts.map (fun t => (t, ())) ++ r ∧
      r.length ≤ 1 ∧ (Tok.END ∈ ts ↔ r = []) ∧ Inv blind w₀ () ⟨[], ts.map (fun t => (t, ())) ++ r, ()⟩ [] := by
    by_cases hE : Tok.END ∈ ts
    · have hne : ts ≠ [] := List.ne_nil_of_mem hE
      have hl : ts.getLast hne = .END := by
        rw [← List.dropLast_append_getLast hne, List.mem_append] at hE
        rcases hE with hE | hE
        · exact absurd hE hts
        · exact (List.mem_singleton.1 hE).symm
      refine ⟨[], _, rfl, by simp, by simp [hE], ?_⟩
      rw [List.append_nil, ← List.dropLast_append_getLast hne, hl, List.map_append]
      exact inv_initial () _ ()
    · exact ⟨[(.END, ())], _, rfl, by simp, by simp [hE], inv_initial () _ ()⟩
  obtain ⟨st', inp', ss', hs, hi, hh⟩ := left_spec (9 * (ts.length + 1)) [] (ts.map fun t => (t, ())) [] (hw₀ ▸ hInv) (by
    simp only [List.map_nil, List.sum_nil, List.length_append, List.length_map]; omega)
  obtain ⟨done, hd, hb⟩ := inv_begins hi
  have hd' : done ++ inp' = ts.map fun t => (t, ()) := by
    have : done ++ inp' ++ r = ts.map (fun t => (t, ())) ++ r := by rw [List.append_assoc]; exact hd
    exact List.append_cancel_right this
  have hts' : ts = done.map Prod.fst ++ inp'.map Prod.fst := by
    rw [← List.map_append, hd', List.map_map, show (Prod.fst ∘ fun t : Tok => (t, ())) = id from rfl, List.map_id]
  have hlen : ts.length = done.length + inp'.length := by
    have := congrArg List.length hts'
    simpa using this
  rcases hh with ⟨h30, hl⟩ | ⟨h30, hl, hrej⟩
  · right
    have hE := final_done hi h30 hd
    have hE' : Tok.END ∈ ts := by rw [hts']; exact List.mem_append_left _ hE
    refine ⟨by rw [stopsAt, hl], ?_⟩
    have hr0 := hr'.1 hE'
    subst hr0
    have hne : ts ≠ [] := List.ne_nil_of_mem hE'
    have hl : ts.getLast hne = .END := by
      have h2 := hE'
      rw [← List.dropLast_append_getLast hne, List.mem_append] at h2
      rcases h2 with h2 | h2
      · exact absurd h2 hts
      · exact (List.mem_singleton.1 h2).symm
    have e : w₀ = (ts.dropLast.map fun t => (t, ())) ++ [(Tok.END, ())] := by
      rw [hw₀, List.append_nil]
      conv_lhs => rw [← List.dropLast_append_getLast hne, hl, List.map_append]
      rfl
    rw [← hw₀, e] at hi
    obtain ⟨v, hv⟩ := inv_accept hi h30 (by
      intro t ht
      obtain ⟨a, ha, rfl⟩ := List.mem_map.1 ht
      exact fun hh => hts (hh ▸ ha))
    refine ⟨ts.dropLast, ?_, ?_⟩
    · conv_lhs => rw [← List.dropLast_append_getLast hne, hl]
    · have := derives_of hv
      rw [List.map_map, show (Prod.fst ∘ fun t : Tok => (t, ())) = id from rfl, List.map_id] at this
      exact this
  · left
    have hk : ts.length - inp'.length = done.length := by omega
    have ht : ts.take done.length = done.map Prod.fst := by
      rw [hts', List.take_left' (by simp)]
    refine ⟨done.length, by rw [stopsAt, hl, ← hk], by omega, by rw [ht]; exact hb, ?_, ?_⟩
    · intro hk' hE
      have : inp' = [] := List.length_eq_zero_iff.1 (by omega)
      subst this
      have hr0 := hr'.1 hE
      subst hr0
      exact h30 (hi.last rfl)
    · intro hk'
      cases inp' with
      | nil => simp at hlen; omega
      | cons t rest =>
        rcases hrej with hrej | hrej
        · cases hrej
        · have e : ts.take (done.length + 1) = done.map Prod.fst ++ [t.1] := by
            rw [hts', List.take_append, List.take_of_length_le (by simp)]
            simp
          rw [e]
          rw [← hd'] at hs
          exact reject_not hs hrej

/-- C128: On tokens of a file — with its end as last token, or cut off before its end — the parser stops after `k`
tokens exactly if these begin a file, and together with the next one do not; if the tokens are cut off, it stops at the
end of them when all of them begin a file. -/
theorem C128_first (ts : List Tok) (hts : Tok.END ∉ ts.dropLast) (k : Nat) : stopsAt ts = some k ↔
    k ≤ ts.length ∧ Begins (ts.take k) ∧ (k = ts.length → Tok.END ∉ ts) ∧
      (k < ts.length → ¬ Begins (ts.take (k + 1))) := by
  rcases stop_cases ts hts with ⟨k', h1, h2⟩ | ⟨h1, w, rfl, hw⟩
  · rw [h1, Option.some.injEq]
    constructor
    · rintro rfl; exact h2
    · exact fun h => stopsHere_unique h2 h
  · rw [h1]
    constructor
    · intro h; cases h
    · rintro ⟨h2, h3, h4, h5⟩
      exfalso
      have hb : Begins ((w ++ [Tok.END]).take (w ++ [Tok.END]).length) := by
        rw [List.take_length]
        exact ⟨[], w, by simp, hw⟩
      rcases Nat.lt_or_eq_of_le h2 with hk | hk
      · exact h5 hk (begins_take hb hk)
      · exact h4 hk (by simp)

/-- C128: The parser does not stop at an error exactly if the tokens are those of a correct file. -/
theorem C128_none (ts : List Tok) (hts : Tok.END ∉ ts.dropLast) :
    stopsAt ts = none ↔ ∃ w, ts = w ++ [.END] ∧ Grammatical w := by
  rcases stop_cases ts hts with ⟨k', h1, h2⟩ | ⟨h1, w, rfl, hw⟩
  · rw [h1]
    constructor
    · intro h; cases h
    · rintro ⟨w, rfl, hw⟩
      exfalso
      have hb : Begins ((w ++ [Tok.END]).take (w ++ [Tok.END]).length) := by
        rw [List.take_length]
        exact ⟨[], w, by simp, hw⟩
      rcases Nat.lt_or_eq_of_le h2.1 with hk | hk
      · exact h2.2.2.2 hk (begins_take hb hk)
      · exact h2.2.2.1 hk (by simp)
  · rw [h1]
    exact ⟨fun _ => ⟨w, rfl, hw⟩, fun _ => rfl⟩

/-- C128: Whenever there is an error, the token at which it is reported has been read: no state reports an error without
looking at the next token (`yyla` is not empty at `yyerrlab`). -/
theorem C128_token_read : ∀ s < 300, yypact[s]? = some (-260) → yydefact[s]? ≠ some 0 := by decide +kernel

theorem parses_of {V D : Type} {sem : Nat → List V → D → Option (V × D)} {Ty : Sym → V → Prop}
    (hsem : ∀ n A rhs vs d, grammar[n]? = some (A, rhs) → List.Forall₂ Ty rhs vs →
      ∃ v d', sem (n + 1) vs d = some (v, d') ∧ Ty (.n A) v)
    {ss : List Sym} {w₀ : List Tok} (h : Derives ss w₀) : ∀ (w : List (Tok × V)) (d : D), w.map Prod.fst = w₀ →
      (∀ t ∈ w, Ty (.t t.1) t.2) → ∃ vs d', Parses sem ss w d vs d' ∧ List.Forall₂ Ty ss vs := by
  induction h with
  | nil =>
    intro w d hw _
    obtain rfl := List.map_eq_nil_iff.1 hw
    exact ⟨[], d, .nil d, .nil⟩
  | tok a h ih =>
    intro w d hw ht
    obtain ⟨⟨t, v⟩, w', rfl, rfl, hw'⟩ := List.map_eq_cons_iff.1 hw
    obtain ⟨vs, d', h1, h2⟩ := ih w' d hw' fun t ht' => ht t (List.mem_cons_of_mem _ ht')
    exact ⟨v :: vs, d', .tok t v h1, .cons (ht _ List.mem_cons_self) h2⟩
  | rule n A rhs hr h h' ih ih' =>
    intro w d hw ht
    obtain ⟨w₁, w₂, rfl, hw₁, hw₂⟩ := List.map_eq_append_iff.1 hw
    obtain ⟨us, d₁, h1, h2⟩ := ih w₁ d hw₁ fun t ht' => ht t (List.mem_append_left _ ht')
    obtain ⟨v, d₂, h3, h4⟩ := hsem n A rhs us d₁ hr h2
    obtain ⟨vs, d', h5, h6⟩ := ih' w₂ d₂ hw₂ fun t ht' => ht t (List.mem_append_right _ ht')
    exact ⟨v :: vs, d', .rule n A rhs hr h1 h3 h5, .cons h4 h6⟩

/-- C128: The parser with values and actions (C119, C122) rejects exactly the files in which it stops at some token, as
long as its actions are defined. -/
theorem C128_rejects {V D : Type} {sem : Nat → List V → D → Option (V × D)} (Ty : Sym → V → Prop)
    (hsem : ∀ n A rhs vs d, grammar[n]? = some (A, rhs) → List.Forall₂ Ty rhs vs →
      ∃ v d', sem (n + 1) vs d = some (v, d') ∧ Ty (.n A) v)
    (e : V) (he : Ty (.t .END) e) (w : List (Tok × V)) (hw : ∀ t ∈ w, Ty (.t t.1) t.2)
    (hend : ∀ t ∈ w, t.1 ≠ Tok.END) (d : D) :
    (∃ d', run sem (9 * (w.length + 1) + 1) (initial e w d) = some (.reject d')) ↔
      ∃ k, stopsAt (w.map Prod.fst ++ [.END]) = some k := by
  have hE : Tok.END ∉ (w.map Prod.fst ++ [Tok.END]).dropLast := by
    rw [List.dropLast_concat]
    intro h
    obtain ⟨t, ht, h⟩ := List.mem_map.1 h
    exact hend t ht h
  obtain ⟨o, ho⟩ := C119_terminates sem e w d
  constructor
  · rintro ⟨d', h⟩
    cases hs : stopsAt (w.map Prod.fst ++ [.END]) with
    | some k => exact ⟨k, rfl⟩
    | none =>
      exfalso
      obtain ⟨w', e', hg⟩ := (C128_none _ hE).1 hs
      obtain ⟨rfl, -⟩ := List.append_inj' e' rfl
      obtain ⟨vs, d'', h1, h2⟩ := parses_of hsem hg w d rfl hw
      obtain ⟨v, rfl⟩ : ∃ v, vs = [v] := by
        match vs, h2 with
        | [v], _ => exact ⟨v, rfl⟩
      obtain ⟨N, hN⟩ := (C119_accepts_iff sem e w hend d d'').2 ⟨v, h1⟩
      exact absurd (run_det h hN) (by simp)
  · rintro ⟨k, hk⟩
    cases o with
    | reject d' => exact ⟨d', ho⟩
    | ub => exact absurd ho (C119_no_undefined_behaviour sem Ty hsem e he w hw d _)
    | accept d' =>
      obtain ⟨v, h⟩ := (C119_accepts_iff sem e w hend d d').1 ⟨_, ho⟩
      have := (C128_none _ hE).2 ⟨_, rfl, derives_of h⟩
      rw [hk] at this
      cases this

/-- `spp: 9 9`: the last number is the error. -/
example : stopsAt [.SPP, .COLON, .UINT, .UINT, .END] = some 3 := by decide +kernel

/-- `spp:`: the end of the file is the error. -/
example : stopsAt [.SPP, .COLON, .END] = some 2 := by decide +kernel

end Spectre.Scene
