import Verif.Props.SceneTables

/-!
# The scene file parser accepts exactly the grammar (C119)

The specification is `Parses`: the rules of `config_parser.y` read as a definition of which lists of tokens make up a
list of symbols, with the actions of the rules carried out from left to right, each after those of its parts.  The
theorems relate it to the machine with Bison's tables (`Verif/Model/SceneGrammar.lean`).
-/

namespace Spectre.Scene

section Spec

variable {V D : Type}

/-- `Parses sem ss w d vs d'`: the tokens `w` can be split into one part for each symbol of `ss`; carrying out the
actions of the rules used, in order, turns the driver `d` into `d'` and gives the symbols the values `vs`.  A token
stands for itself; a nonterminal is replaced by the right-hand side of one of its rules (numbered from 1), whose action
comes after those of the right-hand side. -/
inductive Parses (sem : Nat → List V → D → Option (V × D)) :
    List Sym → List (Tok × V) → D → List V → D → Prop
  | nil (d : D) : Parses sem [] [] d [] d
  | tok {ss w d vs d'} (a : Tok) (v : V) (h : Parses sem ss w d vs d') :
      Parses sem (.t a :: ss) ((a, v) :: w) d (v :: vs) d'
  | rule {ss w w' d d₁ d₂ d' us v vs} (n : Nat) (A : NT) (rhs : List Sym)
      (hr : grammar[n]? = some (A, rhs)) (h : Parses sem rhs w d us d₁) (ha : sem (n + 1) us d₁ = some (v, d₂))
      (h' : Parses sem ss w' d₂ vs d') : Parses sem (.n A :: ss) (w ++ w') d (v :: vs) d'

end Spec

/-! ## Symbols and numbers -/

theorem tok_num_lt (a : Tok) : a.num < 109 := by cases a <;> decide

/-- The terminal with a given number. -/
def tokOf (n : Nat) : Option Tok :=
  [Tok.END, .ERROR_, .UNDEF_, .INVALID, .COLON, .OPEN_SQ, .CLOSE_SQ, .OPEN_CU, .CLOSE_CU, .COMMA, .OUTPUT,
   .INTEGRATOR, .RESOLUTION, .WIDTH, .HEIGHT, .SAMPLER, .SPP, .FILTER, .TYPE, .CAMERA, .ORTHOGRAPHIC,
   .PERSPECTIVE, .PANORAMA, .POSITION, .TARGET, .UP, .FOV, .RANDOM, .STRATIFIED, .BOX, .TENT, .GAUSS, .MITCHELL,
   .LANCZOS, .UNFILTERED, .TRILINEAR, .EWA, .VAL_0, .VAL_1, .SHAPE, .WORLD, .LIGHT, .TEMPERATURE, .NAME,
   .ROTATION, .SCALE, .SHIFT, .COLOR, .MATERIAL, .DUALMATERIAL, .TEXTURE, .ANISOTROPY, .BECKMANN, .BLINN,
   .DIFFUSE, .DISTRIBUTION, .ELEM, .GGX, .GLASS, .GLOSSY, .IOR, .MATTE, .METAL, .ROUGHNESS, .SPECULAR, .NORMAL,
   .SRC, .PATH_TRACE, .CHNR, .CHNG, .CHNB, .CHNA, .INV, .MASK, .FIRST, .SECOND, .SILVER, .ALUMINIUM, .GOLD,
   .COPPER, .IRON, .MERCURY, .LEAD, .PLATINUM, .TUNGSTEN, .BERYLLIUM, .BISMUTH, .COBALT, .CHROMIUM, .GERMANIUM,
   .POTASSIUM, .LITHIUM, .MAGNESIUM, .MANGANESE, .MOLYBDENUM, .SODIUM, .NIOBIUM, .NICKEL, .PALLADIUM, .RHODIUM,
   .TANTALUM, .TITANIUM, .VANADIUM, .ZINC, .ZIRCONIUM, .UINT, .INT, .FLOAT, .STRING][n]?

theorem tokOf_num (a : Tok) : tokOf a.num = some a := by cases a <;> rfl

/-- The nonterminal with a given number. -/
def ntOf (n : Nat) : Option NT :=
  [NT.accept_, .file, .stmt, .resolution_obj, .resolution_stmt, .filter_obj, .filter_stmt, .camera_obj,
   .camera_stmt, .world_obj, .world_rec, .world_name, .world_stmt, .light_obj, .light_rec, .light_stmt,
   .texture_obj, .texture_rec, .texture_stmt, .material_obj, .material_rec, .material_stmt, .dualmaterial_obj,
   .dualmaterial_rec, .dualmaterial_stmt, .element, .attributes, .attribute_, .channel, .vector, .vector2,
   .number, .integer][n - 109]?

theorem ntOf_num (a : NT) : ntOf a.num = some a := by cases a <;> rfl

theorem nt_num (a : NT) : 109 ≤ a.num ∧ a.num < 142 := by cases a <;> decide

theorem sym_num_inj : Function.Injective Sym.num := by
  intro x y h
  cases x with
  | t a =>
    cases y with
    | t b =>
      have := tokOf_num a
      rw [show a.num = b.num from h, tokOf_num b] at this
      rw [Option.some.inj this]
    | n b => exact absurd h (by have := tok_num_lt a; have := nt_num b; simp only [Sym.num]; omega)
  | n a =>
    cases y with
    | t b => exact absurd h (by have := tok_num_lt b; have := nt_num a; simp only [Sym.num]; omega)
    | n b =>
      have := ntOf_num a
      rw [show a.num = b.num from h, ntOf_num b] at this
      rw [Option.some.inj this]

/-! ## What the check gives -/

theorem checkFrom_get : ∀ (s : Nat) (L : List (List (Nat × Nat × Nat))), checkFrom s L = true →
    ∀ i l, L[i]? = some l → checkState (s + i) l = true
  | _, [], _, i, l, hl => by simp at hl
  | s, l₀ :: ls, h, 0, l, hl => by
      simp only [checkFrom, Bool.and_eq_true] at h
      simp only [List.getElem?_cons_zero, Option.some.injEq] at hl
      subst hl
      exact h.1
  | s, l₀ :: ls, h, i + 1, l, hl => by
      simp only [checkFrom, Bool.and_eq_true] at h
      rw [List.getElem?_cons_succ] at hl
      have := checkFrom_get (s + 1) ls h.2 i l hl
      rwa [show s + 1 + i = s + (i + 1) by omega] at this

theorem items_length : itemsN.length = 300 := by decide +kernel

theorem check_state {s : Nat} (hs : s < 300) : checkState s (itemsAt s) = true := by
  have hl : s < itemsN.length := by rw [items_length]; exact hs
  have := checkFrom_get 0 itemsN check_all s itemsN[s] (List.getElem?_eq_getElem hl)
  rw [Nat.zero_add] at this
  unfold itemsAt
  rw [List.getD_eq_getElem?_getD, List.getElem?_eq_getElem hl]
  exact this

theorem hasItem_iff {l : List (Nat × Nat × Nat)} {n k : Nat} :
    hasItem l n k = true ↔ ∃ la, (n, k, la) ∈ l := by
  unfold hasItem
  rw [List.any_eq_true]
  constructor
  · rintro ⟨⟨a, b, c⟩, hm, h⟩
    simp only [Bool.and_eq_true, Nat.beq_eq] at h
    obtain ⟨rfl, rfl⟩ := h
    exact ⟨c, hm⟩
  · rintro ⟨la, hm⟩
    exact ⟨_, hm, by simp⟩

theorem hasLa_iff {l : List (Nat × Nat × Nat)} {n k la : Nat} :
    hasLa l n k la = true ↔ ∃ m, (n, k, m) ∈ l ∧ ∀ a, la.testBit a = true → m.testBit a = true := by
  unfold hasLa
  rw [List.any_eq_true]
  have key : ∀ m : Nat, (m &&& la = la) ↔ ∀ a, la.testBit a = true → m.testBit a = true := by
    intro m
    constructor
    · intro h a ha
      rw [← h, Nat.testBit_and, Bool.and_eq_true] at ha
      exact ha.1
    · intro h
      apply Nat.eq_of_testBit_eq
      intro a
      rw [Nat.testBit_and]
      cases hb : la.testBit a
      · simp
      · simp [h a hb]
  constructor
  · rintro ⟨⟨a, b, c⟩, hm, h⟩
    simp only [Bool.and_eq_true, Nat.beq_eq] at h
    obtain ⟨⟨rfl, rfl⟩, h⟩ := h
    exact ⟨c, hm, (key c).1 h⟩
  · rintro ⟨m, hm, h⟩
    exact ⟨_, hm, by simp [(key m).2 h]⟩

/-- The items of a state have rule numbers of the grammar. -/
theorem item_range {s n k la : Nat} (hs : s < 300) (h : (n, k, la) ∈ itemsAt s) : 1 ≤ n ∧ n < 160 := by
  have := check_state hs
  simp only [checkState, Bool.and_eq_true, List.all_eq_true, Nat.ble_eq, Nat.blt_eq] at this
  exact this.2 _ h

/-- Item facts, complete item. -/
theorem item_complete {s n k la a : Nat} (hs : s < 300) (h : (n, k, la) ∈ itemsAt s)
    (hk : (ruleN n).2.drop k = []) (hn : n ≠ 1) (ha : a < 109) (hb : la.testBit a = true) :
    actionP s a = .reduce n := by
  have := check_state hs
  simp only [checkState, Bool.and_eq_true, List.all_eq_true] at this
  have h1 := this.1.1.1 _ h
  simp only [checkItem, hk, Bool.or_eq_true, Nat.beq_eq, List.all_eq_true, List.mem_range, Bool.not_eq_true'] at h1
  rcases h1 with h1 | h1
  · exact absurd h1 hn
  · rcases h1 a ha with h2 | h2
    · rw [hb] at h2; exact absurd h2 (by simp)
    · unfold isReduce at h2
      split at h2
      · rename_i m hm
        rw [Nat.beq_eq] at h2
        rw [hm, h2]
      · exact absurd h2 (by simp)

/-- Item facts, dot before a symbol. -/
theorem item_next {s n k la X : Nat} {β : List Nat} (hs : s < 300) (h : (n, k, la) ∈ itemsAt s)
    (hk : (ruleN n).2.drop k = X :: β) : ∃ t, transP s X = some t ∧ 0 < t ∧ t < 300 ∧
      (∃ m, (n, k + 1, m) ∈ itemsAt t ∧ ∀ a, la.testBit a = true → m.testBit a = true) ∧
      (∀ n' k' la', (n', k' + 1, la') ∈ itemsAt t → (∃ γ, (ruleN n').2.drop k' = X :: γ) ∧
        ∃ m, (n', k', m) ∈ itemsAt s) ∧
      (109 ≤ X → closed (itemsAt s) X (followMask β la) rulesN 0 = true) := by
  have := check_state hs
  simp only [checkState, Bool.and_eq_true, List.all_eq_true] at this
  have h1 := this.1.1.1 _ h
  simp only [checkItem, hk] at h1
  cases ht : transP s X with
  | none => rw [ht] at h1; exact absurd h1 (by simp)
  | some t =>
    rw [ht] at h1
    simp only [Bool.and_eq_true, Nat.blt_eq, Bool.or_eq_true] at h1
    obtain ⟨⟨⟨⟨h0, h3⟩, hla⟩, hback⟩, hcl⟩ := h1
    refine ⟨t, rfl, h0, h3, hasLa_iff.1 hla, ?_, ?_⟩
    · intro n' k' la' hm
      rw [List.all_eq_true] at hback
      have := hback _ hm
      simp only [Bool.and_eq_true] at this
      refine ⟨?_, hasItem_iff.1 this.2⟩
      have h2 := this.1
      cases hd : (ruleN n').2.drop k' with
      | nil => rw [hd] at h2; exact absurd h2 (by simp)
      | cons Y γ =>
        rw [hd] at h2
        simp only [Nat.beq_eq] at h2
        exact ⟨γ, by rw [h2]⟩
    · intro hX
      rcases hcl with hcl | hcl
      · omega
      · exact hcl

theorem closed_get {l : List (Nat × Nat × Nat)} {X la : Nat} : ∀ (rs : List (Nat × List Nat)) (m : Nat),
    closed l X la rs m = true → ∀ i r, rs[i]? = some r → r.1 = X → hasLa l (m + i) 0 la = true
  | [], _, _, i, r, hr, _ => by simp at hr
  | r₀ :: rs, m, h, 0, r, hr, hX => by
      simp only [closed, Bool.and_eq_true] at h
      simp only [List.getElem?_cons_zero, Option.some.injEq] at hr
      subst hr
      rcases Bool.or_eq_true _ _ ▸ h.1 with h1 | h1
      · rw [Bool.not_eq_true', Bool.eq_false_iff, ne_eq, Nat.beq_eq] at h1
        exact absurd hX h1
      · exact h1
  | r₀ :: rs, m, h, i + 1, r, hr, hX => by
      simp only [closed, Bool.and_eq_true] at h
      rw [List.getElem?_cons_succ] at hr
      have := closed_get rs (m + 1) h.2 i r hr hX
      rwa [show m + 1 + i = m + (i + 1) by omega] at this

/-- Action facts. -/
theorem act_ok {s a : Nat} (hs : s < 300) (h30 : s ≠ 30) (ha : a < 109) : checkAct s (itemsAt s) a = true := by
  have := check_state hs
  simp only [checkState, Bool.and_eq_true, List.all_eq_true, Bool.or_eq_true, Nat.beq_eq] at this
  rcases this.1.1.2 with h | h
  · exact absurd h h30
  · exact h a (List.mem_range.2 ha)

theorem start_item {s la : Nat} (hs : s < 300) (h : (1, 0, la) ∈ itemsAt s) : s = 0 := by
  have := check_state hs
  simp only [checkState, Bool.and_eq_true, List.all_eq_true, Bool.or_eq_true, Nat.beq_eq] at this
  rcases this.1.2 with h' | h'
  · exact h'
  · rw [Bool.not_eq_true', Bool.eq_false_iff] at h'
    exact absurd (hasItem_iff.2 ⟨la, h⟩) h'

/-- Rule `n + 1` in numbers. -/
theorem rule_num {n : Nat} {A : NT} {rhs : List Sym} (h : grammar[n]? = some (A, rhs)) :
    ruleN (n + 1) = (A.num, rhs.map Sym.num) ∧ rulesN[n + 1]? = some (A.num, rhs.map Sym.num) := by
  have h1 : rulesN[n + 1]? = some (A.num, rhs.map Sym.num) := by
    rw [← List.getElem?_tail, rules_eq, List.getElem?_map, h]
    rfl
  refine ⟨?_, h1⟩
  unfold ruleN
  rw [List.getD_eq_getElem?_getD, h1]
  rfl

theorem rule_of_num {n : Nat} (h1 : 1 ≤ n) (h2 : n < 160) : ∃ A rhs, grammar[n - 1]? = some (A, rhs) := by
  have hl : grammar.length = 159 := by decide +kernel
  have : n - 1 < grammar.length := by omega
  exact ⟨_, _, List.getElem?_eq_getElem this⟩

/-- Facts about every rule. -/
theorem rule_ok {n : Nat} {A : NT} {rhs : List Sym} (h : grammar[n]? = some (A, rhs)) :
    checkRule (A.num, rhs.map Sym.num) = true := by
  have h1 : rulesN.tail[n]? = some (A.num, rhs.map Sym.num) := by
    rw [List.getElem?_tail]; exact (rule_num h).2
  exact List.all_eq_true.1 check_rules _ (List.mem_of_getElem? h1)

theorem yyr_of {n : Nat} {A : NT} {rhs : List Sym} (h : grammar[n]? = some (A, rhs)) :
    yyr1[n + 1]? = some A.num ∧ yyr2[n + 1]? = some rhs.length := by
  obtain ⟨h1, h2, _⟩ := r1_eq
  rw [h1, h2, List.getElem?_map, List.getElem?_map, (rule_num h).2]
  simp

/-! ## Completeness -/

section Complete

variable {V D : Type} {sem : Nat → List V → D → Option (V × D)}

/-- Steps of the machine. -/
inductive Steps (sem : Nat → List V → D → Option (V × D)) : Config V D → Config V D → Prop
  | refl (c) : Steps sem c c
  | head {c c' c''} (h : step sem c = .inl c') (t : Steps sem c' c'') : Steps sem c c''

theorem Steps.trans {c c' c'' : Config V D} (h : Steps sem c c') (h' : Steps sem c' c'') : Steps sem c c'' := by
  induction h with
  | refl => exact h'
  | head hs _ ih => exact .head hs (ih h')

/-- A derived string for a symbol begins with a terminal of the symbol's first set. -/
theorem parses_head {ss : List Sym} {w : List (Tok × V)} {d d' : D} {vs : List V}
    (h : Parses sem ss w d vs d') : ∀ X ss', ss = X :: ss' →
      ∃ t w', w = t :: w' ∧ (firstOf X.num).testBit t.1.num = true := by
  induction h with
  | nil => intro X ss' h; exact absurd h (by simp)
  | tok a v h ih =>
    intro X ss' e
    obtain ⟨rfl, -⟩ := List.cons.inj e
    refine ⟨_, _, rfl, ?_⟩
    have := tok_num_lt a
    simp only [firstOf, Sym.num, show Nat.blt a.num 109 = true by rw [Nat.blt_eq]; exact this]
    simp
  | @rule ss w w' d d₁ d₂ d' us v vs n A rhs hr h ha h' ih ih' =>
    intro X ss' e
    obtain ⟨rfl, -⟩ := List.cons.inj e
    have hc := rule_ok hr
    cases rhs with
    | nil => simp [checkRule] at hc
    | cons Y β =>
      obtain ⟨t, w₁, rfl, ht⟩ := ih Y β rfl
      refine ⟨t, w₁ ++ w', rfl, ?_⟩
      simp only [checkRule, List.map_cons, Bool.and_eq_true, Nat.beq_eq] at hc
      have hA := nt_num A
      have e : firstOf (Sym.num (.n A)) = firstN.getD (A.num - 109) 0 := by
        simp only [firstOf, Sym.num]
        rw [show Nat.blt A.num 109 = false by rw [Bool.eq_false_iff, ne_eq, Nat.blt_eq]; omega]
      rw [e]
      have h2 := hc.1.1.1
      rw [← h2, Nat.testBit_and, Bool.and_eq_true] at ht
      exact ht.1

/-- Main lemma: from a configuration whose state has an item with the dot before `ss`, and whose input begins with a
string for `ss` followed by a permitted terminal, the machine goes over that string. -/
theorem complete_aux {ss : List Sym} {w : List (Tok × V)} {d d' : D} {vs : List V}
    (h : Parses sem ss w d vs d') : ∀ (st : List (Nat × V)) (n k la : Nat) (γ : List Nat) (t : Tok × V)
      (rest : List (Tok × V)),
      topState st < 300 → (n, k, la) ∈ itemsAt (topState st) → (ruleN n).2.drop k = ss.map Sym.num ++ γ →
      (followMask γ la).testBit t.1.num = true →
      ∃ st' : List (Nat × V), Steps sem ⟨st, w ++ t :: rest, d⟩ ⟨st' ++ st, t :: rest, d'⟩ ∧
        (st'.map Prod.snd).reverse = vs ∧ st'.length = ss.length ∧ topState (st' ++ st) < 300 ∧
        ∃ m, (n, k + ss.length, m) ∈ itemsAt (topState (st' ++ st)) ∧ ∀ a, la.testBit a = true → m.testBit a = true := by
  have mono : ∀ (γ : List Nat) (la m : Nat) (a : Nat), (∀ b, la.testBit b = true → m.testBit b = true) →
      (followMask γ la).testBit a = true → (followMask γ m).testBit a = true := by
    intro γ la m a hs h
    cases γ with
    | nil => exact hs _ h
    | cons X γ => exact h
  induction h with
  | nil d =>
    intro st n k la γ t rest hs hi hd ht
    exact ⟨[], .refl _, rfl, rfl, hs, la, hi, fun _ h => h⟩
  | @tok ss w d vs d' a v h ih =>
    intro st n k la γ t rest hs hi hd ht
    rw [List.map_cons, List.cons_append] at hd
    obtain ⟨s', htr, h0, h3, ⟨m, hm, hsub⟩, _, _⟩ := item_next hs hi hd
    have ha := tok_num_lt a
    have hact : actionP (topState st) a.num = .shift s' := by
      simp only [transP, Sym.num, show Nat.blt a.num 109 = true by rw [Nat.blt_eq]; exact ha] at htr
      split at htr
      · rename_i s'' hh
        rw [hh, Option.some.inj htr]
      · exact absurd htr (by simp)
    have h30 : topState st ≠ 30 := by
      intro hh
      rw [hh] at hi
      have h130 : itemsAt 30 = [(1, 2, 1)] := by decide +kernel
      rw [h130, List.mem_singleton] at hi
      obtain ⟨rfl, rfl, rfl⟩ := by simpa using hi
      have : (ruleN 1).2.drop 2 = [] := by decide +kernel
      rw [this] at hd
      exact absurd hd (by simp)
    have hd' : (ruleN n).2.drop (k + 1) = ss.map Sym.num ++ γ := by
      rw [← List.tail_drop, hd]; rfl
    obtain ⟨st', hst, hv, hl, ht3, m', hm', htb⟩ := ih ((s', v) :: st) n (k + 1) m γ t rest h3 hm hd' (mono _ _ _ _ hsub ht)
    have e1 : (st' ++ [(s', v)]) ++ st = st' ++ (s', v) :: st := by simp
    refine ⟨st' ++ [(s', v)], ?_, ?_, ?_, ?_, m', ?_, fun a ha' => htb a (hsub a ha')⟩
    · rw [e1]
      refine .head ?_ hst
      unfold step
      simp only [List.cons_append]
      rw [if_neg h30, action_eq hs, hact]
    · simp [← hv]
    · simp [hl]
    · rw [e1]; exact ht3
    · rw [e1, List.length_cons, show k + (ss.length + 1) = k + 1 + ss.length by omega]; exact hm'
  | @rule ss w w' d d₁ d₂ d' us v vs n₁ A rhs hr h ha h' ih ih' =>
    intro st n k la γ t rest hs hi hd ht
    rw [List.map_cons, List.cons_append] at hd
    obtain ⟨s', htr, h0, h3, ⟨m, hm, hsub⟩, _, hcl⟩ := item_next hs hi hd
    have hA := nt_num A
    have hcl := hcl hA.1
    obtain ⟨m₀, hm₀, hsub₀⟩ := hasLa_iff.1 (by
      have := closed_get rulesN 0 hcl (n₁ + 1) _ (rule_num hr).2 rfl
      rwa [Nat.zero_add] at this)
    -- the terminal after this nonterminal
    obtain ⟨t', rest', hrest, ht'⟩ : ∃ t' rest', w' ++ t :: rest = t' :: rest' ∧
        (followMask (ss.map Sym.num ++ γ) la).testBit t'.1.num = true := by
      cases ss with
      | nil =>
        cases h'
        exact ⟨t, rest, rfl, ht⟩
      | cons X ss' =>
        obtain ⟨t', w₁, rfl, hh⟩ := parses_head h' X ss' rfl
        exact ⟨t', w₁ ++ t :: rest, rfl, hh⟩
    have hd₀ : (ruleN (n₁ + 1)).2.drop 0 = rhs.map Sym.num ++ [] := by rw [(rule_num hr).1]; simp
    obtain ⟨st₁, hst₁, hv₁, hl₁, ht₁, m₁, hm₁, htb₁⟩ :=
      ih st (n₁ + 1) 0 m₀ [] t' rest' hs hm₀ hd₀ (hsub₀ _ ht')
    rw [Nat.zero_add] at hm₁
    have hdrop : (ruleN (n₁ + 1)).2.drop rhs.length = [] := by
      rw [(rule_num hr).1]; simp
    -- rule 1 is never an inner rule
    have hne : n₁ + 1 ≠ 1 := by
      intro hh
      have hz : n₁ = 0 := by omega
      subst hz
      have hg : grammar[0]? = some (NT.accept_, [.n NT.file, .t Tok.END]) := by rfl
      rw [hg] at hr
      obtain ⟨rfl, rfl⟩ := Prod.mk.inj (Option.some.inj hr)
      have hno : itemsN.all (fun l => l.all fun i =>
          match (ruleN i.1).2.drop i.2.1 with
          | [] => true
          | Y :: _ => !(Nat.beq Y 109)) = true := by decide +kernel
      have hmem : itemsAt (topState st) ∈ itemsN := by
        unfold itemsAt
        rw [List.getD_eq_getElem?_getD, List.getElem?_eq_getElem (by rw [items_length]; exact hs)]
        exact List.getElem_mem _
      have := List.all_eq_true.1 (List.all_eq_true.1 hno _ hmem) _ hi
      rw [hd] at this
      exact absurd this (by show ¬ ((!Nat.beq (NT.num .accept_) 109) = true); decide)
    have hact : actionP (topState (st₁ ++ st)) t'.1.num = .reduce (n₁ + 1) :=
      item_complete ht₁ hm₁ hdrop hne (tok_num_lt _) (htb₁ _ (hsub₀ _ ht'))
    have h30 : topState (st₁ ++ st) ≠ 30 := by
      intro hh
      rw [hh] at hm₁
      have h130 : itemsAt 30 = [(1, 2, 1)] := by decide +kernel
      rw [h130, List.mem_singleton] at hm₁
      exact hne (Prod.mk.inj hm₁).1
    have hgo : gotoState (topState st) A.num = some s' := by
      rw [goto_eq (by omega)]
      simp only [transP, Sym.num] at htr
      rw [show Nat.blt A.num 109 = false by rw [Bool.eq_false_iff, ne_eq, Nat.blt_eq]; omega] at htr
      exact htr
    have hstep : step sem ⟨st₁ ++ st, t' :: rest', d₁⟩ = .inl ⟨(s', v) :: st, t' :: rest', d₂⟩ := by
      unfold step
      simp only
      rw [if_neg h30, action_eq ht₁, hact]
      simp only [(yyr_of hr).1, (yyr_of hr).2]
      rw [if_pos (by simp [hl₁]), ← hl₁, List.take_left', List.drop_left', hv₁, ha]
      · simp only [hgo]
      · rfl
      · rfl
    have hd' : (ruleN n).2.drop (k + 1) = ss.map Sym.num ++ γ := by
      rw [← List.tail_drop, hd]; rfl
    obtain ⟨st', hst, hv, hl, ht3, m', hm', htb⟩ := ih' ((s', v) :: st) n (k + 1) m γ t rest h3 hm hd' (mono _ _ _ _ hsub ht)
    have e1 : (st' ++ [(s', v)]) ++ st = st' ++ (s', v) :: st := by simp
    refine ⟨st' ++ [(s', v)], ?_, ?_, ?_, ?_, m', ?_, fun a ha' => htb a (hsub a ha')⟩
    · rw [e1, List.append_assoc, hrest]
      refine hst₁.trans (.head hstep ?_)
      rw [← hrest]
      exact hst
    · simp [← hv]
    · simp [hl]
    · rw [e1]; exact ht3
    · rw [e1, List.length_cons, show k + (ss.length + 1) = k + 1 + ss.length by omega]; exact hm'

theorem steps_run {c c' : Config V D} (h : Steps sem c c') {o : Out D} (ho : step sem c' = .inr o) :
    ∃ N, run sem N c = some o := by
  induction h with
  | refl c => exact ⟨1, by simp only [run, ho]⟩
  | head hs _ ih =>
    obtain ⟨N, hN⟩ := ih ho
    exact ⟨N + 1, by simp only [run, hs]; exact hN⟩

theorem run_mono {N : Nat} : ∀ {c : Config V D} {o : Out D}, run sem N c = some o → ∀ M, N ≤ M →
    run sem M c = some o := by
  induction N with
  | zero => intro c o h; simp [run] at h
  | succ N ih =>
    intro c o h M hM
    obtain ⟨M, rfl⟩ : ∃ M', M = M' + 1 := ⟨M - 1, by omega⟩
    simp only [run] at h ⊢
    cases hs : step sem c with
    | inr o' => rw [hs] at h; exact h
    | inl c' => rw [hs] at h; exact ih h M (by omega)

/-- A file of the grammar is accepted. -/
theorem complete_run {w : List (Tok × V)} {d d' : D} {vs : List V} (e : V)
    (h : Parses sem [.n .file] w d vs d') : ∃ N, run sem N (initial e w d) = some (.accept d') := by
  have hi : (1, 0, 1) ∈ itemsAt (topState ([] : List (Nat × V))) := by
    show (1, 0, 1) ∈ itemsAt 0
    decide +kernel
  obtain ⟨st', hst, hv, hl, h3, m, hm, hb⟩ := complete_aux h [] 1 0 1 [0] (.END, e) [] (by simp [topState]) hi
    (by decide +kernel) (show (followMask [0] 1).testBit 0 = true by decide +kernel)
  rw [List.append_nil] at hst h3 hm
  have hd : (ruleN 1).2.drop 1 = [0] := by decide +kernel
  replace hm : (1, 1, m) ∈ itemsAt (topState st') := hm
  obtain ⟨s', htr, h0, h3', ⟨m', hm', _⟩, _, _⟩ := item_next h3 hm hd
  have hact : actionP (topState st') 0 = .shift s' := by
    simp only [transP, show Nat.blt 0 109 = true by rfl] at htr
    split at htr
    · rename_i s'' hh
      rw [hh, Option.some.inj htr]
    · exact absurd htr (by simp)
  have hs30 : s' = 30 := by
    have hall : (List.range 300).all (fun s => !(hasItem (itemsAt s) 1 2) || Nat.beq s 30) = true := by
      decide +kernel
    have := List.all_eq_true.1 hall s' (List.mem_range.2 h3')
    rw [Bool.or_eq_true, Nat.beq_eq, Bool.not_eq_true'] at this
    rcases this with hh | hh
    · rw [hasItem_iff.2 ⟨m', hm'⟩] at hh; exact absurd hh (by simp)
    · exact hh
  have h30 : topState st' ≠ 30 := by
    intro hh
    rw [hh] at hm
    have h130 : itemsAt 30 = [(1, 2, 1)] := by decide +kernel
    rw [h130, List.mem_singleton] at hm
    exact absurd hm (by simp)
  have hstep : step sem ⟨st', [(.END, e)], d'⟩ = .inl ⟨(30, e) :: st', [], d'⟩ := by
    unfold step
    simp only
    rw [if_neg h30, action_eq h3, show (Tok.END).num = 0 from rfl, hact, hs30]
  refine steps_run (hst.trans (.head hstep (.refl _))) (o := .accept d') ?_
  unfold step
  simp only [topState, if_true]

end Complete

/-! ## Soundness -/

section Sound

variable {V D : Type} {sem : Nat → List V → D → Option (V × D)}

theorem Parses.append {ss₁ ss₂ : List Sym} {w₁ w₂ : List (Tok × V)} {d d₁ d₂ : D} {vs₁ vs₂ : List V}
    (h₁ : Parses sem ss₁ w₁ d vs₁ d₁) (h₂ : Parses sem ss₂ w₂ d₁ vs₂ d₂) :
    Parses sem (ss₁ ++ ss₂) (w₁ ++ w₂) d (vs₁ ++ vs₂) d₂ := by
  induction h₁ with
  | nil d => exact h₂
  | tok a v h ih => exact .tok a v (ih h₂)
  | rule n A rhs hr h ha h' _ ih' =>
    rw [List.append_assoc]
    exact .rule n A rhs hr h ha (ih' h₂)

theorem Parses.length {ss : List Sym} {w : List (Tok × V)} {d d' : D} {vs : List V}
    (h : Parses sem ss w d vs d') : vs.length = ss.length := by
  induction h with
  | nil => rfl
  | tok a v h ih => simp [ih]
  | rule n A rhs hr h ha h' _ ih' => simp [ih']

theorem Parses.split : ∀ (ss₁ : List Sym) {ss₂ : List Sym} {w : List (Tok × V)} {d d' : D} {vs : List V},
    Parses sem (ss₁ ++ ss₂) w d vs d' → ∃ w₁ w₂ vs₁ vs₂ d₁, w = w₁ ++ w₂ ∧ vs = vs₁ ++ vs₂ ∧
      Parses sem ss₁ w₁ d vs₁ d₁ ∧ Parses sem ss₂ w₂ d₁ vs₂ d'
  | [], ss₂, w, d, d', vs, h => ⟨[], w, [], vs, d, rfl, rfl, .nil d, h⟩
  | X :: ss₁, ss₂, w, d, d', vs, h => by
      rw [List.cons_append] at h
      cases h with
      | tok a v h =>
        obtain ⟨w₁, w₂, vs₁, vs₂, d₁, rfl, rfl, h₁, h₂⟩ := Parses.split ss₁ h
        exact ⟨_, w₂, _, vs₂, d₁, rfl, rfl, .tok a v h₁, h₂⟩
      | rule n A rhs hr h ha h' =>
        obtain ⟨w₁, w₂, vs₁, vs₂, d₁, rfl, rfl, h₁, h₂⟩ := Parses.split ss₁ h'
        exact ⟨_, w₂, _, vs₂, d₁, (List.append_assoc _ _ _).symm, rfl, .rule n A rhs hr h ha h₁, h₂⟩

/-- The stack spells a path through the states; `ss` are the symbols along it, last first. -/
inductive Stk : List (Nat × V) → List Sym → Prop
  | nil : Stk [] []
  | push {st ss} (h : Stk st ss) (s : Nat) (v : V) (X : Sym) (n k la : Nat) (β : List Nat)
      (hi : (n, k, la) ∈ itemsAt (topState st)) (hd : (ruleN n).2.drop k = X.num :: β)
      (ht : transP (topState st) X.num = some s) : Stk ((s, v) :: st) (X :: ss)

theorem Stk.top {st : List (Nat × V)} {ss : List Sym} (h : Stk st ss) :
    topState st < 300 ∧ (topState st = 0 → st = []) ∧ ss.length = st.length := by
  induction h with
  | nil => exact ⟨by simp [topState], fun _ => rfl, rfl⟩
  | push h s v X n k la β hi hd ht ih =>
    obtain ⟨t, ht', h0, h3, -⟩ := item_next ih.1 hi hd
    rw [ht] at ht'
    obtain rfl := Option.some.inj ht'
    exact ⟨h3, fun h => absurd h (by simp only [topState]; omega), by simp [ih.2.2]⟩

theorem Stk.back : ∀ (k : Nat) {st : List (Nat × V)} {ss : List Sym}, Stk st ss → ∀ n la,
    (n, k, la) ∈ itemsAt (topState st) → k ≤ st.length ∧
      (ss.take k).map Sym.num = ((ruleN n).2.take k).reverse ∧
      (∃ la', (n, 0, la') ∈ itemsAt (topState (st.drop k))) ∧ Stk (st.drop k) (ss.drop k)
  | 0, st, ss, h, n, la, hi => ⟨Nat.zero_le _, rfl, ⟨la, hi⟩, h⟩
  | k + 1, _, _, .nil, n, la, hi => by
      exfalso
      have h0 : (itemsAt 0).all (fun i => Nat.beq i.2.1 0) = true := by decide +kernel
      have := List.all_eq_true.1 h0 _ hi
      rw [Nat.beq_eq] at this
      exact absurd this (by simp)
  | k + 1, _, _, .push (st := st) (ss := ss) h s v X n' k' la' β hi' hd' ht, n, la, hi => by
      obtain ⟨t, ht', h0, h3, -, hb, -⟩ := item_next h.top.1 hi' hd'
      rw [ht] at ht'
      obtain rfl := Option.some.inj ht'
      obtain ⟨⟨γ, hγ⟩, m, hm⟩ := hb n k la hi
      obtain ⟨h1, h2, h3, h4⟩ := Stk.back k h n m hm
      refine ⟨by simp [h1], ?_, by simpa using h3, by simpa using h4⟩
      rw [List.take_succ_cons, List.map_cons, h2]
      have : (ruleN n).2.take (k + 1) = (ruleN n).2.take k ++ [X.num] := by
        rw [List.take_add_one, ← List.head?_drop, hγ]; rfl
      rw [this, List.reverse_append]
      rfl

/-- The weight of a symbol. -/
def symWeight (X : Sym) : Nat := if X.num < 109 then 8 else weightN.getD (X.num - 109) 0

/-- What holds of every configuration reached from the tokens `w₀` and the driver `d₀`. -/
structure Inv (sem : Nat → List V → D → Option (V × D)) (w₀ : List (Tok × V)) (d₀ : D) (c : Config V D)
    (ss : List Sym) : Prop where
  stk : Stk c.stack ss
  parse : ∃ done, done ++ c.inp = w₀ ∧ Parses sem ss.reverse done d₀ (c.stack.map Prod.snd).reverse c.drv
  last : c.inp = [] → topState c.stack = 30
  fin : c.inp = [] ∨ ∃ w' e, c.inp = w' ++ [(Tok.END, e)]

theorem inv_initial (e : V) (w : List (Tok × V)) (d : D) : Inv sem (w ++ [(.END, e)]) d (initial e w d) [] :=
  ⟨.nil, ⟨[], rfl, .nil d⟩, fun h => absurd h (by simp [initial]), .inr ⟨w, e, rfl⟩⟩

theorem sum_map_reverse (l : List Nat) : l.reverse.sum = l.sum := List.sum_reverse l

/-- One step: the invariant is kept and the weight falls, or the machine stops for one of the listed reasons. -/
theorem inv_step {w₀ : List (Tok × V)} {d₀ : D} {c : Config V D} {ss : List Sym} (h : Inv sem w₀ d₀ c ss) :
    (∃ c' ss', step sem c = .inl c' ∧ Inv sem w₀ d₀ c' ss' ∧
      (ss'.map symWeight).sum + 9 * c'.inp.length + 1 ≤ (ss.map symWeight).sum + 9 * c.inp.length) ∨
    (topState c.stack = 30 ∧ step sem c = .inr (.accept c.drv)) ∨ step sem c = .inr (.reject c.drv) ∨
    (step sem c = .inr .ub ∧ ∃ n A rhs done vs d₁, grammar[n]? = some (A, rhs) ∧ sem (n + 1) vs c.drv = none ∧
      done <:+: w₀ ∧ Parses sem rhs done d₁ vs c.drv) := by
  obtain ⟨hst, ⟨done, hdone, hp⟩, hlast, hfin⟩ := h
  by_cases h30 : topState c.stack = 30
  · exact .inr (.inl ⟨h30, by unfold step; rw [if_pos h30]⟩)
  obtain ⟨stack, inp, drv⟩ := c
  simp only at hst hdone hp hlast hfin h30 ⊢
  cases inp with
  | nil => exact absurd (hlast rfl) h30
  | cons t rest =>
    obtain ⟨h3, -, hlen⟩ := hst.top
    have ha := tok_num_lt t.1
    have hc := act_ok h3 h30 ha
    unfold checkAct at hc
    have hact := action_eq (a := t.1.num) h3
    cases hA : actionP (topState stack) t.1.num with
    | ub => rw [hA] at hc; exact absurd hc (by simp)
    | error =>
      refine .inr (.inr (.inl ?_))
      unfold step
      simp only
      rw [if_neg h30, hact, hA]
    | shift s =>
      refine .inl ⟨⟨(s, t.2) :: stack, rest, drv⟩, .t t.1 :: ss, ?_, ?_, ?_⟩
      · unfold step
        simp only
        rw [if_neg h30, hact, hA]
      · rw [hA] at hc
        simp only [List.any_eq_true] at hc
        obtain ⟨⟨n, k, la⟩, hi, hd⟩ := hc
        simp only at hd
        cases hdr : (ruleN n).2.drop k with
        | nil => rw [hdr] at hd; exact absurd hd (by simp)
        | cons Y β =>
          rw [hdr] at hd
          simp only [Nat.beq_eq] at hd
          subst hd
          have htr : transP (topState stack) t.1.num = some s := by
            simp only [transP, show Nat.blt t.1.num 109 = true by rw [Nat.blt_eq]; exact ha, hA]
          refine ⟨.push hst s t.2 (.t t.1) n k la β hi hdr htr, ⟨done ++ [t], by simpa using hdone, ?_⟩, ?_, ?_⟩
          · rw [List.reverse_cons, List.map_cons, List.reverse_cons]
            exact hp.append (.tok t.1 t.2 (.nil drv))
          · rintro rfl
            -- the last token is the end of the file
            have ht0 : t.1 = .END := by
              rcases hfin with hh | ⟨w', e, hh⟩
              · exact absurd hh (by simp)
              · cases w' with
                | nil => rw [List.nil_append] at hh; rw [(List.cons.inj hh).1]
                | cons _ w' => exact absurd (List.cons.inj hh).2 (by simp)
            rw [ht0] at hdr htr
            simp only [topState]
            obtain ⟨t', ht', h0', h3', ⟨m, hm, -⟩, -⟩ := item_next h3 hi hdr
            rw [htr] at ht'
            obtain rfl := Option.some.inj ht'
            have hall : (List.range 300).all (fun s => (itemsAt s).all fun i =>
                match (ruleN i.1).2.drop i.2.1 with
                | [] => true
                | Y :: _ => !(Nat.beq Y 0) || Nat.beq ((transP s 0).getD 0) 30) = true := by decide +kernel
            have := List.all_eq_true.1 (List.all_eq_true.1 hall _ (List.mem_range.2 h3)) _ hi
            simp only [hdr] at this
            rw [Bool.or_eq_true, Bool.not_eq_true', Bool.eq_false_iff, ne_eq, Nat.beq_eq, Nat.beq_eq,
              show transP (topState stack) 0 = some s from htr] at this
            rcases this with hh | hh
            · exact absurd rfl hh
            · exact hh
          · rcases hfin with hh | ⟨w', e, hh⟩
            · exact absurd hh (by simp)
            · cases w' with
              | nil => exact .inl (List.cons.inj hh).2
              | cons _ w' => exact .inr ⟨w', e, (List.cons.inj hh).2⟩
      · simp only [List.map_cons, List.sum_cons, List.length_cons]
        have : symWeight (.t t.1) = 8 := if_pos ha
        omega
    | reduce m =>
      rw [hA] at hc
      simp only [Bool.and_eq_true, Nat.ble_eq, Nat.blt_eq] at hc
      obtain ⟨⟨hm2, hm⟩, hi⟩ := hc
      obtain ⟨A, rhs, hr⟩ := rule_of_num (by omega : 1 ≤ m) hm
      have hm1 : m - 1 + 1 = m := by omega
      have hrn := (rule_num hr).1
      rw [hm1] at hrn
      obtain ⟨la, hi⟩ := hasItem_iff.1 hi
      rw [hrn] at hi
      simp only [List.length_map] at hi
      obtain ⟨hk, htake, ⟨la', hi0⟩, hst'⟩ := Stk.back rhs.length hst m la hi
      have hss : ss.take rhs.length = rhs.reverse := by
        have : (ss.take rhs.length).map Sym.num = rhs.reverse.map Sym.num := by
          rw [htake, hrn]
          simp only
          rw [List.take_of_length_le (by simp), List.map_reverse]
        exact List.map_injective_iff.2 sym_num_inj this
      have hsplit : ss.reverse = (ss.drop rhs.length).reverse ++ rhs := by
        conv_lhs => rw [← List.take_append_drop rhs.length ss]
        rw [List.reverse_append, hss, List.reverse_reverse]
      rw [hsplit] at hp
      obtain ⟨w₁, w₂, vs₁, vs₂, d₁, rfl, hvs, hp₁, hp₂⟩ := hp.split
      have hl₁ := hp₁.length
      have hl₂ := hp₂.length
      have hvs₂ : vs₂ = ((stack.take rhs.length).map Prod.snd).reverse ∧
          vs₁ = ((stack.drop rhs.length).map Prod.snd).reverse := by
        have e : (stack.map Prod.snd).reverse =
            ((stack.drop rhs.length).map Prod.snd).reverse ++ ((stack.take rhs.length).map Prod.snd).reverse := by
          rw [← List.reverse_append, ← List.map_append, List.take_append_drop]
        rw [e] at hvs
        have hll : ((stack.drop rhs.length).map Prod.snd).reverse.length = vs₁.length := by
          rw [hl₁]; simp [hlen]
        have := List.append_inj hvs hll
        exact ⟨this.2.symm, this.1.symm⟩
      have hyy := yyr_of hr
      rw [hm1] at hyy
      cases hsem : sem m vs₂ drv with
      | none =>
        refine .inr (.inr (.inr ⟨?_, m - 1, A, rhs, w₂, vs₂, d₁, hr, by rw [hm1]; exact hsem, ?_, hp₂⟩))
        · unfold step
          simp only
          rw [if_neg h30, hact, hA]
          simp only [hyy.1, hyy.2]
          rw [if_pos hk, ← hvs₂.1, hsem]
        · rw [← hdone]
          exact ⟨w₁, t :: rest, by simp⟩
      | some p =>
        obtain ⟨v, d₂⟩ := p
        have hnum := nt_num A
        -- the state below has an item with the dot before A
        obtain ⟨n', k', la'', β, hi', hd'⟩ : ∃ n' k' la'' β, (n', k', la'') ∈ itemsAt (topState (stack.drop rhs.length)) ∧
            (ruleN n').2.drop k' = Sym.num (.n A) :: β := by
          have hall : (List.range 300).all (fun s => (itemsAt s).all fun i =>
              !(Nat.beq i.2.1 0) || Nat.beq i.1 1 || (itemsAt s).any fun j =>
                match (ruleN j.1).2.drop j.2.1 with
                | [] => false
                | Y :: _ => Nat.beq Y (ruleN i.1).1) = true := by decide +kernel
          have := List.all_eq_true.1 (List.all_eq_true.1 hall _ (List.mem_range.2 hst'.top.1)) _ hi0
          simp only [Bool.or_eq_true, Bool.not_eq_true', Bool.eq_false_iff, ne_eq, Nat.beq_eq, List.any_eq_true] at this
          rcases this with (hh | hh) | ⟨⟨n', k', la''⟩, hj, hh⟩
          · exact absurd trivial hh
          · omega
          · refine ⟨n', k', la'', ((ruleN n').2.drop k').tail, hj, ?_⟩
            cases hdr : (ruleN n').2.drop k' with
            | nil => simp only [hdr] at hh; exact absurd hh (by simp)
            | cons Y β =>
              simp only [hdr, Nat.beq_eq] at hh
              rw [hh, hrn]
              rfl
        obtain ⟨s', htr, -, -, -⟩ := item_next hst'.top.1 hi' hd'
        have hgo : gotoState (topState (stack.drop rhs.length)) A.num = some s' := by
          rw [goto_eq (by omega)]
          simp only [transP, Sym.num] at htr
          rw [show Nat.blt A.num 109 = false by rw [Bool.eq_false_iff, ne_eq, Nat.blt_eq]; omega] at htr
          exact htr
        refine .inl ⟨⟨(s', v) :: stack.drop rhs.length, t :: rest, d₂⟩, .n A :: ss.drop rhs.length, ?_, ?_, ?_⟩
        · unfold step
          simp only
          rw [if_neg h30, hact, hA]
          simp only [hyy.1, hyy.2]
          rw [if_pos hk, ← hvs₂.1, hsem]
          simp only [hgo]
        · refine ⟨.push hst' s' v (.n A) n' k' la'' β hi' hd' htr, ⟨w₁ ++ w₂, hdone, ?_⟩,
            fun hh => absurd hh (by simp), hfin⟩
          rw [List.reverse_cons, List.map_cons, List.reverse_cons, ← hvs₂.2]
          refine hp₁.append ?_
          have := Parses.rule (sem := sem) (m - 1) A rhs hr hp₂ (by rw [hm1]; exact hsem) (.nil d₂)
          rwa [List.append_nil] at this
        · have hck := rule_ok hr
          cases hrhs : rhs with
          | nil => rw [hrhs] at hck; simp [checkRule] at hck
          | cons X β' =>
            rw [hrhs] at hck
            simp only [checkRule, List.map_cons, Bool.and_eq_true, Nat.blt_eq] at hck
            have hw : weightN.getD (A.num - 109) 0 <
                ((rhs.map Sym.num).map fun X => if X < 109 then 8 else weightN.getD (X - 109) 0).sum := by
              rw [hrhs]; exact hck.2
            have e1 : ((rhs.map Sym.num).map fun X => if X < 109 then 8 else weightN.getD (X - 109) 0).sum =
                (rhs.map symWeight).sum := by
              rw [List.map_map]; rfl
            rw [e1] at hw
            have e2 : (ss.map symWeight).sum =
                ((ss.drop rhs.length).map symWeight).sum + (rhs.map symWeight).sum := by
              conv_lhs => rw [← List.take_append_drop rhs.length ss, hss]
              rw [List.map_append, List.sum_append, List.map_reverse, List.sum_reverse]
              omega
            have e3 : symWeight (.n A) = weightN.getD (A.num - 109) 0 :=
              if_neg (by simp only [Sym.num]; omega)
            rw [← hrhs]
            simp only [List.map_cons, List.sum_cons]
            rw [e2, e3]
            omega

/-- The machine always stops, and tells why. -/
theorem run_total {w₀ : List (Tok × V)} {d₀ : D} : ∀ (N : Nat) {c : Config V D} {ss : List Sym},
    Inv sem w₀ d₀ c ss → (ss.map symWeight).sum + 9 * c.inp.length ≤ N →
    ∃ c' ss' o, run sem (N + 1) c = some o ∧ step sem c' = .inr o ∧ Inv sem w₀ d₀ c' ss'
  | N, c, ss, h, hN => by
      rcases inv_step h with ⟨c', ss', hs, h', hlt⟩ | ⟨_, hs⟩ | hs | ⟨hs, _⟩
      · obtain ⟨M, rfl⟩ : ∃ M, N = M + 1 := ⟨N - 1, by omega⟩
        obtain ⟨c'', ss'', o, hr, ho⟩ := run_total M h' (by omega)
        exact ⟨c'', ss'', o, by rw [run, hs]; exact hr, ho⟩
      · exact ⟨c, ss, _, by rw [run, hs], hs, h⟩
      · exact ⟨c, ss, _, by rw [run, hs], hs, h⟩
      · exact ⟨c, ss, _, by rw [run, hs], hs, h⟩

theorem run_det {N M : Nat} {c : Config V D} {o o' : Out D} (h : run sem N c = some o)
    (h' : run sem M c = some o') : o = o' := by
  rcases Nat.le_total N M with hh | hh
  · rw [run_mono h M hh] at h'; exact Option.some.inj h'
  · rw [run_mono h' N hh] at h; exact (Option.some.inj h).symm

/-- An accepting configuration has read a whole file. -/
theorem inv_accept {w : List (Tok × V)} {e : V} {d₀ : D} {c : Config V D} {ss : List Sym}
    (h : Inv sem (w ++ [(Tok.END, e)]) d₀ c ss) (h30 : topState c.stack = 30) (hw : ∀ t ∈ w, t.1 ≠ Tok.END) :
    ∃ v, Parses sem [.n .file] w d₀ [v] c.drv := by
  obtain ⟨hst, ⟨done, hdone, hp⟩, -, -⟩ := h
  have hi : (1, 2, 1) ∈ itemsAt (topState c.stack) := by rw [h30]; decide +kernel
  obtain ⟨hk, htake, ⟨la', hi0⟩, hst'⟩ := Stk.back 2 hst 1 1 hi
  have h0 := start_item hst'.top.1 hi0
  have hnil := hst'.top.2.1 h0
  have hlen := hst.top.2.2
  have hl2 : ss.length = 2 := by
    have := congrArg List.length hnil
    rw [List.length_drop, List.length_nil] at this
    omega
  have hss : ss = [.t .END, .n .file] := by
    rw [List.take_of_length_le (by omega)] at htake
    have : ss.map Sym.num = ([.t .END, .n .file] : List Sym).map Sym.num := by
      rw [htake]; decide +kernel
    exact List.map_injective_iff.2 sym_num_inj this
  subst hss
  obtain ⟨w₁, w₂, vs₁, vs₂, d₁, rfl, hvs, hp₁, hp₂⟩ := Parses.split [.n .file] hp
  cases hp₂ with
  | tok a v hp₃ =>
    cases hp₃
    rw [List.append_assoc] at hdone
    have hw₁ : w₁ = w := by
      have hlen := congrArg List.length hdone
      simp only [List.length_append, List.length_cons, List.length_nil] at hlen
      rcases Nat.lt_or_ge w₁.length w.length with hlt | hge
      · exfalso
        have e1 : (w₁ ++ ([(Tok.END, v)] ++ c.inp))[w₁.length]? = some (Tok.END, v) := by simp
        rw [hdone, List.getElem?_append_left hlt] at e1
        exact hw _ (List.mem_of_getElem? e1) rfl
      · exact (List.append_inj hdone (by omega)).1
    subst hw₁
    have hl := hp₁.length
    simp only [List.length_cons, List.length_nil] at hl
    obtain ⟨v, rfl⟩ : ∃ v, vs₁ = [v] := by
      cases vs₁ with
      | nil => simp at hl
      | cons v vs => cases vs with
        | nil => exact ⟨v, rfl⟩
        | cons => simp at hl
    exact ⟨v, hp₁⟩

/-- Values have the types of their symbols. -/
theorem parses_typed {Ty : Sym → V → Prop} {ss : List Sym} {w : List (Tok × V)} {d d' : D} {vs : List V}
    (hsem : ∀ n A rhs vs d v d', grammar[n]? = some (A, rhs) → List.Forall₂ Ty rhs vs →
      sem (n + 1) vs d = some (v, d') → Ty (.n A) v)
    (hw : ∀ t ∈ w, Ty (.t t.1) t.2) (h : Parses sem ss w d vs d') : List.Forall₂ Ty ss vs := by
  induction h with
  | nil => exact .nil
  | tok a v h ih => exact .cons (hw (a, v) (by simp)) (ih fun t ht => hw t (by simp [ht]))
  | rule n A rhs hr h ha h' ih ih' =>
    exact .cons (hsem n A rhs _ _ _ _ hr (ih fun t ht => hw t (by simp [ht])) ha)
      (ih' fun t ht => hw t (by simp [ht]))

end Sound

/-! ## C119 -/

section Main

variable {V D : Type} (sem : Nat → List V → D → Option (V × D))

/-- The parser stops on every list of tokens, after at most nine rounds for each token (and the end of the file) and
one more. -/
theorem C119_terminates (e : V) (w : List (Tok × V)) (d : D) :
    ∃ o, run sem (9 * (w.length + 1) + 1) (initial e w d) = some o := by
  obtain ⟨_, _, o, h, _⟩ := run_total (sem := sem) (9 * (w.length + 1)) (inv_initial e w d) (by simp [initial])
  exact ⟨o, h⟩

/-- The parser accepts exactly the token lists that the rules of `config_parser.y` derive from `file`, and the driver it
leaves is the one obtained by carrying out the actions of that derivation in order. -/
theorem C119_accepts_iff (e : V) (w : List (Tok × V)) (hw : ∀ t ∈ w, t.1 ≠ Tok.END) (d d' : D) :
    (∃ N, run sem N (initial e w d) = some (.accept d')) ↔ ∃ v, Parses sem [.n .file] w d [v] d' := by
  constructor
  · rintro ⟨N, hN⟩
    obtain ⟨c, ss, o, hr, hs, hi⟩ := run_total (sem := sem) (9 * (w.length + 1)) (inv_initial e w d)
      (by simp [initial])
    obtain rfl := run_det hN hr
    rcases inv_step hi with ⟨c', ss', h, -⟩ | ⟨h30, h⟩ | h | ⟨h, -⟩
    · rw [h] at hs; exact absurd hs (by simp)
    · rw [h] at hs
      obtain rfl : c.drv = d' := by simpa using hs
      exact inv_accept hi h30 hw
    · rw [h] at hs; exact absurd hs (by simp)
    · rw [h] at hs; exact absurd hs (by simp)
  · rintro ⟨v, h⟩
    exact complete_run e h

/-- A syntax error is reported only when no derivation of the whole input exists (whose actions are all defined). -/
theorem C119_rejects (e : V) (w : List (Tok × V)) (hw : ∀ t ∈ w, t.1 ≠ Tok.END) (d : D) (N : Nat) (d₁ : D)
    (h : run sem N (initial e w d) = some (.reject d₁)) : ¬ ∃ v d', Parses sem [.n .file] w d [v] d' := by
  rintro ⟨v, d', hp⟩
  obtain ⟨M, hM⟩ := (C119_accepts_iff sem e w hw d d').2 ⟨v, hp⟩
  exact absurd (run_det h hM) (by simp)

/-- If every action is defined on values of the types of its symbols and gives a value of the type of its left-hand side,
and the tokens carry values of their types, then the parser never reads outside its tables or its stack and never
carries out an undefined action: it accepts or reports a syntax error. -/
theorem C119_no_undefined_behaviour (Ty : Sym → V → Prop)
    (hsem : ∀ n A rhs vs d, grammar[n]? = some (A, rhs) → List.Forall₂ Ty rhs vs →
      ∃ v d', sem (n + 1) vs d = some (v, d') ∧ Ty (.n A) v)
    (e : V) (he : Ty (.t .END) e) (w : List (Tok × V)) (hw : ∀ t ∈ w, Ty (.t t.1) t.2) (d : D) (N : Nat) :
    run sem N (initial e w d) ≠ some .ub := by
  intro h
  obtain ⟨c, ss, o, hr, hs, hi⟩ := run_total (sem := sem) (9 * (w.length + 1)) (inv_initial e w d)
    (by simp [initial])
  obtain rfl := run_det h hr
  rcases inv_step hi with ⟨c', ss', h, -⟩ | ⟨-, h⟩ | h | ⟨-, n, A, rhs, done, vs, d₁, hg, hn, hsub, hp⟩
  · rw [h] at hs; exact absurd hs (by simp)
  · rw [h] at hs; exact absurd hs (by simp)
  · rw [h] at hs; exact absurd hs (by simp)
  · have hty : List.Forall₂ Ty rhs vs := by
      refine parses_typed (sem := sem) ?_ ?_ hp
      · intro n A rhs vs d v d' hg hf hv
        obtain ⟨v', d'', hv', ht⟩ := hsem n A rhs vs d hg hf
        rw [hv] at hv'
        obtain ⟨rfl, rfl⟩ := Prod.mk.inj (Option.some.inj hv')
        exact ht
      · intro t ht
        have := hsub.subset ht
        rw [List.mem_append, List.mem_singleton] at this
        rcases this with h | h
        · exact hw t h
        · rw [h]; exact he
    obtain ⟨v, d', hv, -⟩ := hsem n A rhs vs c.drv hg hty
    rw [hn] at hv
    exact absurd hv (by simp)

/-- The actions, with the value of the last reduction remembered in the driver. -/
def remember (n : Nat) (vs : List V) (d : D × Option V) : Option (V × (D × Option V)) :=
  (sem n vs d.1).map fun p => (p.1, (p.2, some p.1))

theorem parses_remember {ss : List Sym} {w : List (Tok × V)} {d d' : D} {vs : List V}
    (h : Parses sem ss w d vs d') : ∀ x, ∃ y, Parses (remember sem) ss w (d, x) vs (d', y) := by
  induction h with
  | nil d => exact fun x => ⟨x, .nil _⟩
  | tok a v h ih =>
    intro x
    obtain ⟨y, hy⟩ := ih x
    exact ⟨y, .tok a v hy⟩
  | rule n A rhs hr h ha h' ih ih' =>
    intro x
    obtain ⟨y, hy⟩ := ih x
    obtain ⟨z, hz⟩ := ih' (some _)
    exact ⟨z, .rule n A rhs hr hy (by simp only [remember, ha]; rfl) hz⟩

/-- The grammar is unambiguous: however a list of tokens is derived from `file`, the values and the final driver are
the same, whatever the actions (taking derivation trees for values, the derivation itself is unique). -/
theorem C119_unambiguous (w : List (Tok × V)) (hw : ∀ t ∈ w, t.1 ≠ Tok.END) (d d₁ d₂ : D) (v₁ v₂ : V)
    (h₁ : Parses sem [.n .file] w d [v₁] d₁) (h₂ : Parses sem [.n .file] w d [v₂] d₂) : v₁ = v₂ ∧ d₁ = d₂ := by
  have key : ∀ v d', Parses sem [.n .file] w d [v] d' →
      Parses (remember sem) [.n .file] w (d, none) [v] (d', some v) := by
    intro v d' h
    cases h with
    | @rule _ w₁ w₂ _ d₃ d₄ _ us _ _ n A rhs hr h ha h' =>
      cases h'
      obtain ⟨y, hy⟩ := parses_remember sem h none
      exact .rule n _ rhs hr hy (by simp only [remember, ha]; rfl) (.nil _)
  obtain ⟨N, hN⟩ := (C119_accepts_iff (remember sem) v₁ w hw (d, none) (d₁, some v₁)).2 ⟨v₁, key _ _ h₁⟩
  obtain ⟨M, hM⟩ := (C119_accepts_iff (remember sem) v₁ w hw (d, none) (d₂, some v₂)).2 ⟨v₂, key _ _ h₂⟩
  have := run_det hN hM
  simp only [Out.accept.injEq, Prod.mk.injEq, Option.some.injEq] at this
  exact ⟨this.2, this.1⟩

end Main

/-- The actions replaced by a record of the rules used. -/
def trace (n : Nat) (_ : List Unit) (d : List Nat) : Option (Unit × List Nat) := some ((), d ++ [n])

/-- `spp: 9, resolution: { width: 8 }`: the hypotheses of the theorems hold, and the rules used are listed. -/
example : run trace 100 (initial () ([Tok.SPP, .COLON, .UINT, .COMMA, .RESOLUTION, .COLON, .OPEN_CU, .WIDTH, .COLON,
    .UINT, .CLOSE_CU].map fun t => (t, ())) []) = some (.accept [9, 3, 19, 2, 22, 21, 5, 2]) := by decide +kernel

/-- An empty file is a syntax error: `file` needs at least one statement. -/
example : run trace 100 (initial () [] []) = some (.reject []) := by decide +kernel

end Spectre.Scene
