import Mathlib.Data.Nat.Digits.Defs
import Mathlib.Tactic.NormNum
import Verif.Props.SceneDriver
import Verif.Props.SceneScanner

/-!
# From the text of a scene file to its meaning (C122), and the numbers in it (C123)
-/

namespace Spectre.Scene

open RE

/-! ## Tokens have the types of their kinds -/

theorem string_rule : ∀ r ∈ lexRules, r.2 = .tok .STRING → r.1 = stringRe := by decide +kernel

theorem uint_rule : ∀ r ∈ lexRules, r.2 = .tok .UINT → r.1 = uintRe := by decide +kernel

theorem int_rule : ∀ r ∈ lexRules, r.2 = .tok .INT → r.1 = intRe := by decide +kernel

theorem float_rule : ∀ r ∈ lexRules, r.2 = .tok .FLOAT → r.1 = floatRe := by decide +kernel

theorem end_rule : ∀ r ∈ lexRules, r.2 ≠ .tok .END := by decide +kernel

theorem matches_chr {c : Char} (hc : c.toNat < 256) {u : List Byte} : Matches (chr c) u ↔ u = [⟨c.toNat, hc⟩] := by
  constructor
  · intro h
    generalize hr : chr c = r at h
    cases h with
    | cls h =>
      cases hr
      rw [Nat.one_shiftLeft, Nat.testBit_two_pow, decide_eq_true_eq] at h
      rw [List.cons.injEq]
      exact ⟨Fin.ext h.symm, rfl⟩
    | _ => cases hr
  · rintro rfl
    exact .cls (by rw [Nat.one_shiftLeft, Nat.testBit_two_pow, decide_eq_true_eq])

theorem matches_seq {r s : RE} {u : List Byte} :
    Matches (.seq r s) u ↔ ∃ v w, u = v ++ w ∧ Matches r v ∧ Matches s w := by
  constructor
  · intro h; cases h with | seq h h' => exact ⟨_, _, rfl, h, h'⟩
  · rintro ⟨v, w, rfl, h, h'⟩; exact .seq h h'

theorem matches_alt {r s : RE} {u : List Byte} : Matches (.alt r s) u ↔ Matches r u ∨ Matches s u := by
  constructor
  · intro h
    cases h with
    | left h => exact .inl h
    | right h => exact .inr h
  · rintro (h | h)
    · exact .left h
    · exact .right h

theorem matches_eps {u : List Byte} : Matches .eps u ↔ u = [] := by
  constructor
  · intro h; cases h; rfl
  · rintro rfl; exact .eps

theorem matches_opt {r : RE} {u : List Byte} : Matches (opt r) u ↔ Matches r u ∨ u = [] := by
  rw [opt, matches_alt, matches_eps]

theorem quoted_start {u : List Byte} (h : Matches stringRe u) : (u.takeWhile fun b => decide (b.val ≠ 0)) ≠ [] := by
  rw [stringRe, matches_alt, matches_seq, matches_seq] at h
  rcases h with ⟨v, w, rfl, h, -⟩ | ⟨v, w, rfl, h, -⟩
  · rw [matches_chr (by decide)] at h; subst h; simp
  · rw [matches_chr (by decide)] at h; subst h; simp

theorem tokVal_type {r : RE × RuleAction} (hr : r ∈ lexRules) {t : Tok} (ht : r.2 = .tok t) {u : List Byte}
    (hu : Matches r.1 u) {v : Val} (hv : tokVal t u = some v) : TokTy t v ∧ t ≠ .END := by
  refine ⟨?_, fun h => end_rule r hr (h ▸ ht)⟩
  by_cases h1 : t = .UINT
  · subst h1; obtain ⟨x, -, rfl⟩ := Option.map_eq_some_iff.1 hv; exact ⟨x, rfl⟩
  by_cases h2 : t = .INT
  · subst h2; obtain ⟨x, -, rfl⟩ := Option.map_eq_some_iff.1 hv; exact ⟨x, rfl⟩
  by_cases h3 : t = .FLOAT
  · subst h3; cases hv; exact ⟨_, rfl⟩
  by_cases h4 : t = .STRING
  · subst h4
    cases hv
    rw [string_rule r hr ht] at hu
    exact ⟨⟨_, quoted_start hu⟩, rfl⟩
  · have : tokVal t u = some .unit := by cases t <;> first | rfl | contradiction
    rw [this] at hv
    cases hv
    cases t <;> first | rfl | contradiction

theorem classify_typed {text : List Byte} {l : List (Nat × List Byte)} (h : Tokenises text l) :
    ∀ w, classify l = .tokens w ∨ classify l = .unknown w → Typed w ∧ ∀ t ∈ w, t.1 ≠ Tok.END := by
  induction h with
  | nil =>
    rintro w (h | h)
    · cases h; simp [Typed]
    · cases h
  | @cons text n len l h h' ih =>
    obtain ⟨m, r, rfl, hm, hr⟩ := h.matched
    intro w hw
    rw [classify, Nat.add_sub_cancel, hm] at hw
    obtain ⟨e, a⟩ := r
    cases a with
    | skip => exact ih w hw
    | newline => exact ih w hw
    | unknown =>
      rcases hw with hw | hw
      · cases hw
      · cases hw; simp [Typed]
    | tok t =>
      simp only at hw
      cases hv : tokVal t (text.take len) with
      | none => rw [hv] at hw; simp at hw
      | some v =>
        rw [hv] at hw
        have ht := tokVal_type (List.mem_of_getElem? hm) rfl hr hv
        have key : ∀ w', Typed w' ∧ (∀ t ∈ w', t.1 ≠ Tok.END) →
            Typed ((t, v) :: w') ∧ ∀ x ∈ (t, v) :: w', x.1 ≠ Tok.END := by
          rintro w' ⟨h1, h2⟩
          exact ⟨typed_cons.2 ⟨ht.1, h1⟩, List.forall_mem_cons.2 ⟨ht.2, h2⟩⟩
        cases hc : classify l with
        | ub => rw [hc] at hw; simp [Scanned.push] at hw
        | tokens w' =>
          rw [hc] at hw
          simp only [Scanned.push, Scanned.tokens.injEq, reduceCtorEq, or_false] at hw
          subst hw
          exact key _ (ih w' (.inl hc))
        | unknown w' =>
          rw [hc] at hw
          simp only [Scanned.push, Scanned.unknown.injEq, reduceCtorEq, false_or] at hw
          subst hw
          exact key _ (ih w' (.inr hc))

theorem scan_eq {text : List Byte} : ∃ l, Tokenises text l ∧ scan text = classify l := by
  obtain ⟨l, h1, h2, -⟩ := C120_all text (Nat.lt_succ_self _)
  exact ⟨l, h2, by rw [scan, h1]⟩

theorem scan_typed {text : List Byte} {w : List (Tok × Val)} (h : scan text = .tokens w) :
    Typed w ∧ ∀ t ∈ w, t.1 ≠ Tok.END := by
  obtain ⟨l, h1, h2⟩ := scan_eq (text := text)
  exact classify_typed h1 w (.inl (h2 ▸ h))

/-- C122: A file is accepted exactly if its tokens are a list of statements, and then the driver holds what they
mean. -/
theorem C122_text (text : List Byte) (d d' : Driver) (hd : Idle d) :
    parseText text d = .accept d' ↔ ∃ ss : List Stmt, ss ≠ [] ∧ (∀ s ∈ ss, s.Proper) ∧
      scan text = .tokens (ss.flatMap Stmt.toks) ∧ d' = meaning d ss := by
  rw [parseText]
  cases h : scan text with
  | tokens w =>
    obtain ⟨h1, h2⟩ := scan_typed h
    have h3 := C122_meaning w h2 h1 d d' hd
    obtain ⟨o, ho⟩ := C119_terminates sem .unit w d
    simp only [ho, Option.getD_some, Option.some.injEq] at h3 ⊢
    rw [h3]
    refine exists_congr fun ss => ?_
    simp only [Scanned.tokens.injEq]
  | unknown w => simp
  | ub => simp

/-- C122: Reading a file has defined behaviour unless a number in it is not an `int`. -/
theorem C122_text_defined (text : List Byte) (d : Driver) : parseText text d = .ub ↔ scan text = .ub := by
  rw [parseText]
  cases h : scan text with
  | tokens w =>
    obtain ⟨h1, h2⟩ := scan_typed h
    obtain ⟨o, ho⟩ := C119_terminates sem .unit w d
    simp only [ho, Option.getD_some, reduceCtorEq, iff_false]
    rintro rfl
    exact C119_no_undefined_behaviour sem Ty sem_defined .unit rfl w h1 d _ ho
  | unknown w => simp
  | ub => simp

/-! ## Numbers: specification -/

/-- A sign as written: none, `+` or `-`. -/
inductive Sgn where
  | none
  | plus
  | minus

def Sgn.text : Sgn → List Byte
  | .none => []
  | .plus => [43]
  | .minus => [45]

def Sgn.val : Sgn → Int
  | .minus => -1
  | _ => 1

/-- Decimal digits as written. -/
def decimal (ds : List (Fin 10)) : List Byte := ds.map fun k => ⟨48 + k.val, by omega⟩

/-- The number with the given decimal digits, the first the most significant. -/
def value (ds : List (Fin 10)) : Nat := Nat.ofDigits 10 (ds.map Fin.val).reverse

/-- The text `u` is the integer `z`. -/
def IsInteger (u : List Byte) (z : Int) : Prop :=
  ∃ (s : Sgn) (ds : List (Fin 10)), ds ≠ [] ∧ u = s.text ++ decimal ds ∧ z = s.val * value ds

/-- The digits after the point, with the point, as written. -/
def fracText : Option (List (Fin 10)) → List Byte
  | none => []
  | some ds => 46 :: decimal ds

/-- What they are worth. -/
def fracVal : Option (List (Fin 10)) → ℚ
  | none => 0
  | some ds => value ds / 10 ^ ds.length

/-- The power of ten as written: `e` or `E`, a sign, digits. -/
def expText : Option (Bool × Sgn × List (Fin 10)) → List Byte
  | none => []
  | some (b, s, ds) => (if b then 69 else 101) :: (s.text ++ decimal ds)

def expVal : Option (Bool × Sgn × List (Fin 10)) → Int
  | none => 0
  | some (_, s, ds) => s.val * value ds

/-- The text `u` is the number `q`: a sign, digits, perhaps a point and digits, perhaps a power of ten. -/
def IsDecimal (u : List Byte) (q : ℚ) : Prop :=
  ∃ (s : Sgn) (i : List (Fin 10)) (f : Option (List (Fin 10))) (e : Option (Bool × Sgn × List (Fin 10))),
    u = s.text ++ (decimal i ++ (fracText f ++ expText e)) ∧
      q = s.val * (value i + fracVal f) * (10 : ℚ) ^ expVal e

/-! ## Numbers: the digits -/

theorem value_cons (k : Fin 10) (ds : List (Fin 10)) : value (k :: ds) = k.val * 10 ^ ds.length + value ds := by
  simp only [value, List.map_cons, List.reverse_cons, Nat.ofDigits_append, Nat.ofDigits_singleton, List.length_reverse,
    List.length_map]
  ring

theorem digit_byte (k : Fin 10) : digit ⟨48 + k.val, by omega⟩ = some k.val := by
  rw [digit, if_pos (by constructor <;> simp only <;> omega)]
  simp

theorem digits_decimal (acc : Nat) (ds : List (Fin 10)) (v : List Byte) (h : ∀ b ∈ v.head?, digit b = none) :
    digits acc (decimal ds ++ v) = (acc * 10 ^ ds.length + value ds, v) := by
  induction ds generalizing acc with
  | nil =>
    cases v with
    | nil => simp [decimal, digits, value]
    | cons b v => simp [decimal, digits, value, h b rfl]
  | cons k ds ih =>
    rw [decimal, List.map_cons, List.cons_append, digits, digit_byte]
    simp only
    rw [← decimal, ih, value_cons, List.length_cons]
    refine Prod.ext ?_ rfl
    simp only
    ring

theorem head_decimal {ds : List (Fin 10)} (h : ds ≠ []) (v : List Byte) :
    ∃ b u, decimal ds ++ v = b :: u ∧ b ≠ 45 ∧ b ≠ 43 := by
  cases ds with
  | nil => exact absurd rfl h
  | cons k ds =>
    refine ⟨⟨48 + k.val, by omega⟩, _, rfl, ?_, ?_⟩ <;> rw [Ne, Fin.ext_iff] <;> simp <;> omega

theorem sign_none {u : List Byte} (h : ∀ b ∈ u.head?, b ≠ 45 ∧ b ≠ 43) : sign u = (1, u) := by
  cases u with
  | nil => rfl
  | cons b u =>
    obtain ⟨h1, h2⟩ := h b rfl
    rw [sign, if_neg h1, if_neg h2]

theorem sign_text (s : Sgn) {u : List Byte} (h : ∀ b ∈ u.head?, b ≠ 45 ∧ b ≠ 43) :
    sign (s.text ++ u) = (s.val, u) := by
  cases s with
  | none => exact sign_none h
  | plus => simp [Sgn.text, Sgn.val, sign]
  | minus => simp [Sgn.text, Sgn.val, sign]

theorem not_sign_decimal (ds : List (Fin 10)) (v : List Byte) (h : ∀ b ∈ v.head?, b ≠ 45 ∧ b ≠ 43) :
    ∀ b ∈ (decimal ds ++ v).head?, b ≠ 45 ∧ b ≠ 43 := by
  by_cases hd : ds = []
  · subst hd; exact h
  · obtain ⟨b, u, e, hb⟩ := head_decimal hd v
    rw [e]
    intro c hc
    cases hc
    exact hb

theorem atoi_integer {u : List Byte} {z : Int} (h : IsInteger u z) :
    atoi u = if -2147483648 ≤ z ∧ z ≤ 2147483647 then some z else none := by
  obtain ⟨s, ds, -, rfl, rfl⟩ := h
  have h1 := sign_text s (not_sign_decimal ds [] (by simp))
  have h2 := digits_decimal 0 ds [] (by simp)
  rw [List.append_nil] at h1 h2
  simp only [atoi, h1, h2, Nat.zero_mul, Nat.zero_add]

theorem head_exp (e : Option (Bool × Sgn × List (Fin 10))) :
    ∀ b ∈ (expText e).head?, digit b = none ∧ b ≠ 46 ∧ b ≠ 45 ∧ b ≠ 43 := by
  intro b hb
  match e, hb with
  | some (c, s, ds), hb =>
    rw [expText, List.head?_cons] at hb
    cases hb
    cases c <;> exact ⟨rfl, by decide, by decide, by decide⟩

theorem head_frac (f : Option (List (Fin 10))) (e : Option (Bool × Sgn × List (Fin 10))) :
    ∀ b ∈ (fracText f ++ expText e).head?, digit b = none ∧ b ≠ 45 ∧ b ≠ 43 := by
  cases f with
  | none => intro b hb; have := head_exp e b hb; exact ⟨this.1, this.2.2⟩
  | some ds =>
    intro b hb
    rw [fracText, List.cons_append, List.head?_cons] at hb
    cases hb
    exact ⟨rfl, by decide, by decide⟩

theorem atof_decimal {u : List Byte} {q : ℚ} (h : IsDecimal u q) : atof u = q := by
  obtain ⟨s, i, f, e, rfl, rfl⟩ := h
  have h1 := sign_text s (not_sign_decimal i (fracText f ++ expText e) fun b hb => (head_frac f e b hb).2)
  have h2 := digits_decimal 0 i (fracText f ++ expText e) fun b hb => (head_frac f e b hb).1
  have h3 : ∀ ds, digits 0 (decimal ds ++ expText e) = (value ds, expText e) := fun ds => by
    rw [digits_decimal 0 ds (expText e) fun b hb => (head_exp e b hb).1, Nat.zero_mul, Nat.zero_add]
  have h4 : ∀ (s' : Sgn) (ds : List (Fin 10)), sign (s'.text ++ decimal ds) = (s'.val, decimal ds) := fun s' ds => by
    have := sign_text s' (not_sign_decimal ds [] (by simp))
    rwa [List.append_nil] at this
  have h5 : ∀ ds, digits 0 (decimal ds) = (value ds, []) := fun ds => by
    have := digits_decimal 0 ds [] (by simp)
    rwa [List.append_nil, Nat.zero_mul, Nat.zero_add] at this
  have h6 : ∀ ds v, (decimal ds ++ v).length - v.length = ds.length := fun ds v => by simp [decimal]
  rw [Nat.zero_mul, Nat.zero_add] at h2
  simp only [atof, h1, h2]
  rcases f with _ | ds <;> rcases e with _ | ⟨c, s', es⟩
  · simp only [fracText, expText, List.append_nil, fracVal, expVal, add_zero]
  · cases c <;>
    simp [fracText, expText, fracVal, expVal, h4, h5]
  · simp only [fracText, expText, List.append_nil, fracVal, expVal, h5, List.length_nil, Nat.sub_zero]
    simp [decimal]
  · have h7 : digits 0 (decimal ds ++ (if c then 69 else 101) :: (s'.text ++ decimal es)) =
        (value ds, (if c then 69 else 101) :: (s'.text ++ decimal es)) := h3 ds
    simp only [fracText, expText, List.cons_append, fracVal, expVal, h6, h7, h4, h5]

/-! ## Numbers: the patterns -/

theorem digit_mask : ∀ b : Byte, (2 ^ ('9'.toNat + 1) - 2 ^ '0'.toNat).testBit b.val = true ↔ 48 ≤ b.val ∧ b.val ≤ 57 := by
  decide +kernel

theorem minus_plus_mask : ∀ b : Byte, (RE.maskOf ['-', '+']).testBit b.val = true ↔ b = 45 ∨ b = 43 := by
  decide +kernel

theorem e_mask : ∀ b : Byte, (RE.maskOf ['e', 'E']).testBit b.val = true ↔ b = 101 ∨ b = 69 := by
  decide +kernel

theorem matches_cls {m : Nat} {u : List Byte} : Matches (.cls m) u ↔ ∃ b : Byte, u = [b] ∧ m.testBit b.val = true := by
  constructor
  · intro h; cases h with | cls h => exact ⟨_, rfl, h⟩
  · rintro ⟨b, rfl, h⟩; exact .cls h

theorem matches_digit {u : List Byte} : Matches (range '0' '9') u ↔ ∃ k : Fin 10, u = decimal [k] := by
  rw [range, matches_cls]
  constructor
  · rintro ⟨b, rfl, h⟩
    have h := (digit_mask b).1 h
    refine ⟨⟨b.val - 48, by omega⟩, ?_⟩
    simp only [decimal, List.map_cons, List.map_nil, List.cons.injEq, and_true]
    apply Fin.ext
    simp only
    omega
  · rintro ⟨k, rfl⟩
    exact ⟨_, rfl, (digit_mask _).2 ⟨by simp, by simp only; omega⟩⟩

theorem matches_digits {u : List Byte} : Matches (.star (range '0' '9')) u ↔ ∃ ds, u = decimal ds := by
  constructor
  · intro h
    generalize hr : (RE.star (range '0' '9')) = r at h
    induction h with
    | nil => exact ⟨[], rfl⟩
    | cons h h' ih ih' =>
      cases hr
      obtain ⟨k, rfl⟩ := matches_digit.1 h
      obtain ⟨ds, rfl⟩ := ih' rfl
      exact ⟨k :: ds, rfl⟩
    | _ => cases hr
  · rintro ⟨ds, rfl⟩
    induction ds with
    | nil => exact .nil
    | cons k ds ih => exact .cons (matches_digit.2 ⟨k, rfl⟩) ih

theorem matches_plus_digits {u : List Byte} : Matches (plus (range '0' '9')) u ↔ ∃ ds, ds ≠ [] ∧ u = decimal ds := by
  rw [plus, matches_seq]
  constructor
  · rintro ⟨v, w, rfl, h, h'⟩
    obtain ⟨k, rfl⟩ := matches_digit.1 h
    obtain ⟨ds, rfl⟩ := matches_digits.1 h'
    exact ⟨k :: ds, by simp, rfl⟩
  · rintro ⟨ds, hd, rfl⟩
    cases ds with
    | nil => exact absurd rfl hd
    | cons k ds => exact ⟨decimal [k], decimal ds, rfl, matches_digit.2 ⟨k, rfl⟩, matches_digits.2 ⟨ds, rfl⟩⟩

theorem matches_sign {u : List Byte} : Matches (opt (oneOf ['-', '+'])) u ↔ ∃ s : Sgn, u = s.text := by
  rw [matches_opt, oneOf, matches_cls]
  simp only [minus_plus_mask]
  constructor
  · rintro (⟨b, rfl, rfl | rfl⟩ | rfl)
    · exact ⟨.minus, rfl⟩
    · exact ⟨.plus, rfl⟩
    · exact ⟨.none, rfl⟩
  · rintro ⟨s, rfl⟩
    cases s
    · exact .inr rfl
    · exact .inl ⟨43, rfl, .inr rfl⟩
    · exact .inl ⟨45, rfl, .inl rfl⟩

theorem matches_uint {u : List Byte} : Matches uintRe u ↔
    ∃ ds, ds ≠ [] ∧ (u = decimal ds ∨ u = 43 :: decimal ds) := by
  rw [uintRe, matches_seq]
  simp only [matches_opt, matches_chr (c := '+') (by decide), matches_plus_digits]
  constructor
  · rintro ⟨v, w, rfl, rfl | rfl, ds, hd, rfl⟩
    · exact ⟨ds, hd, .inr rfl⟩
    · exact ⟨ds, hd, .inl rfl⟩
  · rintro ⟨ds, hd, rfl | rfl⟩
    · exact ⟨[], _, rfl, .inr rfl, ds, hd, rfl⟩
    · exact ⟨[43], _, rfl, .inl rfl, ds, hd, rfl⟩

theorem matches_int {u : List Byte} : Matches intRe u ↔ ∃ ds, ds ≠ [] ∧ u = 45 :: decimal ds := by
  rw [intRe, matches_seq]
  simp only [matches_chr (c := '-') (by decide), matches_plus_digits]
  constructor
  · rintro ⟨v, w, rfl, rfl, ds, hd, rfl⟩
    exact ⟨ds, hd, rfl⟩
  · rintro ⟨ds, hd, rfl⟩
    exact ⟨[45], _, rfl, rfl, ds, hd, rfl⟩

/-! ## Properties: numbers -/

/-- C123: A token of the kind `uint` is a number without minus sign; its value is that number, and undefined if it is
not an `int`. -/
theorem C123_uint {u : List Byte} (h : Matches uintRe u) : ∃ n : Nat, IsInteger u n ∧
    tokVal .UINT u = if n ≤ 2147483647 then some (.uint n) else none := by
  obtain ⟨ds, hd, rfl | rfl⟩ := matches_uint.1 h
  · have hi : IsInteger (decimal ds) (value ds : Nat) := ⟨.none, ds, hd, rfl, by simp [Sgn.val]⟩
    refine ⟨_, hi, ?_⟩
    rw [tokVal, atoi_integer hi]
    by_cases hle : value ds ≤ 2147483647
    · rw [if_pos (by omega), if_pos hle]; rfl
    · rw [if_neg (by omega), if_neg hle]; rfl
  · have hi : IsInteger (43 :: decimal ds) (value ds : Nat) := ⟨.plus, ds, hd, rfl, by simp [Sgn.val]⟩
    refine ⟨_, hi, ?_⟩
    rw [tokVal, atoi_integer hi]
    by_cases hle : value ds ≤ 2147483647
    · rw [if_pos (by omega), if_pos hle]; rfl
    · rw [if_neg (by omega), if_neg hle]; rfl

/-- C123: A token of the kind `int` is a number with minus sign. -/
theorem C123_int {u : List Byte} (h : Matches intRe u) : ∃ n : Nat, IsInteger u (-n) ∧
    tokVal .INT u = if n ≤ 2147483648 then some (.int (-n)) else none := by
  obtain ⟨ds, hd, rfl⟩ := matches_int.1 h
  have hi : IsInteger (45 :: decimal ds) (-(value ds : Nat)) := ⟨.minus, ds, hd, rfl, by simp [Sgn.val]⟩
  refine ⟨_, hi, ?_⟩
  rw [tokVal, atoi_integer hi]
  by_cases hle : value ds ≤ 2147483648
  · rw [if_pos (by omega), if_pos hle]; rfl
  · rw [if_neg (by omega), if_neg hle]; rfl

/-- C123: A token of the kind `float` is a decimal number, and its value (before rounding) is that number. -/
theorem C123_float {u : List Byte} (h : Matches floatRe u) : ∃ q, IsDecimal u q ∧ tokVal .FLOAT u = some (.num q) := by
  suffices hq : ∃ q, IsDecimal u q by
    obtain ⟨q, hq⟩ := hq
    exact ⟨q, hq, by rw [tokVal, atof_decimal hq]⟩
  rw [floatRe, matches_seq] at h
  obtain ⟨v, w, rfl, h1, h2⟩ := h
  obtain ⟨s, rfl⟩ := matches_sign.1 h1
  obtain ⟨v, w, rfl, h3, h4⟩ := matches_seq.1 h2
  have he : ∃ e, w = expText e := by
    rw [matches_opt, matches_seq] at h4
    rcases h4 with ⟨v', w', rfl, h5, h6⟩ | rfl
    · rw [oneOf, matches_cls] at h5
      obtain ⟨b, rfl, hb⟩ := h5
      obtain ⟨v'', w'', rfl, h7, h8⟩ := matches_seq.1 h6
      obtain ⟨s', rfl⟩ := matches_sign.1 h7
      obtain ⟨ds, -, rfl⟩ := matches_plus_digits.1 h8
      rcases (e_mask b).1 hb with rfl | rfl
      · exact ⟨some (false, s', ds), rfl⟩
      · exact ⟨some (true, s', ds), rfl⟩
    · exact ⟨none, rfl⟩
  obtain ⟨e, rfl⟩ := he
  rcases matches_alt.1 h3 with h3 | h3
  · obtain ⟨v', w', rfl, h5, h6⟩ := matches_seq.1 h3
    obtain ⟨i, rfl⟩ := matches_digits.1 h5
    obtain ⟨v'', w'', rfl, h7, h8⟩ := matches_seq.1 h6
    rw [matches_chr (by decide)] at h7
    subst h7
    obtain ⟨ds, -, rfl⟩ := matches_plus_digits.1 h8
    exact ⟨_, s, i, some ds, e, by rw [List.append_assoc]; rfl, rfl⟩
  · obtain ⟨i, -, rfl⟩ := matches_plus_digits.1 h3
    exact ⟨_, s, i, none, e, rfl, rfl⟩

/-- C123: A text is not two different numbers. -/
theorem C123_unique {u : List Byte} {q q' : ℚ} (h : IsDecimal u q) (h' : IsDecimal u q') : q = q' := by
  rw [← atof_decimal h, ← atof_decimal h']

theorem integer_decimal {u : List Byte} {z : Int} (h : IsInteger u z) : IsDecimal u z := by
  obtain ⟨s, ds, -, rfl, rfl⟩ := h
  exact ⟨s, ds, none, none, by simp [fracText, expText], by simp [fracVal, expVal]⟩

theorem rule_numbers : ∀ m < 112, ∀ r, lexRules[m]? = some r →
    (r.2 = .unknown ↔ m = 111) ∧ (r.2 = .tok .UINT ↔ m = 75) ∧ (r.2 = .tok .INT ↔ m = 76) := by
  have h : ∀ m : Fin 112, ∀ r ∈ lexRules[m.val]?, (r.2 = .unknown ↔ m.val = 111) ∧
      (r.2 = .tok .UINT ↔ m.val = 75) ∧ (r.2 = .tok .INT ↔ m.val = 76) := by decide +kernel
  exact fun m hm r hr => h ⟨m, hm⟩ r hr

theorem rule_count : lexRules.length = 112 := by decide +kernel

theorem tokVal_none {t : Tok} {u : List Byte} (h : tokVal t u = none) : t = .UINT ∨ t = .INT := by
  cases t <;> first | (exact .inl rfl) | (exact .inr rfl) | cases h

/-- Integers that are not of the type `int`. -/
def TooBig (z : Int) : Prop := z < -2147483648 ∨ 2147483647 < z

theorem number_ub {m : Nat} {r : RE × RuleAction} {t : Tok} {u : List Byte} (hm : lexRules[m]? = some r)
    (ht : r.2 = .tok t) (hr : Matches r.1 u) :
    tokVal t u = none ↔ (m + 1 = 76 ∨ m + 1 = 77) ∧ ∃ z, IsInteger u z ∧ TooBig z := by
  have hlt : m < 112 := by rw [← rule_count]; exact (List.getElem?_eq_some_iff.1 hm).1
  obtain ⟨-, h1, h2⟩ := rule_numbers m hlt r hm
  have hmem := List.mem_of_getElem? hm
  have key : ∀ z z', IsInteger u z → IsInteger u z' → z = z' := fun z z' h h' => by
    exact_mod_cast C123_unique (integer_decimal h) (integer_decimal h')
  by_cases hu : t = .UINT
  · subst hu
    rw [uint_rule r hmem ht] at hr
    obtain ⟨n, hn, hv⟩ := C123_uint hr
    have hm' := h1.1 ht
    rw [hv]
    constructor
    · intro h
      refine ⟨by omega, n, hn, ?_⟩
      split at h
      · cases h
      · right; omega
    · rintro ⟨-, z, hz, hb⟩
      have := key _ _ hn hz
      rw [if_neg]
      rcases hb with hb | hb <;> omega
  by_cases hi : t = .INT
  · subst hi
    rw [int_rule r hmem ht] at hr
    obtain ⟨n, hn, hv⟩ := C123_int hr
    have hm' := h2.1 ht
    rw [hv]
    constructor
    · intro h
      refine ⟨by omega, _, hn, ?_⟩
      split at h
      · cases h
      · left; omega
    · rintro ⟨-, z, hz, hb⟩
      have := key _ _ hn hz
      rw [if_neg]
      rcases hb with hb | hb <;> omega
  · constructor
    · intro h
      rcases tokVal_none h with h | h
      · exact absurd h hu
      · exact absurd h hi
    · rintro ⟨h | h, -⟩
      · have := h1.2 (by omega); rw [ht] at this; cases this; exact absurd rfl hu
      · have := h2.2 (by omega); rw [ht] at this; cases this; exact absurd rfl hi

/-- The list has a number that is not an `int`, and no unknown character before it. -/
def HasTooBig (l : List (Nat × List Byte)) : Prop :=
  ∃ l₁ n u l₂ z, l = l₁ ++ (n, u) :: l₂ ∧ (∀ x ∈ l₁, x.1 ≠ 112) ∧ (n = 76 ∨ n = 77) ∧ IsInteger u z ∧ TooBig z

theorem hasTooBig_cons {n : Nat} {u : List Byte} {l : List (Nat × List Byte)} : HasTooBig ((n, u) :: l) ↔
    ((n = 76 ∨ n = 77) ∧ ∃ z, IsInteger u z ∧ TooBig z) ∨ n ≠ 112 ∧ HasTooBig l := by
  constructor
  · rintro ⟨l₁, n', u', l₂, z, e, h1, h2, h3, h4⟩
    cases l₁ with
    | nil => cases e; exact .inl ⟨h2, z, h3, h4⟩
    | cons x l₁ =>
      cases e
      exact .inr ⟨h1 _ List.mem_cons_self, l₁, n', u', l₂, z, rfl, fun x hx => h1 x (List.mem_cons_of_mem _ hx), h2, h3, h4⟩
  · rintro (⟨h2, z, h3, h4⟩ | ⟨hn, l₁, n', u', l₂, z, rfl, h1, h2, h3, h4⟩)
    · exact ⟨[], n, u, l, z, rfl, by simp, h2, h3, h4⟩
    · exact ⟨(n, u) :: l₁, n', u', l₂, z, rfl, List.forall_mem_cons.2 ⟨hn, h1⟩, h2, h3, h4⟩

theorem classify_ub {text : List Byte} {l : List (Nat × List Byte)} (h : Tokenises text l) :
    classify l = .ub ↔ HasTooBig l := by
  induction h with
  | nil =>
    constructor
    · intro h; cases h
    · rintro ⟨l₁, n, u, l₂, z, e, -⟩; simp at e
  | @cons text n len l h h' ih =>
    obtain ⟨m, r, rfl, hm, hr⟩ := h.matched
    have hlt : m < 112 := by rw [← rule_count]; exact (List.getElem?_eq_some_iff.1 hm).1
    obtain ⟨h0, h1, h2⟩ := rule_numbers m hlt r hm
    rw [hasTooBig_cons, classify, Nat.add_sub_cancel, hm]
    obtain ⟨e, a⟩ := r
    cases a with
    | skip =>
      simp only at h0 h1 h2 ⊢
      have e0 : m ≠ 111 := fun h => by cases h0.2 h
      have e1 : m ≠ 75 := fun h => by cases h1.2 h
      have e2 : m ≠ 76 := fun h => by cases h2.2 h
      rw [ih]
      constructor
      · intro h; exact .inr ⟨by omega, h⟩
      · rintro (⟨h, -⟩ | ⟨-, h⟩)
        · omega
        · exact h
    | newline =>
      simp only at h0 h1 h2 ⊢
      have e0 : m ≠ 111 := fun h => by cases h0.2 h
      have e1 : m ≠ 75 := fun h => by cases h1.2 h
      have e2 : m ≠ 76 := fun h => by cases h2.2 h
      rw [ih]
      constructor
      · intro h; exact .inr ⟨by omega, h⟩
      · rintro (⟨h, -⟩ | ⟨-, h⟩)
        · omega
        · exact h
    | unknown =>
      have e0 := h0.1 rfl
      simp only [reduceCtorEq, false_iff]
      rintro (⟨h, -⟩ | ⟨h, -⟩) <;> omega
    | tok t =>
      have e0 : m ≠ 111 := fun h => by cases h0.2 h
      have hn := number_ub hm rfl hr
      rw [← hn, ← ih]
      cases hv : tokVal t (text.take len) with
      | none => simp [hv]
      | some v =>
        simp only [hv]
        have : (m + 1 ≠ 112) := by omega
        simp only [reduceCtorEq, false_or, this, ne_eq, not_false_eq_true, true_and]
        cases classify l <;> simp [Scanned.push]

/-- C123: Reading a file is undefined exactly if an integer in it, before the first unknown character, is not an
`int`. -/
theorem C123_undefined (text : List Byte) (d : Driver) : parseText text d = .ub ↔
    ∃ l, Tokenises text l ∧ HasTooBig l := by
  obtain ⟨l, h1, h2⟩ := scan_eq (text := text)
  obtain ⟨l', -, -, h3⟩ := C120_all text (Nat.lt_succ_self _)
  rw [C122_text_defined, h2, classify_ub h1]
  constructor
  · intro h; exact ⟨l, h1, h⟩
  · rintro ⟨l'', h4, h5⟩
    rwa [h3 l h1, ← h3 l'' h4]

/-- C123, violated: a number written without a point is read by `atoi` even where a floating point number is asked for
(README.md:140); a large one is undefined, the same with a point is not. -/
theorem C123_violated : parseText (bytes "filter:{value0: 3000000000}") {} = .ub ∧
    parseText (bytes "filter:{value0: 3000000000.0}") {} = .accept { value0 := 3000000000 } := by
  decide +kernel

/-! ## Examples -/

/-- A file, and what it means. -/
example : parseText (bytes "spp: 16 # few\nspp: 25, sampler: random") {} = .accept { spp := 25, sampler := .random } := by
  decide +kernel

example : parseText (bytes "camera: {\n position: [-1.5,0.0,.9e+1]\n fov: 35\n}") {} =
    .accept { cameraPos := ⟨-3 / 2, 0, 9⟩, fov := 35 } := by decide +kernel

/-- Syntax errors: the empty file, an empty object, a name that does not come first, and the integrator of the
documented example (README.md:24). -/
theorem C122_violated_documented : ∀ s ∈ ["", "resolution:{}", "world:{scale:2 name:'a'}", "integrator: pt"],
    ∃ d, parseText (bytes s) {} = .reject d := by
  have h : ∀ s ∈ ["", "resolution:{}", "world:{scale:2 name:'a'}", "integrator: pt"],
      (match parseText (bytes s) {} with | .reject _ => true | _ => false) = true := by decide +kernel
  intro s hs
  have := h s hs
  cases hp : parseText (bytes s) {} with
  | reject d => exact ⟨d, rfl⟩
  | accept d => rw [hp] at this; cases this
  | ub => rw [hp] at this; cases this

example : Matches uintRe (bytes "+12") ∧ Matches intRe (bytes "-7") ∧ Matches floatRe (bytes "-.5E-2") := by
  have h : ∀ {text : List Byte} {n len : Nat} {r : RE}, IsToken text n len → len = text.length →
      lexRules[n - 1]?.map (·.1) = some r → Matches r text := by
    rintro text n len r h rfl hr
    obtain ⟨m, r', rfl, hm, h'⟩ := h.matched
    rw [Nat.add_sub_cancel, hm] at hr
    cases hr
    rwa [List.take_length] at h'
  exact ⟨h (n := 76) (len := 3) (C120_exactly.1 (by decide +kernel)) (by decide) (by decide +kernel),
    h (n := 77) (len := 2) (C120_exactly.1 (by decide +kernel)) (by decide) (by decide +kernel),
    h (n := 78) (len := 6) (C120_exactly.1 (by decide +kernel)) (by decide) (by decide +kernel)⟩

/-- `-.5E-2` is minus five thousandths. -/
example : IsDecimal (bytes "-.5E-2") (-5 / 1000) :=
  ⟨.minus, [], some [5], some (true, .minus, [2]), by decide, by
    have h0 : value [] = 0 := by decide
    have h2 : value [2] = 2 := by decide
    have h5 : value [5] = 5 := by decide
    norm_num [Sgn.val, fracVal, expVal, h0, h2, h5]⟩

end Spectre.Scene
