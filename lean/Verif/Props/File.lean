import Verif.Model.File
import Mathlib.Tactic.Ring

/-
C48, C49, C50, C75: paths.
-/

namespace Spectre.Path

/-! ### Specification -/

/-- The components of a path. -/
def split : List Char → List (List Char)
  | [] => [[]]
  | c :: r =>
    if c = '/' then [] :: split r
    else
      match split r with
      | [] => [[c]]
      | h :: t => (c :: h) :: t

/-- Resolution component by component; the innermost directory first. -/
def resolve : List (List Char) → List (List Char) → List (List Char)
  | st, [] => st
  | st, c :: cs =>
    if c = [] ∨ c = ['.'] then resolve st cs
    else if c = ['.', '.'] then resolve st.tail cs
    else resolve (c :: st) cs

/-- The directories as a path; the root is `/`. -/
def body : List (List Char) → List Char
  | [] => []
  | c :: st => body st ++ '/' :: c

/-- See `body`. -/
def render (st : List (List Char)) : List Char := if st = [] then ['/'] else body st

/-- Every directory left by `..` has a name of at least two characters. -/
def PopsLong : List (List Char) → List (List Char) → Prop
  | _, [] => True
  | st, c :: cs =>
    if c = [] ∨ c = ['.'] then PopsLong st cs
    else if c = ['.', '.'] then (∀ d ∈ st.head?, 2 ≤ d.length) ∧ PopsLong st.tail cs
    else PopsLong (c :: st) cs

instance : ∀ (cs st : List (List Char)), Decidable (PopsLong st cs)
  | [], st => by unfold PopsLong; infer_instance
  | c :: cs, st => by
    unfold PopsLong
    have := instDecidablePopsLong cs st
    have := instDecidablePopsLong cs st.tail
    have := instDecidablePopsLong cs (c :: st)
    infer_instance

/-- A name: not empty, without separators, not special. -/
def IsName (c : List Char) : Prop := c ≠ [] ∧ '/' ∉ c ∧ nul ∉ c ∧ '\\' ∉ c ∧ c ≠ ['.'] ∧ c ≠ ['.', '.']

/-! ### Components -/

/-- Components with a separator in front of each. -/
def joined (cs : List (List Char)) : List Char := cs.flatMap fun c => '/' :: c

theorem joined_cons (c : List Char) (cs : List (List Char)) : joined (c :: cs) = '/' :: (c ++ joined cs) := by
  simp [joined]

theorem joined_nil : joined [] = [] := rfl

theorem split_ne_nil (s : List Char) : split s ≠ [] := by
  cases s with
  | nil => simp [split]
  | cons c r =>
    rw [split]
    split
    · simp
    · split <;> simp

theorem split_joined (s : List Char) : ∃ c cs, split s = c :: cs ∧ s = c ++ joined cs ∧ '/' ∉ c ∧ ∀ d ∈ cs, '/' ∉ d := by
  induction s with
  | nil => exact ⟨[], [], rfl, rfl, by simp, by simp⟩
  | cons c r ih =>
    obtain ⟨h, t, e, hs, h1, h2⟩ := ih
    rw [split]
    by_cases hc : c = '/'
    · rw [if_pos hc, e]
      refine ⟨[], h :: t, rfl, ?_, by simp, ?_⟩
      · rw [hc, hs, joined_cons]; rfl
      · intro d hd
        rw [List.mem_cons] at hd
        rcases hd with rfl | hd
        · exact h1
        · exact h2 d hd
    · rw [if_neg hc, e]
      refine ⟨c :: h, t, rfl, by rw [hs]; rfl, ?_, h2⟩
      rw [List.mem_cons]
      rintro (h3 | h3)
      · exact hc h3.symm
      · exact h1 h3

theorem mem_of_joined {cs : List (List Char)} {c : List Char} {x : Char} (h : c ∈ cs) (hx : x ∈ c) : x ∈ joined cs := by
  unfold joined
  rw [List.mem_flatMap]
  exact ⟨c, h, List.mem_cons_of_mem _ hx⟩

/-- The reversed rendering. -/
def rr (st : List (List Char)) : List Char := (body st).reverse

theorem rr_nil : rr [] = [] := rfl
theorem rr_cons (c : List Char) (st : List (List Char)) : rr (c :: st) = c.reverse ++ '/' :: rr st := by
  rw [rr, body]
  simp [rr]

theorem scan_append (x y : List Char) (h : '/' ∉ x) : scan (x ++ '/' :: y) = some y := by
  induction x with
  | nil => simp [scan]
  | cons c x ih =>
    rw [List.cons_append, scan, if_neg (by intro e; exact h (by rw [e]; exact List.mem_cons_self))]
    exact ih (fun hm => h (List.mem_cons_of_mem _ hm))

/-! ### The loop -/

/-- What follows a component. -/
def Sep (r : List Char) : Prop := r = [] ∨ ∃ r', r = '/' :: r'

theorem sep_joined (cs : List (List Char)) : Sep (joined cs) := by
  cases cs with
  | nil => exact Or.inl rfl
  | cons c cs => exact Or.inr ⟨_, joined_cons c cs⟩

theorem Sep.peek {r : List Char} (h : Sep r) : peek r 0 = '/' ∨ peek r 0 = nul := by
  rcases h with rfl | ⟨r', rfl⟩
  · right; rfl
  · left; rfl

theorem peek_append_lt {c r : List Char} {k : Nat} (h : k < c.length) : peek (c ++ r) k = peek c k := by
  unfold peek
  rw [List.getD_eq_getElem?_getD, List.getD_eq_getElem?_getD, List.getElem?_append_left h]

theorem peek_append_ge {c r : List Char} {k : Nat} (h : c.length ≤ k) : peek (c ++ r) k = peek r (k - c.length) := by
  unfold peek
  rw [List.getD_eq_getElem?_getD, List.getD_eq_getElem?_getD, List.getElem?_append_right h]

theorem peek_mem {c : List Char} {k : Nat} (h : k < c.length) : peek c k ∈ c := by
  unfold peek
  rw [List.getD_eq_getElem?_getD, List.getElem?_eq_getElem h]
  exact List.getElem_mem h

theorem go_nil (cap : Nat) (out : List Char) : go cap [] out = some out := by rw [go.eq_def]

/-- Characters of a name are copied. -/
theorem go_copy (cap : Nat) (c : List Char) : ∀ (r out : List Char), '/' ∉ c → out.length + c.length ≤ cap →
    go cap (c ++ r) out = go cap r (c.reverse ++ out) := by
  induction c with
  | nil => intro r out _ _; rfl
  | cons x c ih =>
    intro r out h hcap
    have hx : x ≠ '/' := by intro e; exact h (by rw [e]; exact List.mem_cons_self)
    rw [List.cons_append, go.eq_def]
    simp only [hx, false_and, if_false]
    rw [List.length_cons] at hcap
    rw [if_pos (by omega), ih r (x :: out) (fun hm => h (List.mem_cons_of_mem _ hm)) (by rw [List.length_cons]; omega)]
    simp

theorem go_skip (cap : Nat) (r out : List Char) : go cap ('/' :: '/' :: r) out = go cap ('/' :: r) out := by
  rw [go.eq_def]
  have h1 : peek ('/' :: r) 0 = '/' := rfl
  simp only [h1]
  rw [if_neg (by simp), if_neg (by simp), if_pos (by simp)]

theorem go_last (cap : Nat) (out : List Char) (h : out.length < cap) : go cap ['/'] out = some ('/' :: out) := by
  rw [go.eq_def]
  have h1 : peek [] 0 = nul := rfl
  simp only [h1]
  rw [if_neg (by simp [nul]), if_neg (by simp [nul]), if_neg (by simp [nul]), if_pos h, go_nil]

theorem go_dot (cap : Nat) (r out : List Char) (h : Sep r) : go cap ('/' :: '.' :: r) out = go cap r out := by
  rw [go.eq_def]
  have h0 : peek ('.' :: r) 0 = '.' := rfl
  have h1 : peek ('.' :: r) 1 = peek r 0 := rfl
  simp only [h0, h1]
  rw [if_pos ⟨trivial, trivial, h.peek⟩]
  rfl

theorem go_dotdot (cap : Nat) (r out : List Char) (h : Sep r) : go cap ('/' :: '.' :: '.' :: r) out =
    if out.length ≤ 1 then go cap r out
    else match scan (out.drop 2) with
      | none => none
      | some o => go cap r o := by
  rw [go.eq_def]
  have h0 : peek ('.' :: '.' :: r) 0 = '.' := rfl
  have h1 : peek ('.' :: '.' :: r) 1 = '.' := rfl
  have h2 : peek ('.' :: '.' :: r) 2 = peek r 0 := rfl
  simp only [h0, h1, h2]
  rw [if_neg (by simp [nul]), if_pos ⟨trivial, trivial, trivial, h.peek⟩]
  rfl

theorem go_name (cap : Nat) (c r out : List Char) (h : Sep r) (hne : c ≠ []) (hs : '/' ∉ c) (hn : nul ∉ c)
    (h1 : c ≠ ['.']) (h2 : c ≠ ['.', '.']) (hcap : out.length + c.length + 1 ≤ cap) :
    go cap ('/' :: (c ++ r)) out = go cap r (c.reverse ++ '/' :: out) := by
  have hlen : 0 < c.length := List.length_pos_iff.2 hne
  have p0 : peek (c ++ r) 0 = peek c 0 := peek_append_lt hlen
  have q0 : peek (c ++ r) 0 ≠ '/' := by rw [p0]; intro e; exact hs (by rw [← e]; exact peek_mem hlen)
  have a1 : ¬ (peek (c ++ r) 0 = '.' ∧ (peek (c ++ r) 1 = '/' ∨ peek (c ++ r) 1 = nul)) := by
    rintro ⟨e0, e1⟩
    match c, hlen with
    | [x], _ =>
      apply h1
      rw [p0] at e0
      rw [show x = '.' from e0]
    | x :: y :: c, _ =>
      rw [peek_append_lt (by simp)] at e1
      have hm : peek (x :: y :: c) 1 ∈ x :: y :: c := peek_mem (by simp)
      rcases e1 with e1 | e1 <;> rw [e1] at hm
      · exact hs hm
      · exact hn hm
  have a2 : ¬ (peek (c ++ r) 0 = '.' ∧ peek (c ++ r) 1 = '.' ∧ (peek (c ++ r) 2 = '/' ∨ peek (c ++ r) 2 = nul)) := by
    rintro ⟨e0, e1, e2⟩
    match c, hlen with
    | [x], _ =>
      apply h1
      rw [p0] at e0
      rw [show x = '.' from e0]
    | [x, y], _ =>
      apply h2
      rw [p0] at e0
      rw [peek_append_lt (by simp)] at e1
      rw [show x = '.' from e0, show y = '.' from e1]
    | x :: y :: z :: c, _ =>
      rw [peek_append_lt (by simp)] at e2
      have hm : peek (x :: y :: z :: c) 2 ∈ x :: y :: z :: c := peek_mem (by simp)
      rcases e2 with e2 | e2 <;> rw [e2] at hm
      · exact hs hm
      · exact hn hm
  rw [go.eq_def]
  simp only
  rw [if_neg (by simpa using a1), if_neg (by simpa using a2), if_neg (by simpa using q0), if_pos (by omega),
    go_copy cap c r ('/' :: out) hs (by rw [List.length_cons]; omega)]

/-- The last component is empty: the path ends with a separator. -/
def trailing (cs : List (List Char)) : Bool := cs.getLast? = some []

theorem trailing_cons (c : List Char) {cs : List (List Char)} (h : cs ≠ []) : trailing (c :: cs) = trailing cs := by
  unfold trailing
  rw [List.getLast?_cons]
  cases hl : cs.getLast? with
  | none => rw [List.getLast?_eq_none_iff] at hl; exact absurd hl h
  | some x => rfl

/-- Names on the stack. -/
def Clean (st : List (List Char)) : Prop := ∀ c ∈ st, c ≠ [] ∧ '/' ∉ c

theorem resolve_clean (cs : List (List Char)) : ∀ st, Clean st → (∀ c ∈ cs, '/' ∉ c) → Clean (resolve st cs) := by
  induction cs with
  | nil => intro st h _; exact h
  | cons c cs ih =>
    intro st h hcs
    have hcs' : ∀ d ∈ cs, '/' ∉ d := fun d hd => hcs d (List.mem_cons_of_mem _ hd)
    rw [resolve]
    split
    · exact ih st h hcs'
    · split
      · exact ih _ (fun d hd => h d (List.mem_of_mem_tail hd)) hcs'
      · rename_i h1 _
        apply ih _ _ hcs'
        intro d hd
        rw [List.mem_cons] at hd
        rcases hd with rfl | hd
        · exact ⟨fun e => h1 (Or.inl e), hcs d List.mem_cons_self⟩
        · exact h d hd

theorem rr_length_cons (c : List Char) (st : List (List Char)) : (rr (c :: st)).length = c.length + 1 + (rr st).length := by
  rw [rr_cons]; simp; omega

theorem go_main (cap : Nat) (cs : List (List Char)) : ∀ st, Clean st → (∀ c ∈ cs, '/' ∉ c ∧ nul ∉ c) → PopsLong st cs →
    (rr st).length + (joined cs).length < cap →
    go cap (joined cs) (rr st) = some (if trailing cs then '/' :: rr (resolve st cs) else rr (resolve st cs)) := by
  induction cs with
  | nil => intro st _ _ _ _; rw [joined_nil, go_nil]; rfl
  | cons c cs ih =>
    intro st hst hcs hpop hcap
    have hcs' : ∀ d ∈ cs, '/' ∉ d ∧ nul ∉ d := fun d hd => hcs d (List.mem_cons_of_mem _ hd)
    obtain ⟨c1, c2⟩ := hcs c List.mem_cons_self
    rw [joined_cons] at hcap ⊢
    rw [List.length_cons, List.length_append] at hcap
    have htr : c ≠ [] → trailing (c :: cs) = trailing cs := by
      intro hc
      cases cs with
      | nil => simp [trailing, hc]
      | cons d ds => exact trailing_cons c (by simp)
    by_cases h0 : c = []
    · subst h0
      have hr : resolve st ([] :: cs) = resolve st cs := by rw [resolve, if_pos (Or.inl rfl)]
      have hp : PopsLong st cs := by rwa [PopsLong, if_pos (Or.inl rfl)] at hpop
      rw [hr]
      cases cs with
      | nil =>
        rw [List.nil_append, joined_nil, go_last cap _ (by omega)]
        rfl
      | cons d ds =>
        have := ih st hst hcs' hp (by simp only [List.length_nil] at hcap; omega)
        rw [trailing_cons [] (by simp), ← this, List.nil_append, joined_cons, go_skip]
    · rw [htr h0]
      by_cases h1 : c = ['.']
      · subst h1
        have hr : resolve st (['.'] :: cs) = resolve st cs := by rw [resolve, if_pos (Or.inr rfl)]
        have hp : PopsLong st cs := by rwa [PopsLong, if_pos (Or.inr rfl)] at hpop
        rw [hr, ← ih st hst hcs' hp (by omega)]
        exact go_dot cap _ _ (sep_joined cs)
      · by_cases h2 : c = ['.', '.']
        · subst h2
          have hr : resolve st (['.', '.'] :: cs) = resolve st.tail cs := by rw [resolve, if_neg (by simp), if_pos rfl]
          rw [PopsLong, if_neg (by simp), if_pos rfl] at hpop
          obtain ⟨hl, hp⟩ := hpop
          rw [hr]
          have e := go_dotdot cap (joined cs) (rr st) (sep_joined cs)
          rw [show '/' :: (['.', '.'] ++ joined cs) = '/' :: '.' :: '.' :: joined cs from rfl, e]
          cases st with
          | nil =>
            rw [rr_nil, if_pos (by simp)]
            exact ih [] hst hcs' hp (by simp only [rr_nil, List.length_nil] at hcap ⊢; omega)
          | cons d ds =>
            have hd := hl d (by simp)
            have hlen := rr_length_cons d ds
            rw [if_neg (by omega)]
            have hdrop : (rr (d :: ds)).drop 2 = d.reverse.drop 2 ++ '/' :: rr ds := by
              rw [rr_cons, List.drop_append_of_le_length (by rw [List.length_reverse]; omega)]
            have hno : '/' ∉ d.reverse.drop 2 := by
              intro hm
              have := List.mem_of_mem_drop hm
              rw [List.mem_reverse] at this
              exact (hst d List.mem_cons_self).2 this
            rw [hdrop, scan_append _ _ hno]
            exact ih ds (fun x hx => hst x (List.mem_cons_of_mem _ hx)) hcs' hp (by
              simp only [List.length_cons, List.length_nil] at hcap; omega)
        · have hr : resolve st (c :: cs) = resolve (c :: st) cs := by
            rw [resolve, if_neg (by simp [h0, h1]), if_neg h2]
          rw [PopsLong, if_neg (by simp [h0, h1]), if_neg h2] at hpop
          rw [hr, go_name cap c _ _ (sep_joined cs) h0 c1 c2 h1 h2 (by omega), ← rr_cons]
          refine ih (c :: st) ?_ hcs' hpop (by rw [rr_length_cons]; omega)
          intro d hd
          rw [List.mem_cons] at hd
          rcases hd with rfl | hd
          · exact ⟨h0, c1⟩
          · exact hst d hd

theorem finish_rr (cap : Nat) (st : List (List Char)) (hst : Clean st) (t : Bool) (h : st ≠ [] ∨ t = true)
    (hcap : (rr st).length + (if t then 1 else 0) < cap) :
    finish cap (if t then '/' :: rr st else rr st) = some (render st) := by
  cases st with
  | nil =>
    rcases h with h | h
    · exact absurd rfl h
    · subst h
      simp only [if_true, rr_nil, List.length_nil] at hcap ⊢
      unfold finish
      simp only [ne_eq, not_true_eq_false, and_false, if_false]
      rw [if_pos (by simpa using hcap)]
      rfl
  | cons d ds =>
    obtain ⟨hd1, hd2⟩ := hst d List.mem_cons_self
    have hlen := rr_length_cons d ds
    have hren : render (d :: ds) = (rr (d :: ds)).reverse := by unfold render rr; simp
    cases t with
    | true =>
      simp only [if_true] at hcap ⊢
      unfold finish
      have hne : rr (d :: ds) ≠ [] := by intro e; rw [e] at hlen; simp at hlen; omega
      simp only [ne_eq, hne, not_false_eq_true, and_self, if_true]
      rw [if_pos (by omega), hren]
    | false =>
      simp only [Bool.false_eq_true, if_false] at hcap ⊢
      obtain ⟨x, xs, hx⟩ : ∃ x xs, d.reverse = x :: xs := by
        cases hr : d.reverse with
        | nil => rw [List.reverse_eq_nil_iff] at hr; exact absurd hr hd1
        | cons x xs => exact ⟨x, xs, rfl⟩
      have hrr : rr (d :: ds) = x :: (xs ++ '/' :: rr ds) := by rw [rr_cons, hx]; rfl
      have hxne : x ≠ '/' := by
        intro e
        apply hd2
        rw [← List.mem_reverse, hx, e]
        exact List.mem_cons_self
      rw [hren, hrr]
      unfold finish
      simp only [hxne, false_and, if_false]
      rw [if_pos (by rw [← hrr]; omega)]

theorem resolve_nil_length : ∀ (cs st : List (List Char)), (rr (resolve st cs)).length ≤ (rr st).length + (joined cs).length := by
  intro cs
  induction cs with
  | nil => intro st; simp [resolve]
  | cons c cs ih =>
    intro st
    rw [resolve, joined_cons, List.length_cons, List.length_append]
    split
    · have := ih st; omega
    · split
      · have := ih st.tail
        have h2 : (rr st.tail).length ≤ (rr st).length := by
          cases st with
          | nil => simp
          | cons d ds => rw [rr_length_cons, List.tail_cons]; omega
        omega
      · have := ih (c :: st)
        rw [rr_length_cons] at this
        omega

/-- Trailing separators are counted. -/
theorem resolve_length (cs : List (List Char)) : ∀ st, (rr (resolve st cs)).length + (if trailing cs then 1 else 0) ≤
    (rr st).length + (joined cs).length := by
  induction cs with
  | nil => intro st; simp [resolve, trailing]
  | cons c cs ih =>
    intro st
    rw [joined_cons, List.length_cons, List.length_append]
    cases cs with
    | nil =>
      have := resolve_nil_length [] st
      simp only [joined_nil, List.length_nil]
      rw [resolve]
      split
      · simp only [resolve]; split <;> omega
      · rename_i hh
        have hc : trailing [c] = false := by
          unfold trailing; simp only [List.getLast?_singleton, Option.some.injEq, decide_eq_false_iff_not]
          exact fun e => hh (Or.inl e)
        rw [hc]
        split
        · simp only [resolve]
          have h2 : (rr st.tail).length ≤ (rr st).length := by
            cases st with
            | nil => simp
            | cons d ds => rw [rr_length_cons, List.tail_cons]; omega
          simp only [Bool.false_eq_true, if_false]; omega
        · simp only [resolve, rr_length_cons, Bool.false_eq_true, if_false]; omega
    | cons d ds =>
      rw [trailing_cons c (by simp), resolve]
      split
      · have := ih st; omega
      · split
        · have := ih st.tail
          have h2 : (rr st.tail).length ≤ (rr st).length := by
            cases st with
            | nil => simp
            | cons d ds => rw [rr_length_cons, List.tail_cons]; omega
          omega
        · have := ih (c :: st)
          rw [rr_length_cons] at this
          omega

theorem not_nul_of_map {p : List Char} (h : nul ∉ p) : nul ∉ p.map toSlash := by
  rw [List.mem_map]
  rintro ⟨c, hc, e⟩
  unfold toSlash at e
  split at e
  · exact absurd e (by decide)
  · rw [e] at hc; exact h hc

/-! ### C48 -/

/-- **C48**, absolute paths, partial: the constructor resolves the path component by component, if every directory
that is left by `..` has a name of at least two characters and the result is not the root, or the path ends with a
separator.  The full statement, without these two conditions, fails: see `C48_violated`. -/
theorem C48_absolute_partial (cwd p : List Char) (hn : nul ∉ p) (hp : isAbsolute p = true)
    (hpop : PopsLong [] (split (p.map toSlash)))
    (hroot : resolve [] (split (p.map toSlash)) ≠ [] ∨ trailing (split (p.map toSlash)) = true) :
    ctorString cwd p = some (render (resolve [] (split (p.map toSlash)))) := by
  unfold ctorString
  rw [if_pos hp]
  unfold appendRelative
  rw [if_pos (by simp)]
  have hn' := not_nul_of_map hn
  have hlen : (p.map toSlash).length = p.length := by simp
  have h0 : peek (p.map toSlash) 0 = '/' := by
    cases p with
    | nil => simp [isAbsolute, peek, nul] at hp
    | cons c r =>
      have : c = '/' := by simpa [isAbsolute, peek] using hp
      rw [this]; rfl
  generalize p.map toSlash = s at *
  obtain ⟨c, cs, e, hs, hc1, hc2⟩ := split_joined s
  have hc : c = [] := by
    cases c with
    | nil => rfl
    | cons x c =>
      rw [hs] at h0
      have : x = '/' := h0
      exact absurd (by rw [this]; exact List.mem_cons_self) hc1
  subst hc
  rw [List.nil_append] at hs
  have hstart : start [] s = some (s, []) := by
    unfold start
    rw [if_neg (by rw [h0]; decide)]
    rfl
  have hws : withSep (p.length + 1) s [] = some [] := by
    unfold withSep
    rw [if_neg (by rw [h0]; simp)]
  have hr : resolve [] ([] :: cs) = resolve [] cs := by rw [resolve, if_pos (Or.inl rfl)]
  have hcsne : cs ≠ [] := by
    intro e'
    rw [hs, e', joined_nil] at h0
    exact absurd h0 (by decide)
  rw [e] at hpop hroot ⊢
  rw [hr] at hroot ⊢
  rw [PopsLong, if_pos (Or.inl rfl)] at hpop
  rw [trailing_cons [] hcsne] at hroot
  have hnul : ∀ d ∈ cs, '/' ∉ d ∧ nul ∉ d := fun d hd => ⟨hc2 d hd, fun hm => hn' (by rw [hs]; exact mem_of_joined hd hm)⟩
  have hm := go_main (p.length + 1) cs [] (by intro c hc; simp at hc) hnul hpop (by
    rw [rr_nil, ← hs, hlen]; simp)
  rw [← hs, rr_nil] at hm
  simp only [hstart, hws, hm]
  apply finish_rr
  · exact resolve_clean cs [] (by intro c hc; simp at hc) hc2
  · exact hroot
  · have := resolve_length cs []
    rw [← hs, hlen, rr_nil] at this
    simp only [List.length_nil] at this
    omega

/-- A directory as stored in a `File` other than the root: names without separators. -/
def IsDir (st : List (List Char)) : Prop := st ≠ [] ∧ ∀ c ∈ st, IsName c

instance (st : List (List Char)) : Decidable (IsDir st) := by unfold IsDir IsName; infer_instance

theorem IsDir.clean {st : List (List Char)} (h : IsDir st) : Clean st := fun c hc => ⟨(h.2 c hc).1, (h.2 c hc).2.1⟩

/-- **C48**, relative paths, partial: `append` resolves the path component by component, if the directory is not the
root, the path is not just `.` or `..`, every directory left by a later `..` has a name of at least two characters
and the result is not the root, or the path ends with a separator. -/
theorem C48_append_partial (st : List (List Char)) (hst : IsDir st) (p : List Char) (hn : nul ∉ p)
    (hdot : p ≠ ['.'] ∧ p ≠ ['.', '.'])
    (hpop : if (split (p.map toSlash)).head? = some ['.', '.'] then PopsLong st.tail (split (p.map toSlash)).tail
      else PopsLong st (split (p.map toSlash)))
    (hroot : resolve st (split (p.map toSlash)) ≠ [] ∨ trailing (split (p.map toSlash)) = true) :
    append (render st) p = some (render (resolve st (split (p.map toSlash)))) := by
  have hclean := hst.clean
  have hren : render st = (rr st).reverse := by unfold render rr; rw [if_neg hst.1]; simp
  have hren2 : (render st).reverse = rr st := by rw [hren, List.reverse_reverse]
  have hrl : (render st).length = (rr st).length := by rw [hren, List.length_reverse]
  unfold append
  generalize hcapd : (render st).length + p.length + 2 = cap
  unfold appendRelative
  rw [if_pos (by omega)]
  have hn' := not_nul_of_map hn
  have hlen : (p.map toSlash).length = p.length := by simp
  have hd1 : p.map toSlash ≠ ['.'] := by
    intro e
    apply hdot.1
    match p with
    | [] => simp at e
    | [x] =>
      simp only [List.map_cons, List.map_nil, List.cons.injEq, and_true] at e
      unfold toSlash at e
      split at e
      · exact absurd e (by decide)
      · rw [e]
    | _ :: _ :: _ => simp at e
  have hd2 : p.map toSlash ≠ ['.', '.'] := by
    intro e
    apply hdot.2
    match p with
    | [] => simp at e
    | [x] => simp at e
    | [x, y] =>
      simp only [List.map_cons, List.map_nil, List.cons.injEq, and_true] at e
      obtain ⟨e1, e2⟩ := e
      unfold toSlash at e1 e2
      split at e1
      · exact absurd e1 (by decide)
      · split at e2
        · exact absurd e2 (by decide)
        · rw [e1, e2]
    | _ :: _ :: _ :: _ => simp at e
  generalize p.map toSlash = s at *
  obtain ⟨c, cs, e, hs, hc1, hc2⟩ := split_joined s
  rw [e] at hpop hroot ⊢
  have hcn : nul ∉ c := fun hm => hn' (by rw [hs]; exact List.mem_append_left _ hm)
  have hnul : ∀ d ∈ cs, '/' ∉ d ∧ nul ∉ d :=
    fun d hd => ⟨hc2 d hd, fun hm => hn' (by rw [hs]; exact List.mem_append_right _ (mem_of_joined hd hm))⟩
  have hsl : s.length = c.length + (joined cs).length := by rw [hs, List.length_append]
  -- the loop from a state, and the final step
  have fin : ∀ st', Clean st' → PopsLong st' cs → (rr st').length + (joined cs).length < cap →
      (resolve st' cs ≠ [] ∨ trailing cs = true) →
      (match go cap (joined cs) (rr st') with
        | none => none
        | some out => finish cap out) = some (render (resolve st' cs)) := by
    intro st' h1 h2 h3 h4
    rw [go_main cap cs st' h1 hnul h2 h3]
    simp only
    apply finish_rr _ _ (resolve_clean cs st' h1 hc2) _ h4
    have := resolve_length cs st'
    omega
  have hrrne : rr st ≠ [] := by
    intro e'
    cases st with
    | nil => exact hst.1 rfl
    | cons d ds => have := rr_length_cons d ds; rw [e'] at this; simp at this; omega
  by_cases h0 : c = []
  · subst h0
    rw [List.nil_append] at hs
    have hr : resolve st ([] :: cs) = resolve st cs := by rw [resolve, if_pos (Or.inl rfl)]
    rw [hr] at hroot ⊢
    rw [if_neg (by simp), PopsLong, if_pos (Or.inl rfl)] at hpop
    cases cs with
    | nil =>
      rw [joined_nil] at hs
      subst hs
      have h1 : start (render st) [] = some ([], rr st) := by
        unfold start
        rw [if_neg (by decide), hren2]
      have h2 : withSep cap [] (rr st) = some ('/' :: rr st) := by
        unfold withSep
        rw [if_pos ⟨by decide, hrrne⟩, if_pos (by omega)]
      simp only [h1, h2, go_nil]
      have := finish_rr cap st hclean true (Or.inr rfl) (by simp; omega)
      simpa [resolve] using this
    | cons d ds =>
      have h0' : peek s 0 = '/' := by rw [hs, joined_cons]; rfl
      have h1 : start (render st) s = some (s, rr st) := by
        unfold start
        rw [if_neg (by rw [h0']; decide), hren2]
      have h2 : withSep cap s (rr st) = some (rr st) := by
        unfold withSep
        rw [if_neg (by rw [h0']; simp)]
      rw [trailing_cons [] (by simp)] at hroot
      simp only [h1, h2]
      rw [hs]
      exact fin st hclean hpop (by omega) hroot
  · by_cases h1 : c = ['.']
    · subst h1
      have hcsne : cs ≠ [] := by
        intro e'; apply hd1; rw [hs, e']; rfl
      obtain ⟨d, ds, rfl⟩ : ∃ d ds, cs = d :: ds := by
        cases cs with
        | nil => exact absurd rfl hcsne
        | cons d ds => exact ⟨d, ds, rfl⟩
      have hr : resolve st (['.'] :: d :: ds) = resolve st (d :: ds) := by rw [resolve, if_pos (Or.inr rfl)]
      rw [hr] at hroot ⊢
      rw [if_neg (by simp), PopsLong, if_pos (Or.inr rfl)] at hpop
      rw [trailing_cons _ (by simp)] at hroot
      have hj : joined (d :: ds) = '/' :: (d ++ joined ds) := joined_cons d ds
      have hst1 : start (render st) s = some (joined (d :: ds), rr st) := by
        unfold start
        have p0 : peek s 0 = '.' := by rw [hs]; rfl
        have p1 : peek s 1 = '/' := by rw [hs, hj]; rfl
        rw [if_pos p0, if_neg (by rw [p1]; simp), if_pos p1, hren2, hs]
        rfl
      have h2 : withSep cap (joined (d :: ds)) (rr st) = some (rr st) := by
        unfold withSep
        rw [if_neg (by rw [hj]; simp [peek])]
      simp only [hst1, h2]
      exact fin st hclean hpop (by omega) hroot
    · by_cases h2 : c = ['.', '.']
      · subst h2
        have hcsne : cs ≠ [] := by
          intro e'; apply hd2; rw [hs, e']; rfl
        obtain ⟨d, ds, rfl⟩ : ∃ d ds, cs = d :: ds := by
          cases cs with
          | nil => exact absurd rfl hcsne
          | cons d ds => exact ⟨d, ds, rfl⟩
        obtain ⟨a, as, rfl⟩ : ∃ a as, st = a :: as := by
          cases st with
          | nil => exact absurd rfl hst.1
          | cons d ds => exact ⟨d, ds, rfl⟩
        have hr : resolve (a :: as) (['.', '.'] :: d :: ds) = resolve as (d :: ds) := by
          rw [resolve, if_neg (by simp), if_pos rfl, List.tail_cons]
        rw [hr] at hroot ⊢
        rw [if_pos (by simp)] at hpop
        simp only [List.tail_cons] at hpop
        rw [trailing_cons _ (by simp)] at hroot
        have hj : joined (d :: ds) = '/' :: (d ++ joined ds) := joined_cons d ds
        have hno : '/' ∉ a.reverse := by rw [List.mem_reverse]; exact (hclean a List.mem_cons_self).2
        have hst1 : start (render (a :: as)) s = some (joined (d :: ds), rr as) := by
          unfold start
          have p0 : peek s 0 = '.' := by rw [hs]; rfl
          have p1 : peek s 1 = '.' := by rw [hs]; rfl
          have p2 : peek s 2 = '/' := by rw [hs, hj]; rfl
          rw [if_pos p0, if_pos ⟨p1, p2⟩, hren2, rr_cons, scan_append _ _ hno, hs]
          rfl
        have hw : withSep cap (joined (d :: ds)) (rr as) = some (rr as) := by
          unfold withSep
          rw [if_neg (by rw [hj]; simp [peek])]
        have hl := rr_length_cons a as
        simp only [hst1, hw]
        exact fin as (fun x hx => hclean x (List.mem_cons_of_mem _ hx)) hpop (by omega) hroot
      · have hr : resolve st (c :: cs) = resolve (c :: st) cs := by
          rw [resolve, if_neg (by simp [h0, h1]), if_neg h2]
        rw [hr] at hroot ⊢
        rw [if_neg (by simpa using h2), PopsLong, if_neg (by simp [h0, h1]), if_neg h2] at hpop
        have htr : trailing (c :: cs) = trailing cs := by
          cases cs with
          | nil => simp [trailing, h0]
          | cons d ds => exact trailing_cons c (by simp)
        rw [htr] at hroot
        have hclen : 0 < c.length := List.length_pos_iff.2 h0
        have q0 : peek s 0 ≠ '/' := by
          rw [hs, peek_append_lt hclen]; intro e'; exact hc1 (by rw [← e']; exact peek_mem hclen)
        have hsep := (sep_joined cs).peek
        have hst1 : start (render st) s = some (s, rr st) := by
          unfold start
          rw [hren2]
          split
          · rename_i g0
            rw [hs, peek_append_lt hclen] at g0
            split
            · rename_i g1
              exfalso
              obtain ⟨g1, g2⟩ := g1
              match c, hclen with
              | [x], _ => exact h1 (by rw [show x = '.' from g0])
              | [x, y], _ =>
                rw [hs] at g1
                exact h2 (by rw [show x = '.' from g0, show y = '.' from g1])
              | x :: y :: z :: c, _ =>
                rw [hs, peek_append_lt (by simp)] at g2
                have hm : peek (x :: y :: z :: c) 2 ∈ x :: y :: z :: c := peek_mem (by simp)
                rw [g2] at hm
                exact hc1 hm
            · split
              · rename_i g1
                exfalso
                match c, hclen with
                | [x], _ => exact h1 (by rw [show x = '.' from g0])
                | x :: y :: c, _ =>
                  rw [hs, peek_append_lt (by simp)] at g1
                  have hm : peek (x :: y :: c) 1 ∈ x :: y :: c := peek_mem (by simp)
                  rw [g1] at hm
                  exact hc1 hm
              · rfl
          · rfl
        have hw : withSep cap s (rr st) = some ('/' :: rr st) := by
          unfold withSep
          rw [if_pos ⟨q0, hrrne⟩, if_pos (by omega)]
        simp only [hst1, hw]
        rw [hs, go_copy cap c _ _ hc1 (by rw [List.length_cons]; omega), ← rr_cons]
        refine fin (c :: st) ?_ hpop (by rw [rr_length_cons]; omega) hroot
        intro x hx
        rw [List.mem_cons] at hx
        rcases hx with rfl | hx
        · exact ⟨h0, hc1⟩
        · exact hclean x hx

/-- **C48 is violated**: a directory with a name of one character takes its parent along, or makes the code write
in front of the buffer. -/
theorem C48_violated :
    ctorString [] "/home/x/../file".toList = some "/file".toList ∧
    render (resolve [] (split "/home/x/../file".toList)) = "/home/file".toList ∧
    ctorString [] "/x/../file".toList = none ∧
    append "/x/yy".toList "../../file".toList = none := by decide +kernel

/-- **C48 is violated** by paths that resolve to the root: memory in front of the buffer is read and the empty path
has no separator to be found. -/
theorem C48_root_violated : ctorString [] "/home/..".toList = none ∧ ctorString [] "/.".toList = none ∧
    ctorString [] "/..".toList = none ∧ append "/home".toList "../".toList = some "/".toList := by decide +kernel

/-- **C48 is violated** by paths relative to the root, and by `.` and `..` alone. -/
theorem C48_relative_violated : append "/".toList "file".toList = some "//file".toList ∧
    append "/home/user".toList "..".toList = some "/home/user/..".toList ∧
    append "/home/user".toList ".".toList = some "/home/user/.".toList := by decide +kernel

/-- **C48 is violated** in general: leaving any directory with a name of one character leaves its parent as well. -/
theorem C48_short_name (st : List (List Char)) (hst : Clean st) (a : List Char) (ha : '/' ∉ a) (x : Char)
    (cap : Nat) (cs : List (List Char)) :
    go cap (joined (['.', '.'] :: cs)) (rr ([x] :: a :: st)) = go cap (joined cs) (rr st) ∧
    go cap (joined (['.', '.'] :: cs)) (rr [[x]]) = none := by
  have _ := hst
  have e := fun out => go_dotdot cap (joined cs) out (sep_joined cs)
  have hj : joined (['.', '.'] :: cs) = '/' :: '.' :: '.' :: joined cs := joined_cons _ _
  rw [hj, e, e]
  constructor
  · have h1 : (rr ([x] :: a :: st)).drop 2 = rr (a :: st) := by rw [rr_cons]; rfl
    have h2 := rr_length_cons [x] (a :: st)
    have h3 := rr_length_cons a st
    have h4 : scan (rr (a :: st)) = some (rr st) := by
      rw [rr_cons]; exact scan_append _ _ (by rw [List.mem_reverse]; exact ha)
    rw [if_neg (by simp only [List.length_singleton] at h2; omega), h1, h4]
  · rfl

example : append "/home/user".toList "../scenes/./old//../room.cfg".toList = some "/home/scenes/room.cfg".toList := by
  have := C48_append_partial ["user".toList, "home".toList] (by decide +kernel) "../scenes/./old//../room.cfg".toList
    (by decide +kernel) (by decide +kernel) (by decide +kernel) (by decide +kernel)
  exact this

example : ctorString [] "/home/user/../scenes//./room.cfg".toList = some "/home/scenes/room.cfg".toList :=
  C48_absolute_partial [] _ (by decide +kernel) (by decide +kernel) (by decide +kernel) (by decide +kernel)

/-! ### C49: the parent -/

/-- A `File` that denotes the directory `c :: st`: the string and the offset of the last component. -/
def Denotes (f : Obj) (c : List Char) (st : List (List Char)) : Prop :=
  f.absolute = some (body (c :: st)) ∧ f.file = (body st).length + 1

/-- The root. -/
def DenotesRoot (f : Obj) : Prop := f.absolute = some ['/'] ∧ f.file = 0

theorem cstr_append (s t : List Char) (h : nul ∉ s) : cstr (s ++ nul :: t) = some s := by
  induction s with
  | nil => simp [cstr]
  | cons c s ih =>
    rw [List.cons_append, cstr, if_neg (by intro e; exact h (by rw [e]; exact List.mem_cons_self)),
      ih (fun hm => h (List.mem_cons_of_mem _ hm))]
    rfl

theorem cstr_some {m s : List Char} (h : cstr m = some s) : ∃ t, m = s ++ nul :: t ∧ nul ∉ s := by
  induction m generalizing s with
  | nil => cases h
  | cons c m ih =>
    rw [cstr] at h
    split at h
    · rename_i hc
      injection h with h
      subst h
      exact ⟨m, by rw [hc]; rfl, by simp⟩
    · rename_i hc
      cases hm : cstr m with
      | none => rw [hm] at h; cases h
      | some s' =>
        rw [hm] at h
        injection h with h
        subst h
        obtain ⟨t, e, hn⟩ := ih hm
        refine ⟨t, by rw [e]; rfl, ?_⟩
        rw [List.mem_cons]
        rintro (h1 | h1)
        · exact hc h1.symm
        · exact hn h1

/-- `filename()` of such a `File` is the last component. -/
theorem denotes_filename (f : Obj) (c : List Char) (st : List (List Char)) (h : Denotes f c st) (hc : nul ∉ c) :
    f.filename = some c := by
  obtain ⟨h1, h2⟩ := h
  obtain ⟨t, e, -⟩ := cstr_some h1
  unfold Obj.filename
  rw [e, h2, body]
  have : (body st ++ '/' :: c ++ nul :: t).drop ((body st).length + 1) = c ++ nul :: t := by
    rw [show body st ++ '/' :: c ++ nul :: t = (body st ++ ['/']) ++ (c ++ nul :: t) by simp,
      List.drop_left' (by simp)]
  rw [this, cstr_append _ _ hc]

/-- The constructor denotes the path it is given. -/
theorem rfind_append (ch : Char) (s t : List Char) (h : ch ∉ t) : rfind ch (s ++ ch :: t) = some s.length := by
  have hnone : rfind ch t = none := by
    induction t with
    | nil => rfl
    | cons d t ih =>
      rw [rfind, ih (fun hm => h (List.mem_cons_of_mem _ hm)), if_neg]
      intro e
      exact h (by rw [e]; exact List.mem_cons_self)
  induction s with
  | nil => rw [List.nil_append, rfind, hnone]; simp
  | cons d s ih => rw [List.cons_append, rfind, ih]; rfl

theorem mkObj_denotes (c : List Char) (st : List (List Char)) (h : IsDir (c :: st)) :
    ∃ f, mkObj (body (c :: st)) = some f ∧ Denotes f c st := by
  obtain ⟨-, hn⟩ := h
  obtain ⟨c0, c1, c2, -⟩ := hn c List.mem_cons_self
  have hlen : 0 < c.length := List.length_pos_iff.2 c0
  unfold mkObj
  rw [body, rfind_append _ _ _ c1]
  simp only
  rw [if_pos (by simp; omega)]
  refine ⟨_, rfl, ?_, rfl⟩
  unfold Obj.absolute
  simp only
  apply cstr_append
  have : ∀ st : List (List Char), (∀ d ∈ st, IsName d) → nul ∉ body st := by
    intro st hst
    induction st with
    | nil => simp [body]
    | cons d ds ih =>
      rw [body, List.mem_append, List.mem_cons]
      rintro (h | h | h)
      · exact ih (fun x hx => hst x (List.mem_cons_of_mem _ hx)) h
      · exact absurd h (by decide)
      · exact (hst d List.mem_cons_self).2.2.1 h
  have := this (c :: st) hn
  rwa [body] at this

theorem backScan_at (m : List Char) (k n : Nat) (h0 : m.getD k nul = '/') (h1 : ∀ j, k < j → j ≤ k + n → m.getD j nul ≠ '/') :
    backScan m (k + n) = some k := by
  induction n with
  | zero =>
    cases k with
    | zero => rw [backScan, if_pos h0]
    | succ k => rw [Nat.add_zero, backScan, if_pos h0]
  | succ n ih =>
    rw [show k + (n + 1) = k + n + 1 from rfl, backScan, if_neg (h1 (k + n + 1) (by omega) (by omega))]
    exact ih (fun j a b => h1 j a (by omega))

/-- The memory of a `File` that denotes a directory, and of its copy. -/
theorem parent_step (f : Obj) (c : List Char) (st : List (List Char)) (h : Denotes f c st) (hc : IsName c) :
    ∃ t, f.mem = body st ++ '/' :: c ++ nul :: t ∧ copy f = some ⟨body st ++ '/' :: c ++ [nul], f.file, f.ext⟩ ∧
      (body st ++ '/' :: c ++ [nul])[f.file]? = c[0]? ∧ c[0]? ≠ some '/' ∧ c[0]? ≠ none := by
  obtain ⟨h1, h2⟩ := h
  have h1' := h1
  unfold Obj.absolute at h1'
  obtain ⟨t, e, -⟩ := cstr_some h1'
  obtain ⟨c0, c1, -⟩ := hc
  have hlen : 0 < c.length := List.length_pos_iff.2 c0
  rw [body] at e
  refine ⟨t, e, ?_, ?_, ?_, ?_⟩
  · unfold copy
    rw [h1', body]
    rfl
  · rw [h2]
    rw [show body st ++ '/' :: c ++ [nul] = (body st ++ ['/']) ++ (c ++ [nul]) by simp,
      List.getElem?_append_right (by simp), List.getElem?_append_left (by simp; omega)]
    simp
  · intro e'
    exact c1 (List.mem_of_getElem? e')
  · rw [List.getElem?_eq_getElem hlen]
    simp

/-- **C49**, the string: the parent of every directory below the root is the directory without its last component. -/
theorem C49_absolute (f : Obj) (c : List Char) (st : List (List Char)) (h : Denotes f c st) (hd : IsDir (c :: st)) :
    ∃ g, getParent f = some g ∧ g.absolute = some (render st) := by
  obtain ⟨t, e, hcopy, hfile, hne, hnone⟩ := parent_step f c st h (hd.2 c List.mem_cons_self)
  obtain ⟨-, h2⟩ := h
  obtain ⟨x, hx⟩ : ∃ x, c[0]? = some x := by
    cases hcx : c[0]? with
    | none => exact absurd hcx hnone
    | some x => exact ⟨x, rfl⟩
  have hxne : x ≠ '/' := by intro e'; rw [hx, e'] at hne; exact hne rfl
  have hnulst : nul ∉ body st := by
    have : ∀ st : List (List Char), (∀ d ∈ st, IsName d) → nul ∉ body st := by
      intro st hst
      induction st with
      | nil => simp [body]
      | cons d ds ih =>
        rw [body, List.mem_append, List.mem_cons]
        rintro (h | h | h)
        · exact ih (fun x hx => hst x (List.mem_cons_of_mem _ hx)) h
        · exact absurd h (by decide)
        · exact (hst d List.mem_cons_self).2.2.1 h
    exact this st (fun d hd' => hd.2 d (List.mem_cons_of_mem _ hd'))
  unfold getParent
  rw [hcopy]
  simp only
  rw [hfile, hx]
  simp only [hxne, if_false]
  cases st with
  | nil =>
    rw [h2, body, List.length_nil, if_pos rfl]
    refine ⟨_, rfl, ?_⟩
    unfold Obj.absolute
    obtain ⟨y, ys, hy⟩ : ∃ y ys, c = y :: ys := by
      cases c with
      | nil => simp at hx
      | cons y ys => exact ⟨y, ys, rfl⟩
    rw [hy]
    rfl
  | cons d ds =>
    have hbl : 2 ≤ (body (d :: ds)).length := by
      have : 0 < d.length := List.length_pos_iff.2 (hd.2 d (by simp)).1
      rw [body, List.length_append, List.length_cons]; omega
    rw [if_neg (by omega), if_neg (by omega)]
    have hset : (body (d :: ds) ++ '/' :: c ++ [nul]).set (f.file - 1) nul = body (d :: ds) ++ nul :: (c ++ [nul]) := by
      rw [h2, Nat.add_sub_cancel, List.append_assoc, List.set_append_right _ _ (le_refl _)]
      simp
    have habs : cstr ((body (d :: ds) ++ '/' :: c ++ [nul]).set (f.file - 1) nul) = some (render (d :: ds)) := by
      rw [hset, cstr_append _ _ hnulst]
      rfl
    split
    · exact ⟨_, rfl, habs⟩
    · exact ⟨_, rfl, habs⟩

/-- **C49**, the name, partial: from the third level on the parent is again such a `File`, so that its `filename()` is
its last component (`denotes_filename`); on the first level it is the root. -/
theorem C49_name_partial (f : Obj) (c d b : List Char) (ds : List (List Char)) (h : Denotes f c (d :: b :: ds))
    (hd : IsDir (c :: d :: b :: ds)) : ∃ g, getParent f = some g ∧ Denotes g d (b :: ds) ∧ g.filename = some d := by
  obtain ⟨g, hg, habs⟩ := C49_absolute f c (d :: b :: ds) h hd
  have hdn := hd.2 d (by simp)
  have key : Denotes g d (b :: ds) := by
    refine ⟨habs, ?_⟩
    obtain ⟨t, e, hcopy, hfile, hne, hnone⟩ := parent_step f c (d :: b :: ds) h (hd.2 c List.mem_cons_self)
    obtain ⟨-, h2⟩ := h
    obtain ⟨x, hx⟩ : ∃ x, c[0]? = some x := by
      cases hcx : c[0]? with
      | none => exact absurd hcx hnone
      | some x => exact ⟨x, rfl⟩
    have hxne : x ≠ '/' := by intro e'; rw [hx, e'] at hne; exact hne rfl
    unfold getParent at hg
    rw [hcopy] at hg
    simp only at hg
    rw [hfile, hx] at hg
    simp only [hxne, if_false] at hg
    have hdl : 0 < d.length := List.length_pos_iff.2 hdn.1
    have hbl : (body (d :: b :: ds)).length = (body (b :: ds)).length + 1 + d.length := by
      rw [body, List.length_append, List.length_cons]; omega
    have hbl0 : 0 < (body (b :: ds)).length := by rw [body]; simp
    rw [if_neg (by omega), if_neg (by omega)] at hg
    have hscan : backScan f.mem (f.file - 2) = some (body (b :: ds)).length := by
      have hf2 : f.file - 2 = (body (b :: ds)).length + d.length := by omega
      have hm : f.mem = body (b :: ds) ++ ('/' :: (d ++ ('/' :: c ++ nul :: t))) := by
        rw [e, body]; simp
      rw [hf2]
      apply backScan_at
      · rw [hm, List.getD_eq_getElem?_getD, List.getElem?_append_right (le_refl _)]
        simp
      · intro j hj1 hj2
        rw [hm, List.getD_eq_getElem?_getD, List.getElem?_append_right (by omega)]
        obtain ⟨i, rfl⟩ : ∃ i, j = (body (b :: ds)).length + 1 + i := ⟨j - (body (b :: ds)).length - 1, by omega⟩
        rw [show (body (b :: ds)).length + 1 + i - (body (b :: ds)).length = i + 1 by omega, List.getElem?_cons_succ,
          List.getElem?_append_left (by omega), List.getElem?_eq_getElem (by omega), Option.getD_some]
        intro e'
        exact hdn.2.1 (by rw [← e']; exact List.getElem_mem _)
    rw [hscan] at hg
    simp only at hg
    injection hg with hg
    rw [← hg]
    simp only
    rw [if_pos (by omega)]
  exact ⟨g, hg, key, denotes_filename g d (b :: ds) key hdn.2.2.1⟩

/-- **C49**: the parent of a directory at the top is the root, named `/`. -/
theorem C49_top (f : Obj) (c : List Char) (h : Denotes f c []) (hc : IsName c) :
    ∃ g, getParent f = some g ∧ DenotesRoot g ∧ g.filename = some ['/'] := by
  obtain ⟨g, hg, habs⟩ := C49_absolute f c [] h ⟨by simp, by intro d hd; rw [List.mem_singleton] at hd; rw [hd]; exact hc⟩
  obtain ⟨t, e, hcopy, hfile, hne, hnone⟩ := parent_step f c [] h hc
  obtain ⟨-, h2⟩ := h
  obtain ⟨x, hx⟩ : ∃ x, c[0]? = some x := by
    cases hcx : c[0]? with
    | none => exact absurd hcx hnone
    | some x => exact ⟨x, rfl⟩
  have hxne : x ≠ '/' := by intro e'; rw [hx, e'] at hne; exact hne rfl
  have hf0 : g.file = 0 := by
    unfold getParent at hg
    rw [hcopy] at hg
    simp only at hg
    rw [hfile, hx] at hg
    simp only [hxne, if_false] at hg
    rw [h2, body, List.length_nil, if_pos rfl] at hg
    injection hg with hg
    rw [← hg]
  refine ⟨g, hg, ⟨habs, hf0⟩, ?_⟩
  unfold Obj.filename
  rw [hf0]
  exact habs

/-- **C49 is violated** for every directory of the second level: the parent keeps the name of the child, and asking
for the parent of the parent reads outside of the allocation.  So no chain of parents from the second level or below
reaches the root. -/
theorem C49_violated (f : Obj) (c d : List Char) (h : Denotes f c [d]) (hd : IsDir [c, d]) :
    ∃ g, getParent f = some g ∧ g.absolute = some ('/' :: d) ∧ g.filename = some c ∧ getParent g = none := by
  obtain ⟨t, e, hcopy, hfile, hne, hnone⟩ := parent_step f c [d] h (hd.2 c List.mem_cons_self)
  have hdn := hd.2 d (by simp)
  have hcn := hd.2 c (by simp)
  obtain ⟨-, h2⟩ := h
  obtain ⟨x, hx⟩ : ∃ x, c[0]? = some x := by
    cases hcx : c[0]? with
    | none => exact absurd hcx hnone
    | some x => exact ⟨x, rfl⟩
  have hxne : x ≠ '/' := by intro e'; rw [hx, e'] at hne; exact hne rfl
  have hdl : 0 < d.length := List.length_pos_iff.2 hdn.1
  have hb : body [d] = '/' :: d := rfl
  have hbl : (body [d]).length = d.length + 1 := by rw [hb, List.length_cons]
  have hscan : backScan f.mem (f.file - 2) = some 0 := by
    have hf2 : f.file - 2 = 0 + d.length := by omega
    rw [hf2]
    have hm : f.mem = '/' :: (d ++ ('/' :: c ++ nul :: t)) := by rw [e, hb]; simp
    apply backScan_at
    · rw [hm]; rfl
    · intro j hj1 hj2
      obtain ⟨i, rfl⟩ : ∃ i, j = i + 1 := ⟨j - 1, by omega⟩
      rw [hm, List.getD_eq_getElem?_getD, List.getElem?_cons_succ, List.getElem?_append_left (by omega),
        List.getElem?_eq_getElem (by omega), Option.getD_some]
      intro e'
      exact hdn.2.1 (by rw [← e']; exact List.getElem_mem _)
  have hset : (body [d] ++ '/' :: c ++ [nul]).set (f.file - 1) nul = ('/' :: d) ++ nul :: (c ++ [nul]) := by
    rw [h2, Nat.add_sub_cancel, List.append_assoc, List.set_append_right _ _ (le_refl _), hb]
    simp
  have hnd : nul ∉ '/' :: d := by
    rw [List.mem_cons]
    rintro (h | h)
    · exact absurd h (by decide)
    · exact hdn.2.2.1 h
  have hg : getParent f = some ⟨('/' :: d) ++ nul :: (c ++ [nul]), f.file, f.file - 1⟩ := by
    unfold getParent
    rw [hcopy]
    simp only
    rw [hfile, hx]
    simp only [hxne, if_false]
    rw [if_neg (by omega), if_neg (by omega), hscan]
    simp only [ne_eq, not_true_eq_false, if_false]
    rw [hset]
  refine ⟨_, hg, ?_, ?_, ?_⟩
  · unfold Obj.absolute
    exact cstr_append _ _ hnd
  · unfold Obj.filename
    simp only
    rw [h2, hbl, show ('/' :: d) ++ nul :: (c ++ [nul]) = (('/' :: d) ++ [nul]) ++ (c ++ nul :: []) by simp,
      List.drop_left' (by simp)]
    exact cstr_append _ _ hcn.2.2.1
  · unfold getParent copy
    simp only
    rw [cstr_append _ _ hnd]
    simp only [Option.map_some]
    rw [List.getElem?_eq_none (by simp; omega)]

example : ∃ f, mkObj "/home/user/scene.cfg".toList = some f ∧ Denotes f "scene.cfg".toList ["user".toList, "home".toList] :=
  mkObj_denotes "scene.cfg".toList ["user".toList, "home".toList] (by decide +kernel)

/-! ### C75: names and extensions -/

/-- **C75**: the extension is the part after the last dot of the name, unless the dot comes first or is missing. -/
theorem C75_extension (c : List Char) (st : List (List Char)) (hd : IsDir (c :: st)) :
    ∃ f, mkObj (body (c :: st)) = some f ∧ f.filename = some c ∧
      (∀ a b, c = a ++ '.' :: b → '.' ∉ b → a ≠ [] → f.extension = some b) ∧
      (∀ b, c = '.' :: b → '.' ∉ b → f.extension = some []) ∧ ('.' ∉ c → f.extension = some []) := by
  obtain ⟨f, e, hden⟩ := mkObj_denotes c st hd
  have hcn := hd.2 c List.mem_cons_self
  refine ⟨f, e, denotes_filename f c st hden hcn.2.2.1, ?_⟩
  have hlen : 0 < c.length := List.length_pos_iff.2 hcn.1
  unfold mkObj at e
  rw [body, rfind_append _ _ _ hcn.2.1] at e
  simp only at e
  rw [if_pos (by simp; omega)] at e
  have hdrop : (body st ++ '/' :: c).drop ((body st).length + 1) = c := by
    rw [show body st ++ '/' :: c = (body st ++ ['/']) ++ c by simp, List.drop_left' (by simp)]
  rw [hdrop] at e
  injection e with e
  have hend : cstr ((body st ++ '/' :: c ++ [nul]).drop (body st ++ '/' :: c).length) = some [] := by
    rw [List.drop_left' rfl]; rfl
  refine ⟨?_, ?_, ?_⟩
  · intro a b hab hb ha
    have hal : 0 < a.length := List.length_pos_iff.2 ha
    have hr : rfind '.' c = some a.length := by rw [hab]; exact rfind_append _ _ _ hb
    rw [hr] at e
    simp only at e
    rw [if_neg (by omega)] at e
    rw [← e]
    unfold Obj.extension
    simp only
    rw [hab, show body st ++ '/' :: (a ++ '.' :: b) ++ [nul] = (body st ++ '/' :: (a ++ ['.'])) ++ (b ++ nul :: []) by simp,
      List.drop_left' (by simp; omega)]
    apply cstr_append
    intro hm
    exact hcn.2.2.1 (by rw [hab]; simp [hm])
  · intro b hab hb
    have hr : rfind '.' c = some 0 := by
      have := rfind_append '.' [] b hb
      rw [hab]; exact this
    rw [hr] at e
    simp only [if_true] at e
    rw [← e]
    exact hend
  · intro hno
    have hr : rfind '.' c = none := by
      clear e hdrop hend hden hlen hd hcn
      induction c with
      | nil => rfl
      | cons x c ih =>
        rw [rfind, ih (fun hm => hno (List.mem_cons_of_mem _ hm)), if_neg]
        intro e'
        exact hno (by rw [e']; exact List.mem_cons_self)
    rw [hr] at e
    simp only at e
    rw [← e]
    exact hend

example : ∃ f, mkObj "/home/scene.tar.gz".toList = some f ∧ f.extension = some "gz".toList := by
  obtain ⟨f, e, -, h, -⟩ := C75_extension "scene.tar.gz".toList ["home".toList] (by decide +kernel)
  exact ⟨f, e, h "scene.tar".toList "gz".toList (by decide +kernel) (by decide +kernel) (by decide +kernel)⟩

/-! ### C50: included files -/

/-- Where a file mentioned in a scene description in directory `dir` is to be found. -/
def expected (dir p : List Char) : Option (List Char) := if isAbsolute p then ctorString [] p else append dir p

/-- **C50**, partial: the first child, and every child after only absolute ones, is found relative to the directory
of the scene.  The full statement is about all children and meshes; see `C50_violated`. -/
theorem C50_children_partial (dir : List Char) (ps : List (List Char)) (p : List Char)
    (h : ∀ q ∈ ps, isAbsolute q = true) (d : List Char) (qs : List (List Char))
    (hr : children dir (ps ++ [p]) = some (d, qs)) :
    qs.length = ps.length + 1 ∧ ∀ (i : Nat) (q : List Char), (ps ++ [p])[i]? = some q → qs[i]? = expected dir q := by
  induction ps generalizing d qs with
  | nil =>
    rw [List.nil_append, children] at hr
    cases hc : child dir p with
    | none => rw [hc] at hr; cases hr
    | some r =>
      obtain ⟨d', q⟩ := r
      rw [hc] at hr
      simp only [children] at hr
      injection hr with hr
      simp only [Prod.mk.injEq] at hr
      obtain ⟨-, rfl⟩ := hr
      refine ⟨rfl, ?_⟩
      intro i q' hq
      match i with
      | 0 =>
        simp only [List.nil_append, List.getElem?_cons_zero, Option.some.injEq] at hq ⊢
        subst hq
        unfold expected
        unfold child at hc
        split at hc
        · rename_i ha
          rw [if_pos ha]
          cases hs : ctorString [] p with
          | none => rw [hs] at hc; cases hc
          | some s => rw [hs] at hc; simp only [Option.map_some, Option.some.injEq, Prod.mk.injEq] at hc; rw [hc.2]
        · rename_i ha
          rw [if_neg ha]
          cases hs : append dir p with
          | none => rw [hs] at hc; cases hc
          | some s => rw [hs] at hc; simp only [Option.map_some, Option.some.injEq, Prod.mk.injEq] at hc; rw [hc.2]
      | i + 1 => simp at hq
  | cons a ps ih =>
    have ha := h a List.mem_cons_self
    rw [List.cons_append, children] at hr
    unfold child at hr
    rw [if_pos ha] at hr
    cases hs : ctorString [] a with
    | none => rw [hs] at hr; cases hr
    | some s =>
      rw [hs] at hr
      simp only [Option.map_some] at hr
      cases hc : children dir (ps ++ [p]) with
      | none => rw [hc] at hr; cases hr
      | some r =>
        obtain ⟨d', qs'⟩ := r
        rw [hc] at hr
        injection hr with hr
        simp only [Prod.mk.injEq] at hr
        obtain ⟨-, rfl⟩ := hr
        obtain ⟨h1, h2⟩ := ih (fun q hq => h q (List.mem_cons_of_mem _ hq)) d' qs' hc
        refine ⟨by simp [h1], ?_⟩
        intro i q hq
        match i with
        | 0 =>
          simp only [List.cons_append, List.getElem?_cons_zero, Option.some.injEq] at hq ⊢
          subst hq
          unfold expected
          rw [if_pos ha, hs]
        | i + 1 =>
          simp only [List.cons_append, List.getElem?_cons_succ] at hq ⊢
          exact h2 i q hq

/-- A single name appended to a directory. -/
theorem append_name (st : List (List Char)) (hst : IsDir st) (c : List Char) (hc : IsName c) :
    append (render st) c = some (render (c :: st)) := by
  have hmap : c.map toSlash = c := by
    have : ∀ x ∈ c, toSlash x = x := by
      intro x hx
      unfold toSlash
      rw [if_neg]
      intro e
      exact hc.2.2.2.1 (by rw [← e]; exact hx)
    rw [List.map_congr_left this, List.map_id']
  have hsplit : split c = [c] := by
    obtain ⟨h, t, e, hs, h1, h2⟩ := split_joined c
    cases t with
    | nil => rw [joined_nil, List.append_nil] at hs; rw [e, ← hs]
    | cons d ds =>
      exfalso
      apply hc.2.1
      rw [hs, joined_cons]
      simp
  have hres : resolve st [c] = c :: st := by
    rw [resolve, if_neg (by simp [hc.1, hc.2.2.2.2.1]), if_neg hc.2.2.2.2.2]
    rfl
  have := C48_append_partial st hst c hc.2.2.1 ⟨hc.2.2.2.2.1, hc.2.2.2.2.2⟩ (by
    rw [hmap, hsplit, List.head?_cons, if_neg (by simpa using hc.2.2.2.2.2), PopsLong,
      if_neg (by simp [hc.1, hc.2.2.2.2.1]), if_neg hc.2.2.2.2.2]
    trivial) (by rw [hmap, hsplit, hres]; simp)
  rw [this, hmap, hsplit, hres]

/-- **C50 is violated** by every scene with two included files in its own directory: the second one is looked for
inside of the first one.  Meshes are affected from one included file on. -/
theorem C50_violated (st : List (List Char)) (hst : IsDir st) (a b m : List Char) (ha : IsName a) (hb : IsName b)
    (hm : IsName m) :
    children (render st) [a, b] = some (render (b :: a :: st), [render (a :: st), render (b :: a :: st)]) ∧
    expected (render st) b = some (render (b :: st)) ∧
    (∃ d, children (render st) [a] = some (d, [render (a :: st)]) ∧ objPath d m = some (render (m :: a :: st))) ∧
    expected (render st) m = some (render (m :: st)) := by
  have hna : ∀ c, IsName c → isAbsolute c = false := by
    intro c hc
    have hl : 0 < c.length := List.length_pos_iff.2 hc.1
    unfold isAbsolute
    rw [decide_eq_false_iff_not]
    intro e
    exact hc.2.1 (by rw [← e]; exact peek_mem hl)
  have hst2 : IsDir (a :: st) := ⟨by simp, by
    intro c hc
    rw [List.mem_cons] at hc
    rcases hc with rfl | hc
    · exact ha
    · exact hst.2 c hc⟩
  have e1 := append_name st hst a ha
  have e2 := append_name (a :: st) hst2 b hb
  have e3 := append_name (a :: st) hst2 m hm
  have e4 := append_name st hst b hb
  have e5 := append_name st hst m hm
  refine ⟨?_, ?_, ⟨render (a :: st), ?_, ?_⟩, ?_⟩
  · have k1 : child (render st) a = some (render (a :: st), render (a :: st)) := by
      unfold child; rw [hna a ha, e1]; rfl
    have k2 : child (render (a :: st)) b = some (render (b :: a :: st), render (b :: a :: st)) := by
      unfold child; rw [hna b hb, e2]; rfl
    simp only [children, k1, k2]
  · unfold expected; rw [hna b hb]; simpa using e4
  · simp only [children, child, hna a ha, e1, Option.map_some]
    rfl
  · unfold objPath; rw [hna m hm]; simpa using e3
  · unfold expected; rw [hna m hm]; simpa using e5

/-- **C50**, partial: meshes and textures do not disturb each other. -/
theorem C50_objects_partial (dir p : List Char) : objPath dir p = expected dir p := rfl

example : IsDir ["scenes".toList, "home".toList] ∧ IsName "lights.cfg".toList ∧ IsName "room.cfg".toList := by
  unfold IsDir IsName; decide +kernel

end Spectre.Path
