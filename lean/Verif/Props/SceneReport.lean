import Verif.Props.SceneFirstError
import Verif.Props.SceneText

/-!
# The report of an error points at the wrong token (C129)

The text is `before ++ u ++ after`, where `u` is the token or character that is reported.  Its line number, its column
and the line it stands on are determined from the text alone.
-/

namespace Spectre.Scene

/-! ## Specification -/

/-- The number of the line after some text, counted from 1. -/
def lineNo (before : List Byte) : Nat := 1 + before.count 10

/-- The part of the last line of the text. -/
def lastLine (before : List Byte) : List Byte := (before.reverse.takeWhile fun b => decide (b ≠ 10)).reverse

/-- The first line of the text, without its end. -/
def firstLine (after : List Byte) : List Byte := after.takeWhile fun b => decide (b ≠ 10 ∧ b ≠ 13 ∧ b ≠ 0)

/-- How a line is shown: cut off, with three dots, if it has more than 127 bytes. -/
def showLine (s : List Byte) : List Byte := if s.length < 128 then s else s.take 124 ++ [46, 46, 46]

/-- A match that leaves the counting in order: not the keyword `bump`, no byte 0, and no end of line inside. -/
def Quiet (x : Nat × List Byte) : Prop := x.1 ≠ 61 ∧ (0 : Byte) ∉ x.2 ∧ (x.1 ≠ 111 → (10 : Byte) ∉ x.2)

/-- Does the match give a token? -/
def isTok (x : Nat × List Byte) : Bool :=
  match lexRules[x.1 - 1]? with
  | some (_, .tok _) => true
  | _ => false

/-- Is it an unknown character? -/
def isUnknown (x : Nat × List Byte) : Bool :=
  match lexRules[x.1 - 1]? with
  | some (_, .unknown) => true
  | _ => false

/-! ## Positions -/

theorem lineNo_append (s t : List Byte) (h : (10 : Byte) ∉ t) : lineNo (s ++ t) = lineNo s := by
  rw [lineNo, lineNo, List.count_append, List.count_eq_zero.2 h, Nat.add_zero]

theorem lastLine_append (s t : List Byte) (h : (10 : Byte) ∉ t) : lastLine (s ++ t) = lastLine s ++ t := by
  unfold lastLine
  rw [List.reverse_append, List.takeWhile_append_of_pos, List.reverse_append, List.reverse_reverse]
  intro b hb
  have : b ≠ 10 := fun hh => h (hh ▸ List.mem_reverse.1 hb)
  simpa using this

theorem lineNo_newline (s : List Byte) : lineNo (s ++ [10]) = lineNo s + 1 := by
  rw [lineNo, lineNo, List.count_append]
  simp
  omega

theorem lastLine_newline (s : List Byte) : lastLine (s ++ [10]) = [] := by
  simp [lastLine]

theorem lastLine_suffix (s : List Byte) : ∃ t, s = t ++ lastLine s := by
  refine ⟨(s.reverse.dropWhile fun b => decide (b ≠ 10)).reverse, ?_⟩
  rw [lastLine, ← List.reverse_append, List.takeWhile_append_dropWhile, List.reverse_reverse]

theorem strlen_eq {u : List Byte} (h : (0 : Byte) ∉ u) : strlen u = u.length := by
  have := List.takeWhile_append_of_pos (p := fun b : Byte => decide (b.val ≠ 0)) (l₁ := u) (l₂ := []) (by
    intro b hb
    have h1 : b ≠ 0 := fun hh => h (hh ▸ hb)
    have : b.val ≠ 0 := fun hh => h1 (Fin.ext hh)
    simpa using this)
  rw [strlen]
  rw [List.append_nil, List.takeWhile_nil, List.append_nil] at this
  rw [this]

theorem cursorAt_cons (c : Cursor) (n : Nat) (u : List Byte) (l : List (Nat × List Byte)) (i : Nat) :
    cursorAt c ((n, u) :: l) i =
      match lexRules[n - 1]? with
      | none => c
      | some (_, .skip) =>
        if n = 61 then cursorAt (c.columns u) l i else cursorAt ((c.columns u).update u).step l i
      | some (_, .newline) => cursorAt ((c.columns u).newline u) l i
      | some (_, .unknown) => (c.columns u).update u
      | some (_, .tok _) =>
        match i with
        | 0 => (c.columns u).update u
        | i + 1 => cursorAt ((c.columns u).update u).step l i := by
  cases i <;> rfl

/-- The state of the scanner after the text `before`. -/
def Cursor.after (before : List Byte) : Cursor :=
  { first := ⟨lineNo before, (lastLine before).length + 1⟩, last := ⟨lineNo before, (lastLine before).length + 1⟩,
    pos := before.length, line := before.length - (lastLine before).length }

/-- The state of the scanner when it has matched `u` after the text `before`. -/
def Cursor.on (before u : List Byte) : Cursor :=
  { first := ⟨lineNo before, (lastLine before).length + 1⟩,
    last := ⟨lineNo before, (lastLine before).length + u.length + 1⟩,
    pos := before.length + u.length, line := before.length - (lastLine before).length }

theorem cursor_read (before u : List Byte) (h : (0 : Byte) ∉ u) :
    ((Cursor.after before).columns u).update u = Cursor.on before u := by
  simp only [Cursor.after, Cursor.on, Cursor.columns, Cursor.update, strlen_eq h, Cursor.mk.injEq, Mark.mk.injEq,
    true_and, and_true]
  omega

theorem cursor_next (before u : List Byte) (h : (0 : Byte) ∉ u) (h' : (10 : Byte) ∉ u) :
    (((Cursor.after before).columns u).update u).step = Cursor.after (before ++ u) := by
  rw [cursor_read _ _ h]
  simp only [Cursor.after, Cursor.on, Cursor.step, lineNo_append _ _ h', lastLine_append _ _ h', List.length_append,
    Cursor.mk.injEq, true_and]
  omega

theorem cursor_newline (before : List Byte) :
    ((Cursor.after before).columns [10]).newline [10] = Cursor.after (before ++ [10]) := by
  have : strlen [10] = 1 := by decide
  simp only [Cursor.after, Cursor.columns, Cursor.newline, Cursor.update, Cursor.step, lineNo_newline, lastLine_newline,
    List.length_append, List.length_nil, List.length_singleton, this, Nat.sub_zero]

theorem newline_rule : ∀ m < 112, ∀ r, lexRules[m]? = some r → r.2 = .newline → m = 110 ∧ r.1 = RE.oneOf ['\n'] := by
  decide +kernel

theorem newline_only : ∀ r, lexRules[110]? = some r → r.2 = .newline := by
  intro r h
  have : lexRules[110]? = some (RE.oneOf ['\n'], .newline) := by decide +kernel
  rw [this] at h
  cases h
  rfl

theorem newline_text {u : List Byte} (h : Matches (RE.oneOf ['\n']) u) : u = [10] := by
  rw [RE.oneOf, matches_cls] at h
  obtain ⟨b, rfl, hb⟩ := h
  have : ∀ b : Byte, (RE.maskOf ['\n']).testBit b.val = true → b = 10 := by decide +kernel
  rw [this b hb]

theorem tokenises_matches {text : List Byte} {l : List (Nat × List Byte)} (h : Tokenises text l) :
    ∀ x ∈ l, RuleMatches x.1 x.2 := by
  induction h with
  | nil => simp
  | cons h _ ih => exact List.forall_mem_cons.2 ⟨h.matched, ih⟩

theorem cursor_pre : ∀ (pre : List (Nat × List Byte)) (before : List Byte) (rest : List (Nat × List Byte)) (i : Nat),
    (∀ x ∈ pre, RuleMatches x.1 x.2) → (∀ x ∈ pre, Quiet x) → (∀ x ∈ pre, isUnknown x = false) →
    cursorAt (Cursor.after before) (pre ++ rest) (pre.countP isTok + i) =
      cursorAt (Cursor.after (before ++ (pre.map (·.2)).flatten)) rest i
  | [], before, rest, i, _, _, _ => by simp
  | (n, u) :: pre, before, rest, i, hm, hq, hu => by
      obtain ⟨m, r, rfl, hr, hmatch⟩ := (List.forall_mem_cons.1 hm).1
      obtain ⟨h61, h0, h10⟩ := (List.forall_mem_cons.1 hq).1
      have hu' := (List.forall_mem_cons.1 hu).1
      have ih := cursor_pre pre (before ++ u) rest i (List.forall_mem_cons.1 hm).2 (List.forall_mem_cons.1 hq).2
        (List.forall_mem_cons.1 hu).2
      have hm112 : m < 112 := by
        rw [← rule_count]
        by_contra hh
        rw [List.getElem?_eq_none (by omega)] at hr
        cases hr
      simp only at h0 h10 hmatch h61
      have e : before ++ (((m + 1, u) :: pre).map (·.2)).flatten = (before ++ u) ++ (pre.map (·.2)).flatten := by simp
      rw [e, ← ih, List.cons_append, cursorAt_cons, Nat.add_sub_cancel, hr]
      obtain ⟨re, a⟩ := r
      have htok : isTok (m + 1, u) = (match (generalizing := false) a with | .tok _ => true | _ => false) := by
        simp only [isTok, Nat.add_sub_cancel, hr]
        cases a <;> rfl
      have hunk : isUnknown (m + 1, u) = (match (generalizing := false) a with | .unknown => true | _ => false) := by
        simp only [isUnknown, Nat.add_sub_cancel, hr]
        cases a <;> rfl
      rw [List.countP_cons, htok]
      have hnl : a ≠ .newline → (10 : Byte) ∉ u := by
        intro ha
        refine h10 fun h => ha ?_
        have : m = 110 := by omega
        subst this
        exact newline_only _ hr
      cases a with
      | skip =>
        simp only [if_neg h61]
        rw [cursor_next _ _ h0 (hnl (by simp))]
        simp
      | newline =>
        obtain ⟨-, rfl⟩ := newline_rule m hm112 _ hr rfl
        obtain rfl := newline_text hmatch
        simp only
        rw [cursor_newline]
        simp
      | unknown => rw [hunk] at hu'; simp at hu'
      | tok t =>
        simp only [if_true]
        rw [show List.countP isTok pre + 1 + i = (List.countP isTok pre + i) + 1 by omega]
        simp only
        rw [cursor_next _ _ h0 (hnl (by simp))]

/-- C129: The position of a reported token or character is counted right, if the text before contains no `bump`, no byte
0, and no string over several lines. -/
theorem C129_position_partial {text : List Byte} {l pre post : List (Nat × List Byte)} {x : Nat × List Byte}
    (h : Tokenises text l) (hl : l = pre ++ x :: post) (hx : isTok x = true ∨ isUnknown x = true)
    (hpre : ∀ y ∈ pre, Quiet y ∧ isUnknown y = false) (h0 : (0 : Byte) ∉ x.2) :
    cursorAt (Cursor.start {}) l (pre.countP isTok) = Cursor.on (pre.map (·.2)).flatten x.2 := by
  have hm := tokenises_matches h
  subst hl
  have := cursor_pre pre [] (x :: post) 0 (fun y hy => hm y (List.mem_append_left _ hy)) (fun y hy => (hpre y hy).1)
    (fun y hy => (hpre y hy).2)
  rw [Nat.add_zero, List.nil_append] at this
  refine Eq.trans this ?_
  obtain ⟨n, u⟩ := x
  rw [cursorAt_cons]
  simp only [isTok, isUnknown] at hx
  cases hr : lexRules[n - 1]? with
  | none => rw [hr] at hx; simp at hx
  | some r =>
    obtain ⟨re, a⟩ := r
    rw [hr] at hx
    cases a with
    | skip => simp at hx
    | newline => simp at hx
    | unknown => exact cursor_read _ _ h0
    | tok t => exact cursor_read _ _ h0

theorem cursor_end {text : List Byte} {l : List (Nat × List Byte)} (h : Tokenises text l)
    (hl : ∀ y ∈ l, Quiet y ∧ isUnknown y = false) :
    cursorAt (Cursor.start {}) l (l.countP isTok) = Cursor.after text := by
  have := cursor_pre l [] [] 0 (tokenises_matches h) (fun y hy => (hl y hy).1) (fun y hy => (hl y hy).2)
  rw [List.append_nil, Nat.add_zero, List.nil_append, C120_whole h] at this
  refine Eq.trans this ?_
  rw [cursorAt]

/-! ## The line that is shown -/

/-- A byte that ends the line that is shown. -/
def isEnd (b : Byte) : Prop := b = 10 ∨ b = 13 ∨ b = 0

instance (b : Byte) : Decidable (isEnd b) := inferInstanceAs (Decidable (_ ∨ _))

theorem firstLine_append {A : List Byte} (h : ∀ b ∈ A, ¬ isEnd b) (w : List Byte) :
    firstLine (A ++ w) = A ++ firstLine w := by
  unfold firstLine
  rw [List.takeWhile_append_of_pos]
  intro b hb
  have := h b hb
  simp only [isEnd, not_or] at this
  simpa using this

theorem firstLine_split (w : List Byte) : (∀ b ∈ firstLine w, ¬ isEnd b) ∧
    (w = firstLine w ∨ ∃ b w', isEnd b ∧ w = firstLine w ++ b :: w') := by
  induction w with
  | nil => exact ⟨by simp [firstLine], .inl rfl⟩
  | cons a w ih =>
    by_cases h : isEnd a
    · have : firstLine (a :: w) = [] := by
        unfold firstLine
        rw [List.takeWhile_cons_of_neg]
        simp only [isEnd] at h
        simp only [decide_eq_true_eq]
        tauto
      rw [this]
      exact ⟨by simp, .inr ⟨a, w, h, rfl⟩⟩
    · have : firstLine (a :: w) = a :: firstLine w := firstLine_append (A := [a]) (by simpa using h) w
      rw [this]
      refine ⟨List.forall_mem_cons.2 ⟨h, ih.1⟩, ?_⟩
      rcases ih.2 with h2 | ⟨b, w', hb, h2⟩
      · exact .inl (by rw [← h2])
      · exact .inr ⟨b, w', hb, by rw [List.cons_append, ← h2]⟩

theorem cut_run : ∀ (A : List Byte) (pre tail : Buffer) (fuel : Nat), (∀ b ∈ A, ¬ isEnd b) →
    cutLine (A.length + fuel) pre.length (pre ++ A.map some ++ tail) =
      cutLine fuel (pre.length + A.length) (pre ++ A.map some ++ tail)
  | [], pre, tail, fuel, _ => by simp
  | a :: A, pre, tail, fuel, h => by
    have ih := cut_run A (pre ++ [some a]) tail fuel (List.forall_mem_cons.1 h).2
    have e : pre ++ [some a] ++ A.map some ++ tail = pre ++ (a :: A).map some ++ tail := by simp
    have ha := (List.forall_mem_cons.1 h).1
    rw [e, List.length_append, List.length_singleton] at ih
    rw [List.length_cons, show A.length + 1 + fuel = (A.length + fuel) + 1 by omega, cutLine]
    have : (pre ++ (a :: A).map some ++ tail)[pre.length]? = some (some a) := by
      rw [List.append_assoc, List.getElem?_append_right (Nat.le_refl _), Nat.sub_self]
      rfl
    rw [this]
    simp only
    rw [if_neg (show ¬ (a = 10 ∨ a = 13 ∨ a = 0) from ha), ih]
    congr 1
    omega

/-- The buffer before dots are put at its beginning. -/
def lineBuffer (text : List Byte) (start : Nat) : Option Buffer :=
  match cutLine 129 0 (readBuffer text start) with
  | none => none
  | some (i, buf) => some (if i = 128 then (dots buf 124).set 127 (some 0) else buf)

theorem getLine_eq (text : List Byte) (c : Cursor) : getLine text c =
    (let tooLong : Bool := (c.pos : Int) - c.line ≥ 124
     let start : Int := if tooLong then (c.pos : Int) - 64 else c.line
     let offset : Int := if tooLong then start - c.line else 0
     (offset, (lineBuffer text start.toNat).map fun buf => if offset ≠ 0 then dots buf 0 else buf)) := by
  unfold getLine lineBuffer
  simp only
  generalize (if decide ((c.pos : Int) - c.line ≥ 124) = true then (c.pos : Int) - 64 else c.line) = start
  cases cutLine 129 0 (readBuffer text start.toNat) with
  | none => rfl
  | some x => rfl

/-- The line has an end in the text, or is long. -/
def Ended (w : List Byte) : Prop := (firstLine w).length < w.length ∨ 128 ≤ w.length

theorem lineBuffer_spec {text w : List Byte} {start : Nat} (hw : text.drop start = w) (h : Ended w) :
    ∃ tail, lineBuffer text start = some ((showLine (firstLine w)).map some ++ some 0 :: tail) := by
  obtain ⟨h1, h2⟩ := firstLine_split w
  unfold lineBuffer readBuffer
  rw [hw]
  dsimp only
  generalize hA : firstLine w = A at h1 h2
  by_cases hlen : A.length < 128
  · rcases h2 with h2 | ⟨b, w', hb, h2⟩
    · exfalso
      rcases h with h | h
      · rw [hA, ← h2] at h; omega
      · rw [h2] at h; omega
    · subst h2
      obtain ⟨tail, ht⟩ : ∃ tail, ((A ++ b :: w').take 128).map some ++
          List.replicate (128 - ((A ++ b :: w').take 128).length) none = ([] : Buffer) ++ A.map some ++ (some b :: tail) := by
        obtain ⟨k, hk⟩ : ∃ k, 128 = A.length + (k + 1) := ⟨127 - A.length, by omega⟩
        refine ⟨(w'.take k).map some ++ List.replicate (128 - ((A ++ b :: w').take 128).length) none, ?_⟩
        have : (A ++ b :: w').take 128 = A ++ b :: w'.take k := by
          rw [hk, List.take_length_add_append, List.take_succ_cons]
        rw [this]
        simp
      rw [ht]
      have := cut_run A [] (some b :: tail) (129 - A.length) h1
      rw [show A.length + (129 - A.length) = 129 by omega, List.length_nil, Nat.zero_add] at this
      rw [this, show 129 - A.length = (128 - A.length) + 1 by omega, cutLine, List.nil_append]
      have hget : (A.map some ++ some b :: tail)[A.length]? = some (some b) := by
        rw [List.getElem?_append_right (by simp)]
        simp
      rw [hget]
      simp only
      rw [if_pos (show b = 10 ∨ b = 13 ∨ b = 0 from hb)]
      simp only
      rw [if_neg (by omega)]
      refine ⟨tail, ?_⟩
      rw [showLine, if_pos hlen, List.set_append_right _ _ (by simp)]
      simp
  · have hwA : ∃ w', w = A ++ w' := by
      rcases h2 with h2 | ⟨b, w', -, h2⟩
      · exact ⟨[], by rw [List.append_nil]; exact h2⟩
      · exact ⟨_, h2⟩
    obtain ⟨w', rfl⟩ := hwA
    have ht : (A ++ w').take 128 = A.take 128 := by
      rw [List.take_append_of_le_length (by omega)]
    have hl : (A.take 128).length = 128 := by rw [List.length_take]; omega
    rw [ht, hl]
    have := cut_run (A.take 128) [] [] 1 (fun b hb => h1 b (List.mem_of_mem_take hb))
    rw [hl, List.length_nil, List.nil_append, List.append_nil] at this
    simp only [Nat.sub_self, List.replicate_zero, List.append_nil]
    rw [this, cutLine]
    have : ((A.take 128).map some)[0 + 128]? = none := by
      rw [List.getElem?_eq_none]
      rw [List.length_map, hl]
    rw [this]
    simp only [if_true, Nat.zero_add]
    refine ⟨[], ?_⟩
    rw [showLine, if_neg hlen]
    have e : A.take 128 = A.take 124 ++ (A.drop 124).take 4 := by
      rw [show (128 : Nat) = 124 + 4 from rfl, List.take_add]
    have e2 : ∃ a b c d, (A.drop 124).take 4 = [a, b, c, d] := by
      have : ((A.drop 124).take 4).length = 4 := by rw [List.length_take, List.length_drop]; omega
      match h : (A.drop 124).take 4, this with
      | [a, b, c, d], _ => exact ⟨a, b, c, d, rfl⟩
    obtain ⟨a, b, c, d, e2⟩ := e2
    rw [e, e2, List.map_append, List.map_append]
    have l124 : ((A.take 124).map some).length = 124 := by rw [List.length_map, List.length_take]; omega
    generalize (A.take 124).map some = B at l124
    unfold dots
    simp only [List.set_append_right _ _ (show B.length ≤ 124 by omega), List.set_append_right _ _ (show B.length ≤ 125 by omega),
      List.set_append_right _ _ (show B.length ≤ 126 by omega), List.set_append_right _ _ (show B.length ≤ 127 by omega), l124,
      show 124 + 1 = 125 from rfl, show 124 + 2 = 126 from rfl]
    simp

theorem cString_spec : ∀ {s : List Byte} (tail : Buffer), (0 : Byte) ∉ s →
    cString (s.map some ++ some 0 :: tail) = some s
  | [], tail, _ => by simp [cString]
  | a :: s, tail, h => by
    have h1 : a ≠ 0 := fun hh => h (hh ▸ List.mem_cons_self)
    have h2 : (0 : Byte) ∉ s := fun hh => h (List.mem_cons_of_mem _ hh)
    rw [List.map_cons, List.cons_append, cString, if_neg h1, cString_spec tail h2]
    rfl

theorem showLine_zero {s : List Byte} (h : ∀ b ∈ s, ¬ isEnd b) : (0 : Byte) ∉ showLine s := by
  unfold showLine
  split
  · exact fun hh => h _ hh (.inr (.inr rfl))
  · intro hh
    rcases List.mem_append.1 hh with hh | hh
    · exact h _ (List.mem_of_mem_take hh) (.inr (.inr rfl))
    · revert hh; decide

theorem showLine_length (s : List Byte) (n : Nat) (h : n ≤ s.length) (hn : n ≤ 127) : n ≤ (showLine s).length := by
  unfold showLine
  split
  · exact h
  · simp only [List.length_append, List.length_take, List.length_cons, List.length_nil]
    omega

theorem dots_spec {s : List Byte} (tail : Buffer) (h : 3 ≤ s.length) :
    dots (s.map some ++ tail) 0 = ([46, 46, 46] ++ s.drop 3).map some ++ tail := by
  match s, h with
  | a :: b :: c :: s, _ => rfl

theorem uint32_nonneg {z : Int} (h : 0 ≤ z) (h' : z < 4294967296) : uint32 z = z.toNat := by
  rw [uint32, Int.emod_eq_of_lt h h']

theorem uint32_neg {z : Int} (h : z < 0) (h' : -128 ≤ z) : 128 < uint32 z := by
  have : z % 4294967296 = z + 4294967296 := by omega
  rw [uint32, this]
  omega

/-- The report that a reader expects for `u` after `before` and in front of `after`.  The column is the one of the last
byte of the token; lines are shown from their beginning if the token ends in the first 123 columns, and otherwise from
64 bytes before the end of the token on. -/
def expected (before u after : List Byte) : Report :=
  let b := (lastLine before).length
  let e := b + u.length
  let line := lastLine before ++ u ++ firstLine after
  if 123 < u.length then .plain (lineNo before) e
  else if e < 124 then
    .shown (lineNo before) e (showLine line) (List.replicate b 32 ++ List.replicate u.length 126)
  else
    .shown (lineNo before) e ([46, 46, 46] ++ (showLine (line.drop (e - 64))).drop 3)
      (List.replicate (64 - u.length) 32 ++ List.replicate u.length 126)

theorem text_line (before : List Byte) : ∃ t, before = t ++ lastLine before ∧
    before.length - (lastLine before).length = t.length := by
  obtain ⟨t, ht⟩ := lastLine_suffix before
  refine ⟨t, ht, ?_⟩
  generalize lastLine before = L at ht
  subst ht
  rw [List.length_append]
  omega

theorem on_cond (before : List Byte) {u : List Byte} (hu : 0 < u.length) (h : u.length ≤ 123) :
    (Cursor.on before u).first.col < (Cursor.on before u).last.col ∧
      (Cursor.on before u).first.line = (Cursor.on before u).last.line ∧
      (Cursor.on before u).last.col - (Cursor.on before u).first.col ≤ 123 :=
  ⟨by simp only [Cursor.on]; omega, rfl, by simp only [Cursor.on]; omega⟩

theorem reportAt_shown {text : List Byte} {c : Cursor} {offset : Int} {buf : Buffer} {s v : List Byte}
    (hc : c.first.col < c.last.col ∧ c.first.line = c.last.line ∧ c.last.col - c.first.col ≤ 123)
    (hg : getLine text c = (offset, some buf)) (hs : cString buf = some s)
    (hv : underline (uint32 ((c.first.col : Int) - 1 - offset)) (uint32 (((c.last.col - 1 : Nat) : Int) - offset)) = some v) :
    reportAt text c = .shown c.last.line (c.last.col - 1) s v := by
  simp only [reportAt]
  rw [if_pos hc, hg]
  simp only
  rw [hs, hv]

theorem reportAt_ub {text : List Byte} {c : Cursor} {offset : Int}
    (hc : c.first.col < c.last.col ∧ c.first.line = c.last.line ∧ c.last.col - c.first.col ≤ 123)
    (hg : (getLine text c).1 = offset)
    (hv : underline (uint32 ((c.first.col : Int) - 1 - offset)) (uint32 (((c.last.col - 1 : Nat) : Int) - offset)) = none) :
    reportAt text c = .ub := by
  simp only [reportAt]
  rw [if_pos hc]
  rcases hgl : getLine text c with ⟨o, buf⟩
  rw [hgl] at hg
  subst hg
  cases buf with
  | none => rfl
  | some buf =>
    simp only
    rw [hv]
    cases cString buf <;> rfl

theorem getLine_near {text : List Byte} {c : Cursor} (h : c.pos < c.line + 124) :
    getLine text c = (0, lineBuffer text c.line) := by
  have h1 : ¬ (c.pos : Int) - c.line ≥ 124 := by omega
  rw [getLine_eq]
  simp only [h1, decide_false, if_false, Bool.false_eq_true, Int.toNat_natCast, ne_eq, not_true_eq_false]
  cases lineBuffer text c.line <;> rfl

theorem getLine_far {text : List Byte} {c : Cursor} (h : c.line + 124 ≤ c.pos) :
    getLine text c = ((c.pos : Int) - 64 - c.line, (lineBuffer text (c.pos - 64)).map fun buf => dots buf 0) := by
  have h1 : (c.pos : Int) - c.line ≥ 124 := by omega
  have h2 : ((c.pos : Int) - 64).toNat = c.pos - 64 := by omega
  have h4 : ¬ (c.pos : Int) - 64 - c.line = 0 := by omega
  rw [getLine_eq]
  simp only [h1, decide_true, if_true, h2, ne_eq, h4, not_false_eq_true]

theorem report_near (before u after : List Byte) (hu : u ≠ []) (h0 : ∀ b ∈ lastLine before ++ u, ¬ isEnd b)
    (he : (lastLine before).length + u.length < 124) (h : Ended (lastLine before ++ u ++ after)) :
    reportAt (before ++ u ++ after) (Cursor.on before u) = expected before u after := by
  obtain ⟨t, ht, hlen⟩ := text_line before
  have hpos := List.length_pos_iff.2 hu
  have hbl : before.length = t.length + (lastLine before).length := by
    rw [← List.length_append, ← ht]
  have hdrop : (before ++ u ++ after).drop (Cursor.on before u).line = lastLine before ++ u ++ after := by
    rw [show (Cursor.on before u).line = t.length from hlen]
    conv_lhs => rw [ht]
    rw [List.append_assoc, List.append_assoc, List.drop_left, List.append_assoc]
  obtain ⟨tail, hb⟩ := lineBuffer_spec hdrop h
  have hz := showLine_zero (firstLine_split (lastLine before ++ u ++ after)).1
  rw [firstLine_append h0] at hb hz
  have hg := getLine_near (text := before ++ u ++ after) (c := Cursor.on before u)
    (by simp only [Cursor.on]; omega)
  rw [hb] at hg
  rw [reportAt_shown (v := List.replicate (lastLine before).length 32 ++ List.replicate u.length 126)
    (on_cond before hpos (by omega)) hg (cString_spec tail hz)]
  · simp only [expected]
    rw [if_neg (by omega), if_pos he]
    rfl
  · simp only [Cursor.on]
    rw [uint32_nonneg (by omega) (by omega), uint32_nonneg (by omega) (by omega), underline, if_pos (by omega)]
    congr 1
    congr 2 <;> omega

theorem report_far (before u after : List Byte) (h0 : ∀ b ∈ lastLine before ++ u, ¬ isEnd b)
    (he : 124 ≤ (lastLine before).length + u.length) (h64 : u.length ≤ 64) (hu : u ≠ [])
    (h : Ended ((lastLine before ++ u ++ after).drop ((lastLine before).length + u.length - 64))) :
    reportAt (before ++ u ++ after) (Cursor.on before u) = expected before u after := by
  obtain ⟨t, ht, hlen⟩ := text_line before
  have hpos := List.length_pos_iff.2 hu
  have hbl : before.length = t.length + (lastLine before).length := by
    rw [← List.length_append, ← ht]
  have hdrop : (before ++ u ++ after).drop ((Cursor.on before u).pos - 64) =
      (lastLine before ++ u ++ after).drop ((lastLine before).length + u.length - 64) := by
    simp only [Cursor.on]
    rw [show before.length + u.length - 64 = t.length + ((lastLine before).length + u.length - 64) by omega,
      ← List.drop_drop]
    congr 1
    conv_lhs => rw [ht]
    rw [List.append_assoc, List.append_assoc, List.drop_left, List.append_assoc]
  obtain ⟨tail, hb⟩ := lineBuffer_spec hdrop h
  have hz := showLine_zero (firstLine_split
    ((lastLine before ++ u ++ after).drop ((lastLine before).length + u.length - 64))).1
  have hfl : firstLine ((lastLine before ++ u ++ after).drop ((lastLine before).length + u.length - 64)) =
      (lastLine before ++ u ++ firstLine after).drop ((lastLine before).length + u.length - 64) := by
    have hl : (lastLine before).length + u.length - 64 ≤ (lastLine before ++ u).length := by
      rw [List.length_append]; omega
    rw [List.drop_append_of_le_length hl, List.drop_append_of_le_length hl, firstLine_append]
    exact fun b hb => h0 b (List.mem_of_mem_drop hb)
  rw [hfl] at hb hz
  have h3 : 3 ≤ (showLine ((lastLine before ++ u ++ firstLine after).drop
      ((lastLine before).length + u.length - 64))).length := by
    refine showLine_length _ _ ?_ (by omega)
    rw [List.length_drop, List.length_append, List.length_append]
    omega
  have hg := getLine_far (text := before ++ u ++ after) (c := Cursor.on before u)
    (by simp only [Cursor.on]; omega)
  rw [hb, Option.map_some, dots_spec _ h3] at hg
  rw [reportAt_shown (v := List.replicate (64 - u.length) 32 ++ List.replicate u.length 126)
    (on_cond before hpos (by omega)) hg (cString_spec tail ?_)]
  · simp only [expected]
    rw [if_neg (by omega), if_neg (by omega)]
    rfl
  · simp only [Cursor.on]
    rw [uint32_nonneg (by omega) (by omega), uint32_nonneg (by omega) (by omega), underline, if_pos (by omega)]
    congr 1
    congr 2 <;> omega
  · intro hh
    rcases List.mem_append.1 hh with hh | hh
    · revert hh; decide
    · exact hz (List.mem_of_mem_drop hh)

theorem report_plain (before u after : List Byte) (h : 123 < u.length) :
    reportAt (before ++ u ++ after) (Cursor.on before u) = expected before u after := by
  simp only [reportAt, expected]
  rw [if_neg (by simp only [Cursor.on]; omega), if_pos h]
  rfl

/-- A token of more than 64 bytes that ends after column 123: the underline is written outside of its buffer. -/
theorem report_ub (before u after : List Byte)
    (he : 124 ≤ (lastLine before).length + u.length) (h64 : 64 < u.length) (h123 : u.length ≤ 123) :
    reportAt (before ++ u ++ after) (Cursor.on before u) = .ub := by
  obtain ⟨t, ht, hlen⟩ := text_line before
  have hbl : before.length = t.length + (lastLine before).length := by
    rw [← List.length_append, ← ht]
  refine reportAt_ub (on_cond before (by omega) (by omega)) rfl ?_
  rw [getLine_far (by simp only [Cursor.on]; omega)]
  simp only [Cursor.on]
  rw [underline, if_neg]
  have := uint32_neg (z := (((lastLine before).length + 1 : Nat) : Int) - 1 -
    (((before.length + u.length : Nat) : Int) - 64 - ((before.length - (lastLine before).length : Nat) : Int)))
    (by omega) (by omega)
  omega

/-! ## The error that is reported -/

/-- The token of a match, if it gives one. -/
def tokenOf (x : Nat × List Byte) : Option Tok :=
  match lexRules[x.1 - 1]? with
  | some (_, .tok t) => some t
  | _ => none

theorem tokenOf_isTok (x : Nat × List Byte) : isTok x = (tokenOf x).isSome := by
  unfold isTok tokenOf
  rcases lexRules[x.1 - 1]? with _ | ⟨re, a⟩
  · rfl
  · cases a <;> rfl

theorem kinds_cons (x : Nat × List Byte) (l : List (Nat × List Byte)) (h : isUnknown x = false) :
    kinds (x :: l) = (tokenOf x).toList ++ kinds l := by
  obtain ⟨n, u⟩ := x
  unfold isUnknown at h
  rw [kinds]
  unfold tokenOf
  simp only at h ⊢
  rcases hr : lexRules[n - 1]? with _ | ⟨re, a⟩ <;> rw [hr] at h
  · rfl
  · cases a with
    | unknown => simp at h
    | skip => rfl
    | newline => rfl
    | tok t => rfl

theorem kinds_pre : ∀ (pre l : List (Nat × List Byte)), (∀ y ∈ pre, isUnknown y = false) →
    kinds (pre ++ l) = pre.filterMap tokenOf ++ kinds l
  | [], l, _ => rfl
  | x :: pre, l, h => by
    rw [List.cons_append, kinds_cons _ _ (List.forall_mem_cons.1 h).1, kinds_pre pre l (List.forall_mem_cons.1 h).2]
    cases hx : tokenOf x with
    | none => rw [List.filterMap_cons_none hx]; rfl
    | some t => rw [List.filterMap_cons_some hx]; rfl

theorem kinds_unknown (x : Nat × List Byte) (l : List (Nat × List Byte)) (h : isUnknown x = true) :
    kinds (x :: l) = [] := by
  obtain ⟨n, u⟩ := x
  unfold isUnknown at h
  rw [kinds]
  simp only at h ⊢
  rcases hr : lexRules[n - 1]? with _ | ⟨re, a⟩ <;> rw [hr] at h
  · simp at h
  · cases a with
    | unknown => rfl
    | skip => simp at h
    | newline => simp at h
    | tok t => simp at h

theorem no_end : ∀ r ∈ lexRules, r.2 ≠ .tok .END := by decide +kernel

theorem tokenOf_end (x : Nat × List Byte) : tokenOf x ≠ some .END := by
  unfold tokenOf
  cases hr : lexRules[x.1 - 1]? with
  | none => simp
  | some r =>
    obtain ⟨re, a⟩ := r
    have := no_end _ (List.mem_of_getElem? hr)
    cases a with
    | tok t => simp only [ne_eq, Option.some.injEq]; intro h; exact this (by rw [h])
    | skip => simp
    | newline => simp
    | unknown => simp

theorem kinds_end : ∀ l : List (Nat × List Byte), ∃ p, Tok.END ∉ p ∧ (kinds l = p ∨ kinds l = p ++ [.END])
  | [] => ⟨[], by simp, .inr rfl⟩
  | x :: l => by
    obtain ⟨p, h1, h2⟩ := kinds_end l
    cases hx : isUnknown x with
    | true => exact ⟨[], by simp, .inl (kinds_unknown x l hx)⟩
    | false =>
      refine ⟨(tokenOf x).toList ++ p, ?_, ?_⟩
      · intro h
        rcases List.mem_append.1 h with h | h
        · exact tokenOf_end x (by simpa using h)
        · exact h1 h
      · rw [kinds_cons x l hx]
        rcases h2 with h2 | h2
        · exact .inl (by rw [h2])
        · exact .inr (by rw [h2, List.append_assoc])

theorem kinds_dropLast (l : List (Nat × List Byte)) : Tok.END ∉ (kinds l).dropLast := by
  obtain ⟨p, h1, h2 | h2⟩ := kinds_end l
  · rw [h2]; exact fun h => h1 ((List.dropLast_sublist p).subset h)
  · rw [h2, List.dropLast_concat]; exact h1

theorem filterMap_count : ∀ pre : List (Nat × List Byte), (pre.filterMap tokenOf).length = pre.countP isTok
  | [] => rfl
  | x :: pre => by
    rw [List.countP_cons, tokenOf_isTok, ← filterMap_count pre]
    cases hx : tokenOf x with
    | none => rw [List.filterMap_cons_none hx]; rfl
    | some t => rw [List.filterMap_cons_some hx]; rfl

/-- `x` is the first error after the matches `pre`: it is a token with which the tokens so far do not begin a file any
more, or a character that is unknown. -/
def FirstError (pre : List (Nat × List Byte)) (x : Nat × List Byte) : Prop :=
  Begins (pre.filterMap tokenOf) ∧
    ((∃ t, tokenOf x = some t ∧ ¬ Begins (pre.filterMap tokenOf ++ [t])) ∨ isUnknown x = true)

theorem stops_first {pre post : List (Nat × List Byte)} {x : Nat × List Byte} (h : FirstError pre x)
    (hpre : ∀ y ∈ pre, isUnknown y = false) :
    stopsAt (kinds (pre ++ x :: post)) = some (pre.countP isTok) := by
  obtain ⟨hb, h⟩ := h
  rw [C128_first _ (kinds_dropLast _), kinds_pre _ _ hpre, ← filterMap_count]
  have hend : Tok.END ∉ pre.filterMap tokenOf := by
    intro hh
    obtain ⟨y, -, hy⟩ := List.mem_filterMap.1 hh
    exact tokenOf_end y hy
  rcases h with ⟨t, ht, hn⟩ | h
  · have hu : isUnknown x = false := by
      obtain ⟨n, u⟩ := x
      unfold tokenOf at ht
      unfold isUnknown
      simp only at ht ⊢
      rcases hr : lexRules[n - 1]? with _ | ⟨re, a⟩
      · rfl
      · rw [hr] at ht
        cases a with
        | tok t => rfl
        | _ => simp at ht
    rw [kinds_cons _ _ hu, ht]
    refine ⟨by simp, ?_, ?_, ?_⟩
    · rw [List.take_left]; exact hb
    · intro hh
      rw [List.length_append] at hh
      simp at hh
    · intro _
      rw [List.take_length_add_append]
      simpa using hn
  · rw [kinds_unknown _ _ h, List.append_nil]
    refine ⟨Nat.le_refl _, ?_, fun _ => hend, fun hh => absurd hh (Nat.lt_irrefl _)⟩
    rw [List.take_length]; exact hb

theorem report_eq {m : Mark} {text : List Byte} {l : List (Nat × List Byte)} (h : Tokenises text l) {i : Nat}
    (hs : stopsAt (kinds l) = some i) : report m text = some (reportAt text (cursorAt (Cursor.start m) l i)) := by
  obtain ⟨l', h1, -, h3⟩ := C120_all text (Nat.lt_succ_self text.length)
  obtain rfl := h3 l h
  rw [report, h1]
  simp only
  rw [hs]
  rfl

/-- C129: The first error of a file is reported with its line, its column, the line of the file and the token
underlined (see `expected`), if
- the matches before it are not `bump` and do not contain a byte 0 or, except for ends of lines, an end of line;
- its line contains no carriage return before it;
- it is a token of at most 64 or more than 123 bytes, or it ends before column 124;
- the part of the line that is shown has an end, or at least 128 bytes follow in the file;
- the file is the first one that is read. -/
theorem C129_report_partial {text : List Byte} {pre post : List (Nat × List Byte)} {x : Nat × List Byte}
    (h : Tokenises text (pre ++ x :: post)) (hx : FirstError pre x)
    (hpre : ∀ y ∈ pre, Quiet y ∧ isUnknown y = false)
    (hline : ∀ b ∈ lastLine (pre.map (·.2)).flatten ++ x.2, ¬ isEnd b)
    (hlen : (lastLine (pre.map (·.2)).flatten).length + x.2.length < 124 ∨ x.2.length ≤ 64 ∨ 123 < x.2.length)
    (hend : Ended ((lastLine (pre.map (·.2)).flatten ++ x.2 ++ (post.map (·.2)).flatten).drop
      (if (lastLine (pre.map (·.2)).flatten).length + x.2.length < 124 then 0
       else (lastLine (pre.map (·.2)).flatten).length + x.2.length - 64))) :
    report {} text = some (expected (pre.map (·.2)).flatten x.2 (post.map (·.2)).flatten) := by
  have hx' : isTok x = true ∨ isUnknown x = true := by
    rcases hx.2 with ⟨t, ht, -⟩ | hx
    · left; rw [tokenOf_isTok, ht]; rfl
    · exact .inr hx
  have hne : x.2 ≠ [] := by
    have := tokenises_matches h x (by simp)
    intro hh
    rw [hh] at this
    obtain ⟨m, r, -, hr, hm⟩ := this
    have hn := matches_nil.1 hm
    have hall : ∀ r ∈ lexRules, nullable r.1 = false := by decide +kernel
    rw [hall r (List.mem_of_getElem? hr)] at hn
    cases hn
  rw [report_eq h (stops_first hx fun y hy => (hpre y hy).2),
    C129_position_partial h rfl hx' hpre (fun hh => hline 0 (List.mem_append_right _ hh) (.inr (.inr rfl)))]
  have ht := C120_whole h
  rw [List.map_append, List.flatten_append, List.map_cons, List.flatten_cons, ← List.append_assoc] at ht
  rw [← ht]
  congr 1
  by_cases hl : 123 < x.2.length
  · exact report_plain _ _ _ hl
  · by_cases he : (lastLine (pre.map (·.2)).flatten).length + x.2.length < 124
    · rw [if_pos he, List.drop_zero] at hend
      exact report_near _ _ _ hne hline he hend
    · rw [if_neg he] at hend
      exact report_far _ _ _ hline (by omega) (by omega) hne hend

/-- `spp: spp` and an end of line, with the second `spp` as the first error. -/
example : report {} (bytes "spp: spp\n") = some (.shown 1 8 (bytes "spp: spp") (bytes "     ~~~")) := by
  have hl : lexAll 10 (bytes "spp: spp\n") = some ([(11, bytes "spp"), (1, bytes ":"), (110, bytes " ")] ++
      (11, bytes "spp") :: [(111, bytes "\n")]) := by decide +kernel
  obtain ⟨l, h1, h2, -⟩ := C120_all (bytes "spp: spp\n") (fuel := 10) (by decide +kernel)
  obtain rfl := Option.some.inj (h1.symm.trans hl)
  have hs := (C128_first [.SPP, .COLON, .SPP] (by decide) 2).1 (by decide +kernel)
  refine (C129_report_partial h2 ⟨hs.2.1, .inl ⟨.SPP, by decide +kernel, hs.2.2.2 (by decide)⟩⟩ ?_ ?_ ?_ ?_).trans ?_
  · unfold Quiet; decide +kernel
  · decide +kernel
  · decide +kernel
  · unfold Ended; decide +kernel
  · decide +kernel

/-- C129: What is underlined is the token: in the line that is shown, it stands above the marks. -/
theorem C129_marks (before u after : List Byte) (hu : u.length ≤ 123)
    (h : (lastLine before).length + u.length < 124 ∨ u.length ≤ 61) :
    ∃ a c, expected before u after = .shown (lineNo before) ((lastLine before).length + u.length) (a ++ u ++ c)
      (List.replicate a.length 32 ++ List.replicate u.length 126) := by
  have cut : ∀ a c : List Byte, a.length + u.length ≤ 124 → ∃ c', showLine (a ++ u ++ c) = a ++ u ++ c' := by
    intro a c hl
    unfold showLine
    split
    · exact ⟨c, rfl⟩
    · rw [List.take_append, List.take_of_length_le (by rw [List.length_append]; omega)]
      exact ⟨c.take (124 - (a ++ u).length) ++ [46, 46, 46], by simp only [List.append_assoc]⟩
  simp only [expected]
  rw [if_neg (by omega)]
  by_cases he : (lastLine before).length + u.length < 124
  · rw [if_pos he]
    obtain ⟨c', hc⟩ := cut (lastLine before) (firstLine after) (by omega)
    exact ⟨lastLine before, c', by rw [hc]⟩
  · rw [if_neg he]
    have hu' : u.length ≤ 61 := by omega
    have e : (lastLine before ++ u ++ firstLine after).drop ((lastLine before).length + u.length - 64) =
        (lastLine before).drop ((lastLine before).length + u.length - 64) ++ u ++ firstLine after := by
      rw [List.append_assoc, List.append_assoc, List.drop_append_of_le_length (by omega)]
    have hl : ((lastLine before).drop ((lastLine before).length + u.length - 64)).length = 64 - u.length := by
      rw [List.length_drop]; omega
    obtain ⟨c', hc⟩ := cut ((lastLine before).drop ((lastLine before).length + u.length - 64)) (firstLine after) (by omega)
    refine ⟨[46, 46, 46] ++ ((lastLine before).drop ((lastLine before).length + u.length - 64)).drop 3, c', ?_⟩
    rw [e, hc, List.append_assoc, List.drop_append_of_le_length (by omega)]
    congr 1
    · simp only [List.append_assoc]
    · congr 2
      simp only [List.length_append, List.length_drop, List.length_cons, List.length_nil]
      omega

/-- C129: If the tokens of the whole file begin a file but are not one, the end of the file is reported. -/
theorem C129_end_partial {text : List Byte} {l : List (Nat × List Byte)} (h : Tokenises text l)
    (hl : ∀ y ∈ l, Quiet y ∧ isUnknown y = false) (hb : Begins (l.filterMap tokenOf)) (hf : ¬ Grammatical (l.filterMap tokenOf)) :
    report {} text = some (.plain (lineNo text) (lastLine text).length) := by
  have hk : kinds l = l.filterMap tokenOf ++ [.END] := by
    have := kinds_pre l [] (fun y hy => (hl y hy).2)
    rwa [List.append_nil] at this
  have hs : stopsAt (kinds l) = some (l.countP isTok) := by
    cases hs : stopsAt (kinds l) with
    | none =>
      obtain ⟨w, e, hw⟩ := (C128_none _ (kinds_dropLast l)).1 hs
      rw [hk] at e
      obtain ⟨rfl, -⟩ := List.append_inj' e rfl
      exact absurd hw hf
    | some k =>
      obtain ⟨h1, -, h3, h4⟩ := (C128_first _ (kinds_dropLast l) k).1 hs
      rw [hk, List.length_append, List.length_singleton] at h1 h3 h4
      rw [← filterMap_count]
      congr 1
      rcases Nat.lt_trichotomy k (l.filterMap tokenOf).length with hlt | heq | hgt
      · refine absurd ?_ (h4 (by omega))
        rw [List.take_append_of_le_length (by omega)]
        rw [← List.take_append_drop (k + 1) (l.filterMap tokenOf)] at hb
        exact begins_prefix hb
      · exact heq
      · exact absurd (by simp) (h3 (by omega))
  rw [report_eq h hs, cursor_end h hl]
  simp only [reportAt]
  rw [if_neg (by simp [Cursor.after])]
  rfl

/-- C128: The parser of scene files rejects exactly the files in which it stops at some token. -/
theorem C128_driver (w : List (Tok × Val)) (hw : ∀ t ∈ w, t.1 ≠ Tok.END) (ht : Typed w) (d : Driver) :
    (∃ d', run sem (9 * (w.length + 1) + 1) (initial .unit w d) = some (.reject d')) ↔
      ∃ k, stopsAt (w.map Prod.fst ++ [.END]) = some k :=
  C128_rejects Ty sem_defined .unit rfl w ht hw d

/-! ## Where the report is wrong -/

/-- C129, a violation: a token of 65 to 123 bytes that ends after column 123.  The underline is written outside of its
buffer. -/
theorem C129_violated_long {text : List Byte} {pre post : List (Nat × List Byte)} {x : Nat × List Byte}
    (h : Tokenises text (pre ++ x :: post)) (hx : FirstError pre x)
    (hpre : ∀ y ∈ pre, Quiet y ∧ isUnknown y = false) (h0 : (0 : Byte) ∉ x.2)
    (h1 : 64 < x.2.length) (h2 : x.2.length ≤ 123)
    (h3 : 124 ≤ (lastLine (pre.map (·.2)).flatten).length + x.2.length) : report {} text = some .ub := by
  have hx' : isTok x = true ∨ isUnknown x = true := by
    rcases hx.2 with ⟨t, ht, -⟩ | hx
    · left; rw [tokenOf_isTok, ht]; rfl
    · exact .inr hx
  rw [report_eq h (stops_first hx fun y hy => (hpre y hy).2), C129_position_partial h rfl hx' hpre h0]
  have ht := C120_whole h
  rw [List.map_append, List.flatten_append, List.map_cons, List.flatten_cons, ← List.append_assoc] at ht
  rw [← ht, report_ub _ _ _ h3 h1 h2]

/-- A space and a string of 123 bytes. -/
def longToken : List Byte := 32 :: 39 :: (List.replicate 121 97 ++ [39, 10])

example : report {} longToken = some .ub := by decide +kernel

/-- C129, a violation: if the last line of the file is not ended, bytes are printed that were never written.  Here the
file is `!`. -/
theorem C129_violated_last_line : report {} (bytes "!") = some .ub ∧
    report {} (bytes "!\n") = some (expected [] (bytes "!") (bytes "\n")) := by decide +kernel

/-- `spp:`, 125 spaces and `9`, without an end of line. -/
def firstFile : List Byte := bytes "spp:" ++ List.replicate 125 32 ++ [57]

/-- The position at the end of a file that is right. -/
def endMark (text : List Byte) : Option Mark :=
  match lexAll (text.length + 1) text with
  | none => none
  | some l => if stopsAt (kinds l) = none then some (cursorAt (Cursor.start {}) l l.length).last else none

/-- C129, a violation: positions are not reset when the next file is read.  After a first file without an end of line,
the position in the second file is wrong; after a line of 130 bytes, the report is written outside of the buffer. -/
theorem C129_violated_second_file :
    endMark (bytes "spp:9") = some ⟨1, 6⟩ ∧
    report ⟨1, 6⟩ (bytes "spp: spp\n") = some (.shown 1 13 (bytes "spp: spp") (bytes "          ~~~")) ∧
    endMark firstFile = some ⟨1, 131⟩ ∧ report ⟨1, 131⟩ (bytes "spp: spp\n") = some .ub ∧
    report {} (bytes "spp: spp\n") = some (expected (bytes "spp: ") (bytes "spp") (bytes "\n")) := by decide +kernel

/-- C129, a violation: after the keyword `bump` another part of the file is shown. -/
theorem C129_violated_bump : report {} (bytes "bump\n\nspp: spp\n") = some (.shown 3 8 (bytes "mp") (bytes "     ~~~")) ∧
    expected (bytes "bump\n\nspp: ") (bytes "spp") (bytes "\n") = .shown 3 8 (bytes "spp: spp") (bytes "     ~~~") := by
  decide +kernel

/-- C129, a violation: lines inside a string are not counted. -/
theorem C129_violated_lines : report {} (bytes "out:'a\nb' 'c'\n") =
      some (.shown 1 13 (bytes "out:'a") (bytes "          ~~~")) ∧
    expected (bytes "out:'a\nb' ") (bytes "'c'") (bytes "\n") = .shown 2 6 (bytes "b' 'c'") (bytes "   ~~~") := by
  decide +kernel

end Spectre.Scene
