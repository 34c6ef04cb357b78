import Verif.Model.Message
import Verif.Props.Config

/-!
# Messages are printed with the arguments that their formats need (C130)
-/

namespace Spectre.Msg

/-! ## Specification -/

/-- How the place of an argument is written in a format. -/
def Ty.conversion : Ty → List Char
  | .int => ['%', 'd']
  | .str => ['%', 's']
  | .chr => ['%', 'c']

/-- A format: a text, and places for arguments with a text after each of them. -/
def pattern (t : List Char) (l : List (Ty × List Char)) : List Char := t ++ l.flatMap fun x => x.1.conversion ++ x.2

/-- A message: the same texts, with arguments at the places. -/
def filled (t : List Char) (l : List (Arg × List Char)) : List Char := t ++ l.flatMap fun x => x.1.text ++ x.2

/-- The format has texts without `%` between places for exactly these types of arguments. -/
def Fits (format : List Char) (tys : List Ty) : Prop :=
  ∃ t l, '%' ∉ t ∧ (∀ x ∈ l, '%' ∉ x.2) ∧ format = pattern t l ∧ tys = l.map Prod.fst

/-! ## Printing -/

theorem printf_cons {c : Char} (h : c ≠ '%') (f : List Char) (args : List Arg) :
    printf (c :: f) args = (printf f args).map (c :: ·) := by
  rw [printf.eq_def]
  simp only
  rw [if_pos h]

theorem printf_percent (d : Char) (f : List Char) (args : List Arg) : printf ('%' :: d :: f) args =
    if d = '%' then (printf f args).map ('%' :: ·)
    else
      match args with
      | [] => none
      | a :: args' =>
        if (d = 'd' ∧ a.ty = .int) ∨ (d = 's' ∧ a.ty = .str) ∨ (d = 'c' ∧ a.ty = .chr) then
          (printf f args').map (a.text ++ ·)
        else none := by
  rw [printf.eq_def]
  simp only
  rw [if_neg (by simp)]
  cases args <;> rfl

theorem printf_text : ∀ (t f : List Char) (args : List Arg), '%' ∉ t →
    printf (t ++ f) args = (printf f args).map (t ++ ·)
  | [], f, args, _ => by simp
  | c :: t, f, args, h => by
    have h1 : c ≠ '%' := fun hh => h (hh ▸ List.mem_cons_self)
    have h2 : '%' ∉ t := fun hh => h (List.mem_cons_of_mem _ hh)
    rw [List.cons_append, printf_cons h1, printf_text t f args h2, Option.map_map]
    rfl

theorem printf_place (a : Arg) (f : List Char) (args : List Arg) :
    printf (a.ty.conversion ++ f) (a :: args) = (printf f args).map (a.text ++ ·) := by
  cases a <;> rw [Arg.ty, Ty.conversion, List.cons_append, List.cons_append, List.nil_append, printf_percent] <;>
    simp [Arg.ty]

/-- C130: A message with a text without `%` between the places is printed with all of its arguments at their places. -/
theorem C130_printf (t : List Char) (l : List (Arg × List Char)) (ht : '%' ∉ t) (hl : ∀ x ∈ l, '%' ∉ x.2) :
    printf (pattern t (l.map fun x => (x.1.ty, x.2))) (l.map Prod.fst) = some (filled t l) := by
  have key : ∀ l : List (Arg × List Char), (∀ x ∈ l, '%' ∉ x.2) →
      printf ((l.map fun x => (x.1.ty, x.2)).flatMap fun x => x.1.conversion ++ x.2) (l.map Prod.fst) =
        some (l.flatMap fun x => x.1.text ++ x.2) := by
    intro l hl
    induction l with
    | nil => rfl
    | cons x l ih =>
      rw [List.map_cons, List.map_cons, List.flatMap_cons, List.append_assoc, printf_place,
        printf_text _ _ _ (hl x List.mem_cons_self), ih fun y hy => hl y (List.mem_cons_of_mem _ hy)]
      simp
  rw [pattern, printf_text _ _ _ ht, key l hl]
  rfl

/-- C130: So it is for all arguments of the types that fit to the format. -/
theorem C130_fits {format : List Char} {tys : List Ty} (h : Fits format tys) (args : List Arg)
    (ha : args.map Arg.ty = tys) :
    ∃ t l, '%' ∉ t ∧ (∀ x ∈ l, '%' ∉ x.2) ∧ format = pattern t (l.map fun x => (x.1.ty, x.2)) ∧ args = l.map Prod.fst ∧
      printf format args = some (filled t l) := by
  obtain ⟨t, l, ht, hl, rfl, rfl⟩ := h
  have hlen : args.length = l.length := by rw [← List.length_map (f := Arg.ty), ha, List.length_map]
  have e1 : (args.zip (l.map Prod.snd)).map Prod.fst = args :=
    List.map_fst_zip (by rw [List.length_map]; omega)
  have e2 : (args.zip (l.map Prod.snd)).map (fun x => (x.1.ty, x.2)) = l := by
    clear e1 hl
    induction l generalizing args with
    | nil => cases args <;> simp at ha ⊢
    | cons x l ih =>
      cases args with
      | nil => simp at ha
      | cons a args =>
        simp only [List.map_cons, List.cons.injEq, List.length_cons, Nat.add_right_cancel_iff] at ha hlen
        rw [List.map_cons, List.zip_cons_cons, List.map_cons, ih args ha.2 hlen]
        simp only [ha.1]
  have e3 : ∀ x ∈ args.zip (l.map Prod.snd), '%' ∉ x.2 := by
    intro x hx
    obtain ⟨y, hy, e⟩ := List.mem_map.1 (List.of_mem_zip (show (x.1, x.2) ∈ _ from hx)).2
    rw [← e]
    exact hl y hy
  have := C130_printf t _ ht e3
  rw [e1, e2] at this
  exact ⟨t, args.zip (l.map Prod.snd), ht, e3, by rw [e2], e1.symm, this⟩

/-- C130: A message with a place for which there is no argument is undefined. -/
theorem C130_missing (t : List Char) (l l' : List (Ty × List Char)) (args : List Arg) (ht : '%' ∉ t)
    (hl : ∀ x ∈ l, '%' ∉ x.2) (h : args.map Arg.ty = l.map Prod.fst) (hl' : l' ≠ []) :
    printf (pattern t (l ++ l')) args = none := by
  have key : ∀ (l : List (Ty × List Char)) (args : List Arg), (∀ x ∈ l, '%' ∉ x.2) →
      args.map Arg.ty = l.map Prod.fst →
      printf ((l ++ l').flatMap fun x => x.1.conversion ++ x.2) args = none := by
    intro l
    induction l with
    | nil =>
      intro args _ h
      obtain rfl := List.map_eq_nil_iff.1 h
      obtain ⟨⟨y, u⟩, l', rfl⟩ := List.exists_cons_of_ne_nil hl'
      rw [List.nil_append, List.flatMap_cons]
      cases y <;> rw [Ty.conversion, List.cons_append, List.cons_append, List.cons_append, List.cons_append, printf_percent] <;> rfl
    | cons x l ih =>
      intro args hl h
      cases args with
      | nil => simp at h
      | cons a args =>
        simp only [List.map_cons, List.cons.injEq] at h
        rw [List.cons_append, List.flatMap_cons, ← h.1, List.append_assoc, printf_place,
          printf_text _ _ _ (hl x List.mem_cons_self), ih args (fun y hy => hl y (List.mem_cons_of_mem _ hy)) h.2]
        rfl
  rw [pattern, printf_text _ _ _ ht, key l args hl h]
  rfl

/-- C130: A message with an invalid conversion is undefined. -/
theorem C130_invalid (t : List Char) (l : List (Ty × List Char)) (c : Char) (f : List Char) (args : List Arg) (ht : '%' ∉ t)
    (hl : ∀ x ∈ l, '%' ∉ x.2) (h : l.map Prod.fst <+: args.map Arg.ty)
    (hc : c ≠ 'd' ∧ c ≠ 's' ∧ c ≠ 'c' ∧ c ≠ '%') : printf (pattern t l ++ '%' :: c :: f) args = none := by
  have key : ∀ (l : List (Ty × List Char)) (args : List Arg), (∀ x ∈ l, '%' ∉ x.2) →
      l.map Prod.fst <+: args.map Arg.ty →
      printf (l.flatMap (fun x => x.1.conversion ++ x.2) ++ '%' :: c :: f) args = none := by
    intro l
    induction l with
    | nil =>
      intro args _ _
      rw [List.flatMap_nil, List.nil_append, printf_percent, if_neg hc.2.2.2]
      cases args with
      | nil => rfl
      | cons a args => simp only [hc.1, hc.2.1, hc.2.2.1, false_and, or_self, if_false]
    | cons x l ih =>
      intro args hl h
      cases args with
      | nil => simp at h
      | cons a args =>
        rw [List.map_cons, List.map_cons, List.cons_prefix_cons] at h
        rw [List.flatMap_cons, h.1, List.append_assoc, List.append_assoc, printf_place,
          printf_text _ _ _ (hl x List.mem_cons_self), ih args (fun y hy => hl y (List.mem_cons_of_mem _ hy)) h.2]
        rfl
  rw [pattern, List.append_assoc, printf_text _ _ _ ht, key l args hl h]
  rfl

/-- The text at the beginning and the places of a format. -/
def parts : List Char → Option (List Char × List (Ty × List Char))
  | [] => some ([], [])
  | '%' :: 'd' :: f => (parts f).map fun x => ([], (.int, x.1) :: x.2)
  | '%' :: 's' :: f => (parts f).map fun x => ([], (.str, x.1) :: x.2)
  | '%' :: 'c' :: f => (parts f).map fun x => ([], (.chr, x.1) :: x.2)
  | '%' :: _ => none
  | c :: f => (parts f).map fun x => (c :: x.1, x.2)

theorem parts_sound (f : List Char) : ∀ x, parts f = some x →
    '%' ∉ x.1 ∧ (∀ y ∈ x.2, '%' ∉ y.2) ∧ f = pattern x.1 x.2 := by
  induction f using parts.induct with
  | case1 => rintro _ ⟨⟩; simp [pattern]
  | case2 f ih =>
    intro x h
    simp only [parts, Option.map_eq_some_iff] at h
    obtain ⟨y, hy, rfl⟩ := h
    obtain ⟨h1, h2, h3⟩ := ih y hy
    exact ⟨by simp, List.forall_mem_cons.2 ⟨h1, h2⟩, by rw [h3]; simp [pattern, Ty.conversion]⟩
  | case3 f ih =>
    intro x h
    simp only [parts, Option.map_eq_some_iff] at h
    obtain ⟨y, hy, rfl⟩ := h
    obtain ⟨h1, h2, h3⟩ := ih y hy
    exact ⟨by simp, List.forall_mem_cons.2 ⟨h1, h2⟩, by rw [h3]; simp [pattern, Ty.conversion]⟩
  | case4 f ih =>
    intro x h
    simp only [parts, Option.map_eq_some_iff] at h
    obtain ⟨y, hy, rfl⟩ := h
    obtain ⟨h1, h2, h3⟩ := ih y hy
    exact ⟨by simp, List.forall_mem_cons.2 ⟨h1, h2⟩, by rw [h3]; simp [pattern, Ty.conversion]⟩
  | case5 f h1 h2 h3 =>
    intro x h
    rw [parts] at h
    · cases h
    · exact h1
    · exact h2
    · exact h3
  | case6 c f h1 h2 h3 h4 ih =>
    intro x h
    rw [parts] at h
    · simp only [Option.map_eq_some_iff] at h
      obtain ⟨y, hy, rfl⟩ := h
      obtain ⟨h5, h6, h7⟩ := ih y hy
      refine ⟨?_, h6, by rw [h7]; simp [pattern]⟩
      intro hh
      rcases List.mem_cons.1 hh with hh | hh
      · exact h4 hh.symm
      · exact h5 hh
    all_goals assumption

/-- The calls in which the arguments do not fit. -/
def wrong : List String :=
  ["cameras/image_film.cpp:15", "parsers/config_driver.cpp:84", "parsers/config_driver.cpp:182"]

/-- C130: In all calls but three, the format fits the types of the arguments; with C130_fits, the message is printed with
all of its arguments, whatever they are. -/
theorem C130_calls_partial : ∀ c ∈ calls, c.place ∉ wrong → Fits c.format c.args := by
  have h : ∀ c ∈ calls, c.place ∉ wrong →
      (parts c.format).map (fun x => x.2.map Prod.fst) = some c.args := by decide +kernel
  intro c hc hw
  obtain ⟨x, hx, e⟩ := Option.map_eq_some_iff.1 (h c hc hw)
  obtain ⟨h1, h2, h3⟩ := parts_sound _ x hx
  exact ⟨x.1, x.2, h1, h2, h3, e.symm⟩

/-- C130, a violation: if the output file is a folder, the message needs a name that is not given. -/
theorem C130_violated_folder : ∃ c ∈ calls, c.place = "cameras/image_film.cpp:15" ∧
    ∀ args : List Arg, args.map Arg.ty = c.args → printf c.format args = none := by
  refine ⟨⟨"cameras/image_film.cpp:15", chars! "Output file %s exists and is a folder", []⟩, by decide +kernel, rfl, ?_⟩
  intro args h
  exact C130_missing (chars! "Output file ") [] [(.str, chars! " exists and is a folder")] args (by decide) (by decide)
    (by rw [h]; rfl) (by simp)

/-- C130, a violation: if a child file does not exist, the message needs a reason that is not given. -/
theorem C130_violated_child : ∃ c ∈ calls, c.place = "parsers/config_driver.cpp:84" ∧
    ∀ args : List Arg, args.map Arg.ty = c.args → printf c.format args = none := by
  refine ⟨⟨"parsers/config_driver.cpp:84", chars! "Unable to open file %s: %s", [.str]⟩, by decide +kernel, rfl, ?_⟩
  intro args h
  exact C130_missing (chars! "Unable to open file ") [(.str, chars! ": ")] [(.str, [])] args (by decide) (by decide)
    (by rw [h]; rfl) (by simp)

/-- C130, a violation: the report of an error contains the invalid conversion `%` with the character 27. -/
theorem C130_violated_error : ∃ c ∈ calls, c.place = "parsers/config_driver.cpp:182" ∧
    ∀ args : List Arg, args.map Arg.ty = c.args → printf c.format args = none := by
  refine ⟨⟨"parsers/config_driver.cpp:182", chars! "%s:%d.%d: \x1B[1m%s\x1B[0m\n%s\n%\x1B[32m%s\x1B[0m",
    [.str, .int, .int, .str, .str, .str]⟩, by decide +kernel, rfl, ?_⟩
  intro args h
  exact C130_invalid [] [(.str, chars! ":"), (.int, chars! "."), (.int, chars! ": \x1B[1m"), (.str, chars! "\x1B[0m\n"),
    (.str, chars! "\n")] '\x1B' (chars! "[32m%s\x1B[0m") args (by decide) (by decide)
    (by rw [h]; exact ⟨[.str], rfl⟩) (by decide)

/-! ## Buffers -/

theorem digits_length : ∀ (k n : Nat), n < 10 ^ (k + 1) → (digits n).length ≤ k + 1
  | 0, n, h => by rw [digits, dif_pos (by simpa using h)]; simp
  | k + 1, n, h => by
    rw [digits]
    split
    · simp
    · have := digits_length k (n / 10) (by rw [Nat.pow_succ] at h; omega)
      rw [List.length_append, List.length_singleton]
      omega

/-- C130: Messages that are written into buffers fit into them, with the byte 0 at the end: the number of threads
(renderer.cpp:38-39), an unknown character (config_driver.cpp:198-199) and the time (renderer.cpp:134-137). -/
theorem C130_buffers :
    (∀ z : Int, -2 ^ 31 ≤ z → z < 2 ^ 31 → ∃ out, printf (chars! "Using %d rendering threads") [.int z] = some out ∧
      out.length + 1 ≤ 256) ∧
    (∀ c, ∃ out, printf (chars! "Syntax error: Unexpected character %c") [.chr c] = some out ∧
      out.length + 1 ≤ (chars! "Syntax error: Unexpected character %c").length + 1) ∧
    (∀ secs, ∃ t out, Config.formatSeconds secs = some t ∧ printf (chars! "Rendering ended (%s)") [.str t] = some out ∧
      out.length + 1 ≤ (chars! "Rendering ended (%s)").length + 1 + 17) := by
  refine ⟨?_, ?_, ?_⟩
  · intro z h1 h2
    have h := C130_printf (chars! "Using ") [(.int z, (chars! " rendering threads"))] (by decide) (by simp)
    refine ⟨_, h, ?_⟩
    have hd := digits_length 9 z.natAbs (by omega)
    have : (Arg.int z).text.length ≤ 11 := by
      rw [Arg.text]
      split
      · rw [List.length_cons]; omega
      · omega
    simp only [filled, List.flatMap_cons, List.flatMap_nil, List.length_append, List.append_nil]
    have e1 : (chars! "Using ").length = 6 := by decide
    have e2 : (chars! " rendering threads").length = 18 := by decide
    omega
  · intro c
    have h := C130_printf (chars! "Syntax error: Unexpected character ") [(.chr c, [])] (by decide) (by simp)
    refine ⟨_, h, ?_⟩
    simp only [filled, List.flatMap_cons, List.flatMap_nil, List.length_append, List.append_nil, Arg.text, List.length_cons, List.length_nil]
    decide
  · intro secs
    obtain ⟨t, ht, hl, -⟩ := Config.C61_format secs
    have h := C130_printf (chars! "Rendering ended (") [(.str t, (chars! ")"))] (by decide) (by simp)
    refine ⟨t, _, ht, h, ?_⟩
    simp only [filled, List.flatMap_cons, List.flatMap_nil, List.length_append, List.append_nil, Arg.text]
    have e1 : (chars! "Rendering ended (").length = 17 := by decide
    have e2 : (chars! ")").length = 1 := by decide
    have e3 : (chars! "Rendering ended (%s)").length = 20 := by decide
    omega

/-- The message for a resolution that is adjusted. -/
example : printf (chars! "Resolution has been adjusted to %dx%d") [.int 640, .int (-48)] =
    some (chars! "Resolution has been adjusted to 640x-48") := by decide +kernel

/-! ## Numbers -/

/-- The number that digits spell. -/
def spelled (l : List Char) : Nat := l.foldl (fun n c => 10 * n + (c.toNat - 48)) 0

theorem digit_char {k : Nat} (h : k < 10) : (Char.ofNat (48 + k)).toNat - 48 = k ∧ '0' ≤ Char.ofNat (48 + k) ∧
    Char.ofNat (48 + k) ≤ '9' := by
  revert k
  decide

theorem digits_spec (n : Nat) : spelled (digits n) = n ∧ (∀ c ∈ digits n, '0' ≤ c ∧ c ≤ '9') ∧
    ((digits n).head? = some '0' → n = 0) ∧ digits n ≠ [] := by
  induction n using Nat.strong_induction_on with
  | _ n ih =>
    rw [digits]
    split
    · rename_i h
      obtain ⟨h1, h2, h3⟩ := digit_char h
      refine ⟨by simp [spelled, h1], by simp [h2, h3], ?_, by simp⟩
      intro hz
      simp only [List.head?_cons, Option.some.injEq] at hz
      rw [hz] at h1
      exact h1.symm
    · rename_i h
      obtain ⟨i1, i2, i3, i4⟩ := ih (n / 10) (by omega)
      obtain ⟨h1, h2, h3⟩ := digit_char (k := n % 10) (by omega)
      refine ⟨?_, ?_, ?_, by simp⟩
      · unfold spelled at i1 ⊢
        rw [List.foldl_append, i1, List.foldl_cons, List.foldl_nil, h1]
        omega
      · intro c hc
        rcases List.mem_append.1 hc with hc | hc
        · exact i2 c hc
        · rw [List.mem_singleton.1 hc]
          exact ⟨h2, h3⟩
      · intro hz
        rw [List.head?_append_of_ne_nil _ i4] at hz
        have := i3 hz
        omega

/-- C130: A number is printed as its sign, if it is negative, and its decimal digits without leading zeros. -/
theorem C130_numbers (z : Int) : ∃ l : List Char, l ≠ [] ∧ (∀ c ∈ l, '0' ≤ c ∧ c ≤ '9') ∧
    (l.head? = some '0' → z = 0) ∧
    ((0 ≤ z ∧ (Arg.int z).text = l ∧ z = spelled l) ∨ (z < 0 ∧ (Arg.int z).text = '-' :: l ∧ z = -spelled l)) := by
  obtain ⟨h1, h2, h3, h4⟩ := digits_spec z.natAbs
  refine ⟨digits z.natAbs, h4, h2, fun h => by have := h3 h; omega, ?_⟩
  by_cases hz : z < 0
  · right
    refine ⟨hz, by simp [Arg.text, hz], ?_⟩
    rw [h1]; omega
  · left
    refine ⟨by omega, by simp [Arg.text, hz], ?_⟩
    rw [h1]; omega

example : (Arg.int (-120)).text = ['-', '1', '2', '0'] := by decide +kernel

end Spectre.Msg
