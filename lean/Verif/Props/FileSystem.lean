import Verif.Model.FileSystem
import Verif.Props.File

/-
C142, C143, C144, C145: `File` and the file system.
-/

namespace Spectre.Fsys

open Spectre.Path

/-! ### Specification -/

/-- The root is a folder, and whatever exists is in a folder. -/
structure WF (t : Tree) : Prop where
  root : ∃ w, t [] = some (.folder w)
  up : ∀ c st, t (c :: st) ≠ none → ∃ w, t st = some (.folder w)

/-- The folder `q` and all missing folders on the way to it can be made: the innermost existing one can be written to,
and nothing else speaks against the missing ones. -/
def Makeable (fails : List (List Char) → Bool) (t : Tree) (q : List (List Char)) : Prop :=
  ∃ base, base <:+ q ∧ t base = some (.folder true) ∧ t q = none ∧
    ∀ r, r <:+ q → base.length < r.length → t r = none ∧ fails r = false

/-! ### Places -/

theorem pieces_plain (c : List Char) (h : '/' ∉ c) : pieces c = [c] := by
  induction c with
  | nil => rfl
  | cons x c ih =>
    rw [pieces, if_neg (by intro e; exact h (by rw [e]; exact List.mem_cons_self)),
      ih (fun hm => h (List.mem_cons_of_mem _ hm))]

theorem pieces_ne_nil (s : List Char) : pieces s ≠ [] := by
  cases s with
  | nil => simp [pieces]
  | cons c r =>
    rw [pieces]
    split
    · simp
    · split <;> simp

theorem pieces_append (s c : List Char) (h : '/' ∉ c) : pieces (s ++ '/' :: c) = pieces s ++ [c] := by
  induction s with
  | nil => simp [pieces, pieces_plain c h]
  | cons x s ih =>
    rw [List.cons_append, pieces, pieces, ih]
    by_cases hx : x = '/'
    · simp [hx]
    · rw [if_neg hx, if_neg hx]
      cases hp : pieces s with
      | nil => exact absurd hp (pieces_ne_nil s)
      | cons y ys => simp

theorem pieces_body (st : List (List Char)) (h : Clean st) : pieces (body st) = [] :: st.reverse := by
  induction st with
  | nil => rfl
  | cons c st ih =>
    rw [body, pieces_append _ _ (h c List.mem_cons_self).2, ih (fun d hd => h d (List.mem_cons_of_mem _ hd))]
    simp

theorem place_body (st : List (List Char)) (h : Clean st) : place (body st) = st := by
  unfold place
  rw [pieces_body st h]
  have : (st.reverse.filter fun x => decide (x ≠ [])) = st.reverse := by
    rw [List.filter_eq_self]
    intro c hc
    rw [List.mem_reverse] at hc
    simpa using (h c hc).1
  simp only [List.filter_cons]
  simp only [ne_eq, not_true_eq_false, decide_false, Bool.false_eq_true, if_false]
  have e := congrArg List.reverse this
  rw [List.reverse_reverse] at e
  exact e

theorem place_root : place ['/'] = [] := by decide

theorem place_render (st : List (List Char)) (h : Clean st) : place (render st) = st := by
  unfold render
  split
  · rename_i e; rw [e]; exact place_root
  · exact place_body st h

theorem body_joined (rest done : List (List Char)) : body (rest.reverse ++ done) = body done ++ joined rest := by
  induction rest generalizing done with
  | nil => simp [joined]
  | cons c cs ih =>
    rw [joined_cons, List.reverse_cons, List.append_assoc, List.singleton_append, ih, body]
    simp

/-! ### The loop of `mkdirs` -/

theorem reach_at (mem : List Char) (len k : Nat) (hk : k ≤ len) (hm : len < mem.length)
    (he : mem[k]? = some '/' ∨ k = len) (n index : Nat) (hn : n = k - index) (hi : index < k)
    (h : ∀ j, index < j → j < k → mem[j]? ≠ some '/') : reach mem len index = some k := by
  induction n generalizing index with
  | zero => omega
  | succ n ih =>
    rw [reach, if_pos (by omega)]
    by_cases hk1 : index + 1 = k
    · cases hx : mem[index + 1]? with
      | none => rw [List.getElem?_eq_none_iff] at hx; omega
      | some c =>
        simp only
        by_cases hc : c = '/'
        · rw [if_pos hc, hk1]
        · rw [if_neg hc, hk1]
          rcases he with he | he
          · rw [hk1, he] at hx
            injection hx with hx
            exact absurd hx.symm hc
          · rw [reach, if_neg (by omega)]
    · have h1 := h (index + 1) (by omega) (by omega)
      cases hx : mem[index + 1]? with
      | none => rw [List.getElem?_eq_none_iff] at hx; omega
      | some c =>
        simp only
        rw [if_neg (by intro e; rw [hx, e] at h1; exact h1 rfl)]
        exact ih (index + 1) (by omega) (by omega) (fun j a b => h j (by omega) b)

/-- The loop on places: what is made, and what `mkdir` finds afterwards. -/
def walk (fails : List (List Char) → Bool) : List (List Char) → List (List Char) → Bool → Tree → Option Kind →
    Bool × Tree × Option Kind
  | [], _, created, t, info => (created, t, info)
  | c :: cs, done, created, t, info =>
    if t (c :: done) = none then
      if t done = some (.folder true) ∧ fails (c :: done) = false then
        walk fails cs (c :: done) true (fun q => if q = c :: done then some (.folder true) else t q) (some (.folder true))
      else (false, t, none)
    else walk fails cs (c :: done) created t info

theorem nul_body {st : List (List Char)} (h : ∀ c ∈ st, nul ∉ c) : nul ∉ body st := by
  induction st with
  | nil => simp [body]
  | cons d ds ih =>
    rw [body, List.mem_append, List.mem_cons]
    rintro (h1 | h1 | h1)
    · exact ih (fun x hx => h x (List.mem_cons_of_mem _ hx)) h1
    · exact absurd h1 (by decide)
    · exact h d List.mem_cons_self h1

theorem loop_walk (fails : List (List Char) → Bool) (rest done : List (List Char)) (hcl : Clean (rest.reverse ++ done))
    (hnul : ∀ c ∈ rest.reverse ++ done, nul ∉ c) (n : Nat) (hn : rest.length < n) (index : Nat)
    (hidx : index = (body done).length ∨ done = [] ∧ index = 1 ∧ rest ≠ []) (created : Bool) (t : Tree) (e : Entry) (x : Char)
    (junk : List Char) (hmem : e.obj.mem = body done ++ joined rest ++ x :: junk) (hx : rest ≠ [] → x = nul) :
    ∃ y, mkdirsLoop fails (body done ++ joined rest).length n index created t e =
      some ((walk fails rest done created t e.info).1, (walk fails rest done created t e.info).2.1,
        ⟨⟨body done ++ joined rest ++ y :: junk, e.obj.file, e.obj.ext⟩, (walk fails rest done created t e.info).2.2⟩) := by
  induction rest generalizing done n index created t e x with
  | nil =>
    obtain ⟨n, rfl⟩ : ∃ m, n = m + 1 := ⟨n - 1, by simp at hn; omega⟩
    refine ⟨x, ?_⟩
    rw [mkdirsLoop, if_neg (by rcases hidx with h | h <;> simp_all [joined])]
    simp only [walk]
    rw [← hmem]
    rfl
  | cons c cs ih =>
    obtain ⟨n, rfl⟩ : ∃ m, n = m + 1 := ⟨n - 1, by simp at hn; omega⟩
    have hx' := hx (by simp)
    subst hx'
    have hc : c ∈ (c :: cs).reverse ++ done := by simp
    have hc1 := hcl c hc
    have hlen : 0 < c.length := List.length_pos_iff.2 hc1.1
    have hstr : body done ++ joined (c :: cs) = body (c :: done) ++ joined cs := by
      rw [joined_cons, body]; simp
    have hcl2 : Clean (cs.reverse ++ c :: done) := by
      intro d hd; exact hcl d (by simp at hd ⊢; tauto)
    have hnul2 : ∀ d ∈ cs.reverse ++ c :: done, nul ∉ d := by
      intro d hd; exact hnul d (by simp at hd ⊢; tauto)
    have hclD : Clean (c :: done) := fun d hd => hcl2 d (List.mem_append_right _ hd)
    have hnulD : nul ∉ body (c :: done) := nul_body fun d hd => hnul2 d (List.mem_append_right _ hd)
    have hk : (body (c :: done)).length = (body done).length + 1 + c.length := by rw [body]; simp; omega
    rw [hstr] at hmem ⊢
    have hreach : reach e.obj.mem (body (c :: done) ++ joined cs).length index = some (body (c :: done)).length := by
      apply reach_at _ _ _ (by simp) (by rw [hmem]; simp) _ ((body (c :: done)).length - index) _ rfl
      · rcases hidx with h | h
        · omega
        · rw [h.2.1, hk]; omega
      · intro j h1 h2
        rw [hmem, List.append_assoc, List.getElem?_append_left h2, body,
          List.getElem?_append_right (by rcases hidx with h | h <;> [omega; (rw [h.1]; simp [body])])]
        intro e'
        have h3 : 1 ≤ j - (body done).length := by
          rcases hidx with h | h
          · omega
          · rw [h.1]; simp [body]; omega
        obtain ⟨i, hi⟩ : ∃ i, j - (body done).length = i + 1 := ⟨j - (body done).length - 1, by omega⟩
        rw [hi, List.getElem?_cons_succ] at e'
        exact hc1.2 (List.mem_of_getElem? e')
      · cases cs with
        | nil => right; simp [joined]
        | cons d ds =>
          left
          rw [hmem, List.append_assoc, List.getElem?_append_right (Nat.le_refl _), joined_cons]
          simp
    have hpoke : ∀ (f : Entry) (z : Char), f.obj.mem.length = e.obj.mem.length →
        poke f (body (c :: done)).length z = some { f with obj := { f.obj with mem := f.obj.mem.set (body (c :: done)).length z } } := by
      intro f z hf
      unfold poke
      rw [if_pos (by rw [hf, hmem]; simp)]
    obtain ⟨w, ws, hw⟩ : ∃ w ws, joined cs ++ nul :: junk = w :: ws := by
      cases h : joined cs ++ nul :: junk with
      | nil => simp at h
      | cons w ws => exact ⟨w, ws, rfl⟩
    have hset : ∀ z, e.obj.mem.set (body (c :: done)).length z = body (c :: done) ++ z :: ws := by
      intro z
      rw [hmem, List.append_assoc, hw, List.set_append_right _ _ (Nat.le_refl _)]
      simp
    have hset2 : ∀ z z', (body (c :: done) ++ z :: ws).set (body (c :: done)).length z' = body (c :: done) ++ z' :: ws := by
      intro z z'
      rw [List.set_append_right _ _ (Nat.le_refl _)]
      simp
    have habs : cstr (e.obj.mem.set (body (c :: done)).length nul) = some (body (c :: done)) := by
      rw [hset, cstr_append _ _ hnulD]
    have hback : ∃ y, body (c :: done) ++ '/' :: ws = body (c :: done) ++ joined cs ++ y :: junk ∧ (cs ≠ [] → y = nul) := by
      cases cs with
      | nil =>
        refine ⟨'/', ?_, by simp⟩
        simp [joined] at hw
        simp [joined, hw.2]
      | cons d ds =>
        refine ⟨nul, ?_, fun _ => rfl⟩
        rw [joined_cons] at hw ⊢
        simp only [List.cons_append, List.cons.injEq] at hw
        rw [← hw.2]
        simp
    obtain ⟨y, hy, hyn⟩ := hback
    have hstat : ∀ t : Tree, stat t (body (c :: done)) = t (c :: done) := by
      intro t; unfold stat; rw [place_body _ hclD]
    rw [mkdirsLoop, if_pos (by
      rcases hidx with h | h
      · simp; omega
      · simp [h.2.1]; omega)]
    simp only [hreach, Option.bind_eq_bind, Option.bind_some]
    rw [hpoke e nul rfl]
    simp only [Option.bind_some, Obj.absolute, habs, hstat]
    by_cases hnone : t (c :: done) = none
    · rw [if_pos hnone]
      unfold mkdir sysMkdir
      simp only [Obj.absolute, habs, Option.bind_eq_bind, Option.bind_some, place_body _ hclD, hstat, Option.pure_def]
      by_cases hok : t done = some (.folder true) ∧ fails (c :: done) = false
      · rw [if_pos ⟨hnone, hok⟩]
        simp only
        rw [hpoke _ '/' (by simp)]
        simp only [Option.bind_some, if_true, hset, hset2]
        obtain ⟨y2, h2⟩ := ih (c :: done) hcl2 hnul2 n (by simp at hn; omega) (body (c :: done)).length (Or.inl rfl) true
          (fun q => if q = c :: done then some (.folder true) else t q)
          ⟨⟨body (c :: done) ++ '/' :: ws, e.obj.file, e.obj.ext⟩, some (.folder true)⟩ y hy hyn
        refine ⟨y2, ?_⟩
        rw [walk, if_pos hnone, if_pos hok]
        exact h2
      · rw [if_neg (fun h => hok h.2)]
        simp only
        rw [hpoke _ '/' (by simp)]
        simp only [Option.bind_some, Bool.false_eq_true, if_false, hset, hset2, hy]
        refine ⟨y, ?_⟩
        rw [walk, if_pos hnone, if_neg hok, hnone]
    · rw [if_neg hnone]
      rw [hpoke _ '/' (by simp)]
      simp only [Option.bind_some, hset, hset2]
      obtain ⟨y2, h2⟩ := ih (c :: done) hcl2 hnul2 n (by simp at hn; omega) (body (c :: done)).length (Or.inl rfl) created t
        ⟨⟨body (c :: done) ++ '/' :: ws, e.obj.file, e.obj.ext⟩, e.info⟩ y hy hyn
      refine ⟨y2, ?_⟩
      rw [walk, if_neg hnone]
      exact h2

/-! ### What is made -/

theorem WF.suffix {t : Tree} (h : WF t) {r q : List (List Char)} (hrq : r <:+ q) (hq : t q ≠ none) : t r ≠ none := by
  obtain ⟨p, rfl⟩ := hrq
  induction p with
  | nil => exact hq
  | cons c p ih =>
    obtain ⟨w, hw⟩ := h.up c (p ++ r) hq
    exact ih (by rw [hw]; simp)

theorem WF.update {t : Tree} (h : WF t) {c : List Char} {st : List (List Char)} (hst : t st = some (.folder true)) :
    WF fun q => if q = c :: st then some (.folder true) else t q := by
  refine ⟨by simpa using h.root, ?_⟩
  intro d s hd
  by_cases h1 : s = c :: st
  · rw [if_pos h1]; exact ⟨true, rfl⟩
  · rw [if_neg h1]
    by_cases h2 : d :: s = c :: st
    · injection h2 with _ h2
      rw [h2]; exact ⟨true, hst⟩
    · rw [if_neg h2] at hd
      exact h.up d s hd

theorem suffix_total {a b q : List (List Char)} (ha : a <:+ q) (hb : b <:+ q) (h : a.length ≤ b.length) : a <:+ b :=
  List.suffix_of_suffix_length_le ha hb h

/-- What can be made above an existing place `done` whose next place is missing. -/
theorem makeable_iff {fails : List (List Char) → Bool} {t : Tree} (hw : WF t) {c : List Char} {done q : List (List Char)}
    (hd : t done ≠ none) (hn : t (c :: done) = none) (hq : c :: done <:+ q) :
    Makeable fails t q ↔ t done = some (.folder true) ∧ ∀ r, r <:+ q → done.length < r.length → fails r = false := by
  have hmiss : ∀ r, r <:+ q → done.length < r.length → t r = none := by
    intro r hr hl
    by_contra h
    exact hw.suffix (suffix_total hq hr (by rw [List.length_cons]; omega)) h hn
  constructor
  · rintro ⟨base, hb, h1, h2, h3⟩
    have hdq : done <:+ q := (List.suffix_cons c done).trans hq
    have hl : base.length = done.length := by
      rcases Nat.lt_trichotomy base.length done.length with h | h | h
      · exact absurd (h3 done hdq h).1 hd
      · exact h
      · rw [hmiss base hb h] at h1; cases h1
    have : base = done := (suffix_total hb hdq (by omega)).eq_of_length hl
    subst this
    exact ⟨h1, fun r hr hl => (h3 r hr hl).2⟩
  · rintro ⟨h1, h2⟩
    refine ⟨done, (List.suffix_cons c done).trans hq, h1, hmiss q List.suffix_rfl ?_, fun r hr hl => ⟨hmiss r hr hl, h2 r hr hl⟩⟩
    have := hq.length_le
    rw [List.length_cons] at this
    omega

theorem not_makeable {fails : List (List Char) → Bool} {t : Tree} {q : List (List Char)} (h : t q ≠ none) :
    ¬Makeable fails t q := fun ⟨_, _, _, h2, _⟩ => h h2

open Classical in
theorem walk_spec (fails : List (List Char) → Bool) (rest done : List (List Char)) (created : Bool) (t : Tree)
    (info : Option Kind) (hw : WF t) (hd : t done ≠ none) :
    (∀ q, (walk fails rest done created t info).2.1 q =
      if q <:+ rest.reverse ++ done ∧ Makeable fails t q then some (.folder true) else t q) ∧
    (walk fails rest done created t info).1 =
      (if t (rest.reverse ++ done) = none then decide (Makeable fails t (rest.reverse ++ done)) else created) ∧
    (walk fails rest done created t info).2.2 =
      if t (rest.reverse ++ done) = none then (walk fails rest done created t info).2.1 (rest.reverse ++ done) else info := by
  induction rest generalizing done created t info with
  | nil =>
    simp only [walk, List.reverse_nil, List.nil_append]
    refine ⟨fun q => ?_, (if_neg hd).symm, (if_neg hd).symm⟩
    symm
    apply if_neg
    rintro ⟨h1, h2⟩
    exact not_makeable (hw.suffix h1 hd) h2
  | cons c cs ih =>
    have hst : (c :: cs).reverse ++ done = cs.reverse ++ c :: done := by simp
    rw [hst]
    have hcst : c :: done <:+ cs.reverse ++ c :: done := List.suffix_append _ _
    have hlow : ∀ q, q <:+ cs.reverse ++ c :: done → q.length ≤ done.length → t q ≠ none := by
      intro q h1 h2
      exact hw.suffix (suffix_total h1 ((List.suffix_cons c done).trans hcst) h2) hd
    by_cases hn : t (c :: done) = none
    · have hstn : t (cs.reverse ++ c :: done) = none := by
        by_contra h
        exact hw.suffix hcst h hn
      rw [walk, if_pos hn]
      by_cases hok : t done = some (.folder true) ∧ fails (c :: done) = false
      · rw [if_pos hok]
        obtain ⟨h1, h2, h3⟩ := ih (c :: done) true (fun q => if q = c :: done then some (.folder true) else t q)
          (some (.folder true)) (hw.update hok.1) (by simp)
        -- makeable before and after
        have hmk : ∀ q, q <:+ cs.reverse ++ c :: done → (c :: done).length < q.length →
            (Makeable fails (fun q => if q = c :: done then some (.folder true) else t q) q ↔ Makeable fails t q) := by
          intro q hq hl
          have hcq : c :: done <:+ q := suffix_total hcst hq (by omega)
          obtain ⟨d, hdq⟩ : ∃ d, d :: c :: done <:+ q := by
            obtain ⟨p, hp⟩ := hcq
            rcases List.eq_nil_or_concat p with rfl | ⟨p', d, rfl⟩
            · rw [← hp] at hl; simp at hl
            · exact ⟨d, p', by rw [← hp]; simp⟩
          have hdn : t (d :: c :: done) = none := by
            by_contra h
            exact hw.suffix (List.suffix_cons d (c :: done)) h hn
          rw [makeable_iff (hw.update hok.1) (done := c :: done) (c := d) (by simp) (by simpa using hdn) hdq,
            makeable_iff hw hd hn hcq]
          simp only [if_true, true_and, hok.1]
          constructor
          · intro h r hr hl
            by_cases h4 : r.length = (c :: done).length
            · have : r = c :: done := (suffix_total hr hcq (by omega)).eq_of_length h4
              rw [this]; exact hok.2
            · exact h r hr (by simp at h4 ⊢; omega)
          · intro h r hr hl
            exact h r hr (by simp at hl; omega)
        have hself : Makeable fails t (c :: done) := by
          rw [makeable_iff hw hd hn List.suffix_rfl]
          refine ⟨hok.1, fun r hr hl => ?_⟩
          have : r = c :: done := hr.eq_of_length (by have := hr.length_le; simp at this ⊢; omega)
          rw [this]; exact hok.2
        refine ⟨?_, ?_, ?_⟩
        · intro q
          rw [h1 q]
          by_cases hq : q <:+ cs.reverse ++ c :: done
          · rcases Nat.lt_trichotomy q.length (c :: done).length with hl | hl | hl
            · have h4 := hlow q hq (by simp at hl; omega)
              have h5 : q ≠ c :: done := by rintro rfl; omega
              rw [if_neg (fun h => not_makeable (by simpa [h5] using h4) h.2), if_neg h5,
                if_neg (fun h => not_makeable h4 h.2)]
            · have : q = c :: done := (suffix_total hq hcst (by omega)).eq_of_length hl
              subst this
              rw [if_neg (fun h => not_makeable (by simp) h.2), if_pos rfl, if_pos ⟨hq, hself⟩]
            · have h5 : q ≠ c :: done := by rintro rfl; omega
              rw [if_neg h5]
              by_cases h6 : Makeable fails t q
              · rw [if_pos ⟨hq, (hmk q hq hl).2 h6⟩, if_pos ⟨hq, h6⟩]
              · rw [if_neg (fun h => h6 ((hmk q hq hl).1 h.2)), if_neg (fun h => h6 h.2)]
          · have h5 : q ≠ c :: done := by rintro rfl; exact hq hcst
            rw [if_neg (fun h => hq h.1), if_neg h5, if_neg (fun h => hq h.1)]
        · rw [h2, if_pos hstn]
          by_cases h5 : cs.reverse ++ c :: done = c :: done
          · rw [h5, if_neg (by simp)]
            simp [hself]
          · rw [if_pos (by simpa [h5] using hstn)]
            have hl : (c :: done).length < (cs.reverse ++ c :: done).length := by
              cases cs with
              | nil => exact absurd rfl h5
              | cons d ds => simp; omega
            simp only [hmk _ List.suffix_rfl hl]
        · rw [h3, if_pos hstn]
          by_cases h5 : cs.reverse ++ c :: done = c :: done
          · rw [h5, if_neg (by simp)]
            rw [h1, if_neg (fun h => not_makeable (by simp) h.2), if_pos rfl]
          · rw [if_pos (by simpa [h5] using hstn)]
      · rw [if_neg hok]
        simp only [hstn, and_true, if_true]
        have hno : ∀ q, c :: done <:+ q → ¬Makeable fails t q := by
          intro q hq h
          rw [makeable_iff hw hd hn hq] at h
          exact hok ⟨h.1, h.2 _ hq (by simp)⟩
        refine ⟨?_, ?_⟩
        · intro q
          rw [if_neg]
          rintro ⟨h1, h2⟩
          by_cases hl : q.length ≤ done.length
          · exact not_makeable (hlow q h1 hl) h2
          · exact hno q (suffix_total hcst h1 (by simp; omega)) h2
        · simp [hno _ hcst]
    · rw [walk, if_neg hn]
      exact ih (c :: done) created t info hw hn

/-! ### C142: `mkdirs` -/

theorem names_clean {st : List (List Char)} (h : ∀ c ∈ st, IsName c) : Clean st := fun c hc => ⟨(h c hc).1, (h c hc).2.1⟩

theorem names_nul {st : List (List Char)} (h : ∀ c ∈ st, IsName c) : nul ∉ render st := by
  unfold render
  split
  · decide
  · exact nul_body fun c hc => (h c hc).2.2.1

open Classical in
/-- **C142.** `mkdirs` makes exactly the missing folders on the way that can be made (each needs the ones before it),
changes nothing else in the file system, returns whether the whole path was made by this call, and leaves the object with
its string and with fresh information about its path.  It never writes outside of the string. -/
theorem C142_mkdirs (fails : List (List Char) → Bool) (t : Tree) (hw : WF t) (st : List (List Char)) (hst : ∀ c ∈ st, IsName c)
    (e : Entry) (junk : List Char) (hm : e.obj.mem = render st ++ nul :: junk) :
    ∃ t', mkdirs fails t e = some (decide (Makeable fails t st), t', ⟨e.obj, t' st⟩) ∧
      ∀ q, t' q = if q <:+ st ∧ Makeable fails t q then some (.folder true) else t q := by
  have hcl := names_clean hst
  have hnul := names_nul hst
  have habs : cstr e.obj.mem = some (render st) := by rw [hm, cstr_append _ _ hnul]
  have hstat : ∀ t : Tree, stat t (render st) = t st := by intro t; unfold stat; rw [place_render _ hcl]
  unfold mkdirs mkdir sysMkdir
  simp only [Obj.absolute, habs, Option.bind_eq_bind, Option.bind_some, Option.pure_def, place_render _ hcl, hstat]
  have hroot : t [] ≠ none := by obtain ⟨w, hw⟩ := hw.root; rw [hw]; simp
  cases st with
  | nil =>
    have hno : ∀ q, q <:+ ([] : List (List Char)) → ¬Makeable fails t q := by
      intro q hq
      rw [List.suffix_nil.1 hq]
      exact not_makeable hroot
    simp only [Bool.false_eq_true, if_false]
    refine ⟨t, ?_, fun q => (if_neg (fun h => hno q h.1 h.2)).symm⟩
    rw [show render [] = ['/'] from rfl, mkdirsLoop, if_neg (by decide)]
    simp only [Option.pure_def, Option.bind_some, poke]
    rw [show render [] = ['/'] from rfl] at hm
    rw [if_pos (by rw [hm]; simp)]
    simp only [Option.bind_some, hm]
    have : decide (Makeable fails t []) = false := by simpa using hno [] List.suffix_rfl
    rw [this]
    have he : e.obj = ⟨e.obj.mem, e.obj.file, e.obj.ext⟩ := rfl
    rw [he, hm]
    simp
  | cons c st =>
    simp only
    have hr : render (c :: st) = body (c :: st) := if_neg (by simp)
    by_cases hq : t (c :: st) = none ∧ t st = some (.folder true) ∧ fails (c :: st) = false
    · rw [if_pos hq]
      simp only [if_true]
      have hmk : Makeable fails t (c :: st) := by
        refine ⟨st, List.suffix_cons _ _, hq.2.1, hq.1, fun r hr hl => ?_⟩
        have : r = c :: st := hr.eq_of_length (by have := hr.length_le; simp at this ⊢; omega)
        rw [this]
        exact ⟨hq.1, hq.2.2⟩
      refine ⟨fun q => if q = c :: st then some (.folder true) else t q, by simp [hmk], fun q => ?_⟩
      show (if q = c :: st then some (.folder true) else t q) = _
      by_cases h1 : q = c :: st
      · rw [if_pos h1, if_pos ⟨by rw [h1]; exact List.suffix_rfl, by rw [h1]; exact hmk⟩]
      · rw [if_neg h1, if_neg]
        rintro ⟨h2, h3⟩
        rcases List.suffix_cons_iff.1 h2 with h2 | h2
        · exact h1 h2
        · exact not_makeable (hw.suffix h2 (by rw [hq.2.1]; simp)) h3
    · rw [if_neg hq]
      simp only [Bool.false_eq_true, if_false]
      have hj : body ((c :: st).reverse.reverse ++ []) = joined (c :: st).reverse := by
        rw [body_joined]; rfl
      rw [List.reverse_reverse, List.append_nil] at hj
      obtain ⟨h1, h2, h3⟩ := walk_spec fails (c :: st).reverse [] false t (t (c :: st)) hw hroot
      obtain ⟨y, hy⟩ := loop_walk fails (c :: st).reverse [] (by simpa using hcl)
        (by intro d hd; simp at hd; exact (hst d (by simpa using hd)).2.2.1) ((render (c :: st)).length + 1) (by
          rw [hr, hj]
          have : ∀ l : List (List Char), l.length ≤ (joined l).length := by
            intro l
            induction l with
            | nil => simp
            | cons d l ih => rw [joined_cons]; simp; omega
          have := this (c :: st).reverse
          omega) 1 (Or.inr ⟨rfl, rfl, by simp⟩) false t { e with info := t (c :: st) } nul junk
        (by rw [hm, hr, hj]; rfl) (fun _ => rfl)
      rw [show body [] ++ joined (c :: st).reverse = render (c :: st) by rw [hr, hj]; rfl] at hy
      rw [hy]
      simp only [Option.bind_some, poke]
      rw [if_pos (by simp)]
      simp only [Option.bind_some]
      rw [List.reverse_reverse, List.append_nil] at h1 h2 h3
      refine ⟨(walk fails (c :: st).reverse [] false t (t (c :: st))).2.1, ?_, h1⟩
      have hset : (render (c :: st) ++ y :: junk).set (render (c :: st)).length nul = e.obj.mem := by
        rw [hm, List.set_append_right _ _ (Nat.le_refl _)]
        simp
      rw [hset]
      have e1 : (walk fails (c :: st).reverse [] false t (t (c :: st))).1 = decide (Makeable fails t (c :: st)) := by
        rw [h2]
        split
        · rfl
        · rename_i hne
          have := not_makeable (fails := fails) hne
          simp [this]
      have e2 : (walk fails (c :: st).reverse [] false t (t (c :: st))).2.2 =
          (walk fails (c :: st).reverse [] false t (t (c :: st))).2.1 (c :: st) := by
        rw [h3]
        split
        · rfl
        · rename_i hne
          rw [h1, if_neg (fun h => not_makeable hne h.2)]
      rw [e1, e2]

/-- **C142.** When only missing permissions can be in the way, `mkdirs` makes everything or nothing. -/
theorem C142_all_or_nothing (t : Tree) (hw : WF t) (st : List (List Char)) (hst : ∀ c ∈ st, IsName c)
    (e : Entry) (junk : List Char) (hm : e.obj.mem = render st ++ nul :: junk) (t' : Tree) (e' : Entry)
    (h : mkdirs (fun _ => false) t e = some (false, t', e')) : t' = t := by
  classical
  obtain ⟨t1, h1, h2⟩ := C142_mkdirs (fun _ => false) t hw st hst e junk hm
  rw [h1] at h
  simp only [Option.some.injEq, Prod.mk.injEq, decide_eq_false_iff_not] at h
  obtain ⟨hno, rfl, -⟩ := h
  funext q
  rw [h2, if_neg]
  rintro ⟨hq, base, hb, hb1, hb2, hb3⟩
  apply hno
  refine ⟨base, hb.trans hq, hb1, ?_, fun r hr hl => ⟨?_, rfl⟩⟩
  · by_contra hne
    exact hw.suffix hq hne hb2
  · by_cases hrq : r.length ≤ q.length
    · exact (hb3 r (suffix_total hr hq hrq) hl).1
    · by_contra hne
      exact hw.suffix (suffix_total hq hr (by omega)) hne hb2

/-- **C142.** What exists already is not made again: the result is `false`. -/
theorem C142_existing (fails : List (List Char) → Bool) (t : Tree) (hw : WF t) (st : List (List Char)) (hst : ∀ c ∈ st, IsName c)
    (e : Entry) (junk : List Char) (hm : e.obj.mem = render st ++ nul :: junk) (hex : t st ≠ none) :
    mkdirs fails t e = some (false, t, ⟨e.obj, t st⟩) := by
  classical
  obtain ⟨t1, h1, h2⟩ := C142_mkdirs fails t hw st hst e junk hm
  have : t1 = t := by
    funext q
    rw [h2, if_neg]
    rintro ⟨hq, h⟩
    exact not_makeable (hw.suffix hq hex) h
  rw [h1, this]
  simp [not_makeable hex]

/-! ### C143: what a `File` knows -/

theorem split_pieces (s : List Char) : split s = pieces s := by
  induction s with
  | nil => rfl
  | cons c s ih => rw [split, pieces, ih]; rfl

theorem toSlash_name {c : List Char} (h : '\\' ∉ c) : c.map toSlash = c := by
  have : ∀ x ∈ c, toSlash x = id x := by
    intro x hx
    unfold toSlash
    rw [if_neg (by rintro rfl; exact h hx)]; rfl
  rw [List.map_congr_left this, List.map_id]

theorem toSlash_body {st : List (List Char)} (h : ∀ c ∈ st, IsName c) : (body st).map toSlash = body st := by
  induction st with
  | nil => rfl
  | cons c st ih =>
    rw [body, List.map_append, ih (fun d hd => h d (List.mem_cons_of_mem _ hd)), List.map_cons,
      toSlash_name (h c List.mem_cons_self).2.2.2.1]
    rfl

theorem resolve_names (cs st : List (List Char)) (h : ∀ c ∈ cs, IsName c) :
    resolve st cs = cs.reverse ++ st ∧ PopsLong st cs := by
  induction cs generalizing st with
  | nil => exact ⟨rfl, trivial⟩
  | cons c cs ih =>
    obtain ⟨h1, -, -, -, h2, h3⟩ := h c List.mem_cons_self
    have := ih (c :: st) fun d hd => h d (List.mem_cons_of_mem _ hd)
    rw [resolve, PopsLong, if_neg (by tauto), if_neg h3, if_neg (by tauto), if_neg h3]
    refine ⟨?_, this.2⟩
    rw [this.1]; simp

/-- The constructor on the path of a place, also with a doubled separator behind the root. -/
theorem ctorString_names (cwd : List Char) (c : List Char) (st : List (List Char)) (h : ∀ d ∈ c :: st, IsName d) :
    ctorString cwd (render st ++ '/' :: c) = some (body (c :: st)) := by
  have hn : nul ∉ render st ++ '/' :: c := by
    rw [List.mem_append, List.mem_cons]
    rintro (h1 | h1 | h1)
    · exact names_nul (fun d hd => h d (List.mem_cons_of_mem _ hd)) h1
    · exact absurd h1 (by decide)
    · exact (h c List.mem_cons_self).2.2.1 h1
  have hts : (render st ++ '/' :: c).map toSlash = render st ++ '/' :: c := by
    rw [List.map_append, List.map_cons, toSlash_name (h c List.mem_cons_self).2.2.2.1]
    congr 1
    unfold render
    split
    · decide
    · exact toSlash_body fun d hd => h d (List.mem_cons_of_mem _ hd)
  have hcl : Clean (c :: st) := names_clean h
  have hsp : ∃ k, split (render st ++ '/' :: c) = List.replicate (k + 1) [] ++ (c :: st).reverse := by
    rw [split_pieces, pieces_append _ _ (hcl c List.mem_cons_self).2]
    unfold render
    split
    · rename_i e; subst e; exact ⟨1, by simp [pieces]⟩
    · exact ⟨0, by rw [pieces_body _ (fun d hd => hcl d (List.mem_cons_of_mem _ hd))]; simp⟩
  obtain ⟨k, hk⟩ := hsp
  have hpad : ∀ (k : Nat) (cs s : List (List Char)), resolve s (List.replicate k [] ++ cs) = resolve s cs ∧
      (PopsLong s cs → PopsLong s (List.replicate k [] ++ cs)) := by
    intro k
    induction k with
    | zero => intro cs s; exact ⟨rfl, id⟩
    | succ k ih =>
      intro cs s
      rw [List.replicate_succ, List.cons_append, resolve, PopsLong, if_pos (Or.inl rfl), if_pos (Or.inl rfl)]
      exact ih cs s
  have hres := resolve_names (c :: st).reverse [] (by intro d hd; exact h d (List.mem_reverse.1 hd))
  have hfin : resolve [] (split (render st ++ '/' :: c)) = c :: st := by
    rw [hk, (hpad _ _ _).1, hres.1]; simp
  have habs : isAbsolute (render st ++ '/' :: c) = true := by
    have hbody : ∀ st : List (List Char), st ≠ [] → ∃ r, body st = '/' :: r := by
      intro st
      induction st with
      | nil => simp
      | cons d ds ih =>
        intro _
        cases ds with
        | nil => exact ⟨d, rfl⟩
        | cons x xs =>
          obtain ⟨r, hr⟩ := ih (by simp)
          exact ⟨r ++ '/' :: d, by rw [body, hr]; rfl⟩
    unfold render
    split
    · rfl
    · rename_i hne
      obtain ⟨r, hr⟩ := hbody st hne
      rw [hr]; rfl
  have := C48_absolute_partial cwd (render st ++ '/' :: c) hn habs (by rw [hts, hk]; exact (hpad _ _ _).2 hres.2)
    (by rw [hts, hfin]; left; simp)
  rw [this, hts, hfin]
  rfl

/-- `is_folder` and `is_file` say what is at the place `st`. -/
def Knows (t : Tree) (e : Entry) (st : List (List Char)) : Prop :=
  (e.isFolder = true ↔ ∃ w, t st = some (.folder w)) ∧ (e.isFile = true ↔ t st = some .file)

theorem knows_of_info {t : Tree} {e : Entry} {st : List (List Char)} (h : e.info = t st) : Knows t e st := by
  unfold Knows Entry.isFolder Entry.isFile
  rw [h]
  cases t st with
  | none => simp
  | some k => cases k <;> simp

theorem ctor_names (t : Tree) (cwd c : List Char) (st : List (List Char)) (h : ∀ d ∈ c :: st, IsName d) :
    ∃ o, mkObj (body (c :: st)) = some o ∧ Denotes o c st ∧ ctor t cwd (render st ++ '/' :: c) = some ⟨o, t (c :: st)⟩ := by
  obtain ⟨o, h1, h2⟩ := mkObj_denotes c st ⟨by simp, h⟩
  refine ⟨o, h1, h2, ?_⟩
  unfold ctor
  rw [ctorString_names cwd c st h]
  simp only [Option.bind_eq_bind, Option.bind_some, h1, Option.pure_def]
  unfold stat
  rw [place_body _ (names_clean h)]

/-- **C143.** A new `File` knows what is at its path; so do its copies; and `mkdirs` keeps that. -/
theorem C143_known (t : Tree) (cwd c : List Char) (st : List (List Char)) (h : ∀ d ∈ c :: st, IsName d) :
    ∃ e, ctor t cwd (render st ++ '/' :: c) = some e ∧ e.obj.absolute = some (body (c :: st)) ∧ Knows t e (c :: st) ∧
      e.present t = some (t (c :: st)).isSome ∧
      (∃ e', copyEntry e = some e' ∧ e'.obj.absolute = some (body (c :: st)) ∧ Knows t e' (c :: st)) ∧
      ∀ fails, WF t → ∃ b t' e', mkdirs fails t e = some (b, t', e') ∧ e'.obj.absolute = some (body (c :: st)) ∧
        Knows t' e' (c :: st) ∧ (b = true → e'.isFolder = true) := by
  obtain ⟨o, h1, h2, h3⟩ := ctor_names t cwd c st h
  refine ⟨⟨o, t (c :: st)⟩, h3, h2.1, knows_of_info rfl, ?_, ?_, ?_⟩
  · unfold Entry.present stat
    rw [h2.1]
    simp only [Option.map_some, place_body _ (names_clean h)]
  · obtain ⟨x, -, hc, -⟩ := parent_step o c st h2 (h c List.mem_cons_self)
    refine ⟨_, by unfold copyEntry; rw [hc]; rfl, ?_, knows_of_info rfl⟩
    unfold Obj.absolute
    have := nul_body (st := c :: st) fun d hd => (h d hd).2.2.1
    rw [body] at this ⊢
    exact cstr_append _ [] this
  · intro fails hw
    classical
    have habs := h2.1
    unfold Obj.absolute at habs
    obtain ⟨junk, hj, -⟩ := cstr_some habs
    obtain ⟨t', h4, h5⟩ := C142_mkdirs fails t hw (c :: st) h ⟨o, t (c :: st)⟩ junk hj
    refine ⟨_, t', _, h4, h2.1, knows_of_info rfl, ?_⟩
    intro hb
    rw [decide_eq_true_eq] at hb
    unfold Entry.isFolder
    simp only
    rw [h5, if_pos ⟨List.suffix_rfl, hb⟩]

/-- **C143.** The parent of a folder is known to be a folder. -/
theorem C143_parent_partial (t : Tree) (cwd c : List Char) (st : List (List Char)) (h : ∀ d ∈ c :: st, IsName d) (hw : WF t)
    (w : Bool) (hf : t (c :: st) = some (.folder w)) :
    ∃ e p, ctor t cwd (render st ++ '/' :: c) = some e ∧ parentEntry e = some p ∧ p.obj.absolute = some (render st) ∧
      Knows t p st := by
  obtain ⟨o, h1, h2, h3⟩ := ctor_names t cwd c st h
  obtain ⟨g, hg, ha⟩ := C49_absolute o c st h2 ⟨by simp, h⟩
  refine ⟨_, ⟨g, t (c :: st)⟩, h3, by unfold parentEntry; rw [hg]; rfl, ha, ?_⟩
  obtain ⟨w', hw'⟩ := hw.up c st (by rw [hf]; simp)
  unfold Knows Entry.isFolder Entry.isFile
  simp [hf, hw']

/-- **C143.** After `append` with a name, a `File` of whatever was known before has the longer path and knows what is
there. -/
theorem C143_append (t : Tree) (c : List Char) (st : List (List Char)) (hst : IsDir st) (hc : IsName c) (e : Entry)
    (he : e.obj.absolute = some (render st)) :
    ∃ e', appendEntry t e c = some e' ∧ e'.obj.absolute = some (render (c :: st)) ∧ Knows t e' (c :: st) := by
  have h : ∀ d ∈ c :: st, IsName d := by
    intro d hd
    rcases List.mem_cons.1 hd with rfl | hd
    · exact hc
    · exact hst.2 d hd
  obtain ⟨o, h1, h2⟩ := mkObj_denotes c st ⟨by simp, h⟩
  have hr : render (c :: st) = body (c :: st) := by simp [render]
  refine ⟨⟨o, t (c :: st)⟩, ?_, by rw [hr]; exact h2.1, knows_of_info rfl⟩
  unfold appendEntry
  rw [he]
  simp only [Option.bind_eq_bind, Option.bind_some, append_name st hst c hc, hr, h1, Option.pure_def]
  unfold stat
  rw [place_body _ (names_clean h)]

/-- **C143, violated.** The parent of a file claims to be a file and not to be a folder; and the parent of something missing
claims to be neither, although it may exist. -/
theorem C143_violated_parent (t : Tree) (cwd c : List Char) (st : List (List Char)) (h : ∀ d ∈ c :: st, IsName d)
    (hf : t (c :: st) = some .file ∨ t (c :: st) = none) (w : Bool) (hst : t st = some (.folder w)) :
    ∃ e p, ctor t cwd (render st ++ '/' :: c) = some e ∧ parentEntry e = some p ∧ p.obj.absolute = some (render st) ∧
      p.present t = some true ∧ p.isFolder = false ∧ (t (c :: st) = some .file → p.isFile = true) ∧ ¬Knows t p st ∧
      ∀ names, ls t p names = some [] := by
  obtain ⟨o, h1, h2, h3⟩ := ctor_names t cwd c st h
  obtain ⟨g, hg, ha⟩ := C49_absolute o c st h2 ⟨by simp, h⟩
  have hfo : (⟨g, t (c :: st)⟩ : Entry).isFolder = false := by
    unfold Entry.isFolder
    rcases hf with hf | hf <;> simp [hf]
  refine ⟨_, ⟨g, t (c :: st)⟩, h3, by unfold parentEntry; rw [hg]; rfl, ha, ?_, hfo, ?_, ?_, ?_⟩
  · unfold Entry.present stat
    rw [ha]
    simp only [Option.map_some, place_render _ (names_clean fun d hd => h d (List.mem_cons_of_mem _ hd)), hst]
    rfl
  · intro hf
    unfold Entry.isFile
    simp [hf]
  · rintro ⟨hk, -⟩
    rw [hfo] at hk
    simp [hst] at hk
  · intro names
    unfold ls
    rw [ha]
    simp [hfo]

/-! ### C144: `ls` -/

/-- What is in the list for a name. -/
def Lists (t : Tree) (st : List (List Char)) (c : List Char) (e : Entry) : Prop :=
  e.obj.absolute = some (body (c :: st)) ∧ e.obj.filename = some c ∧ e.info = t (c :: st)

theorem lsLoop_spec (t : Tree) (st : List (List Char)) (hst : ∀ d ∈ st, IsName d) (names : List (List Char))
    (hn : ∀ c ∈ names, c = ['.'] ∨ c = ['.', '.'] ∨ IsName c) (allocated : Nat) :
    ∃ es, lsLoop t (render st) allocated names = some es ∧
      List.Forall₂ (Lists t st) (names.filter fun c => c ≠ ['.'] ∧ c ≠ ['.', '.']) es := by
  induction names generalizing allocated with
  | nil => exact ⟨[], rfl, List.Forall₂.nil⟩
  | cons c cs ih =>
    rw [lsLoop]
    generalize hal : (if (render st).length + 1 + 2 + c.length ≥ allocated then (render st).length + 1 + 2 + c.length
      else allocated) = al
    have hle : (render st).length + 1 + 2 + c.length ≤ al := by
      rw [← hal]; split <;> omega
    obtain ⟨es, h1, h2⟩ := ih (fun d hd => hn d (List.mem_cons_of_mem _ hd)) al
    by_cases hc : c ≠ ['.'] ∧ c ≠ ['.', '.']
    · have hname : IsName c := by
        rcases hn c List.mem_cons_self with h | h | h
        · exact absurd h hc.1
        · exact absurd h hc.2
        · exact h
      have hall : ∀ d ∈ c :: st, IsName d := by
        intro d hd
        rcases List.mem_cons.1 hd with rfl | hd
        · exact hname
        · exact hst d hd
      obtain ⟨o, h3, h4, h5⟩ := ctor_names t [] c st hall
      rw [if_pos hc, if_pos (by simp; omega)]
      refine ⟨⟨o, t (c :: st)⟩ :: es, ?_, ?_⟩
      · simp only [h5, h1, Option.bind_eq_bind, Option.bind_some, Option.pure_def]
      · rw [List.filter_cons_of_pos (by simpa using hc)]
        exact List.Forall₂.cons ⟨h4.1, denotes_filename o c st h4 hname.2.2.1, rfl⟩ h2
    · rw [if_neg hc, List.filter_cons_of_neg (by simpa using hc)]
      exact ⟨es, h1, h2⟩

/-- **C144.** `ls` of a folder gives the files and folders in it, in the order of the system, without `.` and `..`; its
buffer is large enough for every name.  The names must be without backslash. -/
theorem C144_ls_partial (t : Tree) (st : List (List Char)) (hst : ∀ d ∈ st, IsName d) (e : Entry)
    (he : e.obj.absolute = some (render st)) (w : Bool) (hi : e.info = some (.folder w))
    (names : List Char → Option (List (List Char))) (l : List (List Char)) (hl : names (render st) = some l)
    (hn : ∀ c ∈ l, c = ['.'] ∨ c = ['.', '.'] ∨ IsName c) :
    ∃ es, ls t e names = some es ∧ List.Forall₂ (Lists t st) (l.filter fun c => c ≠ ['.'] ∧ c ≠ ['.', '.']) es := by
  obtain ⟨es, h1, h2⟩ := lsLoop_spec t st hst l hn ((render st).length + 255)
  refine ⟨es, ?_, h2⟩
  unfold ls Entry.isFolder
  simp only [he, hi, hl, h1, Option.bind_eq_bind, Option.bind_some, if_true]

/-- **C144.** What is no folder, or cannot be opened, has no entries. -/
theorem C144_none (t : Tree) (e : Entry) (s : List Char) (he : e.obj.absolute = some s)
    (names : List Char → Option (List (List Char))) (h : e.isFolder = false ∨ names s = none) : ls t e names = some [] := by
  unfold ls
  simp only [he, Option.bind_eq_bind, Option.bind_some]
  rcases h with h | h
  · rw [h]; simp
  · split
    · rw [h]; rfl
    · rfl

/-- **C144, violated.** A name with a backslash is listed as a path with one more folder. -/
theorem C144_violated (t : Tree) (e : Entry) (he : e.obj.absolute = some ['/', 'd']) (hi : e.info = some (.folder true)) :
    ∃ e', ls t e (fun _ => some [['a', '\\', 'b']]) = some [e'] ∧ e'.obj.absolute = some ['/', 'd', '/', 'a', '/', 'b'] := by
  have hc : ctorString [] ['/', 'd', '/', 'a', '\\', 'b'] = some ['/', 'd', '/', 'a', '/', 'b'] := by decide +kernel
  have hm : mkObj ['/', 'd', '/', 'a', '/', 'b'] = some ⟨['/', 'd', '/', 'a', '/', 'b', nul], 5, 6⟩ := by decide +kernel
  refine ⟨⟨⟨['/', 'd', '/', 'a', '/', 'b', nul], 5, 6⟩, stat t ['/', 'd', '/', 'a', '/', 'b']⟩, ?_,
    show cstr ['/', 'd', '/', 'a', '/', 'b', nul] = _ by decide +kernel⟩
  unfold ls Entry.isFolder
  simp only [he, hi, Option.bind_eq_bind, Option.bind_some, if_true, lsLoop]
  simp [ctor, hc, hm]

/-! ### C145: assignment -/

/-- Every object has a string of its own. -/
structure Valid (h : Heap) (os : Objects) : Prop where
  string : ∀ k p, os k = some p → ∃ s, h.string p.absolute = some s
  own : ∀ k j p q, os k = some p → os j = some q → p.absolute = q.absolute → k = j
  fresh : ∀ b, h.next ≤ b → h.block b = none

theorem readString_map (s : List Char) (h : nul ∉ s) : readString ((s ++ [nul]).map some) = some s := by
  induction s with
  | nil => simp [readString]
  | cons c s ih =>
    rw [List.cons_append, List.map_cons, readString, if_neg (by rintro rfl; exact h List.mem_cons_self),
      ih (fun hm => h (List.mem_cons_of_mem _ hm))]
    rfl

theorem readString_nul {m : List (Option Char)} {s : List Char} (h : readString m = some s) : nul ∉ s := by
  induction m generalizing s with
  | nil => cases h
  | cons o m ih =>
    cases o with
    | none => cases h
    | some c =>
      rw [readString] at h
      split at h
      · injection h with h; subst h; simp
      · rename_i hc
        cases hm : readString m with
        | none => rw [hm] at h; cases h
        | some s' =>
          rw [hm] at h
          injection h with h
          subst h
          rw [List.mem_cons]
          rintro (e | e)
          · exact hc e.symm
          · exact ih hm e

theorem string_nul {h : Heap} {b : Nat} {s : List Char} (hs : h.string b = some s) : nul ∉ s := by
  unfold Heap.string at hs
  cases hb : h.block b with
  | none => rw [hb] at hs; cases hs
  | some m => rw [hb] at hs; exact readString_nul hs

theorem string_old {h : Heap} (hf : ∀ b, h.next ≤ b → h.block b = none) {b : Nat} {s : List Char} (hs : h.string b = some s) :
    b ≠ h.next := by
  rintro rfl
  unfold Heap.string at hs
  rw [hf _ (Nat.le_refl _)] at hs
  cases hs

/-- The assignment of another object, computed. -/
theorem assign_eq {h : Heap} {os : Objects} (hv : Valid h os) {dst src : Nat} (hne : dst ≠ src) {d p : Ptr}
    (hd : os dst = some d) (hp : os src = some p) {s : List Char} (hs : h.string p.absolute = some s) :
    assign h os dst src = some (⟨fun c => if c = h.next then some ((s ++ [nul]).map some) else h.block c, h.next + 1⟩,
      fun k => if k = dst then some ⟨h.next, p.file, p.ext, p.info⟩ else os k) := by
  have hold := string_old hv.fresh hs
  have hs1 : Heap.string ⟨fun b => if b = h.next then some (List.replicate (s.length + 1) none) else h.block b, h.next + 1⟩
      p.absolute = some s := by
    unfold Heap.string at hs ⊢
    simp only [if_neg hold, hs]
  unfold assign Heap.malloc
  simp only [hd, hp, hs, Option.bind_eq_bind, Option.bind_some, if_neg hne.symm, hs1, Option.pure_def, Option.some.injEq,
    Prod.mk.injEq, Heap.mk.injEq, and_true]
  constructor
  · funext c
    by_cases hc : c = h.next <;> simp [hc]
  · funext k
    by_cases hk : k = dst <;> simp [hk]

/-- **C145.** The assignment of another object gives a copy with the same string, name and extension, in memory of its own:
all objects keep their strings, and each can be destroyed without harm to the others. -/
theorem C145_assign_partial (h : Heap) (os : Objects) (hv : Valid h os) (dst src : Nat) (hne : dst ≠ src) (d p : Ptr)
    (hd : os dst = some d) (hp : os src = some p) :
    ∃ h' os' d', assign h os dst src = some (h', os') ∧ Valid h' os' ∧ os' dst = some d' ∧
      h'.string d'.absolute = h.string p.absolute ∧ d'.file = p.file ∧ d'.ext = p.ext ∧ d'.info = p.info ∧
      (∀ k, k ≠ dst → os' k = os k) ∧ ∀ b, h.block b ≠ none → h'.block b = h.block b := by
  obtain ⟨s, hs⟩ := hv.string src p hp
  have hnul := string_nul hs
  have hlt : ∀ k q, os k = some q → q.absolute ≠ h.next := by
    intro k q hq
    obtain ⟨s', hs'⟩ := hv.string k q hq
    exact string_old hv.fresh hs'
  refine ⟨_, _, ⟨h.next, p.file, p.ext, p.info⟩, assign_eq hv hne hd hp hs, ⟨?_, ?_, ?_⟩, by simp, ?_, rfl, rfl, rfl, ?_, ?_⟩
  · intro k q hq
    by_cases hk : k = dst
    · rw [if_pos hk] at hq
      injection hq with hq
      subst hq
      exact ⟨s, by simp only [Heap.string, if_true, Option.bind_some]; exact readString_map s hnul⟩
    · rw [if_neg hk] at hq
      obtain ⟨s', hs'⟩ := hv.string k q hq
      refine ⟨s', ?_⟩
      unfold Heap.string at hs' ⊢
      simp only [if_neg (hlt k q hq), hs']
  · intro k j q r hq hr he
    by_cases hk : k = dst <;> by_cases hj : j = dst
    · rw [hk, hj]
    · rw [if_pos hk] at hq; rw [if_neg hj] at hr
      injection hq with hq
      subst hq
      exact absurd he.symm (hlt j r hr)
    · rw [if_neg hk] at hq; rw [if_pos hj] at hr
      injection hr with hr
      subst hr
      exact absurd he (hlt k q hq)
    · rw [if_neg hk] at hq; rw [if_neg hj] at hr
      exact hv.own k j q r hq hr he
  · intro b hb
    simp only at hb ⊢
    rw [if_neg (by omega)]
    exact hv.fresh b (by omega)
  · rw [hs]
    simp only [Heap.string, if_true, Option.bind_some]
    exact readString_map s hnul
  · intro k hk
    simp [hk]
  · intro b hb
    have : b ≠ h.next := by rintro rfl; exact hb (hv.fresh _ (Nat.le_refl _))
    simp [this]

/-- **C145.** Destroying an object keeps all others. -/
theorem C145_destroy (h : Heap) (os : Objects) (hv : Valid h os) (k : Nat) (p : Ptr) (hp : os k = some p) :
    ∃ h' os', destroy h os k = some (h', os') ∧ Valid h' os' ∧ os' k = none ∧ h'.block p.absolute = none ∧
      ∀ j q, j ≠ k → os j = some q → os' j = some q ∧ h'.string q.absolute = h.string q.absolute := by
  obtain ⟨s, hs⟩ := hv.string k p hp
  have hb : (h.block p.absolute).isSome = true := by
    unfold Heap.string at hs
    cases hb : h.block p.absolute with
    | none => rw [hb] at hs; cases hs
    | some m => rfl
  have hoth : ∀ j q, j ≠ k → os j = some q → q.absolute ≠ p.absolute := by
    intro j q hj hq he
    exact hj (hv.own j k q p hq hp he)
  have hstr : ∀ j q, j ≠ k → os j = some q →
      Heap.string ⟨fun c => if c = p.absolute then none else h.block c, h.next⟩ q.absolute = h.string q.absolute := by
    intro j q hj hq
    unfold Heap.string
    simp only [if_neg (hoth j q hj hq)]
  refine ⟨⟨fun c => if c = p.absolute then none else h.block c, h.next⟩, fun j => if j = k then none else os j, ?_,
    ⟨?_, ?_, ?_⟩, by simp, by simp, ?_⟩
  · unfold destroy Heap.free
    simp only [hp, Option.bind_eq_bind, Option.bind_some, hb, if_true, Option.pure_def]
  · intro j q hq
    by_cases hj : j = k
    · rw [if_pos hj] at hq; cases hq
    · rw [if_neg hj] at hq
      rw [hstr j q hj hq]
      exact hv.string j q hq
  · intro i j q r hq hr he
    by_cases hi : i = k
    · rw [if_pos hi] at hq; cases hq
    · by_cases hj : j = k
      · rw [if_pos hj] at hr; cases hr
      · rw [if_neg hi] at hq; rw [if_neg hj] at hr
        exact hv.own i j q r hq hr he
  · intro b hb
    simp only
    split
    · rfl
    · exact hv.fresh b hb
  · intro j q hj hq
    exact ⟨by simp [hj, hq], hstr j q hj hq⟩

/-- **C145.** A new object made from another one is a copy in memory of its own. -/
theorem C145_copy (h : Heap) (os : Objects) (hv : Valid h os) (k src : Nat) (p : Ptr)
    (hp : os src = some p) :
    ∃ h' os' d', copyInto h os k src = some (h', os') ∧ Valid h' os' ∧ os' k = some d' ∧
      h'.string d'.absolute = h.string p.absolute ∧ d'.file = p.file ∧ d'.ext = p.ext ∧ d'.info = p.info ∧
      (∀ j, j ≠ k → os' j = os j) ∧ (∀ b, h.block b ≠ none → h'.block b = h.block b) ∧
      ∀ b, h'.block b ≠ none → h.block b ≠ none ∨ b = d'.absolute := by
  obtain ⟨s, hs⟩ := hv.string src p hp
  have hnul := string_nul hs
  have hlt : ∀ k q, os k = some q → q.absolute ≠ h.next := by
    intro k q hq
    obtain ⟨s', hs'⟩ := hv.string k q hq
    exact string_old hv.fresh hs'
  refine ⟨⟨fun b => if b = h.next then some ((s ++ [nul]).map some) else h.block b, h.next + 1⟩,
    fun j => if j = k then some ⟨h.next, p.file, p.ext, p.info⟩ else os j, ⟨h.next, p.file, p.ext, p.info⟩, ?_,
    ⟨?_, ?_, ?_⟩, by simp, ?_, rfl, rfl, rfl, fun j hj => by simp [hj], ?_, ?_⟩
  · unfold copyInto Heap.store
    simp only [hp, hs, Option.bind_eq_bind, Option.bind_some, Option.pure_def]
  · intro j q hq
    by_cases hj : j = k
    · rw [if_pos hj] at hq
      injection hq with hq
      subst hq
      exact ⟨s, by simp only [Heap.string, if_true, Option.bind_some]; exact readString_map s hnul⟩
    · rw [if_neg hj] at hq
      obtain ⟨s', hs'⟩ := hv.string j q hq
      refine ⟨s', ?_⟩
      unfold Heap.string at hs' ⊢
      simp only [if_neg (hlt j q hq), hs']
  · intro i j q r hq hr he
    by_cases hi : i = k <;> by_cases hj : j = k
    · rw [hi, hj]
    · rw [if_pos hi] at hq; rw [if_neg hj] at hr
      injection hq with hq
      subst hq
      exact absurd he.symm (hlt j r hr)
    · rw [if_neg hi] at hq; rw [if_pos hj] at hr
      injection hr with hr
      subst hr
      exact absurd he (hlt i q hq)
    · rw [if_neg hi] at hq; rw [if_neg hj] at hr
      exact hv.own i j q r hq hr he
  · intro b hb
    simp only at hb ⊢
    rw [if_neg (by omega)]
    exact hv.fresh b (by omega)
  · rw [hs]
    simp only [Heap.string, if_true, Option.bind_some]
    exact readString_map s hnul
  · intro b hb
    have : b ≠ h.next := by rintro rfl; exact hb (hv.fresh _ (Nat.le_refl _))
    simp [this]
  · intro b hb
    by_cases h1 : b = h.next
    · right; exact h1
    · left; simpa [h1] using hb

/-- **C145, violated.** The string that the object had before an assignment is never freed: no object owns it afterwards. -/
theorem C145_violated_leak (h : Heap) (os : Objects) (hv : Valid h os) (dst src : Nat) (hne : dst ≠ src) (d p : Ptr)
    (hd : os dst = some d) (hp : os src = some p) :
    ∃ h' os', assign h os dst src = some (h', os') ∧ h'.block d.absolute ≠ none ∧
      ∀ k q, os' k = some q → q.absolute ≠ d.absolute := by
  obtain ⟨s, hs⟩ := hv.string src p hp
  obtain ⟨s', hs'⟩ := hv.string dst d hd
  have hold := string_old hv.fresh hs'
  refine ⟨_, _, assign_eq hv hne hd hp hs, ?_, ?_⟩
  · simp only [if_neg hold]
    intro e
    unfold Heap.string at hs'
    rw [e] at hs'
    cases hs'
  · intro k q hq he
    by_cases hk : k = dst
    · rw [if_pos hk] at hq
      injection hq with hq
      subst hq
      exact hold he.symm
    · rw [if_neg hk] at hq
      exact hk (hv.own k dst q d hq hd he)

/-- **C145, violated.** The assignment of an object to itself copies memory that nothing was written to. -/
theorem C145_violated_self (h : Heap) (os : Objects) (k : Nat) : assign h os k k = none := by
  unfold assign Heap.malloc
  cases hk : os k with
  | none => rfl
  | some p =>
    simp only [Option.bind_eq_bind, Option.bind_some]
    cases hs : h.string p.absolute with
    | none => rfl
    | some s =>
      simp only [Option.bind_some, if_true, Heap.string, List.replicate_succ, readString, Option.bind_none]

/-! ### Examples -/

/-- The folders `/` and `/home`, and the file `/home/f`. -/
def home : Tree := fun q =>
  if q = [] then some (.folder true) else if q = [['h', 'o']] then some (.folder true)
  else if q = [['f'], ['h', 'o']] then some .file else none

theorem home_wf : WF home := by
  refine ⟨⟨true, rfl⟩, ?_⟩
  intro c st h
  unfold home at h ⊢
  by_cases h1 : c :: st = [['h', 'o']]
  · injection h1 with _ h1
    subst h1
    exact ⟨true, rfl⟩
  · by_cases h2 : c :: st = [['f'], ['h', 'o']]
    · injection h2 with _ h2
      subst h2
      exact ⟨true, rfl⟩
    · simp [h1, h2] at h

example : ∃ t' e', mkdirs (fun _ => false) home ⟨⟨['/', 'h', 'o', '/', 'a', '/', 'b', nul], 6, 7⟩, none⟩ = some (true, t', e') ∧
    t' [['a'], ['h', 'o']] = some (.folder true) ∧ t' [['b'], ['a'], ['h', 'o']] = some (.folder true) ∧
    e'.info = some (.folder true) := by
  classical
  have hn : ∀ c ∈ [['b'], ['a'], ['h', 'o']], IsName c := by unfold IsName; decide
  obtain ⟨t', h1, h2⟩ := C142_mkdirs (fun _ => false) home home_wf [['b'], ['a'], ['h', 'o']] hn
    ⟨⟨['/', 'h', 'o', '/', 'a', '/', 'b', nul], 6, 7⟩, none⟩ [] rfl
  have hd : home [['h', 'o']] ≠ none := by decide
  have ha : home [['a'], ['h', 'o']] = none := by decide
  have m1 : Makeable (fun _ => false) home [['a'], ['h', 'o']] :=
    (makeable_iff home_wf hd ha List.suffix_rfl).2 ⟨rfl, fun _ _ _ => rfl⟩
  have m2 : Makeable (fun _ => false) home [['b'], ['a'], ['h', 'o']] :=
    (makeable_iff home_wf hd ha (List.suffix_cons _ _)).2 ⟨rfl, fun _ _ _ => rfl⟩
  have e2 := h2 [['b'], ['a'], ['h', 'o']]
  rw [if_pos ⟨List.suffix_rfl, m2⟩] at e2
  refine ⟨t', ⟨⟨['/', 'h', 'o', '/', 'a', '/', 'b', nul], 6, 7⟩, t' [['b'], ['a'], ['h', 'o']]⟩,
    by rw [h1]; simp only [m2, decide_true], ?_, e2, e2⟩
  rw [h2, if_pos ⟨List.suffix_cons _ _, m1⟩]

example : ∃ e p, ctor home [] ['/', 'h', 'o', '/', 'f'] = some e ∧ e.isFile = true ∧ parentEntry e = some p ∧
    p.obj.absolute = some ['/', 'h', 'o'] ∧ p.isFolder = false := by
  obtain ⟨e, p, h1, h2, h3, -, h5, -⟩ := C143_violated_parent home [] ['f'] [['h', 'o']] (by unfold IsName; decide) (Or.inl rfl)
    true rfl
  obtain ⟨e', k1, -, k2, -⟩ := C143_known home [] ['f'] [['h', 'o']] (by unfold IsName; decide)
  rw [h1] at k1
  injection k1 with k1
  subst k1
  exact ⟨e, p, h1, k2.2.2 rfl, h2, h3, h5⟩

example : ∃ es, ls home ⟨⟨['/', 'h', 'o', nul], 1, 3⟩, some (.folder true)⟩ (fun _ => some [['.'], ['.', '.'], ['f']]) = some es ∧
    List.Forall₂ (Lists home [['h', 'o']]) [['f']] es :=
  C144_ls_partial home [['h', 'o']] (by unfold IsName; decide) ⟨⟨['/', 'h', 'o', nul], 1, 3⟩, some (.folder true)⟩
    (by decide +kernel) true rfl _ [['.'], ['.', '.'], ['f']] rfl (by unfold IsName; decide)

/-- Two objects with the strings `/a` and `/b`. -/
example : ∃ h os, Valid h os ∧ os 0 = some ⟨0, 1, 2, none⟩ ∧ os 1 = some ⟨1, 1, 2, none⟩ ∧
    h.string 0 = some ['/', 'a'] ∧ h.string 1 = some ['/', 'b'] := by
  refine ⟨⟨fun b => if b = 0 then some [some '/', some 'a', some nul] else if b = 1 then some [some '/', some 'b', some nul]
    else none, 2⟩, fun k => if k = 0 then some ⟨0, 1, 2, none⟩ else if k = 1 then some ⟨1, 1, 2, none⟩ else none,
    ⟨?_, ?_, ?_⟩, rfl, rfl, by decide, by decide⟩
  · intro k p hp
    by_cases h0 : k = 0
    · simp [h0] at hp; subst hp; exact ⟨['/', 'a'], by decide⟩
    · by_cases h1 : k = 1
      · simp [h1] at hp; subst hp; exact ⟨['/', 'b'], by decide⟩
      · simp [h0, h1] at hp
  · intro k j p q hp hq he
    by_cases h0 : k = 0 <;> by_cases h1 : k = 1 <;> by_cases h2 : j = 0 <;> by_cases h3 : j = 1 <;>
      simp_all <;> (subst hp; subst hq; simp at he)
  · intro b hb
    simp only at hb ⊢
    rw [if_neg (by omega), if_neg (by omega)]

end Spectre.Fsys
