import Verif.Props.Obj
import Verif.Model.Config
import Mathlib.Tactic.IntervalCases
import Mathlib.Tactic.Abel

/-
Theorems about faces and materials of wavefront files, Model/Obj.lean: C58-C60, C78, C79.
-/

namespace Spectre.Obj

variable {K : Type}

/-! ### C58: indices -/

/-- What an index designates: `i > 0` the `i`-th element, `i < 0` the `|i|`-th from the end. -/
def pick {α : Type} (l : List α) (i : Int) : Option α :=
  if 0 < i then l[i.toNat - 1]? else if i < 0 then l.reverse[(-i).toNat - 1]? else none

theorem pick_isSome {α : Type} (l : List α) (i : Int) :
    (pick l i).isSome ↔ i ≠ 0 ∧ -(l.length : Int) ≤ i ∧ i ≤ l.length := by
  unfold pick
  split
  · simp; omega
  · split
    · simp; omega
    · simp; omega

/-- **C58.**  An index which designates an element leads to this element, whatever the sign. -/
theorem C58_fetch {α : Type} (l : List α) (i : Int) (old x : α) (h : pick l i = some x) :
    fetch l i old = .ok (some x) := by
  have hs : (pick l i).isSome := by rw [h]; rfl
  obtain ⟨h0, h1, h2⟩ := (pick_isSome l i).1 hs
  unfold pick at h
  unfold fetch resolve
  rw [if_neg h0]
  by_cases hp : 0 < i
  · rw [if_pos hp] at h
    rw [if_neg (by omega), if_pos h2]
    simp only [List.getD_eq_getElem?_getD, h]
    rfl
  · rw [if_neg hp, if_pos (by omega : i < 0)] at h
    rw [if_pos (by omega : i < 0)]
    simp only
    rw [if_pos (by omega)]
    have hlt : (-i).toNat - 1 < l.length := by omega
    rw [List.getElem?_reverse hlt] at h
    have e : l.length - 1 - ((-i).toNat - 1) = ((l.length : Int) + i).toNat := by omega
    rw [e] at h
    simp only [List.getD_eq_getElem?_getD, h]
    rfl

/-- **C58.**  A positive index beyond the end is reported as an error, and nothing outside of the list is read for
any index: a position which is read is always below the length. -/
theorem C58_in_range (size : Nat) (i : Int) :
    ((size : Int) < i → resolve size i = .bad) ∧ (∀ k, resolve size i = .pos k → k < size) := by
  constructor
  · intro h
    unfold resolve
    rw [if_neg (by omega), if_neg (by omega), if_neg (by omega)]
  · intro k h
    unfold resolve at h
    split at h
    · cases h
    · split at h
      · simp only at h
        split at h
        · cases h; omega
        · cases h
      · split at h
        · cases h; omega
        · cases h

/-- **C58, for a corner of a face.**  If its three indices designate elements, the corner consists of these
elements. -/
theorem C58_corner_partial (e : Env K) (p : Parser K) (i j k : Int) (v : K × K × K) (t : K × K) (n : K × K × K)
    (hv : pick p.vertices i = some v) (ht : pick p.textures j = some t) (hn : pick p.normals k = some n) :
    corner e p (i, j, k) = .ok (some (⟨v, n, t⟩, false, false)) := by
  have hj : j ≠ 0 := ((pick_isSome p.textures j).1 (by rw [ht]; rfl)).1
  have hk : k ≠ 0 := ((pick_isSome p.normals k).1 (by rw [hn]; rfl)).1
  unfold corner
  simp only [C58_fetch _ _ _ _ hv, C58_fetch _ _ _ _ ht, C58_fetch _ _ _ _ hn]
  simp [hj, hk]

/-- **C58 does not hold** for the remaining indices: zero is not reported (the corner becomes the origin), and a
negative index beyond the beginning ends the program by an exception. -/
theorem C58_violated {α : Type} (l : List α) (old : α) :
    fetch l 0 old = .ok (some old) ∧ ∀ i : Int, i < -(l.length : Int) → fetch l i old = .error .throw := by
  constructor
  · simp [fetch, resolve]
  · intro i h
    unfold fetch resolve
    rw [if_neg (by omega), if_pos (by omega)]
    simp only
    rw [if_neg (by omega)]

/-! ### C78: the text of a corner -/

/-- An integer in decimal. -/
def sdec (i : Int) : List Char := if i < 0 then '-' :: Config.dec i.natAbs else Config.dec i.natAbs

/-- Value of digits. -/
def value (t : List Char) : Nat := t.foldl (fun a c => 10 * a + (c.toNat - 48)) 0

theorem digit_facts (n : Nat) (h : n < 10) :
    (Nat.digitChar n).isDigit = true ∧ (Nat.digitChar n).toNat - 48 = n ∧ Nat.digitChar n ≠ nul := by
  interval_cases n <;> decide

theorem dec_facts (n : Nat) : value (Config.dec n) = n ∧ (∀ c ∈ Config.dec n, c.isDigit = true) ∧ Config.dec n ≠ [] := by
  induction n using Nat.strongRecOn with
  | _ n ih =>
    rw [Config.dec]
    split
    · rename_i h
      obtain ⟨a, b, -⟩ := digit_facts n h
      refine ⟨by simp [value, b], by simpa using a, by simp⟩
    · rename_i h
      obtain ⟨h1, h2, h3⟩ := ih (n / 10) (by omega)
      obtain ⟨a, b, -⟩ := digit_facts (n % 10) (by omega)
      refine ⟨?_, ?_, by simp⟩
      · unfold value at h1 ⊢
        rw [List.foldl_append, h1]
        simp only [List.foldl_cons, List.foldl_nil, b]
        omega
      · intro c hc
        rcases List.mem_append.1 hc with hc | hc
        · exact h2 c hc
        · simp at hc; subst hc; exact a

theorem digits_spec (t : List Char) (c : Char) (r : Mem) (hc : c.isDigit = false) : ∀ acc,
    (∀ d ∈ t, d.isDigit = true) →
    digits (t.map some ++ some c :: r) acc = .ok (t.foldl (fun a c => 10 * a + (c.toNat - 48)) acc, some c :: r) := by
  induction t with
  | nil => intro acc _; simp [digits, hc]
  | cons d t ih =>
    intro acc h
    have hd : d.isDigit = true := h d (by simp)
    simp only [List.map_cons, List.cons_append, digits, hd, if_true, List.foldl_cons]
    exact ih _ (fun x hx => h x (by simp [hx]))

theorem isDigit_not_space {c : Char} (h : c.isDigit = true) : isSpace c = false ∧ c ≠ '-' ∧ c ≠ '+' ∧ c ≠ nul ∧ c ≠ '/' := by
  have h2 : 48 ≤ c.toNat ∧ c.toNat ≤ 57 := by
    simp only [Char.isDigit, Bool.and_eq_true, decide_eq_true_eq] at h
    exact ⟨h.1, h.2⟩
  refine ⟨?_, ?_, ?_, ?_, ?_⟩
  · unfold isSpace
    have : c ≠ ' ' := by rintro rfl; revert h2; decide
    simp [this]; omega
  all_goals (rintro rfl; revert h2; decide)

theorem strtol_sdec (i : Int) (h1 : -2 ^ 31 ≤ i) (h2 : i < 2 ^ 31) (c : Char) (r : Mem) (hc : c.isDigit = false) :
    strtol ((sdec i).map some ++ some c :: r) = .ok (i, some c :: r) := by
  obtain ⟨v1, v2, v3⟩ := dec_facts i.natAbs
  obtain ⟨d, t, ht⟩ := List.exists_cons_of_ne_nil v3
  have hd : d.isDigit = true := v2 d (by rw [ht]; simp)
  obtain ⟨s1, s2, s3, s4, s5⟩ := isDigit_not_space hd
  have hdig := digits_spec (Config.dec i.natAbs) c r hc 0 v2
  rw [show (Config.dec i.natAbs).foldl (fun a c => 10 * a + (c.toNat - 48)) 0 = i.natAbs from v1, ht] at hdig
  have hval : ∀ x : Int, -2 ^ 31 ≤ x → x < 2 ^ 31 → toInt (clampLong x) = x := by
    intro x ha hb
    have : clampLong x = x := by unfold clampLong; omega
    rw [this]
    unfold toInt
    rw [Int.bmod_eq_of_le] <;> omega
  simp only [List.map_cons, List.cons_append] at hdig
  unfold sdec strtol
  by_cases hneg : i < 0
  · rw [if_pos hneg, ht]
    simp only [List.map_cons, List.cons_append]
    have hsk : skipSpace (some '-' :: some d :: (t.map some ++ some c :: r)) =
        .ok (some '-' :: some d :: (t.map some ++ some c :: r)) := by
      simp [skipSpace, show isSpace '-' = false from by decide]
    rw [hsk]
    simp only [sign, if_true, hd]
    rw [hdig]
    simp only
    rw [show -((i.natAbs : Nat) : Int) = i from by omega, hval i h1 h2]
  · rw [if_neg hneg, ht]
    simp only [List.map_cons, List.cons_append]
    have hsk : skipSpace (some d :: (t.map some ++ some c :: r)) = .ok (some d :: (t.map some ++ some c :: r)) := by
      simp [skipSpace, s1]
    rw [hsk]
    simp only [sign, s2, s3, if_false, hd, if_true]
    rw [hdig]
    simp only [Bool.false_eq_true, if_false]
    rw [show ((i.natAbs : Nat) : Int) = i from by omega, hval i h1 h2]

/-- An `int`. -/
def IsInt (i : Int) : Prop := -2 ^ 31 ≤ i ∧ i < 2 ^ 31

theorem store_append (mem : Mem) (a b : List Char) : ∃ r, store mem (a ++ b) = a.map some ++ (b.map some ++ some nul :: r) :=
  ⟨mem.drop ((a ++ b).length + 1), by simp [store]⟩

theorem sdec_head (i : Int) : ∃ c t, sdec i = c :: t ∧ c ≠ '/' := by
  obtain ⟨v1, v2, v3⟩ := dec_facts i.natAbs
  obtain ⟨d, t, ht⟩ := List.exists_cons_of_ne_nil v3
  unfold sdec
  split
  · exact ⟨'-', _, rfl, by decide⟩
  · rw [ht]
    exact ⟨d, t, rfl, (isDigit_not_space (v2 d (by rw [ht]; simp))).2.2.2.2⟩

/-- **C78, for the forms `v`, `v//n` and `v/t/n`.**  The indices of a corner are the numbers written in the file,
whatever was in the token array before.  (Full statement: also for the form `v/t`.  It does not hold:
`C78_violated`.) -/
theorem C78_partial (mem : Mem) (v t n : Int) (hv : IsInt v) (ht : IsInt t) (hn : IsInt n) :
    faceIndex (store mem (sdec v)) = .ok (v, 0, 0) ∧
    faceIndex (store mem (sdec v ++ ['/', '/'] ++ sdec n)) = .ok (v, 0, n) ∧
    faceIndex (store mem (sdec v ++ ['/'] ++ sdec t ++ ['/'] ++ sdec n)) = .ok (v, t, n) := by
  refine ⟨?_, ?_, ?_⟩
  · obtain ⟨r, hr⟩ := store_append mem (sdec v) []
    simp only [List.append_nil, List.map_nil, List.nil_append] at hr
    rw [hr]
    unfold faceIndex
    rw [strtol_sdec v hv.1 hv.2 nul r (by decide)]
    simp
  · obtain ⟨r, hr⟩ := store_append mem (sdec v ++ ['/', '/']) (sdec n)
    rw [hr]
    unfold faceIndex
    rw [List.map_append, List.append_assoc, List.map_cons, List.cons_append,
      strtol_sdec v hv.1 hv.2 '/' _ (by decide)]
    simp only [if_neg (by decide : ¬ '/' = nul), List.map_cons, List.map_nil, List.cons_append, List.nil_append, if_true]
    rw [strtol_sdec n hn.1 hn.2 nul r (by decide)]
  · obtain ⟨r, hr⟩ := store_append mem (sdec v ++ ['/'] ++ sdec t ++ ['/']) (sdec n)
    rw [hr]
    unfold faceIndex
    simp only [List.append_assoc, List.map_append, List.map_cons, List.map_nil, List.cons_append, List.nil_append]
    rw [strtol_sdec v hv.1 hv.2 '/' _ (by decide)]
    obtain ⟨c, w, hc, hne⟩ := sdec_head t
    have key := strtol_sdec t ht.1 ht.2 '/' ((sdec n).map some ++ some nul :: r) (by decide)
    rw [hc] at key ⊢
    simp only [List.map_cons, List.cons_append] at key ⊢
    simp only [if_neg (by decide : ¬ '/' = nul), if_neg hne, key, List.drop_succ_cons, List.drop_zero]
    rw [strtol_sdec n hn.1 hn.2 nul r (by decide)]

/-- **C78, the form `v/t`.**  The third index is read from behind the terminator: it is whatever number an earlier
token left there. -/
theorem C78_stale (mem : Mem) (v t n : Int) (hv : IsInt v) (ht : IsInt t) (hn : IsInt n) (c : Char) (r : Mem)
    (hc : c.isDigit = false)
    (hm : mem.drop ((sdec v ++ ['/'] ++ sdec t).length + 1) = (sdec n).map some ++ some c :: r) :
    faceIndex (store mem (sdec v ++ ['/'] ++ sdec t)) = .ok (v, t, n) := by
  unfold store
  rw [hm]
  unfold faceIndex
  simp only [List.append_assoc, List.map_append, List.map_cons, List.map_nil, List.cons_append, List.nil_append]
  rw [strtol_sdec v hv.1 hv.2 '/' _ (by decide)]
  obtain ⟨d, w, hd, hne⟩ := sdec_head t
  have key := strtol_sdec t ht.1 ht.2 nul ((sdec n).map some ++ some c :: r) (by decide)
  rw [hd] at key ⊢
  simp only [List.map_cons, List.cons_append] at key ⊢
  simp only [if_neg (by decide : ¬ '/' = nul), if_neg hne, key, List.drop_succ_cons, List.drop_zero]
  rw [strtol_sdec n hn.1 hn.2 c r hc]

/-! ### C59: triangulation -/

/-- The texture coordinates of a corner: its own ones or the ones made up. -/
def tex (recT : Bool) (uv : K × K) (v : Vertex K) : Vertex K := if recT then { v with t := uv } else v

/-- The fan: triangle `k` joins corner 0 with the corners `k+1` and `k+2`. -/
def fanSpec (e : Env K) (recT : Bool) (f : List (Vertex K)) : List (Tri K) :=
  (List.range (f.length - 2)).map fun k =>
    (tex recT (e.zero, e.zero) (f.getD 0 e.vertex), tex recT (e.one, e.zero) (f.getD (k + 1) e.vertex),
      tex recT (e.one, e.one) (f.getD (k + 2) e.vertex))

theorem setT_getD (f : List (Vertex K)) (i j : Nat) (uv : K × K) (d : Vertex K) (hj : j < f.length) :
    (setT f i uv).getD j d = if i = j then { f.getD j d with t := uv } else f.getD j d := by
  unfold setT
  simp only [List.getD_eq_getElem?_getD, List.getElem?_modify]
  by_cases h : i = j
  · simp [h, hj]
  · simp [h]

theorem setT_length (f : List (Vertex K)) (i : Nat) (uv : K × K) : (setT f i uv).length = f.length := by
  simp [setT]

theorem fanLoop_spec (e : Env K) (recT : Bool) (k : Nat) : ∀ (i : Nat) (f : List (Vertex K)), 3 ≤ i → i + k = f.length →
    fanLoop e recT k i f = (List.range k).map fun j =>
      (f.getD 0 e.vertex, tex recT (e.one, e.zero) (f.getD (i + j - 1) e.vertex),
        tex recT (e.one, e.one) (f.getD (i + j) e.vertex)) := by
  induction k with
  | zero => intros; rfl
  | succ k ih =>
    intro i f hi hl
    rw [fanLoop, List.range_succ_eq_map, List.map_cons, List.map_map]
    cases recT with
    | false =>
      simp only [Bool.false_eq_true, if_false, tex, Nat.add_zero]
      congr 1
      rw [ih (i + 1) f (by omega) (by omega)]
      apply List.map_congr_left
      intro j _
      simp only [Bool.false_eq_true, if_false, tex, Function.comp]
      rw [show i + 1 + j = i + j.succ from by omega]
    | true =>
      simp only [if_true, tex, Nat.add_zero]
      have hlen : (setT (setT f (i - 1) (e.one, e.zero)) i (e.one, e.one)).length = f.length := by
        rw [setT_length, setT_length]
      have hg : ∀ j, j < f.length → (setT (setT f (i - 1) (e.one, e.zero)) i (e.one, e.one)).getD j e.vertex =
          if i = j then { f.getD j e.vertex with t := (e.one, e.one) }
          else if i - 1 = j then { f.getD j e.vertex with t := (e.one, e.zero) } else f.getD j e.vertex := by
        intro j hj
        rw [setT_getD _ _ _ _ _ (by rw [setT_length]; exact hj), setT_getD _ _ _ _ _ hj]
        split
        · rename_i h
          rw [if_neg (by omega)]
        · rfl
      congr 1
      · rw [hg 0 (by omega), hg (i - 1) (by omega), hg i (by omega)]
        simp only [if_true]
        rw [if_neg (by omega), if_neg (by omega), if_neg (by omega)]
      · rw [ih (i + 1) _ (by omega) (by omega)]
        apply List.map_congr_left
        intro j hj
        have hjk := List.mem_range.1 hj
        simp only [if_true, tex, Function.comp]
        rw [show i + 1 + j - 1 = i + j from by omega, show i + j.succ - 1 = i + j from by omega,
          show i + 1 + j = i + j.succ from by omega]
        rw [hg 0 (by omega), hg (i + j) (by omega), hg (i + j.succ) (by omega)]
        rw [if_neg (by omega), if_neg (by omega), if_neg (by omega : ¬ i = i + j.succ),
          if_neg (by omega : ¬ i - 1 = i + j.succ)]
        congr 2
        split
        · rfl
        · split <;> rfl

/-- **C59.**  The triangles of a face with at least three corners are the fan around its first corner: `n - 2`
triangles, in the order of the corners. -/
theorem C59_fan (e : Env K) (recT : Bool) (f : List (Vertex K)) (h : 3 ≤ f.length) :
    fan e recT f = fanSpec e recT f := by
  unfold fan fanSpec
  obtain ⟨n, hn⟩ : ∃ n, f.length = n + 3 := ⟨f.length - 3, by omega⟩
  rw [show f.length - 2 = n + 1 from by omega, List.range_succ_eq_map, List.map_cons, List.map_map]
  cases recT with
  | false =>
    simp only [Bool.false_eq_true, if_false, tex]
    congr 1
    rw [fanLoop_spec e false (f.length - 3) 3 f (by omega) (by omega), show f.length - 3 = n from by omega]
    apply List.map_congr_left
    intro j _
    simp only [Bool.false_eq_true, if_false, tex, Function.comp]
    rw [show 3 + j - 1 = j.succ + 1 from by omega, show 3 + j = j.succ + 2 from by omega]
  | true =>
    simp only [if_true, tex]
    have hg : ∀ j, j < f.length →
        (setT (setT (setT f 0 (e.zero, e.zero)) 1 (e.one, e.zero)) 2 (e.one, e.one)).getD j e.vertex =
        if 2 = j then { f.getD j e.vertex with t := (e.one, e.one) }
        else if 1 = j then { f.getD j e.vertex with t := (e.one, e.zero) }
        else if 0 = j then { f.getD j e.vertex with t := (e.zero, e.zero) } else f.getD j e.vertex := by
      intro j hj
      rw [setT_getD _ _ _ _ _ (by rw [setT_length, setT_length]; exact hj),
        setT_getD _ _ _ _ _ (by rw [setT_length]; exact hj), setT_getD _ _ _ _ _ hj]
      split
      · subst_vars; simp
      · split
        · subst_vars; simp
        · rfl
    have hlen : (setT (setT (setT f 0 (e.zero, e.zero)) 1 (e.one, e.zero)) 2 (e.one, e.one)).length = f.length := by
      rw [setT_length, setT_length, setT_length]
    congr 1
    · rw [hg 0 (by omega), hg 1 (by omega), hg 2 (by omega)]
      simp
    · rw [hlen, fanLoop_spec e true (f.length - 3) 3 _ (by omega) (by rw [hlen]; omega),
        show f.length - 3 = n from by omega]
      apply List.map_congr_left
      intro j hj
      have hjn := List.mem_range.1 hj
      simp only [if_true, tex, Function.comp]
      rw [show 3 + j - 1 = j.succ + 1 from by omega, show 3 + j = j.succ + 2 from by omega]
      rw [hg 0 (by omega), hg (j.succ + 1) (by omega), hg (j.succ + 2) (by omega)]
      rw [if_neg (by omega), if_neg (by omega), if_pos rfl, if_neg (by omega : ¬ 2 = j.succ + 2),
        if_neg (by omega : ¬ 1 = j.succ + 2), if_neg (by omega : ¬ 0 = j.succ + 2)]
      congr 2
      split
      · rfl
      · split
        · rfl
        · split <;> rfl

theorem tex_p (recT : Bool) (uv : K × K) (v : Vertex K) : (tex recT uv v).p = v.p := by
  unfold tex; split <;> rfl

/-- **C59.**  The number of triangles, and every corner is used. -/
theorem C59_count (e : Env K) (recT : Bool) (f : List (Vertex K)) (h : 3 ≤ f.length) :
    (fan e recT f).length = f.length - 2 ∧
    ∀ v ∈ f, ∃ t ∈ fan e recT f, t.1.p = v.p ∨ t.2.1.p = v.p ∨ t.2.2.p = v.p := by
  rw [C59_fan e recT f h]
  refine ⟨by simp [fanSpec], fun v hv => ?_⟩
  obtain ⟨i, hi, rfl⟩ := List.getElem_of_mem hv
  have hg : f.getD i e.vertex = f[i] := by simp [List.getD_eq_getElem?_getD, hi]
  unfold fanSpec
  simp only [List.mem_map, List.mem_range]
  rcases Nat.lt_or_ge i 2 with h2 | h2
  · refine ⟨_, ⟨0, by omega, rfl⟩, ?_⟩
    simp only [tex_p]
    rw [← hg]
    have : i = 0 ∨ i = 1 := by omega
    rcases this with rfl | rfl
    · exact Or.inl rfl
    · exact Or.inr (Or.inl rfl)
  · refine ⟨_, ⟨i - 2, by omega, rfl⟩, ?_⟩
    simp only [tex_p]
    rw [← hg]
    right; right
    rw [show i - 2 + 2 = i from by omega]

/-- **C59.**  The fan has the boundary of the polygon, with its orientation: for every quantity attached to directed
edges which changes its sign with the direction, the edges of the triangles sum up to the edges of the polygon.  The
inner edges occur once in each direction, every edge of the polygon is left over exactly once. -/
theorem C59_boundary {M : Type} [AddCommGroup M] (w : K × K × K → K × K × K → M) (hw : ∀ a b, w a b = - w b a)
    (e : Env K) (recT : Bool) (f : List (Vertex K)) (h : 3 ≤ f.length) :
    ((fan e recT f).map fun t => w t.1.p t.2.1.p + w t.2.1.p t.2.2.p + w t.2.2.p t.1.p).sum =
      ((List.range f.length).map fun i => w (f.getD i e.vertex).p (f.getD ((i + 1) % f.length) e.vertex).p).sum := by
  rw [C59_fan e recT f h]
  unfold fanSpec
  rw [List.map_map]
  simp only [Function.comp_def, tex_p]
  obtain ⟨n, hn⟩ : ∃ n, f.length = n + 3 := ⟨f.length - 3, by omega⟩
  rw [show f.length - 2 = n + 1 from by omega]
  generalize hx : (fun i => (f.getD i e.vertex).p) = x
  have hx' : ∀ i, (f.getD i e.vertex).p = x i := fun i => by rw [← hx]
  simp only [hx']
  have key : ∀ m, ((List.range m).map fun k => w (x 0) (x (k + 1)) + w (x (k + 1)) (x (k + 2)) + w (x (k + 2)) (x 0)).sum =
      w (x 0) (x 1) + ((List.range m).map fun k => w (x (k + 1)) (x (k + 2))).sum + w (x (m + 1)) (x 0) := by
    intro m
    induction m with
    | zero => simp; rw [hw (x 0) (x 1)]; abel
    | succ m ih =>
      rw [List.range_succ, List.map_append, List.map_append, List.sum_append, List.sum_append, ih]
      simp only [List.map_cons, List.map_nil, List.sum_cons, List.sum_nil]
      rw [hw (x 0) (x (m + 1))]
      abel
  rw [key (n + 1)]
  have hsum : ∀ g : Nat → M, ((List.range (n + 3)).map g).sum =
      g 0 + ((List.range (n + 1)).map (fun k => g (k + 1))).sum + g (n + 2) := by
    intro g
    rw [List.range_succ, List.map_append, List.sum_append, List.range_succ_eq_map, List.map_cons, List.map_map,
      List.sum_cons]
    simp only [List.map_cons, List.map_nil, List.sum_cons, List.sum_nil, add_zero]
    rfl
  rw [hn, hsum, show (n + 2 + 1) % (n + 3) = 0 from by simp,
    show (0 + 1) % (n + 3) = 1 from Nat.mod_eq_of_lt (by omega), show n + 1 + 1 = n + 2 from rfl]
  congr 2
  apply congrArg
  apply List.map_congr_left
  intro k hk
  have := List.mem_range.1 hk
  rw [show (k + 1 + 1) % (n + 3) = k + 2 from Nat.mod_eq_of_lt (by omega)]

/-- **C59.**  A line with a face either ends the reading of the mesh, or adds the fan of its corners and as many
material numbers as triangles. -/
theorem C59_line (e : Env K) (p q : Parser K) (m k : Mesh K) (h : caseF e p m = .ok (.next q k)) :
    ∃ (f : List (Vertex K)) (recT : Bool), 3 ≤ f.length ∧ k.tris = m.tris ++ fanSpec e recT f ∧
      k.assoc = m.assoc ++ List.replicate (f.length - 2) m.current ∧ k.retval = true := by
  unfold caseF at h
  split at h
  · cases h
  · cases h
  · split at h
    · cases h
    · rename_i f _
      split at h
      · cases h
      · rename_i recT _ _ hlt
        cases h
        exact ⟨f, _, by omega, by rw [C59_fan _ _ _ (by omega)], rfl, rfl⟩

/-! ### C60: the material table -/

/-- The state of the first loop of `finalize_mesh`: `c` numbers the materials of `seen` from 0 to `k - 1`. -/
structure Counted (seen : List Nat) (c : List (Option Nat)) (k : Nat) : Prop where
  len : c.length = 256
  lt : ∀ (a j : Nat), c.getD a none = some j → j < k ∧ a ∈ seen ∧ a < 256
  onto : ∀ j : Nat, j < k → ∃ a, c.getD a none = some j
  inj : ∀ (a b j : Nat), c.getD a none = some j → c.getD b none = some j → a = b
  all : ∀ a ∈ seen, a < 256 → ∃ j, c.getD a none = some j

theorem getD_set_opt (c : List (Option Nat)) (a b : Nat) (x : Option Nat) (ha : a < c.length) :
    (c.set a x).getD b none = if a = b then x else c.getD b none := by
  simp only [List.getD_eq_getElem?_getD, List.getElem?_set]
  by_cases h : a = b
  · subst h; simp [ha]
  · simp [h]

theorem countLoop_spec (as : List Nat) : ∀ (seen : List Nat) (c : List (Option Nat)) (k : Nat),
    (∀ a ∈ as, a < 256) → Counted seen c k → Counted (seen ++ as) (countLoop as c k).1 (countLoop as c k).2 := by
  induction as with
  | nil => intro seen c k _ h; simpa [countLoop] using h
  | cons a as ih =>
    intro seen c k hlt h
    have ha : a < 256 := hlt a (by simp)
    have hlt' : ∀ b ∈ as, b < 256 := fun b hb => hlt b (by simp [hb])
    rw [show seen ++ a :: as = (seen ++ [a]) ++ as from by simp]
    unfold countLoop
    cases hc : c.getD a none with
    | some j =>
      refine ih (seen ++ [a]) c k hlt' ⟨h.len, ?_, h.onto, h.inj, ?_⟩
      · intro b i hb
        obtain ⟨x, y, z⟩ := h.lt b i hb
        exact ⟨x, by simp [y], z⟩
      · intro b hb hb2
        rcases List.mem_append.1 hb with hb | hb
        · exact h.all b hb hb2
        · simp at hb; subst hb; exact ⟨j, hc⟩
    | none =>
      have hg : ∀ b, (c.set a (some k)).getD b none = if a = b then some k else c.getD b none :=
        fun b => getD_set_opt c a b (some k) (by rw [h.len]; exact ha)
      refine ih (seen ++ [a]) _ (k + 1) hlt' ⟨by simp [h.len], ?_, ?_, ?_, ?_⟩
      · intro b j hb
        rw [hg] at hb
        split at hb
        · rename_i hab
          cases hb; subst hab
          exact ⟨by omega, by simp, ha⟩
        · obtain ⟨x, y, z⟩ := h.lt b j hb
          exact ⟨by omega, by simp [y], z⟩
      · intro j hj
        rcases Nat.lt_or_ge j k with h1 | h1
        · obtain ⟨b, hb⟩ := h.onto j h1
          refine ⟨b, ?_⟩
          rw [hg, if_neg (by rintro rfl; rw [hc] at hb; cases hb)]
          exact hb
        · exact ⟨a, by rw [hg, if_pos rfl]; congr 1; omega⟩
      · intro x y j hx hy
        rw [hg] at hx hy
        split at hx <;> split at hy
        · omega
        · cases hx; have := (h.lt y k hy).1; omega
        · cases hy; have := (h.lt x k hx).1; omega
        · exact h.inj x y j hx hy
      · intro b hb hb2
        by_cases hab : a = b
        · exact ⟨k, by rw [hg, if_pos hab]⟩
        · rcases List.mem_append.1 hb with hb | hb
          · obtain ⟨j, hj⟩ := h.all b hb hb2
            exact ⟨j, by rw [hg, if_neg hab]; exact hj⟩
          · simp at hb; exact absurd hb.symm hab

theorem counted_init : Counted [] (List.replicate 256 none) 0 := by
  have : ∀ a, (List.replicate 256 (none : Option Nat)).getD a none = none := by
    intro a
    simp only [List.getD_eq_getElem?_getD, List.getElem?_replicate]
    split <;> rfl
  refine ⟨List.length_replicate, ?_, ?_, ?_, ?_⟩
  · intro a j h; rw [this] at h; cases h
  · intro j h; omega
  · intro a b j h; rw [this] at h; cases h
  · intro a h; cases h

theorem tableLoop_length (old : List Nat) (c : List (Option Nat)) (n : Nat) : ∀ i t,
    (tableLoop old c n i t).length = t.length := by
  induction n with
  | zero => intros; rfl
  | succ n ih =>
    intro i t
    unfold tableLoop
    split
    · exact ih _ _
    · rw [ih]; simp

theorem tableLoop_keep (old : List Nat) (c : List (Option Nat)) (n : Nat) : ∀ (i : Nat) (t : List (Option Nat)) (j : Nat),
    (∀ a, i ≤ a → a < i + n → c.getD a none ≠ some j) → (tableLoop old c n i t)[j]? = t[j]? := by
  induction n with
  | zero => intros; rfl
  | succ n ih =>
    intro i t j h
    unfold tableLoop
    cases hc : c.getD i none with
    | none => exact ih _ _ _ (fun a ha hb => h a (by omega) (by omega))
    | some k =>
      simp only
      rw [ih _ _ _ (fun a ha hb => h a (by omega) (by omega))]
      have : k ≠ j := by rintro rfl; exact h i (by omega) (by omega) hc
      simp [this]

theorem tableLoop_spec (old : List Nat) (c : List (Option Nat))
    (hinj : ∀ (a b j : Nat), c.getD a none = some j → c.getD b none = some j → a = b) (n : Nat) :
    ∀ (i : Nat) (t : List (Option Nat)) (a j : Nat), i ≤ a → a < i + n → c.getD a none = some j → j < t.length →
      (tableLoop old c n i t)[j]? = some old[a]? := by
  induction n with
  | zero => intro i t a j h1 h2; omega
  | succ n ih =>
    intro i t a j h1 h2 hc hj
    unfold tableLoop
    by_cases hia : i = a
    · subst hia
      rw [hc]
      simp only
      rw [tableLoop_keep]
      · simp [hj]
      · intro b hb hb2 hcb
        have := hinj i b j hc hcb
        omega
    · cases hci : c.getD i none with
      | none => exact ih _ _ a j (by omega) (by omega) hc hj
      | some k => exact ih _ _ a j (by omega) (by omega) hc (by simpa using hj)

/-- **C60, the table.**  Whatever numbers the faces have (below the size of a table of at most 256 entries): behind
the compaction, every face refers to the same material as before; every entry of the new table is used by some
face; different entries come from different entries of the old table. -/
theorem C60_compact (old assoc : List Nat) (hlen : old.length ≤ 256) (hlt : ∀ a ∈ assoc, a < old.length)
    (hne : assoc ≠ []) :
    let r := finalize old assoc
    r.2.length = assoc.length ∧ r.1.length ≤ 256 ∧
    (∀ (i a : Nat), assoc[i]? = some a → ∃ j m, r.2[i]? = some j ∧ j < r.1.length ∧ r.1[j]? = some (some m) ∧
      old[a]? = some m) ∧
    (∀ j, j < r.1.length → ∃ i : Nat, r.2[i]? = some j) ∧
    (old.Nodup → r.1.Nodup) := by
  have hlt256 : ∀ a ∈ assoc, a < 256 := fun a ha => by have := hlt a ha; omega
  have hC := countLoop_spec assoc [] _ 0 hlt256 counted_init
  rw [List.nil_append] at hC
  unfold finalize
  rw [if_neg hne]
  generalize hc : countLoop assoc (List.replicate 256 none) 0 = ck at hC ⊢
  obtain ⟨c, k⟩ := ck
  simp only at hC ⊢
  have htl : (tableLoop old c 256 0 (List.replicate k none)).length = k := by
    rw [tableLoop_length, List.length_replicate]
  have hentry : ∀ (a j : Nat), c.getD a none = some j →
      (tableLoop old c 256 0 (List.replicate k none))[j]? = some old[a]? := by
    intro a j h
    obtain ⟨h1, h2, h3⟩ := hC.lt a j h
    exact tableLoop_spec old c hC.inj 256 0 _ a j (by omega) (by omega) h (by simpa using h1)
  refine ⟨by simp, ?_, ?_, ?_, ?_⟩
  · rw [htl]
    -- the numbers below `k` come from different entries of `c`
    have hsub : (List.range k).map some ⊆ c := by
      intro x hx
      obtain ⟨j, hj, rfl⟩ := List.mem_map.1 hx
      obtain ⟨a, ha⟩ := hC.onto j (List.mem_range.1 hj)
      rw [List.getD_eq_getElem?_getD] at ha
      cases hg : c[a]? with
      | none => rw [hg] at ha; cases ha
      | some y => rw [hg] at ha; simp at ha; subst ha; exact List.mem_of_getElem? hg
    have hnd : ((List.range k).map (some : Nat → Option Nat)).Nodup :=
      List.Nodup.map (fun a b h => by simpa using h) List.nodup_range
    have := (List.subperm_of_subset hnd hsub).length_le
    rw [hC.len] at this
    simpa using this
  · intro i a ha
    have hmem := List.mem_of_getElem? ha
    obtain ⟨j, hj⟩ := hC.all a hmem (hlt256 a hmem)
    have hal := hlt a hmem
    refine ⟨j, old[a], ?_, ?_, ?_, by simp [hal]⟩
    · rw [List.getElem?_map, ha]
      simp only [Option.map_some, hj, Option.getD_some]
    · rw [htl]; exact (hC.lt a j hj).1
    · rw [hentry a j hj]; simp [hal]
  · intro j hj
    rw [htl] at hj
    obtain ⟨a, ha⟩ := hC.onto j hj
    obtain ⟨i, hi, hia⟩ := List.getElem_of_mem (hC.lt a j ha).2.1
    refine ⟨i, ?_⟩
    rw [List.getElem?_map, List.getElem?_eq_getElem hi, hia]
    simp only [Option.map_some, ha, Option.getD_some]
  · intro hnd
    rw [List.nodup_iff_getElem?_ne_getElem?]
    intro i j hij hj heq
    rw [htl] at hj
    obtain ⟨a, ha⟩ := hC.onto i (by omega)
    obtain ⟨b, hb⟩ := hC.onto j hj
    rw [hentry a i ha, hentry b j hb] at heq
    have hal := hlt a (hC.lt a i ha).2.1
    have hbl := hlt b (hC.lt b j hb).2.1
    have hab : a = b := by
      simp only [List.getElem?_eq_getElem hal, List.getElem?_eq_getElem hbl, Option.some.injEq] at heq
      exact (List.Nodup.getElem_inj_iff hnd).1 heq
    subst hab
    rw [ha] at hb
    cases hb
    omega

/-- The lines which matter for materials: `usemtl name`, or a face which gives `k` triangles. -/
inductive Ev where
  | use (name : List Char)
  | face (k : Nat)

/-- Effect of such a line on the mesh (cases `u` and `f` of the model). -/
def run (e : Env K) (m : Mesh K) : Ev → Mesh K
  | .use name => useMaterial e m name
  | .face k => { m with assoc := m.assoc ++ List.replicate k m.current }

/-- The name of the default material. -/
def dfltName : List Char := ['D', 'e', 'f', 'a', 'u', 'l', 't']

/-- The material a name stands for: the default one if the library has none of this name. -/
def matOf (e : Env K) (name : List Char) : Nat := if name = dfltName then e.dflt else (e.lib name).getD e.dflt

/-- The material of every triangle, as written in the file; `cur` is the current one. -/
def intended (e : Env K) : List Ev → Nat → List Nat
  | [], _ => []
  | .use name :: evs, _ => intended e evs (matOf e name)
  | .face k :: evs, cur => List.replicate k cur ++ intended e evs cur

/-- What is known while a mesh is read: `ns` are the names for which a material was found. -/
structure Known (e : Env K) (m : Mesh K) (ns : List (List Char)) (cur : Nat) (mats : List Nat) : Prop where
  table : m.materials.map some = some e.dflt :: ns.map e.lib
  nodup : ns.Nodup
  lookup : ∀ name k, m.used.lookup name = some k → m.materials[k]? = some (matOf e name)
  seen : ∀ name ∈ ns, (m.used.lookup name).isSome
  dfl : (m.used.lookup dfltName).isSome
  nod : dfltName ∉ ns
  cur : m.materials[m.current]? = some cur
  assoc : m.assoc.map (fun a => m.materials[a]?) = mats.map some

theorem known_len {e : Env K} {m : Mesh K} {ns cur mats} (h : Known e m ns cur mats) :
    m.materials.length = ns.length + 1 := by
  have := congrArg List.length h.table
  simpa using this

theorem lookup_append_none {α β : Type} [BEq α] (l : List (α × β)) (a : α) (x : α × β) (h : l.lookup a = none) :
    (l ++ [x]).lookup a = if a == x.1 then some x.2 else none := by
  induction l with
  | nil => simp [List.lookup]; split <;> simp_all
  | cons y l ih =>
    simp only [List.cons_append, List.lookup] at h ⊢
    split at h
    · cases h
    · exact ih h

theorem lookup_append_some {α β : Type} [BEq α] (l l2 : List (α × β)) (a : α) (b : β) (h : l.lookup a = some b) :
    (l ++ l2).lookup a = some b := by
  induction l with
  | nil => simp at h
  | cons y l ih =>
    simp only [List.cons_append, List.lookup] at h ⊢
    split at h
    · exact h
    · exact ih h

theorem known_use {e : Env K} {m : Mesh K} {ns cur mats} (h : Known e m ns cur mats) (name : List Char)
    (hlen : ns.length < 255 ∨ e.lib name = none ∨ name ∈ ns ∨ name = dfltName) :
    ∃ ns', Known e (useMaterial e m name) ns' (matOf e name) mats ∧ (∀ x ∈ ns', x ∈ ns ∨ (x = name ∧ e.lib name ≠ none ∧ name ≠ dfltName)) := by
  unfold useMaterial
  cases hl : m.used.lookup name with
  | some k =>
    exact ⟨ns, ⟨h.table, h.nodup, h.lookup, h.seen, h.dfl, h.nod, h.lookup name k hl, h.assoc⟩, fun x hx => Or.inl hx⟩
  | none =>
    have hnd : name ≠ dfltName := by
      rintro rfl
      have := h.dfl
      rw [hl] at this; cases this
    have hns : name ∉ ns := by
      intro hin
      have := h.seen name hin
      rw [hl] at this; cases this
    have hzero : m.materials[0]? = some e.dflt := by
      have := congrArg (fun l => l[0]?) h.table
      simp only [List.getElem?_map, List.getElem?_cons_zero] at this
      cases h0 : m.materials[0]? with
      | none => rw [h0] at this; simp at this
      | some x => rw [h0] at this; simpa using this
    have hlk : ∀ (v : Nat) (n k), (m.used ++ [(name, v)]).lookup n = some k →
        m.used.lookup n = some k ∨ (n = name ∧ k = v) := by
      intro v n k hk
      cases hn : m.used.lookup n with
      | some k' => rw [lookup_append_some _ _ _ _ hn] at hk; exact Or.inl hk
      | none =>
        rw [lookup_append_none _ _ _ hn] at hk
        split at hk
        · rename_i hb
          simp at hb hk
          exact Or.inr ⟨hb, hk.symm⟩
        · cases hk
    have hsome : ∀ (v : Nat) (n), (m.used.lookup n).isSome → ((m.used ++ [(name, v)]).lookup n).isSome := by
      intro v n hn
      obtain ⟨k, hk⟩ := Option.isSome_iff_exists.1 hn
      rw [lookup_append_some _ _ _ _ hk]; rfl
    cases hm : e.lib name with
    | none =>
      have hmat : matOf e name = e.dflt := by simp [matOf, hnd, hm]
      refine ⟨ns, ⟨h.table, h.nodup, ?_, fun x hx => hsome _ _ (h.seen x hx), hsome _ _ h.dfl, h.nod, ?_, h.assoc⟩, fun x hx => Or.inl hx⟩
      · intro n k hk
        rcases hlk _ n k hk with hk | ⟨rfl, rfl⟩
        · exact h.lookup n k hk
        · rw [hmat]; exact hzero
      · rw [hmat]; exact hzero
    | some mat =>
      have hmat : matOf e name = mat := by simp [matOf, hnd, hm]
      have hl255 : ns.length < 255 := by
        rcases hlen with a | a | a | a
        · exact a
        · rw [hm] at a; cases a
        · exact absurd a hns
        · exact absurd a hnd
      have hmod : m.materials.length % 256 = m.materials.length := by
        rw [known_len h]; omega
      have hext : ∀ (k x : Nat), m.materials[k]? = some x → (m.materials ++ [mat])[k]? = some x := by
        intro k x hk
        have : k < m.materials.length := by
          by_contra hc
          rw [List.getElem?_eq_none (by omega)] at hk; cases hk
        rw [List.getElem?_append_left this]; exact hk
      refine ⟨ns ++ [name], ⟨?_, ?_, ?_, ?_, hsome _ _ h.dfl, by simp [h.nod, Ne.symm hnd], ?_, ?_⟩, ?_⟩
      · simp only [List.map_append, h.table]
        simp [hm]
      · rw [List.nodup_append]
        exact ⟨h.nodup, by simp, fun a ha b hb => by simp at hb; rintro rfl; subst hb; exact hns ha⟩
      · intro n k hk
        simp only [hmod] at hk ⊢
        rcases hlk _ n k hk with hk | ⟨rfl, rfl⟩
        · exact hext _ _ (h.lookup n k hk)
        · rw [hmat]; simp
      · intro x hx
        rcases List.mem_append.1 hx with hx | hx
        · exact hsome _ _ (h.seen x hx)
        · simp at hx; subst hx
          simp only
          rw [lookup_append_none _ _ _ hl]
          simp
      · simp only [hmod, hmat]; simp
      · simp only
        rw [← h.assoc]
        apply List.map_congr_left
        intro a ha
        have hs : m.materials[a]? ∈ mats.map some := by
          rw [← h.assoc]; exact List.mem_map.2 ⟨a, ha, rfl⟩
        obtain ⟨x, -, hx⟩ := List.mem_map.1 hs
        rw [← hx]; exact hext a x hx.symm
      · intro x hx
        rcases List.mem_append.1 hx with hx | hx
        · exact Or.inl hx
        · simp at hx; exact Or.inr ⟨hx, by simp, hnd⟩

theorem known_face {e : Env K} {m : Mesh K} {ns cur mats} (h : Known e m ns cur mats) (k : Nat) :
    Known e (run e m (.face k)) ns cur (mats ++ List.replicate k cur) := by
  refine ⟨h.table, h.nodup, h.lookup, h.seen, h.dfl, h.nod, h.cur, ?_⟩
  simp only [run, List.map_append, List.map_replicate, h.assoc, h.cur]

theorem known_run (e : Env K) (S : List (List Char)) (hS : S.length ≤ 255) (evs : List Ev) :
    ∀ (m : Mesh K) (ns : List (List Char)) (cur : Nat) (mats : List Nat), Known e m ns cur mats → ns ⊆ S →
    (∀ name, Ev.use name ∈ evs → e.lib name ≠ none → name ≠ dfltName → name ∈ S) →
    ∃ ns' cur', Known e (evs.foldl (run e) m) ns' cur' (mats ++ intended e evs cur) ∧ ns' ⊆ S := by
  induction evs with
  | nil => intro m ns cur mats h hn _; exact ⟨ns, cur, by simpa [intended] using h, hn⟩
  | cons ev evs ih =>
    intro m ns cur mats h hn hev
    have hev' : ∀ name, Ev.use name ∈ evs → e.lib name ≠ none → name ≠ dfltName → name ∈ S :=
      fun n hin => hev n (by simp [hin])
    cases ev with
    | face k =>
      obtain ⟨ns', cur', h1, h2⟩ := ih _ ns cur _ (known_face h k) hn hev'
      refine ⟨ns', cur', ?_, h2⟩
      simpa [intended] using h1
    | use name =>
      have hc : ns.length < 255 ∨ e.lib name = none ∨ name ∈ ns ∨ name = dfltName := by
        by_cases h1 : e.lib name = none
        · exact Or.inr (Or.inl h1)
        · by_cases h2 : name ∈ ns
          · exact Or.inr (Or.inr (Or.inl h2))
          · by_cases h3 : name = dfltName
            · exact Or.inr (Or.inr (Or.inr h3))
            · left
              have hin := hev name (by simp) h1 h3
              have hnd : (name :: ns).Nodup := List.nodup_cons.2 ⟨h2, h.nodup⟩
              have hsub : name :: ns ⊆ S := by
                intro x hx
                rcases List.mem_cons.1 hx with rfl | hx
                · exact hin
                · exact hn hx
              have := (List.subperm_of_subset hnd hsub).length_le
              simp at this
              omega
      obtain ⟨ns1, h1, h2⟩ := known_use h name hc
      have hn1 : ns1 ⊆ S := by
        intro x hx
        rcases h2 x hx with hx | ⟨rfl, ha, hb⟩
        · exact hn hx
        · exact hev x (by simp) ha hb
      obtain ⟨ns', cur', h3, h4⟩ := ih _ ns1 (matOf e name) mats h1 hn1 hev'
      exact ⟨ns', cur', h3, h4⟩

theorem known_init (e : Env K) : Known e (Mesh.init e) [] e.dflt [] := by
  refine ⟨rfl, List.nodup_nil, ?_, by simp, rfl, by simp, rfl, rfl⟩
  intro name k h
  simp only [Mesh.init, List.lookup] at h
  split at h
  · rename_i hb
    simp at hb h
    subst h
    simp [Mesh.init, matOf, dfltName, hb]
  · cases h

/-- **C60.**  If at most 255 different materials are used, every triangle of the finished mesh refers, through the
compacted table, to the material its face was assigned in the file; the numbers are in range; every entry of the
table is used; and no material occurs twice, if the library gives different materials to different names. -/
theorem C60_faithful (e : Env K) (evs : List Ev) (S : List (List Char)) (hS : S.length ≤ 255)
    (hev : ∀ name, Ev.use name ∈ evs → e.lib name ≠ none → name ≠ dfltName → name ∈ S)
    (hne : intended e evs e.dflt ≠ []) :
    let o := finish (evs.foldl (run e) (Mesh.init e))
    o.assoc.length = (intended e evs e.dflt).length ∧
    (∀ (i : Nat) (mat : Nat), (intended e evs e.dflt)[i]? = some mat →
      ∃ j, o.assoc[i]? = some j ∧ j < o.table.length ∧ o.table[j]? = some (some mat)) ∧
    (∀ j, j < o.table.length → ∃ i : Nat, o.assoc[i]? = some j) ∧
    ((∀ a b, e.lib a = e.lib b → e.lib a ≠ none → a = b) → (∀ a, e.lib a = some e.dflt → a = dfltName) →
      o.table.Nodup) := by
  obtain ⟨ns, cur, h, hsub⟩ := known_run e S hS evs (Mesh.init e) [] e.dflt [] (known_init e) (by simp) hev
  simp only [List.nil_append] at h
  generalize evs.foldl (run e) (Mesh.init e) = m at h
  have hal : m.assoc.length = (intended e evs e.dflt).length := by
    have := congrArg List.length h.assoc
    simpa using this
  have hne2 : m.assoc ≠ [] := by
    intro hc
    rw [hc] at hal
    exact hne (List.length_eq_zero_iff.1 hal.symm)
  have hget : ∀ i mat : Nat, (intended e evs e.dflt)[i]? = some mat → ∃ a, m.assoc[i]? = some a ∧ m.materials[a]? = some mat := by
    intro i mat hi
    have := congrArg (fun l => l[i]?) h.assoc
    simp only [List.getElem?_map, hi] at this
    cases ha : m.assoc[i]? with
    | none => rw [ha] at this; simp at this
    | some a => rw [ha] at this; exact ⟨a, rfl, by simpa using this⟩
  have hlt : ∀ a ∈ m.assoc, a < m.materials.length := by
    intro a ha
    have hs : m.materials[a]? ∈ (intended e evs e.dflt).map some := by
      rw [← h.assoc]; exact List.mem_map.2 ⟨a, ha, rfl⟩
    obtain ⟨x, -, hx⟩ := List.mem_map.1 hs
    by_contra hc
    rw [List.getElem?_eq_none (by omega)] at hx; cases hx
  have hlen : m.materials.length ≤ 256 := by
    rw [known_len h]
    have := (List.subperm_of_subset h.nodup hsub).length_le
    omega
  obtain ⟨c1, c2, c3, c4, c5⟩ := C60_compact m.materials m.assoc hlen hlt hne2
  refine ⟨by rw [show (finish m).assoc = (finalize m.materials m.assoc).2 from rfl, c1, hal], ?_, c4, ?_⟩
  · intro i mat hi
    obtain ⟨a, ha, hm⟩ := hget i mat hi
    obtain ⟨j, x, g1, g2, g3, g4⟩ := c3 i a ha
    rw [hm] at g4
    cases g4
    exact ⟨j, g1, g2, g3⟩
  · intro hinj hdf
    apply c5
    have hnd : (m.materials.map some).Nodup := by
      rw [h.table]
      have hfound : ∀ x ∈ ns, e.lib x ≠ none := by
        intro x hx hc
        have : e.lib x ∈ m.materials.map some := by
          rw [h.table]; exact List.mem_cons_of_mem _ (List.mem_map.2 ⟨x, hx, rfl⟩)
        rw [hc] at this
        simp at this
      rw [List.nodup_cons]
      refine ⟨?_, ?_⟩
      · intro hc
        obtain ⟨x, hx, hx2⟩ := List.mem_map.1 hc
        have hxd := hdf x hx2
        subst hxd
        exact h.nod hx
      · exact List.Nodup.map_on (fun a ha b hb hab => hinj a b hab (hfound a ha)) h.nodup
    exact List.Nodup.of_map _ hnd

/-- The parts of a mesh which concern materials. -/
def matPart (m : Mesh K) : List (List Char × Nat) × List Nat × Nat × List Nat :=
  (m.used, m.materials, m.current, m.assoc)

theorem matPart_run (e : Env K) {m k : Mesh K} (h : matPart m = matPart k) (ev : Ev) :
    matPart (run e m ev) = matPart (run e k ev) := by
  obtain ⟨n1, u1, m1, c1, a1, t1, r1, x1⟩ := m
  obtain ⟨n2, u2, m2, c2, a2, t2, r2, x2⟩ := k
  simp only [matPart, Prod.mk.injEq] at h
  obtain ⟨rfl, rfl, rfl, rfl⟩ := h
  cases ev with
  | face k => rfl
  | use name =>
    simp only [run, useMaterial]
    cases u1.lookup name with
    | some j => rfl
    | none => cases e.lib name <;> rfl

theorem matPart_foldl (e : Env K) (evs : List Ev) : ∀ {m k : Mesh K}, matPart m = matPart k →
    matPart (evs.foldl (run e) m) = matPart (evs.foldl (run e) k) := by
  induction evs with
  | nil => intro m k h; exact h
  | cons ev evs ih => intro m k h; exact ih (matPart_run e h ev)

/-- The step's mesh. -/
def Step.mesh : Step K → Mesh K
  | .next _ m => m
  | .ret _ _ m => m

theorem dispatch_events {e : Env K} {p : Parser K} {m : Mesh K} {o : Step K} (h : dispatch e p m = .ok o) :
    ∃ evs : List Ev, matPart o.mesh = matPart (evs.foldl (run e) m) := by
  unfold dispatch at h
  cases hc : (cstr m.mem).head? with
  | none => simp only [hc] at h; cases h; exact ⟨[], rfl⟩
  | some c =>
    simp only [hc] at h
    split at h
    · unfold caseV at h
      split at h
      · split at h <;> cases h
        exact ⟨[], rfl⟩
      · split at h
        · split at h <;> cases h
          exact ⟨[], rfl⟩
        · split at h <;> cases h
          exact ⟨[], rfl⟩
    · split at h
      · unfold caseU at h
        split at h
        · split at h <;> cases h
          rename_i mem _
          exact ⟨[.use (cstr mem)], matPart_run e (m := { m with mem := mem }) (k := m) rfl (.use (cstr mem))⟩
        · cases h; exact ⟨[], rfl⟩
      · split at h
        · unfold caseO at h
          split at h
          · cases h; exact ⟨[], rfl⟩
          · split at h <;> cases h
            exact ⟨[], rfl⟩
        · split at h
          · unfold caseG at h
            split at h
            · cases h; exact ⟨[], rfl⟩
            · split at h
              · split at h <;> cases h
                exact ⟨[], rfl⟩
              · cases h; exact ⟨[], rfl⟩
          · split at h
            · unfold caseF at h
              split at h
              · cases h
              · cases h; exact ⟨[], rfl⟩
              · split at h
                · cases h
                · rename_i f _
                  split at h
                  · cases h; exact ⟨[], rfl⟩
                  · cases h; exact ⟨[.face (f.length - 2)], rfl⟩
            · cases h; exact ⟨[], rfl⟩

theorem meshLoop_events (e : Env K) (n : Nat) : ∀ (p q : Parser K) (m k : Mesh K) (b : Bool),
    meshLoop e n p m = .ok (b, q, k) → ∃ evs : List Ev, matPart k = matPart (evs.foldl (run e) m) := by
  induction n with
  | zero => intro p q m k b h; simp [meshLoop] at h
  | succ n ih =>
    intro p q m k b h
    unfold meshLoop at h
    split at h
    · cases h1 : lineToken p m with
      | error x => simp [h1] at h
      | ok x =>
        obtain ⟨p1, m1⟩ := x
        simp only [h1] at h
        have hm1 : matPart m1 = matPart m := by
          unfold lineToken at h1
          split at h1
          · cases h1; rfl
          · split at h1 <;> cases h1
            rfl
        cases h2 : dispatch e p1 m1 with
        | error x => simp [h2] at h
        | ok o =>
          simp only [h2] at h
          obtain ⟨evs, hev⟩ := dispatch_events h2
          cases o with
          | ret b' p2 m2 =>
            cases h
            exact ⟨evs, hev.trans (matPart_foldl e evs hm1)⟩
          | next p2 m2 =>
            simp only at h
            cases h3 : skipLine p2.stream with
            | error x => simp [h3] at h
            | ok r =>
              simp only [h3] at h
              obtain ⟨evs2, hev2⟩ := ih _ q m2 k b h
              refine ⟨evs ++ evs2, ?_⟩
              rw [List.foldl_append]
              exact hev2.trans (matPart_foldl e evs2 (hev.trans (matPart_foldl e evs hm1)))
    · cases h; exact ⟨[], rfl⟩

/-- Every mesh the reader delivers is the result of a sequence of `usemtl` lines and faces, so `C60_faithful`
applies to it. -/
theorem C60_reachable (e : Env K) (p q : Parser K) (b : Bool) (o : Out K) (h : getNextMesh e p = .ok (b, q, o)) :
    ∃ evs : List Ev, o.table = (finish (evs.foldl (run e) (Mesh.init e))).table ∧
      o.assoc = (finish (evs.foldl (run e) (Mesh.init e))).assoc := by
  unfold getNextMesh at h
  cases h1 : meshLoop e ((strip p.stream).length + 1) p (Mesh.init e) with
  | error x => simp [h1] at h
  | ok x =>
    obtain ⟨b', q', m⟩ := x
    simp only [h1] at h
    cases h
    obtain ⟨evs, hev⟩ := meshLoop_events e _ _ _ _ _ _ h1
    refine ⟨evs, ?_, ?_⟩
    all_goals
      simp only [matPart, Prod.mk.injEq] at hev
      simp only [finish, hev]

/-! ### C79: no mesh is lost -/

/-- The call ended in the state `q`, `k` because the line being read (in state `p`, `m`) is a face which was reported
as wrong. -/
def BadFace (e : Env K) (p : Parser K) (m : Mesh K) (q : Parser K) (k : Mesh K) : Prop :=
  (cstr m.mem).head? = some 'f' ∧ dispatch e p m = .ok (.ret false q k)

theorem retval_dispatch {e : Env K} {p : Parser K} {m : Mesh K} {o : Step K} (hm : m.retval = true ↔ m.tris ≠ [])
    (h : dispatch e p m = .ok o) : (o.mesh.retval = true ↔ o.mesh.tris ≠ []) ∧
      (∀ b q k, o = .ret b q k → b = k.retval ∨ (b = false ∧ BadFace e p m q k)) := by
  have h0 := h
  unfold dispatch at h
  cases hc : (cstr m.mem).head? with
  | none => simp only [hc] at h; cases h; exact ⟨hm, fun _ _ _ g => by cases g⟩
  | some c =>
    simp only [hc] at h
    split at h
    · unfold caseV at h
      split at h
      · split at h <;> cases h
        exact ⟨hm, fun _ _ _ g => by cases g⟩
      · split at h
        · split at h <;> cases h
          exact ⟨hm, fun _ _ _ g => by cases g⟩
        · split at h <;> cases h
          exact ⟨hm, fun _ _ _ g => by cases g⟩
    · split at h
      · unfold caseU at h
        split at h
        · split at h <;> cases h
          refine ⟨?_, fun _ _ _ g => by cases g⟩
          simp only [Step.mesh, useMaterial]
          split
          · exact hm
          · split <;> exact hm
        · cases h; exact ⟨hm, fun _ _ _ g => by cases g⟩
      · split at h
        · unfold caseO at h
          split at h
          · cases h; exact ⟨hm, fun _ _ _ g => by cases g; exact Or.inl rfl⟩
          · split at h <;> cases h
            exact ⟨hm, fun _ _ _ g => by cases g⟩
        · split at h
          · unfold caseG at h
            split at h
            · cases h; exact ⟨hm, fun _ _ _ g => by cases g; exact Or.inl rfl⟩
            · split at h
              · split at h <;> cases h
                exact ⟨hm, fun _ _ _ g => by cases g⟩
              · cases h; exact ⟨hm, fun _ _ _ g => by cases g⟩
          · split at h
            · rename_i hcf
              have hbad : ∀ q k, o = .ret false q k → false = false ∧ BadFace e p m q k :=
                fun q k g => ⟨rfl, by rw [hc, hcf], by rw [h0, g]⟩
              unfold caseF at h
              split at h
              · cases h
              · cases h
                exact ⟨hm, fun _ _ _ g => by cases g; exact Or.inr (hbad _ _ rfl)⟩
              · split at h
                · cases h
                · rename_i f _
                  split at h
                  · cases h
                    exact ⟨hm, fun _ _ _ g => by cases g; exact Or.inr (hbad _ _ rfl)⟩
                  · cases h
                    refine ⟨?_, fun _ _ _ g => by cases g⟩
                    simp [Step.mesh, fan]
            · cases h; exact ⟨hm, fun _ _ _ g => by cases g⟩

/-- **C79, one call.**  A call of `get_next_mesh` answers `true` exactly if it has read a triangle, unless it ends at a
face line which is reported as wrong.  (Full statement: every object of the file with a triangle is delivered.  It
does not hold: `C79_violated`.) -/
theorem C79_partial (e : Env K) (n : Nat) : ∀ (p q : Parser K) (m k : Mesh K) (b : Bool),
    (m.retval = true ↔ m.tris ≠ []) → meshLoop e n p m = .ok (b, q, k) →
    (b = true ↔ k.tris ≠ []) ∨ (b = false ∧ ∃ p' m', BadFace e p' m' q k) := by
  induction n with
  | zero => intro p q m k b _ h; simp [meshLoop] at h
  | succ n ih =>
    intro p q m k b hm h
    unfold meshLoop at h
    split at h
    · cases h1 : lineToken p m with
      | error x => simp [h1] at h
      | ok x =>
        obtain ⟨p1, m1⟩ := x
        simp only [h1] at h
        have hm1 : m1.retval = true ↔ m1.tris ≠ [] := by
          unfold lineToken at h1
          split at h1
          · cases h1; exact hm
          · split at h1 <;> cases h1
            exact hm
        cases h2 : dispatch e p1 m1 with
        | error x => simp [h2] at h
        | ok o =>
          simp only [h2] at h
          obtain ⟨g1, g2⟩ := retval_dispatch hm1 h2
          cases o with
          | ret b' p2 m2 =>
            cases h
            rcases g2 b q k rfl with g | g
            · left; rw [g]; exact g1
            · right; exact ⟨g.1, _, _, g.2⟩
          | next p2 m2 =>
            simp only at h
            cases h3 : skipLine p2.stream with
            | error x => simp [h3] at h
            | ok r =>
              simp only [h3] at h
              exact ih _ q m2 k b g1 h
    · cases h; exact Or.inl hm

/-! ### Witnesses -/

/-- A small environment: numbers are the value of the first digit; one material, `red`. -/
def env0 : Env Int where
  strtof t := match t with
    | c :: _ => (c.toNat : Int) - 48
    | [] => 0
  faceNormal _ _ _ := (0, 0, 1)
  zero := 0
  one := 1
  lib n := if n = ['r', 'e', 'd'] then some 7 else none
  dflt := 1

/-- A file. -/
def file1 : List Char :=
  "o a\nv 0 0 0\nv 1 0 0\nv 1 1 0\nv 0 1 0\nusemtl red\nf 1 2 3 4\no b\nf -1 -2 -3\n".toList

/-- The fault of a computation. -/
def faultOf {α : Type} : Except Fault α → Option Fault
  | .error x => some x
  | .ok _ => none

/-- `C56_file`, `C57_partial`, `C58`, `C59`, `C60`: two objects are read, also with chunks of three bytes. -/
theorem witness_file1 :
    ((readFile env0 3 file1).toOption.map (List.map fun o => (o.name, o.assoc))) = some [(['a'], [0, 0]), (['b'], [0])] ∧
    ((readFile env0 3 file1).toOption.map (List.map fun o => o.tris.map fun t => [t.1.p, t.2.1.p, t.2.2.p])) = some
      [[[(0, 0, 0), (1, 0, 0), (1, 1, 0)], [(0, 0, 0), (1, 1, 0), (0, 1, 0)]],
       [[(0, 1, 0), (1, 1, 0), (1, 0, 0)]]] := by decide +kernel

/-- `C56_file` for this file. -/
example : readFile env0 3 file1 = readFile env0 4096 file1 := C56_file env0 3 4096 (by decide) (by decide) file1

/-- `C56_token_spec`: a token which is cut by the end of a chunk. -/
example : nextToken (chunks 3 3 " abcde 1\n".toList) [] =
    .ok ([some ' ', some '1', some '\n'], store [] ['a', 'b', 'c', 'd', 'e']) := by rfl

/-- `C57_partial` for this file. -/
example : Ends (readFile env0 4096 file1) := C57_partial env0 4096 (by decide) file1 (Or.inr ⟨file1.dropLast, by decide +kernel⟩)

/-- `C57_violated`: a file which consists of a comment without line end. -/
example : readFile env0 4096 "# end".toList = .error .hang :=
  C57_violated env0 4096 (by decide) '#' " end".toList (by decide) (by decide)

/-- `C58_fetch`: the second element and the second from the end. -/
example : fetch [10, 20, 30] 2 0 = .ok (some 20) ∧ fetch [10, 20, 30] (-2) 0 = .ok (some 20) ∧
    pick [10, 20, 30] 3 = some 30 ∧ pick [10, 20, 30] (-3) = some 10 :=
  ⟨C58_fetch _ _ _ _ rfl, C58_fetch _ _ _ _ rfl, rfl, rfl⟩

/-- **C58 does not hold for numbers beyond the range of `int`**: the index 4294967297 is taken for 1. -/
theorem C58_violated_wrap : faceIndex (store [] "4294967297".toList) = .ok (1, 0, 0) := by rfl

/-- `C78_partial`: a corner with three indices. -/
example : faceIndex (store [] "12/-3/4".toList) = .ok (12, -3, 4) := by rfl

/-- `C78_stale`: `1/2` is read while the array still holds an older `0.123456`. -/
example : faceIndex (store (store [] "0.123456".toList) "1/2".toList) = .ok (1, 2, 3456) := by rfl

/-- A file with texture coordinates but without normals: its one triangle is well formed. -/
def file2 : List Char :=
  "v 0.0001 0 0\nv 1 0 0\nv 0 1 0\nvt 0 0\nf 1/1 2/1 3/1\n".toList

/-- The same file without texture indices. -/
def file3 : List Char := "v 0.0001 0 0\nv 1 0 0\nv 0 1 0\nvt 0 0\nf 1 2 3\n".toList

/-- **C78 does not hold for the form `v/t`**: behind the terminator of `1/1` there are still the last digits of the
coordinate `0.0001`, they are taken for the index of a normal, and the mesh is dropped; without texture indices the
triangle is read. -/
theorem C78_violated : ((readFile env0 4096 file2).toOption.map List.length) = some 0 ∧
    ((readFile env0 4096 file3).toOption.map List.length) = some 1 := by decide +kernel

/-- `C59_fan` on a pentagon: three triangles. -/
example : (fan env0 false ((List.range 5).map fun i => ⟨((i : Int), 0, 0), (0, 0, 1), (0, 0)⟩)).map
    (fun t => (t.1.p.1, t.2.1.p.1, t.2.2.p.1)) = [(0, 1, 2), (0, 2, 3), (0, 3, 4)] := by decide

/-- `C60_compact`: three of five materials are used. -/
example : finalize [10, 11, 12, 13, 14] [3, 1, 3, 0] = ([some 13, some 11, some 10], [0, 1, 0, 2]) := by decide +kernel

/-- `C60_faithful`: its hypotheses hold for a sequence with two materials. -/
example : intended env0 [.use ['r', 'e', 'd'], .face 2, .use dfltName, .face 1] 1 = [7, 7, 1] ∧
    (finish (([.use ['r', 'e', 'd'], .face 2, .use dfltName, .face 1] : List Ev).foldl (run env0)
      (Mesh.init env0))).table = [some 7, some 1] ∧
    (finish (([.use ['r', 'e', 'd'], .face 2, .use dfltName, .face 1] : List Ev).foldl (run env0)
      (Mesh.init env0))).assoc = [0, 0, 1] := by decide +kernel

/-- An environment with as many materials as characters. -/
def env256 : Env Int := { env0 with
  lib := fun n => match n with
    | [c] => some (c.toNat + 1000)
    | _ => none }

/-- `usemtl` with `n` different names, then a triangle. -/
def many (n : Nat) : List Ev := (List.range n).map (fun i => Ev.use [Char.ofNat (i + 200)]) ++ [.face 1]

/-- **C60 does not hold with 256 materials**: the number of the last one does not fit a byte, and its triangle gets the
default material (`C60_faithful`: with 255 it gets its own). -/
theorem C60_violated : intended env256 (many 256) 1 = [1455] ∧
    (finish ((many 256).foldl (run env256) (Mesh.init env256))).table = [some 1] := by decide +kernel

/-- **The current material is forgotten at the next object** (82), although the format keeps it: in `file1` the second
object follows `usemtl red` and gets the default material. -/
theorem C60_violated_reset : ((readFile env0 3 file1).toOption.map (List.map (fun o => o.table))) =
    some [[some 7], [some 1]] := by decide +kernel

/-- An object without faces in front of one with a triangle. -/
def file4 : List Char := "o a\no b\nv 0 0 0\nv 1 0 0\nv 0 1 0\nf 1 2 3\n".toList

/-- **C79 does not hold**: an object without faces makes `get_next_mesh` answer `false`, and nothing behind it is
delivered. -/
theorem C79_violated : ((readFile env0 4096 file4).toOption.map List.length) = some 0 ∧
    ((readFile env0 4096 (file4.drop 4)).toOption.map List.length) = some 1 := by decide +kernel

/-- **A face with two corners is undefined behaviour**: the normal is computed from three corners before their
number is checked (312-317). -/
theorem C59_violated_short : faultOf (readFile env0 4096 "v 0 0 0\nv 1 0 0\nf 1 2\n".toList) = some .undef := by
  decide +kernel

end Spectre.Obj
