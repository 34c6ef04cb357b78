import Verif.Props.WellOrder
import Mathlib.Data.List.GetD

/-
The first 32 words drawn determine the state of the random number generator (used for C147).  The
words drawn are linear in the 1024 bits of the state; their linear forms are computed and reduced
by elimination.
-/

namespace Spectre.Well

/-! ### Linear forms on 1024 bits -/

/-- The linear form with the mask `m` at the bits `v`, up to bit `k`. -/
def val : ℕ → ℕ → (ℕ → Bool) → Bool
  | 0, _, _ => false
  | k + 1, m, v => ((m.testBit k && v k) ^^ val k m v)

theorem val_xor (k a b : ℕ) (v : ℕ → Bool) : val k (a ^^^ b) v = (val k a v ^^ val k b v) := by
  induction k with
  | zero => rfl
  | succ k ih =>
    rw [val, val, val, ih, Nat.testBit_xor]
    cases a.testBit k <;> cases b.testBit k <;> cases v k <;> cases val k a v <;>
      cases val k b v <;> rfl

theorem val_zero (k : ℕ) (v : ℕ → Bool) : val k 0 v = false := by
  induction k with
  | zero => rfl
  | succ k ih => rw [val, ih, Nat.zero_testBit]; rfl

theorem val_two_pow (k i : ℕ) (v : ℕ → Bool) : val k (2 ^ i) v = (decide (i < k) && v i) := by
  induction k with
  | zero => rfl
  | succ k ih =>
    rw [val, ih, Nat.testBit_two_pow]
    by_cases h : i = k
    · subst h; simp
    · have e : (i < k + 1) ↔ i < k := by omega
      simp [h, e]

/-- Forms with leading bits `k-1, …, 0` vanish together only where all bits vanish. -/
theorem val_lead (n k m : ℕ) (v : ℕ → Bool) (hk : k < n) (h1 : 2 ^ k ≤ m) (h2 : m < 2 ^ (k + 1))
    (hv : ∀ i < k, v i = false) : val n m v = v k := by
  have low : ∀ j ≤ k, val j m v = false := by
    intro j
    induction j with
    | zero => intro _; rfl
    | succ j ih =>
      intro hj
      rw [val, hv j (by omega), ih (by omega)]; simp
  have hb : m.testBit k = true := by
    have : m / 2 ^ k = 1 := by
      apply Nat.div_eq_of_lt_le
      · rw [Nat.one_mul]; exact h1
      · rw [show (1 + 1) * 2 ^ k = 2 ^ (k + 1) by rw [Nat.pow_succ, Nat.mul_comm]]; exact h2
    rw [Nat.testBit, Nat.shiftRight_eq_div_pow, this]; rfl
  have hi : ∀ j, k < j → val j m v = v k := by
    intro j
    induction j with
    | zero => intro h; omega
    | succ j ih =>
      intro hj
      rw [val]
      by_cases h : j = k
      · subst h
        rw [hb, low j (Nat.le_refl _)]; simp
      · have hj' : m.testBit j = false :=
          Nat.testBit_lt_two_pow (lt_of_lt_of_le h2 (Nat.pow_le_pow_right (by decide) (by omega)))
        rw [hj', ih (by omega)]; simp
  exact hi n hk

/-! ### Elimination

The rows of the matrix are the digits of one number in base `2^1024`. -/

/-- All rows of `M` vanish at `v`. -/
def Rows (v : ℕ → Bool) (M : ℕ) : Prop := ∀ j, val 1024 (M / 2 ^ (1024 * j) % 2 ^ 1024) v = false

/-- Numbers of which all digits in base `2^s` are 0 or 1. -/
def Sel (s c : ℕ) : Prop := ∀ j, c / 2 ^ (s * j) % 2 ^ s ≤ 1

/-- The number with `n` digits 1 in base `2^s`. -/
def ones (s : ℕ) : ℕ → ℕ
  | 0 => 0
  | n + 1 => 1 + 2 ^ s * ones s n

theorem div_pow_succ (s x j : ℕ) : x / 2 ^ (s * (j + 1)) = x / 2 ^ s / 2 ^ (s * j) := by
  rw [Nat.div_div_eq_div_mul, ← Nat.pow_add]
  congr 2
  rw [Nat.mul_succ, Nat.add_comm]

theorem ones_digit (s : ℕ) (hs : 0 < s) (n j : ℕ) : ones s n / 2 ^ (s * j) % 2 ^ s ≤ 1 := by
  have h1 : 1 < 2 ^ s := Nat.one_lt_two_pow (by omega)
  induction n generalizing j with
  | zero => simp [ones]
  | succ n ih =>
    cases j with
    | zero =>
      rw [Nat.mul_zero, Nat.pow_zero, Nat.div_one, ones, Nat.add_mul_mod_self_left,
        Nat.mod_eq_of_lt h1]
    | succ j =>
      rw [div_pow_succ, ones, Nat.add_mul_div_left _ _ (by omega), Nat.div_eq_of_lt h1, Nat.zero_add]
      exact ih j

theorem Sel_and (s : ℕ) (hs : 0 < s) (x n : ℕ) : Sel s (x &&& ones s n) := by
  intro j
  rw [Nat.and_div_two_pow, Nat.and_mod_two_pow]
  exact Nat.and_le_right.trans (ones_digit s hs n j)

/-- The product of such a number with a row has that row, or 0, in each digit. -/
theorem mul_digit (s b : ℕ) (hb : b < 2 ^ s) (j : ℕ) : ∀ c, Sel s c →
    c * b / 2 ^ (s * j) % 2 ^ s = (c / 2 ^ (s * j) % 2 ^ s) * b := by
  have key : ∀ c, Sel s c → c * b % 2 ^ s = (c % 2 ^ s) * b ∧ c * b / 2 ^ s = c / 2 ^ s * b := by
    intro c hc
    have h0 : c % 2 ^ s ≤ 1 := by simpa using hc 0
    have hlt : (c % 2 ^ s) * b < 2 ^ s := by
      rcases Nat.le_one_iff_eq_zero_or_eq_one.1 h0 with h | h <;> rw [h]
      · rw [Nat.zero_mul]; exact Nat.pow_pos (by decide)
      · rw [Nat.one_mul]; exact hb
    have e : c * b = (c % 2 ^ s) * b + 2 ^ s * (c / 2 ^ s * b) := by
      conv_lhs => rw [← Nat.mod_add_div c (2 ^ s)]
      rw [Nat.add_mul, Nat.mul_assoc]
    rw [e]
    exact ⟨by rw [Nat.add_mul_mod_self_left, Nat.mod_eq_of_lt hlt],
      by rw [Nat.add_mul_div_left _ _ (Nat.pow_pos (by decide)), Nat.div_eq_of_lt hlt, Nat.zero_add]⟩
  induction j with
  | zero =>
    intro c hc
    rw [Nat.mul_zero, Nat.pow_zero, Nat.div_one, Nat.div_one]
    exact (key c hc).1
  | succ j ih =>
    intro c hc
    rw [div_pow_succ, (key c hc).2, ih, div_pow_succ]
    intro i
    rw [← div_pow_succ]
    exact hc (i + 1)

/-- One step of the elimination: the row `b` is added to the rows selected by `c`. -/
theorem Rows_step (v : ℕ → Bool) (M c b : ℕ) (hM : Rows v M) (hc : Sel 1024 c) (hb : b < 2 ^ 1024)
    (hv : val 1024 b v = false) : Rows v (M ^^^ c * b) := by
  intro j
  rw [Nat.xor_div_two_pow, Nat.xor_mod_two_pow, val_xor, hM j, mul_digit 1024 b hb j c hc]
  rcases Nat.le_one_iff_eq_zero_or_eq_one.1 (hc j) with h | h <;> rw [h]
  · rw [Nat.zero_mul, val_zero]; rfl
  · rw [Nat.one_mul, hv]; rfl

/-- Elimination of the bits `p-1, …, 0`; `o` is the number with a one for each row and the list
names the row that is used for each bit. -/
def elimM (o : ℕ) : ℕ → List ℕ → ℕ → Bool
  | 0, _, _ => true
  | _ + 1, [], _ => false
  | p + 1, q :: qs, M =>
    force (M >>> (1024 * q) % 2 ^ 1024) fun b =>
      bif Nat.ble (2 ^ p) b && Nat.blt b (2 ^ (p + 1)) then
        force (M ^^^ (M >>> p &&& o) * b) fun M' => elimM o p qs M'
      else false

theorem elimM_spec (v : ℕ → Bool) (n : ℕ) (p : ℕ) : ∀ (l : List ℕ) (M : ℕ), p ≤ 1024 →
    elimM (ones 1024 n) p l M = true → Rows v M → ∀ i < p, v i = false := by
  induction p with
  | zero => intro l M _ _ _ i hi; omega
  | succ p ih =>
    intro l M hp h hM i hi
    cases l with
    | nil => rw [elimM] at h; exact absurd h Bool.false_ne_true
    | cons q qs =>
    rw [elimM] at h
    simp only [force_eq] at h
    generalize hc : M >>> p &&& ones 1024 n = c at h
    have hsel : Sel 1024 c := by rw [← hc]; exact Sel_and 1024 (by decide) _ _
    have hbv : val 1024 (M >>> (1024 * q) % 2 ^ 1024) v = false := by
      rw [Nat.shiftRight_eq_div_pow]; exact hM q
    have hbl : M >>> (1024 * q) % 2 ^ 1024 < 2 ^ 1024 := Nat.mod_lt _ (Nat.pow_pos (by decide))
    generalize M >>> (1024 * q) % 2 ^ 1024 = b at h hbv hbl
    rcases hb : Nat.ble (2 ^ p) b && Nat.blt b (2 ^ (p + 1)) with _ | _
    · rw [hb] at h; exact absurd h Bool.false_ne_true
    · rw [hb] at h
      rw [cond_true] at h
      rw [Bool.and_eq_true, Nat.ble_eq, Nat.blt_eq] at hb
      have low := ih qs _ (by omega) h (Rows_step v M c b hM hsel hbl hbv)
      by_cases he : i = p
      · subst he
        rw [← val_lead 1024 i b v (by omega) hb.1 hb.2 low]
        exact hbv
      · exact low i (by omega)

theorem val_mod (k n m : ℕ) (v : ℕ → Bool) (h : k ≤ n) : val k (m % 2 ^ n) v = val k m v := by
  induction k with
  | zero => rfl
  | succ k ih =>
    rw [val, val, ih (by omega), Nat.testBit_mod_two_pow]
    have : k < n := by omega
    simp [this]

/-- The rows of a list as one number. -/
def pack : List ℕ → ℕ → ℕ
  | [], acc => acc
  | r :: rs, acc => force (acc * 2 ^ 1024 + r % 2 ^ 1024) fun a => pack rs a

theorem pack_spec (v : ℕ → Bool) (rs : List ℕ) : ∀ acc, Rows v acc →
    (∀ r ∈ rs, val 1024 r v = false) → Rows v (pack rs acc) := by
  induction rs with
  | nil => intro acc h _; exact h
  | cons r rs ih =>
    intro acc h hr
    rw [pack, force_eq]
    refine ih _ ?_ fun x hx => hr x (List.mem_cons_of_mem _ hx)
    have hlt : r % 2 ^ 1024 < 2 ^ 1024 := Nat.mod_lt _ (Nat.pow_pos (by decide))
    have hrv : val 1024 (r % 2 ^ 1024) v = false := by
      rw [val_mod 1024 1024 r v (Nat.le_refl _)]; exact hr r List.mem_cons_self
    generalize r % 2 ^ 1024 = x at *
    intro j
    cases j with
    | zero =>
      rw [Nat.mul_zero, Nat.pow_zero, Nat.div_one, Nat.add_comm, Nat.add_mul_mod_self_right,
        Nat.mod_eq_of_lt hlt]
      exact hrv
    | succ j =>
      rw [div_pow_succ, Nat.add_comm, Nat.add_mul_div_right _ _ (Nat.pow_pos (by decide)),
        Nat.div_eq_of_lt hlt, Nat.zero_add]
      exact h j

/-! ### The words drawn as linear forms -/

/-- A word given by 32 linear forms, one for each bit. -/
def Rep (v : ℕ → Bool) (w : List ℕ) (x : BitVec 32) : Prop :=
  w.length = 32 ∧ ∀ i < 32, x.getLsbD i = val 1024 (w.getD i 0) v

def xorS : List ℕ → List ℕ → List ℕ
  | a :: as, b :: bs => (a ^^^ b) :: xorS as bs
  | _, _ => []

theorem xorS_len : ∀ a b : List ℕ, (xorS a b).length = min a.length b.length
  | [], b => by simp [xorS]
  | a :: as, [] => by simp [xorS]
  | a :: as, b :: bs => by simp [xorS, xorS_len as bs]

theorem xorS_get : ∀ (a b : List ℕ) (i : ℕ), i < a.length → i < b.length →
    (xorS a b).getD i 0 = a.getD i 0 ^^^ b.getD i 0
  | [], _, i, h, _ => by simp at h
  | _ :: _, [], i, _, h => by simp at h
  | a :: as, b :: bs, 0, _, _ => rfl
  | a :: as, b :: bs, i + 1, h, h' => by
    have := xorS_get as bs i (by simpa using h) (by simpa using h')
    simpa [xorS] using this

def xlS (k : ℕ) (w : List ℕ) : List ℕ := xorS w (List.replicate k 0 ++ w)
def xrS (k : ℕ) (w : List ℕ) : List ℕ := xorS w (w.drop k ++ List.replicate k 0)

theorem Rep_xor {v : ℕ → Bool} {a b : List ℕ} {x y : BitVec 32} (ha : Rep v a x) (hb : Rep v b y) :
    Rep v (xorS a b) (x ^^^ y) := by
  refine ⟨by rw [xorS_len, ha.1, hb.1]; rfl, fun i hi => ?_⟩
  rw [xorS_get a b i (by rw [ha.1]; exact hi) (by rw [hb.1]; exact hi), val_xor,
    BitVec.getLsbD_xor, ha.2 i hi, hb.2 i hi]

theorem Rep_xl {v : ℕ → Bool} {a : List ℕ} {x : BitVec 32} (k : ℕ) (ha : Rep v a x) :
    Rep v (xlS k a) (xl k x) := by
  refine ⟨by rw [xlS, xorS_len, List.length_append, ha.1]; omega, fun i hi => ?_⟩
  rw [xlS, xorS_get _ _ i (by rw [ha.1]; exact hi) (by rw [List.length_append, ha.1]; omega),
    val_xor, xl, BitVec.getLsbD_xor, ha.2 i hi]
  congr 1
  rw [BitVec.getLsbD_shiftLeft]
  by_cases h : i < k
  · rw [List.getD_append _ _ _ _ (by simpa using h)]
    simp [h, val_zero]
  · rw [List.getD_append_right _ _ _ _ (by simpa using Nat.le_of_not_lt h), List.length_replicate,
      ← ha.2 _ (by omega)]
    simp [h, hi]

theorem Rep_xr {v : ℕ → Bool} {a : List ℕ} {x : BitVec 32} (k : ℕ) (hk : k ≤ 32) (ha : Rep v a x) :
    Rep v (xrS k a) (xr k x) := by
  have hl : (a.drop k ++ List.replicate k 0).length = 32 := by
    rw [List.length_append, List.length_drop, List.length_replicate, ha.1]; omega
  refine ⟨by rw [xrS, xorS_len, hl, ha.1]; omega, fun i hi => ?_⟩
  rw [xrS, xorS_get _ _ i (by rw [ha.1]; exact hi) (by rw [hl]; exact hi),
    val_xor, xr, BitVec.getLsbD_xor, ha.2 i hi]
  congr 1
  rw [BitVec.getLsbD_ushiftRight]
  by_cases h : i < 32 - k
  · rw [List.getD_append _ _ _ _ (by rw [List.length_drop, ha.1]; exact h)]
    have e : (a.drop k).getD i 0 = a.getD (k + i) 0 := by
      simp [List.getD_eq_getElem?_getD, List.getElem?_drop]
    rw [e, ha.2 _ (by omega)]
  · rw [List.getD_append_right _ _ _ _ (by rw [List.length_drop, ha.1]; omega),
      BitVec.getLsbD_of_ge _ _ (by omega)]
    have e : ∀ j, (List.replicate k 0).getD j 0 = 0 := by
      intro j
      by_cases hj : j < k
      · simp [hj]
      · simp [hj]
    rw [e, val_zero]

/-- The draw on words of linear forms. -/
def stepS (S : List (List ℕ)) : List (List ℕ) :=
  let z1 := xorS (S.getD 0 []) (xrS 8 (S.getD 3 []))
  let z2 := xorS (xlS 19 (S.getD 24 [])) (xlS 14 (S.getD 10 []))
  xorS (xorS (xlS 11 (S.getD 31 [])) (xlS 7 z1)) (xlS 13 z2) :: xorS z1 z2 :: S.tail

def RepT (v : ℕ → Bool) (S : List (List ℕ)) (T : W) : Prop :=
  ∀ k : Fin 32, Rep v (S.getD k.val []) (T k)

theorem RepT_step {v : ℕ → Bool} {S : List (List ℕ)} {T : W} (h : RepT v S T) :
    RepT v (stepS S) (nxt T) := by
  have h1 := Rep_xor (h 0) (Rep_xr 8 (by decide) (h 3))
  have h2 := Rep_xor (Rep_xl 19 (h 24)) (Rep_xl 14 (h 10))
  intro k
  unfold stepS nxt
  simp only
  by_cases h0 : k = 0
  · subst h0
    rw [if_pos rfl]
    exact Rep_xor (Rep_xor (Rep_xl 11 (h 31)) (Rep_xl 7 h1)) (Rep_xl 13 h2)
  · rw [if_neg h0]
    by_cases h1' : k = 1
    · subst h1'
      rw [if_pos rfl]
      exact Rep_xor h1 h2
    · rw [if_neg h1']
      obtain ⟨j, hj⟩ : ∃ j, k.val = j + 2 := ⟨k.val - 2, by omega⟩
      have hj' : (k - 1).val = j + 1 := by omega
      have := h (k - 1)
      rw [hj'] at this
      rw [hj]
      have e : ∀ a b : List ℕ, (a :: b :: S.tail).getD (j + 2) [] = S.getD (j + 1) [] := by
        intro a b; cases S <;> simp
      rw [e]
      exact this

/-- The bits of the state as linear forms. -/
def initS : List (List ℕ) :=
  (List.range 32).map fun k => (List.range 32).map fun j => 2 ^ (32 * k + j)

/-- The bits of the words. -/
def bitsOf (T : W) (i : ℕ) : Bool := (T (Fin.ofNat 32 (i / 32))).getLsbD (i % 32)

theorem RepT_init (T : W) : RepT (bitsOf T) initS T := by
  intro k
  have hk := k.isLt
  have e : initS.getD k.val [] = (List.range 32).map fun j => 2 ^ (32 * k.val + j) := by
    unfold initS
    rw [List.getD_eq_getElem?_getD, List.getElem?_map, List.getElem?_range hk]; rfl
  rw [e]
  refine ⟨by simp, fun i hi => ?_⟩
  have e2 : ((List.range 32).map fun j => 2 ^ (32 * k.val + j)).getD i 0 = 2 ^ (32 * k.val + i) := by
    rw [List.getD_eq_getElem?_getD, List.getElem?_map, List.getElem?_range hi]; rfl
  rw [e2, val_two_pow, bitsOf]
  have e3 : (32 * k.val + i) / 32 = k.val := by omega
  have e4 : (32 * k.val + i) % 32 = i := by omega
  have e5 : Fin.ofNat 32 k.val = k := Fin.ext (Nat.mod_eq_of_lt hk)
  have e6 : 32 * k.val + i < 1024 := by omega
  rw [e3, e4, e5]
  simp [e6]

/-- The forms of the first `n` words drawn. -/
def rowsS : ℕ → List (List ℕ) → List ℕ
  | 0, _ => []
  | n + 1, S => (stepS S).headD [] ++ rowsS n (stepS S)

theorem rowsS_spec (v : ℕ → Bool) (n : ℕ) : ∀ (S : List (List ℕ)) (T : W), RepT v S T →
    (∀ j < n, nxt^[j + 1] T 0 = 0) → ∀ r ∈ rowsS n S, val 1024 r v = false := by
  induction n with
  | zero => intro S T _ _ r hr; simp [rowsS] at hr
  | succ n ih =>
    intro S T h hz r hr
    rw [rowsS, List.mem_append] at hr
    have h' := RepT_step h
    rcases hr with hr | hr
    · have h0 := h' 0
      have e : (stepS S).getD 0 [] = (stepS S).headD [] := by cases stepS S <;> rfl
      change Rep v ((stepS S).getD 0 []) _ at h0
      rw [e] at h0
      obtain ⟨i, hi, rfl⟩ := List.getElem_of_mem hr
      rw [h0.1] at hi
      have := h0.2 i hi
      have hz0 := hz 0 (by omega)
      change nxt T 0 = 0 at hz0
      rw [hz0, List.getD_eq_getElem _ _ (by rw [h0.1]; exact hi)] at this
      rw [← this]; simp
    · refine ih (stepS S) (nxt T) h' (fun j hj => ?_) r hr
      have := hz (j + 1) (by omega)
      rw [Function.iterate_succ_apply] at this
      exact this

/-- The number with 1024 digits 1. -/
def onesN : ℕ := (2 ^ (1024 * 1024) - 1) / (2 ^ 1024 - 1)

theorem onesN_eq : onesN = ones 1024 1024 := by decide +kernel

/-- The rows used in the elimination. -/
def pivots : List ℕ := [
  4, 5, 0, 7, 2, 1, 8, 6, 3, 9, 10, 11, 12, 14, 13, 15, 17, 16, 19, 20, 18, 21, 22, 23, 24, 29,
  32, 30, 25, 36, 28, 26, 27, 31, 33, 34, 41, 38, 37, 35, 44, 39, 42, 40, 43, 46, 45, 47, 50, 49,
  52, 53, 48, 55, 51, 54, 59, 56, 57, 58, 60, 62, 61, 64, 63, 67, 65, 66, 70, 68, 71, 69, 73, 72,
  74, 75, 76, 77, 80, 78, 81, 79, 82, 85, 83, 84, 86, 88, 87, 89, 90, 92, 91, 93, 94, 97, 95,
  100, 96, 98, 99, 101, 102, 109, 103, 104, 105, 108, 107, 110, 106, 112, 111, 115, 117, 114,
  118, 113, 119, 122, 116, 120, 121, 123, 128, 124, 125, 126, 129, 130, 131, 132, 127, 134, 135,
  141, 133, 137, 138, 142, 140, 139, 136, 144, 143, 148, 146, 147, 149, 145, 150, 155, 151, 152,
  153, 154, 156, 157, 158, 159, 160, 164, 162, 163, 161, 165, 168, 169, 167, 166, 170, 173, 175,
  171, 172, 174, 176, 177, 181, 178, 179, 183, 182, 186, 180, 184, 189, 187, 188, 185, 191, 193,
  195, 192, 198, 194, 197, 190, 196, 201, 199, 209, 200, 203, 207, 211, 205, 202, 210, 204, 208,
  214, 206, 212, 213, 217, 215, 220, 219, 222, 216, 218, 221, 223, 224, 225, 234, 226, 233, 229,
  227, 231, 228, 235, 236, 238, 230, 237, 244, 239, 240, 232, 242, 241, 243, 246, 247, 250, 245,
  252, 251, 248, 255, 249, 253, 256, 259, 258, 257, 254, 264, 260, 261, 266, 263, 270, 271, 262,
  265, 267, 272, 273, 269, 274, 268, 275, 276, 277, 279, 278, 282, 280, 284, 281, 286, 283, 285,
  287, 289, 291, 288, 292, 294, 293, 298, 295, 297, 290, 296, 300, 301, 303, 299, 304, 305, 302,
  306, 307, 308, 311, 312, 310, 309, 315, 317, 316, 324, 313, 318, 314, 329, 319, 322, 321, 327,
  323, 330, 328, 320, 325, 332, 326, 331, 333, 334, 337, 335, 339, 340, 336, 338, 342, 343, 341,
  344, 345, 346, 347, 352, 348, 349, 350, 354, 351, 355, 358, 353, 363, 356, 357, 360, 359, 362,
  365, 364, 367, 361, 372, 366, 368, 371, 373, 375, 369, 374, 376, 377, 378, 370, 382, 380, 379,
  384, 381, 383, 385, 387, 386, 388, 392, 389, 391, 393, 390, 394, 395, 398, 396, 399, 397, 403,
  407, 400, 401, 406, 402, 404, 405, 408, 410, 409, 415, 411, 412, 416, 418, 419, 413, 414, 417,
  420, 421, 422, 423, 424, 425, 427, 426, 428, 433, 429, 431, 438, 430, 434, 436, 435, 432, 437,
  440, 439, 442, 441, 443, 444, 447, 445, 450, 449, 446, 451, 453, 452, 448, 454, 455, 457, 456,
  461, 459, 458, 460, 463, 462, 464, 465, 468, 469, 467, 472, 466, 473, 474, 471, 478, 476, 475,
  470, 477, 489, 481, 484, 479, 480, 482, 483, 485, 486, 488, 487, 490, 492, 493, 495, 494, 491,
  497, 498, 510, 496, 499, 501, 502, 500, 503, 504, 505, 508, 506, 514, 513, 516, 509, 518, 511,
  512, 519, 507, 517, 520, 515, 521, 522, 528, 523, 524, 525, 526, 532, 530, 531, 527, 529, 533,
  535, 536, 537, 538, 534, 539, 543, 545, 540, 544, 542, 546, 549, 541, 547, 550, 548, 553, 555,
  554, 552, 551, 556, 557, 558, 559, 562, 563, 560, 561, 565, 564, 566, 567, 569, 573, 570, 568,
  574, 575, 571, 572, 578, 577, 581, 576, 584, 580, 579, 585, 588, 582, 583, 587, 586, 592, 589,
  590, 593, 594, 591, 596, 595, 599, 597, 598, 603, 606, 607, 601, 600, 602, 604, 608, 609, 605,
  610, 612, 611, 614, 615, 613, 616, 617, 618, 620, 626, 619, 621, 623, 625, 628, 622, 624, 627,
  631, 629, 634, 630, 635, 636, 641, 632, 637, 633, 638, 639, 644, 643, 645, 640, 642, 646, 647,
  648, 650, 651, 649, 655, 653, 656, 654, 657, 652, 660, 658, 659, 661, 664, 662, 668, 667, 663,
  665, 669, 671, 670, 672, 666, 675, 673, 674, 682, 676, 677, 680, 686, 678, 679, 684, 685, 681,
  683, 687, 689, 690, 691, 692, 693, 688, 695, 696, 697, 698, 694, 699, 700, 701, 705, 702, 703,
  707, 706, 704, 708, 710, 713, 715, 712, 714, 711, 716, 717, 709, 718, 720, 719, 721, 722, 724,
  723, 726, 727, 728, 729, 725, 732, 730, 731, 733, 736, 734, 735, 738, 737, 745, 741, 742, 739,
  744, 740, 743, 751, 746, 747, 749, 752, 750, 756, 753, 748, 755, 757, 754, 758, 759, 761, 760,
  762, 764, 763, 768, 765, 770, 769, 766, 771, 774, 772, 777, 767, 775, 773, 776, 779, 780, 778,
  782, 781, 785, 784, 783, 786, 787, 788, 789, 790, 791, 792, 794, 793, 795, 796, 798, 799, 797,
  802, 803, 804, 800, 805, 806, 801, 807, 808, 812, 811, 809, 810, 816, 813, 817, 814, 818, 815,
  823, 819, 820, 832, 821, 833, 835, 824, 834, 836, 838, 841, 837, 844, 839, 840, 842, 843, 845,
  848, 847, 846, 850, 849, 851, 853, 855, 854, 852, 859, 860, 857, 862, 858, 856, 863, 866, 867,
  861, 870, 864, 868, 865, 871, 873, 872, 874, 877, 869, 876, 880, 878, 875, 881, 882, 884, 883,
  886, 887, 885, 890, 879, 888, 895, 894, 889, 891, 893, 896, 897, 892, 898, 899, 901, 900, 905,
  904, 902, 903, 908, 906, 907, 912, 910, 913, 909, 915, 911, 914, 916, 918, 919, 917, 921, 920,
  924, 922, 926, 923, 927, 929, 822, 826, 827, 828, 825, 829, 830, 925, 928, 931, 930, 932, 934,
  936, 933, 935, 938, 941, 937, 939, 942, 940, 944, 945, 946, 948, 943, 947, 949, 950, 951, 952,
  953, 955, 954, 956, 957, 959, 958, 961, 962, 964, 965, 963, 960, 966, 967, 974, 968, 972, 970,
  971, 973, 975, 969, 977, 976, 981, 978, 982, 984, 980, 983, 979, 986, 985, 987, 988, 990, 992,
  991, 989, 993, 994, 995, 998, 997, 996, 1001, 1000, 999, 1002, 1004, 1003, 1005, 1006, 1009,
  1007, 1010, 1008, 1011, 831, 1019, 1013, 1012, 1014, 1017, 1015, 1016, 1022, 1021, 1020, 1018,
  1023]

theorem rank_check : elimM onesN 1024 pivots (pack (rowsS 32 initS) 0) = true := by decide +kernel

end Spectre.Well
