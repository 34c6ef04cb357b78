import Verif.Model.Array2D

/-
Properties C01, C02: the block-swizzled buffer behaves like a matrix for sides up
to 32768, and does not for 65536.
-/

namespace Spectre.Array2D

/-! ### Supporting lemmas -/

theorem smear_getLsbD (v : BitVec 32) (i : Nat) :
    (smear v).getLsbD i = true ↔ ∃ d, d < 32 ∧ v.getLsbD (i + d) = true := by
  have step : ∀ (w : BitVec 32) (k n : Nat),
      (∀ i, w.getLsbD i = true ↔ ∃ d, d < n ∧ v.getLsbD (i + d) = true) → k = n →
      ∀ i, (w ||| w >>> k).getLsbD i = true ↔ ∃ d, d < n + n ∧ v.getLsbD (i + d) = true := by
    intro w k n h hk i
    subst hk
    simp only [BitVec.getLsbD_or, BitVec.getLsbD_ushiftRight, Bool.or_eq_true, h]
    constructor
    · rintro (⟨d, hd, h⟩ | ⟨d, hd, h⟩)
      · exact ⟨d, by omega, h⟩
      · refine ⟨k + d, by omega, ?_⟩
        rw [← h]; congr 1; omega
    · rintro ⟨d, hd, h⟩
      by_cases hdk : d < k
      · exact Or.inl ⟨d, hdk, h⟩
      · refine Or.inr ⟨d - k, by omega, ?_⟩
        rw [← h]; congr 1; omega
  unfold smear
  have h0 : ∀ i, v.getLsbD i = true ↔ ∃ d, d < 1 ∧ v.getLsbD (i + d) = true := by
    intro i
    constructor
    · intro h; exact ⟨0, by omega, h⟩
    · rintro ⟨d, hd, h⟩
      have : d = 0 := by omega
      subst this; exact h
  exact step _ 16 16 (step _ 8 8 (step _ 4 4 (step _ 2 2 (step _ 1 1 h0 rfl) rfl) rfl) rfl) rfl i

theorem smear_toNat (v : BitVec 32) (hv : v ≠ 0) :
    (smear v).toNat = 2 ^ (v.toNat.log2 + 1) - 1 := by
  have hv' : v.toNat ≠ 0 := by
    intro h; apply hv; apply BitVec.eq_of_toNat_eq; simpa using h
  apply Nat.eq_of_testBit_eq
  intro i
  rw [Nat.testBit_two_pow_sub_one]
  have h1 := smear_getLsbD v i
  rw [BitVec.testBit_toNat]
  have hl := Nat.testBit_log2 hv'
  have hlt : v.toNat.log2 < 32 := (Nat.log2_lt hv').2 v.isLt
  by_cases hi : i < v.toNat.log2 + 1
  · rw [decide_eq_true hi]
    rw [h1]
    refine ⟨v.toNat.log2 - i, by omega, ?_⟩
    rw [← BitVec.testBit_toNat]
    have : i + (v.toNat.log2 - i) = v.toNat.log2 := by omega
    rw [this]; exact hl
  · rw [decide_eq_false hi]
    apply Bool.eq_false_iff.2
    intro hc
    obtain ⟨d, _, hd⟩ := h1.1 hc
    rw [← BitVec.testBit_toNat] at hd
    have := Nat.testBit_lt_two_pow (x := v.toNat) (i := i + d)
      (Nat.lt_of_lt_of_le (Nat.lt_log2_self) (Nat.pow_le_pow_right (by omega) (by omega)))
    rw [this] at hd; exact Bool.noConfusion hd

/-- The rounded side is a power of two, at least the requested side and one block. -/
theorem ctorSide_spec (side : BitVec 32) (h : side.toNat ≤ 32768) :
    ∃ k, 5 ≤ k ∧ k ≤ 15 ∧ (ctorSide side).toNat = 2 ^ k ∧ side.toNat ≤ 2 ^ k := by
  have key : ∀ s : BitVec 32, 32 ≤ s.toNat → s.toNat ≤ 32768 →
      ∃ k, 5 ≤ k ∧ k ≤ 15 ∧
        (if s &&& (s - 1) ≠ 0 then
          (if smear (s - 1) + 1 = 0 then smear (s - 1) + 1 + 1 else smear (s - 1) + 1)
         else s).toNat = 2 ^ k ∧ s.toNat ≤ 2 ^ k := by
    intro s h1 h2
    have hsub : (s - 1).toNat = s.toNat - 1 := by
      rw [BitVec.toNat_sub_of_le]
      · rfl
      · rw [BitVec.le_def]; show 1 ≤ s.toNat; omega
    by_cases hp : s &&& (s - 1) = 0
    · rw [if_neg (by simpa using hp)]
      have : s.toNat &&& (s.toNat - 1) = 0 := by
        have := congrArg BitVec.toNat hp
        rw [BitVec.toNat_and, hsub] at this
        simpa using this
      obtain ⟨k, hk⟩ := (Nat.and_sub_one_eq_zero_iff_isPowerOfTwo (by omega)).1 this
      refine ⟨k, ?_, ?_, hk, by omega⟩
      · apply Nat.le_of_not_lt; intro hlt
        have := Nat.pow_lt_pow_right (a := 2) (by omega) hlt
        omega
      · apply Nat.le_of_not_lt; intro hlt
        have := Nat.pow_lt_pow_right (a := 2) (by omega) hlt
        omega
    · rw [if_pos hp]
      have hne : s - 1 ≠ 0 := by
        intro h
        have := congrArg BitVec.toNat h
        rw [hsub] at this; simp at this; omega
      have hne' : s.toNat - 1 ≠ 0 := by omega
      have hL : (s.toNat - 1).log2 < 15 := (Nat.log2_lt hne').2 (by omega)
      have hL5 : 4 ≤ (s.toNat - 1).log2 := (Nat.le_log2 hne').2 (by omega)
      have hpow : 2 ^ ((s.toNat - 1).log2 + 1) ≤ 2 ^ 15 := Nat.pow_le_pow_right (by omega) (by omega)
      have hpos : 0 < 2 ^ ((s.toNat - 1).log2 + 1) := Nat.pos_of_ne_zero (by simp)
      have hval : (smear (s - 1) + 1).toNat = 2 ^ ((s.toNat - 1).log2 + 1) := by
        rw [BitVec.toNat_add, smear_toNat _ hne, hsub]
        show (2 ^ ((s.toNat - 1).log2 + 1) - 1 + 1) % 2 ^ 32 = _
        rw [Nat.sub_add_cancel hpos, Nat.mod_eq_of_lt]
        omega
      have hnz : ¬ smear (s - 1) + 1 = 0 := by
        intro h
        have := congrArg BitVec.toNat h
        rw [hval] at this
        simp at this
      rw [if_neg hnz, hval]
      refine ⟨_, by omega, by omega, rfl, ?_⟩
      have := Nat.lt_log2_self (n := s.toNat - 1)
      omega
  unfold ctorSide
  simp only
  by_cases hs : side < BitVec.ofNat 32 blockSide
  · have h32 : (BitVec.ofNat 32 blockSide).toNat = 32 := by decide
    rw [if_pos hs]
    obtain ⟨k, a, b, c, d⟩ := key (BitVec.ofNat 32 blockSide) (by rw [h32]; omega) (by rw [h32]; omega)
    refine ⟨k, a, b, c, ?_⟩
    have := BitVec.lt_def.1 hs
    omega
  · rw [if_neg hs]
    have h32 : (BitVec.ofNat 32 blockSide).toNat = 32 := by decide
    have : 32 ≤ side.toNat := by
      have := mt BitVec.lt_def.2 hs
      omega
    exact key side this h

/-- Mathematical address of cell `(x,y)` for `B` blocks per side. -/
theorem address_eq (k : Nat) (hk5 : 5 ≤ k) (hk : k ≤ 15) (blocks x y : BitVec 32)
    (hb : blocks.toNat = 2 ^ (k - 5)) (hx : x.toNat < 2 ^ k) (hy : y.toNat < 2 ^ k) :
    address blocks x y =
      ((1024 * (y.toNat / 32 * 2 ^ (k - 5) + x.toNat / 32) + (32 * (y.toNat % 32) + x.toNat % 32) : Nat) : Int) ∧
    1024 * (y.toNat / 32 * 2 ^ (k - 5) + x.toNat / 32) + (32 * (y.toNat % 32) + x.toNat % 32)
      < 2 ^ k * 2 ^ k := by
  obtain ⟨j, rfl⟩ : ∃ j, k = j + 5 := ⟨k - 5, by omega⟩
  have e5 : j + 5 - 5 = j := by omega
  rw [e5] at hb ⊢
  have hpow : 2 ^ (j + 5) = 2 ^ j * 32 := by rw [Nat.pow_add]
  have hj : 2 ^ j ≤ 1024 := by
    have := Nat.pow_le_pow_right (n := 2) (by omega) (show j ≤ 10 by omega)
    simpa using this
  rw [hpow] at hx hy ⊢
  have msb : ∀ z : BitVec 32, z.toNat < 2 ^ j * 32 → z.msb = false := by
    intro z hz
    rw [BitVec.msb_eq_false_iff_two_mul_lt]; omega
  have sh : ∀ z : BitVec 32, z.toNat < 2 ^ j * 32 → (z.sshiftRight logBS).toNat = z.toNat / 32 := by
    intro z hz
    rw [BitVec.sshiftRight_eq_of_msb_false (msb z hz), BitVec.toNat_ushiftRight,
      Nat.shiftRight_eq_div_pow]
    rfl
  have mk : ∀ z : BitVec 32, (z &&& BitVec.ofNat 32 (blockSide - 1)).toNat = z.toNat % 32 := by
    intro z
    rw [BitVec.toNat_and]
    show z.toNat &&& 31 = _
    exact Nat.and_two_pow_sub_one_eq_mod z.toNat 5
  have hxd : x.toNat / 32 < 2 ^ j := by omega
  have hyd : y.toNat / 32 < 2 ^ j := by omega
  have hmul : y.toNat / 32 * 2 ^ j + 2 ^ j ≤ 2 ^ j * 2 ^ j := by
    rw [← Nat.succ_mul]; exact Nat.mul_le_mul_right _ hyd
  have hsq : 2 ^ j * 2 ^ j ≤ 1024 * 1024 := Nat.mul_le_mul hj hj
  generalize hP : 2 ^ j * 2 ^ j = P at *
  generalize hQ : y.toNat / 32 * 2 ^ j = Q at *
  have h1 : ((y.sshiftRight logBS) * blocks + x.sshiftRight logBS).toNat = Q + x.toNat / 32 := by
    rw [BitVec.toNat_add, BitVec.toNat_mul, sh x hx, sh y hy, hb, hQ]
    omega
  have h2 : (BitVec.ofNat 32 (blockSide * blockSide) *
      ((y.sshiftRight logBS) * blocks + x.sshiftRight logBS)).toNat = 1024 * (Q + x.toNat / 32) := by
    rw [BitVec.toNat_mul, h1]
    show 1024 * (Q + x.toNat / 32) % 2 ^ 32 = _
    omega
  have h3 : (BitVec.ofNat 32 blockSide * (y &&& BitVec.ofNat 32 (blockSide - 1)) +
      (x &&& BitVec.ofNat 32 (blockSide - 1))).toNat = 32 * (y.toNat % 32) + x.toNat % 32 := by
    rw [BitVec.toNat_add, BitVec.toNat_mul, mk, mk]
    show (32 * (y.toNat % 32) % 2 ^ 32 + x.toNat % 32) % 2 ^ 32 = _
    omega
  constructor
  · unfold address
    simp only
    rw [BitVec.toInt_eq_toNat_cond, BitVec.toInt_eq_toNat_cond, h2, h3]
    rw [if_pos (by omega), if_pos (by omega), ← Int.natCast_add]
  · have : 2 ^ j * 32 * (2 ^ j * 32) = P * 1024 := by
      rw [← hP]
      rw [Nat.mul_assoc, Nat.mul_left_comm 32, ← Nat.mul_assoc]
    rw [this]
    omega

/-- Different cells have different addresses. -/
theorem address_inj (k : Nat) (x y x' y' : Nat)
    (hx : x < 2 ^ k) (hx' : x' < 2 ^ k) (hk : 5 ≤ k)
    (h : 1024 * (y / 32 * 2 ^ (k - 5) + x / 32) + (32 * (y % 32) + x % 32)
       = 1024 * (y' / 32 * 2 ^ (k - 5) + x' / 32) + (32 * (y' % 32) + x' % 32)) :
    x = x' ∧ y = y' := by
  obtain ⟨j, rfl⟩ : ∃ j, k = j + 5 := ⟨k - 5, by omega⟩
  have e5 : j + 5 - 5 = j := by omega
  rw [e5] at h
  have hpow : 2 ^ (j + 5) = 2 ^ j * 32 := by rw [Nat.pow_add]
  rw [hpow] at hx hx'
  have a1 : y / 32 * 2 ^ j + x / 32 = y' / 32 * 2 ^ j + x' / 32 := by
    generalize y / 32 * 2 ^ j = Q at *
    generalize y' / 32 * 2 ^ j = Q' at *
    omega
  have a2 : 32 * (y % 32) + x % 32 = 32 * (y' % 32) + x' % 32 := by
    generalize y / 32 * 2 ^ j = Q at *
    generalize y' / 32 * 2 ^ j = Q' at *
    omega
  have hxd : x / 32 < 2 ^ j := by omega
  have hxd' : x' / 32 < 2 ^ j := by omega
  have a3 : x / 32 = x' / 32 := by
    have := congrArg (· % 2 ^ j) a1
    simp only [Nat.mul_add_mod_self_right] at this
    rwa [Nat.mod_eq_of_lt hxd, Nat.mod_eq_of_lt hxd'] at this
  have a4 : y / 32 = y' / 32 := by
    rw [a3] at a1
    exact Nat.eq_of_mul_eq_mul_right (Nat.pos_of_ne_zero (by simp)) (Nat.add_right_cancel a1)
  omega

/-! ### Independent specification: an `n × n` matrix as a function -/

/-- Pointwise update of a matrix. -/
def matSet (m : Nat → Nat → α) (x y : Nat) (v : α) : Nat → Nat → α :=
  fun x' y' => if x' = x ∧ y' = y then v else m x' y'

/-- A list of updates, applied left to right. -/
def matSets (m : Nat → Nat → α) : List (BitVec 32 × BitVec 32 × α) → (Nat → Nat → α)
  | [] => m
  | (x, y, v) :: ops => matSets (matSet m x.toNat y.toNat v) ops

/-- `a` stores the matrix `m` of side `n`: each access to a cell of the `n × n` square
is inside the heap block and returns the matrix entry. -/
def Stores (n : Nat) (a : Arr α) (m : Nat → Nat → α) : Prop :=
  ∀ x y : BitVec 32, x.toNat < n → y.toNat < n → a.get x y = some (m x.toNat y.toNat)

/-- Representation invariant of an array of rounded side `2^k`. -/
def WF (k : Nat) (a : Arr α) : Prop :=
  5 ≤ k ∧ k ≤ 15 ∧ a.blocks.toNat = 2 ^ (k - 5) ∧ a.data.length = 2 ^ k * 2 ^ k

theorem mk_wf (side : BitVec 32) (junk : Nat → α) (h : side.toNat ≤ 32768) :
    ∃ k, WF k (mk side junk) ∧ side.toNat ≤ 2 ^ k := by
  obtain ⟨k, h1, h2, h3, h4⟩ := ctorSide_spec side h
  refine ⟨k, ⟨h1, h2, ?_, ?_⟩, h4⟩
  · unfold mk
    simp only [BitVec.toNat_ushiftRight, h3, Nat.shiftRight_eq_div_pow]
    rw [show logBS = 5 from rfl, Nat.pow_div h1 (by omega)]
  · simp [mk, h3]

theorem set_ok {k : Nat} {a : Arr α} (h : WF k a) (x y : BitVec 32) (v : α)
    (hx : x.toNat < 2 ^ k) (hy : y.toNat < 2 ^ k) :
    ∃ a', a.set x y v = some a' ∧ WF k a' ∧
      ∀ x' y' : BitVec 32, x'.toNat < 2 ^ k → y'.toNat < 2 ^ k →
        a'.get x' y' = if x' = x ∧ y' = y then some v else a.get x' y' := by
  obtain ⟨h5, h15, hb, hl⟩ := h
  obtain ⟨e, hlt⟩ := address_eq k h5 h15 a.blocks x y hb hx hy
  refine ⟨{ a with data := a.data.set (address a.blocks x y).toNat v }, ?_, ⟨h5, h15, hb, by simp [hl]⟩, ?_⟩
  · unfold Arr.set
    simp only
    rw [if_pos]
    rw [e, hl]
    constructor
    · exact Int.natCast_nonneg _
    · rw [Int.toNat_natCast]; exact hlt
  · intro x' y' hx' hy'
    obtain ⟨e', hlt'⟩ := address_eq k h5 h15 a.blocks x' y' hb hx' hy'
    unfold Arr.get
    simp only
    rw [e, e', if_pos (Int.natCast_nonneg _), if_pos (Int.natCast_nonneg _),
      Int.toNat_natCast, Int.toNat_natCast, List.getElem?_set]
    by_cases hc : x' = x ∧ y' = y
    · obtain ⟨rfl, rfl⟩ := hc
      rw [if_pos rfl, if_pos (by rw [hl]; exact hlt), if_pos ⟨rfl, rfl⟩]
    · rw [if_neg hc, if_neg]
      intro heq
      obtain ⟨e1, e2⟩ := address_inj k x.toNat y.toNat x'.toNat y'.toNat hx hx' h5 heq
      exact hc ⟨(BitVec.eq_of_toNat_eq e1).symm, (BitVec.eq_of_toNat_eq e2).symm⟩

theorem get_inbounds {k : Nat} {a : Arr α} (h : WF k a) (x y : BitVec 32)
    (hx : x.toNat < 2 ^ k) (hy : y.toNat < 2 ^ k) : ∃ v, a.get x y = some v := by
  obtain ⟨h5, h15, hb, hl⟩ := h
  obtain ⟨e, hlt⟩ := address_eq k h5 h15 a.blocks x y hb hx hy
  unfold Arr.get
  simp only
  rw [e, if_pos (Int.natCast_nonneg _), Int.toNat_natCast]
  exact ⟨_, List.getElem?_eq_getElem (by rw [hl]; exact hlt)⟩

theorem sets_ok {k : Nat} (ops : List (BitVec 32 × BitVec 32 × α)) :
    ∀ (a : Arr α) (m : Nat → Nat → α), WF k a → Stores (2 ^ k) a m →
      (∀ op ∈ ops, op.1.toNat < 2 ^ k ∧ op.2.1.toNat < 2 ^ k) →
      ∃ a', a.sets ops = some a' ∧ WF k a' ∧ Stores (2 ^ k) a' (matSets m ops) := by
  induction ops with
  | nil => intro a m h hs _; exact ⟨a, rfl, h, hs⟩
  | cons op ops ih =>
    intro a m h hs hin
    obtain ⟨x, y, v⟩ := op
    obtain ⟨hx, hy⟩ := hin (x, y, v) (by simp)
    obtain ⟨a1, e1, w1, g1⟩ := set_ok h x y v hx hy
    have s1 : Stores (2 ^ k) a1 (matSet m x.toNat y.toNat v) := by
      intro x' y' hx' hy'
      rw [g1 x' y' hx' hy']
      unfold matSet
      by_cases hc : x' = x ∧ y' = y
      · obtain ⟨rfl, rfl⟩ := hc
        rw [if_pos ⟨rfl, rfl⟩, if_pos ⟨rfl, rfl⟩]
      · rw [if_neg hc, if_neg]
        · exact hs x' y' hx' hy'
        · rintro ⟨c1, c2⟩
          exact hc ⟨BitVec.eq_of_toNat_eq c1, BitVec.eq_of_toNat_eq c2⟩
    obtain ⟨a2, e2, w2, g2⟩ := ih a1 _ w1 s1 (fun op hop => hin op (by simp [hop]))
    refine ⟨a2, ?_, w2, g2⟩
    rw [Arr.sets, e1]; exact e2

theorem stores_self {k : Nat} {a : Arr α} (h : WF k a) :
    ∃ m, Stores (2 ^ k) a m := by
  refine ⟨fun x y => (a.get (BitVec.ofNat 32 x) (BitVec.ofNat 32 y)).getD
    ((get_inbounds h 0 0 (Nat.two_pow_pos k) (Nat.two_pow_pos k)).choose), ?_⟩
  intro x y hx hy
  obtain ⟨v, hv⟩ := get_inbounds h x y hx hy
  simp [hv]

/-! ### C01 -/

/-- **C01.** For every side up to 32768, a freshly constructed buffer (whatever garbage
`malloc` returned) stores some matrix `m₀`, and after any sequence of writes to cells of the
`side × side` square no access is out of bounds and each cell reads the last value written to
exactly that cell. -/
theorem C01_array2d_matrix (side : BitVec 32) (h : side.toNat ≤ 32768) (junk : Nat → α) :
    ∃ m₀ : Nat → Nat → α, Stores side.toNat (mk side junk) m₀ ∧
      ∀ ops : List (BitVec 32 × BitVec 32 × α),
        (∀ op ∈ ops, op.1.toNat < side.toNat ∧ op.2.1.toNat < side.toNat) →
        ∃ a, (mk side junk).sets ops = some a ∧ Stores side.toNat a (matSets m₀ ops) := by
  obtain ⟨k, hwf, hle⟩ := mk_wf side junk h
  obtain ⟨m, hm⟩ := stores_self hwf
  refine ⟨m, fun x y hx hy => hm x y (by omega) (by omega), ?_⟩
  intro ops hops
  obtain ⟨a, e, _, g⟩ := sets_ok ops (mk side junk) m hwf hm
    (fun op hop => ⟨by have := (hops op hop).1; omega, by have := (hops op hop).2; omega⟩)
  exact ⟨a, e, fun x y hx hy => g x y (by omega) (by omega)⟩

theorem matSets_last (m : Nat → Nat → α) (ops : List (BitVec 32 × BitVec 32 × α)) (x y : Nat) :
    matSets m ops x y =
      match (ops.filter (fun o => o.1.toNat = x ∧ o.2.1.toNat = y)).getLast? with
      | some o => o.2.2
      | none => m x y := by
  induction ops generalizing m with
  | nil => rfl
  | cons op ops ih =>
    obtain ⟨a, b, v⟩ := op
    rw [matSets, ih]
    by_cases hc : a.toNat = x ∧ b.toNat = y
    · rw [List.filter_cons_of_pos (by simpa using hc)]
      cases hf : (ops.filter (fun o => decide (o.1.toNat = x ∧ o.2.1.toNat = y))).getLast? with
      | none =>
        have : ops.filter (fun o => decide (o.1.toNat = x ∧ o.2.1.toNat = y)) = [] := by
          simpa using hf
        rw [this]
        simp [matSet, hc.1, hc.2]
      | some o =>
        rw [List.getLast?_cons, hf]
        rfl
    · rw [List.filter_cons_of_neg (by simpa using hc)]
      cases (ops.filter (fun o => decide (o.1.toNat = x ∧ o.2.1.toNat = y))).getLast? with
      | none =>
        simp only [matSet]
        rw [if_neg]
        rintro ⟨rfl, rfl⟩; exact hc ⟨rfl, rfl⟩
      | some o => rfl

/-- **C01** (constructor from values): the second constructor stores the row-major array. -/
theorem C01_array2d_from_values (side : BitVec 32) (h : side.toNat ≤ 32768)
    (values junk : Nat → α) :
    ∃ a, mkValues side values junk = some a ∧
      Stores side.toNat a (fun x y => values (y * side.toNat + x)) := by
  obtain ⟨m, _, hm⟩ := C01_array2d_matrix side h junk
  have hin : ∀ op ∈ ctorWrites side.toNat values,
      op.1.toNat < side.toNat ∧ op.2.1.toNat < side.toNat := by
    intro op hop
    simp only [ctorWrites, List.mem_flatMap, List.mem_map, List.mem_range] at hop
    obtain ⟨y, hy, x, hx, rfl⟩ := hop
    have hs := side.isLt
    simp only [BitVec.toNat_ofNat]
    rw [Nat.mod_eq_of_lt (by omega), Nat.mod_eq_of_lt (by omega)]
    exact ⟨hx, hy⟩
  obtain ⟨a, e, g⟩ := hm _ hin
  refine ⟨a, e, ?_⟩
  intro x y hx hy
  rw [g x y hx hy, matSets_last]
  congr 1
  have hall : ∀ o ∈ (ctorWrites side.toNat values).filter
      (fun o => decide (o.1.toNat = x.toNat ∧ o.2.1.toNat = y.toNat)),
      o.2.2 = values (y.toNat * side.toNat + x.toNat) := by
    intro o ho
    rw [List.mem_filter] at ho
    obtain ⟨ho, hc⟩ := ho
    simp only [ctorWrites, List.mem_flatMap, List.mem_map, List.mem_range] at ho
    obtain ⟨y', hy', x', hx', rfl⟩ := ho
    have hs := side.isLt
    simp only [BitVec.toNat_ofNat, decide_eq_true_eq] at hc
    rw [Nat.mod_eq_of_lt (by omega), Nat.mod_eq_of_lt (by omega)] at hc
    obtain ⟨rfl, rfl⟩ := hc
    rfl
  have hmem : (x, y, values (y.toNat * side.toNat + x.toNat)) ∈
      (ctorWrites side.toNat values).filter
      (fun o => decide (o.1.toNat = x.toNat ∧ o.2.1.toNat = y.toNat)) := by
    rw [List.mem_filter]
    refine ⟨?_, by simp⟩
    simp only [ctorWrites, List.mem_flatMap, List.mem_map, List.mem_range]
    exact ⟨y.toNat, hy, x.toNat, hx, by simp⟩
  split
  · next o ho => exact hall o (List.mem_of_getLast? ho)
  · next hn =>
    rw [List.getLast?_eq_none_iff] at hn
    rw [hn] at hmem
    exact absurd hmem List.not_mem_nil

theorem arrayLen_eq {k : Nat} {a : Arr α} (h : WF k a) : a.arrayLen = a.data.length := by
  obtain ⟨h5, h15, hb, hl⟩ := h
  obtain ⟨j, rfl⟩ : ∃ j, k = j + 5 := ⟨k - 5, by omega⟩
  rw [show j + 5 - 5 = j by omega] at hb
  unfold Arr.arrayLen
  rw [hl, BitVec.toNat_mul, BitVec.toNat_mul, BitVec.toNat_mul, hb]
  rw [show (BitVec.ofNat 32 blockSide).toNat = 32 from rfl, Nat.pow_add]
  have hj : 2 ^ j ≤ 1024 := by
    have := Nat.pow_le_pow_right (n := 2) (by omega) (show j ≤ 10 by omega)
    simpa using this
  have hsq : 2 ^ j * 2 ^ j ≤ 1024 * 1024 := Nat.mul_le_mul hj hj
  have : 2 ^ j * 2 ^ 5 * (2 ^ j * 2 ^ 5) = 2 ^ j * 2 ^ j * 1024 := by
    rw [show (2:Nat) ^ 5 = 32 from rfl, Nat.mul_assoc, Nat.mul_left_comm 32, ← Nat.mul_assoc]
  rw [this]
  generalize 2 ^ j * 2 ^ j = P at *
  omega

/-- **C01** (`zero_out`): after clearing, every cell of the square reads zero. -/
theorem C01_array2d_zero_out (side : BitVec 32) (h : side.toNat ≤ 32768) (junk : Nat → α)
    (zero : α) : Stores side.toNat ((mk side junk).zeroOut zero) (fun _ _ => zero) := by
  obtain ⟨k, hwf, hle⟩ := mk_wf side junk h
  have hlen := arrayLen_eq hwf
  have hwf' := hwf
  obtain ⟨h5, h15, hb, hl⟩ := hwf
  intro x y hx hy
  obtain ⟨e, hlt⟩ := address_eq k h5 h15 (mk side junk).blocks x y hb (by omega) (by omega)
  unfold Arr.get Arr.zeroOut
  simp only
  rw [e, if_pos (Int.natCast_nonneg _), Int.toNat_natCast, List.getElem?_mapIdx,
    List.getElem?_eq_getElem (by rw [hl]; exact hlt)]
  simp only [Option.map_some]
  rw [if_pos (by rw [hlen, hl]; exact hlt)]

/-- **C01** (copy): a copy reads the same everywhere, and writing the copy does not affect the
original (it is a separate value by construction). -/
theorem C01_array2d_copy (side : BitVec 32) (h : side.toNat ≤ 32768) (junk : Nat → α)
    (ops : List (BitVec 32 × BitVec 32 × α))
    (hops : ∀ op ∈ ops, op.1.toNat < side.toNat ∧ op.2.1.toNat < side.toNat) :
    ∃ a, (mk side junk).sets ops = some a ∧
      a.copy.data = a.data ∧ a.copy.blocks = a.blocks := by
  obtain ⟨k, hwf, hle⟩ := mk_wf side junk h
  obtain ⟨m, hm⟩ := stores_self hwf
  obtain ⟨a, e, w, _⟩ := sets_ok ops (mk side junk) m hwf hm
    (fun op hop => ⟨by have := (hops op hop).1; omega, by have := (hops op hop).2; omega⟩)
  refine ⟨a, e, ?_, rfl⟩
  unfold Arr.copy
  rw [arrayLen_eq w, List.take_length]

/-- Non-vacuity: a 100 × 100 buffer and three writes, two of them to the same cell. -/
example : ∃ a : Arr Nat,
    (mk 100#32 (fun _ => 7)).sets [(99#32, 3#32, 1), (3#32, 99#32, 2), (99#32, 3#32, 5)] = some a ∧
    a.get 99#32 3#32 = some 5 ∧ a.get 3#32 99#32 = some 2 := by
  obtain ⟨m, _, hm⟩ := C01_array2d_matrix 100#32 (by decide) (fun _ => 7)
  obtain ⟨a, e, g⟩ := hm [(99#32, 3#32, 1), (3#32, 99#32, 2), (99#32, 3#32, 5)] (by decide)
  exact ⟨a, e, g 99#32 3#32 (by decide) (by decide), g 3#32 99#32 (by decide) (by decide)⟩

/-! ### C02: the property for *all* sides is false -/

/-- The full statement of **C02**: matrix behaviour for every side accepted by the constructor. -/
def AllSidesWork : Prop :=
  ∀ (side : BitVec 32), 0 < side.toNat → ∀ (junk : Nat → Nat) (x y : BitVec 32),
    x.toNat < side.toNat → y.toNat < side.toNat → (mk side junk).get x y ≠ none

theorem ctorSide_65536 : ctorSide 65536#32 = 65536#32 := by decide

theorem mk_blocks (side : BitVec 32) (junk : Nat → α) :
    (mk side junk).blocks = ctorSide side >>> logBS := rfl

theorem get_of_neg (a : Arr α) (x y : BitVec 32) (h : address a.blocks x y < 0) :
    a.get x y = none := by
  unfold Arr.get
  exact if_neg (by omega)

theorem zeroOut_of_len (a : Arr α) (zero : α) (h : a.arrayLen = 0) :
    (a.zeroOut zero).data = a.data := by
  unfold Arr.zeroOut
  simp only [h, Nat.not_lt_zero, if_false]
  apply List.ext_getElem?
  intro i
  simp

/-- **C02 is violated**: with side 65536 the cell (0, 32768) has a negative address, so reading it
leaves the heap block. -/
theorem C02_not_all_sides : ¬ AllSidesWork := by
  intro h
  refine h 65536#32 (by decide) (fun _ => 0) 0#32 32768#32 (by decide) (by decide) ?_
  apply get_of_neg
  rw [mk_blocks, ctorSide_65536]
  decide

/-- **C02**, also `zero_out` silently clears nothing at side 65536 (its 32-bit length wraps to 0). -/
theorem C02_zero_out_wraps (junk : Nat → α) (zero : α) :
    ((mk 65536#32 junk).zeroOut zero).data = (mk 65536#32 junk).data := by
  apply zeroOut_of_len
  unfold Arr.arrayLen
  rw [mk_blocks, ctorSide_65536]
  decide

/-- **C02, partial**: the sides for which no cell access can leave the block include all sides
up to 32768 (what is missing: sides 32769..2^32-1, which fail as shown above). -/
theorem C02_sides_partial (side : BitVec 32) (h : side.toNat ≤ 32768) (junk : Nat → Nat)
    (x y : BitVec 32) (hx : x.toNat < side.toNat) (hy : y.toNat < side.toNat) :
    (mk side junk).get x y ≠ none := by
  obtain ⟨m, hm, _⟩ := C01_array2d_matrix side h junk
  rw [hm x y hx hy]
  exact Option.some_ne_none _

end Spectre.Array2D
