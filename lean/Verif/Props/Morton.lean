import Verif.Model.Morton

/-
Property C18: Morton codes interleave the coordinate bits.
-/

namespace Spectre.Morton

/-! ### Symbolic bit tracking: every output bit is the OR of a list of source bits -/

/-- `v` is described by `S`: bit `i` of `v` is the disjunction of the bits `S i` of `src`. -/
def Desc (src v : BitVec 64) (S : Nat → List Nat) : Prop :=
  ∀ i, i < 64 → v.getLsbD i = (S i).any (fun j => src.getLsbD j)

def stepS (k : Nat) (m : BitVec 64) (S : Nat → List Nat) : Nat → List Nat :=
  fun i => if m.getLsbD i then (S i) ++ (if i < k then [] else S (i - k)) else []

theorem desc_step {src v : BitVec 64} {S : Nat → List Nat} (h : Desc src v S) (k : Nat)
    (m : BitVec 64) : Desc src (smearStep k m v) (stepS k m S) := by
  intro i hi
  unfold smearStep stepS
  rw [BitVec.getLsbD_and, BitVec.getLsbD_or, BitVec.getLsbD_shiftLeft, h i hi]
  cases hm : m.getLsbD i
  · simp
  · by_cases hk : i < k
    · simp [hk]
    · rw [h (i - k) (by omega)]
      simp [hk, hi]

def S0 : Nat → List Nat := fun i => if (0x1FFFFF#64).getLsbD i then [i] else []

theorem desc0 (v : BitVec 64) : Desc v (v &&& 0x1FFFFF#64) S0 := by
  intro i hi
  unfold S0
  rw [BitVec.getLsbD_and]
  cases (0x1FFFFF#64).getLsbD i <;> simp

theorem table :
    ∀ i < 64, stepS 2 0x1249249249249249#64 (stepS 4 0x10C30C30C30C30C3#64
      (stepS 8 0x100F00f00F00F00F#64 (stepS 16 0x1F0000FF0000FF#64
      (stepS 32 0x1F00000000FFFF#64 S0)))) i = if i % 3 = 0 ∧ i < 63 then [i / 3] else [] := by
  decide +kernel

/-- Bits of `expand`: bit `3k` is bit `k` for `k < 21`, everything else is 0. -/
theorem expand_bit (v : BitVec 64) (i : Nat) :
    (expand v).getLsbD i = (decide (i % 3 = 0 ∧ i < 63) && v.getLsbD (i / 3)) := by
  by_cases hi : i < 64
  · have := desc_step (desc_step (desc_step (desc_step (desc_step (desc0 v) 32 0x1F00000000FFFF#64)
      16 0x1F0000FF0000FF#64) 8 0x100F00f00F00F00F#64) 4 0x10C30C30C30C30C3#64) 2
      0x1249249249249249#64 i hi
    rw [table i hi] at this
    unfold expand
    simp only
    rw [this]
    by_cases c : i % 3 = 0 ∧ i < 63 <;> simp [c]
  · rw [BitVec.getLsbD_of_ge _ _ (by omega)]
    simp; omega

/-- **C18.** Bit `3k`, `3k+1`, `3k+2` of the code is bit `k` of `x`, `y`, `z`. -/
theorem C18_interleave (x y z : BitVec 64) (k : Nat) (hk : k < 21) :
    (mortonShift x y z).getLsbD (3 * k) = x.getLsbD k ∧
    (mortonShift x y z).getLsbD (3 * k + 1) = y.getLsbD k ∧
    (mortonShift x y z).getLsbD (3 * k + 2) = z.getLsbD k := by
  unfold mortonShift
  simp only [BitVec.getLsbD_or, BitVec.getLsbD_shiftLeft, expand_bit]
  have e1 : 3 * k / 3 = k := by omega
  have e2 : (3 * k + 1) % 3 = 1 := by omega
  have e3 : (3 * k + 2) % 3 = 2 := by omega
  have e5 : 3 * k < 63 := by omega
  have e6 : 3 * k < 64 := by omega
  have e7 : 3 * k + 1 < 64 := by omega
  have e8 : 3 * k + 2 < 64 := by omega
  refine ⟨?_, ?_, ?_⟩
  · by_cases h0 : k = 0
    · subst h0; simp
    · have a1 : (3 * k - 1) % 3 = 2 := by omega
      have a2 : (3 * k - 2) % 3 = 1 := by omega
      simp [a1, a2, e1, e5]
  · by_cases h0 : k = 0
    · subst h0; simp
    · have a2 : (3 * k - 1) % 3 = 2 := by omega
      simp [a2, e1, e2, e5, e7]
  · simp [e1, e3, e5, e8]

/-- The top bit is never set: codes use 63 bits. -/
theorem C18_top_bit (x y z : BitVec 64) : (mortonShift x y z).getLsbD 63 = false := by
  unfold mortonShift
  rw [BitVec.getLsbD_or, BitVec.getLsbD_or, BitVec.getLsbD_shiftLeft, BitVec.getLsbD_shiftLeft,
    expand_bit, expand_bit, expand_bit]
  rfl

theorem eq_of_low_bits {x x' : BitVec 64} (hx : x.toNat < 2 ^ 21) (hx' : x'.toNat < 2 ^ 21)
    (h : ∀ k < 21, x.getLsbD k = x'.getLsbD k) : x = x' := by
  apply BitVec.eq_of_getLsbD_eq
  intro i hi
  by_cases c : i < 21
  · exact h i c
  · rw [← BitVec.testBit_toNat, ← BitVec.testBit_toNat,
      Nat.testBit_lt_two_pow (Nat.lt_of_lt_of_le hx (Nat.pow_le_pow_right (by omega) (by omega))),
      Nat.testBit_lt_two_pow (Nat.lt_of_lt_of_le hx' (Nat.pow_le_pow_right (by omega) (by omega)))]

/-- **C18.** On 21-bit coordinates the code is injective. -/
theorem C18_injective (x y z x' y' z' : BitVec 64)
    (hx : x.toNat < 2 ^ 21) (hy : y.toNat < 2 ^ 21) (hz : z.toNat < 2 ^ 21)
    (hx' : x'.toNat < 2 ^ 21) (hy' : y'.toNat < 2 ^ 21) (hz' : z'.toNat < 2 ^ 21)
    (h : mortonShift x y z = mortonShift x' y' z') : x = x' ∧ y = y' ∧ z = z' := by
  refine ⟨eq_of_low_bits hx hx' ?_, eq_of_low_bits hy hy' ?_, eq_of_low_bits hz hz' ?_⟩ <;>
    intro k hk
  · rw [← (C18_interleave x y z k hk).1, ← (C18_interleave x' y' z' k hk).1, h]
  · rw [← (C18_interleave x y z k hk).2.1, ← (C18_interleave x' y' z' k hk).2.1, h]
  · rw [← (C18_interleave x y z k hk).2.2, ← (C18_interleave x' y' z' k hk).2.2, h]

/-! ### The BMI2 variant -/

theorem pdep_bit (v m : BitVec 64) (i : Nat) (hi : i < 64) :
    (pdep v m).getLsbD i = (m.getLsbD i && v.getLsbD (rank m i)) := by
  unfold pdep
  rw [BitVec.getLsbD_setWidth, BitVec.getLsbD_ofBoolListLE]
  simp [hi, List.getD]

theorem pdep_tables :
    (∀ i < 64, (0x9249249249249249#64).getLsbD i = decide (i % 3 = 0)) ∧
    (∀ i < 64, (0x2492492492492492#64).getLsbD i = decide (i % 3 = 1)) ∧
    (∀ i < 64, (0x4924924924924924#64).getLsbD i = decide (i % 3 = 2)) ∧
    (∀ i < 64, rank 0x9249249249249249#64 i = (i + 2) / 3) ∧
    (∀ i < 64, rank 0x2492492492492492#64 i = (i + 1) / 3) ∧
    (∀ i < 64, rank 0x4924924924924924#64 i = i / 3) := by
  decide +kernel

/-- **C18.** The shift-and-mask and the pdep implementations agree on 21-bit coordinates. -/
theorem C18_pdep_agrees (x y z : BitVec 64) (hx : x.toNat < 2 ^ 21) :
    mortonPdep x y z = mortonShift x y z := by
  obtain ⟨t1, t2, t3, r1, r2, r3⟩ := pdep_tables
  apply BitVec.eq_of_getLsbD_eq
  intro i hi
  unfold mortonPdep mortonShift
  simp only [BitVec.getLsbD_or, pdep_bit _ _ i hi, t1 i hi, t2 i hi, t3 i hi, r1 i hi, r2 i hi,
    r3 i hi, BitVec.getLsbD_shiftLeft, expand_bit]
  have hx21 : x.getLsbD 21 = false := by
    rw [← BitVec.testBit_toNat]; exact Nat.testBit_lt_two_pow hx
  obtain h | h | h : i % 3 = 0 ∨ i % 3 = 1 ∨ i % 3 = 2 := by omega
  · have a1 : (i + 2) / 3 = i / 3 := by omega
    by_cases c : i < 63
    · by_cases h0 : i = 0
      · subst h0; simp
      · have a2 : (i - 1) % 3 = 2 := by omega
        have a3 : (i - 2) % 3 = 1 := by omega
        simp [h, a1, a2, a3, c]
    · have : i = 63 := by omega
      subst this
      rw [show (63 + 2) / 3 = 21 from rfl, hx21]
      rfl
  · have a1 : (i + 1) / 3 = (i - 1) / 3 := by omega
    have a2 : (i - 1) % 3 = 0 := by omega
    have a4 : i - 1 < 63 := by omega
    have a5 : ¬ i < 1 := by omega
    by_cases h1 : i = 1
    · subst h1; simp
    · have a3 : (i - 2) % 3 = 2 := by omega
      simp [h, a1, a2, a3, a4, a5, hi]
  · have a1 : i / 3 = (i - 2) / 3 := by omega
    have a2 : (i - 2) % 3 = 0 := by omega
    have a3 : (i - 1) % 3 = 1 := by omega
    have a4 : i - 2 < 63 := by omega
    have a5 : ¬ i < 2 := by omega
    simp [h, a1, a2, a3, a4, a5, hi]

/-- Non-vacuity: three different 21-bit coordinates. -/
example : (0x1FFFFF#64).toNat < 2 ^ 21 ∧
    mortonShift 1#64 2#64 0x100000#64 = 0x4000000000000011#64 := by decide

/-! ### Range of the grid coordinates -/

theorem fl_mul_recip_le_one {d : ℚ} (hd : 0 < d) : fl (d * fl (1 / d)) ≤ 1 := by
  have hpos : 0 < 1 / d := by positivity
  have := fl_err (1 / d)
  rw [abs_of_pos hpos] at this
  have h2 := (abs_le.1 this).2
  refine le_trans (fl_mono (b := 1 + 1 / 2 ^ 24) ?_) fl_tie_one.le
  have : fl (1 / d) ≤ 1 / d * (1 + 1 / 2 ^ 24) := by linarith
  calc d * fl (1 / d) ≤ d * (1 / d * (1 + 1 / 2 ^ 24)) := mul_le_mul_of_nonneg_left this hd.le
    _ = 1 + 1 / 2 ^ 24 := by field_simp

/-- **C18** (range). For every centroid inside a non-degenerate centroid box the binary32 grid
coordinate fits in 21 bits, so nothing is cut off by the mask of `expand`. -/
theorem C18_grid_range (c lo hi : ℚ) (h1 : lo ≤ c) (h2 : c ≤ hi) (hne : lo < hi) :
    ∃ g, gridCoord c lo hi = some g ∧ 0 ≤ g ∧ g < 2 ^ 21 := by
  have hD : 0 < fl (hi - lo) := fl_pos (by linarith)
  have hR : 0 < fl (1 / fl (hi - lo)) := fl_pos (by positivity)
  refine ⟨_, by unfold gridCoord; rw [if_neg hD.ne'], ?_, ?_⟩
  · apply Int.floor_nonneg.2
    apply fl_nonneg
    have : 0 ≤ fl (fl (c - lo) * fl (1 / fl (hi - lo))) :=
      fl_nonneg (mul_nonneg (fl_nonneg (by linarith)) hR.le)
    linarith
  · have a1 : fl (c - lo) ≤ fl (hi - lo) := fl_mono (by linarith)
    have a2 : fl (fl (c - lo) * fl (1 / fl (hi - lo))) ≤ 1 :=
      le_trans (fl_mono (mul_le_mul_of_nonneg_right a1 hR.le)) (fl_mul_recip_le_one hD)
    have a3 : fl (fl (fl (c - lo) * fl (1 / fl (hi - lo))) * 2097151) ≤ 2097151 := by
      apply fl_le_of_rep
      · simpa using fl_natCast 2097151 (by norm_num)
      · linarith
    have : ⌊fl (fl (fl (c - lo) * fl (1 / fl (hi - lo))) * 2097151)⌋ ≤ 2097151 := by
      have := Int.floor_le_floor a3
      simpa using this
    omega

/-- A mesh whose centroids are all in one plane (e.g. any flat floor) has a zero extent, and the
conversion is undefined behaviour. -/
theorem C18_flat_mesh_undefined (c lo : ℚ) : gridCoord c lo lo = none := by
  unfold gridCoord
  rw [sub_self, fl_zero, if_pos rfl]

/-- Non-vacuity of `C18_grid_range`. -/
example : (-1 : ℚ) ≤ 1 / 3 ∧ (1 / 3 : ℚ) ≤ 5 ∧ (-1 : ℚ) < 5 := by norm_num

end Spectre.Morton
