import Verif.Model.KdNode

/-
Property C12: kd-tree node packing is lossless.
-/

namespace Spectre.KdNode

theorem bit_of_small (v : BitVec 32) (k i : Nat) (h : v.toNat < 2 ^ k) (hi : k ≤ i) :
    v.getLsbD i = false := by
  rw [← BitVec.testBit_toNat]
  exact Nat.testBit_lt_two_pow (Nat.lt_of_lt_of_le h (Nat.pow_le_pow_right (by omega) hi))

/-- Bit tables of the masks. -/
theorem mask_bits :
    (∀ i < 32, (0x80000000#32).getLsbD i = decide (i = 31)) ∧
    (∀ i < 32, (0x20000000#32).getLsbD i = decide (i = 29)) ∧
    (∀ i < 32, (0x40000000#32).getLsbD i = decide (i = 30)) ∧
    (∀ i < 32, (0x60000000#32).getLsbD i = decide (i = 29 ∨ i = 30)) ∧
    (∀ i < 32, (0x1FFFFFFF#32).getLsbD i = decide (i < 29)) ∧
    (∀ i < 32, (0x7FFFFFFF#32).getLsbD i = decide (i < 31)) := by decide

theorem and_low (v : BitVec 32) (h : v.toNat < 2 ^ 29) : v &&& 0x1FFFFFFF#32 = v := by
  apply BitVec.eq_of_getLsbD_eq
  intro i hi
  rw [BitVec.getLsbD_and, mask_bits.2.2.2.2.1 i hi]
  by_cases c : i < 29
  · simp [c]
  · simp [c, bit_of_small v 29 i h (by omega)]

theorem and_high (v : BitVec 32) (h : v.toNat < 2 ^ 29) : v &&& 0x60000000#32 = 0#32 := by
  apply BitVec.eq_of_getLsbD_eq
  intro i hi
  rw [BitVec.getLsbD_and, mask_bits.2.2.2.1 i hi]
  by_cases c : i = 29 ∨ i = 30
  · simp [bit_of_small v 29 i h (by omega)]
  · simp [c]

theorem and_sign (v : BitVec 32) (h : v.toNat < 2 ^ 31) : v &&& 0x80000000#32 = 0#32 := by
  apply BitVec.eq_of_getLsbD_eq
  intro i hi
  rw [BitVec.getLsbD_and, mask_bits.1 i hi]
  by_cases c : i = 31
  · simp [bit_of_small v 31 i h (by omega)]
  · simp [c]

theorem and_31 (v : BitVec 32) (h : v.toNat < 2 ^ 31) : v &&& 0x7FFFFFFF#32 = v := by
  apply BitVec.eq_of_getLsbD_eq
  intro i hi
  rw [BitVec.getLsbD_and, mask_bits.2.2.2.2.2 i hi]
  by_cases c : i < 31
  · simp [c]
  · simp [c, bit_of_small v 31 i h (by omega)]

theorem or_and (a b c : BitVec 32) : (a ||| b) &&& c = (a &&& c) ||| (b &&& c) := by
  apply BitVec.eq_of_getLsbD_eq
  intro i hi
  simp only [BitVec.getLsbD_and, BitVec.getLsbD_or]
  cases a.getLsbD i <;> cases b.getLsbD i <;> cases c.getLsbD i <;> rfl

/-- **C12, internal nodes.** Every axis 0, 1, 2, every split position and every sibling index below
2^29 is read back unchanged, and the node is not a leaf. -/
theorem C12_internal_round_trip (split : BitVec 32) (axis : Nat) (child : BitVec 32)
    (ha : axis < 3) (hc : child.toNat < 2 ^ 29) :
    (mkInternal split axis child).isLeaf = false ∧
    (mkInternal split axis child).getAxis.toNat = axis ∧
    (mkInternal split axis child).getSplit = split ∧
    (mkInternal split axis child).getOtherChildOffset = child := by
  have l := and_low child hc
  have m := and_high child hc
  have s := and_sign child (by omega)
  obtain rfl | rfl | rfl : axis = 0 ∨ axis = 1 ∨ axis = 2 := by omega
  · refine ⟨?_, ?_, rfl, ?_⟩ <;>
      simp [mkInternal, Node.isLeaf, Node.getAxis, Node.getOtherChildOffset, l, m, s]
  · refine ⟨?_, ?_, rfl, ?_⟩ <;>
      simp [mkInternal, Node.isLeaf, Node.getAxis, Node.getOtherChildOffset, or_and, l, m, s]
  · refine ⟨?_, ?_, rfl, ?_⟩ <;>
      simp [mkInternal, Node.isLeaf, Node.getAxis, Node.getOtherChildOffset, or_and, l, m, s]

/-- **C12, leaves.** Every offset and every count below 2^31 is read back unchanged, and the node is
a leaf. -/
theorem C12_leaf_round_trip (off num : BitVec 32) (hn : num.toNat < 2 ^ 31) :
    (mkLeaf off num).isLeaf = true ∧
    (mkLeaf off num).getAssetOffset = off ∧
    (mkLeaf off num).getAssetsNumber = num := by
  have a := and_31 num hn
  have s := and_sign num hn
  refine ⟨?_, rfl, ?_⟩ <;> simp [mkLeaf, Node.isLeaf, Node.getAssetsNumber, or_and, a, s]

/-- **C12.** Hence packing is injective and a leaf is never mistaken for an internal node. -/
theorem C12_injective (s s' : BitVec 32) (a a' : Nat) (c c' o n : BitVec 32)
    (ha : a < 3) (ha' : a' < 3) (hc : c.toNat < 2 ^ 29) (hc' : c'.toNat < 2 ^ 29)
    (hn : n.toNat < 2 ^ 31) :
    (mkInternal s a c = mkInternal s' a' c' → s = s' ∧ a = a' ∧ c = c') ∧
    mkInternal s a c ≠ mkLeaf o n := by
  obtain ⟨h1, h2, h3, h4⟩ := C12_internal_round_trip s a c ha hc
  obtain ⟨_, h2', h3', h4'⟩ := C12_internal_round_trip s' a' c' ha' hc'
  constructor
  · intro h
    rw [h] at h2 h3 h4
    exact ⟨by rw [← h3, h3'], by rw [← h2, h2'], by rw [← h4, h4']⟩
  · intro h
    rw [h, (C12_leaf_round_trip o n hn).1] at h1
    exact Bool.noConfusion h1

/-- The bound on the sibling index is sharp: with index 2^29 an x-split reads back as a y-split. -/
theorem C12_bound_sharp (s : BitVec 32) :
    (mkInternal s 0 0x20000000#32).getAxis.toNat = 1 := by
  simp [mkInternal, Node.getAxis]

/-- Non-vacuity: the largest admissible sibling index, z axis. -/
example : (2 < 3) ∧ (0x1FFFFFFF#32).toNat < 2 ^ 29 := by decide

end Spectre.KdNode
