import Verif.Model.Pixel
import Mathlib.Data.List.GetD

/-
C44: conversions between packed pixels and bytes, byte order.
-/

namespace Spectre.Img

/-- Case distinction over the index of a bit. -/
macro "each_bit" i:ident : tactic => `(tactic|
  (repeat (first | (exfalso; omega) | (rcases $i:ident with _ | $i:ident; · simp_all))))

theorem red_mk (r g b : Byte) : red (mk r g b) = r := by
  ext i hi
  simp [red, mk, BitVec.getElem_setWidth]
  each_bit i

theorem green_mk (r g b : Byte) : green (mk r g b) = g := by
  ext i hi
  simp [green, mk, BitVec.getElem_setWidth]
  each_bit i

theorem blue_mk (r g b : Byte) : blue (mk r g b) = b := by
  ext i hi
  simp [blue, mk, BitVec.getElem_setWidth]
  each_bit i

theorem alpha_mk (r g b : Byte) : alpha (mk r g b) = 0xFF#8 := by
  ext i hi
  simp [alpha, mk, BitVec.getElem_setWidth]
  each_bit i

/-- The colours of a pixel determine it up to the alpha channel. -/
theorem mk_components (p : Pixel) : mk (red p) (green p) (blue p) = p ||| 0xFF#32 := by
  ext i hi
  simp [red, green, blue, mk, BitVec.getElem_setWidth, BitVec.getElem_shiftLeft]
  each_bit i

/-- Specification: the same colours, opaque. -/
def IsOpaqueCopy (p q : Pixel) : Prop := red q = red p ∧ green q = green p ∧ blue q = blue p ∧ alpha q = 0xFF#8

theorem isOpaqueCopy_or (p : Pixel) : IsOpaqueCopy p (p ||| 0xFF#32) := by
  rw [← mk_components]
  exact ⟨red_mk _ _ _, green_mk _ _ _, blue_mk _ _ _, alpha_mk _ _ _⟩

theorem eq_of_components (p q : Pixel) (h : IsOpaqueCopy p q) : q = p ||| 0xFF#32 := by
  obtain ⟨h1, h2, h3, h4⟩ := h
  rw [← mk_components, ← h1, ← h2, ← h3, mk_components]
  ext i hi
  have h4 : alpha q = 0xFF#8 := h4
  have := congrArg (fun v => v.getLsbD i) h4
  simp [alpha] at this
  simp
  each_bit i

/-- **C44**: bytes → pixels → bytes, for all buffers of whole pixels. -/
theorem C44_rgb_round_trip : ∀ (n : Nat) (l : List Byte), l.length = 3 * n →
    ∃ ps, rgbToBgra l l.length = some ps ∧ ps.length = n ∧ bgraToRgb ps n = some l := by
  intro n
  induction n with
  | zero =>
    intro l h
    have : l = [] := List.eq_nil_of_length_eq_zero (by omega)
    subst this
    refine ⟨[], ?_, rfl, rfl⟩
    simp [rgbToBgra]
  | succ n ih =>
    intro l h
    match l, h with
    | r :: g :: b :: rest, h =>
      simp only [List.length_cons] at h
      obtain ⟨ps, e, hl, e2⟩ := ih rest (by omega)
      refine ⟨mk r g b :: ps, ?_, by simp [hl], ?_⟩
      · rw [rgbToBgra, if_neg (by simp)]
        simp only [List.length_cons, Nat.add_sub_cancel]
        rw [show rest.length + 1 + 1 + 1 - 3 = rest.length by omega, e]
        rfl
      · simp only [bgraToRgb, e2, Option.map_some, red_mk, green_mk, blue_mk]

/-- **C44**: pixels → bytes → pixels keeps the colours and makes the pixels opaque. -/
theorem C44_bgra_round_trip : ∀ (ps : List Pixel),
    ∃ l, bgraToRgb ps ps.length = some l ∧ l.length = 3 * ps.length ∧
      ∃ qs, rgbToBgra l l.length = some qs ∧ List.Forall₂ IsOpaqueCopy ps qs := by
  intro ps
  induction ps with
  | nil => exact ⟨[], rfl, rfl, [], by simp [rgbToBgra], List.Forall₂.nil⟩
  | cons p ps ih =>
    obtain ⟨l, e1, hl, qs, e2, hq⟩ := ih
    refine ⟨red p :: green p :: blue p :: l, ?_, by simp [hl]; omega, mk (red p) (green p) (blue p) :: qs, ?_, ?_⟩
    · simp only [List.length_cons, bgraToRgb, e1, Option.map_some]
    · rw [rgbToBgra, if_neg (by simp)]
      simp only [List.length_cons]
      rw [show l.length + 1 + 1 + 1 - 3 = l.length by omega, e2]
      rfl
    · refine List.Forall₂.cons ?_ hq
      rw [mk_components]
      exact isOpaqueCopy_or p

/-- **C44**: a byte count that is not a multiple of three reads past the end of the buffer. -/
theorem C44_partial_pixel : ∀ (l : List Byte), l.length % 3 ≠ 0 → rgbToBgra l l.length = none
  | [], h => absurd rfl h
  | [_], _ => by simp [rgbToBgra]
  | [_, _], _ => by simp [rgbToBgra]
  | r :: g :: b :: rest, h => by
    simp only [List.length_cons] at h
    rw [rgbToBgra, if_neg (by simp)]
    simp only [List.length_cons]
    rw [show rest.length + 1 + 1 + 1 - 3 = rest.length by omega, C44_partial_pixel rest (by omega)]
    rfl

/-- Specification: reversed bytes. -/
theorem C44_swap32_bytes (n : BitVec 32) (k : Nat) (hk : k < 4) :
    (swap32 n).extractLsb' (8 * k) 8 = n.extractLsb' (8 * (3 - k)) 8 := by
  have : k = 0 ∨ k = 1 ∨ k = 2 ∨ k = 3 := by omega
  ext i hi
  rcases this with rfl | rfl | rfl | rfl <;> simp [swap32] <;> each_bit i

theorem C44_swap16_bytes (n : BitVec 16) (k : Nat) (hk : k < 2) :
    (swap16 n).extractLsb' (8 * k) 8 = n.extractLsb' (8 * (1 - k)) 8 := by
  have : k = 0 ∨ k = 1 := by omega
  ext i hi
  rcases this with rfl | rfl <;> simp [swap16] <;> each_bit i

/-- **C44**: swapping twice is the identity. -/
theorem C44_swap32_involutive (n : BitVec 32) : swap32 (swap32 n) = n := by
  ext i hi
  simp [swap32]
  each_bit i

theorem C44_swap16_involutive (n : BitVec 16) : swap16 (swap16 n) = n := by
  ext i hi
  simp [swap16]
  each_bit i

/-- `ENDIANNESS_BIG32` is the byte swap... -/
theorem C44_big32 (n : BitVec 32) : big32 n = swap32 n := by
  ext i hi
  simp [swap32, big32]
  each_bit i

/-- **C44 is violated by `ENDIANNESS_BIG16`**: one of the bytes is lost, so that it is not invertible... -/
theorem C44_big16_violated : ¬ ∀ a b : BitVec 16, big16 a = big16 b → a = b := by
  intro h
  exact absurd (h 0x0100#16 0#16 (by decide)) (by decide)

/-- ... exactly: it is right if and only if the byte at the higher address is zero. -/
theorem C44_big16_iff (n : BitVec 16) : big16 n = swap16 n ↔ n.extractLsb' 8 8 = 0#8 := by
  have e : big16 n = swap16 n &&& 0xFF00#16 := by
    ext i hi
    simp [big16, swap16]
    each_bit i
  have e2 : swap16 n &&& 0xFF00#16 = swap16 n ↔ n.extractLsb' 8 8 = 0#8 := by
    constructor
    · intro h
      ext i hi
      have := congrArg (fun v => v.getLsbD i) h
      simp [swap16] at this
      simp
      each_bit i
    · intro h
      ext i hi
      have := congrArg (fun v => v.getLsbD i) h
      simp at this
      simp [swap16]
      each_bit i
  rw [e, e2]

/-- A buffer of two pixels there and back; a colour pixel and its opaque copy. -/
example : rgbToBgra [1#8, 2#8, 3#8, 0xFE#8, 5#8, 6#8] 6 = some [0x030201FF#32, 0x0605FEFF#32] := by decide +kernel
example : IsOpaqueCopy 0x03020140#32 0x030201FF#32 := by unfold IsOpaqueCopy; decide +kernel
example : swap32 0x01020304#32 = 0x04030201#32 ∧ big16 0x0102#16 = 0x0200#16 := by decide +kernel

/-! ### Reading back numbers -/

theorem rd16_le16 (v : BitVec 16) (l r : List Byte) : rd16 (l ++ (le16 v ++ r)) l.length = v := by
  unfold rd16 le16
  simp only [List.cons_append, List.nil_append]
  rw [List.getD_append_right _ _ _ _ (by omega), List.getD_append_right _ _ _ _ (by omega)]
  rw [show l.length - l.length = 0 by omega, show l.length + 1 - l.length = 1 by omega]
  simp only [List.getD_cons_zero, List.getD_cons_succ]
  ext i hi
  simp [BitVec.getElem_setWidth, BitVec.getElem_shiftLeft]
  each_bit i

theorem rd32_le32 (v : BitVec 32) (l r : List Byte) : rd32 (l ++ (le32 v ++ r)) l.length = v := by
  unfold rd32 le32
  simp only [List.cons_append, List.nil_append]
  rw [List.getD_append_right _ _ _ _ (by omega), List.getD_append_right _ _ _ _ (by omega),
    List.getD_append_right _ _ _ _ (by omega), List.getD_append_right _ _ _ _ (by omega)]
  rw [show l.length - l.length = 0 by omega, show l.length + 1 - l.length = 1 by omega,
    show l.length + 2 - l.length = 2 by omega, show l.length + 3 - l.length = 3 by omega]
  simp only [List.getD_cons_zero, List.getD_cons_succ]
  ext i hi
  simp [BitVec.getElem_setWidth, BitVec.getElem_shiftLeft]
  each_bit i

end Spectre.Img
