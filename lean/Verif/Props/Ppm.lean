import Verif.Model.Ppm
import Verif.Props.Pixel
import Verif.Props.Bmp
import Mathlib.Tactic.Ring
import Mathlib.Tactic.Linarith

/-
C42, C43, C68, C69: PPM files.
-/

namespace Spectre.Ppm

open Spectre.Img

/-! ### Scaling of samples -/

/-- In `float` arithmetic `j/255*255 = j` for all bytes. -/
theorem fl_byte (j : Nat) (h : j ≤ 255) : fl (fl ((j : ℚ) / 255) * 255) = j := by
  have : ∀ j : Fin 256, fl (fl ((j.val : ℚ) / 255) * 255) = j.val := by decide +kernel
  exact this ⟨j, by omega⟩

/-- Specification: the value `v` out of `d` as a byte, rounded down. -/
def scaled (v d : Nat) : Byte := BitVec.ofNat 8 (255 * v / d)

theorem fl_ge_floor (v d : Nat) (hd : 0 < d) (hv : v ≤ d) :
    ((255 * v / d : Nat) : ℚ) ≤ fl (fl ((v : ℚ) / d) * 255) := by
  have hj : 255 * v / d ≤ 255 := by
    apply Nat.div_le_of_le_mul
    nlinarith
  have hd' : (0 : ℚ) < d := by exact_mod_cast hd
  rw [← fl_byte _ hj]
  apply fl_mono
  apply mul_le_mul_of_nonneg_right _ (by norm_num)
  apply fl_mono
  rw [div_le_div_iff₀ (by norm_num) hd']
  have := Nat.div_mul_le_self (255 * v) d
  have h' : ((255 * v / d : Nat) : ℚ) * d ≤ 255 * v := by exact_mod_cast this
  linarith

theorem fl_err_sample (x : ℚ) (h0 : 0 ≤ x) (h1 : x ≤ 1) : fl (fl x * 255) < x * 255 + 1 / 2 ^ 15 := by
  have e1 := fl_err x
  rw [abs_of_nonneg h0] at e1
  have e1' := (abs_le.1 e1).2
  have hn : 0 ≤ fl x := fl_nonneg h0
  have e2 := fl_err (fl x * 255)
  rw [abs_of_nonneg (by linarith : 0 ≤ fl x * 255)] at e2
  have e2' := (abs_le.1 e2).2
  norm_num at e1' e2' ⊢
  linarith

theorem fl_le_succ (v d : Nat) (hd : 0 < d) (hv : v ≤ d) :
    fl (fl ((v : ℚ) / d) * 255) ≤ ((255 * v / d : Nat) : ℚ) + 1 ∧ fl (fl ((v : ℚ) / d) * 255) ≤ 255 := by
  have hd' : (0 : ℚ) < d := by exact_mod_cast hd
  have h255 : fl (fl ((v : ℚ) / d) * 255) ≤ 255 := by
    have := fl_byte 255 (le_refl _)
    have h1 : (v : ℚ) / d ≤ ((255 : Nat) : ℚ) / 255 := by
      rw [div_le_div_iff₀ hd' (by norm_num)]
      have : (v : ℚ) ≤ d := by exact_mod_cast hv
      push_cast; linarith
    calc fl (fl ((v : ℚ) / d) * 255) ≤ fl (fl (((255 : Nat) : ℚ) / 255) * 255) :=
          fl_mono (mul_le_mul_of_nonneg_right (fl_mono h1) (by norm_num))
      _ = 255 := by rw [this]; norm_num
  refine ⟨?_, h255⟩
  rcases Nat.lt_or_ge (255 * v / d) 255 with h | h
  · have := fl_byte (255 * v / d + 1) h
    have h1 : (v : ℚ) / d ≤ ((255 * v / d + 1 : Nat) : ℚ) / 255 := by
      rw [div_le_div_iff₀ hd' (by norm_num)]
      have := Nat.lt_div_mul_add hd (a := 255 * v)
      have h' : 255 * v ≤ (255 * v / d + 1) * d := by rw [Nat.add_mul, Nat.one_mul]; omega
      have : (255 : ℚ) * v ≤ ((255 * v / d + 1 : Nat) : ℚ) * d := by exact_mod_cast h'
      linarith
    calc fl (fl ((v : ℚ) / d) * 255) ≤ fl (fl (((255 * v / d + 1 : Nat) : ℚ) / 255) * 255) :=
          fl_mono (mul_le_mul_of_nonneg_right (fl_mono h1) (by norm_num))
      _ = ((255 * v / d : Nat) : ℚ) + 1 := by rw [this]; push_cast; ring
  · have : ((255 : Nat) : ℚ) ≤ ((255 * v / d : Nat) : ℚ) := by exact_mod_cast h
    push_cast at this ⊢
    linarith

/-- For maxima up to 32767 the `float` computation rounds down exactly. -/
theorem fl_lt_succ (v d : Nat) (hd : 0 < d) (hd2 : d ≤ 32767) (hv : v ≤ d) :
    fl (fl ((v : ℚ) / d) * 255) < ((255 * v / d : Nat) : ℚ) + 1 := by
  have hd' : (0 : ℚ) < d := by exact_mod_cast hd
  have hvd : (v : ℚ) ≤ d := by exact_mod_cast hv
  have e := fl_err_sample ((v : ℚ) / d) (by positivity) (by rw [div_le_one hd']; exact hvd)
  have h1 : (v : ℚ) / d * 255 ≤ ((255 * v / d : Nat) : ℚ) + 1 - 1 / d := by
    have := Nat.lt_div_mul_add hd (a := 255 * v)
    have h' : 255 * v + 1 ≤ (255 * v / d + 1) * d := by rw [Nat.add_mul, Nat.one_mul]; omega
    have h2 : (255 : ℚ) * v + 1 ≤ (((255 * v / d : Nat) : ℚ) + 1) * d := by exact_mod_cast h'
    rw [div_mul_eq_mul_div, le_sub_iff_add_le, ← add_div, div_le_iff₀ hd']
    linarith
  have h3 : (1 : ℚ) / 2 ^ 15 ≤ 1 / d := by
    apply one_div_le_one_div_of_le hd'
    have : (d : ℚ) ≤ 32767 := by exact_mod_cast hd2
    norm_num; linarith
  linarith

theorem toByte_ok (q : ℚ) (h0 : 0 ≤ q) (h1 : q < 256) : toByte q = .ok (BitVec.ofNat 8 ⌊q⌋.toNat) := by
  unfold toByte
  rw [if_pos ⟨by linarith, h1⟩]

theorem floor_toNat (q : ℚ) (n : Nat) (h0 : (n : ℚ) ≤ q) (h1 : q < n + 1) : ⌊q⌋.toNat = n := by
  have : ⌊q⌋ = (n : Int) := by
    rw [Int.floor_eq_iff]
    exact ⟨by exact_mod_cast h0, by exact_mod_cast h1⟩
  rw [this]; rfl

/-- **C68**: every sample of a file with one byte per sample is scaled exactly (rounded down). -/
theorem C68_sample8 (v d : Nat) (hd : 0 < d) (hd2 : d ≤ 255) (hv : v ≤ d) : sample8 v d = .ok (scaled v d) := by
  unfold sample8 scaled
  have h1 := fl_ge_floor v d hd hv
  have h2 := fl_lt_succ v d hd (by omega) hv
  have h3 := (fl_le_succ v d hd hv).2
  rw [if_neg (by omega), toByte_ok _ (le_trans (by positivity) h1) (by linarith), floor_toNat _ _ h1 h2]

theorem fl_ratio_le_one (v d : Nat) (hd : 0 < d) (hv : v ≤ d) : fl ((v : ℚ) / d) ≤ 1 := by
  have hd' : (0 : ℚ) < d := by exact_mod_cast hd
  apply fl_le_of_rep fl_one
  rw [div_le_one hd']
  exact_mod_cast hv

theorem sampleClamp_in (v d : Nat) (hd : 0 < d) (hv : v ≤ d) :
    sampleClamp v d = toByte (fl (fl ((v : ℚ) / d) * 255)) := by
  unfold sampleClamp
  have hd' : (0 : ℚ) < d := by exact_mod_cast hd
  rw [if_neg (by omega), if_neg (by have := fl_nonneg (q := (v : ℚ) / d) (by positivity); linarith),
    if_neg (by have := fl_ratio_le_one v d hd hv; linarith)]

/-- **C68**: samples of text files, exact for maxima up to 32767. -/
theorem C68_sampleText (v d : Nat) (hd : 0 < d) (hd2 : d ≤ 32767) (hv : v ≤ d) :
    sampleClamp v d = .ok (scaled v d) := by
  have h1 := fl_ge_floor v d hd hv
  have h2 := fl_lt_succ v d hd (by omega) hv
  have h3 := (fl_le_succ v d hd hv).2
  unfold scaled
  rw [sampleClamp_in v d hd hv, toByte_ok _ (le_trans (by positivity) h1) (by linarith), floor_toNat _ _ h1 h2]

/-- **C68**: for all maxima up to 65535, the byte is right or one too high (rounding), never too low. -/
theorem C68_sampleText_wide (v d : Nat) (hd : 0 < d) (hv : v ≤ d) :
    ∃ n, sampleClamp v d = .ok (BitVec.ofNat 8 n) ∧ n ≤ 255 ∧ (n = 255 * v / d ∨ n = 255 * v / d + 1) := by
  have h1 := fl_ge_floor v d hd hv
  obtain ⟨h2, h3⟩ := fl_le_succ v d hd hv
  rw [sampleClamp_in v d hd hv, toByte_ok _ (le_trans (by positivity) h1) (by linarith)]
  rcases lt_or_eq_of_le h2 with h | h
  · refine ⟨255 * v / d, by rw [floor_toNat _ _ h1 h], ?_, Or.inl rfl⟩
    apply Nat.div_le_of_le_mul
    nlinarith
  · refine ⟨255 * v / d + 1, ?_, ?_, Or.inr rfl⟩
    · rw [floor_toNat _ (255 * v / d + 1) (by rw [h]; push_cast; exact le_refl _) (by rw [h]; push_cast; linarith)]
    · rw [h] at h3
      have : ((255 * v / d + 1 : Nat) : ℚ) ≤ (255 : Nat) := by push_cast; exact h3
      exact_mod_cast this

example : sampleClamp 128 255 = .ok 128#8 := C68_sampleText 128 255 (by omega) (by omega) (by omega)

/-! ### Samples above the maximum -/

/-- Specification of C43: a sample above the maximum is read as full intensity. -/
def Saturates (conv : Nat → Nat → Except Fault Byte) (v d : Nat) : Prop := conv v d = .ok 255#8

/-- **C43 is violated by every sample above the maximum**, one byte per sample: the conversion of the
`float` to a byte is undefined. -/
theorem C43_binary_always_undefined (v d : Nat) (hv : v ≤ 255) (h : d < v) : sample8 v d = .error .conv := by
  unfold sample8
  by_cases hd : d = 0
  · rw [if_pos hd]
  rw [if_neg hd]
  unfold toByte
  rw [if_neg]
  rintro ⟨-, h2⟩
  have hd' : (0 : ℚ) < d := by exact_mod_cast Nat.pos_of_ne_zero hd
  have h1 : (255 : ℚ) / 254 ≤ (v : ℚ) / d := by
    rw [div_le_div_iff₀ (by norm_num) hd']
    have a : (d : ℚ) + 1 ≤ v := by exact_mod_cast h
    have b : (d : ℚ) ≤ 254 := by exact_mod_cast (by omega : d ≤ 254)
    linarith
  have h3 : fl (fl ((255 : ℚ) / 254) * 255) ≤ fl (fl ((v : ℚ) / d) * 255) :=
    fl_mono (mul_le_mul_of_nonneg_right (fl_mono h1) (by norm_num))
  have h4 : (256 : ℚ) ≤ fl (fl ((255 : ℚ) / 254) * 255) := by decide +kernel
  linarith

/-- **C43 is violated by every sample above the maximum**, text and 16-bit files: it becomes nearly black. -/
theorem C43_clamped_always_one (v d : Nat) (hv : v ≤ 65535) (h : d < v) : sampleClamp v d = .ok 1#8 := by
  have h1 : toByte 1 = .ok 1#8 := by decide +kernel
  unfold sampleClamp
  by_cases hd : d = 0
  · rw [if_pos hd, if_neg (by omega), h1]
  have hd' : (0 : ℚ) < d := by exact_mod_cast Nat.pos_of_ne_zero hd
  have h2 : (65535 : ℚ) / 65534 ≤ (v : ℚ) / d := by
    rw [div_le_div_iff₀ (by norm_num) hd']
    have a : (d : ℚ) + 1 ≤ v := by exact_mod_cast h
    have b : (d : ℚ) ≤ 65534 := by exact_mod_cast (by omega : d ≤ 65534)
    linarith
  have h3 := fl_mono h2
  have h4 : (1 : ℚ) < fl ((65535 : ℚ) / 65534) := by decide +kernel
  rw [if_neg hd, if_neg (by linarith), if_pos (by linarith), h1]

theorem C43_violated : ∃ v d, d < v ∧ v ≤ 255 ∧ 0 < d ∧ ¬ Saturates sample8 v d ∧ ¬ Saturates sampleClamp v d := by
  refine ⟨255, 100, by decide, by decide, by decide, ?_, ?_⟩
  · unfold Saturates; rw [C43_binary_always_undefined _ _ (by decide) (by decide)]; simp
  · unfold Saturates; rw [C43_clamped_always_one _ _ (by decide) (by decide)]; decide

/-- **C43**, partial: the maximum itself is read as full intensity.  Missing: anything above. -/
theorem C43_at_maximum_partial (d : Nat) (hd : 0 < d) :
    (d ≤ 255 → Saturates sample8 d d) ∧ (d ≤ 32767 → Saturates sampleClamp d d) := by
  have : scaled d d = 255#8 := by unfold scaled; rw [Nat.mul_div_cancel _ hd]
  constructor
  · intro h; unfold Saturates; rw [C68_sample8 d d hd h (le_refl _), this]
  · intro h; unfold Saturates; rw [C68_sampleText d d hd h (le_refl _), this]

/-! ### 16-bit samples -/

/-- A sample in the file, high byte first. -/
def be16 (v : Nat) : List Byte := [BitVec.ofNat 8 (v / 256), BitVec.ofNat 8 v]

theorem big16_be (v : Nat) (h : v < 65536) (s : List Byte) : (big16 (rd16 (be16 v ++ s) 0)).toNat = v / 256 * 256 := by
  have e : big16 (rd16 (be16 v ++ s) 0) = (BitVec.ofNat 8 (v / 256)).setWidth 16 <<< 8 := by
    show big16 (((BitVec.ofNat 8 (v / 256)).setWidth 16) ||| ((BitVec.ofNat 8 v).setWidth 16 <<< 8)) = _
    generalize BitVec.ofNat 8 (v / 256) = a
    generalize BitVec.ofNat 8 v = b
    unfold big16
    ext i hi
    simp [BitVec.getElem_setWidth, BitVec.getElem_shiftLeft]
    each_bit i
  rw [e]
  simp only [BitVec.toNat_shiftLeft, BitVec.toNat_setWidth, BitVec.toNat_ofNat, Nat.shiftLeft_eq]
  omega

theorem div_lt_of_mod (d : Nat) (hr : ¬ d % 256 = 0) : d / 256 * 256 + 1 ≤ d := by omega

/-- **C68 is violated** by files with two bytes per sample: the low byte of every sample is dropped, so
that the declared maximum is not read as full intensity, unless it is a multiple of 256. -/
theorem C68_deep_maximum (d : Nat) (hd : 255 < d) (hd2 : d ≤ 65535) (s : List Byte) :
    sampleClamp (big16 (rd16 (be16 d ++ s) 0)).toNat d = .ok 255#8 ↔ d % 256 = 0 := by
  rw [big16_be d (by omega)]
  have hle : d / 256 * 256 ≤ d := Nat.div_mul_le_self d 256
  have h1 := fl_ge_floor (d / 256 * 256) d (by omega) hle
  obtain ⟨-, h3⟩ := fl_le_succ (d / 256 * 256) d (by omega) hle
  rw [sampleClamp_in _ d (by omega) hle, toByte_ok _ (le_trans (by positivity) h1) (by linarith)]
  have hd' : (0 : ℚ) < d := by exact_mod_cast (by omega : 0 < d)
  constructor
  · intro h
    by_contra hr
    have e := fl_err_sample (((d / 256 * 256 : Nat) : ℚ) / d) (by positivity) (by
      rw [div_le_one hd']; exact_mod_cast hle)
    have h4 : ((d / 256 * 256 : Nat) : ℚ) / d * 255 ≤ 255 - 255 / 65535 := by
      have h5 : d / 256 * 256 + 1 ≤ d := div_lt_of_mod d hr
      have h6 : ((d / 256 * 256 : Nat) : ℚ) ≤ d - 1 := by
        have : ((d / 256 * 256 : Nat) : ℚ) + 1 ≤ d := by exact_mod_cast h5
        linarith
      have h7 : (d : ℚ) ≤ 65535 := by exact_mod_cast hd2
      rw [div_mul_eq_mul_div, div_le_iff₀ hd']
      linarith
    have hlt : fl (fl (((d / 256 * 256 : Nat) : ℚ) / d) * 255) < 255 := by norm_num at e h4 ⊢; linarith
    have hfl : ⌊fl (fl (((d / 256 * 256 : Nat) : ℚ) / d) * 255)⌋.toNat < 255 := by
      have a : ⌊fl (fl (((d / 256 * 256 : Nat) : ℚ) / d) * 255)⌋ < 255 := by
        rw [Int.floor_lt]; exact_mod_cast hlt
      omega
    injection h with h
    have := congrArg BitVec.toNat h
    rw [BitVec.toNat_ofNat] at this
    rw [show (255#8).toNat = 255 from rfl] at this
    omega
  · intro h
    have : d / 256 * 256 = d := by omega
    rw [this] at h1 h3 ⊢
    rw [Nat.mul_div_cancel _ (by omega)] at h1
    rw [floor_toNat _ 255 h1 (by push_cast; linarith)]

theorem C68_violated_deep : sampleClamp (big16 (rd16 (be16 65535) 0)).toNat 65535 = .ok 254#8 := by decide +kernel

/-! ### Numbers in the header -/

theorem value_append (a b : List Byte) : value (a ++ b) = b.foldl (fun a b => 10 * a + (b.toNat - 48)) (value a) := by
  simp [value]

theorem digit_ofNat (n : Nat) (h : n < 10) : (BitVec.ofNat 8 (48 + n)).toNat = 48 + n := by
  rw [BitVec.toNat_ofNat]; omega

theorem dec_spec (n : Nat) : value (dec n) = n ∧ (∀ b ∈ dec n, isDigit b = true) ∧ dec n ≠ [] := by
  induction n using Nat.strongRecOn with
  | _ n ih =>
    rw [dec]
    by_cases h : n < 10
    · rw [if_pos h]
      refine ⟨?_, ?_, by simp⟩
      · simp only [value, List.foldl_cons, List.foldl_nil, digit_ofNat n h]; omega
      · intro b hb
        rw [List.mem_singleton] at hb
        rw [hb, isDigit, digit_ofNat n h]
        simp; omega
    · rw [if_neg h]
      obtain ⟨h1, h2, h3⟩ := ih (n / 10) (by omega)
      refine ⟨?_, ?_, by simp⟩
      · rw [value_append, h1]
        simp only [List.foldl_cons, List.foldl_nil, digit_ofNat (n % 10) (by omega)]; omega
      · intro b hb
        rw [List.mem_append] at hb
        rcases hb with hb | hb
        · exact h2 b hb
        · rw [List.mem_singleton] at hb
          rw [hb, isDigit, digit_ofNat (n % 10) (by omega)]
          simp; omega

theorem dec_length (k : Nat) : ∀ n, n < 10 ^ (k + 1) → (dec n).length ≤ k + 1 := by
  induction k with
  | zero => intro n h; rw [dec, if_pos (by simpa using h)]; simp
  | succ k ih =>
    intro n h
    rw [dec]
    by_cases h' : n < 10
    · rw [if_pos h']; simp
    · rw [if_neg h', List.length_append]
      have := ih (n / 10) (by rw [Nat.div_lt_iff_lt_mul (by norm_num)]; rw [pow_succ] at h; exact h)
      simp; omega

/-- The text does not start with a digit. -/
def NoDigit (t : List Byte) : Prop := ∀ b, t.head? = some b → isDigit b = false

theorem takeWhile_digits (l t : List Byte) (hl : ∀ b ∈ l, isDigit b = true) (ht : NoDigit t) :
    (l ++ t).takeWhile isDigit = l ∧ (l ++ t).dropWhile isDigit = t := by
  induction l with
  | nil =>
    cases t with
    | nil => simp
    | cons b t => simp [ht b rfl]
  | cons a l ih =>
    have := ih (fun b hb => hl b (by simp [hb]))
    simp [hl a (by simp), this.1, this.2]

theorem scanNat_dec (n : Nat) (t : List Byte) (ht : NoDigit t) : scanNat (dec n ++ t) = some (n, t) := by
  obtain ⟨h1, h2, h3⟩ := dec_spec n
  obtain ⟨e1, e2⟩ := takeWhile_digits (dec n) t h2 ht
  unfold scanNat
  rw [e1, e2, h1, if_neg]
  simpa using h3

/-- Only white space. -/
def Blank (ws : List Byte) : Prop := ∀ b ∈ ws, isSpace b = true

theorem digit_not_space (b : Byte) (h : isDigit b = true) : isSpace b = false ∧ b ≠ 45#8 ∧ b ≠ 43#8 := by
  simp only [isDigit, Bool.and_eq_true, decide_eq_true_eq] at h
  refine ⟨?_, ?_, ?_⟩
  · simp [isSpace]; omega
  · rintro rfl; simp at h
  · rintro rfl; simp at h

theorem skipSpace_blank (ws t : List Byte) (hw : Blank ws) : skipSpace (ws ++ t) = skipSpace t := by
  induction ws with
  | nil => rfl
  | cons a ws ih =>
    have := ih (fun b hb => hw b (by simp [hb]))
    simp only [skipSpace] at this ⊢
    simp [hw a (by simp), this]

theorem skipSpace_dec (n : Nat) (t : List Byte) : skipSpace (dec n ++ t) = dec n ++ t := by
  obtain ⟨-, h2, h3⟩ := dec_spec n
  match h : dec n with
  | [] => exact absurd h h3
  | b :: l =>
    have := (digit_not_space b (h2 b (by rw [h]; simp))).1
    simp [skipSpace, this]

theorem scanInt_dec (ws : List Byte) (n : Nat) (t : List Byte) (hw : Blank ws) (ht : NoDigit t) :
    scanInt (ws ++ (dec n ++ t)) = some ((n : Int), t) := by
  obtain ⟨-, h2, h3⟩ := dec_spec n
  have hs := scanNat_dec n t ht
  unfold scanInt
  rw [skipSpace_blank _ _ hw, skipSpace_dec]
  match h : dec n with
  | [] => exact absurd h h3
  | b :: l =>
    obtain ⟨-, g1, g2⟩ := digit_not_space b (h2 b (by rw [h]; simp))
    rw [h] at hs
    simp only [List.cons_append] at hs ⊢
    rw [if_neg g1, if_neg g2, hs]
    rfl

theorem scanU_dec (bits : Nat) (ws : List Byte) (n : Nat) (t : List Byte) (hw : Blank ws) (ht : NoDigit t)
    (hn : n < 2 ^ bits) : scanU bits (ws ++ (dec n ++ t)) = .ok (n, t) := by
  unfold scanU
  rw [scanInt_dec ws n t hw ht]
  simp only
  rw [if_pos ⟨by omega, by exact_mod_cast hn⟩]
  rfl

/-- White space of at least one character, between two numbers. -/
def Sep (ws : List Byte) : Prop := Blank ws ∧ ws ≠ []

theorem space_not_digit (b : Byte) (h : isSpace b = true) : isDigit b = false := by
  by_contra hd
  rw [Bool.not_eq_false] at hd
  rw [(digit_not_space b hd).1] at h
  exact absurd h (by simp)

theorem sep_noDigit (ws t : List Byte) (h : Sep ws) : NoDigit (ws ++ t) := by
  match ws, h with
  | b :: ws, h =>
    intro c hc
    simp at hc
    rw [← hc]
    exact space_not_digit b (h.1 b (by simp))
  | [], h => exact absurd rfl h.2

/-- Header of a PPM file (specification): magic number, then width, height and maximum separated by
white space. -/
def fileHeader (m : Byte) (s0 s1 s2 : List Byte) (w h d : Nat) : List Byte :=
  [80#8, m] ++ (s0 ++ (dec w ++ (s1 ++ (dec h ++ (s2 ++ dec d)))))

theorem scan_header (s0 s1 s2 : List Byte) (w h d : Nat) (t : List Byte) (h0 : Blank s0) (h1 : Sep s1)
    (h2 : Sep s2) (ht : NoDigit t) (hw : w < 2 ^ 32) (hh : h < 2 ^ 32) (hd : d < 2 ^ 16) (m : Byte) :
    read (fileHeader m s0 s1 s2 w h d ++ t) =
      (if m = 51#8 then do
        let ps ← textLoop d (w * h % 2 ^ 32) ⟨t, none, none⟩
        pure (true, ps)
      else if m = 54#8 then do
        let ps ← if d ≤ 255 then rowLoop (pixel8 d) 1 w h (t.drop 1) else rowLoop (pixel16 d) 2 w h (t.drop 1)
        pure (decide (ps.length % 2 ^ 32 = w * h % 2 ^ 32), ps)
      else pure (false, [])) := by
  have e1 : scanU 32 (s0 ++ (dec w ++ (s1 ++ (dec h ++ (s2 ++ (dec d ++ t)))))) =
      .ok (w, s1 ++ (dec h ++ (s2 ++ (dec d ++ t)))) := scanU_dec _ _ _ _ h0 (sep_noDigit _ _ h1) hw
  have e2 : scanU 32 (s1 ++ (dec h ++ (s2 ++ (dec d ++ t)))) = .ok (h, s2 ++ (dec d ++ t)) :=
    scanU_dec _ _ _ _ h1.1 (sep_noDigit _ _ h2) hh
  have e3 : scanU 16 (s2 ++ (dec d ++ t)) = .ok (d, t) := scanU_dec _ _ _ _ h2.1 ht hd
  unfold fileHeader read
  simp only [List.cons_append, List.nil_append, List.append_assoc, if_true]
  rw [e1]
  simp only [bind, Except.bind]
  rw [e2]
  simp only
  rw [e3]

theorem dimensions_header (s0 s1 s2 : List Byte) (w h d : Nat) (t : List Byte) (h0 : Blank s0) (h1 : Sep s1)
    (h2 : Sep s2) (hw : w < 2 ^ 31) (hh : h < 2 ^ 31) (m : Byte) (hm : m = 51#8 ∨ m = 54#8) (w0 h0' : Int) :
    dimensions (fileHeader m s0 s1 s2 w h d ++ t) w0 h0' = .ok (some ((w : Int), (h : Int))) := by
  have e1 : scanInt (s0 ++ (dec w ++ (s1 ++ (dec h ++ (s2 ++ (dec d ++ t)))))) =
      some ((w : Int), s1 ++ (dec h ++ (s2 ++ (dec d ++ t)))) := scanInt_dec _ _ _ h0 (sep_noDigit _ _ h1)
  have e2 : scanInt (s1 ++ (dec h ++ (s2 ++ (dec d ++ t)))) = some ((h : Int), s2 ++ (dec d ++ t)) :=
    scanInt_dec _ _ _ h1.1 (sep_noDigit _ _ h2)
  unfold fileHeader dimensions
  simp only [List.cons_append, List.nil_append, List.append_assoc]
  rw [if_pos ⟨trivial, hm⟩, e1]
  simp only
  rw [if_pos (by omega), e2]
  simp only
  rw [if_pos (by omega)]

/-! ### Binary files -/

/-- The bytes of the `i`-th item of `c` bytes. -/
def chunk (c i : Nat) (s : List Byte) : List Byte := (s.drop (i * c)).take c

theorem chunk_take (c i n : Nat) (s : List Byte) (h : (i + 1) * c ≤ n) : chunk c i (s.take n) = chunk c i s := by
  unfold chunk
  rw [List.drop_take, List.take_take]
  rw [Nat.add_mul, Nat.one_mul] at h
  rw [Nat.min_eq_left (by omega)]

theorem chunk_drop (c i k : Nat) (s : List Byte) : chunk c i (s.drop (k * c)) = chunk c (k + i) s := by
  unfold chunk
  rw [List.drop_drop, Nat.add_mul]

theorem decodeRow_ok (px : List Byte → Except Fault Pixel) (c : Nat) (hpx : ∀ l, px l = px (l.take c)) :
    ∀ (n : Nat) (row : List Byte), (∀ i < n, ∃ p, px (chunk c i row) = .ok p) →
    ∃ ps, decodeRow px c n row = .ok ps ∧ ps.length = n ∧ ∀ i < n, ∃ p, ps[i]? = some p ∧ px (chunk c i row) = .ok p := by
  intro n
  induction n with
  | zero => intro row _; exact ⟨[], rfl, rfl, by intro i hi; omega⟩
  | succ n ih =>
    intro row h
    obtain ⟨p, hp⟩ := h 0 (by omega)
    have hp' : px row = .ok p := by rw [hpx]; simpa [chunk] using hp
    obtain ⟨ps, e, hl, hi⟩ := ih (row.drop c) (by
      intro i hi
      have := h (i + 1) (by omega)
      rwa [Nat.add_comm, ← chunk_drop, Nat.one_mul] at this)
    refine ⟨p :: ps, ?_, by simp [hl], ?_⟩
    · rw [decodeRow, hp', e]; rfl
    · intro i hi'
      match i with
      | 0 => exact ⟨p, rfl, hp⟩
      | i + 1 =>
        obtain ⟨q, h1, h2⟩ := hi i (by omega)
        refine ⟨q, by simpa using h1, ?_⟩
        rw [Nat.add_comm, ← chunk_drop, Nat.one_mul]
        exact h2

theorem rowLoop_ok (px : List Byte → Except Fault Pixel) (k w : Nat) (hk : 0 < k) (hw0 : 0 < w)
    (hw : w * 3 < 2 ^ 32) (hpx : ∀ l, px l = px (l.take (k * 3))) :
    ∀ (h : Nat) (s : List Byte), w * h * (k * 3) ≤ s.length → (∀ i < w * h, ∃ p, px (chunk (k * 3) i s) = .ok p) →
    ∃ ps, rowLoop px k w h s = .ok ps ∧ ps.length = w * h ∧
      ∀ i < w * h, ∃ p, ps[i]? = some p ∧ px (chunk (k * 3) i s) = .ok p := by
  intro h
  induction h with
  | zero => intro s _ _; exact ⟨[], rfl, rfl, by intro i hi; omega⟩
  | succ h ih =>
    intro s hs hp
    rw [Nat.mul_succ] at hs hp
    have en : k * (w * 3 % 2 ^ 32) = w * (k * 3) := by rw [Nat.mod_eq_of_lt hw]; ring
    have hrow : ∀ i < w, (i + 1) * (k * 3) ≤ w * (k * 3) := fun i hi => Nat.mul_le_mul_right _ hi
    obtain ⟨ps, e1, l1, i1⟩ := decodeRow_ok px (k * 3) hpx w (s.take (w * (k * 3))) (by
      intro i hi
      rw [chunk_take _ _ _ _ (hrow i hi)]
      exact hp i (by omega))
    rw [Nat.add_mul] at hs
    obtain ⟨qs, e2, l2, i2⟩ := ih (s.drop (w * (k * 3))) (by rw [List.length_drop]; omega) (by
      intro i hi
      rw [chunk_drop]
      exact hp (w + i) (by omega))
    refine ⟨ps ++ qs, ?_, by rw [List.length_append, Nat.mul_succ]; omega, ?_⟩
    · have hpos : 0 < w * (k * 3) := by positivity
      rw [rowLoop]
      simp only [en]
      rw [if_neg (by omega), if_neg (by omega), e1]
      simp only [bind, Except.bind]
      rw [e2]
      rfl
    · intro i hi
      rw [Nat.mul_succ] at hi
      rcases Nat.lt_or_ge i w with hlt | hge
      · obtain ⟨p, a, b⟩ := i1 i hlt
        refine ⟨p, ?_, by rwa [chunk_take _ _ _ _ (hrow i hlt)] at b⟩
        rw [List.getElem?_append_left (by omega)]
        exact a
      · obtain ⟨p, a, b⟩ := i2 (i - w) (by omega)
        rw [chunk_drop, show w + (i - w) = i by omega] at b
        refine ⟨p, ?_, b⟩
        rw [List.getElem?_append_right (by omega), l1]
        exact a

theorem pixel8_local (d : Nat) (l : List Byte) : pixel8 d l = pixel8 d (l.take (1 * 3)) := by
  unfold pixel8
  match l with
  | [] => rfl
  | [_] => rfl
  | [_, _] => rfl
  | _ :: _ :: _ :: _ => rfl

/-- Specification: the pixels decoded from the samples (three per pixel, row by row). -/
def Decodes (samples : Nat → Nat) (d n : Nat) (ps : List Pixel) : Prop :=
  ps.length = n ∧ ∀ i < n, ∃ p, ps[i]? = some p ∧ red p = scaled (samples (3 * i)) d ∧
    green p = scaled (samples (3 * i + 1)) d ∧ blue p = scaled (samples (3 * i + 2)) d ∧ alpha p = 0xFF#8

theorem chunk_getD (i j : Nat) (s : List Byte) (hj : j < 3) : (chunk 3 i s).getD j 0 = s.getD (3 * i + j) 0 := by
  unfold chunk
  simp only [List.getD_eq_getElem?_getD]
  rw [List.getElem?_take_of_lt hj, List.getElem?_drop, Nat.mul_comm]

theorem rowLoop_zero (px : List Byte → Except Fault Pixel) (k h : Nat) (s : List Byte) :
    rowLoop px k 0 h s = .ok [] := by
  cases h with
  | zero => rfl
  | succ h => rw [rowLoop]; simp

/-- **C68**, files: a binary file with one byte per sample, no sample above the maximum, is decoded exactly. -/
theorem C68_binary_partial (s0 s1 s2 : List Byte) (w h d : Nat) (sep : Byte) (body : List Byte) (h0 : Blank s0)
    (h1 : Sep s1) (h2 : Sep s2) (hs : isSpace sep = true) (hw : w < 2 ^ 32) (hw3 : 0 < h → w * 3 < 2 ^ 32) (hh : h < 2 ^ 32)
    (hd0 : 0 < d) (hd : d ≤ 255) (hb : w * h * 3 ≤ body.length) (hm : ∀ b ∈ body, b.toNat ≤ d) :
    ∃ ps, read (fileHeader 54#8 s0 s1 s2 w h d ++ sep :: body) = .ok (true, ps) ∧
      Decodes (fun i => (body.getD i 0).toNat) d (w * h) ps := by
  have hnd : NoDigit (sep :: body) := by
    intro b hb
    simp at hb
    rw [← hb]
    exact space_not_digit _ hs
  have hsample : ∀ i, (body.getD i 0).toNat ≤ d := by
    intro i
    rw [List.getD_eq_getElem?_getD]
    cases hq : body[i]? with
    | none => simp
    | some b => exact hm b (List.mem_of_getElem? hq)
  have hpx : ∀ i, pixel8 d (chunk (1 * 3) i body) = .ok (mk (scaled (body.getD (3 * i) 0).toNat d)
      (scaled (body.getD (3 * i + 1) 0).toNat d) (scaled (body.getD (3 * i + 2) 0).toNat d)) := by
    intro i
    unfold pixel8
    rw [Nat.one_mul, chunk_getD i 0 body (by omega), chunk_getD i 1 body (by omega), chunk_getD i 2 body (by omega),
      Nat.add_zero, C68_sample8 _ d hd0 hd (hsample _), C68_sample8 _ d hd0 hd (hsample _),
      C68_sample8 _ d hd0 hd (hsample _)]
    rfl
  have hrow : ∃ ps, rowLoop (pixel8 d) 1 w h body = .ok ps ∧ ps.length = w * h ∧
      ∀ i < w * h, ∃ p, ps[i]? = some p ∧ pixel8 d (chunk (1 * 3) i body) = .ok p := by
    rcases Nat.eq_zero_or_pos w with rfl | hw0
    · exact ⟨[], rowLoop_zero _ _ _ _, by simp, by intro i hi; simp at hi⟩
    rcases Nat.eq_zero_or_pos h with rfl | hh0
    · exact ⟨[], rfl, by simp, by intro i hi; simp at hi⟩
    · exact rowLoop_ok (pixel8 d) 1 w (by omega) hw0 (hw3 hh0) (pixel8_local d) h body (by simpa using hb)
        (fun i _ => ⟨_, hpx i⟩)
  obtain ⟨ps, e, hl, hi⟩ := hrow
  refine ⟨ps, ?_, hl, ?_⟩
  · rw [scan_header s0 s1 s2 w h d _ h0 h1 h2 hnd hw hh (by omega), if_neg (by decide), if_pos rfl,
      if_pos hd, List.drop_one, List.tail_cons, e]
    simp only [bind, Except.bind, pure, Except.pure]
    rw [hl, decide_eq_true rfl]
  · intro i hi'
    obtain ⟨p, a, b⟩ := hi i hi'
    rw [hpx i] at b
    injection b with b
    refine ⟨p, a, ?_⟩
    rw [← b, red_mk, green_mk, blue_mk, alpha_mk]
    exact ⟨rfl, rfl, rfl, rfl⟩

theorem flatMap_length (data : List Pixel) : (data.flatMap pixelBytes).length = data.length * 3 := by
  induction data with
  | nil => rfl
  | cons p l ih => rw [List.flatMap_cons, List.length_append, ih, List.length_cons]; simp [pixelBytes]; ring

theorem flatMap_getD (data : List Pixel) : ∀ (i j : Nat), j < 3 → (hi : i < data.length) →
    (data.flatMap pixelBytes).getD (3 * i + j) 0 = (pixelBytes data[i]).getD j 0 := by
  induction data with
  | nil => intro i j _ hi; simp at hi
  | cons p l ih =>
    intro i j hj hi
    rw [List.flatMap_cons]
    match i with
    | 0 =>
      simp only [List.getD_eq_getElem?_getD, Nat.mul_zero, Nat.zero_add, List.getElem_cons_zero]
      rw [List.getElem?_append_left (by simpa [pixelBytes] using hj)]
    | i + 1 =>
      have := ih i j hj (by simpa using hi)
      simp only [List.getD_eq_getElem?_getD, List.getElem_cons_succ] at this ⊢
      rw [List.getElem?_append_right (by simp [pixelBytes]; omega)]
      rw [show 3 * (i + 1) + j - (pixelBytes p).length = 3 * i + j by simp [pixelBytes]; omega]
      exact this

theorem scaled_255 (b : Byte) : scaled b.toNat 255 = b := by
  unfold scaled
  rw [Nat.mul_div_cancel_left _ (by norm_num)]
  simp

/-- **C42.** Every image the program can write (file size of an `int`) is read back: dimensions, success, and
every pixel unchanged but opaque. -/
theorem C42_round_trip (w h : Nat) (data : List Pixel) (hw : w < 2 ^ 31) (hh : h < 2 ^ 31)
    (hwh : w * h * 3 < 2 ^ 31) (hd : data.length = w * h) :
    ∃ f, write w h data = some (f, true) ∧ (∀ w0 h0, dimensions f w0 h0 = .ok (some ((w : Int), (h : Int)))) ∧
      ∃ ps, read f = .ok (true, ps) ∧ ps.length = data.length ∧
        ∀ i, (hi : i < data.length) → ∃ q, ps[i]? = some q ∧ IsOpaqueCopy data[i] q := by
  have hblank : Blank [32#8] := by intro b hb; rw [List.mem_singleton] at hb; rw [hb]; decide
  have hsep : Sep [32#8] := ⟨hblank, by simp⟩
  have h255 : dec 255 = [50#8, 53#8, 53#8] := by
    rw [dec, if_neg (by decide), dec, if_neg (by decide), dec, if_pos (by decide)]; rfl
  have ef : [80#8, 54#8, 32#8] ++ dec w ++ [32#8] ++ dec h ++ [32#8, 50#8, 53#8, 53#8, 32#8] ++
      data.flatMap pixelBytes =
      fileHeader 54#8 [32#8] [32#8] [32#8] w h 255 ++ 32#8 :: data.flatMap pixelBytes := by
    unfold fileHeader
    rw [h255]
    simp
  refine ⟨[80#8, 54#8, 32#8] ++ dec w ++ [32#8] ++ dec h ++ [32#8, 50#8, 53#8, 53#8, 32#8] ++
      data.flatMap pixelBytes, ?_, ?_, ?_⟩
  · unfold write
    rw [if_pos ⟨hw, hh, hwh, by omega⟩, List.take_of_length_le (by omega), flatMap_length, hd, decide_eq_true rfl]
  · intro w0 h0
    rw [ef]
    exact dimensions_header _ _ _ _ _ _ _ hblank hsep hsep hw hh _ (Or.inr rfl) _ _
  · rw [ef]
    obtain ⟨ps, e, hl, hi⟩ := C68_binary_partial [32#8] [32#8] [32#8] w h 255 32#8 (data.flatMap pixelBytes) hblank hsep hsep
      (by decide) (by omega) (fun h0 => by have : w * 1 ≤ w * h := Nat.mul_le_mul_left _ h0; omega)
      (by omega) (by omega) (le_refl _) (by rw [flatMap_length, hd]) (fun b _ => by have := b.isLt; omega)
    refine ⟨ps, e, by rw [hl, hd], ?_⟩
    intro i hlt
    obtain ⟨p, a, r, g, b, al⟩ := hi i (by omega)
    refine ⟨p, a, ?_, ?_, ?_, al⟩
    all_goals simp only at r g b
    · have := flatMap_getD data i 0 (by omega) hlt
      rw [Nat.add_zero] at this
      rw [r, this, scaled_255]; rfl
    · rw [g, flatMap_getD data i 1 (by omega) hlt, scaled_255]; rfl
    · rw [b, flatMap_getD data i 2 (by omega) hlt, scaled_255]; rfl

example : ∃ f, write 2 1 [0x10203040#32, 0xFFFFFFFF#32] = some (f, true) ∧
    ∃ ps, read f = .ok (true, ps) ∧ ps.length = 2 := by
  obtain ⟨f, a, -, ps, b, c, -⟩ := C42_round_trip 2 1 [0x10203040#32, 0xFFFFFFFF#32] (by decide) (by decide)
    (by decide) rfl
  exact ⟨f, a, ps, b, c⟩

/-! ### Text files -/

/-- The text does not start in the middle of a word. -/
def WordEnd (t : List Byte) : Prop := ∀ b, t.head? = some b → isSpace b = true

theorem takeWhile_word (l t : List Byte) (hl : ∀ b ∈ l, isDigit b = true) (ht : WordEnd t) :
    (l ++ t).takeWhile (fun b => !isSpace b) = l := by
  induction l with
  | nil =>
    cases t with
    | nil => simp
    | cons b t => simp [ht b rfl]
  | cons a l ih =>
    have := ih (fun b hb => hl b (by simp [hb]))
    simp [(digit_not_space a (hl a (by simp))).1, this]

theorem textSample_ok (d : Nat) (t : Text) (ws : List Byte) (v : Nat) (tail : List Byte) (hw : Blank ws)
    (ht : WordEnd tail) (hv : v < 2 ^ 16) (hr : t.rest = ws ++ (dec v ++ tail)) (b : Byte)
    (hb : sampleClamp v d = .ok b) : textSample d t = .ok (b, ⟨tail, some (dec v), some v⟩) := by
  obtain ⟨-, g2, g3⟩ := dec_spec v
  have hs : skipSpace t.rest = dec v ++ tail := by rw [hr, skipSpace_blank _ _ hw, skipSpace_dec]
  have hlen : (dec v).length ≤ 5 := dec_length 4 v (by omega)
  have htok : ((dec v ++ tail).takeWhile fun b => !isSpace b).take 5 = dec v := by
    rw [takeWhile_word _ _ g2 ht, List.take_of_length_le hlen]
  have hsc : scanInt (dec v) = some ((v : Int), []) := by
    have := scanInt_dec [] v [] (by intro b hb; simp at hb) (by intro b hb; simp at hb)
    simpa using this
  have hne : (dec v).isEmpty = false := by
    cases h : dec v with
    | nil => exact absurd h g3
    | cons _ _ => rfl
  unfold textSample
  simp only [hs, htok, hne, Bool.false_eq_true, if_false, hsc]
  rw [if_pos ⟨by omega, by exact_mod_cast hv⟩]
  simp only [bind, Except.bind, pure, Except.pure, Int.toNat_natCast]
  rw [hb, List.drop_left' rfl]

/-- The text of the samples: each preceded by white space. -/
def sampleText (items : List (List Byte × Nat)) : List Byte := items.flatMap fun it => it.1 ++ dec it.2

theorem wordEnd_sampleText (items : List (List Byte × Nat)) (tail : List Byte) (hs : ∀ it ∈ items, Sep it.1)
    (ht : WordEnd tail) : WordEnd (sampleText items ++ tail) := by
  cases items with
  | nil => exact ht
  | cons it l =>
    obtain ⟨h1, h2⟩ := hs it (by simp)
    intro b hb
    match h : it.1 with
    | [] => exact absurd h h2
    | c :: r =>
      simp [sampleText, h] at hb
      rw [← hb]
      exact h1 c (by rw [h]; simp)

theorem textLoop_ok (d : Nat) (hd0 : 0 < d) (hd : d ≤ 32767) (tail : List Byte) (ht : WordEnd tail) :
    ∀ (n : Nat) (items : List (List Byte × Nat)) (t : Text), items.length = 3 * n → (∀ it ∈ items, Sep it.1) →
    (∀ it ∈ items, it.2 ≤ d) → t.rest = sampleText items ++ tail →
    ∃ ps, textLoop d n t = .ok ps ∧ Decodes (fun i => (items.getD i ([], 0)).2) d n ps := by
  intro n
  induction n with
  | zero => intro items t _ _ _ _; exact ⟨[], rfl, rfl, by intro i hi; omega⟩
  | succ n ih =>
    intro items t hl hs hv hr
    match items, hl with
    | x :: y :: z :: l, hl =>
      have hx := hv x (by simp)
      have hy := hv y (by simp)
      have hz := hv z (by simp)
      have sub : ∀ it ∈ l, it ∈ x :: y :: z :: l := fun it h => by simp [h]
      have w3 := wordEnd_sampleText l tail (fun it h => hs it (sub it h)) ht
      have w2 := wordEnd_sampleText (z :: l) tail (fun it h => hs it (by
        rw [List.mem_cons] at h; rcases h with h | h <;> simp [h])) ht
      have w1 := wordEnd_sampleText (y :: z :: l) tail (fun it h => hs it (by
        simp only [List.mem_cons] at h ⊢; right; exact h)) ht
      have e1 := textSample_ok d t x.1 x.2 (sampleText (y :: z :: l) ++ tail) (hs x (by simp)).1 w1 (by omega)
        (by rw [hr]; simp [sampleText]) _ (C68_sampleText _ d hd0 hd hx)
      have e2 := textSample_ok d ⟨sampleText (y :: z :: l) ++ tail, some (dec x.2), some x.2⟩ y.1 y.2
        (sampleText (z :: l) ++ tail) (hs y (by simp)).1 w2 (by omega)
        (by simp [sampleText]) _ (C68_sampleText _ d hd0 hd hy)
      have e3 := textSample_ok d ⟨sampleText (z :: l) ++ tail, some (dec y.2), some y.2⟩ z.1 z.2
        (sampleText l ++ tail) (hs z (by simp)).1 w3 (by omega)
        (by simp [sampleText]) _ (C68_sampleText _ d hd0 hd hz)
      obtain ⟨ps, e4, hp1, hp2⟩ := ih l ⟨sampleText l ++ tail, some (dec z.2), some z.2⟩ (by
        simp only [List.length_cons] at hl; omega) (fun it h => hs it (sub it h)) (fun it h => hv it (sub it h)) rfl
      refine ⟨mk (scaled x.2 d) (scaled y.2 d) (scaled z.2 d) :: ps, ?_, by simp [hp1], ?_⟩
      · rw [textLoop, e1]
        simp only [bind, Except.bind]
        rw [e2]
        simp only
        rw [e3]
        simp only
        rw [e4]
        rfl
      · intro i hi
        match i with
        | 0 => exact ⟨_, rfl, red_mk _ _ _, green_mk _ _ _, blue_mk _ _ _, alpha_mk _ _ _⟩
        | i + 1 =>
          obtain ⟨p, a, r, g, b, al⟩ := hp2 i (by omega)
          refine ⟨p, by simpa using a, ?_, ?_, ?_, al⟩
          · rw [r, show 3 * (i + 1) = 3 * i + 1 + 1 + 1 by ring]; rfl
          · rw [g, show 3 * (i + 1) + 1 = 3 * i + 1 + 1 + 1 + 1 by ring]; rfl
          · rw [b, show 3 * (i + 1) + 2 = 3 * i + 2 + 1 + 1 + 1 by ring]; rfl

/-- **C68**, files: a text file with a maximum up to 32767 is decoded exactly. -/
theorem C68_text_partial (s0 s1 s2 : List Byte) (w h d : Nat) (items : List (List Byte × Nat)) (tail : List Byte)
    (h0 : Blank s0) (h1 : Sep s1) (h2 : Sep s2) (hw : w < 2 ^ 32) (hh : h < 2 ^ 32) (hwh : w * h < 2 ^ 32)
    (hd0 : 0 < d) (hd : d ≤ 32767) (hl : items.length = 3 * (w * h)) (hs : ∀ it ∈ items, Sep it.1)
    (hm : ∀ it ∈ items, it.2 ≤ d) (ht : WordEnd tail) :
    ∃ ps, read (fileHeader 51#8 s0 s1 s2 w h d ++ (sampleText items ++ tail)) = .ok (true, ps) ∧
      Decodes (fun i => (items.getD i ([], 0)).2) d (w * h) ps := by
  obtain ⟨ps, e, hp⟩ := textLoop_ok d hd0 hd tail ht (w * h) items ⟨sampleText items ++ tail, none, none⟩ hl hs hm rfl
  refine ⟨ps, ?_, hp⟩
  have hnd : NoDigit (sampleText items ++ tail) := fun b hb =>
    space_not_digit b (wordEnd_sampleText items tail hs ht b hb)
  rw [scan_header s0 s1 s2 w h d _ h0 h1 h2 hnd hw hh (by omega), if_pos rfl, Nat.mod_eq_of_lt hwh, e]
  rfl

example : ∃ ps, read (fileHeader 51#8 [10#8] [32#8] [10#8] 1 1 15 ++
    (sampleText [([10#8], 15), ([32#8], 0), ([32#8, 9#8], 7)] ++ [10#8])) = .ok (true, ps) ∧ ps = [mk 255#8 0#8 119#8] := by
  refine ⟨_, ?_, rfl⟩
  decide +kernel

/-- **C68 is violated**: a comment in the header, which the format allows, makes the reader use variables
that were never written. -/
theorem C68_violated_comment (rest : List Byte) :
    read ([80#8, 54#8, 10#8, 35#8] ++ rest) = .error .uninit := by
  rfl

/-! ### Bounds -/

theorem decodeRow_length (px : List Byte → Except Fault Pixel) (c : Nat) : ∀ (n : Nat) (row : List Byte) ps,
    decodeRow px c n row = .ok ps → ps.length = n := by
  intro n
  induction n with
  | zero => intro row ps h; cases h; rfl
  | succ n ih =>
    intro row ps h
    rw [decodeRow] at h
    cases e1 : px row with
    | error e => rw [e1] at h; cases h
    | ok p =>
      rw [e1] at h
      cases e2 : decodeRow px c n (row.drop c) with
      | error e => simp only [bind, Except.bind, e2] at h; cases h
      | ok qs =>
        simp only [bind, Except.bind, e2] at h
        cases h
        simp [ih _ _ e2]

theorem rowLoop_length (px : List Byte → Except Fault Pixel) (k w : Nat) : ∀ (h : Nat) (s : List Byte) ps,
    rowLoop px k w h s = .ok ps → ps.length ≤ w * h := by
  intro h
  induction h with
  | zero => intro s ps e; cases e; simp
  | succ h ih =>
    intro s ps e
    rw [rowLoop] at e
    split at e
    · cases e; simp
    · split at e
      · cases e
      · cases e1 : decodeRow px (k * 3) w (s.take (k * (w * 3 % 2 ^ 32))) with
        | error e' => rw [e1] at e; cases e
        | ok p =>
          cases e2 : rowLoop px k w h (s.drop (k * (w * 3 % 2 ^ 32))) with
          | error e' => simp only [bind, Except.bind, e1, e2] at e; cases e
          | ok qs =>
            simp only [bind, Except.bind, e1, e2] at e
            cases e
            rw [List.length_append, decodeRow_length _ _ _ _ _ e1, Nat.mul_succ]
            have := ih _ _ e2
            omega

theorem textLoop_length (d : Nat) : ∀ (n : Nat) (t : Text) ps, textLoop d n t = .ok ps → ps.length = n := by
  intro n
  induction n with
  | zero => intro t ps h; cases h; rfl
  | succ n ih =>
    intro t ps h
    rw [textLoop] at h
    cases e1 : textSample d t with
    | error e => rw [e1] at h; cases h
    | ok r =>
      cases e2 : textSample d r.2 with
      | error e => simp only [bind, Except.bind, e1, e2] at h; cases h
      | ok g =>
        cases e3 : textSample d g.2 with
        | error e => simp only [bind, Except.bind, e1, e2, e3] at h; cases h
        | ok b =>
          cases e4 : textLoop d n b.2 with
          | error e => simp only [bind, Except.bind, e1, e2, e3, e4] at h; cases h
          | ok qs =>
            simp only [bind, Except.bind, e1, e2, e3, e4] at h
            cases h
            simp [ih _ _ e4]

theorem scanU_ok {bits : Nat} {s : List Byte} {r : Nat × List Byte} (h : scanU bits s = .ok r) :
    scanInt s = some ((r.1 : Int), r.2) ∧ r.1 < 2 ^ bits := by
  unfold scanU at h
  cases e : scanInt s with
  | none => rw [e] at h; cases h
  | some p =>
    obtain ⟨z, t⟩ := p
    rw [e] at h
    simp only at h
    split at h
    · rename_i hz
      cases h
      refine ⟨by rw [Int.toNat_of_nonneg hz.1], ?_⟩
      have h2 := hz.2
      simp only
      have : ((z.toNat : Nat) : Int) < ((2 ^ bits : Nat) : Int) := by
        rw [Int.toNat_of_nonneg hz.1]; exact_mod_cast h2
      exact_mod_cast this
    · cases h

/-- **C69.** Whatever the file contains: if the reader does not fall into undefined behaviour, then the pixels it
stores fit the buffer the caller allocates from `ppm_dimensions`, and if it reports success the whole buffer
is filled. -/
theorem C69_in_bounds (f : List Byte) (w0 h0 w h : Int) (ok : Bool) (ps : List Pixel)
    (hd : dimensions f w0 h0 = .ok (some (w, h))) (hr : read f = .ok (ok, ps)) :
    0 ≤ w ∧ 0 ≤ h ∧ (ps.length : Int) ≤ w * h ∧ (w * h < 2 ^ 32 → ok = true → (ps.length : Int) = w * h) := by
  match f with
  | [] => cases hr
  | [_] => cases hr
  | m0 :: m1 :: s =>
    unfold dimensions at hd
    unfold read at hr
    simp only at hd hr
    by_cases hm : m0 = 80#8 ∧ (m1 = 51#8 ∨ m1 = 54#8)
    · rw [if_pos hm] at hd
      rw [if_pos hm.1] at hr
      cases e1 : scanU 32 s with
      | error e => rw [e1] at hr; cases hr
      | ok a =>
        cases e2 : scanU 32 a.2 with
        | error e => simp only [bind, Except.bind, e1, e2] at hr; cases hr
        | ok b =>
          cases e3 : scanU 16 b.2 with
          | error e => simp only [bind, Except.bind, e1, e2, e3] at hr; cases hr
          | ok c =>
            simp only [bind, Except.bind, e1, e2, e3] at hr
            obtain ⟨s1, b1⟩ := scanU_ok e1
            obtain ⟨s2, b2⟩ := scanU_ok e2
            rw [s1] at hd
            simp only [s2] at hd
            have hwh : w = a.1 ∧ h = b.1 := by
              split at hd
              · split at hd
                · cases hd; exact ⟨rfl, rfl⟩
                · cases hd
              · cases hd
            obtain ⟨rfl, rfl⟩ := hwh
            refine ⟨by omega, by omega, ?_⟩
            have key : ps.length ≤ a.1 * b.1 ∧ (a.1 * b.1 < 2 ^ 32 → ok = true → ps.length = a.1 * b.1) := by
              rcases hm.2 with h3 | h6
              · rw [if_pos h3] at hr
                cases e4 : textLoop c.1 (a.1 * b.1 % 2 ^ 32) ⟨c.2, none, none⟩ with
                | error e => rw [e4] at hr; cases hr
                | ok qs =>
                  rw [e4] at hr
                  cases hr
                  have := textLoop_length _ _ _ _ e4
                  refine ⟨by rw [this]; exact Nat.mod_le _ _, ?_⟩
                  intro hlt _
                  rw [this, Nat.mod_eq_of_lt hlt]
              · rw [if_neg (by rw [h6]; decide), if_pos h6] at hr
                have hq : ∃ qs, (if c.1 ≤ 255 then rowLoop (pixel8 c.1) 1 a.1 b.1 (c.2.drop 1)
                    else rowLoop (pixel16 c.1) 2 a.1 b.1 (c.2.drop 1)) = .ok qs ∧ qs = ps ∧
                    ok = decide (qs.length % 2 ^ 32 = a.1 * b.1 % 2 ^ 32) := by
                  by_cases hc : c.1 ≤ 255
                  · simp only [if_pos hc] at hr ⊢
                    cases e4 : rowLoop (pixel8 c.1) 1 a.1 b.1 (c.2.drop 1) with
                    | error e => rw [e4] at hr; cases hr
                    | ok qs => rw [e4] at hr; cases hr; exact ⟨ps, rfl, rfl, rfl⟩
                  · simp only [if_neg hc] at hr ⊢
                    cases e4 : rowLoop (pixel16 c.1) 2 a.1 b.1 (c.2.drop 1) with
                    | error e => rw [e4] at hr; cases hr
                    | ok qs => rw [e4] at hr; cases hr; exact ⟨ps, rfl, rfl, rfl⟩
                obtain ⟨qs, e4, rfl, hok⟩ := hq
                have hle : qs.length ≤ a.1 * b.1 := by
                  split at e4 <;> exact rowLoop_length _ _ _ _ _ _ e4
                refine ⟨hle, ?_⟩
                intro hlt ht
                rw [ht] at hok
                have := of_decide_eq_true hok.symm
                rw [Nat.mod_eq_of_lt hlt, Nat.mod_eq_of_lt (by omega)] at this
                exact this
            refine ⟨by exact_mod_cast key.1, ?_⟩
            intro hlt ht
            exact_mod_cast key.2 (by exact_mod_cast hlt) ht
    · rw [if_neg hm] at hd
      cases hd

end Spectre.Ppm
