import Verif.Model.Color
import Verif.Props.Pixel
import Mathlib.Analysis.Convex.SpecificFunctions.Basic

/-
C111: the sRGB coding.  C112: 8-bit colours go through the program unchanged.  C113: saved pixels.
-/

namespace Spectre.Color
open Spectre.Geom

/-! ### Powers with rational exponents -/

theorem pow24 (x : ℝ) (h : 0 ≤ x) : (x ^ (2.4 : ℝ)) ^ 5 = x ^ 12 := by
  rw [← Real.rpow_natCast, ← Real.rpow_mul h, ← Real.rpow_natCast]
  norm_num

theorem root24 (x : ℝ) (h : 0 ≤ x) : (x ^ ((1 : ℝ) / 2.4)) ^ 12 = x ^ 5 := by
  rw [← Real.rpow_natCast, ← Real.rpow_mul h, ← Real.rpow_natCast]
  norm_num

theorem root_of_pow (x : ℝ) (h : 0 ≤ x) : (x ^ (2.4 : ℝ)) ^ ((1 : ℝ) / 2.4) = x := by
  rw [← Real.rpow_mul h]
  norm_num

theorem lt_pow24 (x y : ℝ) (hx : 0 ≤ x) (h : y ^ 5 < x ^ 12) : y < x ^ (2.4 : ℝ) := by
  rw [← pow24 x hx] at h
  exact lt_of_pow_lt_pow_left₀ 5 (Real.rpow_nonneg hx _) h

theorem lt_root24 (x y : ℝ) (hx : 0 ≤ x) (h : y ^ 12 < x ^ 5) : y < x ^ ((1 : ℝ) / 2.4) := by
  rw [← root24 x hx] at h
  exact lt_of_pow_lt_pow_left₀ 12 (Real.rpow_nonneg hx _) h

theorem root24_lt (x y : ℝ) (hx : 0 ≤ x) (hy : 0 ≤ y) (h : x ^ 5 < y ^ 12) : x ^ ((1 : ℝ) / 2.4) < y := by
  rw [← root24 x hx] at h
  exact lt_of_pow_lt_pow_left₀ 12 hy h

/-- The curved part of `decode`. -/
noncomputable def curve (v : ℝ) : ℝ := ((v + 0.055) / 1.055) ^ (2.4 : ℝ)

theorem decode_low {v : ℝ} (h : v ≤ 0.04045) : decode v = v * (1 / 12.92) := if_neg (not_lt.mpr h)
theorem decode_high {v : ℝ} (h : 0.04045 < v) : decode v = curve v := if_pos h
theorem encode_low {v : ℝ} (h : v ≤ 0.0031308) : encode v = v * 12.92 := if_neg (not_lt.mpr h)
theorem encode_high {v : ℝ} (h : 0.0031308 < v) : encode v = 1.055 * v ^ ((1 : ℝ) / 2.4) - 0.055 := if_pos h

theorem curve_mono {v w : ℝ} (h0 : -0.055 ≤ v) (h : v < w) : curve v < curve w := by
  unfold curve
  apply Real.rpow_lt_rpow
  · apply div_nonneg <;> linarith
  · rw [div_lt_div_iff_of_pos_right (by norm_num)]; linarith
  · norm_num

/-- The slope of the curve is at least 0.07. -/
theorem curve_slope {v w : ℝ} (h0 : 0.04045 ≤ v) (h : v ≤ w) : 0.07 * (w - v) ≤ curve w - curve v := by
  have hv : 0 < v + 0.055 := by linarith
  have e : curve w = curve v * (1 + (w - v) / (v + 0.055)) ^ (2.4 : ℝ) := by
    unfold curve
    rw [← Real.mul_rpow (by positivity) (by have : 0 ≤ w - v := by linarith
                                            positivity)]
    congr 1
    field_simp
    ring
  have b : 1 + 2.4 * ((w - v) / (v + 0.055)) ≤ (1 + (w - v) / (v + 0.055)) ^ (2.4 : ℝ) :=
    one_add_mul_self_le_rpow_one_add (by
      have : 0 ≤ (w - v) / (v + 0.055) := div_nonneg (by linarith) hv.le
      linarith) (by norm_num)
  have c0 : 0.034 * ((v + 0.055) / 1.055) ≤ curve v := by
    have hx : (0 : ℝ) < (v + 0.055) / 1.055 := by positivity
    have e1 : curve v = (v + 0.055) / 1.055 * ((v + 0.055) / 1.055) ^ (1.4 : ℝ) := by
      unfold curve
      conv_rhs => rw [← Real.rpow_one ((v + 0.055) / 1.055), ← Real.rpow_mul hx.le, ← Real.rpow_add hx]
      norm_num
    have k : (0.034 : ℝ) ≤ ((v + 0.055) / 1.055) ^ (1.4 : ℝ) := by
      have p : (((v + 0.055) / 1.055) ^ (1.4 : ℝ)) ^ 5 = ((v + 0.055) / 1.055) ^ 7 := by
        rw [← Real.rpow_natCast, ← Real.rpow_mul hx.le, ← Real.rpow_natCast]
        norm_num
      have q : (0.0904 : ℝ) ≤ (v + 0.055) / 1.055 := by
        rw [le_div_iff₀ (by norm_num)]; linarith
      have q7 : (0.0904 : ℝ) ^ 7 ≤ ((v + 0.055) / 1.055) ^ 7 := pow_le_pow_left₀ (by norm_num) q 7
      rw [← p] at q7
      have : (0.034 : ℝ) ^ 5 ≤ (((v + 0.055) / 1.055) ^ (1.4 : ℝ)) ^ 5 := le_trans (by norm_num) q7
      exact le_of_pow_le_pow_left₀ (by norm_num) (Real.rpow_nonneg hx.le _) this
    rw [e1]
    nlinarith
  have cv : 0 ≤ curve v := Real.rpow_nonneg (by positivity) _
  rw [e]
  have m := mul_le_mul_of_nonneg_left b cv
  have s : 0.034 * ((v + 0.055) / 1.055) * (2.4 * ((w - v) / (v + 0.055))) = 0.034 * 2.4 / 1.055 * (w - v) := by
    field_simp
  have s2 := mul_le_mul_of_nonneg_right c0 (show 0 ≤ 2.4 * ((w - v) / (v + 0.055)) from
    mul_nonneg (by norm_num) (div_nonneg (by linarith) hv.le))
  rw [s] at s2
  nlinarith

/-- At the threshold the curve lies above the straight part, by less than `10⁻⁸`... -/
theorem curve_threshold : (0.04045 * (1 / 12.92) : ℝ) < curve 0.04045 := by
  unfold curve
  apply lt_pow24 <;> norm_num

theorem decode_slope {v w : ℝ} (h : v ≤ w) : 0.07 * (w - v) ≤ decode w - decode v := by
  by_cases hw : 0.04045 < w
  · rw [decode_high hw]
    by_cases hv : 0.04045 < v
    · rw [decode_high hv]; exact curve_slope hv.le h
    · rw [decode_low (not_lt.mp hv)]
      have := curve_slope (le_refl 0.04045) hw.le
      have := curve_threshold
      have k : 0.07 * (0.04045 - v) ≤ 0.04045 * (1 / 12.92) - v * (1 / 12.92) := by
        have : 0 ≤ 0.04045 - v := by linarith
        nlinarith
      linarith
  · rw [decode_low (not_lt.mp hw), decode_low (h.trans (not_lt.mp hw))]
    have : 0 ≤ w - v := by linarith
    nlinarith

/-! ### C111 -/

/-- **C111.** Decoding is strictly increasing and fixes 0 and 1. -/
theorem C111_decode : StrictMono decode ∧ decode 0 = 0 ∧ decode 1 = 1 := by
  refine ⟨?_, ?_, ?_⟩
  · intro v w h
    have := decode_slope h.le
    have : 0 < w - v := by linarith
    nlinarith
  · rw [decode_low (by norm_num)]; simp
  · rw [decode_high (by norm_num)]; unfold curve; norm_num

/-- **C111.** Comparing an encoded value with a level is comparing with the decoded level. -/
theorem encode_lt_iff (u w : ℝ) (h : w ≤ 0.0404 ∨ 0.04045 < w) : encode u < w ↔ u < decode w := by
  by_cases hu : 0.0031308 < u
  · rw [encode_high hu]
    have u0 : 0 ≤ u := by linarith
    rcases h with h | h
    · rw [decode_low (by linarith)]
      have : (0.09043 : ℝ) < u ^ ((1 : ℝ) / 2.4) := by
        apply lt_root24 _ _ u0
        have : (0.0031308 : ℝ) ^ 5 ≤ u ^ 5 := pow_le_pow_left₀ (by norm_num) hu.le 5
        exact lt_of_lt_of_le (by norm_num) this
      constructor
      · intro h'; linarith
      · intro h'; linarith
    · rw [decode_high h]
      have key : u ^ ((1 : ℝ) / 2.4) < (w + 0.055) / 1.055 ↔ u < curve w := by
        unfold curve
        have w0 : (0 : ℝ) ≤ (w + 0.055) / 1.055 := by apply div_nonneg <;> linarith
        conv_lhs => rw [← root_of_pow _ w0]
        exact Real.rpow_lt_rpow_iff u0 (Real.rpow_nonneg w0 _) (by norm_num)
      rw [← key, lt_div_iff₀ (by norm_num)]
      constructor <;> intro h' <;> linarith
  · have hu := not_lt.mp hu
    rw [encode_low hu]
    rcases h with h | h
    · rw [decode_low (by linarith)]
      constructor <;> intro h' <;> linarith
    · rw [decode_high h]
      have := curve_threshold
      have := curve_mono (by norm_num : (-0.055 : ℝ) ≤ 0.04045) h
      constructor
      · intro _; linarith
      · intro _; linarith

/-- **C111.** Encoding undoes decoding, except between the two thresholds. -/
theorem C111_round_trip_partial (v : ℝ) (h : v ≤ 0.0031308 * 12.92 ∨ 0.04045 < v) : encode (decode v) = v := by
  rcases h with h | h
  · have : v ≤ 0.04045 := by linarith
    rw [decode_low this, encode_low (by linarith)]
    ring
  · have := curve_threshold
    have := curve_mono (by norm_num : (-0.055 : ℝ) ≤ 0.04045) h
    have w0 : (0 : ℝ) ≤ (v + 0.055) / 1.055 := by apply div_nonneg <;> linarith
    rw [decode_high h, encode_high (by linarith)]
    unfold curve
    rw [root_of_pow _ w0]
    ring

example : encode (decode 0.5) = 0.5 := C111_round_trip_partial _ (Or.inr (by norm_num))

/-- **C111.** Between the thresholds the error is below `10⁻⁶`. -/
theorem C111_gap (v : ℝ) : |encode (decode v) - v| ≤ 0.000001 := by
  by_cases h : v ≤ 0.0031308 * 12.92 ∨ 0.04045 < v
  · rw [C111_round_trip_partial v h]; norm_num
  · push Not at h
    have h1 : (0.0031308 : ℝ) < v * (1 / 12.92) := by linarith [h.1]
    rw [decode_low h.2, encode_high h1]
    have lo : (0.09047377 : ℝ) < (v * (1 / 12.92)) ^ ((1 : ℝ) / 2.4) := by
      apply lt_root24 _ _ (by linarith)
      have : (0.0031308 : ℝ) ^ 5 ≤ (v * (1 / 12.92)) ^ 5 := pow_le_pow_left₀ (by norm_num) h1.le 5
      exact lt_of_lt_of_le (by norm_num) this
    have hi : (v * (1 / 12.92)) ^ ((1 : ℝ) / 2.4) < (0.09047397 : ℝ) := by
      apply root24_lt _ _ (by linarith) (by norm_num)
      have : (v * (1 / 12.92)) ^ 5 ≤ (0.04045 * (1 / 12.92)) ^ 5 :=
        pow_le_pow_left₀ (by linarith) (by linarith [h.2]) 5
      exact lt_of_le_of_lt this (by norm_num)
    rw [abs_le]
    constructor <;> linarith [h.1, h.2]

/-- **C111, violated.** Encoding is not increasing: just above the threshold it falls. -/
theorem C111_violated_increasing : ¬Monotone encode := by
  intro h
  have := h (show (0.0031308 : ℝ) ≤ 0.003130801 by norm_num)
  rw [encode_low (le_refl _), encode_high (by norm_num)] at this
  have k : (0.003130801 : ℝ) ^ ((1 : ℝ) / 2.4) < (0.0031308 * 12.92 + 0.055) / 1.055 := by
    apply root24_lt <;> norm_num
  rw [lt_div_iff₀ (by norm_num)] at k
  linarith

/-- **C111.** On both sides of the threshold it is increasing. -/
theorem C111_increasing_partial (u v : ℝ) (h : u < v) (hs : v ≤ 0.0031308 ∨ 0.0031308 < u) : encode u < encode v := by
  rcases hs with hs | hs
  · rw [encode_low hs, encode_low (by linarith)]; linarith
  · rw [encode_high hs, encode_high (by linarith)]
    have := Real.rpow_lt_rpow (by linarith) h (show (0 : ℝ) < 1 / 2.4 by norm_num)
    linarith

/-! ### C113 -/

theorem quantise_le (v : ℝ) : quantise v ≤ 255 := by
  unfold quantise
  have : min (max 0 v * 255) 255 ≤ ((255 : ℕ) : ℝ) := by push_cast; exact min_le_right _ _
  exact Nat.floor_le_of_le this

/-- **C113.** The byte written for a channel is the largest level that does not exceed it. -/
theorem C113_level (v : ℝ) (k : Nat) (hk : k ≤ 255) : k ≤ quantise v ↔ k = 0 ∨ (k : ℝ) / 255 ≤ v := by
  unfold quantise
  have k0 : (0 : ℝ) ≤ k := Nat.cast_nonneg k
  have k1 : (k : ℝ) ≤ 255 := by exact_mod_cast hk
  rw [Nat.le_floor_iff (le_min (mul_nonneg (le_max_left _ _) (by norm_num)) (by norm_num)), le_min_iff]
  rw [div_le_iff₀ (by norm_num)]
  constructor
  · rintro ⟨h, -⟩
    rcases le_total 0 v with hv | hv
    · rw [max_eq_right hv] at h; exact Or.inr h
    · rw [max_eq_left hv] at h
      left
      have : (k : ℝ) = 0 := by linarith
      exact_mod_cast this
  · rintro (h | h)
    · subst h
      refine ⟨?_, by norm_num⟩
      push_cast
      exact mul_nonneg (le_max_left _ _) (by norm_num)
    · refine ⟨le_trans h ?_, k1⟩
      exact mul_le_mul_of_nonneg_right (le_max_right _ _) (by norm_num)

theorem pack_eq (v : V3 ℝ) : pack v =
    Img.mk (BitVec.ofNat 8 (quantise v.x)) (BitVec.ofNat 8 (quantise v.y)) (BitVec.ofNat 8 (quantise v.z)) := by
  have e : ∀ n, n ≤ 255 → BitVec.ofNat 32 n = (BitVec.ofNat 8 n).setWidth 32 := by
    intro n hn
    apply BitVec.eq_of_toNat_eq
    rw [BitVec.toNat_setWidth, BitVec.toNat_ofNat, BitVec.toNat_ofNat]
    omega
  unfold pack Img.mk
  rw [e _ (quantise_le _), e _ (quantise_le _), e _ (quantise_le _)]

/-- **C113.** A packed pixel holds the three bytes and is opaque. -/
theorem C113_channels (v : V3 ℝ) :
    (Img.red (pack v)).toNat = quantise v.x ∧ (Img.green (pack v)).toNat = quantise v.y ∧
    (Img.blue (pack v)).toNat = quantise v.z ∧ Img.alpha (pack v) = 0xFF#8 := by
  rw [pack_eq, Img.red_mk, Img.green_mk, Img.blue_mk, Img.alpha_mk]
  have := quantise_le v.x
  have := quantise_le v.y
  have := quantise_le v.z
  refine ⟨?_, ?_, ?_, rfl⟩ <;> rw [BitVec.toNat_ofNat] <;> omega

/-- **C113.** If all samples of a pixel have the same colour, it is the colour saved, whatever the weights; in
particular it does not depend on their number. -/
theorem C113_mean (c : V3 ℝ) (ws : List ℝ) (h : 0 < ws.sum) :
    savePixel (ws.foldl (fun p w => accumulate p c w) ⟨0, 0, 0, 0⟩) = pack (toSrgb c) := by
  have k : ∀ (ws : List ℝ) (p : Sum), ws.foldl (fun p w => accumulate p c w) p =
      ⟨p.x + c.x * ws.sum, p.y + c.y * ws.sum, p.z + c.z * ws.sum, p.samples + ws.sum⟩ := by
    intro ws
    induction ws with
    | nil => intro p; simp
    | cons w ws ih =>
      intro p
      rw [List.foldl_cons, ih]
      simp only [accumulate, List.sum_cons]
      congr 1 <;> ring
  rw [k]
  unfold savePixel
  simp only [zero_add]
  rw [if_pos h]
  have e : ∀ a : ℝ, a * ws.sum * (1 / ws.sum) = a := by intro a; field_simp
  simp only [e]

example : savePixel ([1, 3 / 2, -1 / 4].foldl (fun p w => accumulate p ⟨0.95, 1, 1.08⟩ w) ⟨0, 0, 0, 0⟩) =
    pack (toSrgb ⟨0.95, 1, 1.08⟩) := C113_mean _ _ (by norm_num)

/-- **C113.** Without samples the pixel is black and opaque. -/
theorem C113_empty (p : Sum) (h : p.samples ≤ 0) : savePixel p = 0x000000FF#32 := by
  unfold savePixel
  rw [if_neg (not_lt.mpr h), pack_eq]
  have : quantise 0 = 0 := by unfold quantise; simp
  simp only [this]
  decide

/-! ### C112 -/

theorem byte_level (k : Nat) : (k : ℝ) / 255 ≤ 0.0404 ∨ 0.04045 < (k : ℝ) / 255 := by
  rcases Nat.lt_or_ge k 11 with h | h
  · left
    have : (k : ℝ) ≤ 10 := by exact_mod_cast Nat.le_of_lt_succ h
    rw [div_le_iff₀ (by norm_num)]; linarith
  · right
    have : (11 : ℝ) ≤ k := by exact_mod_cast h
    rw [lt_div_iff₀ (by norm_num)]; linarith

/-- **C112.** A byte decoded, disturbed by at most `10⁻⁴` and saved comes back, or one lower if the disturbance
is negative. -/
theorem C112_byte (k : Nat) (hk : k ≤ 255) (e : ℝ) (he : |e| ≤ 0.0001) :
    quantise (encode (decode ((k : ℝ) / 255) + e)) = if 0 ≤ e then k else k - 1 := by
  have he := abs_le.mp he
  have step : ∀ j : Nat, 0.0002 < decode (((j + 1 : Nat) : ℝ) / 255) - decode ((j : ℝ) / 255) := by
    intro j
    have := @decode_slope ((j : ℝ) / 255) (((j + 1 : Nat) : ℝ) / 255) (by push_cast; gcongr; linarith)
    have e : ((j + 1 : Nat) : ℝ) / 255 - (j : ℝ) / 255 = 1 / 255 := by push_cast; ring
    rw [e] at this
    linarith
  have lower : ∀ j : Nat, j ≤ 255 → decode ((j : ℝ) / 255) ≤ decode ((k : ℝ) / 255) + e →
      j ≤ quantise (encode (decode ((k : ℝ) / 255) + e)) := by
    intro j hj h
    rw [C113_level _ _ hj]
    right
    by_contra hc
    rw [not_le, encode_lt_iff _ _ (byte_level j)] at hc
    linarith
  have upper : ∀ j : Nat, j < 255 → decode ((k : ℝ) / 255) + e < decode (((j + 1 : Nat) : ℝ) / 255) →
      quantise (encode (decode ((k : ℝ) / 255) + e)) ≤ j := by
    intro j hj h
    by_contra hc
    have : j + 1 ≤ quantise (encode (decode ((k : ℝ) / 255) + e)) := by omega
    rw [C113_level _ _ (by omega)] at this
    rcases this with h0 | h0
    · omega
    · rw [← encode_lt_iff _ _ (byte_level (j + 1))] at h
      linarith
  by_cases h0 : 0 ≤ e
  · rw [if_pos h0]
    apply le_antisymm
    · rcases Nat.lt_or_ge k 255 with h | h
      · apply upper k h
        linarith [step k]
      · have : k = 255 := by omega
        rw [this]; exact quantise_le _
    · exact lower k hk (by linarith)
  · rw [if_neg h0]
    have h0 := not_le.mp h0
    cases k with
    | zero =>
      have := upper 0 (by norm_num) (by linarith [step 0])
      omega
    | succ n =>
      simp only [Nat.add_sub_cancel]
      apply le_antisymm
      · exact upper n (by omega) (by linarith)
      · exact lower n (by omega) (by linarith [step n])

example : quantise (encode (decode ((200 : Nat) / 255) + -0.00005)) = 199 := by
  rw [C112_byte 200 (by norm_num) _ (by norm_num [abs_le])]; norm_num

theorem decode_mem (k : Nat) (hk : k ≤ 255) : 0 ≤ decode ((k : ℝ) / 255) ∧ decode ((k : ℝ) / 255) ≤ 1 := by
  have ⟨m, z, o⟩ := C111_decode
  have k1 : (k : ℝ) / 255 ≤ 1 := by
    rw [div_le_one (by norm_num)]; exact_mod_cast hk
  refine ⟨?_, ?_⟩
  · rw [← z]; exact m.monotone (by positivity)
  · rw [← o]; exact m.monotone k1

/-- What the two matrices, rounded to seven digits, add to linear red, green and blue. -/
noncomputable def matrixError (l : V3 ℝ) : V3 ℝ :=
  ⟨l.x * -0.00000018503423 + l.y * 0.00000004045612 + l.z * 0.00000005007626,
    l.x * 0.00000013181332 + l.y * 0.00000003745316 + l.z * -0.0000000172054,
    l.x * -0.00000001708607 + l.y * -0.00000003524084 + l.z * 0.00000002883832⟩

theorem matrices (l : V3 ℝ) : xyzToRgb (rgbToXyz l) =
    ⟨l.x + (matrixError l).x, l.y + (matrixError l).y, l.z + (matrixError l).z⟩ := by
  simp only [xyzToRgb, rgbToXyz, matrixError]
  congr 1 <;> ring

theorem matrixError_le (l : V3 ℝ) (hx : 0 ≤ l.x ∧ l.x ≤ 1) (hy : 0 ≤ l.y ∧ l.y ≤ 1) (hz : 0 ≤ l.z ∧ l.z ≤ 1) :
    |(matrixError l).x| ≤ 0.000001 ∧ |(matrixError l).y| ≤ 0.000001 ∧ |(matrixError l).z| ≤ 0.000001 := by
  simp only [matrixError, abs_le]
  refine ⟨⟨?_, ?_⟩, ⟨?_, ?_⟩, ⟨?_, ?_⟩⟩ <;> linarith [hx.1, hx.2, hy.1, hy.2, hz.1, hz.2]

/-- Linear components of a pixel. -/
noncomputable def linear (p : Img.Pixel) : V3 ℝ :=
  ⟨decode ((Img.red p).toNat / 255), decode ((Img.green p).toNat / 255), decode ((Img.blue p).toNat / 255)⟩

/-- `k` comes back as `j`, for an error of sign `e`. -/
def Back (e : ℝ) (k j : Nat) : Prop := j = if 0 ≤ e then k else k - 1

/-- **C112.** A pixel read, converted to XYZ and saved: all channels come back or one level lower, as the error of
the matrices decides. -/
theorem C112_pixel_partial (p : Img.Pixel) :
    let q := pack (toSrgb (toXyz (ofPixel p)))
    let e := matrixError (linear p)
    Back e.x (Img.red p).toNat (Img.red q).toNat ∧ Back e.y (Img.green p).toNat (Img.green q).toNat ∧
    Back e.z (Img.blue p).toNat (Img.blue q).toNat ∧ Img.alpha q = 0xFF#8 := by
  have b : ∀ x : Img.Byte, x.toNat ≤ 255 := fun x => by have := x.isLt; omega
  have ⟨h1, h2, h3⟩ := matrixError_le (linear p) (decode_mem _ (b _)) (decode_mem _ (b _)) (decode_mem _ (b _))
  have e : toSrgb (toXyz (ofPixel p)) = ⟨encode ((linear p).x + (matrixError (linear p)).x),
      encode ((linear p).y + (matrixError (linear p)).y), encode ((linear p).z + (matrixError (linear p)).z)⟩ := by
    simp only [toSrgb, toXyz]
    have d : (⟨decode (ofPixel p).x, decode (ofPixel p).y, decode (ofPixel p).z⟩ : V3 ℝ) = linear p := by
      simp only [ofPixel, linear, mul_one_div]
    rw [d, matrices]
  have ⟨c1, c2, c3, c4⟩ := C113_channels (toSrgb (toXyz (ofPixel p)))
  refine ⟨?_, ?_, ?_, c4⟩
  · unfold Back; rw [c1, e]; exact C112_byte _ (b _) _ (h1.trans (by norm_num))
  · unfold Back; rw [c2, e]; exact C112_byte _ (b _) _ (h2.trans (by norm_num))
  · unfold Back; rw [c3, e]; exact C112_byte _ (b _) _ (h3.trans (by norm_num))

/-- **C112, violated.** Every grey except black loses a level of red and blue. -/
theorem C112_violated_grey (k : Img.Byte) (h : 0 < k.toNat) :
    let q := pack (toSrgb (toXyz (ofPixel (Img.mk k k k))))
    (Img.red q).toNat = k.toNat - 1 ∧ (Img.green q).toNat = k.toNat ∧ (Img.blue q).toNat = k.toNat - 1 := by
  have ⟨h1, h2, h3, _⟩ := C112_pixel_partial (Img.mk k k k)
  have l : linear (Img.mk k k k) = ⟨decode (k.toNat / 255), decode (k.toNat / 255), decode (k.toNat / 255)⟩ := by
    unfold linear; rw [Img.red_mk, Img.green_mk, Img.blue_mk]
  have pos : 0 < decode ((k.toNat : ℝ) / 255) := by
    rw [← C111_decode.2.1]
    apply C111_decode.1
    have : (0 : ℝ) < k.toNat := by exact_mod_cast h
    positivity
  rw [l] at h1 h2 h3
  rw [Img.red_mk] at h1
  rw [Img.green_mk] at h2
  rw [Img.blue_mk] at h3
  unfold Back at h1 h2 h3
  rw [if_neg (by rw [not_le]; simp only [matrixError]; linarith)] at h1
  rw [if_pos (by simp only [matrixError]; linarith)] at h2
  rw [if_neg (by rw [not_le]; simp only [matrixError]; linarith)] at h3
  exact ⟨h1, h2, h3⟩

example : let q := pack (toSrgb (toXyz (ofPixel (Img.mk 255#8 255#8 255#8))))
    (Img.red q).toNat = 254 ∧ (Img.green q).toNat = 255 ∧ (Img.blue q).toNat = 254 :=
  C112_violated_grey 255#8 (by decide)

end Spectre.Color
