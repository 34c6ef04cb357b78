import Mathlib.Data.Int.Log
import Mathlib.Algebra.Order.Field.Rat
import Mathlib.Algebra.Order.Floor.Ring
import Mathlib.Data.Rat.Floor
import Mathlib.Tactic.Linarith
import Mathlib.Tactic.NormNum
import Mathlib.Tactic.Positivity
import Mathlib.Tactic.FieldSimp
import Mathlib.Tactic.Ring

/-
IEEE-754 binary32 rounding (round to nearest, ties to even) of an exact rational result, as applied
by the C++ `float` operations in /repo/src.  24-bit significand, *unbounded* exponent: subnormals
and overflow to infinity are not modelled, so statements about `fl` describe the code for results
with magnitude in [2^-126, 2^128) and zero.
-/

namespace Spectre

/-- Round a rational to an integer, ties to even. -/
def rne (x : ℚ) : ℤ :=
  if x - ⌊x⌋ < 1 / 2 then ⌊x⌋
  else if 1 / 2 < x - ⌊x⌋ then ⌊x⌋ + 1
  else if ⌊x⌋ % 2 = 0 then ⌊x⌋ else ⌊x⌋ + 1

/-- Exponent of the unit in the last place of the binade of `q`. -/
def ulpExp (q : ℚ) : ℤ := Int.log 2 |q| - 23

/-- binary32 rounding. -/
def fl (q : ℚ) : ℚ :=
  if q = 0 then 0 else (rne (q / 2 ^ ulpExp q) : ℚ) * 2 ^ ulpExp q

theorem rne_bounds (x : ℚ) : x - 1 / 2 ≤ rne x ∧ (rne x : ℚ) ≤ x + 1 / 2 := by
  have h1 := Int.floor_le x
  have h2 := Int.lt_floor_add_one x
  unfold rne
  split
  · constructor <;> linarith
  · split
    · push_cast; constructor <;> linarith
    · have : x - ⌊x⌋ = 1 / 2 := by linarith
      split
      · constructor <;> linarith
      · push_cast; constructor <;> linarith

theorem rne_int (n : ℤ) : rne (n : ℚ) = n := by
  unfold rne
  rw [if_pos] <;> simp

theorem rne_mono {x y : ℚ} (h : x ≤ y) : rne x ≤ rne y := by
  have hf := Int.floor_le_floor h
  have x1 := Int.floor_le x
  have x2 := Int.lt_floor_add_one x
  have y1 := Int.floor_le y
  have y2 := Int.lt_floor_add_one y
  have bx : rne x ≤ ⌊x⌋ + 1 := by
    unfold rne; split
    · omega
    · split
      · omega
      · split <;> omega
  have by' : ⌊y⌋ ≤ rne y := by
    unfold rne; split
    · omega
    · split
      · omega
      · split <;> omega
  rcases Int.lt_or_eq_of_le hf with hlt | heq
  · omega
  · unfold rne
    rw [← heq] at *
    split
    · split
      · omega
      · split
        · omega
        · split <;> omega
    · split
      · rw [if_neg (by linarith), if_pos (by linarith)]
      · rename_i a b
        have hy : ¬ (y - (⌊x⌋ : ℚ) < 1 / 2) := by
          push Not at a ⊢; linarith
        rw [if_neg hy]
        by_cases c : 1 / 2 < y - (⌊x⌋ : ℚ)
        · rw [if_pos c]; split <;> omega
        · rw [if_neg c]

theorem rne_neg (x : ℚ) : rne (-x) = -rne x := by
  by_cases hx : x = ⌊x⌋
  · rw [hx, ← Int.cast_neg, rne_int, rne_int]
  · have h1 := lt_of_le_of_ne (Int.floor_le x) (fun h => hx h.symm)
    have h2 := Int.lt_floor_add_one x
    have hf : ⌊-x⌋ = -⌊x⌋ - 1 := by
      rw [Int.floor_eq_iff]
      push_cast
      constructor <;> linarith
    unfold rne
    rw [hf]
    push_cast
    by_cases c1 : x - ⌊x⌋ < 1 / 2
    · rw [if_neg (by linarith), if_pos (by linarith), if_pos c1]; omega
    · by_cases c2 : 1 / 2 < x - ⌊x⌋
      · rw [if_pos (by linarith), if_neg c1, if_pos c2]; omega
      · rw [if_neg (by linarith), if_neg (by linarith), if_neg c1, if_neg c2]
        split <;> split <;> omega

theorem fl_zero : fl 0 = 0 := by simp [fl]

theorem ulpExp_neg (q : ℚ) : ulpExp (-q) = ulpExp q := by simp [ulpExp]

theorem fl_neg (q : ℚ) : fl (-q) = -fl q := by
  unfold fl
  by_cases h : q = 0
  · simp [h]
  · rw [if_neg h, if_neg (by simpa using h), ulpExp_neg, neg_div, rne_neg]
    push_cast; ring

theorem two_zpow_pos (k : ℤ) : (0 : ℚ) < 2 ^ k := zpow_pos (by norm_num) k

theorem scaled_bounds {q : ℚ} (h : 0 < q) :
    (2 : ℚ) ^ 23 ≤ q / 2 ^ ulpExp q ∧ q / 2 ^ ulpExp q < 2 ^ 24 := by
  have hp := two_zpow_pos (ulpExp q)
  have h1 : (2 : ℚ) ^ (Int.log 2 q) ≤ q := by
    have := Int.zpow_log_le_self (b := 2) (by norm_num) h; exact_mod_cast this
  have h2 : q < (2 : ℚ) ^ (Int.log 2 q + 1) := by
    have := Int.lt_zpow_succ_log_self (b := 2) (by norm_num) q; exact_mod_cast this
  have he : ulpExp q = Int.log 2 q - 23 := by unfold ulpExp; rw [abs_of_pos h]
  constructor
  · rw [le_div_iff₀ hp, he, ← zpow_natCast, ← zpow_add₀ (by norm_num)]
    rw [show ((23 : ℕ) : ℤ) + (Int.log 2 q - 23) = Int.log 2 q by push_cast; ring]
    exact h1
  · rw [div_lt_iff₀ hp, he, ← zpow_natCast, ← zpow_add₀ (by norm_num)]
    rw [show ((24 : ℕ) : ℤ) + (Int.log 2 q - 23) = Int.log 2 q + 1 by push_cast; ring]
    exact h2

theorem fl_pos_bounds {q : ℚ} (h : 0 < q) :
    (2 : ℚ) ^ (Int.log 2 q) ≤ fl q ∧ fl q ≤ 2 ^ (Int.log 2 q + 1) := by
  obtain ⟨h1, h2⟩ := scaled_bounds h
  have hp := two_zpow_pos (ulpExp q)
  have he : ulpExp q = Int.log 2 q - 23 := by unfold ulpExp; rw [abs_of_pos h]
  have r1 : ((2 ^ 23 : ℤ) : ℚ) ≤ rne (q / 2 ^ ulpExp q) := by
    have := rne_mono (x := ((2 ^ 23 : ℤ) : ℚ)) (y := q / 2 ^ ulpExp q) (by push_cast; exact h1)
    rw [rne_int] at this; exact_mod_cast this
  have r2 : (rne (q / 2 ^ ulpExp q) : ℚ) ≤ ((2 ^ 24 : ℤ) : ℚ) := by
    have := rne_mono (x := q / 2 ^ ulpExp q) (y := ((2 ^ 24 : ℤ) : ℚ)) (by push_cast; exact h2.le)
    rw [rne_int] at this; exact_mod_cast this
  unfold fl
  rw [if_neg h.ne']
  constructor
  · calc (2 : ℚ) ^ (Int.log 2 q) = ((2 ^ 23 : ℤ) : ℚ) * 2 ^ ulpExp q := by
          rw [he, show ((2 ^ 23 : ℤ) : ℚ) = 2 ^ (23 : ℤ) by norm_num, ← zpow_add₀ (by norm_num)]
          congr 1; ring
      _ ≤ _ := mul_le_mul_of_nonneg_right r1 hp.le
  · calc _ ≤ ((2 ^ 24 : ℤ) : ℚ) * 2 ^ ulpExp q := mul_le_mul_of_nonneg_right r2 hp.le
      _ = (2 : ℚ) ^ (Int.log 2 q + 1) := by
          rw [he, show ((2 ^ 24 : ℤ) : ℚ) = 2 ^ (24 : ℤ) by norm_num, ← zpow_add₀ (by norm_num)]
          congr 1; ring

theorem fl_pos {q : ℚ} (h : 0 < q) : 0 < fl q :=
  lt_of_lt_of_le (two_zpow_pos _) (fl_pos_bounds h).1

theorem fl_nonneg {q : ℚ} (h : 0 ≤ q) : 0 ≤ fl q := by
  rcases h.lt_or_eq with h | h
  · exact (fl_pos h).le
  · rw [← h, fl_zero]

theorem fl_mono_pos {a b : ℚ} (ha : 0 < a) (h : a ≤ b) : fl a ≤ fl b := by
  have hb : 0 < b := lt_of_lt_of_le ha h
  have hl : Int.log 2 a ≤ Int.log 2 b := Int.log_mono_right ha h
  rcases hl.lt_or_eq with hlt | heq
  · calc fl a ≤ 2 ^ (Int.log 2 a + 1) := (fl_pos_bounds ha).2
      _ ≤ 2 ^ (Int.log 2 b) := zpow_le_zpow_right₀ (by norm_num) (by omega)
      _ ≤ fl b := (fl_pos_bounds hb).1
  · have e : ulpExp a = ulpExp b := by
      unfold ulpExp; rw [abs_of_pos ha, abs_of_pos hb, heq]
    have hp := two_zpow_pos (ulpExp b)
    unfold fl
    rw [if_neg ha.ne', if_neg hb.ne', e]
    apply mul_le_mul_of_nonneg_right _ hp.le
    exact_mod_cast rne_mono (div_le_div_of_nonneg_right h hp.le)

/-- Rounding is monotone. -/
theorem fl_mono {a b : ℚ} (h : a ≤ b) : fl a ≤ fl b := by
  rcases lt_trichotomy a 0 with ha | ha | ha
  · rcases lt_or_ge b 0 with hb | hb
    · have := fl_mono_pos (a := -b) (b := -a) (by linarith) (by linarith)
      rw [fl_neg, fl_neg] at this
      linarith
    · have h1 := fl_nonneg hb
      have h2 := fl_pos (q := -a) (by linarith)
      rw [fl_neg] at h2
      linarith
  · rw [ha, fl_zero]; exact fl_nonneg (by linarith)
  · exact fl_mono_pos ha h

/-- Relative error at most half a unit in the last place. -/
theorem fl_err (q : ℚ) : |fl q - q| ≤ |q| * (1 / 2 ^ 24) := by
  have pos : ∀ q : ℚ, 0 < q → |fl q - q| ≤ |q| * (1 / 2 ^ 24) := by
    intro q h
    have hp := two_zpow_pos (ulpExp q)
    obtain ⟨b1, b2⟩ := rne_bounds (q / 2 ^ ulpExp q)
    obtain ⟨s1, _⟩ := scaled_bounds h
    have hq : q = q / 2 ^ ulpExp q * 2 ^ ulpExp q := by field_simp
    have hfl : fl q = (rne (q / 2 ^ ulpExp q) : ℚ) * 2 ^ ulpExp q := by
      unfold fl; rw [if_neg h.ne']
    have hu : (2 : ℚ) ^ ulpExp q * 2 ^ 23 ≤ q := by
      rw [le_div_iff₀ hp] at s1; linarith
    rw [abs_of_pos h]
    have e : fl q - q = ((rne (q / 2 ^ ulpExp q) : ℚ) - q / 2 ^ ulpExp q) * 2 ^ ulpExp q := by
      rw [hfl, sub_mul, ← hq]
    rw [e, abs_mul, abs_of_pos hp]
    have hab : |(rne (q / 2 ^ ulpExp q) : ℚ) - q / 2 ^ ulpExp q| ≤ 1 / 2 := by
      rw [abs_le]; constructor <;> linarith
    calc _ ≤ 1 / 2 * (2 : ℚ) ^ ulpExp q := mul_le_mul_of_nonneg_right hab hp.le
      _ ≤ q * (1 / 2 ^ 24) := by
        norm_num
        norm_num at hu
        linarith
  rcases lt_trichotomy q 0 with h | h | h
  · have := pos (-q) (by linarith)
    rw [fl_neg, abs_neg] at this
    rw [show fl q - q = -(-fl q - -q) by ring, abs_neg]
    exact this
  · subst h; simp [fl_zero]
  · exact pos q h

/-- Multiples `m * 2^k` with `|m| ≤ 2^24` are representable. -/
theorem fl_rep (m k : ℤ) (h : |m| ≤ 2 ^ 24) : fl ((m : ℚ) * 2 ^ k) = (m : ℚ) * 2 ^ k := by
  have pos : ∀ m : ℤ, 0 < m → m ≤ 2 ^ 24 → fl ((m : ℚ) * 2 ^ k) = (m : ℚ) * 2 ^ k := by
    intro m h0 h1
    have hp := two_zpow_pos k
    have hm : (0 : ℚ) < m := by exact_mod_cast h0
    have hpos : (0 : ℚ) < (m : ℚ) * 2 ^ k := by positivity
    obtain ⟨s1, s2⟩ := scaled_bounds hpos
    generalize hE : ulpExp ((m : ℚ) * 2 ^ k) = E at *
    have hpE := two_zpow_pos E
    -- the scaled value is an integer
    have hint : ∃ n : ℤ, (m : ℚ) * 2 ^ k / 2 ^ E = n := by
      by_cases hke : E ≤ k
      · obtain ⟨d, hd⟩ := Int.le.dest hke
        refine ⟨m * 2 ^ d, ?_⟩
        rw [← hd, zpow_add₀ (by norm_num), zpow_natCast]
        push_cast
        field_simp
      · -- then m = 2^24 and E = k + 1
        have hk1 : k + 1 ≤ E := by omega
        have hm24 : m = 2 ^ 24 := by
          by_contra hne
          have hlt : m ≤ 2 ^ 24 - 1 := by omega
          rw [le_div_iff₀ hpE] at s1
          have : (2 : ℚ) ^ k * 2 ≤ 2 ^ E := by
            rw [show (2 : ℚ) ^ k * 2 = 2 ^ (k + 1) by rw [zpow_add₀ (by norm_num)]; simp]
            exact zpow_le_zpow_right₀ (by norm_num) hk1
          have hmq : (m : ℚ) ≤ 2 ^ 24 - 1 := by exact_mod_cast hlt
          have : (m : ℚ) * 2 ^ k ≤ (2 ^ 24 - 1) * 2 ^ k := mul_le_mul_of_nonneg_right hmq hp.le
          norm_num at *
          linarith
        refine ⟨2 ^ 23, ?_⟩
        have hE1 : E = k + 1 := by
          rcases Int.lt_or_eq_of_le hk1 with hlt | heq
          · exfalso
            rw [le_div_iff₀ hpE] at s1
            have : (2 : ℚ) ^ k * 4 ≤ 2 ^ E := by
              rw [show (2 : ℚ) ^ k * 4 = 2 ^ (k + 2) by rw [zpow_add₀ (by norm_num)]; norm_num]
              exact zpow_le_zpow_right₀ (by norm_num) (by omega)
            rw [hm24] at s1
            push_cast at s1
            norm_num at *
            linarith
          · exact heq.symm
        rw [hE1, hm24, zpow_add₀ (by norm_num)]
        push_cast
        field_simp
        norm_num
    obtain ⟨n, hn⟩ := hint
    unfold fl
    rw [if_neg hpos.ne', hE, hn, rne_int, ← hn]
    field_simp
  rcases lt_trichotomy m 0 with hm | hm | hm
  · have := pos (-m) (by omega) (by rw [abs_le] at h; omega)
    push_cast at this
    rw [neg_mul, fl_neg] at this
    linarith
  · subst hm; simp [fl_zero]
  · exact pos m hm (by rw [abs_le] at h; omega)

/-- Integers up to `2^24` are representable. -/
theorem fl_int (n : ℤ) (h : |n| ≤ 2 ^ 24) : fl (n : ℚ) = n := by
  have := fl_rep n 0 h
  simpa using this

theorem fl_natCast (n : ℕ) (h : n ≤ 2 ^ 24) : fl (n : ℚ) = n := by
  have := fl_int (n : ℤ) (by rw [abs_le]; constructor <;> omega)
  simpa using this

theorem fl_one : fl 1 = 1 := by simpa using fl_int 1 (by norm_num)

/-- Half way above 1: ties go to even. -/
theorem fl_tie_one : fl (1 + 1 / 2 ^ 24) = 1 := by
  have h1 : (1 : ℚ) + 1 / 2 ^ 24 ≠ 0 := by norm_num
  have hl : Int.log 2 (1 + 1 / 2 ^ 24 : ℚ) = 0 := by
    apply le_antisymm
    · have : Int.log 2 (1 + 1 / 2 ^ 24 : ℚ) < 1 := by
        rw [← Int.lt_zpow_iff_log_lt (by norm_num) (by norm_num)]
        norm_num
      omega
    · rw [← Int.zpow_le_iff_le_log (by norm_num) (by norm_num)]
      norm_num
  have he : ulpExp (1 + 1 / 2 ^ 24) = -23 := by
    unfold ulpExp; rw [abs_of_pos (by norm_num), hl]; norm_num
  unfold fl
  rw [if_neg h1, he]
  have hv : (1 + 1 / 2 ^ 24 : ℚ) / 2 ^ (-23 : ℤ) = 2 ^ 23 + 1 / 2 := by norm_num
  rw [hv]
  have hf : ⌊(2 : ℚ) ^ 23 + 1 / 2⌋ = 2 ^ 23 := by
    rw [Int.floor_eq_iff]; norm_num
  have : rne ((2 : ℚ) ^ 23 + 1 / 2) = 2 ^ 23 := by
    unfold rne
    rw [hf]
    norm_num
  rw [this]
  norm_num

/-- Rounding never crosses a representable number. -/
theorem fl_le_of_rep {q r : ℚ} (hr : fl r = r) (h : q ≤ r) : fl q ≤ r := by
  rw [← hr]; exact fl_mono h

theorem le_fl_of_rep {q r : ℚ} (hr : fl r = r) (h : r ≤ q) : r ≤ fl q := by
  rw [← hr]; exact fl_mono h

end Spectre
