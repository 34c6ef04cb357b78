import Verif.Model.Normalize

/-
Lemmas on the operations of `Model/Ieee.lean` on finite numbers and on `sqrtf`.
-/

namespace Spectre

namespace F32

theorem round_finite {s : Bool} {q : ℚ} (h : |rnd32 q| < 2 ^ 128) :
    (round s q).Finite ∧ (round s q).val = rnd32 q := by
  unfold round
  split_ifs with h1 h2 h3
  · subst h1; exact ⟨trivial, rnd32_zero.symm⟩
  · exact ⟨trivial, h2.symm⟩
  · exact absurd h (not_lt.2 h3)
  · exact ⟨trivial, rfl⟩

theorem mul_comm (a b : F32) : mul a b = mul b a := by
  cases a <;> cases b <;> simp [mul, isZero, sign, Bool.xor_comm, _root_.mul_comm]

theorem add_comm (a b : F32) : add a b = add b a := by
  cases a with
  | inf s =>
    cases b with
    | inf t => cases s <;> cases t <;> rfl
    | _ => rfl
  | _ => cases b <;> simp only [add, Bool.and_comm, _root_.add_comm]

theorem mul_finite {a b : F32} (ha : a.Finite) (hb : b.Finite) (h : |rnd32 (a.val * b.val)| < 2 ^ 128) :
    (mul a b).Finite ∧ (mul a b).val = rnd32 (a.val * b.val) := by
  cases a <;> cases b <;> simp only [Finite] at ha hb <;> exact round_finite h

theorem add_finite {a b : F32} (ha : a.Finite) (hb : b.Finite) (h : |rnd32 (a.val + b.val)| < 2 ^ 128) :
    (add a b).Finite ∧ (add a b).val = rnd32 (a.val + b.val) := by
  cases a <;> cases b <;> simp only [Finite] at ha hb <;> exact round_finite h

theorem neg_finite {a : F32} (ha : a.Finite) : (neg a).Finite ∧ (neg a).val = -a.val := by
  cases a <;> simp only [Finite] at ha <;> simp [neg, Finite, val]

theorem sub_fin {a b : F32} (ha : a.Finite) (hb : b.Finite) (h : |rnd32 (a.val - b.val)| < 2 ^ 128) :
    (sub a b).Finite ∧ (sub a b).val = rnd32 (a.val - b.val) := by
  obtain ⟨n1, n2⟩ := neg_finite hb
  have e : a.val + (neg b).val = a.val - b.val := by rw [n2]; ring
  have := add_finite ha n1 (by rw [e]; exact h)
  rwa [e] at this

theorem div_finite {a b : F32} (ha : a.Finite) (hb : b.Finite) (h0 : b.val ≠ 0)
    (h : |rnd32 (a.val / b.val)| < 2 ^ 128) :
    (div a b).Finite ∧ (div a b).val = rnd32 (a.val / b.val) := by
  cases a <;> cases b <;> simp only [Finite] at ha hb <;> first
    | exact absurd rfl h0
    | exact round_finite h

theorem abs_finite {a : F32} (ha : a.Finite) : (abs a).Finite ∧ (abs a).val = |a.val| := by
  cases a <;> simp only [Finite] at ha <;> simp [abs, Finite, val]

theorem lt_finite {a b : F32} (ha : a.Finite) (hb : b.Finite) : lt a b = decide (a.val < b.val) := by
  cases a <;> cases b <;> simp only [Finite] at ha hb <;> rfl

theorem finite_of_num {q : ℚ} : (num q).Finite := trivial

theorem ok_val {a : F32} (h : a.Ok) : rnd32 a.val = a.val ∧ |a.val| < 2 ^ 128 := by
  cases a
  case num q => exact ⟨h.2.1, h.2.2⟩
  all_goals exact ⟨rnd32_zero, by simp [val]⟩

end F32

/-! ### Rounding -/

/-- Half a unit in the last place, relative to the number, and half the smallest number. -/
theorem rnd32_err' (q : ℚ) : |rnd32 q - q| ≤ |q| * (1 / 2 ^ 24) + 2 ^ (-150 : ℤ) := by
  refine (rnd32_err q).trans (max_le ?_ ?_)
  · have := two_zpow_pos (-150); linarith
  · have : 0 ≤ |q| * (1 / 2 ^ 24 : ℚ) := by positivity
    linarith

/-- Without the term for subnormal numbers. -/
theorem rnd32_rel {q : ℚ} (h : 2 ^ (-126 : ℤ) ≤ |q|) : |rnd32 q - q| ≤ |q| * (1 / 2 ^ 24) := by
  rw [rnd32_normal h]; exact fl_err q

/-! ### Square roots -/

theorem log_half (q : ℚ) (h : 0 < q) :
    let e := Int.log 2 q / 2 - 23
    (2 : ℚ) ^ 46 ≤ q / 4 ^ e ∧ q / 4 ^ e < 2 ^ 48 := by
  intro e
  have h1 : (2 : ℚ) ^ (Int.log 2 q) ≤ q := by
    have := Int.zpow_log_le_self (b := 2) (by norm_num) h; exact_mod_cast this
  have h2 : q < (2 : ℚ) ^ (Int.log 2 q + 1) := by
    have := Int.lt_zpow_succ_log_self (b := 2) (by norm_num) q; exact_mod_cast this
  have e4 : (4 : ℚ) ^ e = 2 ^ (2 * e) := by
    rw [zpow_mul]; norm_num
  have hp := two_zpow_pos (2 * e)
  rw [e4]
  constructor
  · rw [le_div_iff₀ hp]
    refine le_trans ?_ h1
    rw [← zpow_natCast, ← zpow_add₀ (by norm_num)]
    exact zpow_le_zpow_right₀ (by norm_num) (by push_cast; omega)
  · rw [div_lt_iff₀ hp]
    refine lt_of_lt_of_le h2 ?_
    rw [← zpow_natCast, ← zpow_add₀ (by norm_num)]
    exact zpow_le_zpow_right₀ (by norm_num) (by push_cast; omega)

/-- The root is `N` units of `2^e` with a 24-bit `N`, and within half a unit of the exact root. -/
theorem sqrt32_spec {q : ℚ} (h : 0 < q) :
    ∃ N : ℕ, sqrt32 q = N * 2 ^ (Int.log 2 q / 2 - 23) ∧ 2 ^ 23 ≤ N ∧ N ≤ 2 ^ 24 ∧
      ((N : ℚ) - 1 / 2) ^ 2 ≤ q / 4 ^ (Int.log 2 q / 2 - 23) ∧
      q / 4 ^ (Int.log 2 q / 2 - 23) ≤ ((N : ℚ) + 1 / 2) ^ 2 := by
  obtain ⟨l1, l2⟩ := log_half q h
  unfold sqrt32
  simp only
  generalize Int.log 2 q / 2 - 23 = e at *
  generalize q / 4 ^ e = s at *
  have hs0 : 0 ≤ s := le_trans (by norm_num) l1
  set n := Nat.sqrt ⌊s⌋₊ with hn
  have a1 : n * n ≤ ⌊s⌋₊ := Nat.sqrt_le _
  have a2 : ⌊s⌋₊ < (n + 1) * (n + 1) := Nat.lt_succ_sqrt _
  have f1 : ((⌊s⌋₊ : ℕ) : ℚ) ≤ s := Nat.floor_le hs0
  have f2 : s < ((⌊s⌋₊ : ℕ) : ℚ) + 1 := Nat.lt_floor_add_one s
  have b1 : (n : ℚ) * n ≤ s := le_trans (by exact_mod_cast a1) f1
  have b2 : s < ((n : ℚ) + 1) * (n + 1) := by
    refine lt_of_lt_of_le f2 ?_
    exact_mod_cast a2
  have n1 : 2 ^ 23 ≤ n := by
    rw [hn, Nat.le_sqrt]
    apply Nat.le_floor
    push_cast
    linarith [l1]
  have n2 : n < 2 ^ 24 := by
    rw [hn, Nat.sqrt_lt]
    rw [Nat.floor_lt hs0]
    push_cast
    linarith [l2]
  have nq : (2 : ℚ) ^ 23 ≤ n := by exact_mod_cast n1
  split_ifs with c
  · refine ⟨n + 1, by push_cast; rfl, by omega, by omega, ?_, ?_⟩
    · push_cast; nlinarith
    · push_cast; nlinarith
  · push Not at c
    refine ⟨n, rfl, n1, by omega, ?_, c⟩
    nlinarith

/-- The square of the root is within two units of 2^-24 of the number. -/
theorem sqrt32_sq {q : ℚ} (h : 0 < q) :
    0 < sqrt32 q ∧ (sqrt32 q) ^ 2 * (1 - 1 / 2 ^ 24) ^ 2 ≤ q ∧ q ≤ (sqrt32 q) ^ 2 * (1 + 1 / 2 ^ 24) ^ 2 := by
  obtain ⟨N, e1, n1, -, b1, b2⟩ := sqrt32_spec h
  rw [e1]
  generalize Int.log 2 q / 2 - 23 = e at *
  have hp : (0 : ℚ) < 2 ^ e := two_zpow_pos e
  have hp4 : (0 : ℚ) < 4 ^ e := zpow_pos (by norm_num) e
  have e4 : (4 : ℚ) ^ e = (2 ^ e) ^ 2 := by
    rw [show (4 : ℚ) = 2 ^ 2 by norm_num, ← zpow_natCast, ← zpow_natCast, ← zpow_mul, ← zpow_mul, mul_comm]
  have nq : (2 : ℚ) ^ 23 ≤ N := by exact_mod_cast n1
  rw [le_div_iff₀ hp4] at b1
  rw [div_le_iff₀ hp4] at b2
  refine ⟨by positivity, le_trans ?_ b1, le_trans b2 ?_⟩
  · rw [e4, mul_pow, mul_assoc, mul_comm ((2 ^ e : ℚ) ^ 2), ← mul_assoc]
    apply mul_le_mul_of_nonneg_right _ (by positivity)
    rw [← mul_pow]
    apply pow_le_pow_left₀ (by nlinarith)
    linarith
  · rw [e4, mul_pow, mul_assoc (N ^ 2 : ℚ), mul_comm ((2 ^ e : ℚ) ^ 2), ← mul_assoc]
    apply mul_le_mul_of_nonneg_right _ (by positivity)
    rw [← mul_pow]
    apply pow_le_pow_left₀ (by positivity)
    linarith

theorem sqrt32_pos {q : ℚ} (h : 0 < q) : 0 < sqrt32 q := (sqrt32_sq h).1

/-- The root of a power of four is exact, and bounds carry over. -/
theorem sqrt32_le {q : ℚ} (h : 0 < q) {k : ℤ} (hk : q < 2 ^ (2 * k)) : sqrt32 q ≤ 2 ^ k := by
  obtain ⟨N, e1, -, n2, -, -⟩ := sqrt32_spec h
  have h1 : (2 : ℚ) ^ (Int.log 2 q) ≤ q := by
    have := Int.zpow_log_le_self (b := 2) (by norm_num) h; exact_mod_cast this
  have hl : Int.log 2 q < 2 * k := by
    have := lt_of_le_of_lt h1 hk
    exact (zpow_lt_zpow_iff_right₀ (by norm_num)).1 this
  rw [e1]
  calc (N : ℚ) * 2 ^ (Int.log 2 q / 2 - 23) ≤ 2 ^ (24 : ℕ) * 2 ^ (Int.log 2 q / 2 - 23) := by
        apply mul_le_mul_of_nonneg_right _ (two_zpow_pos _).le
        exact_mod_cast n2
    _ = 2 ^ (Int.log 2 q / 2 + 1) := by
        rw [← zpow_natCast, ← zpow_add₀ (by norm_num)]; congr 1; push_cast; ring
    _ ≤ 2 ^ k := zpow_le_zpow_right₀ (by norm_num) (by omega)

theorem le_sqrt32 {q : ℚ} (h : 0 < q) {k : ℤ} (hk : 2 ^ (2 * k) ≤ q) : 2 ^ k ≤ sqrt32 q := by
  obtain ⟨N, e1, n1, -, -, -⟩ := sqrt32_spec h
  have hl : 2 * k ≤ Int.log 2 q := by
    rw [← Int.zpow_le_iff_le_log (by norm_num) h]
    exact_mod_cast hk
  rw [e1]
  calc (2 : ℚ) ^ k ≤ 2 ^ (Int.log 2 q / 2) := zpow_le_zpow_right₀ (by norm_num) (by omega)
    _ = 2 ^ (23 : ℕ) * 2 ^ (Int.log 2 q / 2 - 23) := by
        rw [← zpow_natCast, ← zpow_add₀ (by norm_num)]; congr 1; push_cast; ring
    _ ≤ (N : ℚ) * 2 ^ (Int.log 2 q / 2 - 23) := by
        apply mul_le_mul_of_nonneg_right _ (two_zpow_pos _).le
        exact_mod_cast n1

/-- The root of a binary32 number is one. -/
theorem F32.sqrt_ok {a : F32} (h : a.Ok) : (F32.sqrt a).Ok := by
  cases a with
  | nan => trivial
  | inf s => cases s <;> trivial
  | zero s => trivial
  | num q =>
    unfold F32.sqrt
    simp only
    split_ifs with hq
    · trivial
    · have h0 : 0 < q := lt_of_le_of_ne (not_lt.1 hq) (Ne.symm h.1)
      obtain ⟨N, e1, n1, n2, -, -⟩ := sqrt32_spec h0
      have hlow : 2 ^ (-149 : ℤ) ≤ q := by
        by_contra hc
        push Not at hc
        -- below the smallest number nothing is representable
        have hr := h.2.1
        unfold rnd32 at hr
        have he : -149 ≤ ulp32 q := le_max_right _ _
        have hp := two_zpow_pos (ulp32 q)
        have hm : (0 : ℚ) < rne (q / 2 ^ ulp32 q) := by
          by_contra hm
          push Not at hm
          nlinarith
        have hm1 : (1 : ℚ) ≤ rne (q / 2 ^ ulp32 q) := by
          have : (0 : ℤ) < rne (q / 2 ^ ulp32 q) := by exact_mod_cast hm
          exact_mod_cast this
        have hz : (2 : ℚ) ^ (-149 : ℤ) ≤ 2 ^ ulp32 q := zpow_le_zpow_right₀ (by norm_num) he
        nlinarith
      have hl1 : -149 ≤ Int.log 2 q := by
        rw [← Int.zpow_le_iff_le_log (by norm_num) h0]; exact_mod_cast hlow
      refine ⟨(sqrt32_pos h0).ne', ?_, ?_⟩
      · rw [e1]
        have := rnd32_rep (N : ℤ) (Int.log 2 q / 2 - 23) (by rw [abs_of_nonneg (by positivity)]; exact_mod_cast n2)
          (by omega)
        exact_mod_cast this
      · rw [abs_of_pos (sqrt32_pos h0)]
        have h3 := h.2.2
        rw [abs_of_pos h0] at h3
        have := sqrt32_le h0 (k := 64) (by norm_num at h3 ⊢; linarith)
        refine lt_of_le_of_lt this ?_
        norm_num

end Spectre
