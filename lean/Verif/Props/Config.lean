import Verif.Model.Config
import Verif.Props.Shapes
import Mathlib.Tactic.LinearCombination

/-
C51, C52, C61, C62, C76, C77: scene settings, durations, scalar helpers.
-/

namespace Spectre.Config
open Spectre.Shapes (equation2 equation2_roots)

/-! ### Rounding -/

theorem roundHE_err (n k : Nat) : 2 * n ≤ 2 * (roundHE n k * 2 ^ k) + 2 ^ k ∧ 2 * (roundHE n k * 2 ^ k) ≤ 2 * n + 2 ^ k := by
  have h := Nat.div_add_mod n (2 ^ k)
  have hp : 0 < 2 ^ k := Nat.two_pow_pos k
  have hr := Nat.mod_lt n hp
  unfold roundHE
  simp only
  generalize n / 2 ^ k = q at *
  generalize n % 2 ^ k = r at *
  generalize 2 ^ k = p at *
  have e1 : q * p = p * q := Nat.mul_comm _ _
  have e2 : (q + 1) * p = p * q + p := by ring
  split <;> constructor <;> omega

theorem log_eq {n L : Nat} (h1 : 2 ^ L ≤ n) (h2 : n < 2 ^ (L + 1)) : Nat.log 2 n = L :=
  Nat.log_eq_of_pow_le_of_lt_pow h1 h2

/-- The conversion of the model is the rounding of `Model/Float32.lean`. -/
theorem toF32_eq_fl (n : Nat) : ((toF32 n : Nat) : ℚ) = fl n := by
  unfold toF32
  split
  · rename_i h
    rw [fl_natCast n h.le]
  · rename_i h
    push Not at h
    have hlog : 24 ≤ Nat.log 2 n := Nat.le_log_of_pow_le (by norm_num) h
    have hn0 : (n : ℚ) ≠ 0 := by
      have : n ≠ 0 := by omega
      exact_mod_cast this
    obtain ⟨k, hk⟩ : ∃ k, Nat.log 2 n = k + 23 := ⟨Nat.log 2 n - 23, by omega⟩
    have hE : ulpExp (n : ℚ) = (k : ℤ) := by
      unfold ulpExp
      rw [abs_of_nonneg (by positivity)]
      have := Int.log_natCast (R := ℚ) 2 n
      rw [this, hk]; push_cast; ring
    unfold fl
    rw [if_neg hn0, hE, zpow_natCast]
    simp only [hk, Nat.add_sub_cancel]
    have hp : (0 : ℚ) < 2 ^ k := by positivity
    have hd := Nat.div_add_mod n (2 ^ k)
    have hmod := Nat.mod_lt n (Nat.two_pow_pos k)
    have hfloor : ⌊(n : ℚ) / 2 ^ k⌋ = ((n / 2 ^ k : Nat) : ℤ) := by
      rw [Int.floor_eq_iff]
      constructor
      · rw [le_div_iff₀ hp]
        push_cast
        have : ((n / 2 ^ k : Nat) : ℚ) * 2 ^ k ≤ n := by exact_mod_cast Nat.div_mul_le_self n (2 ^ k)
        exact_mod_cast this
      · rw [div_lt_iff₀ hp]
        have : n < (n / 2 ^ k + 1) * 2 ^ k := by
          have e : (n / 2 ^ k + 1) * 2 ^ k = 2 ^ k * (n / 2 ^ k) + 2 ^ k := by ring
          omega
        exact_mod_cast this
    have hfrac : (n : ℚ) / 2 ^ k - ((n / 2 ^ k : Nat) : ℚ) = ((n % 2 ^ k : Nat) : ℚ) / 2 ^ k := by
      rw [eq_div_iff hp.ne', sub_mul, div_mul_cancel₀ _ hp.ne']
      have : (n : ℚ) = 2 ^ k * ((n / 2 ^ k : Nat) : ℚ) + ((n % 2 ^ k : Nat) : ℚ) := by exact_mod_cast hd.symm
      rw [this]; ring
    have hcast : ∀ a b : Nat, ((a : ℤ) : ℚ) = (b : ℚ) ↔ a = b := by intro a b; norm_cast
    have e1 : ((n % 2 ^ k : Nat) : ℚ) / 2 ^ k < 1 / 2 ↔ 2 * (n % 2 ^ k) < 2 ^ k := by
      rw [div_lt_div_iff₀ hp (by norm_num)]
      constructor
      · intro h; have : ((2 * (n % 2 ^ k) : Nat) : ℚ) < ((2 ^ k : Nat) : ℚ) := by push_cast; linarith
        exact_mod_cast this
      · intro h; have : ((2 * (n % 2 ^ k) : Nat) : ℚ) < ((2 ^ k : Nat) : ℚ) := by exact_mod_cast h
        push_cast at this; linarith
    have e2 : 1 / 2 < ((n % 2 ^ k : Nat) : ℚ) / 2 ^ k ↔ 2 ^ k < 2 * (n % 2 ^ k) := by
      rw [div_lt_div_iff₀ (by norm_num) hp]
      constructor
      · intro h; have : ((2 ^ k : Nat) : ℚ) < ((2 * (n % 2 ^ k) : Nat) : ℚ) := by push_cast; linarith
        exact_mod_cast this
      · intro h; have : ((2 ^ k : Nat) : ℚ) < ((2 * (n % 2 ^ k) : Nat) : ℚ) := by exact_mod_cast h
        push_cast at this; linarith
    have : rne ((n : ℚ) / 2 ^ k) = ((roundHE n k : Nat) : ℤ) := by
      unfold rne roundHE
      rw [hfloor]
      simp only [Int.cast_natCast, hfrac]
      simp only [e1, e2]
      generalize n / 2 ^ k = q
      generalize n % 2 ^ k = r
      generalize 2 ^ k = p
      by_cases c1 : 2 * r < p
      · rw [if_pos c1, if_neg (by omega)]
      · rw [if_neg c1]
        by_cases c2 : p < 2 * r
        · rw [if_pos c2, if_pos (Or.inl c2)]; push_cast; rfl
        · rw [if_neg c2]
          by_cases c3 : q % 2 = 0
          · rw [if_pos (by omega), if_neg (by omega)]
          · rw [if_neg (by omega), if_pos (by omega)]; push_cast; rfl
    rw [this]
    push_cast
    rfl

theorem roundSqrt_eq {M m : Nat} (h1 : m * m < M + m) (h2 : M ≤ m * m + m) : roundSqrt M = m := by
  unfold roundSqrt
  by_cases h : m * m ≤ M
  · have : Nat.sqrt M = m := by
      symm; rw [Nat.eq_sqrt]; constructor
      · exact h
      · nlinarith
    rw [this, if_neg (by omega)]
  · push Not at h
    cases m with
    | zero => omega
    | succ m =>
      have : Nat.sqrt M = m := by
        symm; rw [Nat.eq_sqrt]; constructor
        · nlinarith
        · exact h
      have e : (m + 1) * (m + 1) = m * m + 2 * m + 1 := by ring
      rw [this, if_pos (by omega)]

/-- `roundSqrt` is the integer nearest to the square root. -/
theorem roundSqrt_bounds (M : Nat) : roundSqrt M * roundSqrt M ≤ M + roundSqrt M ∧ M ≤ roundSqrt M * roundSqrt M + roundSqrt M := by
  have h1 := Nat.sqrt_le M
  have h2 := Nat.lt_succ_sqrt M
  unfold roundSqrt
  generalize Nat.sqrt M = s at *
  have e : (s + 1) * (s + 1) = s * s + 2 * s + 1 := by ring
  have e' : s.succ * s.succ = s * s + 2 * s + 1 := e
  split
  · rw [e]; omega
  · omega

theorem roundSqrt_lt (M : Nat) (h : 0 < M) : roundSqrt M * roundSqrt M < M + roundSqrt M := by
  have g1 := Nat.sqrt_le M
  have g2 : 0 < Nat.sqrt M := Nat.sqrt_pos.2 h
  unfold roundSqrt
  generalize Nat.sqrt M = s at *
  have e : (s + 1) * (s + 1) = s * s + 2 * s + 1 := by ring
  split
  · rw [e]; omega
  · omega

theorem le_roundSqrt_iff (M S : Nat) (hS : 0 < S) : S ≤ roundSqrt M ↔ S * S < M + S := by
  obtain ⟨h1, h2⟩ := roundSqrt_bounds M
  constructor
  · intro h
    obtain ⟨d, hd⟩ := Nat.exists_eq_add_of_le h
    have hM0 : 0 < M := by
      rcases Nat.eq_zero_or_pos M with hz | hz
      · subst hz; rw [show roundSqrt 0 = 0 by decide] at h; omega
      · exact hz
    have hM := roundSqrt_lt M hM0
    rw [hd] at hM
    nlinarith
  · intro h
    by_contra hc
    push Not at hc
    obtain ⟨d, hd⟩ := Nat.exists_eq_add_of_lt hc
    rw [hd] at h
    nlinarith

theorem log_half_bounds {n : Nat} (h : n ≠ 0) : 4 ^ (Nat.log 2 n / 2) ≤ n ∧ n < 4 ^ (Nat.log 2 n / 2 + 1) := by
  have h1 := Nat.pow_log_le_self 2 h
  have h2 := Nat.lt_pow_succ_log_self (b := 2) (by norm_num) n
  have e : ∀ a, (4 : Nat) ^ a = 2 ^ (2 * a) := fun a => by rw [pow_mul]; norm_num
  constructor
  · rw [e]
    exact le_trans (Nat.pow_le_pow_right (by norm_num) (by omega)) h1
  · rw [e]
    exact lt_of_lt_of_le h2 (Nat.pow_le_pow_right (by norm_num) (by omega))

/-- The significand of `sqrtf` has 24 bits (or is the next power of two). -/
theorem sqrtSig_bounds {n : Nat} (h0 : n ≠ 0) (h : n < 2 ^ 46) : 2 ^ 23 ≤ sqrtSig n ∧ sqrtSig n ≤ 2 ^ 24 := by
  obtain ⟨h1, h2⟩ := log_half_bounds h0
  have hlog : Nat.log 2 n < 46 := Nat.log_lt_of_lt_pow h0 h
  have hf : fracBits n + Nat.log 2 n / 2 = 23 := by unfold fracBits; omega
  have hM1 : 4 ^ 23 ≤ n * 4 ^ fracBits n := by
    rw [← hf, pow_add, Nat.mul_comm]
    exact Nat.mul_le_mul_right _ h1
  have hM2 : n * 4 ^ fracBits n < 4 ^ 24 := by
    have : (4 : Nat) ^ 24 = 4 ^ (Nat.log 2 n / 2 + 1) * 4 ^ fracBits n := by
      rw [← pow_add]; congr 1; omega
    rw [this]
    exact Nat.mul_lt_mul_of_pos_right h2 (Nat.pow_pos (by norm_num))
  unfold sqrtSig
  generalize n * 4 ^ fracBits n = M at *
  constructor
  · rw [le_roundSqrt_iff _ _ (by norm_num)]
    norm_num at *
    omega
  · by_contra hc
    push Not at hc
    have := (le_roundSqrt_iff M (2 ^ 24 + 1) (by norm_num)).1 hc
    norm_num at *
    omega

/-- Adding a half and truncating is not disturbed by the rounding of the sum. -/
theorem rootHalf_div {n : Nat} (h0 : toF32 n ≠ 0) (h : toF32 n < 2 ^ 40) :
    rootHalf n / 2 ^ fracBits (toF32 n) =
      (sqrtSig (toF32 n) + 2 ^ (fracBits (toF32 n) - 1)) / 2 ^ fracBits (toF32 n) := by
  obtain ⟨-, h2⟩ := sqrtSig_bounds h0 (lt_trans h (by norm_num))
  have hlog : Nat.log 2 (toF32 n) < 40 := Nat.log_lt_of_lt_pow h0 h
  have hf1 : 2 ≤ fracBits (toF32 n) := by unfold fracBits; omega
  have hf2 : fracBits (toF32 n) ≤ 23 := by unfold fracBits; omega
  unfold rootHalf
  generalize fracBits (toF32 n) = f at *
  generalize sqrtSig (toF32 n) = s at *
  simp only
  split
  · rfl
  · rename_i hs
    push Not at hs
    have herr := roundHE_err (s + 2 ^ (f - 1)) 1
    obtain ⟨g, rfl⟩ : ∃ g, f = g + 2 := ⟨f - 2, by omega⟩
    rw [show g + 2 - 1 = g + 1 from rfl] at *
    have hp := Nat.two_pow_pos g
    have e1 : 2 ^ (g + 1) = 2 * 2 ^ g := by rw [pow_succ]; ring
    have e2 : 2 ^ (g + 2) = 4 * 2 ^ g := by rw [pow_add]; ring
    have e3 : 2 ^ 24 = 2 ^ (22 - g) * 2 ^ (g + 2) := by rw [← pow_add]; congr 1; omega
    rw [pow_one] at herr
    have key : ∀ x, 2 ^ 24 ≤ x → x < 2 ^ 24 + 2 ^ (g + 2) → x / 2 ^ (g + 2) = 2 ^ (22 - g) := by
      intro x hx1 hx2
      rw [e3] at hx1 hx2
      apply Nat.div_eq_of_lt_le
      · exact hx1
      · calc x < _ := hx2
          _ = (2 ^ (22 - g) + 1) * 2 ^ (g + 2) := by ring
    rw [key (s + 2 ^ (g + 1)) hs (by omega)]
    apply key
    · omega
    · omega

/-! ### C51 -/

/-- The number found for `n` (after conversion to `float`): `√n < k + 1/2` and, up to rounding, `k - 1/2 ≤ √n`. -/
theorem root_bounds (n f k : Nat) (hk : k = (roundSqrt (n * 4 ^ f) + 2 ^ (f - 1)) / 2 ^ f) (hf : 1 ≤ f) :
    n ≤ k * k + k ∧ ∀ j, k = j + 1 → (2 * j + 1) * (2 * j + 1) * 2 ^ (f - 1) ≤ 4 * n * 2 ^ (f - 1) + (2 * j + 1) := by
  obtain ⟨b1, b2⟩ := roundSqrt_bounds (n * 4 ^ f)
  have e4 : (4 : Nat) ^ f = 2 ^ f * 2 ^ f := by rw [show (4 : Nat) = 2 * 2 from rfl, mul_pow]
  rw [e4] at b1 b2 hk
  generalize hm : roundSqrt (n * (2 ^ f * 2 ^ f)) = m at *
  obtain ⟨g, rfl⟩ : ∃ g, f = g + 1 := ⟨f - 1, by omega⟩
  rw [Nat.add_sub_cancel] at hk ⊢
  have hp := Nat.two_pow_pos g
  have e1 : 2 ^ (g + 1) = 2 * 2 ^ g := by rw [pow_succ]; ring
  rw [e1] at b1 b2 hk hm
  clear e1 e4
  generalize 2 ^ g = p at *
  have k1 : k * (2 * p) ≤ m + p := by rw [hk]; exact Nat.div_mul_le_self _ _
  have k2 : m + p < (k + 1) * (2 * p) := by
    rw [hk]; exact Nat.lt_mul_of_div_lt (Nat.lt_succ_self _) (by omega)
  clear hk hm
  constructor
  · by_contra hc
    push Not at hc
    have hm1 : m + 1 ≤ (2 * k + 1) * p := by
      have : (k + 1) * (2 * p) = (2 * k + 1) * p + p := by ring
      omega
    have h3 : (k * k + k + 1) * (2 * p * (2 * p)) ≤ n * (2 * p * (2 * p)) := Nat.mul_le_mul_right _ hc
    have h4 : (m + 1) * (m + 1) ≤ ((2 * k + 1) * p) * ((2 * k + 1) * p) := Nat.mul_le_mul hm1 hm1
    have e : (k * k + k + 1) * (2 * p * (2 * p)) = ((2 * k + 1) * p) * ((2 * k + 1) * p) + 3 * (p * p) := by ring
    have e' : (m + 1) * (m + 1) = m * m + 2 * m + 1 := by ring
    have : 0 < p * p := Nat.mul_pos hp hp
    omega
  · intro j hj
    have hw : (2 * j + 1) * p ≤ m := by
      have : k * (2 * p) = (2 * j + 1) * p + p := by rw [hj]; ring
      omega
    have h0 : 0 < (2 * j + 1) * p := Nat.mul_pos (by omega) hp
    have h5 : ((2 * j + 1) * p) * ((2 * j + 1) * p) ≤ n * (2 * p * (2 * p)) + (2 * j + 1) * p := by
      generalize (2 * j + 1) * p = w at *
      obtain ⟨d, rfl⟩ := Nat.exists_eq_add_of_le hw
      nlinarith
    have h6 : ((2 * j + 1) * (2 * j + 1) * p) * p ≤ (4 * n * p + (2 * j + 1)) * p := by
      calc _ = ((2 * j + 1) * p) * ((2 * j + 1) * p) := by ring
        _ ≤ _ := h5
        _ = _ := by ring
    exact Nat.le_of_mul_le_mul_right h6 hp

theorem toF32_small {n : Nat} (h : n ≤ 2 ^ 24) : toF32 n = n := by
  have := toF32_eq_fl n
  rw [fl_natCast n h] at this
  exact_mod_cast this

theorem toF32_err {n : Nat} (h : 2 ^ 24 ≤ n) : 2 * n ≤ 2 * toF32 n + 2 ^ (Nat.log 2 n - 23) ∧ 2 * toF32 n ≤ 2 * n + 2 ^ (Nat.log 2 n - 23) := by
  unfold toF32
  rw [if_neg (by omega)]
  exact roundHE_err n _

theorem toF32_pos {n : Nat} (h : 0 < n) : 0 < toF32 n := by
  have := toF32_eq_fl n
  have h2 : 0 < fl (n : ℚ) := fl_pos (by exact_mod_cast h)
  rw [← this] at h2
  exact_mod_cast h2

theorem toF32_le {n : Nat} (h : n < 2 ^ 31) : toF32 n ≤ 2 ^ 31 := by
  have := toF32_eq_fl n
  have h2 : fl (n : ℚ) ≤ 2 ^ 31 := by
    have e : fl ((2 : ℚ) ^ 31) = 2 ^ 31 := by
      have := fl_rep 1 31 (by norm_num)
      simpa using this
    apply fl_le_of_rep e
    exact_mod_cast h.le
  rw [← this] at h2
  exact_mod_cast h2

/-- The number taken when `spp` is not a square. -/
def near (spp : Nat) : Nat := (sqrtSig (toF32 spp) + 2 ^ (fracBits (toF32 spp) - 1)) / 2 ^ fracBits (toF32 spp)

theorem checkSpp_eq (spp : Nat) (h0 : 0 < spp) (h : spp ≤ intMax) :
    checkSpp spp = if rootInt spp * rootInt spp = spp then some spp
      else if near spp * near spp ≤ intMax then some (near spp * near spp) else none := by
  have h' : spp < 2 ^ 31 := by unfold intMax at h; omega
  unfold checkSpp
  simp only
  rw [rootHalf_div (toF32_pos h0).ne' (lt_of_le_of_lt (toF32_le h') (by norm_num))]
  rfl

/-- **C51**, first half: squares are kept, for every `int`. -/
theorem C51_kept (k : Nat) (h0 : 0 < k) (h : k * k ≤ intMax) : checkSpp (k * k) = some (k * k) := by
  have hkk : 0 < k * k := Nat.mul_pos h0 h0
  rw [checkSpp_eq _ hkk h, if_pos]
  suffices hs : sqrtSig (toF32 (k * k)) = k * 2 ^ fracBits (toF32 (k * k)) by
    have : rootInt (k * k) = k := by
      unfold rootInt
      rw [hs, Nat.mul_div_cancel _ (Nat.two_pow_pos _)]
    rw [this]
  have e4 : (4 : Nat) ^ fracBits (toF32 (k * k)) = 2 ^ fracBits (toF32 (k * k)) * 2 ^ fracBits (toF32 (k * k)) := by
    rw [show (4 : Nat) = 2 * 2 from rfl, mul_pow]
  unfold sqrtSig
  rw [e4]
  by_cases hs : k * k ≤ 2 ^ 24
  · rw [toF32_small hs]
    generalize 2 ^ fracBits (k * k) = p
    have : k * k * (p * p) = (k * p) * (k * p) := by ring
    rw [this]
    by_cases hz : k * p = 0
    · rw [hz]; decide
    · exact roundSqrt_eq (by omega) (by omega)
  · push Not at hs
    obtain ⟨r1, r2⟩ := toF32_err hs.le
    have hlog : 24 ≤ Nat.log 2 (k * k) := Nat.le_log_of_pow_le (by norm_num) hs.le
    have hlt : k * k < 2 ^ 31 := by unfold intMax at h; omega
    have hlog2 : Nat.log 2 (k * k) < 31 := Nat.log_lt_of_lt_pow (by omega) hlt
    have hpow := Nat.pow_log_le_self 2 (x := k * k) (by omega)
    generalize hL : Nat.log 2 (k * k) = L at *
    have hlog3 : L ≤ Nat.log 2 (toF32 (k * k)) := by
      apply Nat.le_log_of_pow_le (by norm_num)
      have e1 : toF32 (k * k) = roundHE (k * k) (L - 23) * 2 ^ (L - 23) := by
        unfold toF32
        rw [if_neg (by omega), hL]
      have e2 : 2 ^ L = 2 ^ 23 * 2 ^ (L - 23) := by rw [← pow_add]; congr 1; omega
      have e3 : 2 ^ 23 ≤ roundHE (k * k) (L - 23) := by
        have : 2 ^ 23 ≤ k * k / 2 ^ (L - 23) := by
          rw [Nat.le_div_iff_mul_le (Nat.two_pow_pos _), ← e2]; exact hpow
        unfold roundHE
        simp only
        split <;> omega
      rw [e1, e2]
      exact Nat.mul_le_mul_right _ e3
    have hf : fracBits (toF32 (k * k)) ≤ 23 - L / 2 := by unfold fracBits; omega
    generalize fracBits (toF32 (k * k)) = f at *
    generalize toF32 (k * k) = n at *
    -- the error of the conversion is less than half a unit of the root
    have key : 2 ^ (L - 23) * 2 ^ f < 2 * k := by
      rw [← pow_add]
      apply lt_of_le_of_lt (Nat.pow_le_pow_right (by norm_num) (show L - 23 + f ≤ L - L / 2 by omega))
      apply lt_of_mul_self_lt_mul_self₀ (by omega)
      rw [← pow_add]
      calc 2 ^ (L - L / 2 + (L - L / 2)) ≤ 2 ^ (L + 1) := Nat.pow_le_pow_right (by norm_num) (by omega)
        _ = 2 * 2 ^ L := by rw [pow_succ]; ring
        _ < 2 * k * (2 * k) := by nlinarith
    have hp := Nat.two_pow_pos f
    generalize 2 ^ f = p at *
    generalize 2 ^ (L - 23) = q at *
    have hkp : 0 < k * p := Nat.mul_pos h0 hp
    have key2 : q * (p * p) < 2 * (k * p) := by
      calc q * (p * p) = (q * p) * p := by ring
        _ < (2 * k) * p := Nat.mul_lt_mul_of_pos_right key hp
        _ = _ := by ring
    have m1 := Nat.mul_le_mul_right (p * p) r1
    have m2 := Nat.mul_le_mul_right (p * p) r2
    have x1 : 2 * (k * k) * (p * p) = 2 * ((k * p) * (k * p)) := by ring
    have x2 : (2 * n + q) * (p * p) = 2 * (n * (p * p)) + q * (p * p) := by ring
    have x3 : 2 * n * (p * p) = 2 * (n * (p * p)) := by ring
    have x4 : (2 * (k * k) + q) * (p * p) = 2 * ((k * p) * (k * p)) + q * (p * p) := by ring
    apply roundSqrt_eq <;> omega

/-- **C51**, second half, partial: up to `2^24` samples the result is the square of a number `k` with
`k² - k ≤ spp ≤ k² + k`, that is, of a number next to the root.  The full statement is for every `int`; see
`C51_violated` and `C51_overflow_iff`. -/
theorem C51_near_partial (spp : Nat) (h0 : 0 < spp) (h : spp ≤ 2 ^ 24) :
    ∃ k, 0 < k ∧ checkSpp spp = some (k * k) ∧ k * k ≤ spp + k ∧ spp ≤ k * k + k := by
  have hint : spp ≤ intMax := le_trans h (by unfold intMax; norm_num)
  by_cases htop : spp = 2 ^ 24
  · refine ⟨4096, by norm_num, ?_, by rw [htop]; norm_num, by rw [htop]; norm_num⟩
    have := C51_kept 4096 (by norm_num) (by unfold intMax; norm_num)
    rw [htop]; exact this
  rw [checkSpp_eq spp h0 hint]
  split
  · rename_i hr
    refine ⟨rootInt spp, ?_, by rw [hr], by omega, by omega⟩
    rcases Nat.eq_zero_or_pos (rootInt spp) with hz | hz
    · rw [hz] at hr; omega
    · exact hz
  · have hlog : Nat.log 2 spp < 24 := Nat.log_lt_of_lt_pow (by omega) (by omega)
    have hs2 := sqrtSig_bounds (n := spp) (by omega) (lt_of_le_of_lt h (by norm_num))
    have hb := root_bounds spp (fracBits spp) (near spp) (by unfold near sqrtSig; rw [toF32_small h]) (by unfold fracBits; omega)
    have hkf : near spp ≤ 2 ^ (24 - fracBits spp) := by
      unfold near
      rw [toF32_small h]
      have hf1 : 1 ≤ fracBits spp := by unfold fracBits; omega
      have hf2 : fracBits spp ≤ 23 := by unfold fracBits; omega
      have e : 2 ^ (24 - fracBits spp) * 2 ^ fracBits spp = 2 ^ 24 := by rw [← pow_add]; congr 1; omega
      have e2 : 2 ^ (fracBits spp) = 2 * 2 ^ (fracBits spp - 1) := by
        rw [← pow_succ']; congr 1; omega
      have := Nat.two_pow_pos (fracBits spp - 1)
      rw [← Nat.lt_succ_iff, Nat.div_lt_iff_lt_mul (Nat.two_pow_pos _)]
      have e3 : (2 ^ (24 - fracBits spp)).succ * 2 ^ fracBits spp = 2 ^ 24 + 2 ^ fracBits spp := by
        rw [Nat.succ_mul, e]
      rw [e3]
      omega
    obtain ⟨b1, b2⟩ := hb
    have hpos : 0 < near spp := by
      rcases Nat.eq_zero_or_pos (near spp) with hz | hz
      · rw [hz] at b1; omega
      · exact hz
    have b3 : near spp * near spp ≤ spp + near spp := by
      obtain ⟨j, hj⟩ : ∃ j, near spp = j + 1 := ⟨near spp - 1, by omega⟩
      have b4 := b2 j hj
      have hsmall : Nat.log 2 spp / 2 ≤ 11 := by omega
      have hp : 2 ^ 11 ≤ 2 ^ (fracBits spp - 1) := Nat.pow_le_pow_right (by norm_num) (by unfold fracBits; omega)
      have hk4 : near spp ≤ 2 ^ 12 := le_trans hkf (Nat.pow_le_pow_right (by norm_num) (by unfold fracBits; omega))
      rw [hj] at hk4 ⊢
      generalize 2 ^ (fracBits spp - 1) = p at *
      by_contra hc
      push Not at hc
      have hc2 : spp + 1 ≤ j * j + j := by nlinarith
      have := Nat.mul_le_mul_right (4 * p) hc2
      have x1 : (spp + 1) * (4 * p) = 4 * spp * p + 4 * p := by ring
      have x2 : (2 * j + 1) * (2 * j + 1) * p = (j * j + j) * (4 * p) + p := by ring
      omega
    refine ⟨near spp, hpos, ?_, b3, b1⟩
    rw [if_pos]
    have hk13 : near spp ≤ 2 ^ 13 := le_trans hkf (Nat.pow_le_pow_right (by norm_num) (by unfold fracBits; omega))
    have := Nat.mul_le_mul hk13 hk13
    unfold intMax
    norm_num at this ⊢
    omega

/-- **C51** in the words of the property. -/
theorem C51_distance_partial (spp : Nat) (h0 : 0 < spp) (h : spp ≤ 2 ^ 24) :
    ∃ k, checkSpp spp = some (k * k) ∧ |((k * k : Nat) : ℝ) - spp| ≤ Real.sqrt spp + 1 := by
  obtain ⟨k, hk, e, h1, h2⟩ := C51_near_partial spp h0 h
  refine ⟨k, e, ?_⟩
  have hsq : (k : ℝ) ≤ Real.sqrt spp + 1 := by
    have : (k : ℝ) - 1 ≤ Real.sqrt spp := by
      apply Real.le_sqrt_of_sq_le
      have hh : ((k * k : Nat) : ℝ) ≤ ((spp + k : Nat) : ℝ) := by exact_mod_cast h1
      have hk1 : (1 : ℝ) ≤ k := by exact_mod_cast hk
      push_cast at hh
      nlinarith
    linarith
  have g1 : ((k * k : Nat) : ℝ) ≤ ((spp + k : Nat) : ℝ) := by exact_mod_cast h1
  have g2 : ((spp : Nat) : ℝ) ≤ ((k * k + k : Nat) : ℝ) := by exact_mod_cast h2
  push_cast at g1 g2 ⊢
  rw [abs_le]
  constructor <;> linarith

/-- Whatever the number of samples, what comes out is a square. -/
theorem C51_square (spp r : Nat) (h : checkSpp spp = some r) : ∃ k, r = k * k := by
  unfold checkSpp at h
  simp only at h
  split at h
  · rename_i hr
    injection h with h
    exact ⟨rootInt spp, by rw [hr, h]⟩
  · split at h
    · injection h with h
      exact ⟨_, h.symm⟩
    · cases h

theorem witness_log : Nat.log 2 16781312 = 24 := log_eq (by norm_num) (by norm_num)

/-- **C51 is violated** by the rounding of `sqrtf` above `2^24`: the neighbour on the wrong side is taken. -/
theorem C51_violated : checkSpp 16781311 = some (4097 * 4097) ∧
    ¬ |((4097 * 4097 : Nat) : ℝ) - (16781311 : Nat)| ≤ Real.sqrt (16781311 : Nat) + 1 := by
  constructor
  · have hF : toF32 16781311 = 16781312 := by
      unfold toF32
      rw [if_neg (by norm_num), show Nat.log 2 16781311 = 24 from log_eq (by norm_num) (by norm_num)]
      decide
    have hf : fracBits 16781312 = 11 := by unfold fracBits; rw [witness_log]
    have hs : sqrtSig 16781312 = 8389632 := by
      unfold sqrtSig; rw [hf]
      exact roundSqrt_eq (by norm_num) (by norm_num)
    rw [checkSpp_eq _ (by norm_num) (by unfold intMax; norm_num)]
    have hr : rootInt 16781311 = 4096 := by unfold rootInt; rw [hF, hf, hs]; norm_num
    have hn : near 16781311 = 4097 := by unfold near; rw [hF, hf, hs]; norm_num
    rw [hr, hn, if_neg (by norm_num), if_pos (by unfold intMax; norm_num)]
  · intro h
    have h2 : (4097 : ℝ) ≤ Real.sqrt (16781311 : Nat) := by
      rw [abs_of_nonneg (by norm_num)] at h
      push_cast at h ⊢
      linarith
    have h3 := Real.sq_sqrt (x := ((16781311 : Nat) : ℝ)) (by norm_num)
    have h4 : (4097 : ℝ) ^ 2 ≤ Real.sqrt (16781311 : Nat) ^ 2 := by
      apply pow_le_pow_left₀ (by norm_num) h2
    rw [h3] at h4
    norm_num at h4

/-- **C51 is violated** exactly by the last numbers in another way: the square overflows. -/
theorem C51_overflow_iff (spp : Nat) (h0 : 0 < spp) (h : spp ≤ intMax) : checkSpp spp = none ↔ 2147441729 ≤ spp := by
  have h31 : spp < 2 ^ 31 := by unfold intMax at h; omega
  have hns : 2147441729 ≤ spp → rootInt spp * rootInt spp ≠ spp := by
    intro hge e
    have h1 : 46340 < rootInt spp := by
      by_contra hc; push Not at hc
      have := Nat.mul_le_mul hc hc
      omega
    have h2 : rootInt spp < 46341 := by
      by_contra hc; push Not at hc
      have := Nat.mul_le_mul hc hc
      omega
    omega
  have key : intMax < near spp * near spp ↔ 46341 ≤ near spp := by
    unfold intMax
    constructor
    · intro hc
      by_contra hh; push Not at hh
      have := Nat.mul_le_mul (Nat.le_of_lt_succ hh) (Nat.le_of_lt_succ hh)
      omega
    · intro hc
      have := Nat.mul_le_mul hc hc
      omega
  have hnear : 46341 ≤ near spp ↔ 2147441729 ≤ spp := by
    by_cases hbig : 2 ^ 30 ≤ spp
    · have hlog : Nat.log 2 spp = 30 := log_eq hbig h31
      have hF : toF32 spp = roundHE spp 7 * 128 := by
        unfold toF32; rw [if_neg (by omega), hlog]; rfl
      have hFle := toF32_le h31
      have hFge : 2 ^ 30 ≤ toF32 spp := by
        rw [hF]; unfold roundHE; simp only; split <;> omega
      have hlogF : Nat.log 2 (toF32 spp) / 2 = 15 := by
        rcases Nat.lt_or_ge (toF32 spp) (2 ^ 31) with hl | hl
        · rw [log_eq (L := 30) hFge hl]
        · rw [log_eq (L := 31) hl (by omega)]
      have hf : fracBits (toF32 spp) = 8 := by unfold fracBits; rw [hlogF]
      unfold near sqrtSig
      rw [hf, Nat.le_div_iff_mul_le (by norm_num)]
      have e : 46341 * 2 ^ 8 ≤ roundSqrt (toF32 spp * 4 ^ 8) + 2 ^ (8 - 1) ↔ 11863168 ≤ roundSqrt (toF32 spp * 4 ^ 8) := by
        omega
      rw [e, le_roundSqrt_iff _ _ (by norm_num), hF]
      unfold roundHE
      simp only
      split <;> omega
    · constructor
      · intro hc
        exfalso
        push Not at hbig
        have hFle : toF32 spp ≤ 2 ^ 30 := by
          have := toF32_eq_fl spp
          have h2 : fl (spp : ℚ) ≤ 2 ^ 30 := by
            have e : fl ((2 : ℚ) ^ 30) = 2 ^ 30 := by
              have := fl_rep 1 30 (by norm_num)
              simpa using this
            apply fl_le_of_rep e
            exact_mod_cast hbig.le
          rw [← this] at h2
          exact_mod_cast h2
        have hlog : Nat.log 2 (toF32 spp) ≤ 30 := by
          have := Nat.log_mono_right (b := 2) hFle
          rwa [Nat.log_pow (by norm_num)] at this
        obtain ⟨-, b2⟩ := root_bounds (toF32 spp) (fracBits (toF32 spp)) (near spp) rfl (by unfold fracBits; omega)
        obtain ⟨j, hj⟩ : ∃ j, near spp = j + 1 := ⟨near spp - 1, by omega⟩
        have b := b2 j hj
        have hp := Nat.two_pow_pos (fracBits (toF32 spp) - 1)
        generalize 2 ^ (fracBits (toF32 spp) - 1) = p at *
        have hj2 : 46340 ≤ j := by omega
        have c1 : 4 * toF32 spp * p ≤ 4294967296 * p := Nat.mul_le_mul_right _ (by omega)
        have c2 : (2 * j + 1) * 92681 * p ≤ (2 * j + 1) * (2 * j + 1) * p :=
          Nat.mul_le_mul_right _ (Nat.mul_le_mul_left _ (by omega))
        have c3 : (2 * j + 1) ≤ (2 * j + 1) * p := Nat.le_mul_of_pos_right _ hp
        have c4 : 92681 * 92680 * p ≤ (2 * j + 1) * 92680 * p :=
          Nat.mul_le_mul_right _ (Nat.mul_le_mul_right _ (by omega))
        have c5 : (2 * j + 1) * 92681 * p = (2 * j + 1) * 92680 * p + (2 * j + 1) * p := by ring
        omega
      · intro hc; omega
  rw [checkSpp_eq spp h0 h, ← hnear, ← key]
  constructor
  · intro e
    split at e
    · cases e
    · split at e
      · cases e
      · omega
  · intro e
    rw [if_neg (hns (hnear.1 (key.1 e))), if_neg (by omega)]

example : checkSpp 121 = some 121 := C51_kept 11 (by norm_num) (by unfold intMax; norm_num)
example : ∃ k, 0 < k ∧ checkSpp 130 = some (k * k) ∧ k * k ≤ 130 + k ∧ 130 ≤ k * k + k :=
  C51_near_partial 130 (by norm_num) (by norm_num)

/-! ### C52 and C76 -/

/-- **C52**: for every positive width, whenever the computation is defined. -/
theorem C52_partial (w h w' h' : Nat) (hw : 0 < w) (hr : checkResolution w h = some (w', h')) :
    0 < w' ∧ w' % 32 = 0 ∧ w ≤ w' ∧ w' < w + 32 ∧ (w % 32 = 0 → w' = w ∧ h' = h) ∧ (w % 32 ≠ 0 → h' % 2 = 0) ∧ h ≤ h' := by
  unfold checkResolution at hr
  simp only at hr
  split at hr
  · rename_i h0
    simp only [Option.some.injEq, Prod.mk.injEq] at hr
    obtain ⟨rfl, rfl⟩ := hr
    exact ⟨hw, h0, le_refl _, by omega, fun _ => ⟨rfl, rfl⟩, fun h => absurd h0 h, le_refl _⟩
  · rename_i h0
    generalize (if h = 0 then (0 : ℚ) else fl (((32 - w % 32 : Nat) : ℚ) / fl (fl w / fl h))) = add at hr
    split at hr
    · split at hr
      · split at hr
        · split at hr
          · split at hr
            · simp only [Option.some.injEq, Prod.mk.injEq] at hr
              obtain ⟨rfl, rfl⟩ := hr
              refine ⟨by omega, by omega, by omega, by omega, fun h => absurd h h0, by omega, by omega⟩
            · cases hr
          · simp only [Option.some.injEq, Prod.mk.injEq] at hr
            obtain ⟨rfl, rfl⟩ := hr
            refine ⟨by omega, by omega, by omega, by omega, fun h => absurd h h0, by omega, by omega⟩
        · cases hr
      · cases hr
    · cases hr

/-- The height added, in exact arithmetic up to rounding. -/
theorem add_bounds (D w h : Nat) (hw0 : 0 < w) (hw : w ≤ 2 ^ 24) (hh0 : 0 < h) (hh : h ≤ 2 ^ 24) :
    |fl ((D : ℚ) / fl (fl w / fl h)) - (D : ℚ) * h / w| ≤ (D : ℚ) * h / w * (1 / 2 ^ 22) := by
  rw [fl_natCast w hw, fl_natCast h hh]
  have hwq : (0 : ℚ) < w := by exact_mod_cast hw0
  have hhq : (0 : ℚ) < h := by exact_mod_cast hh0
  have ha : (0 : ℚ) < (w : ℚ) / h := by positivity
  have e1 := fl_err ((w : ℚ) / h)
  have hA := fl_pos ha
  rw [abs_of_pos ha] at e1
  generalize hAe : fl ((w : ℚ) / h) = A at *
  have e2 := fl_err ((D : ℚ) / A)
  have hDA : (0 : ℚ) ≤ (D : ℚ) / A := by positivity
  rw [abs_of_nonneg hDA] at e2
  generalize fl ((D : ℚ) / A) = B at *
  have hid : (D : ℚ) * h / w = (D : ℚ) / (w / h) := by field_simp
  rw [hid]
  generalize (w : ℚ) / h = a at *
  rw [abs_le] at e1 e2
  obtain ⟨e1a, e1b⟩ := e1
  obtain ⟨e2a, e2b⟩ := e2
  have hD : (0 : ℚ) ≤ D := by positivity
  have hx : (0 : ℚ) ≤ (D : ℚ) / a := by positivity
  have hrel : (D : ℚ) / A * A = (D : ℚ) / a * a := by field_simp
  generalize (D : ℚ) / A = y at *
  generalize (D : ℚ) / a = x at *
  -- y A = x a with A = a (1 ± 2^-24)
  have y1 : y * (1 - 1 / 2 ^ 24) ≤ x := by
    have : y * (a * (1 - 1 / 2 ^ 24)) ≤ x * a := by rw [← hrel]; exact mul_le_mul_of_nonneg_left (by linarith) hDA
    have h2 : (y * (1 - 1 / 2 ^ 24)) * a ≤ x * a := by linarith
    exact le_of_mul_le_mul_right h2 ha
  have y2 : x ≤ y * (1 + 1 / 2 ^ 24) := by
    have : x * a ≤ y * (a * (1 + 1 / 2 ^ 24)) := by rw [← hrel]; exact mul_le_mul_of_nonneg_left (by linarith) hDA
    have h2 : x * a ≤ (y * (1 + 1 / 2 ^ 24)) * a := by linarith
    exact le_of_mul_le_mul_right h2 ha
  rw [abs_le]
  constructor <;> norm_num at * <;> linarith

/-- **C52**, the computation is defined for every width that leaves room and heights up to `2^24`. -/
theorem C52_defined_partial (w h : Nat) (hw0 : 0 < w) (hw : w ≤ 2 ^ 24) (hh : h ≤ 2 ^ 24) :
    ∃ r, checkResolution w h = some r := by
  unfold checkResolution
  simp only
  split
  · exact ⟨_, rfl⟩
  · rename_i h0
    generalize hadd : (if h = 0 then (0 : ℚ) else fl (((32 - w % 32 : Nat) : ℚ) / fl (fl w / fl h))) = add
    have hb : add ≤ 2 ^ 29 ∧ 0 ≤ add := by
      rw [← hadd]
      split
      · norm_num
      · rename_i hne
        have := add_bounds (32 - w % 32) w h hw0 hw (by omega) hh
        have hwq : (1 : ℚ) ≤ w := by exact_mod_cast hw0
        have hhq : (h : ℚ) ≤ 2 ^ 24 := by exact_mod_cast hh
        have hD : ((32 - w % 32 : Nat) : ℚ) ≤ 31 := by
          have : 32 - w % 32 ≤ 31 := by omega
          exact_mod_cast this
        have hx : ((32 - w % 32 : Nat) : ℚ) * h / w ≤ 31 * 2 ^ 24 := by
          rw [div_le_iff₀ (by linarith)]
          have a1 : ((32 - w % 32 : Nat) : ℚ) * h ≤ 31 * 2 ^ 24 :=
            mul_le_mul hD hhq (by positivity) (by norm_num)
          nlinarith
        have hx0 : (0 : ℚ) ≤ ((32 - w % 32 : Nat) : ℚ) * h / w := by positivity
        generalize ((32 - w % 32 : Nat) : ℚ) * h / w = x at *
        rw [abs_le] at this
        obtain ⟨t1, t2⟩ := this
        constructor <;> norm_num at * <;> linarith
    have hfl : ⌊add⌋₊ ≤ 2 ^ 29 := by
      apply Nat.floor_le_of_le
      push_cast
      exact hb.1
    rw [if_pos (by unfold intMax; omega), if_pos (by linarith [hb.1, (by norm_num : (2 : ℚ) ^ 29 < 2 ^ 31)]),
      if_pos (by unfold intMax; omega)]
    split
    · rw [if_pos (by unfold intMax; omega)]; exact ⟨_, rfl⟩
    · exact ⟨_, rfl⟩

/-- **C52 is violated** by a width of 0, and not defined for the greatest widths and for narrow, very high images. -/
theorem C52_violated : (∀ h, checkResolution 0 h = some (0, h)) ∧ (∀ h, checkResolution (2 ^ 31 - 1) h = none) ∧
    checkResolution 1 (2 ^ 30) = none := by
  refine ⟨fun h => rfl, ?_, ?_⟩
  · intro h
    unfold checkResolution
    simp only
    rw [if_neg (by norm_num), if_neg (by unfold intMax; norm_num)]
  · unfold checkResolution
    simp only
    have e1 : fl ((1 : Nat) : ℚ) = 1 := by simpa using fl_one
    have e2 : fl ((2 ^ 30 : Nat) : ℚ) = 2 ^ 30 := by
      have := fl_rep 1 30 (by norm_num)
      rw [Nat.cast_pow]
      simpa using this
    have e3 : fl ((1 : ℚ) / 2 ^ 30) = 1 / 2 ^ 30 := by
      have := fl_rep 1 (-30) (by norm_num)
      rw [zpow_neg] at this
      simpa using this
    have e4 : fl (((32 - 1 % 32 : Nat) : ℚ) / (1 / 2 ^ 30)) = 31 * 2 ^ 30 := by
      have := fl_rep 31 30 (by norm_num)
      norm_num at this ⊢
      exact this
    have e5 : (if (2 ^ 30 : Nat) = 0 then (0 : ℚ) else fl (((32 - 1 % 32 : Nat) : ℚ) / fl (fl ((1 : Nat) : ℚ) / fl ((2 ^ 30 : Nat) : ℚ)))) = 31 * 2 ^ 30 := by
      rw [if_neg (by norm_num), e1, e2, e3, e4]
    simp only [e5]
    rw [if_neg (by norm_num), if_pos (by unfold intMax; norm_num), if_neg (by norm_num)]

/-- **C76**: the aspect ratio is kept up to one row (and the rounding of the quotients). -/
theorem C76_aspect (w h w' h' : Nat) (hw0 : 0 < w) (hw : w ≤ 2 ^ 24) (hh0 : 0 < h) (hh : h ≤ 2 ^ 24)
    (hr : checkResolution w h = some (w', h')) :
    |(h' : ℚ) - (h : ℚ) * w' / w| ≤ 1 + ((w' : ℚ) - w) * h / w * (1 / 2 ^ 22) := by
  have hwq : (0 : ℚ) < w := by exact_mod_cast hw0
  unfold checkResolution at hr
  simp only at hr
  split at hr
  · simp only [Option.some.injEq, Prod.mk.injEq] at hr
    obtain ⟨rfl, rfl⟩ := hr
    rw [mul_div_cancel_right₀ _ hwq.ne']
    simp
  · rename_i h0
    have hb := add_bounds (32 - w % 32) w h hw0 hw hh0 hh
    rw [if_neg hh0.ne'] at hr
    have hD : (w' = w + (32 - w % 32)) → ((w' : ℚ) - w) = ((32 - w % 32 : Nat) : ℚ) := by
      intro e; rw [e]; push_cast; ring
    generalize fl (((32 - w % 32 : Nat) : ℚ) / fl (fl w / fl h)) = add at *
    have hx0 : (0 : ℚ) ≤ ((32 - w % 32 : Nat) : ℚ) * h / w := by positivity
    have hadd0 : 0 ≤ add := by
      rw [abs_le] at hb
      have := hb.1
      generalize ((32 - w % 32 : Nat) : ℚ) * h / w = x at *
      norm_num at *
      linarith
    have f1 := Nat.floor_le hadd0
    have f2 := Nat.lt_floor_add_one add
    have main : ∀ z : ℕ, (z = 0 ∨ z = 1) → w' = w + (32 - w % 32) → h' = h + ⌊add⌋₊ + z →
        |(h' : ℚ) - (h : ℚ) * w' / w| ≤ 1 + ((w' : ℚ) - w) * h / w * (1 / 2 ^ 22) := by
      intro z hz e1 e2
      rw [hD e1]
      have e3 : (h : ℚ) * w' / w = h + ((32 - w % 32 : Nat) : ℚ) * h / w := by
        rw [← hD e1]; field_simp; ring
      rw [e3, e2]
      push_cast
      have hz0 : (0 : ℚ) ≤ z := by positivity
      have hz1 : (z : ℚ) ≤ 1 := by rcases hz with rfl | rfl <;> norm_num
      generalize ((32 - w % 32 : Nat) : ℚ) * h / w = x at *
      rw [abs_le] at *
      constructor <;> linarith [hb.1, hb.2]
    split at hr
    · split at hr
      · split at hr
        · split at hr
          · split at hr
            · simp only [Option.some.injEq, Prod.mk.injEq] at hr
              exact main 1 (Or.inr rfl) hr.1.symm hr.2.symm
            · cases hr
          · simp only [Option.some.injEq, Prod.mk.injEq] at hr
            exact main 0 (Or.inl rfl) hr.1.symm hr.2.symm
        · cases hr
      · cases hr
    · cases hr

example : ∃ w' h', checkResolution 800 600 = some (w', h') ∧ w' = 800 ∧ h' = 600 := ⟨800, 600, rfl, rfl, rfl⟩
example : ∃ r, checkResolution 1000 750 = some r := C52_defined_partial 1000 750 (by norm_num) (by norm_num) (by norm_num)

/-! ### C61 -/

/-- The number a reader makes of the text: digits, a unit, a space. -/
def readTime : Nat → Nat → List Char → Option Nat
  | _, total, [] => some total
  | acc, total, c :: r =>
    if c = 'd' then readTime 0 (total + acc * 86400) r
    else if c = 'h' then readTime 0 (total + acc * 3600) r
    else if c = 'm' then readTime 0 (total + acc * 60) r
    else if c = 's' then readTime 0 (total + acc) r
    else if c = ' ' then readTime 0 total r
    else if '0' ≤ c ∧ c ≤ '9' then readTime (acc * 10 + (c.toNat - 48)) total r
    else none

theorem readTime_digit (d acc total : Nat) (hd : d < 10) (r : List Char) :
    readTime acc total (Nat.digitChar d :: r) = readTime (acc * 10 + d) total r := by
  match d, hd with
  | 0, _ => rfl
  | 1, _ => rfl
  | 2, _ => rfl
  | 3, _ => rfl
  | 4, _ => rfl
  | 5, _ => rfl
  | 6, _ => rfl
  | 7, _ => rfl
  | 8, _ => rfl
  | 9, _ => rfl

theorem readTime_dec (n total : Nat) (r : List Char) : readTime 0 total (dec n ++ r) = readTime n total r := by
  induction n using Nat.strong_induction_on generalizing r with
  | _ n ih =>
    rw [dec]
    split
    · rename_i h
      rw [List.singleton_append, readTime_digit n 0 total h]; simp
    · rename_i h
      rw [List.append_assoc, ih (n / 10) (by omega), List.singleton_append, readTime_digit _ _ _ (by omega)]
      congr 1
      omega

theorem dec_length {n : Nat} (h : n < 100) : (dec n).length ≤ 2 := by
  rw [dec]
  split
  · simp
  · rw [dec, if_pos (by omega)]; simp

theorem part_length {n : Nat} (u : Char) (h : n < 100) : (part n u).length ≤ 4 := by
  unfold part
  split
  · simp
  · have := dec_length h
    simp; omega

theorem readTime_part (n total w : Nat) (u : Char) (r : List Char)
    (hu : ∀ acc t r, readTime acc t (u :: ' ' :: r) = readTime 0 (t + acc * w) r) :
    readTime 0 total (part n u ++ r) = readTime 0 (total + n * w) r := by
  unfold part
  split
  · rename_i h; rw [h]; simp
  · rw [List.append_assoc, readTime_dec]
    exact hu n total r

/-- **C61**: the text fits in the buffer, reads back as the duration, and consists of at most 99 days, 23 hours,
59 minutes and 59 seconds. -/
theorem C61_format (secs : Nat) : ∃ out, formatSeconds secs = some out ∧ out.length ≤ 16 ∧
    (0 < secs → secs < 8640000 → readTime 0 0 out = some secs ∧
      ∃ d h m s, d < 100 ∧ h < 24 ∧ m < 60 ∧ s < 60 ∧ out = part d 'd' ++ part h 'h' ++ part m 'm' ++ part s 's') := by
  unfold formatSeconds
  split
  · exact ⟨_, rfl, by decide, fun _ h => by omega⟩
  · split
    · exact ⟨_, rfl, by decide, fun h => by omega⟩
    · simp only
      have l1 : (part (secs / 60 / 60 / 24) 'd').length ≤ 4 := part_length _ (by omega)
      have l2 : (part (secs / 60 / 60 % 24) 'h').length ≤ 4 := part_length _ (by omega)
      have l3 : (part (secs / 60 % 60) 'm').length ≤ 4 := part_length _ (by omega)
      have l4 : (part (secs % 60) 's').length ≤ 4 := part_length _ (by omega)
      have hl : (part (secs / 60 / 60 / 24) 'd' ++ part (secs / 60 / 60 % 24) 'h' ++ part (secs / 60 % 60) 'm' ++
          part (secs % 60) 's').length ≤ 16 := by
        rw [List.length_append, List.length_append, List.length_append]; omega
      rw [if_pos (by omega)]
      refine ⟨_, rfl, hl, fun _ _ => ⟨?_, _, _, _, _, by omega, by omega, by omega, by omega, rfl⟩⟩
      rw [List.append_assoc, List.append_assoc, readTime_part _ _ 86400 'd' _ (fun _ _ _ => rfl),
        readTime_part _ _ 3600 'h' _ (fun _ _ _ => rfl), readTime_part _ _ 60 'm' _ (fun _ _ _ => rfl),
        ← List.append_nil (part (secs % 60) 's'), readTime_part _ _ 1 's' _ (fun a t r => by simp [readTime])]
      rw [readTime]
      congr 1
      omega

example : formatSeconds 93784 = some "1d 2h 3m 4s ".toList := by decide +kernel

/-! ### C62 -/

section
variable {K : Type} [Field K] [LinearOrder K] [IsStrictOrderedRing K]

/-- **C62**, `min` and `max`: the lattice operations. -/
theorem C62_lattice (a b : K) : fmin a b = a ⊓ b ∧ fmax a b = a ⊔ b := by
  unfold fmin fmax
  constructor
  · split
    · rename_i h; exact (min_eq_left h.le).symm
    · rename_i h; exact (min_eq_right (not_lt.1 h)).symm
  · split
    · rename_i h; exact (max_eq_left h.le).symm
    · rename_i h; exact (max_eq_right (not_lt.1 h)).symm

/-- **C62**, `clamp`: in the interval, and nothing in the interval is closer. -/
theorem C62_clamp (v lo hi : K) (h : lo ≤ hi) : lo ≤ clamp v lo hi ∧ clamp v lo hi ≤ hi ∧
    ∀ x, lo ≤ x → x ≤ hi → |clamp v lo hi - v| ≤ |x - v| := by
  unfold clamp
  split
  · rename_i h1
    refine ⟨le_refl _, h, fun x hx _ => ?_⟩
    rw [abs_of_pos (by linarith), abs_of_pos (by linarith)]; linarith
  · split
    · rename_i h1 h2
      refine ⟨h, le_refl _, fun x _ hx => ?_⟩
      rw [abs_of_neg (by linarith), abs_of_neg (by linarith)]; linarith
    · rename_i h1 h2
      refine ⟨not_lt.1 h1, not_lt.1 h2, fun x _ _ => ?_⟩
      rw [sub_self, abs_zero]; exact abs_nonneg _

/-- **C62**, `lerp` and `inverse_lerp` are inverse to each other. -/
theorem C62_lerp (v lo hi : K) (h : lo ≠ hi) : inverseLerp (lerp v lo hi) lo hi = some v ∧
    ∃ t, inverseLerp v lo hi = some t ∧ lerp t lo hi = v := by
  have h0 : hi - lo ≠ 0 := sub_ne_zero.2 (Ne.symm h)
  unfold inverseLerp lerp
  rw [if_neg h0, if_neg h0]
  refine ⟨?_, _, rfl, ?_⟩
  · congr 1; field_simp; ring
  · field_simp; ring

/-- **C62**, `lerp` stays in the interval. -/
theorem C62_lerp_range (v lo hi : K) (h : lo ≤ hi) (h0 : 0 ≤ v) (h1 : v ≤ 1) : lo ≤ lerp v lo hi ∧ lerp v lo hi ≤ hi := by
  unfold lerp
  constructor <;> nlinarith

/-- **C62**, `equation1`. -/
theorem C62_equation1 (a b x : K) (ha : a ≠ 0) : equation1 a b = some x ↔ a * x + b = 0 := by
  unfold equation1
  rw [if_neg ha, Option.some.injEq]
  constructor
  · rintro rfl; field_simp; ring
  · intro h; rw [div_eq_iff ha]; linarith

end

/-- **C62**, `equation2`, partial: exactly the real roots, unless the discriminant is negative but not less than
`-1e-4`.  The leading coefficient must not be zero (the code divides by it). -/
theorem C62_equation2_partial (a b c : ℝ) (ha : a ≠ 0) (hd : b * b - 4 * a * c < 0 → b * b - 4 * a * c < -(1 / 10000)) :
    (equation2 a b c = none ↔ ∀ x, a * x * x + b * x + c ≠ 0) ∧
    ∀ s1 s2, equation2 a b c = some (s1, s2) → ∀ x, a * x * x + b * x + c = 0 ↔ x = s1 ∨ x = s2 := by
  have hid : ∀ x, 4 * a * (a * x * x + b * x + c) = (2 * a * x + b) * (2 * a * x + b) - (b * b - 4 * a * c) := by
    intro x; ring
  rcases lt_trichotomy (b * b - 4 * a * c) 0 with h | h | h
  · have h' := hd h
    have e : equation2 a b c = none := by
      unfold equation2
      simp only
      rw [if_neg (by intro hh; linarith [hh.2]), if_neg (by linarith)]
    rw [e]
    refine ⟨⟨fun _ x hx => ?_, fun _ => rfl⟩, fun _ _ h => by cases h⟩
    have := hid x
    rw [hx, mul_zero] at this
    nlinarith [mul_self_nonneg (2 * a * x + b)]
  · have e : equation2 a b c = some (-b / (a * 2), -b / (a * 2)) := by
      unfold equation2
      simp only
      rw [if_pos ⟨h.le, by rw [h]; norm_num⟩]
    rw [e]
    have key : ∀ x, a * x * x + b * x + c = 0 ↔ x = -b / (a * 2) := by
      intro x
      have := hid x
      rw [h, sub_zero] at this
      rw [eq_div_iff (by simpa using ha)]
      constructor
      · intro hx
        rw [hx, mul_zero] at this
        have := mul_self_eq_zero.1 this.symm
        linarith
      · intro hx
        have h0 : 2 * a * x + b = 0 := by linarith
        rw [h0, mul_zero] at this
        have h4 : 4 * a ≠ 0 := by simpa using ha
        exact (mul_eq_zero.1 this).resolve_left h4
    refine ⟨⟨fun h => (by cases h), fun hx => absurd ((key _).2 rfl) (hx _)⟩, ?_⟩
    intro s1 s2 hs x
    simp only [Option.some.injEq, Prod.mk.injEq] at hs
    obtain ⟨rfl, rfl⟩ := hs
    rw [key, or_self]
  · cases e : equation2 a b c with
    | none =>
      exfalso
      unfold equation2 at e
      simp only at e
      rw [if_neg (by intro hh; linarith [hh.1]), if_pos h.le] at e
      cases e
    | some s =>
      obtain ⟨s1, s2⟩ := s
      obtain ⟨r1, r2, hne⟩ := equation2_roots a b c s1 s2 ha h e
      refine ⟨⟨fun h => (by cases h), fun hx => absurd r1 (hx s1)⟩, ?_⟩
      intro t1 t2 ht x
      simp only [Option.some.injEq, Prod.mk.injEq] at ht
      obtain ⟨rfl, rfl⟩ := ht
      constructor
      · intro hx
        by_contra hc
        push Not at hc
        have d1 : (x - s1) * (a * (x + s1) + b) = 0 := by linear_combination hx - r1
        have d2 : (s2 - s1) * (a * (s2 + s1) + b) = 0 := by linear_combination r2 - r1
        have f1 := (mul_eq_zero.1 d1).resolve_left (sub_ne_zero.2 hc.1)
        have f2 := (mul_eq_zero.1 d2).resolve_left (sub_ne_zero.2 (Ne.symm hne))
        have f3 : a * (x - s2) = 0 := by linear_combination f1 - f2
        exact hc.2 (sub_eq_zero.1 ((mul_eq_zero.1 f3).resolve_left ha))
      · rintro (rfl | rfl)
        · exact r1
        · exact r2

/-- **C62 is violated** by `equation2` on every equation without roots whose discriminant is at least `-1e-4`. -/
theorem C62_equation2_violated (a b c : ℝ) (h1 : b * b - 4 * a * c < 0) (h2 : -(1 / 10000) ≤ b * b - 4 * a * c) :
    equation2 a b c ≠ none ∧ ∀ x, a * x * x + b * x + c ≠ 0 := by
  constructor
  · unfold equation2
    simp only
    rw [if_pos ⟨h1.le, by linarith⟩]
    simp
  · intro x hx
    have hid : 4 * a * (a * x * x + b * x + c) = (2 * a * x + b) * (2 * a * x + b) - (b * b - 4 * a * c) := by ring
    rw [hx, mul_zero] at hid
    nlinarith [mul_self_nonneg (2 * a * x + b)]

example : equation2 1 0 (1 / 80000) ≠ none ∧ ∀ x, 1 * x * x + 0 * x + (1 / 80000 : ℝ) ≠ 0 :=
  C62_equation2_violated 1 0 (1 / 80000) (by norm_num) (by norm_num)

/-! ### C77 -/

/-- **C77**: `nearest_uint` returns the closest multiple, whenever the sum with half of the multiple fits. -/
theorem C77_nearest (num multiple : BitVec 32) (h0 : multiple ≠ 0) (h : num.toNat + multiple.toNat / 2 < 2 ^ 32) :
    ∃ r, nearestUint num multiple = some r ∧ r.toNat % multiple.toNat = 0 ∧
      2 * r.toNat ≤ 2 * num.toNat + multiple.toNat ∧ 2 * num.toNat ≤ 2 * r.toNat + multiple.toNat ∧
      ∀ k, |(r.toNat : ℤ) - num.toNat| ≤ |(k * multiple.toNat : ℤ) - num.toNat| := by
  have hm : 0 < multiple.toNat := by
    rcases Nat.eq_zero_or_pos multiple.toNat with hz | hz
    · exfalso; apply h0; apply BitVec.eq_of_toNat_eq; rw [hz]; rfl
    · exact hz
  unfold nearestUint
  rw [if_neg h0]
  refine ⟨_, rfl, ?_⟩
  have hres : (num + multiple / 2).toNat = num.toNat + multiple.toNat / 2 := by
    rw [BitVec.toNat_add, BitVec.toNat_udiv, show BitVec.toNat (2 : BitVec 32) = 2 from rfl, Nat.mod_eq_of_lt h]
  have hsub : (num + multiple / 2 - (num + multiple / 2) % multiple).toNat =
      multiple.toNat * ((num.toNat + multiple.toNat / 2) / multiple.toNat) := by
    have hle : (num + multiple / 2) % multiple ≤ num + multiple / 2 := by
      rw [BitVec.le_def, BitVec.toNat_umod]; exact Nat.mod_le _ _
    rw [BitVec.toNat_sub_of_le hle, BitVec.toNat_umod, hres]
    have := Nat.div_add_mod (num.toNat + multiple.toNat / 2) multiple.toNat
    omega
  rw [hsub]
  generalize multiple.toNat = m at *
  generalize num.toNat = n at *
  have hdm := Nat.div_add_mod (n + m / 2) m
  have hml := Nat.mod_lt (n + m / 2) hm
  generalize hq : (n + m / 2) / m = q at *
  generalize (n + m / 2) % m = t at *
  have b1 : 2 * (m * q) ≤ 2 * n + m := by omega
  have b2 : 2 * n ≤ 2 * (m * q) + m := by omega
  refine ⟨Nat.mul_mod_right _ _, b1, b2, ?_⟩
  intro k
  have hb : |(((m * q : Nat) : ℤ) - n)| * 2 ≤ m := by
    have c1 : (2 * ((m * q : Nat) : ℤ)) ≤ 2 * n + m := by exact_mod_cast b1
    have c2 : (2 * (n : ℤ)) ≤ 2 * ((m * q : Nat) : ℤ) + m := by exact_mod_cast b2
    rcases abs_cases (((m * q : Nat) : ℤ) - n) with ⟨e, -⟩ | ⟨e, -⟩ <;> rw [e] <;> linarith
  by_cases hk : k = q
  · rw [hk]; push_cast; rw [mul_comm (q : ℤ)]
  · have hgap : (m : ℤ) ≤ |k * m - ((m * q : Nat) : ℤ)| := by
      push_cast
      rw [show k * (m : ℤ) - m * q = m * (k - q) by ring, abs_mul, abs_of_nonneg (by positivity : (0 : ℤ) ≤ m)]
      have : 1 ≤ |k - (q : ℤ)| := Int.one_le_abs (sub_ne_zero.2 hk)
      have hm' : (0 : ℤ) ≤ m := by positivity
      nlinarith
    have htri : |k * m - ((m * q : Nat) : ℤ)| ≤ |k * m - (n : ℤ)| + |((m * q : Nat) : ℤ) - n| := by
      have := abs_sub (k * m - (n : ℤ)) (((m * q : Nat) : ℤ) - n)
      rwa [show k * m - (n : ℤ) - (((m * q : Nat) : ℤ) - n) = k * m - ((m * q : Nat) : ℤ) by ring] at this
    linarith

example : nearestUint 13 5 = some 15 := by decide

end Spectre.Config
