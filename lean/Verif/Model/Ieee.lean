import Verif.Model.Float32

/-
IEEE-754 binary32 numbers with everything they have: signed zeros, subnormals, infinities and NaN, round to
nearest with ties to even.  This is the `float` of the code in /repo/src (SSE arithmetic, no fused or extended
operations); there is one NaN, as its sign and payload are never looked at.
-/

namespace Spectre

/-- A binary32 number; `true` is the sign minus.  `num q` is used for finite numbers other than zero. -/
inductive F32 where
  | nan
  | inf (neg : Bool)
  | zero (neg : Bool)
  | num (q : ℚ)
deriving DecidableEq

/-- Exponent of the unit in the last place of binary32 near `q`, at least that of the subnormals. -/
def ulp32 (q : ℚ) : ℤ := max (ulpExp q) (-149)

/-- Rounding to a multiple of the unit in the last place. -/
def rnd32 (q : ℚ) : ℚ := (rne (q / 2 ^ ulp32 q) : ℚ) * 2 ^ ulp32 q

namespace F32

/-- Rounding of an exact result; `neg` is the sign of an exact zero. -/
def round (neg : Bool) (q : ℚ) : F32 :=
  if q = 0 then zero neg
  else if rnd32 q = 0 then zero (decide (q < 0))
  else if 2 ^ 128 ≤ |rnd32 q| then inf (decide (q < 0))
  else num (rnd32 q)

/-- The value of a finite number. -/
def val : F32 → ℚ
  | num q => q
  | _ => 0

/-- The sign bit. -/
def sign : F32 → Bool
  | nan => false
  | inf s => s
  | zero s => s
  | num q => decide (q < 0)

def isNan : F32 → Bool
  | nan => true
  | _ => false

/-- `std::isinf`. -/
def isInf : F32 → Bool
  | inf _ => true
  | _ => false

def isZero : F32 → Bool
  | zero _ => true
  | _ => false

def neg : F32 → F32
  | nan => nan
  | inf s => inf (!s)
  | zero s => zero (!s)
  | num q => num (-q)

/-- `fabsf`. -/
def abs : F32 → F32
  | nan => nan
  | inf _ => inf false
  | zero _ => zero false
  | num q => num |q|

def add : F32 → F32 → F32
  | nan, _ => nan
  | _, nan => nan
  | inf s, inf t => if s = t then inf s else nan
  | inf s, _ => inf s
  | _, inf t => inf t
  | a, b => round (a.sign && b.sign) (a.val + b.val)

def sub (a b : F32) : F32 := add a (neg b)

def mul : F32 → F32 → F32
  | nan, _ => nan
  | _, nan => nan
  | inf s, b => if b.isZero then nan else inf (xor s b.sign)
  | a, inf t => if a.isZero then nan else inf (xor a.sign t)
  | a, b => round (xor a.sign b.sign) (a.val * b.val)

def div : F32 → F32 → F32
  | nan, _ => nan
  | _, nan => nan
  | inf s, b => if b.isInf then nan else inf (xor s b.sign)
  | a, inf t => zero (xor a.sign t)
  | a, b => if b.isZero then (if a.isZero then nan else inf (xor a.sign b.sign))
    else round (xor a.sign b.sign) (a.val / b.val)

/-- `<`. -/
def lt : F32 → F32 → Bool
  | nan, _ => false
  | _, nan => false
  | inf s, inf t => s && !t
  | inf s, _ => s
  | _, inf t => !t
  | a, b => decide (a.val < b.val)

/-- `==`. -/
def eq : F32 → F32 → Bool
  | nan, _ => false
  | _, nan => false
  | inf s, inf t => s == t
  | inf _, _ => false
  | _, inf _ => false
  | a, b => decide (a.val = b.val)

/-- The numbers that exist: `num q` only for multiples of the last place below `2^128` other than zero. -/
def Ok : F32 → Prop
  | num q => q ≠ 0 ∧ rnd32 q = q ∧ |q| < 2 ^ 128
  | _ => True

/-- Neither infinite nor NaN. -/
def Finite : F32 → Prop
  | num _ => True
  | zero _ => True
  | _ => False

end F32

/-! ### Lemmas on the rounding -/

theorem rnd32_zero : rnd32 0 = 0 := by
  unfold rnd32
  rw [zero_div]
  have := rne_int 0
  push_cast at this
  rw [this]; simp

theorem ulp32_neg (q : ℚ) : ulp32 (-q) = ulp32 q := by unfold ulp32; rw [ulpExp_neg]

theorem rnd32_neg (q : ℚ) : rnd32 (-q) = -rnd32 q := by
  unfold rnd32
  rw [ulp32_neg, neg_div, rne_neg]
  push_cast; ring

theorem rnd32_nonneg {q : ℚ} (h : 0 ≤ q) : 0 ≤ rnd32 q := by
  unfold rnd32
  have hp := two_zpow_pos (ulp32 q)
  have h1 : (0 : ℤ) ≤ rne (q / 2 ^ ulp32 q) := by
    have := rne_mono (x := ((0 : ℤ) : ℚ)) (y := q / 2 ^ ulp32 q) (by push_cast; positivity)
    rwa [rne_int] at this
  have h2 : (0 : ℚ) ≤ rne (q / 2 ^ ulp32 q) := by exact_mod_cast h1
  positivity

theorem rnd32_normal {q : ℚ} (h : 2 ^ (-126 : ℤ) ≤ |q|) : rnd32 q = fl q := by
  have hq : q ≠ 0 := by
    rintro rfl
    rw [abs_zero] at h
    exact absurd h (not_le.2 (two_zpow_pos _))
  have hl : -126 ≤ Int.log 2 |q| := by
    rw [← Int.zpow_le_iff_le_log (by norm_num) (abs_pos.2 hq)]
    exact_mod_cast h
  have e : ulp32 q = ulpExp q := by
    unfold ulp32 ulpExp
    rw [max_eq_left (by omega)]
  unfold rnd32 fl
  rw [e, if_neg hq]

/-- Rounding is monotone. -/
theorem rnd32_mono {a b : ℚ} (h : a ≤ b) : rnd32 a ≤ rnd32 b := by
  have pos : ∀ a b : ℚ, 0 < a → a ≤ b → rnd32 a ≤ rnd32 b := by
    intro a b ha h
    have hb : 0 < b := lt_of_lt_of_le ha h
    have hl : Int.log 2 a ≤ Int.log 2 b := Int.log_mono_right ha h
    have ea : ulpExp a = Int.log 2 a - 23 := by unfold ulpExp; rw [abs_of_pos ha]
    have eb : ulpExp b = Int.log 2 b - 23 := by unfold ulpExp; rw [abs_of_pos hb]
    by_cases he : ulp32 a = ulp32 b
    · unfold rnd32
      rw [he]
      have hp := two_zpow_pos (ulp32 b)
      apply mul_le_mul_of_nonneg_right _ hp.le
      exact_mod_cast rne_mono (div_le_div_of_nonneg_right h hp.le)
    · have hlt : ulp32 a < ulp32 b := lt_of_le_of_ne (by
        unfold ulp32; rw [ea, eb]; exact max_le_max (by omega) le_rfl) he
      have e2 : ulp32 b = Int.log 2 b - 23 := by
        unfold ulp32 at hlt ⊢
        rw [eb] at hlt ⊢
        apply max_eq_left
        by_contra hc
        have h3 : max (Int.log 2 b - 23) (-149) = -149 := max_eq_right (by omega)
        have h4 := le_max_right (ulpExp a) (-149)
        omega
      have hbn : rnd32 b = fl b := by
        unfold rnd32 fl
        rw [if_neg hb.ne', e2, eb]
      have hpb := (fl_pos_bounds hb).1
      rw [hbn]
      refine le_trans ?_ hpb
      -- `2^(log b)` is a multiple of the unit of `a`
      have hpa := two_zpow_pos (ulp32 a)
      have hab : a ≤ 2 ^ Int.log 2 b := by
        by_cases c : Int.log 2 a < Int.log 2 b
        · have h2 : a < (2 : ℚ) ^ (Int.log 2 a + 1) := by
            have := Int.lt_zpow_succ_log_self (b := 2) (by norm_num) a; exact_mod_cast this
          exact le_trans h2.le (zpow_le_zpow_right₀ (by norm_num) (by omega))
        · exfalso
          have : ulpExp a = ulpExp b := by rw [ea, eb]; omega
          apply he
          unfold ulp32; rw [this]
      unfold rnd32
      obtain ⟨d, hd⟩ := Int.le.dest (by rw [e2] at hlt; omega : ulp32 a ≤ Int.log 2 b)
      have e3 : (2 : ℚ) ^ Int.log 2 b = ((2 ^ d : ℤ) : ℚ) * 2 ^ ulp32 a := by
        rw [← hd, zpow_add₀ (by norm_num), zpow_natCast]; push_cast; ring
      rw [e3]
      apply mul_le_mul_of_nonneg_right _ hpa.le
      have := rne_mono (x := a / 2 ^ ulp32 a) (y := ((2 ^ d : ℤ) : ℚ)) (by
        rw [div_le_iff₀ hpa, ← e3]; exact hab)
      rw [rne_int] at this
      exact_mod_cast this
  rcases lt_trichotomy a 0 with ha | ha | ha
  · rcases lt_or_ge b 0 with hb | hb
    · have := pos (-b) (-a) (by linarith) (by linarith)
      rw [rnd32_neg, rnd32_neg] at this
      linarith
    · have h1 := rnd32_nonneg hb
      have h2 := rnd32_nonneg (q := -a) (by linarith)
      rw [rnd32_neg] at h2
      linarith
  · rw [ha, rnd32_zero]; exact rnd32_nonneg (by linarith)
  · exact pos a b ha h

/-- Multiples of the unit of the subnormals with 24 bits are representable. -/
theorem rnd32_rep (m k : ℤ) (h : |m| ≤ 2 ^ 24) (hk : -149 ≤ k) : rnd32 ((m : ℚ) * 2 ^ k) = (m : ℚ) * 2 ^ k := by
  by_cases hn : 2 ^ (-126 : ℤ) ≤ |(m : ℚ) * 2 ^ k|
  · rw [rnd32_normal hn, fl_rep m k h]
  · by_cases hz : (m : ℚ) * 2 ^ k = 0
    · rw [hz, rnd32_zero]
    · have hl : Int.log 2 |(m : ℚ) * 2 ^ k| < -126 := by
        rw [← Int.lt_zpow_iff_log_lt (by norm_num) (abs_pos.2 hz)]
        exact_mod_cast not_le.1 hn
      have e : ulp32 ((m : ℚ) * 2 ^ k) = -149 := by
        unfold ulp32 ulpExp
        apply max_eq_right; omega
      unfold rnd32
      rw [e]
      obtain ⟨d, hd⟩ := Int.le.dest hk
      have e2 : (m : ℚ) * 2 ^ k = ((m * 2 ^ d : ℤ) : ℚ) * 2 ^ (-149 : ℤ) := by
        rw [← hd, zpow_add₀ (by norm_num), zpow_natCast]; push_cast; ring
      rw [e2, mul_div_assoc, div_self (two_zpow_pos _).ne', mul_one, rne_int]

theorem rnd32_pow (k : ℤ) (hk : -149 ≤ k) : rnd32 (2 ^ k) = 2 ^ k := by
  have := rnd32_rep 1 k (by norm_num) hk
  simpa using this

/-- Rounding errors: relative for normal results, absolute for subnormal ones. -/
theorem rnd32_err (q : ℚ) : |rnd32 q - q| ≤ max (|q| * (1 / 2 ^ 24)) (2 ^ (-150 : ℤ)) := by
  by_cases hn : 2 ^ (-126 : ℤ) ≤ |q|
  · rw [rnd32_normal hn]
    exact le_trans (fl_err q) (le_max_left _ _)
  · apply le_trans _ (le_max_right _ _)
    by_cases hz : q = 0
    · rw [hz, rnd32_zero, sub_zero, abs_zero]; exact (two_zpow_pos _).le
    · have hl : Int.log 2 |q| < -126 := by
        rw [← Int.lt_zpow_iff_log_lt (by norm_num) (abs_pos.2 hz)]
        exact_mod_cast not_le.1 hn
      have e : ulp32 q = -149 := by
        unfold ulp32 ulpExp
        apply max_eq_right; omega
      unfold rnd32
      rw [e]
      have hp := two_zpow_pos (-149)
      obtain ⟨b1, b2⟩ := rne_bounds (q / 2 ^ (-149 : ℤ))
      have hq : q = q / 2 ^ (-149 : ℤ) * 2 ^ (-149 : ℤ) := by field_simp
      have e1 : (rne (q / 2 ^ (-149 : ℤ)) : ℚ) * 2 ^ (-149 : ℤ) - q
          = ((rne (q / 2 ^ (-149 : ℤ)) : ℚ) - q / 2 ^ (-149 : ℤ)) * 2 ^ (-149 : ℤ) := by
        rw [sub_mul, ← hq]
      rw [e1, abs_mul, abs_of_pos hp]
      have hab : |(rne (q / 2 ^ (-149 : ℤ)) : ℚ) - q / 2 ^ (-149 : ℤ)| ≤ 1 / 2 := by
        rw [abs_le]; constructor <;> linarith
      calc _ ≤ 1 / 2 * (2 : ℚ) ^ (-149 : ℤ) := mul_le_mul_of_nonneg_right hab hp.le
        _ = 2 ^ (-150 : ℤ) := by
          rw [show (-149 : ℤ) = 1 + -150 by norm_num, zpow_add₀ (by norm_num), zpow_one]; ring

theorem rnd32_rnd32 (q : ℚ) : rnd32 (rnd32 q) = rnd32 q := by
  have pos : ∀ q : ℚ, 0 < q → rnd32 (rnd32 q) = rnd32 q := by
    intro q h
    have hp := two_zpow_pos (ulp32 q)
    have h2 : q < (2 : ℚ) ^ (Int.log 2 q + 1) := by
      have := Int.lt_zpow_succ_log_self (b := 2) (by norm_num) q; exact_mod_cast this
    have hu : Int.log 2 q - 23 ≤ ulp32 q := by
      unfold ulp32 ulpExp; rw [abs_of_pos h]; exact le_max_left _ _
    have hb : q / 2 ^ ulp32 q ≤ ((2 ^ 24 : ℤ) : ℚ) := by
      rw [div_le_iff₀ hp]
      refine le_trans h2.le ?_
      rw [show ((2 ^ 24 : ℤ) : ℚ) = 2 ^ (24 : ℤ) by norm_num, ← zpow_add₀ (by norm_num)]
      exact zpow_le_zpow_right₀ (by norm_num) (by omega)
    have h0 : ((0 : ℤ) : ℚ) ≤ q / 2 ^ ulp32 q := by push_cast; positivity
    have r1 := rne_mono hb
    have r0 := rne_mono h0
    rw [rne_int] at r1 r0
    have := rnd32_rep (rne (q / 2 ^ ulp32 q)) (ulp32 q) (by rw [abs_le]; omega)
      (by unfold ulp32; exact le_max_right _ _)
    exact this
  rcases lt_trichotomy q 0 with h | h | h
  · have := pos (-q) (by linarith)
    rw [rnd32_neg, rnd32_neg] at this
    linarith
  · rw [h, rnd32_zero, rnd32_zero]
  · exact pos q h

theorem rnd32_lt {q : ℚ} {k : ℤ} (hk : -149 ≤ k) (h : q ≤ 2 ^ k) : rnd32 q ≤ 2 ^ k := by
  rw [← rnd32_pow k hk]; exact rnd32_mono h

theorem le_rnd32 {q : ℚ} {k : ℤ} (hk : -149 ≤ k) (h : 2 ^ k ≤ q) : 2 ^ k ≤ rnd32 q := by
  rw [← rnd32_pow k hk]; exact rnd32_mono h

namespace F32

theorem round_ok (s : Bool) (q : ℚ) : (round s q).Ok := by
  unfold round
  split
  · trivial
  · split
    · trivial
    · split
      · trivial
      · rename_i h1 h2
        exact ⟨h1, rnd32_rnd32 q, not_le.1 h2⟩

theorem round_num {s : Bool} {q : ℚ} (h0 : rnd32 q ≠ 0) (h1 : |rnd32 q| < 2 ^ 128) :
    round s q = num (rnd32 q) := by
  have : q ≠ 0 := by rintro rfl; exact h0 rnd32_zero
  unfold round
  rw [if_neg this, if_neg h0, if_neg (not_le.2 h1)]

theorem add_ok (a b : F32) : (add a b).Ok := by
  cases a <;> cases b <;> simp only [add] <;> first | trivial | exact round_ok _ _ | skip
  split <;> trivial

theorem neg_ok {a : F32} (h : a.Ok) : (neg a).Ok := by
  cases a <;> try trivial
  obtain ⟨h1, h2, h3⟩ := h
  exact ⟨neg_ne_zero.2 h1, by rw [rnd32_neg, h2], by rw [abs_neg]; exact h3⟩

theorem mul_ok (a b : F32) : (mul a b).Ok := by
  cases a <;> cases b <;> simp only [mul] <;> first | trivial | exact round_ok _ _

theorem div_ok (a b : F32) : (div a b).Ok := by
  cases a <;> cases b <;> simp only [div] <;> first | trivial | exact round_ok _ _

end F32

end Spectre
