import Verif.Model.FloatFilter
import Verif.Props.FloatMicroError
import Verif.Props.FloatTriangle
import Verif.Props.Film

/-
Property C165: the pixels that a sample updates and the weights of the filters in binary32.
-/

namespace Spectre.FFilter

open Spectre.FMat F32

/-! ### Pixels -/

/-- Integers of up to 24 bits are not rounded. -/
theorem rnd_int (n : ℤ) (h : |n| ≤ 2 ^ 24) : rnd32 n = n := by
  have := rnd32_rep n 0 h (by norm_num)
  simpa using this

theorem ceilInt_eq {v : F32} (f : v.Finite) (h : |v.val| ≤ 2 ^ 24) : ceilInt v = some ⌈v.val⌉ := by
  obtain ⟨h1, h2⟩ := abs_le.1 h
  have a : -2 ^ 31 ≤ ⌈v.val⌉ := by
    have : (((-2 ^ 31 : ℤ) : ℚ)) ≤ ⌈v.val⌉ := by
      push_cast
      exact le_trans (le_trans (by norm_num) h1) (Int.le_ceil _)
    exact_mod_cast this
  have b : ⌈v.val⌉ < 2 ^ 31 := lt_of_le_of_lt (Int.ceil_le.2 (show v.val ≤ ((2 ^ 24 : ℤ) : ℚ) by push_cast; exact h2))
    (by norm_num)
  cases v with
  | nan => exact f.elim
  | inf s => exact f.elim
  | zero s => show toInt _ = _; unfold toInt; rw [if_pos ⟨a, b⟩]
  | num q => show toInt _ = _; unfold toInt; rw [if_pos ⟨a, b⟩]

theorem floorInt_eq {v : F32} (f : v.Finite) (h : |v.val| ≤ 2 ^ 24) : floorInt v = some ⌊v.val⌋ := by
  obtain ⟨h1, h2⟩ := abs_le.1 h
  have b : ⌊v.val⌋ < 2 ^ 31 := by
    have : (⌊v.val⌋ : ℚ) < ((2 ^ 31 : ℤ) : ℚ) := by
      push_cast
      exact lt_of_le_of_lt ((Int.floor_le _).trans h2) (by norm_num)
    exact_mod_cast this
  have a : -2 ^ 31 ≤ ⌊v.val⌋ := le_trans (by norm_num)
    (Int.le_floor.2 (show ((-2 ^ 24 : ℤ) : ℚ) ≤ v.val by push_cast; exact h1))
  cases v with
  | nan => exact f.elim
  | inf s => exact f.elim
  | zero s => show toInt _ = _; unfold toInt; rw [if_pos ⟨a, b⟩]
  | num q => show toInt _ = _; unfold toInt; rw [if_pos ⟨a, b⟩]

/-- A position on the film: at most 65536 pixels from the border. -/
def Pos (p : F32) : Prop := p.Ok ∧ In 0 (2 ^ 16) p

/-- The range of a filter in pixels, an integer up to eight. -/
def Range (r : F32) (n : ℤ) : Prop := r.Finite ∧ r.val = n ∧ 1 ≤ n ∧ n ≤ 8

/-- Integers are on the same side of a number and of its rounded value. -/
theorem int_le {n : ℤ} {q : ℚ} (hn : |n| ≤ 2 ^ 24) (h : (n : ℚ) ≤ q) : (n : ℚ) ≤ rnd32 q := by
  have := rnd32_mono h
  rwa [rnd_int n hn] at this

theorem le_int {n : ℤ} {q : ℚ} (hn : |n| ≤ 2 ^ 24) (h : q ≤ (n : ℚ)) : rnd32 q ≤ (n : ℚ) := by
  have := rnd32_mono h
  rwa [rnd_int n hn] at this

theorem centre_spec {p : F32} (h : Pos p) : (centre p).Finite ∧ (centre p).val = rnd32 (p.val - 1 / 2) ∧
    (-1 ≤ (centre p).val ∧ (centre p).val ≤ 2 ^ 16) := by
  obtain ⟨-, f, l, u⟩ := h
  have h1 : ((-1 : ℤ) : ℚ) ≤ rnd32 (p.val - 1 / 2) := int_le (by norm_num) (by push_cast; linarith)
  have h2 : rnd32 (p.val - 1 / 2) ≤ ((2 ^ 16 : ℤ) : ℚ) := le_int (by norm_num) (by push_cast; linarith)
  push_cast at h1 h2
  obtain ⟨a, b⟩ := sub_fin (b := num (1 / 2)) f trivial (by
    show |rnd32 (p.val - 1 / 2)| < _
    rw [abs_lt]
    have : (2 : ℚ) ^ 16 < 2 ^ 128 := by norm_num
    constructor <;> linarith)
  have b : (centre p).val = rnd32 (p.val - 1 / 2) := b
  exact ⟨a, b, by rw [b]; exact ⟨h1, h2⟩⟩

/-- The digits of a number below `2^17`. -/
theorem digits {a : ℚ} (h : rnd32 a = a) (h0 : 0 < a) (h1 : a < 2 ^ 17) :
    ∃ m k : ℤ, a = m * 2 ^ k ∧ -149 ≤ k ∧ k ≤ -7 ∧ 0 ≤ m ∧ m ≤ 2 ^ 24 ∧ Int.log 2 a - 23 ≤ k := by
  have hk : -149 ≤ ulp32 a := le_max_right _ _
  have hl : Int.log 2 a < 17 := by
    rw [← Int.lt_zpow_iff_log_lt (by norm_num) h0]
    exact_mod_cast h1
  have hk' : ulp32 a ≤ -7 := by
    unfold ulp32 ulpExp
    rw [abs_of_pos h0]
    omega
  have hp := two_zpow_pos (ulp32 a)
  have hm : (rne (a / 2 ^ ulp32 a) : ℚ) * 2 ^ ulp32 a = a := h
  refine ⟨rne (a / 2 ^ ulp32 a), ulp32 a, hm.symm, hk, hk', ?_, ?_, ?_⟩
  · have : (0 : ℚ) ≤ rne (a / 2 ^ ulp32 a) := by
      by_contra hc
      push Not at hc
      have := mul_neg_of_neg_of_pos hc hp
      linarith
    exact_mod_cast this
  · have : (rne (a / 2 ^ ulp32 a) : ℚ) ≤ ((2 ^ 24 : ℤ) : ℚ) := by
      have h2 : a < 2 ^ (Int.log 2 a + 1) := Int.lt_zpow_succ_log_self (by norm_num) a
      have h3 : (2 : ℚ) ^ (Int.log 2 a + 1) ≤ 2 ^ (ulp32 a + 24) := by
        apply zpow_le_zpow_right₀ (by norm_num)
        have : Int.log 2 a - 23 ≤ ulp32 a := by
          unfold ulp32 ulpExp
          rw [abs_of_pos h0]
          exact le_max_left _ _
        omega
      have h4 : (2 : ℚ) ^ (ulp32 a + 24) = 16777216 * 2 ^ ulp32 a := by rw [zpow_add₀ (by norm_num)]; norm_num; ring
      rw [h4] at h3
      push_cast
      by_contra hc
      push Not at hc
      have := mul_lt_mul_of_pos_right hc hp
      linarith
    exact_mod_cast this
  · unfold ulp32 ulpExp
    rw [abs_of_pos h0]
    exact le_max_left _ _

/-- Halves are subtracted without rounding if the result is not larger. -/
theorem sub_exact {a : ℚ} {n : ℤ} (h : rnd32 a = a) (h0 : 0 < a) (h1 : a < 2 ^ 17) (hd : |a - n / 2| ≤ a) :
    rnd32 (a - n / 2) = a - n / 2 := by
  obtain ⟨m, k, e, k1, k2, m0, m1, -⟩ := digits h h0 h1
  have hp := two_zpow_pos k
  obtain ⟨d, hd'⟩ := Int.le.dest (show k ≤ -1 by omega)
  have e2 : (n : ℚ) / 2 = ((n * 2 ^ d : ℤ) : ℚ) * 2 ^ k := by
    have : (2 : ℚ) ^ (d : ℤ) * 2 ^ k = 1 / 2 := by
      rw [← zpow_add₀ (by norm_num), show (d : ℤ) + k = -1 by omega]; norm_num
    rw [zpow_natCast] at this
    push_cast
    rw [mul_assoc, this]; ring
  have e3 : a - n / 2 = ((m - n * 2 ^ d : ℤ) : ℚ) * 2 ^ k := by
    rw [e2, e]; push_cast; ring
  rw [e3]
  apply rnd32_rep _ _ _ k1
  rw [e3, abs_mul, abs_of_pos hp] at hd
  have hm : |((m - n * 2 ^ d : ℤ) : ℚ)| ≤ m := by
    rw [e] at hd
    exact le_of_mul_le_mul_right hd hp
  rw [← Int.cast_abs] at hm
  have : |m - n * 2 ^ d| ≤ m := by exact_mod_cast hm
  omega

/-- **C165, centres.**  The centre is not rounded from a quarter of a pixel on. -/
theorem C165_centre {p : F32} (h : Pos p) : (1 / 4 ≤ p.val → (centre p).val = p.val - 1 / 2) ∧
    |(centre p).val - (p.val - 1 / 2)| ≤ 1 / 2 ^ 25 := by
  obtain ⟨f, e, -⟩ := centre_spec h
  obtain ⟨o, -, l, u⟩ := h
  have key : 1 / 4 ≤ p.val → (centre p).val = p.val - 1 / 2 := by
    intro hq
    rw [e]
    have := sub_exact (n := 1) (ok_val o).1 (by linarith) (lt_of_le_of_lt u (by norm_num))
      (by rw [abs_le]; push_cast; constructor <;> linarith)
    simpa using this
  refine ⟨key, ?_⟩
  by_cases hq : 1 / 4 ≤ p.val
  · rw [key hq, sub_self, abs_zero]; norm_num
  · push Not at hq
    rw [e]
    refine (rnd32_err _).trans (max_le ?_ (by norm_num))
    have : |p.val - 1 / 2| ≤ 1 / 2 := by rw [abs_le]; constructor <;> linarith
    have := mul_le_mul_of_nonneg_right this (show (0 : ℚ) ≤ 1 / 2 ^ 24 by norm_num)
    norm_num at this ⊢
    linarith

/-- **C165, ranges.**  The pixels updated along an axis are those of exact arithmetic, up to the last one: it may be added, if
the pixel is in the support. -/
theorem C165_range {p r : F32} {n : ℤ} (size : ℤ) (h : Pos p) (hr : Range r n) :
    low p r = some (Film.lowPix p.val n) ∧
    ∃ hi, high p r size = some hi ∧ Film.highPix p.val n size ≤ hi ∧ hi ≤ min ⌈p.val - 1 / 2 + n⌉ size := by
  obtain ⟨f, e, c1, c2⟩ := centre_spec h
  obtain ⟨fr, er, n1, n2⟩ := hr
  have nq1 : (1 : ℚ) ≤ n := by exact_mod_cast n1
  have nq2 : (n : ℚ) ≤ 8 := by exact_mod_cast n2
  have b24 : (2 : ℚ) ^ 16 + 8 ≤ 2 ^ 24 := by norm_num
  have an : |n| ≤ 2 ^ 24 := by rw [abs_of_nonneg (by omega)]; omega
  constructor
  · have l1 : ((-9 : ℤ) : ℚ) ≤ rnd32 ((centre p).val - n) := int_le (by norm_num) (by push_cast; linarith)
    have l2 : rnd32 ((centre p).val - n) ≤ ((2 ^ 16 : ℤ) : ℚ) := le_int (by norm_num) (by push_cast; linarith)
    push_cast at l1 l2
    have hb : |rnd32 ((centre p).val - n)| ≤ 2 ^ 24 := by rw [abs_le]; constructor <;> linarith
    obtain ⟨fs, es⟩ := sub_fin f fr (by rw [er]; exact lt_of_le_of_lt hb (by norm_num))
    rw [er] at es
    unfold low
    rw [ceilInt_eq fs (by rw [es]; exact hb), es]
    show some (max _ 0) = some _
    congr 1
    unfold Film.lowPix
    by_cases hc : (n : ℚ) ≤ (centre p).val
    · have hp : 1 / 4 ≤ p.val := by
        by_contra hq
        push Not at hq
        have : rnd32 (p.val - 1 / 2) ≤ ((0 : ℤ) : ℚ) := le_int (by norm_num) (by push_cast; linarith)
        rw [← e] at this
        push_cast at this
        linarith
      have ec := (C165_centre h).1 hp
      have := sub_exact (n := 2 * n) (a := (centre p).val) (by rw [e, rnd32_rnd32]) (by linarith)
        (lt_of_le_of_lt c2 (by norm_num)) (by rw [abs_le]; push_cast; constructor <;> linarith)
      rw [show (((2 * n : ℤ) : ℚ)) / 2 = n by push_cast; ring] at this
      rw [this, ec]
    · push Not at hc
      have a1 : ⌈rnd32 ((centre p).val - n)⌉ ≤ 0 := by
        apply Int.ceil_le.2
        have := le_int (n := 0) (q := (centre p).val - n) (by norm_num) (by push_cast; linarith)
        exact this
      have a2 : ⌈p.val - 1 / 2 - n⌉ ≤ 0 := by
        apply Int.ceil_le.2
        by_contra hq
        push Not at hq
        push_cast at hq
        have := int_le (n := n) (q := p.val - 1 / 2) an (by linarith)
        rw [← e] at this
        linarith
      rw [max_eq_right a1, max_eq_right a2]
  · have l1 : ((-1 : ℤ) : ℚ) ≤ rnd32 ((centre p).val + n) := int_le (by norm_num) (by push_cast; linarith)
    have l2 : rnd32 ((centre p).val + n) ≤ ((2 ^ 16 + 8 : ℤ) : ℚ) := le_int (by norm_num) (by push_cast; linarith)
    push_cast at l1 l2
    have hb : |rnd32 ((centre p).val + n)| ≤ 2 ^ 24 := by rw [abs_le]; constructor <;> linarith
    obtain ⟨fs, es⟩ := add_finite f fr (by rw [er]; exact lt_of_le_of_lt hb (by norm_num))
    rw [er] at es
    refine ⟨min ⌊rnd32 ((centre p).val + n)⌋ size, ?_, ?_, ?_⟩
    · unfold high
      rw [floorInt_eq fs (by rw [es]; exact hb), es]; rfl
    · unfold Film.highPix
      apply min_le_min _ le_rfl
      apply Int.le_floor.2
      have p0 := h.2.2.1
      have p1 := h.2.2.2
      have m1 : -1 ≤ ⌊p.val - 1 / 2 + n⌋ := Int.le_floor.2 (by push_cast; linarith)
      have m2 : ⌊p.val - 1 / 2 + n⌋ ≤ 2 ^ 16 + 8 := by
        have := Int.floor_le (p.val - 1 / 2 + n)
        have h3 : (⌊p.val - 1 / 2 + n⌋ : ℚ) ≤ ((2 ^ 16 + 8 : ℤ) : ℚ) := by push_cast; linarith
        exact_mod_cast h3
      apply int_le (by rw [abs_le]; constructor <;> omega)
      have k := int_le (n := ⌊p.val - 1 / 2 + n⌋ - n) (q := p.val - 1 / 2) (by rw [abs_le]; constructor <;> omega) (by
        push_cast; have := Int.floor_le (p.val - 1 / 2 + n); linarith)
      rw [← e] at k
      push_cast at k
      linarith
    · apply min_le_min _ le_rfl
      have p0 := h.2.2.1
      have p1 := h.2.2.2
      have m1 : -1 ≤ ⌈p.val - 1 / 2 + n⌉ := by
        have := Int.le_ceil (p.val - 1 / 2 + n)
        have h3 : ((-1 : ℤ) : ℚ) ≤ ⌈p.val - 1 / 2 + n⌉ := by push_cast; linarith
        exact_mod_cast h3
      have m2 : ⌈p.val - 1 / 2 + n⌉ ≤ 2 ^ 16 + 8 := Int.ceil_le.2 (by push_cast; linarith)
      have k := le_int (n := ⌈p.val - 1 / 2 + n⌉ - n) (q := p.val - 1 / 2) (by rw [abs_le]; constructor <;> omega) (by
        push_cast; have := Int.le_ceil (p.val - 1 / 2 + n); linarith)
      rw [← e] at k
      push_cast at k
      have k2 := le_int (n := ⌈p.val - 1 / 2 + n⌉) (q := (centre p).val + n) (by rw [abs_le]; constructor <;> omega)
        (by linarith)
      have := Int.floor_le (rnd32 ((centre p).val + n))
      have : (⌊rnd32 ((centre p).val + n)⌋ : ℚ) ≤ ⌈p.val - 1 / 2 + n⌉ := by linarith
      exact_mod_cast this

/-- The pixels of the loop, image_film.cpp:66-67, along an axis. -/
def Visited (p r : F32) (size x : ℤ) : Prop := ∃ lo hi, low p r = some lo ∧ high p r size = some hi ∧ lo ≤ x ∧ x < hi

/-- **C165, pixels.**  Only pixels of the image in the support of the filter are updated, and all of them but the last one. -/
theorem C165_pixels {p r : F32} {n : ℤ} (size : ℤ) (h : Pos p) (hr : Range r n) (x : ℤ) :
    (Visited p r size x → Film.InSupport p.val n size x) ∧
    (Film.InSupport p.val n size x → x ≠ ⌊p.val - 1 / 2 + n⌋ → Visited p r size x) := by
  obtain ⟨e1, hi, e2, b1, b2⟩ := C165_range size h hr
  constructor
  · rintro ⟨lo, hi', h1, h2, h3, h4⟩
    rw [e1] at h1
    rw [e2] at h2
    cases h1
    cases h2
    unfold Film.lowPix at h3
    obtain ⟨h5, h6⟩ := max_le_iff.1 h3
    obtain ⟨h7, h8⟩ := lt_min_iff.1 (lt_of_lt_of_le h4 b2)
    have h9 := Int.lt_ceil.1 h7
    have h10 := Int.ceil_le.1 h5
    refine ⟨h6, h8, ?_⟩
    rw [abs_le]
    constructor <;> linarith
  · intro h1 h2
    have := (Film.C11_updated_iff p.val n size x).2 ⟨h1, h2⟩
    rw [Film.mem_loop] at this
    exact ⟨_, hi, e1, e2, this.1, lt_of_lt_of_le this.2 b1⟩

/-- **C165, offsets.**  The offset given to the filter is a number of the range of the filter. -/
theorem C165_offset {p r : F32} {n size : ℤ} (h : Pos p) (hr : Range r n) (hs : size ≤ 2 ^ 16) (x : ℤ)
    (hx : Visited p r size x) : In (-n) n (offset x p) ∧ |(offset x p).val - (x + 1 / 2 - p.val)| ≤ n / 2 ^ 24 + 1 / 2 ^ 25 := by
  obtain ⟨x0, x1, x2⟩ := (C165_pixels size h hr x).1 hx
  obtain ⟨f, e, c1, c2⟩ := centre_spec h
  obtain ⟨fr, er, n1, n2⟩ := hr
  have ax : |x| ≤ 2 ^ 24 := by rw [abs_of_nonneg x0]; omega
  have an : |n| ≤ 2 ^ 24 := by rw [abs_of_nonneg (by omega)]; omega
  have nq1 : (1 : ℚ) ≤ n := by exact_mod_cast n1
  have nq2 : (n : ℚ) ≤ 8 := by exact_mod_cast n2
  obtain ⟨fx, ex⟩ := round_finite (s := false) (q := x) (by
    rw [rnd_int x ax, ← Int.cast_abs]
    have : ((|x| : ℤ) : ℚ) ≤ ((2 ^ 24 : ℤ) : ℚ) := by exact_mod_cast ax
    refine lt_of_le_of_lt this ?_
    norm_num)
  rw [rnd_int x ax] at ex
  obtain ⟨y1, y2⟩ := abs_le.1 x2
  have k1 : ((x - n : ℤ) : ℚ) ≤ (centre p).val := by
    rw [e]; apply int_le (by rw [abs_le]; constructor <;> omega); push_cast; linarith
  have k2 : (centre p).val ≤ ((x + n : ℤ) : ℚ) := by
    rw [e]; apply le_int (by rw [abs_le]; constructor <;> omega); push_cast; linarith
  push_cast at k1 k2
  have o1 : (((-n : ℤ)) : ℚ) ≤ rnd32 (x - (centre p).val) := int_le (by rw [abs_neg]; exact an) (by push_cast; linarith)
  have o2 : rnd32 (x - (centre p).val) ≤ ((n : ℤ) : ℚ) := le_int an (by linarith)
  push_cast at o1
  have ho : (offset x p).Finite ∧ (offset x p).val = rnd32 (x - (centre p).val) := by
    have := sub_fin fx f (by
      rw [ex, abs_lt]
      have : (8 : ℚ) < 2 ^ 128 := by norm_num
      constructor <;> linarith)
    rw [ex] at this
    exact this
  refine ⟨⟨ho.1, by rw [ho.2]; exact o1, by rw [ho.2]; exact o2⟩, ?_⟩
  rw [ho.2]
  have e1 : |rnd32 (x - (centre p).val) - (x - (centre p).val)| ≤ n / 2 ^ 24 := by
    refine (rnd32_err _).trans (max_le ?_ ?_)
    · have : |(x : ℚ) - (centre p).val| ≤ n := by rw [abs_le]; constructor <;> linarith
      rw [mul_one_div]
      gcongr
    · refine le_trans (b := 1 / 2 ^ 24) (by norm_num) ?_
      gcongr
  have e2 := (C165_centre h).2
  have : rnd32 (x - (centre p).val) - (x + 1 / 2 - p.val) =
      (rnd32 (x - (centre p).val) - (x - (centre p).val)) - ((centre p).val - (p.val - 1 / 2)) := by ring
  rw [this]
  exact (abs_sub _ _).trans (add_le_add e1 e2)

/-- Rounding adds the pixel 4 for the tent filter: in exact arithmetic the loop ends before. -/
example : low (num (7 / 2 - 1 / 2 ^ 22)) (num 2) = some 1 ∧ high (num (7 / 2 - 1 / 2 ^ 22)) (num 2) 32 = some 5 ∧
    Film.highPix (7 / 2 - 1 / 2 ^ 22) 2 32 = 4 := by decide +kernel

/-- A position and a filter for the theorems. -/
example : Pos (num (7 / 2 - 1 / 2 ^ 22)) ∧ Range (num 2) 2 ∧ Visited (num (7 / 2 - 1 / 2 ^ 22)) (num 2) 32 4 :=
  ⟨⟨⟨by norm_num, by decide +kernel, by norm_num⟩, trivial, by norm_num [F32.val], by norm_num [F32.val]⟩,
    ⟨trivial, by norm_num [F32.val], by norm_num, by norm_num⟩,
    ⟨1, 5, by decide +kernel, by decide +kernel, by norm_num, by norm_num⟩⟩

/-! ### Tent -/

theorem abs_in {x : F32} (h : In (-2) 2 x) : In 0 2 (F32.abs x) := by
  obtain ⟨f, l, u⟩ := h
  obtain ⟨g, e⟩ := abs_finite f
  exact ⟨g, by rw [e]; exact abs_nonneg _, by rw [e, abs_le]; exact ⟨l, u⟩⟩

/-- A result and its rounding error. -/
theorem in_rd {v : F32} {e lo hi : ℚ} {k : ℤ} (hv : |rnd32 e| < 2 ^ 128 → v.Finite ∧ v.val = rnd32 e) (h1 : lo ≤ e)
    (h2 : e ≤ hi) (rl : Rep lo) (rh : Rep hi) (hk : -126 ≤ k) (h3 : |e| ≤ 2 ^ k) :
    In lo hi v ∧ |v.val - e| ≤ 2 ^ k * (1 / 2 ^ 24) := by
  obtain ⟨x, y, z⟩ := rnd_between h1 h2 rl rh
  obtain ⟨f, r⟩ := hv x
  exact ⟨⟨f, by rw [r]; exact y, by rw [r]; exact z⟩, by rw [r]; exact FTri.rnd32_err_pow hk h3⟩

theorem rep0 : Rep 0 := ⟨by decide +kernel, by norm_num⟩
theorem rep1 : Rep 1 := ⟨by decide +kernel, by norm_num⟩
theorem rep2 : Rep 2 := ⟨by decide +kernel, by norm_num⟩
theorem repm1 : Rep (-1) := ⟨by decide +kernel, by norm_num⟩

theorem side {x : F32} (h : In (-2) 2 x) : In 0 2 (fmax zip (F32.sub two (F32.abs x))) ∧
    |(fmax zip (F32.sub two (F32.abs x))).val - (2 - |x.val|)| ≤ 1 / 2 ^ 23 := by
  have ha := abs_in h
  have e := (abs_finite h.1).2
  obtain ⟨hs, er⟩ := in_rd (lo := 0) (hi := 2) (k := 1) (sub_fin two_finite.1 ha.1)
    (by rw [two_finite.2]; linarith [ha.2.2]) (by rw [two_finite.2]; linarith [ha.2.1]) rep0 rep2 (by norm_num)
    (by rw [two_finite.2, abs_le]; norm_num; constructor <;> linarith [ha.2.1, ha.2.2])
  obtain ⟨hm, em⟩ := in_fmax hs (by norm_num)
  refine ⟨hm, ?_⟩
  rw [em, max_eq_right hs.2.1, ← e]
  rw [two_finite.2] at er
  exact er.trans (by norm_num)

/-- **C165, tent.**  The weights of the tent are in [0, 1] and right up to `2^-21`. -/
theorem C165_tent {x y : F32} (hx : In (-2) 2 x) (hy : In (-2) 2 y) : In 0 1 (tent x y) ∧
    |(tent x y).val - (2 - |x.val|) / 2 * ((2 - |y.val|) / 2)| ≤ 1 / 2 ^ 21 := by
  obtain ⟨a, ea⟩ := side hx
  obtain ⟨b, eb⟩ := side hy
  have ax := abs_le.2 ⟨hx.2.1, hx.2.2⟩
  have ay := abs_le.2 ⟨hy.2.1, hy.2.2⟩
  have ax0 := abs_nonneg x.val
  have ay0 := abs_nonneg y.val
  unfold tent
  generalize fmax zip (F32.sub two (F32.abs x)) = s at *
  generalize fmax zip (F32.sub two (F32.abs y)) = t at *
  obtain ⟨fs, s0, s1⟩ := a
  obtain ⟨ft, t0, t1⟩ := b
  obtain ⟨hd, ed⟩ := in_rd (lo := 0) (hi := 1) (k := 0) (div_finite fs two_finite.1 (by rw [two_finite.2]; norm_num))
    (by rw [two_finite.2]; linarith) (by rw [two_finite.2]; linarith) rep0 rep1 (by norm_num)
    (by rw [two_finite.2, abs_of_nonneg (by linarith)]; norm_num; linarith)
  rw [two_finite.2] at ed
  generalize div s two = d at *
  obtain ⟨fd, d0, d1⟩ := hd
  have p0 : 0 ≤ d.val * t.val := mul_nonneg d0 t0
  have p1 : d.val * t.val ≤ 2 := by nlinarith
  obtain ⟨hm, em⟩ := in_rd (lo := 0) (hi := 2) (k := 1) (mul_finite fd ft) p0 p1 rep0 rep2 (by norm_num)
    (by rw [abs_of_nonneg p0]; norm_num; exact p1)
  generalize F32.mul d t = m at *
  obtain ⟨fm, m0, m1⟩ := hm
  obtain ⟨hr, er⟩ := in_rd (lo := 0) (hi := 1) (k := 0) (div_finite fm two_finite.1 (by rw [two_finite.2]; norm_num))
    (by rw [two_finite.2]; linarith) (by rw [two_finite.2]; linarith) rep0 rep1 (by norm_num)
    (by rw [two_finite.2, abs_of_nonneg (by linarith)]; norm_num; linarith)
  rw [two_finite.2] at er
  refine ⟨hr, ?_⟩
  generalize div m two = r at *
  generalize |x.val| = X at *
  generalize |y.val| = Y at *
  have k1 : |d.val - (2 - X) / 2| ≤ 1 / 2 ^ 23 := by
    obtain ⟨a1, a2⟩ := abs_le.1 ea
    obtain ⟨b1, b2⟩ := abs_le.1 ed
    norm_num at *
    rw [abs_le]
    constructor <;> linarith
  have k2 : |d.val * t.val - (2 - X) / 2 * (2 - Y)| ≤ 3 / 2 ^ 23 := by
    have e : d.val * t.val - (2 - X) / 2 * (2 - Y) = (d.val - (2 - X) / 2) * t.val + (2 - X) / 2 * (t.val - (2 - Y)) := by
      ring
    rw [e]
    refine (abs_add_le _ _).trans ?_
    rw [abs_mul, abs_mul, abs_of_nonneg t0, abs_of_nonneg (by linarith : 0 ≤ (2 - X) / 2)]
    have h1 : |d.val - (2 - X) / 2| * t.val ≤ 1 / 2 ^ 23 * 2 := mul_le_mul k1 t1 t0 (by norm_num)
    have h2 : (2 - X) / 2 * |t.val - (2 - Y)| ≤ 1 * (1 / 2 ^ 23) := mul_le_mul (by linarith) eb (abs_nonneg _) (by norm_num)
    linarith
  rw [show (2 - X) / 2 * ((2 - Y) / 2) = (2 - X) / 2 * (2 - Y) / 2 by ring]
  generalize (2 - X) / 2 * (2 - Y) = Z at *
  generalize d.val * t.val = W at *
  obtain ⟨a1, a2⟩ := abs_le.1 k2
  obtain ⟨b1, b2⟩ := abs_le.1 em
  obtain ⟨c1, c2⟩ := abs_le.1 er
  norm_num at *
  rw [abs_le]
  constructor <;> linarith

example : tent (num 1) (num (-1 / 2)) = num (3 / 8) := by decide +kernel

/-! ### Gaussian -/

/-- What is assumed of `expf`: nothing of a number that is not positive gets larger than one, nor negative. -/
def ExpSpec (exp : F32 → F32) : Prop := ∀ v : F32, v.Finite → v.val ≤ 0 → In 0 1 (exp v)

theorem gauss_arg {a x : F32} (ha : In 0 (2 ^ 100) a) (hx : In (-2) 2 x) :
    (F32.mul (F32.mul (neg a) x) x).Finite ∧ (F32.mul (F32.mul (neg a) x) x).val ≤ 0 := by
  obtain ⟨fa, a0, a1⟩ := ha
  obtain ⟨fx, x0, x1⟩ := hx
  obtain ⟨fn, en⟩ := neg_finite fa
  have b1 : |(neg a).val * x.val| ≤ 2 ^ (101 : ℤ) := by
    rw [en, abs_mul, abs_neg, abs_of_nonneg a0]
    have : |x.val| ≤ 2 := abs_le.2 ⟨x0, x1⟩
    calc a.val * |x.val| ≤ 2 ^ 100 * 2 := mul_le_mul a1 this (abs_nonneg _) (by norm_num)
      _ = _ := by norm_num
  have r1 := FTri.rnd32_abs_le (by norm_num) b1
  obtain ⟨f1, e1⟩ := mul_finite fn fx (lt_of_le_of_lt r1 (FTri.pow_lt128 (by norm_num)))
  have b2 : |(F32.mul (neg a) x).val * x.val| ≤ 2 ^ (102 : ℤ) := by
    rw [abs_mul]
    have : |x.val| ≤ 2 := abs_le.2 ⟨x0, x1⟩
    calc |(F32.mul (neg a) x).val| * |x.val| ≤ 2 ^ (101 : ℤ) * 2 :=
          mul_le_mul (by rw [e1]; exact r1) this (abs_nonneg _) (by norm_num)
      _ = _ := by norm_num
  obtain ⟨f2, e2⟩ := mul_finite f1 fx (lt_of_le_of_lt (FTri.rnd32_abs_le (by norm_num) b2) (FTri.pow_lt128 (by norm_num)))
  refine ⟨f2, ?_⟩
  rw [e2]
  have key : (F32.mul (neg a) x).val * x.val ≤ 0 := by
    rw [e1]
    rcases le_total 0 x.val with hx | hx
    · have := rnd32_mono (a := (neg a).val * x.val) (b := 0) (by rw [en]; nlinarith)
      rw [rnd32_zero] at this
      exact mul_nonpos_of_nonpos_of_nonneg this hx
    · have := rnd32_mono (a := 0) (b := (neg a).val * x.val) (by rw [en]; nlinarith)
      rw [rnd32_zero] at this
      exact mul_nonpos_of_nonneg_of_nonpos this hx
  have := rnd32_mono key
  rwa [rnd32_zero] at this

/-- **C165, Gaussian.**  The weights of the Gaussian are in [0, 1]. -/
theorem C165_gaussian {exp : F32 → F32} (he : ExpSpec exp) {a x y : F32} (ha : In 0 (2 ^ 100) a) (hx : In (-2) 2 x)
    (hy : In (-2) 2 y) : In 0 1 (gaussian exp a x y) := by
  have one_side : ∀ x : F32, In (-2) 2 x → In 0 1 (gauss1 exp a x) := by
    intro x hx
    have h1 := he _ (gauss_arg ha hx).1 (gauss_arg ha hx).2
    have two_in : In (-2) 2 two := ⟨two_finite.1, by rw [two_finite.2]; norm_num, by rw [two_finite.2]⟩
    have h2 := he _ (gauss_arg ha two_in).1 (gauss_arg ha two_in).2
    unfold gauss1 gaussEnd
    generalize exp (F32.mul (F32.mul (neg a) x) x) = u at *
    generalize exp (F32.mul (F32.mul (neg a) two) two) = v at *
    exact (in_fmax (in_sub h1.1 h2.1 (lo := -1) (hi := 1) (by linarith [h1.2.1, h2.2.2]) (by linarith [h1.2.2, h2.2.1])
      repm1 rep1) (by norm_num)).1
  have p := one_side x hx
  have q := one_side y hy
  exact in_mul p.1 q.1 (mul_nonneg p.2.1 q.2.1) (by nlinarith [p.2.1, p.2.2, q.2.1, q.2.2]) rep0 rep1

/-- A step function is enough for the hypothesis. -/
example : ExpSpec (fun v => if F32.lt v (num (-1)) then zip else one) := by
  intro v _ _
  dsimp only
  split
  · exact ⟨trivial, by norm_num [F32.val, zip], by norm_num [F32.val, zip]⟩
  · exact ⟨trivial, by norm_num [F32.val, one], by norm_num [F32.val, one]⟩

/-- **C165, violated by a negative falloff.**  Where `expf` overflows, the weights are NaN. -/
theorem C165_violated_gaussian {exp : F32 → F32} (he : ∀ v : F32, v.Finite → 100 ≤ v.val → exp v = inf false) :
    gaussian exp (num (-100)) (num 1) (num 1) = nan := by
  have h1 : exp (F32.mul (F32.mul (neg (num (-100))) (num 1)) (num 1)) = inf false := by
    rw [show F32.mul (F32.mul (neg (num (-100))) (num 1)) (num 1) = num 100 by decide +kernel]
    exact he _ trivial (by norm_num [F32.val])
  have h2 : gaussEnd exp (num (-100)) = inf false := by
    unfold gaussEnd
    rw [show F32.mul (F32.mul (neg (num (-100))) two) two = num 400 by decide +kernel]
    exact he _ trivial (by norm_num [F32.val])
  have h3 : gauss1 exp (num (-100)) (num 1) = nan := by
    unfold gauss1
    rw [h1, h2]
    rfl
  unfold gaussian
  rw [h3]
  rfl

/-! ### Mitchell -/

/-- One axis of the filter of Mitchell and Netravali, exactly. -/
def exactMitchell (b c x : ℚ) : ℚ :=
  if 1 < x then
    ((-b - 6 * c) * x * x * x + (6 * b + 30 * c) * x * x + (-12 * b - 48 * c) * x + (8 * b + 24 * c)) * (1 / 6)
  else
    ((12 - 9 * b - 6 * c) * x * x * x + (-18 + 12 * b + 6 * c) * x * x + (6 - 2 * b)) * (1 / 6)

theorem exactMitchell_le {b c x : ℚ} (b0 : 0 ≤ b) (b1 : b ≤ 1) (c0 : 0 ≤ c) (c1 : c ≤ 1) (x0 : 0 ≤ x) (x2 : x ≤ 2) :
    |exactMitchell b c x| ≤ 3 / 2 := by
  unfold exactMitchell
  split_ifs with h
  · have e : ((-b - 6 * c) * x * x * x + (6 * b + 30 * c) * x * x + (-12 * b - 48 * c) * x + (8 * b + 24 * c)) * (1 / 6) =
        b * (2 - x) ^ 3 / 6 - c * ((x - 1) * (2 - x) ^ 2) := by ring
    rw [e]
    have t0 : 0 ≤ 2 - x := by linarith
    have t1 : 2 - x ≤ 1 := by linarith
    have p3 : (2 - x) ^ 3 ≤ 1 := pow_le_one₀ t0 t1
    have p3' : 0 ≤ (2 - x) ^ 3 := pow_nonneg t0 3
    have p2 : (2 - x) ^ 2 ≤ 1 := pow_le_one₀ t0 t1
    have q : (x - 1) * (2 - x) ^ 2 ≤ 1 := mul_le_one₀ (by linarith) (by positivity) p2
    have q' : 0 ≤ (x - 1) * (2 - x) ^ 2 := mul_nonneg (by linarith) (by positivity)
    have u := mul_le_one₀ b1 p3' p3
    have u' := mul_nonneg b0 p3'
    have v := mul_le_one₀ c1 q' q
    have v' := mul_nonneg c0 q'
    rw [abs_le]
    constructor <;> linarith
  · push Not at h
    have e : ((12 - 9 * b - 6 * c) * x * x * x + (-18 + 12 * b + 6 * c) * x * x + (6 - 2 * b)) * (1 / 6) =
        (1 - x) ^ 2 * (1 + 2 * x) + b * (-9 * x ^ 3 + 12 * x ^ 2 - 2) / 6 + c * (x ^ 2 * (1 - x)) := by ring
    rw [e]
    have s0 : 0 ≤ (1 - x) ^ 2 * (1 + 2 * x) := by positivity
    have s1 : (1 - x) ^ 2 * (1 + 2 * x) ≤ 1 := by nlinarith [mul_nonneg x0 x0, mul_nonneg x0 (sub_nonneg.2 h)]
    have q0 : 0 ≤ x ^ 2 * (1 - x) := mul_nonneg (by positivity) (by linarith)
    have q1 : x ^ 2 * (1 - x) ≤ 1 / 4 := by nlinarith [sq_nonneg (x - 1 / 2), mul_nonneg x0 (sub_nonneg.2 h)]
    have r0 : -2 ≤ -9 * x ^ 3 + 12 * x ^ 2 - 2 := by nlinarith [mul_nonneg (sq_nonneg x) (sub_nonneg.2 h)]
    have r1 : -9 * x ^ 3 + 12 * x ^ 2 - 2 ≤ 5 / 4 := by
      nlinarith [mul_nonneg (sq_nonneg (x - 8 / 9)) (show 0 ≤ x + 4 / 9 by linarith)]
    have u : b * (-9 * x ^ 3 + 12 * x ^ 2 - 2) ≤ 5 / 4 := by nlinarith
    have u' : -2 ≤ b * (-9 * x ^ 3 + 12 * x ^ 2 - 2) := by nlinarith
    have v := mul_le_mul c1 q1 q0 (by norm_num)
    have v' := mul_nonneg c0 q0
    rw [abs_le]
    constructor <;> linarith

theorem nr_num {q : ℚ} {k : ℤ} (h : |q| ≤ 2 ^ k) : FTri.Nr (num q) q k 0 := FTri.nr_self (x := num q) trivial h

theorem nr_in {x : F32} {k : ℤ} (h : In 0 (2 ^ k) x) : FTri.Nr x x.val k 0 :=
  FTri.nr_self h.1 (by rw [abs_of_nonneg h.2.1]; exact h.2.2)

open FTri in
/-- One axis is right up to `2^-12`. -/
theorem mitchell_near {b c x : F32} (hb : In 0 1 b) (hc : In 0 1 c) (hx : In 0 2 x) :
    (mitchell1 b c x).Finite ∧ |(mitchell1 b c x).val - exactMitchell b.val c.val x.val| ≤ 1 / 2 ^ 12 := by
  have nb : Nr b b.val 0 0 := nr_in (by simpa using hb)
  have nc : Nr c c.val 0 0 := nr_in (by simpa using hc)
  have sixth : Nr (div one (num 6)) (1 / 6) (-2) 1 := by
    have := nr_of (n := 0) (q := 1 / 6) (k := -2) (div_finite (a := one) (b := num 6) trivial trivial (by norm_num [F32.val])
      (by decide +kernel)) (by norm_num) (by norm_num [F32.val, one, abs_of_pos]) (by norm_num [abs_of_pos])
      (by norm_num [F32.val, one])
    simpa using this
  unfold mitchell1 exactMitchell
  rw [lt_finite one_finite.1 hx.1, one_finite.2]
  split_ifs with h1 h2 h2
  · have nx : Nr x x.val 1 0 := nr_in (by simpa using hx)
    have t1 : Nr _ (6 * c.val) 3 _ := nr_mul (nr_num (q := 6) (k := 3) (by norm_num [abs_of_pos])) nc (by norm_num) (by norm_num)
    have t2 : Nr _ (-b.val - 6 * c.val) 4 _ := nr_sub (nr_neg (nr_lift (nr_lift (nr_lift nb)))) t1 (by norm_num) (by norm_num)
    have t3 : Nr _ ((-b.val - 6 * c.val) * x.val) 5 _ := nr_mul t2 nx (by norm_num) (by norm_num)
    have t4 : Nr _ ((-b.val - 6 * c.val) * x.val * x.val) 6 _ := nr_mul t3 nx (by norm_num) (by norm_num)
    have t5 : Nr _ ((-b.val - 6 * c.val) * x.val * x.val * x.val) 7 _ := nr_mul t4 nx (by norm_num) (by norm_num)
    have u1 : Nr _ (6 * b.val) 3 _ := nr_mul (nr_num (q := 6) (k := 3) (by norm_num [abs_of_pos])) nb (by norm_num) (by norm_num)
    have u2 : Nr _ (30 * c.val) 5 _ := nr_mul (nr_num (q := 30) (k := 5) (by norm_num [abs_of_pos])) nc (by norm_num) (by norm_num)
    have u3 : Nr _ (6 * b.val + 30 * c.val) 6 _ := nr_add (nr_lift (nr_lift u1)) u2 (by norm_num) (by norm_num)
    have u4 : Nr _ ((6 * b.val + 30 * c.val) * x.val) 7 _ := nr_mul u3 nx (by norm_num) (by norm_num)
    have u5 : Nr _ ((6 * b.val + 30 * c.val) * x.val * x.val) 8 _ := nr_mul u4 nx (by norm_num) (by norm_num)
    have v1 : Nr _ (-12 * b.val) 4 _ := nr_mul (nr_num (q := -12) (k := 4) (by norm_num [abs_of_pos])) nb (by norm_num) (by norm_num)
    have v2 : Nr _ (48 * c.val) 6 _ := nr_mul (nr_num (q := 48) (k := 6) (by norm_num [abs_of_pos])) nc (by norm_num) (by norm_num)
    have v3 : Nr _ (-12 * b.val - 48 * c.val) 7 _ := nr_sub (nr_lift (nr_lift v1)) v2 (by norm_num) (by norm_num)
    have v4 : Nr _ ((-12 * b.val - 48 * c.val) * x.val) 8 _ := nr_mul v3 nx (by norm_num) (by norm_num)
    have z1 : Nr _ (8 * b.val) 3 _ := nr_mul (nr_num (q := 8) (k := 3) (by norm_num [abs_of_pos])) nb (by norm_num) (by norm_num)
    have z2 : Nr _ (24 * c.val) 5 _ := nr_mul (nr_num (q := 24) (k := 5) (by norm_num [abs_of_pos])) nc (by norm_num) (by norm_num)
    have z3 : Nr _ (8 * b.val + 24 * c.val) 6 _ := nr_add (nr_lift (nr_lift z1)) z2 (by norm_num) (by norm_num)
    have w1 : Nr _ _ 9 _ := nr_add (nr_lift t5) u5 (by norm_num) (by norm_num)
    have w2 : Nr _ _ 10 _ := nr_add w1 (nr_lift v4) (by norm_num) (by norm_num)
    have w3 : Nr _ _ 11 _ := nr_add w2 (nr_lift (nr_lift (nr_lift (nr_lift z3)))) (by norm_num) (by norm_num)
    have w4 : Nr _ _ 9 _ := nr_mul w3 sixth (by norm_num) (by norm_num)
    refine ⟨w4.1, w4.2.2.2.trans ?_⟩
    norm_num
  · simp_all
  · simp_all
  · have x1 : x.val ≤ 1 := not_lt.1 h2
    have nx : Nr x x.val 0 0 := nr_in (by simpa using ⟨hx.1, hx.2.1, x1⟩)
    have t1 : Nr _ (9 * b.val) 4 _ := nr_mul (nr_num (q := 9) (k := 4) (by norm_num [abs_of_pos])) nb (by norm_num) (by norm_num)
    have t2 : Nr _ (12 - 9 * b.val) 5 _ := nr_sub (nr_num (q := 12) (k := 4) (by norm_num [abs_of_pos])) t1 (by norm_num) (by norm_num)
    have t3 : Nr _ (6 * c.val) 3 _ := nr_mul (nr_num (q := 6) (k := 3) (by norm_num [abs_of_pos])) nc (by norm_num) (by norm_num)
    have t4 : Nr _ (12 - 9 * b.val - 6 * c.val) 6 _ := nr_sub t2 (nr_lift (nr_lift t3)) (by norm_num) (by norm_num)
    have t5 : Nr _ ((12 - 9 * b.val - 6 * c.val) * x.val) 6 _ := nr_mul t4 nx (by norm_num) (by norm_num)
    have t6 : Nr _ ((12 - 9 * b.val - 6 * c.val) * x.val * x.val) 6 _ := nr_mul t5 nx (by norm_num) (by norm_num)
    have t7 : Nr _ ((12 - 9 * b.val - 6 * c.val) * x.val * x.val * x.val) 6 _ := nr_mul t6 nx (by norm_num) (by norm_num)
    have u1 : Nr _ (12 * b.val) 4 _ := nr_mul (nr_num (q := 12) (k := 4) (by norm_num [abs_of_pos])) nb (by norm_num) (by norm_num)
    have u2 : Nr _ (-18 + 12 * b.val) 6 _ := nr_add (nr_num (q := -18) (k := 5) (by norm_num [abs_of_pos])) (nr_lift u1) (by norm_num) (by norm_num)
    have u3 : Nr _ (-18 + 12 * b.val + 6 * c.val) 7 _ := nr_add u2 (nr_lift (nr_lift (nr_lift t3))) (by norm_num) (by norm_num)
    have u4 : Nr _ ((-18 + 12 * b.val + 6 * c.val) * x.val) 7 _ := nr_mul u3 nx (by norm_num) (by norm_num)
    have u5 : Nr _ ((-18 + 12 * b.val + 6 * c.val) * x.val * x.val) 7 _ := nr_mul u4 nx (by norm_num) (by norm_num)
    have v1 : Nr _ (2 * b.val) 1 _ := nr_mul (nr_num (q := 2) (k := 1) (by norm_num)) nb (by norm_num) (by norm_num)
    have v2 : Nr _ (6 - 2 * b.val) 4 _ := nr_sub (nr_num (q := 6) (k := 3) (by norm_num [abs_of_pos])) (nr_lift (nr_lift v1)) (by norm_num) (by norm_num)
    have w1 : Nr _ _ 8 _ := nr_add (nr_lift t7) u5 (by norm_num) (by norm_num)
    have w2 : Nr _ _ 9 _ := nr_add w1 (nr_lift (nr_lift (nr_lift (nr_lift v2)))) (by norm_num) (by norm_num)
    have w3 : Nr _ _ 7 _ := nr_mul w2 sixth (by norm_num) (by norm_num)
    refine ⟨w3.1, w3.2.2.2.trans ?_⟩
    norm_num

/-- Halving is exact. -/
theorem half_exact {a : ℚ} (h : rnd32 a = a) (h0 : 2 ^ (-100 : ℤ) ≤ a) (h1 : a < 2 ^ 17) : rnd32 (a * (1 / 2)) = a * (1 / 2) := by
  have hp : 0 < a := lt_of_lt_of_le (two_zpow_pos _) h0
  obtain ⟨m, k, e, k1, k2, m0, m1, kl⟩ := digits h hp h1
  have hl : -100 ≤ Int.log 2 a := (Int.zpow_le_iff_le_log (by norm_num) hp).1 (by exact_mod_cast h0)
  have e2 : a * (1 / 2) = m * 2 ^ (k + -1) := by
    rw [zpow_add₀ (by norm_num), e]; norm_num; ring
  rw [e2]
  exact rnd32_rep m _ (by rw [abs_of_nonneg m0]; exact m1) (by omega)

/-- The argument of an axis is the absolute value of the offset, if that does not underflow. -/
theorem mitchellArg_eq {x : F32} (ho : x.Ok) (hx : In (-2) 2 x) (hn : x.val = 0 ∨ 2 ^ (-100 : ℤ) ≤ |x.val|) :
    In 0 2 (mitchellArg x) ∧ (mitchellArg x).val = |x.val| := by
  have ax := abs_le.2 ⟨hx.2.1, hx.2.2⟩
  have h1 : rnd32 (x.val * (1 / 2)) = x.val * (1 / 2) := by
    have oe := (ok_val ho).1
    rcases hn with h | h
    · rw [h, zero_mul, rnd32_zero]
    · rcases le_total 0 x.val with h0 | h0
      · rw [abs_of_nonneg h0] at h ax
        exact half_exact oe h (lt_of_le_of_lt ax (by norm_num))
      · rw [abs_of_nonpos h0] at h ax
        have := half_exact (a := -x.val) (by rw [rnd32_neg, oe]) h (lt_of_le_of_lt ax (by norm_num))
        rw [show -x.val * (1 / 2) = -(x.val * (1 / 2)) by ring, rnd32_neg] at this
        linarith
  obtain ⟨f1, e1⟩ := mul_finite (b := num (1 / 2)) hx.1 trivial (by
    show |rnd32 (x.val * (1 / 2))| < _
    rw [h1, abs_mul]
    norm_num
    linarith)
  have e1 : (F32.mul x (num (1 / 2))).val = x.val * (1 / 2) := e1.trans h1
  have e2 : (F32.mul x (num (1 / 2))).val * two.val = x.val := by rw [e1, two_finite.2]; ring
  obtain ⟨f2, e3⟩ := mul_finite f1 two_finite.1 (by
    rw [e2, (ok_val ho).1]
    exact lt_of_le_of_lt ax (by norm_num))
  rw [e2, (ok_val ho).1] at e3
  obtain ⟨f4, e4⟩ := abs_finite f2
  rw [e3] at e4
  exact ⟨⟨f4, by rw [mitchellArg, e4]; exact abs_nonneg _, by rw [mitchellArg, e4]; exact ax⟩, e4⟩

/-- **C165, Mitchell.**  For parameters in [0, 1] the weights are right up to `2^-10`, so in [-9/4, 9/4]. -/
theorem C165_mitchell {b c x y : F32} (hb : In 0 1 b) (hc : In 0 1 c) (ox : x.Ok) (hx : In (-2) 2 x) (oy : y.Ok)
    (hy : In (-2) 2 y) (nx : x.val = 0 ∨ 2 ^ (-100 : ℤ) ≤ |x.val|) (ny : y.val = 0 ∨ 2 ^ (-100 : ℤ) ≤ |y.val|) :
    (mitchell b c x y).Finite ∧
    |(mitchell b c x y).val - (exactMitchell b.val c.val (|x.val|) * exactMitchell b.val c.val (|y.val|))| ≤ 1 / 2 ^ 10 := by
  obtain ⟨ix, ex⟩ := mitchellArg_eq ox hx nx
  obtain ⟨iy, ey⟩ := mitchellArg_eq oy hy ny
  obtain ⟨fx, mx⟩ := mitchell_near hb hc ix
  obtain ⟨fy, my⟩ := mitchell_near hb hc iy
  have qx := exactMitchell_le hb.2.1 hb.2.2 hc.2.1 hc.2.2 ix.2.1 ix.2.2
  have qy := exactMitchell_le hb.2.1 hb.2.2 hc.2.1 hc.2.2 iy.2.1 iy.2.2
  rw [ex] at mx qx
  rw [ey] at my qy
  unfold mitchell
  generalize mitchell1 b c (mitchellArg x) = u at *
  generalize mitchell1 b c (mitchellArg y) = v at *
  generalize exactMitchell b.val c.val (|x.val|) = X at *
  generalize exactMitchell b.val c.val (|y.val|) = Y at *
  have e : u.val * v.val - X * Y = (u.val - X) * Y + (X * (v.val - Y) + (u.val - X) * (v.val - Y)) := by ring
  have d1 : |(u.val - X) * Y| ≤ 1 / 2 ^ 12 * (3 / 2) := by rw [abs_mul]; exact mul_le_mul mx qy (abs_nonneg _) (by norm_num)
  have d2 : |X * (v.val - Y)| ≤ 3 / 2 * (1 / 2 ^ 12) := by rw [abs_mul]; exact mul_le_mul qx my (abs_nonneg _) (by norm_num)
  have d3 : |(u.val - X) * (v.val - Y)| ≤ 1 / 2 ^ 12 * (1 / 2 ^ 12) := by
    rw [abs_mul]; exact mul_le_mul mx my (abs_nonneg _) (by norm_num)
  have d : |u.val * v.val - X * Y| ≤ 4 / 5 * (1 / 2 ^ 10) := by
    rw [e]
    refine (abs_add_le _ _).trans ?_
    have := abs_add_le (X * (v.val - Y)) ((u.val - X) * (v.val - Y))
    norm_num at *
    linarith
  have q : |X * Y| ≤ 9 / 4 := by
    rw [abs_mul]
    calc |X| * |Y| ≤ 3 / 2 * (3 / 2) := mul_le_mul qx qy (abs_nonneg _) (by norm_num)
      _ = _ := by norm_num
  have s : |u.val * v.val| ≤ 2 ^ (2 : ℤ) := by
    have := abs_add_le (u.val * v.val - X * Y) (X * Y)
    rw [sub_add_cancel] at this
    norm_num at *
    linarith
  have r := FTri.rnd32_err_pow (by norm_num) s
  obtain ⟨f, ev⟩ := mul_finite fx fy (lt_of_le_of_lt (FTri.rnd32_abs_le (by norm_num) s) (FTri.pow_lt128 (by norm_num)))
  refine ⟨f, ?_⟩
  rw [ev]
  have := abs_add_le (rnd32 (u.val * v.val) - u.val * v.val) (u.val * v.val - X * Y)
  rw [sub_add_sub_cancel] at this
  norm_num at *
  linarith

theorem third_in : In 0 1 (F32.round false (1 / 3)) := by
  obtain ⟨f, e⟩ := round_finite (s := false) (q := 1 / 3) (by decide +kernel)
  exact ⟨f, by rw [e]; decide +kernel, by rw [e]; decide +kernel⟩

/-- The parameters 1/3 and 1/3, at half a pixel. -/
example : (mitchell (F32.round false (1 / 3)) (F32.round false (1 / 3)) (num (1 / 2)) (num (-1 / 2))).Finite :=
  (C165_mitchell (x := num (1 / 2)) (y := num (-1 / 2)) third_in third_in
    ⟨by norm_num, by decide +kernel, by norm_num⟩ ⟨trivial, by norm_num [F32.val], by norm_num [F32.val]⟩
    ⟨by norm_num, by decide +kernel, by norm_num⟩ ⟨trivial, by norm_num [F32.val], by norm_num [F32.val]⟩
    (Or.inr (by norm_num [F32.val, abs_of_pos])) (Or.inr (by norm_num [F32.val, abs_of_pos]))).1

/-! ### Lanczos -/

/-- What is assumed of `sinf`: it is bounded by one and by its argument. -/
def SinSpec (sin : F32 → F32) : Prop := ∀ v : F32, v.Finite → (sin v).Finite ∧ |(sin v).val| ≤ min 1 |v.val|

theorem sinc_in {sin : F32 → F32} (h : SinSpec sin) {v : F32} (f : v.Finite) (h0 : v.val ≠ 0) : In (-1) 1 (div (sin v) v) := by
  obtain ⟨g, e⟩ := h v f
  have hv : 0 < |v.val| := abs_pos.2 h0
  have : |(sin v).val / v.val| ≤ 1 := by
    rw [abs_div, div_le_one hv]
    exact e.trans (min_le_right _ _)
  exact in_div g f h0 (abs_le.1 this).1 (abs_le.1 this).2 repm1 rep1

theorem small_val : small.Finite ∧ 1 / 2 ^ 17 ≤ small.val := by
  obtain ⟨f, e⟩ := round_finite (s := false) (q := 1 / 100000) (by decide +kernel)
  exact ⟨f, by unfold small; rw [e]; decide +kernel⟩

theorem pi_val : FMicro.onePi.Finite ∧ 3 ≤ FMicro.onePi.val ∧ FMicro.onePi.val ≤ 4 := by
  obtain ⟨f, e⟩ := round_finite (s := false) (q := 3.14159265358979323846264338327950288419716939937510582097494459)
    (by decide +kernel)
  exact ⟨f, by unfold FMicro.onePi; rw [e]; decide +kernel, by unfold FMicro.onePi; rw [e]; decide +kernel⟩

theorem prod_in {a b : F32} (ha : In (-1) 1 a) (hb : In (-1) 1 b) : In (-1) 1 (F32.mul a b) := by
  obtain ⟨fa, a0, a1⟩ := ha
  obtain ⟨fb, b0, b1⟩ := hb
  exact in_mul fa fb (by nlinarith) (by nlinarith) repm1 rep1

theorem lanczos1_in {sin : F32 → F32} (h : SinSpec sin) {tau x : F32} (ht : In (1 / 2 ^ 20) (2 ^ 20) tau) (hx : In (-8) 8 x) :
    In (-1) 1 (lanczos1 sin tau x) := by
  have h1 : In (-2) 2 (F32.mul x (num (1 / 4))) :=
    in_mul hx.1 trivial (by show -2 ≤ x.val * (1 / 4); linarith [hx.2.1]) (by show x.val * (1 / 4) ≤ 2; linarith [hx.2.2])
      ⟨by decide +kernel, by norm_num⟩ rep2
  have h2 := abs_in h1
  unfold lanczos1
  simp only
  generalize F32.abs (F32.mul x (num (1 / 4))) = r at *
  rw [lt_finite h2.1 small_val.1, lt_finite one_finite.1 h2.1, one_finite.2]
  split_ifs with c1 c2
  · exact ⟨one_finite.1, by rw [one_finite.2]; norm_num, by rw [one_finite.2]⟩
  · exact ⟨trivial, by norm_num [F32.val, zip], by norm_num [F32.val, zip]⟩
  · have r0 : 1 / 2 ^ 17 ≤ r.val := by
      have : ¬ r.val < small.val := fun hh => c1 (decide_eq_true hh)
      linarith [small_val.2, not_lt.1 this]
    have r1 := h2.2.2
    obtain ⟨fp, p0, p1⟩ := pi_val
    have a0 : 1 / 2 ^ 17 ≤ r.val * FMicro.onePi.val := by nlinarith
    have a1 : r.val * FMicro.onePi.val ≤ 8 := by nlinarith
    obtain ⟨fa, b0, b1⟩ := in_mul h2.1 fp a0 a1 ⟨by decide +kernel, by norm_num⟩ ⟨by decide +kernel, by norm_num⟩
    generalize F32.mul r FMicro.onePi = a at *
    obtain ⟨ft, t0, t1⟩ := ht
    have d0 : 1 / 2 ^ 37 ≤ a.val * tau.val := by
      calc (1 : ℚ) / 2 ^ 37 = 1 / 2 ^ 17 * (1 / 2 ^ 20) := by norm_num
        _ ≤ _ := mul_le_mul b0 t0 (by norm_num) (by linarith)
    have d1 : a.val * tau.val ≤ 2 ^ 23 := by
      calc a.val * tau.val ≤ 8 * 2 ^ 20 := mul_le_mul b1 t1 (le_trans (by norm_num) t0) (by norm_num)
        _ = _ := by norm_num
    obtain ⟨fd, e0, e1⟩ := in_mul fa ft d0 d1 ⟨by decide +kernel, by norm_num⟩ ⟨by decide +kernel, by norm_num⟩
    have e0' : 0 < (F32.mul a tau).val := lt_of_lt_of_le (by norm_num) e0
    have b0' : 0 < a.val := lt_of_lt_of_le (by norm_num) b0
    exact prod_in (sinc_in h fd e0'.ne') (sinc_in h fa b0'.ne')

/-- **C165, Lanczos.**  The weights of Lanczos are in [-1, 1] for a positive `tau`. -/
theorem C165_lanczos {sin : F32 → F32} (h : SinSpec sin) {tau x y : F32} (ht : In (1 / 2 ^ 20) (2 ^ 20) tau)
    (hx : In (-8) 8 x) (hy : In (-8) 8 y) : In (-1) 1 (lanczos sin tau x y) :=
  prod_in (lanczos1_in h ht hx) (lanczos1_in h ht hy)

/-- The zero function satisfies the hypothesis. -/
example : SinSpec (fun _ => zip) := fun v _ => ⟨trivial, by simp [F32.val, zip]⟩

/-- **C165, violated for `tau` zero.**  Every weight beside the centre is NaN. -/
theorem C165_violated_lanczos {sin : F32 → F32} (h : sin (zero false) = zero false) :
    lanczos sin (zero false) (num 1) (num 1) = nan := by
  have h1 : lanczos1 sin (zero false) (num 1) = nan := by
    unfold lanczos1
    simp only
    rw [show F32.lt (F32.abs (F32.mul (num 1) (num (1 / 4)))) small = false by decide +kernel,
      show F32.lt one (F32.abs (F32.mul (num 1) (num (1 / 4)))) = false by decide +kernel,
      show F32.mul (F32.mul (F32.abs (F32.mul (num 1) (num (1 / 4)))) FMicro.onePi) (zero false) = zero false by decide +kernel,
      h]
    simp only [Bool.false_eq_true, if_false]
    rw [show div (zero false) (zero false) = nan from rfl]
    cases div (sin (F32.mul (F32.abs (F32.mul (num 1) (num (1 / 4)))) FMicro.onePi))
      (F32.mul (F32.abs (F32.mul (num 1) (num (1 / 4)))) FMicro.onePi) <;> rfl
  unfold lanczos
  rw [h1]
  rfl

/-! ### Weights of the pixels -/

theorem grid {a : ℚ} (h : rnd32 a = a) (h0 : 1 / 4 ≤ a) (h1 : a < 2 ^ 17) : ∃ j : ℤ, a = j * 2 ^ (-25 : ℤ) := by
  have hp : 0 < a := by linarith
  obtain ⟨m, k, e, k1, k2, m0, m1, kl⟩ := digits h hp h1
  have hl : -2 ≤ Int.log 2 a := (Int.zpow_le_iff_le_log (by norm_num) hp).1 (by norm_num; linarith)
  obtain ⟨d, hd⟩ := Int.le.dest (show -25 ≤ k by omega)
  refine ⟨m * 2 ^ d, ?_⟩
  rw [e, ← hd]
  rw [zpow_add₀ (by norm_num), zpow_natCast]
  push_cast
  ring

/-- **C165, offsets.**  Offsets are binary32 numbers, and zero or far from underflow. -/
theorem C165_offset_grid {p r : F32} {n size : ℤ} (h : Pos p) (hr : Range r n) (hs : size ≤ 2 ^ 16) (x : ℤ)
    (hx : Visited p r size x) : (offset x p).Ok ∧ ((offset x p).val = 0 ∨ 2 ^ (-25 : ℤ) ≤ |(offset x p).val|) := by
  refine ⟨add_ok _ _, ?_⟩
  have hgrid : ∃ j : ℤ, (centre p).val = j * 2 ^ (-25 : ℤ) := by
    by_cases hq : 1 / 4 ≤ p.val
    · obtain ⟨j, hj⟩ := grid (ok_val h.1).1 hq (lt_of_le_of_lt h.2.2.2 (by norm_num))
      refine ⟨j - 2 ^ 24, ?_⟩
      rw [(C165_centre h).1 hq, hj]
      push_cast
      norm_num
      ring
    · push Not at hq
      have p0 := h.2.2.1
      have e := (centre_spec h).2.1
      have e' : -(centre p).val = rnd32 (1 / 2 - p.val) := by rw [e, ← rnd32_neg]; congr 1; ring
      have l : 2 ^ (-2 : ℤ) ≤ rnd32 (1 / 2 - p.val) := le_rnd32 (by norm_num) (by norm_num; linarith)
      have u : rnd32 (1 / 2 - p.val) ≤ 2 ^ (-1 : ℤ) := rnd32_lt (by norm_num) (by norm_num; linarith)
      obtain ⟨j, hj⟩ := grid (rnd32_rnd32 (1 / 2 - p.val)) (le_trans (by norm_num) l) (lt_of_le_of_lt u (by norm_num))
      refine ⟨-j, ?_⟩
      rw [← e'] at hj
      push_cast
      linarith
  obtain ⟨j, hj⟩ := hgrid
  obtain ⟨x0, x1, -⟩ := (C165_pixels size h hr x).1 hx
  have ax : |x| ≤ 2 ^ 24 := by rw [abs_of_nonneg x0]; omega
  obtain ⟨fx, ex⟩ := round_finite (s := false) (q := x) (by
    rw [rnd_int x ax, ← Int.cast_abs]
    have : ((|x| : ℤ) : ℚ) ≤ ((2 ^ 24 : ℤ) : ℚ) := by exact_mod_cast ax
    refine lt_of_le_of_lt this ?_
    norm_num)
  rw [rnd_int x ax] at ex
  obtain ⟨f, e, c1, c2⟩ := centre_spec h
  have hq : (x : ℚ) - (centre p).val = ((x * 2 ^ 25 - j : ℤ) : ℚ) * 2 ^ (-25 : ℤ) := by
    rw [hj]; push_cast; norm_num; ring
  have hb : |(x : ℚ) - (centre p).val| ≤ 2 ^ (18 : ℤ) := by
    have y0 : (0 : ℚ) ≤ x := by exact_mod_cast x0
    have y1 : (x : ℚ) ≤ 2 ^ 16 := by
      have : x ≤ 2 ^ 16 := by omega
      exact_mod_cast this
    rw [abs_le]
    norm_num at c1 c2 y1 ⊢
    constructor <;> linarith
  have ho : (offset x p).val = rnd32 (x - (centre p).val) := by
    have := (sub_fin fx f (by
      rw [ex]; exact lt_of_le_of_lt (FTri.rnd32_abs_le (by norm_num) hb) (FTri.pow_lt128 (by norm_num)))).2
    rwa [ex] at this
  rw [ho]
  rcases lt_trichotomy (x * 2 ^ 25 - j) 0 with hc | hc | hc
  · right
    have : (1 : ℚ) ≤ -((x * 2 ^ 25 - j : ℤ) : ℚ) := by
      have : 1 ≤ -(x * 2 ^ 25 - j) := by omega
      exact_mod_cast this
    have k : 2 ^ (-25 : ℤ) ≤ -((x : ℚ) - (centre p).val) := by
      rw [hq, ← neg_mul]
      exact le_mul_of_one_le_left (two_zpow_pos _).le this
    have := le_rnd32 (by norm_num) k
    rw [rnd32_neg] at this
    exact this.trans (neg_le_abs _)
  · left
    rw [hq, hc]
    simp [rnd32_zero]
  · right
    have : (1 : ℚ) ≤ ((x * 2 ^ 25 - j : ℤ) : ℚ) := by
      have : 1 ≤ x * 2 ^ 25 - j := by omega
      exact_mod_cast this
    have k : 2 ^ (-25 : ℤ) ≤ (x : ℚ) - (centre p).val := by
      rw [hq]
      exact le_mul_of_one_le_left (two_zpow_pos _).le this
    exact (le_rnd32 (by norm_num) k).trans (le_abs_self _)

/-- **C165.**  The weights of all pixels that a sample updates: numbers in [0, 1] for the tent and the Gaussian, and up to
rounding the exact ones for Mitchell. -/
theorem C165_weights {px py : F32} {w h : ℤ} (hx : Pos px) (hy : Pos py) (hw : w ≤ 2 ^ 16) (hh : h ≤ 2 ^ 16) {x y : ℤ}
    (vx : Visited px two w x) (vy : Visited py two h y) :
    In 0 1 (tent (offset x px) (offset y py)) ∧
    (∀ exp a, ExpSpec exp → In 0 (2 ^ 100) a → In 0 1 (gaussian exp a (offset x px) (offset y py))) ∧
    (∀ b c, In 0 1 b → In 0 1 c → (mitchell b c (offset x px) (offset y py)).Finite ∧
      |(mitchell b c (offset x px) (offset y py)).val - (exactMitchell b.val c.val (|(offset x px).val|) *
        exactMitchell b.val c.val (|(offset y py).val|))| ≤ 1 / 2 ^ 10) := by
  have hr : Range two 2 := ⟨two_finite.1, by rw [two_finite.2]; norm_num, by norm_num, by norm_num⟩
  have ox := (C165_offset hx hr hw x vx).1
  have oy := (C165_offset hy hr hh y vy).1
  have gx := C165_offset_grid hx hr hw x vx
  have gy := C165_offset_grid hy hr hh y vy
  push_cast at ox oy
  have tiny : (2 : ℚ) ^ (-100 : ℤ) ≤ 2 ^ (-25 : ℤ) := by norm_num
  exact ⟨(C165_tent ox oy).1, fun exp a he ha => C165_gaussian he ha ox oy, fun b c hb hc =>
    C165_mitchell hb hc gx.1 ox gy.1 oy (gx.2.imp_right tiny.trans) (gy.2.imp_right tiny.trans)⟩

/-- A sample in the corner of an image and one of its pixels. -/
example : Pos (num (7 / 2)) ∧ Visited (num (7 / 2)) two 32 4 ∧ offset 4 (num (7 / 2)) = num 1 :=
  ⟨⟨⟨by norm_num, by decide +kernel, by norm_num⟩, trivial, by norm_num [F32.val], by norm_num [F32.val]⟩,
    ⟨1, 5, by decide +kernel, by decide +kernel, by norm_num, by norm_num⟩, by decide +kernel⟩

/-- The full statement for weights: numbers in [0, 1], whatever the parameters of the scene file are. -/
def C165_statement : Prop := ∀ sin : F32 → F32, (∀ v, v.Finite → v.val = 0 → sin v = v) → ∀ tau x y : F32, tau.Finite →
  In (-4) 4 x → In (-4) 4 y → In 0 1 (lanczos sin tau x y)

theorem C165_violated_statement : ¬ C165_statement := by
  intro h
  have := h (fun v => v) (fun _ _ _ => rfl) (zero false) (num 1) (num 1) trivial
    ⟨trivial, by norm_num [F32.val], by norm_num [F32.val]⟩ ⟨trivial, by norm_num [F32.val], by norm_num [F32.val]⟩
  rw [C165_violated_lanczos rfl] at this
  exact this.1

end Spectre.FFilter
