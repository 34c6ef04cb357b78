import Verif.Model.FloatTexture
import Verif.Props.FloatPlace
import Verif.Props.FloatFilter
import Verif.Props.Texture
import Mathlib.Tactic.IntervalCases

/-
Property C171: ray differentials and texture lookups in binary32.
-/

namespace Spectre.FTex

open Spectre.Geom Spectre.FMat Spectre.FTri Spectre.Img Spectre.Tex F32

/-! ### Spec -/

/-- The interpolation of four values. -/
def exactMix (a b t0 t1 t2 t3 : ℚ) : ℚ := (t0 * (1 - a) + t1 * a) * (1 - b) + (t2 * (1 - a) + t3 * a) * b

/-- The next texel of the repeated texture. -/
def next (s x : Nat) : Nat := if x + 1 < s then x + 1 else 0

/-- What is used of `log2f`: a number between -17 and 128 for all footprints, and infinity for infinity. -/
structure Log2Spec (log2 : F32 → F32) : Prop where
  ok : ∀ x, x.Finite → 2 ^ (-17 : ℤ) ≤ x.val → (log2 x).Finite ∧ -17 ≤ (log2 x).val ∧ (log2 x).val ≤ 128
  inf : log2 (F32.inf false) = F32.inf false
  nan : log2 F32.nan = F32.nan

/-! ### Numbers -/

theorem ofInt_spec {n : ℤ} (h : |n| ≤ 2 ^ 24) : (ofInt n).Finite ∧ (ofInt n).val = n := by
  have r := FFilter.rnd_int n h
  have : |rnd32 (n : ℚ)| < 2 ^ 128 := by
    rw [r, ← Int.cast_abs]
    have : ((|n| : ℤ) : ℚ) ≤ ((2 ^ 24 : ℤ) : ℚ) := by exact_mod_cast h
    refine lt_of_le_of_lt this (by norm_num)
  obtain ⟨f, v⟩ := round_finite (s := false) this
  exact ⟨f, by rw [← r]; exact v⟩

theorem trunc_finite {lo hi : ℤ} {v : F32} (f : v.Finite) :
    trunc32 lo hi v = if lo ≤ (if 0 ≤ v.val then ⌊v.val⌋ else ⌈v.val⌉) ∧ (if 0 ≤ v.val then ⌊v.val⌋ else ⌈v.val⌉) < hi
      then some (if 0 ≤ v.val then ⌊v.val⌋ else ⌈v.val⌉) else none := by
  cases v with
  | nan => exact f.elim
  | inf s => exact f.elim
  | zero s => rfl
  | num q => rfl

theorem trunc_pos {lo hi : ℤ} {v : F32} (f : v.Finite) (h : 0 ≤ v.val) (h0 : lo ≤ 0) (h1 : v.val < hi) :
    trunc32 lo hi v = some ⌊v.val⌋ := by
  rw [trunc_finite f, if_pos h, if_pos]
  exact ⟨h0.trans (Int.floor_nonneg.2 h), Int.floor_lt.2 h1⟩

theorem trunc_half {lo hi : ℤ} {v : F32} (f : v.Finite) (h : v.val < 0) (h' : -1 < v.val) (h0 : lo ≤ 0) (h1 : 0 < hi) :
    trunc32 lo hi v = some 0 := by
  have : ⌈v.val⌉ = 0 := by
    rw [Int.ceil_eq_iff]
    push_cast
    constructor <;> linarith
  rw [trunc_finite f, if_neg (not_le.2 h), this, if_pos ⟨h0, h1⟩]

/-- The digits of a binary32 number. -/
theorem digits' {a : ℚ} (h : rnd32 a = a) (h0 : 0 < a) : ∃ m k : ℤ, a = m * 2 ^ k ∧ -149 ≤ k ∧ 0 ≤ m ∧ m ≤ 2 ^ 24 := by
  have hk : -149 ≤ ulp32 a := le_max_right _ _
  have hp := two_zpow_pos (ulp32 a)
  have hm : (rne (a / 2 ^ ulp32 a) : ℚ) * 2 ^ ulp32 a = a := h
  refine ⟨rne (a / 2 ^ ulp32 a), ulp32 a, hm.symm, hk, ?_, ?_⟩
  · have : (0 : ℚ) ≤ rne (a / 2 ^ ulp32 a) := by
      by_contra hc
      push Not at hc
      have := mul_neg_of_neg_of_pos hc hp
      linarith
    exact_mod_cast this
  · have : (rne (a / 2 ^ ulp32 a) : ℚ) ≤ ((2 ^ 24 : ℤ) : ℚ) := by
      have h2 : a < 2 ^ (Int.log 2 a + 1) := Int.lt_zpow_succ_log_self (by norm_num) a
      have h3 : (2 : ℚ) ^ (Int.log 2 a + 1) ≤ 2 ^ (ulp32 a + 24) := by
        apply zpow_le_zpow_right₀ (by norm_num)
        have : Int.log 2 a - 23 ≤ ulp32 a := by
          unfold ulp32 ulpExp
          rw [abs_of_pos h0]
          exact le_max_left _ _
        omega
      have h4 : (2 : ℚ) ^ (ulp32 a + 24) = 16777216 * 2 ^ ulp32 a := by rw [zpow_add₀ (by norm_num)]; norm_num; ring
      rw [h4] at h3
      push_cast
      by_contra hc
      push Not at hc
      have := mul_lt_mul_of_pos_right hc hp
      linarith
    exact_mod_cast this

/-- The fraction of a binary32 number is one. -/
theorem fract_rep {a : ℚ} (h : rnd32 a = a) (h0 : 0 ≤ a) : rnd32 (a - ⌊a⌋) = a - ⌊a⌋ := by
  rcases eq_or_lt_of_le h0 with h1 | h1
  · rw [← h1]; simp [rnd32_zero]
  obtain ⟨m, k, e, k1, m0, m1⟩ := digits' h h1
  rcases le_or_gt 0 k with hk | hk
  · obtain ⟨d, rfl⟩ := Int.eq_ofNat_of_zero_le hk
    have : a = ((m * 2 ^ d : ℤ) : ℚ) := by rw [e]; push_cast; rw [zpow_natCast]
    rw [this, Int.floor_intCast, sub_self, rnd32_zero]
  · obtain ⟨d, hd⟩ := Int.eq_ofNat_of_zero_le (show 0 ≤ -k by omega)
    have p : (2 : ℚ) ^ (d : ℤ) * 2 ^ k = 1 := by rw [← zpow_add₀ (by norm_num), show (d : ℤ) + k = 0 by omega, zpow_zero]
    rw [zpow_natCast] at p
    have e2 : a - ⌊a⌋ = ((m - ⌊a⌋ * 2 ^ d : ℤ) : ℚ) * 2 ^ k := by
      push_cast
      rw [sub_mul, ← e, mul_assoc, p, mul_one]
    have hp := two_zpow_pos k
    have f0 : 0 ≤ a - ⌊a⌋ := sub_nonneg.2 (Int.floor_le a)
    have f1 : 0 ≤ ⌊a⌋ := Int.floor_nonneg.2 h0
    have n0 : 0 ≤ m - ⌊a⌋ * 2 ^ d := by
      rw [e2] at f0
      have := (mul_nonneg_iff_of_pos_right hp).1 f0
      exact_mod_cast this
    rw [e2]
    refine rnd32_rep _ _ ?_ k1
    have : 0 ≤ ⌊a⌋ * 2 ^ d := by positivity
    rw [abs_of_nonneg n0]
    omega

/-! ### Coordinates -/

/-- **C171, coordinates.**  A coordinate between 1 and 2^31 is replaced by its fraction, without rounding. -/
theorem C171_wrap {u : F32} (ok : u.Ok) (f : u.Finite) (h1 : 1 < u.val) (h2 : u.val < 2 ^ 31) :
    ∃ w, wrap u = some w ∧ w.Ok ∧ w.Finite ∧ w.val = u.val - ⌊u.val⌋ := by
  have l : lt one u = true := by rw [lt_finite one_finite.1 f, one_finite.2]; simpa using h1
  have t := trunc_pos (lo := -2 ^ 31) (hi := 2 ^ 31) f (by linarith) (by norm_num) (by exact_mod_cast h2)
  unfold wrap
  rw [if_pos l, t]
  refine ⟨_, rfl, add_ok _ _, ?_⟩
  have fl := fract_rep (ok_val ok).1 (by linarith : 0 ≤ u.val)
  -- the integer part is a binary32 number
  have fr : rnd32 (⌊u.val⌋ : ℚ) = ⌊u.val⌋ := by
    rcases le_or_gt u.val (2 ^ 24) with hb | hb
    · refine FFilter.rnd_int _ ?_
      have a : 0 ≤ ⌊u.val⌋ := Int.floor_nonneg.2 (by linarith)
      have b : ⌊u.val⌋ ≤ 2 ^ 24 := by
        have : (⌊u.val⌋ : ℚ) ≤ ((2 ^ 24 : ℤ) : ℚ) := (Int.floor_le _).trans (by push_cast; linarith)
        exact_mod_cast this
      rw [abs_of_nonneg a]; exact b
    · -- an integer already
      obtain ⟨m, k, e, k1, m0, m1⟩ := digits' (ok_val ok).1 (by linarith : 0 < u.val)
      have hk : 0 ≤ k := by
        by_contra hc
        push Not at hc
        have : (2 : ℚ) ^ k ≤ 1 := by
          have := zpow_le_zpow_right₀ (by norm_num : (1 : ℚ) ≤ 2) hc.le
          simpa using this
        have m1' : (m : ℚ) ≤ 2 ^ 24 := by exact_mod_cast m1
        have m0' : (0 : ℚ) ≤ m := by exact_mod_cast m0
        have := mul_le_mul m1' this (two_zpow_pos k).le (by positivity)
        rw [e] at hb
        linarith
      obtain ⟨d, rfl⟩ := Int.eq_ofNat_of_zero_le hk
      have : u.val = ((m * 2 ^ d : ℤ) : ℚ) := by rw [e]; push_cast; rw [zpow_natCast]
      have e1 : ((⌊u.val⌋ : ℤ) : ℚ) = u.val := by rw [this, Int.floor_intCast]
      rw [e1, (ok_val ok).1]
  have fb : |(⌊u.val⌋ : ℚ)| < 2 ^ 128 := by
    have a : 0 ≤ ⌊u.val⌋ := Int.floor_nonneg.2 (by linarith)
    have a' : (0 : ℚ) ≤ ⌊u.val⌋ := by exact_mod_cast a
    rw [abs_of_nonneg a']
    refine lt_of_le_of_lt ((Int.floor_le _).trans h2.le) (by norm_num)
  obtain ⟨fi, vi⟩ := round_finite (s := false) (q := (⌊u.val⌋ : ℚ)) (by rw [fr]; exact fb)
  have vi' : (ofInt ⌊u.val⌋).val = ⌊u.val⌋ := by rw [← fr]; exact vi
  have fi' : (ofInt ⌊u.val⌋).Finite := fi
  obtain ⟨g, v⟩ := sub_fin f fi' (by
    rw [vi', fl, abs_of_nonneg (sub_nonneg.2 (Int.floor_le _))]
    have := Int.lt_floor_add_one u.val
    have : u.val - ⌊u.val⌋ < 1 := by linarith
    exact this.trans (by norm_num))
  exact ⟨g, by rw [v, vi', fl]⟩

/-- **C171, coordinates, violated.**  From 2^31 on the conversion to `int` is undefined. -/
theorem C171_violated_wrap {u : F32} (h : u = inf false ∨ (u.Finite ∧ 2 ^ 31 ≤ u.val)) : wrap u = none := by
  rcases h with rfl | ⟨f, h⟩
  · decide
  · have l : lt one u = true := by rw [lt_finite one_finite.1 f, one_finite.2]; simp; linarith
    unfold wrap
    rw [if_pos l, trunc_finite f, if_pos (by linarith : (0 : ℚ) ≤ u.val), if_neg]
    · rfl
    · rintro ⟨-, c⟩
      have : (2 ^ 31 : ℤ) ≤ ⌊u.val⌋ := Int.le_floor.2 (by exact_mod_cast h)
      omega

theorem rep_half {s : Nat} (h1 : 1 ≤ s) (h : s ≤ 2 ^ 15) : Rep ((s : ℚ) - 1 / 2) := by
  have hq : (s : ℚ) ≤ 2 ^ 15 := by exact_mod_cast h
  have h1' : (1 : ℚ) ≤ s := by exact_mod_cast h1
  constructor
  · have := rnd32_rep (2 * s - 1) (-1) (by rw [abs_le]; constructor <;> · norm_num at *; omega) (by norm_num)
    have e : (((2 * s - 1 : ℤ) : ℚ)) * 2 ^ (-1 : ℤ) = (s : ℚ) - 1 / 2 := by push_cast; rw [zpow_neg_one]; ring
    rwa [e] at this
  · rw [abs_of_nonneg (by linarith)]
    refine lt_of_le_of_lt (by linarith : (s : ℚ) - 1 / 2 ≤ 2 ^ 15) (by norm_num)

theorem rep_int {n : ℤ} (h : |n| ≤ 2 ^ 24) : Rep (n : ℚ) := by
  have r := FFilter.rnd_int n h
  refine ⟨r, ?_⟩
  rw [← Int.cast_abs]
  have : ((|n| : ℤ) : ℚ) ≤ ((2 ^ 24 : ℤ) : ℚ) := by exact_mod_cast h
  exact lt_of_le_of_lt this (by norm_num)

/-- The coordinate in texels. -/
theorem texels_in {u : F32} {s : Nat} (hu : In 0 1 u) (h1 : 1 ≤ s) (h : s ≤ 2 ^ 15) :
    In (-(1 / 2)) (s - 1 / 2) (texels u s) ∧ |(texels u s).val - (u.val * s - 1 / 2)| ≤ s / 2 ^ 22 := by
  have hq : (s : ℚ) ≤ 2 ^ 15 := by exact_mod_cast h
  have h1' : (1 : ℚ) ≤ s := by exact_mod_cast h1
  have hs : |(s : ℤ)| ≤ 2 ^ 24 := by rw [abs_of_nonneg (by positivity)]; norm_num at *; omega
  obtain ⟨fs, vs⟩ := ofInt_spec hs
  rw [Int.cast_natCast] at vs
  have rs : Rep (s : ℚ) := by have := rep_int hs; rwa [Int.cast_natCast] at this
  have m0 : 0 ≤ u.val * s := mul_nonneg hu.2.1 (by linarith)
  have m1 : u.val * s ≤ s := by have := mul_le_mul_of_nonneg_right hu.2.2 (by linarith : (0 : ℚ) ≤ s); linarith
  obtain ⟨lt1, -, -⟩ := rnd_between m0 m1 ⟨by simp [rnd32_zero], by norm_num⟩ rs
  have im : In 0 s (F32.mul u (ofInt s)) := in_mul hu.1 fs (by rw [vs]; exact m0) (by rw [vs]; exact m1) ⟨by simp [rnd32_zero], by norm_num⟩ rs
  have vm : (F32.mul u (ofInt s)).val = rnd32 (u.val * s) := by
    have := (mul_finite hu.1 fs (by rw [vs]; exact lt1)).2
    rwa [vs] at this
  have rh : Rep (-(1 / 2)) := ⟨by decide +kernel, by norm_num⟩
  have vh : (num (1 / 2)).val = 1 / 2 := rfl
  have is : In (-(1 / 2)) (s - 1 / 2) (texels u s) := in_sub im.1 trivial (by rw [vh]; linarith [im.2.1])
    (by rw [vh]; linarith [im.2.2]) rh (rep_half h1 h)
  refine ⟨is, ?_⟩
  obtain ⟨lt2, -, -⟩ := rnd_between (q := (F32.mul u (ofInt s)).val - 1 / 2) (lo := -(1 / 2)) (hi := s - 1 / 2)
    (by linarith [im.2.1]) (by linarith [im.2.2]) rh (rep_half h1 h)
  have vt : (texels u s).val = rnd32 ((F32.mul u (ofInt s)).val - 1 / 2) := (sub_fin im.1 (b := num (1 / 2)) trivial lt2).2
  have e1 := rnd32_err' (u.val * s)
  have e2 := rnd32_err' ((F32.mul u (ofInt s)).val - 1 / 2)
  rw [← vm] at e1
  rw [← vt] at e2
  have a1 : |u.val * s| ≤ s := by rw [abs_of_nonneg m0]; exact m1
  have a2 : |(F32.mul u (ofInt s)).val - 1 / 2| ≤ s := by
    rw [abs_le]; constructor <;> linarith [im.2.1, im.2.2]
  have t : (2 : ℚ) ^ (-150 : ℤ) ≤ 1 / 2 ^ 30 := by norm_num
  have e : (texels u s).val - (u.val * s - 1 / 2) = ((texels u s).val - ((F32.mul u (ofInt s)).val - 1 / 2)) +
    ((F32.mul u (ofInt s)).val - u.val * s) := by ring
  rw [e]
  refine (abs_add_le _ _).trans ?_
  generalize (2 : ℚ) ^ (-150 : ℤ) = g at *
  generalize |u.val * s| = b1 at *
  generalize |(F32.mul u (ofInt s)).val - 1 / 2| = b2 at *
  generalize |(F32.mul u (ofInt s)).val - u.val * s| = c1 at *
  generalize |(texels u s).val - ((F32.mul u (ofInt s)).val - 1 / 2)| = c2 at *
  clear vt vm vs e lt1 lt2 rs rh im is m0 m1 fs h hq hs
  generalize (s : ℚ) = sq at *
  clear h1
  norm_num at *
  linarith

/-- The texel and the distance to it, which is not rounded. -/
theorem texel_spec {u : F32} {s : Nat} (hu : In 0 1 u) (h1 : 1 ≤ s) (h : s ≤ 2 ^ 15) (lo hi : ℤ) (hlo : lo ≤ 0) (hhi : 2 ^ 15 ≤ hi) :
    ∃ x : Nat, x < s ∧ trunc32 lo hi (texels u s) = some (x : ℤ) ∧ |(texels u s).val - x| < 1 ∧
      In 0 1 (F32.abs (sub (texels u s) (ofInt x))) ∧ (F32.abs (sub (texels u s) (ofInt x))).val = |(texels u s).val - x| := by
  obtain ⟨⟨f, l, r⟩, -⟩ := texels_in hu h1 h
  have ok : (texels u s).Ok := add_ok _ _
  have hq : (s : ℚ) ≤ 2 ^ 15 := by exact_mod_cast h
  have hiq : (2 : ℚ) ^ 15 ≤ hi := by exact_mod_cast hhi
  have close : ∀ x : ℕ, x < s → |(texels u s).val - x| < 1 → rnd32 ((texels u s).val - x) = (texels u s).val - x →
      In 0 1 (F32.abs (sub (texels u s) (ofInt x))) ∧ (F32.abs (sub (texels u s) (ofInt x))).val = |(texels u s).val - x| := by
    intro x hx c e
    obtain ⟨fx, vx⟩ := ofInt_spec (n := x) (by rw [abs_of_nonneg (by positivity)]; norm_num at *; omega)
    rw [Int.cast_natCast] at vx
    obtain ⟨g, v⟩ := sub_fin f fx (by rw [vx, e]; exact c.trans (by norm_num))
    rw [vx, e] at v
    obtain ⟨g', v'⟩ := abs_finite g
    rw [v] at v'
    exact ⟨⟨g', by rw [v']; exact abs_nonneg _, by rw [v']; exact c.le⟩, v'⟩
  rcases le_or_gt 0 (texels u s).val with h0 | h0
  · have t := trunc_pos (lo := lo) (hi := hi) f h0 hlo (by linarith)
    obtain ⟨x, hx⟩ := Int.eq_ofNat_of_zero_le (Int.floor_nonneg.2 h0)
    have fl := Int.floor_le (texels u s).val
    have fu := Int.lt_floor_add_one (texels u s).val
    have e := fract_rep (ok_val ok).1 h0
    rw [hx, Int.cast_natCast] at fl fu e
    have xs : x < s := by
      have : (x : ℚ) < s := by linarith
      exact_mod_cast this
    have c : |(texels u s).val - x| < 1 := by rw [abs_lt]; constructor <;> linarith
    exact ⟨x, xs, by rw [t, hx], c, close x xs c e⟩
  · have t := trunc_half (lo := lo) (hi := hi) f h0 (by linarith) hlo (by linarith)
    have c : |(texels u s).val - (0 : ℕ)| < 1 := by rw [abs_lt]; push_cast; constructor <;> linarith
    exact ⟨0, h1, t, c, close 0 h1 c (by rw [Nat.cast_zero, sub_zero]; exact (ok_val ok).1)⟩

/-! ### Interpolation -/

theorem comp_spec (b : Byte) : (comp b).Finite ∧ (comp b).val = b.toNat ∧ (b.toNat : ℚ) ≤ 255 := by
  have l : b.toNat < 256 := b.isLt
  obtain ⟨f, v⟩ := ofInt_spec (n := (b.toNat : ℤ)) (by rw [abs_of_nonneg (by positivity)]; norm_num; omega)
  refine ⟨f, by rw [Int.cast_natCast] at v; exact v, ?_⟩
  have : b.toNat ≤ 255 := by omega
  exact_mod_cast this

theorem small_round {q : ℚ} (h0 : 0 ≤ q) (h : q ≤ 256) : |rnd32 q| < 2 ^ 128 ∧ 0 ≤ rnd32 q ∧ |rnd32 q - q| ≤ 1 / 2 ^ 16 := by
  obtain ⟨a, b, -⟩ := rnd_between (lo := 0) (hi := 256) h0 h ⟨rnd32_zero, by norm_num⟩ ⟨by decide +kernel, by norm_num⟩
  refine ⟨a, b, ?_⟩
  have := rnd32_err_pow (q := q) (k := 8) (by norm_num) (by rw [abs_of_nonneg h0]; norm_num; exact h)
  norm_num at this ⊢
  linarith

/-- One interpolation. -/
theorem lerp {x y a i : F32} (fx : x.Finite) (fy : y.Finite) (x0 : 0 ≤ x.val) (y0 : 0 ≤ y.val) (x1 : x.val ≤ 511 / 2)
    (y1 : y.val ≤ 511 / 2) (ha : In 0 1 a) (hi : In 0 1 i) (e : |i.val - (1 - a.val)| ≤ 1 / 2 ^ 24) :
    (add (F32.mul x i) (F32.mul y a)).Finite ∧ 0 ≤ (add (F32.mul x i) (F32.mul y a)).val ∧
      |(add (F32.mul x i) (F32.mul y a)).val - (x.val * (1 - a.val) + y.val * a.val)| ≤ 1 / 2 ^ 14 := by
  obtain ⟨fa, a0, a1⟩ := ha
  obtain ⟨fi, i0, i1⟩ := hi
  have p0 : 0 ≤ x.val * i.val := mul_nonneg x0 i0
  have p1 : x.val * i.val ≤ 511 / 2 := by have := mul_le_mul x1 i1 i0 (by norm_num); linarith
  have q0 : 0 ≤ y.val * a.val := mul_nonneg y0 a0
  have q1 : y.val * a.val ≤ 511 / 2 := by have := mul_le_mul y1 a1 a0 (by norm_num); linarith
  obtain ⟨b1, n1, r1⟩ := small_round p0 (by linarith)
  obtain ⟨b2, n2, r2⟩ := small_round q0 (by linarith)
  obtain ⟨f1, v1⟩ := mul_finite fx fi b1
  obtain ⟨f2, v2⟩ := mul_finite fy fa b2
  rw [← v1] at r1 n1
  rw [← v2] at r2 n2
  have d : |x.val * i.val - x.val * (1 - a.val)| ≤ 1 / 2 ^ 16 := by
    rw [← mul_sub, abs_mul, abs_of_nonneg x0]
    have := mul_le_mul x1 e (abs_nonneg _) (by norm_num)
    refine this.trans (by norm_num)
  have cv : x.val * (1 - a.val) + y.val * a.val ≤ 511 / 2 := by
    have h1 := mul_le_mul_of_nonneg_right x1 (by linarith : 0 ≤ 1 - a.val)
    have h2 := mul_le_mul_of_nonneg_right y1 a0
    linarith
  have s1 : (F32.mul x i).val + (F32.mul y a).val ≤ 256 := by
    have := (abs_le.1 r1).2
    have := (abs_le.1 r2).2
    have := (abs_le.1 d).2
    norm_num at *
    linarith
  obtain ⟨b3, n3, r3⟩ := small_round (add_nonneg n1 n2) s1
  obtain ⟨f3, v3⟩ := add_finite f1 f2 b3
  rw [← v3] at r3 n3
  refine ⟨f3, n3, ?_⟩
  rw [abs_le] at *
  generalize x.val * (1 - a.val) = A at *
  generalize y.val * a.val = B at *
  generalize x.val * i.val = C at *
  norm_num at *
  constructor <;> linarith [r1.1, r1.2, r2.1, r2.2, r3.1, r3.2, d.1, d.2]

theorem inv_spec {a : F32} (ha : In 0 1 a) : In 0 1 (sub one a) ∧ |(sub one a).val - (1 - a.val)| ≤ 1 / 2 ^ 24 := by
  obtain ⟨fa, a0, a1⟩ := ha
  have h := in_sub (lo := 0) (hi := 1) one_finite.1 fa (by rw [one_finite.2]; linarith) (by rw [one_finite.2]; linarith)
    ⟨rnd32_zero, by norm_num⟩ ⟨by decide +kernel, by norm_num⟩
  refine ⟨h, ?_⟩
  obtain ⟨b, -⟩ := rnd_between (q := 1 - a.val) (lo := 0) (hi := 1) (by linarith) (by linarith) ⟨rnd32_zero, by norm_num⟩
    ⟨by decide +kernel, by norm_num⟩
  have v := (sub_fin one_finite.1 fa (by rw [one_finite.2]; exact b)).2
  rw [v, one_finite.2]
  have := rnd32_err_pow (q := 1 - a.val) (k := 0) (by norm_num) (by rw [abs_le]; constructor <;> · norm_num; linarith)
  norm_num at this ⊢
  linarith

theorem conv {a s t S T e : ℚ} (a0 : 0 ≤ a) (a1 : a ≤ 1) (h1 : |s - S| ≤ e) (h2 : |t - T| ≤ e) :
    |(s * (1 - a) + t * a) - (S * (1 - a) + T * a)| ≤ e := by
  rw [abs_le] at *
  have b0 : 0 ≤ 1 - a := by linarith
  have := mul_le_mul_of_nonneg_right h1.1 b0
  have := mul_le_mul_of_nonneg_right h1.2 b0
  have := mul_le_mul_of_nonneg_right h2.1 a0
  have := mul_le_mul_of_nonneg_right h2.2 a0
  constructor <;> linarith

theorem conv_le {a S T e : ℚ} (a0 : 0 ≤ a) (a1 : a ≤ 1) (h1 : S ≤ e) (h2 : T ≤ e) : S * (1 - a) + T * a ≤ e := by
  have := mul_le_mul_of_nonneg_right h1 (by linarith : 0 ≤ 1 - a)
  have := mul_le_mul_of_nonneg_right h2 a0
  linarith

theorem conv_ge {a S T e : ℚ} (a0 : 0 ≤ a) (a1 : a ≤ 1) (h1 : e ≤ S) (h2 : e ≤ T) : e ≤ S * (1 - a) + T * a := by
  have := mul_le_mul_of_nonneg_right h1 (by linarith : 0 ≤ 1 - a)
  have := mul_le_mul_of_nonneg_right h2 a0
  linarith

/-- The interpolated component is within 2^-13 of the exact one. -/
theorem mix_spec {a b : F32} (ha : In 0 1 a) (hb : In 0 1 b) (t0 t1 t2 t3 : Byte) :
    (mix a b t0 t1 t2 t3).Finite ∧ 0 ≤ (mix a b t0 t1 t2 t3).val ∧
      |(mix a b t0 t1 t2 t3).val - exactMix a.val b.val t0.toNat t1.toNat t2.toNat t3.toNat| ≤ 1 / 2 ^ 13 := by
  obtain ⟨f0, v0, l0⟩ := comp_spec t0
  obtain ⟨f1, v1, l1⟩ := comp_spec t1
  obtain ⟨f2, v2, l2⟩ := comp_spec t2
  obtain ⟨f3, v3, l3⟩ := comp_spec t3
  obtain ⟨ia, ea⟩ := inv_spec ha
  obtain ⟨ib, eb⟩ := inv_spec hb
  have g : ∀ t : Byte, (0 : ℚ) ≤ t.toNat := fun t => by positivity
  obtain ⟨g1, n1, e1⟩ := lerp f0 f1 (by rw [v0]; exact g _) (by rw [v1]; exact g _) (by rw [v0]; linarith) (by rw [v1]; linarith) ha ia ea
  obtain ⟨g2, n2, e2⟩ := lerp f2 f3 (by rw [v2]; exact g _) (by rw [v3]; exact g _) (by rw [v2]; linarith) (by rw [v3]; linarith) ha ia ea
  have c1 := conv_le (a := a.val) ha.2.1 ha.2.2 l0 l1
  have c2 := conv_le (a := a.val) ha.2.1 ha.2.2 l2 l3
  rw [v0, v1] at e1
  rw [v2, v3] at e2
  have u1 := (abs_le.1 e1).2
  have u2 := (abs_le.1 e2).2
  obtain ⟨g3, n3, e3⟩ := lerp g1 g2 n1 n2 (by norm_num at *; linarith) (by norm_num at *; linarith) hb ib eb
  refine ⟨g3, n3, ?_⟩
  have := conv hb.2.1 hb.2.2 e1 e2
  have t := abs_sub_le ((mix a b t0 t1 t2 t3).val) ((add (F32.mul (comp t0) (sub one a)) (F32.mul (comp t1) a)).val * (1 - b.val) +
    (add (F32.mul (comp t2) (sub one a)) (F32.mul (comp t3) a)).val * b.val) (exactMix a.val b.val t0.toNat t1.toNat t2.toNat t3.toNat)
  refine t.trans ?_
  have e3' : |(mix a b t0 t1 t2 t3).val - ((add (F32.mul (comp t0) (sub one a)) (F32.mul (comp t1) a)).val * (1 - b.val) +
    (add (F32.mul (comp t2) (sub one a)) (F32.mul (comp t3) a)).val * b.val)| ≤ 1 / 2 ^ 14 := e3
  have := add_le_add e3' this
  refine this.trans (by norm_num)

theorem exactMix_le {a b t0 t1 t2 t3 e : ℚ} (a0 : 0 ≤ a) (a1 : a ≤ 1) (b0 : 0 ≤ b) (b1 : b ≤ 1) (h0 : t0 ≤ e) (h1 : t1 ≤ e)
    (h2 : t2 ≤ e) (h3 : t3 ≤ e) : exactMix a b t0 t1 t2 t3 ≤ e :=
  conv_le b0 b1 (conv_le a0 a1 h0 h1) (conv_le a0 a1 h2 h3)

theorem exactMix_ge {a b t0 t1 t2 t3 e : ℚ} (a0 : 0 ≤ a) (a1 : a ≤ 1) (b0 : 0 ≤ b) (b1 : b ≤ 1) (h0 : e ≤ t0) (h1 : e ≤ t1)
    (h2 : e ≤ t2) (h3 : e ≤ t3) : e ≤ exactMix a b t0 t1 t2 t3 :=
  conv_ge b0 b1 (conv_ge a0 a1 h0 h1) (conv_ge a0 a1 h2 h3)

/-- Conversion to `uint8_t`. -/
theorem toByte_spec {v : F32} (f : v.Finite) (h0 : 0 ≤ v.val) (h1 : v.val < 256) :
    ∃ b : Byte, toByte v = some b ∧ (b.toNat : ℚ) ≤ v.val ∧ v.val < b.toNat + 1 := by
  unfold toByte
  rw [trunc_pos (lo := 0) (hi := 256) f h0 le_rfl (by exact_mod_cast h1), Option.map_some]
  have z0 : 0 ≤ ⌊v.val⌋ := Int.floor_nonneg.2 h0
  have z1 : ⌊v.val⌋ < 256 := Int.floor_lt.2 (by exact_mod_cast h1)
  refine ⟨_, rfl, ?_⟩
  obtain ⟨n, hn⟩ := Int.eq_ofNat_of_zero_le z0
  have e : (BitVec.ofNat 8 ⌊v.val⌋.toNat).toNat = n := by
    rw [hn, BitVec.toNat_ofNat, Int.toNat_natCast]
    omega
  have fl := Int.floor_le v.val
  have fu := Int.lt_floor_add_one v.val
  rw [e]
  rw [hn, Int.cast_natCast] at fl fu
  exact ⟨fl, fu⟩

/-- The four components together. -/
def mixPixel (du dv : F32) (t0 t1 t2 t3 : Pixel) : Option Pixel := do
  let r ← toByte (mix du dv (red t0) (red t1) (red t2) (red t3))
  let g ← toByte (mix du dv (green t0) (green t1) (green t2) (green t3))
  let b ← toByte (mix du dv (blue t0) (blue t1) (blue t2) (blue t3))
  let a ← toByte (mix du dv (alpha t0) (alpha t1) (alpha t2) (alpha t3))
  pure (pack r g b a)

theorem mixPixel_ok {a b : F32} (ha : In 0 1 a) (hb : In 0 1 b) (t0 t1 t2 t3 : Pixel) :
    ∃ q, mixPixel a b t0 t1 t2 t3 = some q ∧ ∀ c : Comp,
      ((c.of q).toNat : ℚ) ≤ exactMix a.val b.val (c.of t0).toNat (c.of t1).toNat (c.of t2).toNat (c.of t3).toNat + 1 / 2 ^ 13 ∧
      exactMix a.val b.val (c.of t0).toNat (c.of t1).toNat (c.of t2).toNat (c.of t3).toNat - 1 / 2 ^ 13 < (c.of q).toNat + 1 := by
  have h : ∀ c : Comp, ∃ q : Byte, toByte (mix a b (c.of t0) (c.of t1) (c.of t2) (c.of t3)) = some q ∧
      (q.toNat : ℚ) ≤ exactMix a.val b.val (c.of t0).toNat (c.of t1).toNat (c.of t2).toNat (c.of t3).toNat + 1 / 2 ^ 13 ∧
      exactMix a.val b.val (c.of t0).toNat (c.of t1).toNat (c.of t2).toNat (c.of t3).toNat - 1 / 2 ^ 13 < q.toNat + 1 := by
    intro c
    obtain ⟨f, h0, h1⟩ := mix_spec ha hb (c.of t0) (c.of t1) (c.of t2) (c.of t3)
    have l := fun t => (comp_spec (c.of t)).2.2
    have u := exactMix_le ha.2.1 ha.2.2 hb.2.1 hb.2.2 (l t0) (l t1) (l t2) (l t3)
    have h1' := abs_le.1 h1
    obtain ⟨q, e, e1, e2⟩ := toByte_spec f h0 (by have := h1'.2; norm_num at *; linarith)
    exact ⟨q, e, by linarith [h1'.2], by linarith [h1'.1]⟩
  choose F hF using h
  refine ⟨pack (F .red) (F .green) (F .blue) (F .alpha), ?_, ?_⟩
  · have r := (hF .red).1
    have g := (hF .green).1
    have b := (hF .blue).1
    have a := (hF .alpha).1
    simp only [Comp.of] at r g b a
    unfold mixPixel
    rw [r, g, b, a]
    rfl
  · intro c
    rw [comp_pack F c]
    exact (hF c).2

theorem next_int (s x : Nat) : (if (x : ℤ) + 1 ≤ (s : ℤ) - 1 then (x : ℤ) + 1 else 0) = ((next s x : Nat) : ℤ) := by
  unfold next
  split <;> split <;> push_cast <;> omega

theorem next_lt {s x : Nat} (h : x < s) : next s x < s := by
  unfold next
  split <;> omega

theorem texel_nat {p : List (Nat × (Nat → Pixel))} {level s : Nat} {f : Nat → Pixel} (hp : p[level]? = some (s, f))
    {x y : Nat} (hx : x < s) (hy : y < s) : texel p level (x : ℤ) (y : ℤ) = some (f (y * s + x)) := by
  rw [texel_ok hp ⟨by positivity, by exact_mod_cast hx⟩ ⟨by positivity, by exact_mod_cast hy⟩]
  rfl

/-- **C171, interpolation.**  A lookup between texels with coordinates between 0 and 1 is defined; it reads the texel of the
coordinates and its neighbours; every component is the truncated interpolation of theirs up to 2^-13, where the distances
have errors up to `side / 2^22`. -/
theorem C171_bilinear {p : List (Nat × (Nat → Pixel))} {level s : Nat} {f : Nat → Pixel} (hp : p[level]? = some (s, f))
    (h1 : 1 ≤ s) (h2 : s ≤ 2 ^ 15) {u v : F32} (hu : In 0 1 u) (hv : In 0 1 v) :
    ∃ x y : Nat, x < s ∧ y < s ∧ ∃ a b : ℚ, (0 ≤ a ∧ a ≤ 1) ∧ (0 ≤ b ∧ b ≤ 1) ∧ |a - (|u.val * s - 1 / 2 - x|)| ≤ s / 2 ^ 22 ∧
      |b - (|v.val * s - 1 / 2 - y|)| ≤ s / 2 ^ 22 ∧ ∃ q, bilinear p u v level = some q ∧ ∀ c : Comp,
        let m := exactMix a b (c.of (f (y * s + x))).toNat (c.of (f (y * s + next s x))).toNat
          (c.of (f (next s y * s + x))).toNat (c.of (f (next s y * s + next s x))).toNat
        ((c.of q).toNat : ℚ) ≤ m + 1 / 2 ^ 13 ∧ m - 1 / 2 ^ 13 < (c.of q).toNat + 1 := by
  obtain ⟨x, xs, tx, -, ix, vx⟩ := texel_spec hu h1 h2 (-2 ^ 31) (2 ^ 31) (by norm_num) (by norm_num)
  obtain ⟨y, ys, ty, -, iy, vy⟩ := texel_spec hv h1 h2 (-2 ^ 31) (2 ^ 31) (by norm_num) (by norm_num)
  obtain ⟨q, e, hq⟩ := mixPixel_ok ix iy (f (y * s + x)) (f (y * s + next s x)) (f (next s y * s + x)) (f (next s y * s + next s x))
  refine ⟨x, y, xs, ys, _, _, ix.2, iy.2, ?_, ?_, q, ?_, hq⟩
  · rw [vx]
    refine (abs_abs_sub_abs_le _ _).trans ?_
    have := (texels_in hu h1 h2).2
    rwa [sub_sub_sub_cancel_right]
  · rw [vy]
    refine (abs_abs_sub_abs_le _ _).trans ?_
    have := (texels_in hv h1 h2).2
    rwa [sub_sub_sub_cancel_right]
  · rw [← e]
    unfold bilinear
    simp only [hp, Option.bind_eq_bind, Option.bind_some, tx, ty, next_int, texel_nat hp xs ys, texel_nat hp (next_lt xs) ys,
      texel_nat hp xs (next_lt ys), texel_nat hp (next_lt xs) (next_lt ys)]
    rfl

/-- **C171, range.**  No component gets brighter than the brightest texel, and none darker than the darkest texel by more
than one. -/
theorem C171_bilinear_range {p : List (Nat × (Nat → Pixel))} {level s : Nat} {f : Nat → Pixel} (hp : p[level]? = some (s, f))
    (h1 : 1 ≤ s) (h2 : s ≤ 2 ^ 15) {u v : F32} (hu : In 0 1 u) (hv : In 0 1 v) {q : Pixel} (hq : bilinear p u v level = some q)
    (c : Comp) (lo hi : Nat)
    (h : ∀ x < s, ∀ y < s, lo ≤ (c.of (f (y * s + x))).toNat ∧ (c.of (f (y * s + x))).toNat ≤ hi) :
    lo ≤ (c.of q).toNat + 1 ∧ (c.of q).toNat ≤ hi := by
  obtain ⟨x, y, xs, ys, a, b, ⟨a0, a1⟩, ⟨b0, b1⟩, -, -, q', e, g⟩ := C171_bilinear hp h1 h2 hu hv
  rw [hq] at e
  injection e with e
  subst e
  obtain ⟨g1, g2⟩ := g c
  have H : ∀ x < s, ∀ y < s, (lo : ℚ) ≤ (c.of (f (y * s + x))).toNat ∧ ((c.of (f (y * s + x))).toNat : ℚ) ≤ hi := by
    intro x hx y hy
    have := h x hx y hy
    exact ⟨by exact_mod_cast this.1, by exact_mod_cast this.2⟩
  have k0 := H x xs y ys
  have k1 := H _ (next_lt xs) y ys
  have k2 := H x xs _ (next_lt ys)
  have k3 := H _ (next_lt xs) _ (next_lt ys)
  have u := exactMix_le a0 a1 b0 b1 k0.2 k1.2 k2.2 k3.2
  have l := exactMix_ge a0 a1 b0 b1 k0.1 k1.1 k2.1 k3.1
  generalize exactMix a b _ _ _ _ = m at *
  constructor
  · have : (lo : ℚ) < (c.of q).toNat + 2 := by norm_num at *; linarith
    have : lo < (c.of q).toNat + 2 := by exact_mod_cast this
    omega
  · have : ((c.of q).toNat : ℚ) < hi + 1 := by norm_num at *; linarith
    have : (c.of q).toNat < hi + 1 := by exact_mod_cast this
    omega

/-- A texture of 2x2 white texels. -/
def white2 : List (Nat × (Nat → Pixel)) := [(2, fun _ => 0xffffffff#32), (1, fun _ => 0xffffffff#32)]

/-- A texture of 256x256 white texels (its first level). -/
def white256 : List (Nat × (Nat → Pixel)) := [(256, fun _ => 0xffffffff#32)]

/-- **C171, range, violated.**  A white texture has grey texels: rounding makes the sum of the weights less than one, and
the result is truncated. -/
theorem C171_violated_bilinear :
    bilinear white2 (num (15018955 / 536870912)) (num (15408533 / 67108864)) 0 = some 0xfefefefe#32 := by
  decide +kernel

/-! ### Blending of levels -/

theorem one_round {q : ℚ} (h0 : 0 ≤ q) (h : q ≤ 255) : |rnd32 q| < 2 ^ 128 ∧ 0 ≤ rnd32 q ∧ rnd32 q ≤ 255 ∧ |rnd32 q - q| ≤ 1 / 2 ^ 16 := by
  obtain ⟨a, b, c⟩ := rnd_between (lo := 0) (hi := 255) h0 h ⟨rnd32_zero, by norm_num⟩ ⟨by decide +kernel, by norm_num⟩
  exact ⟨a, b, c, (small_round h0 (by linarith)).2.2⟩

theorem scaled {t : Byte} {d : F32} (hd : In 0 1 d) : ∃ x : Byte, toByte (F32.mul (comp t) d) = some x ∧
    (x.toNat : ℚ) ≤ t.toNat * d.val + 1 / 2 ^ 16 ∧ t.toNat * d.val - 1 / 2 ^ 16 < x.toNat + 1 := by
  obtain ⟨f, v, l⟩ := comp_spec t
  obtain ⟨fd, d0, d1⟩ := hd
  have m0 : (0 : ℚ) ≤ t.toNat * d.val := mul_nonneg (by positivity) d0
  have m1 : (t.toNat : ℚ) * d.val ≤ 255 := by have := mul_le_mul l d1 d0 (by norm_num); linarith
  obtain ⟨b, n, u, e⟩ := one_round m0 m1
  obtain ⟨g, w⟩ := mul_finite f fd (by rw [v]; exact b)
  rw [v] at w
  obtain ⟨x, ex, x0, x1⟩ := toByte_spec g (by rw [w]; exact n) (by rw [w]; linarith)
  rw [w] at x0 x1
  have := abs_le.1 e
  exact ⟨x, ex, by linarith [this.2], by linarith [this.1]⟩

theorem blendB_spec {d : F32} (hd : In 0 1 d) (a b : Byte) {lo hi : Nat} (ha : lo ≤ a.toNat ∧ a.toNat ≤ hi)
    (hb : lo ≤ b.toNat ∧ b.toNat ≤ hi) (hh : hi ≤ 255) :
    ∃ q, blendB d a b = some q ∧ lo ≤ q.toNat + 2 ∧ q.toNat ≤ hi := by
  obtain ⟨i, e⟩ := inv_spec hd
  obtain ⟨x, ex, x0, x1⟩ := scaled (t := a) i
  obtain ⟨y, ey, y0, y1⟩ := scaled (t := b) hd
  have la : (a.toNat : ℚ) ≤ 255 := (comp_spec a).2.2
  have na : (0 : ℚ) ≤ a.toNat := by positivity
  have w : |(a.toNat : ℚ) * (sub one d).val - a.toNat * (1 - d.val)| ≤ 1 / 2 ^ 16 := by
    rw [← mul_sub, abs_mul, abs_of_nonneg na]
    have := mul_le_mul la e (abs_nonneg _) (by norm_num)
    exact this.trans (by norm_num)
  have ha1 : (lo : ℚ) ≤ a.toNat := by exact_mod_cast ha.1
  have ha2 : (a.toNat : ℚ) ≤ hi := by exact_mod_cast ha.2
  have hb1 : (lo : ℚ) ≤ b.toNat := by exact_mod_cast hb.1
  have hb2 : (b.toNat : ℚ) ≤ hi := by exact_mod_cast hb.2
  have c1 := conv_le hd.2.1 hd.2.2 ha2 hb2
  have c2 := conv_ge hd.2.1 hd.2.2 ha1 hb1
  have w' := abs_le.1 w
  have s1 : (x.toNat : ℚ) + y.toNat < hi + 1 := by norm_num at *; linarith [w'.2]
  have s2 : (lo : ℚ) < x.toNat + y.toNat + 3 := by norm_num at *; linarith [w'.1]
  have s1' : x.toNat + y.toNat < hi + 1 := by exact_mod_cast s1
  have s2' : lo < x.toNat + y.toNat + 3 := by exact_mod_cast s2
  refine ⟨x + y, ?_, ?_⟩
  · unfold blendB
    rw [ex, ey]
    rfl
  · have : (x + y).toNat = x.toNat + y.toNat := by
      rw [BitVec.toNat_add]
      omega
    rw [this]
    omega

theorem blend_spec {d : F32} (hd : In 0 1 d) (p q : Pixel) :
    ∃ r, blend d p q = some r ∧ ∀ (c : Comp) (lo hi : Nat), lo ≤ (c.of p).toNat ∧ (c.of p).toNat ≤ hi →
      lo ≤ (c.of q).toNat ∧ (c.of q).toNat ≤ hi → lo ≤ (c.of r).toNat + 2 ∧ (c.of r).toNat ≤ hi := by
  have h : ∀ c : Comp, ∃ r, blendB d (c.of p) (c.of q) = some r := by
    intro c
    obtain ⟨r, e, -⟩ := blendB_spec hd (c.of p) (c.of q) (lo := 0) (hi := 255) ⟨by omega, by have := (c.of p).isLt; omega⟩
      ⟨by omega, by have := (c.of q).isLt; omega⟩ le_rfl
    exact ⟨r, e⟩
  choose F hF using h
  refine ⟨pack (F .red) (F .green) (F .blue) (F .alpha), ?_, ?_⟩
  · have r := hF .red
    have g := hF .green
    have b := hF .blue
    have a := hF .alpha
    simp only [Comp.of] at r g b a
    unfold blend
    rw [r, g, b, a]
    rfl
  · intro c lo hi h1 h2
    rw [comp_pack F c]
    obtain ⟨r, e, g1, g2⟩ := blendB_spec hd (c.of p) (c.of q) (lo := lo) (hi := min hi 255)
      ⟨h1.1, le_min h1.2 (by have := (c.of p).isLt; omega)⟩ ⟨h2.1, le_min h2.2 (by have := (c.of q).isLt; omega)⟩ (min_le_right _ _)
    rw [hF c] at e
    injection e with e
    rw [e]
    exact ⟨g1, g2.trans (min_le_left _ _)⟩

theorem pow_side {k i : Nat} (hk : k ≤ 15) : 1 ≤ 2 ^ (k - i) ∧ 2 ^ (k - i) ≤ 2 ^ 15 :=
  ⟨Nat.one_le_two_pow, Nat.pow_le_pow_right (by norm_num) (by omega)⟩

/-- All texels of the pyramid are between `lo` and `hi`. -/
def Between (p : List (Nat × (Nat → Pixel))) (c : Comp) (lo hi : Nat) : Prop :=
  ∀ (i s : Nat) (f : Nat → Pixel), p[i]? = some (s, f) → ∀ x < s, ∀ y < s, lo ≤ (c.of (f (y * s + x))).toNat ∧ (c.of (f (y * s + x))).toNat ≤ hi

theorem level_ok {p : List (Nat × (Nat → Pixel))} {k i : Nat} (hp : IsPyramid p k) (hi : i ≤ k) {u v : F32} (hu : In 0 1 u)
    (hv : In 0 1 v) : ∃ q, bilinear p u v i = some q ∧ ∀ c lo hi, Between p c lo hi → lo ≤ (c.of q).toNat + 1 ∧ (c.of q).toNat ≤ hi := by
  obtain ⟨f, hf⟩ := hp.get i hi
  obtain ⟨h1, h2⟩ := pow_side (i := i) hp.small
  obtain ⟨-, -, -, -, -, -, -, -, -, -, q, e, -⟩ := C171_bilinear hf h1 h2 hu hv
  exact ⟨q, e, fun c lo hi hb => C171_bilinear_range hf h1 h2 hu hv e c lo hi (hb i _ f hf)⟩

theorem bilinear_none {p : List (Nat × (Nat → Pixel))} {level : Nat} (h : p.length ≤ level) (u v : F32) : bilinear p u v level = none := by
  unfold bilinear
  rw [List.getElem?_eq_none h]
  rfl

theorem le_finite {a b : F32} (ha : a.Finite) (hb : b.Finite) : Compare.le a b = decide (a.val ≤ b.val) := by
  unfold Compare.le
  rw [lt_finite ha hb]
  have : F32.eq a b = decide (a.val = b.val) := by cases a <;> cases b <;> simp only [F32.Finite] at ha hb <;> rfl
  rw [this]
  rcases lt_trichotomy a.val b.val with h | h | h
  · simp [h, h.le]
  · simp [h]
  · simp [h.not_gt, h.ne', h.not_ge]

theorem last_spec {p : List (Nat × (Nat → Pixel))} {k : Nat} (hp : IsPyramid p k) :
    (ofInt ((p.length : ℤ) - 1)).Finite ∧ (ofInt ((p.length : ℤ) - 1)).val = k := by
  have e : (p.length : ℤ) - 1 = (k : ℤ) := by rw [hp.len]; push_cast; ring
  rw [e]
  have := hp.small
  obtain ⟨f, v⟩ := ofInt_spec (n := (k : ℤ)) (by rw [abs_of_nonneg (by positivity)]; norm_num; omega)
  exact ⟨f, by rw [v, Int.cast_natCast]⟩

/-- **C171, the level.**  A lookup between levels, for every finite level and for infinity: it is undefined exactly at the
last level; otherwise no component is brighter than the brightest texel or darker than the darkest by more than three. -/
theorem C171_level {p : List (Nat × (Nat → Pixel))} {k : Nat} (hp : IsPyramid p k) {u v chosen : F32} (hu : In 0 1 u)
    (hv : In 0 1 v) (hc : chosen.Finite ∨ chosen = inf false) :
    (trilinearAt p u v chosen = none ↔ chosen.Finite ∧ chosen.val = k ∧ 0 < k) ∧
    ∀ q, trilinearAt p u v chosen = some q → ∀ c lo hi, Between p c lo hi → lo ≤ (c.of q).toNat + 3 ∧ (c.of q).toNat ≤ hi := by
  obtain ⟨lf, lv⟩ := last_spec hp
  have zf : zip.Finite := trivial
  have zv : zip.val = 0 := rfl
  have k15 : (k : ℚ) ≤ 15 := by exact_mod_cast hp.small
  have deepest : texel p (p.length - 1) 0 0 = trilinearAt p u v chosen → (chosen.Finite → (k : ℚ) < chosen.val) →
      (trilinearAt p u v chosen = none ↔ chosen.Finite ∧ chosen.val = k ∧ 0 < k) ∧
      ∀ q, trilinearAt p u v chosen = some q → ∀ c lo hi, Between p c lo hi → lo ≤ (c.of q).toNat + 3 ∧ (c.of q).toNat ≤ hi := by
    intro e hlt
    rw [← e]
    obtain ⟨f, hf⟩ := hp.get k le_rfl
    rw [hp.len, Nat.add_sub_cancel]
    have := texel_nat (x := 0) (y := 0) hf (by positivity) (by positivity)
    rw [Nat.cast_zero] at this
    rw [this]
    refine ⟨?_, ?_⟩
    · simp only [reduceCtorEq, false_iff, not_and]
      intro h1 h2
      exact absurd h2 (ne_of_gt (hlt h1))
    · rintro q hq c lo hi hb
      injection hq with hq
      have := hb k _ f hf 0 (by positivity) 0 (by positivity)
      rw [hq] at this
      omega
  rcases hc with fc | rfl
  · by_cases h0 : chosen.val ≤ 0
    · have e : trilinearAt p u v chosen = bilinear p u v 0 := by
        unfold trilinearAt
        rw [le_finite fc zf, zv]
        simp only [h0, decide_true, if_true]
      obtain ⟨q, eq, hb⟩ := level_ok hp (Nat.zero_le k) hu hv
      rw [e, eq]
      refine ⟨?_, ?_⟩
      · simp only [reduceCtorEq, false_iff, not_and, not_lt]
        intro _ h
        rw [h] at h0
        exact_mod_cast h0
      · rintro q' hq c lo hi hb'
        injection hq with hq
        have := hb c lo hi hb'
        rw [hq] at this
        omega
    · have h0' := h0
      push Not at h0'
      by_cases h1 : (k : ℚ) < chosen.val
      · refine deepest ?_ (fun _ => h1)
        unfold trilinearAt
        rw [le_finite fc zf, zv]
        simp only [h0, decide_false, Bool.false_eq_true, if_false]
        rw [lt_finite lf fc, lv]
        simp only [h1, decide_true, if_true]
      · have e : trilinearAt p u v chosen = (do
            let k ← trunc32 0 256 chosen
            let p0 ← bilinear p u v k.toNat
            let p1 ← bilinear p u v (k.toNat + 1)
            blend (sub chosen (ofInt k)) p0 p1) := by
          unfold trilinearAt
          rw [le_finite fc zf, zv]
          simp only [h0, decide_false, Bool.false_eq_true, if_false]
          rw [lt_finite lf fc, lv]
          simp only [h1, decide_false, Bool.false_eq_true, if_false]
        rw [e, trunc_pos (lo := 0) (hi := 256) fc h0'.le le_rfl (by push_cast; linarith)]
        obtain ⟨n, hn⟩ := Int.eq_ofNat_of_zero_le (Int.floor_nonneg.2 h0'.le)
        have fl := Int.floor_le chosen.val
        have fu := Int.lt_floor_add_one chosen.val
        rw [hn, Int.cast_natCast] at fl fu
        simp only [Option.bind_eq_bind, Option.bind_some, hn, Int.toNat_natCast]
        push Not at h1
        rcases lt_or_eq_of_le h1 with hlt | heq
        · have nk : n + 1 ≤ k := by
            have : (n : ℚ) < k := by linarith
            have : n < k := by exact_mod_cast this
            omega
          obtain ⟨q0, e0, b0⟩ := level_ok hp (i := n) (by omega) hu hv
          obtain ⟨q1, e1, b1⟩ := level_ok hp nk hu hv
          have n15 : n ≤ 15 := by have := hp.small; omega
          obtain ⟨fn, vn⟩ := ofInt_spec (n := (n : ℤ)) (by rw [abs_of_nonneg (by positivity)]; norm_num; omega)
          rw [Int.cast_natCast] at vn
          have hd : In 0 1 (sub chosen (ofInt n)) := in_sub fc fn (by rw [vn]; linarith) (by rw [vn]; linarith)
            ⟨rnd32_zero, by norm_num⟩ ⟨by decide +kernel, by norm_num⟩
          obtain ⟨r, er, hr⟩ := blend_spec hd q0 q1
          rw [e0, Option.bind_some, e1, Option.bind_some, er]
          refine ⟨?_, ?_⟩
          · simp only [reduceCtorEq, false_iff, not_and, not_lt]
            intro _ h
            exact absurd h (ne_of_lt hlt)
          · rintro q hq c lo hi hb
            injection hq with hq
            have r0 := b0 c lo hi hb
            have r1 := b1 c lo hi hb
            have := hr c (lo - 1) hi ⟨by omega, r0.2⟩ ⟨by omega, r1.2⟩
            rw [hq] at this
            omega
        · have nk : n = k := by
            have : ⌊chosen.val⌋ = (k : ℤ) := by rw [heq]; exact Int.floor_natCast k
            omega
          rw [nk, bilinear_none (level := k + 1) (by rw [hp.len])]
          obtain ⟨q0, e0, -⟩ := level_ok hp (le_refl k) hu hv
          rw [e0]
          simp only [Option.bind_some, Option.bind_none, true_iff]
          refine ⟨⟨fc, heq, ?_⟩, fun q hq => by cases hq⟩
          rw [heq] at h0'
          exact_mod_cast h0'
  · refine deepest ?_ (fun h => h.elim)
    unfold trilinearAt
    have l : ∀ a : F32, a.Finite → lt a (inf false) = true := by
      intro a ha
      cases a <;> simp only [F32.Finite] at ha <;> rfl
    simp only [show Compare.le (inf false) zip = false by decide, l _ lf, Bool.false_eq_true, if_false, if_true]

/-- The footprint is infinity or a number from 1e-5f on, whatever the differentials are. -/
theorem footprint_spec (a b c d : F32) : footprint a b c d = inf false ∨
    ((footprint a b c d).Finite ∧ 2 ^ (-17 : ℤ) ≤ (footprint a b c d).val) := by
  unfold footprint
  generalize fmax (fmax (F32.abs a) (F32.abs b)) (fmax (F32.abs c) (F32.abs d)) = x
  have e : (2 : ℚ) ^ (-17 : ℤ) ≤ FPlace.epsilon.val := by rw [FPlace.epsilon_val]; norm_num
  have key : ∀ x : F32, x.Finite → (fmax x FPlace.epsilon = inf false ∨
      ((fmax x FPlace.epsilon).Finite ∧ 2 ^ (-17 : ℤ) ≤ (fmax x FPlace.epsilon).val)) := by
    intro x hx
    unfold fmax
    rw [lt_finite FPlace.epsilon_fin.1 hx]
    by_cases h : FPlace.epsilon.val < x.val
    · simp only [h, decide_true, if_true]
      exact Or.inr ⟨hx, e.trans h.le⟩
    · simp only [h, decide_false, Bool.false_eq_true, if_false]
      exact Or.inr ⟨FPlace.epsilon_fin.1, e⟩
  cases x with
  | nan =>
    right
    have : fmax nan FPlace.epsilon = FPlace.epsilon := by decide +kernel
    rw [this]
    exact ⟨FPlace.epsilon_fin.1, e⟩
  | inf s =>
    cases s
    · left; decide +kernel
    · right
      have : fmax (inf true) FPlace.epsilon = FPlace.epsilon := by decide +kernel
      rw [this]
      exact ⟨FPlace.epsilon_fin.1, e⟩
  | zero s => exact key _ trivial
  | num q => exact key _ trivial

theorem chosen_spec {log2 : F32 → F32} (hl : Log2Spec log2) {p : List (Nat × (Nat → Pixel))} {k : Nat} (hp : IsPyramid p k)
    (a b c d : F32) :
    (footprint a b c d = inf false ∧ add (ofInt ((p.length : ℤ) - 1)) (log2 (footprint a b c d)) = inf false) ∨
    ((footprint a b c d).Finite ∧ (add (ofInt ((p.length : ℤ) - 1)) (log2 (footprint a b c d))).Finite ∧
      (add (ofInt ((p.length : ℤ) - 1)) (log2 (footprint a b c d))).val = rnd32 (k + (log2 (footprint a b c d)).val)) := by
  obtain ⟨lf, lv⟩ := last_spec hp
  rcases footprint_spec a b c d with h | ⟨f, h⟩
  · left
    refine ⟨h, ?_⟩
    rw [h, hl.inf]
    generalize ofInt ((p.length : ℤ) - 1) = x at lf
    cases x <;> simp only [F32.Finite] at lf <;> rfl
  · right
    obtain ⟨g, g1, g2⟩ := hl.ok _ f h
    refine ⟨f, ?_⟩
    have k15 : (k : ℚ) ≤ 15 := by exact_mod_cast hp.small
    have k0 : (0 : ℚ) ≤ k := by positivity
    obtain ⟨b, -⟩ := rnd_between (q := k + (log2 (footprint a b c d)).val) (lo := -256) (hi := 256) (by linarith) (by linarith)
      ⟨by decide +kernel, by norm_num⟩ ⟨by decide +kernel, by norm_num⟩
    have := add_finite lf g (by rw [lv]; exact b)
    rwa [lv] at this

/-- **C171, lookups between levels.**  For all differentials, also those that are not numbers, the lookup is undefined
exactly when the rounded level is the last one. -/
theorem C171_trilinear_iff {log2 : F32 → F32} (hl : Log2Spec log2) {p : List (Nat × (Nat → Pixel))} {k : Nat} (hp : IsPyramid p k)
    {u v : F32} (hu : In 0 1 u) (hv : In 0 1 v) (a b c d : F32) :
    trilinear log2 p u v a b c d = none ↔
      0 < k ∧ (footprint a b c d).Finite ∧ rnd32 (k + (log2 (footprint a b c d)).val) = k := by
  unfold trilinear
  rcases chosen_spec hl hp a b c d with ⟨h1, h2⟩ | ⟨h1, h2, h3⟩
  · rw [h2, (C171_level hp hu hv (Or.inr rfl)).1, h1]
    simp only [F32.Finite]
    tauto
  · rw [(C171_level hp hu hv (Or.inl h2)).1, h3]
    tauto

/-- **C171, lookups between levels, range.** -/
theorem C171_trilinear_range {log2 : F32 → F32} (hl : Log2Spec log2) {p : List (Nat × (Nat → Pixel))} {k : Nat} (hp : IsPyramid p k)
    {u v : F32} (hu : In 0 1 u) (hv : In 0 1 v) (a b c d : F32) {q : Pixel} (hq : trilinear log2 p u v a b c d = some q)
    (i : Comp) (lo hi : Nat) (h : Between p i lo hi) : lo ≤ (i.of q).toNat + 3 ∧ (i.of q).toNat ≤ hi := by
  unfold trilinear at hq
  rcases chosen_spec hl hp a b c d with ⟨-, h2⟩ | ⟨-, h2, -⟩
  · exact (C171_level hp hu hv (Or.inr h2)).2 q hq i lo hi h
  · exact (C171_level hp hu hv (Or.inl h2)).2 q hq i lo hi h

theorem round_level {k : Nat} (h8 : 8 ≤ k) (h15 : k ≤ 15) {l : ℚ} (h : |l| ≤ 1 / 2 ^ 22) : rnd32 (k + l) = k := by
  obtain ⟨l1, l2⟩ := abs_le.1 h
  have a : rnd32 ((k : ℚ) - 1 / 2 ^ 22) = k := by interval_cases k <;> decide +kernel
  have b : rnd32 ((k : ℚ) + 1 / 2 ^ 22) = k := by interval_cases k <;> decide +kernel
  have m1 := rnd32_mono (show (k : ℚ) - 1 / 2 ^ 22 ≤ k + l by linarith)
  have m2 := rnd32_mono (show (k : ℚ) + l ≤ k + 1 / 2 ^ 22 by linarith)
  rw [a] at m1
  rw [b] at m2
  exact le_antisymm m2 m1

/-- **C171, lookups between levels, violated.**  With a texture of 256 texels or more it is not only the footprint 1 that
leads to a level that does not exist: the sum with the number of levels is rounded to the last level for all footprints
nearby. -/
theorem C171_violated_trilinear {log2 : F32 → F32} (hl : Log2Spec log2) {p : List (Nat × (Nat → Pixel))} {k : Nat}
    (hp : IsPyramid p k) (hk : 8 ≤ k) {u v : F32} (hu : In 0 1 u) (hv : In 0 1 v) {a b c d : F32}
    (hf : (footprint a b c d).Finite) (h1 : |(footprint a b c d).val - 1| ≤ 1 / 2 ^ 23)
    (near : |(log2 (footprint a b c d)).val| ≤ 2 * |(footprint a b c d).val - 1|) : trilinear log2 p u v a b c d = none := by
  rw [C171_trilinear_iff hl hp hu hv]
  refine ⟨by omega, hf, round_level hk hp.small ?_⟩
  norm_num at *
  linarith

/-- **C171, EWA, violated.**  Differentials that are not numbers lead to the conversion of a NaN to `uint8_t`. -/
theorem C171_violated_ewa {log2 : F32 → F32} (hl : Log2Spec log2) (p : List (Nat × (Nat → Pixel))) (u v a b : F32) {c d : F32}
    (h : c = nan ∨ d = nan) : ewaFilter log2 p u v a b c d = none := by
  have mn : ∀ x, F32.mul nan x = nan := fun x => by cases x <;> rfl
  have an : ∀ x, add nan x = nan := fun x => by cases x <;> rfl
  have an' : ∀ x, add x nan = nan := fun x => by cases x <;> rfl
  have s : F32.sqrt (add (F32.mul c c) (F32.mul d d)) = nan := by
    rcases h with rfl | rfl
    · rw [mn, an]; rfl
    · rw [mn, an']; rfl
  have l1 : ∀ x, lt x nan = false := fun x => by cases x <;> rfl
  have l2 : ∀ x, lt nan x = false := fun x => by cases x <;> rfl
  unfold ewaFilter
  rw [s]
  simp only [l1, Bool.false_eq_true, if_false]
  unfold ewaSorted
  simp only [mn, l2, Bool.false_eq_true, if_false, hl.nan, an', show F32.eq nan zip = false from rfl]
  unfold ewaAt
  rw [show fmax zip nan = nan from rfl]
  simp only [l1, Bool.false_eq_true, if_false]
  rfl

/-! ### Ray differentials -/

/-- A floor seen from the height 1; the ray through the pixel above is exactly horizontal. -/
def horizon : Option Diff :=
  differentials ⟨zip, zip, num 10⟩ ⟨zip, one, zip⟩ ⟨one, zip, zip⟩ ⟨zip, zip, one⟩
    ⟨zip, one, zip⟩ ⟨num (1 / 128), num (-1 / 8), one⟩ ⟨zip, one, zip⟩ ⟨zip, zip, one⟩

/-- **C171, differentials, violated.**  The differentials of the floor at the horizon are flagged as known, but are not
numbers. -/
theorem C171_violated_horizon : ∃ d, horizon = some d ∧ d.dux.Finite ∧ d.dvx.Finite ∧ d.duy = nan ∧ d.dvy = nan := by
  have h : (horizon.map fun d => (d.duy, d.dvy)) = some (nan, nan) := by decide +kernel
  have h2 : (horizon.map fun d => (d.dux, d.dvx)) = some (num (1 / 16), num (-2)) := by decide +kernel
  generalize horizon = o at h h2
  cases o with
  | none => cases h
  | some d =>
    simp only [Option.map_some, Option.some.injEq, Prod.mk.injEq] at h h2
    exact ⟨d, rfl, by rw [h2.1]; trivial, by rw [h2.2]; trivial, h.1, h.2⟩

/-- The property: whenever the differentials are flagged as known, the lookup with them is defined. -/
def C171_statement (log2 : F32 → F32) : Prop :=
  ∀ (p : List (Nat × (Nat → Pixel))) (k : Nat), IsPyramid p k → ∀ u v : F32, In 0 1 u → In 0 1 v →
    ∀ (q n dpdu dpdv ox dx oy dy : V3 F32) (d : Diff), differentials q n dpdu dpdv ox dx oy dy = some d →
      ∃ t, ewaFilter log2 p u v d.dux d.dvx d.duy d.dvy = some t

/-- **C171 is violated** by the floor at the horizon, with every texture. -/
theorem C171_violated {log2 : F32 → F32} (hl : Log2Spec log2) (p : List (Nat × (Nat → Pixel))) (k : Nat) (hp : IsPyramid p k) :
    ¬ C171_statement log2 := by
  intro h
  obtain ⟨d, e, -, -, h1, -⟩ := C171_violated_horizon
  obtain ⟨t, ht⟩ := h p k hp zip zip ⟨trivial, le_rfl, zero_le_one⟩ ⟨trivial, le_rfl, zero_le_one⟩ _ _ _ _ _ _ _ _ d e
  rw [C171_violated_ewa hl p _ _ _ _ (Or.inl h1)] at ht
  cases ht

/-- **C171, the horizon, violated.**  Lookups between levels take the finest level there, although the footprint is infinite. -/
theorem C171_violated_sharp {log2 : F32 → F32} (hl : Log2Spec log2) (hs : (log2 FPlace.epsilon).val ≤ -15)
    {p : List (Nat × (Nat → Pixel))} {k : Nat} (hp : IsPyramid p k) (u v a b c : F32) :
    trilinear log2 p u v a b c nan = bilinear p u v 0 := by
  have e : footprint a b c nan = FPlace.epsilon := by
    have l1 : ∀ x, lt nan x = false := fun x => by cases x <;> rfl
    have l2 : ∀ x, lt x nan = false := fun x => by cases x <;> rfl
    unfold footprint
    simp only [F32.abs, fmax, l1, l2, Bool.false_eq_true, if_false]
  rcases chosen_spec hl hp a b c nan with ⟨h1, -⟩ | ⟨-, h2, h3⟩
  · rw [e] at h1
    have := FPlace.epsilon_fin.1
    rw [h1] at this
    exact this.elim
  · unfold trilinear trilinearAt
    have k15 : (k : ℚ) ≤ 15 := by exact_mod_cast hp.small
    have : rnd32 (k + (log2 (footprint a b c nan)).val) ≤ 0 := by
      have := rnd32_mono (show (k : ℚ) + (log2 (footprint a b c nan)).val ≤ 0 by rw [e]; linarith)
      rwa [rnd32_zero] at this
    rw [le_finite h2 (show zip.Finite from trivial), h3, show zip.val = 0 from rfl]
    simp only [this, decide_true, if_true]

open FPlace in
theorem um {x y : F32} {i j : ℤ} (hx : Upto i x) (hy : Upto j y) (h1 : -149 ≤ i + j) (h2 : i + j ≤ 127) : Upto (i + j) (F32.mul x y) :=
  (upto_mul hx hy h1 h2).1

open FPlace in
theorem ua {x y : F32} {i : ℤ} (hx : Upto i x) (hy : Upto i y) (h1 : -150 ≤ i) (h2 : i ≤ 126) : Upto (i + 1) (add x y) :=
  (upto_add hx hy h1 h2).1

open FPlace in
theorem upto_div {x y : F32} {i j : ℤ} (hx : Upto i x) (hy : y.Finite) (h : 2 ^ j ≤ |y.val|) (h1 : -149 ≤ i - j) (h2 : i - j ≤ 127) :
    Upto (i - j) (div x y) := by
  have yp : 0 < |y.val| := lt_of_lt_of_le (two_zpow_pos j) h
  have e : |x.val / y.val| ≤ 2 ^ (i - j) := by
    rw [abs_div, div_le_iff₀ yp, zpow_sub₀ (by norm_num)]
    have p := two_zpow_pos j
    have q := two_zpow_pos i
    calc |x.val| ≤ 2 ^ i := hx.2
      _ = 2 ^ i / 2 ^ j * 2 ^ j := by field_simp
      _ ≤ 2 ^ i / 2 ^ j * |y.val| := mul_le_mul_of_nonneg_left h (by positivity)
  have r := rnd32_abs_le h1 e
  obtain ⟨f, v⟩ := div_finite hx.1 hy (abs_pos.1 yp) (lt_of_le_of_lt r (pow_lt128 h2))
  exact ⟨f, by rw [v]; exact r⟩

open FPlace in
theorem dot_upto {a b : V3 F32} {i j : ℤ} (ha : Upto3 i a) (hb : Upto3 j b) (h1 : -149 ≤ i + j) (h2 : i + j ≤ 120) :
    Upto (i + j + 2) (dot a b) := by
  have m1 := um ha.1 hb.1 h1 (by omega)
  have m2 := um ha.2.1 hb.2.1 h1 (by omega)
  have m3 := um ha.2.2 hb.2.2 h1 (by omega)
  have s1 := ua m1 m2 (by omega) (by omega)
  have s2 := ua s1 (upto_mono (by omega : i + j ≤ i + j + 1) m3) (by omega) (by omega)
  exact upto_mono (by omega) s2

open FPlace in
theorem planePoint_upto {p n o d : V3 F32} (hp : Upto3 20 p) (hn : Upto3 0 n) (ho : Upto3 20 o) (hd : Upto3 0 d)
    (h : 2 ^ (-20 : ℤ) ≤ |(dot n d).val|) : Upto3 45 (planePoint p n o d) := by
  have a := dot_upto hn hp (by norm_num) (by norm_num)
  have b := dot_upto hn ho (by norm_num) (by norm_num)
  have c := (dot_upto hn hd (by norm_num) (by norm_num)).1
  have s := upto_neg (ua b (upto_neg a) (by norm_num) (by norm_num))
  have t := upto_div s c h (by norm_num) (by norm_num)
  have key : ∀ {x y : F32}, Upto 20 x → Upto 0 y →
      Upto 45 (add x (F32.mul y (div (neg (add (dot n o) (neg (dot n p)))) (dot n d)))) := by
    intro x y hx hy
    have m := um hy t (by norm_num) (by norm_num)
    have := ua (upto_mono (by norm_num : (20 : ℤ) ≤ 43) hx) (upto_mono (by norm_num) m) (by norm_num) (by norm_num)
    exact upto_mono (by norm_num) this
  exact ⟨key ho.1 hd.1, key ho.2.1 hd.2.1, key ho.2.2 hd.2.2⟩

open FPlace in
theorem keep_upto {k : ℤ} {v : V3 F32} (n : V3 F32) (hv : Upto3 k v) : Upto k (keep n v).1 ∧ Upto k (keep n v).2 := by
  unfold keep
  dsimp only
  split
  · exact ⟨hv.2.1, hv.2.2⟩
  · split
    · exact ⟨hv.1, hv.2.2⟩
    · exact ⟨hv.1, hv.2.1⟩

open FPlace in
theorem solve_upto {a b q : F32 × F32} {det : F32} (ha : Upto 20 a.1 ∧ Upto 20 a.2) (hb : Upto 20 b.1 ∧ Upto 20 b.2)
    (hq : Upto 46 q.1 ∧ Upto 46 q.2) (hd : det.Finite) (h : 2 ^ (-17 : ℤ) ≤ |det.val|) :
    Upto 84 (solve a b q det).1 ∧ Upto 84 (solve a b q det).2 := by
  have one0 : Upto 0 one := ⟨one_finite.1, by rw [one_finite.2]; norm_num⟩
  have i := upto_div one0 hd h (by norm_num) (by norm_num)
  have key : ∀ {x y z w : F32}, Upto 20 x → Upto 46 y → Upto 20 z → Upto 46 w →
      Upto 84 (F32.mul (sub (F32.mul x y) (F32.mul z w)) (div one det)) := by
    intro x y z w hx hy hz hw
    have m1 := um hx hy (by norm_num) (by norm_num)
    have m2 := um hz hw (by norm_num) (by norm_num)
    have s := ua m1 (upto_neg m2) (by norm_num) (by norm_num)
    exact upto_mono (by norm_num) (um s i (by norm_num) (by norm_num))
  exact ⟨key hb.2 hq.1 hb.1 hq.2, key ha.1 hq.2 ha.2 hq.1⟩

open FPlace in
/-- **C171, differentials, partial**: they are numbers when the neighbouring rays are not (almost) parallel to the surface.
Missing: rays parallel to the surface (`C171_violated_horizon`). -/
theorem C171_differentials_partial {p n dpdu dpdv ox dx oy dy : V3 F32} (hp : Upto3 20 p) (hn : Upto3 0 n) (hu : Upto3 20 dpdu)
    (hv : Upto3 20 dpdv) (hox : Upto3 20 ox) (hoy : Upto3 20 oy) (hdx : Upto3 0 dx) (hdy : Upto3 0 dy)
    (hx : 2 ^ (-20 : ℤ) ≤ |(dot n dx).val|) (hy : 2 ^ (-20 : ℤ) ≤ |(dot n dy).val|) {d : Diff}
    (h : differentials p n dpdu dpdv ox dx oy dy = some d) :
    Upto 84 d.dux ∧ Upto 84 d.dvx ∧ Upto 84 d.duy ∧ Upto 84 d.dvy := by
  have px := planePoint_upto hp hn hox hdx hx
  have py := planePoint_upto hp hn hoy hdy hy
  have kx := keep_upto n px
  have ky := keep_upto n py
  have kp := keep_upto n hp
  have ka := keep_upto n hu
  have kb := keep_upto n hv
  have diff : ∀ {x y : F32}, Upto 45 x → Upto 20 y → Upto 46 (sub x y) := fun hx hy =>
    ua hx (upto_neg (upto_mono (by norm_num) hy)) (by norm_num) (by norm_num)
  have dt := ua (um ka.1 kb.2 (by norm_num) (by norm_num)) (upto_neg (um kb.1 ka.2 (by norm_num) (by norm_num)))
    (by norm_num) (by norm_num)
  unfold differentials at h
  dsimp only at h
  split at h
  case isFalse => cases h
  case isTrue c =>
    injection h with h
    obtain ⟨fa, va⟩ := abs_finite dt.1
    have c' : lt FPlace.epsilon (F32.abs (add (F32.mul (keep n dpdu).1 (keep n dpdv).2)
      (neg (F32.mul (keep n dpdv).1 (keep n dpdu).2)))) = true := c
    rw [lt_finite FPlace.epsilon_fin.1 fa, va, FPlace.epsilon_val, decide_eq_true_eq] at c'
    have dl : (2 : ℚ) ^ (-17 : ℤ) ≤ |(add (F32.mul (keep n dpdu).1 (keep n dpdv).2)
      (neg (F32.mul (keep n dpdv).1 (keep n dpdu).2))).val| := le_trans (by norm_num) c'.le
    have sx := solve_upto (q := (sub (keep n (planePoint p n ox dx)).1 (keep n p).1, sub (keep n (planePoint p n ox dx)).2 (keep n p).2))
      ka kb ⟨diff kx.1 kp.1, diff kx.2 kp.2⟩ dt.1 dl
    have sy := solve_upto (q := (sub (keep n (planePoint p n oy dy)).1 (keep n p).1, sub (keep n (planePoint p n oy dy)).2 (keep n p).2))
      ka kb ⟨diff ky.1 kp.1, diff ky.2 kp.2⟩ dt.1 dl
    rw [← h]
    exact ⟨sx.1, sx.2, sy.1, sy.2⟩

/-- One row of the solution. -/
theorem solve_row {a b c d det : F32} {k : ℤ} (fa : a.Finite) (fb : b.Finite) (fc : c.Finite) (fd : d.Finite) (ft : det.Finite)
    (k1 : -60 ≤ k) (k2 : k ≤ 100) (h1 : |a.val * b.val| ≤ 2 ^ k) (h2 : |c.val * d.val| ≤ 2 ^ k) (t1 : 2 ^ (-17 : ℤ) ≤ |det.val|)
    (t2 : |det.val| ≤ 2 ^ 41) :
    (F32.mul (sub (F32.mul a b) (F32.mul c d)) (div one det)).Finite ∧
    |(F32.mul (sub (F32.mul a b) (F32.mul c d)) (div one det)).val * det.val - (a.val * b.val - c.val * d.val)| ≤ 2 ^ k / 2 ^ 20 := by
  have kp := two_zpow_pos k
  have r1 := rnd32_abs_le (by omega) h1
  have r2 := rnd32_abs_le (by omega) h2
  have e1 := rnd32_err_pow (by omega) h1
  have e2 := rnd32_err_pow (by omega) h2
  have bk : (2 : ℚ) ^ k < 2 ^ 128 := pow_lt128 (by omega)
  obtain ⟨f1, v1⟩ := mul_finite fa fb (lt_of_le_of_lt r1 bk)
  obtain ⟨f2, v2⟩ := mul_finite fc fd (lt_of_le_of_lt r2 bk)
  have sk : (2 : ℚ) ^ (k + 1) = 2 * 2 ^ k := by rw [zpow_add_one₀ (by norm_num)]; ring
  have s : |(F32.mul a b).val - (F32.mul c d).val| ≤ 2 ^ (k + 1) := by
    rw [v1, v2, sk]
    refine (abs_sub _ _).trans ?_
    linarith
  have r3 := rnd32_abs_le (by omega) s
  have e3 := rnd32_err_pow (by omega) s
  obtain ⟨f3, v3⟩ := sub_fin f1 f2 (lt_of_le_of_lt r3 (pow_lt128 (by omega)))
  have dp : 0 < |det.val| := lt_of_lt_of_le (two_zpow_pos _) t1
  have dn : det.val ≠ 0 := abs_pos.1 dp
  have q1 : |1 / det.val| ≤ 2 ^ (17 : ℤ) := by
    rw [abs_div, abs_one, div_le_iff₀ dp]
    have := mul_le_mul_of_nonneg_left t1 (by positivity : (0 : ℚ) ≤ 2 ^ (17 : ℤ))
    refine le_trans ?_ this
    norm_num
  have q0 : (2 : ℚ) ^ (-126 : ℤ) ≤ |1 / det.val| := by
    rw [abs_div, abs_one, le_div_iff₀ dp]
    have := mul_le_mul_of_nonneg_left t2 (by positivity : (0 : ℚ) ≤ 2 ^ (-126 : ℤ))
    refine this.trans ?_
    norm_num
  have ri := rnd32_abs_le (by norm_num) q1
  have ei := rnd32_rel q0
  obtain ⟨fi, vi⟩ := div_finite one_finite.1 ft dn (by rw [one_finite.2]; exact lt_of_le_of_lt ri (pow_lt128 (by norm_num)))
  rw [one_finite.2] at vi
  rw [← v3] at r3 e3
  rw [← vi] at ri ei
  rw [← v1] at e1
  rw [← v2] at e2
  have pk : (2 : ℚ) ^ (k + 18) = 2 ^ (k + 1) * 2 ^ (17 : ℤ) := by rw [← zpow_add₀ (by norm_num)]; congr 1; ring
  have mb : |(sub (F32.mul a b) (F32.mul c d)).val * (div one det).val| ≤ 2 ^ (k + 18) := by
    rw [abs_mul, pk]
    exact mul_le_mul r3 ri (abs_nonneg _) (two_zpow_pos _).le
  have rm := rnd32_abs_le (by omega) mb
  obtain ⟨fm, vm⟩ := mul_finite f3 fi (lt_of_le_of_lt rm (pow_lt128 (by omega)))
  refine ⟨fm, ?_⟩
  have em := rnd32_err' ((sub (F32.mul a b) (F32.mul c d)).val * (div one det).val)
  rw [← vm] at em
  -- the four errors
  generalize (F32.mul (sub (F32.mul a b) (F32.mul c d)) (div one det)).val = x at *
  generalize (sub (F32.mul a b) (F32.mul c d)).val = N at *
  generalize (div one det).val = i at *
  generalize (F32.mul a b).val = A at *
  generalize (F32.mul c d).val = B at *
  generalize a.val * b.val = A' at *
  generalize c.val * d.val = B' at *
  generalize det.val = t at *
  have ti : |i * t - 1| ≤ 1 / 2 ^ 24 := by
    have : i * t - 1 = (i - 1 / t) * t := by field_simp
    rw [this, abs_mul]
    have := mul_le_mul_of_nonneg_right ei dp.le
    refine this.trans (le_of_eq ?_)
    rw [mul_right_comm, ← abs_mul, one_div_mul_cancel dn, abs_one, one_mul]
  have it : |i * t| ≤ 2 := by
    have := abs_le.1 ti
    rw [abs_le]
    norm_num at *
    constructor <;> linarith [this.1, this.2]
  have g1 : |(x - N * i) * t| ≤ 2 ^ (k + 1) * 2 * (1 / 2 ^ 24) + 2 ^ (-150 : ℤ) * 2 ^ 41 := by
    rw [abs_mul]
    have h := mul_le_mul_of_nonneg_right em dp.le
    refine h.trans ?_
    rw [add_mul]
    have m1 : |N * i| * (1 / 2 ^ 24) * |t| = |N| * |i * t| * (1 / 2 ^ 24) := by rw [abs_mul, abs_mul]; ring
    rw [m1]
    have m2 := mul_le_mul r3 it (abs_nonneg _) (two_zpow_pos _).le
    have m3 := mul_le_mul_of_nonneg_left t2 (two_zpow_pos (-150)).le
    have m4 := mul_le_mul_of_nonneg_right m2 (by norm_num : (0 : ℚ) ≤ 1 / 2 ^ 24)
    linarith
  have g2 : |N * (i * t - 1)| ≤ 2 ^ (k + 1) * (1 / 2 ^ 24) := by
    rw [abs_mul]
    exact mul_le_mul r3 ti (abs_nonneg _) (two_zpow_pos _).le
  have e : x * t - (A' - B') = (x - N * i) * t + N * (i * t - 1) + (N - (A - B)) + (A - A') - (B - B') := by ring
  rw [e]
  have tri : |(x - N * i) * t + N * (i * t - 1) + (N - (A - B)) + (A - A') - (B - B')| ≤
      |(x - N * i) * t| + |N * (i * t - 1)| + |N - (A - B)| + |A - A'| + |B - B'| := by
    refine (abs_sub _ _).trans (add_le_add ?_ le_rfl)
    refine (abs_add_le _ _).trans (add_le_add ?_ le_rfl)
    refine (abs_add_le _ _).trans (add_le_add ?_ le_rfl)
    exact abs_add_le _ _
  refine tri.trans ?_
  have small : (2 : ℚ) ^ (-150 : ℤ) * 2 ^ 41 ≤ 2 ^ k * (1 / 2 ^ 24) := by
    have : (2 : ℚ) ^ (-60 : ℤ) ≤ 2 ^ k := zpow_le_zpow_right₀ (by norm_num) k1
    refine le_trans ?_ (mul_le_mul_of_nonneg_right this (by norm_num))
    norm_num
  rw [sk] at g1 g2 e3
  generalize (2 : ℚ) ^ k = K at *
  generalize (2 : ℚ) ^ (-150 : ℤ) * 2 ^ 41 = z at *
  generalize |(x - N * i) * t| = w1 at *
  generalize |N * (i * t - 1)| = w2 at *
  generalize |N - (A - B)| = w3 at *
  generalize |A - A'| = w4 at *
  generalize |B - B'| = w5 at *
  clear e tri em r3 ri ei mb rm s r1 r2 q0 q1 sk pk bk v1 v2 v3 vi vm h1 h2 it ti t1 t2
  norm_num at *
  linarith

/-- **C171, the system.**  The two equations of a neighbouring pixel are solved (by Cramer's rule) up to an error of `2^-20`
times the largest of the products. -/
theorem C171_solve {a b q : F32 × F32} {det : F32} {k : ℤ} (ha : a.1.Finite ∧ a.2.Finite) (hb : b.1.Finite ∧ b.2.Finite)
    (hq : q.1.Finite ∧ q.2.Finite) (ft : det.Finite) (k1 : -60 ≤ k) (k2 : k ≤ 100)
    (h1 : |b.2.val * q.1.val| ≤ 2 ^ k) (h2 : |b.1.val * q.2.val| ≤ 2 ^ k) (h3 : |a.1.val * q.2.val| ≤ 2 ^ k)
    (h4 : |a.2.val * q.1.val| ≤ 2 ^ k) (t1 : 2 ^ (-17 : ℤ) ≤ |det.val|) (t2 : |det.val| ≤ 2 ^ 41) :
    |(solve a b q det).1.val * det.val - (b.2.val * q.1.val - b.1.val * q.2.val)| ≤ 2 ^ k / 2 ^ 20 ∧
    |(solve a b q det).2.val * det.val - (a.1.val * q.2.val - a.2.val * q.1.val)| ≤ 2 ^ k / 2 ^ 20 :=
  ⟨(solve_row hb.2 hq.1 hb.1 hq.2 ft k1 k2 h1 h2 t1 t2).2, (solve_row ha.1 hq.2 ha.2 hq.1 ft k1 k2 h3 h4 t1 t2).2⟩

/-- **C171, unfiltered.**  The lookup of one texel is defined and inside of the texture. -/
theorem C171_unfiltered {p : List (Nat × (Nat → Pixel))} {s : Nat} {f : Nat → Pixel} (hp : p[0]? = some (s, f))
    (h1 : 1 ≤ s) (h2 : s ≤ 2 ^ 15) {u v : F32} (hu : In 0 1 u) (hv : In 0 1 v) :
    ∃ x y : Nat, x < s ∧ y < s ∧ unfiltered p u v = some (f (y * s + x)) ∧
      |u.val * s - 1 / 2 - x| ≤ 1 + s / 2 ^ 22 ∧ |v.val * s - 1 / 2 - y| ≤ 1 + s / 2 ^ 22 := by
  obtain ⟨x, xs, tx, cx, -, -⟩ := texel_spec hu h1 h2 0 (2 ^ 16) le_rfl (by norm_num)
  obtain ⟨y, ys, ty, cy, -, -⟩ := texel_spec hv h1 h2 0 (2 ^ 16) le_rfl (by norm_num)
  have near : ∀ {w : F32} {z : Nat}, |(texels w s).val - z| < 1 → |(texels w s).val - (w.val * s - 1 / 2)| ≤ s / 2 ^ 22 →
      |w.val * s - 1 / 2 - z| ≤ 1 + s / 2 ^ 22 := by
    intro w z c e
    have t := abs_sub_le (w.val * s - 1 / 2) (texels w s).val z
    rw [abs_sub_comm (w.val * s - 1 / 2) (texels w s).val] at t
    linarith
  refine ⟨x, y, xs, ys, ?_, near cx (texels_in hu h1 h2).2, near cy (texels_in hv h1 h2).2⟩
  unfold unfiltered
  simp only [hp, Option.bind_eq_bind, Option.bind_some, tx, ty, texel_nat hp xs ys]

/-! ### Examples -/

/-- A 2x2 texture with a dark texel. -/
def checker : List (Nat × (Nat → Pixel)) := [(2, fun i => if i = 0 then 0xff000000#32 else 0xffffffff#32), (1, fun _ => 0xffbfbfbf#32)]

/-- A logarithm in whole numbers. -/
def log2Int : F32 → F32
  | num q => ofInt (max (-17) (min 128 (Int.log 2 q)))
  | x => x

theorem log2Int_spec : Log2Spec log2Int := by
  refine ⟨?_, rfl, rfl⟩
  intro x f h
  have p : 0 < x.val := lt_of_lt_of_le (by norm_num) h
  cases x with
  | nan => exact f.elim
  | inf s => exact f.elim
  | zero s => exact absurd p (lt_irrefl _)
  | num q =>
    unfold log2Int
    generalize hm : max (-17 : ℤ) (min 128 (Int.log 2 q)) = m
    have l1 : -17 ≤ m := by rw [← hm]; exact le_max_left _ _
    have l2 : m ≤ 128 := by rw [← hm]; exact max_le (by norm_num) (min_le_left _ _)
    obtain ⟨g, v⟩ := ofInt_spec (n := m) (by rw [abs_le]; constructor <;> · norm_num; omega)
    simp only
    rw [hm, v]
    exact ⟨g, by exact_mod_cast l1, by exact_mod_cast l2⟩

theorem checker_pyramid : IsPyramid checker 1 := by
  refine ⟨rfl, by norm_num, ?_⟩
  intro i hi
  interval_cases i
  · exact ⟨_, rfl⟩
  · exact ⟨_, rfl⟩

theorem half_in : In 0 1 (num (3 / 8)) := ⟨trivial, by rw [show (num (3 / 8)).val = 3 / 8 from rfl]; norm_num, by
  rw [show (num (3 / 8)).val = 3 / 8 from rfl]; norm_num⟩

example : wrap (num (21 / 8)) = some (num (5 / 8)) := by decide +kernel

/-- A quarter of the way between the dark texel and the bright ones. -/
example : bilinear checker (num (3 / 8)) (num (3 / 8)) 0 = some 0xff6f6f6f#32 := by decide +kernel

example : ∃ q, bilinear checker (num (3 / 8)) (num (3 / 8)) 0 = some q := by
  obtain ⟨-, -, -, -, -, -, -, -, -, -, q, e, -⟩ := C171_bilinear (p := checker) (level := 0) (s := 2) rfl (by norm_num) (by norm_num)
    half_in half_in
  exact ⟨q, e⟩

/-- The lookup with the footprint 1/4 is defined, the one with the footprint 1 is not. -/
example : trilinear log2Int checker (num (3 / 8)) (num (3 / 8)) (num (1 / 4)) zip zip zip = some 0xff6f6f6f#32 ∧
    trilinear log2Int checker (num (3 / 8)) (num (3 / 8)) one zip zip zip = none := by
  decide +kernel

example : 0 < 1 ∧ (footprint one zip zip zip).Finite ∧ rnd32 ((1 : Nat) + (log2Int (footprint one zip zip zip)).val) = (1 : Nat) := by
  rw [← C171_trilinear_iff log2Int_spec checker_pyramid half_in half_in]
  decide +kernel

/-- A pyramid with nine levels: the footprint `1 - 2^-24` leads to the last one. -/
example {p : List (Nat × (Nat → Pixel))} (hp : IsPyramid p 8) :
    trilinear (fun x => if x = num (1 - 1 / 2 ^ 24) then num (-1 / 2 ^ 23) else log2Int x) p (num (3 / 8)) (num (3 / 8))
      (num (1 - 1 / 2 ^ 24)) zip zip zip = none := by
  have e : footprint (num (1 - 1 / 2 ^ 24)) zip zip zip = num (1 - 1 / 2 ^ 24) := by decide +kernel
  refine C171_violated_trilinear ?_ hp le_rfl half_in half_in ?_ ?_ ?_
  · refine ⟨?_, ?_, ?_⟩
    · intro x f h
      split
      · refine ⟨trivial, ?_, ?_⟩ <;> · rw [show (num (-1 / 2 ^ 23)).val = -1 / 2 ^ 23 from rfl]; norm_num
      · exact log2Int_spec.ok x f h
    · simp [log2Int]
    · simp [log2Int]
  · rw [e]; trivial
  · rw [e, show (num (1 - 1 / 2 ^ 24)).val = 1 - 1 / 2 ^ 24 from rfl]; norm_num [abs_le]
  · rw [e, if_pos rfl, show (num (1 - 1 / 2 ^ 24)).val = 1 - 1 / 2 ^ 24 from rfl, show (num (-1 / 2 ^ 23)).val = -1 / 2 ^ 23 from rfl]
    rw [show (1 - 1 / 2 ^ 24 - 1 : ℚ) = -(1 / 2 ^ 24) by ring, abs_neg, abs_of_pos (by norm_num : (0 : ℚ) < 1 / 2 ^ 24),
      show (-1 / 2 ^ 23 : ℚ) = -(1 / 2 ^ 23) by ring, abs_neg, abs_of_pos (by norm_num : (0 : ℚ) < 1 / 2 ^ 23)]
    norm_num

example : ¬ C171_statement log2Int := C171_violated log2Int_spec checker 1 checker_pyramid

example : trilinear log2Int checker (num (3 / 8)) (num (3 / 8)) zip zip zip nan = some 0xff6f6f6f#32 := by
  rw [C171_violated_sharp log2Int_spec (by decide +kernel) checker_pyramid]
  decide +kernel

/-- The floor below the horizon. -/
def floor' : Option Diff :=
  differentials ⟨zip, zip, num 8⟩ ⟨zip, one, zip⟩ ⟨one, zip, zip⟩ ⟨zip, zip, one⟩
    ⟨zip, one, zip⟩ ⟨num (1 / 128), num (-1 / 8), one⟩ ⟨zip, one, zip⟩ ⟨zip, num (-1 / 16), one⟩

example : (floor'.map fun d => [d.dux, d.dvx, d.duy, d.dvy]) = some [num (1 / 16), zip, zip, num 8] := by decide +kernel

example : 2 ^ (-20 : ℤ) ≤ |(dot ⟨zip, one, zip⟩ ⟨zip, num (-1 / 16), one⟩ : F32).val| := by decide +kernel

example : (solve (one, zip) (zip, one) (num 3, num 5) one) = (num 3, num 5) := by decide +kernel

end Spectre.FTex
