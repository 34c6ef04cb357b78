import Verif.Model.FloatSampler
import Verif.Props.FloatChoice

/-
C179: the positions of samples in binary32.
-/

namespace Spectre.FSampler

open F32 Spectre.FChoice

/-! ### Specification -/

/-- A finite position in the pixel `n`, the ends included, at most `e` from `X`. -/
def At (p : F32) (n : ℤ) (X e : ℚ) : Prop := p.Finite ∧ (n : ℚ) ≤ p.val ∧ p.val ≤ n + 1 ∧ |p.val - X| ≤ e

/-- A pixel of an image with at most `2^16` columns and rows. -/
def Pixel (n : ℤ) : Prop := 0 ≤ n ∧ n < 2 ^ 16

/-! ### Positions -/

/-- Adding a number from 0 to 1 to the pixel. -/
theorem add_pixel {n : ℤ} (hn : Pixel n) {y : F32} (fy : y.Finite) (y0 : 0 ≤ y.val) (y1 : y.val ≤ 1) :
    At (add (FTex.ofInt n) y) n (n + y.val) (((n : ℚ) + 1) / 2 ^ 24 + 2 ^ (-150 : ℤ)) := by
  obtain ⟨n0, n1⟩ := hn
  have an : |n| ≤ 2 ^ 24 := by rw [abs_of_nonneg n0]; omega
  have an' : |n + 1| ≤ 2 ^ 24 := by rw [abs_of_nonneg (by omega)]; omega
  obtain ⟨fn, vn⟩ := FTex.ofInt_spec an
  have nq : (0 : ℚ) ≤ n := by exact_mod_cast n0
  have nb : (n : ℚ) < 2 ^ 16 := by exact_mod_cast n1
  have lo : (n : ℚ) ≤ rnd32 (n + y.val) := by
    rw [← FFilter.rnd_int n an]
    refine rnd32_mono ?_
    rw [FFilter.rnd_int n an]; linarith
  have hi : rnd32 (n + y.val) ≤ n + 1 := by
    have e := FFilter.rnd_int (n + 1) an'
    push_cast at e
    exact (rnd32_mono (by linarith : (n : ℚ) + y.val ≤ n + 1)).trans e.le
  have ov : |rnd32 ((FTex.ofInt n).val + y.val)| < 2 ^ 128 := by
    rw [vn, abs_of_nonneg (nq.trans lo)]
    refine lt_of_le_of_lt hi ?_
    norm_num at nb ⊢; linarith
  obtain ⟨f, v⟩ := add_finite fn fy ov
  rw [vn] at v
  refine ⟨f, v ▸ lo, v ▸ hi, ?_⟩
  rw [v]
  refine (rnd32_err' _).trans ?_
  rw [abs_of_nonneg (by linarith), mul_one_div]
  have : ((n : ℚ) + y.val) / 2 ^ 24 ≤ (n + 1) / 2 ^ 24 := div_le_div_of_nonneg_right (by linarith) (by norm_num)
  linarith

/-- **C179, random samples.**  The position is in the pixel, the ends included, and off by at most half a unit in the last
place of the pixel. -/
theorem C179_random {n : ℤ} (hn : Pixel n) {r : F32} (hr : Random r) :
    At (randomPos n r) n (n + r.val) (((n : ℚ) + 1) / 2 ^ 24 + 2 ^ (-150 : ℤ)) :=
  add_pixel hn hr.1 hr.2.1 hr.2.2

theorem width_spec {k : ℤ} (k0 : 0 < k) (k1 : k ≤ 2 ^ 12) :
    (width k).Finite ∧ 0 ≤ (width k).val ∧ |(width k).val - 1 / k| ≤ 1 / k * (1 / 2 ^ 24) := by
  have ak : |k| ≤ 2 ^ 24 := by rw [abs_of_pos k0]; omega
  obtain ⟨fk, vk⟩ := FTex.ofInt_spec ak
  have kq : (0 : ℚ) < k := by exact_mod_cast k0
  have k1q : (1 : ℚ) ≤ k := by exact_mod_cast k0
  have kb : (k : ℚ) ≤ 2 ^ 12 := by exact_mod_cast k1
  have q0 : (0 : ℚ) ≤ 1 / k := by positivity
  have q1 : (1 : ℚ) / k ≤ 2 ^ (0 : ℤ) := by rw [div_le_iff₀ kq]; norm_num; exact k1q
  have ov : |rnd32 ((num 1).val / (FTex.ofInt k).val)| < 2 ^ 128 := by
    rw [vk]
    exact lt_of_le_of_lt (FTri.rnd32_abs_le (k := 0) (by norm_num) (by rw [F32.val, abs_of_nonneg q0]; exact q1)) (by norm_num)
  obtain ⟨f, v⟩ := div_finite (a := num 1) trivial fk (by rw [vk]; exact kq.ne') ov
  rw [vk] at v
  have v' : (width k).val = rnd32 (1 / k) := v
  refine ⟨f, v' ▸ rnd32_nonneg q0, ?_⟩
  rw [v']
  refine (rnd32_err _).trans (max_le ?_ ?_)
  · rw [abs_of_nonneg q0]
  · have : (2 : ℚ) ^ (-12 : ℤ) ≤ 1 / k := by
      rw [le_div_iff₀ kq]
      norm_num at kb ⊢; linarith
    norm_num at this ⊢; linarith

theorem round_one : rnd32 (1 + 1 / 2 ^ 24) = 1 := by decide +kernel

/-- The place in the pixel. -/
theorem place_spec {k x : ℤ} (x0 : 0 ≤ x) (hx : x < k) (k1 : k ≤ 2 ^ 12) {r : F32} (hr : Random r) :
    (F32.mul (add (FTex.ofInt x) r) (width k)).Finite ∧ 0 ≤ (F32.mul (add (FTex.ofInt x) r) (width k)).val ∧
      (F32.mul (add (FTex.ofInt x) r) (width k)).val ≤ 1 ∧
      |(F32.mul (add (FTex.ofInt x) r) (width k)).val - (x + r.val) / k| ≤ 4 / 2 ^ 24 := by
  have k0 : 0 < k := by omega
  have kq : (0 : ℚ) < k := by exact_mod_cast k0
  have xq : (0 : ℚ) ≤ x := by exact_mod_cast x0
  have xk : (x : ℚ) + 1 ≤ k := by exact_mod_cast hx
  obtain ⟨fw, w0, we⟩ := width_spec k0 k1
  obtain ⟨fs, s0, s1, se⟩ := add_pixel (n := x) ⟨x0, by omega⟩ hr.1 hr.2.1 hr.2.2
  set s := (add (FTex.ofInt x) r).val with hs
  set w := (width k).val with hw
  have s0' : 0 ≤ s := xq.trans s0
  have w1 : w ≤ (1 + 1 / 2 ^ 24) / k := by
    have := (abs_le.1 we).2
    have e : (1 + 1 / 2 ^ 24 : ℚ) / k = 1 / k + 1 / k * (1 / 2 ^ 24) := by ring
    rw [e]; linarith
  have p1 : s * w ≤ 1 + 1 / 2 ^ 24 := by
    have : s * w ≤ k * ((1 + 1 / 2 ^ 24) / k) := mul_le_mul (s1.trans xk) w1 w0 kq.le
    rwa [mul_div_cancel₀ _ kq.ne'] at this
  have p0 : 0 ≤ s * w := mul_nonneg s0' w0
  have r1 : rnd32 (s * w) ≤ 1 := round_one ▸ rnd32_mono p1
  have r0 := rnd32_nonneg p0
  obtain ⟨f, v⟩ := mul_finite fs fw (by
    change |rnd32 (s * w)| < 2 ^ 128
    rw [abs_of_nonneg r0]; exact lt_of_le_of_lt r1 (by norm_num))
  refine ⟨f, v ▸ r0, v ▸ r1, ?_⟩
  rw [v]
  change |rnd32 (s * w) - (x + r.val) / k| ≤ 4 / 2 ^ 24
  have e1 := rnd32_err' (s * w)
  rw [abs_of_nonneg p0] at e1
  have e2 : |s * w - s * (1 / k)| ≤ 1 / 2 ^ 24 := by
    rw [← mul_sub, abs_mul, abs_of_nonneg s0']
    calc s * |w - 1 / k| ≤ k * (1 / k * (1 / 2 ^ 24)) := mul_le_mul (s1.trans xk) we (abs_nonneg _) kq.le
      _ = 1 / 2 ^ 24 := by field_simp
  have e3 : |s * (1 / k) - (x + r.val) / k| ≤ 1 / 2 ^ 24 + 2 ^ (-150 : ℤ) := by
    have : s * (1 / k) - (x + r.val) / k = (s - (x + r.val)) / k := by ring
    rw [this, abs_div, abs_of_pos kq, div_le_iff₀ kq]
    refine se.trans ?_
    have k1q : (1 : ℚ) ≤ k := by exact_mod_cast k0
    have := mul_le_mul_of_nonneg_left k1q (two_zpow_pos (-150)).le
    rw [add_mul]
    refine add_le_add ?_ (by linarith)
    rw [div_mul_eq_mul_div, one_mul]
    exact div_le_div_of_nonneg_right xk (by norm_num)
  have t : (2 : ℚ) ^ (-150 : ℤ) ≤ 1 / 2 ^ 40 := by norm_num
  rw [abs_le] at e1 e2 e3 ⊢
  norm_num at e1 e2 e3 p1 t ⊢
  constructor <;> linarith

/-- **C179, stratified samples.**  The position is in the pixel, the ends included, and off from that of the exact stratum by at
most half a unit in the last place of the pixel and `2^-22`. -/
theorem C179_stratum {n x k : ℤ} (hn : Pixel n) (x0 : 0 ≤ x) (hx : x < k) (k1 : k ≤ 2 ^ 12) {r : F32} (hr : Random r) :
    At (stratumPos n x r k) n (n + (x + r.val) / k) (((n : ℚ) + 2) / 2 ^ 24 + 2 ^ (-22 : ℤ)) := by
  obtain ⟨f, p0, p1, pe⟩ := place_spec x0 hx k1 hr
  obtain ⟨g, q0, q1, qe⟩ := add_pixel hn f p0 p1
  refine ⟨g, q0, q1, ?_⟩
  have t : (2 : ℚ) ^ (-150 : ℤ) ≤ 1 / 2 ^ 24 := by norm_num
  unfold stratumPos
  rw [abs_le] at pe qe ⊢
  norm_num at pe qe t ⊢
  constructor <;> linarith

/-- **C179, the end of the pixel.**  The right end of a pixel belongs to the next one; a random number below one is enough
to reach it. -/
theorem C179_end : ¬ ∀ (n : ℤ) (r : F32), Pixel n → Random r → r.val < 1 → (randomPos n r).val < n + 1 := by
  intro h
  have := h 1 (num ((2 ^ 24 - 1) / 2 ^ 24)) (by norm_num [Pixel]) ⟨trivial, by norm_num [F32.val], by norm_num [F32.val]⟩
    (by norm_num [F32.val])
  exact absurd this (by decide +kernel)

/-! ### The hypotheses are met -/

example := C179_random (n := 1919) (by norm_num [Pixel]) third_random
example := C179_stratum (n := 1919) (x := 2) (k := 3) (by norm_num [Pixel]) (by norm_num) (by norm_num) (by norm_num) one_random
example : (randomPos 1919 (num (1 / 4))).val = 1919 + 1 / 4 ∧ (stratumPos 7 1 (num (1 / 2)) 4).val = 7 + 3 / 8 := by decide +kernel

end Spectre.FSampler
