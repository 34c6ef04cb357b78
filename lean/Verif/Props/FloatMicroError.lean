import Verif.Props.FloatMicrofacet

/-
Property C163, accuracy: how far the microfacet terms computed in binary32 are from the exact ones.
-/

namespace Spectre.FMicro

open Spectre.Geom Spectre.FMat F32

/-! ### Relative errors -/

/-- A finite number within `k*X` of `X`. -/
def Rl (x : F32) (X k : ℚ) : Prop := x.Finite ∧ 0 ≤ X ∧ |x.val - X| ≤ k * X

theorem rl_round {x : F32} {e X k k' : ℚ} (hx : |rnd32 e| < 2 ^ 128 → x.Finite ∧ x.val = rnd32 e) (h0 : 0 ≤ X)
    (hr : X = 0 ∨ 2 ^ (-100 : ℤ) ≤ X) (hr' : X ≤ 2 ^ 100) (he : |e - X| ≤ k * X) (hk : k ≤ 1 / 100)
    (hk' : k + (1 + k) * (1 / 2 ^ 24) ≤ k') : Rl x X k' := by
  rcases hr with rfl | hr
  · rw [mul_zero] at he
    have e0 : e = 0 := by have := abs_nonpos_iff.1 he; linarith
    rw [e0, rnd32_zero, abs_zero] at hx
    obtain ⟨f, v⟩ := hx (by norm_num)
    exact ⟨f, le_rfl, by rw [v]; simp⟩
  · obtain ⟨a1, a2⟩ := abs_le.1 he
    have X0 : 0 < X := lt_of_lt_of_le (two_zpow_pos _) hr
    have e1 : 99 / 100 * X ≤ e := by nlinarith
    have e2 : e ≤ 101 / 100 * X := by nlinarith
    have e0 : 0 < e := by linarith
    have hn : 2 ^ (-126 : ℤ) ≤ |e| := by
      rw [abs_of_pos e0]
      have h3 : (2 : ℚ) ^ (-126 : ℤ) ≤ 99 / 100 * 2 ^ (-100 : ℤ) := by norm_num
      exact h3.trans ((mul_le_mul_of_nonneg_left hr (by norm_num)).trans e1)
    have r := rnd32_rel hn
    rw [abs_of_pos e0] at r
    obtain ⟨r1, r2⟩ := abs_le.1 r
    have fin : |rnd32 e| < 2 ^ 128 := by
      rw [abs_lt]
      have : (101 / 100 * 2 ^ 100 * 2 : ℚ) < 2 ^ 128 := by norm_num
      constructor <;> nlinarith
    obtain ⟨f, v⟩ := hx fin
    refine ⟨f, h0, ?_⟩
    rw [v]
    have e3 : e ≤ (1 + k) * X := by linarith
    have : e * (1 / 2 ^ 24) ≤ (1 + k) * X * (1 / 2 ^ 24) := mul_le_mul_of_nonneg_right e3 (by norm_num)
    have h5 : (k + (1 + k) * (1 / 2 ^ 24)) * X ≤ k' * X := mul_le_mul_of_nonneg_right hk' h0
    rw [abs_le]
    constructor <;> nlinarith

theorem rl_mul {x y : F32} {X Y i j k' : ℚ} (hx : Rl x X i) (hy : Rl y Y j) (hi : 0 ≤ i)
    (hr : X * Y = 0 ∨ 2 ^ (-100 : ℤ) ≤ X * Y) (hr' : X * Y ≤ 2 ^ 100) (hk : i + j + i * j ≤ 1 / 100)
    (hk' : (i + j + i * j) + (1 + (i + j + i * j)) * (1 / 2 ^ 24) ≤ k') : Rl (F32.mul x y) (X * Y) k' := by
  obtain ⟨fx, x0, ex⟩ := hx
  obtain ⟨fy, y0, ey⟩ := hy
  refine rl_round (mul_finite fx fy) (mul_nonneg x0 y0) hr hr' (k := i + j + i * j) ?_ hk hk'
  have e : x.val * y.val - X * Y = (x.val - X) * Y + (X * (y.val - Y) + (x.val - X) * (y.val - Y)) := by ring
  rw [e]
  refine (abs_add_le _ _).trans ?_
  have h1 := abs_add_le (X * (y.val - Y)) ((x.val - X) * (y.val - Y))
  have h2 : |(x.val - X) * Y| ≤ i * X * Y := by
    rw [abs_mul, abs_of_nonneg y0]; exact mul_le_mul_of_nonneg_right ex y0
  have h3 : |X * (y.val - Y)| ≤ X * (j * Y) := by
    rw [abs_mul, abs_of_nonneg x0]; exact mul_le_mul_of_nonneg_left ey x0
  have h4 : |(x.val - X) * (y.val - Y)| ≤ i * X * (j * Y) := by
    rw [abs_mul]; exact mul_le_mul ex ey (abs_nonneg _) (by positivity)
  calc _ ≤ i * X * Y + (X * (j * Y) + i * X * (j * Y)) := by linarith
    _ = _ := by ring

theorem rl_div {x y : F32} {X Y i j k' : ℚ} (hx : Rl x X i) (hy : Rl y Y j) (hY : 0 < Y) (hi : 0 ≤ i) (hj : 0 ≤ j)
    (hj1 : j ≤ 1 / 100) (hr : X / Y = 0 ∨ 2 ^ (-100 : ℤ) ≤ X / Y) (hr' : X / Y ≤ 2 ^ 100)
    (hk : (i + j) / (1 - j) ≤ 1 / 100)
    (hk' : (i + j) / (1 - j) + (1 + (i + j) / (1 - j)) * (1 / 2 ^ 24) ≤ k') : Rl (div x y) (X / Y) k' := by
  obtain ⟨fx, x0, ex⟩ := hx
  obtain ⟨fy, y0, ey⟩ := hy
  have j1 : 0 < 1 - j := by linarith
  have yl : (1 - j) * Y ≤ y.val := by have := (abs_le.1 ey).1; linarith
  have yp : 0 < y.val := lt_of_lt_of_le (mul_pos j1 hY) yl
  refine rl_round (div_finite fx fy yp.ne') (div_nonneg x0 y0) hr hr' (k := (i + j) / (1 - j)) ?_ hk hk'
  have e : x.val / y.val - X / Y = ((x.val - X) * Y - X * (y.val - Y)) / (y.val * Y) := by
    field_simp; ring
  rw [e, abs_div, abs_of_pos (mul_pos yp hY), div_le_iff₀ (mul_pos yp hY)]
  have h2 : |(x.val - X) * Y| ≤ i * X * Y := by
    rw [abs_mul, abs_of_nonneg y0]; exact mul_le_mul_of_nonneg_right ex y0
  have h3 : |X * (y.val - Y)| ≤ X * (j * Y) := by
    rw [abs_mul, abs_of_nonneg x0]; exact mul_le_mul_of_nonneg_left ey x0
  have h4 := abs_sub ((x.val - X) * Y) (X * (y.val - Y))
  have h5 : (i + j) / (1 - j) * (X / Y) * (y.val * Y) = (i + j) * X * (y.val / (1 - j)) := by
    field_simp
  rw [h5]
  have h6 : Y ≤ y.val / (1 - j) := by rw [le_div_iff₀ j1]; linarith
  have h7 : (i + j) * X * Y ≤ (i + j) * X * (y.val / (1 - j)) := mul_le_mul_of_nonneg_left h6 (by positivity)
  calc _ ≤ i * X * Y + X * (j * Y) := by linarith
    _ = (i + j) * X * Y := by ring
    _ ≤ _ := h7

theorem rl_add {x y : F32} {X Y i j k k' : ℚ} (hx : Rl x X i) (hy : Rl y Y j) (hi : i ≤ k) (hj : j ≤ k)
    (hr : 2 ^ (-100 : ℤ) ≤ X + Y) (hr' : X + Y ≤ 2 ^ 100) (hk : k ≤ 1 / 100)
    (hk' : k + (1 + k) * (1 / 2 ^ 24) ≤ k') : Rl (add x y) (X + Y) k' := by
  obtain ⟨fx, x0, ex⟩ := hx
  obtain ⟨fy, y0, ey⟩ := hy
  refine rl_round (add_finite fx fy) (add_nonneg x0 y0) (Or.inr hr) hr' (k := k) ?_ hk hk'
  have e : x.val + y.val - (X + Y) = (x.val - X) + (y.val - Y) := by ring
  rw [e]
  refine (abs_add_le _ _).trans ?_
  nlinarith

theorem rl_exact {x : F32} (f : x.Finite) (h : 0 ≤ x.val) : Rl x x.val 0 := ⟨f, h, by simp⟩

/-! ### One minus a square -/

/-- Rounding to an integer takes the nearest one. -/
theorem rne_nearest (x : ℚ) (n : ℤ) : |(rne x : ℚ) - x| ≤ |(n : ℚ) - x| := by
  have hb := rne_bounds x
  have h1 : |(rne x : ℚ) - x| ≤ 1 / 2 := abs_le.2 ⟨by linarith [hb.1], by linarith [hb.2]⟩
  by_cases c : 1 / 2 ≤ |(n : ℚ) - x|
  · exact h1.trans c
  · push Not at c
    have h2 : |((rne x - n : ℤ) : ℚ)| < 1 := by
      push_cast
      have e : (rne x : ℚ) - n = ((rne x : ℚ) - x) - ((n : ℚ) - x) := by ring
      rw [e]
      have := abs_sub ((rne x : ℚ) - x) ((n : ℚ) - x)
      linarith
    have h3 : rne x - n = 0 := by
      rw [← Int.cast_abs] at h2
      have : |rne x - n| < 1 := by exact_mod_cast h2
      exact Int.abs_lt_one_iff.1 this
    rw [show rne x = n by omega]

/-- The unit in the last place between a half and one. -/
theorem ulp_half {q : ℚ} (h2 : 1 / 2 ≤ q) (h : q < 1) : ulp32 q = -24 := by
  have h0 : 0 < q := lt_of_lt_of_le (by norm_num) h2
  have l1 : -1 ≤ Int.log 2 q := by
    rw [← Int.zpow_le_iff_le_log (by norm_num) h0]; norm_num; linarith
  have l2 : Int.log 2 q < 0 := by
    rw [← Int.lt_zpow_iff_log_lt (by norm_num) h0]; simpa using h
  unfold ulp32 ulpExp
  rw [abs_of_pos h0, show Int.log 2 q = -1 by omega]; rfl

/-- The sine is computed from the square of the cosine, and loses at most half of the digits: for a cosine `1 - d` the
rounding error of the square is at most `d^2`, and at most `2^-24`. -/
theorem one_minus_sq {z : ℚ} (hr : rnd32 z = z) (h0 : 0 ≤ z) (h1 : z ≤ 1) :
    |rnd32 (z * z) - z * z| ≤ 1 / 2 ^ 12 * (1 - z * z) := by
  rcases eq_or_lt_of_le h1 with rfl | h1
  · rw [show (1 : ℚ) * 1 = 1 by norm_num, show rnd32 1 = 1 by decide +kernel]; norm_num
  · have hzz : |z * z| ≤ 1 := by rw [abs_of_nonneg (mul_self_nonneg z)]; nlinarith
    have ha := rnd_one hzz
    unfold eps at ha
    by_cases c : 1 / 2 ^ 12 ≤ 1 - z
    · refine ha.trans ?_
      nlinarith
    · push Not at c
      have hz2 : (1 : ℚ) / 2 ≤ z := by
        have : (1 : ℚ) / 2 ^ 12 ≤ 1 / 2 := by norm_num
        linarith
      have hq2 : (1 : ℚ) / 2 ≤ z * z := by
        have : (1 : ℚ) - 1 / 2 ^ 12 ≤ z := by linarith
        norm_num at this
        nlinarith
      have hq1 : z * z < 1 := by nlinarith
      have ez := hr
      unfold rnd32 at ez
      rw [ulp_half hz2 h1] at ez
      generalize rne (z / 2 ^ (-24 : ℤ)) = m at ez
      have near := rne_nearest (z * z / 2 ^ (-24 : ℤ)) (2 * m - 2 ^ 24)
      have er : rnd32 (z * z) = (rne (z * z / 2 ^ (-24 : ℤ)) : ℚ) * 2 ^ (-24 : ℤ) := by
        unfold rnd32; rw [ulp_half hq2 hq1]
      have e1 : rnd32 (z * z) - z * z = ((rne (z * z / 2 ^ (-24 : ℤ)) : ℚ) - z * z / 2 ^ (-24 : ℤ)) * 2 ^ (-24 : ℤ) := by
        rw [er, sub_mul, div_mul_cancel₀ _ (two_zpow_pos _).ne']
      have e2 : (((2 * m - 2 ^ 24 : ℤ) : ℚ) - z * z / 2 ^ (-24 : ℤ)) * 2 ^ (-24 : ℤ) = -(1 - z) ^ 2 := by
        rw [sub_mul, div_mul_cancel₀ _ (two_zpow_pos _).ne']
        push_cast
        have : (m : ℚ) * 2 ^ (-24 : ℤ) = z := ez
        have e3 : ((2 : ℚ) * m - 16777216) * 2 ^ (-24 : ℤ) = 2 * ((m : ℚ) * 2 ^ (-24 : ℤ)) - 16777216 * 2 ^ (-24 : ℤ) := by ring
        rw [e3, this]
        norm_num
        ring
      have e4 : |rnd32 (z * z) - z * z| ≤ (1 - z) ^ 2 := by
        have := mul_le_mul_of_nonneg_right near (two_zpow_pos (-24)).le
        rw [← abs_of_pos (two_zpow_pos (-24)), ← abs_mul, ← abs_mul, abs_of_pos (two_zpow_pos (-24)), ← e1, e2, abs_neg,
          abs_of_nonneg (sq_nonneg (1 - z))] at this
        exact this
      refine e4.trans ?_
      have d0 : 0 < 1 - z := by linarith
      calc (1 - z) ^ 2 = (1 - z) * (1 - z) := by ring
        _ ≤ 1 / 2 ^ 12 * (1 - z) := mul_le_mul_of_nonneg_right c.le d0.le
        _ ≤ _ := by nlinarith

/-! ### The density -/

/-- The exact density of GGX for a cosine, with the constant the code has for π. -/
def exactD (a z : ℚ) : ℚ := a / (onePi.val * (a * (z * z) + (1 - z * z)) ^ 2)

theorem abs_ok {z : F32} (h : z.Ok) : rnd32 |z.val| = |z.val| := by
  have := (ok_val h).1
  rcases abs_cases z.val with ⟨e, -⟩ | ⟨e, -⟩
  · rw [e, this]
  · rw [e, rnd32_neg, this]

theorem pow_range {x : ℚ} {k : ℕ} (hk : k ≤ 100) (h : 1 / 2 ^ k ≤ x) : 2 ^ (-100 : ℤ) ≤ x := by
  refine le_trans ?_ h
  rw [zpow_neg, one_div]
  apply inv_anti₀ (by positivity)
  exact_mod_cast Nat.pow_le_pow_right (by norm_num) hk

/-- **C163, accuracy of the density.**  For every cosine down to `2^-20` and squared roughness down to `2^-40` the computed
density is within `2^-10` of the exact one, relatively. -/
theorem C163_density_accuracy_partial {a2 z : F32} (ha : In (1 / 2 ^ 40) 1 a2) (okz : z.Ok) (fz : z.Finite)
    (z0 : 1 / 2 ^ 20 ≤ |z.val|) (z1 : |z.val| ≤ 1) :
    Rl (ggxD a2 z) (exactD a2.val z.val) (1 / 2 ^ 10) := by
  obtain ⟨fa, la, ua⟩ := ha
  have a0 : 0 < a2.val := lt_of_lt_of_le (by norm_num) la
  have zz : z.val * z.val = |z.val| * |z.val| := (abs_mul_abs_self _).symm
  have hz : In (-1) 1 z := ⟨fz, (abs_le.1 z1).1, (abs_le.1 z1).2⟩
  have zn : z.val ≠ 0 := by
    intro h; rw [h, abs_zero] at z0; norm_num at z0
  have om := one_minus_sq (abs_ok okz) (abs_nonneg _) z1
  rw [← zz] at om
  have C0 : 1 / 2 ^ 40 ≤ z.val * z.val := by
    rw [zz]
    calc (1 : ℚ) / 2 ^ 40 = 1 / 2 ^ 20 * (1 / 2 ^ 20) := by norm_num
      _ ≤ _ := mul_le_mul z0 z0 (by norm_num) (abs_nonneg _)
  have C1 : z.val * z.val ≤ 1 := by rw [zz]; nlinarith [abs_nonneg z.val]
  have S0 : 1 - z.val * z.val = 0 ∨ 1 / 2 ^ 24 ≤ 1 - z.val * z.val := by
    rcases eq_or_lt_of_le z1 with h | h
    · left; rw [zz, h]; norm_num
    · right
      have := gap_one (abs_ok okz) h
      rw [zz]; nlinarith [abs_nonneg z.val]
  have hc : Rl (F32.mul z z) (z.val * z.val) (1 / 2 ^ 24) := by
    have hp : 0 ≤ z.val * z.val := mul_self_nonneg _
    exact rl_round (k := 0) (mul_finite fz fz) hp (Or.inr (pow_range (by norm_num) C0)) (C1.trans (by norm_num))
      (by simp) (by norm_num) (by norm_num)
  have hcI := sq_in hz
  have cv : (F32.mul z z).val = rnd32 (z.val * z.val) :=
    (mul_finite fz fz (fin1 (by rw [abs_of_nonneg (mul_self_nonneg _)]; exact C1))).2
  unfold ggxD
  rw [eq_zip fz, if_neg (by simpa using zn)]
  simp only
  unfold exactD
  generalize z.val * z.val = C at *
  generalize F32.mul z z = c at *
  have hs : Rl (fmax zip (sub one c)) (1 - C) (1 / 2 ^ 12 + 1 / 2 ^ 23) := by
    have hsub := sub_one_range hcI
    have e := (in_fmax hsub (by norm_num)).2
    rw [max_eq_right hsub.2.1] at e
    have hf := (in_fmax hsub (by norm_num)).1.1
    refine rl_round (e := 1 - c.val) (k := 1 / 2 ^ 12) (fun h => ⟨hf, ?_⟩) (by linarith) ?_ (by linarith [C0, (by norm_num : (0:ℚ) ≤ 1 / 2 ^ 40), (by norm_num : (1:ℚ) ≤ 2 ^ 100)]) ?_
      (by norm_num) (by norm_num)
    · rw [e]
      have := (sub_fin one_finite.1 hcI.1 (by rw [one_finite.2]; exact h)).2
      rwa [one_finite.2] at this
    · exact S0.imp id (pow_range (by norm_num))
    · rw [show 1 - c.val - (1 - C) = -(c.val - C) by ring, abs_neg, cv]; exact om
  generalize fmax zip (sub one c) = s at *
  have Cp : 0 < C := lt_of_lt_of_le (by norm_num) C0
  have SC0 : 1 - C = 0 ∨ 1 / 2 ^ 24 ≤ (1 - C) / C := S0.imp id (fun h => by
    rw [le_div_iff₀ Cp]; nlinarith)
  have SC1 : (1 - C) / C ≤ 2 ^ 40 := by
    rw [div_le_iff₀ Cp]
    have : (1 : ℚ) ≤ 2 ^ 40 * C := by
      have := mul_le_mul_of_nonneg_left C0 (show (0 : ℚ) ≤ 2 ^ 40 by norm_num)
      norm_num at this ⊢; linarith
    linarith
  have hq : Rl (div s c) ((1 - C) / C) (1 / 2 ^ 12 + 1 / 2 ^ 21) :=
    rl_div hs hc Cp (by norm_num) (by norm_num) (by norm_num)
      (SC0.imp (fun h => by rw [h, zero_div]) (pow_range (by norm_num))) (SC1.trans (by norm_num)) (by norm_num) (by norm_num)
  have SCn : 0 ≤ (1 - C) / C := div_nonneg (by linarith) Cp.le
  have ht : Rl (add a2 (div s c)) (a2.val + (1 - C) / C) (1 / 2 ^ 12 + 1 / 2 ^ 20) :=
    rl_add (k := 1 / 2 ^ 12 + 1 / 2 ^ 21) (rl_exact fa a0.le) hq (by norm_num) le_rfl
      (pow_range (k := 40) (by norm_num) (by linarith)) (by
        have : (1 : ℚ) + 2 ^ 40 ≤ 2 ^ 100 := by norm_num
        linarith) (by norm_num) (by norm_num)
  generalize add a2 (div s c) = t at *
  -- the exact values
  have E : (a2.val + (1 - C) / C) * C = a2.val * C + (1 - C) := by field_simp
  have T0 : a2.val ≤ a2.val + (1 - C) / C := by linarith
  have T1 : a2.val + (1 - C) / C ≤ 2 ^ 41 := by
    have : (1 : ℚ) + 2 ^ 40 ≤ 2 ^ 41 := by norm_num
    linarith
  have E0 : a2.val ≤ a2.val * C + (1 - C) := by nlinarith
  have E1 : a2.val * C + (1 - C) ≤ 1 := by nlinarith
  generalize a2.val + (1 - C) / C = T at *
  rw [← E] at E0 E1 ⊢
  have Tp : 0 < T := lt_of_lt_of_le a0 T0
  have aa : (1 : ℚ) / 2 ^ 80 ≤ a2.val * a2.val := by
    calc (1 : ℚ) / 2 ^ 80 = 1 / 2 ^ 40 * (1 / 2 ^ 40) := by norm_num
      _ ≤ _ := mul_le_mul la la (by norm_num) a0.le
  have r1 : 1 / 2 ^ 80 ≤ T * T := aa.trans (mul_le_mul T0 T0 a0.le Tp.le)
  have r1' : T * T ≤ 2 ^ 82 := by
    calc T * T ≤ 2 ^ 41 * 2 ^ 41 := mul_le_mul T1 T1 Tp.le (by norm_num)
      _ = _ := by norm_num
  have h2 : Rl (F32.mul t t) (T * T) (1 / 2 ^ 11 + 1 / 2 ^ 18) :=
    rl_mul ht ht (by norm_num) (Or.inr (pow_range (by norm_num) r1)) (r1'.trans (by norm_num)) (by norm_num)
      (by norm_num)
  have r2 : 1 / 2 ^ 80 ≤ T * T * C := by
    rw [mul_assoc]; exact aa.trans (mul_le_mul T0 E0 a0.le Tp.le)
  have r2' : T * T * C ≤ 2 ^ 82 := (mul_le_of_le_one_right (by positivity) C1).trans r1'
  have h3 : Rl (F32.mul (F32.mul t t) c) (T * T * C) (1 / 2 ^ 11 + 1 / 2 ^ 17) :=
    rl_mul h2 hc (by norm_num) (Or.inr (pow_range (by norm_num) r2)) (r2'.trans (by norm_num)) (by norm_num)
      (by norm_num)
  have eT : T * T * C * C = (T * C) ^ 2 := by ring
  have r3 : 1 / 2 ^ 80 ≤ T * T * C * C := by
    rw [eT, sq]; exact aa.trans (mul_le_mul E0 E0 a0.le (by positivity))
  have r3' : T * T * C * C ≤ 1 := by
    rw [eT]; exact pow_le_one₀ (by positivity) E1
  have h4 : Rl (F32.mul (F32.mul (F32.mul t t) c) c) (T * T * C * C) (1 / 2 ^ 11 + 1 / 2 ^ 16) :=
    rl_mul h3 hc (by norm_num) (Or.inr (pow_range (by norm_num) r3)) (r3'.trans (by norm_num)) (by norm_num)
      (by norm_num)
  have hpi : onePi = num (13176795 / 4194304) := by decide +kernel
  have pf : onePi.Finite := by rw [hpi]; trivial
  have pv : onePi.val = 13176795 / 4194304 := by rw [hpi]; rfl
  have r4 : 1 / 2 ^ 80 ≤ T * T * C * C * onePi.val := by rw [pv]; linarith
  have r4' : T * T * C * C * onePi.val ≤ 4 := by rw [pv]; linarith
  have h5 : Rl (F32.mul (F32.mul (F32.mul (F32.mul t t) c) c) onePi) (T * T * C * C * onePi.val) (1 / 2 ^ 11 + 1 / 2 ^ 15) :=
    rl_mul h4 (rl_exact pf (by rw [pv]; norm_num)) (by norm_num) (Or.inr (pow_range (by norm_num) r4))
      (r4'.trans (by norm_num)) (by norm_num) (by norm_num)
  rw [← eT, _root_.mul_comm onePi.val]
  generalize hP : T * T * C * C * onePi.val = P at *
  have Pp : 0 < P := lt_of_lt_of_le (by norm_num) r4
  have lowD : 1 / 2 ^ 42 ≤ a2.val / P := by
    rw [le_div_iff₀ Pp]
    calc (1 : ℚ) / 2 ^ 42 * P ≤ 1 / 2 ^ 42 * 4 := mul_le_mul_of_nonneg_left r4' (by norm_num)
      _ = 1 / 2 ^ 40 := by norm_num
      _ ≤ _ := la
  have highD : a2.val / P ≤ 2 ^ 100 := by
    rw [div_le_iff₀ Pp]
    calc a2.val ≤ 1 := ua
      _ ≤ 2 ^ 100 * (1 / 2 ^ 80) := by norm_num
      _ ≤ _ := mul_le_mul_of_nonneg_left r4 (by norm_num)
  exact rl_div (rl_exact fa a0.le) h5 Pp le_rfl (by norm_num) (by norm_num) (Or.inr (pow_range (by norm_num) lowD)) highD
    (by norm_num) (by norm_num)

/-! ### The masking term -/

/-- What stands below the root, exactly. -/
def exactW (a z : ℚ) : ℚ := 1 + a * (1 - (z * z) * (z * z)) / (z * z)

/-- The steps up to the root. -/
theorem under_root {a2 c : F32} {C : ℚ} (ha : In 0 1 a2) (hc : Rl c C (1 / 2 ^ 24)) (hI : In 0 1 c)
    (C0 : 1 / 2 ^ 48 ≤ C) (C1 : C ≤ 1) :
    Rl (add one (div (F32.mul a2 (fmax zip (sub one (F32.mul c c)))) c)) (1 + a2.val * (1 - C * C) / C) (9 * (1 / 2 ^ 24)) := by
  obtain ⟨fa, la, ua⟩ := ha
  have Cp : 0 < C := lt_of_lt_of_le (by norm_num) C0
  have CC0 : 1 / 2 ^ 96 ≤ C * C := by
    calc (1 : ℚ) / 2 ^ 96 = 1 / 2 ^ 48 * (1 / 2 ^ 48) := by norm_num
      _ ≤ _ := mul_le_mul C0 C0 (by norm_num) Cp.le
  have CC1 : C * C ≤ 1 := by nlinarith
  have hd : Rl (F32.mul c c) (C * C) (301 / 100 * (1 / 2 ^ 24)) :=
    rl_mul hc hc (by norm_num) (Or.inr (pow_range (by norm_num) CC0)) (CC1.trans (by norm_num)) (by norm_num)
      (by norm_num)
  have hdI : In 0 1 (F32.mul c c) := sq_in ⟨hI.1, by linarith [hI.2.1], hI.2.2⟩
  have d1 : |(F32.mul c c).val - C * C| ≤ 301 / 100 * (1 / 2 ^ 24) :=
    hd.2.2.trans (mul_le_of_le_one_right (by norm_num) CC1)
  generalize F32.mul c c = d at *
  have hsub := sub_one_range hdI
  have bs : |1 - d.val| ≤ 1 := abs_le.2 ⟨by linarith [hdI.2.2], by linarith [hdI.2.1]⟩
  have es : (sub one d).val = rnd32 (1 - d.val) := by
    have := (sub_fin one_finite.1 hdI.1 (by rw [one_finite.2]; exact fin1 bs)).2
    rwa [one_finite.2] at this
  have s1 := rnd_one bs
  rw [← es] at s1
  obtain ⟨hsI, em⟩ := in_fmax hsub (by norm_num)
  rw [max_eq_right hsub.2.1] at em
  rw [← em] at s1
  generalize fmax zip (sub one d) = s at *
  have s2 : |s.val - (1 - C * C)| ≤ 402 / 100 * (1 / 2 ^ 24) := by
    unfold eps at s1
    rw [abs_le] at s1 d1 ⊢
    constructor <;> linarith [s1.1, s1.2, d1.1, d1.2]
  -- the product
  have pm0 : 0 ≤ a2.val * s.val := mul_nonneg la hsI.2.1
  have pm1 : a2.val * s.val ≤ a2.val := mul_le_of_le_one_right la hsI.2.2
  obtain ⟨fp, ep⟩ := mul_finite fa hsI.1 (fin1 (by rw [abs_of_nonneg pm0]; linarith))
  have p1 := rnd32_err' (a2.val * s.val)
  rw [← ep, abs_of_nonneg pm0] at p1
  have hpI : In 0 1 (F32.mul a2 s) := in_mul fa hsI.1 pm0 (by linarith) ⟨by decide +kernel, by norm_num⟩
    ⟨by decide +kernel, by norm_num⟩
  generalize F32.mul a2 s = p at *
  have p2 : |p.val - a2.val * (1 - C * C)| ≤ 502 / 100 * (1 / 2 ^ 24) * a2.val + 2 ^ (-150 : ℤ) := by
    have e : p.val - a2.val * (1 - C * C) = (p.val - a2.val * s.val) + a2.val * (s.val - (1 - C * C)) := by ring
    rw [e]
    refine (abs_add_le _ _).trans ?_
    rw [abs_mul, abs_of_nonneg la]
    have := mul_le_mul_of_nonneg_left s2 la
    have : a2.val * s.val * (1 / 2 ^ 24) ≤ a2.val * (1 / 2 ^ 24) := mul_le_mul_of_nonneg_right pm1 (by norm_num)
    linarith
  -- the quotient
  obtain ⟨fc, -, ec⟩ := hc
  obtain ⟨ec1, ec2⟩ := abs_le.1 ec
  have c0 : C * (1 - 1 / 2 ^ 24) ≤ c.val := by linarith
  have cp : 0 < c.val := lt_of_lt_of_le (mul_pos Cp (by norm_num)) c0
  have c49 : 1 / 2 ^ 49 ≤ c.val := by
    refine le_trans ?_ c0
    calc (1 : ℚ) / 2 ^ 49 ≤ 1 / 2 ^ 48 * (1 - 1 / 2 ^ 24) := by norm_num
      _ ≤ _ := mul_le_mul_of_nonneg_right C0 (by norm_num)
  have inv49 : 1 / c.val ≤ 2 ^ 49 := by
    rw [div_le_iff₀ cp]
    have := mul_le_mul_of_nonneg_left c49 (show (0 : ℚ) ≤ 2 ^ 49 by norm_num)
    norm_num at this ⊢; linarith
  have SS0 : 0 ≤ 1 - C * C := by linarith
  set Q := a2.val * (1 - C * C) / C with hQ
  have Q0 : 0 ≤ Q := div_nonneg (mul_nonneg la SS0) Cp.le
  have AW : a2.val / C ≤ 1 + Q := by
    have : a2.val / C = Q + a2.val * C := by rw [hQ]; field_simp; ring
    rw [this]
    have : a2.val * C ≤ 1 := mul_le_one₀ ua Cp.le C1
    linarith
  have q1 : |p.val / c.val - Q| ≤ 603 / 100 * (1 / 2 ^ 24) * (1 + Q) := by
    have e : p.val / c.val - Q = ((p.val - a2.val * (1 - C * C)) + Q * (C - c.val)) * (1 / c.val) := by
      rw [hQ]; field_simp; ring
    have t1 : |Q * (C - c.val)| ≤ 1 / 2 ^ 24 * a2.val := by
      rw [abs_mul, abs_of_nonneg Q0, abs_sub_comm]
      calc Q * |c.val - C| ≤ Q * (1 / 2 ^ 24 * C) := mul_le_mul_of_nonneg_left ec Q0
        _ = 1 / 2 ^ 24 * (a2.val * (1 - C * C)) := by rw [hQ]; field_simp
        _ ≤ _ := mul_le_mul_of_nonneg_left (mul_le_of_le_one_right la (by nlinarith)) (by norm_num)
    have t2 : |(p.val - a2.val * (1 - C * C)) + Q * (C - c.val)| ≤ 602 / 100 * (1 / 2 ^ 24) * a2.val + 2 ^ (-150 : ℤ) := by
      refine (abs_add_le _ _).trans ?_
      linarith
    rw [e, abs_mul, abs_of_pos (one_div_pos.2 cp)]
    have t3 : a2.val * (1 / c.val) ≤ (1 + Q) * (1 + 1 / 2 ^ 23) := by
      have : a2.val * (1 / c.val) ≤ a2.val / C * (1 + 1 / 2 ^ 23) := by
        rw [mul_one_div, div_mul_eq_mul_div, div_le_div_iff₀ cp Cp]
        have : C ≤ c.val * (1 + 1 / 2 ^ 23) := by
          have := mul_le_mul_of_nonneg_right c0 (show (0 : ℚ) ≤ 1 + 1 / 2 ^ 23 by norm_num)
          refine le_trans ?_ this
          norm_num
          linarith
        calc a2.val * C ≤ a2.val * (c.val * (1 + 1 / 2 ^ 23)) := mul_le_mul_of_nonneg_left this la
          _ = _ := by ring
      exact this.trans (mul_le_mul_of_nonneg_right AW (by norm_num))
    have t4 : (2 : ℚ) ^ (-150 : ℤ) * (1 / c.val) ≤ 1 / 1000 * (1 / 2 ^ 24) := by
      calc (2 : ℚ) ^ (-150 : ℤ) * (1 / c.val) ≤ 2 ^ (-150 : ℤ) * 2 ^ 49 := mul_le_mul_of_nonneg_left inv49 (two_zpow_pos _).le
        _ ≤ _ := by norm_num
    calc _ ≤ (602 / 100 * (1 / 2 ^ 24) * a2.val + 2 ^ (-150 : ℤ)) * (1 / c.val) :=
          mul_le_mul_of_nonneg_right t2 (one_div_pos.2 cp).le
      _ = 602 / 100 * (1 / 2 ^ 24) * (a2.val * (1 / c.val)) + 2 ^ (-150 : ℤ) * (1 / c.val) := by ring
      _ ≤ 602 / 100 * (1 / 2 ^ 24) * ((1 + Q) * (1 + 1 / 2 ^ 23)) + 1 / 1000 * (1 / 2 ^ 24) :=
          add_le_add (mul_le_mul_of_nonneg_left t3 (by norm_num)) t4
      _ ≤ _ := by norm_num; linarith
  have pc0 : 0 ≤ p.val / c.val := div_nonneg hpI.2.1 cp.le
  have pc1 : p.val / c.val ≤ 2 ^ 49 := by
    rw [← mul_one_div]
    calc p.val * (1 / c.val) ≤ 1 * 2 ^ 49 := mul_le_mul hpI.2.2 inv49 (one_div_pos.2 cp).le (by norm_num)
      _ = _ := by norm_num
  have finq : |rnd32 (p.val / c.val)| < 2 ^ 128 := (rnd_between pc0 pc1 ⟨by decide +kernel, by norm_num⟩
    ⟨by decide +kernel, by norm_num⟩).1
  obtain ⟨fq, eq⟩ := div_finite fp fc cp.ne' finq
  have q2 := rnd32_err' (p.val / c.val)
  rw [← eq, abs_of_nonneg pc0] at q2
  generalize div p c = q at *
  have q3 : |q.val - Q| ≤ 710 / 100 * (1 / 2 ^ 24) * (1 + Q) := by
    have tiny : (2 : ℚ) ^ (-150 : ℤ) ≤ 1 / 1000 * (1 / 2 ^ 24) := by norm_num
    have t1 : p.val / c.val * (1 / 2 ^ 24) ≤ 101 / 100 * (1 + Q) * (1 / 2 ^ 24) := by
      apply mul_le_mul_of_nonneg_right _ (by norm_num)
      have := (abs_le.1 q1).2
      norm_num at this ⊢
      linarith
    have : q.val - Q = (q.val - p.val / c.val) + (p.val / c.val - Q) := by ring
    rw [this]
    refine (abs_add_le _ _).trans ?_
    have := q2.trans (add_le_add t1 tiny)
    norm_num at this q1 ⊢
    linarith
  have W1 : (1 : ℚ) ≤ 1 + Q := by linarith
  have Qb : 1 + Q ≤ 2 ^ 100 := by
    have : Q ≤ 2 ^ 50 := by
      have := (abs_le.1 q1).1
      have pcc : p.val / c.val ≤ 2 ^ 49 := pc1
      norm_num at this pcc ⊢
      linarith
    have : (1 : ℚ) + 2 ^ 50 ≤ 2 ^ 100 := by norm_num
    linarith
  refine rl_round (e := 1 + q.val) (k := 710 / 100 * (1 / 2 ^ 24)) (fun h => ?_) (by linarith)
    (Or.inr (le_trans (by norm_num) W1)) Qb ?_ (by norm_num) (by norm_num)
  · have := add_finite one_finite.1 fq (by rw [one_finite.2]; exact h)
    rwa [one_finite.2] at this
  · rw [show 1 + q.val - (1 + Q) = q.val - Q by ring]; exact q3

/-- **C163, accuracy of the masking term.**  For every cosine down to `2^-24` the computed `G1` satisfies the equation of the
masking term, `(2/G1 - 1)^2 = 1 + a2*(1 - z^4)/z^2`, within `24*2^-24`, relatively. -/
theorem C163_visible_accuracy_partial {a2 z : F32} (ha : In 0 1 a2) (fz : z.Finite) (z0 : 1 / 2 ^ 24 ≤ |z.val|) (z1 : |z.val| ≤ 1) :
    |(2 / (ggxG1 a2 z).val - 1) ^ 2 - exactW a2.val z.val| ≤ 24 * eps * exactW a2.val z.val := by
  have zz : z.val * z.val = |z.val| * |z.val| := (abs_mul_abs_self _).symm
  have hz : In (-1) 1 z := ⟨fz, (abs_le.1 z1).1, (abs_le.1 z1).2⟩
  have C0 : 1 / 2 ^ 48 ≤ z.val * z.val := by
    rw [zz]
    calc (1 : ℚ) / 2 ^ 48 = 1 / 2 ^ 24 * (1 / 2 ^ 24) := by norm_num
      _ ≤ _ := mul_le_mul z0 z0 (by norm_num) (abs_nonneg _)
  have C1 : z.val * z.val ≤ 1 := by rw [zz]; nlinarith [abs_nonneg z.val]
  have hc : Rl (F32.mul z z) (z.val * z.val) (1 / 2 ^ 24) :=
    rl_round (k := 0) (mul_finite fz fz) (mul_self_nonneg _) (Or.inr (pow_range (by norm_num) C0)) (C1.trans (by norm_num))
      (by simp) (by norm_num) (by norm_num)
  have hcI := sq_in hz
  have cp : (F32.mul z z).val ≠ 0 := by
    intro h
    have := hc.2.2
    rw [h, zero_sub, abs_neg, abs_of_nonneg (mul_self_nonneg _)] at this
    norm_num at this C0
    linarith
  have hw := under_root ha hc hcI C0 C1
  unfold ggxG1
  simp only
  rw [eq_zip hcI.1, if_neg (by simpa using cp)]
  change Rl _ (exactW a2.val z.val) _ at hw
  have W1 : 1 ≤ exactW a2.val z.val := by
    unfold exactW
    have : 0 ≤ a2.val * (1 - z.val * z.val * (z.val * z.val)) / (z.val * z.val) :=
      div_nonneg (mul_nonneg ha.2.1 (by nlinarith)) (mul_self_nonneg _)
    linarith
  have W2 : exactW a2.val z.val ≤ 2 ^ 50 := by
    unfold exactW
    have Cp : 0 < z.val * z.val := lt_of_lt_of_le (by norm_num) C0
    have : a2.val * (1 - z.val * z.val * (z.val * z.val)) / (z.val * z.val) ≤ 2 ^ 48 := by
      rw [div_le_iff₀ Cp]
      have h1 : a2.val * (1 - z.val * z.val * (z.val * z.val)) ≤ 1 :=
        mul_le_one₀ ha.2.2 (by nlinarith) (by nlinarith)
      have h2 := mul_le_mul_of_nonneg_left C0 (show (0 : ℚ) ≤ 2 ^ 48 by norm_num)
      norm_num at h2 ⊢
      linarith
    have : (1 : ℚ) + 2 ^ 48 ≤ 2 ^ 50 := by norm_num
    linarith
  generalize exactW a2.val z.val = W at *
  generalize add one (div (F32.mul a2 (fmax zip (sub one (F32.mul (F32.mul z z) (F32.mul z z))))) (F32.mul z z)) = w at *
  obtain ⟨fw, -, ew⟩ := hw
  obtain ⟨w1, w2⟩ := abs_le.1 ew
  have wp : 0 < w.val := by norm_num at w1; linarith
  obtain ⟨fv, -, ev, -⟩ := sqrt_finite fw wp.le
  have ev := ev wp
  obtain ⟨vp, b1, b2⟩ := sqrt32_sq wp
  rw [← ev] at vp b1 b2
  generalize F32.sqrt w = v at *
  have v1 : 99 / 100 ≤ v.val := by
    by_contra hcon
    push Not at hcon
    have : v.val ^ 2 ≤ (99 / 100) ^ 2 := pow_le_pow_left₀ vp.le hcon.le 2
    norm_num at *
    linarith
  have v2 : v.val ≤ 2 ^ 26 := by
    by_contra hcon
    push Not at hcon
    have : (2 ^ 26 : ℚ) ^ 2 ≤ v.val ^ 2 := pow_le_pow_left₀ (by norm_num) hcon.le 2
    norm_num at *
    linarith
  have hh : Rl (add one v) (1 + v.val) (1 / 2 ^ 24) := by
    refine rl_add (k := 0) (rl_exact one_finite.1 (by rw [one_finite.2]; norm_num)) (rl_exact fv vp.le) le_rfl le_rfl
      ?_ ?_ (by norm_num) (by norm_num)
    · have : (2 : ℚ) ^ (-100 : ℤ) ≤ 1 := by norm_num
      linarith
    · have : (1 : ℚ) + 2 ^ 26 ≤ 2 ^ 100 := by norm_num
      linarith
  have hg : Rl (div two (add one v)) (2 / (1 + v.val)) (201 / 100 * (1 / 2 ^ 24)) := by
    have := rl_div (k' := 201 / 100 * (1 / 2 ^ 24)) (rl_exact two_finite.1 (by rw [two_finite.2]; norm_num)) hh (by linarith) le_rfl
      (by norm_num) (by norm_num) (Or.inr ?_) ?_ (by norm_num) (by norm_num)
    · rwa [two_finite.2] at this
    · rw [two_finite.2]
      apply pow_range (k := 27) (by norm_num)
      rw [le_div_iff₀ (by linarith)]
      norm_num at v2 ⊢
      linarith
    · rw [two_finite.2, div_le_iff₀ (by linarith)]
      norm_num
      linarith
  obtain ⟨-, -, eg⟩ := hg
  generalize (div two (add one v)).val = g at *
  generalize v.val = V at *
  clear hh ev fv
  have Lp : 0 < 1 + V := by linarith
  have eg2 : |g * (1 + V) - 2| ≤ 402 / 100 * (1 / 2 ^ 24) := by
    have e : g * (1 + V) - 2 = (g - 2 / (1 + V)) * (1 + V) := by field_simp
    rw [e, abs_mul, abs_of_pos Lp]
    calc |g - 2 / (1 + V)| * (1 + V) ≤ 201 / 100 * (1 / 2 ^ 24) * (2 / (1 + V)) * (1 + V) :=
          mul_le_mul_of_nonneg_right eg Lp.le
      _ = _ := by field_simp; norm_num
  have gL : 199 / 100 ≤ g * (1 + V) := by
    have := (abs_le.1 eg2).1
    norm_num at this ⊢; linarith
  have gp : 0 < g := by
    by_contra hcon
    push Not at hcon
    nlinarith
  have x1 : |(2 / g - 1) - V| ≤ 405 / 100 * (1 / 2 ^ 24) * (1 + V) / 2 := by
    have e : (2 / g - 1) - V = -(g * (1 + V) - 2) / g := by field_simp; ring
    rw [e, abs_div, abs_neg, abs_of_pos gp, div_le_iff₀ gp]
    refine eg2.trans ?_
    norm_num at gL ⊢
    nlinarith
  have x2 : |(2 / g - 1) - V| ≤ 41 / 10 * (1 / 2 ^ 24) * V := by
    refine x1.trans ?_
    norm_num
    linarith
  have x3 : |(2 / g - 1) + V| ≤ 201 / 100 * V := by
    have e : (2 / g - 1) + V = ((2 / g - 1) - V) + 2 * V := by ring
    rw [e]
    refine (abs_add_le _ _).trans ?_
    rw [abs_of_pos (by linarith : 0 < 2 * V)]
    norm_num at x2 ⊢
    linarith
  have x4 : |(2 / g - 1) ^ 2 - V ^ 2| ≤ 83 / 10 * (1 / 2 ^ 24) * V ^ 2 := by
    have e : (2 / g - 1) ^ 2 - V ^ 2 = ((2 / g - 1) - V) * ((2 / g - 1) + V) := by ring
    rw [e, abs_mul]
    calc _ ≤ 41 / 10 * (1 / 2 ^ 24) * V * (201 / 100 * V) := mul_le_mul x2 x3 (abs_nonneg _) (by positivity)
      _ = 8241 / 1000 * (1 / 2 ^ 24) * V ^ 2 := by ring
      _ ≤ _ := mul_le_mul_of_nonneg_right (by norm_num) (sq_nonneg V)
  unfold eps
  generalize (2 / g - 1) ^ 2 = X at *
  have V0 := sq_nonneg V
  generalize V ^ 2 = U at *
  obtain ⟨x5, x6⟩ := abs_le.1 x4
  rw [abs_le]
  clear x1 x2 x3 x4 eg eg2 gL ew z0 C0 C1
  norm_num at *
  constructor <;> linarith

/-! ### Beckmann -/

/-- **C163, accuracy of the sampled Beckmann angle.**  The cosine satisfies `cos^2*(1 - a^2*log(1-r0)) = 1` within
`8*2^-24`, for the logarithm the library returns. -/
theorem C163_beckmann_accuracy_partial (log : F32 → F32) {a r0 : F32} (ha : In (1 / 2 ^ 40) 1 a)
    (hl : In (-2 ^ 40) 0 (log (sub one r0))) :
    |(beckmannAngle log a r0).1.val ^ 2 * (1 - a.val ^ 2 * (log (sub one r0)).val) - 1| ≤ 8 * eps := by
  obtain ⟨fa, la, ua⟩ := ha
  have a0 : 0 < a.val := lt_of_lt_of_le (by norm_num) la
  have A0 : 1 / 2 ^ 80 ≤ a.val * a.val := by
    calc (1 : ℚ) / 2 ^ 80 = 1 / 2 ^ 40 * (1 / 2 ^ 40) := by norm_num
      _ ≤ _ := mul_le_mul la la (by norm_num) a0.le
  have A1 : a.val * a.val ≤ 1 := mul_le_one₀ ua a0.le ua
  have ht : Rl (F32.mul a a) (a.val * a.val) (1 / 2 ^ 24) :=
    rl_round (k := 0) (mul_finite fa fa) (mul_self_nonneg _) (Or.inr (pow_range (by norm_num) A0)) (A1.trans (by norm_num))
      (by simp) (by norm_num) (by norm_num)
  have htI : In 0 1 (F32.mul a a) := sq_in ⟨fa, by linarith, ua⟩
  unfold beckmannAngle
  simp only
  rw [sq a.val]
  generalize log (sub one r0) = l at *
  generalize F32.mul a a = t at *
  generalize a.val * a.val = A at *
  obtain ⟨fl, ll, ul⟩ := hl
  obtain ⟨ft, -, et⟩ := ht
  have n0 : t.val * l.val ≤ 0 := mul_nonpos_of_nonneg_of_nonpos htI.2.1 ul
  have n1 : -2 ^ 40 ≤ t.val * l.val := by nlinarith [htI.2.1, htI.2.2]
  obtain ⟨fin, b1, b2⟩ := rnd_between n1 n0 ⟨by decide +kernel, by norm_num⟩ ⟨by decide +kernel, by norm_num⟩
  obtain ⟨fm, em⟩ := mul_finite ft fl fin
  have m1 := rnd32_err' (t.val * l.val)
  rw [← em, abs_of_nonpos n0] at m1
  have Al : 0 ≤ -(A * l.val) := by nlinarith
  have m2 : |t.val * l.val - A * l.val| ≤ 1 / 2 ^ 24 * -(A * l.val) := by
    rw [← sub_mul, abs_mul, abs_of_nonpos ul]
    calc |t.val - A| * -l.val ≤ 1 / 2 ^ 24 * A * -l.val := mul_le_mul_of_nonneg_right et (by linarith)
      _ = _ := by ring
  have m3 : |(F32.mul t l).val - A * l.val| ≤ 201 / 100 * (1 / 2 ^ 24) * -(A * l.val) + 2 ^ (-150 : ℤ) := by
    have e : (F32.mul t l).val - A * l.val = ((F32.mul t l).val - t.val * l.val) + (t.val * l.val - A * l.val) := by ring
    rw [e]
    refine (abs_add_le _ _).trans ?_
    have h3 : -(t.val * l.val) ≤ (1 + 1 / 2 ^ 24) * -(A * l.val) := by
      have := (abs_le.1 m2).1
      linarith
    have h4 := mul_le_mul_of_nonneg_right h3 (show (0 : ℚ) ≤ 1 / 2 ^ 24 by norm_num)
    generalize (2 : ℚ) ^ (-150 : ℤ) = y at *
    norm_num at *
    linarith
  rw [← em] at b1 b2
  generalize F32.mul t l = m at *
  have hAl : -(A * l.val) ≤ 2 ^ 40 := by nlinarith
  generalize A * l.val = P at *
  have hs : Rl (sub one m) (1 - P) (32 / 10 * (1 / 2 ^ 24)) := by
    refine rl_round (e := 1 - m.val) (k := 21 / 10 * (1 / 2 ^ 24)) (fun h => ?_) (by linarith)
      (Or.inr (le_trans (by norm_num) (by linarith : (1 : ℚ) ≤ 1 - P))) ?_ ?_ (by norm_num) (by norm_num)
    · have := sub_fin one_finite.1 fm (by rw [one_finite.2]; exact h)
      rwa [one_finite.2] at this
    · have : (1 : ℚ) + 2 ^ 40 ≤ 2 ^ 100 := by norm_num
      linarith
    · rw [show 1 - m.val - (1 - P) = -(m.val - P) by ring, abs_neg]
      refine m3.trans ?_
      norm_num
      linarith
  generalize sub one m = s at *
  have S1 : 1 ≤ 1 - P := by linarith
  have S2 : 1 - P ≤ 2 ^ 41 := by
    have : (1 : ℚ) + 2 ^ 40 ≤ 2 ^ 41 := by norm_num
    linarith
  generalize 1 - P = S at *
  obtain ⟨fs, -, es⟩ := hs
  obtain ⟨s1, s2⟩ := abs_le.1 es
  have sp : 0 < s.val := by norm_num at s1; linarith
  obtain ⟨fv, -, ev, -⟩ := sqrt_finite fs sp.le
  have ev := ev sp
  obtain ⟨vp, c1, c2⟩ := sqrt32_sq sp
  rw [← ev] at vp c1 c2
  generalize F32.sqrt s = v at *
  have v1 : 99 / 100 ≤ v.val := by
    by_contra hcon
    push Not at hcon
    have : v.val ^ 2 ≤ (99 / 100) ^ 2 := pow_le_pow_left₀ vp.le hcon.le 2
    norm_num at *
    linarith
  have v2 : v.val ≤ 2 ^ 26 := by
    by_contra hcon
    push Not at hcon
    have : (2 ^ 26 : ℚ) ^ 2 ≤ v.val ^ 2 := pow_le_pow_left₀ (by norm_num) hcon.le 2
    norm_num at *
    linarith
  have hg : Rl (div one v) (1 / v.val) (1 / 2 ^ 24) := by
    have := rl_div (k' := 1 / 2 ^ 24) (rl_exact one_finite.1 (by rw [one_finite.2]; norm_num)) (rl_exact fv vp.le) vp le_rfl
      (by norm_num) (by norm_num) (Or.inr ?_) ?_ (by norm_num) (by norm_num)
    · rwa [one_finite.2] at this
    · rw [one_finite.2]
      apply pow_range (k := 27) (by norm_num)
      rw [le_div_iff₀ vp]
      norm_num at v2 ⊢
      linarith
    · rw [one_finite.2, div_le_iff₀ vp]
      norm_num
      linarith
  obtain ⟨-, -, eg⟩ := hg
  generalize (div one v).val = g at *
  generalize v.val = V at *
  have g1 : |g * V - 1| ≤ 1 / 2 ^ 24 := by
    have e : g * V - 1 = (g - 1 / V) * V := by field_simp
    rw [e, abs_mul, abs_of_pos vp]
    calc |g - 1 / V| * V ≤ 1 / 2 ^ 24 * (1 / V) * V := mul_le_mul_of_nonneg_right eg vp.le
      _ = _ := by field_simp
  have g2 : |g ^ 2 * V ^ 2 - 1| ≤ 21 / 10 * (1 / 2 ^ 24) := by
    have e : g ^ 2 * V ^ 2 - 1 = (g * V - 1) * (g * V + 1) := by ring
    have h3 : |g * V + 1| ≤ 21 / 10 := by
      rw [abs_le] at g1 ⊢
      norm_num at g1 ⊢
      constructor <;> linarith [g1.1, g1.2]
    rw [e, abs_mul]
    calc _ ≤ 1 / 2 ^ 24 * (21 / 10) := mul_le_mul g1 h3 (abs_nonneg _) (by norm_num)
      _ = _ := by ring
  -- `V^2` and `S`
  have k1 : |S - V ^ 2| ≤ 54 / 10 * (1 / 2 ^ 24) * V ^ 2 := by
    have := sq_nonneg V
    generalize V ^ 2 = U at *
    rw [abs_le]
    norm_num at *
    constructor <;> linarith
  have g0 := sq_nonneg g
  have k2 : |g ^ 2 * (S - V ^ 2)| ≤ 54 / 10 * (1 / 2 ^ 24) * (g ^ 2 * V ^ 2) := by
    rw [abs_mul, abs_of_nonneg g0]
    calc _ ≤ g ^ 2 * (54 / 10 * (1 / 2 ^ 24) * V ^ 2) := mul_le_mul_of_nonneg_left k1 g0
      _ = _ := by ring
  have e : g ^ 2 * S - 1 = g ^ 2 * (S - V ^ 2) + (g ^ 2 * V ^ 2 - 1) := by ring
  rw [e]
  refine (abs_add_le _ _).trans ?_
  have h9 := (abs_le.1 g2).2
  generalize g ^ 2 * V ^ 2 = Z at *
  unfold eps
  norm_num at *
  linarith

/-! ### Concrete values -/

/-- Roughness a half, a cosine of three quarters: the hypotheses of the accuracy theorems hold. -/
example : In (1 / 2 ^ 40) 1 (ggxA2 (num (1 / 2))) ∧ (num (3 / 4)).Ok ∧ 1 / 2 ^ 20 ≤ |(num (3 / 4)).val| ∧
    ggxA2 (num (1 / 2)) = num (1 / 4) ∧ exactW (1 / 4) (3 / 4) = 1 + 175 / 576 := by
  have e : ggxA2 (num (1 / 2)) = num (1 / 4) := by decide +kernel
  refine ⟨?_, ⟨by norm_num, by decide +kernel, by norm_num⟩, by norm_num [F32.val], e, by norm_num [exactW]⟩
  rw [e]; exact ⟨trivial, by norm_num [F32.val], by norm_num [F32.val]⟩

/-- The density there, computed and exact. -/
example : ∃ q, ggxD (num (1 / 4)) (num (3 / 4)) = num q ∧ 0 < q ∧ |q - exactD (1 / 4) (3 / 4)| ≤ 1 / 2 ^ 22 :=
  ⟨(ggxD (num (1 / 4)) (num (3 / 4))).val, by decide +kernel, by decide +kernel, by decide +kernel⟩

/-- Half of the digits of the density are lost near the normal: roughness 0.01, cosine `1 - 2896*2^-24`. -/
theorem C163_density_half_digits :
    1 / 2 ^ 13 * exactD (ggxA2 (F32.round false (1 / 100))).val (1 - 2896 / 2 ^ 24) ≤
      |(ggxD (ggxA2 (F32.round false (1 / 100))) (num (1 - 2896 / 2 ^ 24))).val -
        exactD (ggxA2 (F32.round false (1 / 100))).val (1 - 2896 / 2 ^ 24)| := by decide +kernel

end Spectre.FMicro
