import Verif.Model.FloatDirect
import Verif.Props.FloatArea

/-
C176: the direct light of a point in binary32, sampled from the light and from the material.
-/

namespace Spectre.Direct

open Spectre.Geom Spectre.FMat Spectre.FMicro Spectre.FRough Spectre.FArea F32

/-! ### Specification -/

/-- A factor of the radiance: a finite number from `2^-10` to `2^10`. -/
def Factor (x : F32) : Prop := x.Finite ∧ 2 ^ (-10 : ℤ) ≤ x.val ∧ x.val ≤ 2 ^ (10 : ℤ)

/-- A density from `2^-13` to `2^13`, known up to 1/2000. -/
def Density (x : F32) (X : ℚ) : Prop := Rl x X (1 / 2000) ∧ 2 ^ (-13 : ℤ) ≤ X ∧ X ≤ 2 ^ (13 : ℤ)

/-- The estimate of a strategy with the density `A` weighted against one with the density `B` (balance of squares). -/
def estimate (f l c A B : ℚ) : ℚ := f * l * c * (A ^ 2 / (A ^ 2 + B ^ 2)) / A

/-! ### The terms -/

theorem factor_pos {x : F32} (h : Factor x) : 0 < x.val := lt_of_lt_of_le (two_zpow_pos _) h.2.1

theorem factor_nonzero {x : F32} (h : Factor x) : x.isZero = false := by
  have := factor_pos h
  cases x with
  | zero s => exact absurd this (lt_irrefl _)
  | _ => rfl

theorem density_pos {x : F32} {X : ℚ} (h : Density x X) : 0 < X := lt_of_lt_of_le (two_zpow_pos _) h.2.1

theorem density_lt {x : F32} {X : ℚ} (h : Density x X) : lt (zero false) x = true := by
  have p := density_pos h
  obtain ⟨⟨f, -, e⟩, -⟩ := h
  have e' := (abs_le.1 e).1
  rw [lt_finite (a := zero false) trivial f]
  have : (0 : ℚ) < x.val := by norm_num at e'; linarith
  exact decide_eq_true this

theorem density_ne {x : F32} {X : ℚ} (h : Density x X) : F32.eq x (zero false) = false := by
  have := density_lt h
  cases x with
  | nan => rfl
  | inf s => rfl
  | zero s => exact absurd this (by cases s <;> decide)
  | num q =>
    have q0 : q ≠ 0 := by
      rintro rfl
      exact absurd this (by decide)
    simp [F32.eq, F32.val, q0]

/-- The common part of both terms. -/
theorem term_near {f l c a b : F32} {A B : ℚ} (hf : Factor f) (hl : Factor l) (hc : Factor c) (ha : Density a A) (hb : Density b B) :
    Rl (div (F32.mul (F32.mul (F32.mul f l) c) (weight a b)) a) (estimate f.val l.val c.val A B) (251 / 100000) := by
  have fp := factor_pos hf
  have lp := factor_pos hl
  have cp := factor_pos hc
  have Ap := density_pos ha
  have Bp := density_pos hb
  obtain ⟨ff, f0, f1⟩ := hf
  obtain ⟨fl, l0, l1⟩ := hl
  obtain ⟨fc, c0, c1⟩ := hc
  obtain ⟨ra, A0, A1⟩ := ha
  obtain ⟨rb, B0, B1⟩ := hb
  -- squares and weight
  have sq0 : ∀ {X : ℚ}, 2 ^ (-13 : ℤ) ≤ X → 2 ^ (-26 : ℤ) ≤ X * X := fun {X} h => by
    have := mul_le_mul h h (two_zpow_pos _).le ((two_zpow_pos (-13)).le.trans h)
    exact le_trans (by norm_num) this
  have sq1 : ∀ {X : ℚ}, 0 < X → X ≤ 2 ^ (13 : ℤ) → X * X ≤ 2 ^ (26 : ℤ) := fun {X} h0 h => by
    have := mul_le_mul h h h0.le (two_zpow_pos _).le
    exact this.trans (by norm_num)
  have a0 := sq0 A0
  have a1 := sq1 Ap A1
  have b0 := sq0 B0
  have b1 := sq1 Bp B1
  have qa := rl_mul (k' := 1001 / 10 ^ 6) ra ra (by norm_num) (Or.inr (le_trans (by norm_num) a0)) (a1.trans (by norm_num)) (by norm_num)
    (by norm_num)
  have qb := rl_mul (k' := 1001 / 10 ^ 6) rb rb (by norm_num) (Or.inr (le_trans (by norm_num) b0)) (b1.trans (by norm_num)) (by norm_num)
    (by norm_num)
  have s0 : 2 ^ (-26 : ℤ) ≤ A * A + B * B := by nlinarith [two_zpow_pos (-26)]
  have s1 : A * A + B * B ≤ 2 ^ (27 : ℤ) := by
    refine (add_le_add a1 b1).trans (by norm_num)
  have sp : 0 < A * A + B * B := by positivity
  have qs := rl_add (k := 1001 / 10 ^ 6) (k' := 1002 / 10 ^ 6) qa qb le_rfl le_rfl (le_trans (by norm_num) s0) (s1.trans (by norm_num))
    (by norm_num) (by norm_num)
  have w1 : A * A / (A * A + B * B) ≤ 1 := by
    rw [div_le_one sp]; nlinarith
  have w0 : 2 ^ (-53 : ℤ) ≤ A * A / (A * A + B * B) := by
    rw [le_div_iff₀ sp]
    calc (2 : ℚ) ^ (-53 : ℤ) * (A * A + B * B) ≤ 2 ^ (-53 : ℤ) * 2 ^ (27 : ℤ) := mul_le_mul_of_nonneg_left s1 (two_zpow_pos _).le
      _ = 2 ^ (-26 : ℤ) := by norm_num
      _ ≤ _ := a0
  have wp : 0 < A * A / (A * A + B * B) := lt_of_lt_of_le (two_zpow_pos _) w0
  have qw := rl_div (k' := 2006 / 10 ^ 6) qa qs sp (by norm_num) (by norm_num) (by norm_num) (Or.inr (le_trans (by norm_num) w0))
    (w1.trans (by norm_num)) (by norm_num) (by norm_num)
  -- factors
  have m0 : 2 ^ (-20 : ℤ) ≤ f.val * l.val := by
    have := mul_le_mul f0 l0 (two_zpow_pos _).le fp.le
    exact le_trans (by norm_num) this
  have m1 : f.val * l.val ≤ 2 ^ (20 : ℤ) := (mul_le_mul f1 l1 lp.le (two_zpow_pos _).le).trans (by norm_num)
  have n0 : 2 ^ (-30 : ℤ) ≤ f.val * l.val * c.val := by
    have := mul_le_mul m0 c0 (two_zpow_pos _).le (by positivity)
    exact le_trans (by norm_num) this
  have n1 : f.val * l.val * c.val ≤ 2 ^ (30 : ℤ) := (mul_le_mul m1 c1 cp.le (two_zpow_pos _).le).trans (by norm_num)
  have np : 0 < f.val * l.val * c.val := by positivity
  have g1 := rl_mul (k' := 1 / 10 ^ 7) (rl_exact ff fp.le) (rl_exact fl lp.le) le_rfl (Or.inr (le_trans (by norm_num) m0))
    (m1.trans (by norm_num)) (by norm_num) (by norm_num)
  have g2 := rl_mul (k' := 2 / 10 ^ 7) g1 (rl_exact fc cp.le) (by norm_num) (Or.inr (le_trans (by norm_num) n0))
    (n1.trans (by norm_num)) (by norm_num) (by norm_num)
  have t0 : 2 ^ (-83 : ℤ) ≤ f.val * l.val * c.val * (A * A / (A * A + B * B)) := by
    have := mul_le_mul n0 w0 (two_zpow_pos _).le np.le
    exact le_trans (by norm_num) this
  have t1 : f.val * l.val * c.val * (A * A / (A * A + B * B)) ≤ 2 ^ (30 : ℤ) := by
    refine (mul_le_mul n1 w1 wp.le (two_zpow_pos _).le).trans (by norm_num)
  have g3 := rl_mul (k' := 2008 / 10 ^ 6) g2 qw (by norm_num) (Or.inr (le_trans (by norm_num) t0)) (t1.trans (by norm_num)) (by norm_num)
    (by norm_num)
  have g4 := rl_div (k' := 251 / 100000) g3 ra Ap (by norm_num) (by norm_num) (by norm_num)
    (Or.inr (by
      rw [le_div_iff₀ Ap]
      calc (2 : ℚ) ^ (-100 : ℤ) * A ≤ 2 ^ (-100 : ℤ) * 2 ^ (13 : ℤ) := mul_le_mul_of_nonneg_left A1 (two_zpow_pos _).le
        _ ≤ 2 ^ (-83 : ℤ) := by norm_num
        _ ≤ _ := t0))
    (by
      rw [div_le_iff₀ Ap]
      calc f.val * l.val * c.val * (A * A / (A * A + B * B)) ≤ 2 ^ (30 : ℤ) := t1
        _ ≤ 2 ^ 100 * 2 ^ (-13 : ℤ) := by norm_num
        _ ≤ _ := mul_le_mul_of_nonneg_left A0 (by norm_num))
    (by norm_num) (by norm_num)
  have e : estimate f.val l.val c.val A B = f.val * l.val * c.val * (A * A / (A * A + B * B)) / A := by
    unfold estimate; ring
  rw [e]
  exact g4

/-- **C176, sample of the light.**  What a light sample adds is the light times the material times the cosine, weighted
by the squares of the densities and divided by the density, relatively up to 1/398. -/
theorem C176_light {s : LightSample} {bsdf q cos : F32} {P Q : ℚ} (hf : Factor bsdf) (hl : Factor s.light) (hc : Factor cos)
    (hp : Density s.pdf P) (hq : Density q Q) :
    Rl (lightTerm s bsdf q cos) (estimate bsdf.val s.light.val cos.val P Q) (251 / 100000) := by
  unfold lightTerm
  rw [density_lt hp, factor_nonzero hl, factor_nonzero hf, density_lt hq]
  exact term_near hf hl hc hp hq

/-- **C176, sample of the material.** -/
theorem C176_material {bsdf q p cos rad : F32} {P Q : ℚ} (hf : Factor bsdf) (hl : Factor rad) (hc : Factor cos)
    (hp : Density p P) (hq : Density q Q) :
    Rl (materialTerm bsdf q p cos rad true) (estimate bsdf.val rad.val cos.val Q P) (251 / 100000) := by
  unfold materialTerm
  rw [density_lt hq, factor_nonzero hf, density_ne hp]
  exact term_near hf hl hc hq hp

/-- A direction in which the light is not the first thing hit adds nothing, and neither does one the light's density denies. -/
theorem C176_material_unseen (bsdf q p cos rad : F32) :
    materialTerm bsdf q p cos rad false = zero false ∧ materialTerm bsdf q (zero false) cos rad true = zero false := by
  unfold materialTerm
  constructor
  · split
    · split <;> simp
    · rfl
  · split
    · rw [if_pos (by rfl)]
    · rfl

/-- A black material adds nothing, and neither does a direction that the material cannot have sampled. -/
theorem C176_material_black (bsdf q p cos rad : F32) (seen s : Bool) :
    materialTerm (zero s) q p cos rad seen = zero false ∧ materialTerm bsdf (zero s) p cos rad seen = zero false := by
  unfold materialTerm
  constructor
  · rw [if_neg (by simp [F32.isZero])]
  · rw [if_neg (by cases s <;> simp [F32.lt, F32.val])]

/-- **C176, no light is lost or counted twice.**  In a direction that both strategies can sample, with the exact densities
`P` and `Q`, the expected contributions of both add up to the light times the material times the cosine, relatively up to
1/398. -/
theorem C176_both {s : LightSample} {bsdf q cos : F32} {P Q : ℚ} (hf : Factor bsdf) (hl : Factor s.light) (hc : Factor cos)
    (hp : Density s.pdf P) (hq : Density q Q) :
    |P * (lightTerm s bsdf q cos).val + Q * (materialTerm bsdf q s.pdf cos s.light true).val - bsdf.val * s.light.val * cos.val|
      ≤ 251 / 100000 * (bsdf.val * s.light.val * cos.val) := by
  obtain ⟨-, -, e1⟩ := C176_light hf hl hc hp hq
  obtain ⟨-, -, e2⟩ := C176_material hf hl hc hp hq
  have Pp := density_pos hp
  have Qp := density_pos hq
  have np : 0 < bsdf.val * s.light.val * cos.val := mul_pos (mul_pos (factor_pos hf) (factor_pos hl)) (factor_pos hc)
  have i : P * estimate bsdf.val s.light.val cos.val P Q + Q * estimate bsdf.val s.light.val cos.val Q P =
      bsdf.val * s.light.val * cos.val := by
    unfold estimate
    have h1 : P ^ 2 + Q ^ 2 ≠ 0 := by positivity
    have h2 : Q ^ 2 + P ^ 2 ≠ 0 := by positivity
    field_simp
    ring
  generalize (lightTerm s bsdf q cos).val = x at *
  generalize (materialTerm bsdf q s.pdf cos s.light true).val = y at *
  generalize bsdf.val * s.light.val * cos.val = N at *
  generalize estimate bsdf.val s.light.val cos.val P Q = X at *
  generalize estimate bsdf.val s.light.val cos.val Q P = Y at *
  have h : P * x + Q * y - N = P * (x - X) + Q * (y - Y) := by rw [← i]; ring
  rw [h]
  refine (abs_add_le _ _).trans ?_
  rw [abs_mul, abs_mul, abs_of_pos Pp, abs_of_pos Qp]
  have h1 := mul_le_mul_of_nonneg_left e1 Pp.le
  have h2 := mul_le_mul_of_nonneg_left e2 Qp.le
  calc _ ≤ _ := add_le_add h1 h2
    _ = 251 / 100000 * (P * X + Q * Y) := by ring
    _ = _ := by rw [i]

/-- **C176, from the point to the radiance.**  A light the front of which is hit at the distance `t`: the sample of
`sample_visible_surface` is used, and what it adds is that of the exact density `t² / (cosine * area)`. -/
theorem C176_visible {o d n : V3 F32} {t area light bsdf q cos : F32} {A Q : ℚ} {k : ℕ} (h : Sight o d n t)
    (front : n.x.val * d.x.val + n.y.val * d.y.val + n.z.val * d.z.val ≤ -2 ^ (-8 : ℤ)) (ha : Nf area A k (-39) 44) (hA : 0 < A)
    (hk : k ≤ 90) (p0 : 2 ^ (-13 : ℤ) ≤ t.val ^ 2 / (cosine n d * A)) (p1 : t.val ^ 2 / (cosine n d * A) ≤ 2 ^ (13 : ℤ))
    (hf : Factor bsdf) (hl : Factor light) (hc : Factor cos) (hq : Density q Q) :
    Rl (lightTerm (sampleVisible (some (t, n)) o d area light) bsdf q cos)
      (estimate bsdf.val light.val cos.val (t.val ^ 2 / (cosine n d * A)) Q) (251 / 100000) := by
  have hcos : 2 ^ (-8 : ℤ) ≤ cosine n d := by
    unfold cosine
    have := neg_le_abs (n.x.val * d.x.val + n.y.val * d.y.val + n.z.val * d.z.val)
    linarith
  obtain ⟨hd, -⟩ := C175_density h hcos ha hA hk
  obtain ⟨fd, ed⟩ := fdot_near h
  have lt1 : lt (zero false) (fdot n (vneg d)) = true := by
    rw [lt_finite (a := zero false) trivial fd]
    have e' := (abs_le.1 ed).1
    have : (0 : ℚ) < (fdot n (vneg d)).val := by norm_num at e' front ⊢; linarith
    exact decide_eq_true this
  have ni : (density o d t n area).isInf = false := by
    have := hd.1
    cases hx : density o d t n area with
    | inf s => rw [hx] at this; exact this.elim
    | _ => rfl
  have es : sampleVisible (some (t, n)) o d area light = ⟨light, density o d t n area, t⟩ := by
    unfold sampleVisible
    simp only [ni, lt1, if_true, Bool.false_eq_true, if_false]
  rw [es]
  exact C176_light (s := ⟨light, density o d t n area, t⟩) hf hl hc ⟨hd, p0, p1⟩ hq

/-! ### The hypotheses are met -/

theorem half_factor : Factor (num (1 / 2)) := by norm_num [Factor, F32.Finite, F32.val]

theorem some_density : Density (num (11187000 / 2 ^ 25)) (1 / 3) := by
  refine ⟨⟨trivial, by norm_num, ?_⟩, by norm_num, by norm_num⟩
  norm_num [F32.val, abs_le]

/-- C176_light, C176_material, C176_both. -/
example := C176_light (s := ⟨num (1 / 2), num (11187000 / 2 ^ 25), num 3⟩) half_factor half_factor half_factor some_density some_density
example := C176_material half_factor half_factor half_factor some_density some_density
example := C176_both (s := ⟨num (1 / 2), num (11187000 / 2 ^ 25), num 3⟩) half_factor half_factor half_factor some_density some_density

/-- C176_visible: the lamp of C175. -/
example := C176_visible lamp_sight (by norm_num [zip, one, F32.val]) (box_near lamp_sizes (by norm_num)) (by norm_num) (by norm_num)
  (by norm_num [cosine, zip, one, F32.val]) (by norm_num [cosine, zip, one, F32.val]) half_factor half_factor half_factor some_density

end Spectre.Direct
