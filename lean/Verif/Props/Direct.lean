import Verif.Model.Direct
import Mathlib.Tactic.Linarith
import Mathlib.Tactic.Positivity
import Mathlib.Tactic.FieldSimp

/-
C149: the light sample of a point that the light does not show (hole of its mask, missed by rounding, back side)
is never used.  C150: the weights of the two ways of sampling the direct light.
-/

namespace Spectre.Direct

open Spectre.Geom (V3)
open F32

/-! ### C149 -/

/-- A zero or NaN. -/
def ZN (x : F32) : Prop := x = nan ∨ ∃ s, x = zero s

theorem zn_mul {x : F32} (h : ZN x) (y : F32) : ZN (mul x y) := by
  rcases h with rfl | ⟨s, rfl⟩
  · left; cases y <;> rfl
  · cases y with
    | nan => left; rfl
    | inf t => left; rfl
    | zero t => right; exact ⟨_, by simp [mul, val, F32.round]; rfl⟩
    | num q => right; exact ⟨_, by simp [mul, val, F32.round]; rfl⟩

theorem zn_add {x y : F32} (hx : ZN x) (hy : ZN y) : ZN (add x y) := by
  rcases hx with rfl | ⟨s, rfl⟩
  · left; cases y <;> rfl
  · rcases hy with rfl | ⟨t, rfl⟩
    · left; rfl
    · right; exact ⟨_, by simp [add, val, F32.round]; rfl⟩

theorem zn_abs {x : F32} (hx : ZN x) : ZN (F32.abs x) := by
  rcases hx with rfl | ⟨s, rfl⟩
  · left; rfl
  · right; exact ⟨_, rfl⟩

theorem zn_div (x : F32) {y : F32} (hy : ZN y) : div x y = nan ∨ (div x y).isInf = true := by
  rcases hy with rfl | ⟨s, rfl⟩
  · left; cases x <;> rfl
  · cases x with
    | nan => left; rfl
    | inf t => right; rfl
    | zero t => left; rfl
    | num q => right; rfl

theorem zn_lt {x : F32} (hx : ZN x) : lt (zero false) x = false := by
  rcases hx with rfl | ⟨s, rfl⟩
  · rfl
  · simp [lt, val]

/-- A light sample is used by the integrator, ray_tracer.cpp:34. -/
def Used (s : LightSample) : Prop := lt (zero false) s.pdf = true ∧ s.light.isZero = false

theorem fdot_zero (d : V3 F32) : ZN (fdot ⟨zero false, zero false, zero false⟩ d) := by
  unfold fdot
  have h : ZN (zero false) := Or.inr ⟨_, rfl⟩
  exact zn_add (zn_add (zn_mul h _) (zn_mul h _)) (zn_mul h _)

/-- C149: when the ray towards the sampled point does not meet the light (the point lies in a hole of the mask, or
rounding misses the shape) the sample is black, its density is zero or NaN and it adds nothing — for every origin,
direction, area and colour, NaN and infinities included. -/
theorem C149_hidden (o d : V3 F32) (area c : F32) :
    (sampleVisible none o d area c).light = zero false ∧
    ZN (sampleVisible none o d area c).pdf ∧
    ¬ Used (sampleVisible none o d area c) ∧
    ∀ bsdf bsdfpdf cos, lightTerm (sampleVisible none o d area c) bsdf bsdfpdf cos = zero false := by
  have hz := fdot_zero (vneg d)
  have hD := zn_div (dist2 o (apply o d fltMax)) (zn_mul (zn_abs hz) area)
  have key : (sampleVisible none o d area c).light = zero false ∧ ZN (sampleVisible none o d area c).pdf := by
    have e : sampleVisible none o d area c =
        if (density o d fltMax ⟨zero false, zero false, zero false⟩ area).isInf then
          ⟨zero false, zero false, fltMax⟩
        else ⟨if lt (zero false) (fdot ⟨zero false, zero false, zero false⟩ (vneg d)) then c else zero false,
          density o d fltMax ⟨zero false, zero false, zero false⟩ area, fltMax⟩ := rfl
    rw [e, zn_lt hz]
    change density o d fltMax ⟨zero false, zero false, zero false⟩ area = nan ∨
      (density o d fltMax ⟨zero false, zero false, zero false⟩ area).isInf = true at hD
    rcases hD with h | h
    · rw [h]; exact ⟨rfl, Or.inl rfl⟩
    · rw [if_pos h]; exact ⟨rfl, Or.inr ⟨_, rfl⟩⟩
  refine ⟨key.1, key.2, fun hu => ?_, fun bsdf bp cos => ?_⟩
  · have := hu.1; rw [zn_lt key.2] at this; cases this
  · unfold lightTerm; rw [zn_lt key.2]; rfl

/-- C149: a sample that is used comes from a point the light shows, on its front side; it carries the colour of the
light, the finite density of the point and the distance found. -/
theorem C149_used (hit : Hit) (o d : V3 F32) (area c : F32) (h : Used (sampleVisible hit o d area c)) :
    ∃ t n, hit = some (t, n) ∧ lt (zero false) (fdot n (vneg d)) = true ∧
      (density o d t n area).isInf = false ∧ lt (zero false) (density o d t n area) = true ∧
      sampleVisible hit o d area c = ⟨c, density o d t n area, t⟩ := by
  cases hit with
  | none => exact absurd h (C149_hidden o d area c).2.2.1
  | some p =>
    obtain ⟨t, n⟩ := p
    refine ⟨t, n, rfl, ?_⟩
    unfold Used sampleVisible at h
    unfold sampleVisible
    simp only [] at h ⊢
    by_cases hi : (density o d t n area).isInf = true
    · rw [if_pos hi] at h; cases h.1
    · rw [if_neg hi] at h ⊢
      by_cases hc : lt (zero false) (fdot n (vneg d)) = true
      · rw [if_pos hc] at h ⊢
        exact ⟨hc, by simpa using hi, h.1, rfl⟩
      · rw [if_neg hc] at h; cases h.2

/-- C149: the side from which a light does not shine, and the edge where it is seen at a cosine of exactly zero, add
nothing either. -/
theorem C149_back (t : F32) (n o d : V3 F32) (area c : F32) (h : lt (zero false) (fdot n (vneg d)) = false) :
    (sampleVisible (some (t, n)) o d area c).light = zero false ∧
    ∀ bsdf bsdfpdf cos, lightTerm (sampleVisible (some (t, n)) o d area c) bsdf bsdfpdf cos = zero false := by
  have key : (sampleVisible (some (t, n)) o d area c).light = zero false := by
    unfold sampleVisible
    simp only []
    split
    · rfl
    · simp only []; rw [h]; rfl
  refine ⟨key, fun _ _ _ => ?_⟩
  unfold lightTerm; rw [key]
  simp [isZero]

-- A light of area 4 in the plane z = 2 seen from the origin: the sample is used, with density 1.
example : Used (sampleVisible (some (num 2, ⟨zero false, zero false, num (-1)⟩)) ⟨zero false, zero false, zero false⟩
    ⟨zero false, zero false, num 1⟩ (num 4) (num 3)) := by constructor <;> decide +kernel
example : (sampleVisible (some (num 2, ⟨zero false, zero false, num (-1)⟩)) ⟨zero false, zero false, zero false⟩
    ⟨zero false, zero false, num 1⟩ (num 4) (num 3)).pdf = num 1 := by decide +kernel
-- The same with a hole: the density overflows and is reported as 0.
example : (sampleVisible none ⟨zero false, zero false, zero false⟩
    ⟨zero false, zero false, num 1⟩ (num 4) (num 3)).pdf = zero false := by decide +kernel
-- From behind.
example : lt (zero false) (fdot ⟨zero false, zero false, num 1⟩ (vneg ⟨zero false, zero false, num 1⟩)) = false := by
  decide +kernel

/-! ### C150 -/

theorem round_zero {s : Bool} {q : ℚ} (hq : 0 < q) (h : rnd32 q = 0) : F32.round s q = zero false := by
  unfold F32.round
  rw [if_neg hq.ne', if_pos h]
  simp [not_lt.2 hq.le]

theorem round_inf {s : Bool} {q : ℚ} (hq : 0 < q) (h : 2 ^ 128 ≤ rnd32 q) : F32.round s q = inf false := by
  have h0 : rnd32 q ≠ 0 := by
    intro e; rw [e] at h; norm_num at h
  unfold F32.round
  rw [if_neg hq.ne', if_neg h0, if_pos (le_trans h (le_abs_self _))]
  simp [not_lt.2 hq.le]

theorem round_fin {s : Bool} {q : ℚ} (hq : 0 < q) (h0 : rnd32 q ≠ 0) (h : rnd32 q < 2 ^ 128) :
    F32.round s q = num (rnd32 q) :=
  round_num h0 (by rwa [abs_of_nonneg (rnd32_nonneg hq.le)])

/-- The square of a positive density. -/
theorem sq_eq (a : ℚ) : mul (num a) (num a) = F32.round false (a * a) := by
  simp [mul, sign, val]

/-- The three values a rounded positive number can take. -/
theorem round_cases {s : Bool} {q : ℚ} (hq : 0 < q) :
    (rnd32 q = 0 ∧ F32.round s q = zero false) ∨ (2 ^ 128 ≤ rnd32 q ∧ F32.round s q = inf false) ∨
      (0 < rnd32 q ∧ rnd32 q < 2 ^ 128 ∧ F32.round s q = num (rnd32 q)) := by
  rcases eq_or_ne (rnd32 q) 0 with h0 | h0
  · exact Or.inl ⟨h0, round_zero hq h0⟩
  · rcases le_or_gt (2 ^ 128) (rnd32 q) with h1 | h1
    · exact Or.inr (Or.inl ⟨h1, round_inf hq h1⟩)
    · exact Or.inr (Or.inr ⟨lt_of_le_of_ne (rnd32_nonneg hq.le) (Ne.symm h0), h1, round_fin hq h0 h1⟩)

/-- C150: the exact cases in which the weight of a sample is not a number, for every two positive densities: the square
of its own density overflows, or the squares of both densities underflow. -/
theorem C150_nan_iff {a b : ℚ} (ha : 0 < a) (hb : 0 < b) :
    weight (num a) (num b) = nan ↔ 2 ^ 128 ≤ rnd32 (a * a) ∨ (rnd32 (a * a) = 0 ∧ rnd32 (b * b) = 0) := by
  unfold weight
  rw [sq_eq a, sq_eq b]
  have hA := round_cases (s := false) (mul_pos ha ha)
  have hB := round_cases (s := false) (mul_pos hb hb)
  have big : ¬ (2 ^ 128 : ℚ) ≤ 0 := by norm_num
  rcases hA with ⟨a0, ea⟩ | ⟨a1, ea⟩ | ⟨a2, a3, ea⟩
  · rw [ea]
    rcases hB with ⟨b0, eb⟩ | ⟨b1, eb⟩ | ⟨b2, b3, eb⟩
    · rw [eb]; simp only [a0, b0, and_self, or_true, iff_true]; decide +kernel
    · rw [eb]; simp only [a0, add, div, reduceCtorEq, true_and, false_iff, not_or]
      exact ⟨big, fun h => by rw [h] at b1; exact big b1⟩
    · rw [eb]
      have hs : add (zero false) (num (rnd32 (b * b))) = num (rnd32 (b * b)) := by
        simp only [add, val, zero_add]
        rw [round_num (by rw [rnd32_rnd32]; exact b2.ne') (by
          rw [rnd32_rnd32, abs_of_pos b2]; exact b3), rnd32_rnd32]
      rw [hs]
      simp only [a0, true_and]
      constructor
      · intro h; simp [div, isZero, val, F32.round] at h
      · rintro (h | h)
        · exact absurd h big
        · exact absurd h b2.ne'
  · rw [ea]
    have hs : add (inf false) (F32.round false (b * b)) = inf false := by
      rcases hB with ⟨_, eb⟩ | ⟨_, eb⟩ | ⟨_, _, eb⟩ <;> rw [eb] <;> rfl
    rw [hs]
    simp only [a1, true_or, iff_true]; rfl
  · rw [ea]
    have hne : ¬ (2 ^ 128 ≤ rnd32 (a * a) ∨ (rnd32 (a * a) = 0 ∧ rnd32 (b * b) = 0)) := by
      rintro (h | h)
      · exact absurd h (not_le.2 a3)
      · exact absurd h.1 a2.ne'
    simp only [hne, iff_false]
    have fin : ∀ y : ℚ, 0 ≤ y → div (num (rnd32 (a * a))) (F32.round false (rnd32 (a * a) + y)) ≠ nan := by
      intro y hy
      have hp : 0 < rnd32 (a * a) + y := by linarith
      rcases round_cases (s := false) hp with ⟨s0, _⟩ | ⟨_, es⟩ | ⟨_, _, es⟩
      · have := rnd32_mono (show rnd32 (a * a) ≤ rnd32 (a * a) + y by linarith)
        rw [rnd32_rnd32, s0] at this
        exact absurd this (not_le.2 a2)
      · rw [es]; simp [div]
      · rw [es]; simp only [div, isZero, F32.round, Bool.false_eq_true, if_false]
        split_ifs <;> simp
    rcases hB with ⟨b0, eb⟩ | ⟨b1, eb⟩ | ⟨b2, b3, eb⟩
    · rw [eb]
      have := fin 0 le_rfl
      simpa [add, val, sign, not_lt.2 a2.le] using this
    · rw [eb]; simp [add, div]
    · rw [eb]
      have := fin _ b2.le
      simpa [add, val, sign, not_lt.2 a2.le, not_lt.2 b2.le] using this

/-- C150 (violated): a density of `2^64` or more, which is a finite number that passes every test of the integrator,
has a weight that is not a number, whatever the other density. -/
theorem C150_violated_large {a b : ℚ} (ha : 2 ^ 64 ≤ a) (hb : 0 < b) : weight (num a) (num b) = nan := by
  have h0 : (0 : ℚ) < a := lt_of_lt_of_le (by norm_num) ha
  rw [C150_nan_iff h0 hb]
  left
  have : (2 : ℚ) ^ (128 : ℤ) ≤ rnd32 (a * a) := le_rnd32 (by norm_num) (by
    have := mul_le_mul ha ha (by norm_num) h0.le
    refine le_trans (le_of_eq ?_) this
    norm_num)
  simpa using this

/-- `2^(-150)`, half of the smallest number, rounds to zero. -/
theorem rnd32_tiny : rnd32 (2 ^ (-150 : ℤ)) = 0 := by decide +kernel

/-- C150 (violated): so have two densities of at most `2^(-75)`. -/
theorem C150_violated_small {a b : ℚ} (ha : 0 < a) (hb : 0 < b) (ha1 : a ≤ 2 ^ (-75 : ℤ)) (hb1 : b ≤ 2 ^ (-75 : ℤ)) :
    weight (num a) (num b) = nan := by
  have key : ∀ x : ℚ, 0 < x → x ≤ 2 ^ (-75 : ℤ) → rnd32 (x * x) = 0 := by
    intro x hx h
    have h1 : x * x ≤ 2 ^ (-150 : ℤ) := by
      have := mul_le_mul h h hx.le (two_zpow_pos _).le
      rwa [← zpow_add₀ (by norm_num)] at this
    have h2 := rnd32_mono h1
    rw [rnd32_tiny] at h2
    exact le_antisymm h2 (rnd32_nonneg (mul_pos hx hx).le)
  rw [C150_nan_iff ha hb]
  exact Or.inr ⟨key a ha ha1, key b hb hb1⟩

/-- C150 (violated): a light of area `2^(-30)` (a sphere with a radius of 9 micrometres, say) at a distance of `2^17`
has the density `2^64`: the light it sends through the material is not a number instead of about `2^(-64)`, and so is
then the pixel. -/
theorem C150_violated_radiance :
    lightTerm (sampleVisible (some (num (2 ^ 17), ⟨zero false, zero false, num (-1)⟩))
      ⟨zero false, zero false, zero false⟩ ⟨zero false, zero false, num 1⟩ (num (1 / 2 ^ 30)) (num 1))
      (num (1 / 2)) (num (1 / 2)) (num 1) = nan := by decide +kernel

/-- The parts of a weight when nothing overflows. -/
theorem weight_eq {a b : ℚ} (ha : 0 < a) (hb : 0 < b) (ha1 : a ≤ 2 ^ (63 : ℤ)) (hb1 : b ≤ 2 ^ (63 : ℤ))
    (h : 2 ^ (-74 : ℤ) ≤ a ∨ 2 ^ (-74 : ℤ) ≤ b) :
    let S := rnd32 (rnd32 (a * a) + rnd32 (b * b))
    0 < S ∧ rnd32 (a * a) ≤ S ∧ rnd32 (b * b) ≤ S ∧
      (weight (num a) (num b)).Finite ∧ (weight (num a) (num b)).val = rnd32 (rnd32 (a * a) / S) := by
  have up : ∀ x : ℚ, 0 < x → x ≤ 2 ^ (63 : ℤ) → rnd32 (x * x) ≤ 2 ^ (126 : ℤ) := by
    intro x hx h
    apply rnd32_lt (by norm_num)
    have := mul_le_mul h h hx.le (two_zpow_pos _).le
    rwa [← zpow_add₀ (by norm_num)] at this
  have lo : ∀ x : ℚ, 0 < x → 2 ^ (-74 : ℤ) ≤ x → 2 ^ (-148 : ℤ) ≤ rnd32 (x * x) := by
    intro x hx h
    apply le_rnd32 (by norm_num)
    have := mul_le_mul h h (two_zpow_pos _).le hx.le
    rwa [← zpow_add₀ (by norm_num)] at this
  have nA := rnd32_nonneg (mul_pos ha ha).le
  have nB := rnd32_nonneg (mul_pos hb hb).le
  have uA := up a ha ha1
  have uB := up b hb hb1
  have iA := rnd32_rnd32 (a * a)
  have iB := rnd32_rnd32 (b * b)
  have eA : mul (num a) (num a) = (if rnd32 (a * a) = 0 then zero false else num (rnd32 (a * a))) := by
    rw [sq_eq a]
    split_ifs with h0
    · exact round_zero (mul_pos ha ha) h0
    · exact round_fin (mul_pos ha ha) h0 (lt_of_le_of_lt uA (by norm_num))
  have eB : mul (num b) (num b) = (if rnd32 (b * b) = 0 then zero false else num (rnd32 (b * b))) := by
    rw [sq_eq b]
    split_ifs with h0
    · exact round_zero (mul_pos hb hb) h0
    · exact round_fin (mul_pos hb hb) h0 (lt_of_le_of_lt uB (by norm_num))
  have hsum : 0 < rnd32 (a * a) + rnd32 (b * b) := by
    rcases h with h | h
    · have := lo a ha h; have := two_zpow_pos (-148); linarith
    · have := lo b hb h; have := two_zpow_pos (-148); linarith
  unfold weight
  rw [eA, eB]
  generalize rnd32 (a * a) = A at *
  generalize rnd32 (b * b) = B at *
  have hSA : A ≤ rnd32 (A + B) := by
    have := rnd32_mono (show A ≤ A + B by linarith); rwa [iA] at this
  have hSB : B ≤ rnd32 (A + B) := by
    have := rnd32_mono (show B ≤ A + B by linarith); rwa [iB] at this
  have hS : 0 < rnd32 (A + B) := by
    rcases eq_or_lt_of_le nA with h0 | h0
    · rw [← h0] at hsum; linarith
    · linarith
  have hSu : rnd32 (A + B) ≤ 2 ^ (127 : ℤ) := by
    apply rnd32_lt (by norm_num)
    have : (2 : ℚ) ^ (127 : ℤ) = 2 ^ (126 : ℤ) + 2 ^ (126 : ℤ) := by norm_num
    rw [this]; linarith
  have hadd : add (if A = 0 then zero false else num A) (if B = 0 then zero false else num B) = num (rnd32 (A + B)) := by
    have : add (if A = 0 then zero false else num A) (if B = 0 then zero false else num B) = F32.round false (A + B) := by
      split_ifs with h1 h2 h2
      · rw [h1, h2] at hsum; linarith
      · simp [add, sign, val, h1]
      · simp [add, sign, val, h2]
      · simp [add, sign, val, not_lt.2 nA]
    rw [this]
    exact round_fin hsum hS.ne' (lt_of_le_of_lt hSu (by norm_num))
  rw [hadd]
  refine ⟨hS, hSA, hSB, ?_⟩
  split_ifs with h1
  · simp [div, isZero, val, F32.round, F32.Finite, h1, rnd32_zero]
  · have pA : 0 < A := lt_of_le_of_ne nA (Ne.symm h1)
    have hq : 0 < A / rnd32 (A + B) := div_pos pA hS
    have hle : A / rnd32 (A + B) ≤ 1 := by rw [div_le_one hS]; exact hSA
    have hr : rnd32 (A / rnd32 (A + B)) ≤ 2 ^ (0 : ℤ) := rnd32_lt (by norm_num) (by simpa using hle)
    have : div (num A) (num (rnd32 (A + B))) = F32.round (xor (num A).sign (num (rnd32 (A + B))).sign) (A / rnd32 (A + B)) := by
      simp [div, isZero, val]
    rw [this]
    rcases eq_or_ne (rnd32 (A / rnd32 (A + B))) 0 with h0 | h0
    · rw [round_zero hq h0, h0]; simp [F32.Finite, val]
    · rw [round_fin hq h0 (lt_of_le_of_lt hr (by norm_num))]; simp [F32.Finite, val]

/-- C150 (partial: no weight is guaranteed for densities above `2^63`, nor if both are below `2^(-74)`): the weight is a
finite number between 0 and 1. -/
theorem C150_range_partial {a b : ℚ} (ha : 0 < a) (hb : 0 < b) (ha1 : a ≤ 2 ^ (63 : ℤ)) (hb1 : b ≤ 2 ^ (63 : ℤ))
    (h : 2 ^ (-74 : ℤ) ≤ a ∨ 2 ^ (-74 : ℤ) ≤ b) :
    (weight (num a) (num b)).Finite ∧ 0 ≤ (weight (num a) (num b)).val ∧ (weight (num a) (num b)).val ≤ 1 := by
  obtain ⟨hS, hA, _, hf, hv⟩ := weight_eq ha hb ha1 hb1 h
  refine ⟨hf, ?_, ?_⟩
  · rw [hv]; exact rnd32_nonneg (div_nonneg (rnd32_nonneg (mul_pos ha ha).le) hS.le)
  · rw [hv]
    have := rnd32_lt (q := rnd32 (a * a) / rnd32 (rnd32 (a * a) + rnd32 (b * b))) (k := 0) (by norm_num)
      (by rw [zpow_zero, div_le_one hS]; exact hA)
    simpa using this

/-- C150 (partial: densities up to `2^63`, one of them at least `2^(-63)`): the weights of the light sample and of the
material sample for the same direction share out the light: they add up to one within `2^(-22)`. -/
theorem C150_sum_partial {a b : ℚ} (ha : 0 < a) (hb : 0 < b) (ha1 : a ≤ 2 ^ (63 : ℤ)) (hb1 : b ≤ 2 ^ (63 : ℤ))
    (h : 2 ^ (-63 : ℤ) ≤ a ∨ 2 ^ (-63 : ℤ) ≤ b) :
    |(weight (num a) (num b)).val + (weight (num b) (num a)).val - 1| ≤ 1 / 2 ^ 22 := by
  have le : (2 : ℚ) ^ (-74 : ℤ) ≤ 2 ^ (-63 : ℤ) := zpow_le_zpow_right₀ (by norm_num) (by norm_num)
  have h' : 2 ^ (-74 : ℤ) ≤ a ∨ 2 ^ (-74 : ℤ) ≤ b := h.imp (le_trans le) (le_trans le)
  obtain ⟨hS, hA, hB, _, hv⟩ := weight_eq ha hb ha1 hb1 h'
  obtain ⟨_, _, _, _, hv'⟩ := weight_eq hb ha hb1 ha1 h'.symm
  rw [hv, hv', add_comm (rnd32 (b * b))]
  have nA := rnd32_nonneg (mul_pos ha ha).le
  have nB := rnd32_nonneg (mul_pos hb hb).le
  have lo : ∀ x : ℚ, 0 < x → 2 ^ (-63 : ℤ) ≤ x → 2 ^ (-126 : ℤ) ≤ rnd32 (x * x) := by
    intro x hx h
    apply le_rnd32 (by norm_num)
    have := mul_le_mul h h (two_zpow_pos _).le hx.le
    rwa [← zpow_add₀ (by norm_num)] at this
  have hsum : 2 ^ (-126 : ℤ) ≤ rnd32 (a * a) + rnd32 (b * b) := by
    rcases h with h | h
    · have := lo a ha h; linarith
    · have := lo b hb h; linarith
  generalize rnd32 (a * a) = A at *
  generalize rnd32 (b * b) = B at *
  have p126 := two_zpow_pos (-126)
  have hpos : 0 < A + B := lt_of_lt_of_le p126 hsum
  have eS : rnd32 (A + B) = fl (A + B) := rnd32_normal (by rwa [abs_of_pos hpos])
  have herr : |rnd32 (A + B) - (A + B)| ≤ (A + B) * (1 / 2 ^ 24) := by
    rw [eS]; have := fl_err (A + B); rwa [abs_of_pos hpos] at this
  generalize rnd32 (A + B) = S at *
  have e1 := rnd32_err (A / S)
  have e2 := rnd32_err (B / S)
  have qa : 0 ≤ A / S := div_nonneg nA hS.le
  have qb : 0 ≤ B / S := div_nonneg nB hS.le
  have tiny : (2 : ℚ) ^ (-150 : ℤ) ≤ 1 / 2 ^ 30 := by norm_num
  have m1 : ∀ q : ℚ, 0 ≤ q → max (|q| * (1 / 2 ^ 24)) ((2 : ℚ) ^ (-150 : ℤ)) ≤ q * (1 / 2 ^ 24) + 1 / 2 ^ 30 := by
    intro q hq
    rw [abs_of_nonneg hq]
    apply max_le
    · have : (0 : ℚ) ≤ 1 / 2 ^ 30 := by norm_num
      linarith
    · have : (0 : ℚ) ≤ q * (1 / 2 ^ 24) := by positivity
      linarith
  have f1 := le_trans e1 (m1 _ qa)
  have f2 := le_trans e2 (m1 _ qb)
  have hab : A / S + B / S = (A + B) / S := by rw [add_div]
  -- the quotient of the sum
  rw [abs_le] at herr f1 f2
  have hx : (A + B) / S ≤ 1 / (1 - 1 / 2 ^ 24) := by
    rw [div_le_div_iff₀ hS (by norm_num)]; linarith [herr.1]
  have hy : 1 / (1 + 1 / 2 ^ 24) ≤ (A + B) / S := by
    rw [div_le_div_iff₀ (by norm_num) hS]; linarith [herr.2]
  norm_num at hx hy f1 f2 ⊢
  rw [abs_le]
  constructor <;> linarith [f1.1, f1.2, f2.1, f2.2]

-- Densities 1 and 3: weights 1/10 and 9/10, rounded.
example : weight (num 1) (num 3) = num (13421773 / 2 ^ 27) := by decide +kernel
example : (1 : ℚ) ≤ 2 ^ (63 : ℤ) ∧ (2 : ℚ) ^ (-63 : ℤ) ≤ 1 := by norm_num
-- The shares of the two samples really depend on the density.
example : weight (num 2) (num 2) = num (1 / 2) := by decide +kernel

end Spectre.Direct
