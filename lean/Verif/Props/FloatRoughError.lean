import Verif.Props.FloatRough
import Verif.Props.FloatMicroError
import Verif.Props.Normalize

/-
Property C169, accuracy: how far the terms of the rough materials computed in binary32 are from the exact ones.
-/

namespace Spectre.FRough

open Spectre.Geom Spectre.FMat Spectre.FMicro F32

/-! ### Relative errors with ranges -/

/-- A finite number within `n` times `2^-24` of `X`, relatively, where `X` is zero or from `2^i` to `2^j`. -/
def Nf (x : F32) (X : ℚ) (n : ℕ) (i j : ℤ) : Prop := Rl x X (n / 2 ^ 24) ∧ (X = 0 ∨ 2 ^ i ≤ X) ∧ X ≤ 2 ^ j

theorem Nf.wide {x : F32} {X : ℚ} {n m : ℕ} {i j k l : ℤ} (h : Nf x X n i j) (hn : n ≤ m) (hi : k ≤ i) (hj : j ≤ l) :
    Nf x X m k l := by
  obtain ⟨⟨f, p, e⟩, a, b⟩ := h
  refine ⟨⟨f, p, e.trans (mul_le_mul_of_nonneg_right ?_ p)⟩, a.imp id fun a => (zpow_le_zpow_right₀ (by norm_num) hi).trans a,
    b.trans (zpow_le_zpow_right₀ (by norm_num) hj)⟩
  exact div_le_div_of_nonneg_right (by exact_mod_cast hn) (by norm_num)

theorem Nf.conv {x : F32} {X Y : ℚ} {n m : ℕ} {i j k l : ℤ} (h : Nf x X n i j) (e : X = Y) (hn : n ≤ m) (hi : k ≤ i) (hj : j ≤ l) :
    Nf x Y m k l := e ▸ h.wide hn hi hj

theorem nf_exact {x : F32} {i j : ℤ} (f : x.Finite) (h : x.val = 0 ∨ 2 ^ i ≤ x.val) (hj : x.val ≤ 2 ^ j) : Nf x x.val 0 i j := by
  have p : 0 ≤ x.val := h.elim (fun e => e.ge) fun h => (two_zpow_pos i).le.trans h
  exact ⟨⟨f, p, by simp⟩, h, hj⟩

theorem eps_steps (n : ℕ) (hn : n ≤ 400) : (n : ℚ) / 2 ^ 24 + (1 + n / 2 ^ 24) * (1 / 2 ^ 24) ≤ ((n + 2 : ℕ) : ℚ) / 2 ^ 24 := by
  have : (n : ℚ) ≤ 400 := by exact_mod_cast hn
  push_cast
  norm_num
  linarith

theorem range_pow {X : ℚ} {i : ℤ} (h : X = 0 ∨ 2 ^ i ≤ X) (hi : -100 ≤ i) : X = 0 ∨ 2 ^ (-100 : ℤ) ≤ X :=
  h.imp id fun h => (zpow_le_zpow_right₀ (by norm_num) hi).trans h

theorem top_pow {X : ℚ} {j : ℤ} (h : X ≤ 2 ^ j) (hj : j ≤ 100) : X ≤ 2 ^ 100 :=
  h.trans (by rw [← zpow_natCast]; exact zpow_le_zpow_right₀ (by norm_num) (by simpa using hj))

theorem Nf.nonneg {x : F32} {X : ℚ} {n : ℕ} {i j : ℤ} (h : Nf x X n i j) : 0 ≤ X := h.1.2.1

/-- A product: the two errors, one for the rounding and one for the terms of second order. -/
theorem nf_mul {x y : F32} {X Y : ℚ} {n m : ℕ} {i j k l : ℤ} (hx : Nf x X n i j) (hy : Nf y Y m k l) (hn : n ≤ 100) (hm : m ≤ 100)
    (h1 : -100 ≤ i + k) (h2 : j + l ≤ 100) : Nf (F32.mul x y) (X * Y) (n + m + 2) (i + k) (j + l) := by
  have pX := hx.nonneg
  have pY := hy.nonneg
  have r1 : X * Y = 0 ∨ 2 ^ (i + k) ≤ X * Y := by
    rcases hx.2.1 with e | a
    · left; rw [e, zero_mul]
    · rcases hy.2.1 with e | b
      · left; rw [e, mul_zero]
      · right
        rw [zpow_add₀ (by norm_num)]
        exact mul_le_mul a b (two_zpow_pos _).le pX
  have r2 : X * Y ≤ 2 ^ (j + l) := by
    rw [zpow_add₀ (by norm_num)]
    exact mul_le_mul hx.2.2 hy.2.2 pY (two_zpow_pos _).le
  have an : (n : ℚ) ≤ 100 := by exact_mod_cast hn
  have am : (m : ℚ) ≤ 100 := by exact_mod_cast hm
  have n0 : (0 : ℚ) ≤ n := Nat.cast_nonneg n
  have m0 : (0 : ℚ) ≤ m := Nat.cast_nonneg m
  have nm : (n : ℚ) * m ≤ 10000 := by nlinarith
  have nm0 : (0 : ℚ) ≤ (n : ℚ) * m := mul_nonneg n0 m0
  refine ⟨rl_mul hx.1 hy.1 (by positivity) (range_pow r1 h1) (top_pow r2 h2) ?_ ?_, r1, r2⟩
  · have e : (n : ℚ) / 2 ^ 24 + m / 2 ^ 24 + n / 2 ^ 24 * (m / 2 ^ 24) = (n + m + n * m / 2 ^ 24) / 2 ^ 24 := by ring
    rw [e]
    generalize (n : ℚ) * m = p at *
    generalize (n : ℚ) = N at *
    generalize (m : ℚ) = M at *
    norm_num only at *
    linarith
  · have e : (n : ℚ) / 2 ^ 24 + m / 2 ^ 24 + n / 2 ^ 24 * (m / 2 ^ 24) = (n + m + n * m / 2 ^ 24) / 2 ^ 24 := by ring
    rw [e]
    push_cast
    generalize (n : ℚ) * m = p at *
    generalize (n : ℚ) = N at *
    generalize (m : ℚ) = M at *
    norm_num only at *
    linarith

theorem nf_div {x y : F32} {X Y : ℚ} {n m : ℕ} {i j k l : ℤ} (hx : Nf x X n i j) (hy : Nf y Y m k l) (hY : 0 < Y)
    (hn : n ≤ 100) (hm : m ≤ 100) (h1 : -100 ≤ i - l) (h2 : j - k ≤ 100) :
    Nf (div x y) (X / Y) (n + m + 2) (i - l) (j - k) := by
  have pX := hx.nonneg
  have yk : 2 ^ k ≤ Y := hy.2.1.resolve_left hY.ne'
  have r1 : X / Y = 0 ∨ 2 ^ (i - l) ≤ X / Y := by
    rcases hx.2.1 with e | a
    · left; rw [e, zero_div]
    · right
      rw [zpow_sub₀ (by norm_num)]
      exact div_le_div₀ pX a hY hy.2.2
  have r2 : X / Y ≤ 2 ^ (j - k) := by
    rw [zpow_sub₀ (by norm_num)]
    exact div_le_div₀ (two_zpow_pos _).le hx.2.2 (two_zpow_pos _) yk
  have an : (n : ℚ) ≤ 100 := by exact_mod_cast hn
  have am : (m : ℚ) ≤ 100 := by exact_mod_cast hm
  have n0 : (0 : ℚ) ≤ n := Nat.cast_nonneg n
  have m0 : (0 : ℚ) ≤ m := Nat.cast_nonneg m
  have q : ((n : ℚ) / 2 ^ 24 + m / 2 ^ 24) / (1 - m / 2 ^ 24) ≤ (n + m + 1 / 100) / 2 ^ 24 := by
    rw [div_le_iff₀ (by norm_num; linarith)]
    have e : ((n : ℚ) + m + 1 / 100) / 2 ^ 24 * (1 - m / 2 ^ 24) =
        (n + m + 1 / 100) / 2 ^ 24 - (n + m + 1 / 100) * m / 2 ^ 48 := by ring
    rw [e]
    have : ((n : ℚ) + m + 1 / 100) * m ≤ 30000 := by nlinarith
    generalize ((n : ℚ) + m + 1 / 100) * m = p at *
    norm_num at *
    linarith
  refine ⟨rl_div hx.1 hy.1 hY (by positivity) (by positivity) (by norm_num; linarith) (range_pow r1 h1) (top_pow r2 h2) (q.trans ?_)
    ?_, r1, r2⟩
  · generalize (n : ℚ) = N at *
    generalize (m : ℚ) = M at *
    norm_num only at *
    linarith
  · refine le_trans (add_le_add q (mul_le_mul_of_nonneg_right (add_le_add le_rfl q) (by norm_num))) ?_
    push_cast
    generalize (n : ℚ) = N at *
    generalize (m : ℚ) = M at *
    norm_num only at *
    linarith

theorem nf_add {x y : F32} {X Y : ℚ} {n m : ℕ} {i j k l : ℤ} (hx : Nf x X n i j) (hy : Nf y Y m k l) (hn : n ≤ 200) (hm : m ≤ 200)
    (h0 : 0 < X + Y) (h1 : -100 ≤ min i k) (h2 : max j l + 1 ≤ 100) :
    Nf (add x y) (X + Y) (max n m + 2) (min i k) (max j l + 1) := by
  have pX := hx.nonneg
  have pY := hy.nonneg
  have r1 : 2 ^ (min i k) ≤ X + Y := by
    rcases hx.2.1 with e | a
    · rcases hy.2.1 with e' | b
      · rw [e, e', add_zero] at h0; exact absurd h0 (lt_irrefl _)
      · have := zpow_le_zpow_right₀ (show (1 : ℚ) ≤ 2 by norm_num) (min_le_right i k)
        linarith
    · have := zpow_le_zpow_right₀ (show (1 : ℚ) ≤ 2 by norm_num) (min_le_left i k)
      linarith
  have r2 : X + Y ≤ 2 ^ (max j l + 1) := by
    rw [zpow_add₀ (by norm_num), zpow_one]
    have a := zpow_le_zpow_right₀ (show (1 : ℚ) ≤ 2 by norm_num) (le_max_left j l)
    have b := zpow_le_zpow_right₀ (show (1 : ℚ) ≤ 2 by norm_num) (le_max_right j l)
    linarith [hx.2.2, hy.2.2]
  have hM : max n m ≤ 400 := by omega
  have c : ((max n m : ℕ) : ℚ) ≤ 400 := by exact_mod_cast hM
  refine ⟨rl_add (k := (max n m : ℕ) / 2 ^ 24) hx.1 hy.1 ?_ ?_ ?_ (top_pow r2 h2) ?_ (eps_steps _ hM), Or.inr r1, r2⟩
  · exact div_le_div_of_nonneg_right (by exact_mod_cast le_max_left n m) (by norm_num)
  · exact div_le_div_of_nonneg_right (by exact_mod_cast le_max_right n m) (by norm_num)
  · exact (range_pow (Or.inr r1) h1).resolve_left h0.ne'
  · generalize ((max n m : ℕ) : ℚ) = N at *
    linarith

/-- A square. -/
theorem nf_sq {x : F32} {i j : ℤ} (f : x.Finite) (h : x.val = 0 ∨ 2 ^ i ≤ |x.val|) (hj : |x.val| ≤ 2 ^ j) (h1 : -100 ≤ i + i)
    (h2 : j + j ≤ 100) : Nf (F32.mul x x) (x.val * x.val) 2 (i + i) (j + j) := by
  have r1 : x.val * x.val = 0 ∨ 2 ^ (i + i) ≤ x.val * x.val := by
    rcases h with e | a
    · left; rw [e, zero_mul]
    · right
      rw [zpow_add₀ (by norm_num), ← abs_mul_abs_self x.val]
      exact mul_le_mul a a (two_zpow_pos _).le (abs_nonneg _)
  have r2 : x.val * x.val ≤ 2 ^ (j + j) := by
    rw [zpow_add₀ (by norm_num), ← abs_mul_abs_self x.val]
    exact mul_le_mul hj hj (abs_nonneg _) (two_zpow_pos _).le
  exact ⟨rl_round (k := 0) (mul_finite f f) (mul_self_nonneg _) (range_pow r1 h1) (top_pow r2 h2) (by simp) (by norm_num)
    (by norm_num), r1, r2⟩

theorem nf_one : Nf one 1 0 0 0 := nf_exact (x := one) in_one.1 (Or.inr (by rw [one_finite.2]; norm_num)) (by rw [one_finite.2]; norm_num)

theorem nf_num {q : ℚ} {i j : ℤ} (h : 2 ^ i ≤ q) (hj : q ≤ 2 ^ j) : Nf (num q) q 0 i j :=
  nf_exact (x := num q) trivial (Or.inr h) hj

/-- A positive literal. -/
theorem nf_lit {q r : ℚ} {x : F32} {i j : ℤ} (e : x = num r) (h : |r - q| ≤ 1 / 2 ^ 24 * q) (hi : 2 ^ i ≤ q) (hj : q ≤ 2 ^ j) :
    Nf x q 1 i j := by
  rw [e]
  refine ⟨⟨trivial, (two_zpow_pos i).le.trans hi, ?_⟩, Or.inr hi, hj⟩
  rw [Nat.cast_one]; exact h

theorem nf_in {x : F32} {X : ℚ} {n : ℕ} {i j : ℤ} (h : Nf x X n i j) : |x.val - X| ≤ n / 2 ^ 24 * X := h.1.2.2

/-! ### Spec: the exact terms -/

/-- π to twenty digits. -/
def pi20 : ℚ := 3.14159265358979323846

/-- The constants of Oren and Nayar for an angle. -/
def exactA (s : ℚ) : ℚ := 1 - s ^ 2 / (2 * (s ^ 2 + 0.33))

def exactB (s : ℚ) : ℚ := 0.45 * s ^ 2 / (s ^ 2 + 0.09)

/-- The rational fit of Walter et al. -/
def exactFit (c : ℚ) : ℚ := (3.535 * c + 2.181 * c ^ 2) / (1 + 2.276 * c + 2.577 * c ^ 2)

/-- The anisotropic density of GGX for a half vector. -/
def exactAniso (ax ay x y z : ℚ) : ℚ := 1 / (pi20 * ax * ay * z ^ 4 * (1 + (x ^ 2 / ax ^ 2 + y ^ 2 / ay ^ 2) / z ^ 2) ^ 2)

/-! ### Oren-Nayar -/

/-- **C169, accuracy of the angle of Oren-Nayar.**  The roughness times 100; the code takes it for radians. -/
theorem C169_sigma_accuracy {r : F32} (h : In (1 / 2 ^ 36) 1 r) : Rl (sigma r) (100 * r.val) (4 / 2 ^ 24) := by
  have h1 := sub_one_range (h.wide (by norm_num) le_rfl)
  have h2 : In 0 0 (F32.mul (sub one r) zip) := in_mul h1.1 (show zip.Finite from trivial)
    (by rw [show zip.val = 0 from rfl, mul_zero]) (by rw [show zip.val = 0 from rfl, mul_zero]) rep0 rep0
  have v2 : (F32.mul (sub one r) zip).val = 0 := le_antisymm h2.2.2 h2.2.1
  have n2 : Nf (F32.mul (sub one r) zip) 0 0 (-36) 7 := by
    have := nf_exact (i := -36) (j := 7) h2.1 (Or.inl v2) (by rw [v2]; norm_num)
    rwa [v2] at this
  have n1 : Nf r r.val 0 (-36) 0 := nf_exact h.1 (Or.inr (le_trans (by norm_num) h.2.1)) (h.2.2.trans (by norm_num))
  have n3 := nf_mul n1 (nf_num (q := 100) (i := 6) (j := 7) (by norm_num) (by norm_num)) (by norm_num) (by norm_num) (by norm_num)
    (by norm_num)
  have p : 0 < r.val := lt_of_lt_of_le (by norm_num) h.2.1
  have n4 := nf_add n2 n3 (by norm_num) (by norm_num) (by linarith) (by norm_num) (by norm_num)
  have := (n4.conv (Y := 100 * r.val) (m := 4) (by ring) (by norm_num) le_rfl le_rfl).1
  exact_mod_cast this

/-- **C169, accuracy of the constants of Oren-Nayar.** -/
theorem C169_oren_accuracy {s : F32} (h : In (1 / 2 ^ 30) 100 s) :
    |(orenA s).val - exactA s.val| ≤ 8 * eps ∧ Rl (orenB s) (exactB s.val) (11 / 2 ^ 24) := by
  have p : 0 < s.val := lt_of_lt_of_le (by norm_num) h.2.1
  have n1 := nf_sq (i := -30) (j := 7) h.1 (Or.inr (le_trans (by norm_num) (h.2.1.trans (le_abs_self _))))
    (by rw [abs_of_pos p]; exact h.2.2.trans (by norm_num)) (by norm_num) (by norm_num)
  have l33 : Nf (lit 0.33) 0.33 1 (-2) (-1) := nf_lit (x := lit 0.33) (r := 11072963 / 33554432) (by decide +kernel)
    (by decide +kernel) (by norm_num) (by norm_num)
  have l45 : Nf (lit 0.45) 0.45 1 (-2) (-1) := nf_lit (x := lit 0.45) (r := 15099494 / 33554432) (by decide +kernel)
    (by decide +kernel) (by norm_num) (by norm_num)
  have l09 : Nf (lit 0.09) 0.09 1 (-4) (-3) := nf_lit (x := lit 0.09) (r := rnd32 0.09) (by decide +kernel)
    (by decide +kernel) (by norm_num) (by norm_num)
  have n2 : Nf two 2 0 1 1 := nf_num (q := 2) (by norm_num) (by norm_num)
  have sp : 0 < s.val * s.val := mul_pos p p
  unfold orenA orenB
  simp only
  generalize F32.mul s s = t at *
  have d1 := nf_mul n2 (nf_add n1 l33 (by norm_num) (by norm_num) (by positivity) (by norm_num) (by norm_num)) (by norm_num)
    (by norm_num) (by norm_num) (by norm_num)
  have d2 := nf_div n1 d1 (by positivity) (by norm_num) (by norm_num) (by norm_num) (by norm_num)
  have b1 := nf_mul l45 n1 (by norm_num) (by norm_num) (by norm_num) (by norm_num)
  have b2 := nf_div b1 (nf_add n1 l09 (by norm_num) (by norm_num) (by positivity) (by norm_num) (by norm_num)) (by positivity)
    (by norm_num) (by norm_num) (by norm_num) (by norm_num)
  constructor
  · have f := d2.1.1
    have e := d2.1.2.2
    have eX : exactA s.val = 1 - s.val * s.val / (2 * (s.val * s.val + 0.33)) := by unfold exactA; rw [sq]
    have hX : s.val * s.val / (2 * (s.val * s.val + 0.33)) ≤ 1 / 2 := by
      rw [div_le_iff₀ (by positivity)]; norm_num; linarith
    have X0 : 0 ≤ s.val * s.val / (2 * (s.val * s.val + 0.33)) := by positivity
    rw [eX]
    generalize s.val * s.val / (2 * (s.val * s.val + 0.33)) = X at *
    generalize div t (F32.mul two (add t (lit 0.33))) = u at *
    have e' : |u.val - X| ≤ 6 / 2 ^ 24 := e.trans (by push_cast; norm_num; linarith)
    have hu : |1 - u.val| ≤ 1 := by
      have u0 : -(1 : ℚ) / 4 ≤ 0 := by norm_num
      rw [abs_le] at e' ⊢
      constructor
      · norm_num at *; linarith
      · by_contra hn
        have hn' : u.val < 0 := by linarith
        have eu := e
        rw [abs_le] at eu
        have : X * (1 - ((2 + (0 + (max 2 1 + 2) + 2) + 2 : ℕ) : ℚ) / 2 ^ 24) ≤ u.val := by linarith [eu.1]
        have : 0 ≤ X * (1 - ((2 + (0 + (max 2 1 + 2) + 2) + 2 : ℕ) : ℚ) / 2 ^ 24) := mul_nonneg X0 (by norm_num)
        linarith
    obtain ⟨fs, vs⟩ := sub_fin one_finite.1 f (by rw [one_finite.2]; exact fin1 hu)
    rw [vs, one_finite.2]
    have := rnd_one hu
    unfold eps at *
    rw [abs_le] at *
    constructor <;> norm_num only at * <;> linarith
  · have := (b2.conv (Y := exactB s.val) (m := 11) (by unfold exactB; rw [sq]) (by norm_num) le_rfl le_rfl).1
    exact_mod_cast this

/-! ### The fit -/

/-- **C169, accuracy of the fit.**  Below the limit the fit has a relative error of at most `16*2^-24`, from it on it is one. -/
theorem C169_fit_accuracy {c : F32} (f : c.Finite) :
    (rnd32 1.6 ≤ c.val → fit c = one) ∧
    (1 / 2 ^ 36 ≤ c.val → c.val < rnd32 1.6 → Rl (fit c) (exactFit c.val) (16 / 2 ^ 24)) := by
  have t : lit 1.6 = num (rnd32 1.6) := by decide +kernel
  have tf : (lit 1.6).Finite := by rw [t]; trivial
  have tv : (lit 1.6).val = rnd32 1.6 := by rw [t]; rfl
  have tt : rnd32 1.6 ≤ 2 := by decide +kernel
  unfold fit
  rw [ge_finite f tf, tv]
  simp only [decide_eq_true_eq]
  refine ⟨fun h => if_pos h, fun h0 h1 => ?_⟩
  rw [if_neg (not_le.2 h1)]
  have p : 0 < c.val := lt_of_lt_of_le (by norm_num) h0
  have nc : Nf c c.val 0 (-36) 1 := nf_exact f (Or.inr (le_trans (by norm_num) h0)) (by rw [zpow_one]; linarith)
  have l1 : Nf (lit 3.535) 3.535 1 1 2 := nf_lit (x := lit 3.535) (r := rnd32 3.535) (by decide +kernel)
    (by decide +kernel) (by norm_num) (by norm_num)
  have l2 : Nf (lit 2.181) 2.181 1 1 2 := nf_lit (x := lit 2.181) (r := rnd32 2.181) (by decide +kernel)
    (by decide +kernel) (by norm_num) (by norm_num)
  have l3 : Nf (lit 2.276) 2.276 1 1 2 := nf_lit (x := lit 2.276) (r := rnd32 2.276) (by decide +kernel)
    (by decide +kernel) (by norm_num) (by norm_num)
  have l4 : Nf (lit 2.577) 2.577 1 1 2 := nf_lit (x := lit 2.577) (r := rnd32 2.577) (by decide +kernel)
    (by decide +kernel) (by norm_num) (by norm_num)
  have a1 := nf_mul l1 nc (by norm_num) (by norm_num) (by norm_num) (by norm_num)
  have a2 := nf_mul (nf_mul l2 nc (by norm_num) (by norm_num) (by norm_num) (by norm_num)) nc (by norm_num) (by norm_num)
    (by norm_num) (by norm_num)
  have a3 := nf_add a1 a2 (by norm_num) (by norm_num) (by positivity) (by norm_num) (by norm_num)
  have b1 := nf_mul l3 nc (by norm_num) (by norm_num) (by norm_num) (by norm_num)
  have b2 := nf_mul (nf_mul l4 nc (by norm_num) (by norm_num) (by norm_num) (by norm_num)) nc (by norm_num) (by norm_num)
    (by norm_num) (by norm_num)
  have b3 := nf_add (nf_add nf_one b1 (by norm_num) (by norm_num) (by positivity) (by norm_num) (by norm_num)) b2 (by norm_num)
    (by norm_num) (by positivity) (by norm_num) (by norm_num)
  have d := nf_div a3 b3 (by positivity) (by norm_num) (by norm_num) (by norm_num) (by norm_num)
  have := (d.conv (Y := exactFit c.val) (m := 16) (by unfold exactFit; ring_nf) (by norm_num) le_rfl le_rfl).1
  exact_mod_cast this

/-! ### Blinn -/

/-- **C169, accuracy of Blinn.**  Density and probability are `(e+2)/(2π)` times the computed power. -/
theorem C169_blinn_accuracy (pow : F32 → F32 → F32) {e z d : F32} (he : e.Finite) (h0 : e.val = 0 ∨ 1 / 2 ^ 20 ≤ e.val)
    (h1 : e.val ≤ 100000) (hp : In (1 / 2 ^ 60) 1 (pow (F32.abs z) e)) (hd : lt zip d = true) :
    Rl (blinnD pow e z) ((e.val + 2) / (2 * pi20) * (pow (F32.abs z) e).val) (7 / 2 ^ 24) ∧
    Rl (blinnPdf pow e z d) ((e.val + 2) / (2 * pi20) * (pow (F32.abs z) e).val) (7 / 2 ^ 24) := by
  have pe : 0 ≤ e.val := h0.elim (fun h => h.ge) fun h => le_trans (by norm_num) h
  have ne : Nf e e.val 0 (-20) 17 := nf_exact he (h0.imp id fun h => le_trans (by norm_num) h) (h1.trans (by norm_num))
  have n2 : Nf two 2 0 1 1 := nf_num (q := 2) (by norm_num) (by norm_num)
  have np : Nf (pow (F32.abs z) e) (pow (F32.abs z) e).val 0 (-60) 0 :=
    nf_exact hp.1 (Or.inr (le_trans (by norm_num) hp.2.1)) (hp.2.2.trans (by norm_num))
  have li : Nf invTwoPi (1 / (2 * pi20)) 1 (-3) (-2) := nf_lit (x := invTwoPi) (r := 10680707 / 67108864) (by decide +kernel)
    (by decide +kernel) (by norm_num [pi20]) (by norm_num [pi20])
  have lt' : Nf twoPi (2 * pi20) 1 2 3 := nf_lit (x := twoPi) (r := 13176795 / 2097152) (by decide +kernel)
    (by decide +kernel) (by norm_num [pi20]) (by norm_num [pi20])
  have s := nf_add ne n2 (by norm_num) (by norm_num) (by linarith) (by norm_num) (by norm_num)
  have a := nf_mul (nf_mul s li (by norm_num) (by norm_num) (by norm_num) (by norm_num)) np (by norm_num) (by norm_num)
    (by norm_num) (by norm_num)
  have b := nf_div (nf_mul s np (by norm_num) (by norm_num) (by norm_num) (by norm_num)) lt' (by norm_num [pi20]) (by norm_num)
    (by norm_num) (by norm_num) (by norm_num)
  unfold blinnD blinnPdf
  rw [if_pos hd]
  constructor
  · have := (a.conv (Y := (e.val + 2) / (2 * pi20) * (pow (F32.abs z) e).val) (m := 7) (by ring) (by norm_num) le_rfl le_rfl).1
    exact_mod_cast this
  · have := (b.conv (Y := (e.val + 2) / (2 * pi20) * (pow (F32.abs z) e).val) (m := 7) (by ring) (by norm_num) le_rfl le_rfl).1
    exact_mod_cast this

/-- **C169, accuracy of the sampled angle of Blinn.**  The exponent of the power is `1/(e+1)`. -/
theorem C169_blinn_angle_accuracy (pow : F32 → F32 → F32) {e r0 : F32} (he : e.Finite) (h0 : e.val = 0 ∨ 1 / 2 ^ 20 ≤ e.val)
    (h1 : e.val ≤ 100000) : ∃ x, (blinnAngle pow e r0).1 = pow r0 x ∧ Rl x (1 / (e.val + 1)) (4 / 2 ^ 24) := by
  have pe : 0 ≤ e.val := h0.elim (fun h => h.ge) fun h => le_trans (by norm_num) h
  have ne : Nf e e.val 0 (-20) 17 := nf_exact he (h0.imp id fun h => le_trans (by norm_num) h) (h1.trans (by norm_num))
  have s := nf_add ne nf_one (by norm_num) (by norm_num) (by linarith) (by norm_num) (by norm_num)
  have d := nf_div nf_one s (by linarith) (by norm_num) (by norm_num) (by norm_num) (by norm_num)
  refine ⟨_, rfl, ?_⟩
  have := (d.conv (Y := 1 / (e.val + 1)) (m := 4) rfl (by norm_num) le_rfl le_rfl).1
  exact_mod_cast this

/-! ### Beckmann -/

theorem neg_div_val {u t : F32} (fu : u.Finite) (ft : t.Finite) (h : t.val ≠ 0) (fd : (div u t).Finite) :
    (div (neg u) t).val = -(div u t).val := by
  have key : |rnd32 (u.val / t.val)| < 2 ^ 128 := by
    by_contra hn
    obtain ⟨s, e⟩ := round_div fu ft h
    rw [e] at fd
    unfold F32.round at fd
    have h0 : u.val / t.val ≠ 0 := by
      intro e; rw [e, rnd32_zero, abs_zero] at hn; exact hn (by norm_num)
    have h1 : rnd32 (u.val / t.val) ≠ 0 := by
      intro e; rw [e, abs_zero] at hn; exact hn (by norm_num)
    rw [if_neg h0, if_neg h1, if_pos (not_lt.1 hn)] at fd
    exact fd
  obtain ⟨fn, vn⟩ := neg_finite fu
  have e : (neg u).val / t.val = -(u.val / t.val) := by rw [vn, neg_div]
  rw [(div_finite fu ft h key).2, (div_finite fn ft h (by rw [e, rnd32_neg, abs_neg]; exact key)).2, e, rnd32_neg]

theorem Nf.range {x : F32} {X : ℚ} {n : ℕ} {i j k l : ℤ} (h : Nf x X n i j) (hk : 2 ^ k ≤ X) (hl : X ≤ 2 ^ l) : Nf x X n k l :=
  ⟨h.1, Or.inr hk, hl⟩

/-- A sum whose terms may both be zero. -/
theorem nf_add' {x y : F32} {X Y : ℚ} {n m : ℕ} {i j k l : ℤ} (hx : Nf x X n i j) (hy : Nf y Y m k l) (hn : n ≤ 200) (hm : m ≤ 200)
    (h1 : -100 ≤ min i k) (h2 : max j l + 1 ≤ 100) :
    Nf (add x y) (X + Y) (max n m + 2) (min i k) (max j l + 1) := by
  rcases eq_or_lt_of_le (add_nonneg hx.nonneg hy.nonneg) with e | e
  · have X0 : X = 0 := by linarith [hx.nonneg, hy.nonneg]
    have Y0 : Y = 0 := by linarith [hx.nonneg, hy.nonneg]
    have x0 : x.val = 0 := by
      have := hx.1.2.2
      rw [X0, mul_zero, sub_zero] at this
      exact abs_eq_zero.1 (le_antisymm this (abs_nonneg _))
    have y0 : y.val = 0 := by
      have := hy.1.2.2
      rw [Y0, mul_zero, sub_zero] at this
      exact abs_eq_zero.1 (le_antisymm this (abs_nonneg _))
    obtain ⟨f, v⟩ := add_finite hx.1.1 hy.1.1 (by rw [x0, y0, add_zero, rnd32_zero, abs_zero]; norm_num)
    rw [x0, y0, add_zero, rnd32_zero] at v
    refine ⟨⟨f, e.le, by rw [← e, v]; norm_num⟩, Or.inl e.symm, by rw [← e]; exact (two_zpow_pos _).le⟩
  · exact nf_add hx hy hn hm e h1 h2

/-- **C169, accuracy of the density of Beckmann.**  The argument of the exponential is `-(1-z^2)/(z^2 a^2)` up to
`12*2^-24/(z^2 a^2)`, and the density is the square of the exponential over `π z^4 a^2`. -/
theorem C169_beckmann_accuracy (exp : F32 → F32) {a z : F32} (ha : Rough a) (hz : In (-1) 1 z) (h0 : 1 / 2 ^ 12 ≤ |z.val|) :
    ∃ t : F32, |t.val * (z.val ^ 2 * a.val ^ 2) + (1 - z.val ^ 2)| ≤ 16 * eps ∧
      (In (1 / 2 ^ 20) 1 (exp t) → Rl (beckmannD exp a z) ((exp t).val ^ 2 / (pi20 * z.val ^ 4 * a.val ^ 2)) (20 / 2 ^ 24)) := by
  have zl : |z.val| ≤ 1 := abs_le.2 ⟨hz.2.1, hz.2.2⟩
  have pa : 0 < a.val := lt_of_lt_of_le (by norm_num) ha.2.1
  have nz : z.val ≠ 0 := by intro e; rw [e, abs_zero] at h0; norm_num at h0
  have zp : 0 < z.val * z.val := mul_self_pos.2 nz
  have ap : 0 < a.val * a.val := mul_pos pa pa
  have nc := nf_sq (i := -12) (j := 0) hz.1 (Or.inr (le_trans (by norm_num) h0)) (zl.trans (by norm_num)) (by norm_num) (by norm_num)
  have na := nf_sq (i := -10) (j := 0) ha.1 (Or.inr (le_trans (by norm_num) (ha.2.1.trans (le_abs_self _))))
    (by rw [abs_of_pos pa]; exact ha.2.2.trans (by norm_num)) (by norm_num) (by norm_num)
  have hc : In 0 1 (F32.mul z z) := sq_in hz
  have Z1 : z.val * z.val ≤ 1 := by nlinarith [hz.2.1, hz.2.2]
  have ha2 : In 0 1 (F32.mul a a) := sq_in (ha.wide (by norm_num) le_rfl)
  have cpos : 0 < (F32.mul z z).val := by
    have := nf_in nc
    have := (abs_le.1 this).1
    push_cast at this
    norm_num at this
    linarith
  have apos : 0 < (F32.mul a a).val := by
    have := nf_in na
    have := (abs_le.1 this).1
    push_cast at this
    norm_num at this
    linarith
  have lpi : Nf onePi pi20 1 1 2 := nf_lit (x := onePi) (r := 13176795 / 4194304) (by decide +kernel) (by decide +kernel)
    (by norm_num [pi20]) (by norm_num [pi20])
  have hs := sub_one_range hc
  have es : |(sub one (F32.mul z z)).val - (1 - z.val * z.val)| ≤ 3 / 2 ^ 24 := by
    have b : |1 - (F32.mul z z).val| ≤ 1 := abs_le.2 ⟨by linarith [hc.2.2], by linarith [hc.2.1]⟩
    have v := (sub_fin one_finite.1 hc.1 (by rw [one_finite.2]; exact fin1 b)).2
    rw [v, one_finite.2]
    have r := rnd_one b
    have e := nf_in nc
    unfold eps at r
    push_cast at e
    generalize rnd32 (1 - (F32.mul z z).val) = w at *
    rw [abs_le] at *
    constructor <;> norm_num only at * <;> linarith
  have e4 : z.val ^ 4 = z.val * z.val * (z.val * z.val) := by ring
  unfold beckmannD
  simp only
  rw [eq_zip hc.1, if_neg (by simpa using cpos.ne'), sq z.val, sq a.val, e4]
  generalize hgc : F32.mul z z = c at *
  generalize F32.mul a a = t at *
  generalize z.val * z.val = C at *
  generalize a.val * a.val = A at *
  have den := nf_mul (nf_mul (nf_mul lpi nc (by norm_num) (by norm_num) (by norm_num) (by norm_num)) nc (by norm_num) (by norm_num)
    (by norm_num) (by norm_num)) na (by norm_num) (by norm_num) (by norm_num) (by norm_num)
  have os : (sub one c).Ok := add_ok _ _
  have oc : c.Ok := hgc ▸ mul_ok z z
  refine ⟨div (neg (div (sub one c) c)) t, ?_, fun hx => ?_⟩
  · -- the argument
    have s0 : (sub one c).val = 0 ∨ 2 ^ (-24 : ℤ) ≤ (sub one c).val := by
      by_cases c1 : c.val = 1
      · left
        rw [(sub_fin one_finite.1 hc.1 (by rw [one_finite.2, c1]; norm_num [rnd32_zero])).2, one_finite.2, c1]
        norm_num [rnd32_zero]
      · right
        have g := r0_one oc hc c1
        have := in_sub one_finite.1 hc.1 (lo := 1 / 2 ^ 24) (hi := 1) (by rw [one_finite.2]; exact g)
          (by rw [one_finite.2]; linarith [hc.2.1]) ⟨by decide +kernel, by norm_num⟩ rep1
        exact le_trans (by norm_num) this.2.1
    have ns : Nf (sub one c) (sub one c).val 0 (-24) 0 := nf_exact hs.1 s0 (hs.2.2.trans (by norm_num))
    have d1 := nf_div ns nc zp (by norm_num) (by norm_num) (by norm_num) (by norm_num)
    have d2 := nf_div d1 na ap (by norm_num) (by norm_num) (by norm_num) (by norm_num)
    rw [neg_div_val d1.1.1 na.1.1 apos.ne' d2.1.1]
    have e := nf_in d2
    have sl := hs.2.2
    generalize (sub one c).val = s at *
    generalize (div (div (sub one c) c) t).val = w at *
    have CA : 0 < C * A := mul_pos zp ap
    have e2 : |w * (C * A) - s| ≤ 8 / 2 ^ 24 * s := by
      have : w * (C * A) - s = (w - s / C / A) * (C * A) := by field_simp
      rw [this, abs_mul, abs_of_pos CA]
      refine (mul_le_mul_of_nonneg_right e CA.le).trans (le_of_eq ?_)
      field_simp
      norm_num
      ring
    have e3 : |w * (C * A) - s| ≤ 8 / 2 ^ 24 := e2.trans (by linarith)
    have e5 : -w * (C * A) = -(w * (C * A)) := by ring
    rw [e5]
    unfold eps
    generalize w * (C * A) = W at *
    clear e2 e
    rw [abs_le] at *
    constructor <;> norm_num only at * <;> linarith
  · have nx : Nf (exp (div (neg (div (sub one c) c)) t)) (exp (div (neg (div (sub one c) c)) t)).val 0 (-20) 0 :=
      nf_exact hx.1 (Or.inr (le_trans (by norm_num) hx.2.1)) (hx.2.2.trans (by norm_num))
    have pp : (0 : ℚ) < pi20 := by norm_num [pi20]
    have d := nf_mul (nf_div nx den (by positivity) (by norm_num) (by norm_num) (by norm_num) (by norm_num)) nx (by norm_num)
      (by norm_num) (by norm_num) (by norm_num)
    have := (d.conv (m := 20) (Y := (exp (div (neg (div (sub one c) c)) t)).val ^ 2 / (pi20 * (C * C) * A)) (by ring)
      (by norm_num) le_rfl le_rfl).1
    exact_mod_cast this

/-! ### Anisotropic GGX -/

/-- **C169, accuracy of the anisotropic density.**  The relative error is at most `100*2^-24` for cosines from `2^-12` to below
one; the error of the computed sine cancels. -/
theorem C169_aniso_accuracy {ax ay : F32} {h : V3 F32} (hx : Rough ax) (hy : Rough ay) (fx : In (-1) 1 h.x) (fy : In (-1) 1 h.y)
    (x0 : h.x.val = 0 ∨ 1 / 2 ^ 12 ≤ |h.x.val|) (y0 : h.y.val = 0 ∨ 1 / 2 ^ 12 ≤ |h.y.val|) (oz : h.z.Ok) (z : In (-1) 1 h.z)
    (z0 : 1 / 2 ^ 12 ≤ |h.z.val|) (z1 : |h.z.val| < 1) :
    Rl (anisoD ax ay h) (exactAniso ax.val ay.val h.x.val h.y.val h.z.val) (100 / 2 ^ 24) := by
  have zl : |h.z.val| ≤ 1 := z1.le
  have pax : 0 < ax.val := lt_of_lt_of_le (by norm_num) hx.2.1
  have pay : 0 < ay.val := lt_of_lt_of_le (by norm_num) hy.2.1
  have nz : h.z.val ≠ 0 := by intro e; rw [e, abs_zero] at z0; norm_num at z0
  have zp : 0 < h.z.val * h.z.val := mul_self_pos.2 nz
  have nc := nf_sq (i := -12) (j := 0) z.1 (Or.inr (le_trans (by norm_num) z0)) (zl.trans (by norm_num)) (by norm_num) (by norm_num)
  have nx := nf_sq (i := -12) (j := 0) fx.1 (x0.imp id fun h => le_trans (by norm_num) h) (by
    rw [zpow_zero]; exact abs_le.2 ⟨fx.2.1, fx.2.2⟩) (by norm_num) (by norm_num)
  have ny := nf_sq (i := -12) (j := 0) fy.1 (y0.imp id fun h => le_trans (by norm_num) h) (by
    rw [zpow_zero]; exact abs_le.2 ⟨fy.2.1, fy.2.2⟩) (by norm_num) (by norm_num)
  have nax : Nf ax ax.val 0 (-10) 0 := nf_exact hx.1 (Or.inr (le_trans (by norm_num) hx.2.1)) (hx.2.2.trans (by norm_num))
  have nay : Nf ay ay.val 0 (-10) 0 := nf_exact hy.1 (Or.inr (le_trans (by norm_num) hy.2.1)) (hy.2.2.trans (by norm_num))
  have lpi : Nf invPi (1 / pi20) 1 (-2) (-1) := nf_lit (x := invPi) (r := 10680707 / 33554432) (by decide +kernel)
    (by decide +kernel) (by norm_num [pi20]) (by norm_num [pi20])
  have hc : In 0 1 (F32.mul h.z h.z) := sq_in z
  -- the computed squared sine, whatever its error
  have hs : In (1 / 2 ^ 24) 1 (fmax zip (sub one (F32.mul h.z h.z))) := by
    have g : |h.z.val| ≤ 1 - 1 / 2 ^ 24 := by
      refine gap_one ?_ z1
      have r := (ok_val oz).1
      rcases abs_choice h.z.val with e | e <;> rw [e]
      · exact r
      · rw [rnd32_neg, r]
    have c2 : h.z.val * h.z.val ≤ 1 - 1 / 2 ^ 24 := by
      rw [← abs_mul_abs_self]
      nlinarith [abs_nonneg h.z.val]
    have r24 : Rep (1 - 1 / 2 ^ 24) := ⟨by decide +kernel, by norm_num⟩
    have hs : In 0 (1 - 1 / 2 ^ 24) (F32.mul h.z h.z) := in_mul z.1 z.1 (mul_self_nonneg _) c2 rep0 r24
    have hd : In (1 / 2 ^ 24) 1 (sub one (F32.mul h.z h.z)) := in_sub one_finite.1 hs.1 (by rw [one_finite.2]; linarith [hs.2.2])
      (by rw [one_finite.2]; linarith [hs.2.1]) ⟨by decide +kernel, by norm_num⟩ rep1
    obtain ⟨hm, vm⟩ := in_fmax (show In 0 1 _ from ⟨hd.1, le_trans (by norm_num) hd.2.1, hd.2.2⟩) (by norm_num)
    exact ⟨hm.1, by rw [vm]; exact hd.2.1.trans (le_max_right _ _), hm.2.2⟩
  have ps : 0 < (fmax zip (sub one (F32.mul h.z h.z))).val := lt_of_lt_of_le (by norm_num) hs.2.1
  unfold anisoD
  simp only
  rw [eq_zip z.1, if_neg (by simpa using nz), eq_zip hs.1, if_neg (by simpa using ps.ne')]
  have eX : exactAniso ax.val ay.val h.x.val h.y.val h.z.val =
      1 / pi20 * (1 / ax.val) * (1 / ay.val) * (1 / (h.z.val * h.z.val)) * (1 / (h.z.val * h.z.val)) *
        (1 / ((1 + (h.x.val * h.x.val * (1 / (fmax zip (sub one (F32.mul h.z h.z))).val) * (1 / ax.val) * (1 / ax.val) +
          h.y.val * h.y.val * (1 / (fmax zip (sub one (F32.mul h.z h.z))).val) * (1 / ay.val) * (1 / ay.val)) *
            ((fmax zip (sub one (F32.mul h.z h.z))).val * (1 / (h.z.val * h.z.val)))) *
          (1 + (h.x.val * h.x.val * (1 / (fmax zip (sub one (F32.mul h.z h.z))).val) * (1 / ax.val) * (1 / ax.val) +
          h.y.val * h.y.val * (1 / (fmax zip (sub one (F32.mul h.z h.z))).val) * (1 / ay.val) * (1 / ay.val)) *
            ((fmax zip (sub one (F32.mul h.z h.z))).val * (1 / (h.z.val * h.z.val)))))) := by
    unfold exactAniso
    generalize (fmax zip (sub one (F32.mul h.z h.z))).val = s at *
    have e : (h.x.val * h.x.val * (1 / s) * (1 / ax.val) * (1 / ax.val) + h.y.val * h.y.val * (1 / s) * (1 / ay.val) * (1 / ay.val)) *
        (s * (1 / (h.z.val * h.z.val))) = (h.x.val ^ 2 / ax.val ^ 2 + h.y.val ^ 2 / ay.val ^ 2) / h.z.val ^ 2 := by
      field_simp
    rw [e]
    generalize (h.x.val ^ 2 / ax.val ^ 2 + h.y.val ^ 2 / ay.val ^ 2) / h.z.val ^ 2 = W
    field_simp
  rw [eX]
  have ns : Nf (fmax zip (sub one (F32.mul h.z h.z))) (fmax zip (sub one (F32.mul h.z h.z))).val 0 (-24) 0 :=
    nf_exact hs.1 (Or.inr (le_trans (by norm_num) hs.2.1)) (hs.2.2.trans (by norm_num))
  generalize hS : (fmax zip (sub one (F32.mul h.z h.z))).val = S at *
  generalize fmax zip (sub one (F32.mul h.z h.z)) = s at *
  clear eX
  generalize F32.mul h.z h.z = c at *
  generalize F32.mul h.x h.x = x2 at *
  generalize F32.mul h.y h.y = y2 at *
  generalize h.z.val * h.z.val = Z at *
  have X0 := mul_self_nonneg h.x.val
  have Y0 := mul_self_nonneg h.y.val
  generalize h.x.val * h.x.val = X at *
  generalize h.y.val * h.y.val = Y at *
  have ic := nf_div nf_one nc zp (by norm_num) (by norm_num) (by norm_num) (by norm_num)
  have is := nf_div nf_one ns ps (by norm_num) (by norm_num) (by norm_num) (by norm_num)
  have ix := nf_div nf_one nax pax (by norm_num) (by norm_num) (by norm_num) (by norm_num)
  have iy := nf_div nf_one nay pay (by norm_num) (by norm_num) (by norm_num) (by norm_num)
  have tx := nf_mul (nf_mul (nf_mul nx is (by norm_num) (by norm_num) (by norm_num) (by norm_num)) ix (by norm_num) (by norm_num)
    (by norm_num) (by norm_num)) ix (by norm_num) (by norm_num) (by norm_num) (by norm_num)
  have ty := nf_mul (nf_mul (nf_mul ny is (by norm_num) (by norm_num) (by norm_num) (by norm_num)) iy (by norm_num) (by norm_num)
    (by norm_num) (by norm_num)) iy (by norm_num) (by norm_num) (by norm_num) (by norm_num)
  have tt := nf_mul (nf_add' tx ty (by norm_num) (by norm_num) (by norm_num) (by norm_num))
    (nf_mul ns ic (by norm_num) (by norm_num) (by norm_num) (by norm_num)) (by norm_num) (by norm_num) (by norm_num) (by norm_num)
  have q1 := nf_add' nf_one tt (by norm_num) (by norm_num) (by norm_num) (by norm_num)
  have W0 := tt.nonneg
  have W1 : (X * (1 / S) * (1 / ax.val) * (1 / ax.val) + Y * (1 / S) * (1 / ay.val) * (1 / ay.val)) * (S * (1 / Z)) ≤ 2 ^ 45 := by
    have e : (X * (1 / S) * (1 / ax.val) * (1 / ax.val) + Y * (1 / S) * (1 / ay.val) * (1 / ay.val)) * (S * (1 / Z)) =
        (X * (1 / ax.val * (1 / ax.val)) + Y * (1 / ay.val * (1 / ay.val))) * (1 / Z) := by field_simp
    rw [e]
    have inv : ∀ {a : F32}, Rough a → 0 < a.val → 1 / a.val * (1 / a.val) ≤ 2 ^ 20 := fun {a} ha p => by
      have : 1 / a.val ≤ 2 ^ 10 := by
        rw [div_le_iff₀ p]
        have := ha.2.1
        norm_num at this ⊢
        linarith
      calc _ ≤ (2 : ℚ) ^ 10 * 2 ^ 10 := mul_le_mul this this (by positivity) (by norm_num)
        _ = _ := by norm_num
    have X1 : X ≤ 1 := nx.2.2.trans (by norm_num)
    have Y1 : Y ≤ 1 := ny.2.2.trans (by norm_num)
    have Z1 : 1 / Z ≤ 2 ^ 24 := by
      rw [div_le_iff₀ zp]
      have := nc.2.1.resolve_left zp.ne'
      norm_num at this ⊢
      linarith
    have a1 : X * (1 / ax.val * (1 / ax.val)) ≤ 1 * 2 ^ 20 := mul_le_mul X1 (inv hx pax) (by positivity) (by norm_num)
    have a2 : Y * (1 / ay.val * (1 / ay.val)) ≤ 1 * 2 ^ 20 := mul_le_mul Y1 (inv hy pay) (by positivity) (by norm_num)
    calc _ ≤ (2 : ℚ) ^ 21 * 2 ^ 24 := mul_le_mul (by norm_num only at *; linarith) Z1 (by positivity) (by norm_num)
      _ = _ := by norm_num
  have q1' := q1.range (k := 0) (l := 46) (by rw [zpow_zero]; linarith) (by norm_num only at *; linarith)
  have qp : 0 < 1 + (X * (1 / S) * (1 / ax.val) * (1 / ax.val) + Y * (1 / S) * (1 / ay.val) * (1 / ay.val)) * (S * (1 / Z)) := by
    linarith
  have q2 := nf_mul q1' q1' (by norm_num) (by norm_num) (by norm_num) (by norm_num)
  have q3 := nf_div nf_one q2 (mul_pos qp qp) (by norm_num) (by norm_num) (by norm_num) (by norm_num)
  have l1 := nf_mul (nf_mul (nf_mul (nf_mul lpi ix (by norm_num) (by norm_num) (by norm_num) (by norm_num)) iy (by norm_num)
    (by norm_num) (by norm_num) (by norm_num)) ic (by norm_num) (by norm_num) (by norm_num) (by norm_num)) ic (by norm_num)
    (by norm_num) (by norm_num) (by norm_num)
  have r := nf_mul l1 q3 (by norm_num) (by norm_num) (by norm_num) (by norm_num)
  have := (r.wide (m := 100) (by norm_num) le_rfl le_rfl).1
  exact_mod_cast this


/-! ### Square roots -/

/-- One rounding of a number up to `2^100`. -/
theorem rnd_near {q : ℚ} (h : |q| ≤ 2 ^ 100) : |rnd32 q| < 2 ^ 128 ∧ |rnd32 q - q| ≤ |q| * (1 / 2 ^ 24) + 2 ^ (-150 : ℤ) := by
  have e := rnd32_err' q
  refine ⟨?_, e⟩
  have t : |rnd32 q| ≤ |rnd32 q - q| + |q| := by
    have := abs_add_le (rnd32 q - q) q
    rwa [sub_add_cancel] at this
  have : (2 : ℚ) ^ (-150 : ℤ) ≤ 1 := by norm_num
  have h2 : |q| * (1 / 2 ^ 24) ≤ |q| := by
    have := abs_nonneg q
    nlinarith
  have : |rnd32 q| ≤ 2 ^ 100 + 2 ^ 100 + 1 := by linarith
  exact lt_of_le_of_lt this (by norm_num)

/-- The root of a number near `A` is a number whose square is near `A`. -/
theorem nf_sqrt {a : F32} {A : ℚ} {n : ℕ} {i j k l : ℤ} (h : Nf a A n i j) (hn : n ≤ 100) (hk : 2 * k ≤ i - 1) (hl : j + 2 ≤ 2 * l) :
    Nf (F32.sqrt a) (F32.sqrt a).val 0 k l ∧ |(F32.sqrt a).val ^ 2 - A| ≤ ((n + 4 : ℕ) : ℚ) / 2 ^ 24 * A := by
  have A0 := h.nonneg
  have e := nf_in h
  have n1 : (n : ℚ) ≤ 100 := by exact_mod_cast hn
  have n0 : (0 : ℚ) ≤ n := Nat.cast_nonneg n
  rcases h.2.1 with z | z
  · have a0 : a.val = 0 := by
      rw [z, mul_zero, sub_zero] at e
      exact abs_eq_zero.1 (le_antisymm e (abs_nonneg _))
    obtain ⟨f, -, -, v⟩ := sqrt_finite h.1.1 a0.ge
    have v0 := v a0
    refine ⟨nf_exact f (Or.inl v0) (by rw [v0]; exact (two_zpow_pos _).le), ?_⟩
    rw [v0, z]; norm_num
  · have Ap : 0 < A := lt_of_lt_of_le (two_zpow_pos i) z
    obtain ⟨e1, e2⟩ := abs_le.1 e
    have small : (n : ℚ) / 2 ^ 24 * A ≤ 1 / 2 * A := mul_le_mul_of_nonneg_right (by norm_num only; linarith) A0
    have av : A / 2 ≤ a.val := by linarith
    have ap : 0 < a.val := by linarith
    have au : a.val ≤ 3 / 2 * A := by linarith
    obtain ⟨f, -, v, -⟩ := sqrt_finite h.1.1 ap.le
    have v' := v ap
    obtain ⟨p, b1, b2⟩ := sqrt32_sq ap
    have lo : 2 ^ k ≤ sqrt32 a.val := by
      refine le_sqrt32 ap ?_
      refine (zpow_le_zpow_right₀ (show (1 : ℚ) ≤ 2 by norm_num) hk).trans ?_
      rw [zpow_sub₀ (by norm_num), zpow_one]
      linarith
    have hi : sqrt32 a.val ≤ 2 ^ l := by
      refine sqrt32_le ap (lt_of_lt_of_le ?_ (zpow_le_zpow_right₀ (show (1 : ℚ) ≤ 2 by norm_num) hl))
      rw [zpow_add₀ (by norm_num)]
      have := h.2.2
      norm_num
      linarith
    rw [← v'] at lo hi b1 b2
    refine ⟨nf_exact f (Or.inr lo) hi, ?_⟩
    generalize (F32.sqrt a).val = x at *
    have x2 : x ^ 2 ≤ 4 * A := by
      have := sq_nonneg x
      norm_num only at b1
      linarith
    have x0 := sq_nonneg x
    have d : |x ^ 2 - a.val| ≤ 7 / 2 / 2 ^ 24 * A := by
      have y : x ^ 2 ≤ 8 / 5 * A := by norm_num only at b1; linarith
      rw [abs_le]
      constructor <;> norm_num only at * <;> linarith
    have tri := abs_add_le (x ^ 2 - a.val) (a.val - A)
    rw [sub_add_sub_cancel] at tri
    refine tri.trans ?_
    push_cast
    have : ((n : ℚ) + 4) / 2 ^ 24 * A = n / 2 ^ 24 * A + 4 / 2 ^ 24 * A := by ring
    rw [this]
    generalize (n : ℚ) / 2 ^ 24 * A = E at *
    norm_num only at *
    linarith

/-- From one exact value to another that is near. -/
theorem nf_change {x : F32} {X Y : ℚ} {n m : ℕ} {i j k l : ℤ} (h : Nf x X n i j) (hY : 0 ≤ Y) (e : |X - Y| ≤ (m : ℚ) / 2 ^ 24 * Y)
    (hn : n ≤ 100) (hm : m ≤ 100) (hk : Y = 0 ∨ 2 ^ k ≤ Y) (hl : Y ≤ 2 ^ l) : Nf x Y (n + m + 1) k l := by
  refine ⟨⟨h.1.1, hY, ?_⟩, hk, hl⟩
  have e1 := nf_in h
  have tri := abs_add_le (x.val - X) (X - Y)
  rw [sub_add_sub_cancel] at tri
  have n1 : (n : ℚ) ≤ 100 := by exact_mod_cast hn
  have m1 : (m : ℚ) ≤ 100 := by exact_mod_cast hm
  have n0 : (0 : ℚ) ≤ n := Nat.cast_nonneg n
  have m0 : (0 : ℚ) ≤ m := Nat.cast_nonneg m
  have hX : X ≤ (1 + (m : ℚ) / 2 ^ 24) * Y := by linarith [(abs_le.1 e).2]
  have q : (n : ℚ) / 2 ^ 24 * X ≤ n / 2 ^ 24 * ((1 + (m : ℚ) / 2 ^ 24) * Y) := mul_le_mul_of_nonneg_left hX (by positivity)
  refine (tri.trans (add_le_add (e1.trans q) e)).trans ?_
  have nm : (n : ℚ) * m ≤ 10000 := by nlinarith
  have : (n : ℚ) / 2 ^ 24 * ((1 + (m : ℚ) / 2 ^ 24) * Y) + m / 2 ^ 24 * Y = (n + m + n * m / 2 ^ 24) / 2 ^ 24 * Y := by ring
  rw [this]
  refine mul_le_mul_of_nonneg_right ?_ hY
  push_cast
  generalize (n : ℚ) * m = p at *
  generalize (n : ℚ) = N at *
  generalize (m : ℚ) = M at *
  norm_num only at *
  linarith

/-! ### Shadowing of the anisotropic GGX -/

/-- The slope term of a direction: `1 + 2Λ` is the root of one plus this. -/
def slope (ax ay x y z : ℚ) : ℚ := (x ^ 2 * ax ^ 2 + y ^ 2 * ay ^ 2) / z ^ 2

/-- **C169, accuracy of the shadowing of the anisotropic GGX.**  `(1+2Λ)^2` is one plus the slope term up to `60*2^-24`; the error
of the computed sine cancels. -/
theorem C169_lambda_accuracy {ax ay : F32} {v : V3 F32} (hx : Rough ax) (hy : Rough ay) (fx : In (-1) 1 v.x) (fy : In (-1) 1 v.y)
    (x0 : v.x.val = 0 ∨ 1 / 2 ^ 12 ≤ |v.x.val|) (y0 : v.y.val = 0 ∨ 1 / 2 ^ 12 ≤ |v.y.val|) (oz : v.z.Ok) (z : In (-1) 1 v.z)
    (z0 : 1 / 2 ^ 12 ≤ |v.z.val|) (z1 : |v.z.val| < 1) :
    |(1 + 2 * (lambda v ax ay).val) ^ 2 - (1 + slope ax.val ay.val v.x.val v.y.val v.z.val)| ≤
      60 * eps * (1 + slope ax.val ay.val v.x.val v.y.val v.z.val) := by
  have pax : 0 < ax.val := lt_of_lt_of_le (by norm_num) hx.2.1
  have pay : 0 < ay.val := lt_of_lt_of_le (by norm_num) hy.2.1
  have nz : v.z.val ≠ 0 := by intro e; rw [e, abs_zero] at z0; norm_num at z0
  have zp : 0 < |v.z.val| := abs_pos.2 nz
  have hs := sine_in z
  have sp := sine_pos oz z z1
  have ps : 0 < (sine v.z).val := lt_of_lt_of_le (by norm_num) sp
  have ns : Nf (sine v.z) (sine v.z).val 0 (-12) 0 :=
    nf_exact hs.1 (Or.inr (le_trans (by norm_num) sp)) (hs.2.2.trans (by norm_num))
  have ns2 := nf_sq (i := -12) (j := 0) hs.1 (Or.inr (le_trans (by norm_num) (sp.trans (le_abs_self _))))
    (by rw [abs_of_pos ps, zpow_zero]; exact hs.2.2) (by norm_num) (by norm_num)
  have nx := nf_sq (i := -12) (j := 0) fx.1 (x0.imp id fun h => le_trans (by norm_num) h) (by
    rw [zpow_zero]; exact abs_le.2 ⟨fx.2.1, fx.2.2⟩) (by norm_num) (by norm_num)
  have ny := nf_sq (i := -12) (j := 0) fy.1 (y0.imp id fun h => le_trans (by norm_num) h) (by
    rw [zpow_zero]; exact abs_le.2 ⟨fy.2.1, fy.2.2⟩) (by norm_num) (by norm_num)
  have nax : Nf ax ax.val 0 (-10) 0 := nf_exact hx.1 (Or.inr (le_trans (by norm_num) hx.2.1)) (hx.2.2.trans (by norm_num))
  have nay : Nf ay ay.val 0 (-10) 0 := nf_exact hy.1 (Or.inr (le_trans (by norm_num) hy.2.1)) (hy.2.2.trans (by norm_num))
  -- the tangent
  have T1 : (sine v.z).val / |v.z.val| ≤ 2 ^ (12 : ℤ) := by
    rw [div_le_iff₀ zp]; norm_num at z0 ⊢; linarith [hs.2.2]
  have T0 : 2 ^ (-12 : ℤ) ≤ (sine v.z).val / |v.z.val| := by
    rw [le_div_iff₀ zp]; norm_num at sp ⊢; linarith
  have nt : Nf (F32.abs (div (sine v.z) v.z)) ((sine v.z).val / |v.z.val|) 2 (-12) 12 := by
    have eq : |(sine v.z).val / v.z.val| = (sine v.z).val / |v.z.val| := by rw [abs_div, abs_of_pos ps]
    refine ⟨rl_round (k := 0) (e := (sine v.z).val / |v.z.val|) (fun hf => ?_) (by positivity)
      (range_pow (Or.inr T0) (by norm_num)) (top_pow T1 (by norm_num)) (by simp) (by norm_num) (by norm_num), Or.inr T0, T1⟩
    have key : |rnd32 ((sine v.z).val / v.z.val)| = rnd32 ((sine v.z).val / |v.z.val|) := by
      rcases lt_or_gt_of_ne nz with n | n
      · have : (sine v.z).val / v.z.val = -((sine v.z).val / |v.z.val|) := by
          rw [abs_of_neg n, div_neg, neg_neg]
        rw [this, rnd32_neg, abs_neg, abs_of_nonneg (rnd32_nonneg (by positivity))]
      · rw [abs_of_pos n, abs_of_nonneg (rnd32_nonneg (by positivity))]
    obtain ⟨f, e⟩ := div_finite hs.1 z.1 nz (by rw [key]; exact lt_of_le_of_lt (le_abs_self _) hf)
    obtain ⟨fa, ea⟩ := abs_finite f
    exact ⟨fa, by rw [ea, e, key]⟩
  have tpos : 0 < (F32.abs (div (sine v.z) v.z)).val := by
    have := (abs_le.1 (nf_in nt)).1
    have : 0 < (sine v.z).val / |v.z.val| := by positivity
    push_cast at *
    norm_num only at *
    linarith
  have eS : slope ax.val ay.val v.x.val v.y.val v.z.val =
      (sine v.z).val / |v.z.val| * ((sine v.z).val / |v.z.val|) *
        (v.x.val * v.x.val / ((sine v.z).val * (sine v.z).val) * ax.val * ax.val +
          v.y.val * v.y.val / ((sine v.z).val * (sine v.z).val) * ay.val * ay.val) := by
    unfold slope
    rw [← sq_abs v.z.val]
    field_simp
  have S1 : slope ax.val ay.val v.x.val v.y.val v.z.val ≤ 2 ^ (26 : ℤ) := by
    unfold slope
    rw [← sq_abs v.z.val, div_le_iff₀ (by positivity)]
    have a1 : v.x.val ^ 2 * ax.val ^ 2 ≤ 1 := mul_le_one₀ (by rw [sq_le_one_iff_abs_le_one]; exact abs_le.2 ⟨fx.2.1, fx.2.2⟩)
      (sq_nonneg _) (pow_le_one₀ pax.le hx.2.2)
    have a2 : v.y.val ^ 2 * ay.val ^ 2 ≤ 1 := mul_le_one₀ (by rw [sq_le_one_iff_abs_le_one]; exact abs_le.2 ⟨fy.2.1, fy.2.2⟩)
      (sq_nonneg _) (pow_le_one₀ pay.le hy.2.2)
    have : (1 / 2 ^ 12) ^ 2 ≤ |v.z.val| ^ 2 := pow_le_pow_left₀ (by norm_num) z0 2
    norm_num at this ⊢
    linarith
  unfold lambda
  simp only
  have ninf : (F32.abs (div (sine v.z) v.z)).isInf = false := by
    have := nt.1.1
    generalize F32.abs (div (sine v.z) v.z) = t at *
    cases t with
    | inf s => exact this.elim
    | _ => rfl
  rw [ninf, if_neg (by simp), eq_zip nt.1.1, if_neg (by simpa using tpos.ne')]
  rw [eS] at S1 ⊢
  generalize F32.abs (div (sine v.z) v.z) = t at *
  have Tp : 0 < (sine v.z).val / |v.z.val| := by positivity
  generalize (sine v.z).val / |v.z.val| = T at *
  have sp2 : 0 < (sine v.z).val * (sine v.z).val := mul_pos ps ps
  have X0 := mul_self_nonneg v.x.val
  have Y0 := mul_self_nonneg v.y.val
  generalize F32.mul (sine v.z) (sine v.z) = s2 at *
  generalize (sine v.z).val * (sine v.z).val = S at *
  generalize F32.mul v.x v.x = x2 at *
  generalize F32.mul v.y v.y = y2 at *
  generalize v.x.val * v.x.val = X at *
  generalize v.y.val * v.y.val = Y at *
  have tx := nf_mul (nf_mul (nf_div nx ns2 sp2 (by norm_num) (by norm_num) (by norm_num) (by norm_num)) nax (by norm_num) (by norm_num)
    (by norm_num) (by norm_num)) nax (by norm_num) (by norm_num) (by norm_num) (by norm_num)
  have ty := nf_mul (nf_mul (nf_div ny ns2 sp2 (by norm_num) (by norm_num) (by norm_num) (by norm_num)) nay (by norm_num) (by norm_num)
    (by norm_num) (by norm_num)) nay (by norm_num) (by norm_num) (by norm_num) (by norm_num)
  have sum := (nf_add' tx ty (by norm_num) (by norm_num) (by norm_num) (by norm_num)).wide (m := 12) (k := -46) (l := 27) (by norm_num) (by norm_num) (by norm_num)
  generalize hP : X / S * ax.val * ax.val + Y / S * ay.val * ay.val = P at *
  obtain ⟨nal, eal⟩ := nf_sqrt (k := -24) (l := 15) sum (by norm_num) (by norm_num) (by norm_num)
  generalize F32.sqrt (add (F32.mul (F32.mul (div x2 s2) ax) ax) (F32.mul (F32.mul (div y2 s2) ay) ay)) = al at *
  have tt := nf_mul nt nt (by norm_num) (by norm_num) (by norm_num) (by norm_num)
  have w := nf_mul (nf_mul tt nal (by norm_num) (by norm_num) (by norm_num) (by norm_num)) nal (by norm_num) (by norm_num)
    (by norm_num) (by norm_num)
  have P0 := sum.nonneg
  have TP0 : 0 ≤ T * T * P := by positivity
  have near : |T * T * al.val * al.val - T * T * P| ≤ ((12 + 4 : ℕ) : ℚ) / 2 ^ 24 * (T * T * P) := by
    have : T * T * al.val * al.val - T * T * P = T * T * (al.val ^ 2 - P) := by ring
    rw [this, abs_mul, abs_of_pos (mul_pos Tp Tp)]
    refine (mul_le_mul_of_nonneg_left eal (mul_pos Tp Tp).le).trans (le_of_eq (by ring))
  have Plow : T * T * P = 0 ∨ 2 ^ (-90 : ℤ) ≤ T * T * P := by
    rcases sum.2.1 with e | e
    · left; rw [e, mul_zero]
    · right
      calc (2 : ℚ) ^ (-90 : ℤ) ≤ 2 ^ (-12 : ℤ) * 2 ^ (-12 : ℤ) * 2 ^ (-46 : ℤ) := by norm_num
        _ ≤ _ := mul_le_mul (mul_le_mul T0 T0 (two_zpow_pos _).le Tp.le) (le_trans (by norm_num) e) (two_zpow_pos _).le
            (mul_pos Tp Tp).le
  have w' := (nf_change (k := -90) (l := 26) w TP0 near (by norm_num) (by norm_num) Plow S1).wide (m := 27) (by norm_num) le_rfl le_rfl
  have q := (nf_add nf_one w' (by norm_num) (by norm_num) (by linarith) (by norm_num) (by norm_num)).wide (m := 29) (by norm_num) le_rfl le_rfl
  have q' := q.range (k := 0) (l := 28) (by rw [zpow_zero]; linarith) (by norm_num only at *; linarith)
  obtain ⟨nr, er⟩ := nf_sqrt (k := -1) (l := 15) q' (by norm_num) (by norm_num) (by norm_num)
  have r1 : AtLeast 1 (F32.sqrt (add one (F32.mul (F32.mul (F32.mul t t) al) al))) := by
    apply sqrt_atLeast_one
    have wf : AtLeast 0 (F32.mul (F32.mul (F32.mul t t) al) al) := by
      refine Or.inr ⟨w.1.1, ?_⟩
      have := (abs_le.1 (nf_in w')).1
      push_cast at this
      generalize T * T * P = Q at *
      norm_num only at *
      linarith
    have := add_atLeast in_one wf (by norm_num) (by rw [add_zero]; exact rep1)
    rwa [add_zero] at this
  generalize F32.sqrt (add one (F32.mul (F32.mul (F32.mul t t) al) al)) = r at *
  have rv : 1 ≤ r.val := by
    rcases r1 with e | ⟨-, e⟩
    · rw [e] at nr; exact nr.1.1.elim
    · exact e
  have ru : r.val ≤ 2 ^ 15 := nr.2.2.trans (by norm_num)
  -- the last two operations
  have m1 : |-1 + r.val| ≤ 2 ^ 100 := by rw [abs_of_nonneg (by linarith)]; exact le_trans (by linarith) (show (2 : ℚ) ^ 16 ≤ 2 ^ 100 by norm_num)
  obtain ⟨l1, g1⟩ := rnd_near m1
  obtain ⟨f1, v1⟩ := add_finite (show (num (-1)).Finite from trivial) nr.1.1 l1
  rw [show (num (-1)).val = -1 from rfl] at v1
  rw [← v1, abs_of_nonneg (show 0 ≤ -1 + r.val by linarith)] at g1
  generalize add (num (-1)) r = d at *
  have tiny : (2 : ℚ) ^ (-150 : ℤ) ≤ 1 / 2 ^ 60 := by norm_num
  have tp := two_zpow_pos (-150)
  have m2 : |d.val * (num (1 / 2)).val| ≤ 2 ^ 16 := by
    rw [show (num (1 / 2)).val = 1 / 2 from rfl]
    generalize (2 : ℚ) ^ (-150 : ℤ) = tn at *
    clear m1 er
    rw [abs_le] at *
    constructor <;> norm_num only at * <;> linarith
  obtain ⟨l2, g2⟩ := rnd_near (m2.trans (by norm_num))
  obtain ⟨f2, v2⟩ := mul_finite f1 (show (num (1 / 2)).Finite from trivial) l2
  rw [← v2] at g2
  rw [show (num (1 / 2)).val = 1 / 2 from rfl] at g2
  generalize F32.mul d (num (1 / 2)) = lam at *
  have dm : |d.val * (1 / 2)| ≤ r.val := by
    generalize (2 : ℚ) ^ (-150 : ℤ) = tn at *
    clear m1 m2 er g2
    rw [abs_le] at *
    constructor <;> norm_num only at * <;> linarith
  have u : |1 + 2 * lam.val - r.val| ≤ 4 / 2 ^ 24 * r.val := by
    have g2' := g2.trans (add_le_add (mul_le_mul_of_nonneg_right dm (show (0 : ℚ) ≤ 1 / 2 ^ 24 by norm_num)) le_rfl)
    generalize (2 : ℚ) ^ (-150 : ℤ) = tn at *
    clear m1 m2 er g2 dm
    rw [abs_le] at *
    constructor <;> norm_num only at * <;> linarith
  have u2 : |(1 + 2 * lam.val) ^ 2 - r.val ^ 2| ≤ 9 / 2 ^ 24 * r.val ^ 2 := by
    have e : (1 + 2 * lam.val) ^ 2 - r.val ^ 2 = (1 + 2 * lam.val - r.val) * (1 + 2 * lam.val + r.val) := by ring
    rw [e, abs_mul]
    have s : |1 + 2 * lam.val + r.val| ≤ (2 + 4 / 2 ^ 24) * r.val := by
      obtain ⟨a, b⟩ := abs_le.1 u
      rw [abs_le]
      constructor <;> norm_num only at * <;> linarith
    calc _ ≤ 4 / 2 ^ 24 * r.val * ((2 + 4 / 2 ^ 24) * r.val) := mul_le_mul u s (abs_nonneg _) (by positivity)
      _ = 4 / 2 ^ 24 * (2 + 4 / 2 ^ 24) * r.val ^ 2 := by ring
      _ ≤ _ := mul_le_mul_of_nonneg_right (by norm_num) (sq_nonneg _)
  generalize (1 + 2 * lam.val) ^ 2 = L at *
  generalize r.val ^ 2 = R at *
  generalize T * T * P = Q at *
  unfold eps
  push_cast at er
  clear g1 g2 m1 m2 u near
  norm_num only at er
  rw [abs_le] at *
  constructor <;> norm_num only at * <;> linarith

/-- **C169, accuracy of the shadowing factor.**  `1/(1+Λ(wo)+Λ(wi))` of the two computed terms. -/
theorem C169_aniso_g_accuracy {ax ay : F32} {wo wi : V3 F32} (ho : (lambda wo ax ay).Finite) (hi : (lambda wi ax ay).Finite)
    (o0 : (lambda wo ax ay).val = 0 ∨ 2 ^ (-40 : ℤ) ≤ (lambda wo ax ay).val) (o1 : (lambda wo ax ay).val ≤ 2 ^ (40 : ℤ))
    (i0 : (lambda wi ax ay).val = 0 ∨ 2 ^ (-40 : ℤ) ≤ (lambda wi ax ay).val) (i1 : (lambda wi ax ay).val ≤ 2 ^ (40 : ℤ)) :
    Rl (anisoG ax ay wo wi) (1 / (1 + (lambda wo ax ay).val + (lambda wi ax ay).val)) (6 / 2 ^ 24) := by
  have n1 := nf_exact ho o0 o1
  have n2 := nf_exact hi i0 i1
  have p1 := n1.nonneg
  have p2 := n2.nonneg
  have s1 := nf_add nf_one n1 (by norm_num) (by norm_num) (by linarith) (by norm_num) (by norm_num)
  have s2 := nf_add s1 n2 (by norm_num) (by norm_num) (by linarith) (by norm_num) (by norm_num)
  have d := nf_div nf_one s2 (by linarith) (by norm_num) (by norm_num) (by norm_num) (by norm_num)
  have := (d.wide (m := 6) (by norm_num) le_rfl le_rfl).1
  exact_mod_cast this


/-! ### Sampling -/

/-- **C169, accuracy of the exponent of Blinn.**  `2/r^2-2`, at most 100000, within `8*2^-24` of `2/r^2`. -/
theorem C169_blinn_exponent_accuracy {r : F32} (h : In (1 / 2 ^ 20) 1 r) :
    |(blinnExponent r).val - min (2 / r.val ^ 2 - 2) 100000| ≤ 8 * eps * (2 / r.val ^ 2) := by
  have p : 0 < r.val := lt_of_lt_of_le (by norm_num) h.2.1
  have n1 := nf_sq (i := -20) (j := 0) h.1 (Or.inr (le_trans (by norm_num) (h.2.1.trans (le_abs_self _))))
    (by rw [abs_of_pos p]; exact h.2.2.trans (by norm_num)) (by norm_num) (by norm_num)
  have n2 : Nf two 2 0 1 1 := nf_num (q := 2) (by norm_num) (by norm_num)
  have n3 := (nf_div n2 n1 (mul_pos p p) (by norm_num) (by norm_num) (by norm_num) (by norm_num)).wide (m := 4) (k := 1) (l := 41)
    (by norm_num) (by norm_num) (by norm_num)
  have big : 2 ≤ 2 / r.val ^ 2 := by
    rw [le_div_iff₀ (by positivity)]
    have : r.val ^ 2 ≤ 1 := pow_le_one₀ p.le h.2.2
    linarith
  rw [← sq] at n3
  have e3 := nf_in n3
  have u3 := n3.2.2
  unfold blinnExponent
  have f3 := n3.1.1
  generalize 2 / r.val ^ 2 = E at *
  generalize div two (F32.mul r r) = d at *
  have d1 : |d.val - 2| ≤ 2 ^ 100 := by
    push_cast at e3
    rw [abs_le] at *
    constructor <;> norm_num only at * <;> linarith
  obtain ⟨l1, g1⟩ := rnd_near d1
  obtain ⟨f1, v1⟩ := sub_fin f3 (show two.Finite from trivial) l1
  rw [show two.val = 2 from rfl] at v1
  rw [← v1] at g1
  generalize sub d two = x at *
  have tiny : (2 : ℚ) ^ (-150 : ℤ) ≤ 1 / 2 ^ 60 := by norm_num
  have tp := two_zpow_pos (-150)
  have key : |x.val - (E - 2)| ≤ 8 * eps * E := by
    have d2 : |d.val - 2| ≤ 2 * E := by
      clear d1 g1
      push_cast at e3
      rw [abs_le] at *
      constructor <;> norm_num only at * <;> linarith
    have g2 := g1.trans (add_le_add (mul_le_mul_of_nonneg_right d2 (show (0 : ℚ) ≤ 1 / 2 ^ 24 by norm_num)) le_rfl)
    unfold eps
    clear d1 g1 d2
    push_cast at e3
    generalize (2 : ℚ) ^ (-150 : ℤ) = tn at *
    rw [abs_le] at *
    constructor <;> norm_num only at * <;> linarith
  have e0 : 0 ≤ 8 * eps * E := by unfold eps; positivity
  unfold clamp
  rw [lt_finite f1 (show zip.Finite from trivial), lt_finite (show (num 100000).Finite from trivial) f1, show zip.val = 0 from rfl,
    show (num 100000).val = 100000 from rfl]
  simp only [decide_eq_true_eq]
  obtain ⟨k1, k2⟩ := abs_le.1 key
  rw [abs_le]
  split_ifs with h1 h2
  · rw [show zip.val = 0 from rfl]
    have : 0 ≤ min (E - 2) 100000 := le_min (by linarith) (by norm_num)
    have := min_le_left (E - 2) 100000
    constructor <;> linarith
  · rw [show (num 100000).val = 100000 from rfl]
    have a := min_le_right (E - 2) 100000
    have : 100000 - 8 * eps * E ≤ min (E - 2) 100000 := le_min (by linarith) (by linarith)
    constructor <;> linarith
  · have a := min_le_left (E - 2) 100000
    have : x.val - 8 * eps * E ≤ min (E - 2) 100000 := le_min (by linarith) (by linarith)
    constructor <;> linarith

/-- The squared roughness of the anisotropic distribution in the direction of an azimuth. -/
def exactRough (ax ay cp sp : ℚ) : ℚ := 1 / (cp ^ 2 / ax ^ 2 + sp ^ 2 / ay ^ 2)

/-- **C169, accuracy of the angle sampled from the anisotropic distribution.**  The cosine is `1/sqrt(1 + A*r/(1-r))` for the
squared roughness `A` in the direction of the azimuth. -/
theorem C169_aniso_angle_accuracy {ax ay cp sp r0 : F32} (hx : Rough ax) (hy : Rough ay) (fc : In (-1) 1 cp) (fs : In (-1) 1 sp)
    (c0 : cp.val = 0 ∨ 1 / 2 ^ 20 ≤ |cp.val|) (s0 : sp.val = 0 ∨ 1 / 2 ^ 20 ≤ |sp.val|) (hcs : cp.val ≠ 0 ∨ sp.val ≠ 0)
    (fr : In 0 (1 - 1 / 2 ^ 24) r0) (hr : r0.val = 0 ∨ 1 / 2 ^ 32 ≤ r0.val) :
    |(anisoAngle ax ay cp sp r0).1.val ^ 2 * (1 + exactRough ax.val ay.val cp.val sp.val * r0.val / (1 - r0.val)) - 1| ≤ 36 * eps := by
  have pax : 0 < ax.val := lt_of_lt_of_le (by norm_num) hx.2.1
  have pay : 0 < ay.val := lt_of_lt_of_le (by norm_num) hy.2.1
  have r1 : 0 < 1 - r0.val := lt_of_lt_of_le (by norm_num) (show 1 / 2 ^ 24 ≤ 1 - r0.val by linarith [fr.2.2])
  have nc := nf_sq (i := -20) (j := 0) fc.1 (c0.imp id fun h => le_trans (by norm_num) h) (by
    rw [zpow_zero]; exact abs_le.2 ⟨fc.2.1, fc.2.2⟩) (by norm_num) (by norm_num)
  have ns := nf_sq (i := -20) (j := 0) fs.1 (s0.imp id fun h => le_trans (by norm_num) h) (by
    rw [zpow_zero]; exact abs_le.2 ⟨fs.2.1, fs.2.2⟩) (by norm_num) (by norm_num)
  have nax := nf_sq (i := -10) (j := 0) hx.1 (Or.inr (le_trans (by norm_num) (hx.2.1.trans (le_abs_self _))))
    (by rw [abs_of_pos pax]; exact hx.2.2.trans (by norm_num)) (by norm_num) (by norm_num)
  have nay := nf_sq (i := -10) (j := 0) hy.1 (Or.inr (le_trans (by norm_num) (hy.2.1.trans (le_abs_self _))))
    (by rw [abs_of_pos pay]; exact hy.2.2.trans (by norm_num)) (by norm_num) (by norm_num)
  have nr : Nf r0 r0.val 0 (-32) 0 := nf_exact fr.1 (hr.imp id fun h => le_trans (by norm_num) h)
    (fr.2.2.trans (by norm_num))
  have nd : Nf (sub one r0) (1 - r0.val) 2 (-24) 0 := by
    refine ⟨rl_round (k := 0) (e := 1 - r0.val) (fun hf => ?_) r1.le (range_pow (i := -24) (Or.inr ?_) (by norm_num))
      (top_pow (j := 0) ?_ (by norm_num)) (by simp) (by norm_num) (by norm_num), Or.inr ?_, ?_⟩
    · have := sub_fin one_finite.1 fr.1 (by rw [one_finite.2]; exact hf)
      rwa [one_finite.2] at this
    · have := fr.2.2; norm_num at *; linarith
    · have := fr.2.1; norm_num at *; linarith
    · have := fr.2.2; norm_num at *; linarith
    · have := fr.2.1; norm_num at *; linarith
  have sum0 : 0 < cp.val * cp.val / (ax.val * ax.val) + sp.val * sp.val / (ay.val * ay.val) := by
    rcases hcs with h | h
    · have : 0 < cp.val * cp.val := mul_self_pos.2 h
      have := mul_self_nonneg sp.val
      positivity
    · have : 0 < sp.val * sp.val := mul_self_pos.2 h
      have := mul_self_nonneg cp.val
      positivity
  have nsum := nf_add (nf_div nc nax (mul_pos pax pax) (by norm_num) (by norm_num) (by norm_num) (by norm_num))
    (nf_div ns nay (mul_pos pay pay) (by norm_num) (by norm_num) (by norm_num) (by norm_num)) (by norm_num) (by norm_num) sum0
    (by norm_num) (by norm_num)
  have na := (nf_div nf_one nsum sum0 (by norm_num) (by norm_num) (by norm_num) (by norm_num)).wide (m := 10) (k := -22) (l := 40)
    (by norm_num) (by norm_num) (by norm_num)
  have eA : exactRough ax.val ay.val cp.val sp.val = 1 / (cp.val * cp.val / (ax.val * ax.val) + sp.val * sp.val / (ay.val * ay.val)) := by
    unfold exactRough; rw [sq, sq, sq, sq]
  rw [eA]
  have nt := (nf_div (nf_mul na nr (by norm_num) (by norm_num) (by norm_num) (by norm_num)) nd r1 (by norm_num) (by norm_num)
    (by norm_num) (by norm_num)).wide (m := 16) (k := -54) (l := 64) (by norm_num) (by norm_num) (by norm_num)
  generalize 1 / (cp.val * cp.val / (ax.val * ax.val) + sp.val * sp.val / (ay.val * ay.val)) * r0.val / (1 - r0.val) = T at *
  have T0 := nt.nonneg
  have nq := ((nf_add nf_one nt (by norm_num) (by norm_num) (by linarith) (by norm_num) (by norm_num)).wide (m := 18) (k := -54)
    (l := 65) (by norm_num) (by norm_num) (by norm_num)).range (k := 0) (l := 65) (by rw [zpow_zero]; linarith) (by
      have := nt.2.2; norm_num at *; linarith)
  obtain ⟨nw, ew⟩ := nf_sqrt (k := -1) (l := 34) nq (by norm_num) (by norm_num) (by norm_num)
  unfold anisoAngle
  dsimp only
  generalize F32.sqrt (add one (div (F32.mul (div one (add (div (F32.mul cp cp) (F32.mul ax ax)) (div (F32.mul sp sp) (F32.mul ay ay)))) r0)
    (sub one r0))) = w at *
  have w0 : 0 < w.val := by
    rcases nw.2.1 with h | h
    · exfalso
      rw [h] at ew
      have := (abs_le.1 ew).1
      push_cast at this
      norm_num at this
      linarith
    · exact lt_of_lt_of_le (two_zpow_pos _) h
  have ni := nf_div nf_one nw w0 (by norm_num) (by norm_num) (by norm_num) (by norm_num)
  have ei := nf_in ni
  generalize (div one w).val = c at *
  -- `c*w` is one up to two roundings, and `w^2` is `1+T` up to 22
  have h1 : |c * w.val - 1| ≤ 2 / 2 ^ 24 := by
    have e : c * w.val - 1 = (c - 1 / w.val) * w.val := by field_simp
    rw [e, abs_mul, abs_of_pos w0]
    refine (mul_le_mul_of_nonneg_right ei w0.le).trans (le_of_eq ?_)
    push_cast
    field_simp
  have h2 : |(c * w.val) ^ 2 - 1| ≤ 5 / 2 ^ 24 := by
    have e : (c * w.val) ^ 2 - 1 = (c * w.val - 1) * (c * w.val + 1) := by ring
    rw [e, abs_mul]
    have s : |c * w.val + 1| ≤ 5 / 2 := by
      rw [abs_le] at *
      constructor <;> norm_num at * <;> linarith
    calc _ ≤ 2 / 2 ^ 24 * (5 / 2) := mul_le_mul h1 s (abs_nonneg _) (by norm_num)
      _ = _ := by norm_num
  have Tp : 0 < 1 + T := by linarith
  have h3 : |w.val ^ 2 / (1 + T) - 1| ≤ 22 / 2 ^ 24 := by
    have e : w.val ^ 2 / (1 + T) - 1 = (w.val ^ 2 - (1 + T)) / (1 + T) := by field_simp
    rw [e, abs_div, abs_of_pos Tp, div_le_iff₀ Tp]
    exact ew.trans (le_of_eq (by norm_num))
  have v : c ^ 2 * (1 + T) = (c * w.val) ^ 2 / (w.val ^ 2 / (1 + T)) := by field_simp
  rw [v]
  generalize (c * w.val) ^ 2 = a at *
  generalize w.val ^ 2 / (1 + T) = b at *
  obtain ⟨b1, b2⟩ := abs_le.1 h3
  obtain ⟨a1, a2⟩ := abs_le.1 h2
  have bp : 0 < b := by norm_num at *; linarith
  unfold eps
  rw [abs_le]
  constructor
  · rw [le_sub_iff_add_le, le_div_iff₀ bp]; norm_num at *; linarith
  · rw [sub_le_iff_le_add, div_le_iff₀ bp]; norm_num at *; linarith

/-! ### Concrete inputs -/

/-- Roughness one half and a direction with cosine one half meet the hypotheses of the theorems above. -/
example : Rough (num (1 / 2)) ∧ In (1 / 2 ^ 36) 1 (num (1 / 2)) ∧ In (1 / 2 ^ 30) 100 (num 50) ∧ (num (1 / 2)).Ok ∧
    (1 : ℚ) / 2 ^ 12 ≤ |(num (1 / 2)).val| ∧ |(num (1 / 2)).val| < 1 ∧ In 0 (1 - 1 / 2 ^ 24) (num (1 / 2)) := by
  refine ⟨in_num (by norm_num) (by norm_num), in_num (by norm_num) (by norm_num), in_num (by norm_num) (by norm_num),
    ⟨by norm_num, by decide +kernel, by norm_num⟩, ?_, ?_, in_num (by norm_num) (by norm_num)⟩ <;>
  · rw [show (num (1 / 2)).val = 1 / 2 from rfl, abs_of_pos (by norm_num)]; norm_num

/-- At roughness one the anisotropic term `1 + 2Λ` of the direction (1/2, 1/2, 1/2) is the root of three, and the density of
roughness 1/2 and 1/4 there is 1/(π/8 * 1/16 * 21^2). -/
example : slope 1 1 (1 / 2) (1 / 2) (1 / 2) = 2 ∧
    exactAniso (1 / 2) (1 / 4) (1 / 2) (1 / 2) (1 / 2) = 1 / (pi20 * (1 / 8) * (1 / 16) * 21 ^ 2) ∧
    exactRough (1 / 2) (1 / 4) 1 0 = 1 / 4 ∧ exactFit 1 = 5.716 / 5.853 ∧ exactA 0 = 1 := by
  refine ⟨by norm_num [slope], ?_, by norm_num [exactRough], by norm_num [exactFit], by norm_num [exactA]⟩
  unfold exactAniso
  norm_num [pi20]

/-! ### The masking at its ends -/

theorem lambda_normal (x y ax ay : F32) : lambda ⟨x, y, one⟩ ax ay = one := by
  have e : fmax zip (sub one (F32.mul one one)) = zero false := by decide +kernel
  have s : sine one = zero false := by unfold sine; rw [e]; rfl
  unfold lambda
  dsimp only
  rw [s]
  have a : F32.abs (div (zero false) one) = zero false := by decide +kernel
  rw [a]
  rfl

theorem lambda_grazing (x y ax ay : F32) : lambda ⟨x, y, zip⟩ ax ay = zip := by
  have e : fmax zip (sub one (F32.mul zip zip)) = num 1 := by decide +kernel
  have s : sine zip = num 1 := by
    unfold sine; rw [e]
    unfold F32.sqrt
    simp only
    rw [if_neg (by norm_num), show (1 : ℚ) = 2 ^ (2 * 0 : ℤ) by norm_num, Spectre.Normalize.sqrt32_pow]
    norm_num
  unfold lambda
  dsimp only
  rw [s]
  have a : F32.abs (div (num 1) zip) = inf false := by decide +kernel
  rw [a]
  rfl

/-- **C169, violated by the masking of the anisotropic GGX at both ends**, whatever the roughness.  Along the normal, where all of
the surface is visible, it is a third; along the surface, where nothing is visible, it is one. -/
theorem C169_violated_masking (ax ay x y x' y' : F32) :
    anisoG ax ay ⟨x, y, one⟩ ⟨x', y', one⟩ = div one (num 3) ∧ (div one (num 3)).val < 34 / 100 ∧
      anisoG ax ay ⟨x, y, zip⟩ ⟨x', y', zip⟩ = one := by
  refine ⟨?_, by decide +kernel, ?_⟩
  · unfold anisoG
    rw [lambda_normal, lambda_normal]
    decide +kernel
  · unfold anisoG
    rw [lambda_grazing, lambda_grazing]
    decide +kernel

/-- **C169, Oren-Nayar, value.**  The value is the factor divided by pi, up to a relative error of `2^-22`. -/
theorem C169_oren_value_partial {A B : F32} {wo wi : V3 F32} (oA : A.Ok) (hA : In (1 / 2) 1 A) (hB : In 0 (1 / 2) B)
    (xo : In (-1) 1 wo.x) (xi : In (-1) 1 wi.x) (zo : In (-1) 1 wo.z) (zi : In (-1) 1 wi.z) {m : ℚ}
    (em : m = max (|wo.z.val|) (|wi.z.val|)) (hm : 2 ^ (-120 : ℤ) ≤ m) :
    (orenValue A B wo wi).Finite ∧
      |(orenValue A B wo wi).val * pi20 - (orenFactor A B wo wi).val| ≤ (orenFactor A B wo wi).val / 2 ^ 22 := by
  have pm : 0 < m := lt_of_lt_of_le (two_zpow_pos _) hm
  obtain ⟨f, l, u⟩ := C169_oren_partial oA hA hB xo xi zo zi em (le_trans (by norm_num) hm)
  have ip : invPi = num (10680707 / 33554432) := by decide +kernel
  have m1 : 1 / m ≤ 2 ^ 120 := by
    rw [div_le_iff₀ pm]
    have := mul_le_mul_of_nonneg_left hm (by positivity : (0 : ℚ) ≤ 2 ^ 120)
    refine le_trans ?_ this
    norm_num
  have u' : (orenFactor A B wo wi).val ≤ 2 ^ 122 := by
    refine u.trans ?_
    have := mul_le_mul (add_le_add_right m1 1) (le_refl (1 + 1 / 2 ^ 20 : ℚ)) (by norm_num) (by norm_num)
    refine this.trans (by norm_num)
  have l' : 1 / 2 ≤ (orenFactor A B wo wi).val := hA.2.1.trans l
  unfold orenValue
  rw [ip]
  generalize orenFactor A B wo wi = F at *
  have pos : 0 < F.val := by linarith
  have b : |(num (10680707 / 33554432)).val * F.val| ≤ 2 ^ (122 : ℤ) := by
    rw [show (num (10680707 / 33554432)).val = 10680707 / 33554432 from rfl, abs_of_pos (by positivity)]
    have : (2 : ℚ) ^ (122 : ℤ) = 2 ^ 122 := by norm_cast
    rw [this]
    generalize (2 : ℚ) ^ 122 = z at *
    linarith
  have r := FTri.rnd32_abs_le (by norm_num) b
  obtain ⟨g, v⟩ := mul_finite (a := num (10680707 / 33554432)) trivial f (lt_of_le_of_lt r (FTri.pow_lt128 (by norm_num)))
  refine ⟨g, ?_⟩
  have e := rnd32_rel (q := (num (10680707 / 33554432)).val * F.val) (by
    rw [show (num (10680707 / 33554432)).val = 10680707 / 33554432 from rfl, abs_of_pos (by positivity)]
    refine le_trans (by norm_num : (2 : ℚ) ^ (-126 : ℤ) ≤ 10680707 / 33554432 * (1 / 2)) ?_
    linarith)
  rw [← v, show (num (10680707 / 33554432)).val = 10680707 / 33554432 from rfl,
    abs_of_pos (by positivity : (0 : ℚ) < 10680707 / 33554432 * F.val)] at e
  generalize (F32.mul (num (10680707 / 33554432)) F).val = x at *
  generalize F.val = y at *
  obtain ⟨e1, e2⟩ := abs_le.1 e
  clear u u' m1 hm b r v em l
  rw [abs_le]
  unfold pi20
  norm_num at *
  constructor <;> linarith

example {wo wi : V3 F32} (h1 : In (-1) 1 wo.x) (h2 : In (-1) 1 wi.x) (h3 : wo.z = num (1 / 2)) (h4 : wi.z = num (1 / 4)) :
    (orenValue (num (3 / 4)) (num (1 / 4)) wo wi).Finite := by
  refine (C169_oren_value_partial (A := num (3 / 4)) (m := 1 / 2) ⟨by norm_num, by decide +kernel, by norm_num⟩ ?_ ?_ h1 h2 ?_ ?_ ?_ ?_).1
  · exact in_num (by norm_num) (by norm_num)
  · exact in_num (by norm_num) (by norm_num)
  · rw [h3]; exact in_num (by norm_num) (by norm_num)
  · rw [h4]; exact in_num (by norm_num) (by norm_num)
  · rw [h3, h4, show (num (1 / 2)).val = 1 / 2 from rfl, show (num (1 / 4)).val = 1 / 4 from rfl]; norm_num
  · norm_num

end Spectre.FRough
