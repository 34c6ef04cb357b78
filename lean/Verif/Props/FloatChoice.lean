import Verif.Model.FloatChoice
import Verif.Props.FloatTexture

/-
C178: the choice of a light and of a part of a material in binary32.
-/

namespace Spectre.FChoice

open F32

/-! ### Specification -/

/-- The index `i` belongs to the random number `r` if `r` is in `[i/n, (i+1)/n]`. -/
def Fits (r : ℚ) (n i : ℤ) : Prop := (i : ℚ) / n ≤ r ∧ r ≤ ((i : ℚ) + 1) / n

/-- It nearly does if `r` is at most `e` below that interval. -/
def Near (e r : ℚ) (n i : ℤ) : Prop := (i : ℚ) / n - e ≤ r ∧ r ≤ ((i : ℚ) + 1) / n

/-- A random number of the generator: from zero to one, the ends included. -/
def Random (r : F32) : Prop := r.Finite ∧ 0 ≤ r.val ∧ r.val ≤ 1

/-! ### The product -/

theorem slot_spec {r : F32} {n : ℤ} (hr : Random r) (n0 : 0 < n) (n1 : n ≤ 2 ^ 24) :
    slot r n = some ⌊rnd32 (r.val * n)⌋ ∧ 0 ≤ rnd32 (r.val * n) ∧ rnd32 (r.val * n) ≤ n := by
  obtain ⟨f, r0, r1⟩ := hr
  have an : |n| ≤ 2 ^ 24 := by rw [abs_of_pos n0]; exact n1
  obtain ⟨fn, vn⟩ := FTex.ofInt_spec an
  have nq : (0 : ℚ) < n := by exact_mod_cast n0
  have p0 : 0 ≤ r.val * n := mul_nonneg r0 nq.le
  have p1 : r.val * n ≤ n := mul_le_of_le_one_left nq.le r1
  have q0 := rnd32_nonneg p0
  have q1 : rnd32 (r.val * n) ≤ n := by
    exact (rnd32_mono p1).trans (FFilter.rnd_int n an).le
  have nb : (n : ℚ) ≤ 2 ^ 24 := by exact_mod_cast n1
  have ov : |rnd32 (r.val * (FTex.ofInt n).val)| < 2 ^ 128 := by
    rw [vn, abs_of_nonneg q0]
    exact lt_of_le_of_lt (q1.trans nb) (by norm_num)
  obtain ⟨fm, vm⟩ := mul_finite f fn ov
  rw [vn] at vm
  refine ⟨?_, q0, q1⟩
  unfold slot
  rw [FTex.trunc_pos fm (by rw [vm]; exact q0) (by norm_num) (by
    rw [vm]; exact lt_of_le_of_lt (q1.trans nb) (by norm_num)), vm]

/-- Where the floor of the rounded product is, the product nearly is. -/
theorem floor_near {r : ℚ} {n : ℤ} (r1 : r ≤ 1) (n0 : 0 < n) (r0 : 0 ≤ r) (i : ℤ) (h : i ≤ ⌊rnd32 (r * n)⌋) :
    (i : ℚ) / n - 1 / 2 ^ 23 ≤ r := by
  have nq : (0 : ℚ) < n := by exact_mod_cast n0
  have n1q : (1 : ℚ) ≤ n := by exact_mod_cast n0
  have p0 : 0 ≤ r * n := mul_nonneg r0 nq.le
  have p1 : r * n ≤ n := mul_le_of_le_one_left nq.le r1
  have e := (abs_le.1 (rnd32_err' (r * n))).2
  rw [abs_of_nonneg p0] at e
  have hi : (i : ℚ) ≤ rnd32 (r * n) := le_trans (by exact_mod_cast h) (Int.floor_le _)
  have t : (2 : ℚ) ^ (-150 : ℤ) ≤ 1 / 2 ^ 24 := by norm_num
  rw [sub_le_iff_le_add, div_le_iff₀ nq]
  have : (r + 1 / 2 ^ 23) * n = r * n + (1 / 2 ^ 23) * n := by ring
  rw [this]
  nlinarith

theorem floor_below {r : ℚ} {n : ℤ} (n0 : 0 < n) (i : ℤ) (hi : |i + 1| ≤ 2 ^ 24) (h : ⌊rnd32 (r * n)⌋ ≤ i) :
    r ≤ ((i : ℚ) + 1) / n := by
  have nq : (0 : ℚ) < n := by exact_mod_cast n0
  rw [le_div_iff₀ nq]
  by_contra hc
  have := rnd32_mono (not_le.1 hc).le
  have e := FFilter.rnd_int (i + 1) hi
  push_cast at e
  rw [e] at this
  have l := Int.lt_floor_add_one (rnd32 (r * n))
  have : ((⌊rnd32 (r * n)⌋ : ℤ) : ℚ) ≤ i := by exact_mod_cast h
  linarith

theorem chosen {r : F32} {n : ℤ} (hr : Random r) (n0 : 0 < n) (n1 : n ≤ 2 ^ 24) (f : ℤ → ℤ)
    (hf : ∀ i, 0 ≤ i → i ≤ n → f i = min i (n - 1)) :
    ∃ i, (slot r n).map f = some i ∧ 0 ≤ i ∧ i < n ∧ Near (1 / 2 ^ 23) r.val n i := by
  obtain ⟨e, q0, q1⟩ := slot_spec hr n0 n1
  obtain ⟨-, r0, r1⟩ := hr
  have nq : (0 : ℚ) < n := by exact_mod_cast n0
  have g0 : 0 ≤ ⌊rnd32 (r.val * n)⌋ := Int.floor_nonneg.2 q0
  have g1 : ⌊rnd32 (r.val * n)⌋ ≤ n := by
    have : ((⌊rnd32 (r.val * n)⌋ : ℤ) : ℚ) ≤ n := (Int.floor_le _).trans q1
    exact_mod_cast this
  refine ⟨min ⌊rnd32 (r.val * n)⌋ (n - 1), by rw [e, Option.map_some, hf _ g0 g1], le_min g0 (by omega), ?_, ?_, ?_⟩
  · exact lt_of_le_of_lt (min_le_right _ _) (by omega)
  · exact floor_near r1 n0 r0 _ (min_le_left _ _)
  · rcases le_total ⌊rnd32 (r.val * n)⌋ (n - 1) with h | h
    · rw [min_eq_left h]
      exact floor_below n0 _ (by rw [abs_of_nonneg (by omega)]; omega) le_rfl
    · rw [min_eq_right h]
      push_cast
      rw [sub_add_cancel, div_self nq.ne']
      exact r1

/-- **C178, lights.**  For every random number from 0 to 1, also 1 itself, and every number of lights from 1 to `2^24`, the
conversion is defined, the index is that of a light, and the number is in the interval of the light or at most `2^-23` below. -/
theorem C178_light {r : F32} {n : ℤ} (hr : Random r) (n0 : 0 < n) (n1 : n ≤ 2 ^ 24) :
    ∃ i, light r n = some i ∧ 0 ≤ i ∧ i < n ∧ Near (1 / 2 ^ 23) r.val n i :=
  chosen hr n0 n1 _ fun i _ _ => by
    rcases lt_or_ge i (n - 1) with h | h
    · rw [if_pos h, min_eq_left h.le]
    · rw [if_neg (not_lt.2 h), min_eq_right h]

/-- **C178, parts of a material.** -/
theorem C178_part {r : F32} {n : ℤ} (hr : Random r) (n0 : 0 < n) (n1 : n ≤ 2 ^ 24) :
    ∃ i, part r n = some i ∧ 0 ≤ i ∧ i < n ∧ Near (1 / 2 ^ 23) r.val n i :=
  chosen hr n0 n1 _ fun i _ h => by
    by_cases e : i = n
    · rw [if_pos e, e, min_eq_right (by omega)]
    · rw [if_neg e, min_eq_left (by omega)]

/-- **C178, the intervals are not exact.**  Of six lights the sixth is chosen for a number below 5/6: the product is rounded
up to 5. -/
theorem C178_inexact : ¬ ∀ (r : F32) (n i : ℤ), Random r → 0 < n → n ≤ 2 ^ 24 → light r n = some i → Fits r.val n i := by
  intro h
  have hl : light (num (13981013 / 2 ^ 24)) 6 = some 5 := by decide +kernel
  have := (h (num (13981013 / 2 ^ 24)) 6 5 ⟨trivial, by norm_num [F32.val], by norm_num [F32.val]⟩ (by norm_num) (by norm_num) hl).1
  norm_num [F32.val] at this

/-! ### The hypotheses are met -/

theorem one_random : Random (num 1) := ⟨trivial, by norm_num [F32.val], by norm_num [F32.val]⟩
theorem third_random : Random (num (11184811 / 2 ^ 25)) := ⟨trivial, by norm_num [F32.val], by norm_num [F32.val]⟩

example := C178_light one_random (n := 7) (by norm_num) (by norm_num)
example := C178_part third_random (n := 3) (by norm_num) (by norm_num)
example : light (num 1) 7 = some 6 ∧ part (num 1) 7 = some 6 ∧ light (num (11184811 / 2 ^ 25)) 3 = some 1 := by decide +kernel

end Spectre.FChoice
