import Verif.Model.Integrator
import Mathlib.MeasureTheory.Integral.IntervalIntegral.Basic
import Mathlib.Tactic.Linarith
import Mathlib.Tactic.NormNum
import Mathlib.Tactic.FieldSimp

/-
Properties C34 (Russian roulette), C35 (direct light accounts for all lights), C36 (emission counted once),
C37 (the occlusion cache changes no answer).

The expected value over a random number uniform in [0, 1] is the integral over the unit interval.
-/

namespace Spectre.Integrator

open MeasureTheory

/-! ### C34 -/

/-- Specification: the radiance carried by a path when no path is ended by the roulette (all factors `f`
multiplied, emission and direct light of each vertex added), up to `bounces`. -/
noncomputable def plain : Nat → ℝ → Bool → List (Vertex ℝ) → ℝ
  | _, _, _, [] => 0
  | n, power, lastSpec, v :: rest =>
    (if n = 0 ∨ lastSpec = true then power * v.emission else 0) + power * directL v +
      (if n = bounces then 0
       else match v.next with
        | none => 0
        | some (f, spec) => plain (n + 1) (power * f) spec rest)

/-- The expected value of `l_rec` for any survival weight: at the fifth vertex the rest of the path is
multiplied by the probability of survival and by the weight. -/
noncomputable def expected (weight : ℝ → ℝ) : Nat → ℝ → Bool → List (Vertex ℝ) → ℝ
  | _, _, _, [] => 0
  | n, power, lastSpec, v :: rest =>
    (if n = 0 ∨ lastSpec = true then power * v.emission else 0) + power * directL v +
      (if n = bounces then 0
       else match v.next with
        | none => 0
        | some (f, spec) =>
          let term := min power (1 / 2)
          expected weight (n + 1) (power * (f * (if n = 4 then (1 - term) * weight term else 1))) spec rest)

/-- The statement of C34: the expected radiance is that of the complete path. -/
def Unbiased (weight : ℝ → ℝ) : Prop :=
  ∀ vs : List (Vertex ℝ), (∀ v ∈ vs, ∀ f s, v.next = some (f, s) → 0 ≤ f) →
    ∫ r in (0 : ℝ)..1, lRec weight 0 1 false (vs.map fun v => (v, r)) = plain 0 1 false vs

theorem integral_two (t A B : ℝ) (h0 : 0 ≤ t) (h1 : t ≤ 1) :
    ∫ r in (0 : ℝ)..1, (if r < t then A else B) = t * A + (1 - t) * B := by
  have e1 : ∫ r in (0 : ℝ)..t, (if r < t then A else B) = ∫ _ in (0 : ℝ)..t, A := by
    apply intervalIntegral.integral_congr_Ioo_of_le h0
    intro r hr
    simp only [if_pos hr.2]
  have e2 : ∫ r in t..1, (if r < t then A else B) = ∫ _ in t..1, B := by
    apply intervalIntegral.integral_congr_Ioo_of_le h1
    intro r hr
    simp only [if_neg (not_lt.2 hr.1.le)]
  have i1 : IntervalIntegrable (fun r => if r < t then A else B) volume 0 t := by
    refine IntervalIntegrable.congr_uIoo (f := fun _ => A) intervalIntegrable_const ?_
    intro r hr
    rw [Set.uIoo_of_le h0] at hr
    simp only [if_pos hr.2]
  have i2 : IntervalIntegrable (fun r => if r < t then A else B) volume t 1 := by
    refine IntervalIntegrable.congr_uIoo (f := fun _ => B) intervalIntegrable_const ?_
    intro r hr
    rw [Set.uIoo_of_le h1] at hr
    simp only [if_neg (not_lt.2 hr.1.le)]
  rw [← intervalIntegral.integral_add_adjacent_intervals i1 i2, e1, e2]
  simp

/-- Value of the last vertex. -/
noncomputable def five (power : ℝ) (lastSpec : Bool) : List (Vertex ℝ) → ℝ
  | [] => 0
  | v :: _ => (if lastSpec = true then power * v.emission else 0) + power * directL v

theorem lRec_five (w : ℝ → ℝ) (p : ℝ) (ls : Bool) (vs : List (Vertex ℝ)) (r : ℝ) :
    lRec w 5 p ls (vs.map fun v => (v, r)) = five p ls vs := by
  cases vs with
  | nil => rfl
  | cons v vs => simp [lRec, five, bounces]

theorem expected_five (w : ℝ → ℝ) (p : ℝ) (ls : Bool) (vs : List (Vertex ℝ)) :
    expected w 5 p ls vs = five p ls vs := by
  cases vs with
  | nil => rfl
  | cons v vs => simp [expected, five, bounces]

theorem plain_five (p : ℝ) (ls : Bool) (vs : List (Vertex ℝ)) : plain 5 p ls vs = five p ls vs := by
  cases vs with
  | nil => rfl
  | cons v vs => simp [plain, five, bounces]

theorem five_smul (a p : ℝ) (ls : Bool) (vs : List (Vertex ℝ)) : five (a * p) ls vs = a * five p ls vs := by
  cases vs with
  | nil => simp [five]
  | cons v vs =>
    simp only [five]
    cases ls
    · simp [mul_assoc]
    · simp; ring

/-- As a function of the random number, `l_rec` has two values. -/
theorem lRec_two (w : ℝ → ℝ) (vs : List (Vertex ℝ)) (n : Nat) (p : ℝ) (ls : Bool) (hn : n ≤ 5) (hp : 0 ≤ p)
    (hf : ∀ v ∈ vs, ∀ f s, v.next = some (f, s) → 0 ≤ f) :
    ∃ t A B : ℝ, 0 ≤ t ∧ t ≤ 1 ∧
      (∀ r, lRec w n p ls (vs.map fun v => (v, r)) = if r < t then A else B) ∧
      t * A + (1 - t) * B = expected w n p ls vs := by
  induction vs generalizing n p ls with
  | nil => exact ⟨0, 0, 0, le_rfl, zero_le_one, fun r => by simp [lRec], by simp [expected]⟩
  | cons v vs ih =>
    by_cases h5 : n = 5
    · subst h5
      refine ⟨0, five p ls (v :: vs), five p ls (v :: vs), le_rfl, zero_le_one, fun r => ?_, ?_⟩
      · rw [lRec_five]; simp
      · rw [expected_five]; ring
    · have hb : n ≠ bounces := h5
      generalize hret : (if n = 0 ∨ ls = true then p * v.emission else 0) + p * directL v = ret
      by_cases h4 : n = 4
      · have ht0 : 0 ≤ min p (1 / 2) := le_min hp (by norm_num)
        have ht1 : min p (1 / 2) ≤ 1 := (min_le_right _ _).trans (by norm_num)
        cases hnext : v.next with
        | none =>
          refine ⟨0, ret, ret, le_rfl, zero_le_one, fun r => ?_, ?_⟩
          · simp [lRec, hret, hnext]
          · simp only [expected, hret, hnext]; simp
        | some fs =>
          obtain ⟨f, s⟩ := fs
          refine ⟨min p (1 / 2), ret, ret + five (p * (f * w (min p (1 / 2)))) s vs, ht0, ht1, fun r => ?_, ?_⟩
          · have e := lRec_five w (p * (f * w (min p (1 / 2)))) s vs r
            simp only [List.map_cons, lRec, hret, hnext]
            subst h4
            by_cases hr : r < min p (1 / 2)
            · rw [if_pos ⟨by norm_num, hr⟩, if_pos hr]
            · rw [if_neg (fun h => hr h.2), if_neg hr, if_neg hb, if_pos (by norm_num)]
              rw [e]
          · subst h4
            have e := expected_five w (p * (f * ((1 - min p (1 / 2)) * w (min p (1 / 2))))) s vs
            simp only [expected, hret, hnext, if_neg hb, if_true]
            rw [e, show p * (f * ((1 - min p (1 / 2)) * w (min p (1 / 2)))) =
              (1 - min p (1 / 2)) * (p * (f * w (min p (1 / 2)))) by ring, five_smul (1 - min p (1 / 2))]
            ring
      · have h3 : ¬ 3 < n := by omega
        cases hnext : v.next with
        | none =>
          refine ⟨0, ret, ret, le_rfl, zero_le_one, fun r => ?_, ?_⟩
          · simp [lRec, hret, hnext]
          · simp only [expected, hret, hnext]; simp
        | some fs =>
          obtain ⟨f, s⟩ := fs
          have hf0 : 0 ≤ f := hf v (by simp) f s hnext
          obtain ⟨t, A, B, h0, h1, h2, h3'⟩ := ih (n + 1) (p * (f * 1)) s (by omega)
            (by rw [mul_one]; exact mul_nonneg hp hf0) (fun v hv => hf v (List.mem_cons_of_mem _ hv))
          refine ⟨t, ret + A, ret + B, h0, h1, fun r => ?_, ?_⟩
          · simp only [List.map_cons, lRec, hret, hnext]
            rw [if_neg (fun h => h3 h.1), if_neg hb, if_neg h3, h2]
            split <;> rfl
          · simp only [expected, hret, hnext, if_neg hb, if_neg h4]
            rw [← h3']
            ring

/-- The expected value of the estimator, for any survival weight. -/
theorem C34_expected_value (w : ℝ → ℝ) (vs : List (Vertex ℝ))
    (hf : ∀ v ∈ vs, ∀ f s, v.next = some (f, s) → 0 ≤ f) :
    ∫ r in (0 : ℝ)..1, lRec w 0 1 false (vs.map fun v => (v, r)) = expected w 0 1 false vs := by
  obtain ⟨t, A, B, h0, h1, h2, h3⟩ := lRec_two w vs 0 1 false (by omega) zero_le_one hf
  rw [← h3, ← integral_two t A B h0 h1]
  congr 1
  funext r
  exact h2 r

/-- **C34 is violated** by the weight of the code: for a path of six vertices of which only the last one
sees light, the expected radiance is a quarter of the right one. -/
theorem C34_violated : ¬ Unbiased id := by
  intro h
  let dark : Vertex ℝ := ⟨0, 0, some (1, false)⟩
  have := h [dark, dark, dark, dark, dark, ⟨0, 1, none⟩] (by
    intro v hv f s hs
    simp only [List.mem_cons, List.not_mem_nil, or_false] at hv
    rcases hv with rfl | rfl | rfl | rfl | rfl | rfl
    all_goals first
      | (simp only [dark, Option.some.injEq, Prod.mk.injEq] at hs; rw [← hs.1]; norm_num)
      | simp at hs)
  rw [C34_expected_value] at this
  · norm_num [expected, plain, dark, directL, bounces] at this
  · intro v hv f s hs
    simp only [List.mem_cons, List.not_mem_nil, or_false] at hv
    rcases hv with rfl | rfl | rfl | rfl | rfl | rfl
    all_goals first
      | (simp only [dark, Option.some.injEq, Prod.mk.injEq] at hs; rw [← hs.1]; norm_num)
      | simp at hs

/-- Which weights are unbiased: those whose product with the survival probability is one. -/
theorem C34_weight (w : ℝ → ℝ) (hw : ∀ t, 0 ≤ t → t ≤ 1 / 2 → (1 - t) * w t = 1) : Unbiased w := by
  intro vs hf
  rw [C34_expected_value w vs hf]
  have : ∀ (vs : List (Vertex ℝ)) (n : Nat) (p : ℝ) (ls : Bool), 0 ≤ p →
      (∀ v ∈ vs, ∀ f s, v.next = some (f, s) → 0 ≤ f) → expected w n p ls vs = plain n p ls vs := by
    intro vs
    induction vs with
    | nil => intro n p ls _ _; rfl
    | cons v vs ih =>
      intro n p ls hp hf
      simp only [expected, plain]
      congr 1
      split
      · rfl
      · cases hnext : v.next with
        | none => rfl
        | some fs =>
          obtain ⟨f, s⟩ := fs
          have hf0 := hf v (by simp) f s hnext
          simp only
          have hk : (if n = 4 then (1 - min p (1 / 2)) * w (min p (1 / 2)) else 1) = 1 := by
            split
            · exact hw _ (le_min hp (by norm_num)) (min_le_right _ _)
            · rfl
          rw [hk, mul_one]
          exact ih _ _ _ (mul_nonneg hp hf0) (fun v hv => hf v (List.mem_cons_of_mem _ hv))
  exact this vs 0 1 false zero_le_one hf

/-- **C34**, the part that holds: paths of at most five vertices (on which the roulette has no effect) are
unbiased.  For longer ones the rest of the path is multiplied by `term * (1 - term)`, at most a quarter
(`C34_expected_value`), instead of one. -/
theorem C34_short_paths_partial (vs : List (Vertex ℝ)) (h5 : vs.length ≤ 5)
    (hf : ∀ v ∈ vs, ∀ f s, v.next = some (f, s) → 0 ≤ f) :
    ∫ r in (0 : ℝ)..1, radiance (vs.map fun v => (v, r)) = plain 0 1 false vs := by
  unfold radiance
  rw [C34_expected_value id vs hf]
  have : ∀ (vs : List (Vertex ℝ)) (n : Nat) (p : ℝ) (ls : Bool), n + vs.length ≤ 5 →
      expected id n p ls vs = plain n p ls vs := by
    intro vs
    induction vs with
    | nil => intro n p ls _; rfl
    | cons v vs ih =>
      intro n p ls hl
      simp only [List.length_cons] at hl
      simp only [expected, plain]
      congr 1
      split
      · rfl
      · cases hnext : v.next with
        | none => rfl
        | some fs =>
          obtain ⟨f, s⟩ := fs
          simp only
          by_cases h4 : n = 4
          · have : vs = [] := List.length_eq_zero_iff.1 (by omega)
            subst this
            rfl
          · rw [if_neg h4, mul_one]
            exact ih _ _ _ (by omega)
  exact this vs 0 1 false (by simpa using h5)

/-- The loss: the factor of the code is at most a quarter. -/
theorem C34_factor (t : ℝ) : (1 - t) * id t ≤ 1 / 4 := by
  simp only [id]
  nlinarith [sq_nonneg (t - 1 / 2)]

/-- A weight as the comment of the code would have it ("cut down contribution") that is right. -/
example : Unbiased fun t => 1 / (1 - t) := by
  apply C34_weight
  intro t _ h
  have : 1 - t ≠ 0 := by linarith
  field_simp

/-! ### C36 -/

/-- **C36**: how often the emission of the vertex is in the radiance of the path: the value is affine in
the emission of the first vertex, with this factor. -/
theorem emission_factor (K : Type) [Field K] [LinearOrder K] [IsStrictOrderedRing K] (w : K → K) (n : Nat)
    (p : K) (ls : Bool) (v : Vertex K) (r : K) (rest : List (Vertex K × K)) :
    lRec w n p ls ((v, r) :: rest) = p * v.emission * (if n = 0 ∨ ls = true then 2 else 1) +
      lRec w n p ls (({ v with emission := 0 }, r) :: rest) := by
  simp only [lRec, directL]
  have : ∀ a b : K, (if n = 0 ∨ ls = true then p * v.emission else 0) + p * (v.emission + a) + b =
      p * v.emission * (if n = 0 ∨ ls = true then 2 else 1) +
        ((if n = 0 ∨ ls = true then p * 0 else 0) + p * (0 + a) + b) := by
    intro a b
    split <;> ring
  split
  · have := this v.sampled 0
    simpa using this
  · split
    · have := this v.sampled 0
      simpa using this
    · cases v.next with
      | none =>
        have := this v.sampled 0
        simpa using this
      | some fs =>
        simp only
        exact this v.sampled _

/-- **C36 is violated**: the emission of a light seen by a camera ray is counted twice, for all lights,
all scenes and all random numbers. -/
theorem C36_violated_always (K : Type) [Field K] [LinearOrder K] [IsStrictOrderedRing K] (v : Vertex K) (r : K)
    (rest : List (Vertex K × K)) :
    radiance ((v, r) :: rest) = 2 * v.emission + radiance (({ v with emission := 0 }, r) :: rest) := by
  unfold radiance
  rw [emission_factor]
  simp
  ring

/-- **C36 is violated**, as a refutation of the property: emission exactly once. -/
theorem C36_violated :
    ¬ ∀ (v : Vertex ℚ) (r : ℚ) (rest : List (Vertex ℚ × ℚ)),
      radiance ((v, r) :: rest) = v.emission + radiance (({ v with emission := 0 }, r) :: rest) := by
  intro h
  have h1 := h ⟨1, 0, none⟩ 0 []
  rw [C36_violated_always] at h1
  norm_num at h1

/-- **C36**, the part that holds: at the other vertices of the path, unless reached by a specular bounce,
the emission is added once. -/
theorem C36_indirect_partial (K : Type) [Field K] [LinearOrder K] [IsStrictOrderedRing K] (w : K → K) (n : Nat)
    (hn : n ≠ 0) (p : K) (v : Vertex K) (r : K) (rest : List (Vertex K × K)) :
    lRec w n p false ((v, r) :: rest) =
      p * v.emission + lRec w n p false (({ v with emission := 0 }, r) :: rest) := by
  rw [emission_factor, if_neg (by simp [hn]), mul_one]

/-- A path of two vertices: a lamp seen through a mirror, counted twice at both vertices. -/
example : radiance ([(⟨1, 0, some (1, true)⟩, 0), (⟨1, 0, none⟩, 0)] : List (Vertex ℚ × ℚ)) = 4 := by
  decide +kernel

/-! ### C35 -/

/-- **C35**, safety: a light of the scene is chosen, also for the random number one. -/
theorem C35_in_range {K : Type} [Field K] [LinearOrder K] [IsStrictOrderedRing K] [FloorRing K] (n : Nat)
    (hn : 0 < n) (r : K) (h0 : 0 ≤ r) : 0 ≤ chooseLight n r ∧ chooseLight n r < n := by
  unfold chooseLight
  have : 0 ≤ ⌊r * (n : K)⌋ := Int.floor_nonneg.2 (mul_nonneg h0 (by exact_mod_cast hn.le))
  constructor
  · exact le_min this (by omega)
  · exact (min_le_right _ _).trans_lt (by omega)

/-- Light `i` is chosen exactly for the numbers in `[i/n, (i+1)/n)`. -/
theorem C35_uniform {K : Type} [Field K] [LinearOrder K] [IsStrictOrderedRing K] [FloorRing K] (n : Nat)
    (hn : 0 < n) (r : K) (i : Nat) (h1 : (i : K) / n ≤ r) (h2 : r < ((i : K) + 1) / n) (hi : i < n) :
    chooseLight n r = i := by
  have hn' : (0 : K) < n := by exact_mod_cast hn
  rw [div_le_iff₀ hn'] at h1
  rw [lt_div_iff₀ hn'] at h2
  have : ⌊r * (n : K)⌋ = (i : Int) := by
    rw [Int.floor_eq_iff]
    exact ⟨by exact_mod_cast h1, by exact_mod_cast h2⟩
  unfold chooseLight
  rw [this]
  omega

/-- The expected direct light is the *mean* of the contributions. -/
theorem C35_expected (n : Nat) (hn : 0 < n) (c : Int → ℝ) :
    ∫ r in (0 : ℝ)..1, directOne n c r = (∑ i ∈ Finset.range n, c i) / n := by
  have hn' : (0 : ℝ) < n := by exact_mod_cast hn
  have hpiece : ∀ k, k < n → Set.EqOn (fun _ => c k) (fun r => directOne n c r)
      (Set.Ioo ((k : ℝ) / n) (((k + 1 : ℕ) : ℝ) / n)) := by
    intro k hk r hr
    simp only [directOne, if_pos hn]
    rw [C35_uniform n hn r k hr.1.le (by have := hr.2; push_cast at this; exact this) hk]
  have hle : ∀ k : ℕ, (k : ℝ) / n ≤ ((k + 1 : ℕ) : ℝ) / n := by
    intro k
    push_cast
    exact div_le_div_of_nonneg_right (by linarith) hn'.le
  have hint : ∀ k < n, IntervalIntegrable (fun r => directOne n c r) volume ((k : ℝ) / n)
      (((k + 1 : ℕ) : ℝ) / n) := by
    intro k hk
    refine IntervalIntegrable.congr_uIoo (f := fun _ => c k) intervalIntegrable_const ?_
    rw [Set.uIoo_of_le (hle k)]
    exact hpiece k hk
  have hsum := intervalIntegral.sum_integral_adjacent_intervals (a := fun k : ℕ => (k : ℝ) / n) (n := n) hint
  simp only [Nat.cast_zero, zero_div, div_self hn'.ne'] at hsum
  rw [← hsum, Finset.sum_div]
  apply Finset.sum_congr rfl
  intro k hk
  rw [Finset.mem_range] at hk
  rw [← intervalIntegral.integral_congr_Ioo_of_le (hle k) (hpiece k hk), intervalIntegral.integral_const]
  push_cast
  rw [smul_eq_mul, ← sub_div]
  ring

/-- The statement of C35. -/
def AllLights (n : Nat) (c : Int → ℝ) : Prop :=
  ∫ r in (0 : ℝ)..1, directOne n c r = ∑ i ∈ Finset.range n, c i

/-- **C35 is violated**: with two lights the expected direct light is half of the right one. -/
theorem C35_violated : ¬ ∀ (n : Nat) (c : Int → ℝ), AllLights n c := by
  intro h
  have := h 2 fun _ => 1
  unfold AllLights at this
  rw [C35_expected 2 (by norm_num)] at this
  norm_num at this

/-- **C35**, exactly when it holds: with at most one light, or if the sum of the contributions is zero. -/
theorem C35_iff_partial (n : Nat) (c : Int → ℝ) :
    AllLights n c ↔ n ≤ 1 ∨ ∑ i ∈ Finset.range n, c i = 0 := by
  unfold AllLights
  rcases Nat.eq_zero_or_pos n with h0 | h0
  · subst h0
    simp [directOne]
  · rw [C35_expected n h0]
    have hn' : (0 : ℝ) < n := by exact_mod_cast h0
    generalize ∑ i ∈ Finset.range n, c i = s
    rw [div_eq_iff hn'.ne']
    constructor
    · intro h
      by_cases hs : s = 0
      · exact Or.inr hs
      · left
        have : s * (n - 1 : ℝ) = 0 := by linarith
        rcases mul_eq_zero.1 this with h | h
        · exact absurd h hs
        · have : (n : ℝ) = 1 := by linarith
          have : n = 1 := by exact_mod_cast this
          omega
    · rintro (h | h)
      · have : n = 1 := by omega
        subst this
        simp
      · rw [h]; simp

/-! ### C37 -/

section
variable {K : Type} [Field K] [LinearOrder K] [IsStrictOrderedRing K] {R : Type}

/-- Specification: some asset of the scene is hit nearer than the given distance. -/
def Occluded (eps : K) (scene : List (Occluder R K)) (r : R) (distance : K) : Prop :=
  ∃ a ∈ scene, ∃ d, a.hit r = some d ∧ d + eps < distance

theorem closest_spec (scene : List (Occluder R K)) (r : R) :
    match closest scene r with
    | none => ∀ a ∈ scene, a.hit r = none
    | some (a, d) => a ∈ scene ∧ a.hit r = some d ∧ ∀ b ∈ scene, ∀ d', b.hit r = some d' → d ≤ d' := by
  unfold closest
  induction scene using List.reverseRecOn with
  | nil => simp
  | append_singleton l a ih =>
    rw [List.foldl_append]
    simp only [List.foldl_cons, List.foldl_nil]
    generalize (l.foldl _ none : Option (Occluder R K × K)) = best at ih ⊢
    cases ha : a.hit r with
    | none =>
      cases best with
      | none =>
        simp only at ih ⊢
        intro b hb
        rw [List.mem_append, List.mem_singleton] at hb
        rcases hb with hb | rfl
        · exact ih b hb
        · exact ha
      | some x =>
        obtain ⟨a', d⟩ := x
        simp only at ih ⊢
        refine ⟨List.mem_append_left _ ih.1, ih.2.1, fun b hb d' hd' => ?_⟩
        rw [List.mem_append, List.mem_singleton] at hb
        rcases hb with hb | rfl
        · exact ih.2.2 b hb d' hd'
        · rw [ha] at hd'; cases hd'
    | some da =>
      cases best with
      | none =>
        simp only at ih ⊢
        refine ⟨by simp, ha, fun b hb d' hd' => ?_⟩
        rw [List.mem_append, List.mem_singleton] at hb
        rcases hb with hb | rfl
        · rw [ih b hb] at hd'; cases hd'
        · rw [ha] at hd'; cases hd'; exact le_rfl
      | some x =>
        obtain ⟨a', d⟩ := x
        simp only at ih ⊢
        by_cases hle : da ≤ d
        · rw [if_pos hle]
          refine ⟨by simp, ha, fun b hb d' hd' => ?_⟩
          rw [List.mem_append, List.mem_singleton] at hb
          rcases hb with hb | rfl
          · exact hle.trans (ih.2.2 b hb d' hd')
          · rw [ha] at hd'; cases hd'; exact le_rfl
        · rw [if_neg hle]
          refine ⟨List.mem_append_left _ ih.1, ih.2.1, fun b hb d' hd' => ?_⟩
          rw [List.mem_append, List.mem_singleton] at hb
          rcases hb with hb | rfl
          · exact ih.2.2 b hb d' hd'
          · rw [ha] at hd'; cases hd'; exact (not_le.1 hle).le

/-- The cache only holds assets of the scene. -/
def CacheOk (scene : List (Occluder R K)) (c : Cache R K) : Prop := ∀ n a, c n = some a → a ∈ scene

theorem isOccluded_spec (eps : K) (scene : List (Occluder R K)) (c : Cache R K) (hc : CacheOk scene c)
    (n : Nat) (hn : n < bounces) (r : R) (distance : K) :
    ∃ b c', isOccluded eps scene c n r distance = some (b, c') ∧ CacheOk scene c' ∧
      (b = true ↔ Occluded eps scene r distance) := by
  unfold isOccluded
  rw [if_pos hn]
  generalize hcached : cachedHit eps c n r distance = cached
  cases cached with
  | true =>
    refine ⟨true, c, by rw [if_pos rfl], hc, ?_⟩
    simp only [true_iff]
    unfold cachedHit at hcached
    split at hcached
    · cases hcached
    · rename_i a ha
      split at hcached
      · cases hcached
      · rename_i d hd
        exact ⟨a, hc n a ha, d, hd, by simpa using hcached⟩
  | false =>
    rw [if_neg (by simp)]
    have hs := closest_spec scene r
    generalize closest scene r = best at hs
    cases best with
    | none =>
      refine ⟨false, c, rfl, hc, ?_⟩
      simp only [Bool.false_eq_true, false_iff]
      rintro ⟨a, ha, d, hd, -⟩
      simp only at hs
      rw [hs a ha] at hd
      cases hd
    | some x =>
      obtain ⟨a, d⟩ := x
      simp only at hs
      refine ⟨_, _, rfl, ?_, ?_⟩
      · intro m b hb
        by_cases hm : m = n
        · subst hm; simp at hb; rw [← hb]; exact hs.1
        · rw [Function.update_of_ne hm] at hb; exact hc m b hb
      · simp only [decide_eq_true_eq]
        constructor
        · intro h; exact ⟨a, hs.1, d, hs.2.1, h⟩
        · rintro ⟨b, hb, d', hd', hlt⟩
          have := hs.2.2 b hb d' hd'
          linarith

/-- **C37.** For all scenes and all histories of queries, no access outside of the cache, and each answer
is the one the scene alone determines. -/
theorem C37_cache_transparent (eps : K) (scene : List (Occluder R K)) (qs : List (Nat × R × K))
    (hq : ∀ q ∈ qs, q.1 < bounces) :
    ∃ l, answers eps scene emptyCache qs = some l ∧ l.length = qs.length ∧
      ∀ (i : Nat) (q : Nat × R × K) (b : Bool), qs[i]? = some q → l[i]? = some b →
        (b = true ↔ Occluded eps scene q.2.1 q.2.2) := by
  have aux : ∀ (qs : List (Nat × R × K)) (c : Cache R K), CacheOk scene c → (∀ q ∈ qs, q.1 < bounces) →
      ∃ l, answers eps scene c qs = some l ∧ l.length = qs.length ∧
      ∀ (i : Nat) (q : Nat × R × K) (b : Bool), qs[i]? = some q → l[i]? = some b →
        (b = true ↔ Occluded eps scene q.2.1 q.2.2) := by
    intro qs
    induction qs with
    | nil => intro c _ _; exact ⟨[], rfl, rfl, by simp⟩
    | cons q qs ih =>
      intro c hc hq
      obtain ⟨n, r, d⟩ := q
      obtain ⟨b, c', e, hc', hb⟩ := isOccluded_spec eps scene c hc n (hq (n, r, d) List.mem_cons_self) r d
      obtain ⟨l, el, hl, hs⟩ := ih c' hc' (fun q h => hq q (List.mem_cons_of_mem _ h))
      refine ⟨b :: l, by rw [answers, e]; simp only [el], by simp [hl], ?_⟩
      intro i q b' h1 h2
      cases i with
      | zero =>
        simp only [List.getElem?_cons_zero, Option.some.injEq] at h1 h2
        rw [← h1, ← h2]; exact hb
      | succ i =>
        simp only [List.getElem?_cons_succ] at h1 h2
        exact hs i q b' h1 h2
  exact aux qs emptyCache (by intro n a h; cases h) hq

/-- **C37**, the same answer after any two histories. -/
theorem C37_history_independent (eps : K) (scene : List (Occluder R K)) (h1 h2 : List (Nat × R × K))
    (q : Nat × R × K) (hq1 : ∀ q ∈ h1, q.1 < bounces) (hq2 : ∀ q ∈ h2, q.1 < bounces) (hq : q.1 < bounces)
    (l1 l2 : List Bool) (e1 : answers eps scene emptyCache (h1 ++ [q]) = some l1)
    (e2 : answers eps scene emptyCache (h2 ++ [q]) = some l2) :
    l1[h1.length]? = l2[h2.length]? := by
  have key : ∀ (h : List (Nat × R × K)) (l : List Bool), (∀ q ∈ h, q.1 < bounces) →
      answers eps scene emptyCache (h ++ [q]) = some l →
      ∃ b, l[h.length]? = some b ∧ (b = true ↔ Occluded eps scene q.2.1 q.2.2) := by
    intro h l hh e
    obtain ⟨l', e', hl, hs⟩ := C37_cache_transparent eps scene (h ++ [q]) (by
      intro x hx
      rw [List.mem_append, List.mem_singleton] at hx
      rcases hx with hx | rfl
      · exact hh x hx
      · exact hq)
    rw [e] at e'
    cases e'
    simp only [List.length_append, List.length_singleton] at hl
    refine ⟨l[h.length]'(by omega), List.getElem?_eq_getElem (by omega), ?_⟩
    exact hs h.length q _ (by simp) (List.getElem?_eq_getElem (by omega))
  obtain ⟨b1, x1, y1⟩ := key h1 l1 hq1 e1
  obtain ⟨b2, x2, y2⟩ := key h2 l2 hq2 e2
  rw [x1, x2]
  congr 1
  rw [Bool.eq_iff_iff, y1, y2]

/-- Outside of the cache: a ray with as many bounces as the cache has elements. -/
example (eps : K) (scene : List (Occluder R K)) (c : Cache R K) (r : R) (d : K) :
    isOccluded eps scene c 5 r d = none := by
  simp [isOccluded, bounces]

end

/-- A scene with two assets, in which the cached asset is not the nearest one. -/
example : answers (1 / 100 : ℚ) [⟨0, fun r : Nat => if r = 0 then some 1 else none⟩, ⟨1, fun _ => some 2⟩]
    emptyCache [(0, 1, 3), (0, 0, 3), (0, 0, 2), (0, 1, 2)] = some [true, true, true, false] := by
  decide +kernel

end Spectre.Integrator
