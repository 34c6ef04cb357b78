import Verif.Model.Shapes
import Verif.Props.Geom
import Mathlib.Algebra.BigOperators.Fin
import Mathlib.Algebra.Order.BigOperators.Group.List

/-
Properties C29 (intersections never return a farther hit), C30 (mesh light sampling), C31 (box sampling),
C64 (box hits: surface and normal).
-/

namespace Spectre.Shapes
open Spectre.Geom

variable {K : Type} [Field K] [LinearOrder K] [IsStrictOrderedRing K]

/-! ### C29 -/

/-- The statement of C29 for one shape: `isect D` is the distance written by a call with current distance
`D`, if it returns true. -/
def NeverFarther {L : Type} [LE L] (isect : L → Option L) : Prop := ∀ D d, isect D = some d → d ≤ D

/-- **C29**, triangles: for all rays and masks. -/
theorem C29_triangle (eps : K) (masked : K × K → Bool) (t : Tri K) (r : Ray K) :
    NeverFarther fun D => (triIntersect eps masked t r D).map Hit.dist := by
  intro D d h
  simp only [Option.map_eq_some_iff] at h
  obtain ⟨x, hx, rfl⟩ := h
  exact ((C28_exact eps masked t r D x).1 hx).2.2.2.1

/-- **C29**, boxes: for all rays and masks. -/
theorem C29_box (eps : K) (masked : Bool) (r : Ray K) :
    NeverFarther fun D => (boxIntersect eps masked r D).map Prod.fst := by
  intro D d h
  simp only [Option.map_eq_some_iff] at h
  obtain ⟨x, hx, rfl⟩ := h
  unfold boxIntersect at hx
  grind

/-- **C29 is violated** by spheres: a ray entering the sphere at distance 2 and leaving it at distance 4,
with a nearer object already found at distance 3; the mask hides the entry point, and the exit point is
accepted although it is behind the object. -/
theorem C29_sphere_violated :
    ¬ ∀ (masked : V3 ℝ → Bool) (r : Ray ℝ),
      NeverFarther fun D => (sphereIntersect (1 / 100) masked r D).map Prod.fst := by
  intro h
  classical
  have h4 : Real.sqrt 4 = 2 := by
    rw [show (4 : ℝ) = 2 ^ 2 by norm_num]
    exact Real.sqrt_sq (by norm_num)
  have := h (fun p => decide (p.z < 0)) ⟨⟨0, 0, -3⟩, ⟨0, 0, 1⟩⟩ 3 4 (by
    have e : equation2 1 (2 * -3) 8 = some (4, 2) := by
      unfold equation2
      norm_num [h4]
    have a1 : dot (⟨0, 0, 1⟩ : V3 ℝ) ⟨0, 0, 1⟩ = 1 := by norm_num [dot]
    have a2 : dot (⟨0, 0, 1⟩ : V3 ℝ) ⟨0, 0, -3⟩ = -3 := by norm_num [dot]
    have a3 : dot (⟨0, 0, -3⟩ : V3 ℝ) ⟨0, 0, -3⟩ - 1 = 8 := by norm_num [dot]
    unfold sphereIntersect
    simp only [a1, a2, a3, e]
    norm_num [Ray.apply, shifted])
  norm_num at this

/-- **C29**, spheres (the part that holds): the distance only increases when a nearer hit within the
current distance was hidden by the mask; in particular never without a mask. -/
theorem C29_sphere_partial (eps : ℝ) (masked : V3 ℝ → Bool) (r : Ray ℝ) (D d : ℝ) (p : V3 ℝ)
    (h : sphereIntersect eps masked r D = some (d, p)) :
    d ≤ D ∨ ∃ s, eps ≤ s ∧ s ≤ D ∧ s ≤ d ∧ masked (shifted eps (r.apply s)) = true := by
  unfold sphereIntersect at h
  simp only at h
  generalize equation2 (dot r.d r.d) (2 * dot r.d r.o) (dot r.o r.o - 1) = eq at h
  cases eq with
  | none => simp at h
  | some s =>
    obtain ⟨s1, s2⟩ := s
    simp only at h
    generalize hs : (if s2 < s1 then (s2, s1) else (s1, s2) : ℝ × ℝ) = ss at h
    obtain ⟨a, b⟩ := ss
    have hab : a ≤ b := by
      split at hs <;> cases hs <;> linarith
    simp only at h
    split at h
    · cases h
    · rename_i c1
      split at h
      · cases h
      · rename_i c2
        rw [not_lt] at c1
        by_cases ha : a < eps
        · simp only [ha, if_true, true_and, not_or, not_lt] at h c2
          split at h
          · simp only [Option.some.injEq, Prod.mk.injEq] at h
            left; rw [← h.1]; exact c2.2
          · cases h
        · simp only [ha, if_false] at h
          split at h
          · simp only [Option.some.injEq, Prod.mk.injEq] at h
            left; rw [← h.1]; exact c1
          · rename_i hm
            split at h
            · simp only [Option.some.injEq, Prod.mk.injEq] at h
              right
              refine ⟨a, not_lt.1 ha, c1, by rw [← h.1]; exact hab, by simpa using hm⟩
            · cases h

/-- **C29**, spheres without a mask. -/
theorem C29_sphere_unmasked_partial (eps : ℝ) (r : Ray ℝ) :
    NeverFarther fun D => (sphereIntersect eps (fun _ => false) r D).map Prod.fst := by
  intro D d h
  simp only [Option.map_eq_some_iff] at h
  obtain ⟨⟨d', p⟩, hx, rfl⟩ := h
  rcases C29_sphere_partial eps _ r D d' p hx with h | ⟨s, _, _, _, h⟩
  · exact h
  · cases h

/-- The roots found by `equation2` are roots, when the discriminant is positive (the tolerance branch for
tangent rays is an approximation). -/
theorem equation2_roots (a b c s1 s2 : ℝ) (ha : a ≠ 0) (hd : 0 < b * b - 4 * a * c)
    (h : equation2 a b c = some (s1, s2)) :
    a * s1 * s1 + b * s1 + c = 0 ∧ a * s2 * s2 + b * s2 + c = 0 ∧ s1 ≠ s2 := by
  unfold equation2 at h
  simp only at h
  rw [if_neg (by intro hh; linarith [hh.1]), if_pos hd.le] at h
  have hs : Real.sqrt (b * b - 4 * a * c) * Real.sqrt (b * b - 4 * a * c) = b * b - 4 * a * c :=
    Real.mul_self_sqrt hd.le
  have hpos : 0 < Real.sqrt (b * b - 4 * a * c) := Real.sqrt_pos.2 hd
  generalize Real.sqrt (b * b - 4 * a * c) = w at h hs hpos
  simp only [Option.some.injEq, Prod.mk.injEq] at h
  obtain ⟨h1, h2⟩ := h
  generalize hq : (if b < 0 then -(1 / 2) * (b - w) else -(1 / 2) * (b + w)) = q at h1 h2
  have hq0 : q ≠ 0 := by
    split at hq
    · rename_i hb; intro e; rw [e] at hq; linarith
    · rename_i hb; rw [not_lt] at hb; intro e; rw [e] at hq; linarith
  -- q satisfies q² + b q + a c = 0
  have hqq : q * q + b * q + a * c = 0 := by
    split at hq <;> rw [← hq] <;> linear_combination (1 / 4) * hs
  rw [← h1, ← h2]
  refine ⟨?_, ?_, ?_⟩
  · field_simp
    linear_combination hqq
  · field_simp
    linear_combination c * hqq
  · intro e
    rw [div_eq_div_iff ha hq0] at e
    -- q*q = c*a, so 2 q = -b, so w = 0
    have h2 : q * (2 * q + b) = 0 := by linear_combination hqq + e
    rcases mul_eq_zero.1 h2 with h | h
    · exact hq0 h
    · split at hq <;> linarith

/-- **C29**, addition: a reported sphere hit with positive discriminant is on the unit sphere. -/
theorem C29_sphere_on_surface (eps : ℝ) (masked : V3 ℝ → Bool) (r : Ray ℝ) (D d : ℝ) (p : V3 ℝ)
    (hr : dot r.d r.d ≠ 0)
    (hd : 0 < 2 * dot r.d r.o * (2 * dot r.d r.o) - 4 * dot r.d r.d * (dot r.o r.o - 1))
    (h : sphereIntersect eps masked r D = some (d, p)) : p = r.apply d ∧ dot p p = 1 := by
  have key : ∀ s, dot r.d r.d * s * s + 2 * dot r.d r.o * s + (dot r.o r.o - 1) = 0 →
      dot (r.apply s) (r.apply s) = 1 := by
    intro s hs
    simp only [dot, Ray.apply] at hs ⊢
    linear_combination hs
  unfold sphereIntersect at h
  simp only at h
  cases he : equation2 (dot r.d r.d) (2 * dot r.d r.o) (dot r.o r.o - 1) with
  | none => rw [he] at h; simp at h
  | some s =>
    obtain ⟨s1, s2⟩ := s
    obtain ⟨k1, k2, -⟩ := equation2_roots _ _ _ s1 s2 hr hd he
    have k1 := key s1 k1
    have k2 := key s2 k2
    rw [he] at h
    simp only at h
    generalize hs : (if s2 < s1 then (s2, s1) else (s1, s2) : ℝ × ℝ) = ss at h
    obtain ⟨a, b⟩ := ss
    have ka : dot (r.apply a) (r.apply a) = 1 := by split at hs <;> cases hs <;> assumption
    have kb : dot (r.apply b) (r.apply b) = 1 := by split at hs <;> cases hs <;> assumption
    simp only at h
    split at h
    · cases h
    · split at h
      · cases h
      · by_cases ha : a < eps
        · simp only [ha, if_true] at h
          split at h
          · simp only [Option.some.injEq, Prod.mk.injEq] at h
            obtain ⟨rfl, rfl⟩ := h
            exact ⟨rfl, kb⟩
          · cases h
        · simp only [ha, if_false] at h
          split at h
          · simp only [Option.some.injEq, Prod.mk.injEq] at h
            obtain ⟨rfl, rfl⟩ := h
            exact ⟨rfl, ka⟩
          · split at h
            · simp only [Option.some.injEq, Prod.mk.injEq] at h
              obtain ⟨rfl, rfl⟩ := h
              exact ⟨rfl, kb⟩
            · cases h

/-- The hypotheses of `C29_sphere_on_surface` hold for the ray used in the counterexample. -/
example : (0 : ℝ) < 2 * dot (⟨0, 0, 1⟩ : V3 ℝ) ⟨0, 0, -3⟩ * (2 * dot (⟨0, 0, 1⟩ : V3 ℝ) ⟨0, 0, -3⟩) -
    4 * dot (⟨0, 0, 1⟩ : V3 ℝ) ⟨0, 0, 1⟩ * (dot (⟨0, 0, -3⟩ : V3 ℝ) ⟨0, 0, -3⟩ - 1) := by
  norm_num [dot]

/-- A box is hit. -/
example : boxIntersect (1 / 100 : ℚ) false ⟨⟨-1, 1 / 4, 1 / 4⟩, ⟨1, 1 / 8, 1 / 8⟩⟩ 10 = some (1, 0, -1) := by
  decide +kernel

/-! ### C30 -/

/-- The sum of the first `k` surfaces: where the interval of triangle `k` begins. -/
def before (l : List K) (k : Nat) : K := (l.take k).sum

theorem before_succ (l : List K) (k : Nat) (hk : k < l.length) : before l (k + 1) = before l k + l[k] := by
  simp only [before, List.take_succ_eq_append_getElem hk, List.sum_append, List.sum_singleton]

theorem densities_length (s : K) (l : List K) : (densities s l).length = l.length := by
  induction l generalizing s with
  | nil => rfl
  | cons a l ih => simp [densities, ih]

theorem densities_get (s : K) (l : List K) (k : Nat) (hk : k < l.length) :
    (densities s l)[k]? = some (s + before l (k + 1)) := by
  induction l generalizing s k with
  | nil => simp at hk
  | cons a l ih =>
    cases k with
    | zero => simp [densities, before]
    | succ k =>
      simp only [densities, List.getElem?_cons_succ]
      rw [ih _ _ (by simpa using hk)]
      simp [before, add_assoc]

theorem before_mono (l : List K) (h0 : ∀ x ∈ l, 0 ≤ x) {i j : Nat} (h : i ≤ j) (hj : j ≤ l.length) :
    before l i ≤ before l j := by
  induction j, h using Nat.le_induction with
  | base => exact le_rfl
  | succ j hij ih =>
    rw [before_succ l j (by omega)]
    have := h0 _ (List.getElem_mem (by omega : j < l.length))
    linarith [ih (by omega)]

theorem lerp_zero (r m : K) : lerp r 0 m = r * m := by simp [lerp]

/-- The statement of C30 for a mesh whose triangles have surfaces `l` and a random number `r`: the
search ends and chooses the triangle in whose interval the number `r * total` is. -/
def ProportionalPick (l : List K) (r : K) : Prop :=
  ∃ fuel i s, meshPick (densities 0 l) r fuel = .tri i s ∧ i < l.length ∧
    before l i ≤ r * l.sum ∧ r * l.sum ≤ before l (i + 1)

/-- **C30 is violated**: with three triangles of the same surface and the random number 1/2, in the middle
of the interval of the second, the first triangle is chosen. -/
theorem C30_violated :
    ¬ ∀ (l : List ℚ) (r : ℚ), l ≠ [] → (∀ x ∈ l, 0 < x) → 0 ≤ r → r ≤ 1 → ProportionalPick l r := by
  intro h
  obtain ⟨fuel, i, s, h1, h2, h3, h4⟩ := h [1, 1, 1] (1 / 2) (by simp) (by simp) (by norm_num) (by norm_num)
  match fuel with
  | 0 =>
    have e : meshPick (densities 0 [1, 1, 1]) (1 / 2 : ℚ) 0 = .searching 0 2 := by
      norm_num [meshPick, densities, lerp, search]
    rw [e] at h1; cases h1
  | 1 =>
    have e : meshPick (densities 0 [1, 1, 1]) (1 / 2 : ℚ) 1 = .searching 0 1 := by
      norm_num [meshPick, densities, lerp, search]
    rw [e] at h1; cases h1
  | f + 2 =>
    have e : meshPick (densities 0 [1, 1, 1]) (1 / 2 : ℚ) (f + 2) = .tri 0 (1 / 2) := by
      norm_num [meshPick, densities, lerp, search, inverseLerp]
    rw [e] at h1
    cases h1
    norm_num [before] at h4

/-- The search, started on a range with `d[start] ≤ ext < d[stop]`, ends within `stop - start` iterations
with the index before the right one. -/
theorem search_spec (l : List K) (ext : K) (fuel start stop : Nat) (hs : start < stop)
    (hl : stop < l.length) (hf : stop - start ≤ fuel) (h1 : before l (start + 1) ≤ ext)
    (h2 : ext < before l (stop + 1)) :
    ∃ i, start ≤ i ∧ i < stop ∧ before l (i + 1) ≤ ext ∧ ext < before l (i + 2) ∧
      search (densities 0 l) ext fuel start stop =
        .tri i ((ext - before l (i + 1)) / (before l (i + 2) - before l (i + 1))) := by
  induction fuel generalizing start stop with
  | zero => omega
  | succ fuel ih =>
    have g1 := densities_get 0 l ((start + stop) / 2) (by omega)
    have g2 := densities_get 0 l ((start + stop) / 2 + 1) (by omega)
    rw [zero_add] at g1 g2
    rw [search.eq_def]
    simp only [g1, g2]
    by_cases c1 : before l ((start + stop) / 2 + 1) ≤ ext ∧ ext < before l ((start + stop) / 2 + 1 + 1)
    · rw [if_pos c1]
      exact ⟨(start + stop) / 2, by omega, by omega, c1.1, c1.2, by simp [inverseLerp]⟩
    · rw [if_neg c1]
      by_cases c2 : ext < before l ((start + stop) / 2 + 1)
      · rw [if_pos c2]
        have hne : start ≠ (start + stop) / 2 := by
          intro e; rw [← e] at c2; exact absurd h1 (not_le.2 c2)
        obtain ⟨i, a, b, c⟩ := ih start ((start + stop) / 2) (by omega) (by omega) (by omega) h1 c2
        exact ⟨i, a, by omega, c⟩
      · rw [if_neg c2]
        rw [not_lt] at c2
        have c3 : before l ((start + stop) / 2 + 1 + 1) ≤ ext := by
          by_contra hh; exact c1 ⟨c2, not_le.1 hh⟩
        have hne : (start + stop) / 2 + 1 ≠ stop := by
          intro e; rw [e] at c3; exact absurd h2 (not_lt.2 c3)
        have hlt : start ≠ (start + stop) / 2 := by
          intro e; omega
        obtain ⟨i, a, b, c⟩ := ih ((start + stop) / 2) stop (by omega) hl (by omega) c2 h2
        exact ⟨i, by omega, b, c⟩

/-- **C30**, the part that holds, with the exact behaviour elsewhere: for a mesh of at least two triangles
of which the last is not degenerate, the search ends within as many iterations as triangles, never reads
outside of the array, and
* chooses the first triangle exactly when it should;
* chooses the last triangle when it should;
* otherwise chooses triangle `i` where it should choose triangle `i + 1`.
The full property `ProportionalPick` is missing only in the last case, in which it is false. -/
theorem C30_choice_partial (l : List K) (r : K) (hn : 2 ≤ l.length) (h0 : ∀ x ∈ l, 0 ≤ x)
    (hlast : 0 < l[l.length - 1]) (hr0 : 0 ≤ r) (hr1 : r ≤ 1) (fuel : Nat) (hf : l.length ≤ fuel) :
    ∃ i s, meshPick (densities 0 l) r fuel = .tri i s ∧ 0 ≤ s ∧ s ≤ 1 ∧
      ((i = 0 ∧ before l 0 ≤ r * l.sum ∧ r * l.sum < before l 1) ∨
       (i = l.length - 1 ∧ before l i < r * l.sum ∧ r * l.sum ≤ before l (i + 1)) ∨
       (i + 1 < l.length ∧ before l (i + 1) ≤ r * l.sum ∧ r * l.sum < before l (i + 2))) := by
  have hsum : before l l.length = l.sum := by simp [before]
  have hb0 : before l 0 = 0 := by simp [before]
  have hs0 : 0 ≤ l.sum := List.sum_nonneg h0
  have hext0 : 0 ≤ r * l.sum := mul_nonneg hr0 hs0
  have hext1 : r * l.sum ≤ l.sum := by nlinarith
  have g0 := densities_get 0 l 0 (by omega)
  have g1 := densities_get 0 l (l.length - 1) (by omega)
  have g2 := densities_get 0 l (l.length - 2) (by omega)
  rw [zero_add] at g0 g1 g2
  rw [show l.length - 1 + 1 = l.length by omega, hsum] at g1
  rw [show l.length - 2 + 1 = l.length - 1 by omega] at g2
  have hstep : l.sum = before l (l.length - 1) + l[l.length - 1] := by
    rw [← before_succ l (l.length - 1) (by omega), show l.length - 1 + 1 = l.length by omega, hsum]
  have div01 : ∀ a b : K, 0 ≤ a → a ≤ b → 0 < b → 0 ≤ a / b ∧ a / b ≤ 1 := fun a b ha hab hb =>
    ⟨div_nonneg ha hb.le, (div_le_one hb).2 hab⟩
  unfold meshPick
  simp only [densities_length, g0, g1, g2, lerp_zero]
  by_cases c1 : r * l.sum < before l (0 + 1)
  · rw [if_pos c1]
    have := div01 (r * l.sum) (before l (0 + 1)) hext0 c1.le (by linarith)
    refine ⟨0, _, rfl, ?_, ?_, Or.inl ⟨rfl, by rw [hb0]; exact hext0, c1⟩⟩
    · simp only [inverseLerp, sub_zero]; exact this.1
    · simp only [inverseLerp, sub_zero]; exact this.2
  · rw [if_neg c1, if_neg (by omega)]
    by_cases c2 : before l (l.length - 1) < r * l.sum
    · rw [if_pos c2]
      have := div01 (r * l.sum - before l (l.length - 1)) (l.sum - before l (l.length - 1))
        (by linarith) (by linarith) (by linarith)
      refine ⟨l.length - 1, _, rfl, ?_, ?_, Or.inr (Or.inl ⟨rfl, c2, ?_⟩)⟩
      · simp only [inverseLerp, sub_zero]; exact this.1
      · simp only [inverseLerp, sub_zero]; exact this.2
      · rw [show l.length - 1 + 1 = l.length by omega, hsum]; exact hext1
    · rw [if_neg c2]
      rw [not_lt] at c1 c2
      obtain ⟨i, a, b, c, d, e⟩ := search_spec l (r * l.sum) fuel 0 (l.length - 1) (by omega) (by omega)
        (by omega) c1 (by rw [show l.length - 1 + 1 = l.length by omega, hsum]; linarith)
      have := div01 (r * l.sum - before l (i + 1)) (before l (i + 2) - before l (i + 1))
        (by linarith) (by linarith) (by linarith)
      exact ⟨i, _, e, this.1, this.2, Or.inr (Or.inr ⟨by omega, c, d⟩)⟩

/-- **C30**, consequence: a triangle that is neither the first, the last nor the one before the last of
them is chosen exactly for the numbers in the interval of its *successor*; the one before the last only for
the single number at its end. -/
theorem C30_penultimate_lost (l : List K) (r : K) (hn : 3 ≤ l.length) (h0 : ∀ x ∈ l, 0 ≤ x)
    (hlast : 0 < l[l.length - 1]) (hr0 : 0 ≤ r) (hr1 : r ≤ 1) (fuel : Nat) (hf : l.length ≤ fuel) (s : K)
    (h : meshPick (densities 0 l) r fuel = .tri (l.length - 2) s) : r * l.sum = before l (l.length - 1) := by
  have hext : ∀ i s, meshPick (densities 0 l) r fuel = .tri i s → i = l.length - 2 →
      r * l.sum ≤ before l (l.length - 1) := by
    intro i s hi he
    have g0 := densities_get 0 l 0 (by omega)
    have g1 := densities_get 0 l (l.length - 1) (by omega)
    have g2 := densities_get 0 l (l.length - 2) (by omega)
    rw [zero_add] at g0 g1 g2
    rw [show l.length - 1 + 1 = l.length by omega, show before l l.length = l.sum by simp [before]] at g1
    rw [show l.length - 2 + 1 = l.length - 1 by omega] at g2
    unfold meshPick at hi
    simp only [densities_length, g0, g1, g2, lerp_zero] at hi
    by_contra hh
    rw [not_le] at hh
    have hb : before l (0 + 1) ≤ before l (l.length - 1) := before_mono l h0 (by omega) (by omega)
    rw [if_neg (by intro h; linarith), if_neg (by omega), if_pos hh] at hi
    simp only [Pick.tri.injEq] at hi
    omega
  obtain ⟨i, s', e, -, -, hc⟩ := C30_choice_partial l r (by omega) h0 hlast hr0 hr1 fuel hf
  have hle := hext _ _ h rfl
  rw [e] at h
  simp only [Pick.tri.injEq] at h
  obtain ⟨rfl, -⟩ := h
  rcases hc with ⟨h, -⟩ | ⟨h, -⟩ | ⟨-, h, -⟩
  · omega
  · omega
  · rw [show l.length - 2 + 1 = l.length - 1 by omega] at h
    exact le_antisymm hle h

/-- **C30**, non-termination: if the last triangle of a mesh is degenerate (its surface is zero) and the
random number is one, the search never ends. -/
theorem C30_hang (l : List K) (hn : 2 ≤ l.length) (h0 : ∀ x ∈ l, 0 ≤ x)
    (hlast : l[l.length - 1] = 0) (fuel : Nat) :
    ∃ a b, meshPick (densities 0 l) 1 fuel = .searching a b := by
  have hsum : before l l.length = l.sum := by simp [before]
  have hle : ∀ k, k ≤ l.length → before l k ≤ l.sum := fun k hk => by
    rw [← hsum]; exact before_mono l h0 hk le_rfl
  have hstep : l.sum = before l (l.length - 1) + l[l.length - 1] := by
    rw [← before_succ l (l.length - 1) (by omega), show l.length - 1 + 1 = l.length by omega, hsum]
  have hsearch : ∀ fuel start stop, start < stop → stop < l.length →
      ∃ a b, search (densities 0 l) l.sum fuel start stop = .searching a b := by
    intro fuel
    induction fuel with
    | zero => intro a b _ _; exact ⟨a, b, rfl⟩
    | succ fuel ih =>
      intro start stop h1 h2
      have g1 := densities_get 0 l ((start + stop) / 2) (by omega)
      have g2 := densities_get 0 l ((start + stop) / 2 + 1) (by omega)
      rw [zero_add] at g1 g2
      rw [search.eq_def]
      simp only [g1, g2]
      rw [if_neg (fun h => absurd (hle ((start + stop) / 2 + 1 + 1) (by omega)) (not_le.2 h.2)),
        if_neg (not_lt.2 (hle ((start + stop) / 2 + 1) (by omega)))]
      exact ih _ _ (by omega) h2
  have g0 := densities_get 0 l 0 (by omega)
  have g1 := densities_get 0 l (l.length - 1) (by omega)
  have g2 := densities_get 0 l (l.length - 2) (by omega)
  rw [zero_add] at g0 g1 g2
  rw [show l.length - 1 + 1 = l.length by omega, hsum] at g1
  rw [show l.length - 2 + 1 = l.length - 1 by omega] at g2
  unfold meshPick
  simp only [densities_length, g0, g1, g2, lerp_zero, one_mul]
  rw [if_neg (not_lt.2 (hle _ (by omega))), if_neg (by omega),
    if_neg (by rw [not_lt]; linarith)]
  exact hsearch fuel 0 (l.length - 1) (by omega) (by omega)

/-- **C30**, undefined behaviour: with a single triangle and the random number one (which the generator
returns, see C05), `densities[-1]` is read. -/
theorem C30_single_out_of_bounds (a : K) (fuel : Nat) :
    meshPick (densities 0 [a]) 1 fuel = .outOfBounds := by
  simp [meshPick, densities, lerp]

/-- **C30**, the point taken on the chosen triangle is in the triangle: a convex combination of the
vertices, for all random numbers in the unit interval. -/
theorem C30_point_in_triangle (t : Tri ℝ) (r0 r1 : ℝ) (h0 : 0 ≤ r0) (h0' : r0 ≤ 1) (h1 : 0 ≤ r1)
    (h1' : r1 ≤ 1) :
    ∃ u v w : ℝ, 0 ≤ u ∧ 0 ≤ v ∧ 0 ≤ w ∧ u + v + w = 1 ∧
      triSample t r0 r1 = ⟨u * t.a.x + v * t.b.x + w * t.c.x, u * t.a.y + v * t.b.y + w * t.c.y,
        u * t.a.z + v * t.b.z + w * t.c.z⟩ := by
  have hs0 : 0 ≤ Real.sqrt r0 := Real.sqrt_nonneg r0
  have hs1 : Real.sqrt r0 ≤ 1 := Real.sqrt_le_one.2 h0'
  refine ⟨1 - Real.sqrt r0, r1 * Real.sqrt r0, 1 - (1 - Real.sqrt r0) - r1 * Real.sqrt r0, by linarith,
    mul_nonneg h1 hs0, by nlinarith, by ring, ?_⟩
  simp only [triSample, max_eq_right h0]

/-- The hypotheses of `C30_choice_partial` and `C30_hang` are satisfied by real meshes. -/
example : 2 ≤ ([1, 2, 3, 1 / 2] : List ℚ).length ∧ (∀ x ∈ ([1, 2, 3, 1 / 2] : List ℚ), 0 ≤ x) ∧
    0 < ([1, 2, 3, 1 / 2] : List ℚ)[3] := by
  decide +kernel
example : 2 ≤ ([1, 2, 0] : List ℚ).length ∧ (∀ x ∈ ([1, 2, 0] : List ℚ), 0 ≤ x) ∧
    ([1, 2, 0] : List ℚ)[2] = 0 := by
  decide +kernel

/-! ### C31 -/

/-- Area of a face of the scaled box, by its place in the densities array. -/
def faceArea (s : V3 K) : Fin 6 → K
  | 0 => s.x * s.y
  | 1 => s.x * s.y
  | 2 => s.x * s.z
  | 3 => s.x * s.z
  | 4 => s.y * s.z
  | 5 => s.y * s.z

/-- Outward normal of the face. -/
def faceNormal : Fin 6 → V3 K
  | 0 => ⟨0, 0, 1⟩
  | 1 => ⟨0, 0, -1⟩
  | 2 => ⟨0, -1, 0⟩
  | 3 => ⟨0, 1, 0⟩
  | 4 => ⟨-1, 0, 0⟩
  | 5 => ⟨1, 0, 0⟩

/-- Sum of the areas of the faces before `i`. -/
def facesBefore (s : V3 K) (i : Fin 6) : K := ∑ j : Fin 6, if j < i then faceArea s j else 0

/-- The point is on the face of the unit cube with outward normal `n`: it is in the cube, and at distance
1/2 from the centre along the normal. -/
def OnFace (n p : V3 K) : Prop :=
  0 ≤ p.x ∧ p.x ≤ 1 ∧ 0 ≤ p.y ∧ p.y ≤ 1 ∧ 0 ≤ p.z ∧ p.z ≤ 1 ∧
    dot n ⟨p.x - 1 / 2, p.y - 1 / 2, p.z - 1 / 2⟩ = 1 / 2

/-- The point of a face with the given coordinates on it. -/
def facePoint (i : Fin 6) (t u : K) : V3 K :=
  match i with
  | 0 => ⟨t, u, 1⟩
  | 1 => ⟨t, u, 0⟩
  | 2 => ⟨t, 0, u⟩
  | 3 => ⟨t, 1, u⟩
  | 4 => ⟨0, u, t⟩
  | 5 => ⟨1, u, t⟩

/-- **C31**: the densities are the partial sums of the areas, and the last is the surface that is used as
the probability density. -/
theorem C31_densities (s : V3 K) (i : Fin 6) : boxDensities s i = facesBefore s i + faceArea s i := by
  match i with
  | 0 => simp [boxDensities, facesBefore, faceArea, Fin.sum_univ_six]
  | 1 => simp [boxDensities, facesBefore, faceArea, Fin.sum_univ_six]; ring
  | 2 => simp [boxDensities, facesBefore, faceArea, Fin.sum_univ_six]; ring
  | 3 => simp [boxDensities, facesBefore, faceArea, Fin.sum_univ_six]; ring
  | 4 => simp [boxDensities, facesBefore, faceArea, Fin.sum_univ_six]; ring
  | 5 => simp [boxDensities, facesBefore, faceArea, Fin.sum_univ_six]; ring

theorem C31_surface (s : V3 K) :
    boxDensities s 5 = boxSurface s ∧ boxSurface s = ∑ i, faceArea s i := by
  constructor
  · simp [boxDensities, boxSurface]; ring
  · simp [boxSurface, faceArea, Fin.sum_univ_six]; ring

/-- **C31**: the face is chosen with probability proportional to its area (the numbers `r0` that choose
face `i` are those with `r0 * surface` in an interval of the length of its area), the point is on that
face, the normal is the outward one, and one coordinate on the face is the position in the interval, the
other the second random number. -/
theorem C31_face (s : V3 K) (hx : 0 < s.x) (hy : 0 < s.y) (hz : 0 < s.z) (r0 r1 : K)
    (h1 : 0 ≤ r1) (h1' : r1 ≤ 1) (i : Fin 6) (ha : facesBefore s i ≤ r0 * boxSurface s)
    (hb : r0 * boxSurface s < facesBefore s i + faceArea s i) :
    ∃ p, boxSample (boxDensities s) r0 r1 = (p, faceNormal i) ∧ OnFace (faceNormal i) p ∧
      p = facePoint i ((r0 * boxSurface s - facesBefore s i) / faceArea s i) r1 := by
  have hxy : 0 < s.x * s.y := mul_pos hx hy
  have hxz : 0 < s.x * s.z := mul_pos hx hz
  have hyz : 0 < s.y * s.z := mul_pos hy hz
  have hd : ∀ k, boxDensities s k = facesBefore s k + faceArea s k := C31_densities s
  have b0 : facesBefore s 0 = 0 := by simp [facesBefore, Fin.sum_univ_six]
  have b1 : facesBefore s 1 = s.x * s.y := by simp [facesBefore, faceArea, Fin.sum_univ_six]
  have b2 : facesBefore s 2 = s.x * s.y + s.x * s.y := by simp [facesBefore, faceArea, Fin.sum_univ_six]
  have b3 : facesBefore s 3 = s.x * s.y + s.x * s.y + s.x * s.z := by
    simp [facesBefore, faceArea, Fin.sum_univ_six]
  have b4 : facesBefore s 4 = s.x * s.y + s.x * s.y + s.x * s.z + s.x * s.z := by
    simp [facesBefore, faceArea, Fin.sum_univ_six]
  have b5 : facesBefore s 5 = s.x * s.y + s.x * s.y + s.x * s.z + s.x * s.z + s.y * s.z := by
    simp [facesBefore, faceArea, Fin.sum_univ_six]
  have hres : lerp r0 0 (boxDensities s 5) = r0 * boxSurface s := by
    rw [(C31_surface s).1, lerp_zero]
  have harea : 0 < faceArea s i := by
    match i with
    | 0 => exact hxy
    | 1 => exact hxy
    | 2 => exact hxz
    | 3 => exact hxz
    | 4 => exact hyz
    | 5 => exact hyz
  have ht0 : 0 ≤ (r0 * boxSurface s - facesBefore s i) / faceArea s i :=
    div_nonneg (by linarith) harea.le
  have ht1 : (r0 * boxSurface s - facesBefore s i) / faceArea s i ≤ 1 :=
    (div_le_one harea).2 (by linarith)
  unfold boxSample
  simp only [hres]
  generalize r0 * boxSurface s = e at ha hb ht0 ht1
  have f0 : faceArea s 0 = s.x * s.y := rfl
  have f1 : faceArea s 1 = s.x * s.y := rfl
  have f2 : faceArea s 2 = s.x * s.z := rfl
  have f3 : faceArea s 3 = s.x * s.z := rfl
  have f4 : faceArea s 4 = s.y * s.z := rfl
  have f5 : faceArea s 5 = s.y * s.z := rfl
  match i with
  | 0 =>
    refine ⟨⟨(e - facesBefore s 0) / faceArea s 0, r1, 1⟩, ?_, ?_, rfl⟩
    · rw [if_pos (by rw [hd]; exact hb)]
      simp [inverseLerp, faceNormal, hd, b0]
    · refine ⟨ht0, ht1, h1, h1', zero_le_one, le_rfl, ?_⟩
      simp [dot, faceNormal]; norm_num
  | 1 =>
    refine ⟨⟨(e - facesBefore s 1) / faceArea s 1, r1, 0⟩, ?_, ?_, rfl⟩
    · rw [if_neg (by rw [hd, not_lt, b0, f0]; linarith), if_pos (by rw [hd]; exact hb)]
      simp only [inverseLerp, faceNormal, hd, b0, b1, f0, f1]
      simp
    · refine ⟨ht0, ht1, h1, h1', le_rfl, zero_le_one, ?_⟩
      simp [dot, faceNormal]
  | 2 =>
    refine ⟨⟨(e - facesBefore s 2) / faceArea s 2, 0, r1⟩, ?_, ?_, rfl⟩
    · rw [if_neg (by rw [hd, not_lt, b0, f0]; linarith), if_neg (by rw [hd, not_lt, b1, f1]; linarith),
        if_pos (by rw [hd]; exact hb)]
      simp only [inverseLerp, faceNormal, hd, b0, b1, b2, f0, f1, f2]
      simp
    · refine ⟨ht0, ht1, le_rfl, zero_le_one, h1, h1', ?_⟩
      simp [dot, faceNormal]
  | 3 =>
    refine ⟨⟨(e - facesBefore s 3) / faceArea s 3, 1, r1⟩, ?_, ?_, rfl⟩
    · rw [if_neg (by rw [hd, not_lt, b0, f0]; linarith), if_neg (by rw [hd, not_lt, b1, f1]; linarith),
        if_neg (by rw [hd, not_lt, b2, f2]; linarith), if_pos (by rw [hd]; exact hb)]
      simp only [inverseLerp, faceNormal, hd, b0, b1, b2, b3, f0, f1, f2, f3]
      simp
    · refine ⟨ht0, ht1, zero_le_one, le_rfl, h1, h1', ?_⟩
      simp [dot, faceNormal]; norm_num
  | 4 =>
    refine ⟨⟨0, r1, (e - facesBefore s 4) / faceArea s 4⟩, ?_, ?_, rfl⟩
    · rw [if_neg (by rw [hd, not_lt, b0, f0]; linarith), if_neg (by rw [hd, not_lt, b1, f1]; linarith),
        if_neg (by rw [hd, not_lt, b2, f2]; linarith), if_neg (by rw [hd, not_lt, b3, f3]; linarith),
        if_pos (by rw [hd]; exact hb)]
      simp only [inverseLerp, faceNormal, hd, b0, b1, b2, b3, b4, f0, f1, f2, f3, f4]
      simp
    · refine ⟨le_rfl, zero_le_one, h1, h1', ht0, ht1, ?_⟩
      simp [dot, faceNormal]
  | 5 =>
    refine ⟨⟨1, r1, (e - facesBefore s 5) / faceArea s 5⟩, ?_, ?_, rfl⟩
    · rw [if_neg (by rw [hd, not_lt, b0, f0]; linarith), if_neg (by rw [hd, not_lt, b1, f1]; linarith),
        if_neg (by rw [hd, not_lt, b2, f2]; linarith), if_neg (by rw [hd, not_lt, b3, f3]; linarith),
        if_neg (by rw [hd, not_lt, b4, f4]; linarith)]
      simp only [inverseLerp, faceNormal, hd, b0, b1, b2, b3, b4, b5, f0, f1, f2, f3, f4, f5]
      simp
    · refine ⟨zero_le_one, le_rfl, h1, h1', ht0, ht1, ?_⟩
      simp [dot, faceNormal]; norm_num

/-- **C31**: every random number in `[0, 1)` is in the interval of a face. -/
theorem C31_covers (s : V3 K) (hx : 0 < s.x) (hy : 0 < s.y) (hz : 0 < s.z) (r0 : K) (h0 : 0 ≤ r0)
    (h0' : r0 < 1) :
    ∃ i, facesBefore s i ≤ r0 * boxSurface s ∧
      r0 * boxSurface s < facesBefore s i + faceArea s i := by
  have hxy : 0 < s.x * s.y := mul_pos hx hy
  have hxz : 0 < s.x * s.z := mul_pos hx hz
  have hyz : 0 < s.y * s.z := mul_pos hy hz
  have hS : boxSurface s = 2 * (s.x * s.y) + 2 * (s.x * s.z) + 2 * (s.y * s.z) := by
    simp [boxSurface]; ring
  have hpos : 0 < boxSurface s := by rw [hS]; linarith
  have e0 : 0 ≤ r0 * boxSurface s := mul_nonneg h0 hpos.le
  have e1 : r0 * boxSurface s < boxSurface s := by nlinarith
  rw [hS] at e0 e1 ⊢
  generalize r0 * _ = e at e0 e1
  by_contra hh
  push Not at hh
  have k0 := hh 0
  have k1 := hh 1
  have k2 := hh 2
  have k3 := hh 3
  have k4 := hh 4
  have k5 := hh 5
  simp [facesBefore, faceArea, Fin.sum_univ_six] at k0 k1 k2 k3 k4 k5
  have l0 := k0 e0
  have l1 := k1 l0
  have l2 := k2 l1
  have l3 := k3 l2
  have l4 := k4 l3
  have l5 := k5 l4
  linarith

/-- The number one (which the generator returns, see C05) chooses the last face. -/
theorem C31_one (s : V3 K) (hx : 0 < s.x) (hy : 0 < s.y) (hz : 0 < s.z) (r1 : K)
    (h1 : 0 ≤ r1) (h1' : r1 ≤ 1) :
    ∃ p, boxSample (boxDensities s) 1 r1 = (p, faceNormal 5) ∧ OnFace (faceNormal 5) p := by
  have hxy : 0 < s.x * s.y := mul_pos hx hy
  have hxz : 0 < s.x * s.z := mul_pos hx hz
  have hyz : 0 < s.z * s.y := mul_pos hz hy
  unfold boxSample
  simp only [lerp_zero, one_mul, boxDensities]
  rw [if_neg (by rw [not_lt]; linarith), if_neg (by rw [not_lt]; linarith),
    if_neg (by rw [not_lt]; linarith), if_neg (by rw [not_lt]; linarith),
    if_neg (by rw [not_lt]; linarith)]
  refine ⟨_, rfl, zero_le_one, le_rfl, h1, h1', ?_, ?_, ?_⟩
  · simp [inverseLerp, div_self hyz.ne']
  · simp [inverseLerp, div_self hyz.ne']
  · simp [dot, faceNormal]; norm_num

/-- A box of sides 1, 2, 3 (surface 22) and the random number 1/3: 22/3 is in the interval of the face
`y = 1`, which begins at 7. -/
example : facesBefore (⟨1, 2, 3⟩ : V3 ℚ) 3 ≤ 1 / 3 * boxSurface ⟨1, 2, 3⟩ ∧
    1 / 3 * boxSurface ⟨1, 2, 3⟩ < facesBefore (⟨1, 2, 3⟩ : V3 ℚ) 3 + faceArea ⟨1, 2, 3⟩ 3 ∧
    boxSample (boxDensities (⟨1, 2, 3⟩ : V3 ℚ)) (1 / 3) (1 / 4) = (⟨1 / 9, 1, 1 / 4⟩, ⟨0, 1, 0⟩) := by
  decide +kernel

/-! ### C64 -/

/-- The unit cube. -/
def InCube (p : V3 K) : Prop := 0 ≤ p.x ∧ p.x ≤ 1 ∧ 0 ≤ p.y ∧ p.y ≤ 1 ∧ 0 ≤ p.z ∧ p.z ≤ 1

/-- The normal written by `Box::intersect`. -/
def axisNormal (axis : Nat) (sg : K) : V3 K :=
  if axis = 0 then ⟨sg, 0, 0⟩ else if axis = 1 then ⟨0, sg, 0⟩ else ⟨0, 0, sg⟩

theorem slab_spec (o d t : K) (hd : d ≠ 0) :
    (0 ≤ o + d * t ∧ o + d * t ≤ 1) ↔ ((slab o d).1 ≤ t ∧ t ≤ (slab o d).2) := by
  unfold slab
  simp only
  rcases lt_or_gt_of_ne hd with h | h
  · have hlt : (1 - o) * (1 / d) < -o * (1 / d) := by
      rw [mul_one_div, mul_one_div, div_lt_div_right_of_neg h]; linarith
    rw [if_pos hlt]
    simp only [mul_one_div, div_le_iff_of_neg h, le_div_iff_of_neg h]
    constructor <;> intro hh <;> constructor <;> linarith [hh.1, hh.2, mul_comm d t]
  · have hlt : ¬ (1 - o) * (1 / d) < -o * (1 / d) := by
      rw [mul_one_div, mul_one_div, div_lt_div_iff_of_pos_right h]; linarith
    rw [if_neg hlt]
    simp only [mul_one_div, div_le_iff₀ h, le_div_iff₀ h]
    constructor <;> intro hh <;> constructor <;> linarith [hh.1, hh.2, mul_comm d t]

/-- Where the slab is entered. -/
theorem slab_entry (o d : K) (hd : d ≠ 0) :
    o + d * (slab o d).1 = (if 0 ≤ d then 0 else 1) ∧ (slab o d).1 < (slab o d).2 := by
  unfold slab
  simp only
  rcases lt_or_gt_of_ne hd with h | h
  · have hlt : (1 - o) * (1 / d) < -o * (1 / d) := by
      rw [mul_one_div, mul_one_div, div_lt_div_right_of_neg h]; linarith
    rw [if_pos hlt, if_neg (not_le.2 h)]
    refine ⟨?_, hlt⟩
    simp only; field_simp; ring
  · have hlt : ¬ (1 - o) * (1 / d) < -o * (1 / d) := by
      rw [mul_one_div, mul_one_div, div_lt_div_iff_of_pos_right h]; linarith
    rw [if_neg hlt, if_pos h.le]
    refine ⟨?_, ?_⟩
    · simp only; field_simp; ring
    · simp only [mul_one_div, div_lt_div_iff_of_pos_right h]; linarith

/-- The cube is crossed between the last entry and the first exit. -/
theorem cube_iff (r : Ray K) (hx : r.d.x ≠ 0) (hy : r.d.y ≠ 0) (hz : r.d.z ≠ 0) (t : K) :
    InCube (r.apply t) ↔
      ((slab r.o.x r.d.x).1 ≤ t ∧ (slab r.o.y r.d.y).1 ≤ t ∧ (slab r.o.z r.d.z).1 ≤ t) ∧
      (t ≤ (slab r.o.x r.d.x).2 ∧ t ≤ (slab r.o.y r.d.y).2 ∧ t ≤ (slab r.o.z r.d.z).2) := by
  have a := slab_spec r.o.x r.d.x t hx
  have b := slab_spec r.o.y r.d.y t hy
  have c := slab_spec r.o.z r.d.z t hz
  simp only [InCube, Ray.apply]
  tauto

/-- The statement of C64 for one ray: a reported hit is the first crossing of the surface of the cube
beyond `eps` and the normal is the outward one of a face containing the hit. -/
def BoxHitExact (eps : K) (r : Ray K) (D t : K) (axis : Nat) (sg : K) : Prop :=
  (eps < t ∧ t ≤ D ∧ InCube (r.apply t)) ∧
  ((∀ t', t' < t → ¬ InCube (r.apply t')) ∨
    ((∀ t', eps ≤ t' → t' ≤ t → InCube (r.apply t')) ∧ ∀ t', t < t' → ¬ InCube (r.apply t'))) ∧
  OnFace (axisNormal axis sg) (r.apply t)

/-- **C64 is violated** for rays that start inside the box: the normal is that of the axis of the last
entry, not of the face through which the ray leaves.  Here the ray leaves through the face `y = 0` and the
normal is along `x`. -/
theorem C64_violated :
    ¬ ∀ (r : Ray ℚ) (D t : ℚ) (axis : Nat) (sg : ℚ), r.d.x ≠ 0 → r.d.y ≠ 0 → r.d.z ≠ 0 →
      boxIntersect (1 / 100) false r D = some (t, axis, sg) → BoxHitExact (1 / 100) r D t axis sg := by
  intro h
  have := h ⟨⟨1 / 2, 1 / 4, 1 / 2⟩, ⟨1, -1, 1 / 8⟩⟩ 10 (1 / 4) 0 1 (by norm_num) (by norm_num) (by norm_num)
    (by decide +kernel)
  have := this.2.2
  norm_num [OnFace, axisNormal, Ray.apply, dot] at this

/-- **C64**, the part that holds: the distance is the first crossing of the surface beyond `eps` for all
rays, and when the ray starts outside the normal is the outward one, against the ray. -/
theorem C64_hit_partial (eps : K) (masked : Bool) (r : Ray K) (D t : K) (axis : Nat) (sg : K)
    (hx : r.d.x ≠ 0) (hy : r.d.y ≠ 0) (hz : r.d.z ≠ 0)
    (h : boxIntersect eps masked r D = some (t, axis, sg)) :
    (eps < t ∧ t ≤ D ∧ InCube (r.apply t)) ∧
    (((∀ t', t' < t → ¬ InCube (r.apply t')) ∧ OnFace (axisNormal axis sg) (r.apply t) ∧
        dot (axisNormal axis sg) r.d < 0) ∨
      ((∀ t', eps ≤ t' → t' ≤ t → InCube (r.apply t')) ∧ ∀ t', t < t' → ¬ InCube (r.apply t'))) := by
  have cube := cube_iff r hx hy hz
  have ex := slab_entry r.o.x r.d.x hx
  have ey := slab_entry r.o.y r.d.y hy
  have ez := slab_entry r.o.z r.d.z hz
  have apx : ∀ t, (r.apply t).x = r.o.x + r.d.x * t := fun _ => rfl
  have apy : ∀ t, (r.apply t).y = r.o.y + r.d.y * t := fun _ => rfl
  have apz : ∀ t, (r.apply t).z = r.o.z + r.d.z * t := fun _ => rfl
  have n0 : ∀ s : K, axisNormal 0 s = ⟨s, 0, 0⟩ := fun _ => rfl
  have n1 : ∀ s : K, axisNormal 1 s = ⟨0, s, 0⟩ := fun _ => rfl
  have n2 : ∀ s : K, axisNormal 2 s = ⟨0, 0, s⟩ := fun _ => rfl
  -- the face of the entry on an axis
  have fx : InCube (r.apply (slab r.o.x r.d.x).1) →
      OnFace (axisNormal 0 (-sgn r.d.x)) (r.apply (slab r.o.x r.d.x).1) ∧
        dot (axisNormal 0 (-sgn r.d.x)) r.d < 0 := by
    rintro ⟨a, b, c, d, e, f⟩
    refine ⟨⟨a, b, c, d, e, f, ?_⟩, ?_⟩
    · have e1 := ex.1
      rw [← apx] at e1
      rw [n0]
      simp only [dot, sgn]
      rw [e1]
      by_cases hh : 0 ≤ r.d.x
      · rw [if_pos hh, if_pos hh]; norm_num
      · rw [if_neg hh, if_neg hh]; norm_num
    · rw [n0]
      simp only [dot, sgn]
      rcases lt_or_gt_of_ne hx with h | h
      · rw [if_neg (not_le.2 h)]; simpa using h
      · rw [if_pos h.le]; simpa using h
  have fy : InCube (r.apply (slab r.o.y r.d.y).1) →
      OnFace (axisNormal 1 (-sgn r.d.y)) (r.apply (slab r.o.y r.d.y).1) ∧
        dot (axisNormal 1 (-sgn r.d.y)) r.d < 0 := by
    rintro ⟨a, b, c, d, e, f⟩
    refine ⟨⟨a, b, c, d, e, f, ?_⟩, ?_⟩
    · have e1 := ey.1
      rw [← apy] at e1
      rw [n1]
      simp only [dot, sgn]
      rw [e1]
      by_cases hh : 0 ≤ r.d.y
      · rw [if_pos hh, if_pos hh]; norm_num
      · rw [if_neg hh, if_neg hh]; norm_num
    · rw [n1]
      simp only [dot, sgn]
      rcases lt_or_gt_of_ne hy with h | h
      · rw [if_neg (not_le.2 h)]; simpa using h
      · rw [if_pos h.le]; simpa using h
  have fz : InCube (r.apply (slab r.o.z r.d.z).1) →
      OnFace (axisNormal 2 (-sgn r.d.z)) (r.apply (slab r.o.z r.d.z).1) ∧
        dot (axisNormal 2 (-sgn r.d.z)) r.d < 0 := by
    rintro ⟨a, b, c, d, e, f⟩
    refine ⟨⟨a, b, c, d, e, f, ?_⟩, ?_⟩
    · have e1 := ez.1
      rw [← apz] at e1
      rw [n2]
      simp only [dot, sgn]
      rw [e1]
      by_cases hh : 0 ≤ r.d.z
      · rw [if_pos hh, if_pos hh]; norm_num
      · rw [if_neg hh, if_neg hh]; norm_num
    · rw [n2]
      simp only [dot, sgn]
      rcases lt_or_gt_of_ne hz with h | h
      · rw [if_neg (not_le.2 h)]; simpa using h
      · rw [if_pos h.le]; simpa using h
  have gx : V3.get r.d 0 = r.d.x := rfl
  have gy : V3.get r.d 1 = r.d.y := rfl
  have gz : V3.get r.d 2 = r.d.z := rfl
  unfold boxIntersect at h
  simp only at h
  generalize slab r.o.x r.d.x = sx at *
  generalize slab r.o.y r.d.y = sy at *
  generalize slab r.o.z r.d.z = sz at *
  obtain ⟨x1, x2⟩ := sx
  obtain ⟨y1, y2⟩ := sy
  obtain ⟨z1, z2⟩ := sz
  simp only at *
  -- last entry with its axis
  obtain ⟨m, ax, hm, hxm, hym, hax⟩ : ∃ m ax, (if x1 < y1 then (y1, 1) else (x1, 0) : K × Nat) = (m, ax) ∧
      x1 ≤ m ∧ y1 ≤ m ∧ ((m = x1 ∧ ax = 0) ∨ (m = y1 ∧ ax = 1)) := by
    by_cases c : x1 < y1
    · exact ⟨y1, 1, by rw [if_pos c], c.le, le_rfl, Or.inr ⟨rfl, rfl⟩⟩
    · exact ⟨x1, 0, by rw [if_neg c], le_rfl, not_lt.1 c, Or.inl ⟨rfl, rfl⟩⟩
  rw [hm] at h
  simp only at h
  obtain ⟨n, bx, hn, hxn, hzn, hbx⟩ : ∃ n bx, (if m < z1 then (z1, 2) else (m, ax) : K × Nat) = (n, bx) ∧
      m ≤ n ∧ z1 ≤ n ∧ ((n = m ∧ bx = ax) ∨ (n = z1 ∧ bx = 2)) := by
    by_cases c : m < z1
    · exact ⟨z1, 2, by rw [if_pos c], c.le, le_rfl, Or.inr ⟨rfl, rfl⟩⟩
    · exact ⟨m, ax, by rw [if_neg c], le_rfl, not_lt.1 c, Or.inl ⟨rfl, rfl⟩⟩
  rw [hn] at h
  simp only at h
  generalize hq : (if y2 < x2 then y2 else x2) = q at h
  have hq1 : q ≤ x2 ∧ q ≤ y2 ∧ (q = x2 ∨ q = y2) := by
    by_cases c : y2 < x2
    · rw [if_pos c] at hq; subst hq; exact ⟨c.le, le_rfl, Or.inr rfl⟩
    · rw [if_neg c] at hq; subst hq; exact ⟨le_rfl, not_lt.1 c, Or.inl rfl⟩
  generalize hw : (if z2 < q then z2 else q) = w at h
  have hw1 : w ≤ q ∧ w ≤ z2 ∧ (w = q ∨ w = z2) := by
    by_cases c : z2 < q
    · rw [if_pos c] at hw; subst hw; exact ⟨c.le, le_rfl, Or.inr rfl⟩
    · rw [if_neg c] at hw; subst hw; exact ⟨le_rfl, not_lt.1 c, Or.inl rfl⟩
  have hlow : ∀ t, (x1 ≤ t ∧ y1 ≤ t ∧ z1 ≤ t) ↔ n ≤ t := by
    intro t
    constructor
    · rintro ⟨a, b, c⟩
      rcases hbx with ⟨e, -⟩ | ⟨e, -⟩ <;> rcases hax with ⟨e', -⟩ | ⟨e', -⟩ <;> linarith
    · intro hh
      refine ⟨?_, ?_, ?_⟩ <;> linarith
  have hhigh : ∀ t, (t ≤ x2 ∧ t ≤ y2 ∧ t ≤ z2) ↔ t ≤ w := by
    intro t
    constructor
    · rintro ⟨a, b, c⟩
      rcases hw1.2.2 with e | e <;> rcases hq1.2.2 with e' | e' <;> linarith
    · intro hh
      refine ⟨?_, ?_, ?_⟩ <;> linarith [hw1.1, hw1.2.1, hq1.1, hq1.2.1]
  have hcube : ∀ t, InCube (r.apply t) ↔ n ≤ t ∧ t ≤ w := by
    intro t; rw [cube t, hlow, hhigh]
  split at h
  · cases h
  · split at h
    · cases h
    · rename_i hnw
      rw [not_lt] at hnw
      by_cases c3 : eps < n
      · rw [if_pos c3] at h
        split at h
        · cases h
        · rename_i hc
          push Not at hc
          simp only [Option.some.injEq, Prod.mk.injEq] at h
          obtain ⟨rfl, rfl, rfl⟩ := h
          have hin : InCube (r.apply n) := (hcube n).2 ⟨le_rfl, hnw⟩
          refine ⟨⟨c3, hc.1, hin⟩, Or.inl ⟨fun t' ht' hh => ?_, ?_⟩⟩
          · linarith [((hcube t').1 hh).1]
          · rcases hbx with ⟨e, e'⟩ | ⟨e, e'⟩
            · rcases hax with ⟨f, f'⟩ | ⟨f, f'⟩
              · rw [e', f', gx]; rw [e, f] at hin ⊢; exact fx hin
              · rw [e', f', gy]; rw [e, f] at hin ⊢; exact fy hin
            · rw [e', gz]; rw [e] at hin ⊢; exact fz hin
      · rw [if_neg c3] at h
        split at h
        · rename_i c4
          split at h
          · cases h
          · rename_i hc
            push Not at hc
            simp only [Option.some.injEq, Prod.mk.injEq] at h
            obtain ⟨rfl, rfl, rfl⟩ := h
            refine ⟨⟨c4, hc.1, (hcube _).2 ⟨hnw, le_rfl⟩⟩, Or.inr ⟨fun t' h1 h2 => ?_, fun t' ht' hh => ?_⟩⟩
            · exact (hcube t').2 ⟨by linarith [not_lt.1 c3], h2⟩
            · linarith [((hcube t').1 hh).2]
        · cases h

/-- **C64**, completeness: an unmasked call that reports no hit has no crossing of the surface between
`eps` and the current distance: either the ray is out of the box all along, or inside all along. -/
theorem C64_miss (eps : K) (r : Ray K) (D : K) (hx : r.d.x ≠ 0) (hy : r.d.y ≠ 0) (hz : r.d.z ≠ 0)
    (h : boxIntersect eps false r D = none) :
    (∀ t, eps < t → t ≤ D → ¬ InCube (r.apply t)) ∨
    (∀ t, eps < t → t ≤ D → InCube (r.apply t)) := by
  have cube := cube_iff r hx hy hz
  unfold boxIntersect at h
  simp only at h
  generalize slab r.o.x r.d.x = sx at *
  generalize slab r.o.y r.d.y = sy at *
  generalize slab r.o.z r.d.z = sz at *
  obtain ⟨x1, x2⟩ := sx
  obtain ⟨y1, y2⟩ := sy
  obtain ⟨z1, z2⟩ := sz
  simp only at *
  obtain ⟨m, ax, hm, hxm, hym, hax⟩ : ∃ m ax, (if x1 < y1 then (y1, 1) else (x1, 0) : K × Nat) = (m, ax) ∧
      x1 ≤ m ∧ y1 ≤ m ∧ ((m = x1 ∧ ax = 0) ∨ (m = y1 ∧ ax = 1)) := by
    by_cases c : x1 < y1
    · exact ⟨y1, 1, by rw [if_pos c], c.le, le_rfl, Or.inr ⟨rfl, rfl⟩⟩
    · exact ⟨x1, 0, by rw [if_neg c], le_rfl, not_lt.1 c, Or.inl ⟨rfl, rfl⟩⟩
  rw [hm] at h
  simp only at h
  obtain ⟨n, bx, hn, hxn, hzn, hbx⟩ : ∃ n bx, (if m < z1 then (z1, 2) else (m, ax) : K × Nat) = (n, bx) ∧
      m ≤ n ∧ z1 ≤ n ∧ ((n = m ∧ bx = ax) ∨ (n = z1 ∧ bx = 2)) := by
    by_cases c : m < z1
    · exact ⟨z1, 2, by rw [if_pos c], c.le, le_rfl, Or.inr ⟨rfl, rfl⟩⟩
    · exact ⟨m, ax, by rw [if_neg c], le_rfl, not_lt.1 c, Or.inl ⟨rfl, rfl⟩⟩
  rw [hn] at h
  simp only at h
  generalize hq : (if y2 < x2 then y2 else x2) = q at h
  have hq1 : q ≤ x2 ∧ q ≤ y2 ∧ (q = x2 ∨ q = y2) := by
    by_cases c : y2 < x2
    · rw [if_pos c] at hq; subst hq; exact ⟨c.le, le_rfl, Or.inr rfl⟩
    · rw [if_neg c] at hq; subst hq; exact ⟨le_rfl, not_lt.1 c, Or.inl rfl⟩
  generalize hw : (if z2 < q then z2 else q) = w at h
  have hw1 : w ≤ q ∧ w ≤ z2 ∧ (w = q ∨ w = z2) := by
    by_cases c : z2 < q
    · rw [if_pos c] at hw; subst hw; exact ⟨c.le, le_rfl, Or.inr rfl⟩
    · rw [if_neg c] at hw; subst hw; exact ⟨le_rfl, not_lt.1 c, Or.inl rfl⟩
  have hcube : ∀ t, InCube (r.apply t) ↔ n ≤ t ∧ t ≤ w := by
    intro t
    rw [cube t]
    constructor
    · rintro ⟨⟨a, b, c⟩, d, e, f⟩
      constructor
      · rcases hbx with ⟨e, -⟩ | ⟨e, -⟩ <;> rcases hax with ⟨e', -⟩ | ⟨e', -⟩ <;> linarith
      · rcases hw1.2.2 with e | e <;> rcases hq1.2.2 with e' | e' <;> linarith
    · rintro ⟨a, b⟩
      refine ⟨⟨?_, ?_, ?_⟩, ?_, ?_, ?_⟩ <;> linarith [hw1.1, hw1.2.1, hq1.1, hq1.2.1]
  by_cases c1 : q < m
  · left; intro t _ _ hh; have := (hcube t).1 hh; linarith [hw1.1]
  · rw [if_neg c1] at h
    by_cases c2 : w < n
    · left; intro t _ _ hh; have := (hcube t).1 hh; linarith
    · rw [if_neg c2] at h
      by_cases c3 : eps < n
      · rw [if_pos c3] at h
        have c4 : D < n := by
          by_contra hh
          rw [if_neg (by simpa using hh)] at h
          cases h
        left; intro t _ _ hh; have := (hcube t).1 hh; linarith
      · rw [if_neg c3] at h
        rw [not_lt] at c3
        by_cases c4 : eps < w
        · rw [if_pos c4] at h
          have c5 : D < w := by
            by_contra hh
            rw [if_neg (by simpa using hh)] at h
            cases h
          right; intro t h1 h2; exact (hcube t).2 ⟨by linarith, by linarith⟩
        · left; intro t h1 _ hh; have := (hcube t).1 hh; linarith

/-- A hit from outside, with its normal. -/
example : boxIntersect (1 / 100 : ℚ) false ⟨⟨1 / 2, 2, 1 / 4⟩, ⟨1 / 8, -1, 1 / 8⟩⟩ 10 = some (1, 1, 1) ∧
    OnFace (axisNormal 1 (1 : ℚ)) (Ray.apply ⟨⟨1 / 2, 2, 1 / 4⟩, ⟨1 / 8, -1, 1 / 8⟩⟩ 1) := by
  constructor
  · decide +kernel
  · norm_num [OnFace, axisNormal, Ray.apply, dot]

/-- A miss, and a ray that stays inside up to the current distance. -/
example : boxIntersect (1 / 100 : ℚ) false ⟨⟨1 / 2, 2, 1 / 4⟩, ⟨1 / 8, 1, 1 / 8⟩⟩ 10 = none ∧
    boxIntersect (1 / 100 : ℚ) false ⟨⟨1 / 2, 1 / 2, 1 / 2⟩, ⟨1 / 8, 1, 1 / 8⟩⟩ (1 / 4) = none := by
  decide +kernel

end Spectre.Shapes
