import Verif.Model.AABB
import Mathlib.Tactic.Linarith
import Mathlib.Tactic.Ring
import Mathlib.Algebra.BigOperators.Fin
import Mathlib.Tactic.NormNum
import Mathlib.Tactic.Positivity
import Mathlib.Tactic.FinCases
import Mathlib.Data.Rat.Defs
import Mathlib.Algebra.Order.Field.Rat

/-
Properties C24 (boxes combine as a least upper bound) and C25 (ray-box test).
-/

namespace Spectre.AABB

/-! ### C24 -/

section lub
variable {L : Type} [LinearOrder L]

theorem fmin_eq (a b : L) : fmin a b = min a b := by
  unfold fmin
  rcases lt_or_ge a b with h | h
  · rw [if_pos h, min_eq_left h.le]
  · rw [if_neg (not_lt.2 h), min_eq_right h]

theorem fmax_eq (a b : L) : fmax a b = max a b := by
  unfold fmax
  rcases lt_or_ge b a with h | h
  · rw [if_pos h, max_eq_left h.le]
  · rw [if_neg (not_lt.2 h), max_eq_right h]

/-- Independent spec: the set of points of a box. -/
def Mem (b : Box L) (p : Fin 3 → L) : Prop := ∀ i, b.lo i ≤ p i ∧ p i ≤ b.hi i

/-- A box with at least one point. -/
def NonEmpty (b : Box L) : Prop := ∀ i, b.lo i ≤ b.hi i

theorem Box.ext' {a b : Box L} (h1 : ∀ i, a.lo i = b.lo i) (h2 : ∀ i, a.hi i = b.hi i) : a = b := by
  cases a; cases b
  congr
  · funext i; exact h1 i
  · funext i; exact h2 i

/-- **C24.** `inside` decides membership. -/
theorem C24_inside_iff (b : Box L) (p : Fin 3 → L) : inside b p = true ↔ Mem b p := by
  unfold inside Mem
  simp only [Bool.and_eq_true, decide_eq_true_eq]
  constructor
  · rintro ⟨⟨⟨⟨⟨h1, h2⟩, h3⟩, h4⟩, h5⟩, h6⟩ i
    fin_cases i
    · exact ⟨h1, h2⟩
    · exact ⟨h3, h4⟩
    · exact ⟨h5, h6⟩
  · intro h
    exact ⟨⟨⟨⟨⟨(h 0).1, (h 0).2⟩, (h 1).1⟩, (h 1).2⟩, (h 2).1⟩, (h 2).2⟩

/-- **C24.** The combined box contains all points of both boxes … -/
theorem C24_engulf_contains (a b : Box L) (p : Fin 3 → L) (h : Mem a p ∨ Mem b p) :
    Mem (engulf a b) p := by
  intro i
  simp only [engulf, fmin_eq, fmax_eq]
  rcases h with h | h
  · exact ⟨le_trans (min_le_left _ _) (h i).1, le_trans (h i).2 (le_max_left _ _)⟩
  · exact ⟨le_trans (min_le_right _ _) (h i).1, le_trans (h i).2 (le_max_right _ _)⟩

/-- … and is contained in every box that contains both. -/
theorem C24_engulf_least (a b c : Box L) (ha : NonEmpty a) (hb : NonEmpty b)
    (h : ∀ p, Mem a p ∨ Mem b p → Mem c p) : ∀ p, Mem (engulf a b) p → Mem c p := by
  have h1 := h a.lo (Or.inl fun i => ⟨le_refl _, ha i⟩)
  have h2 := h a.hi (Or.inl fun i => ⟨ha i, le_refl _⟩)
  have h3 := h b.lo (Or.inr fun i => ⟨le_refl _, hb i⟩)
  have h4 := h b.hi (Or.inr fun i => ⟨hb i, le_refl _⟩)
  intro p hp i
  have := hp i
  simp only [engulf, fmin_eq, fmax_eq] at this
  exact ⟨le_trans (le_min (h1 i).1 (h3 i).1) this.1, le_trans this.2 (max_le (h2 i).2 (h4 i).2)⟩

/-- **C24.** Engulfing a point is engulfing the one-point box. -/
theorem C24_engulf_point (b : Box L) (p : Fin 3 → L) : engulfPoint b p = engulf b (ofPoint p) := rfl

theorem C24_comm (a b : Box L) : engulf a b = engulf b a :=
  Box.ext' (fun i => by simp only [engulf, fmin_eq, min_comm])
    (fun i => by simp only [engulf, fmax_eq, max_comm])

theorem C24_assoc (a b c : Box L) : engulf (engulf a b) c = engulf a (engulf b c) :=
  Box.ext' (fun i => by simp only [engulf, fmin_eq, min_assoc])
    (fun i => by simp only [engulf, fmax_eq, max_assoc])

theorem C24_idem (a : Box L) : engulf a a = a :=
  Box.ext' (fun i => by simp only [engulf, fmin_eq, min_self])
    (fun i => by simp only [engulf, fmax_eq, max_self])

theorem C24_empty_left [BoundedOrder L] (a : Box L) : engulf empty a = a :=
  Box.ext' (fun i => by simp [engulf, empty, fmin_eq])
    (fun i => by simp [engulf, empty, fmax_eq])

/-- **C24.** The box of a list of parts does not depend on the order in which they are added. -/
theorem C24_order_independent (l l' : List (Box L)) (h : l.Perm l') (init : Box L) :
    l.foldl engulf init = l'.foldl engulf init := by
  induction h generalizing init with
  | nil => rfl
  | cons x _ ih => exact ih _
  | swap x y l =>
    simp only [List.foldl_cons]
    rw [C24_assoc, C24_comm y x, ← C24_assoc]
  | trans _ _ ih1 ih2 => rw [ih1, ih2]

/-- **C24.** The fold over all parts contains each part. -/
theorem C24_fold_contains (l : List (Box L)) (b init : Box L) (hb : b ∈ l) (p : Fin 3 → L)
    (hp : Mem b p) : Mem (l.foldl engulf init) p := by
  have keep : ∀ (l : List (Box L)) (i : Box L), Mem i p → Mem (l.foldl engulf i) p := by
    intro l
    induction l with
    | nil => intro i h; exact h
    | cons x l ih => intro i h; exact ih _ (C24_engulf_contains _ _ _ (Or.inl h))
  induction l generalizing init with
  | nil => simp at hb
  | cons x l ih =>
    rcases List.mem_cons.1 hb with rfl | hb
    · exact keep l _ (C24_engulf_contains _ _ _ (Or.inr hp))
    · exact ih _ hb

end lub

/-- Non-vacuity: two boxes of ℚ, one a translate of the other. -/
example : NonEmpty (⟨fun _ => 0, fun _ => 1⟩ : Box ℚ) ∧
    Mem (engulf (⟨fun _ => 0, fun _ => 1⟩ : Box ℚ) ⟨fun _ => 2, fun _ => 3⟩) (fun _ => 3 / 2) := by
  constructor
  · intro i; norm_num
  · intro i; simp only [engulf, fmin_eq, fmax_eq]; norm_num

section geo
variable {K : Type} [Field K] [LinearOrder K] [IsStrictOrderedRing K]

/-- **C24.** A box contained in another has a smaller or equal surface (used by the build
heuristics). -/
theorem C24_surface_mono (a b : Box K) (ha : NonEmpty a) (h : ∀ p, Mem a p → Mem b p) :
    0 ≤ surface a ∧ surface a ≤ surface b := by
  have h1 := h a.lo (fun i => ⟨le_refl _, ha i⟩)
  have h2 := h a.hi (fun i => ⟨ha i, le_refl _⟩)
  have key : ∀ i, 0 ≤ a.hi i - a.lo i ∧ a.hi i - a.lo i ≤ b.hi i - b.lo i := by
    intro i
    have := ha i; have := (h1 i).1; have := (h2 i).2
    constructor <;> linarith
  unfold surface
  simp only
  obtain ⟨x0, x1⟩ := key 0
  obtain ⟨y0, y1⟩ := key 1
  obtain ⟨z0, z1⟩ := key 2
  generalize a.hi 0 - a.lo 0 = ax at *
  generalize a.hi 1 - a.lo 1 = ay at *
  generalize a.hi 2 - a.lo 2 = az at *
  constructor
  · positivity
  · have e1 := mul_le_mul x1 y1 y0 (le_trans x0 x1)
    have e2 := mul_le_mul x1 z1 z0 (le_trans x0 x1)
    have e3 := mul_le_mul y1 z1 z0 (le_trans y0 y1)
    linarith

/-- Extent of a box along an axis. -/
def ext (b : Box K) (i : Fin 3) : K := b.hi i - b.lo i

/-- **C80.** `surface` is the sum over the axes of the areas of the two faces orthogonal to it. -/
theorem C80_surface (b : Box K) : surface b = ∑ i, 2 * ∏ j ∈ Finset.univ.erase i, ext b j := by
  have e0 : (Finset.univ.erase 0 : Finset (Fin 3)) = {1, 2} := by decide
  have e1 : (Finset.univ.erase 1 : Finset (Fin 3)) = {0, 2} := by decide
  have e2 : (Finset.univ.erase 2 : Finset (Fin 3)) = {0, 1} := by decide
  rw [Fin.sum_univ_three, e0, e1, e2, Finset.prod_pair (by decide), Finset.prod_pair (by decide),
    Finset.prod_pair (by decide)]
  unfold surface ext
  ring

/-- **C80.** `volume` is the product of the extents. -/
theorem C80_volume (b : Box K) : volume b = ∏ i, ext b i := by
  rw [Fin.prod_univ_three]; rfl

/-- **C80.** Cutting a box by a plane splits its volume. -/
theorem C80_volume_split (b : Box K) (i : Fin 3) (x : K) :
    volume ⟨b.lo, Function.update b.hi i x⟩ + volume ⟨Function.update b.lo i x, b.hi⟩ = volume b := by
  unfold volume
  fin_cases i <;> simp <;> ring

/-- **C80.** `center` is the point with the same distance to the two faces of each axis, and the only one;
it is inside of the box. -/
theorem C80_center (b : Box K) (p : Fin 3 → K) :
    (p = center b ↔ ∀ i, p i - b.lo i = b.hi i - p i) ∧ (NonEmpty b → Mem b (center b)) := by
  constructor
  · constructor
    · rintro rfl i
      unfold center; ring
    · intro h
      funext i
      have := h i
      unfold center
      linarith
  · intro h i
    have := h i
    unfold center
    constructor <;> linarith

/-- Non-vacuity: a box of sides 1, 2, 3. -/
example : surface (⟨fun _ => 0, fun i => i.val + 1⟩ : Box ℚ) = 22 ∧
    volume (⟨fun _ => 0, fun i => i.val + 1⟩ : Box ℚ) = 6 := by
  constructor <;> norm_num [surface, volume]

/-- **C24.** `longest_axis` returns an axis of maximal extent. -/
theorem C24_longest_axis (b : Box K) (i : Fin 3) :
    b.hi i - b.lo i ≤ b.hi (longestAxis b) - b.lo (longestAxis b) := by
  unfold longestAxis
  simp only
  split
  · rename_i h; fin_cases i
    · exact le_refl _
    · exact h.1
    · exact h.2
  · rename_i h
    split
    · rename_i h2
      have h3 : b.hi 0 - b.lo 0 ≤ b.hi 1 - b.lo 1 := by
        by_contra hc
        push Not at hc
        exact h ⟨hc.le, le_trans h2 hc.le⟩
      fin_cases i
      · exact h3
      · exact le_refl _
      · exact h2
    · rename_i h2
      push Not at h2
      have h3 : b.hi 0 - b.lo 0 ≤ b.hi 2 - b.lo 2 := by
        by_contra hc
        push Not at hc
        exact h ⟨le_trans h2.le hc.le, hc.le⟩
      fin_cases i
      · exact h3
      · exact h2.le
      · exact le_refl _

/-- `operator==` is not equality of boxes: two different boxes with the same surface compare equal.
(Recorded in DESIGN.md; the operator is unused by the renderer.) -/
theorem C24_eqOp_not_equality : ∃ a b : Box ℚ, eqOp a b ∧ a ≠ b := by
  refine ⟨⟨fun _ => 0, fun _ => 1⟩, ⟨fun _ => 1, fun _ => 2⟩, ?_, ?_⟩
  · unfold eqOp surface; norm_num
  · intro h
    have := congrArg (fun b => b.lo 0) h
    norm_num at this

/-! ### C25 -/

/-- Parameters of the ray's line at which the coordinate `i` is within the box. -/
theorem slab_iff (b : Box K) (r : Ray K) (i : Fin 3) (hd : r.d i ≠ 0) (t : K) :
    ((slab b r i).1 ≤ t ∧ t ≤ (slab b r i).2) ↔
      (b.lo i ≤ r.o i + t * r.d i ∧ r.o i + t * r.d i ≤ b.hi i) := by
  unfold slab
  simp only
  rcases lt_or_gt_of_ne hd with h | h
  · rw [if_pos (by rw [one_div]; exact inv_lt_zero.2 h)]
    simp only [mul_one_div]
    rw [div_le_iff_of_neg h, le_div_iff_of_neg h]
    constructor
    · rintro ⟨h1, h2⟩; constructor <;> linarith
    · rintro ⟨h1, h2⟩; constructor <;> linarith
  · rw [if_neg (by rw [one_div, not_lt]; exact (inv_pos.2 h).le)]
    simp only [mul_one_div]
    rw [div_le_iff₀ h, le_div_iff₀ h]
    constructor
    · rintro ⟨h1, h2⟩; constructor <;> linarith
    · rintro ⟨h1, h2⟩; constructor <;> linarith

theorem slab_nonempty (b : Box K) (r : Ray K) (i : Fin 3) (hb : b.lo i ≤ b.hi i) :
    (slab b r i).1 ≤ (slab b r i).2 := by
  unfold slab
  simp only
  split
  · rename_i h
    exact mul_le_mul_of_nonpos_right (by linarith) h.le
  · rename_i h
    push Not at h
    exact mul_le_mul_of_nonneg_right (by linarith) h

theorem clip_some {c s e : K × K} (h : clip c s = some e) :
    e.1 = max c.1 s.1 ∧ e.2 = min c.2 s.2 := by
  unfold clip at h
  split at h
  · exact absurd h (by simp)
  · simp only [Option.some.injEq] at h
    subst h
    constructor
    · simp only; split
      · rename_i h; rw [max_eq_right h.le]
      · rename_i h; push Not at h; rw [max_eq_left h]
    · simp only; split
      · rename_i h; rw [min_eq_right h.le]
      · rename_i h; push Not at h; rw [min_eq_left h]

theorem clip_nonempty {c s e : K × K} (hc : c.1 ≤ c.2) (hs : s.1 ≤ s.2) (h : clip c s = some e) :
    e.1 ≤ e.2 := by
  obtain ⟨h1, h2⟩ := clip_some h
  unfold clip at h
  split at h
  · exact absurd h (by simp)
  · rename_i hn
    push Not at hn
    rw [h1, h2]
    exact max_le (le_min hc hn.1) (le_min hn.2 hs)

theorem clip_none {c s : K × K} (h : clip c s = none) (t : K) :
    ¬ ((c.1 ≤ t ∧ t ≤ c.2) ∧ (s.1 ≤ t ∧ t ≤ s.2)) := by
  unfold clip at h
  split at h
  · rename_i hc
    rintro ⟨⟨a, b⟩, ⟨d, e⟩⟩
    rcases hc with hc | hc
    · exact absurd (le_trans a e) (not_le.2 hc)
    · exact absurd (le_trans d b) (not_le.2 hc)
  · exact absurd h (by simp)

/-- Point of the ray's line at parameter `t` (`Ray::apply`, ray.cpp:24-29). -/
def Ray.at (r : Ray K) (t : K) : Fin 3 → K := fun i => r.o i + t * r.d i

/-- **C25.** When the slab test succeeds, the reported parameters are exactly the end points of the
(non-empty) set of parameters whose point lies in the box. -/
theorem C25_interval_exact (b : Box K) (r : Ray K) (hb : NonEmpty b) (hd : ∀ i, r.d i ≠ 0)
    (p : K × K) (h : intersect b r = some p) :
    p.1 ≤ p.2 ∧ ∀ t, Mem b (r.at t) ↔ (p.1 ≤ t ∧ t ≤ p.2) := by
  unfold intersect at h
  obtain ⟨c, hc, hp⟩ := Option.bind_eq_some_iff.1 h
  have ne1 := clip_nonempty (slab_nonempty b r 0 (hb 0)) (slab_nonempty b r 1 (hb 1)) hc
  refine ⟨clip_nonempty ne1 (slab_nonempty b r 2 (hb 2)) hp, ?_⟩
  intro t
  obtain ⟨c1, c2⟩ := clip_some hc
  obtain ⟨p1, p2⟩ := clip_some hp
  rw [p1, p2, c1, c2]
  simp only [max_le_iff, le_min_iff]
  have s0 := slab_iff b r 0 (hd 0) t
  have s1 := slab_iff b r 1 (hd 1) t
  have s2 := slab_iff b r 2 (hd 2) t
  constructor
  · intro hm
    have m0 := s0.2 (hm 0)
    have m1 := s1.2 (hm 1)
    have m2 := s2.2 (hm 2)
    exact ⟨⟨⟨m0.1, m1.1⟩, m2.1⟩, ⟨⟨m0.2, m1.2⟩, m2.2⟩⟩
  · rintro ⟨⟨⟨a0, a1⟩, a2⟩, ⟨⟨b0, b1⟩, b2⟩⟩ i
    fin_cases i
    · exact s0.1 ⟨a0, b0⟩
    · exact s1.1 ⟨a1, b1⟩
    · exact s2.1 ⟨a2, b2⟩

/-- **C25.** The slab test fails only when no point of the line is in the box. -/
theorem C25_reject_sound (b : Box K) (r : Ray K) (hd : ∀ i, r.d i ≠ 0)
    (h : intersect b r = none) (t : K) : ¬ Mem b (r.at t) := by
  intro hm
  have s0 := (slab_iff b r 0 (hd 0) t).2 (hm 0)
  have s1 := (slab_iff b r 1 (hd 1) t).2 (hm 1)
  have s2 := (slab_iff b r 2 (hd 2) t).2 (hm 2)
  unfold intersect at h
  cases hc : clip (slab b r 0) (slab b r 1) with
  | none => exact clip_none hc t ⟨s0, s1⟩
  | some c =>
    rw [hc] at h
    simp only [Option.bind_some] at h
    obtain ⟨c1, c2⟩ := clip_some hc
    refine clip_none h t ⟨⟨?_, ?_⟩, s2⟩
    · rw [c1]; exact max_le s0.1 s1.1
    · rw [c2]; exact le_min s0.2 s1.2

/-- **C25.** Success if and only if the line meets the box. -/
theorem C25_accepts_iff (b : Box K) (r : Ray K) (hb : NonEmpty b) (hd : ∀ i, r.d i ≠ 0) :
    (intersect b r).isSome = true ↔ ∃ t, Mem b (r.at t) := by
  constructor
  · intro h
    obtain ⟨p, hp⟩ := Option.isSome_iff_exists.1 h
    obtain ⟨h1, h2⟩ := C25_interval_exact b r hb hd p hp
    exact ⟨p.1, (h2 p.1).2 ⟨le_refl _, h1⟩⟩
  · rintro ⟨t, ht⟩
    cases h : intersect b r with
    | none => exact absurd ht (C25_reject_sound b r hd h t)
    | some p => rfl

/-- **C25.** The two overloads agree. -/
theorem C25_overloads_agree (b : Box K) (r : Ray K) (hd : ∀ i, r.d i ≠ 0) :
    intersectNoProps b r = intersect b r := by
  have e : ∀ i, slab' b r i = slab b r i := by
    intro i
    unfold slab slab'
    simp only
    rcases lt_or_gt_of_ne (hd i) with h | h
    · rw [if_neg (not_le.2 h), if_pos (by rw [one_div]; exact inv_lt_zero.2 h)]
    · rw [if_pos h.le, if_neg (by rw [one_div, not_lt]; exact (inv_pos.2 h).le)]
  unfold intersectNoProps intersect
  rw [e, e, e]

end geo

/-- **C25.** The test does not reject boxes behind the origin: this ray points away from the box and
is still accepted, with a negative exit parameter. -/
theorem C25_behind_accepted :
    intersect (⟨fun _ => -2, fun _ => -1⟩ : Box ℚ) ⟨fun _ => 0, fun _ => 1⟩ = some (-2, -1) := by
  unfold intersect slab clip
  norm_num

/-- Non-vacuity: a box, and a ray with no zero component and one negative component. -/
example : NonEmpty (⟨fun _ => 0, fun _ => 1⟩ : Box ℚ) ∧
    (∀ i, (⟨fun _ => 2, fun i => if i = 1 then -1 else -2⟩ : Ray ℚ).d i ≠ 0) := by
  constructor
  · intro i; norm_num
  · intro i; fin_cases i <;> norm_num

end Spectre.AABB
