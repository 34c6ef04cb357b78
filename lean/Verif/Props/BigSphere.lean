import Verif.Model.BigSphere
import Verif.Props.Config
import Verif.Props.Asset
import Verif.Props.Light

/-
C161: a sphere has the size the scene gives it.
-/

namespace Spectre.BigSphere
open Spectre.Geom Spectre.Shapes Spectre.Light

/-- The squared distance of a point from the centre of the unit sphere. -/
noncomputable def sq (p : V3 ℝ) : ℝ := dot p p

/-- Specification: `t` is the first parameter in `[eps, D]` at which the ray is on the unit sphere. -/
def First (eps D : ℝ) (r : Ray ℝ) (t : ℝ) : Prop :=
  eps ≤ t ∧ t ≤ D ∧ sq (r.apply t) = 1 ∧ ∀ s, eps ≤ s → s ≤ D → sq (r.apply s) = 1 → t ≤ s

/-- The squared distance between the centre and the line of the ray: `|o|² - (o·d)²/|d|²`. -/
noncomputable def missSq (r : Ray ℝ) : ℝ := dot r.o r.o - dot r.d r.o ^ 2 / dot r.d r.d

/-- The parameter of the point of the line next to the centre. -/
noncomputable def nearest (r : Ray ℝ) : ℝ := -dot r.d r.o / dot r.d r.d

theorem sq_apply (r : Ray ℝ) (t : ℝ) :
    sq (r.apply t) = dot r.d r.d * t * t + 2 * dot r.d r.o * t + (dot r.o r.o - 1) + 1 := by
  simp only [sq, dot, Ray.apply]; ring

/-- No point of the line is closer to the centre than `missSq`, and the point at `nearest` is that far. -/
theorem missSq_le (r : Ray ℝ) (h : 0 < dot r.d r.d) (t : ℝ) :
    sq (r.apply t) = missSq r + dot r.d r.d * (t - nearest r) ^ 2 := by
  rw [sq_apply]
  unfold missSq nearest
  field_simp
  ring

theorem delta_eq (r : Ray ℝ) (h : 0 < dot r.d r.d) :
    2 * dot r.d r.o * (2 * dot r.d r.o) - 4 * dot r.d r.d * (dot r.o r.o - 1) = 4 * dot r.d r.d * (1 - missSq r) := by
  unfold missSq
  field_simp
  ring

/-- What the code adds to the squared radius: the discriminant may be as low as `-1e-4`. -/
noncomputable def slack (r : Ray ℝ) : ℝ := 1 / (40000 * dot r.d r.d)

theorem slack_iff (r : Ray ℝ) (h : 0 < dot r.d r.d) :
    -(1 / 10000) ≤ 4 * dot r.d r.d * (1 - missSq r) ↔ missSq r ≤ 1 + slack r := by
  unfold slack
  generalize dot r.d r.d = a at *
  generalize missSq r = m
  have e : 1 / (40000 * a) = 1 / 40000 / a := by field_simp
  rw [e]
  constructor
  · intro h1
    have : m - 1 ≤ 1 / 40000 / a := by rw [le_div_iff₀ h]; linarith
    linarith
  · intro h1
    have : m - 1 ≤ 1 / 40000 / a := by linarith
    rw [le_div_iff₀ h] at this
    linarith

/-- The code after the equation, for two sorted roots. -/
theorem pick (eps D : ℝ) (r : Ray ℝ) (s1 s2 : ℝ)
    (h : equation2 (dot r.d r.d) (2 * dot r.d r.o) (dot r.o r.o - 1) = some (s1, s2)) :
    sphereIntersect eps (fun _ => false) r D =
      if D < min s1 s2 then none
      else if min s1 s2 < eps then
        if max s1 s2 < eps ∨ D < max s1 s2 then none else some (max s1 s2, r.apply (max s1 s2))
      else some (min s1 s2, r.apply (min s1 s2)) := by
  unfold sphereIntersect
  simp only [h]
  by_cases c : s2 < s1
  · rw [min_eq_right c.le, max_eq_left c.le]
    simp only [if_pos c, reduceIte]
    split_ifs <;> simp_all
  · rw [min_eq_left (not_lt.1 c), max_eq_right (not_lt.1 c)]
    simp only [if_neg c, reduceIte]
    split_ifs <;> simp_all

/-- **C161.** If the line of the ray crosses the sphere, touches it, or is farther from it than the slack, then the hit is
the first point of the ray on the sphere within the limits, and there is none exactly if there is no such point. -/
theorem C161_first_partial (eps D : ℝ) (r : Ray ℝ) (hr : 0 < dot r.d r.d) (hm : missSq r ≤ 1 ∨ 1 + slack r < missSq r) :
    (∀ t p, sphereIntersect eps (fun _ => false) r D = some (t, p) ↔ First eps D r t ∧ p = r.apply t) ∧
    (sphereIntersect eps (fun _ => false) r D = none ↔ ∀ t, eps ≤ t → t ≤ D → sq (r.apply t) ≠ 1) := by
  have hd : 2 * dot r.d r.o * (2 * dot r.d r.o) - 4 * dot r.d r.d * (dot r.o r.o - 1) < 0 →
      2 * dot r.d r.o * (2 * dot r.d r.o) - 4 * dot r.d r.d * (dot r.o r.o - 1) < -(1 / 10000) := by
    rw [delta_eq r hr]
    intro h1
    rcases hm with h2 | h2
    · have := mul_nonneg (mul_nonneg (by norm_num : (0 : ℝ) ≤ 4) hr.le) (by linarith : 0 ≤ 1 - missSq r)
      linarith
    · by_contra h3
      rw [not_lt, slack_iff r hr] at h3
      linarith
  obtain ⟨h1, h2⟩ := Config.C62_equation2_partial _ _ _ hr.ne' hd
  have key : ∀ t, sq (r.apply t) = 1 ↔ dot r.d r.d * t * t + 2 * dot r.d r.o * t + (dot r.o r.o - 1) = 0 := by
    intro t
    rw [sq_apply]
    constructor <;> intro h <;> linarith
  have two : ∀ t p, sphereIntersect eps (fun _ => false) r D = some (t, p) → First eps D r t ∧ p = r.apply t := by
    intro t p h
    cases e : equation2 (dot r.d r.d) (2 * dot r.d r.o) (dot r.o r.o - 1) with
    | none => unfold sphereIntersect at h; simp only [e] at h; cases h
    | some s =>
      obtain ⟨s1, s2⟩ := s
      have roots : ∀ x, sq (r.apply x) = 1 ↔ x = min s1 s2 ∨ x = max s1 s2 := by
        intro x
        rw [key, h2 s1 s2 e]
        rcases le_total s1 s2 with c | c
        · rw [min_eq_left c, max_eq_right c]
        · rw [min_eq_right c, max_eq_left c, or_comm]
      have hle : min s1 s2 ≤ max s1 s2 := min_le_max
      rw [pick eps D r s1 s2 e] at h
      generalize min s1 s2 = a at *
      generalize max s1 s2 = b at *
      split_ifs at h with c1 c2 c3
      · simp only [Option.some.injEq, Prod.mk.injEq] at h
        obtain ⟨rfl, rfl⟩ := h
        push Not at c3
        refine ⟨⟨c3.1, c3.2, (roots _).2 (Or.inr rfl), fun s hs _ hq => ?_⟩, rfl⟩
        rcases (roots s).1 hq with rfl | rfl
        · linarith
        · exact le_refl _
      · simp only [Option.some.injEq, Prod.mk.injEq] at h
        obtain ⟨rfl, rfl⟩ := h
        refine ⟨⟨not_lt.1 c2, not_lt.1 c1, (roots _).2 (Or.inl rfl), fun s _ _ hq => ?_⟩, rfl⟩
        rcases (roots s).1 hq with rfl | rfl
        · exact le_refl _
        · exact hle
  have none' : sphereIntersect eps (fun _ => false) r D = none → ∀ t, eps ≤ t → t ≤ D → sq (r.apply t) ≠ 1 := by
    intro h t t1 t2
    rw [Ne, key]
    cases e : equation2 (dot r.d r.d) (2 * dot r.d r.o) (dot r.o r.o - 1) with
    | none => exact h1.1 e t
    | some s =>
      obtain ⟨s1, s2⟩ := s
      rw [h2 s1 s2 e]
      have : (t = s1 ∨ t = s2) ↔ (t = min s1 s2 ∨ t = max s1 s2) := by
        rcases le_total s1 s2 with c | c
        · rw [min_eq_left c, max_eq_right c]
        · rw [min_eq_right c, max_eq_left c, or_comm]
      rw [this]
      have hle : min s1 s2 ≤ max s1 s2 := min_le_max
      rw [pick eps D r s1 s2 e] at h
      generalize min s1 s2 = a at *
      generalize max s1 s2 = b at *
      split_ifs at h with c1 c2 c3
      · rintro (rfl | rfl) <;> linarith
      · rintro (rfl | rfl)
        · linarith
        · rcases c3 with c3 | c3 <;> linarith
  refine ⟨fun t p => ⟨two t p, ?_⟩, ⟨none', ?_⟩⟩
  · rintro ⟨hf, rfl⟩
    cases e : sphereIntersect eps (fun _ => false) r D with
    | none => exact absurd hf.2.2.1 (none' e t hf.1 hf.2.1)
    | some x =>
      obtain ⟨s, p⟩ := x
      obtain ⟨hs, rfl⟩ := two s p e
      have : s = t := le_antisymm (hs.2.2.2 t hf.1 hf.2.1 hf.2.2.1) (hf.2.2.2 s hs.1 hs.2.1 hs.2.2.1)
      rw [this]
  · intro h
    cases e : sphereIntersect eps (fun _ => false) r D with
    | none => rfl
    | some x =>
      obtain ⟨s, p⟩ := x
      obtain ⟨hs, rfl⟩ := two s p e
      exact absurd hs.2.2.1 (h s hs.1 hs.2.1)

/-- **C161 fails within the slack.** A ray whose line passes by the sphere, but not farther than the slack, hits it in
its nearest point, which is not on the sphere. -/
theorem C161_enlarged (eps D : ℝ) (r : Ray ℝ) (hr : 0 < dot r.d r.d) (h1 : 1 < missSq r) (h2 : missSq r ≤ 1 + slack r)
    (he : eps ≤ nearest r) (hD : nearest r ≤ D) :
    sphereIntersect eps (fun _ => false) r D = some (nearest r, r.apply (nearest r)) ∧
    sq (r.apply (nearest r)) = missSq r ∧ ∀ t, 1 < sq (r.apply t) := by
  have e : equation2 (dot r.d r.d) (2 * dot r.d r.o) (dot r.o r.o - 1) = some (nearest r, nearest r) := by
    unfold equation2
    simp only
    rw [delta_eq r hr, if_pos]
    · congr 1
      have : -(2 * dot r.d r.o) / (dot r.d r.d * 2) = nearest r := by unfold nearest; field_simp
      rw [this]
    · constructor
      · have := mul_pos (mul_pos (by norm_num : (0 : ℝ) < 4) hr) (by linarith : 0 < missSq r - 1)
        linarith
      · have := (slack_iff r hr).2 h2
        linarith
  refine ⟨?_, ?_, ?_⟩
  · rw [pick eps D r _ _ e]
    simp only [min_self, max_self]
    rw [if_neg (not_lt.2 hD), if_neg (not_lt.2 he)]
  · rw [missSq_le r hr]; ring
  · intro t
    rw [missSq_le r hr]
    have := mul_nonneg hr.le (sq_nonneg (t - nearest r))
    linarith

/-- The squared distance of the line of the ray from a point of the scene. -/
noncomputable def missSqOf (c : V3 ℝ) (r : Ray ℝ) : ℝ := missSq ⟨sub r.o c, r.d⟩

/-- The centre of a placed sphere. -/
noncomputable def centre (m : M4 ℝ) : V3 ℝ := mulPoint m ⟨0, 0, 0⟩

/-- In object space lengths are divided by the radius. -/
theorem object_space {tol s : ℝ} (ht : 0 ≤ tol) {m w : M4 ℝ} (ha : Affine m) (hw : inverse tol m = some w) (hs : 0 < s)
    (h : Similarity m s) (r : Ray ℝ) :
    dot (mulRay w r).d (mulRay w r).d = dot r.d r.d / s ^ 2 ∧
    dot (mulRay w r).d (mulRay w r).o = dot r.d (sub r.o (centre m)) / s ^ 2 ∧
    dot (mulRay w r).o (mulRay w r).o = dot (sub r.o (centre m)) (sub r.o (centre m)) / s ^ 2 := by
  have hs2 : s ^ 2 ≠ 0 := by positivity
  have ho : mulVec m (mulRay w r).o = sub r.o (centre m) := by
    have e := mulVec_sub m ha (mulPoint w r.o) ⟨0, 0, 0⟩
    have e2 : sub (mulPoint w r.o) ⟨0, 0, 0⟩ = mulPoint w r.o := by simp [sub]
    rw [e2, (C26_round_trip tol ht m w hw ha r.o r 0).2.1] at e
    exact e.symm
  have hd : mulVec m (mulRay w r).d = r.d := map_back ht ha hw r.d
  have k := h (mulRay w r).d (mulRay w r).d
  have k2 := h (mulRay w r).d (mulRay w r).o
  have k3 := h (mulRay w r).o (mulRay w r).o
  rw [hd] at k
  rw [hd, ho] at k2
  rw [ho] at k3
  refine ⟨?_, ?_, ?_⟩ <;> rw [eq_div_iff hs2, mul_comm]
  · exact k.symm
  · exact k2.symm
  · exact k3.symm

theorem object_point {tol s : ℝ} (ht : 0 ≤ tol) {m w : M4 ℝ} (ha : Affine m) (hw : inverse tol m = some w) (hs : 0 < s)
    (h : Similarity m s) (r : Ray ℝ) (t : ℝ) :
    sq ((mulRay w r).apply t) = sq (sub (r.apply t) (centre m)) / s ^ 2 := by
  have hs2 : s ^ 2 ≠ 0 := by positivity
  have e := mulVec_sub m ha ((mulRay w r).apply t) ⟨0, 0, 0⟩
  have e2 : sub ((mulRay w r).apply t) ⟨0, 0, 0⟩ = (mulRay w r).apply t := by simp [sub]
  rw [e2, (C26_round_trip tol ht m w hw ha r.o r t).2.2] at e
  have k := h ((mulRay w r).apply t) ((mulRay w r).apply t)
  rw [← e] at k
  rw [eq_div_iff hs2, mul_comm]
  exact k.symm

/-- Specification: `t` is the first parameter in `[eps, D]` at which the ray is at the distance `s` from the point `c`. -/
def FirstOn (c : V3 ℝ) (s eps D : ℝ) (r : Ray ℝ) (t : ℝ) : Prop :=
  eps ≤ t ∧ t ≤ D ∧ sq (sub (r.apply t) c) = s ^ 2 ∧ ∀ x, eps ≤ x → x ≤ D → sq (sub (r.apply x) c) = s ^ 2 → t ≤ x

/-- Full statement of C161: a placed sphere is hit exactly at the points at the distance of its radius from its centre. -/
def C161_statement : Prop := ∀ (tol s eps D : ℝ) (m : M4 ℝ) (r : Ray ℝ), 0 ≤ tol → Affine m → tol < |det m| → 0 < s →
  Similarity m s → dot r.d r.d = 1 →
  match Asset.intersect (Asset.mk tol m) (sphereShape eps fun _ => false) r D with
  | .undefined => False
  | .hit h => FirstOn (centre m) s eps D r h.dist
  | .miss => ∀ t, eps ≤ t → t ≤ D → sq (sub (r.apply t) (centre m)) ≠ s ^ 2

section
variable {tol s : ℝ} {m : M4 ℝ} {r : Ray ℝ}

theorem inverse_some (hdet : tol < |det m|) : ∃ w, inverse tol m = some w := by
  unfold inverse
  rw [sub_zero, if_neg (not_le.2 hdet)]
  exact ⟨_, rfl⟩

theorem object_miss (ht : 0 ≤ tol) {w : M4 ℝ} (ha : Affine m) (hw : inverse tol m = some w) (hs : 0 < s)
    (h : Similarity m s) (hr : dot r.d r.d = 1) :
    missSq (mulRay w r) = missSqOf (centre m) r / s ^ 2 ∧ slack (mulRay w r) = s ^ 2 / 40000 ∧
    nearest (mulRay w r) = nearest ⟨sub r.o (centre m), r.d⟩ := by
  obtain ⟨e1, e2, e3⟩ := object_space ht ha hw hs h r
  refine ⟨?_, ?_, ?_⟩
  · unfold missSqOf missSq
    simp only
    rw [e1, e2, e3, hr]
    field_simp
  · unfold slack
    rw [e1, hr]
    field_simp
  · unfold nearest
    simp only
    rw [e1, e2, hr]
    field_simp

/-- **C161.** A sphere placed with radius `s` is hit where it is by every ray whose line crosses or touches it, and
missed by every ray whose line keeps a distance of more than `s·√(1 + s²/40000)` from its centre. -/
theorem C161_placed_partial (ht : 0 ≤ tol) (ha : Affine m) (hdet : tol < |det m|) (hs : 0 < s) (h : Similarity m s)
    (hr : dot r.d r.d = 1) (eps D : ℝ)
    (hm : missSqOf (centre m) r ≤ s ^ 2 ∨ s ^ 2 * (1 + s ^ 2 / 40000) < missSqOf (centre m) r) :
    match Asset.intersect (Asset.mk tol m) (sphereShape eps fun _ => false) r D with
    | .undefined => False
    | .hit h => FirstOn (centre m) s eps D r h.dist
    | .miss => ∀ t, eps ≤ t → t ≤ D → sq (sub (r.apply t) (centre m)) ≠ s ^ 2 := by
  obtain ⟨w, hw⟩ := inverse_some hdet
  have hs2 : (0 : ℝ) < s ^ 2 := by positivity
  obtain ⟨e1, -, -⟩ := object_space ht ha hw hs h r
  obtain ⟨f1, f2, -⟩ := object_miss ht ha hw hs h hr
  have op := object_point ht ha hw hs h r
  have hr' : 0 < dot (mulRay w r).d (mulRay w r).d := by rw [e1, hr]; positivity
  have one : ∀ t, sq ((mulRay w r).apply t) = 1 ↔ sq (sub (r.apply t) (centre m)) = s ^ 2 := by
    intro t
    rw [op, div_eq_one_iff_eq hs2.ne']
  obtain ⟨h1, h2⟩ := C161_first_partial eps D (mulRay w r) hr' (by
    rw [f1, f2]
    rcases hm with c | c
    · left; rw [div_le_one hs2]; exact c
    · right; rw [lt_div_iff₀ hs2, mul_comm]; exact c)
  unfold Asset.intersect Asset.mk sphereShape
  simp only [hw]
  cases e : sphereIntersect eps (fun _ => false) (mulRay w r) D with
  | none =>
    simp only [Option.map_none]
    intro t t1 t2
    rw [Ne, ← one]
    exact h2.1 e t t1 t2
  | some x =>
    obtain ⟨t, p⟩ := x
    simp only [Option.map_some]
    obtain ⟨⟨a1, a2, a3, a4⟩, -⟩ := (h1 t p).1 e
    exact ⟨a1, a2, (one t).1 a3, fun x x1 x2 x3 => a4 x x1 x2 ((one x).2 x3)⟩

/-- **C161 fails: spheres look larger than they are.** Every ray whose line passes a sphere of radius `s` at a distance
of up to `s·√(1 + s²/40000)` hits it, in the point of the line next to its centre. -/
theorem C161_enlarged_placed (ht : 0 ≤ tol) (ha : Affine m) (hdet : tol < |det m|) (hs : 0 < s) (h : Similarity m s)
    (hr : dot r.d r.d = 1) (eps D : ℝ) (h1 : s ^ 2 < missSqOf (centre m) r)
    (h2 : missSqOf (centre m) r ≤ s ^ 2 * (1 + s ^ 2 / 40000)) (he : eps ≤ nearest ⟨sub r.o (centre m), r.d⟩)
    (hD : nearest ⟨sub r.o (centre m), r.d⟩ ≤ D) :
    (∃ x, Asset.intersect (Asset.mk tol m) (sphereShape eps fun _ => false) r D = .hit x ∧
      x.dist = nearest ⟨sub r.o (centre m), r.d⟩) ∧
    ∀ t, s ^ 2 < sq (sub (r.apply t) (centre m)) := by
  obtain ⟨w, hw⟩ := inverse_some hdet
  have hs2 : (0 : ℝ) < s ^ 2 := by positivity
  obtain ⟨e1, -, -⟩ := object_space ht ha hw hs h r
  obtain ⟨f1, f2, f3⟩ := object_miss ht ha hw hs h hr
  have op := object_point ht ha hw hs h r
  have hr' : 0 < dot (mulRay w r).d (mulRay w r).d := by rw [e1, hr]; positivity
  obtain ⟨g1, -, g2⟩ := C161_enlarged eps D (mulRay w r) hr' (by rw [f1, lt_div_iff₀ hs2, one_mul]; exact h1)
    (by rw [f1, f2, div_le_iff₀ hs2, mul_comm]; exact h2) (f3 ▸ he) (f3 ▸ hD)
  constructor
  · unfold Asset.intersect Asset.mk sphereShape
    simp only [hw, g1, Option.map_some]
    exact ⟨_, rfl, f3⟩
  · intro t
    have := g2 t
    rw [op, lt_div_iff₀ hs2, one_mul] at this
    exact this
/-- **C161, what is reported.** The normal of a hit is the direction from the centre to the hit, divided by the squared
radius, and the point is the hit, except at a pole of the object, where it is moved by `eps` times the radius. -/
theorem C161_reported (ht : 0 ≤ tol) (ha : Affine m) (hdet : tol < |det m|) (h : Similarity m s) (eps D : ℝ) (masked : V3 ℝ → Bool) {x : Asset.ShapeHit ℝ}
    (hx : Asset.intersect (Asset.mk tol m) (sphereShape eps masked) r D = .hit x) :
    (∀ u, s ^ 2 * dot x.normal u = dot (sub (r.apply x.dist) (centre m)) u) ∧
    ((∀ z, r.apply x.dist ≠ mulPoint m ⟨0, 0, z⟩) → x.point = r.apply x.dist) ∧
    (∀ z, r.apply x.dist = mulPoint m ⟨0, 0, z⟩ → sq (sub x.point (r.apply x.dist)) = (eps * s) ^ 2) := by
  obtain ⟨w, hw⟩ := inverse_some hdet
  unfold Asset.intersect Asset.mk sphereShape at hx
  simp only [hw] at hx
  cases e : sphereIntersect eps masked (mulRay w r) D with
  | none => rw [e] at hx; simp at hx
  | some y =>
    obtain ⟨t, p⟩ := y
    rw [e] at hx
    simp only [Option.map_some, Asset.Outcome.hit.injEq] at hx
    have hp : p = (mulRay w r).apply t := by
      unfold sphereIntersect at e
      dsimp only at e
      repeat' split at e
      all_goals first
        | (simp only [Option.some.injEq, Prod.mk.injEq] at e; obtain ⟨rfl, rfl⟩ := e; rfl)
        | simp at e
    have hback := (C26_round_trip tol ht m w hw ha r.o r t).2.2
    rw [← hp] at hback
    subst hx
    dsimp only
    have hc : sub (r.apply t) (centre m) = mulVec m p := by
      rw [← hback]
      have := mulVec_sub m ha p ⟨0, 0, 0⟩
      rw [show sub p ⟨0, 0, 0⟩ = p by simp [sub]] at this
      exact this
    refine ⟨fun u => ?_, fun hz => ?_, fun z hz => ?_⟩
    · rw [hc]
      conv_lhs => rw [← map_back ht ha hw u]
      conv_rhs => rw [← map_back ht ha hw u]
      rw [C26_normal_orthogonal tol ht m w hw ha, h]
    · unfold shifted
      split
      · rename_i h0
        refine absurd ?_ (hz p.z)
        rw [← hback]
        congr 1
        ext <;> simp [h0]
      · exact hback
    · have h0 : p = ⟨0, 0, z⟩ := by
        rw [← hback] at hz
        have k1 := (C26_round_trip tol ht m w hw ha p r t).1
        rw [hz, (C26_round_trip tol ht m w hw ha ⟨0, 0, z⟩ r t).1] at k1
        exact k1.symm
      have hsh : shifted eps p = ⟨eps, 0, z⟩ := by
        rw [h0]
        simp [shifted]
      rw [hsh, ← hback, mulVec_sub m ha]
      unfold sq
      rw [h, h0]
      simp only [dot, sub]
      ring
end

/-- Every uniformly scaled instance of the scene is a similarity; its centre is its position. -/
theorem placement_similar (p a : V3 ℝ) (s : ℝ) : Similarity (placement p a ⟨s, s, s⟩) s := by
  intro v w
  rw [placement_dot]; simp only [dot]; ring

theorem placement_centre (p a s : V3 ℝ) : centre (placement p a s) = p := by
  unfold centre
  rw [Geom.mulPoint_affine (placement_affine p a s)]
  simp [placement, mul, translation, scaling, rotateX, rotateY, rotateZ]

/-- A sphere of radius 200 at the origin. -/
noncomputable def globe : M4 ℝ := placement ⟨0, 0, 0⟩ ⟨0, 0, 0⟩ ⟨200, 200, 200⟩

theorem globe_eq : globe = scaling ⟨200, 200, 200⟩ := by
  simp [globe, placement, mul, translation, scaling, rotateX, rotateY, rotateZ]

theorem globe_det : det globe = 8000000 := by
  rw [globe_eq]; norm_num [det, scaling, inv]

/-- **C161 fails for a sphere of radius 200**: a ray that passes its centre at the distance 250 hits it. -/
theorem C161_violated (D : ℝ) (hD : 1000 ≤ D) :
    (∃ x, Asset.intersect (Asset.mk (1 / 100000) globe) (sphereShape (1 / 100) fun _ => false)
      ⟨⟨250, 0, -1000⟩, ⟨0, 0, 1⟩⟩ D = .hit x ∧ x.dist = 1000) ∧
    ∀ t, (200 : ℝ) ^ 2 < sq (sub ((Ray.mk ⟨250, 0, -1000⟩ ⟨0, 0, 1⟩ : Ray ℝ).apply t) ⟨0, 0, 0⟩) := by
  have hc : centre globe = ⟨0, 0, 0⟩ := placement_centre _ _ _
  have hn : nearest ⟨sub ⟨250, 0, -1000⟩ ⟨0, 0, 0⟩, ⟨0, 0, 1⟩⟩ = 1000 := by norm_num [nearest, dot, sub]
  have hm : missSqOf ⟨0, 0, 0⟩ (⟨⟨250, 0, -1000⟩, ⟨0, 0, 1⟩⟩ : Ray ℝ) = 62500 := by norm_num [missSqOf, missSq, dot, sub]
  have := C161_enlarged_placed (tol := 1 / 100000) (s := 200) (m := globe) (r := ⟨⟨250, 0, -1000⟩, ⟨0, 0, 1⟩⟩) (by norm_num)
    (placement_affine _ _ _) (by rw [globe_det]; norm_num) (by norm_num) (placement_similar _ _ _) (by norm_num [dot])
    (1 / 100) D (by rw [hc, hm]; norm_num) (by rw [hc, hm]; norm_num) (by rw [hc, hn]; norm_num) (by rw [hc, hn]; exact hD)
  rw [hc, hn] at this
  exact this

/-- **C161 fails at the poles**: the point reported for a hit of the pole of a sphere of radius 200 is two units beside the
hit. -/
theorem C161_violated_pole (D : ℝ) (hD : 800 ≤ D) :
    ∃ x, Asset.intersect (Asset.mk (1 / 100000) globe) (sphereShape (1 / 100) fun _ => false)
      ⟨⟨0, 0, -1000⟩, ⟨0, 0, 1⟩⟩ D = .hit x ∧
      sq (sub x.point ((Ray.mk ⟨0, 0, -1000⟩ ⟨0, 0, 1⟩ : Ray ℝ).apply x.dist)) = 2 ^ 2 := by
  have hc : centre globe = ⟨0, 0, 0⟩ := placement_centre _ _ _
  have h1 := C161_placed_partial (tol := 1 / 100000) (s := 200) (m := globe) (r := ⟨⟨0, 0, -1000⟩, ⟨0, 0, 1⟩⟩) (by norm_num)
    (placement_affine _ _ _) (by rw [globe_det]; norm_num) (by norm_num) (placement_similar _ _ _) (by norm_num [dot])
    (1 / 100) D (by rw [hc]; left; norm_num [missSqOf, missSq, dot, sub])
  cases e : Asset.intersect (Asset.mk (1 / 100000) globe) (sphereShape (1 / 100) fun _ => false)
      ⟨⟨0, 0, -1000⟩, ⟨0, 0, 1⟩⟩ D with
  | undefined => rw [e] at h1; exact h1.elim
  | miss =>
    rw [e] at h1
    exfalso
    refine h1 800 (by norm_num) hD ?_
    rw [hc]
    norm_num [sq, dot, sub, Ray.apply]
  | hit x =>
    refine ⟨x, rfl, ?_⟩
    have h2 := (C161_reported (s := 200) (m := globe) (by norm_num) (placement_affine _ _ _) (by rw [globe_det]; norm_num)
      (placement_similar _ _ _) _ _ _ e).2.2 ((-1000 + x.dist) / 200) (by
        show _ = mulPoint globe _
        rw [globe_eq, mulPoint_affine (by rw [← globe_eq]; exact placement_affine _ _ _)]
        simp only [Ray.apply, scaling, V3.mk.injEq]
        refine ⟨by ring, by ring, by ring⟩)
    rw [h2]
    norm_num

theorem C161_violated_statement : ¬ C161_statement := by
  intro h
  have hc : centre globe = ⟨0, 0, 0⟩ := placement_centre _ _ _
  have h1 := h (1 / 100000) 200 (1 / 100) 1000 globe ⟨⟨250, 0, -1000⟩, ⟨0, 0, 1⟩⟩ (by norm_num) (placement_affine _ _ _)
    (by rw [globe_det]; norm_num) (by norm_num) (placement_similar _ _ _) (by norm_num [dot])
  obtain ⟨⟨x, h2, -⟩, h3⟩ := C161_violated 1000 le_rfl
  rw [h2] at h1
  have := h3 x.dist
  rw [hc] at h1
  exact absurd h1.2.2.1 this.ne'

/-- The hypotheses of `C161_placed_partial` hold for a sphere of radius 2 that was moved and turned, and a ray through its
centre. -/
example (D : ℝ) :
    match Asset.intersect (Asset.mk (1 / 100000) (placement ⟨1, 2, 3⟩ ⟨0, 0, 0⟩ ⟨2, 2, 2⟩))
      (sphereShape (1 / 100) fun _ => false) ⟨⟨1, 2, -7⟩, ⟨0, 0, 1⟩⟩ D with
    | .undefined => False
    | .hit h => FirstOn ⟨1, 2, 3⟩ 2 (1 / 100) D ⟨⟨1, 2, -7⟩, ⟨0, 0, 1⟩⟩ h.dist
    | .miss => ∀ t, 1 / 100 ≤ t → t ≤ D → sq (sub ((Ray.mk ⟨1, 2, -7⟩ ⟨0, 0, 1⟩ : Ray ℝ).apply t) ⟨1, 2, 3⟩) ≠ 2 ^ 2 := by
  have hc : centre (placement ⟨1, 2, 3⟩ ⟨0, 0, 0⟩ ⟨2, 2, 2⟩) = ⟨1, 2, 3⟩ := placement_centre _ _ _
  have := C161_placed_partial (tol := 1 / 100000) (s := 2) (m := placement ⟨1, 2, 3⟩ ⟨0, 0, 0⟩ ⟨2, 2, 2⟩)
    (r := ⟨⟨1, 2, -7⟩, ⟨0, 0, 1⟩⟩) (by norm_num) (placement_affine _ _ _)
    (by norm_num [det, placement, mul, translation, scaling, rotateX, rotateY, rotateZ, inv]) (by norm_num)
    (placement_similar _ _ _) (by norm_num [dot]) (1 / 100) D (by
      rw [hc]; left; norm_num [missSqOf, missSq, dot, sub])
  rw [hc] at this
  exact this

end Spectre.BigSphere
