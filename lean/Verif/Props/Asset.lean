import Verif.Model.Asset
import Verif.Props.Shapes

/-
Properties C63 (instances are intersected in world space) and C65 (tangents of triangles).
-/

namespace Spectre.Asset
open Spectre.Geom

variable {K : Type} [Field K] [LinearOrder K] [IsStrictOrderedRing K]

/-- The world-space set of an instance of the set `S` (in object space). -/
def image (m : M4 K) (S : V3 K → Prop) : V3 K → Prop := fun p => ∃ q, S q ∧ mulPoint m q = p

/-- The statement of C63 for a transform, a shape and the set of its points: the result of the
intersection is defined, and a hit is a point on the world ray, at the reported distance, of the transformed
shape; no point of the transformed shape is missed if none of the shape is missed in object space.  `R` is the range of distances the shape accepts. -/
def WorldSpace (tol : K) (m : M4 K) (shape : ShapeFn K) (S : V3 K → Prop) (R : K → Prop) (r : Ray K) (D : K) : Prop :=
  match intersect (mk tol m) shape r D with
  | .undefined => False
  | .hit h => h.point = r.apply h.dist ∧ image m S h.point ∧ R h.dist
  | .miss => ∀ t, R t → ¬ image m S (r.apply t)

/-- What the shape must guarantee in object space. -/
def ObjectSpace (shape : ShapeFn K) (S : V3 K → Prop) (R : K → Prop) (r : Ray K) (D : K) : Prop :=
  match shape r D with
  | some h => h.point = r.apply h.dist ∧ S h.point ∧ R h.dist
  | none => ∀ t, R t → ¬ S (r.apply t)

/-- **C63**, the part that holds: for all affine transforms whose determinant is above the tolerance and
all shapes correct in object space. -/
theorem C63_world_space_partial (tol : K) (ht : 0 ≤ tol) (m : M4 K) (ha : Affine m) (hdet : tol < |det m|)
    (shape : ShapeFn K) (S : V3 K → Prop) (R : K → Prop) (r : Ray K) (D : K)
    (hs : ∀ w, inverse tol m = some w → ObjectSpace shape S R (mulRay w r) D) :
    WorldSpace tol m shape S R r D := by
  obtain ⟨w, hw⟩ : ∃ w, inverse tol m = some w := by
    unfold inverse
    rw [sub_zero, if_neg (not_le.2 hdet)]
    exact ⟨_, rfl⟩
  have key : ∀ t, image m S (r.apply t) ↔ S ((mulRay w r).apply t) := by
    intro t
    obtain ⟨-, -, h3⟩ := C26_round_trip tol ht m w hw ha (r.apply t) r t
    constructor
    · rintro ⟨q, hq, he⟩
      rw [← h3] at he
      have h4 := congrArg (mulPoint w) he
      rw [(C26_round_trip tol ht m w hw ha q r t).1, (C26_round_trip tol ht m w hw ha _ r t).1] at h4
      rw [← h4]; exact hq
    · intro h; exact ⟨_, h, h3⟩
  have h := hs w hw
  unfold WorldSpace intersect mk
  unfold ObjectSpace at h
  rw [hw]
  simp only
  cases e : shape (mulRay w r) D with
  | none =>
    rw [e] at h
    simp only at h ⊢
    intro t h1 h3
    exact h t h1 ((key t).1 h3)
  | some hit =>
    rw [e] at h
    simp only at h ⊢
    obtain ⟨h1, h2, h3⟩ := h
    refine ⟨?_, ⟨hit.point, h2, rfl⟩, h3⟩
    rw [h1]
    exact (C26_round_trip tol ht m w hw ha hit.point r hit.dist).2.2

/-- **C63**, normals: the world normal of a hit is orthogonal to the images of all the directions
orthogonal to the object normal, and on the same side. -/
theorem C63_normal (tol : K) (ht : 0 ≤ tol) (m : M4 K) (ha : Affine m) (shape : ShapeFn K) (r : Ray K)
    (D : K) (h : ShapeHit K) (hh : intersect (mk tol m) shape r D = .hit h) :
    ∃ w ho, inverse tol m = some w ∧ shape (mulRay w r) D = some ho ∧
      ∀ v, dot h.normal (mulVec m v) = dot ho.normal v := by
  unfold intersect mk at hh
  simp only at hh
  cases hw : inverse tol m with
  | none => rw [hw] at hh; cases hh
  | some w =>
    rw [hw] at hh
    simp only at hh
    cases e : shape (mulRay w r) D with
    | none => rw [e] at hh; cases hh
    | some ho =>
      rw [e] at hh
      simp only [Outcome.hit.injEq] at hh
      refine ⟨w, ho, rfl, e, fun v => ?_⟩
      rw [← hh]
      exact C26_normal_orthogonal tol ht m w hw ha ho.normal v

/-- **C63 is violated**: an instance scaled by 1/50 (invertible, determinant 8e-6) reads an inverse that was
never written. -/
theorem C63_violated :
    ¬ ∀ (m : M4 ℚ) (shape : ShapeFn ℚ) (S : V3 ℚ → Prop) (R : ℚ → Prop) (r : Ray ℚ) (D : ℚ),
      Affine m → (toMatrix m).det ≠ 0 → (∀ r, ObjectSpace shape S R r D) →
        WorldSpace (1 / 100000) m shape S R r D := by
  intro h
  have := h smallScale (fun _ _ => none) (fun _ => False) (fun _ => True) ⟨⟨0, 0, 0⟩, ⟨1, 0, 0⟩⟩ 1
    (by unfold Affine smallScale; exact ⟨rfl, rfl, rfl, rfl⟩) C26_small_scale_rejected.2
    (by intro r; unfold ObjectSpace; simp)
  unfold WorldSpace intersect mk at this
  rw [C26_small_scale_rejected.1] at this
  exact this

/-- **C63** for triangles: complete, for rays that are not parallel to the triangle in object space. -/
theorem C63_triangle (tol eps : K) (ht : 0 ≤ tol) (m : M4 K) (ha : Affine m) (hdet : tol < |det m|)
    (t : Tri K) (r : Ray K) (D : K)
    (hp : ∀ w, inverse tol m = some w → dot (triNormal t) (mulRay w r).d ≠ 0) :
    WorldSpace tol m (triShape eps (fun _ => false) t) (fun p => ∃ u v, OnTri t u v p)
      (fun s => eps ≤ s ∧ s ≤ D) r D := by
  refine C63_world_space_partial tol ht m ha hdet _ _ _ r D (fun w hw => ?_)
  unfold ObjectSpace triShape
  cases e : triIntersect eps (fun _ => false) t (mulRay w r) D with
  | none =>
    simp only [Option.map_none]
    rintro s ⟨h1, h2⟩ ⟨u, v, h3⟩
    rcases (C28_miss _ _ _ _ _).1 e with h | h
    · exact hp w hw h
    · have := h s u v h3 h1 h2
      cases this
  | some h =>
    simp only [Option.map_some]
    obtain ⟨-, ⟨u, v, h1, -⟩, h2, h3, -, h4⟩ := (C28_exact _ _ _ _ _ _).1 e
    refine ⟨h4, ⟨u, v, ?_⟩, h2, h3⟩
    rw [h4]; exact h1

/-- **C63** for boxes: the box instance is hit on its world-space body, for rays of which no direction
component is zero in object space.  (A box that is entered and left is also reported from inside; the
hypothesis on misses of `ObjectSpace` holds for rays that start outside.) -/
theorem C63_box_hit (tol eps : K) (ht : 0 ≤ tol) (m : M4 K) (ha : Affine m) (masked : Bool) (r : Ray K)
    (D : K) (h : ShapeHit K) (w : M4 K) (hw : inverse tol m = some w)
    (hx : (mulRay w r).d.x ≠ 0) (hy : (mulRay w r).d.y ≠ 0) (hz : (mulRay w r).d.z ≠ 0)
    (hh : intersect (mk tol m) (boxShape eps masked) r D = .hit h) :
    h.point = r.apply h.dist ∧ image m Shapes.InCube h.point ∧ eps < h.dist ∧ h.dist ≤ D := by
  unfold intersect mk at hh
  simp only [hw] at hh
  unfold boxShape at hh
  cases e : Shapes.boxIntersect eps masked (mulRay w r) D with
  | none => rw [e] at hh; cases hh
  | some b =>
    obtain ⟨t, axis, sg⟩ := b
    rw [e] at hh
    simp only [Option.map_some, Outcome.hit.injEq] at hh
    obtain ⟨⟨h1, h2, h3⟩, -⟩ := Shapes.C64_hit_partial eps masked (mulRay w r) D t axis sg hx hy hz e
    rw [← hh]
    exact ⟨(C26_round_trip tol ht m w hw ha (r.apply t) r t).2.2, ⟨_, h3, rfl⟩, h1, h2⟩

/-- A box scaled by 2 and moved is hit. -/
example : (match intersect (mk (1 / 100000 : ℚ) ⟨2, 0, 0, 5, 0, 2, 0, 0, 0, 0, 2, 0, 0, 0, 0, 1⟩)
    (boxShape (1 / 100) false) ⟨⟨0, 1, 1⟩, ⟨1, 1 / 16, 1 / 16⟩⟩ 100 with
    | .hit h => (h.dist, h.point.x, h.point.y, h.normal.x)
    | _ => (0, 0, 0, 0)) = (5, 5, 21 / 16, -1 / 2) := by
  decide +kernel

/-! ### C65 -/

/-- **C65.** The tangents are the partial derivatives of the position with respect to the texture
coordinates: moving on the triangle from one point to another changes the position by the change of the
texture coordinates along the tangents; and they are the only pair of vectors with this property. -/
theorem C65_tangents (t : Tri K) (du dv : V3 K) :
    triTangents t = some (du, dv) ↔
      (t.ta.1 - t.tc.1) * (t.tb.2 - t.tc.2) ≠ (t.tb.1 - t.tc.1) * (t.ta.2 - t.tc.2) ∧
      ∀ u v u' v' p p', (p : V3 K) = ⟨(1 - u - v) * t.a.x + u * t.b.x + v * t.c.x,
          (1 - u - v) * t.a.y + u * t.b.y + v * t.c.y, (1 - u - v) * t.a.z + u * t.b.z + v * t.c.z⟩ →
        p' = ⟨(1 - u' - v') * t.a.x + u' * t.b.x + v' * t.c.x,
          (1 - u' - v') * t.a.y + u' * t.b.y + v' * t.c.y, (1 - u' - v') * t.a.z + u' * t.b.z + v' * t.c.z⟩ →
        sub p' p = ⟨du.x * ((interp t u' v').1 - (interp t u v).1) + dv.x * ((interp t u' v').2 - (interp t u v).2),
          du.y * ((interp t u' v').1 - (interp t u v).1) + dv.y * ((interp t u' v').2 - (interp t u v).2),
          du.z * ((interp t u' v').1 - (interp t u v).1) + dv.z * ((interp t u' v').2 - (interp t u v).2)⟩ := by
  unfold triTangents
  simp only
  by_cases h0 : (t.ta.1 - t.tc.1) * (t.tb.2 - t.tc.2) - (t.tb.1 - t.tc.1) * (t.ta.2 - t.tc.2) = 0
  · rw [if_pos h0]
    constructor
    · intro h; cases h
    · rintro ⟨h, -⟩; exact absurd (sub_eq_zero.1 h0) h
  · rw [if_neg h0]
    constructor
    · intro h
      simp only [Option.some.injEq, Prod.mk.injEq] at h
      obtain ⟨rfl, rfl⟩ := h
      refine ⟨fun h => h0 (sub_eq_zero.2 h), ?_⟩
      rintro u v u' v' p p' rfl rfl
      simp only [sub, interp]
      have hi := one_div_mul_cancel h0
      generalize 1 / ((t.ta.1 - t.tc.1) * (t.tb.2 - t.tc.2) - (t.tb.1 - t.tc.1) * (t.ta.2 - t.tc.2)) = i at hi ⊢
      ext <;> simp only
      · linear_combination (-((1 - u' - v') * t.a.x + u' * t.b.x + v' * t.c.x - ((1 - u - v) * t.a.x + u * t.b.x + v * t.c.x))) * hi
      · linear_combination (-((1 - u' - v') * t.a.y + u' * t.b.y + v' * t.c.y - ((1 - u - v) * t.a.y + u * t.b.y + v * t.c.y))) * hi
      · linear_combination (-((1 - u' - v') * t.a.z + u' * t.b.z + v' * t.c.z - ((1 - u - v) * t.a.z + u * t.b.z + v * t.c.z))) * hi
    · rintro ⟨-, h⟩
      -- from `c` to `a` and from `c` to `b`
      have h1 := h 0 1 0 0 _ _ rfl rfl
      have h2 := h 0 1 1 0 _ _ rfl rfl
      simp only [sub, interp, V3.mk.injEq] at h1 h2
      obtain ⟨x1, y1, z1⟩ := h1
      obtain ⟨x2, y2, z2⟩ := h2
      simp only [Option.some.injEq, Prod.mk.injEq, sub]
      constructor
      · ext <;> simp only <;> rw [mul_one_div, div_eq_iff h0]
        · linear_combination (t.tb.2 - t.tc.2) * x1 - (t.ta.2 - t.tc.2) * x2
        · linear_combination (t.tb.2 - t.tc.2) * y1 - (t.ta.2 - t.tc.2) * y2
        · linear_combination (t.tb.2 - t.tc.2) * z1 - (t.ta.2 - t.tc.2) * z2
      · ext <;> simp only <;> rw [mul_one_div, div_eq_iff h0]
        · linear_combination (t.ta.1 - t.tc.1) * x2 - (t.tb.1 - t.tc.1) * x1
        · linear_combination (t.ta.1 - t.tc.1) * y2 - (t.tb.1 - t.tc.1) * y1
        · linear_combination (t.ta.1 - t.tc.1) * z2 - (t.tb.1 - t.tc.1) * z1

/-- A triangle with texture coordinates twice its position. -/
example : triTangents (⟨⟨0, 0, 0⟩, ⟨1, 0, 0⟩, ⟨0, 1, 0⟩, (0, 0), (2, 0), (0, 2)⟩ : Tri ℚ) =
    some (⟨1 / 2, 0, 0⟩, ⟨0, 1 / 2, 0⟩) := by
  simp only [triTangents, sub]
  norm_num

end Spectre.Asset
