import Verif.Model.Frame
import Verif.Props.Asset
import Mathlib.LinearAlgebra.Matrix.NonsingularInverse
import Mathlib.Tactic.FinCases

/-
Properties C98 (shading space), C99 (bump mapping) and C100 (ray differentials).
-/

namespace Spectre.Frame

open Spectre.Geom

/-! ### Specification -/

/-- Three unit vectors, orthogonal to each other. -/
def Orthonormal (m : Space) : Prop :=
  dot m.s m.s = 1 ∧ dot m.t m.t = 1 ∧ dot m.n m.n = 1 ∧ dot m.s m.t = 0 ∧ dot m.s m.n = 0 ∧ dot m.t m.n = 0

/-- `s`, `t`, `n` are oriented as the axes. -/
def RightHanded (m : Space) : Prop := dot (cross m.s m.t) m.n = 1

/-- The combination of the axes with given coordinates. -/
def combine (m : Space) (v : V3 ℝ) : V3 ℝ := add (add (scale m.s v.x) (scale m.t v.y)) (scale m.n v.z)

/-! ### Normalisation -/

theorem dot_zero {v : V3 ℝ} (h : dot v v = 0) : v = ⟨0, 0, 0⟩ := by
  simp only [dot] at h
  have x := mul_self_nonneg v.x
  have y := mul_self_nonneg v.y
  have z := mul_self_nonneg v.z
  ext <;> simp only <;> apply mul_self_eq_zero.1 <;> linarith

theorem dot_pos {v : V3 ℝ} (h : dot v v ≠ 0) : 0 < dot v v := by
  refine lt_of_le_of_ne ?_ (Ne.symm h)
  simp only [dot]; nlinarith [mul_self_nonneg v.x, mul_self_nonneg v.y, mul_self_nonneg v.z]

theorem dot_scale (v w : V3 ℝ) (c : ℝ) : dot v (scale w c) = c * dot v w := by simp only [dot, scale]; ring

theorem scale_dot (v w : V3 ℝ) (c : ℝ) : dot (scale v c) w = c * dot v w := by simp only [dot, scale]; ring

theorem dot_comm (v w : V3 ℝ) : dot v w = dot w v := by simp only [dot]; ring

/-- A normalised vector has length 1 and the same direction. -/
theorem unit_some {v w : V3 ℝ} (h : unit v = some w) : dot w w = 1 ∧ ∃ c, 0 < c ∧ w = scale v c := by
  unfold unit at h
  split at h
  · cases h
  · rename_i n
    cases h
    have p := dot_pos n
    have q := Real.sqrt_pos.2 p
    refine ⟨?_, _, by positivity, rfl⟩
    rw [dot_scale, scale_dot, ← mul_assoc, div_mul_div_comm, Real.mul_self_sqrt p.le]
    field_simp

theorem unit_unit {v : V3 ℝ} (h : dot v v = 1) : unit v = some v := by
  unfold unit
  rw [if_neg (by rw [h]; norm_num), h]
  simp [scale]

theorem unit_exists {v : V3 ℝ} (h : dot v v ≠ 0) : ∃ w, unit v = some w := ⟨_, if_neg h⟩

/-! ### C98 -/

/-- Lagrange's identity. -/
theorem cross_sq (a b : V3 ℝ) : dot (cross a b) (cross a b) = dot a a * dot b b - dot a b ^ 2 := by
  simp only [dot, cross]; ring

theorem cross_left (a b : V3 ℝ) : dot (cross a b) a = 0 := by simp only [dot, cross]; ring

theorem cross_right (a b : V3 ℝ) : dot (cross a b) b = 0 := by simp only [dot, cross]; ring

theorem triple (a b c : V3 ℝ) : dot (cross a b) c = dot (cross b c) a := by simp only [dot, cross]; ring

/-- A unit vector, one orthogonal to it and their product. -/
theorem frame_of (n s : V3 ℝ) (hn : dot n n = 1) (hs : dot s s = 1) (h : dot s n = 0) :
    unit (cross n s) = some (cross n s) ∧ Orthonormal ⟨s, cross n s, n⟩ ∧ RightHanded ⟨s, cross n s, n⟩ := by
  have l : dot (cross n s) (cross n s) = 1 := by rw [cross_sq, dot_comm n s, h, hn, hs]; norm_num
  refine ⟨unit_unit l, ⟨hs, l, hn, ?_, h, cross_left _ _⟩, ?_⟩
  · rw [dot_comm]; exact cross_right _ _
  · show dot (cross s (cross n s)) n = 1
    rw [← triple n s (cross n s)]; exact l

/-- **C98.** With a unit tangent orthogonal to the unit normal the shading space is an orthonormal,
right-handed frame around them. -/
theorem C98_frame_partial (dpdu normal : V3 ℝ) (hn : dot normal normal = 1) (hs : dot dpdu dpdu = 1)
    (h : dot dpdu normal = 0) :
    ∃ m, ofHit dpdu normal = some m ∧ Orthonormal m ∧ RightHanded m ∧ m.s = dpdu ∧ m.n = normal := by
  obtain ⟨e, o, r⟩ := frame_of normal dpdu hn hs h
  exact ⟨_, by rw [ofHit, e]; rfl, o, r, rfl, rfl⟩

theorem toWorld_eq (m : Space) (v : V3 ℝ) : toWorld m v = unit (combine m v) := rfl

theorem dot_combine (m : Space) (h : Orthonormal m) (v w : V3 ℝ) : dot (combine m v) (combine m w) = dot v w := by
  obtain ⟨ss, tt, nn, st, sn, tn⟩ := h
  simp only [dot, combine, add, scale] at *
  linear_combination v.x * w.x * ss + v.y * w.y * tt + v.z * w.z * nn + (v.x * w.y + v.y * w.x) * st +
    (v.x * w.z + v.z * w.x) * sn + (v.y * w.z + v.z * w.y) * tn

theorem coords_combine (m : Space) (h : Orthonormal m) (v : V3 ℝ) :
    (⟨dot (combine m v) m.s, dot (combine m v) m.t, dot (combine m v) m.n⟩ : V3 ℝ) = v := by
  obtain ⟨ss, tt, nn, st, sn, tn⟩ := h
  simp only [dot, combine, add, scale] at *
  ext <;> simp only
  · linear_combination v.x * ss + v.y * st + v.z * sn
  · linear_combination v.x * st + v.y * tt + v.z * tn
  · linear_combination v.x * sn + v.y * tn + v.z * nn

/-- Every vector is the combination of its coordinates. -/
theorem combine_coords (m : Space) (h : Orthonormal m) (w : V3 ℝ) :
    combine m ⟨dot w m.s, dot w m.t, dot w m.n⟩ = w := by
  obtain ⟨ss, tt, nn, st, sn, tn⟩ := h
  have M : !![m.s.x, m.s.y, m.s.z; m.t.x, m.t.y, m.t.z; m.n.x, m.n.y, m.n.z] *
      !![m.s.x, m.t.x, m.n.x; m.s.y, m.t.y, m.n.y; m.s.z, m.t.z, m.n.z] = (1 : Matrix (Fin 3) (Fin 3) ℝ) := by
    simp only [dot] at *
    ext i j
    fin_cases i <;> fin_cases j <;> simp [Matrix.mul_apply, Fin.sum_univ_three] <;> linarith
  have N := mul_eq_one_comm.1 M
  have e : ∀ i j, (!![m.s.x, m.t.x, m.n.x; m.s.y, m.t.y, m.n.y; m.s.z, m.t.z, m.n.z] *
      !![m.s.x, m.s.y, m.s.z; m.t.x, m.t.y, m.t.z; m.n.x, m.n.y, m.n.z]) i j = (1 : Matrix (Fin 3) (Fin 3) ℝ) i j :=
    fun i j => by rw [N]
  have e00 := e 0 0
  have e01 := e 0 1
  have e02 := e 0 2
  have e11 := e 1 1
  have e12 := e 1 2
  have e22 := e 2 2
  simp [Matrix.mul_apply, Fin.sum_univ_three] at e00 e01 e02 e11 e12 e22
  simp only [combine, add, scale, dot]
  ext <;> simp only
  · linear_combination w.x * e00 + w.y * e01 + w.z * e02
  · linear_combination w.x * e01 + w.y * e11 + w.z * e12
  · linear_combination w.x * e02 + w.y * e12 + w.z * e22

/-- **C98.** In an orthonormal frame `to_world` and `to_shading` are inverse on unit vectors, keep angles, and
the third coordinate is the cosine with the normal. -/
theorem C98_round_trip (m : Space) (h : Orthonormal m) :
    (∀ v, dot v v = 1 → ∃ w, toWorld m v = some w ∧ dot w w = 1 ∧ dot w m.n = v.z ∧ toShading m w = some v) ∧
    (∀ w, dot w w = 1 → ∃ v, toShading m w = some v ∧ dot v v = 1 ∧ v.z = dot w m.n ∧ toWorld m v = some w) ∧
    (∀ v v' w w', dot v v = 1 → dot v' v' = 1 → toWorld m v = some w → toWorld m v' = some w' → dot w w' = dot v v') := by
  have fwd : ∀ v, dot v v = 1 → toWorld m v = some (combine m v) := fun v hv => by
    rw [toWorld_eq, unit_unit]; rw [dot_combine m h, hv]
  refine ⟨fun v hv => ⟨combine m v, fwd v hv, by rw [dot_combine m h, hv], ?_, ?_⟩, fun w hw => ?_, ?_⟩
  · exact congrArg V3.z (coords_combine m h v)
  · rw [toShading, coords_combine m h, unit_unit hv]
  · have u : dot (⟨dot w m.s, dot w m.t, dot w m.n⟩ : V3 ℝ) ⟨dot w m.s, dot w m.t, dot w m.n⟩ = 1 := by
      rw [← dot_combine m h, combine_coords m h, hw]
    refine ⟨_, unit_unit u, u, rfl, ?_⟩
    rw [fwd _ u, combine_coords m h]
  · intro v v' w w' hv hv' e e'
    rw [fwd v hv] at e
    rw [fwd v' hv'] at e'
    cases e; cases e'
    exact dot_combine m h v v'

/-- **C98** is violated by tangents that are not orthogonal to the normal: in the space built from them the
normal itself is not the vertical direction, and no cosine is the right one.  For every such pair. -/
theorem C98_violated_skewed (dpdu normal : V3 ℝ) (hn : dot normal normal = 1) (hs : dot dpdu dpdu = 1)
    (h : dot dpdu normal ≠ 0) (h1 : dot dpdu normal ^ 2 < 1) :
    ∃ m v, ofHit dpdu normal = some m ∧ toShading m normal = some v ∧ v.z < 1 := by
  have l : dot (cross normal dpdu) (cross normal dpdu) ≠ 0 := by
    rw [cross_sq, dot_comm normal dpdu, hn, hs]; intro e; linarith
  obtain ⟨t, ht⟩ := unit_exists l
  obtain ⟨tt, c, cp, te⟩ := unit_some ht
  have tn : dot normal t = 0 := by rw [te, dot_scale, dot_comm, cross_left, mul_zero]
  have q : dot (⟨dot normal dpdu, dot normal t, dot normal normal⟩ : V3 ℝ)
      ⟨dot normal dpdu, dot normal t, dot normal normal⟩ = dot dpdu normal ^ 2 + 1 := by
    rw [tn, hn, dot_comm normal dpdu]; simp only [dot]; ring
  have qp : 1 < dot dpdu normal ^ 2 + 1 := by have := pow_pos (abs_pos.2 h) 2; rw [sq_abs] at this; linarith
  obtain ⟨v, hv⟩ := unit_exists (v := ⟨dot normal dpdu, dot normal t, dot normal normal⟩) (by rw [q]; linarith)
  refine ⟨⟨dpdu, t, normal⟩, v, by rw [ofHit, ht]; rfl, hv, ?_⟩
  unfold unit at hv
  rw [if_neg (by rw [q]; linarith), q, Option.some.injEq] at hv
  rw [← hv]
  simp only [scale, hn, one_mul]
  rw [div_lt_one (by positivity)]
  exact Real.lt_sqrt_of_sq_lt (by linarith)

/-- **C98** is violated, concretely: a hit on a triangle in the horizontal plane whose three vertex normals are
all (3/5,0,4/5), as smooth shading allows. -/
theorem C98_violated_smooth :
    ∃ (t : Tri ℝ) (du dv normal : V3 ℝ), Asset.triTangents t = some (du, dv) ∧ dot du du = 1 ∧ dot normal normal = 1 ∧
      ∃ m v, ofHit du normal = some m ∧ toShading m normal = some v ∧ v.z < 1 := by
  refine ⟨⟨⟨0, 0, 0⟩, ⟨1, 0, 0⟩, ⟨0, 1, 0⟩, (0, 0), (1, 0), (0, 1)⟩, ⟨1, 0, 0⟩, ⟨0, 1, 0⟩, ⟨3 / 5, 0, 4 / 5⟩, ?_, by norm_num [dot],
    by norm_num [dot], C98_violated_skewed _ _ (by norm_num [dot]) (by norm_num [dot]) (by norm_num [dot]) (by norm_num [dot])⟩
  norm_num [Asset.triTangents, sub]

/-- **C98.** The shading space is undefined exactly if the tangent is parallel to the normal. -/
theorem C98_undefined (dpdu normal : V3 ℝ) : ofHit dpdu normal = none ↔ cross normal dpdu = ⟨0, 0, 0⟩ := by
  unfold ofHit
  rw [Option.map_eq_none_iff]
  unfold unit
  constructor
  · intro h
    split at h
    · rename_i e; exact dot_zero e
    · cases h
  · intro h
    rw [h, if_pos (by simp [dot])]

/-- **C98.** An instance keeps the property: for a tangent orthogonal to the normal in the space of the shape,
the vectors transformed and normalised by `Asset::intersect` (asset.cpp:42-46) give an orthonormal,
right-handed space. -/
theorem C98_asset_partial (tol : ℝ) (ht : 0 ≤ tol) (m w : M4 ℝ) (ha : Affine m) (hw : inverse tol m = some w)
    (dpdu normal : V3 ℝ) (hs : dot dpdu dpdu ≠ 0) (hn : dot normal normal ≠ 0) (h : dot normal dpdu = 0) :
    ∃ s n fr, unit (mulVec m dpdu) = some s ∧ unit (transformNormal normal w) = some n ∧ ofHit s n = some fr ∧
      Orthonormal fr ∧ RightHanded fr ∧ fr.s = s ∧ fr.n = n := by
  have key := C26_normal_orthogonal tol ht m w hw ha normal
  have n0 : dot (transformNormal normal w) (transformNormal normal w) ≠ 0 := by
    intro e
    have z := dot_zero e
    have := key normal
    rw [z] at this
    apply hn
    rw [← this]; simp [dot]
  have s0 : dot (mulVec m dpdu) (mulVec m dpdu) ≠ 0 := by
    intro e
    have z := dot_zero e
    have := C26_normal_orthogonal tol ht m w hw ha dpdu dpdu
    rw [z] at this
    apply hs
    rw [← this]; simp [dot]
  obtain ⟨s, es⟩ := unit_exists s0
  obtain ⟨n, en⟩ := unit_exists n0
  obtain ⟨us, c, _, hc⟩ := unit_some es
  obtain ⟨un, d, _, hd⟩ := unit_some en
  have o : dot s n = 0 := by
    rw [hc, hd, scale_dot, dot_scale, dot_comm, key dpdu, h]; ring
  obtain ⟨fr, e, x⟩ := C98_frame_partial s n un us o
  exact ⟨s, n, fr, es, en, e, x⟩

example : ∃ m, ofHit ⟨3 / 5, 4 / 5, 0⟩ ⟨0, 0, 1⟩ = some m ∧ Orthonormal m ∧ RightHanded m ∧
    m.s = ⟨3 / 5, 4 / 5, 0⟩ ∧ m.n = ⟨0, 0, 1⟩ :=
  C98_frame_partial _ _ (by norm_num [dot]) (by norm_num [dot]) (by norm_num [dot])

/-! ### C99 -/

theorem cross_tangents (a b n : V3 ℝ) (hn : dot n n = 1) (ha : dot a n = 0) (hb : dot b n = 0) (aa : dot a a = 1) :
    cross a b = scale n (dot (cross a b) n) := by
  obtain ⟨_, o, _⟩ := frame_of n a hn aa ha
  have c := combine_coords _ o (cross a b)
  simp only at c
  have z1 : dot (cross a b) a = 0 := cross_left a b
  have z2 : dot (cross a b) (cross n a) = 0 := by
    have : dot (cross a b) (cross n a) = dot a n * dot b a - dot a a * dot b n := by simp only [dot, cross]; ring
    rw [this, ha, hb]; ring
  rw [z1, z2] at c
  refine c.symm.trans ?_
  simp only [combine, add, scale]
  ext <;> simp only <;> ring

theorem double_cross (a n : V3 ℝ) (ha : dot a a = 1) (h : dot a n = 0) : cross a (cross n a) = n := by
  simp only [dot] at ha h
  simp only [cross]
  ext <;> simp only
  · linear_combination n.x * ha - a.x * h
  · linear_combination n.y * ha - a.y * h
  · linear_combination n.z * ha - a.z * h

theorem double_cross' (a n : V3 ℝ) (hn : dot n n = 1) (h : dot a n = 0) : cross (cross n a) n = a := by
  simp only [dot] at hn h
  simp only [cross]
  ext <;> simp only
  · linear_combination a.x * hn - n.x * h
  · linear_combination a.y * hn - n.y * h
  · linear_combination a.z * hn - n.z * h

theorem dot_sub (v w u : V3 ℝ) : dot (sub v w) u = dot v u - dot w u := by simp only [dot, sub]; ring

theorem dot_add (v w u : V3 ℝ) : dot (add v w) u = dot v u + dot w u := by simp only [dot, add]; ring

/-- A tangent moved by the slope of the height along it. -/
noncomputable def displaced (d normal : V3 ℝ) (slope : ℝ) : V3 ℝ := add d (scale normal (slope - dot normal d))

/-- The steps of `TextureHeight::bump`. -/
theorem bumpHeight_some {dpdu dpdv normal : V3 ℝ} {u v : ℝ} {m : Space} {nn : V3 ℝ}
    (h : bumpHeight dpdu dpdv normal u v = some (m, nn)) :
    ∃ n s, unit (cross (displaced dpdu normal u) (displaced dpdv normal v)) = some n ∧
      unit (sub (displaced dpdu normal u) (scale n (dot (displaced dpdu normal u) n))) = some s ∧
      Orthonormal ⟨s, cross n s, n⟩ ∧ RightHanded ⟨s, cross n s, n⟩ ∧
      nn = (if dot n normal < 0 then scale n (-1) else n) ∧ m = ⟨s, cross n s, nn⟩ := by
  unfold bumpHeight at h
  simp only [Option.bind_eq_bind, Option.bind_eq_some_iff, Option.some.injEq, Prod.mk.injEq] at h
  obtain ⟨n, hn, s, hs, t, ht, e1, e2⟩ := h
  obtain ⟨un, _⟩ := unit_some hn
  obtain ⟨us, c, cp, ce⟩ := unit_some hs
  have sn : dot s n = 0 := by rw [ce, scale_dot, dot_sub, scale_dot, un]; ring
  obtain ⟨ft, o, r⟩ := frame_of n s un us sn
  rw [ft] at ht
  cases ht
  exact ⟨n, s, hn, hs, o, r, e2.symm, by rw [← e1, ← e2]⟩

/-- **C99** (height): whenever defined, the bumped space is orthonormal, its third axis is the normal returned,
which is on the side of the geometric normal and orthogonal to the displaced tangents. -/
theorem C99_height (dpdu dpdv normal : V3 ℝ) (u v : ℝ) (m : Space) (nn : V3 ℝ)
    (h : bumpHeight dpdu dpdv normal u v = some (m, nn)) :
    Orthonormal m ∧ m.n = nn ∧ 0 ≤ dot nn normal ∧
    dot nn (displaced dpdu normal u) = 0 ∧ dot nn (displaced dpdv normal v) = 0 := by
  obtain ⟨n, s, hn, hs, ⟨ss, tt, n2, st, sn, tn⟩, r, e, em⟩ := bumpHeight_some h
  obtain ⟨_, c, cp, ce⟩ := unit_some hn
  simp only at ss tt n2 st sn tn
  have p1 : dot n (displaced dpdu normal u) = 0 := by rw [ce, scale_dot, cross_left, mul_zero]
  have p2 : dot n (displaced dpdv normal v) = 0 := by rw [ce, scale_dot, cross_right, mul_zero]
  rw [em]
  split at e
  · rename_i neg
    rw [e]
    refine ⟨⟨ss, tt, ?_, st, ?_, ?_⟩, rfl, ?_, ?_, ?_⟩
    · show dot (scale n (-1)) (scale n (-1)) = 1
      rw [scale_dot, dot_scale, n2]; norm_num
    · show dot s (scale n (-1)) = 0
      rw [dot_scale, sn, mul_zero]
    · show dot (cross n s) (scale n (-1)) = 0
      rw [dot_scale, tn, mul_zero]
    · rw [scale_dot]; linarith
    · rw [scale_dot, p1, mul_zero]
    · rw [scale_dot, p2, mul_zero]
  · rename_i nneg
    rw [e]
    exact ⟨⟨ss, tt, n2, st, sn, tn⟩, rfl, not_lt.1 nneg, p1, p2⟩

/-- Displacing along the normal does not change on which side of the tangents it is. -/
theorem displaced_side (dpdu dpdv normal : V3 ℝ) (u v : ℝ) :
    dot (cross (displaced dpdu normal u) (displaced dpdv normal v)) normal = dot (cross dpdu dpdv) normal := by
  simp only [displaced, dot, cross, add, scale]; ring

/-- **C99** (height): the bumped space is right-handed if the tangents are, and left-handed otherwise (the
normal is turned after `t` is computed). -/
theorem C99_height_handed (dpdu dpdv normal : V3 ℝ) (u v : ℝ) (m : Space) (nn : V3 ℝ)
    (h : bumpHeight dpdu dpdv normal u v = some (m, nn)) :
    (0 < dot (cross dpdu dpdv) normal → RightHanded m) ∧
    (dot (cross dpdu dpdv) normal < 0 → dot (cross m.s m.t) m.n = -1) := by
  obtain ⟨n, s, hn, hs, o, r, e, em⟩ := bumpHeight_some h
  obtain ⟨_, c, cp, ce⟩ := unit_some hn
  have sd : dot n normal = c * dot (cross dpdu dpdv) normal := by
    conv_lhs => rw [ce, scale_dot, displaced_side]
  constructor
  · intro hp
    have : ¬ dot n normal < 0 := by rw [sd, not_lt]; positivity
    rw [if_neg this] at e
    rw [em, e]; exact r
  · intro hneg
    have : dot n normal < 0 := by rw [sd]; exact mul_neg_of_pos_of_neg cp hneg
    rw [if_pos this] at e
    rw [em, e]
    show dot (cross s (cross n s)) (scale n (-1)) = -1
    have r' : dot (cross s (cross n s)) n = 1 := r
    rw [dot_scale, r']; norm_num

/-- **C99** (height): on orthonormal tangents the normal is tilted against the gradient:
`n - u dpdu - v dpdv`, normalised. -/
theorem C99_height_tilt (dpdu normal : V3 ℝ) (u v : ℝ) (hn : dot normal normal = 1) (hs : dot dpdu dpdu = 1)
    (h : dot dpdu normal = 0) :
    ∃ m nn, bumpHeight dpdu (cross normal dpdu) normal u v = some (m, nn) ∧
      unit (sub (sub normal (scale dpdu u)) (scale (cross normal dpdu) v)) = some nn ∧ RightHanded m := by
  obtain ⟨e, ⟨_, tt, _, st, _, tn⟩, r⟩ := frame_of normal dpdu hn hs h
  simp only at tt st tn
  obtain ⟨t, ht⟩ : ∃ t, t = cross normal dpdu := ⟨_, rfl⟩
  rw [← ht] at tt st tn ⊢
  have c1 : cross dpdu t = normal := by rw [ht]; exact double_cross _ _ hs h
  have c2 : cross t normal = dpdu := by rw [ht]; exact double_cross' _ _ hn h
  have D : cross (displaced dpdu normal u) (displaced t normal v) = sub (sub normal (scale dpdu u)) (scale t v) := by
    have e1 : displaced dpdu normal u = add dpdu (scale normal u) := by rw [displaced, dot_comm, h, sub_zero]
    have e2 : displaced t normal v = add t (scale normal v) := by rw [displaced, dot_comm, tn, sub_zero]
    have lin : cross (add dpdu (scale normal u)) (add t (scale normal v)) =
        sub (sub (cross dpdu t) (scale (cross normal dpdu) v)) (scale (cross t normal) u) := by
      simp only [cross, add, sub, scale]; ext <;> simp only <;> ring
    rw [e1, e2, lin, c1, c2, ← ht]
    simp only [sub, scale]; ext <;> simp only <;> ring
  have len : dot (sub (sub normal (scale dpdu u)) (scale t v)) (sub (sub normal (scale dpdu u)) (scale t v)) =
      1 + u ^ 2 + v ^ 2 := by
    simp only [dot, sub, scale] at *
    linear_combination hn + u ^ 2 * hs + v ^ 2 * tt - 2 * u * h - 2 * v * tn + 2 * u * v * st
  obtain ⟨n, en⟩ := unit_exists (v := sub (sub normal (scale dpdu u)) (scale t v)) (by rw [len]; positivity)
  obtain ⟨un, c, cp, ce⟩ := unit_some en
  have en' : unit (cross (displaced dpdu normal u) (displaced t normal v)) = some n := by rw [D, en]
  have side : dot n normal = c := by
    rw [ce, scale_dot, dot_sub, dot_sub, scale_dot, scale_dot, hn, h, tn]; ring
  have pn : dot (displaced dpdu normal u) n = 0 := by
    rw [ce, ← D, dot_scale, dot_comm, cross_left, mul_zero]
  have s0 : dot (sub (displaced dpdu normal u) (scale n (dot (displaced dpdu normal u) n)))
      (sub (displaced dpdu normal u) (scale n (dot (displaced dpdu normal u) n))) ≠ 0 := by
    rw [pn]
    have e1 : displaced dpdu normal u = add dpdu (scale normal u) := by rw [displaced, dot_comm, h, sub_zero]
    have : dot (sub (displaced dpdu normal u) (scale n 0)) (sub (displaced dpdu normal u) (scale n 0)) = 1 + u ^ 2 := by
      rw [e1]
      simp only [dot, sub, add, scale] at *
      linear_combination hs + u ^ 2 * hn + 2 * u * h
    rw [this]; positivity
  obtain ⟨s, es⟩ := unit_exists s0
  obtain ⟨us, k, _, ke⟩ := unit_some es
  have sn : dot s n = 0 := by rw [ke, scale_dot, dot_sub, scale_dot, un]; ring
  obtain ⟨ft, o, r'⟩ := frame_of n s un us sn
  have nneg : ¬ dot n normal < 0 := by rw [side]; linarith
  refine ⟨⟨s, cross n s, n⟩, n, ?_, en, r'⟩
  unfold bumpHeight
  simp only [Option.bind_eq_bind, Option.bind_eq_some_iff, Option.some.injEq, Prod.mk.injEq]
  exact ⟨n, en', s, es, _, ft, by rw [if_neg nneg], by rw [if_neg nneg]⟩

/-- **C99** (height): a texture of uniform height has no gradient. -/
theorem C99_uniform (tex : ℝ × ℝ → BitVec 8) (h : ∀ a b, tex a = tex b) (uv du dv : ℝ × ℝ) :
    gradient tex uv du dv = (0, 0) := by
  have c : tex = fun _ => tex uv := funext fun a => h a uv
  unfold gradient
  rw [c]
  simp

/-- **C99** (height): where the texture holds the heights `a s + b t + c` rounded to 255 levels, the gradient is `(a, b)`
up to one level divided by the step, which is the mean of the differentials (a hundredth where they vanish). -/
theorem C99_gradient (tex : ℝ × ℝ → BitVec 8) (a b c : ℝ)
    (ht : ∀ q, |((tex q).toNat : ℝ) - 255 * (a * q.1 + b * q.2 + c)| ≤ 1 / 2) (uv du dv : ℝ × ℝ) :
    let step := fun d : ℝ × ℝ => if d = (0, 0) then 1 / 100 else (|d.1| + |d.2|) / 2
    |(gradient tex uv du dv).1 - a| ≤ 1 / (255 * step du) ∧ |(gradient tex uv du dv).2 - b| ≤ 1 / (255 * step dv) := by
  intro step
  have hs : ∀ d : ℝ × ℝ, (if 1 / 2 * (|d.1| + |d.2|) = 0 then 1 / 100 else 1 / 2 * (|d.1| + |d.2|)) = step d ∧
      0 < step d := by
    rintro ⟨x, y⟩
    simp only [step, Prod.mk.injEq]
    have ax := abs_nonneg x
    have ay := abs_nonneg y
    by_cases z : x = 0 ∧ y = 0
    · rw [if_pos z, z.1, z.2]; norm_num
    · have p : 0 < |x| + |y| := by
        rcases not_and_or.1 z with h | h
        · have := abs_pos.2 h; linarith
        · have := abs_pos.2 h; linarith
      rw [if_neg z, if_neg (by linarith : 1 / 2 * (|x| + |y|) ≠ 0)]
      constructor <;> linarith
  have key : ∀ k e s o ts to_ : ℝ, 0 < e → |s - 255 * ts| ≤ 1 / 2 → |o - 255 * to_| ≤ 1 / 2 → ts - to_ = k * e →
      |(s - o) * (1 / 255) / e - k| ≤ 1 / (255 * e) := by
    intro k e s o ts to_ he h1 h2 h3
    have : (s - o) * (1 / 255) / e - k = (s - o - 255 * (k * e)) / (255 * e) := by field_simp
    rw [this, abs_div, abs_of_pos (by positivity : 0 < 255 * e)]
    apply div_le_div_of_nonneg_right _ (by positivity)
    rw [abs_le] at *
    constructor <;> linarith [h1.1, h1.2, h2.1, h2.2]
  unfold gradient
  simp only [(hs du).1, (hs dv).1]
  exact ⟨key _ _ _ _ _ _ (hs du).2 (ht _) (ht uv) (by simp only; ring),
    key _ _ _ _ _ _ (hs dv).2 (ht _) (ht uv) (by simp only; ring)⟩

example : |(gradient (fun _ => 128) (1 / 3, 2 / 3) (1, 1) (1, 1)).1 - 0| ≤ 1 / 255 := by
  have := (C99_gradient (fun _ => 128) 0 0 (1 / 2)
    (by intro q; rw [show ((128 : BitVec 8)).toNat = 128 from rfl]; norm_num [abs_le]) (1 / 3, 2 / 3) (1, 1) (1, 1)).1
  norm_num at this ⊢
  exact this

/-- **C99** (height): and so leaves the shading space as it is. -/
theorem C99_height_flat (dpdu normal : V3 ℝ) (hn : dot normal normal = 1) (hs : dot dpdu dpdu = 1)
    (h : dot dpdu normal = 0) :
    ∃ m, bumpHeight dpdu (cross normal dpdu) normal 0 0 = some (m, normal) ∧ ofHit dpdu normal = some m := by
  obtain ⟨m, nn, e, en, _⟩ := C99_height_tilt dpdu normal 0 0 hn hs h
  have z : sub (sub normal (scale dpdu 0)) (scale (cross normal dpdu) 0) = normal := by
    simp only [sub, scale]; ext <;> simp only <;> ring
  rw [z, unit_unit hn] at en
  cases en
  refine ⟨m, e, ?_⟩
  obtain ⟨n, s, h1, h2, o, r, e1, e2⟩ := bumpHeight_some e
  obtain ⟨ft, _, _⟩ := frame_of normal dpdu hn hs h
  have d0 : displaced dpdu normal 0 = dpdu := by
    rw [displaced, dot_comm, h]; simp [add, scale]
  have nn' : n = normal := by
    have o1 := C99_height _ _ _ _ _ _ _ e
    split at e1
    · rename_i neg
      rw [e1] at neg
      rw [dot_scale, o.2.2.1] at neg
      exfalso
      have d1 : displaced (cross normal dpdu) normal 0 = cross normal dpdu := by
        rw [displaced, dot_comm, cross_left]; simp [add, scale]
      obtain ⟨_, c, cp, ce⟩ := unit_some h1
      have : dot n normal = c * dot (cross dpdu (cross normal dpdu)) normal := by rw [ce, scale_dot, displaced_side]
      have l : dot (cross dpdu (cross normal dpdu)) normal = 1 := by
        rw [← triple normal dpdu (cross normal dpdu), cross_sq, hn, hs, dot_comm normal dpdu, h]; norm_num
      rw [l, mul_one] at this
      rw [e1, dot_scale, o.2.2.1] at this
      linarith
    · exact e1.symm
  subst nn'
  rw [d0, h] at h2
  have : sub dpdu (scale n 0) = dpdu := by simp [sub, scale]
  rw [this, unit_unit hs] at h2
  cases h2
  rw [ofHit, ft, e2]; rfl

/-- **C99** (height) is violated: the tangents of a hit are normalised (asset.cpp:46-47) while the gradient is per
unit of texture coordinate.  On the plane `(L a, b)` with height `k a` the normal is not orthogonal to the
tangent `(L,0,k)` of the surface described, for every stretch `L` but 1. -/
theorem C99_violated_scale (L k : ℝ) (hL : 0 < L) (h1 : L ≠ 1) (hk : k ≠ 0) :
    ∃ d m nn, unit ⟨L, 0, 0⟩ = some d ∧ bumpHeight d ⟨0, 1, 0⟩ ⟨0, 0, 1⟩ k 0 = some (m, nn) ∧ dot nn ⟨L, 0, k⟩ ≠ 0 := by
  have ud : unit ⟨L, 0, 0⟩ = some ⟨1, 0, 0⟩ := by
    unfold unit
    have : dot (⟨L, 0, 0⟩ : V3 ℝ) ⟨L, 0, 0⟩ = L ^ 2 := by simp only [dot]; ring
    rw [this, if_neg (by positivity), Real.sqrt_sq hL.le]
    simp [scale, hL.ne']
  have c : cross (⟨0, 0, 1⟩ : V3 ℝ) ⟨1, 0, 0⟩ = ⟨0, 1, 0⟩ := by simp [cross]
  obtain ⟨m, nn, e, en, _⟩ := C99_height_tilt ⟨1, 0, 0⟩ ⟨0, 0, 1⟩ k 0 (by simp [dot]) (by simp [dot]) (by simp [dot])
  rw [c] at e en
  refine ⟨_, m, nn, ud, e, ?_⟩
  obtain ⟨_, q, qp, qe⟩ := unit_some en
  rw [qe]
  have : dot (scale (sub (sub ⟨0, 0, 1⟩ (scale ⟨1, 0, 0⟩ k)) (scale ⟨0, 1, 0⟩ 0)) q) (⟨L, 0, k⟩ : V3 ℝ) = q * k * (1 - L) := by
    simp only [dot, sub, scale]; ring
  rw [this]
  exact mul_ne_zero (mul_ne_zero qp.ne' hk) (sub_ne_zero.2 (Ne.symm h1))

/-- The steps of `TextureNormal::bump`. -/
theorem bumpNormal_some {dpdu dpdv normal v : V3 ℝ} {m : Space} {nn : V3 ℝ}
    (h : bumpNormal dpdu dpdv normal v = some (m, nn)) :
    ∃ on ot w, unit (cross dpdu dpdv) = some on ∧ unit (cross dpdu on) = some ot ∧ toWorld ⟨dpdu, ot, on⟩ v = some w ∧
      Orthonormal m ∧ RightHanded m ∧ m.n = w ∧ nn = (if dot w normal < 0 then scale w (-1) else w) := by
  unfold bumpNormal at h
  simp only [Option.bind_eq_bind, Option.bind_eq_some_iff, Option.some.injEq, Prod.mk.injEq] at h
  obtain ⟨on, h1, ot, h2, w, h3, n, h4, s, h5, t, h6, e1, e2⟩ := h
  have uw : dot w w = 1 := by rw [toWorld_eq] at h3; exact (unit_some h3).1
  rw [unit_unit uw] at h4
  cases h4
  obtain ⟨us, c, cp, ce⟩ := unit_some h5
  have sn : dot s w = 0 := by rw [ce, scale_dot, dot_sub, scale_dot, uw, dot_comm w dpdu]; ring
  obtain ⟨ft, o, r⟩ := frame_of w s uw us sn
  rw [ft] at h6
  cases h6
  exact ⟨on, ot, w, h1, h2, h3, by rw [← e1]; exact o, by rw [← e1]; exact r, by rw [← e1], e2.symm⟩

/-- **C99** (normal map): whenever defined, the bumped space is orthonormal and right-handed, and the normal
returned is its third axis or the opposite, on the side of the geometric normal. -/
theorem C99_normal (dpdu dpdv normal v : V3 ℝ) (m : Space) (nn : V3 ℝ)
    (h : bumpNormal dpdu dpdv normal v = some (m, nn)) :
    Orthonormal m ∧ RightHanded m ∧ 0 ≤ dot nn normal ∧ (nn = m.n ∨ nn = scale m.n (-1)) := by
  obtain ⟨on, ot, w, _, _, _, o, r, e, en⟩ := bumpNormal_some h
  refine ⟨o, r, ?_, ?_⟩
  · rw [en]
    split
    · rw [scale_dot]; linarith
    · rename_i x; exact not_lt.1 x
  · rw [en, e]
    split
    · exact Or.inr rfl
    · exact Or.inl rfl

/-- **C99** (normal map): a vector with components in `[-1, 1]`, coded as usual by mapping `[-1, 1]` to the 256 levels and
rounding, is read back up to half a level. -/
theorem C99_texel (v : V3 ℝ) (r g b : BitVec 8) (hr : |(r.toNat : ℝ) - 255 * ((v.x + 1) / 2)| ≤ 1 / 2)
    (hg : |(g.toNat : ℝ) - 255 * ((v.y + 1) / 2)| ≤ 1 / 2) (hb : |(b.toNat : ℝ) - 255 * ((v.z + 1) / 2)| ≤ 1 / 2) :
    |(texelVector r g b).x - v.x| ≤ 1 / 255 ∧ |(texelVector r g b).y - v.y| ≤ 1 / 255 ∧
    |(texelVector r g b).z - v.z| ≤ 1 / 255 := by
  simp only [texelVector]
  rw [abs_le] at hr hg hb
  refine ⟨?_, ?_, ?_⟩ <;> rw [abs_le] <;> constructor <;> linarith [hr.1, hr.2, hg.1, hg.2, hb.1, hb.2]

example : |(texelVector 128 128 255).z - 1| ≤ 1 / 255 :=
  (C99_texel ⟨0, 0, 1⟩ 128 128 255
    (by rw [show ((128 : BitVec 8)).toNat = 128 from rfl]; norm_num [abs_le])
    (by rw [show ((128 : BitVec 8)).toNat = 128 from rfl]; norm_num [abs_le])
    (by rw [show ((255 : BitVec 8)).toNat = 255 from rfl]; norm_num [abs_le])).2.2

/-- **C99** (normal map): on orthonormal tangents the third axis is the vector of the texel with its second
coordinate along `-dpdv`. -/
theorem C99_normal_tilt (dpdu normal v : V3 ℝ) (hn : dot normal normal = 1) (hs : dot dpdu dpdu = 1)
    (h : dot dpdu normal = 0) (m : Space) (nn : V3 ℝ)
    (hb : bumpNormal dpdu (cross normal dpdu) normal v = some (m, nn)) :
    unit (combine ⟨dpdu, scale (cross normal dpdu) (-1), normal⟩ v) = some m.n := by
  obtain ⟨on, ot, w, h1, h2, h3, _, _, e, _⟩ := bumpNormal_some hb
  have c1 : cross dpdu (cross normal dpdu) = normal := double_cross _ _ hs h
  rw [c1, unit_unit hn] at h1
  cases h1
  have c2 : cross dpdu normal = scale (cross normal dpdu) (-1) := by
    simp only [cross, scale]; ext <;> simp only <;> ring
  have u : dot (scale (cross normal dpdu) (-1)) (scale (cross normal dpdu) (-1)) = 1 := by
    rw [scale_dot, dot_scale, cross_sq, hn, hs, dot_comm, h]; norm_num
  rw [c2, unit_unit u] at h2
  cases h2
  rw [e, ← h3, toWorld_eq]

/-- **C99** (normal map) is violated: no texel leaves the surface flat, since no byte is mapped to 0. -/
theorem C99_violated_flat (dpdu normal : V3 ℝ) (hn : dot normal normal = 1) (hs : dot dpdu dpdu = 1)
    (h : dot dpdu normal = 0) (r g b : BitVec 8) (m : Space) (nn : V3 ℝ)
    (hb : bumpNormal dpdu (cross normal dpdu) normal (texelVector r g b) = some (m, nn)) : nn ≠ normal := by
  have T := C99_normal_tilt dpdu normal _ hn hs h m nn hb
  obtain ⟨_, c, cp, ce⟩ := unit_some T
  have x : dot m.n dpdu = c * (texelVector r g b).x := by
    have s1 : dot (cross normal dpdu) dpdu = 0 := cross_right _ _
    rw [ce, scale_dot, combine, dot_add, dot_add, scale_dot, scale_dot, scale_dot, scale_dot, hs, s1,
      dot_comm normal dpdu, h]
    ring
  have x0 : (texelVector r g b).x ≠ 0 := by
    simp only [texelVector]
    intro e
    have : ((2 * r.toNat : ℕ) : ℝ) = ((255 : ℕ) : ℝ) := by push_cast; linarith
    have := Nat.cast_injective this
    omega
  intro e
  obtain ⟨_, _, _, o⟩ := C99_normal _ _ _ _ _ _ hb
  have : dot m.n dpdu = 0 := by
    rcases o with o | o
    · rw [← o, e, dot_comm, h]
    · have : dot nn dpdu = -dot m.n dpdu := by rw [o, scale_dot]; ring
      rw [e, dot_comm, h] at this; linarith
  rw [x] at this
  exact (mul_ne_zero cp.ne' x0) this

/-- **C99** (normal map) is violated: for tangents of the other orientation the normal returned is not the third
axis of the space but its opposite (texture_height.cpp:74-75 turns both). -/
theorem C99_violated_sides :
    ∃ m, bumpNormal ⟨1, 0, 0⟩ ⟨0, 1, 0⟩ ⟨0, 0, -1⟩ ⟨0, 0, 1⟩ = some (m, ⟨0, 0, -1⟩) ∧ m.n = ⟨0, 0, 1⟩ := by
  have c1 : cross (⟨1, 0, 0⟩ : V3 ℝ) ⟨0, 1, 0⟩ = ⟨0, 0, 1⟩ := by simp [cross]
  have c2 : cross (⟨1, 0, 0⟩ : V3 ℝ) ⟨0, 0, 1⟩ = ⟨0, -1, 0⟩ := by simp [cross]
  have c3 : cross (⟨0, 0, 1⟩ : V3 ℝ) ⟨1, 0, 0⟩ = ⟨0, 1, 0⟩ := by simp [cross]
  have w : toWorld ⟨⟨1, 0, 0⟩, ⟨0, -1, 0⟩, ⟨0, 0, 1⟩⟩ ⟨0, 0, 1⟩ = some ⟨0, 0, 1⟩ := by
    rw [toWorld_eq]
    have : combine ⟨⟨1, 0, 0⟩, ⟨0, -1, 0⟩, ⟨0, 0, 1⟩⟩ ⟨0, 0, 1⟩ = ⟨0, 0, 1⟩ := by simp [combine, add, scale]
    rw [this, unit_unit (by simp [dot])]
  have s : sub (⟨1, 0, 0⟩ : V3 ℝ) (scale ⟨0, 0, 1⟩ (dot ⟨0, 0, 1⟩ ⟨1, 0, 0⟩)) = ⟨1, 0, 0⟩ := by simp [sub, scale, dot]
  have u1 : unit ⟨0, 0, 1⟩ = some ⟨0, 0, 1⟩ := unit_unit (by simp [dot])
  have u2 : unit ⟨0, -1, 0⟩ = some ⟨0, -1, 0⟩ := unit_unit (by simp [dot])
  have u3 : unit ⟨1, 0, 0⟩ = some ⟨1, 0, 0⟩ := unit_unit (by simp [dot])
  have u4 : unit ⟨0, 1, 0⟩ = some ⟨0, 1, 0⟩ := unit_unit (by simp [dot])
  refine ⟨⟨⟨1, 0, 0⟩, ⟨0, 1, 0⟩, ⟨0, 0, 1⟩⟩, ?_, rfl⟩
  unfold bumpNormal
  simp only [Option.bind_eq_bind, c1, u1, Option.bind_some, c2, u2, w, s, u3, c3, u4]
  norm_num [dot, scale]

/-! ### C100 -/

/-- **C100.** The point computed is on the ray and in the tangent plane. -/
theorem C100_plane (p n q : V3 ℝ) (r : Ray ℝ) (h : planeHit p n r = some q) :
    (∃ t, q = r.apply t) ∧ dot n (sub q p) = 0 := by
  unfold planeHit at h
  simp only at h
  split at h
  · cases h
  · rename_i nz
    cases h
    refine ⟨⟨_, rfl⟩, ?_⟩
    have : ∀ t, dot n (sub (r.apply t) p) = dot n r.o - dot n p + t * dot n r.d := by
      intro t; simp only [dot, sub, Ray.apply]; ring
    rw [this, div_mul_cancel₀ _ nz]; ring

theorem axes_cases (n : V3 ℝ) :
    (axes n = (1, 2) ∧ |n.y| ≤ |n.x| ∧ |n.z| ≤ |n.x|) ∨ (axes n = (0, 2) ∧ |n.x| ≤ |n.y| ∧ |n.z| ≤ |n.y|) ∨
    (axes n = (0, 1) ∧ |n.x| ≤ |n.z| ∧ |n.y| ≤ |n.z|) := by
  unfold axes
  split
  · rename_i h; exact Or.inl ⟨rfl, h.1.le, h.2.le⟩
  · rename_i h
    split
    · rename_i l
      refine Or.inr (Or.inl ⟨rfl, ?_, l.le⟩)
      by_contra c
      push Not at c
      exact h ⟨c, lt_trans l c⟩
    · rename_i l
      push Not at l
      refine Or.inr (Or.inr ⟨rfl, ?_, l⟩)
      by_contra c
      push Not at c
      exact h ⟨lt_of_le_of_lt l c, c⟩

/-- Solving for the coordinates along the tangents. -/
theorem cramer (a00 a01 a10 a11 b0 b1 : ℝ) (h : a00 * a11 - a01 * a10 ≠ 0) :
    b0 = a00 * ((a11 * b0 - a01 * b1) * (1 / (a00 * a11 - a01 * a10))) +
      a01 * ((a00 * b1 - a10 * b0) * (1 / (a00 * a11 - a01 * a10))) ∧
    b1 = a10 * ((a11 * b0 - a01 * b1) * (1 / (a00 * a11 - a01 * a10))) +
      a11 * ((a00 * b1 - a10 * b0) * (1 / (a00 * a11 - a01 * a10))) := by
  generalize hD : a00 * a11 - a01 * a10 = D at *
  constructor <;> field_simp <;> rw [← hD] <;> ring

theorem recover (n dpdu dpdv b : V3 ℝ) (hn : n ≠ ⟨0, 0, 0⟩) (hu : dot n dpdu = 0) (hv : dot n dpdv = 0)
    (hb : dot n b = 0) (x y : ℝ)
    (h0 : b.f (axes n).1 = dpdu.f (axes n).1 * x + dpdv.f (axes n).1 * y)
    (h1 : b.f (axes n).2 = dpdu.f (axes n).2 * x + dpdv.f (axes n).2 * y) :
    b = add (scale dpdu x) (scale dpdv y) := by
  simp only [dot] at hu hv hb
  have big : ∀ a : ℝ, |n.x| ≤ |a| → |n.y| ≤ |a| → |n.z| ≤ |a| → a ≠ 0 := by
    rintro a hx hy hz rfl
    rw [abs_zero] at *
    apply hn
    ext <;> simp only <;> apply abs_eq_zero.1 <;> apply le_antisymm <;> first | assumption | exact abs_nonneg _
  rcases axes_cases n with ⟨e, l1, l2⟩ | ⟨e, l1, l2⟩ | ⟨e, l1, l2⟩ <;> rw [e] at h0 h1 <;> simp only [V3.f] at h0 h1
  · have nz := big n.x le_rfl l1 l2
    simp only [add, scale]
    ext <;> simp only
    · apply mul_left_cancel₀ nz
      linear_combination hb - n.y * h0 - n.z * h1 - x * hu - y * hv
    · exact h0
    · exact h1
  · have nz := big n.y l1 le_rfl l2
    simp only [add, scale]
    ext <;> simp only
    · exact h0
    · apply mul_left_cancel₀ nz
      linear_combination hb - n.x * h0 - n.z * h1 - x * hu - y * hv
    · exact h1
  · have nz := big n.z l1 l2 le_rfl
    simp only [add, scale]
    ext <;> simp only
    · exact h0
    · exact h1
    · apply mul_left_cancel₀ nz
      linear_combination hb - n.x * h0 - n.y * h1 - x * hu - y * hv

/-- **C100.** With tangents orthogonal to the normal, the differentials are exactly the coordinates along the
tangents of the points where the neighbouring rays meet the tangent plane. -/
theorem C100_coordinates_partial (p n dpdu dpdv : V3 ℝ) (rx ry : Ray ℝ) (du dv : ℝ × ℝ) (hn : n ≠ ⟨0, 0, 0⟩)
    (hu : dot n dpdu = 0) (hv : dot n dpdv = 0) (h : differentials p n dpdu dpdv rx ry = .ok du dv) :
    ∃ px py, planeHit p n rx = some px ∧ planeHit p n ry = some py ∧
      sub px p = add (scale dpdu du.1) (scale dpdv dv.1) ∧ sub py p = add (scale dpdu du.2) (scale dpdv dv.2) := by
  unfold differentials at h
  split at h
  · rename_i px py ex ey
    simp only at h
    split at h
    · rename_i big
      simp only [Differentials.ok.injEq] at h
      obtain ⟨rfl, rfl⟩ := h
      have nz : dpdu.f (axes n).1 * dpdv.f (axes n).2 - dpdv.f (axes n).1 * dpdu.f (axes n).2 ≠ 0 := by
        intro e; rw [e] at big; norm_num at big
      have fs : ∀ (a b : V3 ℝ) i, (sub a b).f i = a.f i - b.f i := by
        intro a b i; fin_cases i <;> rfl
      refine ⟨px, py, ex, ey, ?_, ?_⟩
      · apply recover n dpdu dpdv _ hn hu hv (C100_plane p n px rx ex).2
        · rw [fs]; exact (cramer _ _ _ _ _ _ nz).1
        · rw [fs]; exact (cramer _ _ _ _ _ _ nz).2
      · apply recover n dpdu dpdv _ hn hu hv (C100_plane p n py ry ey).2
        · rw [fs]; exact (cramer _ _ _ _ _ _ nz).1
        · rw [fs]; exact (cramer _ _ _ _ _ _ nz).2
    · cases h
  · cases h

/-- **C100.** On orthonormal tangents the differentials are never refused, and undefined only for a ray parallel
to the surface. -/
theorem C100_accepted (p n dpdu dpdv : V3 ℝ) (rx ry : Ray ℝ) (hn : dot n n = 1) (uu : dot dpdu dpdu = 1)
    (vv : dot dpdv dpdv = 1) (uv : dot dpdu dpdv = 0) (hu : dot dpdu n = 0) (hv : dot dpdv n = 0)
    (hx : dot n rx.d ≠ 0) (hy : dot n ry.d ≠ 0) : ∃ du dv, differentials p n dpdu dpdv rx ry = .ok du dv := by
  have c := cross_tangents dpdu dpdv n hn hu hv uu
  obtain ⟨k, hk⟩ : ∃ k, k = dot (cross dpdu dpdv) n := ⟨_, rfl⟩
  rw [← hk] at c
  have k2 : k ^ 2 = 1 := by
    have := cross_sq dpdu dpdv
    rw [c, scale_dot, dot_scale, hn, uu, vv, uv] at this
    linarith
  have ka : |k| = 1 := by
    have : |k| ^ 2 = 1 := by rw [sq_abs]; exact k2
    nlinarith [abs_nonneg k]
  have cx : dpdu.y * dpdv.z - dpdu.z * dpdv.y = n.x * k := congrArg V3.x c
  have cy : dpdu.z * dpdv.x - dpdu.x * dpdv.z = n.y * k := congrArg V3.y c
  have cz : dpdu.x * dpdv.y - dpdu.y * dpdv.x = n.z * k := congrArg V3.z c
  have big : ∀ a : ℝ, |n.x| ≤ |a| → |n.y| ≤ |a| → |n.z| ≤ |a| → 1 / 100000 < |a * k| := by
    intro a l1 l2 l3
    rw [abs_mul, ka, mul_one]
    have s1 := mul_self_le_mul_self (abs_nonneg _) l1
    have s2 := mul_self_le_mul_self (abs_nonneg _) l2
    have s3 := mul_self_le_mul_self (abs_nonneg _) l3
    rw [abs_mul_abs_self n.x] at s1
    rw [abs_mul_abs_self n.y] at s2
    rw [abs_mul_abs_self n.z] at s3
    simp only [dot] at hn
    by_contra le
    push Not at le
    nlinarith [abs_nonneg a]
  have ex : planeHit p n rx = some _ := if_neg hx
  have ey : planeHit p n ry = some _ := if_neg hy
  unfold differentials
  rw [ex, ey]
  simp only
  have det : 1 / 100000 < |dpdu.f (axes n).1 * dpdv.f (axes n).2 - dpdv.f (axes n).1 * dpdu.f (axes n).2| := by
    rcases axes_cases n with ⟨e, l1, l2⟩ | ⟨e, l1, l2⟩ | ⟨e, l1, l2⟩ <;> rw [e] <;> simp only [V3.f]
    · have := big n.x le_rfl l1 l2
      rw [← cx] at this
      convert this using 2; ring
    · have := big n.y l1 le_rfl l2
      rw [← cy, abs_sub_comm] at this
      convert this using 2; ring
    · have := big n.z l1 l2 le_rfl
      rw [← cz] at this
      convert this using 2; ring
  rw [if_pos det]
  exact ⟨_, _, rfl⟩

/-- **C100** is violated by a normal that is not orthogonal to the tangents (smooth shading): the coordinates do
not give the point where the ray meets the plane. -/
theorem C100_violated_smooth :
    ∃ (p n dpdu dpdv px : V3 ℝ) (rx ry : Ray ℝ) (du dv : ℝ × ℝ), dot n n = 1 ∧ dot dpdu dpdu = 1 ∧ dot dpdv dpdv = 1 ∧
      differentials p n dpdu dpdv rx ry = .ok du dv ∧ planeHit p n rx = some px ∧
      sub px p ≠ add (scale dpdu du.1) (scale dpdv dv.1) := by
  have ex : planeHit ⟨0, 0, 0⟩ ⟨3 / 5, 0, 4 / 5⟩ ⟨⟨1, 0, 1⟩, ⟨0, 0, -1⟩⟩ = some ⟨1, 0, -3 / 4⟩ := by
    norm_num [planeHit, dot, Ray.apply]
  have ax : axes ⟨3 / 5, 0, 4 / 5⟩ = (0, 1) := by norm_num [axes, abs_of_pos]
  refine ⟨⟨0, 0, 0⟩, ⟨3 / 5, 0, 4 / 5⟩, ⟨1, 0, 0⟩, ⟨0, 1, 0⟩, ⟨1, 0, -3 / 4⟩, ⟨⟨1, 0, 1⟩, ⟨0, 0, -1⟩⟩,
    ⟨⟨1, 0, 1⟩, ⟨0, 0, -1⟩⟩, (1, 1), (0, 0), by norm_num [dot], by norm_num [dot], by norm_num [dot], ?_, ex, ?_⟩
  · unfold differentials
    rw [ex, ax]
    norm_num [V3.f]
  · simp [sub, add, scale]

/-- **C100** is violated as to the unit: the tangents of a hit are normalised (asset.cpp:46-47), so that the
differentials are lengths and not differences of texture coordinates.  On the plane `(L a, b)` the ray through the
point with `a=δ` gets `L δ`. -/
theorem C100_violated_units (L δ : ℝ) (hL : 0 < L) :
    ∃ d dv, unit ⟨L, 0, 0⟩ = some d ∧
      differentials ⟨0, 0, 0⟩ ⟨0, 0, 1⟩ d ⟨0, 1, 0⟩ ⟨⟨L * δ, 0, 1⟩, ⟨0, 0, -1⟩⟩ ⟨⟨0, 0, 1⟩, ⟨0, 0, -1⟩⟩ = .ok (L * δ, 0) dv := by
  have ud : unit ⟨L, 0, 0⟩ = some ⟨1, 0, 0⟩ := by
    unfold unit
    have : dot (⟨L, 0, 0⟩ : V3 ℝ) ⟨L, 0, 0⟩ = L ^ 2 := by simp only [dot]; ring
    rw [this, if_neg (by positivity), Real.sqrt_sq hL.le]
    simp [scale, hL.ne']
  have ax : axes ⟨0, 0, 1⟩ = (0, 1) := by norm_num [axes]
  have ex : planeHit ⟨0, 0, 0⟩ ⟨0, 0, 1⟩ ⟨⟨L * δ, 0, 1⟩, ⟨0, 0, -1⟩⟩ = some ⟨L * δ, 0, 0⟩ := by
    norm_num [planeHit, dot, Ray.apply]
  have ey : planeHit ⟨0, 0, 0⟩ ⟨0, 0, 1⟩ ⟨⟨0, 0, 1⟩, ⟨0, 0, -1⟩⟩ = some ⟨0, 0, 0⟩ := by
    norm_num [planeHit, dot, Ray.apply]
  refine ⟨_, (0, 0), ud, ?_⟩
  unfold differentials
  rw [ex, ey, ax]
  norm_num [V3.f]

example : ∃ du dv, differentials ⟨0, 0, 0⟩ ⟨0, 0, 1⟩ ⟨3 / 5, 4 / 5, 0⟩ ⟨-4 / 5, 3 / 5, 0⟩ ⟨⟨1, 2, 1⟩, ⟨1, 0, -1⟩⟩
    ⟨⟨0, 2, 1⟩, ⟨0, 1, -1⟩⟩ = .ok du dv :=
  C100_accepted _ _ _ _ _ _ (by norm_num [dot]) (by norm_num [dot]) (by norm_num [dot]) (by norm_num [dot])
    (by norm_num [dot]) (by norm_num [dot]) (by norm_num [dot]) (by norm_num [dot])

example : ∃ m nn, bumpHeight ⟨1, 0, 0⟩ (cross ⟨0, 0, 1⟩ ⟨1, 0, 0⟩) ⟨0, 0, 1⟩ (1 / 2) (1 / 3) = some (m, nn) ∧
      unit (sub (sub ⟨0, 0, 1⟩ (scale ⟨1, 0, 0⟩ (1 / 2))) (scale (cross ⟨0, 0, 1⟩ ⟨1, 0, 0⟩) (1 / 3))) = some nn ∧ RightHanded m :=
  C99_height_tilt _ _ _ _ (by norm_num [dot]) (by norm_num [dot]) (by norm_num [dot])

end Spectre.Frame
