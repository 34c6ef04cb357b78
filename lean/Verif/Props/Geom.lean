import Verif.Model.Geom
import Verif.Props.AABB
import Mathlib.LinearAlgebra.Matrix.Determinant.Basic
import Mathlib.LinearAlgebra.Matrix.NonsingularInverse
import Mathlib.Tactic.Linarith
import Mathlib.Tactic.Ring
import Mathlib.Tactic.FieldSimp
import Mathlib.Tactic.LinearCombination

/-
Properties C26 (matrix inverse), C27 (world bounding boxes), C28 (ray-triangle intersection).
-/

namespace Spectre.Geom

variable {K : Type} [Field K] [LinearOrder K] [IsStrictOrderedRing K]

/-! ### C26 -/

/-- The mathematical matrix. -/
def toMatrix (m : M4 K) : Matrix (Fin 4) (Fin 4) K :=
  !![m.m00, m.m01, m.m02, m.m03; m.m10, m.m11, m.m12, m.m13; m.m20, m.m21, m.m22, m.m23;
     m.m30, m.m31, m.m32, m.m33]

theorem toMatrix_mul (a b : M4 K) : toMatrix (mul a b) = toMatrix a * toMatrix b := by
  ext i j
  fin_cases i <;> fin_cases j <;> simp [toMatrix, mul, Matrix.mul_apply, Fin.sum_univ_four]

theorem toMatrix_identity : toMatrix (identity : M4 K) = 1 := by
  ext i j
  fin_cases i <;> fin_cases j <;> simp [toMatrix, identity]

theorem toMatrix_injective {a b : M4 K} (h : toMatrix a = toMatrix b) : a = b := by
  have e := fun i j => congrFun (congrFun h i) j
  ext
  · exact e 0 0
  · exact e 0 1
  · exact e 0 2
  · exact e 0 3
  · exact e 1 0
  · exact e 1 1
  · exact e 1 2
  · exact e 1 3
  · exact e 2 0
  · exact e 2 1
  · exact e 2 2
  · exact e 2 3
  · exact e 3 0
  · exact e 3 1
  · exact e 3 2
  · exact e 3 3

/-- **C26.** The number tested against zero is the determinant. -/
theorem C26_det (m : M4 K) : det m = (toMatrix m).det := by
  rw [Matrix.det_succ_row_zero, Fin.sum_univ_four]
  simp only [Matrix.det_fin_three, Matrix.submatrix_apply]
  have e00 : (0 : Fin 4).succAbove (0 : Fin 3) = 1 := rfl
  have e01 : (0 : Fin 4).succAbove (1 : Fin 3) = 2 := rfl
  have e02 : (0 : Fin 4).succAbove (2 : Fin 3) = 3 := rfl
  have e10 : (1 : Fin 4).succAbove (0 : Fin 3) = 0 := rfl
  have e11 : (1 : Fin 4).succAbove (1 : Fin 3) = 2 := rfl
  have e12 : (1 : Fin 4).succAbove (2 : Fin 3) = 3 := rfl
  have e20 : (2 : Fin 4).succAbove (0 : Fin 3) = 0 := rfl
  have e21 : (2 : Fin 4).succAbove (1 : Fin 3) = 1 := rfl
  have e22 : (2 : Fin 4).succAbove (2 : Fin 3) = 3 := rfl
  have e30 : (3 : Fin 4).succAbove (0 : Fin 3) = 0 := rfl
  have e31 : (3 : Fin 4).succAbove (1 : Fin 3) = 1 := rfl
  have e32 : (3 : Fin 4).succAbove (2 : Fin 3) = 2 := rfl
  have s0 : (0 : Fin 3).succ = (1 : Fin 4) := rfl
  have s1 : (1 : Fin 3).succ = (2 : Fin 4) := rfl
  have s2 : (2 : Fin 3).succ = (3 : Fin 4) := rfl
  simp only [e00, e01, e02, e10, e11, e12, e20, e21, e22, e30, e31, e32, s0, s1, s2]
  have p0 : ((0 : Fin 4) : ℕ) = 0 := rfl
  have p1 : ((1 : Fin 4) : ℕ) = 1 := rfl
  have p2 : ((2 : Fin 4) : ℕ) = 2 := rfl
  have p3 : ((3 : Fin 4) : ℕ) = 3 := rfl
  rw [p0, p1, p2, p3]
  show det m = (-1) ^ 0 * m.m00 * (m.m11 * m.m22 * m.m33 - m.m11 * m.m23 * m.m32 - m.m12 * m.m21 * m.m33 +
        m.m12 * m.m23 * m.m31 + m.m13 * m.m21 * m.m32 - m.m13 * m.m22 * m.m31) +
      (-1) ^ 1 * m.m01 * (m.m10 * m.m22 * m.m33 - m.m10 * m.m23 * m.m32 - m.m12 * m.m20 * m.m33 +
        m.m12 * m.m23 * m.m30 + m.m13 * m.m20 * m.m32 - m.m13 * m.m22 * m.m30) +
      (-1) ^ 2 * m.m02 * (m.m10 * m.m21 * m.m33 - m.m10 * m.m23 * m.m31 - m.m11 * m.m20 * m.m33 +
        m.m11 * m.m23 * m.m30 + m.m13 * m.m20 * m.m31 - m.m13 * m.m21 * m.m30) +
      (-1) ^ 3 * m.m03 * (m.m10 * m.m21 * m.m32 - m.m10 * m.m22 * m.m31 - m.m11 * m.m20 * m.m32 +
        m.m11 * m.m22 * m.m30 + m.m12 * m.m20 * m.m31 - m.m12 * m.m21 * m.m30)
  simp only [det, inv]
  ring

/-- **C26.** The inversion succeeds exactly when the determinant is farther from zero than the
tolerance. -/
theorem C26_success_iff (eps : K) (m : M4 K) :
    (inverse eps m).isSome = true ↔ eps < |(toMatrix m).det| := by
  rw [← C26_det]
  unfold inverse
  rw [sub_zero]
  by_cases h : |det m| ≤ eps
  · rw [if_pos h]; simpa using h
  · rw [if_neg h]; simpa using h

/-- **C26.** A matrix returned by `inverse` is the inverse on both sides. -/
theorem C26_two_sided (eps : K) (he : 0 ≤ eps) (m r : M4 K) (h : inverse eps m = some r) :
    mul m r = identity ∧ mul r m = identity := by
  unfold inverse at h
  split at h
  · cases h
  · rename_i hd
    have h0 : det m ≠ 0 := by
      intro e
      rw [e] at hd
      simp at hd
      exact absurd he (not_le.2 hd)
    have hr := Option.some.inj h
    have hd : det m * (1 / det m) = 1 := by field_simp
    rw [← hr]
    generalize 1 / det m = d at hd
    simp only [det, inv] at hd
    constructor
    · ext <;> simp only [mul, identity, inv] <;> first | ring1 | linear_combination hd
    · ext <;> simp only [mul, identity, inv] <;> first | ring1 | linear_combination hd

/-- **C26**, in terms of mathematical matrices: the result is the matrix inverse. -/
theorem C26_is_matrix_inverse (eps : K) (he : 0 ≤ eps) (m r : M4 K) (h : inverse eps m = some r) :
    toMatrix r = (toMatrix m)⁻¹ := by
  have h1 := (C26_two_sided eps he m r h).1
  have h2 : toMatrix m * toMatrix r = 1 := by rw [← toMatrix_mul, h1, toMatrix_identity]
  exact (Matrix.inv_eq_right_inv h2).symm

/-- **C26.** `transpose` is the transpose: it exchanges rows and columns, and reverses products. -/
theorem C26_transpose (a b : M4 K) :
    toMatrix (transpose a) = (toMatrix a).transpose ∧ transpose (transpose a) = a ∧
    transpose (mul a b) = mul (transpose b) (transpose a) := by
  refine ⟨?_, rfl, ?_⟩
  · ext i j; fin_cases i <;> fin_cases j <;> rfl
  · ext <;> simp only [transpose, mul] <;> ring

/-- An affine matrix: last row (0,0,0,1), as all the matrices built by the program. -/
def Affine (m : M4 K) : Prop := m.m30 = 0 ∧ m.m31 = 0 ∧ m.m32 = 0 ∧ m.m33 = 1

theorem mulPoint_affine {m : M4 K} (h : Affine m) (p : V3 K) :
    mulPoint m p = ⟨m.m00 * p.x + m.m01 * p.y + m.m02 * p.z + m.m03,
      m.m10 * p.x + m.m11 * p.y + m.m12 * p.z + m.m13, m.m20 * p.x + m.m21 * p.y + m.m22 * p.z + m.m23⟩ := by
  obtain ⟨a, b, c, d⟩ := h
  unfold mulPoint
  simp [a, b, c, d]

/-- **C26.** The inverse of an affine matrix is affine. -/
theorem C26_inverse_affine (eps : K) (he : 0 ≤ eps) (m r : M4 K) (h : inverse eps m = some r) (ha : Affine m) :
    Affine r := by
  obtain ⟨h1, h2⟩ := C26_two_sided eps he m r h
  obtain ⟨a, b, c, d⟩ := ha
  have e0 := congrArg M4.m30 h1
  have e1 := congrArg M4.m31 h1
  have e2 := congrArg M4.m32 h1
  have e3 := congrArg M4.m33 h1
  simp only [mul, identity, a, b, c, d, zero_mul, one_mul, zero_add] at e0 e1 e2 e3
  exact ⟨e0, e1, e2, e3⟩

/-- **C26.** Object to world and back is the identity, on points and on rays (with the same ray
parameter: distances in object space are distances along the world ray). -/
theorem C26_round_trip (eps : K) (he : 0 ≤ eps) (m r : M4 K) (h : inverse eps m = some r) (ha : Affine m)
    (p : V3 K) (ray : Ray K) (t : K) :
    mulPoint r (mulPoint m p) = p ∧ mulPoint m (mulPoint r p) = p ∧
    mulPoint m ((mulRay r ray).apply t) = ray.apply t := by
  obtain ⟨h1, h2⟩ := C26_two_sided eps he m r h
  have hb := C26_inverse_affine eps he m r h ha
  have hA := fun p => mulPoint_affine ha p
  have hB := fun p => mulPoint_affine hb p
  obtain ⟨a, b, c, d⟩ := ha
  obtain ⟨a', b', c', d'⟩ := hb
  have e1 := fun f => congrArg (f : M4 K → K) h1
  have e2 := fun f => congrArg (f : M4 K → K) h2
  have a00 := e1 M4.m00
  have a01 := e1 M4.m01
  have a02 := e1 M4.m02
  have a03 := e1 M4.m03
  have a10 := e1 M4.m10
  have a11 := e1 M4.m11
  have a12 := e1 M4.m12
  have a13 := e1 M4.m13
  have a20 := e1 M4.m20
  have a21 := e1 M4.m21
  have a22 := e1 M4.m22
  have a23 := e1 M4.m23
  have b00 := e2 M4.m00
  have b01 := e2 M4.m01
  have b02 := e2 M4.m02
  have b03 := e2 M4.m03
  have b10 := e2 M4.m10
  have b11 := e2 M4.m11
  have b12 := e2 M4.m12
  have b13 := e2 M4.m13
  have b20 := e2 M4.m20
  have b21 := e2 M4.m21
  have b22 := e2 M4.m22
  have b23 := e2 M4.m23
  simp only [mul, identity, a, b, c, d, a', b', c', d', mul_zero, add_zero, mul_one] at a00 a01 a02 a03 a10 a11 a12 a13 a20 a21 a22 a23 b00 b01 b02 b03 b10 b11 b12 b13 b20 b21 b22 b23
  refine ⟨?_, ?_, ?_⟩
  · rw [hA, hB]
    ext <;> simp only
    · linear_combination p.x * b00 + p.y * b01 + p.z * b02 + b03
    · linear_combination p.x * b10 + p.y * b11 + p.z * b12 + b13
    · linear_combination p.x * b20 + p.y * b21 + p.z * b22 + b23
  · rw [hB, hA]
    ext <;> simp only
    · linear_combination p.x * a00 + p.y * a01 + p.z * a02 + a03
    · linear_combination p.x * a10 + p.y * a11 + p.z * a12 + a13
    · linear_combination p.x * a20 + p.y * a21 + p.z * a22 + a23
  · rw [hA]
    simp only [mulRay, hB, mulVec, Ray.apply]
    ext <;> simp only
    · linear_combination (ray.o.x + ray.d.x * t) * a00 + (ray.o.y + ray.d.y * t) * a01 + (ray.o.z + ray.d.z * t) * a02 + a03
    · linear_combination (ray.o.x + ray.d.x * t) * a10 + (ray.o.y + ray.d.y * t) * a11 + (ray.o.z + ray.d.z * t) * a12 + a13
    · linear_combination (ray.o.x + ray.d.x * t) * a20 + (ray.o.y + ray.d.y * t) * a21 + (ray.o.z + ray.d.z * t) * a22 + a23

/-- **C26.** A normal transformed with the inverse stays orthogonal to the transformed tangent vectors. -/
theorem C26_normal_orthogonal (eps : K) (he : 0 ≤ eps) (m r : M4 K) (h : inverse eps m = some r) (ha : Affine m)
    (n v : V3 K) : dot (transformNormal n r) (mulVec m v) = dot n v := by
  obtain ⟨h1, h2⟩ := C26_two_sided eps he m r h
  obtain ⟨a, b, c, d⟩ := ha
  have e2 := fun f => congrArg (f : M4 K → K) h2
  have b00 := e2 M4.m00
  have b01 := e2 M4.m01
  have b02 := e2 M4.m02
  have b10 := e2 M4.m10
  have b11 := e2 M4.m11
  have b12 := e2 M4.m12
  have b20 := e2 M4.m20
  have b21 := e2 M4.m21
  have b22 := e2 M4.m22
  simp only [mul, identity, a, b, c, mul_zero, add_zero] at b00 b01 b02 b10 b11 b12 b20 b21 b22
  simp only [dot, transformNormal, mulVec]
  linear_combination n.x * (v.x * b00 + v.y * b01 + v.z * b02) + n.y * (v.x * b10 + v.y * b11 + v.z * b12) +
    n.z * (v.x * b20 + v.y * b21 + v.z * b22)

/-- A scaling by 1/50, as `set_scale(0.02)` builds it (matrix4.cpp:134-152). -/
def smallScale : M4 ℚ :=
  ⟨1 / 50, 0, 0, 0, 0, 1 / 50, 0, 0, 0, 0, 1 / 50, 0, 0, 0, 0, 1⟩

/-- **C26**, limit of the guarantee: with the tolerance 1e-5 of the program a scaling by 1/50 is rejected
although it is invertible (`Asset` ignores the return value, asset.cpp:16, and then uses an uninitialised
matrix). -/
theorem C26_small_scale_rejected :
    inverse (1 / 100000) smallScale = none ∧ (toMatrix smallScale).det ≠ 0 := by
  rw [← C26_det]
  constructor
  · decide +kernel
  · decide +kernel

/-- A rotation with translation and scale is inverted. -/
example : (inverse (1 / 100000 : ℚ) ⟨0, -2, 0, 5, 2, 0, 0, 6, 0, 0, 3, 7, 0, 0, 0, 1⟩).map
    (fun r => (r.m01, r.m03)) = some (1 / 2, -3) := by decide +kernel

/-! ### C27 -/

open AABB (fmin fmax fmin_eq fmax_eq)

/-- Specification: the points of an axis-aligned box. -/
def InBox (b : AABB.Box K) (p : V3 K) : Prop :=
  b.lo 0 ≤ p.x ∧ p.x ≤ b.hi 0 ∧ b.lo 1 ≤ p.y ∧ p.y ≤ b.hi 1 ∧ b.lo 2 ≤ p.z ∧ p.z ≤ b.hi 2

theorem lin_low (a lo hi x : K) (h1 : lo ≤ x) (h2 : x ≤ hi) : a * lo ≤ a * x ∨ a * hi ≤ a * x := by
  rcases le_total 0 a with h | h
  · exact Or.inl (mul_le_mul_of_nonneg_left h1 h)
  · exact Or.inr (mul_le_mul_of_nonpos_left h2 h)

theorem lin_high (a lo hi x : K) (h1 : lo ≤ x) (h2 : x ≤ hi) : a * x ≤ a * lo ∨ a * x ≤ a * hi := by
  rcases le_total 0 a with h | h
  · exact Or.inr (mul_le_mul_of_nonneg_left h2 h)
  · exact Or.inl (mul_le_mul_of_nonpos_left h1 h)

theorem min8 (a b c d : K) (lo hi p : V3 K) (h : lo.x ≤ p.x ∧ p.x ≤ hi.x ∧ lo.y ≤ p.y ∧ p.y ≤ hi.y ∧
    lo.z ≤ p.z ∧ p.z ≤ hi.z) :
    let f := fun x y z => a * x + b * y + c * z + d
    fmin (fmin (fmin (fmin (fmin (fmin (fmin (f lo.x lo.y lo.z) (f hi.x lo.y lo.z)) (f hi.x hi.y lo.z))
      (f lo.x hi.y lo.z)) (f lo.x lo.y hi.z)) (f hi.x lo.y hi.z)) (f hi.x hi.y hi.z)) (f lo.x hi.y hi.z)
      ≤ f p.x p.y p.z := by
  obtain ⟨h1, h2, h3, h4, h5, h6⟩ := h
  intro f
  simp only [fmin_eq]
  by_contra hc
  simp only [min_le_iff, not_or, not_le] at hc
  obtain ⟨⟨⟨⟨⟨⟨⟨c0, c1⟩, c2⟩, c3⟩, c4⟩, c5⟩, c6⟩, c7⟩ := hc
  simp only [f] at c0 c1 c2 c3 c4 c5 c6 c7
  rcases lin_low a _ _ _ h1 h2 with hx | hx <;> rcases lin_low b _ _ _ h3 h4 with hy | hy <;>
    rcases lin_low c _ _ _ h5 h6 with hz | hz <;> linarith

theorem max8 (a b c d : K) (lo hi p : V3 K) (h : lo.x ≤ p.x ∧ p.x ≤ hi.x ∧ lo.y ≤ p.y ∧ p.y ≤ hi.y ∧
    lo.z ≤ p.z ∧ p.z ≤ hi.z) :
    let f := fun x y z => a * x + b * y + c * z + d
    f p.x p.y p.z ≤
    fmax (fmax (fmax (fmax (fmax (fmax (fmax (f lo.x lo.y lo.z) (f hi.x lo.y lo.z)) (f hi.x hi.y lo.z))
      (f lo.x hi.y lo.z)) (f lo.x lo.y hi.z)) (f hi.x lo.y hi.z)) (f hi.x hi.y hi.z)) (f lo.x hi.y hi.z) := by
  obtain ⟨h1, h2, h3, h4, h5, h6⟩ := h
  intro f
  simp only [fmax_eq]
  by_contra hc
  simp only [le_max_iff, not_or, not_le] at hc
  obtain ⟨⟨⟨⟨⟨⟨⟨c0, c1⟩, c2⟩, c3⟩, c4⟩, c5⟩, c6⟩, c7⟩ := hc
  simp only [f] at c0 c1 c2 c3 c4 c5 c6 c7
  rcases lin_high a _ _ _ h1 h2 with hx | hx <;> rcases lin_high b _ _ _ h3 h4 with hy | hy <;>
    rcases lin_high c _ _ _ h5 h6 with hz | hz <;> linarith

/-- **C27.** The eight corners bound the image of the whole box, for every affine matrix. -/
theorem C27_corners_contain (m : M4 K) (hm : Affine m) (lo hi p : V3 K)
    (h : lo.x ≤ p.x ∧ p.x ≤ hi.x ∧ lo.y ≤ p.y ∧ p.y ≤ hi.y ∧ lo.z ≤ p.z ∧ p.z ≤ hi.z) :
    InBox (boxOf (corners m lo hi)) (mulPoint m p) := by
  simp only [InBox, boxOf, corners, pmin, pmax, V3.f, mulPoint_affine hm]
  exact ⟨min8 _ _ _ _ lo hi p h, max8 _ _ _ _ lo hi p h, min8 _ _ _ _ lo hi p h, max8 _ _ _ _ lo hi p h,
    min8 _ _ _ _ lo hi p h, max8 _ _ _ _ lo hi p h⟩

/-- **C27.** Sphere: the world box contains the image of every point of the unit ball. -/
theorem C27_sphere (m : M4 K) (hm : Affine m) (p : V3 K) (hp : dot p p ≤ 1) :
    InBox (sphereWorldBox m) (mulPoint m p) := by
  apply C27_corners_contain m hm
  unfold dot at hp
  have hx := mul_self_nonneg p.x
  have hy := mul_self_nonneg p.y
  have hz := mul_self_nonneg p.z
  have key : ∀ a : K, a * a ≤ 1 → -1 ≤ a ∧ a ≤ 1 := by
    intro a ha
    have := abs_le_of_sq_le_sq' (a := a) (b := 1) (by rw [sq]; linarith) zero_le_one
    exact this
  obtain ⟨a, b⟩ := key p.x (by linarith)
  obtain ⟨c, d⟩ := key p.y (by linarith)
  obtain ⟨e, f⟩ := key p.z (by linarith)
  exact ⟨a, b, c, d, e, f⟩

/-- **C27.** Box: the world box contains the image of every point of the unit cube. -/
theorem C27_box (m : M4 K) (hm : Affine m) (p : V3 K)
    (hp : 0 ≤ p.x ∧ p.x ≤ 1 ∧ 0 ≤ p.y ∧ p.y ≤ 1 ∧ 0 ≤ p.z ∧ p.z ≤ 1) :
    InBox (boxWorldBox m) (mulPoint m p) := C27_corners_contain m hm _ _ _ hp

/-- Specification: the points of a triangle. -/
def OnTri (t : Tri K) (u v : K) (p : V3 K) : Prop :=
  0 ≤ u ∧ 0 ≤ v ∧ u + v ≤ 1 ∧
  p.x = t.a.x + u * (t.b.x - t.a.x) + v * (t.c.x - t.a.x) ∧
  p.y = t.a.y + u * (t.b.y - t.a.y) + v * (t.c.y - t.a.y) ∧
  p.z = t.a.z + u * (t.b.z - t.a.z) + v * (t.c.z - t.a.z)

theorem conv_bounds (a b c u v : K) (hu : 0 ≤ u) (hv : 0 ≤ v) (h : u + v ≤ 1) :
    fmin (fmin a b) c ≤ a + u * (b - a) + v * (c - a) ∧
    a + u * (b - a) + v * (c - a) ≤ fmax (fmax a b) c := by
  rw [fmin_eq, fmin_eq, fmax_eq, fmax_eq]
  have e : a + u * (b - a) + v * (c - a) = (1 - u - v) * a + u * b + v * c := by ring
  rw [e]
  have hw : 0 ≤ 1 - u - v := by linarith
  constructor
  · have e : min (min a b) c = (1 - u - v) * min (min a b) c + u * min (min a b) c + v * min (min a b) c := by ring
    rw [e]
    have h1 : min (min a b) c ≤ a := (min_le_left _ _).trans (min_le_left _ _)
    have h2 : min (min a b) c ≤ b := (min_le_left _ _).trans (min_le_right _ _)
    have h3 : min (min a b) c ≤ c := min_le_right _ _
    exact add_le_add (add_le_add (mul_le_mul_of_nonneg_left h1 hw) (mul_le_mul_of_nonneg_left h2 hu))
      (mul_le_mul_of_nonneg_left h3 hv)
  · have e : max (max a b) c = (1 - u - v) * max (max a b) c + u * max (max a b) c + v * max (max a b) c := by ring
    rw [e]
    have h1 : a ≤ max (max a b) c := (le_max_left _ _).trans (le_max_left _ _)
    have h2 : b ≤ max (max a b) c := (le_max_right _ _).trans (le_max_left _ _)
    have h3 : c ≤ max (max a b) c := le_max_right _ _
    exact add_le_add (add_le_add (mul_le_mul_of_nonneg_left h1 hw) (mul_le_mul_of_nonneg_left h2 hu))
      (mul_le_mul_of_nonneg_left h3 hv)

/-- **C27.** The box of a triangle contains the triangle. -/
theorem C27_triangle (t : Tri K) (u v : K) (p : V3 K) (h : OnTri t u v p) : InBox (triBox t) p := by
  obtain ⟨hu, hv, huv, hx, hy, hz⟩ := h
  have bx := conv_bounds t.a.x t.b.x t.c.x u v hu hv huv
  have by' := conv_bounds t.a.y t.b.y t.c.y u v hu hv huv
  have bz := conv_bounds t.a.z t.b.z t.c.z u v hu hv huv
  rw [← hx] at bx
  rw [← hy] at by'
  rw [← hz] at bz
  exact ⟨bx.1, bx.2, by'.1, by'.2, bz.1, bz.2⟩

theorem engulf_mono (b c : AABB.Box K) (p : V3 K) (h : InBox b p ∨ InBox c p) : InBox (AABB.engulf b c) p := by
  unfold AABB.engulf InBox at *
  simp only [fmin_eq, fmax_eq, min_le_iff, le_max_iff]
  rcases h with ⟨h1, h2, h3, h4, h5, h6⟩ | ⟨h1, h2, h3, h4, h5, h6⟩
  · exact ⟨Or.inl h1, Or.inl h2, Or.inl h3, Or.inl h4, Or.inl h5, Or.inl h6⟩
  · exact ⟨Or.inr h1, Or.inr h2, Or.inr h3, Or.inr h4, Or.inr h5, Or.inr h6⟩

theorem meshBox_contains (p : V3 K) (ts : List (Tri K)) :
    ∀ b : AABB.Box K, (InBox b p ∨ ∃ t ∈ ts, InBox (triBox t) p) →
      InBox (ts.foldl (fun b t => AABB.engulf b (triBox t)) b) p := by
  induction ts with
  | nil => rintro b (h | ⟨t, ht, _⟩); exact h; simp at ht
  | cons a ts ih =>
    intro b h
    rw [List.foldl_cons]
    apply ih
    rcases h with h | ⟨t, ht, h⟩
    · exact Or.inl (engulf_mono _ _ _ (Or.inl h))
    · rcases List.mem_cons.1 ht with rfl | ht
      · exact Or.inl (engulf_mono _ _ _ (Or.inr h))
      · exact Or.inr ⟨t, ht, h⟩

/-- **C27.** Mesh: the world box contains the image of every point of every triangle. -/
theorem C27_mesh (m : M4 K) (hm : Affine m) (t0 : Tri K) (ts : List (Tri K)) (t : Tri K) (ht : t ∈ t0 :: ts)
    (u v : K) (p : V3 K) (h : OnTri t u v p) : InBox (meshWorldBox m t0 ts) (mulPoint m p) := by
  have hb : InBox (meshBox t0 ts) p := by
    apply meshBox_contains
    have := C27_triangle t u v p h
    rcases List.mem_cons.1 ht with rfl | ht
    · exact Or.inl this
    · exact Or.inr ⟨t, ht, this⟩
  have := C27_corners_contain m hm ⟨(meshBox t0 ts).lo 0, (meshBox t0 ts).lo 1, (meshBox t0 ts).lo 2⟩
    ⟨(meshBox t0 ts).hi 0, (meshBox t0 ts).hi 1, (meshBox t0 ts).hi 2⟩ p hb
  unfold meshWorldBox
  simp only [InBox, boxOf, pmin, pmax, V3.f, fmin_eq, fmax_eq] at this ⊢
  obtain ⟨h1, h2, h3, h4, h5, h6⟩ := this
  exact ⟨(min_le_left _ _).trans h1, h2.trans (le_max_right _ _), (min_le_left _ _).trans h3,
    h4.trans (le_max_right _ _), (min_le_left _ _).trans h5, h6.trans (le_max_right _ _)⟩

/-- The affine hypothesis is needed: a matrix with a perspective row (which the program never builds for
assets) makes the corners meaningless. -/
example : ∃ (m : M4 ℚ) (p : V3 ℚ), (0 ≤ p.x ∧ p.x ≤ 1 ∧ 0 ≤ p.y ∧ p.y ≤ 1 ∧ 0 ≤ p.z ∧ p.z ≤ 1) ∧
    ¬ InBox (boxWorldBox m) (mulPoint m p) := by
  refine ⟨⟨1, 0, 0, 0, 0, 1, 0, 0, 0, 0, 1, 0, 3, 0, 0, -1⟩, ⟨1 / 2, 0, 0⟩, by decide +kernel, ?_⟩
  unfold InBox
  decide +kernel

/-- A rotation by 90 degrees of the unit cube. -/
example : (boxWorldBox (⟨0, -1, 0, 0, 1, 0, 0, 0, 0, 0, 1, 0, 0, 0, 0, 1⟩ : M4 ℚ)).lo 0 = -1 ∧
    Affine (⟨0, -1, 0, 0, 1, 0, 0, 0, 0, 0, 1, 0, 0, 0, 0, 1⟩ : M4 ℚ) := by
  constructor
  · decide +kernel
  · unfold Affine; decide +kernel

/-! ### C28 -/

/-- Normal of the plane of a triangle. -/
def triNormal (t : Tri K) : V3 K := cross (sub t.b t.a) (sub t.c t.a)

/-- Interpolated texture coordinates. -/
def interp (t : Tri K) (u v : K) : K × K :=
  ((1 - u - v) * t.ta.1 + u * t.tb.1 + v * t.tc.1, (1 - u - v) * t.ta.2 + u * t.tb.2 + v * t.tc.2)

/-- **C28.** `Triangle::intersect` returns a hit `h` exactly when: the ray is not parallel to the plane,
the point at parameter `h.dist` is on the triangle with some barycentric coordinates, the distance is
between the tolerance and the current one, and the mask lets the (interpolated) texture coordinates
through. -/
theorem C28_exact (eps : K) (masked : K × K → Bool) (t : Tri K) (r : Ray K) (D : K) (h : Hit K) :
    triIntersect eps masked t r D = some h ↔
      dot (triNormal t) r.d ≠ 0 ∧
      (∃ u v, OnTri t u v (r.apply h.dist) ∧ h.uv = interp t u v) ∧
      eps ≤ h.dist ∧ h.dist ≤ D ∧ masked h.uv = false ∧ h.point = r.apply h.dist := by
  have hdet : dot (cross r.d (sub t.c t.a)) (sub t.b t.a) = - dot (triNormal t) r.d := by
    simp only [dot, cross, sub, triNormal]; ring
  unfold triIntersect
  simp only
  by_cases h0 : dot (cross r.d (sub t.c t.a)) (sub t.b t.a) = 0
  · rw [if_pos h0]
    constructor
    · intro e; cases e
    · rintro ⟨hn, -⟩
      rw [h0] at hdet
      exact absurd (neg_eq_zero.1 hdet.symm) hn
  · rw [if_neg h0]
    have hn : dot (triNormal t) r.d ≠ 0 := by
      intro e; rw [e, neg_zero] at hdet; exact h0 hdet
    -- Cramer's rule: uniqueness
    have uniq : ∀ u v s, OnTri t u v (r.apply s) →
        u = dot (cross r.d (sub t.c t.a)) (sub r.o t.a) * (1 / dot (cross r.d (sub t.c t.a)) (sub t.b t.a)) ∧
        v = dot r.d (cross (sub r.o t.a) (sub t.b t.a)) * (1 / dot (cross r.d (sub t.c t.a)) (sub t.b t.a)) ∧
        s = dot (sub t.c t.a) (cross (sub r.o t.a) (sub t.b t.a)) *
          (1 / dot (cross r.d (sub t.c t.a)) (sub t.b t.a)) := by
      rintro u v s ⟨-, -, -, hx, hy, hz⟩
      simp only [Ray.apply] at hx hy hz
      generalize hD : dot (cross r.d (sub t.c t.a)) (sub t.b t.a) = D' at h0
      refine ⟨?_, ?_, ?_⟩
      all_goals
        rw [mul_one_div, eq_div_iff h0, ← hD]
        simp only [dot, cross, sub]
      · linear_combination (-1) * (r.d.y * (t.c.z - t.a.z) - r.d.z * (t.c.y - t.a.y)) * hx -
          (r.d.z * (t.c.x - t.a.x) - r.d.x * (t.c.z - t.a.z)) * hy -
          (r.d.x * (t.c.y - t.a.y) - r.d.y * (t.c.x - t.a.x)) * hz
      · linear_combination (-1) * ((t.b.y - t.a.y) * r.d.z - (t.b.z - t.a.z) * r.d.y) * hx -
          ((t.b.z - t.a.z) * r.d.x - (t.b.x - t.a.x) * r.d.z) * hy -
          ((t.b.x - t.a.x) * r.d.y - (t.b.y - t.a.y) * r.d.x) * hz
      · linear_combination (-1) * ((t.b.y - t.a.y) * (t.c.z - t.a.z) - (t.b.z - t.a.z) * (t.c.y - t.a.y)) * hx -
          ((t.b.z - t.a.z) * (t.c.x - t.a.x) - (t.b.x - t.a.x) * (t.c.z - t.a.z)) * hy -
          ((t.b.x - t.a.x) * (t.c.y - t.a.y) - (t.b.y - t.a.y) * (t.c.x - t.a.x)) * hz
    -- Cramer's rule: existence
    have exist : ∀ u v s, 0 ≤ u → 0 ≤ v → u + v ≤ 1 →
        u = dot (cross r.d (sub t.c t.a)) (sub r.o t.a) * (1 / dot (cross r.d (sub t.c t.a)) (sub t.b t.a)) →
        v = dot r.d (cross (sub r.o t.a) (sub t.b t.a)) * (1 / dot (cross r.d (sub t.c t.a)) (sub t.b t.a)) →
        s = dot (sub t.c t.a) (cross (sub r.o t.a) (sub t.b t.a)) *
          (1 / dot (cross r.d (sub t.c t.a)) (sub t.b t.a)) → OnTri t u v (r.apply s) := by
      intro u v s hu hv huv e1 e2 e3
      have h1 : dot (cross r.d (sub t.c t.a)) (sub t.b t.a) *
        (1 / dot (cross r.d (sub t.c t.a)) (sub t.b t.a)) = 1 := by field_simp
      generalize 1 / dot (cross r.d (sub t.c t.a)) (sub t.b t.a) = i at e1 e2 e3 h1
      simp only [dot, cross, sub] at e1 e2 e3 h1
      refine ⟨hu, hv, huv, ?_, ?_, ?_⟩ <;> simp only [Ray.apply]
      · rw [e1, e2, e3]
        linear_combination (-1) * (r.o.x - t.a.x) * h1
      · rw [e1, e2, e3]
        linear_combination (-1) * (r.o.y - t.a.y) * h1
      · rw [e1, e2, e3]
        linear_combination (-1) * (r.o.z - t.a.z) * h1
    generalize hU : dot (cross r.d (sub t.c t.a)) (sub r.o t.a) *
      (1 / dot (cross r.d (sub t.c t.a)) (sub t.b t.a)) = U at uniq exist
    generalize hV : dot r.d (cross (sub r.o t.a) (sub t.b t.a)) *
      (1 / dot (cross r.d (sub t.c t.a)) (sub t.b t.a)) = V at uniq exist
    generalize hT : dot (sub t.c t.a) (cross (sub r.o t.a) (sub t.b t.a)) *
      (1 / dot (cross r.d (sub t.c t.a)) (sub t.b t.a)) = T at uniq exist
    constructor
    · intro e
      split at e
      · cases e
      · rename_i c1
        split at e
        · cases e
        · rename_i c2
          split at e
          · cases e
          · rename_i c3
            split at e
            · cases e
            · rename_i c4
              rw [not_or, not_lt, not_lt] at c1 c2 c3
              have := Option.some.inj e
              subst this
              exact ⟨hn, ⟨U, V, exist U V T c1.1 c2.1 c2.2 rfl rfl rfl, rfl⟩, c3.1, c3.2, by simpa using c4, rfl⟩
    · rintro ⟨-, ⟨u, v, hon, huv⟩, h1, h2, h3, h4⟩
      obtain ⟨rfl, rfl, hs⟩ := uniq u v _ hon
      obtain ⟨hu, hv, hle, -⟩ := hon
      rw [if_neg (by rw [not_or, not_lt, not_lt]; exact ⟨hu, by linarith⟩),
        if_neg (by rw [not_or, not_lt, not_lt]; exact ⟨hv, hle⟩),
        if_neg (by rw [not_or, not_lt, not_lt, ← hs]; exact ⟨h1, h2⟩)]
      have huv' : h.uv = ((1 - u - v) * t.ta.1 + u * t.tb.1 + v * t.tc.1,
        (1 - u - v) * t.ta.2 + u * t.tb.2 + v * t.tc.2) := huv
      rw [← huv', if_neg (by simp [h3]), ← hs, ← h4]

/-- **C28.** Otherwise it returns false: no hit is reported exactly when no point of the ray in the
allowed range is an unmasked point of the triangle (or the ray is parallel to it). -/
theorem C28_miss (eps : K) (masked : K × K → Bool) (t : Tri K) (r : Ray K) (D : K) :
    triIntersect eps masked t r D = none ↔
      dot (triNormal t) r.d = 0 ∨
      ∀ s u v, OnTri t u v (r.apply s) → eps ≤ s → s ≤ D → masked (interp t u v) = true := by
  constructor
  · intro e
    by_cases hn : dot (triNormal t) r.d = 0
    · exact Or.inl hn
    · right
      intro s u v hon h1 h2
      by_contra hm
      have := (C28_exact eps masked t r D ⟨s, r.apply s, interp t u v⟩).2
        ⟨hn, ⟨u, v, hon, rfl⟩, h1, h2, by simpa using hm, rfl⟩
      rw [e] at this
      cases this
  · intro h
    cases e : triIntersect eps masked t r D with
    | none => rfl
    | some x =>
      obtain ⟨hn, ⟨u, v, hon, huv⟩, h1, h2, h3, -⟩ := (C28_exact eps masked t r D x).1 e
      rcases h with h | h
      · exact absurd h hn
      · have := h _ _ _ hon h1 h2
        rw [← huv, h3] at this
        cases this

/-- **C28.** The parameter of the hit is unique: a ray not parallel to the triangle meets it at most
once. -/
theorem C28_unique (t : Tri K) (r : Ray K) (hn : dot (triNormal t) r.d ≠ 0) (s s' u v u' v' : K)
    (h : OnTri t u v (r.apply s)) (h' : OnTri t u' v' (r.apply s')) : s = s' ∧ u = u' ∧ v = v' := by
  obtain ⟨-, -, -, x1, y1, z1⟩ := h
  obtain ⟨-, -, -, x2, y2, z2⟩ := h'
  simp only [Ray.apply] at x1 y1 z1 x2 y2 z2
  simp only [triNormal, dot, cross, sub] at hn
  refine ⟨?_, ?_, ?_⟩
  · apply mul_right_cancel₀ hn
    linear_combination ((t.b.y - t.a.y) * (t.c.z - t.a.z) - (t.b.z - t.a.z) * (t.c.y - t.a.y)) * (x1 - x2) +
      ((t.b.z - t.a.z) * (t.c.x - t.a.x) - (t.b.x - t.a.x) * (t.c.z - t.a.z)) * (y1 - y2) +
      ((t.b.x - t.a.x) * (t.c.y - t.a.y) - (t.b.y - t.a.y) * (t.c.x - t.a.x)) * (z1 - z2)
  · apply mul_right_cancel₀ hn
    linear_combination (r.d.y * (t.c.z - t.a.z) - r.d.z * (t.c.y - t.a.y)) * (x1 - x2) +
      (r.d.z * (t.c.x - t.a.x) - r.d.x * (t.c.z - t.a.z)) * (y1 - y2) +
      (r.d.x * (t.c.y - t.a.y) - r.d.y * (t.c.x - t.a.x)) * (z1 - z2)
  · apply mul_right_cancel₀ hn
    linear_combination ((t.b.y - t.a.y) * r.d.z - (t.b.z - t.a.z) * r.d.y) * (x1 - x2) +
      ((t.b.z - t.a.z) * r.d.x - (t.b.x - t.a.x) * r.d.z) * (y1 - y2) +
      ((t.b.x - t.a.x) * r.d.y - (t.b.y - t.a.y) * r.d.x) * (z1 - z2)

/-- A hit and a miss. -/
example : (triIntersect (1 / 100 : ℚ) (fun _ => false) ⟨⟨0, 0, 0⟩, ⟨1, 0, 0⟩, ⟨0, 1, 0⟩, (0, 0), (1, 0), (0, 1)⟩
    ⟨⟨1 / 4, 1 / 4, -3⟩, ⟨0, 0, 1⟩⟩ 10).map (fun h => (h.dist, h.uv)) = some (3, (1 / 4, 1 / 4)) := by
  decide +kernel
example : (triIntersect (1 / 100 : ℚ) (fun _ => false) ⟨⟨0, 0, 0⟩, ⟨1, 0, 0⟩, ⟨0, 1, 0⟩, (0, 0), (1, 0), (0, 1)⟩
    ⟨⟨1 / 4, 1 / 4, -3⟩, ⟨0, 0, 1⟩⟩ 2).isNone = true := by
  decide +kernel

end Spectre.Geom
