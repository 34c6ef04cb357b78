import Verif.Props.FloatInverse

/-
Property C168, the matrices of placed objects (config_driver.cpp:612-626) in binary32: how far their entries are from those of
the scaled, rotated and moved object, and what follows for their inverses and for the rays taken to the object.
-/

namespace Spectre.FPlace

open Spectre.Geom F32

/-! ### The matrix of a placement -/

/-- The value of an entry of a product. -/
def dotQ (u v w t : ℚ) : ℚ := rnd32 (rnd32 (rnd32 (rnd32 u + rnd32 v) + rnd32 w) + rnd32 t)

theorem dot4_val {a b c d x y z w : F32} {i j : ℤ} (ha : Upto i a) (hb : Upto i b) (hc : Upto i c) (hd : Upto i d)
    (hx : Upto j x) (hy : Upto j y) (hz : Upto j z) (hw : Upto j w) (h1 : -149 ≤ i + j) (h2 : i + j ≤ 124) :
    (dot4 a b c d x y z w).val = dotQ (a.val * x.val) (b.val * y.val) (c.val * z.val) (d.val * w.val) := by
  obtain ⟨u0, e0⟩ := upto_mul ha hx h1 (by linarith)
  obtain ⟨u1, e1⟩ := upto_mul hb hy h1 (by linarith)
  obtain ⟨u2, e2⟩ := upto_mul hc hz h1 (by linarith)
  obtain ⟨u3, e3⟩ := upto_mul hd hw h1 (by linarith)
  obtain ⟨u4, e4⟩ := upto_add u0 u1 (by linarith) (by linarith)
  obtain ⟨u5, e5⟩ := upto_add u4 (upto_mono (by linarith) u2) (by linarith) (by linarith)
  obtain ⟨u6, e6⟩ := upto_add u5 (upto_mono (by linarith) u3) (by linarith) (by linarith)
  unfold dot4 dotQ
  rw [e6, e5, e4, e0, e1, e2, e3]

theorem rnd_zero : rnd32 0 = 0 := by decide +kernel

theorem dotQ_first (u : ℚ) : dotQ u 0 0 0 = rnd32 u := by unfold dotQ; simp only [rnd_zero, add_zero, rnd32_rnd32]
theorem dotQ_second (u : ℚ) : dotQ 0 u 0 0 = rnd32 u := by
  unfold dotQ; simp only [rnd_zero, add_zero, _root_.zero_add, rnd32_rnd32]
theorem dotQ_third (u : ℚ) : dotQ 0 0 u 0 = rnd32 u := by
  unfold dotQ; simp only [rnd_zero, add_zero, _root_.zero_add, rnd32_rnd32]
theorem dotQ_fourth (u : ℚ) : dotQ 0 0 0 u = rnd32 u := by
  unfold dotQ; simp only [rnd_zero, add_zero, _root_.zero_add, rnd32_rnd32]
theorem dotQ_two (u v : ℚ) : dotQ 0 u v 0 = rnd32 (rnd32 u + rnd32 v) := by
  unfold dotQ; simp only [rnd_zero, add_zero, _root_.zero_add, rnd32_rnd32]
theorem dotQ_none : dotQ 0 0 0 0 = 0 := by unfold dotQ; simp only [rnd_zero, add_zero]

theorem vals_mul {a b : M4 F32} {i j : ℤ} (lb : LastRow b) (ea : Entries i a) (eb : Entries j b)
    (hj : 0 ≤ j) (h1 : -149 ≤ i + j) (h2 : i + j ≤ 124) :
    let r := mulMat a b
    (r.m00.val = dotQ (a.m00.val * b.m00.val) (a.m01.val * b.m10.val) (a.m02.val * b.m20.val) 0 ∧
      r.m01.val = dotQ (a.m00.val * b.m01.val) (a.m01.val * b.m11.val) (a.m02.val * b.m21.val) 0 ∧
      r.m02.val = dotQ (a.m00.val * b.m02.val) (a.m01.val * b.m12.val) (a.m02.val * b.m22.val) 0 ∧
      r.m03.val = dotQ (a.m00.val * b.m03.val) (a.m01.val * b.m13.val) (a.m02.val * b.m23.val) a.m03.val) ∧
    (r.m10.val = dotQ (a.m10.val * b.m00.val) (a.m11.val * b.m10.val) (a.m12.val * b.m20.val) 0 ∧
      r.m11.val = dotQ (a.m10.val * b.m01.val) (a.m11.val * b.m11.val) (a.m12.val * b.m21.val) 0 ∧
      r.m12.val = dotQ (a.m10.val * b.m02.val) (a.m11.val * b.m12.val) (a.m12.val * b.m22.val) 0 ∧
      r.m13.val = dotQ (a.m10.val * b.m03.val) (a.m11.val * b.m13.val) (a.m12.val * b.m23.val) a.m13.val) ∧
    r.m20.val = dotQ (a.m20.val * b.m00.val) (a.m21.val * b.m10.val) (a.m22.val * b.m20.val) 0 ∧
      r.m21.val = dotQ (a.m20.val * b.m01.val) (a.m21.val * b.m11.val) (a.m22.val * b.m21.val) 0 ∧
      r.m22.val = dotQ (a.m20.val * b.m02.val) (a.m21.val * b.m12.val) (a.m22.val * b.m22.val) 0 ∧
      r.m23.val = dotQ (a.m20.val * b.m03.val) (a.m21.val * b.m13.val) (a.m22.val * b.m23.val) a.m23.val := by
  obtain ⟨⟨a00, a01, a02, a03⟩, ⟨a10, a11, a12, a13⟩, a20, a21, a22, a23⟩ := ea
  obtain ⟨⟨b00, b01, b02, b03⟩, ⟨b10, b11, b12, b13⟩, b20, b21, b22, b23⟩ := eb
  obtain ⟨b30, b31, b32, b33⟩ := lb
  have u0 := upto_zero (k := j) b30
  have u1 := upto_zero (k := j) b31
  have u2 := upto_zero (k := j) b32
  have u3 := upto_one hj b33
  have z0 : ∀ x : F32, x.val * b.m30.val = 0 := fun x => by rw [b30.2, MulZeroClass.mul_zero]
  have z1 : ∀ x : F32, x.val * b.m31.val = 0 := fun x => by rw [b31.2, MulZeroClass.mul_zero]
  have z2 : ∀ x : F32, x.val * b.m32.val = 0 := fun x => by rw [b32.2, MulZeroClass.mul_zero]
  have z3 : ∀ x : F32, x.val * b.m33.val = x.val := fun x => by rw [b33.2, _root_.mul_one]
  have d0 : ∀ {p q r s : F32}, Upto i p → Upto i q → Upto i r → Upto i s → (dot4 p q r s b.m00 b.m10 b.m20 b.m30).val =
      dotQ (p.val * b.m00.val) (q.val * b.m10.val) (r.val * b.m20.val) 0 := fun hp hq hr hs => by
    rw [dot4_val hp hq hr hs b00 b10 b20 u0 h1 h2, z0]
  have d1 : ∀ {p q r s : F32}, Upto i p → Upto i q → Upto i r → Upto i s → (dot4 p q r s b.m01 b.m11 b.m21 b.m31).val =
      dotQ (p.val * b.m01.val) (q.val * b.m11.val) (r.val * b.m21.val) 0 := fun hp hq hr hs => by
    rw [dot4_val hp hq hr hs b01 b11 b21 u1 h1 h2, z1]
  have d2 : ∀ {p q r s : F32}, Upto i p → Upto i q → Upto i r → Upto i s → (dot4 p q r s b.m02 b.m12 b.m22 b.m32).val =
      dotQ (p.val * b.m02.val) (q.val * b.m12.val) (r.val * b.m22.val) 0 := fun hp hq hr hs => by
    rw [dot4_val hp hq hr hs b02 b12 b22 u2 h1 h2, z2]
  have d3 : ∀ {p q r s : F32}, Upto i p → Upto i q → Upto i r → Upto i s → (dot4 p q r s b.m03 b.m13 b.m23 b.m33).val =
      dotQ (p.val * b.m03.val) (q.val * b.m13.val) (r.val * b.m23.val) s.val := fun hp hq hr hs => by
    rw [dot4_val hp hq hr hs b03 b13 b23 u3 h1 h2, z3]
  exact ⟨⟨d0 a00 a01 a02 a03, d1 a00 a01 a02 a03, d2 a00 a01 a02 a03, d3 a00 a01 a02 a03⟩,
    ⟨d0 a10 a11 a12 a13, d1 a10 a11 a12 a13, d2 a10 a11 a12 a13, d3 a10 a11 a12 a13⟩,
    d0 a20 a21 a22 a23, d1 a20 a21 a22 a23, d2 a20 a21 a22 a23, d3 a20 a21 a22 a23⟩

/-- The entries of the matrix of a placement with their roundings. -/
theorem placement_vals {position size : V3 F32} {x y z : Angle} (hp : Upto3 40 position) (hs : Upto3 40 size)
    (hx : Upto 0 x.c ∧ Upto 0 x.s) (hy : Upto 0 y.c ∧ Upto 0 y.s) (hz : Upto 0 z.c ∧ Upto 0 z.s) :
    let r := placement position x y z size
    let one := fun u s : ℚ => rnd32 (rnd32 u * s)
    let two := fun u c v d s : ℚ => rnd32 (rnd32 (rnd32 (rnd32 u * c) + rnd32 (rnd32 v * d)) * s)
    (r.m00.val = one (z.c.val * y.c.val) size.x.val ∧
      r.m01.val = two (-z.s.val) x.c.val (z.c.val * y.s.val) x.s.val size.y.val ∧
      r.m02.val = two (-z.s.val) (-x.s.val) (z.c.val * y.s.val) x.c.val size.z.val ∧ r.m03.val = rnd32 position.x.val) ∧
    (r.m10.val = one (z.s.val * y.c.val) size.x.val ∧
      r.m11.val = two z.c.val x.c.val (z.s.val * y.s.val) x.s.val size.y.val ∧
      r.m12.val = two z.c.val (-x.s.val) (z.s.val * y.s.val) x.c.val size.z.val ∧ r.m13.val = rnd32 position.y.val) ∧
    r.m20.val = one (-y.s.val) size.x.val ∧ r.m21.val = rnd32 (rnd32 (rnd32 y.c.val * x.s.val) * size.y.val) ∧
      r.m22.val = rnd32 (rnd32 (rnd32 y.c.val * x.c.val) * size.z.val) ∧ r.m23.val = rnd32 position.z.val := by
  have o : ∀ {k : ℤ}, Upto k (zero false) := upto_zero (isZero false)
  have i : ∀ {k : ℤ}, 0 ≤ k → Upto k (num 1) := fun h => upto_one h isOne
  have l : LastRow (rotateZ z.c z.s) ∧ LastRow (rotateY y.c y.s) ∧ LastRow (rotateX x.c x.s) ∧
      LastRow (translation position) ∧ LastRow (scale size) :=
    ⟨⟨isZero _, isZero _, isZero _, isOne⟩, ⟨isZero _, isZero _, isZero _, isOne⟩, ⟨isZero _, isZero _, isZero _, isOne⟩,
      ⟨isZero _, isZero _, isZero _, isOne⟩, isZero _, isZero _, isZero _, isOne⟩
  have eZ : Entries 0 (rotateZ z.c z.s) :=
    ⟨⟨hz.1, upto_neg hz.2, o, o⟩, ⟨hz.2, hz.1, o, o⟩, o, o, i le_rfl, o⟩
  have eY : Entries 0 (rotateY y.c y.s) :=
    ⟨⟨hy.1, o, hy.2, o⟩, ⟨o, i le_rfl, o, o⟩, upto_neg hy.2, o, hy.1, o⟩
  have eX : Entries 0 (rotateX x.c x.s) :=
    ⟨⟨i le_rfl, o, o, o⟩, ⟨o, hx.1, upto_neg hx.2, o⟩, o, hx.2, hx.1, o⟩
  have eT : Entries 40 (translation position) :=
    ⟨⟨i (by norm_num), o, o, hp.1⟩, ⟨o, i (by norm_num), o, hp.2.1⟩, o, o, i (by norm_num), hp.2.2⟩
  have eS : Entries 40 (scale size) := ⟨⟨hs.1, o, o, o⟩, ⟨o, hs.2.1, o, o⟩, o, o, hs.2.2, o⟩
  obtain ⟨l1, e1⟩ := C168_product l.1 l.2.1 eZ eY (by norm_num) (by norm_num) (by norm_num)
  obtain ⟨l2, e2⟩ := C168_product l1 l.2.2.1 e1 eX (by norm_num) (by norm_num) (by norm_num)
  obtain ⟨l3, e3⟩ := C168_product l.2.2.2.1 l2 eT e2 (by norm_num) (by norm_num) (by norm_num)
  have v0 : (zero false).val = 0 := rfl
  have v1 : (num 1).val = 1 := rfl
  have nz := (neg_finite hz.2.1).2
  have ny := (neg_finite hy.2.1).2
  have nx := (neg_finite hx.2.1).2
  have k1 := vals_mul l.2.1 eZ eY (by norm_num) (by norm_num) (by norm_num)
  have k2 := vals_mul l.2.2.1 e1 eX (by norm_num) (by norm_num) (by norm_num)
  have k3 := vals_mul l2 eT e2 (by norm_num) (by norm_num) (by norm_num)
  have k4 := vals_mul l.2.2.2.2 e3 eS (by norm_num) (by norm_num) (by norm_num)
  dsimp only at k1 k2 k3 k4 ⊢
  unfold placement
  generalize mulMat (mulMat (translation position) (mulMat (mulMat (rotateZ z.c z.s) (rotateY y.c y.s)) (rotateX x.c x.s))) (scale size) = r4 at *
  generalize mulMat (translation position) (mulMat (mulMat (rotateZ z.c z.s) (rotateY y.c y.s)) (rotateX x.c x.s)) = r3 at *
  generalize mulMat (mulMat (rotateZ z.c z.s) (rotateY y.c y.s)) (rotateX x.c x.s) = r2 at *
  generalize mulMat (rotateZ z.c z.s) (rotateY y.c y.s) = r1 at *
  simp only [rotateZ, rotateY, v0, v1, nz, ny, MulZeroClass.mul_zero, MulZeroClass.zero_mul, _root_.mul_one, _root_.one_mul,
    dotQ_first, dotQ_second, dotQ_third] at k1
  obtain ⟨⟨a00, a01, a02, a03⟩, ⟨a10, a11, a12, a13⟩, a20, a21, a22, a23⟩ := k1
  simp only [rotateX, v0, v1, nx, a00, a01, a02, a03, a10, a11, a12, a13, a20, a21, a22, a23, rnd32_zero, MulZeroClass.mul_zero,
    MulZeroClass.zero_mul, _root_.mul_one, dotQ_first, dotQ_two, rnd32_rnd32, _root_.zero_add] at k2
  obtain ⟨⟨b00, b01, b02, b03⟩, ⟨b10, b11, b12, b13⟩, b20, b21, b22, b23⟩ := k2
  simp only [translation, v0, v1, b00, b01, b02, b03, b10, b11, b12, b13, b20, b21, b22, b23,
    MulZeroClass.zero_mul, _root_.one_mul, dotQ_first, dotQ_second, dotQ_third, dotQ_fourth, rnd32_rnd32] at k3
  obtain ⟨⟨c00, c01, c02, c03⟩, ⟨c10, c11, c12, c13⟩, c20, c21, c22, c23⟩ := k3
  simp only [scale, v0, c00, c01, c02, c03, c10, c11, c12, c13, c20, c21, c22, c23, MulZeroClass.mul_zero,
    dotQ_first, dotQ_second, dotQ_third, dotQ_fourth, rnd32_rnd32] at k4
  exact k4

/-- One product, rounded twice. -/
theorem one_err {u s : ℚ} (hu : |u| ≤ 1) :
    |rnd32 (rnd32 u * s) - u * s| ≤ 21 / 10 / 2 ^ 24 * |s| + 2 ^ (-145 : ℤ) * (1 + |s|) := by
  have e0 : |rnd32 u - u| ≤ 1 / 2 ^ 24 + 2 ^ (-150 : ℤ) := (rnd32_err' u).trans (by linarith)
  have e : |rnd32 u * s - u * s| ≤ (1 / 2 ^ 24 + 2 ^ (-150 : ℤ)) * |s| := by
    rw [← sub_mul, abs_mul]; exact mul_le_mul_of_nonneg_right e0 (abs_nonneg _)
  have k := rnd32_err' (rnd32 u * s)
  have t1 := abs_add_le (rnd32 u * s - u * s) (u * s)
  rw [sub_add_cancel] at t1
  have m : |u * s| ≤ |s| := by
    rw [abs_mul]; have := mul_le_mul_of_nonneg_right hu (abs_nonneg s); linarith
  have t2 := abs_add_le (rnd32 (rnd32 u * s) - rnd32 u * s) (rnd32 u * s - u * s)
  rw [sub_add_sub_cancel] at t2
  have s0 := abs_nonneg s
  generalize |s| = S at *
  norm_num only at *
  linarith

/-- The sum of two products, rounded. -/
theorem sum_err {u c v d : ℚ} (hu : |u| ≤ 1) (hc : |c| ≤ 1) (hv : |v| ≤ 1) (hd : |d| ≤ 1) :
    |rnd32 (rnd32 (rnd32 u * c) + rnd32 (rnd32 v * d)) - (u * c + v * d)| ≤ 7 / 2 ^ 24 := by
  have m : ∀ {a s : ℚ}, |a| ≤ 1 → |s| ≤ 1 → |a * s| ≤ 1 := fun h1 h2 => by
    rw [abs_mul]; exact (mul_le_mul h1 h2 (abs_nonneg _) (by norm_num)).trans (by norm_num)
  have e1 := one_err (s := c) hu
  have e2 := one_err (s := d) hv
  have m1 := m hu hc
  have m2 := m hv hd
  have r := rnd32_err' (rnd32 (rnd32 u * c) + rnd32 (rnd32 v * d))
  have t1 := abs_add_le (rnd32 (rnd32 u * c) - u * c) (u * c)
  have t2 := abs_add_le (rnd32 (rnd32 v * d) - v * d) (v * d)
  rw [sub_add_cancel] at t1 t2
  have t3 := abs_add_le (rnd32 (rnd32 u * c)) (rnd32 (rnd32 v * d))
  have t4 := abs_add_three (rnd32 (rnd32 (rnd32 u * c) + rnd32 (rnd32 v * d)) - (rnd32 (rnd32 u * c) + rnd32 (rnd32 v * d)))
    (rnd32 (rnd32 u * c) - u * c) (rnd32 (rnd32 v * d) - v * d)
  rw [show rnd32 (rnd32 (rnd32 u * c) + rnd32 (rnd32 v * d)) - (rnd32 (rnd32 u * c) + rnd32 (rnd32 v * d)) +
    (rnd32 (rnd32 u * c) - u * c) + (rnd32 (rnd32 v * d) - v * d) =
    rnd32 (rnd32 (rnd32 u * c) + rnd32 (rnd32 v * d)) - (u * c + v * d) by ring] at t4
  generalize |c| = C at *
  generalize |d| = D at *
  norm_num only at *
  linarith

/-- ... and scaled. -/
theorem two_err {u c v d s : ℚ} (hu : |u| ≤ 1) (hc : |c| ≤ 1) (hv : |v| ≤ 1) (hd : |d| ≤ 1) :
    |rnd32 (rnd32 (rnd32 (rnd32 u * c) + rnd32 (rnd32 v * d)) * s) - (u * c + v * d) * s| ≤ 10 / 2 ^ 24 * |s| + 2 ^ (-145 : ℤ) * (1 + |s|) := by
  have e0 := sum_err hu hc hv hd
  generalize rnd32 (rnd32 (rnd32 u * c) + rnd32 (rnd32 v * d)) = w at *
  have m : ∀ {a s : ℚ}, |a| ≤ 1 → |s| ≤ 1 → |a * s| ≤ 1 := fun h1 h2 => by
    rw [abs_mul]; exact (mul_le_mul h1 h2 (abs_nonneg _) (by norm_num)).trans (by norm_num)
  have x2 : |u * c + v * d| ≤ 2 := (abs_add_le _ _).trans (by linarith [m hu hc, m hv hd])
  generalize u * c + v * d = X at *
  have e : |w * s - X * s| ≤ 7 / 2 ^ 24 * |s| := by
    rw [← sub_mul, abs_mul]; exact mul_le_mul_of_nonneg_right e0 (abs_nonneg _)
  have k := rnd32_err' (w * s)
  have t1 := abs_add_le (w * s - X * s) (X * s)
  rw [sub_add_cancel] at t1
  have m : |X * s| ≤ 2 * |s| := by
    rw [abs_mul]; exact mul_le_mul_of_nonneg_right x2 (abs_nonneg s)
  have t2 := abs_add_le (rnd32 (w * s) - w * s) (w * s - X * s)
  rw [sub_add_sub_cancel] at t2
  have s0 := abs_nonneg s
  generalize |s| = S at *
  norm_num only at *
  linarith

/-- The rotation by the three angles, as values: around z after y after x. -/
def rot (x y z : Angle) : (ℚ × ℚ × ℚ) × (ℚ × ℚ × ℚ) × (ℚ × ℚ × ℚ) :=
  let cx := x.c.val; let sx := x.s.val; let cy := y.c.val; let sy := y.s.val; let cz := z.c.val; let sz := z.s.val
  ((cz * cy, cz * sy * sx - sz * cx, cz * sy * cx + sz * sx), (sz * cy, sz * sy * sx + cz * cx, sz * sy * cx - cz * sx),
   (-sy, cy * sx, cy * cx))

/-- **C168, placements.**  The entries of the matrix are those of scaling, rotating around the axes x, y, z in this order and
moving, up to 10 half units of the scale; the movement is the position itself. -/
theorem C168_placement_accuracy {position size : V3 F32} {x y z : Angle} (hp : Upto3 40 position) (hs : Upto3 40 size)
    (hx : Upto 0 x.c ∧ Upto 0 x.s) (hy : Upto 0 y.c ∧ Upto 0 y.s) (hz : Upto 0 z.c ∧ Upto 0 z.s) :
    let r := placement position x y z size
    let R := rot x y z
    let e := fun s : F32 => 10 / 2 ^ 24 * |s.val| + 2 ^ (-145 : ℤ) * (1 + |s.val|)
    (|r.m00.val - R.1.1 * size.x.val| ≤ e size.x ∧ |r.m01.val - R.1.2.1 * size.y.val| ≤ e size.y ∧
      |r.m02.val - R.1.2.2 * size.z.val| ≤ e size.z ∧ r.m03.val = rnd32 position.x.val) ∧
    (|r.m10.val - R.2.1.1 * size.x.val| ≤ e size.x ∧ |r.m11.val - R.2.1.2.1 * size.y.val| ≤ e size.y ∧
      |r.m12.val - R.2.1.2.2 * size.z.val| ≤ e size.z ∧ r.m13.val = rnd32 position.y.val) ∧
    |r.m20.val - R.2.2.1 * size.x.val| ≤ e size.x ∧ |r.m21.val - R.2.2.2.1 * size.y.val| ≤ e size.y ∧
      |r.m22.val - R.2.2.2.2 * size.z.val| ≤ e size.z ∧ r.m23.val = rnd32 position.z.val := by
  obtain ⟨⟨a00, a01, a02, a03⟩, ⟨a10, a11, a12, a13⟩, a20, a21, a22, a23⟩ := placement_vals hp hs hx hy hz
  dsimp only at *
  rw [a00, a01, a02, a03, a10, a11, a12, a13, a20, a21, a22, a23]
  have up : ∀ {v : F32}, Upto 0 v → |v.val| ≤ 1 := fun h => by have := h.2; rwa [zpow_zero] at this
  have xc := up hx.1; have xs := up hx.2; have yc := up hy.1; have ys := up hy.2; have zc := up hz.1; have zs := up hz.2
  have ng : ∀ {a : ℚ}, |a| ≤ 1 → |-a| ≤ 1 := fun h => by rwa [abs_neg]
  have m : ∀ {a s : ℚ}, |a| ≤ 1 → |s| ≤ 1 → |a * s| ≤ 1 := fun h1 h2 => by
    rw [abs_mul]; exact (mul_le_mul h1 h2 (abs_nonneg _) (by norm_num)).trans (by norm_num)
  have w1 : ∀ {u : ℚ} {s : F32}, |u| ≤ 1 → |rnd32 (rnd32 u * s.val) - u * s.val| ≤
      10 / 2 ^ 24 * |s.val| + 2 ^ (-145 : ℤ) * (1 + |s.val|) := fun {u s} hu =>
    (one_err hu).trans (add_le_add (mul_le_mul_of_nonneg_right (by norm_num) (abs_nonneg _)) le_rfl)
  have w2 : ∀ {u d : ℚ} {s : F32}, |u| ≤ 1 → |d| ≤ 1 → |rnd32 (rnd32 (rnd32 u * d) * s.val) - u * d * s.val| ≤
      10 / 2 ^ 24 * |s.val| + 2 ^ (-145 : ℤ) * (1 + |s.val|) := fun {u d s} hu hd => by
    have := two_err (u := 0) (c := 0) (s := s.val) (by simp) (by simp) hu hd
    rwa [MulZeroClass.mul_zero, MulZeroClass.mul_zero, rnd32_zero, _root_.zero_add, _root_.zero_add, rnd32_rnd32] at this
  have w3 : ∀ {u c v d X : ℚ} {s : F32}, |u| ≤ 1 → |c| ≤ 1 → |v| ≤ 1 → |d| ≤ 1 → u * c + v * d = X →
      |rnd32 (rnd32 (rnd32 (rnd32 u * c) + rnd32 (rnd32 v * d)) * s.val) - X * s.val| ≤
      10 / 2 ^ 24 * |s.val| + 2 ^ (-145 : ℤ) * (1 + |s.val|) := fun hu hc hv hd e => e ▸ two_err hu hc hv hd
  unfold rot
  dsimp only
  exact ⟨⟨w1 (m zc yc), w3 (ng zs) xc (m zc ys) xs (by ring), w3 (ng zs) (ng xs) (m zc ys) xc (by ring), rfl⟩,
    ⟨w1 (m zs yc), w3 zc xc (m zs ys) xs (by ring), w3 zc (ng xs) (m zs ys) xc (by ring), rfl⟩,
    w1 (ng ys), w2 yc xs, w2 yc xc, rfl⟩

/-! ### Inverses of placed objects -/

/-- The cosine and the sine of an angle up to roundings. -/
structure Turn (a : Angle) : Prop where
  c : Upto 0 a.c
  s : Upto 0 a.s
  one : |a.c.val ^ 2 + a.s.val ^ 2 - 1| ≤ 2 ^ (-22 : ℤ)

theorem Turn.abs1 {a : Angle} (h : Turn a) : |a.c.val| ≤ 1 ∧ |a.s.val| ≤ 1 := by
  have h1 := h.c.2; have h2 := h.s.2; rw [zpow_zero] at h1 h2; exact ⟨h1, h2⟩

/-- The determinant of nine numbers. -/
def det9 (a b c d e f g h i : ℚ) : ℚ := a * (e * i - f * h) - b * (d * i - f * g) + c * (d * h - e * g)

theorem triple_err {a b c x y z k : ℚ} (ha : |a| ≤ 101 / 100) (hb : |b| ≤ 101 / 100) (hc : |c| ≤ 101 / 100) (hx : |x - a| ≤ k)
    (hy : |y - b| ≤ k) (hz : |z - c| ≤ k) (hk : k ≤ 1 / 2 ^ 20) : |x * (y * z) - a * (b * c)| ≤ 31 / 10 * k := by
  have p : ∀ {v w A W : ℚ}, |v| ≤ A → |w| ≤ W → |v * w| ≤ A * W := fun hv hw => by
    rw [abs_mul]; exact mul_le_mul hv hw (abs_nonneg _) ((abs_nonneg _).trans hv)
  have k0 : 0 ≤ k := (abs_nonneg _).trans hx
  have y1 : |y| ≤ 102 / 100 := by
    have := abs_add_le (y - b) b; rw [sub_add_cancel] at this; norm_num at *; linarith
  have z1 : |z| ≤ 102 / 100 := by
    have := abs_add_le (z - c) c; rw [sub_add_cancel] at this; norm_num at *; linarith
  have e : x * (y * z) - a * (b * c) = (x - a) * (y * z) + a * ((y - b) * z) + a * (b * (z - c)) := by ring
  rw [e]
  refine (abs_add_three _ _ _).trans ?_
  have q1 := p hx (p y1 z1)
  have q2 := p ha (p hy z1)
  have q3 := p ha (p hb hz)
  norm_num at *
  linarith

theorem det9_err {a b c d e f g h i a' b' c' d' e' f' g' h' i' k : ℚ} (ha : |a| ≤ 101 / 100) (hb : |b| ≤ 101 / 100)
    (hc : |c| ≤ 101 / 100) (hd : |d| ≤ 101 / 100) (he : |e| ≤ 101 / 100) (hf : |f| ≤ 101 / 100) (hg : |g| ≤ 101 / 100)
    (hh : |h| ≤ 101 / 100) (hi : |i| ≤ 101 / 100) (ka : |a' - a| ≤ k) (kb : |b' - b| ≤ k) (kc : |c' - c| ≤ k) (kd : |d' - d| ≤ k)
    (ke : |e' - e| ≤ k) (kf : |f' - f| ≤ k) (kg : |g' - g| ≤ k) (kh : |h' - h| ≤ k) (ki : |i' - i| ≤ k) (hk : k ≤ 1 / 2 ^ 20) :
    |det9 a' b' c' d' e' f' g' h' i' - det9 a b c d e f g h i| ≤ 186 / 10 * k := by
  have t1 := abs_le.1 (triple_err ha he hi ka ke ki hk)
  have t2 := abs_le.1 (triple_err ha hf hh ka kf kh hk)
  have t3 := abs_le.1 (triple_err hb hd hi kb kd ki hk)
  have t4 := abs_le.1 (triple_err hb hf hg kb kf kg hk)
  have t5 := abs_le.1 (triple_err hc hd hh kc kd kh hk)
  have t6 := abs_le.1 (triple_err hc he hg kc ke kg hk)
  unfold det9
  rw [abs_le]
  constructor <;> linarith [t1.1, t1.2, t2.1, t2.2, t3.1, t3.2, t4.1, t4.2, t5.1, t5.2, t6.1, t6.2]

/-- The entries of a rotation are at most one, up to roundings. -/
theorem rot_small {x y z : Angle} (hx : Turn x) (hy : Turn y) (hz : Turn z) :
    let R := rot x y z
    let b := 1 + (2 : ℚ) ^ (-22 : ℤ)
    (|R.1.1| ≤ b ∧ |R.1.2.1| ≤ b ∧ |R.1.2.2| ≤ b) ∧ (|R.2.1.1| ≤ b ∧ |R.2.1.2.1| ≤ b ∧ |R.2.1.2.2| ≤ b) ∧
      |R.2.2.1| ≤ b ∧ |R.2.2.2.1| ≤ b ∧ |R.2.2.2.2| ≤ b := by
  obtain ⟨xc, xs⟩ := hx.abs1
  obtain ⟨yc, ys⟩ := hy.abs1
  obtain ⟨zc, zs⟩ := hz.abs1
  have ox := abs_le.1 hx.one
  have oz := abs_le.1 hz.one
  have b1 : (1 : ℚ) ≤ 1 + 2 ^ (-22 : ℤ) := by norm_num
  have m : ∀ {a s : ℚ}, |a| ≤ 1 → |s| ≤ 1 → |a * s| ≤ 1 + (2 : ℚ) ^ (-22 : ℤ) := fun h1 h2 => by
    rw [abs_mul]; exact (mul_le_mul h1 h2 (abs_nonneg _) (by norm_num)).trans (by norm_num)
  have sq : ∀ a b : ℚ, |a * b| ≤ (a ^ 2 + b ^ 2) / 2 := fun a b => by
    rw [abs_le]; constructor <;> nlinarith [sq_nonneg (a + b), sq_nonneg (a - b)]
  have two : ∀ a s b c d : ℚ, |s| ≤ 1 → a ^ 2 + b ^ 2 + c ^ 2 + d ^ 2 = z.c.val ^ 2 + z.s.val ^ 2 + (x.c.val ^ 2 + x.s.val ^ 2) →
      |a * s * b| + |c * d| ≤ 1 + (2 : ℚ) ^ (-22 : ℤ) := fun a s b c d hs e => by
    have h1 : |a * s * b| ≤ |a * b| := by
      rw [show a * s * b = s * (a * b) by ring, abs_mul]
      have := mul_le_mul_of_nonneg_right hs (abs_nonneg (a * b))
      linarith
    have h2 := sq a b
    have h3 := sq c d
    linarith [ox.2, oz.2]
  unfold rot
  dsimp only
  refine ⟨⟨m zc yc, ?_, ?_⟩, ⟨m zs yc, ?_, ?_⟩, ?_, m yc xs, m yc xc⟩
  · exact (abs_sub _ _).trans (two _ _ _ _ _ ys (by ring))
  · exact (abs_add_le _ _).trans (two _ _ _ _ _ ys (by ring))
  · exact (abs_add_le _ _).trans (two _ _ _ _ _ ys (by ring))
  · exact (abs_sub _ _).trans (two _ _ _ _ _ ys (by ring))
  · rw [abs_neg]; exact ys.trans b1

/-- The determinant of a rotation is one, up to roundings. -/
theorem rot_det {x y z : Angle} (hx : Turn x) (hy : Turn y) (hz : Turn z) :
    let R := rot x y z
    |det9 R.1.1 R.1.2.1 R.1.2.2 R.2.1.1 R.2.1.2.1 R.2.1.2.2 R.2.2.1 R.2.2.2.1 R.2.2.2.2 - 1| ≤ 31 / 10 * 2 ^ (-22 : ℤ) := by
  have e : (fun R : (ℚ × ℚ × ℚ) × (ℚ × ℚ × ℚ) × (ℚ × ℚ × ℚ) =>
      det9 R.1.1 R.1.2.1 R.1.2.2 R.2.1.1 R.2.1.2.1 R.2.1.2.2 R.2.2.1 R.2.2.2.1 R.2.2.2.2) (rot x y z) =
      (x.c.val ^ 2 + x.s.val ^ 2) * ((y.c.val ^ 2 + y.s.val ^ 2) * (z.c.val ^ 2 + z.s.val ^ 2)) := by
    unfold rot det9
    dsimp only
    ring
  have t := triple_err (a := 1) (b := 1) (c := 1) (by norm_num) (by norm_num) (by norm_num) hx.one hy.one hz.one (by norm_num)
  dsimp only at e ⊢
  rw [e]
  simpa using t

/-- One entry: its size, and its distance from the rotation after the scale is taken out. -/
theorem entry_scaled {v R s S : ℚ} (hR : |R| ≤ 1 + 2 ^ (-22 : ℤ)) (h : |v - R * s| ≤ 10 / 2 ^ 24 * |s| + 2 ^ (-145 : ℤ) * (1 + |s|))
    (hs : |s| ≤ S) (hS : 1 / 64 ≤ S) (h0 : 2 ^ (-60 : ℤ) ≤ |s|) :
    |v| ≤ (1 + 2 ^ (-19 : ℤ)) * S ∧ |v / s - R| ≤ 11 / 2 ^ 24 := by
  have sp : 0 < |s| := lt_of_lt_of_le (by norm_num) h0
  have s0 : s ≠ 0 := abs_pos.1 sp
  constructor
  · have t := abs_add_le (v - R * s) (R * s)
    rw [sub_add_cancel] at t
    have m : |R * s| ≤ (1 + 2 ^ (-22 : ℤ)) * |s| := by rw [abs_mul]; exact mul_le_mul_of_nonneg_right hR (abs_nonneg _)
    generalize |s| = A at *
    norm_num only at *
    linarith
  · have e : v / s - R = (v - R * s) / s := by field_simp
    rw [e, abs_div, div_le_iff₀ sp]
    refine h.trans ?_
    generalize |s| = A at *
    norm_num only at *
    linarith

/-- **C168, placed objects.**  With sizes up to `S`, positions up to `T` and a product `P` of the sizes that is not too small,
the matrix of an object satisfies what `C168_inverse_accuracy` asks for. -/
theorem C168_placed {position size : V3 F32} {x y z : Angle} {S T : ℚ} (hx : Turn x) (hy : Turn y) (hz : Turn z)
    (fp : Fin3 position) (rp : rnd32 position.x.val = position.x.val ∧ rnd32 position.y.val = position.y.val ∧ rnd32 position.z.val = position.z.val)
    (hp : |position.x.val| ≤ T ∧ |position.y.val| ≤ T ∧ |position.z.val| ≤ T) (hT : T ≤ 2 ^ 20)
    (fs : Fin3 size) (hs : |size.x.val| ≤ S ∧ |size.y.val| ≤ S ∧ |size.z.val| ≤ S) (hS : S ≤ 2 ^ 19)
    (hP : 1 / 49000 ≤ |size.x.val * size.y.val * size.z.val|) (hc : 1010 / 2 ^ 24 * S ^ 3 ≤ |size.x.val * size.y.val * size.z.val|) :
    let m := placement position x y z size
    let L := (1 + 2 ^ (-19 : ℤ)) * S
    LastRow m ∧ Sizes m L T ∧ L ≤ 2 ^ 20 ∧ 1 / 50000 ≤ |exactDet m| ∧ 1000 / 2 ^ 24 * L ^ 3 ≤ |exactDet m| ∧
      L ^ 3 / |exactDet m| ≤ 1001 / 1000 * (S ^ 3 / |size.x.val * size.y.val * size.z.val|) := by
  have up : ∀ {v : F32} {K : ℚ}, v.Finite → |v.val| ≤ K → K ≤ 2 ^ 20 → Upto 40 v := fun f h k =>
    ⟨f, (h.trans k).trans (by norm_num)⟩
  have S20 : S ≤ 2 ^ 20 := hS.trans (by norm_num)
  have up3 : Upto3 40 position := ⟨up fp.1 hp.1 hT, up fp.2.1 hp.2.1 hT, up fp.2.2 hp.2.2 hT⟩
  have us3 : Upto3 40 size := ⟨up fs.1 hs.1 S20, up fs.2.1 hs.2.1 S20, up fs.2.2 hs.2.2 S20⟩
  obtain ⟨lr, en⟩ := C168_placement up3 us3 ⟨hx.c, hx.s⟩ ⟨hy.c, hy.s⟩ ⟨hz.c, hz.s⟩
  obtain ⟨⟨a00, a01, a02, a03⟩, ⟨a10, a11, a12, a13⟩, a20, a21, a22, a23⟩ :=
    C168_placement_accuracy up3 us3 ⟨hx.c, hx.s⟩ ⟨hy.c, hy.s⟩ ⟨hz.c, hz.s⟩
  obtain ⟨⟨r00, r01, r02⟩, ⟨r10, r11, r12⟩, r20, r21, r22⟩ := rot_small hx hy hz
  have rd := rot_det hx hy hz
  dsimp only at *
  generalize placement position x y z size = m at *
  generalize rot x y z = R at *
  obtain ⟨hs0, hs1, hs2⟩ := hs
  -- sizes from below
  have S0 : 0 ≤ S := (abs_nonneg _).trans hs0
  have prod : |size.x.val * size.y.val * size.z.val| = |size.x.val| * |size.y.val| * |size.z.val| := by rw [abs_mul, abs_mul]
  have low : ∀ {a b c : ℚ}, 0 ≤ a → 0 ≤ b → 0 ≤ c → b ≤ S → c ≤ S → 1 / 49000 ≤ a * (b * c) → 2 ^ (-60 : ℤ) ≤ a := by
    intro a b c ha hb hc' h1 h2 h
    have bc : b * c ≤ 2 ^ 38 := (mul_le_mul (h1.trans hS) (h2.trans hS) hc' (by norm_num)).trans (by norm_num)
    have := h.trans (mul_le_mul_of_nonneg_left bc ha)
    norm_num at this ⊢
    linarith
  have p0 := abs_nonneg size.x.val
  have p1 := abs_nonneg size.y.val
  have p2 := abs_nonneg size.z.val
  rw [prod] at hP
  have l0 := low p0 p1 p2 hs1 hs2 (hP.trans (le_of_eq (by ring)))
  have l1 := low p1 p0 p2 hs0 hs2 (hP.trans (le_of_eq (by ring)))
  have l2 := low p2 p0 p1 hs0 hs1 (hP.trans (le_of_eq (by ring)))
  have PS : |size.x.val| * |size.y.val| * |size.z.val| ≤ S ^ 3 := by
    rw [pow_three']
    exact mul_le_mul (mul_le_mul hs0 hs1 p1 S0) hs2 p2 (by positivity)
  have S64 : 1 / 64 ≤ S := by
    by_contra hn
    have := pow_le_pow_left₀ S0 (not_le.1 hn).le 3
    have := hP.trans (PS.trans this)
    norm_num at this
  -- the entries
  have e00 := entry_scaled r00 a00 hs0 S64 l0
  have e01 := entry_scaled r01 a01 hs1 S64 l1
  have e02 := entry_scaled r02 a02 hs2 S64 l2
  have e10 := entry_scaled r10 a10 hs0 S64 l0
  have e11 := entry_scaled r11 a11 hs1 S64 l1
  have e12 := entry_scaled r12 a12 hs2 S64 l2
  have e20 := entry_scaled r20 a20 hs0 S64 l0
  have e21 := entry_scaled r21 a21 hs1 S64 l1
  have e22 := entry_scaled r22 a22 hs2 S64 l2
  have b : ∀ {v : ℚ}, |v| ≤ 1 + 2 ^ (-22 : ℤ) → |v| ≤ 101 / 100 := fun h => h.trans (by norm_num)
  have de := det9_err (b r00) (b r01) (b r02) (b r10) (b r11) (b r12) (b r20) (b r21) (b r22) e00.2 e01.2 e02.2 e10.2 e11.2 e12.2
    e20.2 e21.2 e22.2 (by norm_num)
  have n0 : size.x.val ≠ 0 := abs_pos.1 (lt_of_lt_of_le (by norm_num) l0)
  have n1 : size.y.val ≠ 0 := abs_pos.1 (lt_of_lt_of_le (by norm_num) l1)
  have n2 : size.z.val ≠ 0 := abs_pos.1 (lt_of_lt_of_le (by norm_num) l2)
  have ed : exactDet m = size.x.val * size.y.val * size.z.val * det9 (m.m00.val / size.x.val) (m.m01.val / size.y.val)
      (m.m02.val / size.z.val) (m.m10.val / size.x.val) (m.m11.val / size.y.val) (m.m12.val / size.z.val) (m.m20.val / size.x.val)
      (m.m21.val / size.y.val) (m.m22.val / size.z.val) := by
    unfold exactDet det9
    field_simp
  have dl : 1 - 2 ^ (-16 : ℤ) ≤ |det9 (m.m00.val / size.x.val) (m.m01.val / size.y.val)
      (m.m02.val / size.z.val) (m.m10.val / size.x.val) (m.m11.val / size.y.val) (m.m12.val / size.z.val) (m.m20.val / size.x.val)
      (m.m21.val / size.y.val) (m.m22.val / size.z.val)| := by
    refine le_trans ?_ (le_abs_self _)
    have h1 := (abs_le.1 de).1
    have h2 := (abs_le.1 rd).1
    norm_num only at *
    linarith
  have D1 : (1 - 2 ^ (-16 : ℤ)) * (|size.x.val| * |size.y.val| * |size.z.val|) ≤ |exactDet m| := by
    rw [ed, abs_mul, prod, _root_.mul_comm]
    exact mul_le_mul_of_nonneg_left dl (by positivity)
  rw [prod] at hc
  rw [prod]
  have q0 : 0 < |size.x.val| * |size.y.val| * |size.z.val| := lt_of_lt_of_le (by norm_num) hP
  clear prod ed de dl
  generalize |size.x.val| * |size.y.val| * |size.z.val| = P at *
  have S3 : 0 ≤ S ^ 3 := pow_nonneg S0 3
  have L3 : ((1 + 2 ^ (-19 : ℤ)) * S) ^ 3 ≤ 10001 / 10000 * S ^ 3 := by
    rw [mul_pow]; exact mul_le_mul_of_nonneg_right (by norm_num) S3
  have D0 : 0 < |exactDet m| := lt_of_lt_of_le (by norm_num at *; linarith) D1
  obtain ⟨⟨g00, g01, g02, g03⟩, ⟨g10, g11, g12, g13⟩, g20, g21, g22, g23⟩ := en
  refine ⟨lr, ⟨⟨⟨g00.1, g01.1, g02.1, g03.1⟩, ⟨g10.1, g11.1, g12.1, g13.1⟩, g20.1, g21.1, g22.1, g23.1⟩,
    ⟨⟨e00.1, e01.1, e02.1⟩, ⟨e10.1, e11.1, e12.1⟩, e20.1, e21.1, e22.1⟩, ?_, ?_, ?_⟩, ?_, ?_, ?_, ?_⟩
  · rw [a03, rp.1]; exact hp.1
  · rw [a13, rp.2.1]; exact hp.2.1
  · rw [a23, rp.2.2]; exact hp.2.2
  · norm_num only at *; linarith
  · norm_num only at *; linarith
  · generalize ((1 + 2 ^ (-19 : ℤ)) * S) ^ 3 = A at *
    norm_num only at *
    linarith
  · rw [div_le_iff₀ D0, show 1001 / 1000 * (S ^ 3 / P) * |exactDet m| = 1001 / 1000 * (S ^ 3 * |exactDet m|) / P by ring, le_div_iff₀ q0]
    have k := mul_le_mul_of_nonneg_left D1 S3
    have k' := mul_le_mul_of_nonneg_right L3 q0.le
    have w : S ^ 3 * ((1 - 2 ^ (-16 : ℤ)) * P) = (1 - 2 ^ (-16 : ℤ)) * (S ^ 3 * P) := by ring
    have w' : 10001 / 10000 * S ^ 3 * P = 10001 / 10000 * (S ^ 3 * P) := by ring
    have w0 : 0 ≤ S ^ 3 * P := by positivity
    rw [w] at k
    rw [w'] at k'
    refine k'.trans ?_
    generalize S ^ 3 * P = A at *
    generalize S ^ 3 * |exactDet m| = B at *
    norm_num only at *
    linarith

/-- **C168, rays to placed objects.**  A placed object with sizes up to `S`, the product of which is `P`, at a position up to
`T`, has an inverse.  The object rays of all rays with coordinates up to `B` come back to their rays, up to
`1001*2^-24*S^3/P*(B+T)` for the origin and `601*2^-24*S^3/P*B` for the direction. -/
theorem C168_placed_ray {position size : V3 F32} {x y z : Angle} {S T B : ℚ} (hx : Turn x) (hy : Turn y) (hz : Turn z)
    (fp : Fin3 position) (rp : rnd32 position.x.val = position.x.val ∧ rnd32 position.y.val = position.y.val ∧ rnd32 position.z.val = position.z.val)
    (hp : |position.x.val| ≤ T ∧ |position.y.val| ≤ T ∧ |position.z.val| ≤ T) (hT : T ≤ 2 ^ 20)
    (fs : Fin3 size) (hs : |size.x.val| ≤ S ∧ |size.y.val| ≤ S ∧ |size.z.val| ≤ S) (hS : S ≤ 2 ^ 19)
    (hP : 1 / 49000 ≤ |size.x.val * size.y.val * size.z.val|) (hc : 1010 / 2 ^ 24 * S ^ 3 ≤ |size.x.val * size.y.val * size.z.val|)
    (hB : B ≤ 2 ^ 20) :
    ∃ i, inverse (placement position x y z size) = some i ∧ ∀ o d : V3 F32, Fin3 o → Fin3 d →
      |o.x.val| ≤ B ∧ |o.y.val| ≤ B ∧ |o.z.val| ≤ B → |d.x.val| ≤ B ∧ |d.y.val| ≤ B ∧ |d.z.val| ≤ B →
      let m := placement position x y z size
      let p := (objectRay i o d).1
      let v := (objectRay i o d).2
      let q := S ^ 3 / |size.x.val * size.y.val * size.z.val|
      let r := 1001 / 2 ^ 24 * (q * (B + T)) + 2 ^ (-30 : ℤ)
      let r' := 601 / 2 ^ 24 * (q * B) + 2 ^ (-30 : ℤ)
      (Fin3 p ∧ |rowCol m.m00 m.m01 m.m02 p.x p.y p.z + m.m03.val - o.x.val| ≤ r ∧
        |rowCol m.m10 m.m11 m.m12 p.x p.y p.z + m.m13.val - o.y.val| ≤ r ∧
        |rowCol m.m20 m.m21 m.m22 p.x p.y p.z + m.m23.val - o.z.val| ≤ r) ∧
      Fin3 v ∧ |rowCol m.m00 m.m01 m.m02 v.x v.y v.z - d.x.val| ≤ r' ∧ |rowCol m.m10 m.m11 m.m12 v.x v.y v.z - d.y.val| ≤ r' ∧
        |rowCol m.m20 m.m21 m.m22 v.x v.y v.z - d.z.val| ≤ r' := by
  obtain ⟨lr, sz, hL, hD, hD', q⟩ := C168_placed hx hy hz fp rp hp hT fs hs hS hP hc
  dsimp only at *
  obtain ⟨i, hi, -⟩ := C168_inverse_accuracy lr sz hL hT hD hD'
  refine ⟨i, hi, fun o d fo fd ho hd => ?_⟩
  have B0 : 0 ≤ B := (abs_nonneg _).trans ho.1
  have T0 : 0 ≤ T := (abs_nonneg _).trans hp.1
  obtain ⟨f, x0, x1, x2⟩ := C168_round_trip_origin (d := d) lr sz hL hT hD hD' hi fo ho.1 ho.2.1 ho.2.2 hB
  obtain ⟨f', y0, y1, y2⟩ := C168_round_trip_direction (o := o) lr sz hL hT hD hD' hi fd hd.1 hd.2.1 hd.2.2 hB
  generalize placement position x y z size = m at *
  have k := mul_le_mul_of_nonneg_right q (add_nonneg B0 T0)
  have k' := mul_le_mul_of_nonneg_right q B0
  have r : 1000 / 2 ^ 24 * (((1 + 2 ^ (-19 : ℤ)) * S) ^ 3 / |exactDet m| * (B + T)) + 2 ^ (-30 : ℤ) ≤
      1001 / 2 ^ 24 * (S ^ 3 / |size.x.val * size.y.val * size.z.val| * (B + T)) + 2 ^ (-30 : ℤ) := by
    refine (add_le_add (mul_le_mul_of_nonneg_left k (by norm_num)) le_rfl).trans (le_of_eq ?_)
    ring
  have r' : 600 / 2 ^ 24 * (((1 + 2 ^ (-19 : ℤ)) * S) ^ 3 / |exactDet m| * B) + 2 ^ (-30 : ℤ) ≤
      601 / 2 ^ 24 * (S ^ 3 / |size.x.val * size.y.val * size.z.val| * B) + 2 ^ (-30 : ℤ) := by
    have S0 : 0 ≤ S := (abs_nonneg _).trans hs.1
    have n : 0 ≤ S ^ 3 / |size.x.val * size.y.val * size.z.val| * B := by positivity
    refine (add_le_add (mul_le_mul_of_nonneg_left k' (by norm_num)) le_rfl).trans ?_
    generalize S ^ 3 / |size.x.val * size.y.val * size.z.val| = A at *
    have : 600 / 2 ^ 24 * (1001 / 1000 * A * B) = 600 / 2 ^ 24 * (1001 / 1000) * (A * B) := by ring
    rw [this]
    generalize A * B = Z at *
    norm_num only at *
    linarith
  exact ⟨⟨f, x0.trans r, x1.trans r, x2.trans r⟩, f', y0.trans r', y1.trans r', y2.trans r'⟩

/-! ### An example: sizes 1, 2, 3, turned around all axes -/

/-- An angle of cosine 3/5. -/
def slope : Angle := ⟨F32.round false (3 / 5), F32.round false (4 / 5)⟩

theorem slope_eq : slope = ⟨num (10066330 / 2 ^ 24), num (13421773 / 2 ^ 24)⟩ := by
  have h : F32.round false (3 / 5) = num (10066330 / 2 ^ 24) ∧ F32.round false (4 / 5) = num (13421773 / 2 ^ 24) := by decide +kernel
  unfold slope
  rw [h.1, h.2]

theorem slope_turn : Turn slope := by
  rw [slope_eq]
  exact ⟨⟨trivial, by norm_num [val]⟩, ⟨trivial, by norm_num [val]⟩, by norm_num [val, abs_le]⟩

example : ∃ i, inverse (placement ⟨num 10, num (-20), num 30⟩ slope slope slope ⟨num 1, num 2, num 3⟩) = some i := by
  obtain ⟨i, h, -⟩ := C168_placed_ray (position := ⟨num 10, num (-20), num 30⟩) (size := ⟨num 1, num 2, num 3⟩) (S := 3) (T := 30)
    (B := 100) slope_turn slope_turn slope_turn ⟨trivial, trivial, trivial⟩ ⟨by decide +kernel, by decide +kernel, by decide +kernel⟩
    ⟨by norm_num [val], by norm_num [val], by norm_num [val]⟩ (by norm_num) ⟨trivial, trivial, trivial⟩
    ⟨by norm_num [val], by norm_num [val], by norm_num [val]⟩ (by norm_num) (by norm_num [val]) (by norm_num [val]) (by norm_num)
  exact ⟨i, h⟩

end Spectre.FPlace
