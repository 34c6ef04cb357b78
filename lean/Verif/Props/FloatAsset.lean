import Verif.Model.FloatAsset
import Verif.Props.FloatPlace
import Verif.Props.FloatBox
import Verif.Props.Normalize

/-
C174: the frame of a hit on a placed object, in binary32.
-/

namespace Spectre.FAsset

open Spectre.Geom Spectre.FPlace Spectre.FTri Spectre.Normalize Spectre.FMat F32

/-! ### Specification -/

/-- Numbers, and of length one up to the tolerance of the code. -/
def Unit3 (v : V3 F32) : Prop := FiniteVec v ∧ |exactLen2 v - 1| ≤ 11 / 10 ^ 6

/-- The exact inner product. -/
def inner (v w : V3 F32) : ℚ := v.x.val * w.x.val + v.y.val * w.y.val + v.z.val * w.z.val

/-- Within twelve half units of `c` times the exact vector. -/
def Along (c X Y Z : ℚ) (v : V3 F32) : Prop :=
  |v.x.val - c * X| ≤ |c * X| * (12 / 2 ^ 24) + 2 ^ (-120 : ℤ) ∧
  |v.y.val - c * Y| ≤ |c * Y| * (12 / 2 ^ 24) + 2 ^ (-120 : ℤ) ∧
  |v.z.val - c * Z| ≤ |c * Z| * (12 / 2 ^ 24) + 2 ^ (-120 : ℤ)

/-! ### Normalising what was rounded -/

theorem near_sq {x X : ℚ} (h : |x - X| ≤ |X| * (10 / 2 ^ 24) + 2 ^ (-150 : ℤ)) :
    X ^ 2 * (9 / 20) - 2 ^ (-200 : ℤ) ≤ x ^ 2 := by
  have h1 : |X| - |x| ≤ |x - X| := by rw [abs_sub_comm]; exact abs_sub_abs_le_abs_sub X x
  have h2 : |X| * (99 / 100) ≤ |x| + 2 ^ (-150 : ℤ) := by
    have := abs_nonneg X
    norm_num at h ⊢; linarith
  have h3 := pow_le_pow_left₀ (by positivity) h2 2
  have h4 : (|x| + 2 ^ (-150 : ℤ)) ^ 2 ≤ 2 * |x| ^ 2 + 2 * (2 ^ (-150 : ℤ)) ^ 2 := by
    nlinarith [sq_nonneg (|x| - 2 ^ (-150 : ℤ))]
  rw [mul_pow, sq_abs] at h3
  rw [sq_abs] at h4
  have : (0 : ℚ) ≤ X ^ 2 := sq_nonneg X
  norm_num at h3 h4 ⊢
  linarith

/-- Normalising a vector each member of which is within ten half units of the exact one. -/
theorem norm_core {v : V3 F32} {X Y Z : ℚ} (hv : FiniteVec v)
    (hx : |v.x.val - X| ≤ |X| * (10 / 2 ^ 24) + 2 ^ (-150 : ℤ)) (hy : |v.y.val - Y| ≤ |Y| * (10 / 2 ^ 24) + 2 ^ (-150 : ℤ))
    (hz : |v.z.val - Z| ≤ |Z| * (10 / 2 ^ 24) + 2 ^ (-150 : ℤ))
    (bx : |X| ≤ 2 ^ 55) (by' : |Y| ≤ 2 ^ 55) (bz : |Z| ≤ 2 ^ 55) (hl : 2 ^ (-51 : ℤ) ≤ X ^ 2 + Y ^ 2 + Z ^ 2) :
    Unit3 (normalize v) ∧ ∃ c, 0 < c ∧ c ≤ 2 ^ 28 ∧ Along c X Y Z (normalize v) := by
  have up : ∀ {x X : ℚ}, |x - X| ≤ |X| * (10 / 2 ^ 24) + 2 ^ (-150 : ℤ) → |X| ≤ 2 ^ 55 → |x| ≤ 2 ^ (63 : ℤ) := by
    intro x X h b
    have h1 : |x| - |X| ≤ |x - X| := abs_sub_abs_le_abs_sub x X
    norm_num at h b ⊢; linarith
  have hw : Within (2 ^ (63 : ℤ)) v := ⟨up hx bx, up hy by', up hz bz⟩
  have hL : 2 ^ (-53 : ℤ) ≤ exactLen2 v := by
    have h1 := near_sq hx
    have h2 := near_sq hy
    have h3 := near_sq hz
    unfold exactLen2
    norm_num at h1 h2 h3 hl ⊢; linarith
  obtain ⟨f, u, c, c0, s⟩ := C156_unit_partial v hv hw (le_trans (by norm_num) hL)
  obtain ⟨s1, s2, s3⟩ := s
  -- the factor
  have part : ∀ {w a : ℚ}, |w - c * a| ≤ |c * a| / 2 ^ 24 + 2 ^ (-150 : ℤ) → c ^ 2 * a ^ 2 ≤ 2 * w ^ 2 + 1 := by
    intro w a h
    have h1 : |c * a| - |w| ≤ |w - c * a| := by rw [abs_sub_comm]; exact abs_sub_abs_le_abs_sub _ _
    have h2 : |c * a| * (99 / 100) ≤ |w| + 1 / 10 := by
      have := abs_nonneg (c * a)
      generalize |c * a| = ca at *
      norm_num at h ⊢; linarith
    have h3 := pow_le_pow_left₀ (by positivity) h2 2
    have h4 : (|w| + 1 / 10) ^ 2 ≤ (11 / 10) * |w| ^ 2 + 1 / 4 := by nlinarith [sq_nonneg (|w| - 1)]
    rw [mul_pow, sq_abs, mul_pow] at h3
    rw [sq_abs] at h4
    have := sq_nonneg w
    norm_num at h3 h4 ⊢
    linarith
  have hc : c ≤ 2 ^ 28 := by
    have p1 := part s1
    have p2 := part s2
    have p3 := part s3
    have u2 := (abs_le.1 u).2
    have e : c ^ 2 * exactLen2 v ≤ 8 := by
      have : c ^ 2 * exactLen2 v = c ^ 2 * v.x.val ^ 2 + c ^ 2 * v.y.val ^ 2 + c ^ 2 * v.z.val ^ 2 := by
        unfold exactLen2; ring
      unfold exactLen2 at u2
      rw [this]; linarith
    have e2 : c ^ 2 * 2 ^ (-53 : ℤ) ≤ 8 := le_trans (mul_le_mul_of_nonneg_left hL (sq_nonneg c)) e
    refine le_of_sq_le_sq ?_ (by norm_num)
    norm_num at e2 ⊢; linarith
  have fin : ∀ {w a A : ℚ}, |w - c * a| ≤ |c * a| / 2 ^ 24 + 2 ^ (-150 : ℤ) → |a - A| ≤ |A| * (10 / 2 ^ 24) + 2 ^ (-150 : ℤ) →
      |w - c * A| ≤ |c * A| * (12 / 2 ^ 24) + 2 ^ (-120 : ℤ) := by
    intro w a A h1 h2
    have h3 : |c * a - c * A| ≤ |c * A| * (10 / 2 ^ 24) + 2 ^ 28 * 2 ^ (-150 : ℤ) := by
      rw [← mul_sub, abs_mul, abs_mul, abs_of_pos c0]
      have := mul_le_mul_of_nonneg_left h2 c0.le
      have := mul_le_mul_of_nonneg_right hc (show (0 : ℚ) ≤ 2 ^ (-150 : ℤ) by positivity)
      linarith
    have h4 : |c * a| - |c * A| ≤ |c * a - c * A| := abs_sub_abs_le_abs_sub _ _
    have h5 : |w - c * A| ≤ |w - c * a| + |c * a - c * A| := abs_sub_le _ _ _
    have := abs_nonneg (c * A)
    generalize |c * A| = cA at *
    generalize |c * a| = ca at *
    norm_num at h1 h3 h4 h5 ⊢; linarith
  exact ⟨⟨f, u⟩, c, c0, hc, fin s1 hx, fin s2 hy, fin s3 hz⟩

/-! ### Matrices that scale -/

/-- A row with one entry. -/
theorem row_first {a b c : F32} {p : V3 F32} (ha : a.Finite) (hb : Zr b) (hc : Zr c) (hp : Fin3 p)
    (h : |a.val * p.x.val| ≤ 2 ^ (60 : ℤ)) : (row3 a b c p).Finite ∧ (row3 a b c p).val = rnd32 (a.val * p.x.val) := by
  have h3 := lt_of_le_of_lt (rnd32_abs_le (by norm_num) h) (pow_lt128 (by norm_num))
  exact add_zero_right (add_zero_right (mul_finite ha hp.1 h3) (zero_mul hb hp.2.1) (rnd32_rnd32 _) h3) (zero_mul hc hp.2.2)
    (rnd32_rnd32 _) h3

theorem row_second {a b c : F32} {p : V3 F32} (ha : Zr a) (hb : b.Finite) (hc : Zr c) (hp : Fin3 p)
    (h : |b.val * p.y.val| ≤ 2 ^ (60 : ℤ)) : (row3 a b c p).Finite ∧ (row3 a b c p).val = rnd32 (b.val * p.y.val) := by
  have h3 := lt_of_le_of_lt (rnd32_abs_le (by norm_num) h) (pow_lt128 (by norm_num))
  exact add_zero_right (add_zero_left (zero_mul ha hp.1) (mul_finite hb hp.2.1 h3) (rnd32_rnd32 _) h3) (zero_mul hc hp.2.2)
    (rnd32_rnd32 _) h3

theorem row_third {a b c : F32} {p : V3 F32} (ha : Zr a) (hb : Zr b) (hc : c.Finite) (hp : Fin3 p)
    (h : |c.val * p.z.val| ≤ 2 ^ (60 : ℤ)) : (row3 a b c p).Finite ∧ (row3 a b c p).val = rnd32 (c.val * p.z.val) := by
  have h3 := lt_of_le_of_lt (rnd32_abs_le (by norm_num) h) (pow_lt128 (by norm_num))
  exact add_zero_left (zero_add (zero_mul ha hp.1) (zero_mul hb hp.2.1)) (mul_finite hc hp.2.2 h3) (rnd32_rnd32 _) h3

/-- The image under a matrix that scales is the product of each member, rounded. -/
theorem mulVec_scaled {a : M4 F32} {p : V3 F32} (f0 : a.m00.Finite) (f1 : a.m11.Finite) (f2 : a.m22.Finite)
    (z : Zr a.m01 ∧ Zr a.m02 ∧ Zr a.m10 ∧ Zr a.m12 ∧ Zr a.m20 ∧ Zr a.m21) (hp : Fin3 p)
    (b0 : |a.m00.val * p.x.val| ≤ 2 ^ (60 : ℤ)) (b1 : |a.m11.val * p.y.val| ≤ 2 ^ (60 : ℤ))
    (b2 : |a.m22.val * p.z.val| ≤ 2 ^ (60 : ℤ)) :
    FiniteVec (mulVec a p) ∧ (mulVec a p).x.val = rnd32 (a.m00.val * p.x.val) ∧
      (mulVec a p).y.val = rnd32 (a.m11.val * p.y.val) ∧ (mulVec a p).z.val = rnd32 (a.m22.val * p.z.val) := by
  obtain ⟨z01, z02, z10, z12, z20, z21⟩ := z
  obtain ⟨x1, x2⟩ := row_first f0 z01 z02 hp b0
  obtain ⟨y1, y2⟩ := row_second z10 f1 z12 hp b1
  obtain ⟨w1, w2⟩ := row_third z20 z21 f2 hp b2
  exact ⟨⟨⟨add_ok _ _, x1⟩, ⟨add_ok _ _, y1⟩, ⟨add_ok _ _, w1⟩⟩, x2, y2, w2⟩

/-- For a matrix that scales, the transposed one maps vectors in the same way. -/
theorem normal_scaled {a : M4 F32} {p : V3 F32} (f0 : a.m00.Finite) (f1 : a.m11.Finite) (f2 : a.m22.Finite)
    (z : Zr a.m01 ∧ Zr a.m02 ∧ Zr a.m10 ∧ Zr a.m12 ∧ Zr a.m20 ∧ Zr a.m21) (hp : Fin3 p)
    (b0 : |a.m00.val * p.x.val| ≤ 2 ^ (60 : ℤ)) (b1 : |a.m11.val * p.y.val| ≤ 2 ^ (60 : ℤ))
    (b2 : |a.m22.val * p.z.val| ≤ 2 ^ (60 : ℤ)) :
    FiniteVec (transformNormal p a) ∧ (transformNormal p a).x.val = rnd32 (a.m00.val * p.x.val) ∧
      (transformNormal p a).y.val = rnd32 (a.m11.val * p.y.val) ∧ (transformNormal p a).z.val = rnd32 (a.m22.val * p.z.val) := by
  obtain ⟨z01, z02, z10, z12, z20, z21⟩ := z
  obtain ⟨x1, x2⟩ := row_first f0 z10 z20 hp b0
  obtain ⟨y1, y2⟩ := row_second z01 f1 z21 hp b1
  obtain ⟨w1, w2⟩ := row_third z02 z12 f2 hp b2
  exact ⟨⟨⟨add_ok _ _, x1⟩, ⟨add_ok _ _, y1⟩, ⟨add_ok _ _, w1⟩⟩, x2, y2, w2⟩

theorem rnd_near (q : ℚ) : |rnd32 q - q| ≤ |q| * (10 / 2 ^ 24) + 2 ^ (-150 : ℤ) := by
  have h := rnd32_err' q
  have := abs_nonneg q
  norm_num at h ⊢; linarith

/-- The inverse entry times a member. -/
theorem inv_near {x : F32} {s a : ℚ} (h : Rs x (1 / s) (8 / 2 ^ 24)) :
    |rnd32 (x.val * a) - a / s| ≤ |a / s| * (10 / 2 ^ 24) + 2 ^ (-150 : ℤ) := by
  have h1 := rnd32_err' (x.val * a)
  have h2 : |x.val * a - a / s| ≤ |a / s| * (8 / 2 ^ 24) := by
    have e : x.val * a - a / s = (x.val - 1 / s) * a := by ring
    have e2 : |a / s| = |1 / s| * |a| := by rw [← abs_mul]; congr 1; ring
    rw [e, e2, abs_mul]
    have := mul_le_mul_of_nonneg_right h.2 (abs_nonneg a)
    linarith
  have h3 : |x.val * a| - |a / s| ≤ |x.val * a - a / s| := abs_sub_abs_le_abs_sub _ _
  have h4 : |rnd32 (x.val * a) - a / s| ≤ |rnd32 (x.val * a) - x.val * a| + |x.val * a - a / s| := abs_sub_le _ _ _
  have := abs_nonneg (a / s)
  norm_num at h1 h2 h3 h4 ⊢; linarith

theorem inv_small {x : F32} {s a : ℚ} (h : Rs x (1 / s) (8 / 2 ^ 24)) (hs : 2 ^ (-20 : ℤ) ≤ |s|) (ha : |a| ≤ 2 ^ (30 : ℤ)) :
    |x.val * a| ≤ 2 ^ (60 : ℤ) ∧ |a / s| ≤ 2 ^ 55 := by
  have p : 0 < |s| := lt_of_lt_of_le (two_zpow_pos _) hs
  have h1 : |1 / s| ≤ 2 ^ 20 := by
    rw [abs_div, abs_one, div_le_iff₀ p]
    have := mul_le_mul_of_nonneg_left hs (show (0 : ℚ) ≤ 2 ^ 20 by norm_num)
    norm_num at this ⊢; linarith
  have h2 : |x.val| ≤ 2 ^ 21 := by
    have : |x.val| - |1 / s| ≤ |x.val - 1 / s| := abs_sub_abs_le_abs_sub _ _
    have := h.2
    norm_num at *; linarith
  constructor
  · rw [abs_mul]
    exact (mul_le_mul h2 ha (abs_nonneg _) (by norm_num)).trans (by norm_num)
  · have e : |a / s| = |1 / s| * |a| := by rw [← abs_mul]; congr 1; ring
    rw [e]
    exact (mul_le_mul h1 ha (abs_nonneg _) (by norm_num)).trans (by norm_num)

theorem sq_ge {s a : ℚ} {k : ℚ} (hk : 0 ≤ k) (hs : k ≤ |s|) : k ^ 2 * a ^ 2 ≤ (s * a) ^ 2 := by
  rw [mul_pow, ← sq_abs s]
  exact mul_le_mul_of_nonneg_right (pow_le_pow_left₀ hk hs 2) (sq_nonneg a)

theorem inv_ge {s : ℚ} (hs : 2 ^ (-20 : ℤ) ≤ |s|) (h : |s| ≤ 2 ^ (25 : ℤ)) : 2 ^ (-25 : ℤ) ≤ |1 / s| := by
  have p : 0 < |s| := lt_of_lt_of_le (two_zpow_pos _) hs
  rw [abs_div, abs_one, le_div_iff₀ p]
  have := mul_le_mul_of_nonneg_left h (show (0 : ℚ) ≤ 2 ^ (-25 : ℤ) by positivity)
  norm_num at this ⊢; linarith

/-- **C174, tangents.**  The tangents of a hit on a scaled object are numbers, of length one, and point where the exact
images of the tangents point. -/
theorem C174_tangent {m : M4 F32} (he : Entries 25 m) (hs : FPlace.Scaled m) {t : V3 F32} (ht : Upto3 30 t)
    (hl : 2 ^ (-10 : ℤ) ≤ exactLen2 t) :
    Unit3 (normalize (mulVec m t)) ∧ ∃ c, 0 < c ∧ c ≤ 2 ^ 28 ∧
      Along c (m.m00.val * t.x.val) (m.m11.val * t.y.val) (m.m22.val * t.z.val) (normalize (mulVec m t)) := by
  obtain ⟨⟨a00, -, -, -⟩, ⟨-, a11, -, -⟩, -, -, a22, -⟩ := he
  obtain ⟨z, ⟨d0, d1, d2⟩, -⟩ := hs
  have b : ∀ {x y : F32}, Upto 25 x → Upto 30 y → |x.val * y.val| ≤ 2 ^ 55 := fun hx hy => by
    rw [abs_mul]
    exact (mul_le_mul hx.2 hy.2 (abs_nonneg _) (by positivity)).trans (by norm_num)
  have b0 := b a00 ht.1
  have b1 := b a11 ht.2.1
  have b2 := b a22 ht.2.2
  obtain ⟨f, x, y, w⟩ := mulVec_scaled a00.1 a11.1 a22.1 z ht.fin (b0.trans (by norm_num)) (b1.trans (by norm_num))
    (b2.trans (by norm_num))
  refine norm_core f (by rw [x]; exact rnd_near _) (by rw [y]; exact rnd_near _) (by rw [w]; exact rnd_near _) b0 b1 b2 ?_
  have s0 := sq_ge (a := t.x.val) (by positivity) d0
  have s1 := sq_ge (a := t.y.val) (by positivity) d1
  have s2 := sq_ge (a := t.z.val) (by positivity) d2
  unfold exactLen2 at hl
  norm_num at s0 s1 s2 hl ⊢; linarith

/-- **C174, normals.**  The normal of a hit on a scaled object is made of numbers, of length one, and points where the exact
image of the normal points. -/
theorem C174_normal {m i : M4 F32} (hm : LastRow m) (he : Entries 25 m) (hs : FPlace.Scaled m) (hi : inverse m = some i)
    {n : V3 F32} (hn : Upto3 10 n) (hl : 1 / 2 ≤ exactLen2 n) :
    Unit3 (normalize (transformNormal n i)) ∧ ∃ c, 0 < c ∧ c ≤ 2 ^ 28 ∧
      Along c (n.x.val / m.m00.val) (n.y.val / m.m11.val) (n.z.val / m.m22.val) (normalize (transformNormal n i)) := by
  obtain ⟨i0, i1, i2, -, -, -, -, z⟩ := C168_scaled_inverse_partial hm he hs hi
  obtain ⟨⟨a00, -, -, -⟩, ⟨-, a11, -, -⟩, -, -, a22, -⟩ := he
  obtain ⟨-, ⟨d0, d1, d2⟩, -⟩ := hs
  obtain ⟨b0, c0⟩ := inv_small i0 d0 (upto_mono (by norm_num) hn.1 : Upto 30 n.x).2
  obtain ⟨b1, c1⟩ := inv_small i1 d1 (upto_mono (by norm_num) hn.2.1 : Upto 30 n.y).2
  obtain ⟨b2, c2⟩ := inv_small i2 d2 (upto_mono (by norm_num) hn.2.2 : Upto 30 n.z).2
  obtain ⟨f, x, y, w⟩ := normal_scaled i0.1 i1.1 i2.1 z hn.fin b0 b1 b2
  refine norm_core f (by rw [x]; exact inv_near i0) (by rw [y]; exact inv_near i1) (by rw [w]; exact inv_near i2) c0 c1 c2 ?_
  have s0 := sq_ge (a := n.x.val) (by positivity) (inv_ge d0 a00.2)
  have s1 := sq_ge (a := n.y.val) (by positivity) (inv_ge d1 a11.2)
  have s2 := sq_ge (a := n.z.val) (by positivity) (inv_ge d2 a22.2)
  rw [one_div_mul_eq_div] at s0 s1 s2
  unfold exactLen2 at hl
  norm_num at s0 s1 s2 hl ⊢; linarith

/-! ### Angles -/

/-- The product of two approximations. -/
theorem prod_near {N A T B : ℚ} (hN : |N - A| ≤ |A| * (12 / 2 ^ 24) + 2 ^ (-120 : ℤ))
    (hT : |T - B| ≤ |B| * (12 / 2 ^ 24) + 2 ^ (-120 : ℤ)) (bN : |N| ≤ 2) (bT : |T| ≤ 2) :
    |N * T - A * B| ≤ (N ^ 2 + T ^ 2) * (13 / 2 ^ 24) + 2 ^ (-100 : ℤ) := by
  have hA : |A| - |N| ≤ |N - A| := by rw [abs_sub_comm]; exact abs_sub_abs_le_abs_sub A N
  have hB : |B| - |T| ≤ |T - B| := by rw [abs_sub_comm]; exact abs_sub_abs_le_abs_sub B T
  have pA := abs_nonneg A
  have pB := abs_nonneg B
  have pN := abs_nonneg N
  have pT := abs_nonneg T
  have A1 : |A| ≤ |N| * (1 + 1 / 1000) + 2 ^ (-119 : ℤ) := by norm_num at hN hA ⊢; linarith
  have B1 : |B| ≤ |T| * (1 + 1 / 1000) + 2 ^ (-119 : ℤ) := by norm_num at hT hB ⊢; linarith
  have e : N * T - A * B = (N - A) * T + A * (T - B) := by ring
  have h1 : |N * T - A * B| ≤ |N - A| * |T| + |A| * |T - B| := by
    rw [e, ← abs_mul, ← abs_mul]; exact abs_add_le _ _
  have h2 : |N - A| ≤ |N| * (1003 / 1000 * (12 / 2 ^ 24)) + 2 ^ (-118 : ℤ) := by norm_num at hN A1 ⊢; linarith
  have h3 : |T - B| ≤ |T| * (1003 / 1000 * (12 / 2 ^ 24)) + 2 ^ (-118 : ℤ) := by norm_num at hT B1 ⊢; linarith
  have h4 := mul_le_mul_of_nonneg_right h2 pT
  have h5 := mul_le_mul A1 h3 (abs_nonneg _) (by positivity)
  have h6 : |N| * |T| ≤ (N ^ 2 + T ^ 2) / 2 := by
    have := sq_nonneg (|N| - |T|)
    rw [← sq_abs N, ← sq_abs T]; linarith
  have q := mul_nonneg pN pT
  have s : 0 ≤ N ^ 2 + T ^ 2 := by positivity
  generalize hd : (2 : ℚ) ^ (-118 : ℤ) = d at h2 h3 h4 h5
  have hd' : (2 : ℚ) ^ (-119 : ℤ) = d / 2 := by rw [← hd]; norm_num
  have hd'' : (2 : ℚ) ^ (-100 : ℤ) = 2 ^ 18 * d := by rw [← hd]; norm_num
  have d0 : 0 < d := by rw [← hd]; positivity
  have d1 : d ≤ 1 := by rw [← hd]; norm_num
  rw [hd'] at h5
  rw [hd'']
  have m1 := mul_le_mul_of_nonneg_right bT d0.le
  have m2 := mul_le_mul_of_nonneg_right bN d0.le
  have m3 := mul_le_mul_of_nonneg_right d1 d0.le
  nlinarith

theorem le_two {v : V3 F32} (h : Unit3 v) : |v.x.val| ≤ 2 ∧ |v.y.val| ≤ 2 ∧ |v.z.val| ≤ 2 := by
  have := (abs_le.1 h.2).2
  exact within_of_len2 (by norm_num) (by linarith)

theorem inner_near {N T : V3 F32} {c c' X Y Z X' Y' Z' : ℚ} (hN : Unit3 N) (hT : Unit3 T) (aN : Along c X Y Z N)
    (aT : Along c' X' Y' Z' T) : |inner N T - c * c' * (X * X' + Y * Y' + Z * Z')| ≤ 2 ^ (-19 : ℤ) := by
  obtain ⟨n1, n2, n3⟩ := le_two hN
  obtain ⟨t1, t2, t3⟩ := le_two hT
  have p1 := prod_near aN.1 aT.1 n1 t1
  have p2 := prod_near aN.2.1 aT.2.1 n2 t2
  have p3 := prod_near aN.2.2 aT.2.2 n3 t3
  have uN := (abs_le.1 hN.2).2
  have uT := (abs_le.1 hT.2).2
  unfold exactLen2 at uN uT
  have e : inner N T - c * c' * (X * X' + Y * Y' + Z * Z') = (N.x.val * T.x.val - c * X * (c' * X')) +
      (N.y.val * T.y.val - c * Y * (c' * Y')) + (N.z.val * T.z.val - c * Z * (c' * Z')) := by
    unfold inner; ring
  rw [e]
  refine (abs_add_le _ _).trans ((add_le_add (abs_add_le _ _) le_rfl).trans ?_)
  norm_num at p1 p2 p3 uN uT ⊢; linarith

/-- **C174, angles.**  The inner product of the normal and a tangent of a hit on a scaled object is a positive multiple of the
one in object space, up to `2^-19`: what was at right angles stays at right angles. -/
theorem C174_angle {m i : M4 F32} (hm : LastRow m) (he : Entries 25 m) (hs : FPlace.Scaled m) (hi : inverse m = some i)
    {n t : V3 F32} (hn : Upto3 10 n) (hl : 1 / 2 ≤ exactLen2 n) (ht : Upto3 30 t) (hl' : 2 ^ (-10 : ℤ) ≤ exactLen2 t) :
    ∃ c, 0 < c ∧ |inner (normalize (transformNormal n i)) (normalize (mulVec m t)) - c * inner n t| ≤ 2 ^ (-19 : ℤ) := by
  obtain ⟨uN, c, c0, -, aN⟩ := C174_normal hm he hs hi hn hl
  obtain ⟨uT, c', c0', -, aT⟩ := C174_tangent he hs ht hl'
  refine ⟨c * c', mul_pos c0 c0', ?_⟩
  have h := inner_near uN uT aN aT
  obtain ⟨-, ⟨d0, d1, d2⟩, -⟩ := hs
  have pos : ∀ {x : ℚ}, 2 ^ (-20 : ℤ) ≤ |x| → x ≠ 0 := fun h => abs_pos.1 (lt_of_lt_of_le (two_zpow_pos _) h)
  have n0 := pos d0
  have n1 := pos d1
  have n2 := pos d2
  have e : n.x.val / m.m00.val * (m.m00.val * t.x.val) + n.y.val / m.m11.val * (m.m11.val * t.y.val) +
      n.z.val / m.m22.val * (m.m22.val * t.z.val) = inner n t := by
    unfold inner; field_simp
  rw [e] at h
  exact h

/-- One summand of the next theorem. -/
theorem side_near {N c X n d e s : ℚ} (c0 : 0 < c) (hc : c ≤ 2 ^ 28) (hX : X = n / s)
    (hN : |N - c * X| ≤ |c * X| * (12 / 2 ^ 24) + 2 ^ (-120 : ℤ))
    (hd : |e - d / s| ≤ |d / s| * (10 / 2 ^ 24) + 2 ^ (-150 : ℤ)) (bn : |n| ≤ 2 ^ 10) (bd : |d| ≤ 2) :
    |N * d - c * (n * e)| ≤ (N ^ 2 + d ^ 2) * (12 / 2 ^ 24) + 2 ^ (-100 : ℤ) := by
  have e1 : N * d - c * (n * e) = (N - c * X) * d + -(c * n * (e - d / s)) := by rw [hX]; ring
  have h1 : |N * d - c * (n * e)| ≤ |N - c * X| * |d| + c * |n| * |e - d / s| := by
    rw [e1]
    refine (abs_add_le _ _).trans ?_
    rw [abs_neg, abs_mul, abs_mul, abs_mul, abs_of_pos c0]
  have e2 : c * |n| * |d / s| = |c * X| * |d| := by
    rw [hX, abs_mul, abs_div, abs_div, abs_of_pos c0]; ring
  have h2 := mul_le_mul_of_nonneg_right hN (abs_nonneg d)
  have h3 := mul_le_mul_of_nonneg_left hd (show 0 ≤ c * |n| by positivity)
  have h4 : c * |n| ≤ 2 ^ 38 := (mul_le_mul hc bn (abs_nonneg _) (by norm_num)).trans (by norm_num)
  have h5 := mul_le_mul_of_nonneg_right h4 (show (0 : ℚ) ≤ 2 ^ (-150 : ℤ) by positivity)
  have hA : |c * X| - |N| ≤ |N - c * X| := by rw [abs_sub_comm]; exact abs_sub_abs_le_abs_sub _ N
  have A1 : |c * X| ≤ |N| * (1 + 1 / 1000) + 2 ^ (-119 : ℤ) := by
    have := abs_nonneg N
    have := abs_nonneg (c * X)
    norm_num at hN hA ⊢; linarith
  have A2 := mul_le_mul_of_nonneg_right A1 (abs_nonneg d)
  have h6 : |N| * |d| ≤ (N ^ 2 + d ^ 2) / 2 := by
    have := sq_nonneg (|N| - |d|)
    rw [← sq_abs N, ← sq_abs d]; linarith
  have h7 : c * |n| * (|d / s| * (10 / 2 ^ 24) + 2 ^ (-150 : ℤ)) =
      |c * X| * |d| * (10 / 2 ^ 24) + c * |n| * 2 ^ (-150 : ℤ) := by rw [← e2]; ring
  rw [h7] at h3
  have p := mul_nonneg (abs_nonneg (c * X)) (abs_nonneg d)
  have q := sq_nonneg N
  have q' := sq_nonneg d
  norm_num at h1 h2 h3 h5 A2 h6 ⊢
  linarith

/-- **C174, sides.**  The side of the surface on which a ray arrives is the same in object space and in world space: the inner
products of direction and normal differ by a positive factor, up to `2^-19`. -/
theorem C174_side {m i : M4 F32} (hm : LastRow m) (he : Entries 25 m) (hs : FPlace.Scaled m) (hi : inverse m = some i)
    {n d : V3 F32} (o : V3 F32) (hn : Upto3 10 n) (hl : 1 / 2 ≤ exactLen2 n) (hd : Upto3 1 d) (hl' : exactLen2 d ≤ 3 / 2) :
    ∃ c, 0 < c ∧ |inner (normalize (transformNormal n i)) d - c * inner n (objectRay i o d).2| ≤ 2 ^ (-19 : ℤ) := by
  obtain ⟨uN, c, c0, hc, aN⟩ := C174_normal hm he hs hi hn hl
  obtain ⟨i0, i1, i2, -, -, -, -, z⟩ := C168_scaled_inverse_partial hm he hs hi
  obtain ⟨-, ⟨d0, d1, d2⟩, -⟩ := hs
  obtain ⟨b0, -⟩ := inv_small i0 d0 (upto_mono (by norm_num) hd.1 : Upto 30 d.x).2
  obtain ⟨b1, -⟩ := inv_small i1 d1 (upto_mono (by norm_num) hd.2.1 : Upto 30 d.y).2
  obtain ⟨b2, -⟩ := inv_small i2 d2 (upto_mono (by norm_num) hd.2.2 : Upto 30 d.z).2
  obtain ⟨-, x, y, w⟩ := mulVec_scaled i0.1 i1.1 i2.1 z hd.fin b0 b1 b2
  have ten : ∀ {k : F32}, Upto 10 k → |k.val| ≤ 2 ^ 10 := fun h => h.2.trans (by norm_num)
  have two : ∀ {k : F32}, Upto 1 k → |k.val| ≤ 2 := fun h => h.2.trans (by norm_num)
  have p1 := side_near c0 hc rfl aN.1 (by rw [x]; exact inv_near i0 : |(mulVec i d).x.val - d.x.val / m.m00.val| ≤ _) (ten hn.1)
    (two hd.1)
  have p2 := side_near c0 hc rfl aN.2.1 (by rw [y]; exact inv_near i1 : |(mulVec i d).y.val - d.y.val / m.m11.val| ≤ _)
    (ten hn.2.1) (two hd.2.1)
  have p3 := side_near c0 hc rfl aN.2.2 (by rw [w]; exact inv_near i2 : |(mulVec i d).z.val - d.z.val / m.m22.val| ≤ _)
    (ten hn.2.2) (two hd.2.2)
  refine ⟨c, c0, ?_⟩
  have uN' := (abs_le.1 uN.2).2
  unfold exactLen2 at uN' hl'
  have e : inner (normalize (transformNormal n i)) d - c * inner n (objectRay i o d).2 =
      ((normalize (transformNormal n i)).x.val * d.x.val - c * (n.x.val * (mulVec i d).x.val)) +
      ((normalize (transformNormal n i)).y.val * d.y.val - c * (n.y.val * (mulVec i d).y.val)) +
      ((normalize (transformNormal n i)).z.val * d.z.val - c * (n.z.val * (mulVec i d).z.val)) := by
    unfold inner objectRay; ring
  rw [e]
  refine (abs_add_le _ _).trans ((add_le_add (abs_add_le _ _) le_rfl).trans ?_)
  norm_num at p1 p2 p3 uN' hl' ⊢; linarith

/-! ### Any placement -/

/-- The exact image in one row, and the sum of the sizes of its terms. -/
def rowE (a b c : F32) (p : V3 F32) : ℚ := a.val * p.x.val + b.val * p.y.val + c.val * p.z.val

def rowS (a b c : F32) (p : V3 F32) : ℚ := |a.val * p.x.val| + |b.val * p.y.val| + |c.val * p.z.val|

theorem row3_near {a b c : F32} {p : V3 F32} {i j : ℤ} (ha : Upto i a) (hb : Upto i b) (hc : Upto i c) (hp : Upto3 j p)
    (h1 : -149 ≤ i + j) (h2 : i + j ≤ 58) :
    (row3 a b c p).Finite ∧ |(row3 a b c p).val| ≤ 2 ^ (63 : ℤ) ∧
      |(row3 a b c p).val - rowE a b c p| ≤ rowS a b c p * (5 / 2 ^ 24) + 2 ^ (-147 : ℤ) := by
  obtain ⟨px, py, pz⟩ := hp
  obtain ⟨m1, v1⟩ := upto_mul ha px h1 (by omega)
  obtain ⟨m2, v2⟩ := upto_mul hb py h1 (by omega)
  obtain ⟨m3, v3⟩ := upto_mul hc pz h1 (by omega)
  obtain ⟨s1, w1⟩ := upto_add m1 m2 (by omega) (by omega)
  obtain ⟨s2, w2⟩ := upto_add s1 (upto_mono (by omega) m3) (by omega) (by omega)
  refine ⟨s2.1, s2.2.trans (zpow_le_zpow_right₀ (by norm_num) (by omega)), ?_⟩
  have e : (row3 a b c p).val = rowQ (a.val * p.x.val) (b.val * p.y.val) (c.val * p.z.val) 0 := by
    unfold row3 rowQ
    rw [w2, w1, v1, v2, v3, add_zero, rnd32_rnd32]
  have h := rowQ_err (a.val * p.x.val) (b.val * p.y.val) (c.val * p.z.val) 0
  rw [abs_zero, add_zero, add_zero] at h
  rw [e]
  exact h

/-- The factor of the normalisation times the length. -/
theorem factor {w a c : ℚ} (h : |w - c * a| ≤ |c * a| / 2 ^ 24 + 2 ^ (-150 : ℤ)) : c ^ 2 * a ^ 2 ≤ 2 * w ^ 2 + 1 := by
  have h1 : |c * a| - |w| ≤ |w - c * a| := by rw [abs_sub_comm]; exact abs_sub_abs_le_abs_sub _ _
  have h2 : |c * a| * (99 / 100) ≤ |w| + 1 / 10 := by
    have := abs_nonneg (c * a)
    generalize |c * a| = ca at *
    norm_num at h ⊢; linarith
  have h3 := pow_le_pow_left₀ (by positivity) h2 2
  have h4 : (|w| + 1 / 10) ^ 2 ≤ (11 / 10) * |w| ^ 2 + 1 / 4 := by nlinarith [sq_nonneg (|w| - 1)]
  rw [mul_pow, sq_abs, mul_pow] at h3
  rw [sq_abs] at h4
  have := sq_nonneg w
  norm_num at h3 h4 ⊢
  linarith

/-- Within `2^-15` of `c` times the exact vector. -/
def Toward (c X Y Z : ℚ) (v : V3 F32) : Prop :=
  |v.x.val - c * X| ≤ 2 ^ (-15 : ℤ) ∧ |v.y.val - c * Y| ≤ 2 ^ (-15 : ℤ) ∧ |v.z.val - c * Z| ≤ 2 ^ (-15 : ℤ)

/-- Normalising a vector each member of which has an error of a few half units of `S`, which is not more than eight times
the exact length. -/
theorem norm_any {v : V3 F32} {X Y Z S : ℚ} (hv : FiniteVec v) (hw : Within (2 ^ (63 : ℤ)) v)
    (hx : |v.x.val - X| ≤ S * (6 / 2 ^ 24)) (hy : |v.y.val - Y| ≤ S * (6 / 2 ^ 24)) (hz : |v.z.val - Z| ≤ S * (6 / 2 ^ 24))
    (hS : 2 ^ (-50 : ℤ) ≤ S) (hl : S ^ 2 ≤ 2 ^ 6 * (X ^ 2 + Y ^ 2 + Z ^ 2)) :
    Unit3 (normalize v) ∧ ∃ c, 0 < c ∧ Toward c X Y Z (normalize v) := by
  have S0 : 0 < S := lt_of_lt_of_le (two_zpow_pos _) hS
  have sq : ∀ {x X : ℚ}, |x - X| ≤ S * (6 / 2 ^ 24) → X ^ 2 ≤ 2 * x ^ 2 + S ^ 2 / 2 ^ 40 := by
    intro x X h
    have h1 := pow_le_pow_left₀ (abs_nonneg _) h 2
    rw [sq_abs] at h1
    have h2 : X ^ 2 ≤ 2 * x ^ 2 + 2 * (x - X) ^ 2 := by nlinarith [sq_nonneg (2 * x - X)]
    have := sq_nonneg S
    rw [mul_pow] at h1
    norm_num at h1 ⊢; linarith
  have q1 := sq hx
  have q2 := sq hy
  have q3 := sq hz
  have hL : S ^ 2 / 2 ^ 8 ≤ exactLen2 v := by
    unfold exactLen2
    have := sq_nonneg S
    norm_num at q1 q2 q3 hl ⊢; linarith
  have hS2 : 2 ^ (-100 : ℤ) ≤ S ^ 2 := by
    have := pow_le_pow_left₀ (two_zpow_pos _).le hS 2
    norm_num at this ⊢; linarith
  obtain ⟨f, u, c, c0, s1, s2, s3⟩ := C156_unit_partial v hv hw (by norm_num at hS2 hL ⊢; linarith)
  have u2 := (abs_le.1 u).2
  have e : c ^ 2 * exactLen2 v ≤ 8 := by
    have p1 := factor s1
    have p2 := factor s2
    have p3 := factor s3
    have : c ^ 2 * exactLen2 v = c ^ 2 * v.x.val ^ 2 + c ^ 2 * v.y.val ^ 2 + c ^ 2 * v.z.val ^ 2 := by unfold exactLen2; ring
    unfold exactLen2 at u2
    rw [this]; linarith
  have cS : c * S ≤ 46 := by
    have e2 := le_trans (mul_le_mul_of_nonneg_left hL (sq_nonneg c)) e
    refine le_of_sq_le_sq ?_ (by norm_num)
    rw [mul_pow]; norm_num at e2 ⊢; linarith
  have le3 : ∀ {a : ℚ}, a ^ 2 ≤ exactLen2 v → |c * a| ≤ 3 := by
    intro a ha
    refine abs_le_of_sq_le_sq ?_ (by norm_num)
    have := mul_le_mul_of_nonneg_left ha (sq_nonneg c)
    rw [mul_pow]; linarith
  have fin : ∀ {w a A : ℚ}, |w - c * a| ≤ |c * a| / 2 ^ 24 + 2 ^ (-150 : ℤ) → |a - A| ≤ S * (6 / 2 ^ 24) → a ^ 2 ≤ exactLen2 v →
      |w - c * A| ≤ 2 ^ (-15 : ℤ) := by
    intro w a A h1 h2 h3
    have h4 : |c * a - c * A| ≤ c * S * (6 / 2 ^ 24) := by
      rw [← mul_sub, abs_mul, abs_of_pos c0, mul_assoc]
      exact mul_le_mul_of_nonneg_left h2 c0.le
    have h5 : |w - c * A| ≤ |w - c * a| + |c * a - c * A| := abs_sub_le _ _ _
    have h6 := le3 h3
    generalize |c * a| = ca at *
    norm_num at h1 h4 h5 ⊢; linarith
  have x2 := sq_nonneg v.x.val
  have y2 := sq_nonneg v.y.val
  have z2 := sq_nonneg v.z.val
  exact ⟨⟨f, u⟩, c, c0, fin s1 hx (by unfold exactLen2; linarith), fin s2 hy (by unfold exactLen2; linarith),
    fin s3 hz (by unfold exactLen2; linarith)⟩

theorem rows_unit {a b c a' b' c' a'' b'' c'' : F32} {p : V3 F32} {i j : ℤ} {S : ℚ} (h : Upto i a ∧ Upto i b ∧ Upto i c)
    (h' : Upto i a' ∧ Upto i b' ∧ Upto i c') (h'' : Upto i a'' ∧ Upto i b'' ∧ Upto i c'') (hp : Upto3 j p) (h1 : -149 ≤ i + j)
    (h2 : i + j ≤ 58) (s : rowS a b c p ≤ S) (s' : rowS a' b' c' p ≤ S) (s'' : rowS a'' b'' c'' p ≤ S) (hS : 2 ^ (-50 : ℤ) ≤ S)
    (hl : S ^ 2 ≤ 2 ^ 6 * (rowE a b c p ^ 2 + rowE a' b' c' p ^ 2 + rowE a'' b'' c'' p ^ 2)) :
    Unit3 (normalize ⟨row3 a b c p, row3 a' b' c' p, row3 a'' b'' c'' p⟩) ∧ ∃ k, 0 < k ∧
      Toward k (rowE a b c p) (rowE a' b' c' p) (rowE a'' b'' c'' p)
        (normalize ⟨row3 a b c p, row3 a' b' c' p, row3 a'' b'' c'' p⟩) := by
  obtain ⟨f, w, e⟩ := row3_near h.1 h.2.1 h.2.2 hp h1 h2
  obtain ⟨f', w', e'⟩ := row3_near h'.1 h'.2.1 h'.2.2 hp h1 h2
  obtain ⟨f'', w'', e''⟩ := row3_near h''.1 h''.2.1 h''.2.2 hp h1 h2
  have t : ∀ {d r : ℚ}, d ≤ r * (5 / 2 ^ 24) + 2 ^ (-147 : ℤ) → r ≤ S → d ≤ S * (6 / 2 ^ 24) := by
    intro d r hd hr
    norm_num at hd hS ⊢; linarith
  exact norm_any ⟨⟨add_ok _ _, f⟩, ⟨add_ok _ _, f'⟩, ⟨add_ok _ _, f''⟩⟩ ⟨w, w', w''⟩ (t e s) (t e' s') (t e'' s'') hS hl

/-- **C174, tangents under any placement.**  If the terms of each row of the product are at most `S` together and `S` is not
more than eight times the exact length of the image (for a turned object it is less than twice that length), the tangent
is a unit vector within `2^-15` of where the exact image points. -/
theorem C174_tangent_turned {m : M4 F32} (he : Entries 25 m) {t : V3 F32} (ht : Upto3 30 t) {S : ℚ} (hS : 2 ^ (-50 : ℤ) ≤ S)
    (s0 : rowS m.m00 m.m01 m.m02 t ≤ S) (s1 : rowS m.m10 m.m11 m.m12 t ≤ S) (s2 : rowS m.m20 m.m21 m.m22 t ≤ S)
    (hl : S ^ 2 ≤ 2 ^ 6 * (rowE m.m00 m.m01 m.m02 t ^ 2 + rowE m.m10 m.m11 m.m12 t ^ 2 + rowE m.m20 m.m21 m.m22 t ^ 2)) :
    Unit3 (normalize (mulVec m t)) ∧ ∃ c, 0 < c ∧
      Toward c (rowE m.m00 m.m01 m.m02 t) (rowE m.m10 m.m11 m.m12 t) (rowE m.m20 m.m21 m.m22 t) (normalize (mulVec m t)) := by
  obtain ⟨⟨a0, a1, a2, -⟩, ⟨b0, b1, b2, -⟩, c0, c1, c2, -⟩ := he
  exact rows_unit ⟨a0, a1, a2⟩ ⟨b0, b1, b2⟩ ⟨c0, c1, c2⟩ ht (by norm_num) (by norm_num) s0 s1 s2 hS hl

/-- **C174, normals under any placement**, of the inverse as it was computed. -/
theorem C174_normal_turned {i : M4 F32} (he : Entries 40 i) {n : V3 F32} (hn : Upto3 10 n) {S : ℚ} (hS : 2 ^ (-50 : ℤ) ≤ S)
    (s0 : rowS i.m00 i.m10 i.m20 n ≤ S) (s1 : rowS i.m01 i.m11 i.m21 n ≤ S) (s2 : rowS i.m02 i.m12 i.m22 n ≤ S)
    (hl : S ^ 2 ≤ 2 ^ 6 * (rowE i.m00 i.m10 i.m20 n ^ 2 + rowE i.m01 i.m11 i.m21 n ^ 2 + rowE i.m02 i.m12 i.m22 n ^ 2)) :
    Unit3 (normalize (transformNormal n i)) ∧ ∃ c, 0 < c ∧
      Toward c (rowE i.m00 i.m10 i.m20 n) (rowE i.m01 i.m11 i.m21 n) (rowE i.m02 i.m12 i.m22 n)
        (normalize (transformNormal n i)) := by
  obtain ⟨⟨a0, a1, a2, -⟩, ⟨b0, b1, b2, -⟩, c0, c1, c2, -⟩ := he
  exact rows_unit ⟨a0, b0, c0⟩ ⟨a1, b1, c1⟩ ⟨a2, b2, c2⟩ hn (by norm_num) (by norm_num) s0 s1 s2 hS hl

/-- **C174, sides under any placement.**  The inner product of normal and direction in world space is a positive multiple of
the one of the normal and the exact direction in object space, up to `2^-12`. -/
theorem C174_side_turned {i : M4 F32} (he : Entries 40 i) {n d : V3 F32} (hn : Upto3 10 n) {S : ℚ}
    (hS : 2 ^ (-50 : ℤ) ≤ S)
    (s0 : rowS i.m00 i.m10 i.m20 n ≤ S) (s1 : rowS i.m01 i.m11 i.m21 n ≤ S) (s2 : rowS i.m02 i.m12 i.m22 n ≤ S)
    (hl : S ^ 2 ≤ 2 ^ 6 * (rowE i.m00 i.m10 i.m20 n ^ 2 + rowE i.m01 i.m11 i.m21 n ^ 2 + rowE i.m02 i.m12 i.m22 n ^ 2))
    (hd : Upto3 1 d) :
    ∃ c, 0 < c ∧ |inner (normalize (transformNormal n i)) d - c * (n.x.val * rowE i.m00 i.m01 i.m02 d +
      n.y.val * rowE i.m10 i.m11 i.m12 d + n.z.val * rowE i.m20 i.m21 i.m22 d)| ≤ 2 ^ (-12 : ℤ) := by
  obtain ⟨-, c, c0, t1, t2, t3⟩ := C174_normal_turned he hn hS s0 s1 s2 hl
  refine ⟨c, c0, ?_⟩
  generalize normalize (transformNormal n i) = N at *
  have e : inner N d - c * (n.x.val * rowE i.m00 i.m01 i.m02 d + n.y.val * rowE i.m10 i.m11 i.m12 d +
      n.z.val * rowE i.m20 i.m21 i.m22 d) =
      (N.x.val - c * rowE i.m00 i.m10 i.m20 n) * d.x.val + (N.y.val - c * rowE i.m01 i.m11 i.m21 n) * d.y.val +
        (N.z.val - c * rowE i.m02 i.m12 i.m22 n) * d.z.val := by
    unfold inner rowE; ring
  rw [e]
  have p : ∀ {a b : ℚ}, |a| ≤ 2 ^ (-15 : ℤ) → |b| ≤ 2 ^ (1 : ℤ) → |a * b| ≤ 2 ^ (-14 : ℤ) := fun ha hb => by
    rw [abs_mul]
    exact (mul_le_mul ha hb (abs_nonneg _) (by positivity)).trans_eq (by norm_num)
  have p1 := p t1 hd.1.2
  have p2 := p t2 hd.2.1.2
  have p3 := p t3 hd.2.2.2
  refine (abs_add_le _ _).trans ((add_le_add (abs_add_le _ _) le_rfl).trans ?_)
  norm_num at p1 p2 p3 ⊢; linarith

/-! ### Boxes -/

theorem framed_ready {H : FBox.Hit} (h : FBox.Framed H) : Upto3 10 H.normal ∧ exactLen2 H.normal = 1 ∧ Upto3 30 H.dpdu ∧
    exactLen2 H.dpdu = 1 ∧ inner H.normal H.dpdu = 0 := by
  obtain ⟨a, s, ha, hs, e, i, l, fx, fy, fz⟩ := h
  have l' : exactLen2 H.dpdu = 1 := l
  obtain ⟨wx, wy, wz⟩ := within_of_len2 (m := 1) (by norm_num) (by rw [l']; norm_num)
  refine ⟨?_, ?_, ⟨⟨fx, wx.trans (by norm_num)⟩, ⟨fy, wy.trans (by norm_num)⟩, ⟨fz, wz.trans (by norm_num)⟩⟩, l', i⟩
  · rw [e]
    interval_cases a <;> rcases hs with rfl | rfl <;> norm_num [FBox.axisNormal, zip, F32.val, F32.Finite, Upto3, Upto]
  · rw [e]
    interval_cases a <;> rcases hs with rfl | rfl <;> norm_num [FBox.axisNormal, zip, F32.val, exactLen2]

theorem asset_box {m i : M4 F32} {o d before : V3 F32} {D t : F32} {h : Hit}
    (hit : intersect m i (box before) o d D = some (t, h)) : ∃ H, FBox.intersect (mulPoint i o) (mulVec i d) D = some H ∧
      t = H.distance ∧ FBox.Framed H ∧ h = world m i ⟨H.point, H.normal, H.dpdu, before⟩ := by
  unfold intersect box at hit
  rw [Option.map_map, Option.map_eq_some_iff] at hit
  obtain ⟨H, h1, h2⟩ := hit
  simp only [Function.comp, Prod.mk.injEq] at h2
  exact ⟨H, h1, h2.1.symm, FBox.C173_frame h1, h2.2.symm⟩

/-- **C174, boxes.**  Of every ray, whatever its numbers are: a hit on a scaled box is where the ray in object space hits the
unit box, and has a normal and a first tangent of length one at right angles, which point where those of the unit box are
mapped to.  (The second tangent is missing: `C174_violated_box`.) -/
theorem C174_box_partial {m i : M4 F32} (hm : LastRow m) (he : Entries 25 m) (hs : FPlace.Scaled m) (hi : inverse m = some i)
    {o d before : V3 F32} {D t : F32} {h : Hit} (hit : intersect m i (box before) o d D = some (t, h)) :
    (∃ H, FBox.intersect (mulPoint i o) (mulVec i d) D = some H ∧ t = H.distance ∧
      (∃ c, 0 < c ∧ Along c (H.normal.x.val / m.m00.val) (H.normal.y.val / m.m11.val) (H.normal.z.val / m.m22.val) h.normal) ∧
      ∃ c, 0 < c ∧ Along c (m.m00.val * H.dpdu.x.val) (m.m11.val * H.dpdu.y.val) (m.m22.val * H.dpdu.z.val) h.dpdu) ∧
    Unit3 h.normal ∧ Unit3 h.dpdu ∧ |inner h.normal h.dpdu| ≤ 2 ^ (-19 : ℤ) := by
  obtain ⟨H, h1, h2, fr, rfl⟩ := asset_box hit
  obtain ⟨a, b, c, e, z⟩ := framed_ready fr
  obtain ⟨u, k, k0, -, al⟩ := C174_normal hm he hs hi a (by rw [b]; norm_num)
  obtain ⟨u', k', k0', -, al'⟩ := C174_tangent he hs c (by rw [e]; norm_num)
  refine ⟨⟨H, h1, h2, ⟨k, k0, al⟩, k', k0', al'⟩, u, u', ?_⟩
  obtain ⟨k, -, hk⟩ := C174_angle hm he hs hi a (by rw [b]; norm_num) c (by rw [e]; norm_num)
  rw [z, mul_zero, sub_zero] at hk
  exact hk

/-- What a shape other than the box reports: numbers of the right sizes. -/
def Sound (k : Hit) : Prop :=
  Upto3 30 k.point ∧ (Upto3 10 k.normal ∧ 1 / 2 ≤ exactLen2 k.normal) ∧
  (Upto3 30 k.dpdu ∧ 2 ^ (-10 : ℤ) ≤ exactLen2 k.dpdu) ∧ Upto3 30 k.dpdv ∧ 2 ^ (-10 : ℤ) ≤ exactLen2 k.dpdv

/-- The point is within five half units of the image under the scaled matrix. -/
def Moved (m : M4 F32) (p q : V3 F32) : Prop :=
  |q.x.val - (m.m00.val * p.x.val + m.m03.val)| ≤ (|m.m00.val * p.x.val| + |m.m03.val|) * (5 / 2 ^ 24) + 2 ^ (-147 : ℤ) ∧
  |q.y.val - (m.m11.val * p.y.val + m.m13.val)| ≤ (|m.m11.val * p.y.val| + |m.m13.val|) * (5 / 2 ^ 24) + 2 ^ (-147 : ℤ) ∧
  |q.z.val - (m.m22.val * p.z.val + m.m23.val)| ≤ (|m.m22.val * p.z.val| + |m.m23.val|) * (5 / 2 ^ 24) + 2 ^ (-147 : ℤ)

/-- **C174, any shape.**  A placed object is hit exactly where its shape reports a hit of the ray in object space, at the same
distance; the point is the image of that point, and the frame consists of three vectors of length one that point where
those of the shape are mapped to. -/
theorem C174_shape {m i : M4 F32} (hm : LastRow m) (he : Entries 25 m) (hs : FPlace.Scaled m) (hi : inverse m = some i)
    (shape : V3 F32 → V3 F32 → F32 → Option (F32 × Hit)) (o d : V3 F32) (D : F32)
    (hsh : ∀ t k, shape (mulPoint i o) (mulVec i d) D = some (t, k) → Sound k) :
    (intersect m i shape o d D = none ↔ shape (mulPoint i o) (mulVec i d) D = none) ∧
    ∀ t h, intersect m i shape o d D = some (t, h) → ∃ k, shape (mulPoint i o) (mulVec i d) D = some (t, k) ∧
      Moved m k.point h.point ∧ Unit3 h.normal ∧ Unit3 h.dpdu ∧ Unit3 h.dpdv ∧
      (∃ c, 0 < c ∧ Along c (k.normal.x.val / m.m00.val) (k.normal.y.val / m.m11.val) (k.normal.z.val / m.m22.val) h.normal) ∧
      (∃ c, 0 < c ∧ Along c (m.m00.val * k.dpdu.x.val) (m.m11.val * k.dpdu.y.val) (m.m22.val * k.dpdu.z.val) h.dpdu) ∧
      (∃ c, 0 < c ∧ Along c (m.m00.val * k.dpdv.x.val) (m.m11.val * k.dpdv.y.val) (m.m22.val * k.dpdv.z.val) h.dpdv) ∧
      (∃ c, 0 < c ∧ |inner h.normal h.dpdu - c * inner k.normal k.dpdu| ≤ 2 ^ (-19 : ℤ)) ∧
      ∃ c, 0 < c ∧ |inner h.normal h.dpdv - c * inner k.normal k.dpdv| ≤ 2 ^ (-19 : ℤ) := by
  unfold intersect objectRay
  refine ⟨Option.map_eq_none_iff, ?_⟩
  intro t h hit
  rw [Option.map_eq_some_iff] at hit
  obtain ⟨⟨t', k⟩, h1, h2⟩ := hit
  simp only [Prod.mk.injEq] at h2
  obtain ⟨rfl, rfl⟩ := h2
  obtain ⟨p, ⟨n1, n2⟩, ⟨u1, u2⟩, v1, v2⟩ := hsh _ _ h1
  obtain ⟨un, c, c0, -, an⟩ := C174_normal hm he hs hi n1 n2
  obtain ⟨uu, c', c0', -, au⟩ := C174_tangent he hs u1 u2
  obtain ⟨uv, c'', c0'', -, av⟩ := C174_tangent he hs v1 v2
  refine ⟨k, h1, ?_, un, uu, uv, ⟨c, c0, an⟩, ⟨c', c0', au⟩, ⟨c'', c0'', av⟩, C174_angle hm he hs hi n1 n2 u1 u2,
    C174_angle hm he hs hi n1 n2 v1 v2⟩
  obtain ⟨-, x, y, z⟩ := C168_accuracy hm he p (by norm_num) (by norm_num) (by norm_num)
  obtain ⟨⟨z01, z02, z10, z12, z20, z21⟩, -, -⟩ := hs
  simp only [z01.2, z02.2, z10.2, z12.2, z20.2, z21.2, MulZeroClass.zero_mul, abs_zero, add_zero, _root_.zero_add] at x y z
  exact ⟨x, y, z⟩

/-- **C174, full statement.**  All three vectors of the frame have length one. -/
def C174_statement : Prop :=
  ∀ (m i : M4 F32), LastRow m → Entries 25 m → FPlace.Scaled m → inverse m = some i →
    ∀ (o d : V3 F32) (D t : F32) (h : Hit), intersect m i (box origin3) o d D = some (t, h) →
      Unit3 h.normal ∧ Unit3 h.dpdu ∧ Unit3 h.dpdv

theorem zr_zero {x : F32} (h : x.Ok) (hz : Zr x) : ∃ s, x = zero s := by
  cases x with
  | nan => exact hz.1.elim
  | inf s => exact hz.1.elim
  | zero s => exact ⟨s, rfl⟩
  | num q => exact absurd hz.2 h.1

theorem normalize_zero {v : V3 F32} (hx : ∃ s, v.x = zero s) (hy : ∃ s, v.y = zero s) (hz : ∃ s, v.z = zero s) :
    normalize v = ⟨nan, nan, nan⟩ := by
  obtain ⟨x, y, z⟩ := v
  obtain ⟨a, rfl⟩ := hx
  obtain ⟨b, rfl⟩ := hy
  obtain ⟨c, rfl⟩ := hz
  cases a <;> cases b <;> cases c <;> decide +kernel

/-- **C174, violated.**  `Box::intersect` does not set the second tangent.  Of a new `HitPoint` it is the zero vector, which
`Asset::intersect` normalises: of every ray that hits a box and every finite placement it is not a number. -/
theorem C174_violated_box {m i : M4 F32} (he : Entries 25 m) {o d : V3 F32} {D t : F32} {h : Hit}
    (hit : intersect m i (box origin3) o d D = some (t, h)) : h.dpdv = ⟨nan, nan, nan⟩ := by
  obtain ⟨H, -, -, -, rfl⟩ := asset_box hit
  obtain ⟨⟨a0, a1, a2, -⟩, ⟨b0, b1, b2, -⟩, c0, c1, c2, -⟩ := he
  have z : Zr zip := ⟨trivial, rfl⟩
  have r : ∀ {x y w : F32}, Upto 25 x → Upto 25 y → Upto 25 w → ∃ s, row3 x y w origin3 = zero s := by
    intro x y w hx hy hw
    have p : ∀ {k : F32}, Upto 25 k → Zr (F32.mul k zip) := fun hk => by
      rw [F32.mul_comm]; exact FPlace.zero_mul z hk.1
    exact zr_zero (add_ok _ _) (FPlace.zero_add (FPlace.zero_add (p hx) (p hy)) (p hw))
  exact normalize_zero (r a0 a1 a2) (r b0 b1 b2) (r c0 c1 c2)

/-! ### Examples -/

/-- A box of the size 2, 1, 4 moved by 3 along the first axis. -/
def crate : M4 F32 :=
  ⟨num 2, zip, zip, num 3, zip, num 1, zip, zip, zip, zip, num 4, zip, zip, zip, zip, num 1⟩

/-- Its inverse. -/
def crateInv : M4 F32 := (inverse crate).getD crate

theorem crate_inv : inverse crate = some crateInv := by
  have h : (inverse crate).isSome = true := by decide +kernel
  obtain ⟨i, hi⟩ := Option.isSome_iff_exists.1 h
  unfold crateInv
  rw [hi]; rfl

theorem crate_ready : LastRow crate ∧ Entries 25 crate ∧ FPlace.Scaled crate := by
  refine ⟨?_, ?_, ?_⟩ <;>
    norm_num [LastRow, Entries, FPlace.Scaled, Upto, crate, zip, F32.val, F32.Finite]

/-- A slanted normal of length one, and a tangent at right angles to it. -/
def slant : V3 F32 := ⟨num (1 / 2), num (1 / 2), num (3 / 4)⟩

def slide : V3 F32 := ⟨num 3, num (-3), zip⟩

theorem slant_ready : Upto3 10 slant ∧ 1 / 2 ≤ exactLen2 slant ∧ Upto3 30 slide ∧ 2 ^ (-10 : ℤ) ≤ exactLen2 slide ∧
    inner slant slide = 0 := by
  norm_num [Upto3, Upto, slant, slide, zip, F32.val, F32.Finite, exactLen2, inner]

/-- C174_tangent, C174_normal, C174_angle. -/
example := C174_tangent crate_ready.2.1 crate_ready.2.2 slant_ready.2.2.1 slant_ready.2.2.2.1
example := C174_normal crate_ready.1 crate_ready.2.1 crate_ready.2.2 crate_inv slant_ready.1 slant_ready.2.1

example : |inner (normalize (transformNormal slant crateInv)) (normalize (mulVec crate slide))| ≤ 2 ^ (-19 : ℤ) := by
  obtain ⟨c, -, h⟩ := C174_angle crate_ready.1 crate_ready.2.1 crate_ready.2.2 crate_inv slant_ready.1 slant_ready.2.1
    slant_ready.2.2.1 slant_ready.2.2.2.1
  rw [slant_ready.2.2.2.2, mul_zero, sub_zero] at h
  exact h

/-- Turned about the third axis, with the cosine 0.6 and the sine 0.8 up to rounding, and twice as large. -/
def turned : M4 F32 :=
  ⟨num (5 / 4), num (-13 / 8), zip, num 3, num (13 / 8), num (5 / 4), zip, zip, zip, zip, num 2, zip, zip, zip, zip, num 1⟩

theorem turned_ready : Entries 25 turned ∧ Entries 40 turned := by
  constructor <;> norm_num [Entries, Upto, turned, zip, F32.val, F32.Finite]

/-- C174_tangent_turned, C174_normal_turned, C174_side_turned. -/
example := C174_tangent_turned turned_ready.1 slant_ready.2.2.1 (S := 9) (by norm_num)
  (by norm_num [rowS, turned, slide, zip, F32.val]) (by norm_num [rowS, turned, slide, zip, F32.val])
  (by norm_num [rowS, turned, slide, zip, F32.val]) (by norm_num [rowE, turned, slide, zip, F32.val])

example := C174_normal_turned turned_ready.2 slant_ready.1 (S := 2) (by norm_num)
  (by norm_num [rowS, turned, slant, zip, F32.val]) (by norm_num [rowS, turned, slant, zip, F32.val])
  (by norm_num [rowS, turned, slant, zip, F32.val]) (by norm_num [rowE, turned, slant, zip, F32.val])

/-- The direction of a ray that comes down slanted, and its origin. -/
def down : V3 F32 := ⟨num (1 / 4), num (1 / 4), num (3 / 4)⟩

def eye : V3 F32 := ⟨num (15 / 4), num (1 / 4), num (-1)⟩

theorem down_ready : Upto3 1 down ∧ exactLen2 down ≤ 3 / 2 := by
  norm_num [Upto3, Upto, down, F32.val, F32.Finite, exactLen2]

example := C174_side_turned turned_ready.2 slant_ready.1 (S := 2) (by norm_num)
  (by norm_num [rowS, turned, slant, zip, F32.val]) (by norm_num [rowS, turned, slant, zip, F32.val])
  (by norm_num [rowS, turned, slant, zip, F32.val]) (by norm_num [rowE, turned, slant, zip, F32.val]) down_ready.1

/-- C174_side. -/
example := C174_side crate_ready.1 crate_ready.2.1 crate_ready.2.2 crate_inv eye slant_ready.1 slant_ready.2.1 down_ready.1
  down_ready.2

theorem crate_hit : ∃ t h, intersect crate crateInv (box origin3) eye down (num (2 ^ 20)) = some (t, h) := by
  have h : (intersect crate crateInv (box origin3) eye down (num (2 ^ 20))).isSome = true := by decide +kernel
  obtain ⟨⟨t, h⟩, e⟩ := Option.isSome_iff_exists.1 h
  exact ⟨t, h, e⟩

/-- C174_box_partial and C174_violated_box: the slanted ray hits the crate. -/
example : ∃ t h, intersect crate crateInv (box origin3) eye down (num (2 ^ 20)) = some (t, h) ∧
    (Unit3 h.normal ∧ Unit3 h.dpdu ∧ |inner h.normal h.dpdu| ≤ 2 ^ (-19 : ℤ)) ∧ h.dpdv = ⟨nan, nan, nan⟩ := by
  obtain ⟨t, h, e⟩ := crate_hit
  exact ⟨t, h, e, (C174_box_partial crate_ready.1 crate_ready.2.1 crate_ready.2.2 crate_inv e).2,
    C174_violated_box crate_ready.2.1 e⟩

/-- C174_shape: a shape that is hit at the distance one with the slanted normal. -/
example := C174_shape crate_ready.1 crate_ready.2.1 crate_ready.2.2 crate_inv (fun _ _ _ => some (num 1, ⟨slant, slant, slide, slide⟩))
  eye down (num 5) (fun t k h => by
    simp only [Option.some.injEq, Prod.mk.injEq] at h
    obtain ⟨-, rfl⟩ := h
    refine ⟨?_, ⟨slant_ready.1, slant_ready.2.1⟩, ⟨slant_ready.2.2.1, slant_ready.2.2.2.1⟩, slant_ready.2.2.1,
      slant_ready.2.2.2.1⟩
    norm_num [Upto3, Upto, slant, F32.val, F32.Finite])

/-- **C174, violated.**  Not all vectors of the frame of a placed box are numbers. -/
theorem C174_violated : ¬ C174_statement := by
  intro st
  obtain ⟨t, h, e⟩ := crate_hit
  obtain ⟨-, -, f, -⟩ := st _ _ crate_ready.1 crate_ready.2.1 crate_ready.2.2 crate_inv _ _ _ _ _ e
  have := f.1.2
  rw [C174_violated_box crate_ready.2.1 e] at this
  exact this

end Spectre.FAsset
