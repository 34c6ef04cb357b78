import Verif.Props.FloatPlace

/-
Property C168, the inverse of placed objects, rotated ones included: how far `Matrix4::inverse` (matrix4.cpp:293-435) in
binary32 is from an inverse.
-/

namespace Spectre.FPlace

open Spectre.Geom F32

/-! ### Errors relative to the sum of the sizes of the terms -/

/-- `x` is finite and within `k*S+t` of `X`, where `S` bounds `X` and is at most `2^j`. -/
def Ae (j : ℤ) (k t : ℚ) (x : F32) (X S : ℚ) : Prop := x.Finite ∧ |x.val - X| ≤ k * S + t ∧ |X| ≤ S ∧ S ≤ 2 ^ j

theorem Ae.to {j l : ℤ} {k t X X' S S' : ℚ} {x : F32} (h : Ae j k t x X S) (hk : 0 ≤ k) (e : X = X') (hS : S ≤ S') (hj : S' ≤ 2 ^ l) :
    Ae l k t x X' S' :=
  ⟨h.1, e ▸ h.2.1.trans (add_le_add (mul_le_mul_of_nonneg_left hS hk) le_rfl), e ▸ h.2.2.1.trans hS, hj⟩

theorem Ae.wide {j : ℤ} {k k' t t' X S : ℚ} {x : F32} (h : Ae j k t x X S) (hk : k ≤ k') (ht : t ≤ t') : Ae j k' t' x X S :=
  ⟨h.1, h.2.1.trans (add_le_add (mul_le_mul_of_nonneg_right hk ((abs_nonneg _).trans h.2.2.1)) ht), h.2.2.1, h.2.2.2⟩

theorem ae_self {j : ℤ} {x : F32} (h : Upto j x) : Ae j 0 0 x x.val |x.val| := ⟨h.1, by simp, le_rfl, h.2⟩

theorem ae_neg {j : ℤ} {k t X S : ℚ} {x : F32} (h : Ae j k t x X S) : Ae j k t (neg x) (-X) S := by
  obtain ⟨f, v⟩ := neg_finite h.1
  refine ⟨f, ?_, by rw [abs_neg]; exact h.2.2.1, h.2.2.2⟩
  rw [v, neg_sub_neg, abs_sub_comm]
  exact h.2.1

/-- One rounding. -/
theorem ae_rnd {j : ℤ} {k k' t t' q X S : ℚ} (e : |q - X| ≤ k * S + t) (hX : |X| ≤ S) (hS : S ≤ 2 ^ j)
    (hk : k + (1 + k) * (1 / 2 ^ 24) ≤ k') (ht : t * (1 + 1 / 2 ^ 24) + 2 ^ (-150 : ℤ) ≤ t') (hk1 : k' ≤ 1) (ht1 : t' ≤ 1)
    (hj : j ≤ 120) : |rnd32 q - X| ≤ k' * S + t' ∧ |rnd32 q| < 2 ^ 128 := by
  have S0 : 0 ≤ S := (abs_nonneg X).trans hX
  have r := rnd32_err' q
  have q1 : |q| ≤ (1 + k) * S + t := by
    have := abs_add_le (q - X) X
    rw [sub_add_cancel] at this
    linarith
  have tri := abs_add_le (rnd32 q - q) (q - X)
  rw [sub_add_sub_cancel] at tri
  have g : |rnd32 q - X| ≤ k' * S + t' := by
    have a : |q| * (1 / 2 ^ 24) ≤ ((1 + k) * S + t) * (1 / 2 ^ 24) := mul_le_mul_of_nonneg_right q1 (by norm_num)
    have b := mul_le_mul_of_nonneg_right hk S0
    have c : (k + (1 + k) * (1 / 2 ^ 24)) * S = k * S + (1 + k) * S * (1 / 2 ^ 24) := by ring
    have d : ((1 + k) * S + t) * (1 / 2 ^ 24) = (1 + k) * S * (1 / 2 ^ 24) + t * (1 / 2 ^ 24) := by ring
    have f : t * (1 + 1 / 2 ^ 24) = t + t * (1 / 2 ^ 24) := by ring
    linarith
  refine ⟨g, ?_⟩
  have h1 : |rnd32 q| ≤ |rnd32 q - X| + |X| := by
    have := abs_add_le (rnd32 q - X) X
    rwa [sub_add_cancel] at this
  have h2 : k' * S ≤ 1 * S := mul_le_mul_of_nonneg_right hk1 S0
  have h3 : S ≤ 2 ^ 120 := hS.trans ((zpow_le_zpow_right₀ (by norm_num) hj).trans_eq (by norm_cast))
  have : |rnd32 q| ≤ 2 ^ 120 + 2 ^ 120 + 1 := by linarith
  exact lt_of_le_of_lt this (by norm_num)

theorem ae_add {j : ℤ} {k k' t t' u X Y S T : ℚ} {x y : F32} (hx : Ae j k t x X S) (hy : Ae j k u y Y T)
    (hk : k + (1 + k) * (1 / 2 ^ 24) ≤ k') (ht : (t + u) * (1 + 1 / 2 ^ 24) + 2 ^ (-150 : ℤ) ≤ t') (hk1 : k' ≤ 1) (ht1 : t' ≤ 1)
    (hj : j + 1 ≤ 120) : Ae (j + 1) k' t' (F32.add x y) (X + Y) (S + T) := by
  have e : |x.val + y.val - (X + Y)| ≤ k * (S + T) + (t + u) := by
    have : x.val + y.val - (X + Y) = (x.val - X) + (y.val - Y) := by ring
    rw [this]
    have := abs_add_le (x.val - X) (y.val - Y)
    have h1 := hx.2.1
    have h2 := hy.2.1
    linarith
  have b : |X + Y| ≤ S + T := (abs_add_le X Y).trans (add_le_add hx.2.2.1 hy.2.2.1)
  have s : S + T ≤ 2 ^ (j + 1) := by
    rw [zpow_add₀ (by norm_num), zpow_one]
    linarith [hx.2.2.2, hy.2.2.2]
  obtain ⟨g, l⟩ := ae_rnd e b s hk ht hk1 ht1 hj
  obtain ⟨f, v⟩ := add_finite hx.1 hy.1 l
  exact ⟨f, by rw [v]; exact g, b, s⟩

theorem ae_sub {j : ℤ} {k k' t t' u X Y S T : ℚ} {x y : F32} (hx : Ae j k t x X S) (hy : Ae j k u y Y T)
    (hk : k + (1 + k) * (1 / 2 ^ 24) ≤ k') (ht : (t + u) * (1 + 1 / 2 ^ 24) + 2 ^ (-150 : ℤ) ≤ t') (hk1 : k' ≤ 1) (ht1 : t' ≤ 1)
    (hj : j + 1 ≤ 120) : Ae (j + 1) k' t' (F32.sub x y) (X - Y) (S + T) := by
  have h : Ae (j + 1) k' t' (F32.add x (neg y)) (X + -Y) (S + T) := ae_add hx (ae_neg hy) hk ht hk1 ht1 hj
  rwa [← sub_eq_add_neg] at h

/-- A product with an entry. -/
theorem ae_mul {j l : ℤ} {k k' t t' X S : ℚ} {x c : F32} (hx : Ae j k t x X S) (hc : Upto l c) (t0 : 0 ≤ t)
    (hk : k + (1 + k) * (1 / 2 ^ 24) ≤ k') (ht : t * 2 ^ l * (1 + 1 / 2 ^ 24) + 2 ^ (-150 : ℤ) ≤ t') (hk1 : k' ≤ 1) (ht1 : t' ≤ 1)
    (hj : j + l ≤ 120) : Ae (j + l) k' t' (F32.mul x c) (X * c.val) (S * |c.val|) := by
  have S0 : 0 ≤ S := (abs_nonneg X).trans hx.2.2.1
  have e : |x.val * c.val - X * c.val| ≤ k * (S * |c.val|) + t * 2 ^ l := by
    rw [← sub_mul, abs_mul]
    have a := mul_le_mul_of_nonneg_right hx.2.1 (abs_nonneg c.val)
    have b : t * |c.val| ≤ t * 2 ^ l := mul_le_mul_of_nonneg_left hc.2 t0
    have : (k * S + t) * |c.val| = k * (S * |c.val|) + t * |c.val| := by ring
    linarith
  have b : |X * c.val| ≤ S * |c.val| := by rw [abs_mul]; exact mul_le_mul_of_nonneg_right hx.2.2.1 (abs_nonneg _)
  have s : S * |c.val| ≤ 2 ^ (j + l) := by
    rw [zpow_add₀ (by norm_num)]
    exact mul_le_mul hx.2.2.2 hc.2 (abs_nonneg _) (two_zpow_pos _).le
  obtain ⟨g, r⟩ := ae_rnd e b s hk ht hk1 ht1 hj
  obtain ⟨f, v⟩ := mul_finite hx.1 hc.1 r
  exact ⟨f, by rw [v]; exact g, b, s⟩

theorem ae_mul3 {a b c : F32} (ha : Upto 25 a) (hb : Upto 25 b) (hc : Upto 25 c) :
    Ae 75 (21 / 10 / 2 ^ 24) (2 ^ (-124 : ℤ)) (mul3 a b c) (a.val * b.val * c.val) |a.val * b.val * c.val| := by
  have h1 := ae_mul (k' := 1 / 2 ^ 24) (t' := 2 ^ (-150 : ℤ)) (ae_self ha) hb le_rfl (by norm_num) (by norm_num) (by norm_num)
    (by norm_num) (by norm_num)
  have h2 := ae_mul (k' := 21 / 10 / 2 ^ 24) (t' := 2 ^ (-124 : ℤ)) h1 hc (two_zpow_pos _).le (by norm_num) (by norm_num) (by norm_num)
    (by norm_num) (by norm_num)
  rw [← abs_mul, ← abs_mul] at h2
  exact h2

/-- The triple product of the values. -/
def p3 (a b c : F32) : ℚ := a.val * b.val * c.val

theorem ae_a {a b c d e f g h i j k l o p q r s t : F32} (h1 : Upto 25 a ∧ Upto 25 b ∧ Upto 25 c)
    (h2 : Upto 25 d ∧ Upto 25 e ∧ Upto 25 f) (h3 : Upto 25 g ∧ Upto 25 h ∧ Upto 25 i) (h4 : Upto 25 j ∧ Upto 25 k ∧ Upto 25 l)
    (h5 : Upto 25 o ∧ Upto 25 p ∧ Upto 25 q) (h6 : Upto 25 r ∧ Upto 25 s ∧ Upto 25 t) :
    Ae 80 (8 / 2 ^ 24) (2 ^ (-121 : ℤ))
      (F32.sub (F32.add (F32.add (F32.sub (F32.sub (mul3 a b c) (mul3 d e f)) (mul3 g h i)) (mul3 j k l)) (mul3 o p q))
        (mul3 r s t)) (p3 a b c - p3 d e f - p3 g h i + p3 j k l + p3 o p q - p3 r s t)
      (|p3 a b c| + |p3 d e f| + |p3 g h i| + |p3 j k l| + |p3 o p q| + |p3 r s t|) := by
  have m1 := ae_mul3 h1.1 h1.2.1 h1.2.2
  have up : ∀ {n : ℤ} {k : ℚ} {x y z : F32}, 75 ≤ n → 21 / 10 / 2 ^ 24 ≤ k → Upto 25 x ∧ Upto 25 y ∧ Upto 25 z →
      Ae n k (2 ^ (-124 : ℤ)) (mul3 x y z) (p3 x y z) |p3 x y z| := fun hn hk h => by
    have w := ae_mul3 h.1 h.2.1 h.2.2
    exact (w.to (by norm_num) rfl le_rfl (w.2.2.2.trans (zpow_le_zpow_right₀ (by norm_num) hn))).wide hk le_rfl
  have s1 := ae_sub (k' := 32 / 10 / 2 ^ 24) (t' := 3 * 2 ^ (-124 : ℤ)) m1 (up le_rfl le_rfl h2) (by norm_num) (by norm_num)
    (by norm_num) (by norm_num) (by norm_num)
  have s2 := ae_sub (k' := 43 / 10 / 2 ^ 24) (t' := 41 / 10 * 2 ^ (-124 : ℤ)) s1 (up (by norm_num) (by norm_num) h3) (by norm_num)
    (by norm_num) (by norm_num) (by norm_num) (by norm_num)
  have s3 := ae_add (k' := 54 / 10 / 2 ^ 24) (t' := 52 / 10 * 2 ^ (-124 : ℤ)) s2 (up (by norm_num) (by norm_num) h4) (by norm_num)
    (by norm_num) (by norm_num) (by norm_num) (by norm_num)
  have s4 := ae_add (k' := 65 / 10 / 2 ^ 24) (t' := 63 / 10 * 2 ^ (-124 : ℤ)) s3 (up (by norm_num) (by norm_num) h5) (by norm_num)
    (by norm_num) (by norm_num) (by norm_num) (by norm_num)
  exact ae_sub s4 (up (by norm_num) (by norm_num) h6) (by norm_num) (by norm_num) (by norm_num) (by norm_num) (by norm_num)

theorem ae_b {a b c d e f g h i j k l o p q r s t : F32} (h1 : Upto 25 a ∧ Upto 25 b ∧ Upto 25 c)
    (h2 : Upto 25 d ∧ Upto 25 e ∧ Upto 25 f) (h3 : Upto 25 g ∧ Upto 25 h ∧ Upto 25 i) (h4 : Upto 25 j ∧ Upto 25 k ∧ Upto 25 l)
    (h5 : Upto 25 o ∧ Upto 25 p ∧ Upto 25 q) (h6 : Upto 25 r ∧ Upto 25 s ∧ Upto 25 t) :
    Ae 80 (8 / 2 ^ 24) (2 ^ (-121 : ℤ))
      (F32.add (F32.sub (F32.sub (F32.add (F32.add (mul3 (neg a) b c) (mul3 d e f)) (mul3 g h i)) (mul3 j k l)) (mul3 o p q))
        (mul3 r s t)) (-p3 a b c + p3 d e f + p3 g h i - p3 j k l - p3 o p q + p3 r s t)
      (|p3 a b c| + |p3 d e f| + |p3 g h i| + |p3 j k l| + |p3 o p q| + |p3 r s t|) := by
  have n1 : p3 (neg a) b c = -p3 a b c := by
    unfold p3; rw [(neg_finite h1.1.1).2]; ring
  have m1 := ae_mul3 (upto_neg h1.1) h1.2.1 h1.2.2
  change Ae 75 _ _ _ (p3 (neg a) b c) |p3 (neg a) b c| at m1
  rw [n1, abs_neg] at m1
  have up : ∀ {n : ℤ} {k : ℚ} {x y z : F32}, 75 ≤ n → 21 / 10 / 2 ^ 24 ≤ k → Upto 25 x ∧ Upto 25 y ∧ Upto 25 z →
      Ae n k (2 ^ (-124 : ℤ)) (mul3 x y z) (p3 x y z) |p3 x y z| := fun hn hk h => by
    have w := ae_mul3 h.1 h.2.1 h.2.2
    exact (w.to (by norm_num) rfl le_rfl (w.2.2.2.trans (zpow_le_zpow_right₀ (by norm_num) hn))).wide hk le_rfl
  have s1 := ae_add (k' := 32 / 10 / 2 ^ 24) (t' := 3 * 2 ^ (-124 : ℤ)) m1 (up le_rfl le_rfl h2) (by norm_num) (by norm_num)
    (by norm_num) (by norm_num) (by norm_num)
  have s2 := ae_add (k' := 43 / 10 / 2 ^ 24) (t' := 41 / 10 * 2 ^ (-124 : ℤ)) s1 (up (by norm_num) (by norm_num) h3) (by norm_num)
    (by norm_num) (by norm_num) (by norm_num) (by norm_num)
  have s3 := ae_sub (k' := 54 / 10 / 2 ^ 24) (t' := 52 / 10 * 2 ^ (-124 : ℤ)) s2 (up (by norm_num) (by norm_num) h4) (by norm_num)
    (by norm_num) (by norm_num) (by norm_num) (by norm_num)
  have s4 := ae_sub (k' := 65 / 10 / 2 ^ 24) (t' := 63 / 10 * 2 ^ (-124 : ℤ)) s3 (up (by norm_num) (by norm_num) h5) (by norm_num)
    (by norm_num) (by norm_num) (by norm_num) (by norm_num)
  exact ae_add s4 (up (by norm_num) (by norm_num) h6) (by norm_num) (by norm_num) (by norm_num) (by norm_num) (by norm_num)

/-! ### Spec -/

/-- The entries of the linear part are finite and at most `L`, those of the movement at most `T`. -/
structure Sizes (m : M4 F32) (L T : ℚ) : Prop where
  fin : (m.m00.Finite ∧ m.m01.Finite ∧ m.m02.Finite ∧ m.m03.Finite) ∧ (m.m10.Finite ∧ m.m11.Finite ∧ m.m12.Finite ∧ m.m13.Finite) ∧
    m.m20.Finite ∧ m.m21.Finite ∧ m.m22.Finite ∧ m.m23.Finite
  lin : (|m.m00.val| ≤ L ∧ |m.m01.val| ≤ L ∧ |m.m02.val| ≤ L) ∧ (|m.m10.val| ≤ L ∧ |m.m11.val| ≤ L ∧ |m.m12.val| ≤ L) ∧
    |m.m20.val| ≤ L ∧ |m.m21.val| ≤ L ∧ |m.m22.val| ≤ L
  mov : |m.m03.val| ≤ T ∧ |m.m13.val| ≤ T ∧ |m.m23.val| ≤ T

/-- The determinant of the linear part. -/
def exactDet (m : M4 F32) : ℚ :=
  m.m00.val * (m.m11.val * m.m22.val - m.m12.val * m.m21.val) - m.m01.val * (m.m10.val * m.m22.val - m.m12.val * m.m20.val) +
    m.m02.val * (m.m10.val * m.m21.val - m.m11.val * m.m20.val)

/-- A row of the linear part times a column. -/
def rowCol (a b c x y z : F32) : ℚ := a.val * x.val + b.val * y.val + c.val * z.val

/-! ### Cofactors -/

theorem prod2 {a b L : ℚ} (ha : |a| ≤ L) (hb : |b| ≤ L) : |a * b| ≤ L ^ 2 := by
  rw [abs_mul, sq]
  exact mul_le_mul ha hb (abs_nonneg _) ((abs_nonneg _).trans ha)

theorem prod3 {a b c L T : ℚ} (ha : |a| ≤ L) (hb : |b| ≤ L) (hc : |c| ≤ T) : |a * b * c| ≤ L ^ 2 * T := by
  rw [abs_mul]
  exact mul_le_mul (prod2 ha hb) hc (abs_nonneg _) (sq_nonneg _)

theorem prod3' {a b c L T : ℚ} (ha : |a| ≤ L) (hb : |b| ≤ L) (hc : |c| ≤ T) : |a * c * b| ≤ L ^ 2 * T := by
  rw [mul_right_comm]; exact prod3 ha hb hc

/-- A computed cofactor, its exact value and the bound of its terms. -/
def Cf (x : F32) (X S : ℚ) : Prop := Ae 64 (8 / 2 ^ 24) (2 ^ (-121 : ℤ)) x X S

theorem Sizes.entries {m : M4 F32} {L T : ℚ} (h : Sizes m L T) (hL : L ≤ 2 ^ 20) (hT : T ≤ 2 ^ 20) : Entries 25 m := by
  obtain ⟨⟨f00, f01, f02, f03⟩, ⟨f10, f11, f12, f13⟩, f20, f21, f22, f23⟩ := h.fin
  obtain ⟨⟨l00, l01, l02⟩, ⟨l10, l11, l12⟩, l20, l21, l22⟩ := h.lin
  obtain ⟨t0, t1, t2⟩ := h.mov
  have a : ∀ {x : ℚ}, |x| ≤ L → |x| ≤ 2 ^ (25 : ℤ) := fun h => h.trans (hL.trans (by norm_num))
  have b : ∀ {x : ℚ}, |x| ≤ T → |x| ≤ 2 ^ (25 : ℤ) := fun h => h.trans (hT.trans (by norm_num))
  exact ⟨⟨⟨f00, a l00⟩, ⟨f01, a l01⟩, ⟨f02, a l02⟩, f03, b t0⟩, ⟨⟨f10, a l10⟩, ⟨f11, a l11⟩, ⟨f12, a l12⟩, f13, b t1⟩,
    ⟨f20, a l20⟩, ⟨f21, a l21⟩, ⟨f22, a l22⟩, f23, b t2⟩

section
set_option linter.unusedSimpArgs false

variable {m : M4 F32} {L T : ℚ}

theorem cof_linear (hm : LastRow m) (h : Sizes m L T) (hL : L ≤ 2 ^ 20) (hT : T ≤ 2 ^ 20) :
    (Cf (inv m 0) (m.m11.val * m.m22.val - m.m12.val * m.m21.val) (2 * L ^ 2) ∧
     Cf (inv m 1) (m.m02.val * m.m21.val - m.m01.val * m.m22.val) (2 * L ^ 2) ∧
     Cf (inv m 2) (m.m01.val * m.m12.val - m.m02.val * m.m11.val) (2 * L ^ 2)) ∧
    (Cf (inv m 4) (m.m12.val * m.m20.val - m.m10.val * m.m22.val) (2 * L ^ 2) ∧
     Cf (inv m 5) (m.m00.val * m.m22.val - m.m02.val * m.m20.val) (2 * L ^ 2) ∧
     Cf (inv m 6) (m.m02.val * m.m10.val - m.m00.val * m.m12.val) (2 * L ^ 2)) ∧
    Cf (inv m 8) (m.m10.val * m.m21.val - m.m11.val * m.m20.val) (2 * L ^ 2) ∧
    Cf (inv m 9) (m.m01.val * m.m20.val - m.m00.val * m.m21.val) (2 * L ^ 2) ∧
    Cf (inv m 10) (m.m00.val * m.m11.val - m.m01.val * m.m10.val) (2 * L ^ 2) := by
  obtain ⟨⟨a00, a01, a02, a03⟩, ⟨a10, a11, a12, a13⟩, a20, a21, a22, a23⟩ := h.entries hL hT
  obtain ⟨⟨l00, l01, l02⟩, ⟨l10, l11, l12⟩, l20, l21, l22⟩ := h.lin
  have a30 := upto_zero (k := 25) hm.1
  have a31 := upto_zero (k := 25) hm.2.1
  have a32 := upto_zero (k := 25) hm.2.2.1
  have a33 := upto_one (k := 25) (by norm_num) hm.2.2.2
  obtain ⟨⟨-, z30⟩, ⟨-, z31⟩, ⟨-, z32⟩, -, o33⟩ := hm
  have L0 : 0 ≤ L := (abs_nonneg _).trans l00
  have top : 2 * L ^ 2 ≤ 2 ^ (64 : ℤ) := by
    have : L ^ 2 ≤ (2 ^ 20) ^ 2 := pow_le_pow_left₀ L0 hL 2
    norm_num at *
    linarith
  have fin : ∀ {x : F32} {X X' a b c d : ℚ}, Ae 80 (8 / 2 ^ 24) (2 ^ (-121 : ℤ)) x X (|a * b| + |c * d|) → X = X' → |a| ≤ L →
      |b| ≤ L → |c| ≤ L → |d| ≤ L → Cf x X' (2 * L ^ 2) := fun h e ha hb hc hd =>
    h.to (by norm_num) e (by linarith [prod2 ha hb, prod2 hc hd]) top
  refine ⟨⟨?_, ?_, ?_⟩, ⟨?_, ?_, ?_⟩, ?_, ?_, ?_⟩
  · have := ae_a ⟨a11, a22, a33⟩ ⟨a11, a23, a32⟩ ⟨a21, a12, a33⟩ ⟨a21, a13, a32⟩ ⟨a31, a12, a23⟩ ⟨a31, a13, a22⟩
    simp only [p3, z30, z31, z32, o33, mul_zero, MulZeroClass.zero_mul, mul_one, abs_zero, add_zero, sub_zero, _root_.zero_add] at this
    exact fin this (by ring) l11 l22 l21 l12
  · have := ae_b ⟨a01, a22, a33⟩ ⟨a01, a23, a32⟩ ⟨a21, a02, a33⟩ ⟨a21, a03, a32⟩ ⟨a31, a02, a23⟩ ⟨a31, a03, a22⟩
    simp only [p3, z30, z31, z32, o33, mul_zero, MulZeroClass.zero_mul, mul_one, abs_zero, add_zero, sub_zero, _root_.zero_add] at this
    exact fin this (by ring) l01 l22 l21 l02
  · have := ae_a ⟨a01, a12, a33⟩ ⟨a01, a13, a32⟩ ⟨a11, a02, a33⟩ ⟨a11, a03, a32⟩ ⟨a31, a02, a13⟩ ⟨a31, a03, a12⟩
    simp only [p3, z30, z31, z32, o33, mul_zero, MulZeroClass.zero_mul, mul_one, abs_zero, add_zero, sub_zero, _root_.zero_add] at this
    exact fin this (by ring) l01 l12 l11 l02
  · have := ae_b ⟨a10, a22, a33⟩ ⟨a10, a23, a32⟩ ⟨a20, a12, a33⟩ ⟨a20, a13, a32⟩ ⟨a30, a12, a23⟩ ⟨a30, a13, a22⟩
    simp only [p3, z30, z31, z32, o33, mul_zero, MulZeroClass.zero_mul, mul_one, abs_zero, add_zero, sub_zero, _root_.zero_add] at this
    exact fin this (by ring) l10 l22 l20 l12
  · have := ae_a ⟨a00, a22, a33⟩ ⟨a00, a23, a32⟩ ⟨a20, a02, a33⟩ ⟨a20, a03, a32⟩ ⟨a30, a02, a23⟩ ⟨a30, a03, a22⟩
    simp only [p3, z30, z31, z32, o33, mul_zero, MulZeroClass.zero_mul, mul_one, abs_zero, add_zero, sub_zero, _root_.zero_add] at this
    exact fin this (by ring) l00 l22 l20 l02
  · have := ae_b ⟨a00, a12, a33⟩ ⟨a00, a13, a32⟩ ⟨a10, a02, a33⟩ ⟨a10, a03, a32⟩ ⟨a30, a02, a13⟩ ⟨a30, a03, a12⟩
    simp only [p3, z30, z31, z32, o33, mul_zero, MulZeroClass.zero_mul, mul_one, abs_zero, add_zero, sub_zero, _root_.zero_add] at this
    exact fin this (by ring) l00 l12 l10 l02
  · have := ae_a ⟨a10, a21, a33⟩ ⟨a10, a23, a31⟩ ⟨a20, a11, a33⟩ ⟨a20, a13, a31⟩ ⟨a30, a11, a23⟩ ⟨a30, a13, a21⟩
    simp only [p3, z30, z31, z32, o33, mul_zero, MulZeroClass.zero_mul, mul_one, abs_zero, add_zero, sub_zero, _root_.zero_add] at this
    exact fin this (by ring) l10 l21 l20 l11
  · have := ae_b ⟨a00, a21, a33⟩ ⟨a00, a23, a31⟩ ⟨a20, a01, a33⟩ ⟨a20, a03, a31⟩ ⟨a30, a01, a23⟩ ⟨a30, a03, a21⟩
    simp only [p3, z30, z31, z32, o33, mul_zero, MulZeroClass.zero_mul, mul_one, abs_zero, add_zero, sub_zero, _root_.zero_add] at this
    exact fin this (by ring) l00 l21 l20 l01
  · have := ae_a ⟨a00, a11, a33⟩ ⟨a00, a13, a31⟩ ⟨a10, a01, a33⟩ ⟨a10, a03, a31⟩ ⟨a30, a01, a13⟩ ⟨a30, a03, a11⟩
    simp only [p3, z30, z31, z32, o33, mul_zero, MulZeroClass.zero_mul, mul_one, abs_zero, add_zero, sub_zero, _root_.zero_add] at this
    exact fin this (by ring) l00 l11 l10 l01

theorem cof_moved (h : Sizes m L T) (hL : L ≤ 2 ^ 20) (hT : T ≤ 2 ^ 20) :
    Cf (inv m 3) (-(m.m01.val * m.m12.val * m.m23.val) + m.m01.val * m.m13.val * m.m22.val + m.m11.val * m.m02.val * m.m23.val -
      m.m11.val * m.m03.val * m.m22.val - m.m21.val * m.m02.val * m.m13.val + m.m21.val * m.m03.val * m.m12.val) (6 * (L ^ 2 * T)) ∧
    Cf (inv m 7) (m.m00.val * m.m12.val * m.m23.val - m.m00.val * m.m13.val * m.m22.val - m.m10.val * m.m02.val * m.m23.val +
      m.m10.val * m.m03.val * m.m22.val + m.m20.val * m.m02.val * m.m13.val - m.m20.val * m.m03.val * m.m12.val) (6 * (L ^ 2 * T)) ∧
    Cf (inv m 11) (-(m.m00.val * m.m11.val * m.m23.val) + m.m00.val * m.m13.val * m.m21.val + m.m10.val * m.m01.val * m.m23.val -
      m.m10.val * m.m03.val * m.m21.val - m.m20.val * m.m01.val * m.m13.val + m.m20.val * m.m03.val * m.m11.val) (6 * (L ^ 2 * T)) ∧
    Cf (inv m 15) (exactDet m) (6 * L ^ 3) := by
  obtain ⟨⟨a00, a01, a02, a03⟩, ⟨a10, a11, a12, a13⟩, a20, a21, a22, a23⟩ := h.entries hL hT
  obtain ⟨⟨l00, l01, l02⟩, ⟨l10, l11, l12⟩, l20, l21, l22⟩ := h.lin
  obtain ⟨t0, t1, t2⟩ := h.mov
  have L0 : 0 ≤ L := (abs_nonneg _).trans l00
  have T0 : 0 ≤ T := (abs_nonneg _).trans t0
  have L2 : L ^ 2 ≤ (2 ^ 20) ^ 2 := pow_le_pow_left₀ L0 hL 2
  have top : 6 * (L ^ 2 * T) ≤ 2 ^ (64 : ℤ) := by
    have : L ^ 2 * T ≤ (2 ^ 20) ^ 2 * 2 ^ 20 := mul_le_mul L2 hT T0 (by norm_num)
    norm_num at *
    linarith
  have top' : 6 * L ^ 3 ≤ 2 ^ (64 : ℤ) := by
    have : L ^ 3 ≤ (2 ^ 20) ^ 3 := pow_le_pow_left₀ L0 hL 3
    norm_num at *
    linarith
  refine ⟨?_, ?_, ?_, ?_⟩
  · refine (ae_b ⟨a01, a12, a23⟩ ⟨a01, a13, a22⟩ ⟨a11, a02, a23⟩ ⟨a11, a03, a22⟩ ⟨a21, a02, a13⟩ ⟨a21, a03, a12⟩).to (by norm_num)
      rfl ?_ top
    unfold p3
    linarith [prod3 l01 l12 t2, prod3' l01 l22 t1, prod3 l11 l02 t2, prod3' l11 l22 t0, prod3 l21 l02 t1, prod3' l21 l12 t0]
  · refine (ae_a ⟨a00, a12, a23⟩ ⟨a00, a13, a22⟩ ⟨a10, a02, a23⟩ ⟨a10, a03, a22⟩ ⟨a20, a02, a13⟩ ⟨a20, a03, a12⟩).to (by norm_num)
      rfl ?_ top
    unfold p3
    linarith [prod3 l00 l12 t2, prod3' l00 l22 t1, prod3 l10 l02 t2, prod3' l10 l22 t0, prod3 l20 l02 t1, prod3' l20 l12 t0]
  · refine (ae_b ⟨a00, a11, a23⟩ ⟨a00, a13, a21⟩ ⟨a10, a01, a23⟩ ⟨a10, a03, a21⟩ ⟨a20, a01, a13⟩ ⟨a20, a03, a11⟩).to (by norm_num)
      rfl ?_ top
    unfold p3
    linarith [prod3 l00 l11 t2, prod3' l00 l21 t1, prod3 l10 l01 t2, prod3' l10 l21 t0, prod3 l20 l01 t1, prod3' l20 l11 t0]
  · refine (ae_a ⟨a00, a11, a22⟩ ⟨a00, a12, a21⟩ ⟨a10, a01, a22⟩ ⟨a10, a02, a21⟩ ⟨a20, a01, a12⟩ ⟨a20, a02, a11⟩).to (by norm_num)
      (by unfold p3 exactDet; ring) ?_ top'
    unfold p3
    have e : L ^ 3 = L ^ 2 * L := by ring
    linarith [prod3 l00 l11 l22, prod3 l00 l12 l21, prod3 l10 l01 l22, prod3 l10 l02 l21, prod3 l20 l01 l12, prod3 l20 l02 l11]

/-- The computed determinant. -/
theorem det_near (hm : LastRow m) (h : Sizes m L T) (hL : L ≤ 2 ^ 20) (hT : T ≤ 2 ^ 20) :
    (det m).Finite ∧ |(det m).val - exactDet m| ≤ 78 / 2 ^ 24 * L ^ 3 + 2 ^ (-90 : ℤ) ∧ |exactDet m| ≤ 6 * L ^ 3 := by
  obtain ⟨⟨c0, -, -⟩, ⟨c4, -, -⟩, c8, -, -⟩ := cof_linear hm h hL hT
  have he := h.entries hL hT
  have z12 := (inv_zero hm he).1
  obtain ⟨⟨a00, a01, a02, a03⟩, -, -⟩ := he
  obtain ⟨⟨l00, l01, l02⟩, -, -⟩ := h.lin
  have L0 : 0 ≤ L := (abs_nonneg _).trans l00
  have big : 2 * L ^ 2 * L ≤ 2 ^ (66 : ℤ) := by
    have : L ^ 3 ≤ (2 ^ 20) ^ 3 := pow_le_pow_left₀ L0 hL 3
    have e : 2 * L ^ 2 * L = 2 * L ^ 3 := by ring
    rw [e]
    norm_num at *
    linarith
  have term : ∀ {x c : F32} {X : ℚ}, Cf x X (2 * L ^ 2) → Upto 25 c → |c.val| ≤ L →
      Ae 66 (91 / 10 / 2 ^ 24) (2 ^ (-95 : ℤ)) (F32.mul c x) (X * c.val) (2 * L ^ 2 * L) := by
    intro x c X hx hc hl
    have := ae_mul (k' := 91 / 10 / 2 ^ 24) (t' := 2 ^ (-95 : ℤ)) hx hc (two_zpow_pos _).le (by norm_num) (by norm_num) (by norm_num)
      (by norm_num) (by norm_num)
    rw [F32.mul_comm]
    exact this.to (by norm_num) rfl (mul_le_mul_of_nonneg_left hl (by positivity)) big
  have t0 := term c0 a00 l00
  have t1 := term c4 a01 l01
  have t2 := term c8 a02 l02
  have z := zero_mul z12 a03.1
  rw [F32.mul_comm] at z
  have t3 : Ae 68 (113 / 10 / 2 ^ 24) 0 (F32.mul m.m03 (inv m 12)) 0 0 :=
    ⟨z.1, by rw [z.2]; simp, by simp, (two_zpow_pos _).le⟩
  have up : ∀ {k t X S : ℚ} {x : F32}, Ae 66 k t x X S → 0 ≤ k → Ae 67 k t x X S := fun h hk =>
    h.to hk rfl le_rfl (h.2.2.2.trans (by norm_num))
  have s1 := ae_add (k' := 102 / 10 / 2 ^ 24) (t' := 3 * 2 ^ (-95 : ℤ)) t0 t1 (by norm_num) (by norm_num) (by norm_num) (by norm_num)
    (by norm_num)
  have s2 := ae_add (k' := 113 / 10 / 2 ^ 24) (t' := 5 * 2 ^ (-95 : ℤ)) s1 ((up t2 (by norm_num)).wide (k' := 102 / 10 / 2 ^ 24)
    (by norm_num) le_rfl) (by norm_num) (by norm_num) (by norm_num) (by norm_num) (by norm_num)
  have s3 := ae_add (k' := 13 / 2 ^ 24) (t' := 2 ^ (-90 : ℤ)) s2 t3 (by norm_num) (by norm_num) (by norm_num) (by norm_num)
    (by norm_num)
  have eX : (m.m11.val * m.m22.val - m.m12.val * m.m21.val) * m.m00.val + (m.m12.val * m.m20.val - m.m10.val * m.m22.val) * m.m01.val +
      (m.m10.val * m.m21.val - m.m11.val * m.m20.val) * m.m02.val + 0 = exactDet m := by
    unfold exactDet; ring
  have eS : 2 * L ^ 2 * L + 2 * L ^ 2 * L + 2 * L ^ 2 * L + 0 = 6 * L ^ 3 := by ring
  rw [eX, eS] at s3
  refine ⟨s3.1, s3.2.1.trans (le_of_eq ?_), s3.2.2.1⟩
  ring
end

/-- An entry of the inverse, times the determinant. -/
theorem entry {x D : F32} {X S : ℚ} (h : Cf x X S) (fD : D.Finite) (d0 : 2 ^ (-17 : ℤ) ≤ |D.val|) (d1 : |D.val| ≤ 2 ^ (64 : ℤ)) :
    (F32.mul x (F32.div (num 1) D)).Finite ∧
    |(F32.mul x (F32.div (num 1) D)).val * D.val - X| ≤ 11 / 2 ^ 24 * S + 2 ^ (-80 : ℤ) ∧
    rnd32 (F32.mul x (F32.div (num 1) D)).val = (F32.mul x (F32.div (num 1) D)).val := by
  obtain ⟨fx, ex, bx, sx⟩ := h
  have S0 : 0 ≤ S := (abs_nonneg _).trans bx
  have Dp : 0 < |D.val| := lt_of_lt_of_le (two_zpow_pos _) d0
  have D0 : D.val ≠ 0 := abs_pos.1 Dp
  have i1 : |1 / D.val| ≤ 2 ^ 17 := by
    rw [abs_div, abs_one, div_le_iff₀ Dp]
    norm_num at *
    linarith
  have lim : ∀ {q : ℚ}, |q| ≤ 2 ^ 100 → |rnd32 q| < 2 ^ 128 := by
    intro q hq
    have e := rnd32_err' q
    have t : |rnd32 q| ≤ |rnd32 q - q| + |q| := by
      have := abs_add_le (rnd32 q - q) q
      rwa [sub_add_cancel] at this
    have : (2 : ℚ) ^ (-150 : ℤ) ≤ 1 := by norm_num
    have h2 : |q| * (1 / 2 ^ 24) ≤ |q| := by
      have := abs_nonneg q
      nlinarith
    have : |rnd32 q| ≤ 2 ^ 100 + 2 ^ 100 + 1 := by linarith
    exact lt_of_le_of_lt this (by norm_num)
  obtain ⟨fd, vd⟩ := div_finite (show (num 1).Finite from trivial) fD D0 (by
    rw [show (num 1).val = 1 from rfl]
    exact lim (i1.trans (by norm_num)))
  rw [show (num 1).val = 1 from rfl] at vd
  have ed := rnd32_err' (1 / D.val)
  rw [← vd] at ed
  generalize F32.div (num 1) D = d at *
  -- the rounded inverse times the determinant
  have g : |d.val * D.val - 1| ≤ 1 / 2 ^ 24 + 2 ^ (-86 : ℤ) := by
    have e : d.val * D.val - 1 = (d.val - 1 / D.val) * D.val := by field_simp
    rw [e, abs_mul]
    have a := mul_le_mul_of_nonneg_right ed Dp.le
    have b : |1 / D.val| * |D.val| = 1 := by rw [← abs_mul, div_mul_cancel₀ _ D0, abs_one]
    have c : (|1 / D.val| * (1 / 2 ^ 24) + 2 ^ (-150 : ℤ)) * |D.val| = |1 / D.val| * |D.val| * (1 / 2 ^ 24) + 2 ^ (-150 : ℤ) * |D.val| := by
      ring
    rw [c, b] at a
    have t : (2 : ℚ) ^ (-150 : ℤ) * |D.val| ≤ 2 ^ (-150 : ℤ) * 2 ^ (64 : ℤ) := mul_le_mul_of_nonneg_left d1 (two_zpow_pos _).le
    have u : (2 : ℚ) ^ (-150 : ℤ) * 2 ^ (64 : ℤ) = 2 ^ (-86 : ℤ) := by norm_num
    linarith
  have xb : |x.val| ≤ (1 + 8 / 2 ^ 24) * S + 2 ^ (-121 : ℤ) := by
    have := abs_add_le (x.val - X) X
    rw [sub_add_cancel] at this
    linarith
  have dl : |d.val| ≤ 2 ^ 18 := by
    have := abs_add_le (d.val - 1 / D.val) (1 / D.val)
    rw [sub_add_cancel] at this
    generalize |1 / D.val| = w at *
    norm_num at *
    linarith
  have xl : |x.val| ≤ 2 ^ 66 := by
    norm_num at *
    linarith
  have pl : |x.val * d.val| ≤ 2 ^ 100 := by
    rw [abs_mul]
    exact (mul_le_mul xl dl (abs_nonneg _) (by norm_num)).trans (by norm_num)
  obtain ⟨fn, vn⟩ := mul_finite fx fd (lim pl)
  refine ⟨fn, ?_, by rw [vn, rnd32_rnd32]⟩
  have en := rnd32_err' (x.val * d.val)
  rw [← vn] at en
  generalize F32.mul x d = n at *
  have h1 : |n.val * D.val - x.val * (d.val * D.val)| ≤ |x.val| * |d.val * D.val| * (1 / 2 ^ 24) + 2 ^ (-86 : ℤ) := by
    have e : n.val * D.val - x.val * (d.val * D.val) = (n.val - x.val * d.val) * D.val := by ring
    rw [e, abs_mul]
    have a := mul_le_mul_of_nonneg_right en Dp.le
    have c : (|x.val * d.val| * (1 / 2 ^ 24) + 2 ^ (-150 : ℤ)) * |D.val| =
        |x.val| * |d.val * D.val| * (1 / 2 ^ 24) + 2 ^ (-150 : ℤ) * |D.val| := by
      rw [abs_mul, abs_mul]; ring
    rw [c] at a
    have t : (2 : ℚ) ^ (-150 : ℤ) * |D.val| ≤ 2 ^ (-150 : ℤ) * 2 ^ (64 : ℤ) := mul_le_mul_of_nonneg_left d1 (two_zpow_pos _).le
    have u : (2 : ℚ) ^ (-150 : ℤ) * 2 ^ (64 : ℤ) = 2 ^ (-86 : ℤ) := by norm_num
    linarith
  generalize d.val * D.val = G at *
  have Gb : |G| ≤ 1 + 2 / 2 ^ 24 := by
    have := abs_add_le (G - 1) 1
    rw [sub_add_cancel, abs_one] at this
    norm_num at *
    linarith
  have h2 : |x.val * G - x.val| ≤ |x.val| * (1 / 2 ^ 24 + 2 ^ (-86 : ℤ)) := by
    have e : x.val * G - x.val = x.val * (G - 1) := by ring
    rw [e, abs_mul]
    exact mul_le_mul_of_nonneg_left g (abs_nonneg _)
  have h3 : |x.val| * |G| ≤ |x.val| * (1 + 2 / 2 ^ 24) := mul_le_mul_of_nonneg_left Gb (abs_nonneg _)
  have tri := abs_add_three (n.val * D.val - x.val * G) (x.val * G - x.val) (x.val - X)
  have e : n.val * D.val - x.val * G + (x.val * G - x.val) + (x.val - X) = n.val * D.val - X := by ring
  rw [e] at tri
  refine tri.trans ?_
  clear tri e en pl vn xl dl g ed i1 d0 d1 sx Gb
  generalize |n.val * D.val - x.val * G| = A at *
  generalize |x.val * G - x.val| = B at *
  generalize |x.val - X| = C at *
  generalize |x.val| * |G| = P at *
  generalize |x.val| = Q at *
  norm_num only at *
  linarith

/-- From the entries to the product with a row. -/
theorem residual {D E R l s u : ℚ} {a b c x y z X Y Z : ℚ} (hx : |x * D - X| ≤ s) (hy : |y * D - Y| ≤ s) (hz : |z * D - Z| ≤ s)
    (ha : |a| ≤ l) (hb : |b| ≤ l) (hc : |c| ≤ l) (e : a * X + b * Y + c * Z = R * E) (hE : |D - E| * |R| ≤ u) :
    |a * x + b * y + c * z - R| * |D| ≤ 3 * (l * s) + u := by
  have s0 : 0 ≤ s := (abs_nonneg _).trans hx
  have l0 : 0 ≤ l := (abs_nonneg _).trans ha
  rw [← abs_mul]
  have f : (a * x + b * y + c * z - R) * D = a * (x * D - X) + b * (y * D - Y) + c * (z * D - Z) - R * (D - E) := by
    linear_combination e
  rw [f]
  have t1 : ∀ {p q : ℚ}, |p| ≤ l → |q| ≤ s → |p * q| ≤ l * s := fun hp hq => by
    rw [abs_mul]; exact mul_le_mul hp hq (abs_nonneg _) l0
  have a1 := t1 ha hx
  have a2 := t1 hb hy
  have a3 := t1 hc hz
  have a4 : |R * (D - E)| ≤ u := by rw [abs_mul, _root_.mul_comm]; exact hE
  have := abs_sub (a * (x * D - X) + b * (y * D - Y) + c * (z * D - Z)) (R * (D - E))
  have := abs_add_three (a * (x * D - X)) (b * (y * D - Y)) (c * (z * D - Z))
  linarith

/-- What is known about the computed determinant `D` and the exact one, `E`. -/
structure Dets (D E L T : ℚ) : Prop where
  lo : 92 / 100 * |E| ≤ |D|
  err : |D - E| ≤ 78 / 2 ^ 24 * L ^ 3 + 2 ^ (-90 : ℤ)
  low : 1 / 50000 ≤ |E|
  l0 : 0 ≤ L
  l1 : L ≤ 2 ^ 20
  t0 : 0 ≤ T
  t1 : T ≤ 2 ^ 20

section
variable {D E L T : ℚ}

theorem Dets.pos (h : Dets D E L T) : 0 < |E| := lt_of_lt_of_le (by norm_num) h.low

theorem Dets.fin (h : Dets D E L T) {r b k M : ℚ} (h1 : |r| * |D| ≤ b) (h2 : b ≤ 92 / 100 * (k / 2 ^ 24 * M + 2 ^ (-40 : ℤ) * |E|)) :
    |r| ≤ k / 2 ^ 24 * (M / |E|) + 2 ^ (-40 : ℤ) := by
  have Ep := h.pos
  have e : k / 2 ^ 24 * (M / |E|) + 2 ^ (-40 : ℤ) = (k / 2 ^ 24 * M + 2 ^ (-40 : ℤ) * |E|) / |E| := by field_simp
  rw [e, le_div_iff₀ Ep]
  have := mul_le_mul_of_nonneg_left h.lo (abs_nonneg r)
  linarith

/-- An entry of the linear part, times the determinant. -/
def Lin (D L x X : ℚ) : Prop := |x * D - X| ≤ 11 / 2 ^ 24 * (2 * L ^ 2) + 2 ^ (-80 : ℤ)

/-- An entry of the movement, times the determinant. -/
def Mov (D L T x X : ℚ) : Prop := |x * D - X| ≤ 11 / 2 ^ 24 * (6 * (L ^ 2 * T)) + 2 ^ (-80 : ℤ)

theorem lin_cube (L : ℚ) : 3 * (L * (11 / 2 ^ 24 * (2 * L ^ 2) + 2 ^ (-80 : ℤ))) = 66 / 2 ^ 24 * L ^ 3 + 3 * 2 ^ (-80 : ℤ) * L := by ring

theorem Dets.one (h : Dets D E L T) {a b c x y z X Y Z : ℚ} (hx : Lin D L x X) (hy : Lin D L y Y) (hz : Lin D L z Z) (ha : |a| ≤ L)
    (hb : |b| ≤ L) (hc : |c| ≤ L) (e : a * X + b * Y + c * Z = E) :
    |a * x + b * y + c * z - 1| ≤ 160 / 2 ^ 24 * (L ^ 3 / |E|) + 2 ^ (-40 : ℤ) := by
  refine h.fin (residual (R := 1) (E := E) hx hy hz ha hb hc (by rw [e, one_mul])
    (u := 78 / 2 ^ 24 * L ^ 3 + 2 ^ (-90 : ℤ)) (by rw [abs_one, mul_one]; exact h.err)) ?_
  rw [lin_cube]
  have h1 := h.l1
  have h2 := h.low
  have h3 := pow_nonneg h.l0 3
  generalize |E| = A at *
  generalize L ^ 3 = M at *
  norm_num only at h1 h2 h3 ⊢
  linarith

theorem Dets.nul (h : Dets D E L T) {a b c x y z X Y Z : ℚ} (hx : Lin D L x X) (hy : Lin D L y Y) (hz : Lin D L z Z) (ha : |a| ≤ L)
    (hb : |b| ≤ L) (hc : |c| ≤ L) (e : a * X + b * Y + c * Z = 0) :
    |a * x + b * y + c * z| ≤ 160 / 2 ^ 24 * (L ^ 3 / |E|) + 2 ^ (-40 : ℤ) := by
  have r := residual (R := 0) (E := E) hx hy hz ha hb hc (by rw [e]; ring) (u := 0) (by simp)
  rw [sub_zero] at r
  refine h.fin r ?_
  rw [lin_cube]
  have h1 := h.l1
  have h2 := h.low
  have h3 := pow_nonneg h.l0 3
  generalize |E| = A at *
  generalize L ^ 3 = M at *
  norm_num only at h1 h2 h3 ⊢
  linarith

theorem Dets.last (h : Dets D E L T) {w : ℚ} (hw : |w * D - E| ≤ 11 / 2 ^ 24 * (6 * L ^ 3) + 2 ^ (-80 : ℤ)) :
    |w - 1| ≤ 160 / 2 ^ 24 * (L ^ 3 / |E|) + 2 ^ (-40 : ℤ) := by
  have f : |w - 1| * |D| ≤ 11 / 2 ^ 24 * (6 * L ^ 3) + 2 ^ (-80 : ℤ) + (78 / 2 ^ 24 * L ^ 3 + 2 ^ (-90 : ℤ)) := by
    rw [← abs_mul]
    have e : (w - 1) * D = (w * D - E) - (D - E) := by ring
    rw [e]
    exact (abs_sub _ _).trans (add_le_add hw h.err)
  refine h.fin f ?_
  have h2 := h.low
  have h3 := pow_nonneg h.l0 3
  generalize |E| = A at *
  generalize L ^ 3 = M at *
  norm_num only at h2 h3 ⊢
  linarith

theorem Dets.mov (h : Dets D E L T) {a b c t x y z w X Y Z : ℚ} (hx : Mov D L T x X) (hy : Mov D L T y Y) (hz : Mov D L T z Z)
    (hw : |w * D - E| ≤ 11 / 2 ^ 24 * (6 * L ^ 3) + 2 ^ (-80 : ℤ)) (ha : |a| ≤ L) (hb : |b| ≤ L) (hc : |c| ≤ L) (ht : |t| ≤ T)
    (e : a * X + b * Y + c * Z = -(t * E)) :
    |a * x + b * y + c * z + t * w| ≤ 300 / 2 ^ 24 * (L ^ 3 * T / |E|) + 2 ^ (-40 : ℤ) := by
  have f : |a * x + b * y + c * z + t * w| * |D| ≤ 3 * (L * (11 / 2 ^ 24 * (6 * (L ^ 2 * T)) + 2 ^ (-80 : ℤ))) +
      T * (11 / 2 ^ 24 * (6 * L ^ 3) + 2 ^ (-80 : ℤ)) := by
    rw [← abs_mul]
    have g : (a * x + b * y + c * z + t * w) * D = a * (x * D - X) + b * (y * D - Y) + c * (z * D - Z) + t * (w * D - E) := by
      linear_combination e
    rw [g]
    have t1 : ∀ {p q s : ℚ}, |p| ≤ L → |q| ≤ s → |p * q| ≤ L * s := fun hp hq => by
      rw [abs_mul]; exact mul_le_mul hp hq (abs_nonneg _) h.l0
    have a1 := t1 ha hx
    have a2 := t1 hb hy
    have a3 := t1 hc hz
    have a4 : |t * (w * D - E)| ≤ T * (11 / 2 ^ 24 * (6 * L ^ 3) + 2 ^ (-80 : ℤ)) := by
      rw [abs_mul]; exact mul_le_mul ht hw (abs_nonneg _) h.t0
    have := abs_add_le (a * (x * D - X) + b * (y * D - Y) + c * (z * D - Z)) (t * (w * D - E))
    have := abs_add_three (a * (x * D - X)) (b * (y * D - Y)) (c * (z * D - Z))
    linarith
  refine h.fin f ?_
  have c3 : 3 * (L * (11 / 2 ^ 24 * (6 * (L ^ 2 * T)) + 2 ^ (-80 : ℤ))) + T * (11 / 2 ^ 24 * (6 * L ^ 3) + 2 ^ (-80 : ℤ)) =
      264 / 2 ^ 24 * (L ^ 3 * T) + 3 * 2 ^ (-80 : ℤ) * L + 2 ^ (-80 : ℤ) * T := by ring
  rw [c3]
  have h1 := h.l1
  have h1' := h.t1
  have h2 := h.low
  have h3 := mul_nonneg (pow_nonneg h.l0 3) h.t0
  generalize |E| = A at *
  generalize L ^ 3 * T = M at *
  norm_num only at h1 h1' h2 h3 ⊢
  linarith

theorem Dets.size (h : Dets D E L T) {x X S : ℚ} (hx : |x * D - X| ≤ 11 / 2 ^ 24 * S + 2 ^ (-80 : ℤ)) (hX : |X| ≤ S) :
    |x| ≤ 11 / 10 * (S / |E|) + 2 ^ (-60 : ℤ) := by
  have Ep := h.pos
  have S0 : 0 ≤ S := (abs_nonneg _).trans hX
  have f : |x| * |D| ≤ (1 + 11 / 2 ^ 24) * S + 2 ^ (-80 : ℤ) := by
    rw [← abs_mul]
    have := abs_add_le (x * D - X) X
    rw [sub_add_cancel] at this
    linarith
  have e : 11 / 10 * (S / |E|) + 2 ^ (-60 : ℤ) = (11 / 10 * S + 2 ^ (-60 : ℤ) * |E|) / |E| := by field_simp
  rw [e, le_div_iff₀ Ep]
  have g := mul_le_mul_of_nonneg_left h.lo (abs_nonneg x)
  have g' : |x| * (92 / 100 * |E|) = 92 / 100 * (|x| * |E|) := by ring
  rw [g'] at g
  have low := h.low
  generalize |x| * |E| = P at *
  generalize |x| * |D| = Q at *
  generalize |E| = A at *
  norm_num only at *
  linarith
end

/-- The computed determinant of a placed object, and that there is an inverse. -/
theorem setup {m : M4 F32} {L T : ℚ} (hm : LastRow m) (h : Sizes m L T) (hL : L ≤ 2 ^ 20) (hT : T ≤ 2 ^ 20)
    (hD : 1 / 50000 ≤ |exactDet m|) (hc : 1000 / 2 ^ 24 * L ^ 3 ≤ |exactDet m|) :
    (det m).Finite ∧ Dets (det m).val (exactDet m) L T ∧ 2 ^ (-17 : ℤ) ≤ |(det m).val| ∧ |(det m).val| ≤ 2 ^ (64 : ℤ) ∧
      inverse m ≠ none ∧ |exactDet m| ≤ 6 * L ^ 3 := by
  obtain ⟨fd, ed, bd⟩ := det_near hm h hL hT
  have he := h.entries hL hT
  have L0 : 0 ≤ L := (abs_nonneg _).trans h.lin.1.1
  have T0 : 0 ≤ T := (abs_nonneg _).trans h.mov.1
  have L3 : L ^ 3 ≤ 2 ^ 60 := (pow_le_pow_left₀ L0 hL 3).trans (by norm_num)
  have L30 : 0 ≤ L ^ 3 := pow_nonneg L0 3
  have tri := abs_add_le (exactDet m - (det m).val) (det m).val
  rw [sub_add_cancel, abs_sub_comm] at tri
  have tri' := abs_add_le ((det m).val - exactDet m) (exactDet m)
  rw [sub_add_cancel] at tri'
  have lo : 92 / 100 * |exactDet m| ≤ |(det m).val| := by
    generalize |exactDet m| = A at *
    generalize |(det m).val| = B at *
    generalize |(det m).val - exactDet m| = C at *
    norm_num only at *
    linarith
  have d0 : 2 ^ (-17 : ℤ) ≤ |(det m).val| := by norm_num at *; linarith
  have d1 : |(det m).val| ≤ 2 ^ (64 : ℤ) := by
    generalize |exactDet m| = A at *
    generalize |(det m).val| = B at *
    generalize |(det m).val - exactDet m| = C at *
    norm_num only at *
    linarith
  have ok : inverse m ≠ none := by
    rw [inverse_iff hm he, epsilon_val]
    norm_num at *
    linarith
  exact ⟨fd, ⟨lo, ed, hD, L0, hL, T0, hT⟩, d0, d1, ok, bd⟩

/-- **C168, inverse of a placed object.**  Let the entries of the linear part be at most `L`, those of the movement at most `T`,
and let the determinant `D` be at least `1/50000` and `1000*2^-24*L^3`.  Then there is an inverse; the matrix times it is the
identity up to `160*2^-24*L^3/|D|` in the linear part and `300*2^-24*L^3*T/|D|` in the movement.  For rotations with a common
scale `L^3/|D|` is at most one. -/
theorem C168_inverse_accuracy {m : M4 F32} {L T : ℚ} (hm : LastRow m) (h : Sizes m L T) (hL : L ≤ 2 ^ 20) (hT : T ≤ 2 ^ 20)
    (hD : 1 / 50000 ≤ |exactDet m|) (hc : 1000 / 2 ^ 24 * L ^ 3 ≤ |exactDet m|) :
    ∃ i, inverse m = some i ∧
      let d := 160 / 2 ^ 24 * (L ^ 3 / |exactDet m|) + 2 ^ (-40 : ℤ)
      let u := 300 / 2 ^ 24 * (L ^ 3 * T / |exactDet m|) + 2 ^ (-40 : ℤ)
      (|rowCol m.m00 m.m01 m.m02 i.m00 i.m10 i.m20 - 1| ≤ d ∧ |rowCol m.m00 m.m01 m.m02 i.m01 i.m11 i.m21| ≤ d ∧
        |rowCol m.m00 m.m01 m.m02 i.m02 i.m12 i.m22| ≤ d) ∧
      (|rowCol m.m10 m.m11 m.m12 i.m00 i.m10 i.m20| ≤ d ∧ |rowCol m.m10 m.m11 m.m12 i.m01 i.m11 i.m21 - 1| ≤ d ∧
        |rowCol m.m10 m.m11 m.m12 i.m02 i.m12 i.m22| ≤ d) ∧
      (|rowCol m.m20 m.m21 m.m22 i.m00 i.m10 i.m20| ≤ d ∧ |rowCol m.m20 m.m21 m.m22 i.m01 i.m11 i.m21| ≤ d ∧
        |rowCol m.m20 m.m21 m.m22 i.m02 i.m12 i.m22 - 1| ≤ d) ∧
      (|rowCol m.m00 m.m01 m.m02 i.m03 i.m13 i.m23 + m.m03.val * i.m33.val| ≤ u ∧
        |rowCol m.m10 m.m11 m.m12 i.m03 i.m13 i.m23 + m.m13.val * i.m33.val| ≤ u ∧
        |rowCol m.m20 m.m21 m.m22 i.m03 i.m13 i.m23 + m.m23.val * i.m33.val| ≤ u) ∧
      |i.m33.val - 1| ≤ d := by
  obtain ⟨fd, dt, d0, d1, ok, -⟩ := setup hm h hL hT hD hc
  obtain ⟨⟨c0, c1, c2⟩, ⟨c4, c5, c6⟩, c8, c9, c10⟩ := cof_linear hm h hL hT
  obtain ⟨c3, c7, c11, c15⟩ := cof_moved h hL hT
  obtain ⟨⟨l00, l01, l02⟩, ⟨l10, l11, l12⟩, l20, l21, l22⟩ := h.lin
  obtain ⟨t0, t1, t2⟩ := h.mov
  obtain ⟨i, hi⟩ := Option.ne_none_iff_exists'.1 ok
  refine ⟨i, hi, ?_⟩
  unfold inverse at hi
  split at hi
  · exact absurd hi (by simp)
  · simp only [Option.some.injEq] at hi
    subst hi
    dsimp only
    have n0 := (entry c0 fd d0 d1).2.1
    have n1 := (entry c1 fd d0 d1).2.1
    have n2 := (entry c2 fd d0 d1).2.1
    have n3 := (entry c3 fd d0 d1).2.1
    have n4 := (entry c4 fd d0 d1).2.1
    have n5 := (entry c5 fd d0 d1).2.1
    have n6 := (entry c6 fd d0 d1).2.1
    have n7 := (entry c7 fd d0 d1).2.1
    have n8 := (entry c8 fd d0 d1).2.1
    have n9 := (entry c9 fd d0 d1).2.1
    have n10 := (entry c10 fd d0 d1).2.1
    have n11 := (entry c11 fd d0 d1).2.1
    have n15 := (entry c15 fd d0 d1).2.1
    clear c0 c1 c2 c3 c4 c5 c6 c7 c8 c9 c10 c11 c15
    unfold rowCol
    refine ⟨⟨dt.one n0 n4 n8 l00 l01 l02 (by unfold exactDet; ring), dt.nul n1 n5 n9 l00 l01 l02 (by ring),
      dt.nul n2 n6 n10 l00 l01 l02 (by ring)⟩, ⟨dt.nul n0 n4 n8 l10 l11 l12 (by ring), dt.one n1 n5 n9 l10 l11 l12 (by unfold exactDet; ring),
      dt.nul n2 n6 n10 l10 l11 l12 (by ring)⟩, ⟨dt.nul n0 n4 n8 l20 l21 l22 (by ring), dt.nul n1 n5 n9 l20 l21 l22 (by ring),
      dt.one n2 n6 n10 l20 l21 l22 (by unfold exactDet; ring)⟩, ⟨dt.mov n3 n7 n11 n15 l00 l01 l02 t0 (by unfold exactDet; ring),
      dt.mov n3 n7 n11 n15 l10 l11 l12 t1 (by unfold exactDet; ring), dt.mov n3 n7 n11 n15 l20 l21 l22 t2 (by unfold exactDet; ring)⟩, dt.last n15⟩

/-! ### Rays taken to the object and back -/

/-- The entries of the inverse: finite, and their sizes. -/
theorem inverse_sizes {m i : M4 F32} {L T : ℚ} (hm : LastRow m) (h : Sizes m L T) (hL : L ≤ 2 ^ 20) (hT : T ≤ 2 ^ 20)
    (hD : 1 / 50000 ≤ |exactDet m|) (hc : 1000 / 2 ^ 24 * L ^ 3 ≤ |exactDet m|) (hi : inverse m = some i) :
    Sizes i (22 / 10 * (L ^ 2 / |exactDet m|) + 2 ^ (-60 : ℤ)) (66 / 10 * (L ^ 2 * T / |exactDet m|) + 2 ^ (-60 : ℤ)) ∧
    i.m33.Finite ∧ rnd32 i.m33.val = i.m33.val := by
  obtain ⟨fd, dt, d0, d1, ok, -⟩ := setup hm h hL hT hD hc
  obtain ⟨⟨c0, c1, c2⟩, ⟨c4, c5, c6⟩, c8, c9, c10⟩ := cof_linear hm h hL hT
  obtain ⟨c3, c7, c11, c15⟩ := cof_moved h hL hT
  unfold inverse at hi
  split at hi
  · exact absurd hi (by simp)
  · simp only [Option.some.injEq] at hi
    subst hi
    have lin : ∀ {x : F32} {X : ℚ}, Cf x X (2 * L ^ 2) → (F32.mul x (F32.div (num 1) (det m))).Finite ∧
        |(F32.mul x (F32.div (num 1) (det m))).val| ≤ 22 / 10 * (L ^ 2 / |exactDet m|) + 2 ^ (-60 : ℤ) := fun c => by
      obtain ⟨f, e, -⟩ := entry c fd d0 d1
      exact ⟨f, (dt.size e c.2.2.1).trans (le_of_eq (by ring))⟩
    have mov : ∀ {x : F32} {X : ℚ}, Cf x X (6 * (L ^ 2 * T)) → (F32.mul x (F32.div (num 1) (det m))).Finite ∧
        |(F32.mul x (F32.div (num 1) (det m))).val| ≤ 66 / 10 * (L ^ 2 * T / |exactDet m|) + 2 ^ (-60 : ℤ) := fun c => by
      obtain ⟨f, e, -⟩ := entry c fd d0 d1
      exact ⟨f, (dt.size e c.2.2.1).trans (le_of_eq (by ring))⟩
    obtain ⟨f, -, r⟩ := entry c15 fd d0 d1
    exact ⟨⟨⟨⟨(lin c0).1, (lin c1).1, (lin c2).1, (mov c3).1⟩, ⟨(lin c4).1, (lin c5).1, (lin c6).1, (mov c7).1⟩, (lin c8).1,
      (lin c9).1, (lin c10).1, (mov c11).1⟩, ⟨⟨(lin c0).2, (lin c1).2, (lin c2).2⟩, ⟨(lin c4).2, (lin c5).2, (lin c6).2⟩,
      (lin c8).2, (lin c9).2, (lin c10).2⟩, (mov c3).2, (mov c7).2, (mov c11).2⟩, f, r⟩

/-- A row of the matrix times the image under the inverse. -/
theorem back_row {a b c t n00 n01 n02 n03 n10 n11 n12 n13 n20 n21 n22 n23 n33 x y z q0 q1 q2 δ0 δ1 δ2 d u L T B s : ℚ}
    (r0 : |a * n00 + b * n10 + c * n20 - δ0| ≤ d) (r1 : |a * n01 + b * n11 + c * n21 - δ1| ≤ d)
    (r2 : |a * n02 + b * n12 + c * n22 - δ2| ≤ d) (r3 : |a * n03 + b * n13 + c * n23 + t * n33| ≤ u) (r4 : |n33 - 1| ≤ d)
    (hx : |x| ≤ B) (hy : |y| ≤ B) (hz : |z| ≤ B) (ha : |a| ≤ L) (hb : |b| ≤ L) (hc : |c| ≤ L) (ht : |t| ≤ T)
    (e0 : |q0 - (n00 * x + n01 * y + n02 * z + n03)| ≤ s) (e1 : |q1 - (n10 * x + n11 * y + n12 * z + n13)| ≤ s)
    (e2 : |q2 - (n20 * x + n21 * y + n22 * z + n23)| ≤ s) :
    |a * q0 + b * q1 + c * q2 + t - (δ0 * x + δ1 * y + δ2 * z)| ≤ 3 * (d * B) + u + T * d + 3 * (L * s) := by
  have e : a * q0 + b * q1 + c * q2 + t - (δ0 * x + δ1 * y + δ2 * z) =
      ((a * n00 + b * n10 + c * n20 - δ0) * x + (a * n01 + b * n11 + c * n21 - δ1) * y + (a * n02 + b * n12 + c * n22 - δ2) * z) +
      (a * n03 + b * n13 + c * n23 + t * n33) - t * (n33 - 1) +
      (a * (q0 - (n00 * x + n01 * y + n02 * z + n03)) + b * (q1 - (n10 * x + n11 * y + n12 * z + n13)) +
        c * (q2 - (n20 * x + n21 * y + n22 * z + n23))) := by ring
  rw [e]
  have p : ∀ {v w V W : ℚ}, |v| ≤ V → |w| ≤ W → |v * w| ≤ V * W := fun hv hw => by
    rw [abs_mul]; exact mul_le_mul hv hw (abs_nonneg _) ((abs_nonneg _).trans hv)
  have p1 := p r0 hx
  have p2 := p r1 hy
  have p3 := p r2 hz
  have p4 := p ht r4
  have p5 := p ha e0
  have p6 := p hb e1
  have p7 := p hc e2
  rw [abs_le] at *
  constructor <;> linarith [p1.1, p1.2, p2.1, p2.2, p3.1, p3.2, p4.1, p4.2, p5.1, p5.2, p6.1, p6.2, p7.1, p7.2, r3.1, r3.2]

/-- The same after the division by the fourth coordinate. -/
theorem back_div {a b c t p0 p1 p2 q0 q1 q2 g O R γ B T L s : ℚ} (h : |a * q0 + b * q1 + c * q2 + t - O| ≤ R) (hg : |g - 1| ≤ γ)
    (hO : |O| ≤ B) (ht : |t| ≤ T) (ha : |a| ≤ L) (hb : |b| ≤ L) (hc : |c| ≤ L) (e0 : |p0 - q0 * g| ≤ s) (e1 : |p1 - q1 * g| ≤ s)
    (e2 : |p2 - q2 * g| ≤ s) : |a * p0 + b * p1 + c * p2 + t - O| ≤ (1 + γ) * R + γ * (B + T) + 3 * (L * s) := by
  have e : a * p0 + b * p1 + c * p2 + t - O = (a * q0 + b * q1 + c * q2 + t - O) + (g - 1) * (a * q0 + b * q1 + c * q2 + t - O) +
      (g - 1) * (O - t) + (a * (p0 - q0 * g) + b * (p1 - q1 * g) + c * (p2 - q2 * g)) := by ring
  rw [e]
  have p : ∀ {v w V W : ℚ}, |v| ≤ V → |w| ≤ W → |v * w| ≤ V * W := fun hv hw => by
    rw [abs_mul]; exact mul_le_mul hv hw (abs_nonneg _) ((abs_nonneg _).trans hv)
  have k1 := p hg h
  have k2 := p hg ((abs_sub O t).trans (add_le_add hO ht))
  have k3 := p ha e0
  have k4 := p hb e1
  have k5 := p hc e2
  rw [abs_le] at *
  constructor <;> linarith [k1.1, k1.2, k2.1, k2.2, k3.1, k3.2, k4.1, k4.2, k5.1, k5.2, h.1, h.2]

/-- One coordinate of the image of a point. -/
theorem image_near {a b c t : F32} {o : V3 F32} {n v B : ℚ} (fa : a.Finite) (fb : b.Finite) (fc : c.Finite) (ft : t.Finite)
    (ha : |a.val| ≤ n) (hb : |b.val| ≤ n) (hc : |c.val| ≤ n) (ht : |t.val| ≤ v) (hn : n ≤ 2 ^ (60 : ℤ)) (hv : v ≤ 2 ^ (80 : ℤ))
    (fo : Fin3 o) (hx : |o.x.val| ≤ B) (hy : |o.y.val| ≤ B) (hz : |o.z.val| ≤ B) (hB : B ≤ 2 ^ (20 : ℤ)) :
    (row a b c t o).Finite ∧
    |(row a b c t o).val - (a.val * o.x.val + b.val * o.y.val + c.val * o.z.val + t.val)| ≤ 5 / 2 ^ 24 * (3 * (n * B) + v) + 2 ^ (-147 : ℤ) ∧
    |(row a b c t o).val| ≤ 11 / 10 * (3 * (n * B) + v) + 2 ^ (-147 : ℤ) := by
  obtain ⟨u, e⟩ := row_val (i := 60) (j := 20) (p := o) ⟨fa, ha.trans hn⟩ ⟨fb, hb.trans hn⟩ ⟨fc, hc.trans hn⟩ ⟨ft, ht.trans hv⟩
    ⟨⟨fo.1, hx.trans hB⟩, ⟨fo.2.1, hy.trans hB⟩, fo.2.2, hz.trans hB⟩ (by norm_num) (by norm_num)
  have r := rowQ_err (a.val * o.x.val) (b.val * o.y.val) (c.val * o.z.val) t.val
  rw [← e] at r
  have p : ∀ {x y : ℚ}, |x| ≤ n → |y| ≤ B → |x * y| ≤ n * B := fun h1 h2 => by
    rw [abs_mul]; exact mul_le_mul h1 h2 (abs_nonneg _) ((abs_nonneg _).trans h1)
  have k1 := p ha hx
  have k2 := p hb hy
  have k3 := p hc hz
  have nB : 0 ≤ n * B := (abs_nonneg _).trans k1
  have v0 : 0 ≤ v := (abs_nonneg _).trans ht
  have sm : |(row a b c t o).val - (a.val * o.x.val + b.val * o.y.val + c.val * o.z.val + t.val)| ≤
      5 / 2 ^ 24 * (3 * (n * B) + v) + 2 ^ (-147 : ℤ) := by
    refine r.trans ?_
    generalize |a.val * o.x.val| = x1 at *
    generalize |b.val * o.y.val| = x2 at *
    generalize |c.val * o.z.val| = x3 at *
    generalize |t.val| = x4 at *
    norm_num only at *
    linarith
  refine ⟨u.1, sm, ?_⟩
  have t1 := abs_add_three (a.val * o.x.val) (b.val * o.y.val) (c.val * o.z.val)
  have t2 := abs_add_le (a.val * o.x.val + b.val * o.y.val + c.val * o.z.val) t.val
  have t3 := abs_add_le ((row a b c t o).val - (a.val * o.x.val + b.val * o.y.val + c.val * o.z.val + t.val))
    (a.val * o.x.val + b.val * o.y.val + c.val * o.z.val + t.val)
  rw [sub_add_cancel] at t3
  norm_num only at *
  linarith

/-- One coordinate of the image of a vector. -/
theorem image3_near {a b c : F32} {o : V3 F32} {n B : ℚ} (fa : a.Finite) (fb : b.Finite) (fc : c.Finite)
    (ha : |a.val| ≤ n) (hb : |b.val| ≤ n) (hc : |c.val| ≤ n) (hn : n ≤ 2 ^ (60 : ℤ))
    (fo : Fin3 o) (hx : |o.x.val| ≤ B) (hy : |o.y.val| ≤ B) (hz : |o.z.val| ≤ B) (hB : B ≤ 2 ^ (20 : ℤ)) :
    (row3 a b c o).Finite ∧
    |(row3 a b c o).val - (a.val * o.x.val + b.val * o.y.val + c.val * o.z.val)| ≤ 5 / 2 ^ 24 * (3 * (n * B)) + 2 ^ (-147 : ℤ) := by
  have self : ∀ {x y : F32} , x.Finite → |x.val| ≤ n → y.Finite → |y.val| ≤ B →
      Ae 80 (1 / 2 ^ 24) (2 ^ (-150 : ℤ)) (F32.mul x y) (x.val * y.val) (n * B) := by
    intro x y fx hx fy hy
    have h := ae_mul (k' := 1 / 2 ^ 24) (t' := 2 ^ (-150 : ℤ)) (ae_self (j := 60) ⟨fx, hx.trans hn⟩) (l := 20) ⟨fy, hy.trans hB⟩ le_rfl
      (by norm_num) (by norm_num) (by norm_num) (by norm_num) (by norm_num)
    refine h.to (by norm_num) rfl (mul_le_mul hx hy (abs_nonneg _) ((abs_nonneg _).trans hx)) ?_
    have : n * B ≤ 2 ^ (60 : ℤ) * 2 ^ (20 : ℤ) := mul_le_mul hn hB ((abs_nonneg _).trans hy) (two_zpow_pos _).le
    exact this.trans (by norm_num)
  have m1 := self fa ha fo.1 hx
  have m2 := self fb hb fo.2.1 hy
  have m3 := self fc hc fo.2.2 hz
  have s1 := ae_add (k' := 21 / 10 / 2 ^ 24) (t' := 2 ^ (-148 : ℤ)) m1 m2 (by norm_num) (by norm_num) (by norm_num) (by norm_num)
    (by norm_num)
  have s2 := ae_add (k' := 5 / 2 ^ 24) (t' := 2 ^ (-147 : ℤ)) s1 ((m3.to (by norm_num) rfl le_rfl (m3.2.2.2.trans (by norm_num))).wide
    (k' := 21 / 10 / 2 ^ 24) (by norm_num) le_rfl) (by norm_num) (by norm_num) (by norm_num) (by norm_num) (by norm_num)
  refine ⟨s2.1, s2.2.1.trans (le_of_eq ?_)⟩
  ring

section
variable {L T B E : ℚ}

/-- The sum of the errors of a point. -/
theorem total_point (l0 : 0 ≤ L) (l1 : L ≤ 2 ^ 20) (t0 : 0 ≤ T) (b0 : 0 ≤ B) (b1 : B ≤ 2 ^ 20) (hE : 0 < E)
    (h6 : E ≤ 6 * L ^ 3) (hc : 1000 / 2 ^ 24 * L ^ 3 ≤ E) :
    (1 + 202 / 2 ^ 24 * (L ^ 3 / E)) * (3 * ((160 / 2 ^ 24 * (L ^ 3 / E) + 2 ^ (-40 : ℤ)) * B) +
        (300 / 2 ^ 24 * (L ^ 3 * T / E) + 2 ^ (-40 : ℤ)) + T * (160 / 2 ^ 24 * (L ^ 3 / E) + 2 ^ (-40 : ℤ)) +
        3 * (L * (5 / 2 ^ 24 * (3 * ((22 / 10 * (L ^ 2 / E) + 2 ^ (-60 : ℤ)) * B) + (66 / 10 * (L ^ 2 * T / E) + 2 ^ (-60 : ℤ))) +
          2 ^ (-147 : ℤ)))) + 202 / 2 ^ 24 * (L ^ 3 / E) * (B + T) +
      3 * (L * (13 / 10 / 2 ^ 24 * (11 / 10 * (3 * ((22 / 10 * (L ^ 2 / E) + 2 ^ (-60 : ℤ)) * B) +
        (66 / 10 * (L ^ 2 * T / E) + 2 ^ (-60 : ℤ))) + 2 ^ (-147 : ℤ)) + 2 ^ (-150 : ℤ))) ≤
    1000 / 2 ^ 24 * (L ^ 3 / E * (B + T)) + 2 ^ (-30 : ℤ) := by
  have r0 : 0 ≤ L ^ 3 / E := by positivity
  have r1 : 1000 / 2 ^ 24 * (L ^ 3 / E) ≤ 1 := by rw [← mul_div_assoc, div_le_one hE]; exact hc
  have r2 : 1 ≤ 6 * (L ^ 3 / E) := by rw [← mul_div_assoc, le_div_iff₀ hE]; linarith
  have e1 : L ^ 3 * T / E = L ^ 3 / E * T := by ring
  have e2 : L * (L ^ 2 / E * B) = L ^ 3 / E * B := by ring
  have e3 : L * (L ^ 2 * T / E) = L ^ 3 / E * T := by ring
  have P0 : 0 ≤ L ^ 3 / E * B := by positivity
  have Q0 : 0 ≤ L ^ 3 / E * T := by positivity
  have lb : L * B ≤ 2 ^ 40 := (mul_le_mul l1 b1 b0 (by norm_num)).trans (by norm_num)
  have lb0 : 0 ≤ L * B := by positivity
  have x1 : B ≤ 6 * (L ^ 3 / E * B) := by have := mul_le_mul_of_nonneg_right r2 b0; linarith
  have x2 : T ≤ 6 * (L ^ 3 / E * T) := by have := mul_le_mul_of_nonneg_right r2 t0; linarith
  -- the errors before the division
  have hR : 3 * ((160 / 2 ^ 24 * (L ^ 3 / E) + 2 ^ (-40 : ℤ)) * B) +
        (300 / 2 ^ 24 * (L ^ 3 * T / E) + 2 ^ (-40 : ℤ)) + T * (160 / 2 ^ 24 * (L ^ 3 / E) + 2 ^ (-40 : ℤ)) +
        3 * (L * (5 / 2 ^ 24 * (3 * ((22 / 10 * (L ^ 2 / E) + 2 ^ (-60 : ℤ)) * B) + (66 / 10 * (L ^ 2 * T / E) + 2 ^ (-60 : ℤ))) +
          2 ^ (-147 : ℤ))) ≤ 580 / 2 ^ 24 * (L ^ 3 / E * B) + 560 / 2 ^ 24 * (L ^ 3 / E * T) + 2 ^ (-36 : ℤ) := by
    have f : 3 * ((160 / 2 ^ 24 * (L ^ 3 / E) + 2 ^ (-40 : ℤ)) * B) +
        (300 / 2 ^ 24 * (L ^ 3 * T / E) + 2 ^ (-40 : ℤ)) + T * (160 / 2 ^ 24 * (L ^ 3 / E) + 2 ^ (-40 : ℤ)) +
        3 * (L * (5 / 2 ^ 24 * (3 * ((22 / 10 * (L ^ 2 / E) + 2 ^ (-60 : ℤ)) * B) + (66 / 10 * (L ^ 2 * T / E) + 2 ^ (-60 : ℤ))) +
          2 ^ (-147 : ℤ))) = 579 / 2 ^ 24 * (L ^ 3 / E * B) + 559 / 2 ^ 24 * (L ^ 3 / E * T) + 2 ^ (-40 : ℤ) * (3 * B + 1 + T) +
          15 / 2 ^ 24 * 2 ^ (-60 : ℤ) * (3 * (L * B) + L) + 3 * 2 ^ (-147 : ℤ) * L := by
      rw [e1]
      linear_combination 99 / 2 ^ 24 * e2 + 99 / 2 ^ 24 * e3
    rw [f]
    generalize L ^ 3 / E * B = P at *
    generalize L ^ 3 / E * T = Q at *
    generalize L * B = W at *
    norm_num only at *
    linarith
  have hR0 : (0 : ℚ) ≤ 580 / 2 ^ 24 * (L ^ 3 / E * B) + 560 / 2 ^ 24 * (L ^ 3 / E * T) + 2 ^ (-36 : ℤ) := by positivity
  have hg : 1 + 202 / 2 ^ 24 * (L ^ 3 / E) ≤ 1202 / 1000 := by norm_num at r1 ⊢; linarith
  have hg0 : 0 ≤ 1 + 202 / 2 ^ 24 * (L ^ 3 / E) := by positivity
  have h1 := (mul_le_mul_of_nonneg_left hR hg0).trans (mul_le_mul_of_nonneg_right hg hR0)
  have h2 : 3 * (L * (13 / 10 / 2 ^ 24 * (11 / 10 * (3 * ((22 / 10 * (L ^ 2 / E) + 2 ^ (-60 : ℤ)) * B) +
        (66 / 10 * (L ^ 2 * T / E) + 2 ^ (-60 : ℤ))) + 2 ^ (-147 : ℤ)) + 2 ^ (-150 : ℤ))) ≤
      30 / 2 ^ 24 * (L ^ 3 / E * B) + 30 / 2 ^ 24 * (L ^ 3 / E * T) + 2 ^ (-36 : ℤ) := by
    have f : 3 * (L * (13 / 10 / 2 ^ 24 * (11 / 10 * (3 * ((22 / 10 * (L ^ 2 / E) + 2 ^ (-60 : ℤ)) * B) +
        (66 / 10 * (L ^ 2 * T / E) + 2 ^ (-60 : ℤ))) + 2 ^ (-147 : ℤ)) + 2 ^ (-150 : ℤ))) =
        39 / 10 / 2 ^ 24 * (726 / 100 * (L ^ 3 / E * B) + 726 / 100 * (L ^ 3 / E * T) + 2 ^ (-60 : ℤ) * (11 / 10 * (3 * (L * B) + L)) +
          2 ^ (-147 : ℤ) * L) + 3 * 2 ^ (-150 : ℤ) * L := by
      linear_combination (39 / 10 / 2 ^ 24 * (726 / 100)) * e2 + (39 / 10 / 2 ^ 24 * (726 / 100)) * e3
    rw [f]
    generalize L ^ 3 / E * B = P at *
    generalize L ^ 3 / E * T = Q at *
    generalize L * B = W at *
    norm_num only at *
    linarith
  refine (add_le_add (add_le_add h1 le_rfl) h2).trans ?_
  have f : 202 / 2 ^ 24 * (L ^ 3 / E) * (B + T) = 202 / 2 ^ 24 * (L ^ 3 / E * B) + 202 / 2 ^ 24 * (L ^ 3 / E * T) := by ring
  have f' : 1000 / 2 ^ 24 * (L ^ 3 / E * (B + T)) = 1000 / 2 ^ 24 * (L ^ 3 / E * B) + 1000 / 2 ^ 24 * (L ^ 3 / E * T) := by ring
  rw [f, f']
  generalize L ^ 3 / E * B = P at *
  generalize L ^ 3 / E * T = Q at *
  norm_num only at *
  linarith

/-- The sum of the errors of a direction. -/
theorem total_vector (l0 : 0 ≤ L) (l1 : L ≤ 2 ^ 20) (b0 : 0 ≤ B) (b1 : B ≤ 2 ^ 20) (hE : 0 < E) (h6 : E ≤ 6 * L ^ 3) :
    3 * ((160 / 2 ^ 24 * (L ^ 3 / E) + 2 ^ (-40 : ℤ)) * B) +
      3 * (L * (5 / 2 ^ 24 * (3 * ((22 / 10 * (L ^ 2 / E) + 2 ^ (-60 : ℤ)) * B)) + 2 ^ (-147 : ℤ))) ≤
    600 / 2 ^ 24 * (L ^ 3 / E * B) + 2 ^ (-30 : ℤ) := by
  have r2 : 1 ≤ 6 * (L ^ 3 / E) := by rw [← mul_div_assoc, le_div_iff₀ hE]; linarith
  have e2 : L * (L ^ 2 / E * B) = L ^ 3 / E * B := by ring
  have P0 : 0 ≤ L ^ 3 / E * B := by positivity
  have lb : L * B ≤ 2 ^ 40 := (mul_le_mul l1 b1 b0 (by norm_num)).trans (by norm_num)
  have lb0 : 0 ≤ L * B := by positivity
  have x1 : B ≤ 6 * (L ^ 3 / E * B) := by have := mul_le_mul_of_nonneg_right r2 b0; linarith
  have f : 3 * ((160 / 2 ^ 24 * (L ^ 3 / E) + 2 ^ (-40 : ℤ)) * B) +
      3 * (L * (5 / 2 ^ 24 * (3 * ((22 / 10 * (L ^ 2 / E) + 2 ^ (-60 : ℤ)) * B)) + 2 ^ (-147 : ℤ))) =
      579 / 2 ^ 24 * (L ^ 3 / E * B) + 2 ^ (-40 : ℤ) * (3 * B) + 15 / 2 ^ 24 * 2 ^ (-60 : ℤ) * (3 * (L * B)) + 3 * 2 ^ (-147 : ℤ) * L := by
    linear_combination 99 / 2 ^ 24 * e2
  rw [f]
  generalize L ^ 3 / E * B = P at *
  generalize L * B = W at *
  norm_num only at *
  linarith
end

/-- The reciprocal of the last entry of the inverse. -/
theorem recip_near {w : F32} {d γ : ℚ} (fw : w.Finite) (hw : |w.val - 1| ≤ d) (hd : d ≤ 17 / 100)
    (hγ : 121 / 100 * d + 13 / 10 / 2 ^ 24 ≤ γ) :
    (F32.div (num 1) w).Finite ∧ |(F32.div (num 1) w).val - 1| ≤ γ ∧ |(F32.div (num 1) w).val| ≤ 13 / 10 := by
  have hw' := abs_le.1 hw
  have d0 : 0 ≤ d := (abs_nonneg _).trans hw
  have wp : 83 / 100 ≤ w.val := by linarith
  have w0 : w.val ≠ 0 := by linarith
  have wpos : 0 < w.val := by linarith
  have v1 : (num 1).val = 1 := rfl
  have e : 1 / w.val - 1 = (1 - w.val) / w.val := by field_simp
  have a : |1 / w.val - 1| ≤ 121 / 100 * d := by
    rw [e, abs_div, abs_of_pos wpos, abs_sub_comm, div_le_iff₀ wpos]
    have := mul_le_mul_of_nonneg_left wp d0
    linarith
  have b : |1 / w.val| ≤ 121 / 100 := by
    rw [abs_of_pos (by positivity), div_le_iff₀ wpos]
    linarith
  obtain ⟨f, v⟩ := div_finite (show (num 1).Finite from trivial) fw w0
    (lt_of_le_of_lt (FTri.rnd32_abs_le (k := 1) (by norm_num) (by rw [v1]; exact b.trans (by norm_num))) (FTri.pow_lt128 (by norm_num)))
  rw [v1] at v
  have r := rnd32_err' (1 / w.val)
  rw [← v] at r
  refine ⟨f, ?_, ?_⟩
  · have t := abs_add_le ((F32.div (num 1) w).val - 1 / w.val) (1 / w.val - 1)
    rw [sub_add_sub_cancel] at t
    generalize |1 / w.val| = A at *
    norm_num only at *
    linarith
  · have t := abs_add_le ((F32.div (num 1) w).val - 1 / w.val) (1 / w.val)
    rw [sub_add_cancel] at t
    generalize |1 / w.val| = A at *
    norm_num only at *
    linarith

/-- A coordinate divided by it. -/
theorem scaled_near {q g : F32} {M : ℚ} (fq : q.Finite) (hq : |q.val| ≤ M) (hM : M ≤ 2 ^ (90 : ℤ)) (fg : g.Finite) (hg : |g.val| ≤ 13 / 10) :
    (F32.mul q g).Finite ∧ |(F32.mul q g).val - q.val * g.val| ≤ 13 / 10 / 2 ^ 24 * M + 2 ^ (-150 : ℤ) := by
  obtain ⟨u, v⟩ := upto_mul (i := 90) (j := 1) ⟨fq, hq.trans hM⟩ ⟨fg, hg.trans (by norm_num)⟩ (by norm_num) (by norm_num)
  refine ⟨u.1, ?_⟩
  rw [v]
  have r := rnd32_err' (q.val * g.val)
  have p : |q.val * g.val| ≤ M * (13 / 10) := by
    rw [abs_mul]; exact mul_le_mul hq hg (abs_nonneg _) ((abs_nonneg _).trans hq)
  generalize |q.val * g.val| = A at *
  norm_num only at *
  linarith

/-- **C168, rays taken to the object and back.**  Let the object be placed as in `C168_inverse_accuracy`, with the
coordinates of the origin at most `B`.  The matrix takes the origin of the object ray back to the origin of the ray up to
`1000*2^-24*L^3/|D|*(B+T)`. -/
theorem C168_round_trip_origin {m i : M4 F32} {L T B : ℚ} (hm : LastRow m) (h : Sizes m L T) (hL : L ≤ 2 ^ 20) (hT : T ≤ 2 ^ 20)
    (hD : 1 / 50000 ≤ |exactDet m|) (hc : 1000 / 2 ^ 24 * L ^ 3 ≤ |exactDet m|) (hi : inverse m = some i) {o d : V3 F32}
    (fo : Fin3 o) (hx : |o.x.val| ≤ B) (hy : |o.y.val| ≤ B) (hz : |o.z.val| ≤ B) (hB : B ≤ 2 ^ 20) :
    let p := (objectRay i o d).1
    let r := 1000 / 2 ^ 24 * (L ^ 3 / |exactDet m| * (B + T)) + 2 ^ (-30 : ℤ)
    Fin3 p ∧ |rowCol m.m00 m.m01 m.m02 p.x p.y p.z + m.m03.val - o.x.val| ≤ r ∧
      |rowCol m.m10 m.m11 m.m12 p.x p.y p.z + m.m13.val - o.y.val| ≤ r ∧
      |rowCol m.m20 m.m21 m.m22 p.x p.y p.z + m.m23.val - o.z.val| ≤ r := by
  obtain ⟨-, dt, -, -, -, h6⟩ := setup hm h hL hT hD hc
  obtain ⟨sz, f33, r33⟩ := inverse_sizes hm h hL hT hD hc hi
  obtain ⟨-, ⟨z0, z1, z2⟩, u33⟩ := C168_inverse_partial hm (h.entries hL hT) hi
  obtain ⟨i', hi', rows⟩ := C168_inverse_accuracy hm h hL hT hD hc
  rw [hi, Option.some.injEq] at hi'
  subst hi'
  dsimp only at rows
  obtain ⟨⟨a00, a01, a02⟩, ⟨a10, a11, a12⟩, ⟨a20, a21, a22⟩, ⟨b0, b1, b2⟩, b3⟩ := rows
  have Ep := dt.pos
  have L0 := dt.l0
  have T0 := dt.t0
  have B0 : 0 ≤ B := (abs_nonneg _).trans hx
  have tot := total_point L0 hL T0 B0 hB Ep h6 hc
  -- sizes
  have inv1 : 1 / |exactDet m| ≤ 50000 := by rw [div_le_iff₀ Ep]; linarith
  have inv0 : 0 ≤ 1 / |exactDet m| := by positivity
  have n60 : 22 / 10 * (L ^ 2 / |exactDet m|) + 2 ^ (-60 : ℤ) ≤ (2 : ℚ) ^ (60 : ℤ) := by
    have e : L ^ 2 / |exactDet m| = L ^ 2 * (1 / |exactDet m|) := by ring
    have := mul_le_mul (pow_le_pow_left₀ L0 hL 2) inv1 inv0 (by norm_num)
    rw [e]
    refine (add_le_add (mul_le_mul_of_nonneg_left this (by norm_num)) le_rfl).trans ?_
    norm_num
  have v80 : 66 / 10 * (L ^ 2 * T / |exactDet m|) + 2 ^ (-60 : ℤ) ≤ (2 : ℚ) ^ (80 : ℤ) := by
    have e : L ^ 2 * T / |exactDet m| = L ^ 2 * T * (1 / |exactDet m|) := by ring
    have := mul_le_mul (mul_le_mul (pow_le_pow_left₀ L0 hL 2) hT T0 (by norm_num)) inv1 inv0 (by norm_num)
    rw [e]
    refine (add_le_add (mul_le_mul_of_nonneg_left this (by norm_num)) le_rfl).trans ?_
    norm_num
  have rho : 1000 / 2 ^ 24 * (L ^ 3 / |exactDet m|) ≤ 1 := by rw [← mul_div_assoc, div_le_one Ep]; exact hc
  have rho6 : 1 ≤ 6 * (L ^ 3 / |exactDet m|) := by rw [← mul_div_assoc, le_div_iff₀ Ep]; linarith
  obtain ⟨⟨l00, l01, l02⟩, ⟨l10, l11, l12⟩, l20, l21, l22⟩ := h.lin
  obtain ⟨t0, t1, t2⟩ := h.mov
  obtain ⟨⟨g00, g01, g02, g03⟩, ⟨g10, g11, g12, g13⟩, g20, g21, g22, g23⟩ := sz.fin
  obtain ⟨⟨k00, k01, k02⟩, ⟨k10, k11, k12⟩, k20, k21, k22⟩ := sz.lin
  obtain ⟨k03, k13, k23⟩ := sz.mov
  have hB' : B ≤ (2 : ℚ) ^ (20 : ℤ) := hB
  obtain ⟨f0, e0, s0⟩ := image_near g00 g01 g02 g03 k00 k01 k02 k03 n60 v80 fo hx hy hz hB'
  obtain ⟨f1, e1, s1⟩ := image_near g10 g11 g12 g13 k10 k11 k12 k13 n60 v80 fo hx hy hz hB'
  obtain ⟨f2, e2, s2⟩ := image_near g20 g21 g22 g23 k20 k21 k22 k23 n60 v80 fo hx hy hz hB'
  have R0 := back_row (δ0 := 1) (δ1 := 0) (δ2 := 0) a00 (by rw [sub_zero]; exact a01) (by rw [sub_zero]; exact a02) b0 b3 hx hy hz
    l00 l01 l02 t0 e0 e1 e2
  have R1 := back_row (δ0 := 0) (δ1 := 1) (δ2 := 0) (by rw [sub_zero]; exact a10) a11 (by rw [sub_zero]; exact a12) b1 b3 hx hy hz
    l10 l11 l12 t1 e0 e1 e2
  have R2 := back_row (δ0 := 0) (δ1 := 0) (δ2 := 1) (by rw [sub_zero]; exact a20) (by rw [sub_zero]; exact a21) a22 b2 b3 hx hy hz
    l20 l21 l22 t2 e0 e1 e2
  rw [show (1 : ℚ) * o.x.val + 0 * o.y.val + 0 * o.z.val = o.x.val by ring] at R0
  rw [show (0 : ℚ) * o.x.val + 1 * o.y.val + 0 * o.z.val = o.y.val by ring] at R1
  rw [show (0 : ℚ) * o.x.val + 0 * o.y.val + 1 * o.z.val = o.z.val by ring] at R2
  -- the fourth coordinate
  obtain ⟨fw, vw⟩ : (row i.m30 i.m31 i.m32 i.m33 o).Finite ∧ (row i.m30 i.m31 i.m32 i.m33 o).val = i.m33.val :=
    add_zero_left (zero_add (zero_add (zero_mul z0 fo.1) (zero_mul z1 fo.2.1)) (zero_mul z2 fo.2.2)) ⟨f33, rfl⟩ r33
      (lt_of_le_of_lt u33.2 (by norm_num))
  have M90 : 11 / 10 * (3 * ((22 / 10 * (L ^ 2 / |exactDet m|) + 2 ^ (-60 : ℤ)) * B) + (66 / 10 * (L ^ 2 * T / |exactDet m|) + 2 ^ (-60 : ℤ))) +
      2 ^ (-147 : ℤ) ≤ (2 : ℚ) ^ (90 : ℤ) := by
    have := mul_le_mul n60 hB' B0 (by norm_num)
    norm_num only at *
    linarith
  obtain ⟨p, g, hp, fp, hg, q0, q1, q2⟩ : ∃ (p : V3 F32) (g : ℚ), (objectRay i o d).1 = p ∧ Fin3 p ∧
      |g - 1| ≤ 202 / 2 ^ 24 * (L ^ 3 / |exactDet m|) ∧
      |p.x.val - (row i.m00 i.m01 i.m02 i.m03 o).val * g| ≤ 13 / 10 / 2 ^ 24 * (11 / 10 * (3 * ((22 / 10 * (L ^ 2 / |exactDet m|) + 2 ^ (-60 : ℤ)) * B) + (66 / 10 * (L ^ 2 * T / |exactDet m|) + 2 ^ (-60 : ℤ))) +
      2 ^ (-147 : ℤ)) + 2 ^ (-150 : ℤ) ∧
      |p.y.val - (row i.m10 i.m11 i.m12 i.m13 o).val * g| ≤ 13 / 10 / 2 ^ 24 * (11 / 10 * (3 * ((22 / 10 * (L ^ 2 / |exactDet m|) + 2 ^ (-60 : ℤ)) * B) + (66 / 10 * (L ^ 2 * T / |exactDet m|) + 2 ^ (-60 : ℤ))) +
      2 ^ (-147 : ℤ)) + 2 ^ (-150 : ℤ) ∧
      |p.z.val - (row i.m20 i.m21 i.m22 i.m23 o).val * g| ≤ 13 / 10 / 2 ^ 24 * (11 / 10 * (3 * ((22 / 10 * (L ^ 2 / |exactDet m|) + 2 ^ (-60 : ℤ)) * B) + (66 / 10 * (L ^ 2 * T / |exactDet m|) + 2 ^ (-60 : ℤ))) +
      2 ^ (-147 : ℤ)) + 2 ^ (-150 : ℤ) := by
    unfold objectRay mulPoint
    dsimp only
    by_cases c : F32.eq (row i.m30 i.m31 i.m32 i.m33 o) (num 1) = true
    · rw [if_pos c]
      refine ⟨_, 1, rfl, ⟨f0, f1, f2⟩, ?_, ?_, ?_, ?_⟩
      · rw [sub_self, abs_zero]; positivity
      · rw [mul_one, sub_self, abs_zero]; positivity
      · rw [mul_one, sub_self, abs_zero]; positivity
      · rw [mul_one, sub_self, abs_zero]; positivity
    · rw [if_neg c]
      obtain ⟨gf, gn, gb⟩ := recip_near (γ := 202 / 2 ^ 24 * (L ^ 3 / |exactDet m|)) fw (vw ▸ b3)
        (by norm_num at rho rho6 ⊢; linarith) (by norm_num at rho rho6 ⊢; linarith)
      refine ⟨_, (F32.div (num 1) (row i.m30 i.m31 i.m32 i.m33 o)).val, rfl, ⟨(scaled_near f0 s0 M90 gf gb).1,
        (scaled_near f1 s1 M90 gf gb).1, (scaled_near f2 s2 M90 gf gb).1⟩, gn, (scaled_near f0 s0 M90 gf gb).2,
        (scaled_near f1 s1 M90 gf gb).2, (scaled_near f2 s2 M90 gf gb).2⟩
  dsimp only
  rw [hp]
  exact ⟨fp, (back_div R0 hg hx t0 l00 l01 l02 q0 q1 q2).trans tot, (back_div R1 hg hy t1 l10 l11 l12 q0 q1 q2).trans tot,
    (back_div R2 hg hz t2 l20 l21 l22 q0 q1 q2).trans tot⟩

/-- **C168, rays taken to the object and back.**  The same of the direction, which is not moved:
`600*2^-24*L^3/|D|*B`. -/
theorem C168_round_trip_direction {m i : M4 F32} {L T B : ℚ} (hm : LastRow m) (h : Sizes m L T) (hL : L ≤ 2 ^ 20) (hT : T ≤ 2 ^ 20)
    (hD : 1 / 50000 ≤ |exactDet m|) (hc : 1000 / 2 ^ 24 * L ^ 3 ≤ |exactDet m|) (hi : inverse m = some i) {o d : V3 F32}
    (fd : Fin3 d) (hx : |d.x.val| ≤ B) (hy : |d.y.val| ≤ B) (hz : |d.z.val| ≤ B) (hB : B ≤ 2 ^ 20) :
    let v := (objectRay i o d).2
    let r := 600 / 2 ^ 24 * (L ^ 3 / |exactDet m| * B) + 2 ^ (-30 : ℤ)
    Fin3 v ∧ |rowCol m.m00 m.m01 m.m02 v.x v.y v.z - d.x.val| ≤ r ∧ |rowCol m.m10 m.m11 m.m12 v.x v.y v.z - d.y.val| ≤ r ∧
      |rowCol m.m20 m.m21 m.m22 v.x v.y v.z - d.z.val| ≤ r := by
  obtain ⟨-, dt, -, -, -, h6⟩ := setup hm h hL hT hD hc
  obtain ⟨sz, -, -⟩ := inverse_sizes hm h hL hT hD hc hi
  obtain ⟨i', hi', rows⟩ := C168_inverse_accuracy hm h hL hT hD hc
  rw [hi, Option.some.injEq] at hi'
  subst hi'
  dsimp only at rows
  obtain ⟨⟨a00, a01, a02⟩, ⟨a10, a11, a12⟩, ⟨a20, a21, a22⟩, -, -⟩ := rows
  have Ep := dt.pos
  have L0 := dt.l0
  have B0 : 0 ≤ B := (abs_nonneg _).trans hx
  have tot := total_vector L0 hL B0 hB Ep h6
  have inv1 : 1 / |exactDet m| ≤ 50000 := by rw [div_le_iff₀ Ep]; linarith
  have inv0 : 0 ≤ 1 / |exactDet m| := by positivity
  have n60 : 22 / 10 * (L ^ 2 / |exactDet m|) + 2 ^ (-60 : ℤ) ≤ (2 : ℚ) ^ (60 : ℤ) := by
    have e : L ^ 2 / |exactDet m| = L ^ 2 * (1 / |exactDet m|) := by ring
    have := mul_le_mul (pow_le_pow_left₀ L0 hL 2) inv1 inv0 (by norm_num)
    rw [e]
    refine (add_le_add (mul_le_mul_of_nonneg_left this (by norm_num)) le_rfl).trans ?_
    norm_num
  obtain ⟨⟨l00, l01, l02⟩, ⟨l10, l11, l12⟩, l20, l21, l22⟩ := h.lin
  obtain ⟨⟨g00, g01, g02, -⟩, ⟨g10, g11, g12, -⟩, g20, g21, g22, -⟩ := sz.fin
  obtain ⟨⟨k00, k01, k02⟩, ⟨k10, k11, k12⟩, k20, k21, k22⟩ := sz.lin
  have hB' : B ≤ (2 : ℚ) ^ (20 : ℤ) := hB
  obtain ⟨f0, e0⟩ := image3_near g00 g01 g02 k00 k01 k02 n60 fd hx hy hz hB'
  obtain ⟨f1, e1⟩ := image3_near g10 g11 g12 k10 k11 k12 n60 fd hx hy hz hB'
  obtain ⟨f2, e2⟩ := image3_near g20 g21 g22 k20 k21 k22 n60 fd hx hy hz hB'
  rw [← add_zero (_ + _ + _)] at e0 e1 e2
  have d0 : 0 ≤ 160 / 2 ^ 24 * (L ^ 3 / |exactDet m|) + (2 : ℚ) ^ (-40 : ℤ) := by positivity
  have R0 := back_row (t := 0) (T := 0) (u := 0) (n33 := 1) (δ0 := 1) (δ1 := 0) (δ2 := 0) a00 (by rw [sub_zero]; exact a01)
    (by rw [sub_zero]; exact a02) (by simp) (by simpa using d0) hx hy hz l00 l01 l02 (by simp) e0 e1 e2
  have R1 := back_row (t := 0) (T := 0) (u := 0) (n33 := 1) (δ0 := 0) (δ1 := 1) (δ2 := 0) (by rw [sub_zero]; exact a10) a11
    (by rw [sub_zero]; exact a12) (by simp) (by simpa using d0) hx hy hz l10 l11 l12 (by simp) e0 e1 e2
  have R2 := back_row (t := 0) (T := 0) (u := 0) (n33 := 1) (δ0 := 0) (δ1 := 0) (δ2 := 1) (by rw [sub_zero]; exact a20)
    (by rw [sub_zero]; exact a21) a22 (by simp) (by simpa using d0) hx hy hz l20 l21 l22 (by simp) e0 e1 e2
  rw [show (1 : ℚ) * d.x.val + 0 * d.y.val + 0 * d.z.val = d.x.val by ring, add_zero, add_zero, MulZeroClass.zero_mul, add_zero] at R0
  rw [show (0 : ℚ) * d.x.val + 1 * d.y.val + 0 * d.z.val = d.y.val by ring, add_zero, add_zero, MulZeroClass.zero_mul, add_zero] at R1
  rw [show (0 : ℚ) * d.x.val + 0 * d.y.val + 1 * d.z.val = d.z.val by ring, add_zero, add_zero, MulZeroClass.zero_mul, add_zero] at R2
  exact ⟨⟨f0, f1, f2⟩, R0.trans tot, R1.trans tot, R2.trans tot⟩

/-! ### An object turned by the angle of the triangle 3, 4, 5 and moved -/

/-- The linear part turns by an angle of cosine close to 3/5 and doubles the lengths. -/
def slanted : M4 F32 :=
  let c := F32.round false (6 / 5)
  let s := F32.round false (8 / 5)
  ⟨c, neg s, zero false, num 10, s, c, zero false, num (-20), zero false, zero false, num 2, num 30, zero false, zero false, zero false, num 1⟩

theorem slanted_cs : F32.round false (6 / 5) = num (10066330 / 2 ^ 23) ∧ F32.round false (8 / 5) = num (13421773 / 2 ^ 23) := by
  decide +kernel

theorem slanted_eq : slanted = ⟨num (10066330 / 2 ^ 23), num (-(13421773 / 2 ^ 23)), zero false, num 10, num (13421773 / 2 ^ 23),
    num (10066330 / 2 ^ 23), zero false, num (-20), zero false, zero false, num 2, num 30, zero false, zero false, zero false, num 1⟩ := by
  unfold slanted
  rw [slanted_cs.1, slanted_cs.2]
  rfl

theorem slanted_row : LastRow slanted := ⟨isZero _, isZero _, isZero _, isOne⟩

theorem slanted_sizes : Sizes slanted 2 30 := by
  rw [slanted_eq]
  refine ⟨⟨⟨trivial, trivial, trivial, trivial⟩, ⟨trivial, trivial, trivial, trivial⟩, trivial, trivial, trivial, trivial⟩, ?_, ?_⟩ <;>
    norm_num [val, abs_le]

theorem slanted_det : 79 / 10 ≤ |exactDet slanted| := by
  rw [slanted_eq]
  unfold exactDet
  norm_num [val]

/-- `C168_inverse_accuracy` and the two round trips. -/
example : ∃ i, inverse slanted = some i ∧ |i.m33.val - 1| ≤ 163 / 2 ^ 24 ∧
    ∀ d : V3 F32, Fin3 (objectRay i ⟨num 5, num (-7), num 40⟩ d).1 := by
  have l := slanted_det
  have h8 : (2 : ℚ) ^ 3 / |exactDet slanted| ≤ 80 / 79 := by rw [div_le_iff₀ (by linarith)]; linarith
  have c1 : 1 / 50000 ≤ |exactDet slanted| := by linarith
  have c2 : 1000 / 2 ^ 24 * 2 ^ 3 ≤ |exactDet slanted| := by norm_num at l ⊢; linarith
  obtain ⟨i, hi, -, -, -, -, hw⟩ := C168_inverse_accuracy slanted_row slanted_sizes (by norm_num) (by norm_num) c1 c2
  refine ⟨i, hi, ?_, fun d => (C168_round_trip_origin slanted_row slanted_sizes (by norm_num) (by norm_num) c1 c2 hi
    (o := ⟨num 5, num (-7), num 40⟩) (B := 40) ⟨trivial, trivial, trivial⟩ (by norm_num [val]) (by norm_num [val]) (by norm_num [val]) (by norm_num)).1⟩
  generalize (2 : ℚ) ^ 3 / |exactDet slanted| = A at *
  norm_num only at *
  linarith

/-! ### Vectors and normals -/

/-- One coordinate of the image of a vector. -/
theorem row3_err {a b c : F32} {p : V3 F32} {i j : ℤ} (ha : Upto i a) (hb : Upto i b) (hc : Upto i c) (hp : Upto3 j p)
    (h1 : -149 ≤ i + j) (h2 : i + j ≤ 124) : (row3 a b c p).Finite ∧
    |(row3 a b c p).val - rowCol a b c p.x p.y p.z| ≤
      5 / 2 ^ 24 * (|a.val * p.x.val| + |b.val * p.y.val| + |c.val * p.z.val|) + 2 ^ (-147 : ℤ) := by
  obtain ⟨hx, hy, hz⟩ := hp
  obtain ⟨u0, e0⟩ := upto_mul ha hx h1 (by linarith)
  obtain ⟨u1, e1⟩ := upto_mul hb hy h1 (by linarith)
  obtain ⟨u2, e2⟩ := upto_mul hc hz h1 (by linarith)
  obtain ⟨u3, e3⟩ := upto_add u0 u1 (by linarith) (by linarith)
  obtain ⟨u4, e4⟩ := upto_add u3 (upto_mono (by linarith) u2) (by linarith) (by linarith)
  have v : (row3 a b c p).val = rowQ (a.val * p.x.val) (b.val * p.y.val) (c.val * p.z.val) 0 := by
    unfold row3 rowQ
    rw [e4, e3, e0, e1, e2, add_zero, rnd32_rnd32]
  have r := rowQ_err (a.val * p.x.val) (b.val * p.y.val) (c.val * p.z.val) 0
  rw [← v, add_zero, abs_zero, add_zero] at r
  refine ⟨u4.1, r.trans (le_of_eq ?_)⟩
  ring

/-- **C168, vectors.**  The coordinates of the image of a vector are those of the exact image up to 5 half units of the sum of
the terms; the movement does not count. -/
theorem C168_vector_accuracy {m : M4 F32} {k j : ℤ} (he : Entries k m) {p : V3 F32} (hp : Upto3 j p) (h1 : -149 ≤ k + j)
    (h2 : k + j ≤ 124) :
    let r := mulVec m p
    let e := fun a b c : F32 => 5 / 2 ^ 24 * (|a.val * p.x.val| + |b.val * p.y.val| + |c.val * p.z.val|) + 2 ^ (-147 : ℤ)
    Fin3 r ∧ |r.x.val - rowCol m.m00 m.m01 m.m02 p.x p.y p.z| ≤ e m.m00 m.m01 m.m02 ∧
      |r.y.val - rowCol m.m10 m.m11 m.m12 p.x p.y p.z| ≤ e m.m10 m.m11 m.m12 ∧
      |r.z.val - rowCol m.m20 m.m21 m.m22 p.x p.y p.z| ≤ e m.m20 m.m21 m.m22 := by
  obtain ⟨⟨a0, a1, a2, -⟩, ⟨b0, b1, b2, -⟩, c0, c1, c2, -⟩ := he
  have x := row3_err a0 a1 a2 hp h1 h2
  have y := row3_err b0 b1 b2 hp h1 h2
  have z := row3_err c0 c1 c2 hp h1 h2
  exact ⟨⟨x.1, y.1, z.1⟩, x.2, y.2, z.2⟩

/-- **C168, inverse from the left.**  The inverse times the linear part is the identity up to `160*2^-24*L^3/|D|`. -/
theorem C168_left_inverse {m i : M4 F32} {L T : ℚ} (hm : LastRow m) (h : Sizes m L T) (hL : L ≤ 2 ^ 20) (hT : T ≤ 2 ^ 20)
    (hD : 1 / 50000 ≤ |exactDet m|) (hc : 1000 / 2 ^ 24 * L ^ 3 ≤ |exactDet m|) (hi : inverse m = some i) :
    let d := 160 / 2 ^ 24 * (L ^ 3 / |exactDet m|) + 2 ^ (-40 : ℤ)
    (|rowCol m.m00 m.m10 m.m20 i.m00 i.m01 i.m02 - 1| ≤ d ∧ |rowCol m.m01 m.m11 m.m21 i.m00 i.m01 i.m02| ≤ d ∧
      |rowCol m.m02 m.m12 m.m22 i.m00 i.m01 i.m02| ≤ d) ∧
    (|rowCol m.m00 m.m10 m.m20 i.m10 i.m11 i.m12| ≤ d ∧ |rowCol m.m01 m.m11 m.m21 i.m10 i.m11 i.m12 - 1| ≤ d ∧
      |rowCol m.m02 m.m12 m.m22 i.m10 i.m11 i.m12| ≤ d) ∧
    (|rowCol m.m00 m.m10 m.m20 i.m20 i.m21 i.m22| ≤ d ∧ |rowCol m.m01 m.m11 m.m21 i.m20 i.m21 i.m22| ≤ d ∧
      |rowCol m.m02 m.m12 m.m22 i.m20 i.m21 i.m22 - 1| ≤ d) := by
  obtain ⟨fd, dt, d0, d1, ok, -⟩ := setup hm h hL hT hD hc
  obtain ⟨⟨c0, c1, c2⟩, ⟨c4, c5, c6⟩, c8, c9, c10⟩ := cof_linear hm h hL hT
  obtain ⟨⟨l00, l01, l02⟩, ⟨l10, l11, l12⟩, l20, l21, l22⟩ := h.lin
  unfold inverse at hi
  split at hi
  · exact absurd hi (by simp)
  · simp only [Option.some.injEq] at hi
    subst hi
    dsimp only
    have n0 := (entry c0 fd d0 d1).2.1
    have n1 := (entry c1 fd d0 d1).2.1
    have n2 := (entry c2 fd d0 d1).2.1
    have n4 := (entry c4 fd d0 d1).2.1
    have n5 := (entry c5 fd d0 d1).2.1
    have n6 := (entry c6 fd d0 d1).2.1
    have n8 := (entry c8 fd d0 d1).2.1
    have n9 := (entry c9 fd d0 d1).2.1
    have n10 := (entry c10 fd d0 d1).2.1
    clear c0 c1 c2 c4 c5 c6 c8 c9 c10
    unfold rowCol
    exact ⟨⟨dt.one n0 n1 n2 l00 l10 l20 (by unfold exactDet; ring), dt.nul n0 n1 n2 l01 l11 l21 (by ring),
      dt.nul n0 n1 n2 l02 l12 l22 (by ring)⟩, ⟨dt.nul n4 n5 n6 l00 l10 l20 (by ring), dt.one n4 n5 n6 l01 l11 l21 (by unfold exactDet; ring),
      dt.nul n4 n5 n6 l02 l12 l22 (by ring)⟩, dt.nul n8 n9 n10 l00 l10 l20 (by ring), dt.nul n8 n9 n10 l01 l11 l21 (by ring),
      dt.one n8 n9 n10 l02 l12 l22 (by unfold exactDet; ring)⟩

/-- A normal against a moved vector, over the rationals. -/
theorem normal_sum {m00 m01 m02 m10 m11 m12 m20 m21 m22 n00 n01 n02 n10 n11 n12 n20 n21 n22 x y z t0 t1 t2 v0 v1 v2 d s B V L : ℚ}
    (a00 : |m00 * n00 + m10 * n01 + m20 * n02 - 1| ≤ d) (a01 : |m01 * n00 + m11 * n01 + m21 * n02| ≤ d)
    (a02 : |m02 * n00 + m12 * n01 + m22 * n02| ≤ d) (a10 : |m00 * n10 + m10 * n11 + m20 * n12| ≤ d)
    (a11 : |m01 * n10 + m11 * n11 + m21 * n12 - 1| ≤ d) (a12 : |m02 * n10 + m12 * n11 + m22 * n12| ≤ d)
    (a20 : |m00 * n20 + m10 * n21 + m20 * n22| ≤ d) (a21 : |m01 * n20 + m11 * n21 + m21 * n22| ≤ d)
    (a22 : |m02 * n20 + m12 * n21 + m22 * n22 - 1| ≤ d)
    (e0 : |t0 - (n00 * x + n10 * y + n20 * z)| ≤ s) (e1 : |t1 - (n01 * x + n11 * y + n21 * z)| ≤ s)
    (e2 : |t2 - (n02 * x + n12 * y + n22 * z)| ≤ s) (hx : |x| ≤ B) (hy : |y| ≤ B) (hz : |z| ≤ B)
    (hv0 : |v0| ≤ V) (hv1 : |v1| ≤ V) (hv2 : |v2| ≤ V)
    (l00 : |m00| ≤ L) (l01 : |m01| ≤ L) (l02 : |m02| ≤ L) (l10 : |m10| ≤ L) (l11 : |m11| ≤ L) (l12 : |m12| ≤ L)
    (l20 : |m20| ≤ L) (l21 : |m21| ≤ L) (l22 : |m22| ≤ L) :
    |t0 * (m00 * v0 + m01 * v1 + m02 * v2) + t1 * (m10 * v0 + m11 * v1 + m12 * v2) + t2 * (m20 * v0 + m21 * v1 + m22 * v2) -
      (x * v0 + y * v1 + z * v2)| ≤ 9 * (B * d * V) + 9 * (s * (L * V)) := by
  have p : ∀ {v w A W : ℚ}, |v| ≤ A → |w| ≤ W → |v * w| ≤ A * W := fun hv hw => by
    rw [abs_mul]; exact mul_le_mul hv hw (abs_nonneg _) ((abs_nonneg _).trans hv)
  have tri : ∀ {a b c A : ℚ}, |a| ≤ A → |b| ≤ A → |c| ≤ A → |a + b + c| ≤ 3 * A := fun h1 h2 h3 =>
    (abs_add_three _ _ _).trans (by linarith)
  have q0 := p (p hx a00) hv0
  have q1 := p (p hx a01) hv1
  have q2 := p (p hx a02) hv2
  have q3 := p (p hy a10) hv0
  have q4 := p (p hy a11) hv1
  have q5 := p (p hy a12) hv2
  have q6 := p (p hz a20) hv0
  have q7 := p (p hz a21) hv1
  have q8 := p (p hz a22) hv2
  have w0 := p e0 (tri (p l00 hv0) (p l01 hv1) (p l02 hv2))
  have w1 := p e1 (tri (p l10 hv0) (p l11 hv1) (p l12 hv2))
  have w2 := p e2 (tri (p l20 hv0) (p l21 hv1) (p l22 hv2))
  have k := tri (tri q0 q1 q2) (tri q3 q4 q5) (tri q6 q7 q8)
  have k' := tri w0 w1 w2
  have e : t0 * (m00 * v0 + m01 * v1 + m02 * v2) + t1 * (m10 * v0 + m11 * v1 + m12 * v2) + t2 * (m20 * v0 + m21 * v1 + m22 * v2) -
      (x * v0 + y * v1 + z * v2) =
      (x * (m00 * n00 + m10 * n01 + m20 * n02 - 1) * v0 + x * (m01 * n00 + m11 * n01 + m21 * n02) * v1 +
        x * (m02 * n00 + m12 * n01 + m22 * n02) * v2 +
      (y * (m00 * n10 + m10 * n11 + m20 * n12) * v0 + y * (m01 * n10 + m11 * n11 + m21 * n12 - 1) * v1 +
        y * (m02 * n10 + m12 * n11 + m22 * n12) * v2) +
      (z * (m00 * n20 + m10 * n21 + m20 * n22) * v0 + z * (m01 * n20 + m11 * n21 + m21 * n22) * v1 +
        z * (m02 * n20 + m12 * n21 + m22 * n22 - 1) * v2)) +
      ((t0 - (n00 * x + n10 * y + n20 * z)) * (m00 * v0 + m01 * v1 + m02 * v2) +
        (t1 - (n01 * x + n11 * y + n21 * z)) * (m10 * v0 + m11 * v1 + m12 * v2) +
        (t2 - (n02 * x + n12 * y + n22 * z)) * (m20 * v0 + m21 * v1 + m22 * v2)) := by ring
  rw [e]
  refine (abs_add_le _ _).trans ((add_le_add k k').trans (le_of_eq ?_))
  ring

/-- **C168, normals.**  The transformed normal makes with every moved vector the same product as the normal with the vector,
up to `1800*2^-24*L^3/|D|*B*V`: what is perpendicular stays so. -/
theorem C168_normal {m i : M4 F32} {L T B : ℚ} (hm : LastRow m) (h : Sizes m L T) (hL : L ≤ 2 ^ 20) (hT : T ≤ 2 ^ 20)
    (hD : 1 / 50000 ≤ |exactDet m|) (hc : 1000 / 2 ^ 24 * L ^ 3 ≤ |exactDet m|) (hi : inverse m = some i) {n : V3 F32}
    (fn : Fin3 n) (hx : |n.x.val| ≤ B) (hy : |n.y.val| ≤ B) (hz : |n.z.val| ≤ B) (hB : B ≤ 2 ^ 20) :
    let t := transformNormal n i
    Fin3 t ∧ ∀ v0 v1 v2 V : ℚ, |v0| ≤ V → |v1| ≤ V → |v2| ≤ V →
      |t.x.val * (m.m00.val * v0 + m.m01.val * v1 + m.m02.val * v2) + t.y.val * (m.m10.val * v0 + m.m11.val * v1 + m.m12.val * v2) +
        t.z.val * (m.m20.val * v0 + m.m21.val * v1 + m.m22.val * v2) - (n.x.val * v0 + n.y.val * v1 + n.z.val * v2)| ≤
      (1800 / 2 ^ 24 * (L ^ 3 / |exactDet m| * B) + 2 ^ (-30 : ℤ)) * V := by
  obtain ⟨-, dt, -, -, -, h6⟩ := setup hm h hL hT hD hc
  obtain ⟨sz, -, -⟩ := inverse_sizes hm h hL hT hD hc hi
  obtain ⟨⟨a00, a01, a02⟩, ⟨a10, a11, a12⟩, a20, a21, a22⟩ := C168_left_inverse hm h hL hT hD hc hi
  have Ep := dt.pos
  have L0 := dt.l0
  have B0 : 0 ≤ B := (abs_nonneg _).trans hx
  have inv1 : 1 / |exactDet m| ≤ 50000 := by rw [div_le_iff₀ Ep]; linarith
  have inv0 : 0 ≤ 1 / |exactDet m| := by positivity
  have n60 : 22 / 10 * (L ^ 2 / |exactDet m|) + 2 ^ (-60 : ℤ) ≤ (2 : ℚ) ^ (60 : ℤ) := by
    have e : L ^ 2 / |exactDet m| = L ^ 2 * (1 / |exactDet m|) := by ring
    have := mul_le_mul (pow_le_pow_left₀ L0 hL 2) inv1 inv0 (by norm_num)
    rw [e]
    refine (add_le_add (mul_le_mul_of_nonneg_left this (by norm_num)) le_rfl).trans ?_
    norm_num
  obtain ⟨⟨l00, l01, l02⟩, ⟨l10, l11, l12⟩, l20, l21, l22⟩ := h.lin
  obtain ⟨⟨g00, g01, g02, -⟩, ⟨g10, g11, g12, -⟩, g20, g21, g22, -⟩ := sz.fin
  obtain ⟨⟨k00, k01, k02⟩, ⟨k10, k11, k12⟩, k20, k21, k22⟩ := sz.lin
  have hB' : B ≤ (2 : ℚ) ^ (20 : ℤ) := hB
  obtain ⟨f0, e0⟩ := image3_near g00 g10 g20 k00 k10 k20 n60 fn hx hy hz hB'
  obtain ⟨f1, e1⟩ := image3_near g01 g11 g21 k01 k11 k21 n60 fn hx hy hz hB'
  obtain ⟨f2, e2⟩ := image3_near g02 g12 g22 k02 k12 k22 n60 fn hx hy hz hB'
  refine ⟨⟨f0, f1, f2⟩, fun v0 v1 v2 V h0 h1 h2 => ?_⟩
  refine (normal_sum a00 a01 a02 a10 a11 a12 a20 a21 a22 e0 e1 e2 hx hy hz h0 h1 h2 l00 l01 l02 l10 l11 l12 l20 l21 l22).trans ?_
  have V0 : 0 ≤ V := (abs_nonneg _).trans h0
  rw [show ∀ d s : ℚ, 9 * (B * d * V) + 9 * (s * (L * V)) = (9 * (B * d) + 9 * (L * s)) * V from fun d s => by ring]
  refine mul_le_mul_of_nonneg_right ?_ V0
  have r2 : 1 ≤ 6 * (L ^ 3 / |exactDet m|) := by rw [← mul_div_assoc, le_div_iff₀ Ep]; linarith
  have e2 : L * (L ^ 2 / |exactDet m| * B) = L ^ 3 / |exactDet m| * B := by ring
  have P0 : 0 ≤ L ^ 3 / |exactDet m| * B := by positivity
  have lb : L * B ≤ 2 ^ 40 := (mul_le_mul hL hB B0 (by norm_num)).trans (by norm_num)
  have x1 : B ≤ 6 * (L ^ 3 / |exactDet m| * B) := by have := mul_le_mul_of_nonneg_right r2 B0; linarith
  have f : 9 * (B * (160 / 2 ^ 24 * (L ^ 3 / |exactDet m|) + 2 ^ (-40 : ℤ))) +
      9 * (L * (5 / 2 ^ 24 * (3 * ((22 / 10 * (L ^ 2 / |exactDet m|) + 2 ^ (-60 : ℤ)) * B)) + 2 ^ (-147 : ℤ))) =
      1737 / 2 ^ 24 * (L ^ 3 / |exactDet m| * B) + 2 ^ (-40 : ℤ) * (9 * B) + 15 / 2 ^ 24 * 2 ^ (-60 : ℤ) * (9 * (L * B)) + 9 * 2 ^ (-147 : ℤ) * L := by
    linear_combination 297 / 2 ^ 24 * e2
  rw [f]
  generalize L ^ 3 / |exactDet m| * B = P at *
  generalize L * B = W at *
  norm_num only at *
  linarith

end Spectre.FPlace
