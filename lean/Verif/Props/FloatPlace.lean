import Verif.Model.FloatPlace
import Verif.Props.FloatTriangle
import Verif.Props.Compare

/-
C168: placing objects in binary32.  The exact images `exactX`… below are sums of products of rational numbers, written out.
-/

namespace Spectre.FPlace

open Spectre.Geom Spectre.FTri F32

/-! ### Specification -/

/-- The coordinates are finite. -/
def Fin3 (p : V3 F32) : Prop := p.x.Finite ∧ p.y.Finite ∧ p.z.Finite

/-- A finite number of at most `2^k`. -/
def Upto (k : ℤ) (x : F32) : Prop := x.Finite ∧ |x.val| ≤ 2 ^ k

/-- The coordinates are of at most `2^k`. -/
def Upto3 (k : ℤ) (p : V3 F32) : Prop := Upto k p.x ∧ Upto k p.y ∧ Upto k p.z

/-- The last row of the matrix is that of an affine map. -/
def LastRow (m : M4 F32) : Prop :=
  (m.m30.Finite ∧ m.m30.val = 0) ∧ (m.m31.Finite ∧ m.m31.val = 0) ∧ (m.m32.Finite ∧ m.m32.val = 0) ∧
    m.m33.Finite ∧ m.m33.val = 1

/-- The first three rows are finite and of at most `2^k`. -/
def Entries (k : ℤ) (m : M4 F32) : Prop :=
  (Upto k m.m00 ∧ Upto k m.m01 ∧ Upto k m.m02 ∧ Upto k m.m03) ∧
  (Upto k m.m10 ∧ Upto k m.m11 ∧ Upto k m.m12 ∧ Upto k m.m13) ∧
  (Upto k m.m20 ∧ Upto k m.m21 ∧ Upto k m.m22 ∧ Upto k m.m23)

/-- The point is finite and between the corners of the box, which are finite too. -/
def Inside (b : Box) (p : V3 F32) : Prop :=
  Fin3 b.lo ∧ Fin3 b.hi ∧ Fin3 p ∧
  (b.lo.x.val ≤ p.x.val ∧ p.x.val ≤ b.hi.x.val) ∧ (b.lo.y.val ≤ p.y.val ∧ p.y.val ≤ b.hi.y.val) ∧
    (b.lo.z.val ≤ p.z.val ∧ p.z.val ≤ b.hi.z.val)

/-! ### One coordinate -/

theorem upto_mono {i j : ℤ} (h : i ≤ j) {x : F32} (hx : Upto i x) : Upto j x :=
  ⟨hx.1, hx.2.trans (zpow_le_zpow_right₀ (by norm_num) h)⟩

theorem upto_mul {i j : ℤ} {x y : F32} (hx : Upto i x) (hy : Upto j y) (h1 : -149 ≤ i + j) (h2 : i + j ≤ 127) :
    Upto (i + j) (F32.mul x y) ∧ (F32.mul x y).val = rnd32 (x.val * y.val) := by
  have h : |x.val * y.val| ≤ 2 ^ (i + j) := by
    rw [abs_mul, zpow_add₀ (by norm_num)]
    exact mul_le_mul hx.2 hy.2 (abs_nonneg _) (two_zpow_pos _).le
  have h3 := rnd32_abs_le h1 h
  obtain ⟨f, v⟩ := mul_finite hx.1 hy.1 (lt_of_le_of_lt h3 (pow_lt128 h2))
  exact ⟨⟨f, by rw [v]; exact h3⟩, v⟩

theorem upto_add {i : ℤ} {x y : F32} (hx : Upto i x) (hy : Upto i y) (h1 : -150 ≤ i) (h2 : i ≤ 126) :
    Upto (i + 1) (F32.add x y) ∧ (F32.add x y).val = rnd32 (x.val + y.val) := by
  have h : |x.val + y.val| ≤ 2 ^ (i + 1) := by
    rw [zpow_add₀ (by norm_num), zpow_one]
    have := abs_add_le x.val y.val
    linarith [hx.2, hy.2]
  have h3 := rnd32_abs_le (by omega) h
  obtain ⟨f, v⟩ := add_finite hx.1 hy.1 (lt_of_le_of_lt h3 (pow_lt128 (by omega)))
  exact ⟨⟨f, by rw [v]; exact h3⟩, v⟩

/-- What a coordinate of an image comes to, from the exact products. -/
def rowQ (u v w t : ℚ) : ℚ := rnd32 (rnd32 (rnd32 (rnd32 u + rnd32 v) + rnd32 w) + t)

theorem rowQ_mono {u v w u' v' w' t : ℚ} (hu : u ≤ u') (hv : v ≤ v') (hw : w ≤ w') :
    rowQ u v w t ≤ rowQ u' v' w' t := by
  unfold rowQ
  have h1 := rnd32_mono hu
  have h2 := rnd32_mono hv
  have h3 := rnd32_mono hw
  have h4 := rnd32_mono (add_le_add h1 h2)
  have h5 := rnd32_mono (add_le_add h4 h3)
  exact rnd32_mono (add_le_add_left h5 t)

theorem row_val {a b c t : F32} {p : V3 F32} {i j : ℤ} (ha : Upto i a) (hb : Upto i b) (hc : Upto i c) (ht : Upto (i + j) t)
    (hp : Upto3 j p) (h1 : -149 ≤ i + j) (h2 : i + j ≤ 124) :
    Upto (i + j + 3) (row a b c t p) ∧
      (row a b c t p).val = rowQ (a.val * p.x.val) (b.val * p.y.val) (c.val * p.z.val) t.val := by
  obtain ⟨px, py, pz⟩ := hp
  obtain ⟨m1, v1⟩ := upto_mul ha px h1 (by omega)
  obtain ⟨m2, v2⟩ := upto_mul hb py h1 (by omega)
  obtain ⟨m3, v3⟩ := upto_mul hc pz h1 (by omega)
  obtain ⟨s1, w1⟩ := upto_add m1 m2 (by omega) (by omega)
  obtain ⟨s2, w2⟩ := upto_add s1 (upto_mono (by omega) m3) (by omega) (by omega)
  obtain ⟨s3, w3⟩ := upto_add s2 (upto_mono (by omega) ht) (by omega) (by omega)
  refine ⟨?_, ?_⟩
  · rw [show i + j + 3 = i + j + 1 + 1 + 1 by ring]; exact s3
  · unfold row rowQ
    rw [w3, w2, w1, v1, v2, v3]

/-- The error of a coordinate. -/
theorem rowQ_err (u v w t : ℚ) :
    |rowQ u v w t - (u + v + w + t)| ≤ (|u| + |v| + |w| + |t|) * (5 / 2 ^ 24) + 2 ^ (-147 : ℤ) := by
  unfold rowQ
  have e1 := abs_le.1 (rnd32_err' u)
  have e2 := abs_le.1 (rnd32_err' v)
  have e3 := abs_le.1 (rnd32_err' w)
  generalize rnd32 u = U at *
  generalize rnd32 v = V at *
  generalize rnd32 w = W at *
  have e4 := abs_le.1 (rnd32_err' (U + V))
  generalize rnd32 (U + V) = A at *
  have e5 := abs_le.1 (rnd32_err' (A + W))
  generalize rnd32 (A + W) = B at *
  have e6 := abs_le.1 (rnd32_err' (B + t))
  generalize rnd32 (B + t) = C at *
  have hU : |U| ≤ |u| * (1 + 1 / 2 ^ 24) + 2 ^ (-150 : ℤ) := by
    rw [abs_le]; have := neg_abs_le u; have := le_abs_self u; constructor <;> linarith [e1.1, e1.2]
  have hV : |V| ≤ |v| * (1 + 1 / 2 ^ 24) + 2 ^ (-150 : ℤ) := by
    rw [abs_le]; have := neg_abs_le v; have := le_abs_self v; constructor <;> linarith [e2.1, e2.2]
  have hW : |W| ≤ |w| * (1 + 1 / 2 ^ 24) + 2 ^ (-150 : ℤ) := by
    rw [abs_le]; have := neg_abs_le w; have := le_abs_self w; constructor <;> linarith [e3.1, e3.2]
  have hUV := abs_add_le U V
  have hA : |A| ≤ |U + V| * (1 + 1 / 2 ^ 24) + 2 ^ (-150 : ℤ) := by
    rw [abs_le]; have := neg_abs_le (U + V); have := le_abs_self (U + V); constructor <;> linarith [e4.1, e4.2]
  have hAW := abs_add_le A W
  have hB : |B| ≤ |A + W| * (1 + 1 / 2 ^ 24) + 2 ^ (-150 : ℤ) := by
    rw [abs_le]; have := neg_abs_le (A + W); have := le_abs_self (A + W); constructor <;> linarith [e5.1, e5.2]
  have hBt := abs_add_le B t
  have n1 := abs_nonneg u
  have n2 := abs_nonneg v
  have n3 := abs_nonneg w
  have n4 := abs_nonneg t
  generalize |u| = u' at *
  generalize |v| = v' at *
  generalize |w| = w' at *
  generalize |t| = t' at *
  generalize |U| = U' at *
  generalize |V| = V' at *
  generalize |W| = W' at *
  generalize |U + V| = UV' at *
  generalize |A + W| = AW' at *
  generalize |B + t| = Bt' at *
  generalize |A| = A' at *
  generalize |B| = B' at *
  rw [show (2 : ℚ) ^ (-147 : ℤ) = 8 * 2 ^ (-150 : ℤ) by norm_num]
  have hη := two_zpow_pos (-150)
  generalize (2 : ℚ) ^ (-150 : ℤ) = η at *
  obtain ⟨e11, e12⟩ := e1
  obtain ⟨e21, e22⟩ := e2
  obtain ⟨e31, e32⟩ := e3
  obtain ⟨e41, e42⟩ := e4
  obtain ⟨e51, e52⟩ := e5
  obtain ⟨e61, e62⟩ := e6
  rw [abs_le]
  constructor
  · norm_num only at *; linarith
  · norm_num only at *; linarith

/-! ### Points -/

theorem zero_mul {a b : F32} (ha : a.Finite ∧ a.val = 0) (hb : b.Finite) : (F32.mul a b).Finite ∧ (F32.mul a b).val = 0 := by
  have e : a.val * b.val = 0 := by rw [ha.2]; ring
  obtain ⟨f, v⟩ := mul_finite ha.1 hb (by rw [e, rnd32_zero]; norm_num)
  exact ⟨f, by rw [v, e, rnd32_zero]⟩

theorem zero_add {a b : F32} (ha : a.Finite ∧ a.val = 0) (hb : b.Finite ∧ b.val = 0) :
    (F32.add a b).Finite ∧ (F32.add a b).val = 0 := by
  have e : a.val + b.val = 0 := by rw [ha.2, hb.2, _root_.zero_add]
  obtain ⟨f, v⟩ := add_finite ha.1 hb.1 (by rw [e, rnd32_zero]; norm_num)
  exact ⟨f, by rw [v, e, rnd32_zero]⟩

theorem rnd_one : rnd32 1 = 1 := by decide +kernel

theorem zero_add_one {a b : F32} (ha : a.Finite ∧ a.val = 0) (hb : b.Finite ∧ b.val = 1) :
    (F32.add a b).Finite ∧ (F32.add a b).val = 1 := by
  have e : a.val + b.val = 1 := by rw [ha.2, hb.2, _root_.zero_add]
  obtain ⟨f, v⟩ := add_finite ha.1 hb.1 (by rw [e, rnd_one]; norm_num)
  exact ⟨f, by rw [v, e, rnd_one]⟩

theorem eq_one {w : F32} (h : w.Finite ∧ w.val = 1) : F32.eq w (num 1) = true := by
  obtain ⟨f, v⟩ := h
  cases w with
  | nan => exact f.elim
  | inf s => exact f.elim
  | zero s => exact absurd v (by simp [val])
  | num q => simp only [val] at v; rw [v]; decide +kernel

/-- **C168, no division.**  The image of a finite point under an affine map is not divided by anything: the fourth
coordinate comes to one exactly. -/
theorem C168_affine {m : M4 F32} (hm : LastRow m) {p : V3 F32} (hp : Fin3 p) :
    mulPoint m p = ⟨row m.m00 m.m01 m.m02 m.m03 p, row m.m10 m.m11 m.m12 m.m13 p, row m.m20 m.m21 m.m22 m.m23 p⟩ := by
  obtain ⟨h0, h1, h2, h3⟩ := hm
  obtain ⟨px, py, pz⟩ := hp
  have : (row m.m30 m.m31 m.m32 m.m33 p).Finite ∧ (row m.m30 m.m31 m.m32 m.m33 p).val = 1 :=
    zero_add_one (zero_add (zero_add (zero_mul h0 px) (zero_mul h1 py)) (zero_mul h2 pz)) h3
  unfold mulPoint
  rw [if_pos (eq_one this)]

theorem Upto3.fin {k : ℤ} {p : V3 F32} (h : Upto3 k p) : Fin3 p := ⟨h.1.1, h.2.1.1, h.2.2.1⟩

/-- **C168, accuracy.**  The image is finite, and each coordinate is within five half units of the sum of the sizes of its
terms. -/
theorem C168_accuracy {m : M4 F32} {k j : ℤ} (hm : LastRow m) (he : Entries k m) {p : V3 F32} (hp : Upto3 j p) (hj : 0 ≤ j)
    (h1 : -149 ≤ k + j) (h2 : k + j ≤ 124) :
    Upto3 (k + j + 3) (mulPoint m p) ∧
    |(mulPoint m p).x.val - (m.m00.val * p.x.val + m.m01.val * p.y.val + m.m02.val * p.z.val + m.m03.val)|
      ≤ (|m.m00.val * p.x.val| + |m.m01.val * p.y.val| + |m.m02.val * p.z.val| + |m.m03.val|) * (5 / 2 ^ 24)
        + 2 ^ (-147 : ℤ) ∧
    |(mulPoint m p).y.val - (m.m10.val * p.x.val + m.m11.val * p.y.val + m.m12.val * p.z.val + m.m13.val)|
      ≤ (|m.m10.val * p.x.val| + |m.m11.val * p.y.val| + |m.m12.val * p.z.val| + |m.m13.val|) * (5 / 2 ^ 24)
        + 2 ^ (-147 : ℤ) ∧
    |(mulPoint m p).z.val - (m.m20.val * p.x.val + m.m21.val * p.y.val + m.m22.val * p.z.val + m.m23.val)|
      ≤ (|m.m20.val * p.x.val| + |m.m21.val * p.y.val| + |m.m22.val * p.z.val| + |m.m23.val|) * (5 / 2 ^ 24)
        + 2 ^ (-147 : ℤ) := by
  rw [C168_affine hm hp.fin]
  obtain ⟨⟨a0, a1, a2, a3⟩, ⟨b0, b1, b2, b3⟩, c0, c1, c2, c3⟩ := he
  obtain ⟨u1, v1⟩ := row_val a0 a1 a2 (upto_mono (by omega) a3) hp h1 h2
  obtain ⟨u2, v2⟩ := row_val b0 b1 b2 (upto_mono (by omega) b3) hp h1 h2
  obtain ⟨u3, v3⟩ := row_val c0 c1 c2 (upto_mono (by omega) c3) hp h1 h2
  refine ⟨⟨u1, u2, u3⟩, ?_, ?_, ?_⟩
  · rw [v1]; exact rowQ_err _ _ _ _
  · rw [v2]; exact rowQ_err _ _ _ _
  · rw [v3]; exact rowQ_err _ _ _ _

/-! ### Boxes -/

theorem smin_fin {a b : F32} (ha : a.Finite) (hb : b.Finite) :
    (smin a b).Finite ∧ (smin a b).val ≤ a.val ∧ (smin a b).val ≤ b.val := by
  unfold smin
  rw [lt_finite ha hb]
  by_cases c : a.val < b.val
  · rw [decide_eq_true c]; exact ⟨ha, le_rfl, c.le⟩
  · rw [decide_eq_false c]; exact ⟨hb, not_lt.1 c, le_rfl⟩

theorem smax_fin {a b : F32} (ha : a.Finite) (hb : b.Finite) :
    (smax a b).Finite ∧ a.val ≤ (smax a b).val ∧ b.val ≤ (smax a b).val := by
  unfold smax
  rw [lt_finite hb ha]
  by_cases c : b.val < a.val
  · rw [decide_eq_true c]; exact ⟨ha, le_rfl, c.le⟩
  · rw [decide_eq_false c]; exact ⟨hb, not_lt.1 c, le_rfl⟩

/-- Below each of a list of numbers. -/
theorem low8 {a b c d e f g h : F32} (ha : a.Finite) (hb : b.Finite) (hc : c.Finite) (hd : d.Finite) (he : e.Finite)
    (hf : f.Finite) (hg : g.Finite) (hh : h.Finite) :
    let s := smin (smin (smin (smin (smin (smin (smin a b) c) d) e) f) g) h
    s.Finite ∧ s.val ≤ a.val ∧ s.val ≤ b.val ∧ s.val ≤ c.val ∧ s.val ≤ d.val ∧ s.val ≤ e.val ∧ s.val ≤ f.val ∧
      s.val ≤ g.val ∧ s.val ≤ h.val := by
  obtain ⟨f1, l1, r1⟩ := smin_fin ha hb
  obtain ⟨f2, l2, r2⟩ := smin_fin f1 hc
  obtain ⟨f3, l3, r3⟩ := smin_fin f2 hd
  obtain ⟨f4, l4, r4⟩ := smin_fin f3 he
  obtain ⟨f5, l5, r5⟩ := smin_fin f4 hf
  obtain ⟨f6, l6, r6⟩ := smin_fin f5 hg
  obtain ⟨f7, l7, r7⟩ := smin_fin f6 hh
  refine ⟨f7, ?_, ?_, ?_, ?_, ?_, ?_, ?_, ?_⟩ <;> linarith

/-- Above each of a list of numbers. -/
theorem high8 {a b c d e f g h : F32} (ha : a.Finite) (hb : b.Finite) (hc : c.Finite) (hd : d.Finite) (he : e.Finite)
    (hf : f.Finite) (hg : g.Finite) (hh : h.Finite) :
    let s := smax (smax (smax (smax (smax (smax (smax a b) c) d) e) f) g) h
    s.Finite ∧ a.val ≤ s.val ∧ b.val ≤ s.val ∧ c.val ≤ s.val ∧ d.val ≤ s.val ∧ e.val ≤ s.val ∧ f.val ≤ s.val ∧
      g.val ≤ s.val ∧ h.val ≤ s.val := by
  obtain ⟨f1, l1, r1⟩ := smax_fin ha hb
  obtain ⟨f2, l2, r2⟩ := smax_fin f1 hc
  obtain ⟨f3, l3, r3⟩ := smax_fin f2 hd
  obtain ⟨f4, l4, r4⟩ := smax_fin f3 he
  obtain ⟨f5, l5, r5⟩ := smax_fin f4 hf
  obtain ⟨f6, l6, r6⟩ := smax_fin f5 hg
  obtain ⟨f7, l7, r7⟩ := smax_fin f6 hh
  refine ⟨f7, ?_, ?_, ?_, ?_, ?_, ?_, ?_, ?_⟩ <;> linarith

/-- One of two ends. -/
def pick (l h : F32) (s : Bool) : F32 := if s then h else l

/-- The coordinate of a point between the corners is between the smallest and the largest coordinate of the corners. -/
theorem row_between {a b c t l h : F32} {k : ℤ} (ha : Upto k a) (hb : Upto k b) (hc : Upto k c) (ht : Upto k t)
    (hl : Upto 0 l) (hh : Upto 0 h) (h1 : -149 ≤ k) (h2 : k ≤ 124) {p : V3 F32} (hp : Upto3 0 p)
    (bx : l.val ≤ p.x.val ∧ p.x.val ≤ h.val) (b_y : l.val ≤ p.y.val ∧ p.y.val ≤ h.val)
    (bz : l.val ≤ p.z.val ∧ p.z.val ≤ h.val) :
    let R := row a b c t
    let lo := smin (smin (smin (smin (smin (smin (smin (R ⟨l, l, l⟩) (R ⟨h, l, l⟩)) (R ⟨h, h, l⟩)) (R ⟨l, h, l⟩))
      (R ⟨l, l, h⟩)) (R ⟨h, l, h⟩)) (R ⟨h, h, h⟩)) (R ⟨l, h, h⟩)
    let hi := smax (smax (smax (smax (smax (smax (smax (R ⟨l, l, l⟩) (R ⟨h, l, l⟩)) (R ⟨h, h, l⟩)) (R ⟨l, h, l⟩))
      (R ⟨l, l, h⟩)) (R ⟨h, l, h⟩)) (R ⟨h, h, h⟩)) (R ⟨l, h, h⟩)
    lo.Finite ∧ hi.Finite ∧ (R p).Finite ∧ lo.val ≤ (R p).val ∧ (R p).val ≤ hi.val := by
  intro R lo hi
  have v : ∀ q : V3 F32, Upto3 0 q → (R q).Finite ∧
      (R q).val = rowQ (a.val * q.x.val) (b.val * q.y.val) (c.val * q.z.val) t.val := fun q hq => by
    obtain ⟨u, w⟩ := row_val (j := 0) ha hb hc (by rw [add_zero]; exact ht) hq (by omega) (by omega)
    exact ⟨u.1, w⟩
  have vc : ∀ s s' s'' : Bool, (R ⟨pick l h s, pick l h s', pick l h s''⟩).Finite ∧
      (R ⟨pick l h s, pick l h s', pick l h s''⟩).val =
        rowQ (a.val * (pick l h s).val) (b.val * (pick l h s').val) (c.val * (pick l h s'').val) t.val := by
    intro s s' s''
    have e : ∀ s, Upto 0 (pick l h s) := fun s => by cases s; exacts [hl, hh]
    exact v _ ⟨e s, e s', e s''⟩
  have bl := low8 (vc false false false).1 (vc true false false).1 (vc true true false).1 (vc false true false).1
    (vc false false true).1 (vc true false true).1 (vc true true true).1 (vc false true true).1
  have bh := high8 (vc false false false).1 (vc true false false).1 (vc true true false).1 (vc false true false).1
    (vc false false true).1 (vc true false true).1 (vc true true true).1 (vc false true true).1
  have L : ∀ s s' s'' : Bool, lo.val ≤ (R ⟨pick l h s, pick l h s', pick l h s''⟩).val := by
    obtain ⟨-, q0, q1, q2, q3, q4, q5, q6, q7⟩ := bl
    intro s s' s''
    cases s <;> cases s' <;> cases s'' <;> assumption
  have H : ∀ s s' s'' : Bool, (R ⟨pick l h s, pick l h s', pick l h s''⟩).val ≤ hi.val := by
    obtain ⟨-, q0, q1, q2, q3, q4, q5, q6, q7⟩ := bh
    intro s s' s''
    cases s <;> cases s' <;> cases s'' <;> assumption
  have down : ∀ {x y : ℚ}, l.val ≤ y ∧ y ≤ h.val → ∃ s, x * (pick l h s).val ≤ x * y := by
    intro x y hy
    rcases le_total 0 x with c | c
    · exact ⟨false, mul_le_mul_of_nonneg_left hy.1 c⟩
    · exact ⟨true, mul_le_mul_of_nonpos_left hy.2 c⟩
  have up : ∀ {x y : ℚ}, l.val ≤ y ∧ y ≤ h.val → ∃ s, x * y ≤ x * (pick l h s).val := by
    intro x y hy
    rcases le_total 0 x with c | c
    · exact ⟨true, mul_le_mul_of_nonneg_left hy.2 c⟩
    · exact ⟨false, mul_le_mul_of_nonpos_left hy.1 c⟩
  refine ⟨bl.1, bh.1, (v p hp).1, ?_, ?_⟩
  · obtain ⟨s, d1⟩ := down (x := a.val) bx
    obtain ⟨s', d2⟩ := down (x := b.val) b_y
    obtain ⟨s'', d3⟩ := down (x := c.val) bz
    refine (L s s' s'').trans ?_
    rw [(vc s s' s'').2, (v p hp).2]
    exact rowQ_mono d1 d2 d3
  · obtain ⟨s, d1⟩ := up (x := a.val) bx
    obtain ⟨s', d2⟩ := up (x := b.val) b_y
    obtain ⟨s'', d3⟩ := up (x := c.val) bz
    refine le_trans ?_ (H s s' s'')
    rw [(vc s s' s'').2, (v p hp).2]
    exact rowQ_mono d1 d2 d3

theorem corners_inside {m : M4 F32} {k : ℤ} (hm : LastRow m) (he : Entries k m) (h1 : -149 ≤ k) (h2 : k ≤ 124) {l h : F32}
    (hl : Upto 0 l) (hh : Upto 0 h) {p : V3 F32} (hp : Upto3 0 p) (bx : l.val ≤ p.x.val ∧ p.x.val ≤ h.val)
    (b_y : l.val ≤ p.y.val ∧ p.y.val ≤ h.val) (bz : l.val ≤ p.z.val ∧ p.z.val ≤ h.val) :
    Inside (corners m l h) (mulPoint m p) := by
  obtain ⟨⟨a0, a1, a2, a3⟩, ⟨b0, b1, b2, b3⟩, c0, c1, c2, c3⟩ := he
  have X := row_between a0 a1 a2 a3 hl hh h1 h2 hp bx b_y bz
  have Y := row_between b0 b1 b2 b3 hl hh h1 h2 hp bx b_y bz
  have Z := row_between c0 c1 c2 c3 hl hh h1 h2 hp bx b_y bz
  have e : ∀ u v w, u.Finite → v.Finite → w.Finite → mulPoint m ⟨u, v, w⟩ = ⟨row m.m00 m.m01 m.m02 m.m03 ⟨u, v, w⟩,
      row m.m10 m.m11 m.m12 m.m13 ⟨u, v, w⟩, row m.m20 m.m21 m.m22 m.m23 ⟨u, v, w⟩⟩ :=
    fun u v w hu hv hw => C168_affine hm ⟨hu, hv, hw⟩
  obtain ⟨fl, -⟩ := hl
  obtain ⟨fh, -⟩ := hh
  rw [C168_affine hm hp.fin]
  unfold corners
  rw [e l l l fl fl fl, e h l l fh fl fl, e h h l fh fh fl, e l h l fl fh fl, e l l h fl fl fh, e h l h fh fl fh,
    e h h h fh fh fh, e l h h fl fh fh]
  exact ⟨⟨X.1, Y.1, Z.1⟩, ⟨X.2.1, Y.2.1, Z.2.1⟩, ⟨X.2.2.1, Y.2.2.1, Z.2.2.1⟩, X.2.2.2, Y.2.2.2, Z.2.2.2⟩

theorem upto_num {q : ℚ} {k : ℤ} (h : |q| ≤ 2 ^ k) : Upto k (num q) := ⟨trivial, h⟩

/-- **C168, spheres.**  Every point of the cube around the unit sphere is placed inside of the box that is computed for the
placed sphere: no tolerance is needed, as each rounding keeps the order. -/
theorem C168_sphere_partial {m : M4 F32} {k : ℤ} (hm : LastRow m) (he : Entries k m) (h1 : -149 ≤ k) (h2 : k ≤ 124)
    {p : V3 F32} (hp : Upto3 0 p) : Inside (sphereBox m) (mulPoint m p) := by
  obtain ⟨⟨fx, x⟩, ⟨fy, y⟩, fz, z⟩ := hp
  have b : ∀ {q : ℚ}, |q| ≤ 2 ^ (0 : ℤ) → (num (-1)).val ≤ q ∧ q ≤ (num 1).val := fun h => by
    rw [zpow_zero] at h; exact abs_le.1 h
  exact corners_inside hm he h1 h2 (upto_num (by norm_num)) (upto_num (by norm_num)) ⟨⟨fx, x⟩, ⟨fy, y⟩, fz, z⟩ (b x) (b y) (b z)

/-- **C168, boxes.**  Every point of the unit cube is placed inside of the box that is computed for it. -/
theorem C168_box {m : M4 F32} {k : ℤ} (hm : LastRow m) (he : Entries k m) (h1 : -149 ≤ k) (h2 : k ≤ 124) {p : V3 F32}
    (hp : Fin3 p) (hx : 0 ≤ p.x.val ∧ p.x.val ≤ 1) (hy : 0 ≤ p.y.val ∧ p.y.val ≤ 1) (hz : 0 ≤ p.z.val ∧ p.z.val ≤ 1) :
    Inside (boxBox m) (mulPoint m p) := by
  have b : ∀ {q : ℚ}, 0 ≤ q ∧ q ≤ 1 → |q| ≤ 2 ^ (0 : ℤ) := fun h => by
    rw [zpow_zero, abs_le]; constructor <;> linarith [h.1, h.2]
  exact corners_inside hm he h1 h2 (l := zero false) ⟨trivial, by simp [val]⟩ (upto_num (by norm_num))
    ⟨⟨hp.1, b hx⟩, ⟨hp.2.1, b hy⟩, hp.2.2, b hz⟩ hx hy hz

/-! ### Triangles -/

theorem low3 {a b c : F32} (ha : a.Finite) (hb : b.Finite) (hc : c.Finite) :
    (smin (smin a b) c).Finite ∧ (smin (smin a b) c).val ≤ a.val ∧ (smin (smin a b) c).val ≤ b.val ∧
      (smin (smin a b) c).val ≤ c.val := by
  obtain ⟨f1, l1, r1⟩ := smin_fin ha hb
  obtain ⟨f2, l2, r2⟩ := smin_fin f1 hc
  exact ⟨f2, l2.trans l1, l2.trans r1, r2⟩

theorem high3 {a b c : F32} (ha : a.Finite) (hb : b.Finite) (hc : c.Finite) :
    (smax (smax a b) c).Finite ∧ a.val ≤ (smax (smax a b) c).val ∧ b.val ≤ (smax (smax a b) c).val ∧
      c.val ≤ (smax (smax a b) c).val := by
  obtain ⟨f1, l1, r1⟩ := smax_fin ha hb
  obtain ⟨f2, l2, r2⟩ := smax_fin f1 hc
  exact ⟨f2, l1.trans l2, r1.trans l2, r2⟩

/-- The interval of three coordinates holds the exact coordinate of every point between, but for the error `d`. -/
theorem between3 {x y z : F32} {X Y Z d u v w : ℚ} (hx : x.Finite ∧ |x.val - X| ≤ d) (hy : y.Finite ∧ |y.val - Y| ≤ d)
    (hz : z.Finite ∧ |z.val - Z| ≤ d) (hu : 0 ≤ u) (hv : 0 ≤ v) (hw : 0 ≤ w) (hs : u + v + w = 1) :
    (smin (smin x y) z).val - d ≤ u * X + v * Y + w * Z ∧ u * X + v * Y + w * Z ≤ (smax (smax x y) z).val + d := by
  obtain ⟨-, l1, l2, l3⟩ := low3 hx.1 hy.1 hz.1
  obtain ⟨-, h1, h2, h3⟩ := high3 hx.1 hy.1 hz.1
  generalize (smin (smin x y) z).val = lo at *
  generalize (smax (smax x y) z).val = hi at *
  have ex := abs_le.1 hx.2
  have ey := abs_le.1 hy.2
  have ez := abs_le.1 hz.2
  have a1 : u * (lo - d) ≤ u * X := mul_le_mul_of_nonneg_left (by linarith [ex.2]) hu
  have a2 : v * (lo - d) ≤ v * Y := mul_le_mul_of_nonneg_left (by linarith [ey.2]) hv
  have a3 : w * (lo - d) ≤ w * Z := mul_le_mul_of_nonneg_left (by linarith [ez.2]) hw
  have b1 : u * X ≤ u * (hi + d) := mul_le_mul_of_nonneg_left (by linarith [ex.1]) hu
  have b2 : v * Y ≤ v * (hi + d) := mul_le_mul_of_nonneg_left (by linarith [ey.1]) hv
  have b3 : w * Z ≤ w * (hi + d) := mul_le_mul_of_nonneg_left (by linarith [ez.1]) hw
  have c1 : u * (lo - d) + v * (lo - d) + w * (lo - d) = lo - d := by rw [← add_mul, ← add_mul, hs, one_mul]
  have c2 : u * (hi + d) + v * (hi + d) + w * (hi + d) = hi + d := by rw [← add_mul, ← add_mul, hs, one_mul]
  constructor <;> linarith

theorem term_bound {a x : F32} {k j : ℤ} (ha : Upto k a) (hx : Upto j x) : |a.val * x.val| ≤ 2 ^ (k + j) := by
  rw [abs_mul, zpow_add₀ (by norm_num)]
  exact mul_le_mul ha.2 hx.2 (abs_nonneg _) (two_zpow_pos _).le

/-- The coordinates of an image, with a common bound for the error. -/
theorem image_err {a b c t : F32} {k j : ℤ} (ha : Upto k a) (hb : Upto k b) (hc : Upto k c) (ht : Upto k t) {p : V3 F32}
    (hp : Upto3 j p) (hj : 0 ≤ j) (h1 : -120 ≤ k + j) (h2 : k + j ≤ 124) :
    (row a b c t p).Finite ∧
    |(row a b c t p).val - (a.val * p.x.val + b.val * p.y.val + c.val * p.z.val + t.val)| ≤ 2 ^ (k + j) * (21 / 2 ^ 24) := by
  obtain ⟨u, v⟩ := row_val ha hb hc (upto_mono (by omega) ht) hp (by omega) h2
  refine ⟨u.1, ?_⟩
  rw [v]
  refine (rowQ_err _ _ _ _).trans ?_
  have b1 := term_bound ha hp.1
  have b2 := term_bound hb hp.2.1
  have b3 := term_bound hc hp.2.2
  have b4 := (upto_mono (show k ≤ k + j by omega) ht).2
  have b5 : (2 : ℚ) ^ (-147 : ℤ) ≤ 2 ^ (k + j) * (1 / 2 ^ 24) := by
    have : (2 : ℚ) ^ (-147 : ℤ) ≤ 2 ^ (-120 : ℤ) * (1 / 2 ^ 24) := by norm_num
    exact this.trans (mul_le_mul_of_nonneg_right (zpow_le_zpow_right₀ (by norm_num) h1) (by norm_num))
  generalize (2 : ℚ) ^ (k + j) = B at *
  generalize (2 : ℚ) ^ (-147 : ℤ) = η at *
  norm_num only at *
  linarith

/-- **C168, triangles.**  The corners of the triangle are placed inside of its box, and the exact image of every point of
the triangle is inside but for 21 half units of the largest possible coordinate. -/
theorem C168_triangle {m : M4 F32} {k j : ℤ} (hm : LastRow m) (he : Entries k m) {a b c : V3 F32} (ha : Upto3 j a)
    (hb : Upto3 j b) (hc : Upto3 j c) (hj : 0 ≤ j) (h1 : -120 ≤ k + j) (h2 : k + j ≤ 124) :
    let B := triangleBox m a b c
    let d : ℚ := 2 ^ (k + j) * (21 / 2 ^ 24)
    Inside B (mulPoint m a) ∧ Inside B (mulPoint m b) ∧ Inside B (mulPoint m c) ∧
    ∀ u v w : ℚ, 0 ≤ u → 0 ≤ v → 0 ≤ w → u + v + w = 1 →
      let x := u * a.x.val + v * b.x.val + w * c.x.val
      let y := u * a.y.val + v * b.y.val + w * c.y.val
      let z := u * a.z.val + v * b.z.val + w * c.z.val
      (B.lo.x.val - d ≤ m.m00.val * x + m.m01.val * y + m.m02.val * z + m.m03.val ∧
        m.m00.val * x + m.m01.val * y + m.m02.val * z + m.m03.val ≤ B.hi.x.val + d) ∧
      (B.lo.y.val - d ≤ m.m10.val * x + m.m11.val * y + m.m12.val * z + m.m13.val ∧
        m.m10.val * x + m.m11.val * y + m.m12.val * z + m.m13.val ≤ B.hi.y.val + d) ∧
      (B.lo.z.val - d ≤ m.m20.val * x + m.m21.val * y + m.m22.val * z + m.m23.val ∧
        m.m20.val * x + m.m21.val * y + m.m22.val * z + m.m23.val ≤ B.hi.z.val + d) := by
  intro B d
  obtain ⟨⟨a0, a1, a2, a3⟩, ⟨b0, b1, b2, b3⟩, c0, c1, c2, c3⟩ := he
  have X1 := image_err a0 a1 a2 a3 ha hj h1 h2
  have X2 := image_err a0 a1 a2 a3 hb hj h1 h2
  have X3 := image_err a0 a1 a2 a3 hc hj h1 h2
  have Y1 := image_err b0 b1 b2 b3 ha hj h1 h2
  have Y2 := image_err b0 b1 b2 b3 hb hj h1 h2
  have Y3 := image_err b0 b1 b2 b3 hc hj h1 h2
  have Z1 := image_err c0 c1 c2 c3 ha hj h1 h2
  have Z2 := image_err c0 c1 c2 c3 hb hj h1 h2
  have Z3 := image_err c0 c1 c2 c3 hc hj h1 h2
  have eB : B = triangleBox m a b c := rfl
  unfold triangleBox at eB
  rw [C168_affine hm ha.fin, C168_affine hm hb.fin, C168_affine hm hc.fin] at eB ⊢
  have LX := low3 X1.1 X2.1 X3.1
  have LY := low3 Y1.1 Y2.1 Y3.1
  have LZ := low3 Z1.1 Z2.1 Z3.1
  have HX := high3 X1.1 X2.1 X3.1
  have HY := high3 Y1.1 Y2.1 Y3.1
  have HZ := high3 Z1.1 Z2.1 Z3.1
  rw [eB]
  refine ⟨⟨⟨LX.1, LY.1, LZ.1⟩, ⟨HX.1, HY.1, HZ.1⟩, ⟨X1.1, Y1.1, Z1.1⟩, ⟨LX.2.1, HX.2.1⟩, ⟨LY.2.1, HY.2.1⟩, LZ.2.1, HZ.2.1⟩,
    ⟨⟨LX.1, LY.1, LZ.1⟩, ⟨HX.1, HY.1, HZ.1⟩, ⟨X2.1, Y2.1, Z2.1⟩, ⟨LX.2.2.1, HX.2.2.1⟩, ⟨LY.2.2.1, HY.2.2.1⟩, LZ.2.2.1,
      HZ.2.2.1⟩,
    ⟨⟨LX.1, LY.1, LZ.1⟩, ⟨HX.1, HY.1, HZ.1⟩, ⟨X3.1, Y3.1, Z3.1⟩, ⟨LX.2.2.2, HX.2.2.2⟩, ⟨LY.2.2.2, HY.2.2.2⟩, LZ.2.2.2,
      HZ.2.2.2⟩, ?_⟩
  intro u v w hu hv hw hs x y z
  have lin : ∀ e f g t : ℚ, e * x + f * y + g * z + t = u * (e * a.x.val + f * a.y.val + g * a.z.val + t) +
      v * (e * b.x.val + f * b.y.val + g * b.z.val + t) + w * (e * c.x.val + f * c.y.val + g * c.z.val + t) := by
    intro e f g t
    have : t = (u + v + w) * t := by rw [hs, one_mul]
    linear_combination this
  rw [lin, lin, lin]
  exact ⟨between3 X1 X2 X3 hu hv hw hs, between3 Y1 Y2 Y3 hu hv hw hs, between3 Z1 Z2 Z3 hu hv hw hs⟩

/-! ### Products of matrices -/

/-- All entries of the first three rows are finite. -/
theorem dot4_upto {a b c d x y z w : F32} {i j : ℤ} (ha : Upto i a) (hb : Upto i b) (hc : Upto i c) (hd : Upto i d)
    (hx : Upto j x) (hy : Upto j y) (hz : Upto j z) (hw : Upto j w) (h1 : -149 ≤ i + j) (h2 : i + j ≤ 124) :
    Upto (i + j + 3) (dot4 a b c d x y z w) := by
  have m1 := (upto_mul ha hx h1 (by omega)).1
  have m2 := (upto_mul hb hy h1 (by omega)).1
  have m3 := (upto_mul hc hz h1 (by omega)).1
  have m4 := (upto_mul hd hw h1 (by omega)).1
  have s1 := (upto_add m1 m2 (by omega) (by omega)).1
  have s2 := (upto_add s1 (upto_mono (by omega) m3) (by omega) (by omega)).1
  have s3 := (upto_add s2 (upto_mono (by omega) m4) (by omega) (by omega)).1
  rw [show i + j + 3 = i + j + 1 + 1 + 1 by ring]
  exact s3

theorem dot4_zero {a b c d x y z w : F32} (ha : a.Finite ∧ a.val = 0) (hb : b.Finite ∧ b.val = 0) (hc : c.Finite ∧ c.val = 0)
    (hd : d.Finite ∧ d.val = 1) (hx : x.Finite) (hy : y.Finite) (hz : z.Finite) (hw : w.Finite ∧ w.val = 0) :
    (dot4 a b c d x y z w).Finite ∧ (dot4 a b c d x y z w).val = 0 := by
  have h := zero_mul hw hd.1
  rw [F32.mul_comm] at h
  exact zero_add (zero_add (zero_add (zero_mul ha hx) (zero_mul hb hy)) (zero_mul hc hz)) h

theorem dot4_one {a b c d x y z w : F32} (ha : a.Finite ∧ a.val = 0) (hb : b.Finite ∧ b.val = 0) (hc : c.Finite ∧ c.val = 0)
    (hd : d.Finite ∧ d.val = 1) (hx : x.Finite) (hy : y.Finite) (hz : z.Finite) (hw : w.Finite ∧ w.val = 1) :
    (dot4 a b c d x y z w).Finite ∧ (dot4 a b c d x y z w).val = 1 := by
  have e : d.val * w.val = 1 := by rw [hd.2, hw.2, one_mul]
  obtain ⟨f, v⟩ := mul_finite hd.1 hw.1 (by rw [e, rnd_one]; norm_num)
  exact zero_add_one (zero_add (zero_add (zero_mul ha hx) (zero_mul hb hy)) (zero_mul hc hz)) ⟨f, by rw [v, e, rnd_one]⟩

theorem upto_zero {k : ℤ} {x : F32} (h : x.Finite ∧ x.val = 0) : Upto k x :=
  ⟨h.1, by rw [h.2, abs_zero]; exact (two_zpow_pos k).le⟩

theorem upto_one {k : ℤ} (hk : 0 ≤ k) {x : F32} (h : x.Finite ∧ x.val = 1) : Upto k x :=
  ⟨h.1, by rw [h.2, abs_one, ← zpow_zero (2 : ℚ)]; exact zpow_le_zpow_right₀ (by norm_num) hk⟩

/-- **C168, products.**  A product of affine maps is affine, exactly, and its entries are bounded. -/
theorem C168_product {a b : M4 F32} {i j : ℤ} (la : LastRow a) (lb : LastRow b) (ea : Entries i a) (eb : Entries j b)
    (hj : 0 ≤ j) (h1 : -149 ≤ i + j) (h2 : i + j ≤ 124) : LastRow (mulMat a b) ∧ Entries (i + j + 3) (mulMat a b) := by
  obtain ⟨⟨a00, a01, a02, a03⟩, ⟨a10, a11, a12, a13⟩, a20, a21, a22, a23⟩ := ea
  obtain ⟨⟨b00, b01, b02, b03⟩, ⟨b10, b11, b12, b13⟩, b20, b21, b22, b23⟩ := eb
  obtain ⟨a30, a31, a32, a33⟩ := la
  obtain ⟨b30, b31, b32, b33⟩ := lb
  have u0 := upto_zero (k := j) b30
  have u1 := upto_zero (k := j) b31
  have u2 := upto_zero (k := j) b32
  have u3 := upto_one hj b33
  exact ⟨⟨dot4_zero a30 a31 a32 a33 b00.1 b10.1 b20.1 b30, dot4_zero a30 a31 a32 a33 b01.1 b11.1 b21.1 b31,
      dot4_zero a30 a31 a32 a33 b02.1 b12.1 b22.1 b32, dot4_one a30 a31 a32 a33 b03.1 b13.1 b23.1 b33⟩,
    ⟨dot4_upto a00 a01 a02 a03 b00 b10 b20 u0 h1 h2, dot4_upto a00 a01 a02 a03 b01 b11 b21 u1 h1 h2,
      dot4_upto a00 a01 a02 a03 b02 b12 b22 u2 h1 h2, dot4_upto a00 a01 a02 a03 b03 b13 b23 u3 h1 h2⟩,
    ⟨dot4_upto a10 a11 a12 a13 b00 b10 b20 u0 h1 h2, dot4_upto a10 a11 a12 a13 b01 b11 b21 u1 h1 h2,
      dot4_upto a10 a11 a12 a13 b02 b12 b22 u2 h1 h2, dot4_upto a10 a11 a12 a13 b03 b13 b23 u3 h1 h2⟩,
    dot4_upto a20 a21 a22 a23 b00 b10 b20 u0 h1 h2, dot4_upto a20 a21 a22 a23 b01 b11 b21 u1 h1 h2,
      dot4_upto a20 a21 a22 a23 b02 b12 b22 u2 h1 h2, dot4_upto a20 a21 a22 a23 b03 b13 b23 u3 h1 h2⟩

theorem isZero (s : Bool) : (zero s).Finite ∧ (zero s).val = 0 := ⟨trivial, rfl⟩
theorem isOne : (num 1).Finite ∧ (num 1).val = 1 := ⟨trivial, rfl⟩
theorem upto_neg {k : ℤ} {x : F32} (h : Upto k x) : Upto k (neg x) := by
  obtain ⟨f, v⟩ := neg_finite h.1
  exact ⟨f, by rw [v, abs_neg]; exact h.2⟩

/-- **C168, placements.**  The matrix of an object of the scene is that of an affine map, whatever the angles are. -/
theorem C168_placement {position size : V3 F32} {x y z : Angle} (hp : Upto3 40 position) (hs : Upto3 40 size)
    (hx : Upto 0 x.c ∧ Upto 0 x.s) (hy : Upto 0 y.c ∧ Upto 0 y.s) (hz : Upto 0 z.c ∧ Upto 0 z.s) :
    LastRow (placement position x y z size) ∧ Entries 92 (placement position x y z size) := by
  have o : ∀ {k : ℤ}, Upto k (zero false) := upto_zero (isZero false)
  have i : ∀ {k : ℤ}, 0 ≤ k → Upto k (num 1) := fun h => upto_one h isOne
  have l : LastRow (rotateZ z.c z.s) ∧ LastRow (rotateY y.c y.s) ∧ LastRow (rotateX x.c x.s) ∧
      LastRow (translation position) ∧ LastRow (scale size) :=
    ⟨⟨isZero _, isZero _, isZero _, isOne⟩, ⟨isZero _, isZero _, isZero _, isOne⟩, ⟨isZero _, isZero _, isZero _, isOne⟩,
      ⟨isZero _, isZero _, isZero _, isOne⟩, isZero _, isZero _, isZero _, isOne⟩
  have eZ : Entries 0 (rotateZ z.c z.s) :=
    ⟨⟨hz.1, upto_neg hz.2, o, o⟩, ⟨hz.2, hz.1, o, o⟩, o, o, i le_rfl, o⟩
  have eY : Entries 0 (rotateY y.c y.s) :=
    ⟨⟨hy.1, o, hy.2, o⟩, ⟨o, i le_rfl, o, o⟩, upto_neg hy.2, o, hy.1, o⟩
  have eX : Entries 0 (rotateX x.c x.s) :=
    ⟨⟨i le_rfl, o, o, o⟩, ⟨o, hx.1, upto_neg hx.2, o⟩, o, hx.2, hx.1, o⟩
  have eT : Entries 40 (translation position) :=
    ⟨⟨i (by norm_num), o, o, hp.1⟩, ⟨o, i (by norm_num), o, hp.2.1⟩, o, o, i (by norm_num), hp.2.2⟩
  have eS : Entries 40 (scale size) := ⟨⟨hs.1, o, o, o⟩, ⟨o, hs.2.1, o, o⟩, o, o, hs.2.2, o⟩
  obtain ⟨l1, e1⟩ := C168_product l.1 l.2.1 eZ eY (by norm_num) (by norm_num) (by norm_num)
  obtain ⟨l2, e2⟩ := C168_product l1 l.2.2.1 e1 eX (by norm_num) (by norm_num) (by norm_num)
  obtain ⟨l3, e3⟩ := C168_product l.2.2.2.1 l2 eT e2 (by norm_num) (by norm_num) (by norm_num)
  obtain ⟨l4, e4⟩ := C168_product l3 l.2.2.2.2 e3 eS (by norm_num) (by norm_num) (by norm_num)
  exact ⟨l4, e4⟩

/-- Together: what the scene places stays inside of the box it is searched in. -/
theorem C168_placed_sphere_partial {position size : V3 F32} {x y z : Angle} (hp : Upto3 40 position) (hs : Upto3 40 size)
    (hx : Upto 0 x.c ∧ Upto 0 x.s) (hy : Upto 0 y.c ∧ Upto 0 y.s) (hz : Upto 0 z.c ∧ Upto 0 z.s) {p : V3 F32}
    (h : Upto3 0 p) : Inside (sphereBox (placement position x y z size)) (mulPoint (placement position x y z size) p) := by
  obtain ⟨l, e⟩ := C168_placement hp hs hx hy hz
  exact C168_sphere_partial l e (by norm_num) (by norm_num) h

/-! ### The inverse -/

theorem upto_plus {i i' : ℤ} {x y : F32} (hx : Upto i x) (hy : Upto i' y) (h : i' ≤ i) (h1 : -150 ≤ i) (h2 : i ≤ 126) :
    Upto (i + 1) (F32.add x y) := (upto_add hx (upto_mono h hy) h1 h2).1

theorem upto_minus {i i' : ℤ} {x y : F32} (hx : Upto i x) (hy : Upto i' y) (h : i' ≤ i) (h1 : -150 ≤ i) (h2 : i ≤ 126) :
    Upto (i + 1) (F32.sub x y) := upto_plus hx (upto_neg hy) h h1 h2

theorem six_a {n : ℤ} {a b c d e f : F32} (ha : Upto n a) (hb : Upto n b) (hc : Upto n c) (hd : Upto n d) (he : Upto n e)
    (hf : Upto n f) (h1 : 0 ≤ n) (h2 : n ≤ 120) :
    Upto (n + 1 + 1 + 1 + 1 + 1) (F32.sub (F32.add (F32.add (F32.sub (F32.sub a b) c) d) e) f) :=
  upto_minus (upto_plus (upto_plus (upto_minus (upto_minus ha hb le_rfl (by omega) (by omega)) hc (by omega) (by omega)
    (by omega)) hd (by omega) (by omega) (by omega)) he (by omega) (by omega) (by omega)) hf (by omega) (by omega) (by omega)

theorem six_b {n : ℤ} {a b c d e f : F32} (ha : Upto n a) (hb : Upto n b) (hc : Upto n c) (hd : Upto n d) (he : Upto n e)
    (hf : Upto n f) (h1 : 0 ≤ n) (h2 : n ≤ 120) :
    Upto (n + 1 + 1 + 1 + 1 + 1) (F32.add (F32.sub (F32.sub (F32.add (F32.add a b) c) d) e) f) :=
  upto_plus (upto_minus (upto_minus (upto_plus (upto_plus ha hb le_rfl (by omega) (by omega)) hc (by omega) (by omega)
    (by omega)) hd (by omega) (by omega) (by omega)) he (by omega) (by omega) (by omega)) hf (by omega) (by omega) (by omega)

theorem upto_mul3 {a b c : F32} (ha : Upto 25 a) (hb : Upto 25 b) (hc : Upto 25 c) : Upto 75 (mul3 a b c) :=
  (upto_mul (upto_mul ha hb (by norm_num) (by norm_num)).1 hc (by norm_num) (by norm_num)).1

theorem sum_a {a b c d e f g h i j k l o p q r s t : F32} (h1 : Upto 25 a ∧ Upto 25 b ∧ Upto 25 c)
    (h2 : Upto 25 d ∧ Upto 25 e ∧ Upto 25 f) (h3 : Upto 25 g ∧ Upto 25 h ∧ Upto 25 i) (h4 : Upto 25 j ∧ Upto 25 k ∧ Upto 25 l)
    (h5 : Upto 25 o ∧ Upto 25 p ∧ Upto 25 q) (h6 : Upto 25 r ∧ Upto 25 s ∧ Upto 25 t) :
    Upto 80 (F32.sub (F32.add (F32.add (F32.sub (F32.sub (mul3 a b c) (mul3 d e f)) (mul3 g h i)) (mul3 j k l)) (mul3 o p q))
      (mul3 r s t)) :=
  six_a (n := 75) (upto_mul3 h1.1 h1.2.1 h1.2.2) (upto_mul3 h2.1 h2.2.1 h2.2.2) (upto_mul3 h3.1 h3.2.1 h3.2.2)
    (upto_mul3 h4.1 h4.2.1 h4.2.2) (upto_mul3 h5.1 h5.2.1 h5.2.2) (upto_mul3 h6.1 h6.2.1 h6.2.2) (by norm_num) (by norm_num)

theorem sum_b {a b c d e f g h i j k l o p q r s t : F32} (h1 : Upto 25 a ∧ Upto 25 b ∧ Upto 25 c)
    (h2 : Upto 25 d ∧ Upto 25 e ∧ Upto 25 f) (h3 : Upto 25 g ∧ Upto 25 h ∧ Upto 25 i) (h4 : Upto 25 j ∧ Upto 25 k ∧ Upto 25 l)
    (h5 : Upto 25 o ∧ Upto 25 p ∧ Upto 25 q) (h6 : Upto 25 r ∧ Upto 25 s ∧ Upto 25 t) :
    Upto 80 (F32.add (F32.sub (F32.sub (F32.add (F32.add (mul3 (neg a) b c) (mul3 d e f)) (mul3 g h i)) (mul3 j k l))
      (mul3 o p q)) (mul3 r s t)) :=
  six_b (n := 75) (upto_mul3 (upto_neg h1.1) h1.2.1 h1.2.2) (upto_mul3 h2.1 h2.2.1 h2.2.2) (upto_mul3 h3.1 h3.2.1 h3.2.2)
    (upto_mul3 h4.1 h4.2.1 h4.2.2) (upto_mul3 h5.1 h5.2.1 h5.2.2) (upto_mul3 h6.1 h6.2.1 h6.2.2) (by norm_num) (by norm_num)

section
attribute [local irreducible] Upto

theorem inv_upto {m : M4 F32} (hm : LastRow m) (he : Entries 25 m) (i : ℕ) : Upto 80 (inv m i) := by
  obtain ⟨⟨a00, a01, a02, a03⟩, ⟨a10, a11, a12, a13⟩, a20, a21, a22, a23⟩ := he
  have a30 := upto_zero (k := 25) hm.1
  have a31 := upto_zero (k := 25) hm.2.1
  have a32 := upto_zero (k := 25) hm.2.2.1
  have a33 := upto_one (k := 25) (by norm_num) hm.2.2.2
  clear hm
  unfold inv
  split
  · exact sum_a ⟨a11, a22, a33⟩ ⟨a11, a23, a32⟩ ⟨a21, a12, a33⟩ ⟨a21, a13, a32⟩ ⟨a31, a12, a23⟩ ⟨a31, a13, a22⟩
  · exact sum_b ⟨a01, a22, a33⟩ ⟨a01, a23, a32⟩ ⟨a21, a02, a33⟩ ⟨a21, a03, a32⟩ ⟨a31, a02, a23⟩ ⟨a31, a03, a22⟩
  · exact sum_a ⟨a01, a12, a33⟩ ⟨a01, a13, a32⟩ ⟨a11, a02, a33⟩ ⟨a11, a03, a32⟩ ⟨a31, a02, a13⟩ ⟨a31, a03, a12⟩
  · exact sum_b ⟨a01, a12, a23⟩ ⟨a01, a13, a22⟩ ⟨a11, a02, a23⟩ ⟨a11, a03, a22⟩ ⟨a21, a02, a13⟩ ⟨a21, a03, a12⟩
  · exact sum_b ⟨a10, a22, a33⟩ ⟨a10, a23, a32⟩ ⟨a20, a12, a33⟩ ⟨a20, a13, a32⟩ ⟨a30, a12, a23⟩ ⟨a30, a13, a22⟩
  · exact sum_a ⟨a00, a22, a33⟩ ⟨a00, a23, a32⟩ ⟨a20, a02, a33⟩ ⟨a20, a03, a32⟩ ⟨a30, a02, a23⟩ ⟨a30, a03, a22⟩
  · exact sum_b ⟨a00, a12, a33⟩ ⟨a00, a13, a32⟩ ⟨a10, a02, a33⟩ ⟨a10, a03, a32⟩ ⟨a30, a02, a13⟩ ⟨a30, a03, a12⟩
  · exact sum_a ⟨a00, a12, a23⟩ ⟨a00, a13, a22⟩ ⟨a10, a02, a23⟩ ⟨a10, a03, a22⟩ ⟨a20, a02, a13⟩ ⟨a20, a03, a12⟩
  · exact sum_a ⟨a10, a21, a33⟩ ⟨a10, a23, a31⟩ ⟨a20, a11, a33⟩ ⟨a20, a13, a31⟩ ⟨a30, a11, a23⟩ ⟨a30, a13, a21⟩
  · exact sum_b ⟨a00, a21, a33⟩ ⟨a00, a23, a31⟩ ⟨a20, a01, a33⟩ ⟨a20, a03, a31⟩ ⟨a30, a01, a23⟩ ⟨a30, a03, a21⟩
  · exact sum_a ⟨a00, a11, a33⟩ ⟨a00, a13, a31⟩ ⟨a10, a01, a33⟩ ⟨a10, a03, a31⟩ ⟨a30, a01, a13⟩ ⟨a30, a03, a11⟩
  · exact sum_b ⟨a00, a11, a23⟩ ⟨a00, a13, a21⟩ ⟨a10, a01, a23⟩ ⟨a10, a03, a21⟩ ⟨a20, a01, a13⟩ ⟨a20, a03, a11⟩
  · exact sum_b ⟨a10, a21, a32⟩ ⟨a10, a22, a31⟩ ⟨a20, a11, a32⟩ ⟨a20, a12, a31⟩ ⟨a30, a11, a22⟩ ⟨a30, a12, a21⟩
  · exact sum_a ⟨a00, a21, a32⟩ ⟨a00, a22, a31⟩ ⟨a20, a01, a32⟩ ⟨a20, a02, a31⟩ ⟨a30, a01, a22⟩ ⟨a30, a02, a21⟩
  · exact sum_b ⟨a00, a11, a32⟩ ⟨a00, a12, a31⟩ ⟨a10, a01, a32⟩ ⟨a10, a02, a31⟩ ⟨a30, a01, a12⟩ ⟨a30, a02, a11⟩
  · exact sum_a ⟨a00, a11, a22⟩ ⟨a00, a12, a21⟩ ⟨a10, a01, a22⟩ ⟨a10, a02, a21⟩ ⟨a20, a01, a12⟩ ⟨a20, a02, a11⟩
end

theorem z3_3 {a b c : F32} (ha : Upto 25 a) (hb : Upto 25 b) (hc : c.Finite ∧ c.val = 0) :
    (mul3 a b c).Finite ∧ (mul3 a b c).val = 0 := by
  unfold mul3
  rw [F32.mul_comm]
  exact zero_mul hc (upto_mul ha hb (by norm_num) (by norm_num)).1.1

theorem z3_2 {a b c : F32} (ha : a.Finite) (hb : b.Finite ∧ b.val = 0) (hc : c.Finite) :
    (mul3 a b c).Finite ∧ (mul3 a b c).val = 0 := by
  unfold mul3
  rw [F32.mul_comm a b]
  exact zero_mul (zero_mul hb ha) hc

theorem z3_1 {a b c : F32} (ha : a.Finite ∧ a.val = 0) (hb : b.Finite) (hc : c.Finite) :
    (mul3 a b c).Finite ∧ (mul3 a b c).val = 0 := zero_mul (zero_mul ha hb) hc

theorem z_neg {a : F32} (ha : a.Finite ∧ a.val = 0) : (neg a).Finite ∧ (neg a).val = 0 := by
  obtain ⟨f, v⟩ := neg_finite ha.1
  exact ⟨f, by rw [v, ha.2, neg_zero]⟩

theorem z_sub {a b : F32} (ha : a.Finite ∧ a.val = 0) (hb : b.Finite ∧ b.val = 0) :
    (F32.sub a b).Finite ∧ (F32.sub a b).val = 0 := zero_add ha (z_neg hb)

theorem inv_zero {m : M4 F32} (hm : LastRow m) (he : Entries 25 m) :
    ((inv m 12).Finite ∧ (inv m 12).val = 0) ∧ ((inv m 13).Finite ∧ (inv m 13).val = 0) ∧
      ((inv m 14).Finite ∧ (inv m 14).val = 0) := by
  obtain ⟨⟨a00, a01, a02, a03⟩, ⟨a10, a11, a12, a13⟩, a20, a21, a22, a23⟩ := he
  obtain ⟨h0, h1, h2, h3⟩ := hm
  refine ⟨?_, ?_, ?_⟩
  · exact zero_add (z_sub (z_sub (zero_add (zero_add (z3_3 (upto_neg a10) a21 h2) (z3_3 a10 a22 h1)) (z3_3 a20 a11 h2))
      (z3_3 a20 a12 h1)) (z3_1 h0 a11.1 a22.1)) (z3_1 h0 a12.1 a21.1)
  · exact z_sub (zero_add (zero_add (z_sub (z_sub (z3_3 a00 a21 h2) (z3_3 a00 a22 h1)) (z3_3 a20 a01 h2))
      (z3_3 a20 a02 h1)) (z3_1 h0 a01.1 a22.1)) (z3_1 h0 a02.1 a21.1)
  · exact zero_add (z_sub (z_sub (zero_add (zero_add (z3_3 (upto_neg a00) a11 h2) (z3_3 a00 a12 h1)) (z3_3 a10 a01 h2))
      (z3_3 a10 a02 h1)) (z3_1 h0 a01.1 a12.1)) (z3_1 h0 a02.1 a11.1)

theorem det_upto {m : M4 F32} (hm : LastRow m) (he : Entries 25 m) : Upto 108 (det m) ∧ rnd32 (det m).val = (det m).val := by
  have h := inv_upto hm he
  obtain ⟨⟨a00, a01, a02, a03⟩, -, -⟩ := he
  have m1 := (upto_mul a00 (h 0) (by norm_num) (by norm_num)).1
  have m2 := (upto_mul a01 (h 4) (by norm_num) (by norm_num)).1
  have m3 := (upto_mul a02 (h 8) (by norm_num) (by norm_num)).1
  have m4 := (upto_mul a03 (h 12) (by norm_num) (by norm_num)).1
  have s1 := (upto_add m1 m2 (by norm_num) (by norm_num)).1
  have s2 := (upto_add s1 (upto_mono (by norm_num) m3) (by norm_num) (by norm_num)).1
  obtain ⟨s3, v⟩ := upto_add s2 (upto_mono (by norm_num) m4) (by norm_num) (by norm_num)
  refine ⟨s3, ?_⟩
  unfold det
  rw [v, rnd32_rnd32]

theorem epsilon_fin : epsilon.Finite ∧ epsilon.val = rnd32 (1 / 100000) :=
  round_finite (by rw [show rnd32 (1 / 100000) = 10995116 / 2 ^ 40 by decide +kernel]; norm_num)

theorem epsilon_val : epsilon.val = 10995116 / 2 ^ 40 := by
  rw [epsilon_fin.2]; decide +kernel

/-- Which matrices are found to have an inverse. -/
theorem inverse_iff {m : M4 F32} (hm : LastRow m) (he : Entries 25 m) :
    inverse m ≠ none ↔ epsilon.val < |(det m).val| := by
  obtain ⟨⟨f, b⟩, r⟩ := det_upto hm he
  have e : (det m).val - (zero false).val = (det m).val := by simp [val]
  obtain ⟨sf, sv⟩ := sub_fin f (show (zero false).Finite from trivial)
    (by rw [e, r]; exact lt_of_le_of_lt b (pow_lt128 (by norm_num)))
  rw [e, r] at sv
  obtain ⟨af, av⟩ := abs_finite sf
  rw [sv] at av
  have hl := Compare.le_fin af epsilon_fin.1
  rw [av] at hl
  unfold inverse
  by_cases c : Compare.le (F32.abs (F32.sub (det m) (zero false))) epsilon = true
  · rw [if_pos c]
    exact ⟨fun h => absurd rfl h, fun h => absurd (hl.1 c) (not_le.2 h)⟩
  · rw [if_neg c]
    exact ⟨fun _ => not_le.1 fun h => c (hl.2 h), fun _ => by simp⟩

/-- **C168, inverse.**  An affine map with a determinant above the tolerance has an inverse with finite entries, the last row
of which is zero but for the last entry.  (That entry is not always one: see `C168_violated_inverse`.) -/
theorem C168_inverse_partial {m i : M4 F32} (hm : LastRow m) (he : Entries 25 m) (h : inverse m = some i) :
    Entries 97 i ∧ ((i.m30.Finite ∧ i.m30.val = 0) ∧ (i.m31.Finite ∧ i.m31.val = 0) ∧ (i.m32.Finite ∧ i.m32.val = 0)) ∧
      Upto 97 i.m33 := by
  have hd := (inverse_iff hm he).1 (by rw [h]; simp)
  rw [epsilon_val] at hd
  obtain ⟨⟨fd, -⟩, -⟩ := det_upto hm he
  have d0 : (det m).val ≠ 0 := by
    intro e; rw [e, abs_zero] at hd; norm_num at hd
  have q : |(num 1).val / (det m).val| ≤ 2 ^ (17 : ℤ) := by
    rw [abs_div, div_le_iff₀ (abs_pos.2 d0)]
    have h1 : (1 : ℚ) ≤ 2 ^ (17 : ℤ) * (10995116 / 2 ^ 40) := by norm_num
    have h2 : |(num 1).val| = 1 := by simp [val]
    rw [h2]
    exact h1.trans (mul_le_mul_of_nonneg_left hd.le (by norm_num))
  obtain ⟨fq, vq⟩ := div_finite (show (num 1).Finite from trivial) fd d0
    (lt_of_le_of_lt (rnd32_abs_le (by norm_num) q) (pow_lt128 (by norm_num)))
  have uq : Upto 17 (F32.div (num 1) (det m)) := ⟨fq, by rw [vq]; exact rnd32_abs_le (by norm_num) q⟩
  have e : ∀ n, Upto 97 (F32.mul (inv m n) (F32.div (num 1) (det m))) := fun n =>
    (upto_mul (inv_upto hm he n) uq (by norm_num) (by norm_num)).1
  obtain ⟨z0, z1, z2⟩ := inv_zero hm he
  unfold inverse at h
  split at h
  · exact absurd h (by simp)
  · simp only [Option.some.injEq] at h
    rw [← h]
    exact ⟨⟨⟨e 0, e 1, e 2, e 3⟩, ⟨e 4, e 5, e 6, e 7⟩, e 8, e 9, e 10, e 11⟩,
      ⟨zero_mul z0 fq, zero_mul z1 fq, zero_mul z2 fq⟩, e 15⟩

/-! ### The inverse of a scaled object -/

/-- A finite number within `k*|X|` of `X`. -/
def Rs (x : F32) (X k : ℚ) : Prop := x.Finite ∧ |x.val - X| ≤ k * |X|

/-- Zero, or of a moderate size. -/
def Mid (X : ℚ) : Prop := (X = 0 ∨ 2 ^ (-100 : ℤ) ≤ |X|) ∧ |X| ≤ 2 ^ 100

theorem rs_round {x : F32} {e X k k' : ℚ} (hx : |rnd32 e| < 2 ^ 128 → x.Finite ∧ x.val = rnd32 e) (hr : Mid X)
    (he : |e - X| ≤ k * |X|) (hk : k ≤ 1 / 100) (hk' : k + (1 + k) * (1 / 2 ^ 24) ≤ k') : Rs x X k' := by
  obtain ⟨hr, hr'⟩ := hr
  rcases hr with rfl | hr
  · rw [abs_zero, mul_zero] at he
    have e0 : e = 0 := by have := abs_nonpos_iff.1 he; linarith
    rw [e0, rnd32_zero, abs_zero] at hx
    obtain ⟨f, v⟩ := hx (by norm_num)
    exact ⟨f, by rw [v]; simp⟩
  · have X0 : 0 < |X| := lt_of_lt_of_le (two_zpow_pos _) hr
    have t1 : |e| ≤ |e - X| + |X| := by
      have := abs_add_le (e - X) X; rwa [sub_add_cancel] at this
    have t2 : |X| ≤ |e - X| + |e| := by
      have := abs_add_le (X - e) e; rw [sub_add_cancel, abs_sub_comm X e] at this; exact this
    have k1 : k * |X| ≤ 1 / 100 * |X| := mul_le_mul_of_nonneg_right hk X0.le
    have e1 : 99 / 100 * |X| ≤ |e| := by linarith
    have e2 : |e| ≤ 101 / 100 * |X| := by linarith
    have hn : 2 ^ (-126 : ℤ) ≤ |e| := by
      have h3 : (2 : ℚ) ^ (-126 : ℤ) ≤ 99 / 100 * 2 ^ (-100 : ℤ) := by norm_num
      exact h3.trans ((mul_le_mul_of_nonneg_left hr (by norm_num)).trans e1)
    have r := rnd32_rel hn
    have t3 : |rnd32 e| ≤ |rnd32 e - e| + |e| := by
      have := abs_add_le (rnd32 e - e) e; rwa [sub_add_cancel] at this
    have fin : |rnd32 e| < 2 ^ 128 := by
      have : (101 / 100 * 2 ^ 100 * 2 : ℚ) < 2 ^ 128 := by norm_num
      have h4 : |e| * (1 / 2 ^ 24) ≤ |e| := mul_le_of_le_one_right (abs_nonneg _) (by norm_num)
      linarith
    obtain ⟨f, v⟩ := hx fin
    refine ⟨f, ?_⟩
    rw [v]
    have t4 : |rnd32 e - X| ≤ |rnd32 e - e| + |e - X| := by
      have := abs_add_le (rnd32 e - e) (e - X); rwa [sub_add_sub_cancel] at this
    have h5 : (k + (1 + k) * (1 / 2 ^ 24)) * |X| ≤ k' * |X| := mul_le_mul_of_nonneg_right hk' X0.le
    have h6 : |e| * (1 / 2 ^ 24) ≤ (k * |X| + |X|) * (1 / 2 ^ 24) :=
      mul_le_mul_of_nonneg_right (by linarith) (by norm_num)
    linarith

theorem rs_mul {x y : F32} {X Y i j k' : ℚ} (hx : Rs x X i) (hy : Rs y Y j) (hr : Mid (X * Y)) (hi : 0 ≤ i)
    (hk : i + j + i * j ≤ 1 / 100) (hk' : (i + j + i * j) + (1 + (i + j + i * j)) * (1 / 2 ^ 24) ≤ k') :
    Rs (F32.mul x y) (X * Y) k' := by
  obtain ⟨fx, ex⟩ := hx
  obtain ⟨fy, ey⟩ := hy
  refine rs_round (mul_finite fx fy) hr (k := i + j + i * j) ?_ hk hk'
  have e : x.val * y.val - X * Y = (x.val - X) * Y + (X * (y.val - Y) + (x.val - X) * (y.val - Y)) := by ring
  rw [e]
  refine (abs_add_le _ _).trans ?_
  have h1 := abs_add_le (X * (y.val - Y)) ((x.val - X) * (y.val - Y))
  have h2 : |(x.val - X) * Y| ≤ i * |X| * |Y| := by
    rw [abs_mul]; exact mul_le_mul_of_nonneg_right ex (abs_nonneg _)
  have h3 : |X * (y.val - Y)| ≤ |X| * (j * |Y|) := by
    rw [abs_mul]; exact mul_le_mul_of_nonneg_left ey (abs_nonneg _)
  have h4 : |(x.val - X) * (y.val - Y)| ≤ (i * |X|) * (j * |Y|) := by
    rw [abs_mul]
    exact mul_le_mul ex ey (abs_nonneg _) (mul_nonneg hi (abs_nonneg _))
  rw [abs_mul X Y]
  nlinarith

theorem rs_inv {y : F32} {Y j k' : ℚ} (hy : Rs y Y j) (h0 : Y ≠ 0) (hr : Mid (1 / Y)) (hj0 : 0 ≤ j) (hj : j ≤ 1 / 200)
    (hk' : j / (1 - j) + (1 + j / (1 - j)) * (1 / 2 ^ 24) ≤ k') : Rs (F32.div (num 1) y) (1 / Y) k' := by
  obtain ⟨fy, ey⟩ := hy
  have Y0 := abs_pos.2 h0
  have t2 : |Y| ≤ |y.val - Y| + |y.val| := by
    have := abs_add_le (Y - y.val) y.val; rw [sub_add_cancel, abs_sub_comm Y y.val] at this; exact this
  have y1 : (1 - j) * |Y| ≤ |y.val| := by linarith
  have yp : 0 < |y.val| := lt_of_lt_of_le (mul_pos (by linarith) Y0) y1
  have y0 : y.val ≠ 0 := abs_pos.1 yp
  have j1 : 0 < 1 - j := by linarith
  refine rs_round (div_finite (show (num 1).Finite from trivial) fy y0) hr (k := j / (1 - j)) ?_ ?_ hk'
  · have e : (num 1).val / y.val - 1 / Y = -(y.val - Y) / (y.val * Y) := by
      rw [show (num 1).val = 1 from rfl]; field_simp; ring
    rw [e, abs_div, abs_neg, abs_mul, abs_div, abs_one, div_mul_div_comm, mul_one]
    rw [div_le_div_iff₀ (mul_pos yp Y0) (mul_pos j1 Y0)]
    have h5 : |y.val - Y| * ((1 - j) * |Y|) ≤ j * |Y| * |y.val| :=
      mul_le_mul ey y1 (mul_nonneg j1.le Y0.le) (mul_nonneg hj0 Y0.le)
    nlinarith
  · rw [div_le_iff₀ j1]; linarith

/-- A scaled and moved object: nothing beside the diagonal, factors of moderate sizes, and no movements that nearly vanish. -/
def Scaled (m : M4 F32) : Prop :=
  ((m.m01.Finite ∧ m.m01.val = 0) ∧ (m.m02.Finite ∧ m.m02.val = 0) ∧ (m.m10.Finite ∧ m.m10.val = 0) ∧
   (m.m12.Finite ∧ m.m12.val = 0) ∧ (m.m20.Finite ∧ m.m20.val = 0) ∧ (m.m21.Finite ∧ m.m21.val = 0)) ∧
  (2 ^ (-20 : ℤ) ≤ |m.m00.val| ∧ 2 ^ (-20 : ℤ) ≤ |m.m11.val| ∧ 2 ^ (-20 : ℤ) ≤ |m.m22.val|) ∧
  ((m.m03.val = 0 ∨ 2 ^ (-20 : ℤ) ≤ |m.m03.val|) ∧ (m.m13.val = 0 ∨ 2 ^ (-20 : ℤ) ≤ |m.m13.val|) ∧
    (m.m23.val = 0 ∨ 2 ^ (-20 : ℤ) ≤ |m.m23.val|))

theorem add_zero_left {a b : F32} (ha : a.Finite ∧ a.val = 0) {q : ℚ} (hb : b.Finite ∧ b.val = q) (hr : rnd32 q = q)
    (hq : |q| < 2 ^ 128) : (F32.add a b).Finite ∧ (F32.add a b).val = q := by
  have e : a.val + b.val = q := by rw [ha.2, hb.2, _root_.zero_add]
  obtain ⟨f, v⟩ := add_finite ha.1 hb.1 (by rw [e, hr]; exact hq)
  exact ⟨f, by rw [v, e, hr]⟩

theorem add_zero_right {a b : F32} {q : ℚ} (ha : a.Finite ∧ a.val = q) (hb : b.Finite ∧ b.val = 0) (hr : rnd32 q = q)
    (hq : |q| < 2 ^ 128) : (F32.add a b).Finite ∧ (F32.add a b).val = q := by
  rw [F32.add_comm]; exact add_zero_left hb ha hr hq

theorem sub_zero_right {a b : F32} {q : ℚ} (ha : a.Finite ∧ a.val = q) (hb : b.Finite ∧ b.val = 0) (hr : rnd32 q = q)
    (hq : |q| < 2 ^ 128) : (F32.sub a b).Finite ∧ (F32.sub a b).val = q := add_zero_right ha (z_neg hb) hr hq

theorem sub_zero_left {a b : F32} {q : ℚ} (ha : a.Finite ∧ a.val = 0) (hb : b.Finite ∧ b.val = q) (hr : rnd32 q = q)
    (hq : |q| < 2 ^ 128) : (F32.sub a b).Finite ∧ (F32.sub a b).val = -q := by
  obtain ⟨f, v⟩ := neg_finite hb.1
  exact add_zero_left ha ⟨f, by rw [v, hb.2]⟩ (by rw [rnd32_neg, hr]) (by rw [abs_neg]; exact hq)

/-- Finite, a rounded number and below `2^128`. -/
def Rp (x : F32) : Prop := x.Finite ∧ rnd32 x.val = x.val ∧ |x.val| < 2 ^ 128

theorem rp_mul3 {a b c : F32} (ha : Upto 25 a) (hb : Upto 25 b) (hc : Upto 25 c) : Rp (mul3 a b c) := by
  obtain ⟨u, v⟩ := upto_mul (upto_mul ha hb (by norm_num) (by norm_num)).1 hc (by norm_num) (by norm_num)
  refine ⟨u.1, ?_, lt_of_le_of_lt u.2 (pow_lt128 (by norm_num))⟩
  unfold mul3
  rw [v, rnd32_rnd32]

/-- Zero. -/
abbrev Zr (x : F32) : Prop := x.Finite ∧ x.val = 0

theorem only_first {a b c d e f : F32} (ha : Rp a) (hb : Zr b) (hc : Zr c) (hd : Zr d) (he : Zr e) (hf : Zr f) :
    (F32.sub (F32.add (F32.add (F32.sub (F32.sub a b) c) d) e) f).Finite ∧
      (F32.sub (F32.add (F32.add (F32.sub (F32.sub a b) c) d) e) f).val = a.val := by
  obtain ⟨h1, h2, h3⟩ := ha
  exact sub_zero_right (add_zero_right (add_zero_right (sub_zero_right (sub_zero_right ⟨h1, rfl⟩ hb h2 h3) hc h2 h3) hd h2 h3)
    he h2 h3) hf h2 h3

theorem all_b {a b c d e f : F32} (ha : Zr a) (hb : Zr b) (hc : Zr c) (hd : Zr d) (he : Zr e) (hf : Zr f) :
    Zr (F32.add (F32.sub (F32.sub (F32.add (F32.add a b) c) d) e) f) :=
  zero_add (z_sub (z_sub (zero_add (zero_add ha hb) hc) hd) he) hf

theorem all_a {a b c d e f : F32} (ha : Zr a) (hb : Zr b) (hc : Zr c) (hd : Zr d) (he : Zr e) (hf : Zr f) :
    Zr (F32.sub (F32.add (F32.add (F32.sub (F32.sub a b) c) d) e) f) :=
  z_sub (zero_add (zero_add (z_sub (z_sub ha hb) hc) hd) he) hf

theorem only_fourth {a b c d e f : F32} (ha : Zr a) (hb : Zr b) (hc : Zr c) (hd : Rp d) (he : Zr e) (hf : Zr f) :
    (F32.add (F32.sub (F32.sub (F32.add (F32.add a b) c) d) e) f).Finite ∧
      (F32.add (F32.sub (F32.sub (F32.add (F32.add a b) c) d) e) f).val = -d.val := by
  obtain ⟨h1, h2, h3⟩ := hd
  have h2' : rnd32 (-d.val) = -d.val := by rw [rnd32_neg, h2]
  have h3' : |(-d.val)| < 2 ^ 128 := by rw [abs_neg]; exact h3
  exact add_zero_right (sub_zero_right (sub_zero_left (zero_add (zero_add ha hb) hc) ⟨h1, rfl⟩ h2 h3) he h2' h3') hf h2' h3'

theorem only_second {a b c d e f : F32} (ha : Zr a) (hb : Rp b) (hc : Zr c) (hd : Zr d) (he : Zr e) (hf : Zr f) :
    (F32.sub (F32.add (F32.add (F32.sub (F32.sub a b) c) d) e) f).Finite ∧
      (F32.sub (F32.add (F32.add (F32.sub (F32.sub a b) c) d) e) f).val = -b.val := by
  obtain ⟨h1, h2, h3⟩ := hb
  have h2' : rnd32 (-b.val) = -b.val := by rw [rnd32_neg, h2]
  have h3' : |(-b.val)| < 2 ^ 128 := by rw [abs_neg]; exact h3
  exact sub_zero_right (add_zero_right (add_zero_right (sub_zero_right (sub_zero_left ha ⟨h1, rfl⟩ h2 h3) hc h2' h3') hd h2' h3')
    he h2' h3') hf h2' h3'

theorem only_first_b {a b c d e f : F32} (ha : Rp a) (hb : Zr b) (hc : Zr c) (hd : Zr d) (he : Zr e) (hf : Zr f) :
    (F32.add (F32.sub (F32.sub (F32.add (F32.add a b) c) d) e) f).Finite ∧
      (F32.add (F32.sub (F32.sub (F32.add (F32.add a b) c) d) e) f).val = a.val := by
  obtain ⟨h1, h2, h3⟩ := ha
  exact add_zero_right (sub_zero_right (sub_zero_right (add_zero_right (add_zero_right ⟨h1, rfl⟩ hb h2 h3) hc h2 h3) hd h2 h3)
    he h2 h3) hf h2 h3

theorem scaled_inv {m : M4 F32} (hm : LastRow m) (he : Entries 25 m) (hs : Scaled m) :
    ((inv m 0).Finite ∧ (inv m 0).val = (mul3 m.m11 m.m22 m.m33).val) ∧
    Zr (inv m 1) ∧
    Zr (inv m 2) ∧
    ((inv m 3).Finite ∧ (inv m 3).val = -(mul3 m.m11 m.m03 m.m22).val) ∧
    Zr (inv m 4) ∧
    ((inv m 5).Finite ∧ (inv m 5).val = (mul3 m.m00 m.m22 m.m33).val) ∧
    Zr (inv m 6) ∧
    ((inv m 7).Finite ∧ (inv m 7).val = -(mul3 m.m00 m.m13 m.m22).val) ∧
    Zr (inv m 8) ∧
    Zr (inv m 9) ∧
    ((inv m 10).Finite ∧ (inv m 10).val = (mul3 m.m00 m.m11 m.m33).val) ∧
    ((inv m 11).Finite ∧ (inv m 11).val = (mul3 (neg m.m00) m.m11 m.m23).val) ∧
    ((inv m 15).Finite ∧ (inv m 15).val = (mul3 m.m00 m.m11 m.m22).val) := by
  obtain ⟨⟨a00, a01, a02, a03⟩, ⟨a10, a11, a12, a13⟩, a20, a21, a22, a23⟩ := he
  obtain ⟨⟨z01, z02, z10, z12, z20, z21⟩, -, -⟩ := hs
  obtain ⟨z30, z31, z32, o33⟩ := hm
  have a30 := upto_zero (k := 25) z30
  have a31 := upto_zero (k := 25) z31
  have a32 := upto_zero (k := 25) z32
  have a33 := upto_one (k := 25) (by norm_num) o33
  refine ⟨?_, ?_, ?_, ?_, ?_, ?_, ?_, ?_, ?_, ?_, ?_, ?_, ?_⟩
  · exact only_first (rp_mul3 a11 a22 a33) (z3_3 a11 a23 z32) (z3_1 z21 a12.1 a33.1) (z3_1 z21 a13.1 a32.1) (z3_1 z31
    a12.1 a23.1) (z3_1 z31 a13.1 a22.1)
  · exact all_b (z3_1 (z_neg z01) a22.1 a33.1) (z3_1 z01 a23.1 a32.1) (z3_1 z21 a02.1 a33.1) (z3_1 z21 a03.1 a32.1)
      (z3_1 z31 a02.1 a23.1) (z3_1 z31 a03.1 a22.1)
  · exact all_a (z3_1 z01 a12.1 a33.1) (z3_1 z01 a13.1 a32.1) (z3_2 a11.1 z02 a33.1) (z3_3 a11 a03 z32) (z3_1 z31
    a02.1 a13.1) (z3_1 z31 a03.1 a12.1)
  · exact only_fourth (z3_1 (z_neg z01) a12.1 a23.1) (z3_1 z01 a13.1 a22.1) (z3_2 a11.1 z02 a23.1) (rp_mul3 a11 a03
    a22) (z3_1 z21 a02.1 a13.1) (z3_1 z21 a03.1 a12.1)
  · exact all_b (z3_1 (z_neg z10) a22.1 a33.1) (z3_1 z10 a23.1 a32.1) (z3_1 z20 a12.1 a33.1) (z3_1 z20 a13.1 a32.1)
      (z3_1 z30 a12.1 a23.1) (z3_1 z30 a13.1 a22.1)
  · exact only_first (rp_mul3 a00 a22 a33) (z3_3 a00 a23 z32) (z3_1 z20 a02.1 a33.1) (z3_1 z20 a03.1 a32.1) (z3_1 z30
    a02.1 a23.1) (z3_1 z30 a03.1 a22.1)
  · exact all_b (z3_2 (neg_finite a00.1).1 z12 a33.1) (z3_3 a00 a13 z32) (z3_1 z10 a02.1 a33.1) (z3_1 z10 a03.1 a32.1)
      (z3_1 z30 a02.1 a13.1) (z3_1 z30 a03.1 a12.1)
  · exact only_second (z3_2 a00.1 z12 a23.1) (rp_mul3 a00 a13 a22) (z3_1 z10 a02.1 a23.1) (z3_1 z10 a03.1 a22.1) (z3_1
    z20 a02.1 a13.1) (z3_1 z20 a03.1 a12.1)
  · exact all_a (z3_1 z10 a21.1 a33.1) (z3_1 z10 a23.1 a31.1) (z3_1 z20 a11.1 a33.1) (z3_1 z20 a13.1 a31.1) (z3_1 z30
    a11.1 a23.1) (z3_1 z30 a13.1 a21.1)
  · exact all_b (z3_2 (neg_finite a00.1).1 z21 a33.1) (z3_3 a00 a23 z31) (z3_1 z20 a01.1 a33.1) (z3_1 z20 a03.1 a31.1)
      (z3_1 z30 a01.1 a23.1) (z3_1 z30 a03.1 a21.1)
  · exact only_first (rp_mul3 a00 a11 a33) (z3_3 a00 a13 z31) (z3_1 z10 a01.1 a33.1) (z3_1 z10 a03.1 a31.1) (z3_1 z30
    a01.1 a13.1) (z3_1 z30 a03.1 a11.1)
  · exact only_first_b (rp_mul3 (upto_neg a00) a11 a23) (z3_3 a00 a13 z21) (z3_1 z10 a01.1 a23.1) (z3_1 z10 a03.1
    a21.1) (z3_1 z20 a01.1 a13.1) (z3_1 z20 a03.1 a11.1)
  · exact only_first (rp_mul3 a00 a11 a22) (z3_2 a00.1 z12 a21.1) (z3_1 z10 a01.1 a22.1) (z3_1 z10 a02.1 a21.1) (z3_1
    z20 a01.1 a12.1) (z3_1 z20 a02.1 a11.1)

/-- Zero or at least `2^a`, and at most `2^b`. -/
def Md (a b : ℤ) (X : ℚ) : Prop := (X = 0 ∨ 2 ^ a ≤ |X|) ∧ |X| ≤ 2 ^ b

theorem md_mul {a b a' b' : ℤ} {X Y : ℚ} (hx : Md a b X) (hy : Md a' b' Y) : Md (a + a') (b + b') (X * Y) := by
  refine ⟨?_, ?_⟩
  · rcases hx.1 with h | h
    · left; rw [h]; ring
    · rcases hy.1 with h' | h'
      · left; rw [h']; ring
      · right
        rw [abs_mul, zpow_add₀ (by norm_num)]
        exact mul_le_mul h h' (two_zpow_pos _).le (abs_nonneg _)
  · rw [abs_mul, zpow_add₀ (by norm_num)]
    exact mul_le_mul hx.2 hy.2 (abs_nonneg _) (two_zpow_pos _).le

theorem md_inv {a b : ℤ} {X : ℚ} (hx : Md a b X) (h0 : X ≠ 0) : Md (-b) (-a) (1 / X) := by
  have p := abs_pos.2 h0
  have h1 : 2 ^ a ≤ |X| := hx.1.resolve_left h0
  refine ⟨Or.inr ?_, ?_⟩
  · rw [abs_div, abs_one, zpow_neg, ← one_div]
    exact one_div_le_one_div_of_le p hx.2
  · rw [abs_div, abs_one, zpow_neg, ← one_div]
    exact one_div_le_one_div_of_le (two_zpow_pos a) h1

theorem Md.mid {a b : ℤ} {X : ℚ} (h : Md a b X) (ha : -100 ≤ a) (hb : b ≤ 100) : Mid X :=
  ⟨h.1.imp id fun h' => (zpow_le_zpow_right₀ (by norm_num) ha).trans h',
    h.2.trans ((zpow_le_zpow_right₀ (by norm_num) hb).trans_eq (by norm_num))⟩

theorem rs_self {x : F32} (h : x.Finite) : Rs x x.val 0 := ⟨h, by simp⟩

theorem rs_of {x y : F32} {X k : ℚ} (h : Rs y X k) (f : x.Finite) (e : x.val = y.val) : Rs x X k := ⟨f, by rw [e]; exact h.2⟩

theorem rs_of_neg {x y : F32} {X k : ℚ} (h : Rs y X k) (f : x.Finite) (e : x.val = -y.val) : Rs x (-X) k :=
  ⟨f, by rw [e, neg_sub_neg, abs_sub_comm, abs_neg]; exact h.2⟩

theorem rs_mul3 {a b c : F32} (fa : a.Finite) (fb : b.Finite) (fc : c.Finite) (ha : Md (-20) 25 a.val) (hb : Md (-20) 25 b.val)
    (hc : Md (-20) 25 c.val) :
    Rs (mul3 a b c) (a.val * b.val * c.val) (21 / 10 * (1 / 2 ^ 24)) ∧ Md (-60) 75 (a.val * b.val * c.val) := by
  have h1 := md_mul ha hb
  have h2 := md_mul h1 hc
  have r1 := rs_mul (k' := 1 / 2 ^ 24) (rs_self fa) (rs_self fb) (h1.mid (by norm_num) (by norm_num)) le_rfl (by norm_num)
    (by norm_num)
  exact ⟨rs_mul r1 (rs_self fc) (h2.mid (by norm_num) (by norm_num)) (by norm_num) (by norm_num) (by norm_num), h2⟩

/-- **C168, inverse of a scaled object.**  The factors and the movement of the inverse are within eight half units of the
right ones, the entries beside are zero, and the last entry is within eight half units of one. -/
theorem C168_scaled_inverse_partial {m i : M4 F32} (hm : LastRow m) (he : Entries 25 m) (hs : Scaled m)
    (h : inverse m = some i) :
    Rs i.m00 (1 / m.m00.val) (8 / 2 ^ 24) ∧ Rs i.m11 (1 / m.m11.val) (8 / 2 ^ 24) ∧ Rs i.m22 (1 / m.m22.val) (8 / 2 ^ 24) ∧
    Rs i.m33 1 (8 / 2 ^ 24) ∧
    Rs i.m03 (-(m.m03.val / m.m00.val)) (8 / 2 ^ 24) ∧ Rs i.m13 (-(m.m13.val / m.m11.val)) (8 / 2 ^ 24) ∧
    Rs i.m23 (-(m.m23.val / m.m22.val)) (8 / 2 ^ 24) ∧
    Zr i.m01 ∧ Zr i.m02 ∧ Zr i.m10 ∧ Zr i.m12 ∧ Zr i.m20 ∧ Zr i.m21 := by
  obtain ⟨i0, i1, i2, i3, i4, i5, i6, i7, i8, i9, i10, i11, i15⟩ := scaled_inv hm he hs
  have z12 := (inv_zero hm he).1
  obtain ⟨⟨a00, a01, a02, a03⟩, ⟨a10, a11, a12, a13⟩, a20, a21, a22, a23⟩ := he
  obtain ⟨⟨z01, z02, -, -, -, -⟩, ⟨d0, d1, d2⟩, t0, t1, t2⟩ := hs
  obtain ⟨-, -, -, o33⟩ := hm
  have pos : ∀ {x : ℚ}, 2 ^ (-20 : ℤ) ≤ |x| → x ≠ 0 := fun h => abs_pos.1 (lt_of_lt_of_le (two_zpow_pos _) h)
  have n0 := pos d0
  have n1 := pos d1
  have n2 := pos d2
  have m00 : Md (-20) 25 m.m00.val := ⟨Or.inr d0, a00.2⟩
  have m11 : Md (-20) 25 m.m11.val := ⟨Or.inr d1, a11.2⟩
  have m22 : Md (-20) 25 m.m22.val := ⟨Or.inr d2, a22.2⟩
  have m03 : Md (-20) 25 m.m03.val := ⟨t0, a03.2⟩
  have m13 : Md (-20) 25 m.m13.val := ⟨t1, a13.2⟩
  have m23 : Md (-20) 25 m.m23.val := ⟨t2, a23.2⟩
  have m33 : Md (-20) 25 m.m33.val := by
    rw [o33.2]
    exact ⟨Or.inr (by norm_num), by norm_num⟩
  obtain ⟨nf, nv⟩ := neg_finite a00.1
  have nm00 : Md (-20) 25 (neg m.m00).val := by
    rw [nv]; exact ⟨Or.inr (by rw [abs_neg]; exact d0), by rw [abs_neg]; exact a00.2⟩
  obtain ⟨r0, q0⟩ := rs_mul3 a11.1 a22.1 o33.1 m11 m22 m33
  obtain ⟨r5, q5⟩ := rs_mul3 a00.1 a22.1 o33.1 m00 m22 m33
  obtain ⟨r10, q10⟩ := rs_mul3 a00.1 a11.1 o33.1 m00 m11 m33
  obtain ⟨r15, q15⟩ := rs_mul3 a00.1 a11.1 a22.1 m00 m11 m22
  obtain ⟨r3, q3⟩ := rs_mul3 a11.1 a03.1 a22.1 m11 m03 m22
  obtain ⟨r7, q7⟩ := rs_mul3 a00.1 a13.1 a22.1 m00 m13 m22
  obtain ⟨r11, q11⟩ := rs_mul3 nf a11.1 a23.1 nm00 m11 m23
  rw [o33.2, mul_one] at r0 q0 r5 q5 r10 q10
  rw [nv] at r11 q11
  have I0 := rs_of r0 i0.1 i0.2
  have I5 := rs_of r5 i5.1 i5.2
  have I10 := rs_of r10 i10.1 i10.2
  have I15 := rs_of r15 i15.1 i15.2
  have I3 := rs_of_neg r3 i3.1 i3.2
  have I7 := rs_of_neg r7 i7.1 i7.2
  have I11 := rs_of r11 i11.1 i11.2
  have qd := md_mul m00 (md_mul m11 m22)
  have nd : m.m00.val * (m.m11.val * m.m22.val) ≠ 0 := mul_ne_zero n0 (mul_ne_zero n1 n2)
  -- the determinant
  have D1 := rs_mul (k' := 32 / 10 * (1 / 2 ^ 24)) (rs_self a00.1) I0 (qd.mid (by norm_num) (by norm_num)) le_rfl (by norm_num)
    (by norm_num)
  have Dv : (det m).Finite ∧ (det m).val = (F32.mul m.m00 (inv m 0)).val := by
    have u0 : Upto 80 (inv m 0) := by
      refine ⟨i0.1, ?_⟩
      rw [i0.2]
      exact (upto_mono (show (75 : ℤ) ≤ 80 by norm_num) (upto_mul3 a11 a22 (upto_one (by norm_num) o33))).2
    obtain ⟨u, v⟩ := upto_mul a00 u0 (by norm_num) (by norm_num)
    have hr : rnd32 (F32.mul m.m00 (inv m 0)).val = (F32.mul m.m00 (inv m 0)).val := by rw [v, rnd32_rnd32]
    have hq : |(F32.mul m.m00 (inv m 0)).val| < 2 ^ 128 := lt_of_le_of_lt u.2 (pow_lt128 (by norm_num))
    have z1 := zero_mul z01 i4.1
    have z2 := zero_mul z02 i8.1
    have z3 := zero_mul z12 a03.1
    rw [F32.mul_comm] at z3
    exact add_zero_right (add_zero_right (add_zero_right ⟨u.1, rfl⟩ z1 hr hq) z2 hr hq) z3 hr hq
  have D := rs_of D1 Dv.1 Dv.2
  have V := rs_inv (k' := 43 / 10 * (1 / 2 ^ 24)) D nd ((md_inv qd nd).mid (by norm_num) (by norm_num)) (by norm_num)
    (by norm_num) (by norm_num)
  -- the entries
  have fin : ∀ {x : F32} {X T : ℚ} {a b : ℤ}, Rs x X (21 / 10 * (1 / 2 ^ 24)) → X * (1 / (m.m00.val * (m.m11.val * m.m22.val))) = T →
      Md a b T → -100 ≤ a → b ≤ 100 → Rs (F32.mul x (F32.div (num 1) (det m))) T (8 / 2 ^ 24) := by
    intro x X T a b hx e hT ha hb
    rw [← e] at hT ⊢
    exact rs_mul hx V (hT.mid ha hb) (by norm_num) (by norm_num) (by norm_num)
  have v0 := md_inv m00 n0
  have v1 := md_inv m11 n1
  have v2 := md_inv m22 n2
  have neg : ∀ {a b : ℤ} {X : ℚ}, Md a b X → Md a b (-X) := fun h => by
    refine ⟨h.1.imp (fun h' => by rw [h', neg_zero]) fun h' => by rw [abs_neg]; exact h', by rw [abs_neg]; exact h.2⟩
  have fd := V.1
  unfold inverse at h
  split at h
  · exact absurd h (by simp)
  · simp only [Option.some.injEq] at h
    rw [← h]
    refine ⟨?_, ?_, ?_, ?_, ?_, ?_, ?_, zero_mul i1 fd, zero_mul i2 fd, zero_mul i4 fd, zero_mul i6 fd, zero_mul i8 fd,
      zero_mul i9 fd⟩
    · exact fin I0 (by field_simp) v0 (by norm_num) (by norm_num)
    · exact fin I5 (by field_simp) v1 (by norm_num) (by norm_num)
    · exact fin I10 (by field_simp) v2 (by norm_num) (by norm_num)
    · exact fin (a := 0) (b := 0) I15 (by field_simp) ⟨Or.inr (by norm_num), by norm_num⟩ (by norm_num) (by norm_num)
    · exact fin (a := -20 + -25) (b := 25 + - -20) I3 (by field_simp) (neg (by rw [div_eq_mul_one_div]; exact md_mul m03 v0)) (by norm_num) (by norm_num)
    · exact fin (a := -20 + -25) (b := 25 + - -20) I7 (by field_simp) (neg (by rw [div_eq_mul_one_div]; exact md_mul m13 v1)) (by norm_num) (by norm_num)
    · exact fin (a := -20 + -25) (b := 25 + - -20) I11 (by field_simp) (neg (by rw [div_eq_mul_one_div]; exact md_mul m23 v2)) (by norm_num) (by norm_num)

/-! ### Violations -/

/-- Stretching by 41 along the first axis. -/
def long : M4 F32 := scale ⟨num 41, num 1, num 1⟩

/-- **C168, violated.**  The inverse of a matrix of the scene is not affine: its last entry is not one, so the origins of
the rays are divided by it, but their directions are not. -/
theorem C168_violated_inverse : ∃ i, inverse long = some i ∧ i.m33 = num (1 - 1 / 2 ^ 24) ∧
    F32.eq (row i.m30 i.m31 i.m32 i.m33 ⟨num 5, num 6, num 7⟩) (num 1) = false := by
  have h : ∀ o : Option (M4 F32), (o.any fun i => decide (i.m33 = num (1 - 1 / 2 ^ 24)) &&
      !(F32.eq (row i.m30 i.m31 i.m32 i.m33 ⟨num 5, num 6, num 7⟩) (num 1))) = true →
      ∃ i, o = some i ∧ i.m33 = num (1 - 1 / 2 ^ 24) ∧
        F32.eq (row i.m30 i.m31 i.m32 i.m33 ⟨num 5, num 6, num 7⟩) (num 1) = false := by
    intro o
    cases o with
    | none => intro h; exact absurd h (by simp)
    | some i =>
      intro h
      rw [Option.any_some, Bool.and_eq_true, decide_eq_true_eq, Bool.not_eq_true'] at h
      exact ⟨i, rfl, h.1, h.2⟩
  exact h _ (by decide +kernel)

/-- The full statement: inverses of affine maps are affine. -/
def C168_statement : Prop := ∀ m i, LastRow m → Entries 25 m → inverse m = some i → LastRow i

theorem long_entries : LastRow long ∧ Entries 25 long := by
  have o : ∀ {k : ℤ}, Upto k (zero false) := upto_zero (isZero false)
  have i : Upto 25 (num 1) := upto_one (by norm_num) isOne
  exact ⟨⟨isZero _, isZero _, isZero _, isOne⟩, ⟨upto_num (by norm_num), o, o, o⟩, ⟨o, i, o, o⟩, o, o, i, o⟩

theorem C168_violated_statement : ¬ C168_statement := by
  intro h
  obtain ⟨i, h1, h2, -⟩ := C168_violated_inverse
  have := (h long i long_entries.1 long_entries.2 h1).2.2.2.2
  rw [h2] at this
  norm_num [val] at this

/-- **C168, violated.**  An infinite point has no image: zero times infinity in the fourth coordinate makes all of them NaN. -/
theorem C168_violated_infinite : mulPoint (scale ⟨num 1, num 1, num 1⟩) ⟨inf false, zero false, zero false⟩ = ⟨nan, nan, nan⟩ := by
  decide +kernel

/-! ### Examples -/

/-- A placement with a quarter turn. -/
def turned : M4 F32 :=
  placement ⟨num 3, num (-2), num 7⟩ ⟨num 1, zero false⟩ ⟨num 1, zero false⟩ ⟨zero false, num 1⟩ ⟨num 2, num 3, num 4⟩

example : LastRow turned ∧ Entries 92 turned :=
  C168_placement ⟨upto_num (by norm_num), upto_num (by norm_num), upto_num (by norm_num)⟩
    ⟨upto_num (by norm_num), upto_num (by norm_num), upto_num (by norm_num)⟩
    ⟨upto_num (by norm_num), upto_zero (isZero _)⟩ ⟨upto_num (by norm_num), upto_zero (isZero _)⟩
    ⟨upto_zero (isZero _), upto_num (by norm_num)⟩

example : (sphereBox turned).lo = ⟨zero false, num (-4), num 3⟩ ∧ (sphereBox turned).hi = ⟨num 6, zero false, num 11⟩ := by
  decide +kernel

example : mulPoint turned ⟨num 1, num 1, num (1 / 2)⟩ = ⟨zero false, zero false, num 9⟩ := by decide +kernel

/-- A matrix for the accuracy of the inverse. -/
example : LastRow long ∧ Entries 25 long ∧ Scaled long ∧ inverse long ≠ none := by
  refine ⟨long_entries.1, long_entries.2, ⟨⟨isZero _, isZero _, isZero _, isZero _, isZero _, isZero _⟩,
    ⟨by norm_num [long, scale, val], by norm_num [long, scale, val], by norm_num [long, scale, val]⟩, Or.inl rfl, Or.inl rfl,
    Or.inl rfl⟩, ?_⟩
  obtain ⟨i, h, -⟩ := C168_violated_inverse
  rw [h]; simp

end Spectre.FPlace
