import Verif.Model.FloatArea
import Verif.Props.FloatLight
import Verif.Props.FloatPlace
import Verif.Model.Direct

/-
C175: the areas of lights and the densities that come from them, in binary32.
-/

namespace Spectre.FArea

open Spectre.Geom Spectre.FMat Spectre.FMicro Spectre.FRough Spectre.Normalize F32

/-! ### Specification -/

/-- A column of the placement: finite numbers the squares of which add up to the square of the size, up to `k` half units.
(The sines and cosines of turned objects are rounded.) -/
def Column (v : V3 F32) (l : ℚ) (k : ℕ) : Prop :=
  FiniteVec v ∧ (2 ^ (-20 : ℤ) ≤ l ∧ l ≤ 2 ^ (20 : ℤ)) ∧ |exactLen2 v - l ^ 2| ≤ k / 2 ^ 24 * l ^ 2

/-- The columns of the matrix have the sizes `x`, `y` and `z`. -/
def Sizes (m : M4 F32) (x y z : ℚ) (k : ℕ) : Prop :=
  Column ⟨m.m00, m.m10, m.m20⟩ x k ∧ Column ⟨m.m01, m.m11, m.m21⟩ y k ∧ Column ⟨m.m02, m.m12, m.m22⟩ z k

/-! ### Sizes -/

theorem len_near {v : V3 F32} {l : ℚ} {k : ℕ} (h : Column v l k) (hk : k ≤ 20) : Nf (len v) l (k + 15) (-20) 20 := by
  obtain ⟨hv, ⟨l0, l1⟩, e⟩ := h
  have lp : 0 < l := lt_of_lt_of_le (two_zpow_pos _) l0
  have l2 : 0 < l ^ 2 := by positivity
  have kk : (k : ℚ) ≤ 20 := by exact_mod_cast hk
  have k0 : (0 : ℚ) ≤ k := Nat.cast_nonneg k
  have ke : (k : ℚ) * l ^ 2 ≤ 20 * l ^ 2 := mul_le_mul_of_nonneg_right kk l2.le
  have ke0 : 0 ≤ (k : ℚ) * l ^ 2 := mul_nonneg k0 l2.le
  have e' : |exactLen2 v - l ^ 2| ≤ (k : ℚ) * l ^ 2 / 2 ^ 24 := by rw [div_mul_eq_mul_div] at e; exact e
  obtain ⟨e1, e2⟩ := abs_le.1 e'
  have u : l ^ 2 ≤ 2 ^ (40 : ℤ) := by
    have := pow_le_pow_left₀ lp.le l1 2
    norm_num at this ⊢; linarith
  have w : 2 ^ (-40 : ℤ) ≤ l ^ 2 := by
    have := pow_le_pow_left₀ (two_zpow_pos _).le l0 2
    norm_num at this ⊢; linarith
  have hw : Within (2 ^ (63 : ℤ)) v := within_of_len2 (by positivity) (by norm_num at e2 u ⊢; linarith)
  obtain ⟨f, lo, hi⟩ := flen2_rel hv hw (by norm_num at e1 w ⊢; linarith)
  have qp : 0 < (flen2 v).val := by norm_num at e1 lo w ⊢; linarith
  obtain ⟨fs, s0, vs, -⟩ := sqrt_finite f qp.le
  obtain ⟨-, a, b⟩ := sqrt32_sq qp
  rw [← vs qp] at a b
  have hs : |(len v).val ^ 2 - l ^ 2| ≤ ((k : ℚ) * l ^ 2 + 15 * l ^ 2) / 2 ^ 24 := by
    change |(F32.sqrt (flen2 v)).val ^ 2 - l ^ 2| ≤ _
    generalize (F32.sqrt (flen2 v)).val ^ 2 = s at *
    rw [abs_le]
    generalize exactLen2 v = L at *
    generalize (flen2 v).val = q at *
    generalize (k : ℚ) * l ^ 2 = K at *
    generalize l ^ 2 = m at *
    constructor <;> norm_num at * <;> linarith
  have fin : |(len v).val - l| ≤ ((k + 15 : ℕ) : ℚ) / 2 ^ 24 * l := by
    have hp : 0 < (len v).val + l := by
      have : 0 ≤ (len v).val := s0
      linarith
    have e3 : |(len v).val ^ 2 - l ^ 2| = |(len v).val - l| * ((len v).val + l) := by
      rw [sq_sub_sq, abs_mul, abs_of_pos hp, _root_.mul_comm]
    have e4 : |(len v).val - l| * l ≤ |(len v).val - l| * ((len v).val + l) :=
      mul_le_mul_of_nonneg_left (by have : 0 ≤ (len v).val := s0; linarith) (abs_nonneg _)
    have e5 : |(len v).val - l| * l ≤ (((k : ℚ) + 15) / 2 ^ 24 * l) * l := by
      rw [← e3] at e4
      refine (e4.trans hs).trans (le_of_eq ?_)
      ring
    push_cast
    exact le_of_mul_le_mul_right e5 lp
  exact ⟨⟨fs, lp.le, fin⟩, Or.inr l0, l1⟩

/-- **C175, sizes.**  The sizes of an object taken from its placement are the ones of the scene, relatively up to
`(k+15)*2^-24`. -/
theorem C175_scale {m : M4 F32} {x y z : ℚ} {k : ℕ} (h : Sizes m x y z k) (hk : k ≤ 20) :
    Rl (getScale m).x x ((k + 15 : ℕ) / 2 ^ 24) ∧ Rl (getScale m).y y ((k + 15 : ℕ) / 2 ^ 24) ∧
      Rl (getScale m).z z ((k + 15 : ℕ) / 2 ^ 24) :=
  ⟨(len_near h.1 hk).1, (len_near h.2.1 hk).1, (len_near h.2.2 hk).1⟩

/-! ### Areas -/

theorem four_pi : Nf fourPi (4 * pi20) 1 3 4 :=
  nf_lit (x := fourPi) (r := 13176795 / 1048576) (by decide +kernel) (by unfold pi20; norm_num) (by unfold pi20; norm_num)
    (by unfold pi20; norm_num)

theorem inv_two_pi : Nf invTwoPi (1 / (2 * pi20)) 1 (-3) (-2) :=
  nf_lit (x := invTwoPi) (r := 10680707 / 67108864) (by decide +kernel) (by unfold pi20; norm_num) (by unfold pi20; norm_num)
    (by unfold pi20; norm_num)

theorem sphere_near {m : M4 F32} {x y z : ℚ} {k : ℕ} (h : Sizes m x y z k) (hk : k ≤ 20) :
    Nf (sphereSurface m) (4 * pi20 * x ^ 2) (2 * k + 35) (-37) 44 := by
  have n := len_near h.1 hk
  have a := nf_mul four_pi n (by norm_num) (by omega) (by norm_num) (by norm_num)
  have b := nf_mul a n (by omega) (by omega) (by norm_num) (by norm_num)
  exact b.conv (by ring) (by omega) (by norm_num) (by norm_num)

/-- **C175, spheres.**  The area of a sphere is that of the sphere with its first size, relatively up to `(2k+35)*2^-24`. -/
theorem C175_sphere {m : M4 F32} {x y z : ℚ} {k : ℕ} (h : Sizes m x y z k) (hk : k ≤ 20) :
    Rl (sphereSurface m) (4 * pi20 * x ^ 2) ((2 * k + 35 : ℕ) / 2 ^ 24) := (sphere_near h hk).1

theorem box_near {m : M4 F32} {x y z : ℚ} {k : ℕ} (h : Sizes m x y z k) (hk : k ≤ 20) :
    Nf (boxSurface m) (2 * (x * y + y * z + z * x)) (2 * k + 38) (-39) 44 := by
  have nx := len_near h.1 hk
  have ny := len_near h.2.1 hk
  have nz := len_near h.2.2 hk
  have px : 0 < x := lt_of_lt_of_le (two_zpow_pos _) h.1.2.1.1
  have py : 0 < y := lt_of_lt_of_le (two_zpow_pos _) h.2.1.2.1.1
  have pz : 0 < z := lt_of_lt_of_le (two_zpow_pos _) h.2.2.2.1.1
  have n2 : Nf two 2 0 1 1 := nf_num (by norm_num) (by norm_num)
  have a := nf_add nx nz (by omega) (by omega) (by positivity) (by norm_num) (by norm_num)
  have b := nf_mul n2 a (by norm_num) (by omega) (by norm_num) (by norm_num)
  have c := nf_mul b ny (by omega) (by omega) (by norm_num) (by norm_num)
  have d := nf_mul (nf_mul n2 nx (by norm_num) (by omega) (by norm_num) (by norm_num)) nz (by omega) (by omega) (by norm_num)
    (by norm_num)
  have e := nf_add c d (by omega) (by omega) (by positivity) (by norm_num) (by norm_num)
  exact e.conv (by ring) (by omega) (by norm_num) (by norm_num)

/-- **C175, boxes.**  The area of a box is the sum of its six faces, relatively up to `(2k+38)*2^-24`. -/
theorem C175_box {m : M4 F32} {x y z : ℚ} {k : ℕ} (h : Sizes m x y z k) (hk : k ≤ 20) :
    Rl (boxSurface m) (2 * (x * y + y * z + z * x)) ((2 * k + 38 : ℕ) / 2 ^ 24) := (box_near h hk).1

/-! ### Densities -/

theorem pdf_near {a : F32} {A : ℚ} {n : ℕ} (h : Nf a A n (-39) 44) (hA : 0 < A) (hn : n ≤ 90) :
    Nf (rayPdf a) (1 / (2 * pi20 * A)) (n + 5) (-47) 37 := by
  have i := nf_div nf_one h hA (by norm_num) (by omega) (by norm_num) (by norm_num)
  have p := nf_mul i inv_two_pi (by omega) (by norm_num) (by norm_num) (by norm_num)
  exact p.conv (by field_simp) (by omega) (by norm_num) (by norm_num)

theorem pos_of {a : F32} {A : ℚ} {n : ℕ} {i j : ℤ} (h : Nf a A n i j) (hA : 0 < A) (hn : n ≤ 200) : 0 < a.val := by
  obtain ⟨⟨-, -, e⟩, -⟩ := h
  have nn : (n : ℚ) ≤ 200 := by exact_mod_cast hn
  have h1 : (n : ℚ) / 2 ^ 24 * A ≤ 200 / 2 ^ 24 * A :=
    mul_le_mul_of_nonneg_right (div_le_div_of_nonneg_right nn (by norm_num)) hA.le
  have h2 := (abs_le.1 (e.trans h1)).1
  norm_num at h2 ⊢; linarith

/-- **C175, density of a sphere.**  A point and a direction emitted by a round light have the density `1/(2π * area)`,
relatively up to `(2k+40)*2^-24`: a positive number. -/
theorem C175_sphere_density {m : M4 F32} {x y z : ℚ} {k : ℕ} (h : Sizes m x y z k) (hk : k ≤ 20) :
    Rl (rayPdf (sphereSurface m)) (1 / (2 * pi20 * (4 * pi20 * x ^ 2))) ((2 * k + 40 : ℕ) / 2 ^ 24) ∧
      0 < (rayPdf (sphereSurface m)).val := by
  have px : 0 < x := lt_of_lt_of_le (two_zpow_pos _) h.1.2.1.1
  have pp : 0 < pi20 := by unfold pi20; norm_num
  have n := pdf_near ((sphere_near h hk).wide le_rfl (by norm_num) (by norm_num)) (by positivity) (by omega)
  exact ⟨(n.wide (m := 2 * k + 40) (by omega) le_rfl le_rfl).1, pos_of n (by positivity) (by omega)⟩

/-- **C175, density of a box.** -/
theorem C175_box_density {m : M4 F32} {x y z : ℚ} {k : ℕ} (h : Sizes m x y z k) (hk : k ≤ 20) :
    Rl (rayPdf (boxSurface m)) (1 / (2 * pi20 * (2 * (x * y + y * z + z * x)))) ((2 * k + 43 : ℕ) / 2 ^ 24) ∧
      0 < (rayPdf (boxSurface m)).val := by
  have px : 0 < x := lt_of_lt_of_le (two_zpow_pos _) h.1.2.1.1
  have py : 0 < y := lt_of_lt_of_le (two_zpow_pos _) h.2.1.2.1.1
  have pz : 0 < z := lt_of_lt_of_le (two_zpow_pos _) h.2.2.2.1.1
  have pp : 0 < pi20 := by unfold pi20; norm_num
  have n := pdf_near (box_near h hk) (by positivity) (by omega)
  exact ⟨(n.wide (m := 2 * k + 43) (by omega) le_rfl le_rfl).1, pos_of n (by positivity) (by omega)⟩

/-! ### Density of a point seen from another -/

/-- A point of a light seen from `o` along `d` at the distance `t`: the observer is at most 256 distances away from the origin
of the light's own coordinates, the direction has the length one up to the rounding of the code, the normal too, and the
surface is not seen at a grazing angle. -/
structure Sight (o d n : V3 F32) (t : F32) : Prop where
  fo : o.x.Finite ∧ o.y.Finite ∧ o.z.Finite
  fd : d.x.Finite ∧ d.y.Finite ∧ d.z.Finite
  fn : n.x.Finite ∧ n.y.Finite ∧ n.z.Finite
  ft : t.Finite
  t0 : 2 ^ (-20 : ℤ) ≤ t.val
  t1 : t.val ≤ 2 ^ (20 : ℤ)
  near : |o.x.val| ≤ 2 ^ 8 * t.val ∧ |o.y.val| ≤ 2 ^ 8 * t.val ∧ |o.z.val| ≤ 2 ^ 8 * t.val
  dir : Within (1 + 1 / 2 ^ 10) d
  unit : |exactLen2 d - 1| ≤ 185 / 2 ^ 24
  nor : Within (1 + 1 / 2 ^ 10) n

/-- The cosine at the light. -/
def cosine (n d : V3 F32) : ℚ := |n.x.val * d.x.val + n.y.val * d.y.val + n.z.val * d.z.val|

theorem fin_of_le {q : ℚ} (h : |q| ≤ 2 ^ (100 : ℤ)) : |rnd32 q| < 2 ^ 128 :=
  lt_of_le_of_lt (FTri.rnd32_abs_le (by norm_num) h) (by norm_num)

theorem err {q b : ℚ} (h : |q| ≤ b) : |rnd32 q - q| ≤ b * (1 / 2 ^ 24) + 2 ^ (-150 : ℤ) :=
  (rnd32_err' q).trans (by linarith [mul_le_mul_of_nonneg_right h (show (0 : ℚ) ≤ 1 / 2 ^ 24 by norm_num)])

/-- One coordinate of the way from the light to the observer. -/
theorem axis {o d t : F32} (fo : o.Finite) (fd : d.Finite) (ft : t.Finite) (t0 : 2 ^ (-20 : ℤ) ≤ t.val) (t1 : t.val ≤ 2 ^ (20 : ℤ))
    (ho : |o.val| ≤ 2 ^ 8 * t.val) (hd : |d.val| ≤ 1 + 1 / 2 ^ 10) :
    (F32.sub o (add o (F32.mul d t))).Finite ∧
      |(F32.sub o (add o (F32.mul d t))).val + d.val * t.val| ≤ 270 / 2 ^ 24 * t.val := by
  have tp : 0 < t.val := lt_of_lt_of_le (two_zpow_pos _) t0
  have tiny : (2 : ℚ) ^ (-150 : ℤ) ≤ t.val * (1 / 2 ^ 24) := by norm_num at t0 ⊢; linarith
  have b1 : |d.val * t.val| ≤ (1 + 1 / 2 ^ 10) * t.val := by
    rw [abs_mul, abs_of_pos tp]; exact mul_le_mul_of_nonneg_right hd tp.le
  obtain ⟨f1, v1⟩ := mul_finite fd ft (fin_of_le (b1.trans (by norm_num at t1 ⊢; linarith)))
  have e1 := err b1
  rw [← v1] at e1
  generalize F32.mul d t = p at *
  have b2 : |o.val + p.val| ≤ 258 * t.val := by
    rw [abs_le] at *
    constructor <;> norm_num at * <;> linarith
  obtain ⟨f2, v2⟩ := add_finite fo f1 (fin_of_le (b2.trans (by norm_num at t1 ⊢; linarith)))
  have e2 := err b2
  rw [← v2] at e2
  generalize add o p = q at *
  have b3 : |o.val - q.val| ≤ 2 * t.val := by
    rw [abs_le] at *
    constructor <;> norm_num at * <;> linarith
  obtain ⟨f3, v3⟩ := sub_fin fo f2 (fin_of_le (b3.trans (by norm_num at t1 ⊢; linarith)))
  have e3 := err b3
  rw [← v3] at e3
  refine ⟨f3, ?_⟩
  generalize F32.sub o q = r at *
  generalize d.val * t.val = x at *
  rw [abs_le] at *
  constructor <;> norm_num at * <;> linarith

theorem sq_near {e x t k : ℚ} (h : |e + x| ≤ k * t) (hx : |x| ≤ 2 * t) (tp : 0 ≤ t) (k0 : 0 ≤ k) (k1 : k ≤ 1) :
    |e ^ 2 - x ^ 2| ≤ 5 * k * t ^ 2 := by
  have he : |e - x| ≤ 5 * t := by
    have kt : k * t ≤ t := by nlinarith
    rw [abs_le] at *
    constructor <;> linarith [h.1, h.2, hx.1, hx.2]
  rw [sq_sub_sq, abs_mul]
  calc |e + x| * |e - x| ≤ (k * t) * (5 * t) := mul_le_mul h he (abs_nonneg _) (by positivity)
    _ = 5 * k * t ^ 2 := by ring

/-- The square of the distance. -/
theorem dist2_near {o d n : V3 F32} {t : F32} (h : Sight o d n t) :
    Rl (Direct.dist2 o (Direct.apply o d t)) (t.val ^ 2) (4300 / 2 ^ 24) := by
  have tp : 0 < t.val := lt_of_lt_of_le (two_zpow_pos _) h.t0
  obtain ⟨fx, ex⟩ := axis h.fo.1 h.fd.1 h.ft h.t0 h.t1 h.near.1 h.dir.1
  obtain ⟨fy, ey⟩ := axis h.fo.2.1 h.fd.2.1 h.ft h.t0 h.t1 h.near.2.1 h.dir.2.1
  obtain ⟨fz, ez⟩ := axis h.fo.2.2 h.fd.2.2 h.ft h.t0 h.t1 h.near.2.2 h.dir.2.2
  have bd : ∀ {c : ℚ}, |c| ≤ 1 + 1 / 2 ^ 10 → |c * t.val| ≤ 2 * t.val := fun {c} hc => by
    rw [abs_mul, abs_of_pos tp]
    exact mul_le_mul_of_nonneg_right (hc.trans (by norm_num)) tp.le
  have sx := sq_near ex (bd h.dir.1) tp.le (by norm_num) (by norm_num)
  have sy := sq_near ey (bd h.dir.2.1) tp.le (by norm_num) (by norm_num)
  have sz := sq_near ez (bd h.dir.2.2) tp.le (by norm_num) (by norm_num)
  let e : V3 F32 := ⟨F32.sub o.x (add o.x (F32.mul d.x t)), F32.sub o.y (add o.y (F32.mul d.y t)),
    F32.sub o.z (add o.z (F32.mul d.z t))⟩
  have he : Direct.dist2 o (Direct.apply o d t) = flen2 e := rfl
  have fe : FiniteVec e := ⟨⟨add_ok _ _, fx⟩, ⟨add_ok _ _, fy⟩, ⟨add_ok _ _, fz⟩⟩
  have t2 : 0 < t.val ^ 2 := by positivity
  have hl : |exactLen2 e - t.val ^ 2| ≤ 4240 / 2 ^ 24 * t.val ^ 2 := by
    have u := h.unit
    have u' : |exactLen2 d * t.val ^ 2 - t.val ^ 2| ≤ 185 / 2 ^ 24 * t.val ^ 2 := by
      rw [show exactLen2 d * t.val ^ 2 - t.val ^ 2 = (exactLen2 d - 1) * t.val ^ 2 by ring, abs_mul, abs_of_pos t2]
      exact mul_le_mul_of_nonneg_right u t2.le
    have i1 : exactLen2 d * t.val ^ 2 = (d.x.val * t.val) ^ 2 + (d.y.val * t.val) ^ 2 + (d.z.val * t.val) ^ 2 := by
      unfold exactLen2; ring
    have i2 : exactLen2 e = (F32.sub o.x (add o.x (F32.mul d.x t))).val ^ 2 + (F32.sub o.y (add o.y (F32.mul d.y t))).val ^ 2 +
      (F32.sub o.z (add o.z (F32.mul d.z t))).val ^ 2 := rfl
    rw [i1] at u'
    rw [i2]
    generalize (F32.sub o.x (add o.x (F32.mul d.x t))).val ^ 2 = a1 at *
    generalize (F32.sub o.y (add o.y (F32.mul d.y t))).val ^ 2 = a2 at *
    generalize (F32.sub o.z (add o.z (F32.mul d.z t))).val ^ 2 = a3 at *
    generalize (d.x.val * t.val) ^ 2 = c1 at *
    generalize (d.y.val * t.val) ^ 2 = c2 at *
    generalize (d.z.val * t.val) ^ 2 = c3 at *
    generalize t.val ^ 2 = T at *
    clear i1 i2 fe he e u fx fy fz ex ey ez
    rw [abs_le] at *
    constructor <;> norm_num at * <;> linarith
  have T1 : t.val ^ 2 ≤ 2 ^ (40 : ℤ) := by
    have := pow_le_pow_left₀ tp.le h.t1 2
    norm_num at this ⊢; linarith
  have T0 : 2 ^ (-40 : ℤ) ≤ t.val ^ 2 := by
    have := pow_le_pow_left₀ (two_zpow_pos _).le h.t0 2
    norm_num at this ⊢; linarith
  have hl' := abs_le.1 hl
  have hw : Within (2 ^ (63 : ℤ)) e := within_of_len2 (by positivity) (by norm_num at hl' T1 ⊢; linarith [hl'.2])
  obtain ⟨f, lo, hi⟩ := flen2_rel fe hw (by norm_num at hl' T0 ⊢; linarith [hl'.1])
  rw [he]
  refine ⟨f, t2.le, ?_⟩
  generalize exactLen2 e = L at *
  generalize (flen2 e).val = q at *
  generalize t.val ^ 2 = T at *
  rw [abs_le]
  constructor <;> norm_num at hl' lo hi ⊢ <;> linarith [hl'.1, hl'.2]

/-- The inner product of normal and direction. -/
theorem fdot_near {o d n : V3 F32} {t : F32} (h : Sight o d n t) :
    (Direct.fdot n (Direct.vneg d)).Finite ∧
      |(Direct.fdot n (Direct.vneg d)).val - -(n.x.val * d.x.val + n.y.val * d.y.val + n.z.val * d.z.val)| ≤ 9 / 2 ^ 24 := by
  obtain ⟨nx, nxv⟩ := neg_finite h.fd.1
  obtain ⟨ny, nyv⟩ := neg_finite h.fd.2.1
  obtain ⟨nz, nzv⟩ := neg_finite h.fd.2.2
  have pr : ∀ {a b : ℚ}, |a| ≤ 1 + 1 / 2 ^ 10 → |b| ≤ 1 + 1 / 2 ^ 10 → |a * -b| ≤ 129 / 128 := fun {a b} ha hb => by
    rw [abs_mul, abs_neg]
    exact (mul_le_mul ha hb (abs_nonneg _) (by norm_num)).trans (by norm_num)
  have bx := pr h.nor.1 h.dir.1
  have by' := pr h.nor.2.1 h.dir.2.1
  have bz := pr h.nor.2.2 h.dir.2.2
  obtain ⟨fx, vx⟩ := mul_finite h.fn.1 nx (by rw [nxv]; exact fin_of_le (bx.trans (by norm_num)))
  obtain ⟨fy, vy⟩ := mul_finite h.fn.2.1 ny (by rw [nyv]; exact fin_of_le (by'.trans (by norm_num)))
  obtain ⟨fz, vz⟩ := mul_finite h.fn.2.2 nz (by rw [nzv]; exact fin_of_le (bz.trans (by norm_num)))
  have ex := err bx
  have ey := err by'
  have ez := err bz
  rw [nxv] at vx; rw [nyv] at vy; rw [nzv] at vz
  rw [← vx] at ex; rw [← vy] at ey; rw [← vz] at ez
  have hd : Direct.fdot n (Direct.vneg d) = add (add (F32.mul n.x (F32.neg d.x)) (F32.mul n.y (F32.neg d.y)))
    (F32.mul n.z (F32.neg d.z)) := rfl
  have hcos : -(n.x.val * d.x.val + n.y.val * d.y.val + n.z.val * d.z.val) =
      n.x.val * -d.x.val + n.y.val * -d.y.val + n.z.val * -d.z.val := by ring
  rw [hcos, hd]
  clear hd hcos vx vy vz
  generalize F32.mul n.x (F32.neg d.x) = p1 at *
  generalize F32.mul n.y (F32.neg d.y) = p2 at *
  generalize F32.mul n.z (F32.neg d.z) = p3 at *
  generalize n.x.val * -d.x.val = c1 at *
  generalize n.y.val * -d.y.val = c2 at *
  generalize n.z.val * -d.z.val = c3 at *
  have b2 : |p1.val + p2.val| ≤ 66 / 32 := by
    rw [abs_le] at *
    constructor <;> norm_num at * <;> linarith
  obtain ⟨f2, v2⟩ := add_finite fx fy (fin_of_le (b2.trans (by norm_num)))
  have e2 := err b2
  rw [← v2] at e2
  clear v2
  generalize add p1 p2 = s at *
  have b3 : |s.val + p3.val| ≤ 100 / 32 := by
    rw [abs_le] at *
    constructor <;> norm_num at * <;> linarith
  obtain ⟨f3, v3⟩ := add_finite f2 fz (fin_of_le (b3.trans (by norm_num)))
  have e3 := err b3
  rw [← v3] at e3
  clear v3
  generalize add s p3 = r at *
  refine ⟨f3, ?_⟩
  rw [abs_le] at *
  constructor <;> norm_num at * <;> linarith

/-- The cosine. -/
theorem cosine_near {o d n : V3 F32} {t : F32} (h : Sight o d n t) (hc : 2 ^ (-8 : ℤ) ≤ cosine n d) :
    Rl (F32.abs (Direct.fdot n (Direct.vneg d))) (cosine n d) (2560 / 2 ^ 24) := by
  obtain ⟨f, key⟩ := fdot_near h
  obtain ⟨fa, va⟩ := abs_finite f
  refine ⟨fa, abs_nonneg _, ?_⟩
  rw [va]
  unfold cosine at hc ⊢
  rw [← abs_neg] at hc ⊢
  rw [abs_neg] at hc
  have t := abs_abs_sub_abs_le (Direct.fdot n (Direct.vneg d)).val (-(n.x.val * d.x.val + n.y.val * d.y.val + n.z.val * d.z.val))
  rw [abs_neg (n.x.val * d.x.val + n.y.val * d.y.val + n.z.val * d.z.val)] at t
  rw [abs_neg]
  refine (t.trans key).trans ?_
  generalize |n.x.val * d.x.val + n.y.val * d.y.val + n.z.val * d.z.val| = C at *
  norm_num at hc ⊢; linarith

/-- **C175, density of a point of a light.**  In single precision the density of the direction towards a point of a light is
`distance² / (cosine * area)`, relatively up to 1/2000: it is positive and finite, if the surface is not seen at a grazing
angle and the observer is not more than 256 distances away from the origin of the light's own coordinates. -/
theorem C175_density {o d n : V3 F32} {t area : F32} {A : ℚ} {k : ℕ} (h : Sight o d n t) (hc : 2 ^ (-8 : ℤ) ≤ cosine n d)
    (ha : Nf area A k (-39) 44) (hA : 0 < A) (hk : k ≤ 90) :
    Rl (Direct.density o d t n area) (t.val ^ 2 / (cosine n d * A)) (1 / 2000) ∧ 0 < (Direct.density o d t n area).val := by
  have tp : 0 < t.val := lt_of_lt_of_le (two_zpow_pos _) h.t0
  have cp : 0 < cosine n d := lt_of_lt_of_le (two_zpow_pos _) hc
  have T1 : t.val ^ 2 ≤ 2 ^ (40 : ℤ) := by
    have := pow_le_pow_left₀ tp.le h.t1 2
    norm_num at this ⊢; linarith
  have T0 : 2 ^ (-40 : ℤ) ≤ t.val ^ 2 := by
    have := pow_le_pow_left₀ (two_zpow_pos _).le h.t0 2
    norm_num at this ⊢; linarith
  have c4 : cosine n d ≤ 4 := by
    have pr : ∀ {a b : ℚ}, |a| ≤ 1 + 1 / 2 ^ 10 → |b| ≤ 1 + 1 / 2 ^ 10 → |a * b| ≤ 129 / 128 := fun {a b} ha hb => by
      rw [abs_mul]
      exact (mul_le_mul ha hb (abs_nonneg _) (by norm_num)).trans (by norm_num)
    have bx := pr h.nor.1 h.dir.1
    have by' := pr h.nor.2.1 h.dir.2.1
    have bz := pr h.nor.2.2 h.dir.2.2
    unfold cosine
    refine (abs_add_three _ _ _).trans ?_
    linarith
  have A0 : 2 ^ (-39 : ℤ) ≤ A := ha.2.1.resolve_left hA.ne'
  have A1 : A ≤ 2 ^ (44 : ℤ) := ha.2.2
  have ra : Rl area A (90 / 2 ^ 24) := by
    obtain ⟨f, a0, e⟩ := ha.1
    refine ⟨f, a0, e.trans (mul_le_mul_of_nonneg_right ?_ a0)⟩
    exact div_le_div_of_nonneg_right (by exact_mod_cast hk) (by norm_num)
  have P0 : 2 ^ (-47 : ℤ) ≤ cosine n d * A := by
    calc (2 : ℚ) ^ (-47 : ℤ) = 2 ^ (-8 : ℤ) * 2 ^ (-39 : ℤ) := by norm_num
      _ ≤ _ := mul_le_mul hc A0 (two_zpow_pos _).le cp.le
  have P1 : cosine n d * A ≤ 2 ^ (46 : ℤ) := by
    calc cosine n d * A ≤ 4 * 2 ^ (44 : ℤ) := mul_le_mul c4 A1 hA.le (by norm_num)
      _ = _ := by norm_num
  have Pp : 0 < cosine n d * A := by positivity
  have m := rl_mul (k' := 2700 / 2 ^ 24) (cosine_near h hc) ra (by norm_num) (Or.inr (le_trans (by norm_num) P0))
    (P1.trans (by norm_num)) (by norm_num) (by norm_num)
  have Q0 : 2 ^ (-86 : ℤ) ≤ t.val ^ 2 / (cosine n d * A) := by
    rw [le_div_iff₀ Pp]
    calc (2 : ℚ) ^ (-86 : ℤ) * (cosine n d * A) ≤ 2 ^ (-86 : ℤ) * 2 ^ (46 : ℤ) :=
          mul_le_mul_of_nonneg_left P1 (two_zpow_pos _).le
      _ = 2 ^ (-40 : ℤ) := by norm_num
      _ ≤ _ := T0
  have Q1 : t.val ^ 2 / (cosine n d * A) ≤ 2 ^ (87 : ℤ) := by
    rw [div_le_iff₀ Pp]
    calc t.val ^ 2 ≤ 2 ^ (40 : ℤ) := T1
      _ = 2 ^ (87 : ℤ) * 2 ^ (-47 : ℤ) := by norm_num
      _ ≤ _ := mul_le_mul_of_nonneg_left P0 (two_zpow_pos _).le
  have r := rl_div (k' := 1 / 2000) (dist2_near h) m Pp (by norm_num) (by norm_num) (by norm_num)
    (Or.inr (le_trans (by norm_num) Q0)) (Q1.trans (by norm_num)) (by norm_num) (by norm_num)
  refine ⟨r, ?_⟩
  obtain ⟨-, -, e⟩ := r
  have e' := (abs_le.1 e).1
  change 0 < (div _ _).val
  have qp : 0 < t.val ^ 2 / (cosine n d * A) := by positivity
  generalize t.val ^ 2 / (cosine n d * A) = Q at *
  norm_num at e' ⊢; linarith

/-! ### Triangles -/

/-- The exact vector across two edges of a triangle: its length is twice the area. -/
def across (a b c : V3 F32) : V3 ℚ :=
  FTri.qcross ⟨b.x.val - a.x.val, b.y.val - a.y.val, b.z.val - a.z.val⟩ ⟨c.x.val - a.x.val, c.y.val - a.y.val, c.z.val - a.z.val⟩

/-- Finite corners, and an edge with coordinates up to `2^i`. -/
def Edge (a b : V3 F32) (i : ℤ) : Prop :=
  (a.x.Finite ∧ a.y.Finite ∧ a.z.Finite) ∧ (b.x.Finite ∧ b.y.Finite ∧ b.z.Finite) ∧
    |b.x.val - a.x.val| ≤ 2 ^ i ∧ |b.y.val - a.y.val| ≤ 2 ^ i ∧ |b.z.val - a.z.val| ≤ 2 ^ i

theorem edge_near {a b : V3 F32} {i : ℤ} (h : Edge a b i) (h0 : -20 ≤ i) (h1 : i ≤ 20) :
    FTri.NrV (FTri.vsub b a) ⟨b.x.val - a.x.val, b.y.val - a.y.val, b.z.val - a.z.val⟩ i 1 := by
  obtain ⟨⟨ax, ay, az⟩, ⟨bx, b_y, bz⟩, x, y, z⟩ := h
  exact ⟨FTri.nr_diff bx ax x (by omega) (by omega), FTri.nr_diff b_y ay y (by omega) (by omega),
    FTri.nr_diff bz az z (by omega) (by omega)⟩

theorem sq_near' {e x l k : ℚ} (h : |e - x| ≤ k) (hx : |x| ≤ (1 + 1 / 2 ^ 20) * l) (k1 : k ≤ l / 2 ^ 10) (k0 : 0 ≤ k) :
    |e ^ 2 - x ^ 2| ≤ (2 + 1 / 2 ^ 9) * l * k := by
  have he : |e + x| ≤ (2 + 1 / 2 ^ 9) * l := by
    have l0 : 0 ≤ l := by
      have := abs_nonneg x
      norm_num at hx; linarith
    rw [abs_le] at *
    constructor <;> norm_num at * <;> linarith
  rw [sq_sub_sq, abs_mul]
  exact mul_le_mul he h (abs_nonneg _) ((abs_nonneg _).trans he)

/-- **C175, triangles.**  The area of a triangle with edges up to `2^i` and `2^j` that are not nearly parallel is half the
length `l` of the vector across them, up to `2^(i+j-19)` and relatively sixteen half units. -/
theorem C175_triangle {a b c : V3 F32} {i j : ℤ} {l : ℚ} (hb : Edge a b i) (hc : Edge a c j) (i0 : -20 ≤ i) (i1 : i ≤ 20)
    (j0 : -20 ≤ j) (j1 : j ≤ 20) (hl : 2 ^ (i + j - 11) ≤ l)
    (he : |FTri.qdot (across a b c) (across a b c) - l ^ 2| ≤ 1 / 2 ^ 24 * l ^ 2) :
    (surface a b c).Finite ∧ |(surface a b c).val - l / 2| ≤ 2 ^ (i + j - 19) + 16 / 2 ^ 24 * l := by
  have nc := FTri.nr_cross (edge_near hb i0 i1) (edge_near hc j0 j1) (by omega) (by omega)
  have lp : 0 < l := lt_of_lt_of_le (two_zpow_pos _) hl
  have l2 : 0 < l ^ 2 := by positivity
  have pw : ∀ n : ℤ, (2 : ℚ) ^ (i + j + n) = 2 ^ (i + j) * 2 ^ n := fun n => zpow_add₀ (by norm_num) _ _
  have hd : (1 + 1 + 2 : ℚ) * (2 ^ (i + j + 1) * (1 / 2 ^ 24)) = 2 ^ (i + j - 21) := by
    rw [show i + j - 21 = i + j + -21 by ring, pw, pw]; norm_num; ring
  have hd' : (2 : ℚ) ^ (i + j - 19) = 4 * 2 ^ (i + j - 21) := by
    rw [show i + j - 19 = i + j + -19 by ring, show i + j - 21 = i + j + -21 by ring, pw, pw]; norm_num; ring
  have hdl : (2 : ℚ) ^ (i + j - 21) ≤ l / 2 ^ 10 := by
    rw [le_div_iff₀ (by norm_num)]
    refine le_trans (le_of_eq ?_) hl
    rw [show i + j - 21 = i + j + -21 by ring, show i + j - 11 = i + j + -11 by ring, pw, pw]; norm_num; ring
  have lu : l ≤ 2 ^ (44 : ℤ) := by
    have bq : ∀ {q : ℚ}, |q| ≤ 2 ^ (i + j + 1) → q * q ≤ 2 ^ (82 : ℤ) := fun {q} h => by
      have h1 : |q| ≤ 2 ^ (41 : ℤ) := h.trans (zpow_le_zpow_right₀ (by norm_num) (by omega))
      rw [← abs_mul_abs_self]
      exact (mul_le_mul h1 h1 (abs_nonneg _) (by norm_num)).trans (by norm_num)
    have x := bq nc.1.2.2.1
    have y := bq nc.2.1.2.2.1
    have z := bq nc.2.2.2.2.1
    have s : FTri.qdot (across a b c) (across a b c) ≤ 3 * 2 ^ (82 : ℤ) := by
      unfold FTri.qdot across; linarith
    have e := (abs_le.1 he).1
    refine le_of_sq_le_sq ?_ (by norm_num)
    generalize FTri.qdot (across a b c) (across a b c) = L at *
    generalize l ^ 2 = T at *
    norm_num at *; linarith
  have ld : 2 ^ (-51 : ℤ) ≤ l := le_trans (zpow_le_zpow_right₀ (by norm_num) (by omega)) hl
  have fc : FiniteVec (FTri.cross (FTri.vsub b a) (FTri.vsub c a)) :=
    ⟨⟨add_ok _ _, nc.1.1⟩, ⟨add_ok _ _, nc.2.1.1⟩, ⟨add_ok _ _, nc.2.2.1⟩⟩
  have ex := nc.1.2.2.2
  have ey := nc.2.1.2.2.2
  have ez := nc.2.2.2.2.2
  rw [hd] at ex ey ez
  rw [hd']
  have dp := two_zpow_pos (i + j - 21)
  change |_ - (across a b c).x| ≤ _ at ex
  change |_ - (across a b c).y| ≤ _ at ey
  change |_ - (across a b c).z| ≤ _ at ez
  unfold surface
  clear nc hd hd' pw hb hc hl
  generalize FTri.cross (FTri.vsub b a) (FTri.vsub c a) = v at *
  generalize across a b c = w at *
  generalize (2 : ℚ) ^ (i + j - 21) = δ at *
  have hq : FTri.qdot w w = w.x ^ 2 + w.y ^ 2 + w.z ^ 2 := by unfold FTri.qdot; ring
  rw [hq] at he
  have he' := abs_le.1 he
  have bw : ∀ {q : ℚ}, q ^ 2 ≤ w.x ^ 2 + w.y ^ 2 + w.z ^ 2 → |q| ≤ (1 + 1 / 2 ^ 20) * l := fun {q} h => by
    refine abs_le_of_sq_le_sq (h.trans ?_) (by positivity)
    rw [mul_pow]
    generalize l ^ 2 = T at *
    norm_num at *; linarith
  have sx := sq_near' ex (bw (by linarith [sq_nonneg w.y, sq_nonneg w.z])) hdl dp.le
  have sy := sq_near' ey (bw (by linarith [sq_nonneg w.x, sq_nonneg w.z])) hdl dp.le
  have sz := sq_near' ez (bw (by linarith [sq_nonneg w.x, sq_nonneg w.y])) hdl dp.le
  have ml : l * δ ≤ l ^ 2 / 2 ^ 10 := by
    have := mul_le_mul_of_nonneg_left hdl lp.le
    calc l * δ ≤ _ := this
      _ = _ := by ring
  have ml0 : 0 < l * δ := by positivity
  have T1 : l ^ 2 ≤ 2 ^ (88 : ℤ) := by
    have := pow_le_pow_left₀ lp.le lu 2
    norm_num at this ⊢; linarith
  have T0 : 2 ^ (-102 : ℤ) ≤ l ^ 2 := by
    have := pow_le_pow_left₀ (two_zpow_pos _).le ld 2
    norm_num at this ⊢; linarith
  have hL : |exactLen2 v - l ^ 2| ≤ (6 + 3 / 2 ^ 9) * (l * δ) + 1 / 2 ^ 24 * l ^ 2 := by
    unfold exactLen2
    rw [mul_assoc] at sx sy sz
    generalize l * δ = M at *
    generalize l ^ 2 = T at *
    clear hq ex ey ez
    generalize v.x.val ^ 2 = a1 at *
    generalize v.y.val ^ 2 = a2 at *
    generalize v.z.val ^ 2 = a3 at *
    generalize w.x ^ 2 = c1 at *
    generalize w.y ^ 2 = c2 at *
    generalize w.z ^ 2 = c3 at *
    rw [abs_le] at *
    constructor <;> norm_num at * <;> linarith
  have hL' := abs_le.1 hL
  have hw : Within (2 ^ (63 : ℤ)) v := within_of_len2 (by positivity) (by
    generalize l * δ = M at *; generalize l ^ 2 = T at *; norm_num at hL' T1 ml ⊢; linarith [hL'.2])
  obtain ⟨f, lo, hi⟩ := flen2_rel fc hw (by
    generalize l * δ = M at *; generalize l ^ 2 = T at *; norm_num at hL' T0 ml ⊢; linarith [hL'.1])
  have qp : 0 < (flen2 v).val := by
    generalize l * δ = M at *; generalize l ^ 2 = T at *; norm_num at hL' T0 ml lo ⊢; linarith [hL'.1]
  obtain ⟨fs, s0, vs, -⟩ := sqrt_finite f qp.le
  obtain ⟨-, p, q⟩ := sqrt32_sq qp
  rw [← vs qp] at p q
  have hs : |(len v).val ^ 2 - l ^ 2| ≤ (6 + 1 / 50) * (l * δ) + 14 / 2 ^ 24 * l ^ 2 := by
    change |(F32.sqrt (flen2 v)).val ^ 2 - l ^ 2| ≤ _
    generalize (F32.sqrt (flen2 v)).val ^ 2 = s at *
    rw [abs_le]
    generalize exactLen2 v = L at *
    generalize (flen2 v).val = r at *
    generalize l * δ = M at *
    generalize l ^ 2 = T at *
    clear sx sy sz hL he ex ey ez
    constructor <;> norm_num at * <;> linarith [hL'.1, hL'.2]
  have s0' : 0 ≤ (len v).val := s0
  have fl : (len v).Finite := fs
  have key : |(len v).val - l| ≤ (6 + 1 / 50) * δ + 14 / 2 ^ 24 * l := by
    have e3 : |(len v).val ^ 2 - l ^ 2| = |(len v).val - l| * ((len v).val + l) := by
      rw [sq_sub_sq, abs_mul, abs_of_pos (by linarith : 0 < (len v).val + l), _root_.mul_comm]
    have e4 : |(len v).val - l| * l ≤ |(len v).val - l| * ((len v).val + l) :=
      mul_le_mul_of_nonneg_left (by linarith) (abs_nonneg _)
    rw [← e3] at e4
    refine le_of_mul_le_mul_right ((e4.trans hs).trans (le_of_eq ?_)) lp
    ring
  generalize len v = s at *
  have k' := abs_le.1 key
  have b : |(1 / 2 : ℚ) * s.val| ≤ l := by
    rw [abs_of_nonneg (by positivity)]
    clear hs hL sx sy sz he ml T0 T1
    norm_num at k' hdl ⊢; linarith [k'.2]
  have hsb : |(1 / 2 : ℚ) * s.val| ≤ (1 + 1 / 50) / 2 * l := by
    rw [abs_of_nonneg (by positivity)]
    clear hs hL sx sy sz he ml T0 T1
    norm_num at k' hdl ⊢; linarith [k'.2]
  obtain ⟨fm, vm⟩ := mul_finite (a := num (1 / 2)) (b := s) trivial fl (fin_of_le (b.trans (lu.trans (by norm_num))))
  have em := err (show |(num (1 / 2) : F32).val * s.val| ≤ _ from hsb)
  rw [← vm] at em
  refine ⟨fm, ?_⟩
  generalize F32.mul (num (1 / 2)) s = z at *
  rw [show (num (1 / 2) : F32).val = 1 / 2 from rfl] at em
  clear hs hL sx sy sz he ml T0 T1 vm lo hi p q hw hL' he' b hsb
  rw [abs_le] at *
  constructor <;> norm_num at * <;> linarith

/-- **C175, placed triangles.**  The area of a placed triangle is half the length `l` of the vector across the edges between its
placed corners, of which `C175_corner` says where they are, with the same bound. -/
theorem C175_triangle_placed {m : M4 F32} {a b c : V3 F32} {i j : ℤ} {l : ℚ} (hb : Edge (corner m a) (corner m b) i)
    (hc : Edge (corner m a) (corner m c) j) (i0 : -20 ≤ i) (i1 : i ≤ 20) (j0 : -20 ≤ j) (j1 : j ≤ 20) (hl : 2 ^ (i + j - 11) ≤ l)
    (he : |FTri.qdot (across (corner m a) (corner m b) (corner m c)) (across (corner m a) (corner m b) (corner m c)) - l ^ 2| ≤
      1 / 2 ^ 24 * l ^ 2) :
    (triangleSurface m a b c).Finite ∧ |(triangleSurface m a b c).val - l / 2| ≤ 2 ^ (i + j - 19) + 16 / 2 ^ 24 * l :=
  C175_triangle hb hc i0 i1 j0 j1 hl he

/-- **C175, corners of placed triangles.**  Each coordinate is scaled by the size along its axis, up to one rounding and the
error of the size. -/
theorem C175_corner {m : M4 F32} {x y z : ℚ} {k : ℕ} (h : Sizes m x y z k) (hk : k ≤ 20) {p : V3 F32}
    (fp : p.x.Finite ∧ p.y.Finite ∧ p.z.Finite) (bp : Within (2 ^ (40 : ℤ)) p) :
    (|(corner m p).x.val - p.x.val * x| ≤ 40 / 2 ^ 24 * (|p.x.val| * x) + 2 ^ (-150 : ℤ)) ∧
      (|(corner m p).y.val - p.y.val * y| ≤ 40 / 2 ^ 24 * (|p.y.val| * y) + 2 ^ (-150 : ℤ)) ∧
      |(corner m p).z.val - p.z.val * z| ≤ 40 / 2 ^ 24 * (|p.z.val| * z) + 2 ^ (-150 : ℤ) := by
  have one : ∀ {q s : F32} {l : ℚ}, q.Finite → |q.val| ≤ 2 ^ (40 : ℤ) → Nf s l (k + 15) (-20) 20 →
      |(F32.mul q s).val - q.val * l| ≤ 40 / 2 ^ 24 * (|q.val| * l) + 2 ^ (-150 : ℤ) := by
    intro q s l fq bq hs
    obtain ⟨⟨fs, l0, e⟩, -, lu⟩ := hs
    have kk : ((k + 15 : ℕ) : ℚ) ≤ 35 := by exact_mod_cast (by omega : k + 15 ≤ 35)
    have e' : |s.val - l| ≤ 35 / 2 ^ 24 * l :=
      e.trans (mul_le_mul_of_nonneg_right (div_le_div_of_nonneg_right kk (by norm_num)) l0)
    have d : |q.val * s.val - q.val * l| ≤ 35 / 2 ^ 24 * (|q.val| * l) := by
      rw [← mul_sub, abs_mul]
      calc |q.val| * |s.val - l| ≤ |q.val| * (35 / 2 ^ 24 * l) := mul_le_mul_of_nonneg_left e' (abs_nonneg _)
        _ = _ := by ring
    have ql : |q.val * l| = |q.val| * l := by rw [abs_mul, abs_of_nonneg l0]
    have ql1 : |q.val| * l ≤ 2 ^ (60 : ℤ) := by
      calc |q.val| * l ≤ 2 ^ (40 : ℤ) * 2 ^ (20 : ℤ) := mul_le_mul bq lu l0 (by norm_num)
        _ = _ := by norm_num
    have b : |q.val * s.val| ≤ (1 + 35 / 2 ^ 24) * (|q.val| * l) := by
      have := abs_add_le (q.val * s.val - q.val * l) (q.val * l)
      rw [sub_add_cancel, ql] at this
      linarith
    have ql0 : 0 ≤ |q.val| * l := by positivity
    obtain ⟨-, v⟩ := mul_finite fq fs (fin_of_le (b.trans (by
      generalize |q.val| * l = Q at *; norm_num at ql1 ⊢; linarith)))
    have em := err b
    rw [← v] at em
    have t := abs_add_le ((F32.mul q s).val - q.val * s.val) (q.val * s.val - q.val * l)
    rw [sub_add_sub_cancel] at t
    generalize |q.val| * l = Q at *
    refine t.trans ((add_le_add em d).trans ?_)
    norm_num; linarith
  exact ⟨one fp.1 bp.1 (len_near h.1 hk), one fp.2.1 bp.2.1 (len_near h.2.1 hk), one fp.2.2 bp.2.2 (len_near h.2.2 hk)⟩

/-! ### Violations -/

/-- An object with the size `q` along all axes. -/
def cube (q : ℚ) : M4 F32 :=
  ⟨num q, zip, zip, zip, zip, num q, zip, zip, zip, zip, num q, zip, zip, zip, zip, one⟩

/-- The density of the emitted light is a positive number. -/
def Dense (area : F32) : Prop := (rayPdf area).Finite ∧ 0 < (rayPdf area).val

/-- **C175 is violated** by very large lights: the area overflows and the density is zero. -/
theorem C175_violated_large :
    (cube (2 ^ 64)).m00.Finite ∧ sphereSurface (cube (2 ^ 64)) = inf false ∧ boxSurface (cube (2 ^ 64)) = inf false ∧
      rayPdf (sphereSurface (cube (2 ^ 64))) = zero false ∧ rayPdf (boxSurface (cube (2 ^ 64))) = zero false :=
  ⟨trivial, by decide +kernel⟩

/-- **C175 is violated** by very small lights: the square of the size is lost, the area is zero and the density infinite. -/
theorem C175_violated_small :
    (cube (2 ^ (-80 : ℤ))).m00.Finite ∧ sphereSurface (cube (2 ^ (-80 : ℤ))) = zero false ∧
      boxSurface (cube (2 ^ (-80 : ℤ))) = zero false ∧ rayPdf (sphereSurface (cube (2 ^ (-80 : ℤ)))) = inf false ∧
      rayPdf (boxSurface (cube (2 ^ (-80 : ℤ)))) = inf false :=
  ⟨trivial, by decide +kernel⟩

/-- **C175 is violated.**  Not all lights with finite, positive sizes have a density. -/
theorem C175_violated : ¬ ∀ q : ℚ, 0 < q → (num q).Ok → Dense (sphereSurface (cube q)) := by
  intro h
  have := h (2 ^ 64) (by norm_num) ⟨by norm_num, by decide +kernel, by norm_num⟩
  unfold Dense at this
  rw [C175_violated_large.2.2.2.1] at this
  exact lt_irrefl _ this.2

/-! ### The hypotheses are met -/

/-- An object turned about the third axis: the sizes of the first two columns are irrational. -/
def lamp : M4 F32 :=
  ⟨num (5 / 4), num (-13 / 8), zip, num 3, num (13 / 8), num (5 / 4), zip, zip, zip, zip, num 2, zip, zip, zip, zip, num 1⟩

theorem lamp_sizes : Sizes lamp (205015243 / 100000000) (205015243 / 100000000) 2 1 := by
  refine ⟨⟨?_, ?_, ?_⟩, ⟨?_, ?_, ?_⟩, ⟨?_, ?_, ?_⟩⟩
  · exact ⟨⟨⟨by norm_num, by decide +kernel, by norm_num⟩, trivial⟩, ⟨⟨by norm_num, by decide +kernel, by norm_num⟩, trivial⟩,
      ⟨trivial, trivial⟩⟩
  · norm_num
  · norm_num [exactLen2, lamp, zip, F32.val, abs_le]
  · exact ⟨⟨⟨by norm_num, by decide +kernel, by norm_num⟩, trivial⟩, ⟨⟨by norm_num, by decide +kernel, by norm_num⟩, trivial⟩,
      ⟨trivial, trivial⟩⟩
  · norm_num
  · norm_num [exactLen2, lamp, zip, F32.val, abs_le]
  · exact ⟨⟨trivial, trivial⟩, ⟨trivial, trivial⟩, ⟨⟨by norm_num, by decide +kernel, by norm_num⟩, trivial⟩⟩
  · norm_num
  · norm_num [exactLen2, lamp, zip, F32.val, abs_le]

/-- C175_scale, C175_sphere, C175_box, C175_sphere_density, C175_box_density. -/
example := C175_scale lamp_sizes (by norm_num)
example := C175_sphere lamp_sizes (by norm_num)
example := C175_box lamp_sizes (by norm_num)
example := C175_sphere_density lamp_sizes (by norm_num)
example := C175_box_density lamp_sizes (by norm_num)

/-- A light seen from the side: the length of the direction is rounded. -/
theorem lamp_sight : Sight ⟨num 3, num 1, num 5⟩ ⟨num (-10066330 / 2 ^ 24), zip, num (-13421773 / 2 ^ 24)⟩ ⟨zip, zip, one⟩ (num 4) := by
  refine ⟨⟨trivial, trivial, trivial⟩, ⟨trivial, trivial, trivial⟩, ⟨trivial, trivial, trivial⟩, trivial, ?_, ?_, ?_, ?_, ?_, ?_⟩ <;>
    norm_num [Within, exactLen2, zip, one, F32.val, abs_le]

/-- C175_density. -/
example := C175_density lamp_sight (by norm_num [cosine, zip, one, F32.val]) (box_near lamp_sizes (by norm_num)) (by norm_num) (by norm_num)

/-- The size of a cube with the side two is exact. -/
theorem cube_scale : getScale (cube 2) = ⟨num 2, num 2, num 2⟩ := by
  have r : sqrt32 4 = 2 := by
    have := Normalize.sqrt32_pow 1
    norm_num at this
    exact this
  have s : F32.sqrt (num 4) = num 2 := by
    unfold F32.sqrt
    dsimp only
    rw [if_neg (by norm_num), r]
  have l1 : Normalize.flen2 ⟨num 2, zip, zip⟩ = num 4 := by decide +kernel
  have l2 : Normalize.flen2 ⟨zip, num 2, zip⟩ = num 4 := by decide +kernel
  have l3 : Normalize.flen2 ⟨zip, zip, num 2⟩ = num 4 := by decide +kernel
  unfold getScale len cube
  dsimp only
  rw [l1, l2, l3, s]

theorem cube_corner (p : V3 F32) : corner (cube 2) p = ⟨F32.mul p.x (num 2), F32.mul p.y (num 2), F32.mul p.z (num 2)⟩ := by
  unfold corner; rw [cube_scale]

/-- A triangle in space. -/
theorem sail : Edge ⟨num 1, num 2, num 3⟩ ⟨num 4, num 2, zip⟩ 2 ∧ Edge ⟨num 1, num 2, num 3⟩ ⟨num 1, num (1 / 2), num 2⟩ 1 := by
  constructor <;> norm_num [Edge, zip, F32.Finite, F32.val]

/-- C175_triangle: the vector across is (-9/2, 3, -9/2), of length √(99/2).  C175_corner. -/
example := C175_triangle (l := 703562363973514 / 100000000000000) sail.1 sail.2 (by norm_num) (by norm_num) (by norm_num) (by norm_num) (by norm_num)
  (by norm_num [FTri.qdot, FTri.qcross, across, zip, F32.val, abs_le])
example := C175_corner lamp_sizes (by norm_num) (p := ⟨num 1, num 2, num 3⟩) ⟨trivial, trivial, trivial⟩ (by norm_num [Within, F32.val])

/-- C175_triangle_placed: the same triangle, twice as large. -/
theorem sail_placed : corner (cube 2) ⟨num 1, num 2, num 3⟩ = ⟨num 2, num 4, num 6⟩ ∧ corner (cube 2) ⟨num 4, num 2, zip⟩ = ⟨num 8, num 4, zip⟩ ∧
    corner (cube 2) ⟨num 1, num (1 / 2), num 2⟩ = ⟨num 2, num 1, num 4⟩ := by
  rw [cube_corner, cube_corner, cube_corner]
  decide +kernel

example := C175_triangle_placed (m := cube 2) (a := ⟨num 1, num 2, num 3⟩) (b := ⟨num 4, num 2, zip⟩) (c := ⟨num 1, num (1 / 2), num 2⟩) (i := 3)
  (j := 2) (l := 2814249455894056 / 100000000000000) (by rw [sail_placed.1, sail_placed.2.1]; norm_num [Edge, zip, F32.Finite, F32.val])
  (by rw [sail_placed.1, sail_placed.2.2]; norm_num [Edge, zip, F32.Finite, F32.val]) (by norm_num) (by norm_num) (by norm_num) (by norm_num)
  (by norm_num)
  (by rw [sail_placed.1, sail_placed.2.1, sail_placed.2.2]; norm_num [FTri.qdot, FTri.qcross, across, zip, F32.val, abs_le])

end Spectre.FArea
