import Verif.Props.FloatEwa
import Verif.Props.FloatRough

/-
C171: what one texel adds to the sums of an elliptical lookup in binary32.
-/

namespace Spectre.FTex

open Spectre.Geom Spectre.FMat Spectre.FTri Spectre.Img Spectre.Tex F32

/-! ### Specification -/

/-- The value of the quadratic form of the ellipse at the offset `(x,y)`, with the roundings of the code. -/
def form (a b c x y : F32) : F32 :=
  add (add (F32.mul (F32.mul a x) x) (F32.mul (F32.mul b y) x)) (F32.mul (F32.mul c y) y)

/-- The form at the texel `xy` of a level with the side `s`, seen from the centre `(u,v)`. -/
def formAt (s : Nat) (u v a b c : F32) (xy : Int × Int) : F32 :=
  form a b c (sub (ofInt (ewaWrap s xy.1)) u) (sub (ofInt (ewaWrap s xy.2)) v)

/-- What a texel with the weight `w` adds. -/
def Adds (acc acc' : Acc) (t : Pixel) (w : F32) : Prop :=
  acc'.w = add acc.w w ∧ acc'.r = add acc.r (F32.mul (comp (red t)) w) ∧ acc'.g = add acc.g (F32.mul (comp (green t)) w) ∧
    acc'.b = add acc.b (F32.mul (comp (blue t)) w) ∧ acc'.a = add acc.a (F32.mul (comp (alpha t)) w)

/-! ### Index of the table -/

theorem times128 {q : ℚ} (h : rnd32 q = q) (h0 : 0 ≤ q) : rnd32 (q * 128) = q * 128 := by
  have d : ∀ {x : ℚ}, rnd32 x = x → 0 ≤ x → rnd32 (2 * x) = 2 * x ∧ 0 ≤ 2 * x :=
    fun h h0 => ⟨FRough.rnd32_double h h0, by linarith⟩
  obtain ⟨a, a0⟩ := d h h0
  obtain ⟨a, a0⟩ := d a a0
  obtain ⟨a, a0⟩ := d a a0
  obtain ⟨a, a0⟩ := d a a0
  obtain ⟨a, a0⟩ := d a a0
  obtain ⟨a, a0⟩ := d a a0
  obtain ⟨a, a0⟩ := d a a0
  rw [show q * 128 = 2 * (2 * (2 * (2 * (2 * (2 * (2 * q)))))) by ring]
  exact a

theorem trunc_of {v : F32} (f : v.Finite) {lo hi : ℤ} (h0 : 0 ≤ v.val) (hl : lo ≤ ⌊v.val⌋) (hh : ⌊v.val⌋ < hi) :
    trunc32 lo hi v = some ⌊v.val⌋ := by
  cases v with
  | nan => exact f.elim
  | inf s => exact f.elim
  | zero s => simp only [trunc32]; rw [if_pos h0, if_pos ⟨hl, hh⟩]
  | num q => simp only [trunc32]; rw [if_pos h0, if_pos ⟨hl, hh⟩]

theorem ok_exact {v : F32} (o : v.Ok) (f : v.Finite) : rnd32 v.val = v.val := by
  cases v with
  | nan => exact f.elim
  | inf s => exact f.elim
  | zero s => exact rnd32_zero
  | num q => exact o.2.1

/-- **C171, weights of elliptical lookups in single precision.**  A texel inside the ellipse, where the form has a value `q`
from 0 to 1, adds its colour with the weight `⌊128 q⌋` of the table; the product with 128 is not rounded. -/
theorem C171_ewa_weight {p : List (Nat × (Nat → Pixel))} {level s : Nat} {u v a b c : F32} {acc : Acc} {xy : Int × Int} {t : Pixel}
    (ht : texel p level (ewaWrap s xy.1) (ewaWrap s xy.2) = some t) (f : (formAt s u v a b c xy).Finite)
    (h0 : 0 ≤ (formAt s u v a b c xy).val) (h1 : (formAt s u v a b c xy).val < 1) :
    ∃ acc', ewaStep p level s u v a b c (some acc) xy = some acc' ∧
      Adds acc acc' t (ewaWeight ⌊128 * (formAt s u v a b c xy).val⌋.toNat) ∧ ⌊128 * (formAt s u v a b c xy).val⌋ < 128 := by
  have o : (formAt s u v a b c xy).Ok := add_ok _ _
  have ex := times128 (ok_exact o f) h0
  have e : ewaStep p level s u v a b c (some acc) xy = (if lt (formAt s u v a b c xy) one then do
    let t ← texel p level (ewaWrap s xy.1) (ewaWrap s xy.2)
    let k ← trunc32 (-2 ^ 31) (2 ^ 31) (F32.mul (formAt s u v a b c xy) (num 128))
    let i := min k 127
    if i < 0 then none
    else
      let w := ewaWeight i.toNat
      pure ⟨add acc.r (F32.mul (comp (red t)) w), add acc.g (F32.mul (comp (green t)) w), add acc.b (F32.mul (comp (blue t)) w),
        add acc.a (F32.mul (comp (alpha t)) w), add acc.w w⟩
    else pure acc) := rfl
  rw [e]
  generalize formAt s u v a b c xy = q at *
  obtain ⟨fm, vm⟩ := mul_finite (a := q) (b := num 128) f trivial (by
    show |rnd32 (q.val * 128)| < _
    rw [ex, abs_of_nonneg (by positivity)]; norm_num; linarith)
  rw [show (num 128 : F32).val = 128 from rfl, ex, _root_.mul_comm q.val] at vm
  have l0 : 0 ≤ ⌊128 * q.val⌋ := Int.floor_nonneg.2 (by positivity)
  have l1 : ⌊128 * q.val⌋ < 128 := Int.floor_lt.2 (by push_cast; linarith)
  have tr := trunc_of fm (lo := -2 ^ 31) (hi := 2 ^ 31) (by rw [vm]; positivity) (by rw [vm]; omega) (by rw [vm]; omega)
  rw [vm] at tr
  rw [lt_finite f one_finite.1, one_finite.2, if_pos (by simpa using h1), ht, tr]
  simp only [Option.bind_eq_bind, Option.bind_some, Option.pure_def]
  rw [min_eq_left (by omega), if_neg (by omega)]
  exact ⟨_, rfl, ⟨rfl, rfl, rfl, rfl, rfl⟩, l1⟩

/-- **C171, texels outside of the ellipse** change nothing, wherever they are in the texture. -/
theorem C171_ewa_outside (p : List (Nat × (Nat → Pixel))) (level s : Nat) (u v a b c : F32) (acc : Acc) (xy : Int × Int)
    (f : (formAt s u v a b c xy).Finite) (h1 : 1 ≤ (formAt s u v a b c xy).val) :
    ewaStep p level s u v a b c (some acc) xy = some acc := by
  have l : lt (formAt s u v a b c xy) one = false := by
    rw [lt_finite f one_finite.1, one_finite.2]
    simpa using h1
  unfold ewaStep
  simp only [Option.bind_eq_bind, Option.bind_some]
  exact if_neg (by rw [show add (add _ _) _ = formAt s u v a b c xy from rfl, l]; exact Bool.false_ne_true)

/-- The hypotheses of `C171_ewa_weight` are met: the first texel of four, at a quarter of the ellipse; one further away is outside. -/
example : (formAt 2 (num (1 / 2)) (num (1 / 2)) one zip one (0, 0)) = num (1 / 2) ∧
    (texel twoByTwo 0 (ewaWrap 2 0) (ewaWrap 2 0)).isSome ∧
    (formAt 2 (num (1 / 2)) (num (1 / 2)) (num 4) zip (num 4) (0, 0)) = num 2 := by decide +kernel

end Spectre.FTex
