import Verif.Props.FloatLight
import Mathlib.Tactic.IntervalCases

/-
C171, continued: the weighted sums of the elliptical texture lookup in binary32.
-/

namespace Spectre.FTex

open Spectre.Geom Spectre.FMat Spectre.FTri Spectre.Img Spectre.Tex F32

/-- Growth of the error per texel. -/
def grw : ℚ := 1 + 3 / 2 ^ 24

theorem grw_pow (n : Nat) : 1 ≤ grw ^ n := one_le_pow₀ (by norm_num [grw])

theorem grw_small {n : Nat} (h : n ≤ 2 ^ 14 + 1) : grw ^ n ≤ 1 + 1 / 320 := by
  have b : ∀ n : Nat, 1 - n * (3 / 2 ^ 24) ≤ (1 - 3 / 2 ^ 24 : ℚ) ^ n := by
    intro n
    have := one_add_mul_le_pow (a := (-(3 / 2 ^ 24) : ℚ)) (by norm_num) n
    calc (1 - n * (3 / 2 ^ 24) : ℚ) = 1 + n * -(3 / 2 ^ 24) := by ring
      _ ≤ (1 + -(3 / 2 ^ 24)) ^ n := this
      _ = (1 - 3 / 2 ^ 24) ^ n := by ring
  have m : grw ^ n * (1 - 3 / 2 ^ 24) ^ n ≤ 1 := by
    rw [← mul_pow]
    exact pow_le_one₀ (by norm_num [grw]) (by norm_num [grw])
  have q : (n : ℚ) ≤ 2 ^ 14 + 1 := by exact_mod_cast h
  have l := b n
  have g0 : 0 ≤ grw ^ n := le_trans (by norm_num) (grw_pow n)
  have l2 : (1 - 1 / 321 : ℚ) ≤ (1 - 3 / 2 ^ 24) ^ n := by
    refine le_trans ?_ l
    generalize (n : ℚ) = N at *
    clear b l m g0
    norm_num at *; linarith
  have := mul_le_mul_of_nonneg_left l2 g0
  norm_num at *
  linarith

/-- Zero, or large enough for the roundings to be relative. -/
def Big (q : ℚ) : Prop := q = 0 ∨ 2 ^ (-40 : ℤ) ≤ q

theorem Big.nonneg {q : ℚ} (h : Big q) : 0 ≤ q := h.elim (fun e => e.ge) fun e => le_trans (by norm_num) e

theorem Big.add {a b : ℚ} (ha : Big a) (hb : Big b) : Big (a + b) := by
  rcases ha with e | e
  · rw [e, zero_add]; exact hb
  · exact Or.inr (by linarith [hb.nonneg])

theorem Big.rnd {q : ℚ} (h : Big q) : Big (rnd32 q) ∧ q * (1 - 1 / 2 ^ 24) ≤ rnd32 q ∧ rnd32 q ≤ q * (1 + 1 / 2 ^ 24) := by
  obtain ⟨a, b, -⟩ := FLight.round_near (q := q) (h.imp id fun e => le_trans (by norm_num) e)
  refine ⟨?_, a, b⟩
  rcases h with e | e
  · left; rw [e, rnd32_zero]
  · right
    have := rnd32_mono e
    rwa [rnd32_pow _ (by norm_num)] at this

/-- The weights of the table. -/
theorem weight_spec (i : Nat) (h : i < 128) : (ewaWeight i).Finite ∧ Big (ewaWeight i).val ∧ (ewaWeight i).val ≤ 1 := by
  have t : ∀ i < 128, ((match ewaWeight i with | num q => decide (1 / 2 ^ 30 ≤ q ∧ q ≤ 1) | zero _ => true | _ => false) = true) := by
    decide +kernel
  have := t i h
  cases e : ewaWeight i with
  | nan => rw [e] at this; exact absurd this (by simp)
  | inf s => rw [e] at this; exact absurd this (by simp)
  | zero s => exact ⟨trivial, Or.inl rfl, by show (0 : ℚ) ≤ 1; norm_num⟩
  | num q =>
    rw [e] at this
    have := of_decide_eq_true this
    exact ⟨trivial, Or.inr (le_trans (by norm_num) this.1), this.2⟩

/-- The sums of a component and of the weights after `k` texels with values from `lo` to `hi`. -/
structure Sums (lo hi : ℚ) (k : Nat) (x w : F32) : Prop where
  ox : x.Ok
  ow : w.Ok
  fx : x.Finite
  fw : w.Finite
  bx : Big x.val
  bw : Big w.val
  wk : w.val ≤ 2 * k
  up : x.val ≤ hi * w.val * grw ^ (k + 1)
  dn : lo * w.val ≤ x.val * grw ^ (k + 1)

theorem up_step {hi W w x m x' W' g t : ℚ} (h0 : 0 ≤ hi) (w0 : 0 ≤ w) (W0 : 0 ≤ W) (g1 : grw ≤ g) (hx : x ≤ hi * W * g) (ht : t ≤ hi)
    (hm : m ≤ t * w * (1 + 1 / 2 ^ 24)) (hx' : x' ≤ (x + m) * (1 + 1 / 2 ^ 24)) (hW : (W + w) * (1 - 1 / 2 ^ 24) ≤ W') :
    x' ≤ hi * W' * (g * grw) := by
  have g0 : 0 ≤ g := le_trans (by norm_num [grw]) g1
  have a1 : t * w ≤ hi * w := mul_le_mul_of_nonneg_right ht w0
  have a2 : hi * w * (1 + 1 / 2 ^ 24) ≤ hi * w * g := mul_le_mul_of_nonneg_left (le_trans (by norm_num [grw]) g1) (by positivity)
  have a3 : x + m ≤ hi * (W + w) * g := by
    have : t * w * (1 + 1 / 2 ^ 24) ≤ hi * w * (1 + 1 / 2 ^ 24) := mul_le_mul_of_nonneg_right a1 (by norm_num)
    calc x + m ≤ hi * W * g + hi * w * g := by linarith
      _ = hi * (W + w) * g := by ring
  have a4 : (x + m) * (1 + 1 / 2 ^ 24) ≤ hi * (W + w) * g * (1 + 1 / 2 ^ 24) := mul_le_mul_of_nonneg_right a3 (by norm_num)
  have a5 : hi * (W + w) * g * (1 + 1 / 2 ^ 24) ≤ hi * (W + w) * g * ((1 - 1 / 2 ^ 24) * grw) :=
    mul_le_mul_of_nonneg_left (by norm_num [grw]) (by positivity)
  have a6 : hi * g * grw * ((W + w) * (1 - 1 / 2 ^ 24)) ≤ hi * g * grw * W' :=
    mul_le_mul_of_nonneg_left hW (by have : (0 : ℚ) ≤ grw := by norm_num [grw]
                                     positivity)
  calc x' ≤ hi * (W + w) * g * ((1 - 1 / 2 ^ 24) * grw) := by linarith
    _ = hi * g * grw * ((W + w) * (1 - 1 / 2 ^ 24)) := by ring
    _ ≤ hi * g * grw * W' := a6
    _ = hi * W' * (g * grw) := by ring

theorem dn_step {lo W w x m x' W' g t : ℚ} (h0 : 0 ≤ lo) (w0 : 0 ≤ w) (x0 : 0 ≤ x) (g1 : grw ≤ g) (hx : lo * W ≤ x * g) (ht : lo ≤ t)
    (hm : t * w * (1 - 1 / 2 ^ 24) ≤ m) (hx' : (x + m) * (1 - 1 / 2 ^ 24) ≤ x') (hW : W' ≤ (W + w) * (1 + 1 / 2 ^ 24)) :
    lo * W' ≤ x' * (g * grw) := by
  have g0 : 0 ≤ g := le_trans (by norm_num [grw]) g1
  have t0 : 0 ≤ t := h0.trans ht
  have m0 : 0 ≤ m := le_trans (by have : (0 : ℚ) ≤ 1 - 1 / 2 ^ 24 := by norm_num
                                  positivity) hm
  have a1 : lo * w ≤ t * w := mul_le_mul_of_nonneg_right ht w0
  have a2 : t * w * 1 ≤ t * w * ((1 - 1 / 2 ^ 24) * g) :=
    mul_le_mul_of_nonneg_left (by have := mul_le_mul_of_nonneg_left g1 (show (0 : ℚ) ≤ 1 - 1 / 2 ^ 24 by norm_num)
                                  norm_num [grw] at *; linarith) (by positivity)
  have a3 : t * w * (1 - 1 / 2 ^ 24) * g ≤ m * g := mul_le_mul_of_nonneg_right hm g0
  have a4 : lo * (W + w) ≤ (x + m) * g := by
    have : t * w * ((1 - 1 / 2 ^ 24) * g) = t * w * (1 - 1 / 2 ^ 24) * g := by ring
    nlinarith
  have a5 : lo * W' ≤ lo * ((W + w) * (1 + 1 / 2 ^ 24)) := mul_le_mul_of_nonneg_left hW h0
  have a6 : lo * (W + w) * (1 + 1 / 2 ^ 24) ≤ (x + m) * g * (1 + 1 / 2 ^ 24) := mul_le_mul_of_nonneg_right a4 (by norm_num)
  have a7 : (x + m) * g * (1 + 1 / 2 ^ 24) ≤ (x + m) * g * ((1 - 1 / 2 ^ 24) * grw) :=
    mul_le_mul_of_nonneg_left (by norm_num [grw]) (by positivity)
  have a8 : (x + m) * (1 - 1 / 2 ^ 24) * (g * grw) ≤ x' * (g * grw) :=
    mul_le_mul_of_nonneg_right hx' (by have : (0 : ℚ) ≤ grw := by norm_num [grw]
                                       positivity)
  calc lo * W' ≤ lo * (W + w) * (1 + 1 / 2 ^ 24) := by linarith
    _ ≤ (x + m) * g * ((1 - 1 / 2 ^ 24) * grw) := by linarith
    _ = (x + m) * (1 - 1 / 2 ^ 24) * (g * grw) := by ring
    _ ≤ x' * (g * grw) := a8

theorem Sums.x_le {lo hi : ℚ} {k : Nat} {x w : F32} (h : Sums lo hi k x w) (hh : 0 ≤ hi ∧ hi ≤ 255) (hk : k ≤ 2 ^ 14) : x.val ≤ 2 ^ 30 := by
  have g := grw_small (n := k + 1) (by omega)
  have kq : (k : ℚ) ≤ 2 ^ 14 := by exact_mod_cast hk
  have w0 := h.bw.nonneg
  have a1 : hi * w.val ≤ 255 * 2 ^ 15 := mul_le_mul hh.2 (h.wk.trans (by linarith)) w0 (by norm_num)
  have a2 : hi * w.val * grw ^ (k + 1) ≤ (255 * 2 ^ 15) * (1 + 1 / 320) :=
    mul_le_mul a1 g (le_trans (by norm_num) (grw_pow _)) (by norm_num)
  exact h.up.trans (a2.trans (by norm_num))

/-- One texel. -/
theorem Sums.step {lo hi : ℚ} {k : Nat} {x w : F32} (h : Sums lo hi k x w) (h0 : 0 ≤ lo) (hh : 0 ≤ hi ∧ hi ≤ 255) (hk : k < 2 ^ 14)
    {t : Byte} (lt : lo ≤ t.toNat) (ht : (t.toNat : ℚ) ≤ hi) {i : Nat} (hi' : i < 128) :
    Sums lo hi (k + 1) (add x (F32.mul (comp t) (ewaWeight i))) (add w (ewaWeight i)) := by
  obtain ⟨fc, vc, lc⟩ := comp_spec t
  obtain ⟨fi, bi, li⟩ := weight_spec i hi'
  generalize ewaWeight i = q at *
  have xl := h.x_le hh hk.le
  have kq : (k : ℚ) + 1 ≤ 2 ^ 14 := by exact_mod_cast hk
  have t0 : (0 : ℚ) ≤ t.toNat := by positivity
  have q0 := bi.nonneg
  have x0 := h.bx.nonneg
  have w0 := h.bw.nonneg
  have bt : Big ((t.toNat : ℚ) * q.val) := by
    by_cases c : t.toNat = 0
    · left; rw [c]; simp
    · rcases bi with e | e
      · left; rw [e, mul_zero]
      · right
        have : (1 : ℚ) ≤ t.toNat := by exact_mod_cast Nat.one_le_iff_ne_zero.2 c
        calc (2 : ℚ) ^ (-40 : ℤ) ≤ 1 * q.val := by rw [one_mul]; exact e
          _ ≤ t.toNat * q.val := mul_le_mul_of_nonneg_right this q0
  have tq : (t.toNat : ℚ) * q.val ≤ 255 := by
    calc (t.toNat : ℚ) * q.val ≤ 255 * 1 := mul_le_mul lc li q0 (by norm_num)
      _ = 255 := by norm_num
  obtain ⟨r1, r2, r3⟩ := bt.rnd
  have rn := r1.nonneg
  obtain ⟨fm, vm⟩ := mul_finite fc fi (by
    rw [vc, abs_of_nonneg rn]
    refine lt_of_le_of_lt r3 ?_
    norm_num at *; linarith)
  rw [vc] at vm
  rw [← vm] at r1 r2 r3 rn
  have m1 : (F32.mul (comp t) q).val ≤ 256 := by
    clear xl
    norm_num at *; linarith
  have bs := h.bx.add r1
  obtain ⟨s1, s2, s3⟩ := bs.rnd
  obtain ⟨fa, va⟩ := add_finite h.fx fm (by
    rw [abs_of_nonneg s1.nonneg]
    refine lt_of_le_of_lt s3 ?_
    generalize x.val = X at *
    generalize (F32.mul (comp t) q).val = Y at *
    clear r2 r3 s2 s3 tq
    norm_num at *; linarith)
  rw [← va] at s1 s2 s3
  have bw := h.bw.add bi
  obtain ⟨u1, u2, u3⟩ := bw.rnd
  have wk := h.wk
  obtain ⟨fb, vb⟩ := add_finite h.fw fi (by
    rw [abs_of_nonneg u1.nonneg]
    refine lt_of_le_of_lt u3 ?_
    generalize w.val = X at *
    generalize q.val = Y at *
    clear r2 r3 s2 s3 tq xl u2 u3
    norm_num at *; linarith)
  rw [← vb] at u1 u2 u3
  have g1 : grw ≤ grw ^ (k + 1) := by
    calc grw = grw ^ 1 := (pow_one _).symm
      _ ≤ grw ^ (k + 1) := pow_le_pow_right₀ (by norm_num [grw]) (by omega)
  refine ⟨add_ok _ _, add_ok _ _, fa, fb, s1, u1, ?_, ?_, ?_⟩
  · push_cast
    have k0 : (0 : ℚ) ≤ k := by positivity
    generalize w.val = X at *
    generalize q.val = Y at *
    generalize (add w q).val = Z at *
    generalize (k : ℚ) = K at *
    clear r2 r3 s2 s3 tq xl u2 vb g1
    norm_num at *; linarith
  · rw [pow_succ grw (k + 1)]
    exact up_step hh.1 q0 w0 g1 h.up ht r3 s3 u2
  · rw [pow_succ grw (k + 1)]
    exact dn_step h0 q0 x0 g1 h.dn lt r2 s2 u3

/-- A sum of the loop. -/
def sumOf (c : Comp) (acc : Acc) : F32 :=
  match c with
  | .red => acc.r
  | .green => acc.g
  | .blue => acc.b
  | .alpha => acc.a

theorem sums_start (lo hi : ℚ) (c : Comp) : Sums lo hi 0 (sumOf c ⟨zip, zip, zip, zip, zip⟩) zip := by
  have e : sumOf c ⟨zip, zip, zip, zip, zip⟩ = zip := by cases c <;> rfl
  rw [e]
  refine ⟨trivial, trivial, trivial, trivial, Or.inl rfl, Or.inl rfl, ?_, ?_, ?_⟩
  · show (0 : ℚ) ≤ 2 * (0 : ℕ); norm_num
  · show (0 : ℚ) ≤ hi * 0 * _; norm_num
  · show lo * 0 ≤ (0 : ℚ) * _; norm_num

theorem Sums.mono {lo hi : ℚ} {k : Nat} {x w : F32} (h : Sums lo hi k x w) (h0 : 0 ≤ hi) : Sums lo hi (k + 1) x w := by
  have l : grw ^ (k + 1) ≤ grw ^ (k + 1 + 1) := pow_le_pow_right₀ (by norm_num [grw]) (by omega)
  have x0 := h.bx.nonneg
  have w0 := h.bw.nonneg
  refine ⟨h.ox, h.ow, h.fx, h.fw, h.bx, h.bw, by push_cast; linarith [h.wk], ?_, ?_⟩
  · exact h.up.trans (mul_le_mul_of_nonneg_left l (by positivity))
  · exact h.dn.trans (mul_le_mul_of_nonneg_left l x0)

theorem step_none (p : List (Nat × (Nat → Pixel))) (level side : Nat) (u v a b c : F32) (l : List (Int × Int)) :
    l.foldl (ewaStep p level side u v a b c) none = none := by
  induction l with
  | nil => rfl
  | cons x l ih => exact ih

/-- The component `c` of all texels of a level is from `lo` to `hi`. -/
def Range (f : Nat → Pixel) (s : Nat) (c : Comp) (lo hi : Nat) : Prop :=
  ∀ x < s, ∀ y < s, lo ≤ (c.of (f (y * s + x))).toNat ∧ (c.of (f (y * s + x))).toNat ≤ hi

theorem texel_range {p : List (Nat × (Nat → Pixel))} {level s : Nat} {f : Nat → Pixel} (hp : p[level]? = some (s, f)) {x y : ℤ}
    {t : Pixel} (h : texel p level x y = some t) {c : Comp} {lo hi : Nat} (hr : Range f s c lo hi) :
    lo ≤ (c.of t).toNat ∧ (c.of t).toNat ≤ hi := by
  unfold texel at h
  rw [hp] at h
  dsimp only at h
  split at h
  · rename_i k
    simp only [Option.some.injEq] at h
    rw [← h]
    exact hr _ (by omega) _ (by omega)
  · cases h

/-- The sums of the loop. -/
theorem fold_sums {p : List (Nat × (Nat → Pixel))} {level s : Nat} {f : Nat → Pixel} (hp : p[level]? = some (s, f)) (u v a b c : F32)
    (m : Comp) {lo hi : Nat} (hr : Range f s m lo hi) (hh : hi ≤ 255) (l : List (Int × Int)) (k : Nat) (hk : k + l.length ≤ 2 ^ 14)
    (acc acc' : Acc) (h : Sums lo hi k (sumOf m acc) acc.w) (e : l.foldl (ewaStep p level s u v a b c) (some acc) = some acc') :
    Sums lo hi (k + l.length) (sumOf m acc') acc'.w := by
  have hq : (0 : ℚ) ≤ hi ∧ (hi : ℚ) ≤ 255 := ⟨by positivity, by exact_mod_cast hh⟩
  induction l generalizing k acc with
  | nil =>
    simp only [List.foldl_nil, Option.some.injEq] at e
    rw [← e]
    exact h
  | cons xy l ih =>
    rw [List.foldl_cons] at e
    rw [List.length_cons] at hk ⊢
    cases n : ewaStep p level s u v a b c (some acc) xy with
    | none => rw [n, step_none] at e; cases e
    | some acc1 =>
      rw [n] at e
      rw [show k + (l.length + 1) = k + 1 + l.length by omega]
      refine ih (k + 1) (by omega) acc1 ?_ e
      unfold ewaStep at n
      simp only [Option.bind_eq_bind, Option.bind_some] at n
      split at n
      · cases ht : texel p level (ewaWrap s xy.1) (ewaWrap s xy.2) with
        | none => rw [ht] at n; cases n
        | some t =>
          rw [ht, Option.bind_some] at n
          generalize trunc32 (-2 ^ 31) (2 ^ 31) _ = z at n
          cases z with
          | none => cases n
          | some z =>
            rw [Option.bind_some] at n
            split at n
            · cases n
            · rename_i zi
              simp only [Option.pure_def, Option.some.injEq] at n
              have hi' : (min z 127).toNat < 128 := by omega
              obtain ⟨r1, r2⟩ := texel_range hp ht hr
              have := h.step (by positivity) hq (by omega) (t := m.of t) (by exact_mod_cast r1) (by exact_mod_cast r2) hi'
              rw [← n]
              cases m <;> exact this
      · simp only [Option.pure_def, Option.some.injEq] at n
        rw [← n]
        exact h.mono hq.1

/-- The quotient of the sums. -/
theorem Sums.quot {lo hi : ℚ} {k : Nat} {x w : F32} (h : Sums lo hi k x w) (hh : 0 ≤ hi ∧ hi ≤ 255) (lh : lo ≤ 255)
    (hk : k ≤ 2 ^ 14) (hw : 0 < w.val) : ∃ b : Byte, toByte (F32.mul x (div one w)) = some b ∧ (b.toNat : ℚ) < hi + 1 ∧ lo < b.toNat + 2 := by
  have wl : 2 ^ (-40 : ℤ) ≤ w.val := h.bw.elim (fun e => absurd e hw.ne') id
  have kq : (k : ℚ) ≤ 2 ^ 14 := by exact_mod_cast hk
  have wu : w.val ≤ 2 ^ 15 := h.wk.trans (by linarith)
  have bi : Big (1 / w.val) := by
    right
    rw [le_div_iff₀ hw]
    norm_num at *; linarith
  obtain ⟨i1, i2, i3⟩ := bi.rnd
  have iu : 1 / w.val ≤ 2 ^ 40 := by
    rw [div_le_iff₀ hw]
    norm_num at *; linarith
  obtain ⟨fi, vi⟩ := div_finite one_finite.1 h.fw hw.ne' (by
    rw [one_finite.2, abs_of_nonneg i1.nonneg]
    refine lt_of_le_of_lt i3 ?_
    generalize 1 / w.val = z at *
    clear i2 i3 bi
    norm_num at *; linarith)
  rw [one_finite.2] at vi
  rw [← vi] at i1 i2 i3
  have x0 := h.bx.nonneg
  have ig : (1 / 2 ^ 16 : ℚ) ≤ (div one w).val := by
    have : (1 / 2 ^ 15 : ℚ) ≤ 1 / w.val := one_div_le_one_div_of_le hw wu
    generalize 1 / w.val = z at *
    clear bi iu
    norm_num at *; linarith
  have n0 : 0 ≤ (div one w).val := i1.nonneg
  have nq : x.val * (div one w).val = 0 ∨ 2 ^ (-126 : ℤ) ≤ x.val * (div one w).val := by
    rcases h.bx with e | e
    · left; rw [e, zero_mul]
    · right
      calc (2 : ℚ) ^ (-126 : ℤ) ≤ 2 ^ (-40 : ℤ) * (1 / 2 ^ 16) := by norm_num
        _ ≤ x.val * (div one w).val := mul_le_mul e ig (by norm_num) x0
  obtain ⟨p1, p2, -⟩ := FLight.round_near nq
  have g := grw_small (n := k + 1) (by omega)
  have g1 := grw_pow (k + 1)
  have up := h.up
  have dn := h.dn
  generalize grw ^ (k + 1) = G at *
  have xw : x.val * (1 / w.val) ≤ hi * G := by
    rw [mul_one_div, div_le_iff₀ hw]; linarith
  have wx : lo ≤ x.val * (1 / w.val) * G := by
    have : x.val * (1 / w.val) * G = x.val * G / w.val := by ring
    rw [this, le_div_iff₀ hw]
    exact dn
  have xi : x.val * (div one w).val ≤ x.val * (1 / w.val) * (1 + 1 / 2 ^ 24) := by
    rw [mul_assoc]; exact mul_le_mul_of_nonneg_left i3 x0
  have xj : x.val * (1 / w.val) * (1 - 1 / 2 ^ 24) ≤ x.val * (div one w).val := by
    rw [mul_assoc]; exact mul_le_mul_of_nonneg_left i2 x0
  have r0 : 0 ≤ x.val * (1 / w.val) := by positivity
  have hg : hi * G ≤ hi * (1 + 1 / 320) := mul_le_mul_of_nonneg_left g hh.1
  have lg : x.val * (1 / w.val) * G ≤ x.val * (1 / w.val) * (1 + 1 / 320) := mul_le_mul_of_nonneg_left g r0
  have pn : 0 ≤ rnd32 (x.val * (div one w).val) := rnd32_zero ▸ rnd32_mono (mul_nonneg x0 n0)
  have v1 : rnd32 (x.val * (div one w).val) < hi + 1 := by
    generalize x.val * (div one w).val = A at *
    generalize x.val * (1 / w.val) = B at *
    generalize rnd32 A = R at *
    generalize hi * G = H at *
    generalize B * G = L at *
    clear bi i1 i2 i3 vi iu ig nq wl wu up dn wx lg
    norm_num at *; linarith [hh.1, hh.2]
  have v2 : lo < rnd32 (x.val * (div one w).val) + 1 := by
    generalize x.val * (div one w).val = A at *
    generalize x.val * (1 / w.val) = B at *
    generalize rnd32 A = R at *
    generalize hi * G = H at *
    generalize B * G = L at *
    clear bi i1 i2 i3 vi iu ig nq wl wu up dn
    norm_num at *; linarith [hh.1, hh.2]
  obtain ⟨fm, vm⟩ := mul_finite h.fx fi (by
    rw [abs_of_nonneg pn]
    refine lt_trans v1 ?_
    norm_num at *; linarith [hh.2])
  rw [← vm] at v1 v2 pn
  obtain ⟨b, e, b1, b2⟩ := toByte_spec fm pn (by linarith [hh.2])
  exact ⟨b, e, by linarith, by linarith⟩

theorem zero_of {x : F32} (o : x.Ok) (f : x.Finite) (h : x.val = 0) : ∃ s, x = zero s := by
  cases x with
  | nan => exact f.elim
  | inf s => exact f.elim
  | zero s => exact ⟨s, rfl⟩
  | num q => exact absurd h o.1

/-- **C171, elliptical sums.** The sums over at most 2^14 texels are finite; if their total weight is zero the result is not
a number and its conversion undefined; otherwise the result is defined, and every component is one of the level up to one. -/
theorem C171_ewa_sums {p : List (Nat × (Nat → Pixel))} {level s : Nat} {f : Nat → Pixel} (hp : p[level]? = some (s, f))
    (u v a b c : F32) {l : List (Int × Int)} (hl : l.length ≤ 2 ^ 14) {acc : Acc}
    (e : l.foldl (ewaStep p level s u v a b c) (some ⟨zip, zip, zip, zip, zip⟩) = some acc) :
    (acc.w.val = 0 ∧ ewaOut acc = none) ∨ (0 < acc.w.val ∧ ∃ q, ewaOut acc = some q ∧
      ∀ (m : Comp) (lo hi : Nat), Range f s m lo hi → hi ≤ 255 → lo ≤ 255 → lo ≤ (m.of q).toNat + 1 ∧ (m.of q).toNat ≤ hi) := by
  have S : ∀ (m : Comp) (lo hi : Nat), Range f s m lo hi → hi ≤ 255 → Sums lo hi l.length (sumOf m acc) acc.w := by
    intro m lo hi hr hh
    have := fold_sums hp u v a b c m hr hh l 0 (by omega) _ acc (sums_start lo hi m) e
    rwa [Nat.zero_add] at this
  have F : ∀ m : Comp, Range f s m 0 255 := fun m x _ y _ => ⟨by omega, by have := (m.of (f (y * s + x))).isLt; omega⟩
  have w0 := (S .red 0 255 (F .red) le_rfl).bw.nonneg
  rcases w0.eq_or_lt with z | z
  · left
    refine ⟨z.symm, ?_⟩
    have h := S .red 0 255 (F .red) le_rfl
    obtain ⟨sw, ew⟩ := zero_of h.ow h.fw z.symm
    have x0 : (sumOf .red acc).val = 0 := by
      have := h.up
      rw [← z, mul_zero, zero_mul] at this
      exact le_antisymm this h.bx.nonneg
    obtain ⟨sx, ex⟩ := zero_of h.ox h.fx x0
    change acc.r = zero sx at ex
    unfold ewaOut
    rw [ew, ex]
    have : F32.mul (zero sx) (div one (zero sw)) = nan := by cases sx <;> cases sw <;> rfl
    dsimp only
    rw [this]
    rfl
  · right
    refine ⟨z, ?_⟩
    have hb := fun m : Comp => (S m 0 255 (F m) le_rfl).quot (by norm_num) (by norm_num) hl z
    choose B hB using hb
    have r := (hB .red).1
    have g := (hB .green).1
    have bl := (hB .blue).1
    have al := (hB .alpha).1
    refine ⟨pack (B .red) (B .green) (B .blue) (B .alpha), ?_, ?_⟩
    · simp only [sumOf] at r g bl al
      unfold ewaOut
      dsimp only
      rw [r, g, bl, al]
      rfl
    · intro m lo hi hr hh hl'
      have k : m.of (pack (B .red) (B .green) (B .blue) (B .alpha)) = B m := by
        cases m
        · exact red_pack _ _ _ _
        · exact green_pack _ _ _ _
        · exact blue_pack _ _ _ _
        · exact alpha_pack _ _ _ _
      rw [k]
      obtain ⟨b', e', q1, q2⟩ := (S m lo hi hr hh).quot ⟨by positivity, by exact_mod_cast hh⟩ (by exact_mod_cast hl') hl z
      rw [(hB m).1] at e'
      injection e' with e'
      rw [e']
      constructor
      · have : lo < b'.toNat + 2 := by exact_mod_cast q2
        omega
      · have : b'.toNat < hi + 1 := by exact_mod_cast q1
        omega

/-- **C171, elliptical lookups.** A lookup on a level is the quotient of the sums over the texels of the bounding box; it is
defined if and only if the box and the sums are and the total weight is positive; whatever it returns is between the least
and the greatest texel of the level, up to one. -/
theorem C171_ewa {p : List (Nat × (Nat → Pixel))} {level s : Nat} {f : Nat → Pixel} (hp : p[level]? = some (s, f))
    (u v dudx dvdx dudy dvdy : F32) {l : List (Int × Int)}
    (hc : ewaCells (texels u s) (texels v s) (ewaCoef (ofInt s) dudx dvdx dudy dvdy).1 (ewaCoef (ofInt s) dudx dvdx dudy dvdy).2.1
      (ewaCoef (ofInt s) dudx dvdx dudy dvdy).2.2 = some l) (hl : l.length ≤ 2 ^ 14) :
    ((ewa p u v dudx dvdx dudy dvdy level).isSome = true ↔
      ∃ acc, l.foldl (ewaStep p level s (texels u s) (texels v s) (ewaCoef (ofInt s) dudx dvdx dudy dvdy).1
        (ewaCoef (ofInt s) dudx dvdx dudy dvdy).2.1 (ewaCoef (ofInt s) dudx dvdx dudy dvdy).2.2)
        (some ⟨zip, zip, zip, zip, zip⟩) = some acc ∧ 0 < acc.w.val) ∧
    ∀ q, ewa p u v dudx dvdx dudy dvdy level = some q → ∀ (m : Comp) (lo hi : Nat), Range f s m lo hi → hi ≤ 255 → lo ≤ 255 →
      lo ≤ (m.of q).toNat + 1 ∧ (m.of q).toNat ≤ hi := by
  unfold ewa
  simp only [hp, Option.bind_eq_bind, Option.bind_some, hc]
  cases e : l.foldl (ewaStep p level s (texels u s) (texels v s) (ewaCoef (ofInt s) dudx dvdx dudy dvdy).1
        (ewaCoef (ofInt s) dudx dvdx dudy dvdy).2.1 (ewaCoef (ofInt s) dudx dvdx dudy dvdy).2.2)
        (some ⟨zip, zip, zip, zip, zip⟩) with
  | none => simp
  | some acc =>
    rw [Option.bind_some]
    rcases C171_ewa_sums hp _ _ _ _ _ hl e with ⟨w, n⟩ | ⟨w, q, n, h⟩
    · rw [n]
      refine ⟨⟨fun h => (by cases h), fun ⟨acc', e1, e2⟩ => ?_⟩, fun q h => (by cases h)⟩
      injection e1 with e1
      rw [← e1, w] at e2
      exact absurd e2 (lt_irrefl _)
    · rw [n]
      refine ⟨⟨fun _ => ⟨acc, rfl, w⟩, fun _ => rfl⟩, fun q' e' => ?_⟩
      injection e' with e'
      rw [← e']
      exact h

/-- The sides of a level in single precision. -/
theorem ofInt_pow {k : Nat} (hk : k ≤ 15) : ofInt ((2 ^ k : Nat) : ℤ) = num (2 ^ k) := by
  interval_cases k <;> decide +kernel

theorem diag_coef {k : Nat} (hk : k ≤ 15) :
    ewaCoef (num (2 ^ k)) (num (1 / 2 ^ k)) (num (2 / 2 ^ k)) (num (1 / 2 ^ k)) zip = (num (-1), num 4, num (-3)) := by
  interval_cases k <;> decide +kernel

theorem sqrt_four : F32.sqrt (num 4) = num 2 := by
  have := Normalize.sqrt32_pow 1
  norm_num at this
  unfold F32.sqrt
  dsimp only
  rw [if_neg (by norm_num), this]

/-- **C171 is violated by diagonal footprints.** The stray multiplication in the coefficients of the ellipse (image_map.cpp:250)
makes the form indefinite for a footprint whose axes are (1, 2) and (1, 0) in texels: the bounding box is empty, the total weight
is zero, and the conversion of the quotient is undefined.  This holds on every level, for all coordinates. -/
theorem C171_violated_ewa_diagonal {p : List (Nat × (Nat → Pixel))} {level k : Nat} {f : Nat → Pixel}
    (hp : p[level]? = some (2 ^ k, f)) (hk : k ≤ 15) (u : F32) {v : F32} (hv : In 0 1 v) :
    ewa p u v (num (1 / 2 ^ k)) (num (2 / 2 ^ k)) (num (1 / 2 ^ k)) zip level = none := by
  have le15 : 2 ^ k ≤ 2 ^ 15 := Nat.pow_le_pow_right (by norm_num) hk
  obtain ⟨⟨fv, v1, v2⟩, -⟩ := texels_in hv (Nat.one_le_two_pow (n := k)) le15
  unfold ewa
  simp only [hp, Option.bind_eq_bind, Option.bind_some]
  rw [ofInt_pow hk, diag_coef hk]
  dsimp only
  generalize texels u (2 ^ k) = U at *
  generalize texels v (2 ^ k) = V at *
  have q15 : ((2 ^ k : Nat) : ℚ) ≤ 2 ^ 15 := by exact_mod_cast le15
  have key : ∀ l, ewaCells U V (num (-1)) (num 4) (num (-3)) = some l → l = [] := by
    intro l h
    unfold ewaCells at h
    dsimp only at h
    have e1 : add (F32.mul (neg (num 4)) (num 4)) (F32.mul (F32.mul (num 4) (num (-1))) (num (-3))) = num (-4) := by decide +kernel
    have e2 : F32.mul (num (-4)) (num (-1)) = num 4 := by decide +kernel
    have e3 : F32.mul (F32.mul two (div one (num (-4)))) (num 2) = num (-1) := by decide +kernel
    rw [e1, e2, sqrt_four, e3] at h
    generalize ceil32 (sub U _) = a at h
    generalize floor32 (add U _) = b at h
    cases a with
    | none => cases h
    | some a =>
      cases b with
      | none => cases h
      | some b =>
        have c1 : |V.val - -1| ≤ 2 ^ (16 : ℤ) := by rw [abs_le]; norm_num at *; constructor <;> linarith
        have c2 : |V.val + -1| ≤ 2 ^ (16 : ℤ) := by rw [abs_le]; norm_num at *; constructor <;> linarith
        have r1 := FTri.rnd32_err_pow (by norm_num) c1
        have r2 := FTri.rnd32_err_pow (by norm_num) c2
        obtain ⟨f1, w1⟩ := sub_fin fv (show (num (-1)).Finite from trivial)
          ((FTri.rnd32_abs_le (by norm_num) c1).trans_lt (by norm_num))
        obtain ⟨f2, w2⟩ := add_finite fv (show (num (-1)).Finite from trivial)
          ((FTri.rnd32_abs_le (by norm_num) c2).trans_lt (by norm_num))
        change _ = rnd32 (V.val - -1) at w1
        change _ = rnd32 (V.val + -1) at w2
        rw [← w1] at r1
        rw [← w2] at r2
        have lt : (add V (num (-1))).val < (sub V (num (-1))).val := by
          have := abs_le.1 r1
          have := abs_le.1 r2
          norm_num at *; linarith
        generalize sub V (num (-1)) = A at *
        generalize add V (num (-1)) = B at *
        simp only [Option.bind_eq_bind, Option.bind_some] at h
        have ca : ∀ z, ceil32 A = some z → z = ⌈A.val⌉ := by
          intro z hz
          cases A <;> simp only [F32.Finite] at f1 <;> simp only [ceil32] at hz <;> split at hz <;> first | cases hz; rfl | cases hz
        have fb : ∀ z, floor32 B = some z → z = ⌊B.val⌋ := by
          intro z hz
          cases B <;> simp only [F32.Finite] at f2 <;> simp only [floor32] at hz <;> split at hz <;> first | cases hz; rfl | cases hz
        cases hA : ceil32 A with
        | none => rw [hA] at h; cases h
        | some y0 =>
          cases hB : floor32 B with
          | none => rw [hA, hB] at h; cases h
          | some y1 =>
            rw [hA, hB] at h
            simp only [Option.bind_some, Option.pure_def, Option.some.injEq] at h
            have : y1 < y0 := by
              rw [ca _ hA, fb _ hB]
              have a1 := Int.floor_le B.val
              have a2 := Int.le_ceil A.val
              have : (⌊B.val⌋ : ℚ) < ⌈A.val⌉ := by linarith
              exact_mod_cast this
            have es : span y0 y1 = [] := by
              unfold span
              have : (y1 + 1 - y0).toNat = 0 := by omega
              rw [this]; rfl
            rw [← h, es]
            rfl
  cases e : ewaCells U V (num (-1)) (num 4) (num (-3)) with
  | none => rfl
  | some l =>
    rw [key l e]
    rfl

/-! ### Footprints without width -/

/-- Not negative and not NaN. -/
def NN : F32 → Prop
  | nan => False
  | inf s => s = false
  | zero _ => True
  | num q => 0 < q

theorem nn_round (s : Bool) {q : ℚ} (h : 0 ≤ q) : NN (F32.round s q) := by
  have r : 0 ≤ rnd32 q := rnd32_zero ▸ rnd32_mono h
  unfold F32.round
  split_ifs with h1 h2 h3
  · trivial
  · trivial
  · exact decide_eq_false (not_lt.2 h)
  · exact lt_of_le_of_ne r (Ne.symm h2)

theorem nn_square {c : F32} (f : c.Finite) : NN (F32.mul c c) := by
  cases c with
  | nan => exact f.elim
  | inf s => exact f.elim
  | zero s => exact nn_round _ (by norm_num [F32.val])
  | num q => exact nn_round _ (mul_self_nonneg q)

theorem nn_add {a b : F32} (ha : NN a) (hb : NN b) : NN (add a b) := by
  cases a with
  | nan => exact ha.elim
  | inf s =>
    cases b with
    | nan => exact hb.elim
    | inf t => change s = false at ha; change t = false at hb; subst ha; subst hb; rfl
    | zero t => exact ha
    | num q => exact ha
  | zero s =>
    cases b with
    | nan => exact hb.elim
    | inf t => exact hb
    | zero t => exact nn_round _ (by norm_num [F32.val])
    | num q => exact nn_round _ (by show (0 : ℚ) ≤ 0 + q; have : 0 < q := hb; linarith)
  | num p =>
    cases b with
    | nan => exact hb.elim
    | inf t => exact hb
    | zero t => exact nn_round _ (by show (0 : ℚ) ≤ p + 0; have : 0 < p := ha; linarith)
    | num q => exact nn_round _ (by show (0 : ℚ) ≤ p + q; have : 0 < p := ha; have : 0 < q := hb; linarith)

theorem sqrt_zero_or {a : F32} (h : NN a) : lt zip (F32.sqrt a) = true ∨ (lt zip (F32.sqrt a) = false ∧ F32.eq (F32.sqrt a) zip = true) := by
  cases a with
  | nan => exact h.elim
  | inf s => change s = false at h; subst h; exact Or.inl rfl
  | zero s => exact Or.inr ⟨by cases s <;> rfl, by cases s <;> rfl⟩
  | num q =>
    have hq : 0 < q := h
    have e : F32.sqrt (num q) = num (sqrt32 q) := by unfold F32.sqrt; dsimp only; rw [if_neg (not_lt.2 hq.le)]
    rw [e]
    have n : 0 ≤ sqrt32 q := by
      unfold sqrt32
      have : (0 : ℚ) < 2 ^ (Int.log 2 q / 2 - 23) := by positivity
      dsimp only
      split_ifs <;> positivity
    rcases n.eq_or_lt with z | z
    · right
      rw [← z]
      exact ⟨rfl, rfl⟩
    · left
      exact decide_eq_true z

theorem flat_axis {a b : F32} (ha : a.Finite) (hb : b.Finite) (za : a.val = 0) (zb : b.val = 0) (oa : a.Ok) (ob : b.Ok) :
    F32.sqrt (add (F32.mul a a) (F32.mul b b)) = zip := by
  obtain ⟨s, rfl⟩ := zero_of oa ha za
  obtain ⟨t, rfl⟩ := zero_of ob hb zb
  have e : add (F32.mul (zero s) (zero s)) (F32.mul (zero t) (zero t)) = zip := by cases s <;> cases t <;> decide +kernel
  rw [e]
  rfl

/-- **C171, footprints without width.** If one of the two axes of the footprint is zero, whichever it is, the elliptical lookup
is the lookup between the texels of the first level. -/
theorem C171_ewa_flat (log2 : F32 → F32) (p : List (Nat × (Nat → Pixel))) (u v : F32) {a b c d : F32} (oa : a.Ok) (ob : b.Ok)
    (ha : a.Finite) (hb : b.Finite) (za : a.val = 0) (zb : b.val = 0) (hc : c.Finite) (hd : d.Finite) :
    ewaFilter log2 p u v a b c d = bilinear p u v 0 ∧ ewaFilter log2 p u v c d a b = bilinear p u v 0 := by
  have z := flat_axis ha hb za zb oa ob
  have s := sqrt_zero_or (nn_add (nn_square hc) (nn_square hd))
  unfold ewaFilter
  dsimp only
  rw [z]
  generalize F32.sqrt (add (F32.mul c c) (F32.mul d d)) = x at *
  have n : lt x zip = false := by
    cases x with
    | nan => rfl
    | inf t =>
      cases t
      · rfl
      · rcases s with e | ⟨-, e⟩ <;> cases e
    | zero t => rfl
    | num q =>
      refine decide_eq_false (not_lt.2 ?_)
      rcases s with e | ⟨-, e⟩
      · exact (of_decide_eq_true e : (0 : ℚ) < q).le
      · exact (of_decide_eq_true e : q = (0 : ℚ)).ge
  constructor
  · rcases s with e | ⟨e1, e2⟩
    · rw [if_pos e]
      unfold ewaSorted
      rfl
    · rw [if_neg (by rw [e1]; simp)]
      unfold ewaSorted
      rw [e2]
      rfl
  · rw [n]
    unfold ewaSorted
    rfl

/-! ### Examples -/

/-- A level of two by two texels, one of them black. -/
def twoByTwo : List (Nat × (Nat → Pixel)) := [(2, fun i => if i = 0 then 0 else BitVec.allOnes 32)]

/-- The four texels around the middle. -/
def four : List (Int × Int) := [(0, 0), (1, 0), (0, 1), (1, 1)]

/-- C171_ewa_sums: three white texels of four give 191. -/
example : ∃ acc, four.foldl (ewaStep twoByTwo 0 2 (num (1 / 2)) (num (1 / 2)) one zip one) (some ⟨zip, zip, zip, zip, zip⟩) = some acc ∧
    0 < acc.w.val ∧ ∃ q, ewaOut acc = some q ∧ (red q).toNat = 191 := by
  have e : ((four.foldl (ewaStep twoByTwo 0 2 (num (1 / 2)) (num (1 / 2)) one zip one) (some ⟨zip, zip, zip, zip, zip⟩)).map (·.w)) =
    some (num (15412145 / 16777216)) := by decide +kernel
  have e' : (((four.foldl (ewaStep twoByTwo 0 2 (num (1 / 2)) (num (1 / 2)) one zip one) (some ⟨zip, zip, zip, zip, zip⟩)).bind ewaOut).map
    fun q => (red q).toNat) = some 191 := by decide +kernel
  cases h : four.foldl (ewaStep twoByTwo 0 2 (num (1 / 2)) (num (1 / 2)) one zip one) (some ⟨zip, zip, zip, zip, zip⟩) with
  | none => rw [h] at e; cases e
  | some acc =>
    rw [h] at e e'
    simp only [Option.map_some, Option.some.injEq] at e
    have w : 0 < acc.w.val := by rw [e]; norm_num [F32.val]
    rcases C171_ewa_sums (p := twoByTwo) (level := 0) rfl _ _ _ _ _ (by decide) h with ⟨z, -⟩ | ⟨-, q, hq, -⟩
    · rw [z] at w; exact absurd w (lt_irrefl _)
    · refine ⟨acc, rfl, w, q, hq, ?_⟩
      rw [Option.bind_some, hq] at e'
      simpa using e'

/-- C171_ewa_flat at a footprint along the first coordinate. -/
example := C171_ewa_flat (fun _ => zip) twoByTwo (num (1 / 2)) (num (1 / 2)) (a := zip) (b := neg zip) (c := num 3) (d := zip)
  trivial trivial trivial trivial rfl rfl trivial trivial

/-- C171_violated_ewa_diagonal on a level of two by two texels. -/
example : ewa twoByTwo (num (1 / 2)) (num (1 / 2)) (num (1 / 2 ^ 1)) (num (2 / 2 ^ 1)) (num (1 / 2 ^ 1)) zip 0 = none :=
  C171_violated_ewa_diagonal (k := 1) rfl (by norm_num) _ FLight.half_ok.2

/-- C171_ewa: a footprint of no size around the middle of the level. -/
example : (ewa twoByTwo (num (1 / 2)) (num (1 / 2)) zip zip zip zip 0).isSome = true := by
  have c : ewaCells (texels (num (1 / 2)) 2) (texels (num (1 / 2)) 2) (ewaCoef (ofInt (2 : Nat)) zip zip zip zip).1
      (ewaCoef (ofInt (2 : Nat)) zip zip zip zip).2.1 (ewaCoef (ofInt (2 : Nat)) zip zip zip zip).2.2 = some four := by
    have t : texels (num (1 / 2)) 2 = num (1 / 2) := by decide +kernel
    have k : ewaCoef (ofInt (2 : Nat)) zip zip zip zip = (one, zero true, one) := by decide +kernel
    rw [t, k]
    have e1 : add (F32.mul (neg (zero true)) (zero true)) (F32.mul (F32.mul (num 4) one) one) = num 4 := by decide +kernel
    have e2 : F32.mul (num 4) one = num 4 := by decide +kernel
    unfold ewaCells
    dsimp only
    rw [e1, e2, sqrt_four]
    decide +kernel
  rw [(C171_ewa (p := twoByTwo) (level := 0) rfl _ _ _ _ _ _ c (by decide)).1]
  have e : (((four.foldl (ewaStep twoByTwo 0 2 (texels (num (1 / 2)) 2) (texels (num (1 / 2)) 2) (ewaCoef (ofInt (2 : Nat)) zip zip zip zip).1
      (ewaCoef (ofInt (2 : Nat)) zip zip zip zip).2.1 (ewaCoef (ofInt (2 : Nat)) zip zip zip zip).2.2) (some ⟨zip, zip, zip, zip, zip⟩)).map (·.w))) =
    some (num (15412145 / 16777216)) := by decide +kernel
  cases h : four.foldl (ewaStep twoByTwo 0 2 (texels (num (1 / 2)) 2) (texels (num (1 / 2)) 2) (ewaCoef (ofInt (2 : Nat)) zip zip zip zip).1
      (ewaCoef (ofInt (2 : Nat)) zip zip zip zip).2.1 (ewaCoef (ofInt (2 : Nat)) zip zip zip zip).2.2) (some ⟨zip, zip, zip, zip, zip⟩) with
  | none => rw [h] at e; cases e
  | some acc =>
    rw [h] at e
    simp only [Option.map_some, Option.some.injEq] at e
    exact ⟨acc, rfl, by rw [e]; norm_num [F32.val]⟩

end Spectre.FTex
