import Verif.Model.FloatTree
import Verif.Props.EF
import Verif.Props.KdTree
import Mathlib.Tactic.Linarith
import Mathlib.Tactic.FieldSimp

/-
C151: the ray-box test in binary32.  C152: the traversal of the kd-tree in binary32 loses no asset.
-/

namespace Spectre.FTree

open Spectre.AABB F32
open Spectre.EF (Le)

/-! ### Floats as extended numbers -/

theorem _root_.Spectre.EF.le_ne_nan_left {a b : EF ℚ} (h : Le a b) : a ≠ .nan := by
  cases a <;> cases b <;> simp_all [Le, EF.le]

theorem _root_.Spectre.EF.lt_of_lt_of_le' {a b c : EF ℚ} (h1 : EF.lt a b = true) (h2 : Le b c) : EF.lt a c = true := by
  unfold Le at h2
  cases a <;> cases b <;> cases c <;> simp_all [EF.lt, EF.le]
  linarith

theorem _root_.Spectre.EF.le_total' {a : EF ℚ} (h : a ≠ .nan) (t : ℚ) : Le a (.fin t) ∨ Le (.fin t) a := by
  cases a with
  | nan => exact absurd rfl h
  | pinf => exact Or.inr rfl
  | ninf => exact Or.inl rfl
  | fin x => simp only [Le, EF.le, decide_eq_true_eq]; exact le_total x t

/-- The value of a float. -/
def toE : F32 → EF ℚ
  | .nan => .nan
  | .inf s => if s then .ninf else .pinf
  | .zero _ => .fin 0
  | .num q => .fin q

theorem lt_toE (a b : F32) : lt a b = EF.lt (toE a) (toE b) := by
  cases a with
  | nan => cases b <;> rfl
  | inf s => cases b with
    | nan => cases s <;> rfl
    | inf t => cases s <;> cases t <;> rfl
    | zero t => cases s <;> rfl
    | num q => cases s <;> rfl
  | zero s => cases b with
    | nan => rfl
    | inf t => cases t <;> rfl
    | zero t => rfl
    | num q => rfl
  | num p => cases b with
    | nan => rfl
    | inf t => cases t <;> rfl
    | zero t => rfl
    | num q => rfl

theorem leF_toE (a b : F32) : leF a b = EF.le (toE a) (toE b) := by
  unfold leF
  rw [lt_toE]
  cases a with
  | nan => cases b <;> rfl
  | inf s => cases b with
    | nan => cases s <;> rfl
    | inf t => cases s <;> cases t <;> rfl
    | zero t => cases s <;> rfl
    | num q => cases s <;> rfl
  | zero s => cases b with
    | nan => rfl
    | inf t => cases t <;> rfl
    | zero t => simp [toE, EF.lt, EF.le, eq, val]
    | num q => rw [Bool.eq_iff_iff]; simp [toE, EF.lt, EF.le, eq, val, le_iff_lt_or_eq]; exact or_congr_right decide_eq_true_iff
  | num p => cases b with
    | nan => rfl
    | inf t => cases t <;> rfl
    | zero t => rw [Bool.eq_iff_iff]; simp [toE, EF.lt, EF.le, eq, val, le_iff_lt_or_eq]; exact or_congr_right decide_eq_true_iff
    | num q => rw [Bool.eq_iff_iff]; simp [toE, EF.lt, EF.le, eq, val, le_iff_lt_or_eq]; exact or_congr_right decide_eq_true_iff

/-- Rounding with overflow. -/
def kr (q : ℚ) : EF ℚ :=
  if 2 ^ 128 ≤ rnd32 q then .pinf else if rnd32 q ≤ -2 ^ 128 then .ninf else .fin (rnd32 q)

theorem kr_ne_nan (q : ℚ) : kr q ≠ .nan := by
  unfold kr; split
  · simp
  · split <;> simp

theorem rnd32_sign {q : ℚ} (h : rnd32 q ≠ 0) : q < 0 ↔ rnd32 q < 0 := by
  constructor
  · intro hq
    have := rnd32_nonneg (q := -q) (by linarith)
    rw [rnd32_neg] at this
    exact lt_of_le_of_ne (by linarith) h
  · intro hq
    by_contra hc
    exact absurd (rnd32_nonneg (not_lt.1 hc)) (not_le.2 hq)

theorem toE_round (s : Bool) (q : ℚ) : toE (F32.round s q) = kr q := by
  have big : ¬ (2 ^ 128 : ℚ) ≤ 0 := by norm_num
  have big' : ¬ (0 : ℚ) ≤ -2 ^ 128 := by norm_num
  unfold F32.round kr
  by_cases h0 : q = 0
  · rw [if_pos h0, h0, rnd32_zero, if_neg big, if_neg big']; rfl
  · rw [if_neg h0]
    by_cases h1 : rnd32 q = 0
    · rw [if_pos h1, h1, if_neg big, if_neg big']; rfl
    · rw [if_neg h1]
      have hs := rnd32_sign h1
      by_cases h2 : 2 ^ 128 ≤ |rnd32 q|
      · rw [if_pos h2]
        by_cases h3 : q < 0
        · have h4 := hs.1 h3
          rw [abs_of_neg h4] at h2
          rw [if_neg (by linarith), if_pos (by linarith)]
          simp [toE, h3]
        · have h4 : 0 ≤ rnd32 q := rnd32_nonneg (not_lt.1 h3)
          rw [abs_of_nonneg h4] at h2
          rw [if_pos h2]
          simp [toE, h3]
      · rw [if_neg h2]
        rw [not_le, abs_lt] at h2
        rw [if_neg (by linarith), if_neg (by linarith)]; rfl

theorem kr_mono {a b : ℚ} (h : a ≤ b) : Le (kr a) (kr b) := by
  have := rnd32_mono h
  unfold kr Le
  by_cases h1 : 2 ^ 128 ≤ rnd32 a
  · rw [if_pos h1, if_pos (by linarith)]; rfl
  · rw [if_neg h1]
    by_cases h2 : rnd32 a ≤ -2 ^ 128
    · rw [if_pos h2]; split
      · rfl
      · split <;> rfl
    · rw [if_neg h2]
      by_cases h3 : 2 ^ 128 ≤ rnd32 b
      · rw [if_pos h3]; rfl
      · rw [if_neg h3, if_neg (by linarith)]
        simp [EF.le, this]

theorem kr_zero : kr 0 = .fin 0 := by
  unfold kr; rw [rnd32_zero, if_neg (by norm_num), if_neg (by norm_num)]

theorem toE_ofQ (q : ℚ) : toE (ofQ q) = .fin q := by
  unfold ofQ; split
  · rename_i h; rw [h]; rfl
  · rfl

/-- The value of a finite float. -/
theorem toE_finite {x : F32} (h : x.Finite) : toE x = .fin x.val := by
  cases x <;> first | rfl | exact h.elim

theorem ofQ_val (q : ℚ) : (ofQ q).val = q := by
  unfold ofQ; split
  · rename_i h; rw [h]; rfl
  · rfl

theorem sub_finite (q : ℚ) {o : F32} (h : o.Finite) :
    ∃ s, sub (ofQ q) o = F32.round s (q - o.val) := by
  unfold sub ofQ
  cases o with
  | nan => exact h.elim
  | inf s => exact h.elim
  | zero s =>
    split
    · rename_i hq; exact ⟨_, by rw [hq]; simp [neg, add, val]; rfl⟩
    · exact ⟨_, by simp [neg, add, val]; rfl⟩
  | num p =>
    split
    · rename_i hq; exact ⟨_, by rw [hq]; simp [neg, add, val]; rfl⟩
    · exact ⟨_, by simp [neg, add, val, ← sub_eq_add_neg]; rfl⟩

/-! ### Multiplication by the inverse -/

/-- The product with an inverse, on values; `neg` is the sign of the inverse. -/
def mulR (x : EF ℚ) : F32 → EF ℚ
  | .num p => match x with
    | .nan => .nan
    | .fin x => kr (x * p)
    | .pinf => if p < 0 then .ninf else .pinf
    | .ninf => if p < 0 then .pinf else .ninf
  | .inf s => match x with
    | .nan => .nan
    | .fin x => if x = 0 then .nan else if xor (decide (x < 0)) s then .ninf else .pinf
    | .pinf => if s then .ninf else .pinf
    | .ninf => if s then .pinf else .ninf
  | _ => .nan

theorem mul_toE (x : F32) (hx : x.Ok) {p : F32} (hp : p.isZero = false) : toE (mul x p) = mulR (toE x) p := by
  cases p with
  | nan => cases x <;> rfl
  | zero s => simp [isZero] at hp
  | inf s =>
    cases x with
    | nan => rfl
    | inf t => cases s <;> cases t <;> rfl
    | zero t => cases s <;> cases t <;> simp [mul, toE, mulR, isZero]
    | num q =>
      have hq := hx.1
      by_cases h : q < 0 <;> cases s <;> simp [mul, toE, mulR, isZero, hq, sign, h]
  | num p =>
    cases x with
    | nan => rfl
    | inf t => by_cases h : p < 0 <;> cases t <;> simp [mul, toE, mulR, isZero, sign, h]
    | zero t => exact toE_round _ _
    | num q => exact toE_round _ _

/-- An inverse of a direction: positive or negative, and not small. -/
def Inverse (p : F32) (s : Bool) : Prop :=
  p = inf s ∨ ∃ q, p = num q ∧ 1 / 2 < |q| ∧ (q < 0 ↔ s = true)

theorem mulR_mono {x y : EF ℚ} {p : F32} (hp : Inverse p false) (h : Le x y) (hx : mulR x p ≠ .nan) (hy : mulR y p ≠ .nan) :
    Le (mulR x p) (mulR y p) := by
  rcases hp with rfl | ⟨q, rfl, h1, h2⟩
  · cases x <;> cases y <;> simp [Le, EF.le] at h <;> simp [mulR, Le, EF.le] at hx hy ⊢
    all_goals (try split_ifs) <;> simp_all
    linarith
  · have hq : 0 < q := by
      have : ¬ q < 0 := fun h => by simp [h2] at h
      rcases eq_or_lt_of_le (not_lt.1 this) with h3 | h3
      · rw [← h3] at h1; norm_num at h1
      · exact h3
    have hn : ¬ q < 0 := not_lt.2 hq.le
    cases x <;> cases y <;> simp [Le, EF.le] at h <;> simp only [mulR, hn, if_false] <;>
      first | rfl | exact kr_mono (mul_le_mul_of_nonneg_right h hq.le) | skip
    · have h5 := kr_ne_nan
      unfold Le
      generalize hk : kr _ = e
      cases e <;> first | rfl | exact absurd hk (h5 _)
    · have h5 := kr_ne_nan
      unfold Le
      generalize hk : kr _ = e
      cases e <;> first | rfl | exact absurd hk (h5 _)

/-- Change of sign. -/
def flip : EF ℚ → EF ℚ
  | .nan => .nan
  | .fin q => .fin (-q)
  | .pinf => .ninf
  | .ninf => .pinf

theorem flip_le {a b : EF ℚ} : Le (flip a) (flip b) ↔ Le b a := by
  unfold Le
  cases a <;> cases b <;> simp [flip, EF.le]

theorem flip_nan {a : EF ℚ} : flip a = .nan ↔ a = .nan := by cases a <;> simp [flip]

theorem kr_neg (q : ℚ) : kr (-q) = flip (kr q) := by
  unfold kr
  rw [rnd32_neg]
  have e1 : (2 ^ 128 ≤ -rnd32 q) ↔ (rnd32 q ≤ -2 ^ 128) := by constructor <;> intro h <;> linarith
  have e2 : (-rnd32 q ≤ -2 ^ 128) ↔ (2 ^ 128 ≤ rnd32 q) := by constructor <;> intro h <;> linarith
  simp only [e1, e2]
  split
  · rename_i h
    rw [if_neg (by have : (0 : ℚ) < 2 ^ 128 := by norm_num
                   linarith)]
    rfl
  · split <;> rfl

theorem mulR_neg (x : EF ℚ) (p : F32) (hp : p.Ok) (hz : p.isZero = false) : mulR x (neg p) = flip (mulR x p) := by
  cases p with
  | nan => rfl
  | zero s => simp [isZero] at hz
  | inf s =>
    cases x with
    | nan => rfl
    | pinf => cases s <;> rfl
    | ninf => cases s <;> rfl
    | fin q =>
      simp only [neg, mulR]
      by_cases h0 : q = 0
      · simp [h0, flip]
      · by_cases h1 : q < 0 <;> cases s <;> simp [h0, h1, flip]
  | num q =>
    have h0 := hp.1
    cases x with
    | nan => rfl
    | pinf =>
      rcases lt_or_gt_of_ne h0 with h | h
      · simp [neg, mulR, h, not_lt.2 h.le, flip]
      · simp [neg, mulR, h, not_lt.2 h.le, flip]
    | ninf =>
      rcases lt_or_gt_of_ne h0 with h | h
      · simp [neg, mulR, h, not_lt.2 h.le, flip]
      · simp [neg, mulR, h, not_lt.2 h.le, flip]
    | fin x => simp only [neg, mulR]; rw [← kr_neg, mul_neg]

theorem inverse_neg {p : F32} (h : Inverse p true) : Inverse (neg p) false := by
  rcases h with rfl | ⟨q, rfl, h1, h2⟩
  · exact Or.inl rfl
  · refine Or.inr ⟨-q, rfl, by rwa [abs_neg], ?_⟩
    have := h2.2 rfl
    constructor
    · intro h; linarith
    · intro h; cases h

theorem inverse_ok {p : F32} {s : Bool} (h : Inverse p s) (hk : p.Ok) : p.isZero = false ∧ (neg p).isZero = false := by
  rcases h with rfl | ⟨q, rfl, _, _⟩ <;> exact ⟨rfl, rfl⟩

theorem mulR_anti {x y : EF ℚ} {p : F32} (hp : Inverse p true) (hk : p.Ok) (h : Le x y) (hx : mulR x p ≠ .nan)
    (hy : mulR y p ≠ .nan) : Le (mulR y p) (mulR x p) := by
  have hz := (inverse_ok hp hk).1
  have ex := mulR_neg x p hk hz
  have ey := mulR_neg y p hk hz
  have := mulR_mono (inverse_neg hp) h (by rw [ex]; rwa [Ne, flip_nan]) (by rw [ey]; rwa [Ne, flip_nan])
  rw [ex, ey, flip_le] at this
  exact this

/-! ### Planes -/

/-- The multiples of the smallest number do not vanish. -/
theorem rnd32_tiny_pos {q : ℚ} (h : 2 ^ (-150 : ℤ) < q) : 2 ^ (-149 : ℤ) ≤ rnd32 q := by
  rcases le_or_gt (2 ^ (-149 : ℤ)) q with h1 | h1
  · exact le_rnd32 (by norm_num) h1
  · have hq : 0 < q := lt_trans (two_zpow_pos _) h
    have e : ulp32 q = -149 := by
      have hl : Int.log 2 |q| < -126 := by
        rw [← Int.lt_zpow_iff_log_lt (by norm_num) (abs_pos.2 hq.ne'), abs_of_pos hq]
        refine lt_trans h1 ?_
        exact_mod_cast zpow_lt_zpow_right₀ (by norm_num : (1 : ℚ) < 2) (by norm_num : (-149 : ℤ) < -126)
      unfold ulp32 ulpExp
      apply max_eq_right; omega
    unfold rnd32
    rw [e]
    have hp := two_zpow_pos (-149)
    have h2 : (1 : ℤ) ≤ rne (q / 2 ^ (-149 : ℤ)) := by
      have hh : (1 / 2 : ℚ) < q / 2 ^ (-149 : ℤ) := by
        rw [lt_div_iff₀ hp]
        refine lt_of_le_of_lt (le_of_eq ?_) h
        rw [show (-149 : ℤ) = 1 + -150 by norm_num, zpow_add₀ (by norm_num), zpow_one]; ring
      obtain ⟨b1, -⟩ := rne_bounds (q / 2 ^ (-149 : ℤ))
      have : (0 : ℚ) < rne (q / 2 ^ (-149 : ℤ)) := by linarith
      exact_mod_cast this
    have h3 : (1 : ℚ) ≤ rne (q / 2 ^ (-149 : ℤ)) := by exact_mod_cast h2
    nlinarith

/-- A number of binary32. -/
def Rep (q : ℚ) : Prop := rnd32 q = q

theorem rep_multiple {q : ℚ} (h : Rep q) : ∃ m : ℤ, q = m * 2 ^ (-149 : ℤ) := by
  have h1 : q = (rne (q / 2 ^ ulp32 q) : ℚ) * 2 ^ ulp32 q := by
    conv_lhs => rw [← h]
    rfl
  obtain ⟨d, hd⟩ := Int.le.dest (show (-149 : ℤ) ≤ ulp32 q by unfold ulp32; exact le_max_right _ _)
  refine ⟨rne (q / 2 ^ ulp32 q) * 2 ^ d, ?_⟩
  have h2 : (2 : ℚ) ^ ulp32 q = 2 ^ (-149 : ℤ) * 2 ^ d := by
    rw [← hd, zpow_add₀ (by norm_num), zpow_natCast]
  push_cast
  rw [mul_assoc, mul_comm ((2 : ℚ) ^ d), ← h2]
  exact h1

theorem rep_diff {a b : ℚ} (ha : Rep a) (hb : Rep b) (h : a < b) : 2 ^ (-149 : ℤ) ≤ b - a := by
  obtain ⟨m, hm⟩ := rep_multiple ha
  obtain ⟨n, hn⟩ := rep_multiple hb
  have hp := two_zpow_pos (-149)
  have h1 : (m : ℚ) < n := by
    rw [hm, hn] at h
    exact lt_of_mul_lt_mul_right h hp.le
  have h2 : (m : ℚ) + 1 ≤ n := by
    have : m < n := by exact_mod_cast h1
    exact_mod_cast this
  rw [hm, hn]; nlinarith

/-- What is assumed of a ray: a finite origin, and a finite direction with components up to 3/2 (directions are
normalised). -/
structure RayOk (r : FRay) : Prop where
  origin : ∀ i, (r.o i).Finite
  originOk : ∀ i, (r.o i).Ok
  dir : ∀ i, (r.d i).Finite
  dirOk : ∀ i, (r.d i).Ok
  small : ∀ i, |(r.d i).val| ≤ 3 / 2

theorem inv_inverse {r : FRay} (h : RayOk r) (i : Fin 3) :
    Inverse (r.inv i) (r.isNeg i) ∧ (r.isNeg i = true → (r.d i).val < 0 ∨ (r.inv i).isInf = true) ∧
      ((r.d i).val < 0 → r.isNeg i = true) ∧ (r.isNeg i = false → (r.d i).val ≤ 0 → (r.inv i).isInf = true) := by
  have hf := h.dir i
  have hk := h.dirOk i
  have hs := h.small i
  unfold FRay.isNeg FRay.inv
  generalize r.d i = d at *
  cases d with
  | nan => exact hf.elim
  | inf s => exact hf.elim
  | zero s =>
    have e : div (num 1) (zero s) = inf s := by
      have : ¬ (1 : ℚ) < 0 := by norm_num
      simp [div, isZero, sign, this]
    have e2 : lt (inf s) (zero false) = s := by cases s <;> rfl
    rw [e, e2]
    exact ⟨Or.inl rfl, fun _ => Or.inr rfl, fun h => by simp [val] at h, fun _ _ => rfl⟩
  | num q =>
    have hq := hk.1
    simp only [val] at hs ⊢
    obtain ⟨s, e⟩ : ∃ s, div (num 1) (num q) = F32.round s (1 / q) := ⟨_, by simp [div, isZero, val]; rfl⟩
    rw [e]
    -- the size of the rounded inverse
    have key : ∀ p : ℚ, 0 < p → p ≤ 3 / 2 → 5 / 8 ≤ rnd32 (1 / p) := by
      intro p hp hp2
      have h1 : (5 / 8 : ℚ) ≤ 1 / p := by rw [le_div_iff₀ hp]; linarith
      have h2 : rnd32 (5 / 8) = 5 / 8 := by
        have := rnd32_rep 5 (-3) (by norm_num) (by norm_num)
        norm_num at this; exact this
      rw [← h2]; exact rnd32_mono h1
    unfold F32.round
    rw [if_neg (by simpa using hq)]
    rcases lt_or_gt_of_ne hq with hn | hn
    · have h1 := key (-q) (by linarith) (by rw [abs_of_neg hn] at hs; exact hs)
      have e3 : (1 : ℚ) / -q = -(1 / q) := by field_simp
      rw [e3, rnd32_neg] at h1
      have hneg : 1 / q < 0 := by rw [one_div]; exact inv_lt_zero.2 hn
      rw [if_neg (by linarith)]
      split
      · simp only [hneg, decide_true]
        exact ⟨Or.inl rfl, fun _ => Or.inl hn, fun _ => rfl, fun h => by simp [lt] at h⟩
      · have e4 : lt (num (rnd32 (1 / q))) (zero false) = true := decide_eq_true (by simp only [val]; linarith)
        rw [e4]
        refine ⟨Or.inr ⟨_, rfl, ?_, iff_of_true (by linarith) rfl⟩, fun _ => Or.inl hn, fun _ => rfl, fun h => by simp at h⟩
        rw [abs_of_neg (by linarith)]; linarith
    · have h1 := key q hn (by rw [abs_of_pos hn] at hs; exact hs)
      have hpos : ¬ 1 / q < 0 := not_lt.2 (by positivity)
      rw [if_neg (by linarith)]
      split
      · simp only [hpos, decide_false]
        exact ⟨Or.inl rfl, fun h => by simp [lt] at h, fun h => absurd h (not_lt.2 hn.le), fun _ _ => rfl⟩
      · have e4 : lt (num (rnd32 (1 / q))) (zero false) = false := decide_eq_false (by simp only [val]; linarith)
        rw [e4]
        refine ⟨Or.inr ⟨_, rfl, ?_, iff_of_false (by linarith) (by simp)⟩, fun h => by simp at h, fun h => absurd h (not_lt.2 hn.le),
          fun _ h => absurd h (not_le.2 hn)⟩
        rw [abs_of_pos (by linarith)]; linarith

/-- The ray does not lie in the plane with coordinate `x`. -/
def Off (r : FRay) (i : Fin 3) (x : ℚ) : Prop := (r.inv i).isInf = true → (r.o i).val ≠ x

theorem val_rep {x : F32} (h : x.Ok) : Rep x.val := by
  cases x with
  | num q => exact h.2.1
  | _ => exact rnd32_zero

theorem plane_toE {r : FRay} (h : RayOk r) (i : Fin 3) (x : ℚ) :
    toE (r.plane i x) = mulR (kr (x - (r.o i).val)) (r.inv i) := by
  unfold FRay.plane
  have hz : (r.inv i).isZero = false := (inverse_ok (inv_inverse h i).1 (div_ok _ _)).1
  rw [mul_toE (sub (ofQ x) (r.o i)) (add_ok _ _) hz]
  obtain ⟨s, e⟩ := sub_finite x (h.origin i)
  rw [e, toE_round]

/-- `kr` of a difference of coordinates. -/
theorem kr_diff_zero {x o : ℚ} (hx : Rep x) (ho : Rep o) (h : kr (x - o) = .fin 0) : x = o := by
  have big : ¬ (2 ^ 128 : ℚ) ≤ 0 := by norm_num
  have h0 : rnd32 (x - o) = 0 := by
    unfold kr at h
    split at h
    · cases h
    · split at h
      · cases h
      · simpa using h
  rcases lt_trichotomy x o with h1 | h1 | h1
  · have := le_rnd32 (by norm_num) (rep_diff hx ho h1)
    rw [show o - x = -(x - o) by ring, rnd32_neg, h0] at this
    have := two_zpow_pos (-149); linarith
  · exact h1
  · have := le_rnd32 (by norm_num) (rep_diff ho hx h1)
    rw [h0] at this
    have := two_zpow_pos (-149); linarith

theorem kr_pos {q : ℚ} (h : 2 ^ (-150 : ℤ) < q) : EF.lt (.fin 0) (kr q) = true := by
  have h1 := rnd32_tiny_pos h
  have := two_zpow_pos (-149)
  unfold kr
  split
  · rfl
  · rw [if_neg (by have : (0 : ℚ) < 2 ^ 128 := by norm_num
                   linarith)]
    simp only [EF.lt, decide_eq_true_eq]; linarith

theorem plane_ne_nan {r : FRay} (h : RayOk r) {i : Fin 3} {x : ℚ} (hx : Rep x) (hg : Off r i x) :
    toE (r.plane i x) ≠ .nan := by
  rw [plane_toE h]
  rcases (inv_inverse h i).1 with e | ⟨q, e, -, -⟩
  · have hne : (r.o i).val ≠ x := hg (by rw [e]; rfl)
    rw [e]
    have hk := kr_ne_nan (x - (r.o i).val)
    have hz : kr (x - (r.o i).val) ≠ .fin 0 := fun hc => hne (kr_diff_zero hx (val_rep (h.originOk i)) hc).symm
    generalize kr (x - (r.o i).val) = k at *
    cases k with
    | nan => exact absurd rfl hk
    | fin y =>
      have : y ≠ 0 := fun h => hz (by rw [h])
      simp only [mulR, this, if_false]; split <;> simp
    | pinf => simp only [mulR]; split <;> simp
    | ninf => simp only [mulR]; split <;> simp
  · rw [e]
    have hk := kr_ne_nan (x - (r.o i).val)
    generalize kr (x - (r.o i).val) = k at *
    cases k with
    | nan => exact absurd rfl hk
    | fin y => exact kr_ne_nan _
    | pinf => simp only [mulR]; split <;> simp
    | ninf => simp only [mulR]; split <;> simp

/-- Distances grow along the ray. -/
theorem plane_mono {r : FRay} (h : RayOk r) {i : Fin 3} {x y : ℚ} (hx : Rep x) (hy : Rep y) (gx : Off r i x) (gy : Off r i y)
    (hxy : x ≤ y) :
    (r.isNeg i = false → Le (toE (r.plane i x)) (toE (r.plane i y))) ∧
    (r.isNeg i = true → Le (toE (r.plane i y)) (toE (r.plane i x))) := by
  have nx := plane_ne_nan h hx gx
  have ny := plane_ne_nan h hy gy
  have hk : Le (kr (x - (r.o i).val)) (kr (y - (r.o i).val)) := kr_mono (by linarith)
  rw [plane_toE h] at nx ny ⊢
  rw [plane_toE h]
  have hi := (inv_inverse h i).1
  constructor
  · intro hn; rw [hn] at hi; exact mulR_mono hi hk nx ny
  · intro hn; rw [hn] at hi; exact mulR_anti hi (div_ok _ _) hk nx ny

theorem mulR_pos {x : EF ℚ} {p : F32} (hp : Inverse p false) (h : EF.lt (.fin 0) x = true)
    (hb : ∀ q, x = .fin q → 2 ^ (-149 : ℤ) ≤ q) : EF.lt (.fin 0) (mulR x p) = true := by
  rcases hp with rfl | ⟨q, rfl, h1, h2⟩
  · cases x with
    | nan => cases h
    | ninf => cases h
    | pinf => rfl
    | fin y =>
      simp only [EF.lt, decide_eq_true_eq] at h
      simp [mulR, h.ne', not_lt.2 h.le, EF.lt]
  · have hq : 1 / 2 < q := by
      have : ¬ q < 0 := fun h => by simp [h2] at h
      rwa [abs_of_nonneg (not_lt.1 this)] at h1
    cases x with
    | nan => cases h
    | ninf => cases h
    | pinf => simp [mulR, not_lt.2 (by linarith : (0 : ℚ) ≤ q), EF.lt]
    | fin y =>
      have hy := hb y rfl
      apply kr_pos
      have e : (2 : ℚ) ^ (-150 : ℤ) = 2 ^ (-149 : ℤ) * (1 / 2) := by
        rw [show (-149 : ℤ) = 1 + -150 by norm_num, zpow_add₀ (by norm_num), zpow_one]; ring
      rw [e]
      have h5 := two_zpow_pos (-149)
      exact lt_of_lt_of_le (mul_lt_mul_of_pos_left hq h5) (mul_le_mul_of_nonneg_right hy (by linarith))

theorem kr_fin_tiny {x q : ℚ} (h : 2 ^ (-149 : ℤ) ≤ x) (hk : kr x = .fin q) : 2 ^ (-149 : ℤ) ≤ q := by
  unfold kr at hk
  split at hk
  · cases hk
  · split at hk
    · cases hk
    · cases hk; exact le_rnd32 (by norm_num) h

/-- A plane in front of the origin is at a positive distance: nothing underflows. -/
theorem plane_ahead {r : FRay} (h : RayOk r) {i : Fin 3} {x : ℚ} (hx : Rep x)
    (ha : (r.isNeg i = false ∧ (r.o i).val < x) ∨ (r.isNeg i = true ∧ x < (r.o i).val)) :
    EF.lt (.fin 0) (toE (r.plane i x)) = true := by
  have ho := val_rep (h.originOk i)
  have hi := (inv_inverse h i).1
  have tiny : (2 : ℚ) ^ (-150 : ℤ) < 2 ^ (-149 : ℤ) :=
    zpow_lt_zpow_right₀ (by norm_num) (by norm_num)
  rw [plane_toE h]
  rcases ha with ⟨hn, hlt⟩ | ⟨hn, hlt⟩
  · rw [hn] at hi
    have hd := rep_diff ho hx hlt
    exact mulR_pos hi (kr_pos (lt_of_lt_of_le tiny hd)) fun q hq => kr_fin_tiny hd hq
  · rw [hn] at hi
    have hd := rep_diff hx ho hlt
    have e : mulR (kr (x - (r.o i).val)) (r.inv i) = mulR (kr ((r.o i).val - x)) (neg (r.inv i)) := by
      have h1 := mulR_neg (kr (x - (r.o i).val)) (neg (r.inv i)) (neg_ok (div_ok _ _)) (inverse_ok hi (div_ok _ _)).2
      have h2 : neg (neg (r.inv i)) = r.inv i := by cases r.inv i <;> simp [neg]
      rw [h2] at h1
      rw [h1, show (r.o i).val - x = -(x - (r.o i).val) by ring, kr_neg]
      rcases inverse_neg hi with e | ⟨q, e, -, -⟩ <;> rw [e]
      · generalize kr (x - (r.o i).val) = k
        cases k with
        | nan => rfl
        | pinf => rfl
        | ninf => rfl
        | fin y =>
          by_cases h0 : y = 0
          · simp [mulR, flip, h0]
          · by_cases h1 : y < 0
            · simp [mulR, flip, h0, h1, not_lt.2 h1.le]
            · have : 0 < y := lt_of_le_of_ne (not_lt.1 h1) (Ne.symm h0)
              simp [mulR, flip, h0, h1, this]
      · generalize kr (x - (r.o i).val) = k
        cases k with
        | nan => rfl
        | pinf => by_cases hq : q < 0 <;> simp [mulR, flip, hq]
        | ninf => by_cases hq : q < 0 <;> simp [mulR, flip, hq]
        | fin y =>
          show flip (kr (y * q)) = kr (-y * q)
          rw [← kr_neg, neg_mul]
    rw [e]
    exact mulR_pos (inverse_neg hi) (kr_pos (lt_of_lt_of_le tiny hd)) fun q hq => kr_fin_tiny hd hq

/-- A plane that is not in front of the origin is not at a positive distance. -/
theorem plane_behind {r : FRay} (h : RayOk r) {i : Fin 3} {x : ℚ} (hx : Rep x) (hg : Off r i x)
    (ha : (r.isNeg i = false ∧ x ≤ (r.o i).val) ∨ (r.isNeg i = true ∧ (r.o i).val ≤ x)) :
    Le (toE (r.plane i x)) (.fin 0) := by
  by_cases hi : (r.inv i).isInf = true
  · -- the plane is not through the origin
    have hne := hg hi
    have nn := plane_ne_nan h hx hg
    rw [plane_toE h] at nn ⊢
    have hInv := (inv_inverse h i).1
    rcases hInv with e | ⟨q, e, -, -⟩
    · rw [e] at nn ⊢
      have hk0 := kr_ne_nan (x - (r.o i).val)
      rcases ha with ⟨hn, hlt⟩ | ⟨hn, hlt⟩
      · rw [hn] at nn ⊢
        have hk : Le (kr (x - (r.o i).val)) (.fin 0) := by rw [← kr_zero]; exact kr_mono (by linarith)
        generalize kr (x - (r.o i).val) = k at *
        cases k with
        | nan => exact absurd rfl hk0
        | pinf => cases hk
        | ninf => rfl
        | fin y =>
          simp only [Le, EF.le, decide_eq_true_eq] at hk
          by_cases h0 : y = 0
          · simp [mulR, h0] at nn
          · have : y < 0 := lt_of_le_of_ne hk h0
            simp [mulR, h0, this, Le, EF.le]
      · rw [hn] at nn ⊢
        have hk : Le (.fin 0) (kr (x - (r.o i).val)) := by rw [← kr_zero]; exact kr_mono (by linarith)
        generalize kr (x - (r.o i).val) = k at *
        cases k with
        | nan => exact absurd rfl hk0
        | ninf => cases hk
        | pinf => rfl
        | fin y =>
          simp only [Le, EF.le, decide_eq_true_eq] at hk
          by_cases h0 : y = 0
          · simp [mulR, h0] at nn
          · simp [mulR, h0, not_lt.2 hk, Le, EF.le]
    · rw [e] at hi; cases hi
  · -- the plane through the origin is at distance zero
    have hoff : ∀ y, Off r i y := fun y hc => absurd hc hi
    have ho := val_rep (h.originOk i)
    have h0 : toE (r.plane i (r.o i).val) = .fin 0 := by
      rw [plane_toE h, sub_self, kr_zero]
      rcases (inv_inverse h i).1 with e | ⟨q, e, -, -⟩
      · rw [e] at hi; exact absurd rfl hi
      · rw [e]; simp only [mulR, zero_mul]; exact kr_zero
    rw [← h0]
    rcases ha with ⟨hn, hlt⟩ | ⟨hn, hlt⟩
    · exact (plane_mono h hx ho (hoff _) (hoff _) hlt).1 hn
    · exact (plane_mono h ho hx (hoff _) (hoff _) hlt).2 hn

/-! ### Boxes -/

/-- A box with coordinates of binary32. -/
def BoxOk (b : Box ℚ) : Prop := ∀ i, Rep (b.lo i) ∧ Rep (b.hi i) ∧ b.lo i ≤ b.hi i

/-- The ray lies in no face plane of the box. -/
def OffBox (r : FRay) (b : Box ℚ) : Prop := ∀ i, Off r i (b.lo i) ∧ Off r i (b.hi i)

/-- The parameter lies between the computed distances of the two faces of an axis. -/
def Spans (r : FRay) (b : Box ℚ) (t : ℚ) (i : Fin 3) : Prop :=
  Le (toE (slab b r i).1) (.fin t) ∧ Le (.fin t) (toE (slab b r i).2)

/-- A pair of values. -/
def toP (p : F32 × F32) : EF ℚ × EF ℚ := (toE p.1, toE p.2)

theorem slab_ok {r : FRay} (h : RayOk r) {b : Box ℚ} (hb : BoxOk b) (hg : OffBox r b) (i : Fin 3) :
    (toP (slab b r i)).1 ≠ .nan ∧ (toP (slab b r i)).2 ≠ .nan ∧ Le (toP (slab b r i)).1 (toP (slab b r i)).2 := by
  obtain ⟨h1, h2, h3⟩ := hb i
  obtain ⟨g1, g2⟩ := hg i
  have m := plane_mono h h1 h2 g1 g2 h3
  have n1 := plane_ne_nan h h1 g1
  have n2 := plane_ne_nan h h2 g2
  unfold slab toP
  cases hn : r.isNeg i
  · exact ⟨n1, n2, m.1 hn⟩
  · exact ⟨n2, n1, m.2 hn⟩

theorem clip_toP (c s : F32 × F32) : (clip c s).map toP = clipE (toP c) (toP s) := by
  unfold clip clipE toP
  simp only [lt_toE]
  split
  · rfl
  · simp only [Option.map_some, Option.some.injEq, Prod.mk.injEq]
    constructor <;> split <;> rfl

/-- What an accepted box means on the computed distances, and what a rejected one means. -/
theorem boxTest_spec {r : FRay} (h : RayOk r) {b : Box ℚ} (hb : BoxOk b) (hg : OffBox r b) :
    (∀ p, boxTest b r = some p → toE p.1 ≠ .nan ∧ toE p.2 ≠ .nan ∧ Le (toE p.1) (toE p.2) ∧
      ∀ t : ℚ, (Le (toE p.1) (.fin t) ∧ Le (.fin t) (toE p.2)) ↔ ∀ i, Spans r b t i) ∧
    (boxTest b r = none → ∀ t : ℚ, ¬ ∀ i, Spans r b t i) := by
  obtain ⟨a1, a2, a3⟩ := slab_ok h hb hg 0
  obtain ⟨b1, b2, b3⟩ := slab_ok h hb hg 1
  obtain ⟨c1, c2, c3⟩ := slab_ok h hb hg 2
  obtain ⟨p1, p2⟩ := clipE_spec a1 a2 b1 b2 a3 b3
  have e := clip_toP (slab b r 0) (slab b r 1)
  unfold boxTest
  cases hc : clip (slab b r 0) (slab b r 1) with
  | none =>
    rw [hc] at e
    refine ⟨fun p hp => by simp at hp, fun _ t ht => ?_⟩
    exact p2 e.symm t ⟨ht 0, ht 1⟩
  | some c =>
    rw [hc] at e
    obtain ⟨q1, q2, q3, q4⟩ := p1 _ e.symm
    obtain ⟨s1, s2⟩ := clipE_spec q1 q2 c1 c2 q3 c3
    have e2 := clip_toP c (slab b r 2)
    simp only [Option.bind_some]
    constructor
    · intro p hp
      rw [hp] at e2
      obtain ⟨u1, u2, u3, u4⟩ := s1 _ e2.symm
      refine ⟨u1, u2, u3, fun t => (u4 t).trans ?_⟩
      rw [q4 t]
      constructor
      · rintro ⟨⟨w0, w1⟩, w2⟩ i
        fin_cases i
        · exact w0
        · exact w1
        · exact w2
      · intro w; exact ⟨⟨w 0, w 1⟩, w 2⟩
    · intro hp t ht
      rw [hp] at e2
      exact s2 e2.symm t ⟨(q4 t).2 ⟨ht 0, ht 1⟩, ht 2⟩

/-- A larger box spans more. -/
theorem spans_mono {r : FRay} (h : RayOk r) {b c : Box ℚ} (hb : BoxOk b) (hc : BoxOk c) (gb : OffBox r b) (gc : OffBox r c)
    {i : Fin 3} (h1 : c.lo i ≤ b.lo i) (h2 : b.hi i ≤ c.hi i) {t : ℚ} (hs : Spans r b t i) : Spans r c t i := by
  have m1 := plane_mono h (hc i).1 (hb i).1 (gc i).1 (gb i).1 h1
  have m2 := plane_mono h (hb i).2.1 (hc i).2.1 (gb i).2 (gc i).2 h2
  unfold Spans slab at *
  cases hn : r.isNeg i
  · simp only [hn, Bool.false_eq_true, if_false] at hs ⊢
    exact ⟨EF.le_trans' (m1.1 hn) hs.1, EF.le_trans' hs.2 (m2.1 hn)⟩
  · simp only [hn, if_true] at hs ⊢
    exact ⟨EF.le_trans' (m2.2 hn) hs.1, EF.le_trans' hs.2 (m1.2 hn)⟩

/-! ### Split planes and boxes -/

open Spectre.KdTree (Tree Cand SortOk lefts rights build Repr Tree.size Tree.height)

variable {A : Type}

theorem le_zero_toE {d : F32} (h : d.Finite) : leF d (zero false) = decide (d.val ≤ 0) := by
  rw [leF_toE, toE_finite h]; rfl

theorem leftBelow_iff {r : FRay} (h : RayOk r) (i : Fin 3) (x : ℚ) :
    r.leftBelow i x = true ↔ (r.o i).val < x ∨ ((r.o i).val = x ∧ (r.d i).val ≤ 0) := by
  have e1 : lt (r.o i) (ofQ x) = decide ((r.o i).val < x) := by
    rw [lt_toE, toE_finite (h.origin i), toE_ofQ]; rfl
  have e2 : eq (r.o i) (ofQ x) = decide ((r.o i).val = x) := by
    have hf := h.origin i
    unfold ofQ
    generalize r.o i = o at *
    cases o with
    | nan => exact hf.elim
    | inf s => exact hf.elim
    | zero s =>
      split
      · rename_i hx; subst hx; rfl
      · rfl
    | num q =>
      split
      · rename_i hx; subst hx; rfl
      · rfl
  unfold FRay.leftBelow
  rw [e1, e2, le_zero_toE (h.dir i)]
  simp

/-- An asset that is not in the near child is behind the split plane. -/
theorem near_missing {r : FRay} (h : RayOk r) {b : Box ℚ} (hb : BoxOk b) (hg : OffBox r b) {ax : Fin 3} {x t : ℚ} (hx : Rep x)
    (gx : Off r ax x) (ht : 0 < t) (hs : Spans r b t ax)
    (hm : (r.leftBelow ax x = true ∧ x ≤ b.lo ax) ∨ (r.leftBelow ax x = false ∧ b.hi ax ≤ x)) :
    Le (toE (r.plane ax x)) (.fin t) ∧ EF.lt (.fin 0) (toE (r.plane ax x)) = true := by
  obtain ⟨i1, i2, i3, i4⟩ := inv_inverse h ax
  have hne : (r.inv ax).isInf = true → (r.o ax).val ≠ x := gx
  have pos : ∀ {e : EF ℚ}, Le (.fin t) e → Le e (.fin 0) → False := by
    intro e h1 h2
    have := EF.le_trans' h1 h2
    simp only [Le, EF.le, decide_eq_true_eq] at this; linarith
  rcases hm with ⟨hl, hlo⟩ | ⟨hl, hhi⟩
  · rw [leftBelow_iff h] at hl
    have mono := plane_mono h hx (hb ax).1 gx (hg ax).1 hlo
    unfold Spans slab at hs
    cases hn : r.isNeg ax
    · simp only [hn, Bool.false_eq_true, if_false] at hs
      rcases hl with hl | ⟨hl, hd⟩
      · exact ⟨EF.le_trans' (mono.1 hn) hs.1, plane_ahead h hx (Or.inl ⟨hn, hl⟩)⟩
      · exact absurd hl (hne (i4 hn hd))
    · simp only [hn, if_true] at hs
      exfalso
      refine pos hs.2 (plane_behind h (hb ax).1 (hg ax).1 (Or.inr ⟨hn, le_trans ?_ hlo⟩))
      rcases hl with hl | ⟨hl, -⟩
      · exact hl.le
      · exact hl.le
  · have hl' : ¬ ((r.o ax).val < x ∨ ((r.o ax).val = x ∧ (r.d ax).val ≤ 0)) := by
      rw [← leftBelow_iff h, hl]; simp
    push Not at hl'
    have mono := plane_mono h (hb ax).2.1 hx (hg ax).2 gx hhi
    unfold Spans slab at hs
    cases hn : r.isNeg ax
    · simp only [hn, Bool.false_eq_true, if_false] at hs
      exact (pos hs.2 (plane_behind h (hb ax).2.1 (hg ax).2 (Or.inl ⟨hn, le_trans hhi hl'.1⟩))).elim
    · simp only [hn, if_true] at hs
      have hlt : x < (r.o ax).val := by
        rcases lt_or_eq_of_le hl'.1 with h3 | h3
        · exact h3
        · have hd := hl'.2 h3.symm
          rcases i2 hn with h4 | h4
          · exact absurd hd (not_lt.2 h4.le)
          · exact absurd h3.symm (hne h4)
      exact ⟨EF.le_trans' (mono.2 hn) hs.1, plane_ahead h hx (Or.inr ⟨hn, hlt⟩)⟩

/-- An asset that is not in the far child is before the split plane. -/
theorem far_missing {r : FRay} (h : RayOk r) {b : Box ℚ} (hb : BoxOk b) (hg : OffBox r b) {ax : Fin 3} {x t : ℚ} (hx : Rep x)
    (gx : Off r ax x) (hs : Spans r b t ax)
    (hm : (r.leftBelow ax x = true ∧ b.hi ax ≤ x) ∨ (r.leftBelow ax x = false ∧ x ≤ b.lo ax)) :
    Le (.fin t) (toE (r.plane ax x)) ∨ Le (toE (r.plane ax x)) (.fin 0) := by
  rcases hm with ⟨hl, hhi⟩ | ⟨hl, hlo⟩
  · rw [leftBelow_iff h] at hl
    have mono := plane_mono h (hb ax).2.1 hx (hg ax).2 gx hhi
    unfold Spans slab at hs
    cases hn : r.isNeg ax
    · simp only [hn, Bool.false_eq_true, if_false] at hs
      exact Or.inl (EF.le_trans' hs.2 (mono.1 hn))
    · refine Or.inr (plane_behind h hx gx (Or.inr ⟨hn, ?_⟩))
      rcases hl with hl | ⟨hl, -⟩
      · exact hl.le
      · exact hl.le
  · have hl' : ¬ ((r.o ax).val < x ∨ ((r.o ax).val = x ∧ (r.d ax).val ≤ 0)) := by
      rw [← leftBelow_iff h, hl]; simp
    push Not at hl'
    have mono := plane_mono h hx (hb ax).1 gx (hg ax).1 hlo
    unfold Spans slab at hs
    cases hn : r.isNeg ax
    · exact Or.inr (plane_behind h hx gx (Or.inl ⟨hn, hl'.1⟩))
    · simp only [hn, if_true] at hs
      exact Or.inl (EF.le_trans' hs.2 (mono.2 hn))

/-- The asset is in every part of the tree that its box reaches. -/
def Placed (box : A → Box ℚ) : Tree ℚ A → A → Prop
  | .leaf l, a => a ∈ l
  | .node ax x l r, a => (Placed box l a ∨ Placed box r a) ∧ (¬ Placed box l a → x ≤ (box a).lo ax) ∧
      (¬ Placed box r a → (box a).hi ax ≤ x)

theorem build_placed (box : A → Box ℚ) (sort : List (Cand ℚ A) → List (Cand ℚ A)) (hs : SortOk sort)
    (pick : List A → Box ℚ → (Fin 3 → List (Cand ℚ A)) → Option (Fin 3 × Nat))
    (d : Nat) (l : List A) (area : Box ℚ) (hflat : ∀ a ∈ l, ∀ i, (box a).lo i < (box a).hi i)
    (a : A) (ha : a ∈ l) : Placed box (build box sort pick d l area) a := by
  induction d generalizing l area with
  | zero => exact ha
  | succ d ih =>
    rcases KdTree.build_succ_cases box sort pick d l area with h | ⟨ax, i, c, hc, h⟩
    · rw [h]; exact ha
    · rw [h]
      have hL : (⟨(box a).lo ax, true, a⟩ : Cand ℚ A) ∈ sort (KdTree.cands box ax l) :=
        ((hs _).1.mem_iff).2 (KdTree.mem_cands.2 ⟨ha, Or.inl ⟨rfl, rfl⟩⟩)
      have hR : (⟨(box a).hi ax, false, a⟩ : Cand ℚ A) ∈ sort (KdTree.cands box ax l) :=
        ((hs _).1.mem_iff).2 (KdTree.mem_cands.2 ⟨ha, Or.inr ⟨rfl, rfl⟩⟩)
      have hlt := hflat a ha ax
      have left := fun hm => ih (lefts (sort (KdTree.cands box ax l)) i) (KdTree.areaLeft area ax c.pos)
        (fun b hb => hflat b (KdTree.sort_who hs (KdTree.lefts_subset hb))) hm
      have right := fun hm => ih (rights (sort (KdTree.cands box ax l)) i) (KdTree.areaRight area ax c.pos)
        (fun b hb => hflat b (KdTree.sort_who hs (KdTree.rights_subset hb))) hm
      have n1 : a ∉ lefts (sort (KdTree.cands box ax l)) i → c.pos ≤ (box a).lo ax := by
        intro hn
        rcases KdTree.split_covers (hs _).2 hc hlt hL hR (le_refl _) hlt.le with ⟨-, h2⟩ | ⟨h1, -⟩
        · exact absurd h2 hn
        · exact h1
      have n2 : a ∉ rights (sort (KdTree.cands box ax l)) i → (box a).hi ax ≤ c.pos := by
        intro hn
        rcases KdTree.split_covers (hs _).2 hc hlt hL hR hlt.le (le_refl _) with ⟨h1, -⟩ | ⟨-, h2⟩
        · exact h1
        · exact absurd h2 hn
      refine ⟨?_, fun hp => n1 fun hm => hp (left hm), fun hp => n2 fun hm => hp (right hm)⟩
      by_cases h1 : a ∈ lefts (sort (KdTree.cands box ax l)) i
      · exact Or.inl (left h1)
      · by_cases h2 : a ∈ rights (sort (KdTree.cands box ax l)) i
        · exact Or.inr (right h2)
        · exact absurd (lt_of_le_of_lt (n1 h1) hlt) (not_lt.2 (n2 h2))

/-- Split planes are coordinates of binary32 and do not contain the ray. -/
def PlanesOk (r : FRay) : Tree ℚ A → Prop
  | .leaf _ => True
  | .node ax x l rt => Rep x ∧ Off r ax x ∧ PlanesOk r l ∧ PlanesOk r rt

theorem build_planesOk (box : A → Box ℚ) (sort : List (Cand ℚ A) → List (Cand ℚ A)) (hs : SortOk sort)
    (pick : List A → Box ℚ → (Fin 3 → List (Cand ℚ A)) → Option (Fin 3 × Nat)) (r : FRay)
    (d : Nat) (l : List A) (area : Box ℚ) (hb : ∀ a ∈ l, BoxOk (box a)) (hg : ∀ a ∈ l, OffBox r (box a)) :
    PlanesOk r (build box sort pick d l area) := by
  induction d generalizing l area with
  | zero => trivial
  | succ d ih =>
    rcases KdTree.build_succ_cases box sort pick d l area with h | ⟨ax, i, c, hc, h⟩
    · rw [h]; trivial
    · rw [h]
      have hm := KdTree.mem_cands.1 (((hs _).1.mem_iff).1 (List.mem_of_getElem? hc))
      refine ⟨?_, ?_, ih _ _ (fun a ha => hb a (KdTree.sort_who hs (KdTree.lefts_subset ha)))
          (fun a ha => hg a (KdTree.sort_who hs (KdTree.lefts_subset ha))),
        ih _ _ (fun a ha => hb a (KdTree.sort_who hs (KdTree.rights_subset ha)))
          (fun a ha => hg a (KdTree.sort_who hs (KdTree.rights_subset ha)))⟩
      · rcases hm with ⟨h1, ⟨_, h2⟩ | ⟨_, h2⟩⟩
        · rw [h2]; exact (hb _ h1 ax).1
        · rw [h2]; exact (hb _ h1 ax).2.1
      · rcases hm with ⟨h1, ⟨_, h2⟩ | ⟨_, h2⟩⟩
        · rw [h2]; exact (hg _ h1 ax).1
        · rw [h2]; exact (hg _ h1 ax).2

/-! ### Traversal -/

/-- What an asset's intersection routine guarantees for a ray: there is one distance `hit a` per asset, reported
when it is nearer than the distance found so far and not reported when it is farther; hits are positive floats. -/
structure FOracle (hit : A → Option F32) (isect : A → F32 → Option F32) (all : List A) : Prop where
  sound : ∀ a ∈ all, ∀ v t, isect a v = some t → hit a = some t ∧ lt v t = false
  complete : ∀ a ∈ all, ∀ v t, hit a = some t → lt t v = true → isect a v = some t
  pos : ∀ a ∈ all, ∀ t, hit a = some t → t.Ok ∧ lt (zero false) t = true

/-- The state of the search: nothing found yet, or an asset with its hit. -/
def FAttained (hit : A → Option F32) (all : List A) (s : F32 × Option A) : Prop :=
  (s.2 = none ∧ s.1 = fltMax) ∨ ∃ a ∈ all, s.2 = some a ∧ hit a = some s.1

theorem fltMax_ok : fltMax.Ok := by
  have h := rnd32_rep (2 ^ 24 - 1) 104 (by norm_num) (by norm_num)
  have e : ((2 ^ 24 - 1 : ℤ) : ℚ) * 2 ^ (104 : ℤ) = 2 ^ 128 - 2 ^ 104 := by norm_num
  rw [e] at h
  refine ⟨by norm_num, h, ?_⟩
  rw [abs_of_pos (by norm_num)]; norm_num

theorem attained_pos {hit : A → Option F32} {isect : A → F32 → Option F32} {all : List A} (ho : FOracle hit isect all)
    {s : F32 × Option A} (hs : FAttained hit all s) : s.1.Ok ∧ lt (zero false) s.1 = true := by
  rcases hs with ⟨-, h⟩ | ⟨a, ha, -, h⟩
  · rw [h]; exact ⟨fltMax_ok, decide_eq_true (by simp only [val, fltMax]; norm_num)⟩
  · exact ho.pos a ha _ h

theorem pos_ne_nan {v : F32} (h : lt (zero false) v = true) : toE v ≠ .nan := by
  cases v with
  | nan => cases h
  | inf s => cases s <;> simp [toE]
  | _ => simp [toE]

theorem lt_false_mono {x v w : F32} (h : lt x v = false) (hw : Le (toE w) (toE v)) : lt x w = false := by
  rw [lt_toE] at *
  unfold Le at hw
  cases hx : toE x <;> cases hv : toE v <;> cases hw' : toE w <;> simp_all [EF.lt, EF.le]
  linarith

/-- The asset needs no more attention: its hit is not nearer than the distance found, or its box is not entered
before that distance. -/
def Done (hit : A → Option F32) (box : A → Box ℚ) (r : FRay) (v : F32) (a : A) : Prop :=
  ∀ t r1 r2, hit a = some t → boxTest (box a) r = some (r1, r2) → lt t v = false ∨ lt r1 v = false

theorem Done.mono {hit : A → Option F32} {box : A → Box ℚ} {r : FRay} {v w : F32} {a : A} (h : Done hit box r v a)
    (hw : Le (toE w) (toE v)) : Done hit box r w a := fun t r1 r2 h1 h2 =>
  (h t r1 r2 h1 h2).imp (fun h => lt_false_mono h hw) (fun h => lt_false_mono h hw)

theorem fleafLoop_spec {box : A → Box ℚ} {r : FRay} {hit : A → Option F32} {isect : A → F32 → Option F32}
    {all : List A} (ho : FOracle hit isect all) (l : List A) (hl : ∀ a ∈ l, a ∈ all)
    (s : F32 × Option A) (hs : FAttained hit all s) :
    FAttained hit all (leafLoop box r isect l s) ∧ Le (toE (leafLoop box r isect l s).1) (toE s.1) ∧
      ∀ a ∈ l, Done hit box r (leafLoop box r isect l s).1 a := by
  induction l generalizing s with
  | nil => exact ⟨hs, EF.le_self (pos_ne_nan (attained_pos ho hs).2), by simp⟩
  | cons a l ih =>
    have ha : a ∈ all := hl a List.mem_cons_self
    have hl' : ∀ b ∈ l, b ∈ all := fun b hb => hl b (List.mem_cons_of_mem _ hb)
    have skip : Done hit box r s.1 a →
        FAttained hit all (leafLoop box r isect l s) ∧ Le (toE (leafLoop box r isect l s).1) (toE s.1) ∧
        ∀ b ∈ a :: l, Done hit box r (leafLoop box r isect l s).1 b := by
      intro hd
      obtain ⟨i1, i2, i3⟩ := ih hl' s hs
      refine ⟨i1, i2, ?_⟩
      intro b hb
      rcases List.mem_cons.1 hb with rfl | hb
      · exact hd.mono i2
      · exact i3 b hb
    rw [leafLoop]
    cases hbox : boxTest (box a) r with
    | none => exact skip fun t r1 r2 _ h => by rw [hbox] at h; cases h
    | some p =>
      obtain ⟨res1, res2⟩ := p
      simp only
      split
      · cases hi : isect a s.1 with
        | none =>
          refine skip fun t r1 r2 ht _ => Or.inl ?_
          by_contra hc
          rw [Bool.not_eq_false] at hc
          rw [ho.complete a ha s.1 t ht hc] at hi
          cases hi
        | some t =>
          obtain ⟨h1, h2⟩ := ho.sound a ha s.1 t hi
          obtain ⟨i1, i2, i3⟩ := ih hl' (t, some a) (Or.inr ⟨a, ha, rfl, h1⟩)
          have hts : Le (toE t) (toE s.1) := by
            rw [lt_toE] at h2
            exact (EF.not_lt_iff (pos_ne_nan (attained_pos ho hs).2) (pos_ne_nan (ho.pos a ha t h1).2)).1 h2
          simp only at i1 i2 i3 ⊢
          refine ⟨i1, EF.le_trans' i2 hts, ?_⟩
          intro b hb
          rcases List.mem_cons.1 hb with rfl | hb
          · intro t' r1 r2 ht' _
            rw [h1] at ht'
            cases ht'
            left
            rw [lt_toE]
            exact (EF.not_lt_iff (pos_ne_nan (ho.pos b ha t h1).2) (EF.le_ne_nan_left i2)).2 i2
          · exact i3 b hb
      · rename_i hlt
        rw [Bool.not_eq_true] at hlt
        refine skip fun t r1 r2 _ h => Or.inr ?_
        rw [hbox] at h
        cases h
        exact hlt

/-- A parameter at which the traversal cannot miss the asset. -/
structure Want (box : A → Box ℚ) (r : FRay) (a : A) (t : ℚ) : Prop where
  pos : 0 < t
  spans : ∀ i, Spans r (box a) t i
  prune : ∀ v : F32, v.Ok → lt (zero false) v = true → EF.lt (toE v) (.fin t) = true →
    ∀ r1 r2, boxTest (box a) r = some (r1, r2) → lt r1 v = false

/-- The asset is still to be found in the pending entry. -/
def FCovered (box : A → Box ℚ) (e : Job × Tree ℚ A) (a : A) (t : ℚ) : Prop :=
  Le (toE e.1.mint) (.fin t) ∧ Le (.fin t) (toE e.1.maxt) ∧ Placed box e.2 a

/-- The intervals on the stack follow each other. -/
def FChain (hi : EF ℚ) : List (Job × Tree ℚ A) → Prop
  | [] => True
  | e :: rest => Le hi (toE e.1.mint) ∧ Le (toE e.1.mint) (toE e.1.maxt) ∧ FChain (toE e.1.maxt) rest

theorem fchain_mint {hi : EF ℚ} {st : List (Job × Tree ℚ A)} (h : FChain hi st) :
    ∀ e ∈ st, Le hi (toE e.1.mint) := by
  induction st generalizing hi with
  | nil => simp
  | cons e st ih =>
    obtain ⟨h1, h2, h3⟩ := h
    intro e' he'
    rcases List.mem_cons.1 he' with rfl | he'
    · exact h1
    · exact EF.le_trans' (EF.le_trans' h1 h2) (ih h3 e' he')

/-- Stack entry number `k` (from the bottom) has a tree of height at most `15 - k`. -/
def FFits : List (Job × Tree ℚ A) → Prop
  | [] => True
  | e :: rest => e.2.height + rest.length ≤ 15 ∧ FFits rest

/-- Total number of nodes still to visit. -/
def ftodo : List (Job × Tree ℚ A) → Nat
  | [] => 0
  | e :: rest => e.2.size + ftodo rest

/-- Conditions on one pending entry. -/
structure FEntry (nodes : List (KdTree.Node ℚ)) (assets : List A) (r : FRay) (all : List A)
    (e : Job × Tree ℚ A) : Prop where
  repr : Repr nodes assets e.1.node e.2
  planes : PlanesOk r e.2
  sub : ∀ a ∈ e.2.assets, a ∈ all

theorem ftraverse_spec {box : A → Box ℚ} {r : FRay} {hit : A → Option F32} {isect : A → F32 → Option F32}
    {all : List A} (hr : RayOk r) (ho : FOracle hit isect all) (hb : ∀ a ∈ all, BoxOk (box a))
    (hg : ∀ a ∈ all, OffBox r (box a)) (want : A → ℚ → Prop) (hw : ∀ a t, want a t → a ∈ all ∧ Want box r a t)
    (assets : List A) (nodes : List (KdTree.Node ℚ)) :
    ∀ (fuel : Nat) (e : Job × Tree ℚ A) (st : List (Job × Tree ℚ A)) (s : F32 × Option A),
      FEntry nodes assets r all e → (∀ e' ∈ st, FEntry nodes assets r all e') →
      Le (toE e.1.mint) (toE e.1.maxt) → FChain (toE e.1.maxt) st → FFits (e :: st) → ftodo (e :: st) ≤ fuel →
      FAttained hit all s →
      (∀ a t, want a t → Done hit box r s.1 a ∨ ∃ e' ∈ e :: st, FCovered box e' a t) →
      ∃ s', traverse box assets nodes r isect fuel e.1 (st.map Prod.fst) s = .ok s' ∧
        FAttained hit all s' ∧ ∀ a t, want a t → Done hit box r s'.1 a := by
  intro fuel
  induction fuel with
  | zero =>
    intro e st s _ _ _ _ _ hf
    exfalso
    have : 1 ≤ e.2.size := by cases e.2 <;> simp [Tree.size]; omega
    simp only [ftodo] at hf
    omega
  | succ fuel ih =>
    intro e st s he hst hle hch hfit htodo hs hcov
    obtain ⟨⟨ni, mint, maxt⟩, tr⟩ := e
    simp only at hle hch
    obtain ⟨hmin, hmax⟩ := KdTree.le_ne_nan hle
    obtain ⟨hok, hpos⟩ := attained_pos ho hs
    rw [traverse]
    by_cases hprune : lt s.1 mint = true
    · simp only [hprune, if_true]
      refine ⟨s, rfl, hs, ?_⟩
      intro a t hwa
      rcases hcov a t hwa with h | ⟨e', he', hc⟩
      · exact h
      · have h1 : Le (toE mint) (toE e'.1.mint) := by
          rcases List.mem_cons.1 he' with rfl | he'
          · exact EF.le_self hmin
          · exact EF.le_trans' hle (fchain_mint hch e' he')
        have h2 := EF.le_trans' h1 hc.1
        intro t' r1 r2 _ hbt
        right
        refine (hw a t hwa).2.prune s.1 hok hpos ?_ r1 r2 hbt
        rw [lt_toE] at hprune
        exact EF.lt_of_lt_of_le' hprune h2
    · simp only [hprune, if_false, Bool.false_eq_true]
      obtain ⟨hrepr, hplanes, hsub⟩ := he
      simp only at hrepr hplanes hsub
      cases tr with
      | leaf l =>
        obtain ⟨off, hn, hbd, htake⟩ := hrepr
        simp only [hn, hbd, if_true, htake]
        obtain ⟨l1, l2, l3⟩ := fleafLoop_spec (box := box) (r := r) ho l hsub s hs
        have hcov' : ∀ a t, want a t →
            Done hit box r (leafLoop box r isect l s).1 a ∨ ∃ e' ∈ st, FCovered box e' a t := by
          intro a t hwa
          rcases hcov a t hwa with h | ⟨e', he', hc⟩
          · exact Or.inl (h.mono l2)
          · rcases List.mem_cons.1 he' with rfl | he'
            · exact Or.inl (l3 a hc.2.2)
            · exact Or.inr ⟨e', he', hc⟩
        cases st with
        | nil =>
          refine ⟨_, rfl, l1, ?_⟩
          intro a t hwa
          rcases hcov' a t hwa with h | ⟨e', he', _⟩
          · exact h
          · simp at he'
        | cons e1 st =>
          simp only [List.map_cons]
          refine ih e1 st _ (hst e1 List.mem_cons_self)
            (fun e' he' => hst e' (List.mem_cons_of_mem _ he')) hch.2.1 hch.2.2 hfit.2 ?_ l1 hcov'
          simp only [ftodo, Tree.size] at htodo ⊢
          omega
      | node ax x tl trt =>
        obtain ⟨o, hn, hrl, hrr⟩ := hrepr
        obtain ⟨hrep, hp, hpl, hpr⟩ := hplanes
        simp only [hn]
        have hsubl : ∀ a ∈ tl.assets, a ∈ all :=
          fun a ha => hsub a (List.mem_append.2 (Or.inl ha))
        have hsubr : ∀ a ∈ trt.assets, a ∈ all :=
          fun a ha => hsub a (List.mem_append.2 (Or.inr ha))
        have hplane := plane_ne_nan hr hrep hp
        -- near and far children
        obtain ⟨nn, nf, tn, tf, e1, e2, hokn, hokf, hside, hnear, hfar, hsz, hht⟩ :
            ∃ nn nf tn tf, (if r.leftBelow ax x then ni + 1 else o) = nn ∧
              (if r.leftBelow ax x then o else ni + 1) = nf ∧
              (∀ m M, FEntry nodes assets r all (⟨nn, m, M⟩, tn)) ∧
              (∀ m M, FEntry nodes assets r all (⟨nf, m, M⟩, tf)) ∧
              (∀ a, Placed box (KdTree.Tree.node ax x tl trt) a → Placed box tn a ∨ Placed box tf a) ∧
              (∀ a, Placed box (KdTree.Tree.node ax x tl trt) a → ¬ Placed box tn a →
                ((r.leftBelow ax x = true ∧ x ≤ (box a).lo ax) ∨ (r.leftBelow ax x = false ∧ (box a).hi ax ≤ x))) ∧
              (∀ a, Placed box (KdTree.Tree.node ax x tl trt) a → ¬ Placed box tf a →
                ((r.leftBelow ax x = true ∧ (box a).hi ax ≤ x) ∨ (r.leftBelow ax x = false ∧ x ≤ (box a).lo ax))) ∧
              tn.size + tf.size = tl.size + trt.size ∧
              (tn.height ≤ Nat.max tl.height trt.height ∧
                tf.height ≤ Nat.max tl.height trt.height) := by
          cases hlb : r.leftBelow ax x
          · exact ⟨o, ni + 1, trt, tl, by simp, by simp,
              fun m M => ⟨hrr, hpr, hsubr⟩, fun m M => ⟨hrl, hpl, hsubl⟩, fun a h => h.1.symm,
              fun a h hn => Or.inr ⟨rfl, h.2.2 hn⟩, fun a h hn => Or.inr ⟨rfl, h.2.1 hn⟩, Nat.add_comm _ _,
              Nat.le_max_right _ _, Nat.le_max_left _ _⟩
          · exact ⟨ni + 1, o, tl, trt, by simp, by simp,
              fun m M => ⟨hrl, hpl, hsubl⟩, fun m M => ⟨hrr, hpr, hsubr⟩, fun a h => h.1,
              fun a h hn => Or.inl ⟨rfl, h.2.1 hn⟩, fun a h hn => Or.inl ⟨rfl, h.2.2 hn⟩, rfl,
              Nat.le_max_left _ _, Nat.le_max_right _ _⟩
        simp only [e1, e2]
        simp only [ftodo, Tree.size] at htodo
        have hfit1 : Nat.max tl.height trt.height + 1 + st.length ≤ 15 := hfit.1
        have far : ∀ a t, want a t → Placed box (KdTree.Tree.node ax x tl trt) a → ¬ Placed box tn a →
            Le (toE (r.plane ax x)) (.fin t) ∧ EF.lt (.fin 0) (toE (r.plane ax x)) = true := by
          intro a t hwa hpa hna
          obtain ⟨hal, hW⟩ := hw a t hwa
          exact near_missing hr (hb a hal) (hg a hal) hrep hp hW.pos (hW.spans ax) (hnear a hpa hna)
        have near : ∀ a t, want a t → Placed box (KdTree.Tree.node ax x tl trt) a → ¬ Placed box tf a →
            Le (.fin t) (toE (r.plane ax x)) ∨ Le (toE (r.plane ax x)) (.fin 0) := by
          intro a t hwa hpa hna
          obtain ⟨hal, hW⟩ := hw a t hwa
          exact far_missing hr (hb a hal) (hg a hal) hrep hp (hW.spans ax) (hfar a hpa hna)
        have le0 : leF (r.plane ax x) (zero false) = true ↔ Le (toE (r.plane ax x)) (.fin 0) := by
          rw [leF_toE]; rfl
        by_cases hc1 : (lt maxt (r.plane ax x) || leF (r.plane ax x) (zero false)) = true
        · simp only [hc1, if_true]
          refine ih (⟨nn, mint, maxt⟩, tn) st s (hokn _ _) hst hle hch ⟨?_, hfit.2⟩ ?_ hs ?_
          · simp only; omega
          · simp only [ftodo]; omega
          · intro a t hwa
            rcases hcov a t hwa with h | ⟨e', he', hc⟩
            · exact Or.inl h
            · rcases List.mem_cons.1 he' with rfl | he'
              · obtain ⟨c1, c2, c3⟩ := hc
                simp only at c1 c2 c3
                by_cases hpn : Placed box tn a
                · exact Or.inr ⟨_, List.mem_cons_self, c1, c2, hpn⟩
                · exfalso
                  obtain ⟨f1, f2⟩ := far a t hwa c3 hpn
                  rcases Bool.or_eq_true _ _ ▸ hc1 with h | h
                  · rw [lt_toE] at h
                    exact EF.lt_not_le h (EF.le_trans' f1 c2)
                  · exact EF.lt_not_le f2 (le0.1 h)
              · exact Or.inr ⟨e', List.mem_cons_of_mem _ he', hc⟩
        · simp only [hc1, if_false, Bool.false_eq_true]
          simp only [Bool.or_eq_true, not_or, Bool.not_eq_true] at hc1
          have hnb : ¬ Le (toE (r.plane ax x)) (.fin 0) := by rw [← le0, hc1.2]; simp
          by_cases hc2 : lt (r.plane ax x) mint = true
          · simp only [hc2, if_true]
            refine ih (⟨nf, mint, maxt⟩, tf) st s (hokf _ _) hst hle hch ⟨?_, hfit.2⟩ ?_ hs ?_
            · simp only; omega
            · simp only [ftodo]; omega
            · intro a t hwa
              rcases hcov a t hwa with h | ⟨e', he', hc⟩
              · exact Or.inl h
              · rcases List.mem_cons.1 he' with rfl | he'
                · obtain ⟨c1, c2, c3⟩ := hc
                  simp only at c1 c2 c3
                  by_cases hpf : Placed box tf a
                  · exact Or.inr ⟨_, List.mem_cons_self, c1, c2, hpf⟩
                  · exfalso
                    rcases near a t hwa c3 hpf with f | f
                    · rw [lt_toE] at hc2
                      exact EF.lt_not_le hc2 (EF.le_trans' c1 f)
                    · exact hnb f
                · exact Or.inr ⟨e', List.mem_cons_of_mem _ he', hc⟩
          · simp only [hc2, if_false, Bool.false_eq_true, List.length_map]
            rw [Bool.not_eq_true, lt_toE] at hc2
            have hc11 := hc1.1
            rw [lt_toE] at hc11
            have hpm : Le (toE (r.plane ax x)) (toE maxt) := (EF.not_lt_iff hmax hplane).1 hc11
            have hmp : Le (toE mint) (toE (r.plane ax x)) := (EF.not_lt_iff hplane hmin).1 hc2
            rw [if_pos (by omega)]
            refine ih (⟨nn, mint, r.plane ax x⟩, tn) ((⟨nf, r.plane ax x, maxt⟩, tf) :: st) s
              (hokn _ _) ?_ hmp ?_ ?_ ?_ hs ?_
            · intro e' he'
              rcases List.mem_cons.1 he' with rfl | he'
              · exact hokf _ _
              · exact hst e' he'
            · exact ⟨EF.le_self hplane, hpm, hch⟩
            · refine ⟨?_, ?_, hfit.2⟩
              · simp only [List.length_cons]; omega
              · simp only; omega
            · simp only [ftodo]; omega
            · intro a t hwa
              rcases hcov a t hwa with h | ⟨e', he', hc⟩
              · exact Or.inl h
              · rcases List.mem_cons.1 he' with rfl | he'
                · obtain ⟨c1, c2, c3⟩ := hc
                  simp only at c1 c2 c3
                  have key : (Placed box tn a ∧ Le (.fin t) (toE (r.plane ax x))) ∨
                      (Placed box tf a ∧ Le (toE (r.plane ax x)) (.fin t)) := by
                    by_cases hpn : Placed box tn a
                    · by_cases hpf : Placed box tf a
                      · rcases EF.le_total' hplane t with h | h
                        · exact Or.inr ⟨hpf, h⟩
                        · exact Or.inl ⟨hpn, h⟩
                      · rcases near a t hwa c3 hpf with f | f
                        · exact Or.inl ⟨hpn, f⟩
                        · exact absurd f hnb
                    · have hpf := (hside a c3).resolve_left hpn
                      exact Or.inr ⟨hpf, (far a t hwa c3 hpn).1⟩
                  rcases key with ⟨hp1, f⟩ | ⟨hp1, f⟩
                  · exact Or.inr ⟨_, List.mem_cons_self, c1, f, hp1⟩
                  · exact Or.inr ⟨_, List.mem_cons_of_mem _ List.mem_cons_self, f, c2, hp1⟩
                · exact Or.inr ⟨e', List.mem_cons_of_mem _ (List.mem_cons_of_mem _ he'), hc⟩

/-- Traversal of represented trees of bounded height runs to completion, whatever the floats are. -/
theorem ftraverse_safe (box : A → Box ℚ) (r : FRay) (isect : A → F32 → Option F32)
    (assets : List A) (nodes : List (KdTree.Node ℚ)) :
    ∀ (fuel : Nat) (e : Job × Tree ℚ A) (st : List (Job × Tree ℚ A)) (s : F32 × Option A),
      (∀ e' ∈ e :: st, Repr nodes assets e'.1.node e'.2) → FFits (e :: st) → ftodo (e :: st) ≤ fuel →
      ∃ s', traverse box assets nodes r isect fuel e.1 (st.map Prod.fst) s = .ok s' := by
  intro fuel
  induction fuel with
  | zero =>
    intro e st s _ _ hf
    exfalso
    have : 1 ≤ e.2.size := by cases e.2 <;> simp [Tree.size]; omega
    simp only [ftodo] at hf
    omega
  | succ fuel ih =>
    intro e st s hrep hfit htodo
    obtain ⟨⟨ni, mint, maxt⟩, tr⟩ := e
    have hst : ∀ e' ∈ st, Repr nodes assets e'.1.node e'.2 :=
      fun e' he' => hrep e' (List.mem_cons_of_mem _ he')
    have hrepr := hrep _ List.mem_cons_self
    rw [traverse]
    split
    · exact ⟨s, rfl⟩
    · cases tr with
      | leaf l =>
        obtain ⟨off, hn, hb, htake⟩ := hrepr
        simp only at hn
        simp only [hn, hb, if_true]
        cases st with
        | nil => exact ⟨_, rfl⟩
        | cons e1 st =>
          simp only [List.map_cons]
          refine ih e1 st _ hst hfit.2 ?_
          simp only [ftodo, Tree.size] at htodo ⊢
          omega
      | node ax x tl trt =>
        obtain ⟨o, hn, hrl, hrr⟩ := hrepr
        simp only at hn hrl hrr
        simp only [hn]
        simp only [ftodo, Tree.size] at htodo
        have hfit1 : Nat.max tl.height trt.height + 1 + st.length ≤ 15 := hfit.1
        have hml : tl.height ≤ Nat.max tl.height trt.height := Nat.le_max_left _ _
        have hmr : trt.height ≤ Nat.max tl.height trt.height := Nat.le_max_right _ _
        obtain ⟨nn, nf, tn, tf, e1', e2', hokn, hokf, hsz, h1, h2⟩ :
            ∃ nn nf tn tf, (if r.leftBelow ax x then ni + 1 else o) = nn ∧
              (if r.leftBelow ax x then o else ni + 1) = nf ∧
              Repr nodes assets nn tn ∧ Repr nodes assets nf tf ∧
              tn.size + tf.size = tl.size + trt.size ∧
              tn.height ≤ Nat.max tl.height trt.height ∧
              tf.height ≤ Nat.max tl.height trt.height := by
          cases hlb : r.leftBelow ax x
          · exact ⟨o, ni + 1, trt, tl, by simp, by simp, hrr, hrl, Nat.add_comm _ _, hmr, hml⟩
          · exact ⟨ni + 1, o, tl, trt, by simp, by simp, hrl, hrr, rfl, hml, hmr⟩
        simp only [e1', e2']
        generalize r.plane ax x = planet
        split
        · refine ih (⟨nn, mint, maxt⟩, tn) st s ?_ ⟨?_, hfit.2⟩ ?_
          · intro e' he'
            rcases List.mem_cons.1 he' with rfl | he'
            · exact hokn
            · exact hst e' he'
          · simp only; omega
          · simp only [ftodo]; omega
        · split
          · refine ih (⟨nf, mint, maxt⟩, tf) st s ?_ ⟨?_, hfit.2⟩ ?_
            · intro e' he'
              rcases List.mem_cons.1 he' with rfl | he'
              · exact hokf
              · exact hst e' he'
            · simp only; omega
            · simp only [ftodo]; omega
          · rw [if_pos (by rw [List.length_map]; omega)]
            refine ih (⟨nn, mint, planet⟩, tn) ((⟨nf, planet, maxt⟩, tf) :: st) s ?_ ⟨?_, ?_, hfit.2⟩ ?_
            · intro e' he'
              rcases List.mem_cons.1 he' with rfl | he'
              · exact hokn
              · rcases List.mem_cons.1 he' with rfl | he'
                · exact hokf
                · exact hst e' he'
            · simp only [List.length_cons]; omega
            · simp only; omega
            · simp only [ftodo]; omega

/-- **C152.** With the arithmetic of binary32, for every tree built from scratch, every ray (infinite, NaN or zero
components included) and every behaviour of the assets, the traversal completes: no write past the 15 entries of the
stack, no read outside the node and asset arrays, and at most as many iterations as there are nodes. -/
theorem C152_completes (box : A → Box ℚ) (sort : List (Cand ℚ A) → List (Cand ℚ A))
    (pick : List A → Box ℚ → (Fin 3 → List (Cand ℚ A)) → Option (Fin 3 × Nat)) (l : List A)
    (k : KdTree.Kd ℚ A) (hk : KdTree.construct box sort pick l = some k) (r : FRay) (isect : A → F32 → Option F32) :
    ∃ res, intersect box isect k.nodes.length k r = .ok res := by
  rcases KdTree.construct_shape hk with ⟨rfl, hsc⟩ | ⟨a0, l', hl, scene, hscene, e1, e2, e3⟩
  · exact ⟨none, by simp [intersect, hsc]⟩
  · unfold intersect
    rw [e1]
    simp only [Option.bind_some]
    cases hi : boxTest scene r with
    | none => exact ⟨none, rfl⟩
    | some p =>
      obtain ⟨mint, maxt⟩ := p
      have hrepr : Repr k.nodes k.assets.list 0 (build box sort pick 15 l scene) := by
        have := KdTree.C13_flatten_repr (build box sort pick 15 l scene) [] [] [] []
        simpa [e2, e3] using this
      obtain ⟨s', h1⟩ := ftraverse_safe box r isect k.assets.list k.nodes k.nodes.length
        (⟨0, mint, maxt⟩, build box sort pick 15 l scene) [] (fltMax, none)
        (by
          intro e' he'
          rcases List.mem_cons.1 he' with rfl | he'
          · exact hrepr
          · simp at he')
        ⟨by simpa using KdTree.C15_height_bound box sort pick 15 l scene, trivial⟩
        (by rw [e3, KdTree.flatten_length]; simp [ftodo])
      simp only [List.map_nil] at h1
      exact ⟨s'.2.map fun a => (s'.1, a), by simp only [h1]; rfl⟩

/-- A box that is accepted in front of the origin has a parameter at which its asset cannot be missed. -/
theorem want_of_box {r : FRay} (hr : RayOk r) {box : A → Box ℚ} {a : A} (hb : BoxOk (box a)) (hg : OffBox r (box a))
    {r1 r2 : F32} (ht : boxTest (box a) r = some (r1, r2)) (h2 : lt (zero false) r2 = true)
    (h1 : lt r1 fltMax = true) : ∃ t, Want box r a t := by
  obtain ⟨p1, p2, p3, p4⟩ := (boxTest_spec hr hb hg).1 _ ht
  simp only at p1 p2 p3 p4
  have htiny := two_zpow_pos (-149)
  by_cases hr1 : lt (zero false) r1 = true
  · obtain ⟨t, e⟩ : ∃ t, toE r1 = .fin t := by
      cases hx : toE r1 with
      | nan => exact absurd hx p1
      | fin t => exact ⟨t, rfl⟩
      | pinf => rw [lt_toE, hx] at h1; cases h1
      | ninf => rw [lt_toE, hx] at hr1; cases hr1
    rw [lt_toE, e] at hr1
    have ht0 : 0 < t := by simpa [toE, EF.lt] using hr1
    refine ⟨t, ht0, (p4 t).1 ⟨by rw [e]; exact EF.le_self (by simp), by rw [← e]; exact p3⟩, ?_⟩
    intro v _ hv hlt q1 q2 hq
    rw [ht] at hq
    cases hq
    rw [lt_toE, e]
    exact (EF.not_lt_iff (by simp) (pos_ne_nan hv)).2 (EF.lt_le hlt)
  · rw [Bool.not_eq_true] at hr1
    have tinyle : ∀ v : F32, v.Ok → lt (zero false) v = true → Le (.fin (2 ^ (-149 : ℤ))) (toE v) := by
      intro v hk hv
      cases v with
      | nan => cases hv
      | inf s => cases s
                 · rfl
                 · cases hv
      | zero s => simp [lt, val] at hv
      | num q =>
        have hq : (0 : ℚ) < q := of_decide_eq_true hv
        have := rep_diff (a := 0) (b := q) rnd32_zero hk.2.1 hq
        rw [sub_zero] at this
        simp only [Le, toE, EF.le, decide_eq_true_eq]; exact this
    have hok : r2.Ok := by
      have hcl : ∀ c s : F32 × F32, c.2.Ok → s.2.Ok → ∀ e, clip c s = some e → e.2.Ok := by
        intro c s h1 h2 e he
        unfold clip at he
        split at he
        · cases he
        · cases he
          simp only
          split
          · exact h2
          · exact h1
      have hsl : ∀ i, (slab (box a) r i).2.Ok := by
        intro i; unfold slab; split <;> exact mul_ok _ _
      unfold boxTest at ht
      obtain ⟨c, hc, hc2⟩ := Option.bind_eq_some_iff.1 ht
      exact hcl _ _ (hcl _ _ (hsl 0) (hsl 1) _ hc) (hsl 2) _ hc2
    refine ⟨2 ^ (-149 : ℤ), htiny, (p4 _).1 ⟨?_, tinyle r2 hok h2⟩, ?_⟩
    · rw [lt_toE] at hr1
      have := (EF.not_lt_iff (by simp [toE]) p1).1 hr1
      refine EF.le_trans' this ?_
      simp only [Le, toE, EF.le, decide_eq_true_eq]; exact htiny.le
    · intro v hk hv hlt
      exact absurd (tinyle v hk hv) (EF.lt_not_le hlt)

/-- Whether the traversal has to consider the asset: its box is accepted, not behind the origin and not beyond the
largest float. -/
def Visible (box : A → Box ℚ) (r : FRay) (a : A) (r1 : F32) : Prop :=
  ∃ r2, boxTest (box a) r = some (r1, r2) ∧ lt (zero false) r2 = true ∧ lt r1 fltMax = true

/-- **C152.** The traversal in binary32 loses no asset.  The tree is built from scratch over boxes with extent and
finite float coordinates, with any legal sort and any choice of splits; the ray is finite and lies in no face plane
of a box.  Whatever the rounding does to the distances of the split planes and of the scene box, the result is the hit of an
asset of the scene, and every asset whose own box is accepted has a hit not nearer than the result, or a box that is
not entered before it. -/
theorem C152_no_asset_lost (box : A → Box ℚ) (sort : List (Cand ℚ A) → List (Cand ℚ A)) (hs : SortOk sort)
    (pick : List A → Box ℚ → (Fin 3 → List (Cand ℚ A)) → Option (Fin 3 × Nat)) (l : List A)
    (k : KdTree.Kd ℚ A) (hk : KdTree.construct box sort pick l = some k)
    (hb : ∀ a ∈ l, BoxOk (box a)) (hflat : ∀ a ∈ l, ∀ i, (box a).lo i < (box a).hi i)
    (r : FRay) (hr : RayOk r) (hg : ∀ a ∈ l, OffBox r (box a))
    (hit : A → Option F32) (isect : A → F32 → Option F32) (ho : FOracle hit isect l)
    (hmax : ∀ a ∈ l, ∀ t, hit a = some t → lt t fltMax = true) :
    ∃ res, intersect box isect k.nodes.length k r = .ok res ∧
      (∀ t a, res = some (t, a) → a ∈ l ∧ hit a = some t) ∧
      ∀ b ∈ l, ∀ t' r1, hit b = some t' → Visible box r b r1 →
        ∃ t a, res = some (t, a) ∧ (lt t' t = false ∨ lt r1 t = false) := by
  rcases KdTree.construct_shape hk with ⟨rfl, hsc⟩ | ⟨a0, l', hl, scene, hscene, e1, e2, e3⟩
  · exact ⟨none, by simp [intersect, hsc], by simp, by simp⟩
  · set tr := build box sort pick 15 l scene with htr
    have hinsc : ∀ a ∈ l, ∀ i, scene.lo i ≤ (box a).lo i ∧ (box a).hi i ≤ scene.hi i := by
      intro a ha
      have hmem : ∀ p, Mem (box a) p → Mem scene p := by
        intro p hp
        rw [hscene]
        rw [hl] at ha
        rcases List.mem_cons.1 ha with rfl | ha
        · have := C24_fold_contains (box a :: l'.map box) (box a) (box a) (by simp) p hp
          rw [List.foldl_cons, C24_idem] at this
          exact this
        · exact C24_fold_contains _ (box a) _ (List.mem_map_of_mem ha) p hp
      intro i
      exact ⟨(hmem (box a).lo (fun j => ⟨le_refl _, (hb a ha j).2.2⟩) i).1,
        (hmem (box a).hi (fun j => ⟨(hb a ha j).2.2, le_refl _⟩) i).2⟩
    have hfaces : ∀ i, (∃ a ∈ l, scene.lo i = (box a).lo i) ∧ ∃ a ∈ l, scene.hi i = (box a).hi i := by
      intro i
      obtain ⟨⟨c1, m1, f1⟩, ⟨c2, m2, f2⟩⟩ := KdTree.scene_faces (l'.map box) (box a0) i
      rw [← List.map_cons (f := box), ← hl] at m1 m2
      rw [← hscene] at f1 f2
      obtain ⟨a1, n1, rfl⟩ := List.mem_map.1 m1
      obtain ⟨a2, n2, rfl⟩ := List.mem_map.1 m2
      exact ⟨⟨a1, n1, f1⟩, ⟨a2, n2, f2⟩⟩
    have ha0 : a0 ∈ l := by rw [hl]; simp
    have hscok : BoxOk scene := by
      intro i
      obtain ⟨⟨a1, n1, f1⟩, ⟨a2, n2, f2⟩⟩ := hfaces i
      refine ⟨by rw [f1]; exact (hb a1 n1 i).1, by rw [f2]; exact (hb a2 n2 i).2.1, ?_⟩
      exact le_trans (hinsc a0 ha0 i).1 (le_trans (hb a0 ha0 i).2.2 (hinsc a0 ha0 i).2)
    have hscg : OffBox r scene := by
      intro i
      obtain ⟨⟨a1, n1, f1⟩, ⟨a2, n2, f2⟩⟩ := hfaces i
      exact ⟨by rw [f1]; exact (hg a1 n1 i).1, by rw [f2]; exact (hg a2 n2 i).2⟩
    obtain ⟨k1, k2⟩ := boxTest_spec hr hscok hscg
    have spans : ∀ a ∈ l, ∀ t, Want box r a t → ∀ i, Spans r scene t i := fun a ha t hw i =>
      spans_mono hr (hb a ha) hscok (hg a ha) hscg (hinsc a ha i).1 (hinsc a ha i).2 (hw.spans i)
    unfold intersect
    rw [e1]
    simp only [Option.bind_some]
    cases hi : boxTest scene r with
    | none =>
      refine ⟨none, rfl, by simp, ?_⟩
      intro b hbl t' r1 _ ⟨r2, v1, v2, v3⟩
      obtain ⟨t, hw⟩ := want_of_box hr (hb b hbl) (hg b hbl) v1 v2 v3
      exact absurd (spans b hbl t hw) (k2 hi t)
    | some p =>
      obtain ⟨mint, maxt⟩ := p
      obtain ⟨p1, p2, p3, p4⟩ := k1 _ hi
      simp only at p1 p2 p3 p4 ⊢
      have hrepr : Repr k.nodes k.assets.list 0 tr := by
        have := KdTree.C13_flatten_repr tr [] [] [] []
        simpa [e2, e3] using this
      have hsub : ∀ a ∈ tr.assets, a ∈ l := fun a ha => KdTree.C13_no_foreign_asset box sort hs pick _ _ _ a ha
      obtain ⟨s', h1, h2, h3⟩ := ftraverse_spec hr ho hb hg (fun a t => a ∈ l ∧ Want box r a t) (fun a t h => h)
        k.assets.list k.nodes k.nodes.length (⟨0, mint, maxt⟩, tr) [] (fltMax, none)
        ⟨hrepr, build_planesOk box sort hs pick r _ _ _ hb hg, hsub⟩ (by simp) p3 trivial
        ⟨by simpa using KdTree.C15_height_bound box sort pick 15 l scene, trivial⟩
        (by rw [e3, KdTree.flatten_length]; simp [ftodo])
        (Or.inl ⟨rfl, rfl⟩)
        (by
          rintro a t ⟨ha, hw⟩
          have := (p4 t).2 (spans a ha t hw)
          exact Or.inr ⟨_, List.mem_cons_self, this.1, this.2, build_placed box sort hs pick 15 l scene hflat a ha⟩)
      simp only [List.map_nil] at h1
      refine ⟨s'.2.map fun a => (s'.1, a), by rw [h1]; rfl, ?_, ?_⟩
      · intro t a hres
        rcases h2 with ⟨g1, g2⟩ | ⟨a', ha', g1, g2⟩
        · rw [g1] at hres; cases hres
        · rw [g1] at hres
          simp only [Option.map_some, Option.some.injEq, Prod.mk.injEq] at hres
          obtain ⟨rfl, rfl⟩ := hres
          exact ⟨ha', g2⟩
      · intro b hbl t' r1 ht' ⟨r2, v1, v2, v3⟩
        obtain ⟨t, hw⟩ := want_of_box hr (hb b hbl) (hg b hbl) v1 v2 v3
        have hd := h3 b t ⟨hbl, hw⟩ t' r1 r2 ht' v1
        rcases h2 with ⟨g1, g2⟩ | ⟨a', ha', g1, g2⟩
        · exfalso
          rw [g2] at hd
          rcases hd with hd | hd
          · rw [hmax b hbl t' ht'] at hd; cases hd
          · rw [v3] at hd; cases hd
        · exact ⟨s'.1, a', by rw [g1]; rfl, hd⟩

/-- **C152.** When no hit lies before the computed entry of the box of its asset, the traversal in binary32 returns the closest
of the hits of all visible assets. -/
theorem C152_closest_hit (box : A → Box ℚ) (sort : List (Cand ℚ A) → List (Cand ℚ A)) (hs : SortOk sort)
    (pick : List A → Box ℚ → (Fin 3 → List (Cand ℚ A)) → Option (Fin 3 × Nat)) (l : List A)
    (k : KdTree.Kd ℚ A) (hk : KdTree.construct box sort pick l = some k)
    (hb : ∀ a ∈ l, BoxOk (box a)) (hflat : ∀ a ∈ l, ∀ i, (box a).lo i < (box a).hi i)
    (r : FRay) (hr : RayOk r) (hg : ∀ a ∈ l, OffBox r (box a))
    (hit : A → Option F32) (isect : A → F32 → Option F32) (ho : FOracle hit isect l)
    (hmax : ∀ a ∈ l, ∀ t, hit a = some t → lt t fltMax = true)
    (hin : ∀ a ∈ l, ∀ t r1, hit a = some t → Visible box r a r1 → lt t r1 = false) :
    ∃ res, intersect box isect k.nodes.length k r = .ok res ∧
      (∀ t a, res = some (t, a) → a ∈ l ∧ hit a = some t) ∧
      ∀ b ∈ l, ∀ t' r1, hit b = some t' → Visible box r b r1 → ∃ t a, res = some (t, a) ∧ lt t' t = false := by
  obtain ⟨res, h1, h2, h3⟩ := C152_no_asset_lost box sort hs pick l k hk hb hflat r hr hg hit isect ho hmax
  refine ⟨res, h1, h2, ?_⟩
  intro b hbl t' r1 ht' hv
  obtain ⟨t, a, e, hd⟩ := h3 b hbl t' r1 ht' hv
  refine ⟨t, a, e, ?_⟩
  rcases hd with hd | hd
  · exact hd
  · obtain ⟨hal, hat⟩ := h2 t a e
    have hp := hin b hbl t' r1 ht' hv
    obtain ⟨r2, v1, v2, v3⟩ := hv
    obtain ⟨p1, -⟩ := (boxTest_spec hr (hb b hbl) (hg b hbl)).1 _ v1
    have q1 := pos_ne_nan (ho.pos b hbl t' ht').2
    have q2 := pos_ne_nan (ho.pos a hal t hat).2
    rw [lt_toE] at hd hp ⊢
    exact (EF.not_lt_iff q1 q2).2 (EF.le_trans' ((EF.not_lt_iff p1 q2).1 hd) ((EF.not_lt_iff q1 p1).1 hp))

/-! ### C151: the box test -/

theorem clip_some_of_spans {r : FRay} (h : RayOk r) {b : Box ℚ} (hb : BoxOk b) (hg : OffBox r b) {t : ℚ}
    (hs : ∀ i, Spans r b t i) : ∃ p, boxTest b r = some p ∧ Le (toE p.1) (.fin t) ∧ Le (.fin t) (toE p.2) := by
  obtain ⟨h1, h2⟩ := boxTest_spec h hb hg
  cases hc : boxTest b r with
  | none => exact absurd hs (h2 hc t)
  | some p => exact ⟨p, rfl, ((h1 p hc).2.2.2 t).2 hs⟩

/-- Some parameter lies in the interval returned for a box. -/
theorem exists_param {a b : EF ℚ} (ha : a ≠ .nan) (h : Le a b) (h1 : a ≠ .pinf) (h2 : b ≠ .ninf) :
    ∃ t : ℚ, Le a (.fin t) ∧ Le (.fin t) b := by
  unfold Le at *
  cases a with
  | nan => exact absurd rfl ha
  | pinf => exact absurd rfl h1
  | fin x => exact ⟨x, by simp [EF.le], h⟩
  | ninf =>
    cases b with
    | nan => cases h
    | ninf => exact absurd rfl h2
    | pinf => exact ⟨0, rfl, rfl⟩
    | fin y => exact ⟨y, rfl, by simp [EF.le]⟩

/-- **C151.** In binary32 a larger box is never rejected when a smaller one inside it is accepted (at finite
distances), and its interval is not shorter. -/
theorem C151_contains {r : FRay} (h : RayOk r) {b c : Box ℚ} (hb : BoxOk b) (hc : BoxOk c) (gb : OffBox r b)
    (gc : OffBox r c) (hin : ∀ i, c.lo i ≤ b.lo i ∧ b.hi i ≤ c.hi i) {p : F32 × F32} (hp : boxTest b r = some p)
    (h1 : toE p.1 ≠ .pinf) (h2 : toE p.2 ≠ .ninf) :
    ∃ q, boxTest c r = some q ∧ Le (toE q.1) (toE p.1) ∧ Le (toE p.2) (toE q.2) := by
  obtain ⟨p1, p2, p3, p4⟩ := (boxTest_spec h hb gb).1 p hp
  obtain ⟨t, ht⟩ := exists_param p1 p3 h1 h2
  have mono : ∀ t, (∀ i, Spans r b t i) → ∀ i, Spans r c t i := fun t hs i =>
    spans_mono h hb hc gb gc (hin i).1 (hin i).2 (hs i)
  obtain ⟨q, hq, -, -⟩ := clip_some_of_spans h hc gc (mono t ((p4 t).1 ht))
  obtain ⟨q1, q2, q3, q4⟩ := (boxTest_spec h hc gc).1 q hq
  have all : ∀ t, (Le (toE p.1) (.fin t) ∧ Le (.fin t) (toE p.2)) → (Le (toE q.1) (.fin t) ∧ Le (.fin t) (toE q.2)) :=
    fun t ht => (q4 t).2 (mono t ((p4 t).1 ht))
  refine ⟨q, hq, ?_, ?_⟩
  · cases e : toE p.1 with
    | nan => exact absurd e p1
    | pinf => exact absurd e h1
    | fin x => exact (all x ⟨by rw [e]; exact EF.le_self (by simp), by rw [← e]; exact p3⟩).1
    | ninf =>
      -- every parameter below `t` is in the interval
      cases e2 : toE q.1 with
      | nan => exact absurd e2 q1
      | ninf => rfl
      | pinf => have := (all t ht).1; rw [e2] at this; cases this
      | fin y =>
        have := (all (min t (y - 1)) ⟨by rw [e]; rfl, EF.le_trans' (b := .fin t) (by simp [Le, EF.le]) ht.2⟩).1
        rw [e2] at this
        simp only [Le, EF.le, decide_eq_true_eq] at this
        have := le_trans this (min_le_right _ _)
        linarith
  · cases e : toE p.2 with
    | nan => exact absurd e p2
    | ninf => exact absurd e h2
    | fin x => exact (all x ⟨by rw [← e]; exact p3, by rw [e]; exact EF.le_self (by simp)⟩).2
    | pinf =>
      cases e2 : toE q.2 with
      | nan => exact absurd e2 q2
      | pinf => rfl
      | ninf => have := (all t ht).2; rw [e2] at this; cases this
      | fin y =>
        have := (all (max t (y + 1)) ⟨EF.le_trans' (b := .fin t) ht.1 (by simp [Le, EF.le]), by rw [e]; rfl⟩).2
        rw [e2] at this
        simp only [Le, EF.le, decide_eq_true_eq] at this
        have := le_trans (le_max_right _ _) this
        linarith

/-- The part of a box below a plane. -/
def below (b : Box ℚ) (ax : Fin 3) (x : ℚ) : Box ℚ := ⟨b.lo, fun i => if i = ax then x else b.hi i⟩

/-- The part of a box above a plane. -/
def above (b : Box ℚ) (ax : Fin 3) (x : ℚ) : Box ℚ := ⟨fun i => if i = ax then x else b.lo i, b.hi⟩

/-- **C151.** Cutting a box leaves no gap in binary32: when a box is accepted (at finite distances), one of its two
parts is. -/
theorem C151_no_gap {r : FRay} (h : RayOk r) {b : Box ℚ} (hb : BoxOk b) (gb : OffBox r b) {ax : Fin 3} {x : ℚ} (hx : Rep x)
    (gx : Off r ax x) (hlo : b.lo ax ≤ x) (hhi : x ≤ b.hi ax) {p : F32 × F32} (hp : boxTest b r = some p)
    (h1 : toE p.1 ≠ .pinf) (h2 : toE p.2 ≠ .ninf) :
    (boxTest (below b ax x) r).isSome = true ∨ (boxTest (above b ax x) r).isSome = true := by
  obtain ⟨p1, p2, p3, p4⟩ := (boxTest_spec h hb gb).1 p hp
  obtain ⟨t, ht⟩ := exists_param p1 p3 h1 h2
  have hs := (p4 t).1 ht
  have okb : BoxOk (below b ax x) := by
    intro i
    refine ⟨(hb i).1, ?_, ?_⟩ <;> simp only [below] <;> split
    · exact hx
    · exact (hb i).2.1
    · rename_i e; rw [e]; exact hlo
    · exact (hb i).2.2
  have oka : BoxOk (above b ax x) := by
    intro i
    refine ⟨?_, (hb i).2.1, ?_⟩ <;> simp only [above] <;> split
    · exact hx
    · exact (hb i).1
    · rename_i e; rw [e]; exact hhi
    · exact (hb i).2.2
  have ob : OffBox r (below b ax x) := by
    intro i
    refine ⟨(gb i).1, ?_⟩
    simp only [below]; split
    · rename_i e; rw [e]; exact gx
    · exact (gb i).2
  have oa : OffBox r (above b ax x) := by
    intro i
    refine ⟨?_, (gb i).2⟩
    simp only [above]; split
    · rename_i e; rw [e]; exact gx
    · exact (gb i).1
  have sb : ∀ i, i ≠ ax → Spans r (below b ax x) t i := by
    intro i hi
    have := hs i
    unfold Spans slab at *
    simpa only [below, if_neg hi] using this
  have sa : ∀ i, i ≠ ax → Spans r (above b ax x) t i := by
    intro i hi
    have := hs i
    unfold Spans slab at *
    simpa only [above, if_neg hi] using this
  have fin : Spans r (below b ax x) t ax ∨ Spans r (above b ax x) t ax := by
    have := hs ax
    unfold Spans slab at *
    simp only [below, above, if_true] at *
    cases hn : r.isNeg ax
    · simp only [hn, Bool.false_eq_true, if_false] at *
      rcases EF.le_total' (plane_ne_nan h hx gx) t with hc | hc
      · exact Or.inr ⟨hc, this.2⟩
      · exact Or.inl ⟨this.1, hc⟩
    · simp only [hn, if_true] at *
      rcases EF.le_total' (plane_ne_nan h hx gx) t with hc | hc
      · exact Or.inl ⟨hc, this.2⟩
      · exact Or.inr ⟨this.1, hc⟩
  rcases fin with hf | hf
  · left
    obtain ⟨q, hq, -⟩ := clip_some_of_spans h okb ob (t := t)
      (fun i => if hi : i = ax then by rw [hi]; exact hf else sb i hi)
    rw [hq]; rfl
  · right
    obtain ⟨q, hq, -⟩ := clip_some_of_spans h oka oa (t := t)
      (fun i => if hi : i = ax then by rw [hi]; exact hf else sa i hi)
    rw [hq]; rfl

/-! #### Accuracy -/

theorem rnd32_rel {q : ℚ} (h : 2 ^ (-126 : ℤ) ≤ |q|) : ∃ e, |e| ≤ 1 / 2 ^ 24 ∧ rnd32 q = q * (1 + e) := by
  have hq : q ≠ 0 := by
    rintro rfl
    rw [abs_zero] at h
    exact absurd h (not_le.2 (two_zpow_pos _))
  refine ⟨(rnd32 q - q) / q, ?_, by field_simp; ring⟩
  rw [abs_div, div_le_iff₀ (abs_pos.2 hq)]
  refine le_trans (rnd32_err q) (max_le (by rw [mul_comm]) ?_)
  have e : (2 : ℚ) ^ (-150 : ℤ) = 1 / 2 ^ 24 * 2 ^ (-126 : ℤ) := by
    rw [show (-150 : ℤ) = -24 + -126 by norm_num, zpow_add₀ (by norm_num)]; norm_num
  rw [e]
  exact mul_le_mul_of_nonneg_left h (by norm_num)

theorem prod_rel {a b c : ℚ} (ha : |a| ≤ 1 / 2 ^ 24) (hb : |b| ≤ 1 / 2 ^ 24) (hc : |c| ≤ 1 / 2 ^ 24) :
    |(1 + a) * (1 + b) * (1 + c) - 1| ≤ 1 / 2 ^ 22 := by
  have e : (1 + a) * (1 + b) * (1 + c) - 1 = a + b + c + a * b + a * c + b * c + a * b * c := by ring
  rw [e]
  have m : ∀ x y : ℚ, |x| ≤ 1 / 2 ^ 24 → |y| ≤ 1 / 2 ^ 24 → |x * y| ≤ 1 / 2 ^ 48 := by
    intro x y hx hy
    rw [abs_mul]
    calc |x| * |y| ≤ 1 / 2 ^ 24 * (1 / 2 ^ 24) := mul_le_mul hx hy (abs_nonneg _) (by norm_num)
      _ = 1 / 2 ^ 48 := by norm_num
  have h1 := m a b ha hb
  have h2 := m a c ha hc
  have h3 := m b c hb hc
  have h4 := m (a * b) c (le_trans h1 (by norm_num)) hc
  rw [abs_le] at *
  constructor <;> norm_num at * <;> linarith [ha.1, ha.2, hb.1, hb.2, hc.1, hc.2, h1.1, h1.2, h2.1, h2.2, h3.1, h3.2, h4.1, h4.2]

/-- Nothing underflows or overflows on the way to the distance of the plane `x`. -/
def Fair (r : FRay) (i : Fin 3) (x : ℚ) : Prop :=
  2 ^ (-126 : ℤ) ≤ |(r.d i).val| ∧
    (x = (r.o i).val ∨ (2 ^ (-125 : ℤ) ≤ |x - (r.o i).val| ∧ |x - (r.o i).val| ≤ 2 ^ 126 * |(r.d i).val|))

theorem inv_fair {r : FRay} (h : RayOk r) {i : Fin 3} (hd : 2 ^ (-126 : ℤ) ≤ |(r.d i).val|) :
    ∃ v e, r.inv i = num v ∧ |e| ≤ 1 / 2 ^ 24 ∧ v = 1 / (r.d i).val * (1 + e) ∧ 5 / 8 ≤ |v| := by
  have hs := h.small i
  have hf := h.dir i
  unfold FRay.inv
  generalize r.d i = d at *
  have hv : d.val ≠ 0 := by
    intro h0; rw [h0, abs_zero] at hd; exact absurd hd (not_le.2 (two_zpow_pos _))
  cases d with
  | nan => exact hf.elim
  | inf s => exact hf.elim
  | zero s => exact absurd rfl hv
  | num q =>
    simp only [val] at *
    obtain ⟨s, e⟩ : ∃ s, div (num 1) (num q) = F32.round s (1 / q) := ⟨_, by simp [div, isZero, val]; rfl⟩
    have hq : 0 < |q| := abs_pos.2 hv
    have e58 : rnd32 (5 / 8) = 5 / 8 := by
      have := rnd32_rep 5 (-3) (by norm_num) (by norm_num)
      norm_num at this; exact this
    have habs : |rnd32 (1 / q)| = rnd32 (1 / |q|) := by
      rcases lt_or_gt_of_ne hv with hn | hn
      · have e3 : (1 : ℚ) / |q| = -(1 / q) := by rw [abs_of_neg hn]; field_simp
        rw [e3, rnd32_neg, abs_of_nonpos]
        have := rnd32_nonneg (q := 1 / |q|) (by positivity)
        rw [e3, rnd32_neg] at this; linarith
      · rw [abs_of_pos hn]
        exact abs_of_nonneg (rnd32_nonneg (by positivity))
    have lo : (5 / 8 : ℚ) ≤ |rnd32 (1 / q)| := by
      rw [habs, ← e58]
      exact rnd32_mono (by rw [le_div_iff₀ hq]; linarith)
    have hi : |rnd32 (1 / q)| ≤ 2 ^ (126 : ℤ) := by
      rw [habs]
      refine rnd32_lt (by norm_num) ?_
      rw [div_le_iff₀ hq]
      calc (1 : ℚ) = 2 ^ (126 : ℤ) * 2 ^ (-126 : ℤ) := by rw [← zpow_add₀ (by norm_num)]; norm_num
        _ ≤ 2 ^ (126 : ℤ) * |q| := mul_le_mul_of_nonneg_left hd (by positivity)
    obtain ⟨α, h1, h2⟩ := rnd32_rel (q := 1 / q) (by
      rw [abs_div, abs_one]
      refine le_trans (b := (1 / 2 : ℚ)) ?_ (by rw [le_div_iff₀ hq]; linarith)
      have : (2 : ℚ) ^ (-126 : ℤ) ≤ 2 ^ (-1 : ℤ) := zpow_le_zpow_right₀ (by norm_num) (by norm_num)
      norm_num at this ⊢)
    refine ⟨rnd32 (1 / q), α, ?_, h1, h2, lo⟩
    rw [e]
    refine round_num (fun h0 => ?_) (lt_of_le_of_lt hi (by norm_num))
    rw [h0] at lo; norm_num at lo

/-- The computed distance of a plane is the exact distance of a plane moved by at most 2^-22 of its distance from
the origin. -/
theorem plane_backward {r : FRay} (h : RayOk r) {i : Fin 3} {x : ℚ} (hf : Fair r i x) :
    ∃ p, toE (r.plane i x) = .fin p ∧ |(r.o i).val + p * (r.d i).val - x| ≤ |x - (r.o i).val| * (1 / 2 ^ 22) := by
  obtain ⟨hd, hx⟩ := hf
  obtain ⟨v, β, e1, e2, e3, e4⟩ := inv_fair h hd
  have hv : (r.d i).val ≠ 0 := by
    intro h0; rw [h0, abs_zero] at hd; exact absurd hd (not_le.2 (two_zpow_pos _))
  rw [plane_toE h, e1]
  rcases hx with hx | ⟨l1, l2⟩
  · rw [hx, sub_self, kr_zero]
    refine ⟨0, ?_, by simp⟩
    simp only [mulR, zero_mul]; exact kr_zero
  · set y := x - (r.o i).val with hy
    have big : ∀ q : ℚ, |q| ≤ 2 ^ 127 → kr q = .fin (rnd32 q) := by
      intro q hq
      rw [abs_le] at hq
      have b1 := rnd32_lt (q := q) (k := 127) (by norm_num) (by exact_mod_cast hq.2)
      have b2 := rnd32_lt (q := -q) (k := 127) (by norm_num) (by have := hq.1; norm_num at this ⊢; linarith)
      rw [rnd32_neg] at b2
      unfold kr
      rw [if_neg (by norm_num at b1 ⊢; linarith), if_neg (by norm_num at b2 ⊢; linarith)]
    have hsm := h.small i
    have hy1 : |y| ≤ 2 ^ 127 := by
      refine le_trans l2 ?_
      calc (2 : ℚ) ^ 126 * |(r.d i).val| ≤ 2 ^ 126 * (3 / 2) := mul_le_mul_of_nonneg_left hsm (by positivity)
        _ ≤ 2 ^ 127 := by norm_num
    have t125 : (2 : ℚ) ^ (-126 : ℤ) ≤ 2 ^ (-125 : ℤ) := zpow_le_zpow_right₀ (by norm_num) (by norm_num)
    obtain ⟨α, a1, a2⟩ := rnd32_rel (le_trans t125 l1)
    have hs : (2 : ℚ) ^ (-125 : ℤ) ≤ |rnd32 y| := by
      rcases le_abs.1 l1 with hc | hc
      · exact le_trans (le_rnd32 (by norm_num) hc) (le_abs_self _)
      · have := le_rnd32 (by norm_num) hc
        rw [rnd32_neg] at this
        exact le_trans this (neg_le_abs _)
    have hprod : (2 : ℚ) ^ (-126 : ℤ) ≤ |rnd32 y * v| := by
      rw [abs_mul]
      have e : (2 : ℚ) ^ (-126 : ℤ) = 2 ^ (-125 : ℤ) * (1 / 2) := by
        rw [show (-126 : ℤ) = -125 + -1 by norm_num, zpow_add₀ (by norm_num)]; norm_num
      rw [e]
      exact mul_le_mul hs (by linarith) (by norm_num) (abs_nonneg _)
    have hval : rnd32 y * v = y / (r.d i).val * ((1 + α) * (1 + β)) := by
      rw [a2, e3]; field_simp
    have hup : |rnd32 y * v| ≤ 2 ^ 127 := by
      rw [hval, abs_mul]
      have q1 : |y / (r.d i).val| ≤ 2 ^ 126 := by
        rw [abs_div, div_le_iff₀ (abs_pos.2 hv)]; exact l2
      have q2 : |(1 + α) * (1 + β)| ≤ 2 := by
        rw [abs_mul]
        have b1 : |1 + α| ≤ 5 / 4 := by rw [abs_le] at *; norm_num at *; constructor <;> linarith [a1.1, a1.2]
        have b2 : |1 + β| ≤ 5 / 4 := by rw [abs_le] at *; norm_num at *; constructor <;> linarith [e2.1, e2.2]
        calc |1 + α| * |1 + β| ≤ 5 / 4 * (5 / 4) := mul_le_mul b1 b2 (abs_nonneg _) (by norm_num)
          _ ≤ 2 := by norm_num
      calc |y / (r.d i).val| * |(1 + α) * (1 + β)| ≤ 2 ^ 126 * 2 := mul_le_mul q1 q2 (abs_nonneg _) (by positivity)
        _ = 2 ^ 127 := by norm_num
    obtain ⟨γ, c1, c2⟩ := rnd32_rel hprod
    refine ⟨rnd32 (rnd32 y * v), ?_, ?_⟩
    · rw [big y hy1]
      simp only [mulR]
      exact big _ hup
    · have e : (r.o i).val + rnd32 (rnd32 y * v) * (r.d i).val - x = y * ((1 + α) * (1 + β) * (1 + γ) - 1) := by
        rw [c2, hval]; field_simp; rw [hy]; ring
      rw [e, abs_mul]
      exact mul_le_mul_of_nonneg_left (prod_rel a1 e2 c1) (abs_nonneg _)

/-- A box whose faces are those of `b` moved by at most 2^-22 of their distance from the origin. -/
def Near (r : FRay) (b b' : Box ℚ) : Prop := ∀ i,
  |b'.lo i - b.lo i| ≤ |b.lo i - (r.o i).val| * (1 / 2 ^ 22) ∧ |b'.hi i - b.hi i| ≤ |b.hi i - (r.o i).val| * (1 / 2 ^ 22)

/-- The ray with the exact values of its floats. -/
def FRay.exact (r : FRay) : Ray ℚ := ⟨fun i => (r.o i).val, fun i => (r.d i).val⟩

/-- **C151.** The box test in binary32 is the exact test of a slightly different box: the parameters it returns are
exactly those at which the ray is in the other box, and it rejects exactly when the ray misses that box.  (No
direction component is zero, and nothing underflows or overflows.) -/
theorem C151_backward {r : FRay} (h : RayOk r) {b : Box ℚ} (hb : BoxOk b)
    (hf : ∀ i, Fair r i (b.lo i) ∧ Fair r i (b.hi i)) :
    ∃ b', Near r b b' ∧ AABB.NonEmpty b' ∧
      (∀ p, boxTest b r = some p → ∀ t : ℚ, Mem b' (r.exact.at t) ↔ (Le (toE p.1) (.fin t) ∧ Le (.fin t) (toE p.2))) ∧
      (boxTest b r = none → ∀ t : ℚ, ¬ Mem b' (r.exact.at t)) := by
  have hg : OffBox r b := by
    intro i
    obtain ⟨v, -, e, -⟩ := inv_fair h (hf i).1.1
    constructor <;> intro hc <;> rw [e] at hc <;> cases hc
  choose pl pl1 pl2 using fun i => plane_backward h (hf i).1
  choose ph ph1 ph2 using fun i => plane_backward h (hf i).2
  have hd : ∀ i, (r.d i).val ≠ 0 := by
    intro i h0
    have := (hf i).1.1
    rw [h0, abs_zero] at this; exact absurd this (not_le.2 (two_zpow_pos _))
  have hneg : ∀ i, r.isNeg i = decide ((r.d i).val < 0) := by
    intro i
    obtain ⟨-, i2, i3, -⟩ := inv_inverse h i
    obtain ⟨v, -, e, -⟩ := inv_fair h (hf i).1.1
    by_cases hc : (r.d i).val < 0
    · rw [i3 hc]; simp [hc]
    · cases hn : r.isNeg i
      · simp [hc]
      · rcases i2 hn with h1 | h1
        · exact absurd h1 hc
        · rw [e] at h1; cases h1
  have hspan : ∀ t i, Spans r b t i ↔ ((r.o i).val + pl i * (r.d i).val ≤ (r.o i).val + t * (r.d i).val ∧
      (r.o i).val + t * (r.d i).val ≤ (r.o i).val + ph i * (r.d i).val) := by
    intro t i
    unfold Spans slab
    rw [hneg i]
    by_cases hc : (r.d i).val < 0
    · simp only [hc, decide_true, if_true, pl1, ph1, Le, EF.le, decide_eq_true_eq, add_le_add_iff_left]
      rw [mul_le_mul_right_of_neg hc, mul_le_mul_right_of_neg hc]
      exact and_comm
    · have hp : 0 < (r.d i).val := lt_of_le_of_ne (not_lt.1 hc) (Ne.symm (hd i))
      simp only [hc, decide_false, Bool.false_eq_true, if_false, pl1, ph1, Le, EF.le, decide_eq_true_eq,
        add_le_add_iff_left]
      rw [mul_le_mul_iff_left₀ hp, mul_le_mul_iff_left₀ hp]
  obtain ⟨s1, s2⟩ := boxTest_spec h hb hg
  refine ⟨⟨fun i => (r.o i).val + pl i * (r.d i).val, fun i => (r.o i).val + ph i * (r.d i).val⟩,
    fun i => ⟨pl2 i, ph2 i⟩, ?_, ?_, ?_⟩
  · intro i
    have m := plane_mono h (hb i).1 (hb i).2.1 (hg i).1 (hg i).2 (hb i).2.2
    rw [hneg i, pl1, ph1] at m
    simp only [add_le_add_iff_left]
    by_cases hc : (r.d i).val < 0
    · have := m.2 (by simp [hc])
      simp only [Le, EF.le, decide_eq_true_eq] at this
      exact (mul_le_mul_right_of_neg hc).2 this
    · have := m.1 (by simp [hc])
      simp only [Le, EF.le, decide_eq_true_eq] at this
      exact mul_le_mul_of_nonneg_right this (not_lt.1 hc)
  · intro p hp t
    rw [(s1 p hp).2.2.2 t]
    exact forall_congr' fun i => (hspan t i).symm
  · intro hn t hm
    exact s2 hn t fun i => (hspan t i).2 (hm i)

/-- **C151.** What the box test in binary32 can be trusted with: a ray that passes through the box at a parameter `t` with a
margin of 2^-22 of the distance of each face is accepted, with `t` in the interval; and every parameter of an accepted interval
is inside the box up to that margin. -/
theorem C151_margin_partial {r : FRay} (h : RayOk r) {b : Box ℚ} (hb : BoxOk b)
    (hf : ∀ i, Fair r i (b.lo i) ∧ Fair r i (b.hi i)) (t : ℚ) :
    ((∀ i, b.lo i + |b.lo i - (r.o i).val| * (1 / 2 ^ 22) ≤ r.exact.at t i ∧
        r.exact.at t i ≤ b.hi i - |b.hi i - (r.o i).val| * (1 / 2 ^ 22)) →
      ∃ p, boxTest b r = some p ∧ Le (toE p.1) (.fin t) ∧ Le (.fin t) (toE p.2)) ∧
    (∀ p, boxTest b r = some p → Le (toE p.1) (.fin t) → Le (.fin t) (toE p.2) →
      ∀ i, b.lo i - |b.lo i - (r.o i).val| * (1 / 2 ^ 22) ≤ r.exact.at t i ∧
        r.exact.at t i ≤ b.hi i + |b.hi i - (r.o i).val| * (1 / 2 ^ 22)) := by
  obtain ⟨b', hn, -, h1, h2⟩ := C151_backward h hb hf
  constructor
  · intro hin
    have hm : Mem b' (r.exact.at t) := by
      intro i
      obtain ⟨n1, n2⟩ := hn i
      rw [abs_le] at n1 n2
      exact ⟨by linarith [(hin i).1, n1.2], by linarith [(hin i).2, n2.1]⟩
    cases hc : boxTest b r with
    | none => exact absurd hm (h2 hc t)
    | some p => exact ⟨p, rfl, (h1 p hc t).1 hm⟩
  · intro p hp l1 l2 i
    have hm := (h1 p hp t).2 ⟨l1, l2⟩ i
    obtain ⟨n1, n2⟩ := hn i
    rw [abs_le] at n1 n2
    exact ⟨by linarith [hm.1, n1.1], by linarith [hm.2, n2.2]⟩

/-! ### Witnesses and examples -/

/-- Full statement of C151: a ray that meets a box is accepted. -/
def C151_statement : Prop := ∀ (r : FRay) (b : Box ℚ), RayOk r → BoxOk b →
  (∀ i, Fair r i (b.lo i) ∧ Fair r i (b.hi i)) → (∃ t : ℚ, 0 < t ∧ Mem b (r.exact.at t)) → (boxTest b r).isSome = true

/-- A ray from the origin with direction about (0.76, 0.65, 0.001). -/
def edgeRay : FRay := ⟨fun _ => zero false, fun i =>
  if i = 0 then num (3187671 / 4194304) else if i = 1 then num (2725975 / 4194304) else num (1 / 1024)⟩

/-- A box that the ray crosses close to an edge. -/
def edgeBox : Box ℚ := ⟨fun i => if i = 0 then 4 else if i = 1 then 8967023 / 2097152 else -1,
  fun i => if i = 0 then 5 else if i = 1 then 5 else 1⟩

theorem edgeRay_ok : RayOk edgeRay where
  origin := fun _ => trivial
  originOk := fun _ => trivial
  dir := by intro i; fin_cases i <;> trivial
  dirOk := by
    intro i
    fin_cases i
    · exact ⟨by norm_num, by decide +kernel, by rw [abs_of_pos (by norm_num)]; norm_num⟩
    · exact ⟨by norm_num, by decide +kernel, by rw [abs_of_pos (by norm_num)]; norm_num⟩
    · exact ⟨by norm_num, by decide +kernel, by rw [abs_of_pos (by norm_num)]; norm_num⟩
  small := by
    intro i
    fin_cases i <;> norm_num [edgeRay, val, abs_of_pos]

theorem edgeBox_ok : BoxOk edgeBox := by
  intro i
  fin_cases i
  · exact ⟨by unfold Rep; decide +kernel, by unfold Rep; decide +kernel, by simp [edgeBox]; norm_num⟩
  · exact ⟨by unfold Rep; decide +kernel, by unfold Rep; decide +kernel, by simp [edgeBox]; norm_num⟩
  · exact ⟨by unfold Rep; decide +kernel, by unfold Rep; decide +kernel, by simp [edgeBox]⟩

theorem edge_fair (i : Fin 3) : Fair edgeRay i (edgeBox.lo i) ∧ Fair edgeRay i (edgeBox.hi i) := by
  fin_cases i <;> simp [Fair, edgeRay, edgeBox, val] <;> norm_num [abs_of_pos]

/-- **C151 is violated**: a ray crosses the box near an edge, over a stretch of positive length, and the test rejects the
box, because the rounded distance of the face through which it leaves is smaller than that of the face through which
it enters. -/
theorem C151_violated_edge : ¬ C151_statement := by
  intro h
  have hs := h edgeRay edgeBox edgeRay_ok edgeBox_ok edge_fair ⟨5 * 4194304 / 3187671, by norm_num, by
    intro i
    fin_cases i <;> norm_num [edgeRay, edgeBox, FRay.exact, Ray.at, val]⟩
  have hn : boxTest edgeBox edgeRay = none := by decide +kernel
  rw [hn] at hs
  cases hs

/-- The ray is inside the box over an interval of parameters. -/
example : (8967023 / 2097152 / (2725975 / 4194304) : ℚ) < 5 / (3187671 / 4194304) := by norm_num

/-- A ray that lies in the plane of the face of a box through which it would enter on the first axis: the direction has
a zero there, and the origin has the coordinate of the face. -/
def InFace (r : FRay) (b : Box ℚ) : Prop :=
  (r.d 0 = zero false ∧ (r.o 0).Finite ∧ (r.o 0).val = b.lo 0) ∨ (r.d 0 = zero true ∧ (r.o 0).Finite ∧ (r.o 0).val = b.hi 0)

theorem sub_self_ofQ {x : F32} (h : x.Finite) : (sub (ofQ x.val) x).isZero = true := by
  cases x with
  | zero s => cases s <;> decide +kernel
  | num q =>
    show (sub (ofQ q) (num q)).isZero = true
    unfold ofQ sub neg
    by_cases hq : q = 0
    · subst hq; decide +kernel
    · rw [if_neg hq]; simp [add, val, F32.round, isZero]
  | _ => exact h.elim

theorem entry_nan {r : FRay} {b : Box ℚ} (h : InFace r b) : (slab b r 0).1 = nan := by
  have key : ∀ t x, x = (r.o 0).val → (r.o 0).Finite → mul (sub (ofQ x) (r.o 0)) (inf t) = nan := by
    intro t x hx hf
    subst hx
    have := sub_self_ofQ hf
    cases hs : sub (ofQ (r.o 0).val) (r.o 0) with
    | zero s => rfl
    | _ => rw [hs] at this; cases this
  rcases h with ⟨hd, hf, ho⟩ | ⟨hd, hf, ho⟩
  · have hi : r.inv 0 = inf false := by unfold FRay.inv; rw [hd]; decide +kernel
    unfold slab FRay.isNeg FRay.plane
    rw [hi, if_neg (by decide)]
    exact key _ _ ho.symm hf
  · have hi : r.inv 0 = inf true := by unfold FRay.inv; rw [hd]; decide +kernel
    unfold slab FRay.isNeg FRay.plane
    rw [hi, if_pos (by decide)]
    exact key _ _ ho.symm hf

/-- **C151, C152 are violated** for rays in the plane of a face of the first axis: the entry distance is 0·∞ = NaN, it stays
NaN, and the comparison with the closest distance fails: the asset is never tested, although the ray may run along its
surface and the box test itself answers that the box is hit. -/
theorem C151_violated_face (box : A → Box ℚ) (r : FRay) (isect : A → F32 → Option F32) (a : A) (l : List A)
    (s : F32 × Option A) (h : InFace r (box a)) :
    (∀ p, boxTest (box a) r = some p → p.1 = nan) ∧ leafLoop box r isect (a :: l) s = leafLoop box r isect l s := by
  have nl : ∀ x, lt nan x = false := fun x => by cases x <;> rfl
  have cl : ∀ c q p, c.1 = nan → clip c q = some p → p.1 = nan := by
    intro c q p hc hp
    unfold clip at hp
    split at hp
    · cases hp
    · cases hp
      simp only [hc, nl, Bool.false_eq_true, if_false]
  have key : ∀ p, boxTest (box a) r = some p → p.1 = nan := by
    intro p hp
    unfold boxTest at hp
    obtain ⟨c, h1, h2⟩ := Option.bind_eq_some_iff.1 hp
    exact cl _ _ _ (cl _ _ _ (entry_nan h) h1) h2
  refine ⟨key, ?_⟩
  rw [leafLoop]
  cases hb : boxTest (box a) r with
  | none => rfl
  | some p =>
    have := key p hb
    obtain ⟨p1, p2⟩ := p
    simp only at this
    subst this
    simp [nl]

/-- A ray along the left side of a cube: the box test answers yes. -/
example : InFace ⟨fun i => if i = 2 then num (-3) else zero false, fun i => if i = 2 then num 1 else zero false⟩
      ⟨fun i => if i = 0 then 0 else -1, fun _ => 1⟩ ∧
    (boxTest ⟨fun i => if i = 0 then 0 else -1, fun _ => 1⟩
      ⟨fun i => if i = 2 then num (-3) else zero false, fun i => if i = 2 then num 1 else zero false⟩).isSome = true :=
  ⟨Or.inl ⟨rfl, trivial, rfl⟩, by decide +kernel⟩

/-- Direction of the diagonal, normalised in binary32. -/
def diagRay : FRay := ⟨fun _ => zero false, fun _ => num (9686330 / 2 ^ 24)⟩

theorem diagRay_ok : RayOk diagRay where
  origin := fun _ => trivial
  originOk := fun _ => trivial
  dir := fun _ => trivial
  dirOk := fun _ => ⟨by norm_num, by decide +kernel, by rw [abs_of_pos (by norm_num)]; norm_num⟩
  small := fun _ => by simp [diagRay, val]; rw [abs_of_pos (by norm_num)]; norm_num

/-- Hits of the assets of the example. -/
def exHitF (n : Nat) : Option F32 := some (num (4 * n + 4))

/-- Intersection routine of the example. -/
def exIsectF (n : Nat) (v : F32) : Option F32 := if lt (num (4 * n + 4)) v then some (num (4 * n + 4)) else none

theorem exNum_ok (n : Nat) (h : n ≤ 4) : (num (4 * n + 4)).Ok ∧ Rep (2 * n + 1) ∧ Rep (2 * n + 2) := by
  have hr : ∀ m : ℤ, |m| ≤ 2 ^ 24 → rnd32 m = m := by
    intro m hm
    have := rnd32_rep m 0 hm (by norm_num)
    simpa using this
  have h1 : ((n : ℤ)) ≤ 4 := by exact_mod_cast h
  have h2 : (n : ℚ) ≤ 4 := by exact_mod_cast h
  have h3 : (0 : ℚ) ≤ n := by positivity
  have e1 := hr (4 * n + 4) (by rw [abs_of_nonneg (by positivity)]; norm_num; linarith)
  have e2 := hr (2 * n + 1) (by rw [abs_of_nonneg (by positivity)]; norm_num; linarith)
  have e3 := hr (2 * n + 2) (by rw [abs_of_nonneg (by positivity)]; norm_num; linarith)
  push_cast at e1 e2 e3
  refine ⟨⟨by positivity, e1, ?_⟩, e2, e3⟩
  rw [abs_of_pos (by positivity)]
  norm_num; linarith

theorem exOracleF (l : List Nat) (hl : ∀ n ∈ l, n ≤ 4) : FOracle exHitF exIsectF l where
  sound := by
    intro a _ v t h
    unfold exIsectF at h
    split at h
    · rename_i hlt
      cases h
      refine ⟨rfl, ?_⟩
      rw [lt_toE] at *
      by_contra hc
      rw [Bool.not_eq_false] at hc
      exact EF.lt_not_le hlt (EF.lt_le hc)
    · cases h
  complete := by
    intro a _ v t h hlt
    cases h
    simp [exIsectF, hlt]
  pos := by
    intro a ha t h
    cases h
    refine ⟨(exNum_ok a (hl a ha)).1, decide_eq_true ?_⟩
    simp only [val]; positivity

/-- Non-vacuity of C152: five cubes along the diagonal, the split heuristic of the code, a normalised direction. -/
example : (KdTree.construct KdTree.exBox KdTree.isort KdTree.sahPick [3, 1, 4, 0, 2]).isSome = true ∧
    SortOk KdTree.isort ∧ (∀ a ∈ [3, 1, 4, 0, 2], BoxOk (KdTree.exBox a)) ∧
    (∀ a ∈ [3, 1, 4, 0, 2], ∀ i, (KdTree.exBox a).lo i < (KdTree.exBox a).hi i) ∧ RayOk diagRay ∧
    (∀ a ∈ [3, 1, 4, 0, 2], OffBox diagRay (KdTree.exBox a)) ∧ FOracle exHitF exIsectF [3, 1, 4, 0, 2] ∧
    (∀ a ∈ [3, 1, 4, 0, 2], ∀ t, exHitF a = some t → lt t fltMax = true) ∧
    (∀ a ∈ [3, 1, 4, 0, 2], ∃ r1, Visible KdTree.exBox diagRay a r1) ∧
    ∀ a ∈ [3, 1, 4, 0, 2], ∀ t r1, exHitF a = some t → Visible KdTree.exBox diagRay a r1 → lt t r1 = false := by
  have hl : ∀ n ∈ [3, 1, 4, 0, 2], n ≤ 4 := by decide
  have hv : ∀ a ∈ [3, 1, 4, 0, 2], ((boxTest (KdTree.exBox a) diagRay).map fun p =>
      lt (zero false) p.2 && lt p.1 fltMax && !lt (num (4 * a + 4)) p.1) = some true := by decide +kernel
  refine ⟨by decide +kernel, KdTree.isort_ok, ?_, ?_, diagRay_ok, ?_, exOracleF _ hl, ?_, ?_, ?_⟩
  · intro a ha i
    obtain ⟨-, h1, h2⟩ := exNum_ok a (hl a ha)
    exact ⟨h1, h2, by simp only [KdTree.exBox]; linarith⟩
  · intro a _ i; simp only [KdTree.exBox]; linarith
  · have hi : ∀ i, (diagRay.inv i).isInf = false := by decide +kernel
    intro a _ i
    constructor <;> intro hc <;> rw [hi i] at hc <;> cases hc
  · intro a ha t ht
    cases ht
    have : (a : ℚ) ≤ 4 := by exact_mod_cast hl a ha
    exact decide_eq_true (by simp only [val, fltMax]; norm_num; linarith)
  · intro a ha
    have := hv a ha
    cases hb : boxTest (KdTree.exBox a) diagRay with
    | none => rw [hb] at this; cases this
    | some p =>
      rw [hb] at this
      simp only [Option.map_some, Option.some.injEq, Bool.and_eq_true] at this
      exact ⟨p.1, p.2, hb, this.1.1, this.1.2⟩
  · rintro a ha t r1 ht ⟨r2, h1, -, -⟩
    cases ht
    have := hv a ha
    rw [h1] at this
    simp only [Option.map_some, Option.some.injEq, Bool.and_eq_true, Bool.not_eq_true'] at this
    exact this.2

/-- The query of the example returns the hit of cube 0. -/
example : ((KdTree.construct KdTree.exBox KdTree.isort KdTree.sahPick [3, 1, 4, 0, 2]).map fun k =>
    (intersect KdTree.exBox exIsectF k.nodes.length k diagRay).toOption) = some (some (some (num 4, 0))) := by
  decide +kernel

/-- Non-vacuity of C151: an accepted box, its cut, a larger box, and no underflow. -/
example : RayOk diagRay ∧ BoxOk (KdTree.exBox 1) ∧ (∀ i, Fair diagRay i ((KdTree.exBox 1).lo i) ∧ Fair diagRay i ((KdTree.exBox 1).hi i)) ∧
    (boxTest (KdTree.exBox 1) diagRay).isSome = true ∧ Rep (7 / 2) := by
  refine ⟨diagRay_ok, ?_, ?_, by decide +kernel, by unfold Rep; decide +kernel⟩
  · intro i
    obtain ⟨-, h1, h2⟩ := exNum_ok 1 (by norm_num)
    exact ⟨h1, h2, by simp only [KdTree.exBox]; norm_num⟩
  · intro i
    simp [Fair, diagRay, KdTree.exBox, val]; norm_num [abs_of_pos]

end Spectre.FTree
