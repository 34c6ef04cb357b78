import Verif.Model.Compare
import Verif.Props.FloatTriangle

/-
Property C167: comparisons of vectors, points, normals and matrices, and their bounds, in binary32.
-/

namespace Spectre.Compare

open F32

/-! ### One member -/

/-- Not a number because of an argument, or a difference of equal infinities. -/
def Undefined (a b : F32) : Prop := a = nan ∨ b = nan ∨ ∃ s, a = inf s ∧ b = inf s

theorem round_ne_nan (s : Bool) (q : ℚ) : F32.round s q ≠ nan := by
  unfold F32.round
  split_ifs <;> simp

theorem sub_nan_iff (a b : F32) : F32.sub a b = nan ↔ Undefined a b := by
  unfold Undefined
  have r := round_ne_nan
  unfold F32.sub
  cases a <;> cases b <;> simp [F32.add, neg, r]
  case inf.inf s t => cases s <;> cases t <;> simp

theorem lt_fin {a b : F32} (ha : a.Finite) (hb : b.Finite) : F32.lt a b = true ↔ a.val < b.val := by
  rw [lt_finite ha hb]
  exact decide_eq_true_iff

theorem le_fin {a b : F32} (ha : a.Finite) (hb : b.Finite) : le a b = true ↔ a.val ≤ b.val := by
  have he : F32.eq a b = true ↔ a.val = b.val := by
    cases a <;> cases b <;> first | exact ha.elim | exact hb.elim | simp [F32.eq]
  unfold le
  rw [Bool.or_eq_true, lt_fin ha hb, he]
  exact le_iff_lt_or_eq.symm

theorem near_far {e x : F32} (he : e.Finite) : F32.lt e x = !(le x e) ↔ x ≠ nan := by
  have key : x.Finite → F32.lt e x = !(le x e) := fun hx => by
    have h1 := lt_fin he hx
    have h2 := le_fin hx he
    cases hl : le x e with
    | true => exact Bool.eq_false_iff.2 fun h => absurd (h1.1 h) (not_lt.2 (h2.1 hl))
    | false => exact h1.2 (not_le.1 fun h => by rw [h2.2 h] at hl; simp at hl)
  cases x with
  | nan => cases e <;> simp [le, F32.lt, F32.eq]
  | inf s => cases e <;> cases s <;> first | exact he.elim | simp [le, F32.lt, F32.eq]
  | zero s => simpa using key trivial
  | num q => simpa using key trivial

theorem abs_nan_iff (a : F32) : F32.abs a = nan ↔ a = nan := by cases a <;> simp [F32.abs]

theorem far_iff {e : F32} (he : e.Finite) (a b : F32) : far e a b = !(near e a b) ↔ ¬ Undefined a b := by
  unfold far near
  rw [near_far he, ne_eq, abs_nan_iff, sub_nan_iff]

/-- Where a difference is not a number, both comparisons are false. -/
theorem undefined_false {e a b : F32} (h : Undefined a b) : near e a b = false ∧ far e a b = false := by
  have := (sub_nan_iff a b).2 h
  unfold near far
  rw [this]
  cases e <;> simp [F32.abs, le, F32.lt, F32.eq]

theorem fltEps_finite : fltEps.Finite := trivial

theorem eps_round : epsilon = num (rnd32 (1 / 100000)) := round_num (by decide +kernel) (by decide +kernel)

theorem epsilon_finite : epsilon.Finite := by rw [eps_round]; trivial

/-! ### Equal and not equal -/

/-- The members at the same places. -/
def Pairs (P : F32 → F32 → Prop) : List F32 → List F32 → Prop
  | a :: l, b :: r => P a b ∧ Pairs P l r
  | _, _ => True

theorem vecEq_iff (a b : List F32) : vecEq a b = true ↔ Pairs (fun x y => near fltEps x y = true) a b := by
  induction a generalizing b with
  | nil => simp [vecEq, Pairs]
  | cons x l ih => cases b <;> simp [vecEq, Pairs, ih]

/-- **C167, inequality.**  `!=` of vectors and points is the negation of `==` if no difference of members is undefined. -/
theorem C167_negation_partial (a b : List F32) (h : Pairs (fun x y => ¬ Undefined x y) a b) : vecNe a b = !vecEq a b := by
  induction a generalizing b with
  | nil => simp [vecEq, vecNe]
  | cons x l ih =>
    cases b with
    | nil => simp [vecEq, vecNe]
    | cons y r =>
      simp only [vecEq, vecNe, Bool.not_and]
      rw [ih r h.2, (far_iff fltEps_finite x y).2 h.1]

/-- **C167, inequality, exactly.**  They are both false if a difference is undefined and all others are small. -/
theorem C167_negation (a b : List F32) : vecNe a b = vecEq a b ↔
    Pairs (fun x y => near fltEps x y = true ∨ Undefined x y) a b ∧ ¬ Pairs (fun x y => ¬ Undefined x y) a b := by
  have key : ∀ a b : List F32, vecNe a b = false ↔ Pairs (fun x y => near fltEps x y = true ∨ Undefined x y) a b := by
    intro a
    induction a with
    | nil => intro b; simp [vecNe, Pairs]
    | cons x l ih =>
      intro b
      cases b with
      | nil => simp [vecNe, Pairs]
      | cons y r =>
        simp only [vecNe, Pairs, Bool.or_eq_false_iff, ih]
        refine and_congr_left fun _ => ?_
        by_cases hu : Undefined x y
        · simp [undefined_false hu, hu]
        · rw [(far_iff fltEps_finite x y).2 hu]
          simp [hu]
  have key2 : ∀ a b : List F32, vecEq a b = true → Pairs (fun x y => ¬ Undefined x y) a b := by
    intro a
    induction a with
    | nil => intro b _; simp [Pairs]
    | cons x l ih =>
      intro b
      cases b with
      | nil => simp [Pairs]
      | cons y r =>
        simp only [vecEq, Bool.and_eq_true, Pairs]
        exact fun h => ⟨fun hu => by rw [(undefined_false hu).1] at h; exact absurd h.1 (by simp), ih r h.2⟩
  constructor
  · intro h
    cases hc : vecEq a b with
    | true =>
      have := C167_negation_partial a b (key2 a b hc)
      rw [h, hc] at this
      exact absurd this (by simp)
    | false =>
      rw [hc] at h
      refine ⟨(key a b).1 h, fun hn => ?_⟩
      have := C167_negation_partial a b hn
      rw [h, hc] at this
      exact absurd this (by simp)
  · rintro ⟨h1, h2⟩
    rw [(key a b).2 h1]
    cases hc : vecEq a b with
    | true => exact absurd (key2 a b hc) h2
    | false => rfl

/-- **C167, normals and matrices.**  There the two operators are always opposite. -/
theorem C167_normal (a b : List F32) : normalNe a b = !normalEq a b := by
  induction a generalizing b with
  | nil => simp [normalEq, normalNe]
  | cons x l ih => cases b <;> simp [normalEq, normalNe, ih]

theorem C167_matrix (a b : List F32) : matNe a b = !matEq a b := rfl

/-! ### Equality -/

theorem near_self {e : F32} (he : e.Finite) (h0 : 0 ≤ e.val) (a : F32) : near e a a = true ↔ a.Finite := by
  cases a with
  | nan => simp [near, F32.sub, F32.add, F32.abs, le, F32.lt, F32.eq, F32.Finite]
  | inf s =>
    have := (undefined_false (e := e) (a := inf s) (b := inf s) (Or.inr (Or.inr ⟨s, rfl, rfl⟩))).1
    simp [this, F32.Finite]
  | zero s =>
    have : ∃ t, F32.sub (zero s) (zero s) = zero t := ⟨s && !s, by
      show F32.round _ (0 + 0) = _
      unfold F32.round
      rw [if_pos (by ring)]
      rfl⟩
    obtain ⟨t, this⟩ := this
    refine ⟨fun _ => trivial, fun _ => ?_⟩
    unfold near
    rw [this]
    exact (le_fin (a := zero false) trivial he).2 h0
  | num q =>
    have : ∃ s, F32.sub (num q) (num q) = zero s := by
      refine ⟨F32.sign (num q) && F32.sign (num (-q)), ?_⟩
      show F32.round _ (q + -q) = _
      unfold F32.round
      rw [if_pos (by ring)]
      rfl
    obtain ⟨s, this⟩ := this
    refine ⟨fun _ => trivial, fun _ => ?_⟩
    unfold near
    rw [this]
    exact (le_fin (a := zero false) trivial he).2 h0

/-- **C167, reflexive.**  A vector or point is equal to itself exactly if all its members are finite. -/
theorem C167_self (a : List F32) : vecEq a a = true ↔ ∀ x ∈ a, x.Finite := by
  induction a with
  | nil => simp [vecEq]
  | cons x l ih => simp [vecEq, ih, near_self fltEps_finite (show (0 : ℚ) ≤ 1 / 2 ^ 23 by norm_num)]

theorem abs_round_neg (s t : Bool) (q : ℚ) : F32.abs (F32.round s (-q)) = F32.abs (F32.round t q) := by
  unfold F32.round
  rw [rnd32_neg, abs_neg]
  by_cases h : q = 0
  · simp [h, F32.abs]
  · rw [if_neg (neg_ne_zero.2 h), if_neg h]
    by_cases h1 : rnd32 q = 0
    · simp [h1, F32.abs]
    · rw [if_neg (neg_ne_zero.2 h1), if_neg h1]
      split_ifs <;> simp [F32.abs]

theorem abs_sub_comm (a b : F32) : F32.abs (F32.sub a b) = F32.abs (F32.sub b a) := by
  unfold F32.sub
  cases a <;> cases b
  case inf.inf s t => cases s <;> cases t <;> rfl
  case zero.zero s t =>
    show F32.abs (F32.round _ (0 + 0)) = F32.abs (F32.round _ (0 + 0))
    have := abs_round_neg (s && !t) (t && !s) 0
    rw [neg_zero] at this
    rw [show (0 : ℚ) + 0 = 0 by ring]
    exact this
  case zero.num s q =>
    show F32.abs (F32.round _ (0 + -q)) = F32.abs (F32.round _ (q + 0))
    rw [show (0 : ℚ) + -q = -(q + 0) by ring]
    exact abs_round_neg _ _ _
  case num.zero q s =>
    show F32.abs (F32.round _ (q + 0)) = F32.abs (F32.round _ (0 + -q))
    rw [show (0 : ℚ) + -q = -(q + 0) by ring]
    exact (abs_round_neg _ _ _).symm
  case num.num q p =>
    show F32.abs (F32.round _ (q + -p)) = F32.abs (F32.round _ (p + -q))
    rw [show q + -p = -(p + -q) by ring]
    exact abs_round_neg _ _ _
  all_goals rfl

/-- **C167, symmetric.**  Both operators do not depend on the order, for all members. -/
theorem C167_symmetric (a b : List F32) : vecEq a b = vecEq b a ∧ vecNe a b = vecNe b a ∧ matEq a b = matEq b a := by
  induction a generalizing b with
  | nil => cases b <;> simp [vecEq, vecNe, matEq]
  | cons x l ih =>
    cases b with
    | nil => simp [vecEq, vecNe, matEq]
    | cons y r =>
      obtain ⟨h1, h2, h3⟩ := ih r
      simp only [vecEq, vecNe, matEq, near, far]
      rw [abs_sub_comm x y, h1, h2, h3]
      exact ⟨rfl, rfl, rfl⟩

/-- For finite numbers the rounded difference is compared. -/
theorem near_val {a b : F32} (ha : a.Finite) (hb : b.Finite) :
    near fltEps a b = true ↔ rnd32 |a.val - b.val| ≤ 1 / 2 ^ 23 := by
  have hr : rnd32 |a.val - b.val| = |rnd32 (a.val - b.val)| := by
    rcases le_total 0 (a.val - b.val) with h | h
    · rw [abs_of_nonneg h, abs_of_nonneg (rnd32_nonneg h)]
    · rw [abs_of_nonpos h, rnd32_neg, abs_of_nonpos]
      have := rnd32_nonneg (neg_nonneg.2 h)
      rw [rnd32_neg] at this
      linarith
  by_cases hc : |rnd32 (a.val - b.val)| < 2 ^ 128
  · obtain ⟨f, e⟩ := sub_fin ha hb hc
    obtain ⟨f', e'⟩ := abs_finite f
    rw [hr, ← e, ← e']
    exact le_fin f' fltEps_finite
  · rw [hr]
    constructor
    · intro h
      exfalso
      have : ∃ s, F32.sub a b = inf s := by
        push Not at hc
        have h0 : a.val - b.val ≠ 0 := by
          intro h0
          rw [h0, rnd32_zero] at hc
          norm_num at hc
        have h1 : rnd32 (a.val - b.val) ≠ 0 := by
          intro h0
          rw [h0] at hc
          norm_num at hc
        have key : ∀ s, F32.round s (a.val - b.val) = inf (decide (a.val - b.val < 0)) := by
          intro s
          unfold F32.round
          rw [if_neg h0, if_neg h1, if_pos hc]
        refine ⟨_, Eq.trans ?_ (key (a.sign && (neg b).sign))⟩
        unfold F32.sub
        cases a <;> cases b <;> first | exact ha.elim | exact hb.elim | skip
        all_goals simp [F32.add, neg, F32.val, F32.sign, sub_eq_add_neg]
      obtain ⟨s, hs⟩ := this
      unfold near at h
      rw [hs] at h
      cases s <;> exact absurd h (by decide +kernel)
    · intro h
      exfalso
      apply hc
      exact lt_of_le_of_lt h (by norm_num)

/-- **C167, tolerance.**  Finite members are equal if they differ by at most 2^-23, and not if they differ by more than the
rounding of it. -/
theorem C167_tolerance {a b : F32} (ha : a.Finite) (hb : b.Finite) :
    (|a.val - b.val| ≤ 1 / 2 ^ 23 → near fltEps a b = true) ∧
    (near fltEps a b = true → |a.val - b.val| ≤ 1 / 2 ^ 23 * (1 + 1 / 2 ^ 23)) := by
  rw [near_val ha hb]
  constructor
  · intro h
    have := rnd32_lt (q := |a.val - b.val|) (k := -23) (by norm_num) (by norm_num at h ⊢; exact h)
    norm_num at this ⊢
    exact this
  · intro h
    by_contra hc
    push Not at hc
    have e := rnd32_rel (q := |a.val - b.val|) (by
      rw [abs_abs]
      exact le_trans (by norm_num) hc.le)
    rw [abs_abs] at e
    have := (abs_le.1 e).1
    generalize |a.val - b.val| = d at *
    norm_num at *
    linarith

/-- Numbers beyond two are multiples of 2^-22. -/
theorem grid22 {a : F32} (h : a.Ok) (ha : 2 ≤ |a.val|) : ∃ j : ℤ, a.val = j * 2 ^ (-22 : ℤ) := by
  have e := (ok_val h).1
  have hl : -22 ≤ ulp32 a.val := by
    have h1 : 1 ≤ Int.log 2 |a.val| := (Int.zpow_le_iff_le_log (by norm_num) (lt_of_lt_of_le (by norm_num) ha)).1
      (by norm_num; exact ha)
    refine le_trans ?_ (le_max_left _ _)
    unfold ulpExp
    omega
  unfold rnd32 at e
  obtain ⟨d, hd⟩ := Int.le.dest hl
  refine ⟨rne (a.val / 2 ^ ulp32 a.val) * 2 ^ d, ?_⟩
  conv_lhs => rw [← e]
  rw [show (2 : ℚ) ^ ulp32 a.val = 2 ^ (-22 : ℤ) * 2 ^ d by rw [← zpow_natCast, ← zpow_add₀ (by norm_num), hd]]
  rw [show a.val / (2 ^ (-22 : ℤ) * 2 ^ d) = a.val / 2 ^ ulp32 a.val by
    rw [show (2 : ℚ) ^ ulp32 a.val = 2 ^ (-22 : ℤ) * 2 ^ d by rw [← zpow_natCast, ← zpow_add₀ (by norm_num), hd]]]
  push_cast
  ring

/-- **C167, large numbers.**  Beyond two, members are equal only if they are the same number. -/
theorem C167_large {a b : F32} (oa : a.Ok) (ob : b.Ok) (ha : a.Finite) (hb : b.Finite) (h2 : 2 < |a.val|) :
    near fltEps a b = true ↔ a.val = b.val := by
  constructor
  · intro h
    have ht := (C167_tolerance ha hb).2 h
    obtain ⟨i, hi⟩ := grid22 oa h2.le
    have hi2 : 2 ^ 23 < |i| := by
      rw [hi, abs_mul, abs_of_pos (two_zpow_pos _), ← Int.cast_abs] at h2
      have : (2 : ℚ) ^ 23 < ((|i| : ℤ) : ℚ) := by norm_num at h2 ⊢; linarith
      exact_mod_cast this
    have ha3 : 2 + 2 ^ (-22 : ℤ) ≤ |a.val| := by
      rw [hi, abs_mul, abs_of_pos (two_zpow_pos _), ← Int.cast_abs]
      have : ((2 ^ 23 + 1 : ℤ) : ℚ) ≤ ((|i| : ℤ) : ℚ) := by exact_mod_cast hi2
      push_cast at this
      push_cast
      norm_num at this ⊢
      linarith
    have hb2 : 2 ≤ |b.val| := by
      have := abs_sub_abs_le_abs_sub a.val b.val
      norm_num at *
      linarith
    obtain ⟨j, hj⟩ := grid22 ob hb2
    rw [hi, hj, ← sub_mul, abs_mul, abs_of_pos (two_zpow_pos _)] at ht
    have : |((i - j : ℤ) : ℚ)| < 1 := by
      push_cast
      norm_num at ht ⊢
      linarith
    rw [← Int.cast_abs] at this
    have : |i - j| < 1 := by exact_mod_cast this
    have : i = j := by
      rw [Int.abs_lt_one_iff] at this
      omega
    rw [hi, hj, this]
  · intro h
    apply (C167_tolerance ha hb).1
    rw [h, sub_self, abs_zero]
    norm_num

/-! ### Bounds -/

/-- **C167, clamping.**  Finite numbers get between the bounds, and stay if they are there; NaN stays NaN. -/
theorem C167_clamp {v lo hi : F32} (fv : v.Finite) (fl : lo.Finite) (fh : hi.Finite) (h : lo.val ≤ hi.val) :
    (Alias.clamp1 v lo hi).Finite ∧ (Alias.clamp1 v lo hi).val = max lo.val (min v.val hi.val) ∧
    Alias.clamp1 nan lo hi = nan := by
  refine ⟨?_, ?_, by unfold Alias.clamp1; cases lo <;> cases hi <;> rfl⟩
  · unfold Alias.clamp1
    split_ifs <;> assumption
  · unfold Alias.clamp1
    simp only [lt_fin fv fl, lt_fin fh fv]
    split_ifs with h1 h2
    · rw [min_eq_left (h1.le.trans h), max_eq_left h1.le]
    · rw [min_eq_right h2.le, max_eq_right h]
    · rw [min_eq_left (not_lt.1 h2), max_eq_right (not_lt.1 h1)]

/-- **C167, saturation.**  Finite numbers get into [0, 1]. -/
theorem C167_saturate {v : F32} (fv : v.Finite) : (saturate1 v).Finite ∧ (saturate1 v).val = max 0 (min v.val 1) ∧
    saturate1 (inf true) = zero false ∧ saturate1 (inf false) = num 1 ∧ saturate1 nan = nan :=
  ⟨(C167_clamp (lo := zero false) (hi := num 1) fv trivial trivial (by norm_num [F32.val])).1,
    (C167_clamp (lo := zero false) (hi := num 1) fv trivial trivial (by norm_num [F32.val])).2.1, rfl, rfl, rfl⟩

/-- **C167, maximum and minimum.**  For finite numbers, in both kinds of classes. -/
theorem C167_max {x y : F32} (fx : x.Finite) (fy : y.Finite) : (vecMax x y).val = max x.val y.val ∧
    (pointMax x y).val = max x.val y.val ∧ (vecMin x y).val = min x.val y.val ∧ (pointMin x y).val = min x.val y.val := by
  unfold vecMax pointMax vecMin pointMin Alias.pick
  simp only [lt_fin fx fy, lt_fin fy fx]
  refine ⟨?_, ?_, ?_, ?_⟩ <;> split_ifs with h
  · exact (max_eq_left h.le).symm
  · exact (max_eq_right (not_lt.1 h)).symm
  · exact (max_eq_right h.le).symm
  · exact (max_eq_left (not_lt.1 h)).symm
  · exact (min_eq_left h.le).symm
  · exact (min_eq_right (not_lt.1 h)).symm
  · exact (min_eq_right h.le).symm
  · exact (min_eq_left (not_lt.1 h)).symm

/-- **C167, NaN.**  Vectors take the argument, points keep their own member, whichever is NaN. -/
theorem C167_nan (x : F32) : vecMax nan x = x ∧ vecMax x nan = nan ∧ vecMin nan x = x ∧ vecMin x nan = nan ∧
    pointMax nan x = nan ∧ pointMax x nan = x ∧ pointMin nan x = nan ∧ pointMin x nan = x := by
  cases x <;> exact ⟨rfl, rfl, rfl, rfl, rfl, rfl, rfl, rfl⟩

/-! ### Violations -/

/-- The full statement: `==` of vectors and points is an equivalence and `!=` is its negation. -/
def C167_statement : Prop := (∀ a b, vecNe a b = !vecEq a b) ∧ (∀ a, vecEq a a = true) ∧
  ∀ a b c : List F32, a.length = b.length → b.length = c.length → vecEq a b = true → vecEq b c = true → vecEq a c = true

/-- **C167, violated.**  A point at infinity, as in an empty bounding box, is neither equal nor unequal to itself. -/
theorem C167_violated_infinity :
    vecEq [inf false, inf false, inf false] [inf false, inf false, inf false] = false ∧
    vecNe [inf false, inf false, inf false] [inf false, inf false, inf false] = false := by decide +kernel

/-- **C167, violated.**  Equality is not transitive: 0, 2^-23 and 2^-22. -/
theorem C167_violated_transitive :
    vecEq [zero false] [num (1 / 2 ^ 23)] = true ∧ vecEq [num (1 / 2 ^ 23)] [num (1 / 2 ^ 22)] = true ∧
    vecEq [zero false] [num (1 / 2 ^ 22)] = false := by decide +kernel

theorem C167_violated_statement : ¬ C167_statement := fun h => by
  have := h.2.2 [zero false] [num (1 / 2 ^ 23)] [num (1 / 2 ^ 22)] rfl rfl C167_violated_transitive.1
    C167_violated_transitive.2.1
  rw [C167_violated_transitive.2.2] at this
  exact absurd this (by simp)

/-- The neighbour of one is equal to one, the neighbour of four is not equal to four. -/
example : near fltEps (num 1) (num (1 + 1 / 2 ^ 23)) = true ∧ near fltEps (num 4) (num (4 - 1 / 2 ^ 22)) = false := by
  decide +kernel

example : (num 4).Ok ∧ (num (4 - 1 / 2 ^ 22)).Ok ∧ 2 < |(num 4).val| :=
  ⟨⟨by norm_num, by decide +kernel, by norm_num⟩, ⟨by norm_num, by decide +kernel, by norm_num⟩, by norm_num [F32.val]⟩

/-- Points without undefined differences, one of them infinite. -/
example : Pairs (fun x y => ¬ Undefined x y) [inf false, num 1] [num 1, num 2] ∧
    vecNe [inf false, num 1] [num 1, num 2] = true := by
  refine ⟨⟨?_, ?_, trivial⟩, by decide +kernel⟩ <;> simp [Undefined]

end Spectre.Compare
