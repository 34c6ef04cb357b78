import Verif.Model.FloatBox
import Verif.Props.FloatLight
import Mathlib.Tactic.IntervalCases

/-
C173: boxes are hit where they are, in binary32.
-/

namespace Spectre.FBox

open Spectre.Geom Spectre.FMat Spectre.FTri F32

/-! ### Infinities as numbers -/

/-- A number with the infinities put at `2^128`. -/
def v : F32 → ℚ
  | nan => 0
  | inf s => if s then -2 ^ 128 else 2 ^ 128
  | zero _ => 0
  | num q => q

/-- A number that exists and is not NaN. -/
def Good (a : F32) : Prop := a.Ok ∧ a ≠ nan

theorem v_finite {a : F32} (h : a.Finite) : v a = a.val := by
  cases a <;> first | exact h.elim | rfl

theorem good_finite {a : F32} (o : a.Ok) (h : a.Finite) : Good a := ⟨o, by rintro rfl; exact h⟩

theorem good_inf (s : Bool) : Good (inf s) := ⟨trivial, by simp⟩

theorem v_abs {a : F32} (h : Good a) (f : a.Finite) : |v a| < 2 ^ 128 := by
  rw [v_finite f]; exact (ok_val h.1).2

theorem finite_of_v {a : F32} (h : Good a) (l : |v a| < 2 ^ 128) : a.Finite := by
  cases a with
  | nan => exact h.2 rfl
  | inf s => cases s <;> norm_num [v] at l
  | zero s => trivial
  | num q => trivial

theorem lt_v {a b : F32} (ha : Good a) (hb : Good b) : lt a b = decide (v a < v b) := by
  cases a with
  | nan => exact absurd rfl ha.2
  | inf s =>
    cases b with
    | nan => exact absurd rfl hb.2
    | inf t => cases s <;> cases t <;> norm_num [lt, v]
    | zero t => cases s <;> norm_num [lt, v]
    | num q =>
      have := abs_lt.1 hb.1.2.2
      cases s
      · exact (decide_eq_false (show ¬ ((2 : ℚ) ^ 128 < q) from not_lt.2 this.2.le)).symm
      · exact (decide_eq_true (show (-2 ^ 128 : ℚ) < q from this.1)).symm
  | zero s =>
    cases b with
    | nan => exact absurd rfl hb.2
    | inf t => cases t <;> norm_num [lt, v]
    | zero t => rfl
    | num q => rfl
  | num p =>
    have := abs_lt.1 ha.1.2.2
    cases b with
    | nan => exact absurd rfl hb.2
    | inf t =>
      cases t
      · exact (decide_eq_true (show p < (2 : ℚ) ^ 128 from this.2)).symm
      · exact (decide_eq_false (show ¬ (p < (-2 ^ 128 : ℚ)) from not_lt.2 this.1.le)).symm
    | zero t => rfl
    | num q => rfl

/-! ### One slab -/

/-- What rounding may cost on the way to a face: four units in the last place of the distance to it. -/
def err (o : ℚ) : ℚ := (|o| + 1) / 2 ^ 22

/-- The parameters of a slab: all of it between them, and each at its face. -/
structure Slab (o d : ℚ) (n f : F32) : Prop where
  gn : Good n
  gf : Good f
  inn : ∀ t : ℚ, |t| < 2 ^ 128 → v n ≤ t → t ≤ v f → -err o ≤ o + d * t ∧ o + d * t ≤ 1 + err o
  out : ∀ t : ℚ, |t| < 2 ^ 128 → err o ≤ o + d * t → o + d * t ≤ 1 - err o → v n ≤ t ∧ t ≤ v f
  enter : n.Finite → d ≠ 0 ∧ (0 < d → |o + d * n.val| ≤ err o) ∧ (d < 0 → |o + d * n.val - 1| ≤ err o)
  leave : f.Finite → d ≠ 0 ∧ (0 < d → |o + d * f.val - 1| ≤ err o) ∧ (d < 0 → |o + d * f.val| ≤ err o)
  small : d ≠ 0 → |v f| ≤ 2 ^ 123

/-- A component of a ray: not too large, and either of use as divisor or zero with the origin off the two planes. -/
structure Fair (o d : F32) : Prop where
  oo : o.Ok
  od : d.Ok
  fo : o.Finite
  fd : d.Finite
  lo : |o.val| ≤ 2 ^ 60
  comp : (1 / 2 ^ 60 ≤ |d.val| ∧ |d.val| ≤ 2) ∨ (d.val = 0 ∧ o.val ≠ 0 ∧ o.val ≠ 1)

/-- Both parameters at their faces: what the order of them gives. -/
theorem slab_of_faces {o d : ℚ} {a b : F32} (oa : a.Ok) (ob : b.Ok) (fa : a.Finite) (fb : b.Finite) (hd : d ≠ 0)
    (ea : |o + d * a.val| ≤ err o) (eb : |o + d * b.val - 1| ≤ err o) (sa : |a.val| ≤ 2 ^ 123) (sb : |b.val| ≤ 2 ^ 123) :
    Slab o d (if lt b a then (b, a) else (a, b)).1 (if lt b a then (b, a) else (a, b)).2 := by
  rw [lt_finite fb fa]
  have ea' := abs_le.1 ea
  have eb' := abs_le.1 eb
  rcases lt_or_gt_of_ne hd with h | h
  · by_cases c : b.val < a.val
    · rw [if_pos (by simpa using c)]
      refine ⟨good_finite ob fb, good_finite oa fa, ?_, ?_, fun _ => ⟨hd, fun g => absurd g (by linarith), fun _ => eb⟩,
        fun _ => ⟨hd, fun g => absurd g (by linarith), fun _ => ea⟩, fun _ => by rw [v_finite fa]; exact sa⟩
      · intro t _ h1 h2
        rw [v_finite fb] at h1; rw [v_finite fa] at h2
        have := mul_le_mul_of_nonpos_left h1 h.le
        have := mul_le_mul_of_nonpos_left h2 h.le
        constructor <;> linarith
      · intro t _ h1 h2
        dsimp only
        rw [v_finite fb, v_finite fa]
        constructor
        · by_contra k
          have := mul_lt_mul_of_neg_left (not_le.1 k) h
          linarith
        · by_contra k
          have := mul_lt_mul_of_neg_left (not_le.1 k) h
          linarith
    · rw [if_neg (by simpa using c)]
      have hm := mul_le_mul_of_nonpos_left (not_lt.1 c) h.le
      refine ⟨good_finite oa fa, good_finite ob fb, ?_, ?_,
        fun _ => ⟨hd, fun g => absurd g (by linarith), fun _ => abs_le.2 ⟨by dsimp only; linarith, by dsimp only; linarith⟩⟩,
        fun _ => ⟨hd, fun g => absurd g (by linarith), fun _ => abs_le.2 ⟨by dsimp only; linarith, by dsimp only; linarith⟩⟩,
        fun _ => by rw [v_finite fb]; exact sb⟩
      · intro t _ h1 h2
        rw [v_finite fa] at h1; rw [v_finite fb] at h2
        have := mul_le_mul_of_nonpos_left h1 h.le
        have := mul_le_mul_of_nonpos_left h2 h.le
        constructor <;> linarith
      · intro t _ h1 h2
        dsimp only
        rw [v_finite fb, v_finite fa]
        constructor
        · by_contra k
          have := mul_lt_mul_of_neg_left (not_le.1 k) h
          linarith
        · by_contra k
          have := mul_lt_mul_of_neg_left (not_le.1 k) h
          linarith
  · by_cases c : b.val < a.val
    · rw [if_pos (by simpa using c)]
      have hm := mul_lt_mul_of_pos_left c h
      refine ⟨good_finite ob fb, good_finite oa fa, ?_, ?_,
        fun _ => ⟨hd, fun _ => abs_le.2 ⟨by dsimp only; linarith, by dsimp only; linarith⟩, fun g => absurd g (by linarith)⟩,
        fun _ => ⟨hd, fun _ => abs_le.2 ⟨by dsimp only; linarith, by dsimp only; linarith⟩, fun g => absurd g (by linarith)⟩,
        fun _ => by rw [v_finite fa]; exact sa⟩
      · intro t _ h1 h2
        rw [v_finite fb] at h1; rw [v_finite fa] at h2
        have := mul_le_mul_of_nonneg_left h1 h.le
        have := mul_le_mul_of_nonneg_left h2 h.le
        constructor <;> linarith
      · intro t _ h1 h2
        dsimp only
        rw [v_finite fb, v_finite fa]
        constructor
        · by_contra k
          have := mul_lt_mul_of_pos_left (not_le.1 k) h
          linarith
        · by_contra k
          have := mul_lt_mul_of_pos_left (not_le.1 k) h
          linarith
    · rw [if_neg (by simpa using c)]
      refine ⟨good_finite oa fa, good_finite ob fb, ?_, ?_, fun _ => ⟨hd, fun _ => ea, fun g => absurd g (by linarith)⟩,
        fun _ => ⟨hd, fun _ => eb, fun g => absurd g (by linarith)⟩, fun _ => by rw [v_finite fb]; exact sb⟩
      · intro t _ h1 h2
        rw [v_finite fa] at h1; rw [v_finite fb] at h2
        have := mul_le_mul_of_nonneg_left h1 h.le
        have := mul_le_mul_of_nonneg_left h2 h.le
        constructor <;> linarith
      · intro t _ h1 h2
        dsimp only
        rw [v_finite fb, v_finite fa]
        constructor
        · by_contra k
          have := mul_lt_mul_of_pos_left (not_le.1 k) h
          linarith
        · by_contra k
          have := mul_lt_mul_of_pos_left (not_le.1 k) h
          linarith

/-- The inverse of a component. -/
theorem inv_fair {d : F32} (f : d.Finite) (h1 : 1 / 2 ^ 60 ≤ |d.val|) (h2 : |d.val| ≤ 2) :
    (div one d).Finite ∧ |d.val * (div one d).val - 1| ≤ 1 / 2 ^ 24 ∧ |(div one d).val| ≤ 2 ^ 60 := by
  have h0 : d.val ≠ 0 := by intro e; rw [e] at h1; norm_num at h1
  have hp : 0 < |d.val| := abs_pos.2 h0
  have l1 : |1 / d.val| ≤ 2 ^ (60 : ℤ) := by
    rw [abs_div, abs_one, div_le_iff₀ hp]
    norm_num at h1 ⊢; linarith
  have l2 : (2 : ℚ) ^ (-126 : ℤ) ≤ |1 / d.val| := by
    rw [abs_div, abs_one, le_div_iff₀ hp]
    norm_num; linarith
  have r := rnd32_abs_le (by norm_num) l1
  obtain ⟨f1, e1⟩ := div_finite one_finite.1 f h0 (by
    rw [one_finite.2]; exact r.trans_lt (by norm_num))
  rw [one_finite.2] at e1
  refine ⟨f1, ?_, by rw [e1]; exact_mod_cast r⟩
  have := rnd32_rel l2
  rw [e1]
  have e : d.val * rnd32 (1 / d.val) - 1 = d.val * (rnd32 (1 / d.val) - 1 / d.val) := by field_simp
  rw [e, abs_mul]
  calc |d.val| * |rnd32 (1 / d.val) - 1 / d.val| ≤ |d.val| * (|1 / d.val| * (1 / 2 ^ 24)) :=
        mul_le_mul_of_nonneg_left this (abs_nonneg _)
    _ = |d.val * (1 / d.val)| * (1 / 2 ^ 24) := by rw [abs_mul]; ring
    _ = 1 / 2 ^ 24 := by rw [mul_one_div_cancel h0]; norm_num

/-- A product with the inverse: the parameter of a face at distance `a`. -/
theorem param_fair {a d : F32} (fa : a.Finite) (la : |a.val| ≤ 2 ^ 62) (f : d.Finite) (h1 : 1 / 2 ^ 60 ≤ |d.val|)
    (h2 : |d.val| ≤ 2) : (F32.mul a (div one d)).Finite ∧ |(F32.mul a (div one d)).val| ≤ 2 ^ 123 ∧
      |d.val * (F32.mul a (div one d)).val - a.val| ≤ |a.val| * (17 / 2 ^ 27) + 1 / 2 ^ 140 := by
  obtain ⟨fi, ei, li⟩ := inv_fair f h1 h2
  have l : |a.val * (div one d).val| ≤ 2 ^ (122 : ℤ) := by
    rw [abs_mul]
    calc |a.val| * |(div one d).val| ≤ 2 ^ 62 * 2 ^ 60 := mul_le_mul la li (abs_nonneg _) (by norm_num)
      _ = 2 ^ (122 : ℤ) := by norm_num
  have r := rnd32_abs_le (by norm_num) l
  obtain ⟨fm, em⟩ := mul_finite fa fi (r.trans_lt (by norm_num))
  refine ⟨fm, by rw [em]; exact r.trans (by norm_num), ?_⟩
  rw [em]
  have k := rnd32_err' (a.val * (div one d).val)
  generalize (div one d).val = w at *
  generalize rnd32 (a.val * w) = z at *
  have e : d.val * z - a.val = d.val * (z - a.val * w) + a.val * (d.val * w - 1) := by ring
  rw [e]
  refine (abs_add_le _ _).trans ?_
  rw [abs_mul, abs_mul]
  have q1 : |d.val| * |z - a.val * w| ≤ |d.val| * (|a.val * w| * (1 / 2 ^ 24) + 2 ^ (-150 : ℤ)) :=
    mul_le_mul_of_nonneg_left k (abs_nonneg _)
  have q2 : |d.val| * |a.val * w| = |a.val| * |d.val * w| := by rw [abs_mul, abs_mul]; ring
  have q3 : |d.val * w| ≤ 1 + 1 / 2 ^ 24 := by
    have := abs_le.1 ei; rw [abs_le]; constructor <;> linarith
  have q4 : |a.val| * |d.val * w| ≤ |a.val| * (1 + 1 / 2 ^ 24) := mul_le_mul_of_nonneg_left q3 (abs_nonneg _)
  have q5 : |a.val| * |d.val * w - 1| ≤ |a.val| * (1 / 2 ^ 24) := mul_le_mul_of_nonneg_left ei (abs_nonneg _)
  have q6 : |d.val| * (2 : ℚ) ^ (-150 : ℤ) ≤ 2 * 2 ^ (-150 : ℤ) := mul_le_mul_of_nonneg_right h2 (by norm_num)
  have q7 : |d.val| * (|a.val * w| * (1 / 2 ^ 24) + 2 ^ (-150 : ℤ)) =
      (|d.val| * |a.val * w|) * (1 / 2 ^ 24) + |d.val| * 2 ^ (-150 : ℤ) := by ring
  have h0 : 0 ≤ |a.val| := abs_nonneg _
  generalize |d.val| * |z - a.val * w| = A at *
  generalize |d.val| * (|a.val * w| * (1 / 2 ^ 24) + 2 ^ (-150 : ℤ)) = B at *
  generalize |a.val| * |d.val * w| = C at *
  generalize |a.val| * |d.val * w - 1| = D at *
  rw [q2] at q7
  generalize |d.val| * (2 : ℚ) ^ (-150 : ℤ) = F at *
  generalize |a.val| = x at *
  clear k e r l em ei li la h1 h2 q2 q3
  norm_num at *
  linarith

theorem slab_fair {o d : F32} (h : Fair o d) : Slab o.val d.val (slab o d).1 (slab o d).2 := by
  obtain ⟨oo, od, fo, fd, lo, comp⟩ := h
  rcases comp with ⟨h1, h2⟩ | ⟨h0, n0, n1⟩
  · have hd : d.val ≠ 0 := by intro e; rw [e] at h1; norm_num at h1
    obtain ⟨g1, g2⟩ := neg_finite fo
    obtain ⟨a1, a2, a3⟩ := param_fair (a := neg o) g1 (by rw [g2, abs_neg]; exact lo.trans (by norm_num)) fd h1 h2
    have l : |1 - o.val| ≤ 2 ^ (61 : ℤ) := by
      have := abs_le.1 lo; rw [abs_le]; norm_num at this ⊢; constructor <;> linarith [this.1, this.2]
    have r := rnd32_abs_le (by norm_num) l
    obtain ⟨s1, s2⟩ := sub_fin one_finite.1 fo (by rw [one_finite.2]; exact r.trans_lt (by norm_num))
    rw [one_finite.2] at s2
    obtain ⟨b1, b2, b3⟩ := param_fair (a := sub one o) s1 (by rw [s2]; exact r.trans (by norm_num)) fd h1 h2
    refine slab_of_faces (mul_ok _ _) (mul_ok _ _) a1 b1 hd ?_ ?_ a2 b2
    · rw [g2] at a3
      have e : d.val * (F32.mul (neg o) (div one d)).val - -o.val = o.val + d.val * (F32.mul (neg o) (div one d)).val := by ring
      rw [e, abs_neg] at a3
      refine a3.trans ?_
      have := abs_nonneg o.val
      unfold err
      generalize |o.val| = x at *
      clear a3 e a2 b3 r l h1 lo
      norm_num; linarith
    · have k := rnd32_err' (1 - o.val)
      have m : |1 - o.val| ≤ |o.val| + 1 := by
        refine (abs_sub _ _).trans ?_; rw [abs_one]; linarith
      have z : |(sub one o).val| ≤ (|o.val| + 1) * (1 + 1 / 2 ^ 23) + 1 / 2 ^ 149 := by
        rw [s2]
        have : |rnd32 (1 - o.val)| ≤ |rnd32 (1 - o.val) - (1 - o.val)| + |1 - o.val| := by
          have := abs_add_le (rnd32 (1 - o.val) - (1 - o.val)) (1 - o.val)
          simpa using this
        have := abs_nonneg o.val
        generalize |rnd32 (1 - o.val)| = A at *
        generalize |rnd32 (1 - o.val) - (1 - o.val)| = B at *
        generalize |1 - o.val| = C at *
        generalize |o.val| = x at *
        clear a3 b3 r l h1 lo a2 b2
        norm_num at *; linarith
      have e : o.val + d.val * (F32.mul (sub one o) (div one d)).val - 1 =
          (d.val * (F32.mul (sub one o) (div one d)).val - (sub one o).val) + ((sub one o).val - (1 - o.val)) := by ring
      rw [e]
      refine (abs_add_le _ _).trans ?_
      rw [← s2] at k
      have := abs_nonneg o.val
      unfold err
      generalize |d.val * (F32.mul (sub one o) (div one d)).val - (sub one o).val| = A at *
      generalize |(sub one o).val - (1 - o.val)| = B at *
      generalize |(sub one o).val| = C at *
      generalize |1 - o.val| = D at *
      generalize |o.val| = x at *
      clear a3 r l h1 lo a2 b2 e
      norm_num at *; linarith
  · have hz : ∃ s, d = zero s := by
      cases d with
      | nan => exact fd.elim
      | inf s => exact fd.elim
      | zero s => exact ⟨s, rfl⟩
      | num q => exact absurd h0 od.1
    obtain ⟨s, rfl⟩ := hz
    have hn : ∃ q, o = num q := by
      cases o with
      | nan => exact fo.elim
      | inf s => exact fo.elim
      | zero s => exact absurd rfl n0
      | num q => exact ⟨q, rfl⟩
    obtain ⟨q, rfl⟩ := hn
    have i : div one (zero s) = inf s := by cases s <;> rfl
    have l : |1 - q| ≤ 2 ^ (61 : ℤ) := by
      have := abs_le.1 lo; rw [abs_le]; norm_num [val] at this ⊢; constructor <;> linarith [this.1, this.2]
    have r := rnd32_abs_le (by norm_num) l
    obtain ⟨s1, s2⟩ := sub_fin (b := num q) one_finite.1 fo (by rw [one_finite.2]; exact r.trans_lt (by norm_num))
    rw [one_finite.2] at s2
    have rq : rnd32 q = q := oo.2.1
    have pos : q < 1 → 0 < (sub one (num q)).val := fun c => by rw [s2]; exact FLight.gap rq FLight.rep1.1 c
    have ngt : 1 < q → (sub one (num q)).val < 0 := fun c => by
      have := FLight.gap FLight.rep1.1 rq c
      rw [s2]
      have e : rnd32 (1 - q) = -rnd32 (q - 1) := by rw [← rnd32_neg]; congr 1; ring
      show rnd32 (1 - q) < 0
      rw [e]; linarith
    have hu : ∃ u, sub one (num q) = num u ∧ u = (sub one (num q)).val ∧ u ≠ 0 := by
      have n : (sub one (num q)).val ≠ 0 := by
        rcases lt_or_gt_of_ne n1 with c | c
        · exact (pos c).ne'
        · exact (ngt c).ne
      generalize sub one (num q) = x at s1 n
      cases x with
      | nan => exact s1.elim
      | inf s => exact s1.elim
      | zero s => exact absurd rfl n
      | num u => exact ⟨u, rfl, rfl, n⟩
    obtain ⟨u, u1, u2, u3⟩ := hu
    rw [← u2] at pos ngt
    have sl : slab (num q) (zero s) = (let a := inf (xor (decide (-q < 0)) s); let b := inf (xor (decide (u < 0)) s)
        if lt b a then (b, a) else (a, b)) := by
      unfold slab
      dsimp only
      rw [i, u1]
      rfl
    rw [sl]
    dsimp only
    show Slab q 0 _ _
    have n0' : q ≠ 0 := n0
    have e0 : 0 < err q := by unfold err; positivity
    rcases lt_or_gt_of_ne n0' with c | c
    · have c1 : ¬ (-q < 0) := by linarith
      have c2 : ¬ (u < 0) := by have := pos (by linarith); linarith
      simp only [c1, c2, decide_false, Bool.false_xor]
      refine ⟨?_, ?_, ?_, ?_, ?_, ?_, fun h => absurd rfl h⟩
      · split <;> exact good_inf _
      · split <;> exact good_inf _
      · intro t ht h1 h2
        exfalso
        have := abs_lt.1 ht
        cases s <;> norm_num [lt, v] at h1 h2 this <;> linarith [this.1, this.2]
      · intro t _ h1 h2; linarith
      · intro f; exfalso; revert f; split <;> exact id
      · intro f; exfalso; revert f; split <;> exact id
    · have c1 : -q < 0 := by linarith
      rcases lt_or_gt_of_ne (show q ≠ 1 from n1) with k | k
      · have c2 : ¬ (u < 0) := by have := pos k; linarith
        simp only [c1, c2, decide_false, decide_true, Bool.false_xor, Bool.true_xor]
        refine ⟨?_, ?_, ?_, ?_, ?_, ?_, fun h => absurd rfl h⟩
        · split <;> exact good_inf _
        · split <;> exact good_inf _
        · intro t ht h1 h2
          constructor <;> linarith
        · intro t ht h1 h2
          have := abs_lt.1 ht
          cases s <;> norm_num [lt, v] at this ⊢ <;> exact ⟨by linarith [this.1], by linarith [this.2]⟩
        · intro f; exfalso; revert f; split <;> exact id
        · intro f; exfalso; revert f; split <;> exact id
      · have c2 : u < 0 := ngt k
        simp only [c1, c2, decide_true, Bool.true_xor]
        refine ⟨?_, ?_, ?_, ?_, ?_, ?_, fun h => absurd rfl h⟩
        · split <;> exact good_inf _
        · split <;> exact good_inf _
        · intro t ht h1 h2
          exfalso
          have := abs_lt.1 ht
          cases s <;> norm_num [lt, v] at h1 h2 this <;> linarith [this.1, this.2]
        · intro t _ h1 h2; linarith
        · intro f; exfalso; revert f; split <;> exact id
        · intro f; exfalso; revert f; split <;> exact id

/-! ### The choice among the slabs -/

/-- A ray with fair components. -/
structure FairRay (o d : V3 F32) : Prop where
  x : Fair o.x d.x
  y : Fair o.y d.y
  z : Fair o.z d.z

theorem FairRay.get {o d : V3 F32} (h : FairRay o d) (i : Nat) : Fair (get o i) (FBox.get d i) := by
  unfold FBox.get
  split_ifs
  · exact h.x
  · exact h.y
  · exact h.z

theorem minDist_num : minDist = num (5368709 / 2 ^ 29) := by decide +kernel

theorem minDist_good : Good minDist ∧ minDist.Finite ∧ minDist.val = 5368709 / 2 ^ 29 ∧ v minDist = 5368709 / 2 ^ 29 := by
  refine ⟨good_finite (round_ok _ _) (by rw [minDist_num]; trivial), by rw [minDist_num]; trivial, by rw [minDist_num]; rfl, by rw [minDist_num]; rfl⟩

/-- The first parameter of slab `i`. -/
def nr (o d : V3 F32) (i : Nat) : F32 := (slab (get o i) (get d i)).1

/-- The second parameter of slab `i`. -/
def fr (o d : V3 F32) (i : Nat) : F32 := (slab (get o i) (get d i)).2

/-- The last of the entries and the first of the exits are taken. -/
theorem select {o d : V3 F32} (h : FairRay o d) (D : F32) : ∃ a b, a < 3 ∧ b < 3 ∧ (∀ i, i < 3 → v (nr o d i) ≤ v (nr o d a)) ∧
    (∀ i, i < 3 → v (fr o d b) ≤ v (fr o d i)) ∧
    intersect o d D = if lt (fr o d b) (nr o d a) then none
      else if lt minDist (nr o d a) then finish o d D (nr o d a) a false
      else if lt minDist (fr o d b) then finish o d D (fr o d b) a true else none := by
  have g := fun i => (slab_fair (h.get i)).gn
  have k := fun i => (slab_fair (h.get i)).gf
  have gx := g 0; have gy := g 1; have gz := g 2
  have kx := k 0; have ky := k 1; have kz := k 2
  have al : ∀ p : Nat → Prop, p 0 → p 1 → p 2 → ∀ i, i < 3 → p i := by
    intro p h0 h1 h2 i hi
    interval_cases i
    · exact h0
    · exact h1
    · exact h2
  have e : intersect o d D = (let (mint, axis) := if lt (nr o d 0) (nr o d 1) then (nr o d 1, 1) else (nr o d 0, 0)
      let maxt := if lt (fr o d 1) (fr o d 0) then fr o d 1 else fr o d 0
      if lt maxt mint then none
      else
        let (mint, axis) := if lt mint (nr o d 2) then (nr o d 2, 2) else (mint, axis)
        let maxt := if lt (fr o d 2) maxt then fr o d 2 else maxt
        if lt maxt mint then none
        else if lt minDist mint then finish o d D mint axis false
        else if lt minDist maxt then finish o d D maxt axis true
        else none) := rfl
  rw [e]
  clear e
  change Good (nr o d 0) at gx
  change Good (nr o d 1) at gy
  change Good (nr o d 2) at gz
  change Good (fr o d 0) at kx
  change Good (fr o d 1) at ky
  change Good (fr o d 2) at kz
  have key : ∀ (m n2 M f2 : F32) (ax b' : Nat) (gm : Good m) (g2 : Good n2) (gM : Good M) (k2 : Good f2),
      (if lt M m then none
      else
        let (mint, axis) := if lt m n2 then (n2, 2) else (m, ax)
        let maxt := if lt f2 M then f2 else M
        if lt maxt mint then none
        else if lt minDist mint then finish o d D mint axis false
        else if lt minDist maxt then finish o d D maxt axis true
        else none) =
      (let mint := if v m < v n2 then n2 else m
       let axis := if v m < v n2 then 2 else ax
       let maxt := if v f2 < v M then f2 else M
       if lt maxt mint then none
        else if lt minDist mint then finish o d D mint axis false
        else if lt minDist maxt then finish o d D maxt axis true
        else none) := by
    intro m n2 M f2 ax b' gm g2 gM k2
    rw [lt_v gM gm, lt_v gm g2, lt_v k2 gM]
    by_cases c1 : v M < v m <;> by_cases c2 : v m < v n2 <;> by_cases c3 : v f2 < v M <;>
      simp only [c1, c2, c3, decide_true, decide_false, if_true, if_false, Bool.false_eq_true]
    · rw [lt_v k2 g2, if_pos (by simp; linarith)]
    · rw [lt_v gM g2, if_pos (by simp; linarith)]
    · rw [lt_v k2 gm, if_pos (by simp; linarith)]
    · rw [lt_v gM gm, if_pos (by simp; linarith)]
  rw [lt_v gx gy, lt_v ky kx]
  by_cases c1 : v (nr o d 0) < v (nr o d 1) <;> by_cases c2 : v (fr o d 1) < v (fr o d 0) <;>
    simp only [c1, c2, decide_true, decide_false, if_true, if_false, Bool.false_eq_true]
  · rw [key _ _ _ _ 1 1 gy gz ky kz]
    by_cases c3 : v (nr o d 1) < v (nr o d 2) <;> by_cases c4 : v (fr o d 2) < v (fr o d 1) <;>
      simp only [c3, c4, if_true, if_false]
    · exact ⟨2, 2, by norm_num, by norm_num, al _ (by linarith) (by linarith) le_rfl, al _ (by linarith) (by linarith) le_rfl, rfl⟩
    · exact ⟨2, 1, by norm_num, by norm_num, al _ (by linarith) (by linarith) le_rfl, al _ (by linarith) le_rfl (by linarith), rfl⟩
    · exact ⟨1, 2, by norm_num, by norm_num, al _ (by linarith) le_rfl (by linarith), al _ (by linarith) (by linarith) le_rfl, rfl⟩
    · exact ⟨1, 1, by norm_num, by norm_num, al _ (by linarith) le_rfl (by linarith), al _ (by linarith) le_rfl (by linarith), rfl⟩
  · rw [key _ _ _ _ 1 0 gy gz kx kz]
    by_cases c3 : v (nr o d 1) < v (nr o d 2) <;> by_cases c4 : v (fr o d 2) < v (fr o d 0) <;>
      simp only [c3, c4, if_true, if_false]
    · exact ⟨2, 2, by norm_num, by norm_num, al _ (by linarith) (by linarith) le_rfl, al _ (by linarith) (by linarith) le_rfl, rfl⟩
    · exact ⟨2, 0, by norm_num, by norm_num, al _ (by linarith) (by linarith) le_rfl, al _ le_rfl (by linarith) (by linarith), rfl⟩
    · exact ⟨1, 2, by norm_num, by norm_num, al _ (by linarith) le_rfl (by linarith), al _ (by linarith) (by linarith) le_rfl, rfl⟩
    · exact ⟨1, 0, by norm_num, by norm_num, al _ (by linarith) le_rfl (by linarith), al _ le_rfl (by linarith) (by linarith), rfl⟩
  · rw [key _ _ _ _ 0 1 gx gz ky kz]
    by_cases c3 : v (nr o d 0) < v (nr o d 2) <;> by_cases c4 : v (fr o d 2) < v (fr o d 1) <;>
      simp only [c3, c4, if_true, if_false]
    · exact ⟨2, 2, by norm_num, by norm_num, al _ (by linarith) (by linarith) le_rfl, al _ (by linarith) (by linarith) le_rfl, rfl⟩
    · exact ⟨2, 1, by norm_num, by norm_num, al _ (by linarith) (by linarith) le_rfl, al _ (by linarith) le_rfl (by linarith), rfl⟩
    · exact ⟨0, 2, by norm_num, by norm_num, al _ le_rfl (by linarith) (by linarith), al _ (by linarith) (by linarith) le_rfl, rfl⟩
    · exact ⟨0, 1, by norm_num, by norm_num, al _ le_rfl (by linarith) (by linarith), al _ (by linarith) le_rfl (by linarith), rfl⟩
  · rw [key _ _ _ _ 0 0 gx gz kx kz]
    by_cases c3 : v (nr o d 0) < v (nr o d 2) <;> by_cases c4 : v (fr o d 2) < v (fr o d 0) <;>
      simp only [c3, c4, if_true, if_false]
    · exact ⟨2, 2, by norm_num, by norm_num, al _ (by linarith) (by linarith) le_rfl, al _ (by linarith) (by linarith) le_rfl, rfl⟩
    · exact ⟨2, 0, by norm_num, by norm_num, al _ (by linarith) (by linarith) le_rfl, al _ le_rfl (by linarith) (by linarith), rfl⟩
    · exact ⟨0, 2, by norm_num, by norm_num, al _ le_rfl (by linarith) (by linarith), al _ (by linarith) (by linarith) le_rfl, rfl⟩
    · exact ⟨0, 0, by norm_num, by norm_num, al _ le_rfl (by linarith) (by linarith), al _ le_rfl (by linarith) (by linarith), rfl⟩

/-! ### The point -/

/-- The stored coordinate is near the exact one of the reported parameter. -/
theorem coord_near {o d t : F32} (fo : o.Finite) (fd : d.Finite) (ft : t.Finite) (lo : |o.val| ≤ 2 ^ 60)
    (h : -err o.val ≤ o.val + d.val * t.val ∧ o.val + d.val * t.val ≤ 1 + err o.val) :
    (add o (F32.mul d t)).Finite ∧ |(add o (F32.mul d t)).val - (o.val + d.val * t.val)| ≤ err o.val := by
  have e0 : err o.val ≤ (|o.val| + 1) / 2 ^ 22 := le_rfl
  have a0 := abs_nonneg o.val
  have q : |d.val * t.val| ≤ (|o.val| + 1) * (1 + 1 / 2 ^ 22) := by
    have := neg_abs_le o.val
    have := le_abs_self o.val
    unfold err at h
    rw [abs_le]
    generalize |o.val| = x at *
    constructor <;> norm_num at * <;> linarith [h.1, h.2]
  have q' : |d.val * t.val| ≤ 2 ^ (61 : ℤ) := by
    refine q.trans ?_
    generalize |o.val| = x at *
    clear e0 h
    norm_num at *; linarith
  have k1 := rnd32_err' (d.val * t.val)
  obtain ⟨f1, m1⟩ := mul_finite fd ft ((rnd32_abs_le (by norm_num) q').trans_lt (by norm_num))
  have r1 := rnd32_abs_le (by norm_num) q'
  rw [← m1] at k1 r1
  have l : |o.val + (F32.mul d t).val| ≤ 2 ^ (62 : ℤ) := by
    refine (abs_add_le _ _).trans ?_
    generalize |o.val| = x at *
    generalize |(F32.mul d t).val| = y at *
    clear e0 h q q' k1
    norm_num at *; linarith
  have k2 := rnd32_err' (o.val + (F32.mul d t).val)
  obtain ⟨f2, m2⟩ := add_finite fo f1 ((rnd32_abs_le (by norm_num) l).trans_lt (by norm_num))
  rw [← m2] at k2
  refine ⟨f2, ?_⟩
  have p : |o.val + (F32.mul d t).val| ≤ 1 + err o.val + |(F32.mul d t).val - d.val * t.val| := by
    have e : o.val + (F32.mul d t).val = (o.val + d.val * t.val) + ((F32.mul d t).val - d.val * t.val) := by ring
    rw [e]
    refine (abs_add_le _ _).trans ?_
    have : |o.val + d.val * t.val| ≤ 1 + err o.val := abs_le.2 ⟨by linarith [h.1], h.2⟩
    linarith
  have e : (add o (F32.mul d t)).val - (o.val + d.val * t.val) =
      ((add o (F32.mul d t)).val - (o.val + (F32.mul d t).val)) + ((F32.mul d t).val - d.val * t.val) := by ring
  rw [e]
  refine (abs_add_le _ _).trans ?_
  unfold err at *
  generalize |(add o (F32.mul d t)).val - (o.val + (F32.mul d t).val)| = A at *
  generalize |(F32.mul d t).val - d.val * t.val| = B at *
  generalize |o.val + (F32.mul d t).val| = C at *
  generalize |d.val * t.val| = E at *
  generalize |o.val| = x at *
  clear e e0 h r1 l q' m1 m2 lo
  norm_num at *
  linarith

/-- What the stored point may be off by. -/
def tol (o : ℚ) : ℚ := (|o| + 1) / 2 ^ 21

theorem tol_err (o : ℚ) : tol o = err o + err o := by unfold tol err; ring

theorem get_apply (o d : V3 F32) (t : F32) (i : Nat) : get (apply o d t) i = add (get o i) (F32.mul (get d i) t) := by
  unfold get apply
  split_ifs <;> rfl

/-! ### C173 -/

/-- The point is in the box, up to the tolerance. -/
def InBox (o p : V3 F32) : Prop :=
  ∀ i, i < 3 → (get p i).Finite ∧ -tol (get o i).val ≤ (get p i).val ∧ (get p i).val ≤ 1 + tol (get o i).val

/-- The exact point of the ray at `t` is in the box made wider (or smaller, when negative) by `s` times the error. -/
def At (s : ℚ) (o d : V3 F32) (t : ℚ) : Prop :=
  ∀ i, i < 3 → -(s * err (get o i).val) ≤ (get o i).val + (get d i).val * t ∧
    (get o i).val + (get d i).val * t ≤ 1 + s * err (get o i).val

/-- The ray enters the box: the point is on a face, its normal points out of the box and against the ray, and the tangent is
along the face. -/
def Enters (o d : V3 F32) (H : Hit) : Prop :=
  ∃ i s, i < 3 ∧ H.normal = axisNormal i (num s) ∧ (s = 1 ∨ s = -1) ∧ s * (get d i).val < 0 ∧
    |(get H.point i).val - (if s = 1 then 1 else 0)| ≤ tol (get o i).val

/-- The ray leaves the box: it was in the box at the smallest parameter, the normal is along an axis and not against the ray (it
need not be that of the face), and the point is on a face through which it leaves. -/
def Leaves (o d : V3 F32) (H : Hit) : Prop :=
  At 1 o d minDist.val ∧
  (∃ i s, i < 3 ∧ H.normal = axisNormal i (num s) ∧ (s = 1 ∨ s = -1) ∧ 0 ≤ s * (get d i).val) ∧ ∃ i, i < 3 ∧ (get d i).val ≠ 0 ∧
    |(get H.point i).val - (if 0 < (get d i).val then 1 else 0)| ≤ tol (get o i).val

theorem finish_some {o d : V3 F32} {D t : F32} {a : Nat} {b : Bool} {H : Hit} (h : finish o d D t a b = some H) :
    lt D t = false ∧ H.distance = t ∧ H.point = apply o d t ∧
      H.normal = axisNormal a (if b then F32.mul (neg (sgn (get d a))) (num (-1)) else neg (sgn (get d a))) := by
  unfold finish at h
  split at h
  · cases h
  · rename_i c
    simp only [Option.some.injEq] at h
    subst h
    exact ⟨by simpa using c, rfl, rfl, rfl⟩

theorem finish_isSome {o d : V3 F32} {D t : F32} {a : Nat} {b : Bool} (h : lt D t = false) :
    ∃ H, finish o d D t a b = some H ∧ H.distance = t := by
  unfold finish
  rw [h]
  exact ⟨_, rfl, rfl⟩

theorem sgn_fin {a : F32} (f : a.Finite) : sgn a = num (if 0 ≤ a.val then 1 else -1) := by
  unfold sgn
  rw [FTex.le_finite (show zip.Finite from trivial) f]
  show (if decide ((0 : ℚ) ≤ a.val) = true then one else num (-1)) = _
  by_cases c : 0 ≤ a.val
  · simp only [c, decide_true, if_true]; rfl
  · simp only [c, decide_false, Bool.false_eq_true, if_false]

theorem turned {d : V3 F32} {n : V3 F32} {a : Nat} (ha : a < 3) (f : (get d a).Finite)
    (h : n = axisNormal a (if true then F32.mul (neg (sgn (get d a))) (num (-1)) else neg (sgn (get d a)))) :
    ∃ i s, i < 3 ∧ n = axisNormal i (num s) ∧ (s = 1 ∨ s = -1) ∧ 0 ≤ s * (get d i).val := by
  rw [if_pos rfl, sgn_fin f] at h
  by_cases c : 0 ≤ (get d a).val
  · rw [if_pos c, show F32.mul (neg (num 1)) (num (-1)) = num 1 by decide +kernel] at h
    exact ⟨a, 1, ha, h, Or.inl rfl, by linarith⟩
  · rw [if_neg c, show F32.mul (neg (num (-1))) (num (-1)) = num (-1) by decide +kernel] at h
    exact ⟨a, -1, ha, h, Or.inr rfl, by linarith⟩

theorem near_at {o d : V3 F32} (h : FairRay o d) {t : F32} (ft : t.Finite) (hat : At 1 o d t.val) (i : Nat) (hi : i < 3) :
    (get (apply o d t) i).Finite ∧
      |(get (apply o d t) i).val - ((get o i).val + (get d i).val * t.val)| ≤ err (get o i).val := by
  rw [get_apply]
  have := hat i hi
  rw [one_mul] at this
  have f := h.get i
  exact coord_near f.fo f.fd ft f.lo this

/-- **C173.** Whatever is reported by `Box::intersect` in binary32 is in the box, at a distance that is allowed; and either the
ray enters the box there, with the normal of that face, or it was in the box and leaves it there. -/
theorem C173_hit {o d : V3 F32} (h : FairRay o d) {D : F32} (oD : D.Ok) (fD : D.Finite) {H : Hit}
    (hit : intersect o d D = some H) :
    H.distance.Finite ∧ minDist.val < H.distance.val ∧ H.distance.val ≤ D.val ∧ InBox o H.point ∧
      (Enters o d H ∨ Leaves o d H) := by
  obtain ⟨a, b, ha, hb, hn, hf, e⟩ := select h D
  have gm := minDist_good
  have ga : Good (nr o d a) := (slab_fair (h.get a)).gn
  have gb : Good (fr o d b) := (slab_fair (h.get b)).gf
  have gD := good_finite oD fD
  rw [e, lt_v gb ga, lt_v gm.1 ga, lt_v gm.1 gb] at hit
  split at hit
  · cases hit
  rename_i c1
  have c1 : v (nr o d a) ≤ v (fr o d b) := by simpa using c1
  have inn : ∀ t : ℚ, |t| < 2 ^ 128 → v (nr o d a) ≤ t → t ≤ v (fr o d b) → At 1 o d t := by
    intro t ht l1 l2 i hi
    rw [one_mul]
    exact (slab_fair (h.get i)).inn t ht ((hn i hi).trans l1) (l2.trans (hf i hi))
  have box : ∀ t : F32, t.Finite → At 1 o d t.val → InBox o (apply o d t) := by
    intro t ft hat i hi
    obtain ⟨n1, n2⟩ := near_at h ft hat i hi
    have w := hat i hi
    rw [one_mul] at w
    have n2 := abs_le.1 n2
    refine ⟨n1, ?_, ?_⟩ <;> rw [tol_err] <;> linarith [w.1, w.2, n2.1, n2.2]
  split at hit
  · rename_i c2
    have c2 : v minDist < v (nr o d a) := by simpa using c2
    obtain ⟨h1, h2, h3, h4⟩ := finish_some hit
    rw [lt_v gD ga, v_finite fD, decide_eq_false_iff_not, not_lt] at h1
    have DD := abs_lt.1 (ok_val oD).2
    have ft : (nr o d a).Finite := finite_of_v ga (abs_lt.2 ⟨by rw [gm.2.2.2] at c2; norm_num at *; linarith, by linarith [DD.2]⟩)
    have fv := v_finite ft
    have hat : At 1 o d (nr o d a).val := inn _ (ok_val ga.1).2 fv.le (by rw [← fv]; exact c1)
    rw [h2, h3]
    refine ⟨ft, by rw [gm.2.2.1, ← gm.2.2.2, ← fv]; exact c2, by rw [← fv]; exact h1, box _ ft hat, Or.inl ?_⟩
    have sf := h.get a
    obtain ⟨d0, d1, d2⟩ := (slab_fair sf).enter ft
    have na := abs_le.1 (near_at h ft hat a ha).2
    rw [sgn_fin sf.fd] at h4
    rcases lt_or_gt_of_ne d0 with c | c
    · refine ⟨a, 1, ha, ?_, Or.inl rfl, by linarith, ?_⟩
      · rw [h4, if_neg (not_le.2 c)]
        norm_num [neg]
      · have w := abs_le.1 (d2 c)
        change -err (get o a).val ≤ (get o a).val + (get d a).val * (nr o d a).val - 1 ∧
          (get o a).val + (get d a).val * (nr o d a).val - 1 ≤ err (get o a).val at w
        rw [if_pos rfl, h3, abs_le, tol_err]
        constructor <;> linarith [w.1, w.2, na.1, na.2]
    · refine ⟨a, -1, ha, ?_, Or.inr rfl, by linarith, ?_⟩
      · rw [h4, if_pos c.le]
        norm_num [neg]
      · have w := abs_le.1 (d1 c)
        change -err (get o a).val ≤ (get o a).val + (get d a).val * (nr o d a).val ∧
          (get o a).val + (get d a).val * (nr o d a).val ≤ err (get o a).val at w
        rw [if_neg (by norm_num), h3, abs_le, tol_err]
        constructor <;> linarith [w.1, w.2, na.1, na.2]
  · rename_i c2
    have c2 : v (nr o d a) ≤ v minDist := by simpa using c2
    split at hit
    · rename_i c3
      have c3 : v minDist < v (fr o d b) := by simpa using c3
      obtain ⟨h1, h2, h3, h4⟩ := finish_some hit
      rw [lt_v gD gb, v_finite fD, decide_eq_false_iff_not, not_lt] at h1
      have DD := abs_lt.1 (ok_val oD).2
      have ft : (fr o d b).Finite := finite_of_v gb (abs_lt.2 ⟨by rw [gm.2.2.2] at c3; norm_num at *; linarith, by linarith [DD.2]⟩)
      have fv := v_finite ft
      have hat : At 1 o d (fr o d b).val := inn _ (ok_val gb.1).2 (by rw [← fv]; exact c1) fv.ge
      rw [h2, h3]
      refine ⟨ft, by rw [gm.2.2.1, ← gm.2.2.2, ← fv]; exact c3, by rw [← fv]; exact h1, box _ ft hat, Or.inr ⟨?_, turned ha (h.get a).fd h4, ?_⟩⟩
      · have mv := v_finite gm.2.1
        exact inn _ (ok_val gm.1.1).2 (by rw [← mv]; exact c2) (by rw [← mv]; exact c3.le)
      · have sf := h.get b
        obtain ⟨d0, d1, d2⟩ := (slab_fair sf).leave ft
        have na := abs_le.1 (near_at h ft hat b hb).2
        refine ⟨b, hb, d0, ?_⟩
        rcases lt_or_gt_of_ne d0 with c | c
        · have w := abs_le.1 (d2 c)
          change -err (get o b).val ≤ (get o b).val + (get d b).val * (fr o d b).val ∧
            (get o b).val + (get d b).val * (fr o d b).val ≤ err (get o b).val at w
          rw [if_neg (by linarith), h3, abs_le, tol_err]
          constructor <;> linarith [w.1, w.2, na.1, na.2]
        · have w := abs_le.1 (d1 c)
          change -err (get o b).val ≤ (get o b).val + (get d b).val * (fr o d b).val - 1 ∧
            (get o b).val + (get d b).val * (fr o d b).val - 1 ≤ err (get o b).val at w
          rw [if_pos c, h3, abs_le, tol_err]
          constructor <;> linarith [w.1, w.2, na.1, na.2]
    · cases hit

/-- **C173.** A ray that goes through the box, by more than the error, behind the smallest parameter and is not in the box there
is reported to hit it, not behind any such point; a ray may not be stopped by something nearer. -/
theorem C173_outside {o d : V3 F32} (h : FairRay o d) {D : F32} (oD : D.Ok) (fD : D.Finite) {t : ℚ} (ht : minDist.val < t)
    (tD : t ≤ D.val) (hat : At (-1) o d t) (out : ¬ At 1 o d minDist.val) :
    ∃ H, intersect o d D = some H ∧ H.distance.val ≤ t ∧ Enters o d H := by
  obtain ⟨a, b, ha, hb, hn, hf, e⟩ := select h D
  have gm := minDist_good
  have mv := v_finite gm.2.1
  have ga : Good (nr o d a) := (slab_fair (h.get a)).gn
  have gb : Good (fr o d b) := (slab_fair (h.get b)).gf
  have DD := abs_lt.1 (ok_val oD).2
  have t128 : |t| < 2 ^ 128 := by
    rw [gm.2.2.1] at ht
    exact abs_lt.2 ⟨by norm_num at *; linarith, by linarith [DD.2]⟩
  have sp : ∀ i, i < 3 → v (nr o d i) ≤ t ∧ t ≤ v (fr o d i) := by
    intro i hi
    have := hat i hi
    exact (slab_fair (h.get i)).out t t128 (by linarith [this.1]) (by linarith [this.2])
  have l1 := (sp a ha).1
  have l2 := (sp b hb).2
  have c2 : v minDist < v (nr o d a) := by
    by_contra k
    refine out fun i hi => ?_
    rw [one_mul]
    exact (slab_fair (h.get i)).inn _ (ok_val gm.1.1).2 ((hn i hi).trans ((not_lt.1 k).trans mv.le))
      (ht.le.trans (l2.trans (hf i hi)))
  have gD := good_finite oD fD
  rw [lt_v gb ga, lt_v gm.1 ga, if_neg (by simp; linarith), if_pos (by simpa using c2)] at e
  obtain ⟨H, e1, e2⟩ := finish_isSome (o := o) (d := d) (D := D) (t := nr o d a) (a := a) (b := false)
    (by rw [lt_v gD ga, v_finite fD, decide_eq_false_iff_not]; linarith)
  have eh := e.trans e1
  have fin : (nr o d a).Finite := finite_of_v ga (abs_lt.2 ⟨by rw [gm.2.2.2] at c2; norm_num at *; linarith, by linarith [DD.2]⟩)
  refine ⟨H, eh, by rw [e2, ← v_finite fin]; exact l1, ?_⟩
  rcases (C173_hit h oD fD eh).2.2.2.2 with r | r
  · exact r
  · exact absurd r.1 out

/-- **C173.** A ray that is in the box at the smallest parameter, and goes on in it, is reported to leave it, not before any
point of the ray in the box, unless something is nearer. -/
theorem C173_inside {o d : V3 F32} (h : FairRay o d) (hd : ∃ i, i < 3 ∧ (get d i).val ≠ 0) {D : F32} (oD : D.Ok) (fD : D.Finite)
    (hD : 2 ^ 123 ≤ D.val) (at0 : At (-1) o d minDist.val) {t : ℚ} (ht : minDist.val < t) (tl : t < 2 ^ 128) (hat : At (-1) o d t) :
    ∃ H, intersect o d D = some H ∧ t ≤ H.distance.val ∧ Leaves o d H := by
  obtain ⟨a, b, ha, hb, hn, hf, e⟩ := select h D
  have gm := minDist_good
  have mv := v_finite gm.2.1
  have ga : Good (nr o d a) := (slab_fair (h.get a)).gn
  have gb : Good (fr o d b) := (slab_fair (h.get b)).gf
  have gD := good_finite oD fD
  have t128 : |t| < 2 ^ 128 := by
    rw [gm.2.2.1] at ht
    exact abs_lt.2 ⟨by norm_num at *; linarith, tl⟩
  have sp : ∀ u : ℚ, |u| < 2 ^ 128 → At (-1) o d u → ∀ i, i < 3 → v (nr o d i) ≤ u ∧ u ≤ v (fr o d i) := by
    intro u hu hat i hi
    have := hat i hi
    exact (slab_fair (h.get i)).out u hu (by linarith [this.1]) (by linarith [this.2])
  have l1 := (sp _ (ok_val gm.1.1).2 at0 a ha).1
  have l2 := (sp t t128 hat b hb).2
  have sm : v (fr o d b) ≤ 2 ^ 123 := by
    obtain ⟨i, hi, d0⟩ := hd
    exact (hf i hi).trans ((le_abs_self _).trans ((slab_fair (h.get i)).small d0))
  have c3 : v minDist < v (fr o d b) := by rw [mv]; linarith
  rw [lt_v gb ga, lt_v gm.1 ga, lt_v gm.1 gb, if_neg (by simp; linarith), if_neg (by simp; rw [mv]; exact l1),
    if_pos (by simpa using c3)] at e
  obtain ⟨H, e1, e2⟩ := finish_isSome (o := o) (d := d) (D := D) (t := fr o d b) (a := a) (b := true)
    (by rw [lt_v gD gb, v_finite fD, decide_eq_false_iff_not]; linarith)
  have eh := e.trans e1
  have fin : (fr o d b).Finite := finite_of_v gb (abs_lt.2 ⟨by rw [gm.2.2.2] at c3; norm_num at *; linarith, by norm_num at *; linarith⟩)
  have fv := v_finite fin
  refine ⟨H, eh, by rw [e2, ← fv]; exact l2, ?_⟩
  refine ⟨fun i hi => ?_, turned ha (h.get a).fd (finish_some e1).2.2.2, ?_⟩
  · rw [one_mul]
    exact (slab_fair (h.get i)).inn _ (ok_val gm.1.1).2 ((hn i hi).trans l1) (by rw [← mv]; exact c3.le.trans (hf i hi))
  · have inn : At 1 o d (fr o d b).val := fun i hi => by
      rw [one_mul]
      refine (slab_fair (h.get i)).inn _ (ok_val gb.1).2 ((hn i hi).trans (l1.trans ?_)) (by rw [← fv]; exact hf i hi)
      rw [← fv, ← mv]; exact c3.le
    have sf := h.get b
    obtain ⟨d0, d1, d2⟩ := (slab_fair sf).leave fin
    have na := abs_le.1 (near_at h fin inn b hb).2
    obtain ⟨-, -, h3, -⟩ := finish_some e1
    refine ⟨b, hb, d0, ?_⟩
    rcases lt_or_gt_of_ne d0 with c | c
    · have w := abs_le.1 (d2 c)
      change -err (get o b).val ≤ (get o b).val + (get d b).val * (fr o d b).val ∧
        (get o b).val + (get d b).val * (fr o d b).val ≤ err (get o b).val at w
      rw [if_neg (by linarith), h3, abs_le, tol_err]
      constructor <;> linarith [w.1, w.2, na.1, na.2]
    · have w := abs_le.1 (d1 c)
      change -err (get o b).val ≤ (get o b).val + (get d b).val * (fr o d b).val - 1 ∧
        (get o b).val + (get d b).val * (fr o d b).val - 1 ≤ err (get o b).val at w
      rw [if_pos c, h3, abs_le, tol_err]
      constructor <;> linarith [w.1, w.2, na.1, na.2]

theorem sgn_or (a : F32) : sgn a = num 1 ∨ sgn a = num (-1) := by
  unfold sgn
  split
  · exact Or.inl rfl
  · exact Or.inr rfl

/-- A tangent of length one at right angles to the normal of length one along axis `i`. -/
def Framed (H : Hit) : Prop :=
  ∃ i s, i < 3 ∧ (s = 1 ∨ s = -1) ∧ H.normal = axisNormal i (num s) ∧
    H.normal.x.val * H.dpdu.x.val + H.normal.y.val * H.dpdu.y.val + H.normal.z.val * H.dpdu.z.val = 0 ∧
    H.dpdu.x.val ^ 2 + H.dpdu.y.val ^ 2 + H.dpdu.z.val ^ 2 = 1 ∧ H.dpdu.x.Finite ∧ H.dpdu.y.Finite ∧ H.dpdu.z.Finite

theorem finish_framed {o d : V3 F32} {D t : F32} {a : Nat} {b : Bool} {H : Hit} (ha : a < 3) (h : finish o d D t a b = some H) :
    Framed H := by
  unfold finish at h
  split at h
  · cases h
  · simp only [Option.some.injEq] at h
    subst h
    have m1 : F32.mul (neg (num 1)) (num (-1)) = num 1 := by decide +kernel
    have m2 : F32.mul (neg (num (-1))) (num (-1)) = num (-1) := by decide +kernel
    have n1 : neg (num 1) = num (-1) := rfl
    have n2 : neg (num (-1)) = num 1 := by decide +kernel
    have es : ∃ s : ℚ, (s = 1 ∨ s = -1) ∧
        (if b = true then F32.mul (neg (sgn (get d a))) (num (-1)) else neg (sgn (get d a))) = num s := by
      rcases sgn_or (get d a) with e | e <;> rw [e] <;> cases b
      · exact ⟨-1, Or.inr rfl, n1⟩
      · exact ⟨1, Or.inl rfl, m1⟩
      · exact ⟨1, Or.inl rfl, n2⟩
      · exact ⟨-1, Or.inr rfl, m2⟩
    obtain ⟨s, hs, e⟩ := es
    refine ⟨a, s, ha, hs, by dsimp only; rw [e], ?_⟩
    dsimp only
    rw [e]
    interval_cases a <;> rcases hs with rfl | rfl <;> norm_num [axisNormal, zip, val, isZero, neg, F32.Finite]

/-- **C173.** Of every ray, whatever its numbers are: a hit comes with a normal along an axis and a tangent at right angles to
it, both of length one. -/
theorem C173_frame {o d : V3 F32} {D : F32} {H : Hit} (hit : intersect o d D = some H) : Framed H := by
  have last : ∀ (p : F32 × Nat) (M : F32), p.2 < 3 → (if lt M p.1 then none
      else if lt minDist p.1 then finish o d D p.1 p.2 false
      else if lt minDist M then finish o d D M p.2 true else none) = some H → Framed H := by
    intro p M hp h
    split at h
    · cases h
    · split at h
      · exact finish_framed hp h
      · split at h
        · exact finish_framed hp h
        · cases h
  have first : ∀ (p : F32 × Nat) (M : F32), p.2 < 3 → (if lt M p.1 then none
      else
        let q := if lt p.1 (slab o.z d.z).1 then ((slab o.z d.z).1, 2) else (p.1, p.2)
        let M' := if lt (slab o.z d.z).2 M then (slab o.z d.z).2 else M
        if lt M' q.1 then none
        else if lt minDist q.1 then finish o d D q.1 q.2 false
        else if lt minDist M' then finish o d D M' q.2 true else none) = some H → Framed H := by
    intro p M hp h
    split at h
    · cases h
    · refine last _ _ ?_ h
      split
      · norm_num
      · exact hp
  refine first (if lt (slab o.x d.x).1 (slab o.y d.y).1 then ((slab o.y d.y).1, 1) else ((slab o.x d.x).1, 0)) _ ?_ hit
  split <;> norm_num

/-! ### Rays in the plane of a face -/

/-- **C173 does not hold for rays in the plane of a face.** A ray in the plane `x = 0` (the component of its direction is `0`)
is reported to hit the box wherever it is, when both other slabs are left behind the smallest parameter: `0 * inf` is not
a number, and no comparison with it is true. -/
theorem C173_violated_plane {o d : V3 F32} {s : Bool} (ho : o.x = zero s) (hd : d.x = zip) (hy : Fair o.y d.y)
    (dy : d.y.val ≠ 0) (D : F32) :
    intersect o d D = (let t := if lt (slab o.z d.z).2 (slab o.y d.y).2 then (slab o.z d.z).2 else (slab o.y d.y).2
      if lt minDist t then finish o d D t 0 true else none) := by
  have sx : slab o.x d.x = (nan, inf false) := by
    rw [ho, hd]; cases s <;> decide +kernel
  have fy := slab_fair hy
  have sm := fy.small dy
  have ly : lt (slab o.y d.y).2 (inf false) = true := by
    rw [lt_v fy.gf (good_inf false), decide_eq_true_iff]
    show v (slab o.y d.y).2 < 2 ^ 128
    have := (abs_le.1 sm).2
    norm_num at this ⊢; linarith
  have nl : ∀ x : F32, lt nan x = false := fun x => rfl
  have ln : ∀ x : F32, lt x nan = false := fun x => by cases x <;> rfl
  unfold intersect
  rw [sx]
  dsimp only
  simp only [nl, ln, ly, if_true, Bool.false_eq_true, if_false]

/-- **C173 does not hold for rays in the plane of a face.** A ray in the plane `x = 1` is reported to hit the box wherever it
is, at the last entry into the other two slabs, even when it has left one of them before. -/
theorem C173_violated_plane_one {o d : V3 F32} (ho : o.x = one) (hd : d.x = zip) (hy : Fair o.y d.y) (hz : Fair o.z d.z)
    (h : v minDist < v (slab o.z d.z).1) (ny : v (slab o.y d.y).1 < v (slab o.z d.z).1) (yi : -2 ^ 128 < v (slab o.y d.y).1) (D : F32) :
    intersect o d D = finish o d D (slab o.z d.z).1 2 false := by
  have sx : slab o.x d.x = (inf true, nan) := by
    rw [ho, hd]; decide +kernel
  have fy := (slab_fair hy).gn
  have fz := (slab_fair hz).gn
  have ln : ∀ x : F32, lt x nan = false := fun x => by cases x <;> rfl
  have nl : ∀ x : F32, lt nan x = false := fun x => rfl
  have l1 : lt (inf true) (slab o.y d.y).1 = true := by
    rw [lt_v (good_inf true) fy, decide_eq_true_iff]; exact yi
  have l2 : lt (slab o.y d.y).1 (slab o.z d.z).1 = true := by rw [lt_v fy fz, decide_eq_true_iff]; exact ny
  have l3 : lt minDist (slab o.z d.z).1 = true := by rw [lt_v minDist_good.1 fz, decide_eq_true_iff]; exact h
  unfold intersect
  rw [sx]
  dsimp only
  simp only [nl, ln, l1, l2, l3, if_true, Bool.false_eq_true, if_false]

/-- A component as `Fair`, but with the origin anywhere. -/
structure Comp (o d : F32) : Prop where
  oo : o.Ok
  od : d.Ok
  fo : o.Finite
  fd : d.Finite
  lo : |o.val| ≤ 2 ^ 60
  comp : (1 / 2 ^ 60 ≤ |d.val| ∧ |d.val| ≤ 2) ∨ d.val = 0

/-- Full statement of C173: what is reported as hit is in the box, for all rays. -/
def HitsInBox : Prop := ∀ (o d : V3 F32) (D : F32) (H : Hit), (∀ i, i < 3 → Comp (get o i) (get d i)) → D.Ok → D.Finite →
  intersect o d D = some H → InBox o H.point

theorem comp_num {a b : ℤ} (a0 : a ≠ 0) (b0 : b ≠ 0) (la : |a| ≤ 2 ^ 24) (lb : |b| ≤ 2) : Comp (num a) (num b) := by
  refine ⟨FLight.ok_of_num a0 la, FLight.ok_of_num b0 (lb.trans (by norm_num)), trivial, trivial, ?_, Or.inl ⟨?_, ?_⟩⟩
  · show |(a : ℚ)| ≤ 2 ^ 60
    have : (|(a : ℚ)|) ≤ 2 ^ 24 := by exact_mod_cast la
    exact this.trans (by norm_num)
  · show 1 / 2 ^ 60 ≤ |(b : ℚ)|
    have : (1 : ℚ) ≤ |(b : ℚ)| := by exact_mod_cast Int.one_le_abs b0
    exact le_trans (by norm_num) this
  · show |(b : ℚ)| ≤ 2
    exact_mod_cast lb

theorem fair_num {a b : ℤ} (a0 : a ≠ 0) (b0 : b ≠ 0) (la : |a| ≤ 2 ^ 24) (lb : |b| ≤ 2) : Fair (num a) (num b) := by
  have h := comp_num a0 b0 la lb
  refine ⟨h.oo, h.od, h.fo, h.fd, h.lo, Or.inl ?_⟩
  rcases h.comp with c | c
  · exact c
  · exact absurd c (show (b : ℚ) ≠ 0 by exact_mod_cast b0)

/-- The ray that passes the box at a distance of eight, and is said to hit it. -/
def slideO : V3 F32 := ⟨zip, num (-10), num (-1)⟩
def slideD : V3 F32 := ⟨zip, num 1, num 1⟩

theorem slide_hit : intersect slideO slideD (num (2 ^ 100)) =
    some ⟨num 2, ⟨zip, num (-8), num 1⟩, ⟨num 1, zip, zip⟩, ⟨neg zip, num 1, zip⟩⟩ := by decide +kernel

/-- **C173 is violated.** A ray in the plane of the face `x = 0` that passes the box at a distance of eight is reported to hit
it, at a point that far away. -/
theorem C173_violated : ¬ HitsInBox := by
  intro h
  have hp : (num (2 ^ 100)).Ok := FLight.num_ok (by norm_num)
    (by simpa using rnd32_pow 100 (by norm_num)) (by norm_num)
  have c : ∀ i, i < 3 → Comp (get slideO i) (get slideD i) := by
    intro i hi
    interval_cases i
    · exact ⟨trivial, trivial, trivial, trivial, by norm_num [get, slideO, zip, val], Or.inr rfl⟩
    · exact comp_num (a := -10) (b := 1) (by norm_num) (by norm_num) (by norm_num) (by norm_num)
    · exact comp_num (a := -1) (b := 1) (by norm_num) (by norm_num) (by norm_num) (by norm_num)
  have := (h slideO slideD _ _ c hp trivial slide_hit 1 (by norm_num)).2.1
  have k : -tol (-10) ≤ (-8 : ℚ) := this
  norm_num [tol] at k

/-! ### Examples -/

/-- A ray from outside along `z`, parallel to the other faces. -/
def fwdO : V3 F32 := ⟨num (1 / 2), num (1 / 2), num (-4)⟩
def fwdD : V3 F32 := ⟨zip, neg zip, num 1⟩

theorem half_fair (s : Bool) : Fair (num (1 / 2)) (zero s) :=
  ⟨FLight.half_ok.1, trivial, trivial, trivial, by norm_num [val], Or.inr ⟨rfl, by norm_num [val], by norm_num [val]⟩⟩

theorem fwd_fair : FairRay fwdO fwdD :=
  ⟨half_fair false, half_fair true, fair_num (a := -4) (b := 1) (by norm_num) (by norm_num) (by norm_num) (by norm_num)⟩

/-- A distance behind everything. -/
theorem big_ok : (num (2 ^ 127)).Ok :=
  FLight.num_ok (by norm_num) (by simpa using rnd32_pow 127 (by norm_num)) (by norm_num)

theorem fwd_hit : intersect fwdO fwdD (num (2 ^ 127)) =
    some ⟨num 4, ⟨num (1 / 2), num (1 / 2), zip⟩, ⟨zip, zip, num (-1)⟩, ⟨num (-1), zip, zip⟩⟩ := by decide +kernel

/-- C173_hit, C173_frame: the ray along `z` enters at `z = 0`. -/
example := C173_hit fwd_fair big_ok trivial fwd_hit
example := C173_frame fwd_hit

theorem fwd_at : At (-1) fwdO fwdD (9 / 2) := by
  intro i hi
  interval_cases i <;> norm_num [get, fwdO, fwdD, zip, val, err, neg]

theorem fwd_out : ¬ At 1 fwdO fwdD minDist.val := by
  intro h
  have := (h 2 (by norm_num)).1
  rw [minDist_num] at this
  norm_num [get, fwdO, fwdD, val, err] at this

/-- C173_outside: found. -/
example := C173_outside fwd_fair big_ok trivial (t := 9 / 2) (by rw [minDist_num]; norm_num [val]) (by norm_num [val]) fwd_at fwd_out

/-- A ray from the middle of the box. -/
def midO : V3 F32 := ⟨num (1 / 2), num (1 / 2), num (1 / 2)⟩

theorem mid_fair : FairRay midO fwdD := by
  refine ⟨half_fair false, half_fair true, ⟨FLight.half_ok.1, FLight.one_ok, trivial, trivial, by norm_num [midO, val], Or.inl ?_⟩⟩
  norm_num [fwdD, val]

/-- C173_inside: leaves. -/
example := C173_inside mid_fair ⟨2, by norm_num, by norm_num [get, fwdD, val]⟩ big_ok trivial (by norm_num [val])
  (by rw [minDist_num]; intro i hi; interval_cases i <;> norm_num [get, midO, fwdD, zip, val, err, neg])
  (t := 1 / 4) (by rw [minDist_num]; norm_num [val]) (by norm_num)
  (by intro i hi; interval_cases i <;> norm_num [get, midO, fwdD, zip, val, err, neg])

/-- C173_violated_plane, at the ray that passes at a distance of eight. -/
example := C173_violated_plane (o := slideO) (d := slideD) rfl rfl
  (fair_num (a := -10) (b := 1) (by norm_num) (by norm_num) (by norm_num) (by norm_num)) (by norm_num [slideD, val])

/-- C173_violated_plane_one: a ray in the plane `x = 1` that leaves the slab of `y` at parameter 2, and is reported to hit
the box at parameter 10. -/
example : intersect ⟨one, num (-1), num (-10)⟩ ⟨zip, num 1, num 1⟩ (num (2 ^ 127)) =
    some ⟨num 10, ⟨num 1, num 9, zip⟩, ⟨zip, zip, num (-1)⟩, ⟨num (-1), zip, zip⟩⟩ := by
  rw [C173_violated_plane_one rfl rfl
    (fair_num (a := -1) (b := 1) (by norm_num) (by norm_num) (by norm_num) (by norm_num))
    (fair_num (a := -10) (b := 1) (by norm_num) (by norm_num) (by norm_num) (by norm_num))]
  all_goals decide +kernel

end Spectre.FBox
