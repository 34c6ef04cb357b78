import Verif.Model.FloatMaterial
import Verif.Model.IeeeLemmas
import Verif.Props.Normalize
import Verif.Model.Metals

/-
Properties C157 and C158: Fresnel terms and refraction in binary32.
-/

namespace Spectre.FMat

open Spectre.Geom F32

/-! ### Spec -/

/-- A finite number between `lo` and `hi`. -/
def In (lo hi : ℚ) (a : F32) : Prop := a.Finite ∧ lo ≤ a.val ∧ a.val ≤ hi

/-- The number is a binary32 number. -/
abbrev Rep (q : ℚ) : Prop := rnd32 q = q ∧ |q| < 2 ^ 128

/-- Refraction indices: between 1/1024 and 1024. -/
def Index (a : F32) : Prop := a.Ok ∧ In (1 / 1024) 1024 a

/-! ### Bounds of the operations -/

theorem rnd_between {q lo hi : ℚ} (h1 : lo ≤ q) (h2 : q ≤ hi) (rl : Rep lo) (rh : Rep hi) :
    |rnd32 q| < 2 ^ 128 ∧ lo ≤ rnd32 q ∧ rnd32 q ≤ hi := by
  have a := rnd32_mono h1
  have b := rnd32_mono h2
  rw [rl.1] at a
  rw [rh.1] at b
  refine ⟨abs_lt.2 ⟨?_, ?_⟩, a, b⟩
  · have := (abs_lt.1 rl.2).1; linarith
  · have := (abs_lt.1 rh.2).2; linarith

theorem in_mul {a b : F32} {lo hi : ℚ} (fa : a.Finite) (fb : b.Finite) (h1 : lo ≤ a.val * b.val)
    (h2 : a.val * b.val ≤ hi) (rl : Rep lo) (rh : Rep hi) : In lo hi (F32.mul a b) := by
  obtain ⟨x, y, z⟩ := rnd_between h1 h2 rl rh
  obtain ⟨f, e⟩ := mul_finite fa fb x
  exact ⟨f, e ▸ y, e ▸ z⟩

theorem in_add {a b : F32} {lo hi : ℚ} (fa : a.Finite) (fb : b.Finite) (h1 : lo ≤ a.val + b.val)
    (h2 : a.val + b.val ≤ hi) (rl : Rep lo) (rh : Rep hi) : In lo hi (add a b) := by
  obtain ⟨x, y, z⟩ := rnd_between h1 h2 rl rh
  obtain ⟨f, e⟩ := add_finite fa fb x
  exact ⟨f, e ▸ y, e ▸ z⟩

theorem in_sub {a b : F32} {lo hi : ℚ} (fa : a.Finite) (fb : b.Finite) (h1 : lo ≤ a.val - b.val)
    (h2 : a.val - b.val ≤ hi) (rl : Rep lo) (rh : Rep hi) : In lo hi (sub a b) := by
  obtain ⟨x, y, z⟩ := rnd_between h1 h2 rl rh
  obtain ⟨f, e⟩ := sub_fin fa fb x
  exact ⟨f, e ▸ y, e ▸ z⟩

theorem in_div {a b : F32} {lo hi : ℚ} (fa : a.Finite) (fb : b.Finite) (h0 : b.val ≠ 0) (h1 : lo ≤ a.val / b.val)
    (h2 : a.val / b.val ≤ hi) (rl : Rep lo) (rh : Rep hi) : In lo hi (div a b) := by
  obtain ⟨x, y, z⟩ := rnd_between h1 h2 rl rh
  obtain ⟨f, e⟩ := div_finite fa fb h0 x
  exact ⟨f, e ▸ y, e ▸ z⟩

theorem in_fmax {a : F32} {lo hi : ℚ} (h : In lo hi a) (hh : 0 ≤ hi) : In 0 hi (fmax zip a) ∧
    (fmax zip a).val = max 0 a.val := by
  obtain ⟨f, x, y⟩ := h
  unfold fmax
  have e := lt_finite f (show zip.Finite from trivial)
  rw [e]
  have z : zip.val = 0 := rfl
  rw [z]
  by_cases c : a.val < 0
  · simp only [c, decide_true, if_true]
    exact ⟨⟨trivial, le_rfl, hh⟩, by rw [z, max_eq_left c.le]⟩
  · simp only [c, decide_false]
    push Not at c
    exact ⟨⟨f, c, y⟩, by rw [if_neg (by simp), max_eq_right c]⟩

/-- `sqrtf` of a finite number that is not negative. -/
theorem sqrt_finite {a : F32} (h : a.Finite) (h0 : 0 ≤ a.val) :
    (F32.sqrt a).Finite ∧ 0 ≤ (F32.sqrt a).val ∧ (0 < a.val → (F32.sqrt a).val = sqrt32 a.val) ∧
      (a.val = 0 → (F32.sqrt a).val = 0) := by
  cases a with
  | nan => exact h.elim
  | inf s => exact h.elim
  | zero s => exact ⟨trivial, le_rfl, fun h => absurd h (lt_irrefl _), fun _ => rfl⟩
  | num q =>
    have hq : ¬ q < 0 := not_lt.2 h0
    have e : F32.sqrt (num q) = num (sqrt32 q) := by unfold F32.sqrt; simp [hq]
    rw [e]
    rcases eq_or_lt_of_le h0 with h1 | h1
    · have h1 : q = 0 := h1.symm
      subst h1
      have : sqrt32 0 = 0 := by
        unfold sqrt32
        simp [Int.log_zero_right]
      rw [this]
      exact ⟨trivial, le_rfl, fun h => absurd h (lt_irrefl _), fun _ => rfl⟩
    · have h1 : 0 < q := h1
      exact ⟨trivial, (sqrt32_pos h1).le, fun _ => rfl, fun h => absurd h (ne_of_gt h1)⟩

theorem sqrt32_one : sqrt32 1 = 1 := by
  have := Normalize.sqrt32_pow 0
  simpa using this

/-- The root of a number up to one. -/
theorem in_sqrt {a : F32} (h : In 0 1 a) : In 0 1 (F32.sqrt a) := by
  obtain ⟨f, x, y⟩ := h
  obtain ⟨g, u, v, w⟩ := sqrt_finite f x
  refine ⟨g, u, ?_⟩
  rcases eq_or_lt_of_le x with h1 | h1
  · rw [w h1.symm]; norm_num
  · rw [v h1]
    rcases eq_or_lt_of_le y with h2 | h2
    · rw [h2, sqrt32_one]
    · simpa using sqrt32_le h1 (k := 0) (by simpa using h2)

/-- A binary32 number below one is at most `1 - 2^-24`. -/
theorem gap_one {q : ℚ} (r : rnd32 q = q) (h : q < 1) : q ≤ 1 - 1 / 2 ^ 24 := by
  by_cases h2 : q < 1 / 2
  · refine h2.le.trans ?_; norm_num
  · push Not at h2
    have h0 : 0 < q := lt_of_lt_of_le (by norm_num) h2
    have l1 : -1 ≤ Int.log 2 q := by
      rw [← Int.zpow_le_iff_le_log (by norm_num) h0]; norm_num; linarith
    have l2 : Int.log 2 q < 0 := by
      rw [← Int.lt_zpow_iff_log_lt (by norm_num) h0]; simpa using h
    have e : ulp32 q = -24 := by
      unfold ulp32 ulpExp
      rw [abs_of_pos h0, show Int.log 2 q = -1 by omega]; rfl
    unfold rnd32 at r
    rw [e] at r
    have hm : (rne (q / 2 ^ (-24 : ℤ)) : ℚ) < 2 ^ 24 := by
      by_contra hc
      push Not at hc
      have : (2 : ℚ) ^ 24 * 2 ^ (-24 : ℤ) ≤ q := by
        rw [← r]; exact mul_le_mul_of_nonneg_right hc (by positivity)
      norm_num at this
      linarith
    have hm' : (rne (q / 2 ^ (-24 : ℤ))) ≤ 2 ^ 24 - 1 := by
      have : (rne (q / 2 ^ (-24 : ℤ))) < 2 ^ 24 := by exact_mod_cast hm
      omega
    have hm2 : (rne (q / 2 ^ (-24 : ℤ)) : ℚ) ≤ 2 ^ 24 - 1 := by exact_mod_cast hm'
    rw [← r]
    calc (rne (q / 2 ^ (-24 : ℤ)) : ℚ) * 2 ^ (-24 : ℤ) ≤ (2 ^ 24 - 1) * 2 ^ (-24 : ℤ) :=
          mul_le_mul_of_nonneg_right hm2 (by positivity)
      _ = 1 - 1 / 2 ^ 24 := by norm_num

theorem ge_finite {a b : F32} (ha : a.Finite) (hb : b.Finite) : ge a b = decide (b.val ≤ a.val) := by
  unfold ge
  rw [lt_finite hb ha]
  have : F32.eq a b = decide (a.val = b.val) := by
    cases a <;> cases b <;> simp only [F32.Finite] at ha hb <;> rfl
  rw [this, Bool.eq_iff_iff, Bool.or_eq_true, decide_eq_true_eq, decide_eq_true_eq, decide_eq_true_eq, eq_comm]
  exact le_iff_lt_or_eq.symm

theorem one_finite : one.Finite ∧ one.val = 1 := ⟨trivial, rfl⟩
theorem two_finite : two.Finite ∧ two.val = 2 := ⟨trivial, rfl⟩

theorem index_pos {a : F32} (h : Index a) : 0 < a.val := lt_of_lt_of_le (by norm_num) h.2.2.1

/-! ### The reflected part -/

/-- Difference over sum of two numbers that are not negative is at most one. -/
theorem ratio {a b : F32} (fa : a.Finite) (fb : b.Finite) (pa : 0 ≤ a.val) (pb : 0 ≤ b.val)
    (hs : a.val + b.val ≤ 2 ^ 100) (h0 : 2 ^ (-120 : ℤ) ≤ a.val + b.val) :
    In (-1) 1 (div (sub a b) (add a b)) := by
  obtain ⟨f1, l1, u1⟩ := in_add fa fb (lo := 2 ^ (-120 : ℤ)) (hi := 2 ^ 100) h0 hs ⟨by decide +kernel, by norm_num⟩
    ⟨by decide +kernel, by norm_num⟩
  obtain ⟨x, -, -⟩ := rnd_between h0 hs ⟨by decide +kernel, by norm_num⟩ ⟨by decide +kernel, by norm_num⟩
  have e1 := (add_finite fa fb x).2
  obtain ⟨x', -, -⟩ := rnd_between (q := a.val - b.val) (lo := -2 ^ 100) (hi := 2 ^ 100) (by linarith) (by linarith)
    ⟨by decide +kernel, by norm_num⟩ ⟨by decide +kernel, by norm_num⟩
  obtain ⟨f2, e2⟩ := sub_fin fa fb x'
  have hp : 0 < (add a b).val := lt_of_lt_of_le (two_zpow_pos _) l1
  have u : (sub a b).val ≤ (add a b).val := by rw [e1, e2]; exact rnd32_mono (by linarith)
  have l : -(add a b).val ≤ (sub a b).val := by
    rw [e1, e2, ← rnd32_neg]; exact rnd32_mono (by linarith)
  refine in_div f2 f1 hp.ne' ?_ ?_ ⟨by decide +kernel, by norm_num⟩ ⟨by decide +kernel, by norm_num⟩
  · rw [le_div_iff₀ hp]; linarith
  · rw [div_le_iff₀ hp]; linarith

theorem sq_in {a : F32} (h : In (-1) 1 a) : In 0 1 (F32.mul a a) := by
  obtain ⟨f, l, u⟩ := h
  exact in_mul f f (mul_self_nonneg _) (by nlinarith) ⟨by decide +kernel, by norm_num⟩ ⟨by decide +kernel, by norm_num⟩

theorem half_sum {a b : F32} (ha : In 0 1 a) (hb : In 0 1 b) : In 0 1 (div (add a b) two) := by
  obtain ⟨f, l, u⟩ := in_add (lo := 0) (hi := 2) ha.1 hb.1 (add_nonneg ha.2.1 hb.2.1) (by linarith [ha.2.2, hb.2.2])
    ⟨by decide +kernel, by norm_num⟩ ⟨by decide +kernel, by norm_num⟩
  have e : two.val = 2 := rfl
  refine in_div f trivial (by rw [e]; norm_num) ?_ ?_ ⟨by decide +kernel, by norm_num⟩ ⟨by decide +kernel, by norm_num⟩
  · rw [e]; linarith
  · rw [e]; linarith

theorem part_in {ei et c t : F32} (hei : Index ei) (het : Index et) (hc : In 0 (2 ^ 13) c) (ht : In 0 (2 ^ 13) t)
    (hpos : 2 ^ (-100 : ℤ) ≤ c.val ∨ 2 ^ (-100 : ℤ) ≤ t.val) : In 0 1 (fresnelPart ei et c t) := by
  have up : ∀ {a b : F32}, Index a → In 0 (2 ^ 13) b → a.val * b.val ≤ 2 ^ 23 := by
    intro a b ha hb
    calc a.val * b.val ≤ 1024 * 2 ^ 13 := mul_le_mul ha.2.2.2 hb.2.2 hb.2.1 (by norm_num)
      _ = 2 ^ 23 := by norm_num
  have prod : ∀ {a b : F32}, Index a → In 0 (2 ^ 13) b → In 0 (2 ^ 23) (F32.mul a b) := by
    intro a b ha hb
    exact in_mul ha.2.1 hb.1 (mul_nonneg (index_pos ha).le hb.2.1) (up ha hb) ⟨by decide +kernel, by norm_num⟩
      ⟨by decide +kernel, by norm_num⟩
  have prodpos : ∀ {a b : F32}, Index a → In 0 (2 ^ 13) b → 2 ^ (-100 : ℤ) ≤ b.val →
      2 ^ (-120 : ℤ) ≤ (F32.mul a b).val := by
    intro a b ha hb hp
    have h3 : (2 : ℚ) ^ (-120 : ℤ) ≤ a.val * b.val := by
      calc (2 : ℚ) ^ (-120 : ℤ) ≤ 1 / 1024 * 2 ^ (-100 : ℤ) := by norm_num
        _ ≤ a.val * b.val := mul_le_mul ha.2.2.1 hp (by positivity) (index_pos ha).le
    exact (in_mul ha.2.1 hb.1 h3 (up ha hb) ⟨by decide +kernel, by norm_num⟩ ⟨by decide +kernel, by norm_num⟩).2.1
  have a1 := prod het hc
  have a2 := prod hei hc
  have a3 := prod het ht
  have a4 := prod hei ht
  have big : ∀ {a b : F32}, In 0 (2 ^ 23) a → In 0 (2 ^ 23) b → a.val + b.val ≤ 2 ^ 100 := by
    intro a b ha hb
    have := ha.2.2; have := hb.2.2
    norm_num at *; linarith
  unfold fresnelPart
  have r1 : In (-1) 1 (div (sub (F32.mul ei c) (F32.mul et t)) (add (F32.mul ei c) (F32.mul et t))) := by
    refine ratio a2.1 a3.1 a2.2.1 a3.2.1 (big a2 a3) ?_
    rcases hpos with h | h
    · have := prodpos hei hc h; have := a3.2.1; linarith
    · have := prodpos het ht h; have := a2.2.1; linarith
  have r2 : In (-1) 1 (div (sub (F32.mul et c) (F32.mul ei t)) (add (F32.mul et c) (F32.mul ei t))) := by
    refine ratio a1.1 a4.1 a1.2.1 a4.2.1 (big a1 a4) ?_
    rcases hpos with h | h
    · have := prodpos het hc h; have := a4.2.1; linarith
    · have := prodpos hei ht h; have := a1.2.1; linarith
  exact half_sum (sq_in r2) (sq_in r1)

theorem In.wide {lo hi lo' hi' : ℚ} {a : F32} (h : In lo hi a) (h1 : lo' ≤ lo) (h2 : hi ≤ hi') : In lo' hi' a :=
  ⟨h.1, h1.trans h.2.1, h.2.2.trans h2⟩

/-- The sine of the transmitted ray is a number. -/
theorem sineT_in {ei et c : F32} (hei : Index ei) (het : Index et) (hc : In 0 2 c) :
    In 0 (2 ^ 20) (sineT ei et c) := by
  have c2 : In 0 4 (F32.mul c c) := by
    refine in_mul hc.1 hc.1 (mul_self_nonneg _) ?_ ⟨by decide +kernel, by norm_num⟩ ⟨by decide +kernel, by norm_num⟩
    have := mul_le_mul hc.2.2 hc.2.2 hc.2.1 (by norm_num)
    linarith
  have s : In (-3) 1 (sub one (F32.mul c c)) := by
    have := c2.2.1; have := c2.2.2
    exact in_sub trivial c2.1 (by rw [one_finite.2]; linarith) (by rw [one_finite.2]; linarith)
      ⟨by decide +kernel, by norm_num⟩ ⟨by decide +kernel, by norm_num⟩
  have r := in_sqrt (in_fmax s (by norm_num)).1
  have pe := index_pos hei
  have pt := index_pos het
  have q : In 0 (2 ^ 20) (div ei et) := by
    refine in_div hei.2.1 het.2.1 pt.ne' (by positivity) ?_ ⟨by decide +kernel, by norm_num⟩ ⟨by decide +kernel, by norm_num⟩
    rw [div_le_iff₀ pt]
    have := hei.2.2.2; have := het.2.2.1
    norm_num; linarith
  unfold sineT
  refine in_mul q.1 r.1 (mul_nonneg q.2.1 r.2.1) ?_ ⟨by decide +kernel, by norm_num⟩ ⟨by decide +kernel, by norm_num⟩
  have := mul_le_mul q.2.2 r.2.2 r.2.1 (by norm_num)
  linarith

/-- The cosine of the transmitted ray is a number, and not zero if the sine is below one. -/
theorem cosOf_in {s : F32} (ho : s.Ok) (h : In 0 1 s) :
    In 0 1 (cosOf s) ∧ (s.val < 1 → 2 ^ (-12 : ℤ) ≤ (cosOf s).val) := by
  have s2 : In 0 1 (F32.mul s s) := sq_in ⟨h.1, by linarith [h.2.1], h.2.2⟩
  have d : In 0 1 (sub one (F32.mul s s)) := by
    have := s2.2.1; have := s2.2.2
    exact in_sub trivial s2.1 (by rw [one_finite.2]; linarith) (by rw [one_finite.2]; linarith)
      ⟨by decide +kernel, by norm_num⟩ ⟨by decide +kernel, by norm_num⟩
  obtain ⟨m, em⟩ := in_fmax d (by norm_num)
  refine ⟨in_sqrt m, fun hlt => ?_⟩
  have g := gap_one (ok_val ho).1 hlt
  have s3 : (F32.mul s s).val ≤ 1 - 1 / 2 ^ 24 := by
    have h3 : s.val * s.val ≤ 1 - 1 / 2 ^ 24 := by
      have := mul_le_mul_of_nonneg_left h.2.2 h.2.1
      linarith
    exact (in_mul h.1 h.1 (mul_self_nonneg _) h3 ⟨by decide +kernel, by norm_num⟩ ⟨by decide +kernel, by norm_num⟩).2.2
  have d2 : (1 : ℚ) / 2 ^ 24 ≤ (sub one (F32.mul s s)).val := by
    have := s2.2.1
    exact (in_sub (lo := 1 / 2 ^ 24) (hi := 1) (a := one) trivial s2.1 (by rw [one_finite.2]; linarith)
      (by rw [one_finite.2]; linarith) ⟨by decide +kernel, by norm_num⟩ ⟨by decide +kernel, by norm_num⟩).2.1
  have m2 : (2 : ℚ) ^ (2 * (-12) : ℤ) ≤ (fmax zip (sub one (F32.mul s s))).val := by
    rw [em]; refine le_trans ?_ (le_max_right _ _); norm_num at d2 ⊢; exact d2
  have m0 : 0 < (fmax zip (sub one (F32.mul s s))).val := lt_of_lt_of_le (two_zpow_pos _) m2
  unfold cosOf
  rw [(sqrt_finite m.1 m.2.1).2.2.1 m0]
  exact le_sqrt32 m0 m2

theorem sineT_ok (ei et c : F32) : (sineT ei et c).Ok := mul_ok _ _

/-! ### The properties -/

/-- **C157.** The reflectance of glass computed in binary32 is a number between zero and one, from every angle and on
both sides, also for directions longer than one. -/
theorem C157_dielectric (etaI etaT cosin : F32) (hi : Index etaI) (ht : Index etaT) (hc : In (-2) 2 cosin) :
    In 0 1 (dielectric etaI etaT cosin) := by
  unfold dielectric
  simp only
  rw [lt_finite hc.1 (show zip.Finite from trivial)]
  have z0 : zip.val = 0 := rfl
  rw [z0]
  have key : ∀ ei et c : F32, Index ei → Index et → In 0 2 c →
      In 0 1 (if ge (sineT ei et c) one then one else fresnelPart ei et c (cosOf (sineT ei et c))) := by
    intro ei et c h1 h2 h3
    have s := sineT_in h1 h2 h3
    rw [ge_finite s.1 one_finite.1, one_finite.2]
    by_cases g : 1 ≤ (sineT ei et c).val
    · simp only [g, decide_true, if_true]
      exact ⟨trivial, by rw [one_finite.2]; norm_num, by rw [one_finite.2]⟩
    · simp only [g, decide_false, Bool.false_eq_true, if_false]
      push Not at g
      obtain ⟨c1, c2⟩ := cosOf_in (sineT_ok ei et c) ⟨s.1, s.2.1, g.le⟩
      exact part_in h1 h2 (h3.wide le_rfl (by norm_num)) (c1.wide le_rfl (by norm_num)) (Or.inr (le_trans (zpow_le_zpow_right₀ (by norm_num) (by norm_num)) (c2 g)))
  by_cases n : cosin.val < 0
  · simp only [n, decide_true, if_true]
    obtain ⟨f, e⟩ := neg_finite hc.1
    exact key _ _ _ ht hi ⟨f, by rw [e]; linarith, by rw [e]; linarith [hc.2.1]⟩
  · simp only [n, decide_false, Bool.false_eq_true, if_false]
    push Not at n
    exact key _ _ _ hi ht ⟨hc.1, n, hc.2.2⟩

/-- Glass with the index 1.5. -/
example : Index one ∧ Index (num (3 / 2)) ∧ In (-2) 2 (num (-1 / 4)) := by
  refine ⟨⟨⟨by norm_num, by decide +kernel, by norm_num⟩, trivial, ?_, ?_⟩,
    ⟨⟨by norm_num, by decide +kernel, by norm_num⟩, trivial, ?_, ?_⟩, trivial, ?_, ?_⟩ <;>
  · simp only [one, F32.val]; norm_num

theorem abs_pos' {z : F32} (h : z.Finite) (h0 : 2 ^ (-100 : ℤ) ≤ |z.val|) : (F32.abs z).Finite ∧ 0 < (F32.abs z).val ∧
    (F32.abs z).val = |z.val| := by
  obtain ⟨f, e⟩ := abs_finite h
  exact ⟨f, by rw [e]; exact lt_of_lt_of_le (two_zpow_pos _) h0, e⟩

/-- **C157.** A mirror direction of glass has a finite value that is not negative; without total reflection it is at
most the inverse of the cosine. -/
theorem C157_reflection_partial (etaI etaT z : F32) (hi : Index etaI) (ht : Index etaT) (hz : z.Finite)
    (h0 : 2 ^ (-100 : ℤ) ≤ |z.val|) (h1 : |z.val| ≤ 2) :
    In 0 (2 ^ 100) (dielectricReflection etaI etaT z) ∧
      (dielectricReflection etaI etaT z = one ∨ (dielectricReflection etaI etaT z).val ≤ rnd32 (1 / |z.val|)) := by
  obtain ⟨fa, pa, ea⟩ := abs_pos' hz h0
  have key : ∀ ei et c : F32, Index ei → Index et → In 0 2 c → c.val = |z.val| →
      let v := if lt one (sineT ei et c) then one else
        div (fresnelPart ei et c (cosOf (sineT ei et c))) (F32.abs z)
      In 0 (2 ^ 100) v ∧ (v = one ∨ v.val ≤ rnd32 (1 / |z.val|)) := by
    intro ei et c k1 k2 k3 k4
    have s := sineT_in k1 k2 k3
    simp only
    rw [lt_finite one_finite.1 s.1, one_finite.2]
    by_cases g : 1 < (sineT ei et c).val
    · simp only [g, decide_true, if_true]
      exact ⟨⟨trivial, by rw [one_finite.2]; norm_num, by rw [one_finite.2]; norm_num⟩, Or.inl trivial⟩
    · simp only [g, decide_false, Bool.false_eq_true, if_false]
      push Not at g
      obtain ⟨c1, -⟩ := cosOf_in (sineT_ok ei et c) ⟨s.1, s.2.1, g⟩
      have p := part_in k1 k2 (k3.wide le_rfl (by norm_num)) (c1.wide le_rfl (by norm_num)) (Or.inl (by rw [k4]; exact h0))
      generalize fresnelPart ei et c (cosOf (sineT ei et c)) = w at *
      have l1 : 0 ≤ w.val / (F32.abs z).val := div_nonneg p.2.1 pa.le
      have l2 : w.val / (F32.abs z).val ≤ 2 ^ 100 := by
        rw [div_le_iff₀ pa, ea]
        have : (1 : ℚ) = 2 ^ 100 * 2 ^ (-100 : ℤ) := by norm_num
        calc w.val ≤ 1 := p.2.2
          _ = 2 ^ 100 * 2 ^ (-100 : ℤ) := this
          _ ≤ 2 ^ 100 * |z.val| := mul_le_mul_of_nonneg_left h0 (by norm_num)
      refine ⟨in_div p.1 fa pa.ne' l1 l2 ⟨by decide +kernel, by norm_num⟩ ⟨by decide +kernel, by norm_num⟩, Or.inr ?_⟩
      obtain ⟨x, -, -⟩ := rnd_between l1 l2 ⟨by decide +kernel, by norm_num⟩ ⟨by decide +kernel, by norm_num⟩
      rw [(div_finite p.1 fa pa.ne' x).2, ea]
      rw [ea] at pa
      exact rnd32_mono (div_le_div_of_nonneg_right p.2.2 pa.le)
  unfold dielectricReflection
  simp only
  rw [ge_finite (show zip.Finite from trivial) hz]
  have z0 : zip.val = 0 := rfl
  rw [z0]
  by_cases n : z.val ≤ 0
  · simp only [n, decide_true, if_true]
    exact key _ _ _ ht hi ⟨fa, pa.le, by rw [ea]; exact h1⟩ ea
  · simp only [n, decide_false, Bool.false_eq_true, if_false]
    push Not at n
    have e : z.val = |z.val| := (abs_of_pos n).symm
    exact key _ _ _ hi ht ⟨hz, n.le, by rw [e]; exact h1⟩ e

example : Index one ∧ Index (num (3 / 2)) ∧ (num (-1 / 4)).Finite ∧ 2 ^ (-100 : ℤ) ≤ |(num (-1 / 4)).val| ∧
    |(num (-1 / 4)).val| ≤ 2 := by
  refine ⟨⟨⟨by norm_num, by decide +kernel, by norm_num⟩, trivial, ?_, ?_⟩,
    ⟨⟨by norm_num, by decide +kernel, by norm_num⟩, trivial, ?_, ?_⟩, trivial, ?_, ?_⟩ <;>
  · simp only [one, F32.val]; norm_num [abs_of_neg]

/-- **C157 violated.** A direction along the surface of an object with the index of its surroundings gives NaN. -/
theorem C157_violated_grazing : dielectricReflection one one (zero false) = nan := by
  have e1 : sub one (F32.mul (F32.abs (zero false)) (F32.abs (zero false))) = one := by decide +kernel
  have e2 : F32.sqrt one = one := by
    unfold one F32.sqrt; simp [sqrt32_one]
  have e3 : sineT one one (F32.abs (zero false)) = one := by
    unfold sineT
    rw [e1, show fmax zip one = one by decide +kernel, e2]
    decide +kernel
  have e4 : cosOf one = zip := by
    unfold cosOf
    rw [show fmax zip (sub one (F32.mul one one)) = zip by decide +kernel]
    rfl
  have e5 : ge zip (zero false) = true := by decide +kernel
  unfold dielectricReflection
  simp only [e5, if_true, e3, e4]
  decide +kernel

/-! ### Metals -/

/-- The numerator and denominator of a metal: `s - e + q` and `s + e + q`. -/
theorem metal_ratio {s e q : F32} (hs : In 0 (2 ^ 40) s) (he : In 0 (2 ^ 40) e) (hq : In 0 (2 ^ 40) q)
    (hp : 2 ^ (-100 : ℤ) ≤ s.val ∨ 2 ^ (-100 : ℤ) ≤ q.val) :
    In (-1) 1 (div (add (sub s e) q) (add (add s e) q)) ∧
      ((s.val + e.val) / 2 ^ 24 + 2 ^ (-150 : ℤ) ≤ s.val - e.val + q.val →
        0 ≤ (div (add (sub s e) q) (add (add s e) q)).val) := by
  have r40 : Rep (2 ^ 40) := ⟨by decide +kernel, by norm_num⟩
  have r41 : Rep (2 ^ 41) := ⟨by decide +kernel, by norm_num⟩
  have r42 : Rep (2 ^ 42) := ⟨by decide +kernel, by norm_num⟩
  have n41 : Rep (-2 ^ 41) := ⟨by decide +kernel, by norm_num⟩
  have n42 : Rep (-2 ^ 42) := ⟨by decide +kernel, by norm_num⟩
  have r0 : Rep 0 := ⟨by decide +kernel, by norm_num⟩
  have rl : Rep (2 ^ (-100 : ℤ)) := ⟨by decide +kernel, by norm_num⟩
  obtain ⟨fs, s0, s1⟩ := hs
  obtain ⟨fe, e0, e1⟩ := he
  obtain ⟨fq, q0, q1⟩ := hq
  have a1 : s.val + e.val ≤ 2 ^ 41 := by norm_num at *; linarith
  have a2 : -2 ^ 41 ≤ s.val - e.val := by norm_num at *; linarith
  have a3 : s.val - e.val ≤ 2 ^ 41 := by norm_num at *; linarith
  obtain ⟨xa, -, -⟩ := rnd_between (add_nonneg s0 e0) a1 r0 r41
  obtain ⟨xd, -, -⟩ := rnd_between a2 a3 n41 r41
  obtain ⟨fA, eA⟩ := add_finite fs fe xa
  obtain ⟨fD, eD⟩ := sub_fin fs fe xd
  have iA := in_add fs fe (add_nonneg s0 e0) a1 r0 r41
  have iD := in_sub fs fe a2 a3 n41 r41
  have cmp1 : (sub s e).val ≤ (add s e).val := by rw [eA, eD]; exact rnd32_mono (by linarith)
  have cmp2 : -(add s e).val ≤ (sub s e).val := by rw [eA, eD, ← rnd32_neg]; exact rnd32_mono (by linarith)
  have hA : 2 ^ (-100 : ℤ) ≤ s.val → 2 ^ (-100 : ℤ) ≤ (add s e).val := fun h =>
    (in_add fs fe (by linarith) a1 rl r41).2.1
  have err := rnd32_err' (s.val - e.val)
  rw [← eD] at err
  generalize add s e = A at *
  generalize sub s e = D at *
  have b1 : A.val + q.val ≤ 2 ^ 42 := by have := iA.2.2; norm_num at *; linarith
  have b2 : -2 ^ 42 ≤ D.val + q.val := by have := iD.2.1; norm_num at *; linarith
  have b3 : D.val + q.val ≤ 2 ^ 42 := by have := iD.2.2; norm_num at *; linarith
  have bp : 2 ^ (-100 : ℤ) ≤ A.val + q.val := by
    rcases hp with h | h
    · linarith [hA h]
    · linarith [iA.2.1]
  obtain ⟨xN, -, -⟩ := rnd_between b2 b3 n42 r42
  obtain ⟨xM, -, -⟩ := rnd_between bp b1 rl r42
  obtain ⟨fN, eN⟩ := add_finite fD fq xN
  obtain ⟨fM, eM⟩ := add_finite fA fq xM
  have iM := in_add fA fq bp b1 rl r42
  have pM : 0 < (add A q).val := lt_of_lt_of_le (two_zpow_pos _) iM.2.1
  have u : (add D q).val ≤ (add A q).val := by rw [eN, eM]; exact rnd32_mono (by linarith)
  have l : -(add A q).val ≤ (add D q).val := by rw [eN, eM, ← rnd32_neg]; exact rnd32_mono (by linarith)
  have u' : (add D q).val / (add A q).val ≤ 1 := by rw [div_le_iff₀ pM]; linarith
  refine ⟨in_div fN fM pM.ne' (by rw [le_div_iff₀ pM]; linarith) u' ⟨by decide +kernel, by norm_num⟩
    ⟨by decide +kernel, by norm_num⟩, fun h => ?_⟩
  have hd : |s.val - e.val| ≤ s.val + e.val := by rw [abs_le]; constructor <;> linarith
  have hN : 0 ≤ (add D q).val := by
    rw [eN]
    apply rnd32_nonneg
    have := (abs_le.1 err).1
    have h3 : |s.val - e.val| * (1 / 2 ^ 24) ≤ (s.val + e.val) / 2 ^ 24 := by
      rw [mul_one_div]; exact div_le_div_of_nonneg_right hd (by positivity)
    linarith
  exact (in_div fN fM pM.ne' (div_nonneg hN pM.le) u' r0 ⟨by decide +kernel, by norm_num⟩).2.1

/-- Constants of a metal: not too far apart, with an absorption that is not negligible. -/
def MetalConstants (n k : F32) : Prop :=
  In (1 / 64) 16 n ∧ In (1 / 64) 16 k ∧ n.val ^ 2 + k.val ^ 2 + 1 ≤ 1024 * k.val ^ 2

theorem mul_err {a b : F32} (fa : a.Finite) (fb : b.Finite) (pa : 0 ≤ a.val) (pb : 0 ≤ b.val)
    (h : a.val * b.val ≤ 2 ^ 40) : In 0 (2 ^ 40) (F32.mul a b) ∧
      |(F32.mul a b).val - a.val * b.val| ≤ a.val * b.val * (1 / 2 ^ 24) + 2 ^ (-150 : ℤ) := by
  have r40 : Rep (2 ^ 40) := ⟨by decide +kernel, by norm_num⟩
  have r0 : Rep 0 := ⟨by decide +kernel, by norm_num⟩
  refine ⟨in_mul fa fb (mul_nonneg pa pb) h r0 r40, ?_⟩
  obtain ⟨x, -, -⟩ := rnd_between (mul_nonneg pa pb) h r0 r40
  rw [(mul_finite fa fb x).2]
  have := rnd32_err' (a.val * b.val)
  rwa [abs_of_nonneg (mul_nonneg pa pb)] at this

theorem add_err {a b : F32} (fa : a.Finite) (fb : b.Finite) (pa : 0 ≤ a.val) (pb : 0 ≤ b.val)
    (h : a.val + b.val ≤ 2 ^ 40) : In 0 (2 ^ 40) (add a b) ∧
      |(add a b).val - (a.val + b.val)| ≤ (a.val + b.val) * (1 / 2 ^ 24) + 2 ^ (-150 : ℤ) := by
  have r40 : Rep (2 ^ 40) := ⟨by decide +kernel, by norm_num⟩
  have r0 : Rep 0 := ⟨by decide +kernel, by norm_num⟩
  refine ⟨in_add fa fb (add_nonneg pa pb) h r0 r40, ?_⟩
  obtain ⟨x, -, -⟩ := rnd_between (add_nonneg pa pb) h r0 r40
  rw [(add_finite fa fb x).2]
  have := rnd32_err' (a.val + b.val)
  rwa [abs_of_nonneg (add_nonneg pa pb)] at this

theorem quad (P : ℚ) : (P * P + 2 * P + 1) / 16384 ≤ (P * P - 2 * P + 1) + P * P / 2048 := by
  nlinarith [sq_nonneg (16391 * P - 16385)]

set_option maxHeartbeats 1000000 in
/-- **C157.** The reflectance of a metal computed in binary32 is a number between zero and one, from every angle. -/
theorem C157_metal (n k c : F32) (h : MetalConstants n k) (hc : In 0 2 c) : In 0 1 (conductor n k c) := by
  obtain ⟨⟨fn, n0, n1⟩, ⟨fk, k0, k1⟩, hk⟩ := h
  obtain ⟨fc, c0, c1⟩ := hc
  have pn : 0 ≤ n.val := le_trans (by norm_num) n0
  have pk : 0 ≤ k.val := le_trans (by norm_num) k0
  have bound : ∀ x y a b : ℚ, 0 ≤ x → 0 ≤ y → x ≤ a → y ≤ b → a * b ≤ 2 ^ 40 → x * y ≤ 2 ^ 40 := by
    intro x y a b h1 h2 h3 h4 h5
    exact (mul_le_mul h3 h4 h2 (h1.trans h3)).trans h5
  have nn : n.val * n.val ≤ 256 := by nlinarith
  have kk : k.val * k.val ≤ 256 := by nlinarith
  have cc : c.val * c.val ≤ 4 := by nlinarith
  have hη0 := two_zpow_pos (-150)
  have hη1 : (2 : ℚ) ^ (-150 : ℤ) ≤ 1 / 2 ^ 100 := by norm_num
  obtain ⟨i1, e1⟩ := mul_err fn fn pn pn (bound _ _ 16 16 pn pn n1 n1 (by norm_num))
  obtain ⟨i2, e2⟩ := mul_err fk fk pk pk (bound _ _ 16 16 pk pk k1 k1 (by norm_num))
  obtain ⟨i3, e3⟩ := mul_err fc fc c0 c0 (bound _ _ 2 2 c0 c0 c1 c1 (by norm_num))
  obtain ⟨i4, e4⟩ := mul_err fc two_finite.1 c0 (by rw [two_finite.2]; norm_num) (by rw [two_finite.2]; linarith)
  rw [two_finite.2] at e4
  unfold conductor
  simp only
  generalize F32.mul n n = N at *
  generalize F32.mul k k = K at *
  generalize F32.mul c c = q at *
  generalize F32.mul c two = m at *
  obtain ⟨η, eη⟩ : ∃ η : ℚ, (2 : ℚ) ^ (-150 : ℤ) = η := ⟨_, rfl⟩
  rw [eη] at hη0 hη1 e1 e2 e3 e4
  have N1 : N.val ≤ 257 := by have := (abs_le.1 e1).2; norm_num at *; linarith
  have K1 : K.val ≤ 257 := by have := (abs_le.1 e2).2; norm_num at *; linarith
  have q1 : q.val ≤ 5 := by have := (abs_le.1 e3).2; norm_num at *; linarith
  have m1 : m.val ≤ 5 := by have := (abs_le.1 e4).2; norm_num at *; linarith
  obtain ⟨i5, e5⟩ := add_err i1.1 i2.1 i1.2.1 i2.2.1 (by norm_num; linarith)
  obtain ⟨i6, e6⟩ := mul_err fn i4.1 pn i4.2.1 (bound _ _ 16 5 pn i4.2.1 n1 m1 (by norm_num))
  rw [eη] at e5 e6
  generalize add N K = t at *
  generalize F32.mul n m = e at *
  have t1 : t.val ≤ 600 := by have := (abs_le.1 e5).2; norm_num at *; linarith
  obtain ⟨i7, e7⟩ := mul_err i5.1 i3.1 i5.2.1 i3.2.1 (bound _ _ 600 5 i5.2.1 i3.2.1 t1 q1 (by norm_num))
  rw [eη] at e7
  -- relative errors
  have hnm : |n.val * m.val - 2 * (n.val * c.val)| ≤ 2 * (n.val * c.val) * (1 / 2 ^ 24) + 16 * η := by
    have : n.val * m.val - 2 * (n.val * c.val) = n.val * (m.val - c.val * 2) := by ring
    rw [this, abs_mul, abs_of_nonneg pn]
    calc n.val * |m.val - c.val * 2| ≤ n.val * (c.val * 2 * (1 / 2 ^ 24) + η) := mul_le_mul_of_nonneg_left e4 pn
      _ = 2 * (n.val * c.val) * (1 / 2 ^ 24) + n.val * η := by ring
      _ ≤ 2 * (n.val * c.val) * (1 / 2 ^ 24) + 16 * η := by
          have := mul_le_mul_of_nonneg_right n1 hη0.le
          linarith
  have P0 : 0 ≤ n.val * c.val := mul_nonneg pn c0
  have ht : |t.val - (n.val * n.val + k.val * k.val)| ≤ (n.val * n.val + k.val * k.val) * (3 / 2 ^ 24) + 4 * η := by
    have a0 : 0 ≤ n.val * n.val := mul_self_nonneg _
    have b0 : 0 ≤ k.val * k.val := mul_self_nonneg _
    rw [abs_le] at *
    obtain ⟨e1, e1'⟩ := e1
    obtain ⟨e2, e2'⟩ := e2
    obtain ⟨e5, e5'⟩ := e5
    clear e3 e4 e6 e7 hnm
    generalize n.val * n.val = a at *
    generalize k.val * k.val = b at *
    norm_num at *
    constructor <;> linarith
  have he : |e.val - 2 * (n.val * c.val)| ≤ 2 * (n.val * c.val) * (3 / 2 ^ 24) + 20 * η := by
    rw [abs_le] at *
    obtain ⟨h1, h1'⟩ := hnm
    obtain ⟨e6, e6'⟩ := e6
    clear e1 e2 e3 e4 e5 e7 ht
    generalize n.val * m.val = a at *
    generalize n.val * c.val = b at *
    norm_num at *
    constructor <;> linarith
  have T0 : 0 ≤ n.val * n.val + k.val * k.val := add_nonneg (mul_self_nonneg _) (mul_self_nonneg _)
  have T1 : n.val * n.val + k.val * k.val ≤ 512 := by linarith
  have W0 : 0 ≤ (n.val * n.val + k.val * k.val) * (c.val * c.val) := mul_nonneg T0 (mul_self_nonneg _)
  have htq : |t.val * q.val - (n.val * n.val + k.val * k.val) * (c.val * c.val)| ≤
      (n.val * n.val + k.val * k.val) * (c.val * c.val) * (5 / 2 ^ 24) + 600 * η := by
    clear e1 e2 e4 e5 e6 e7 hnm he
    have Q0 : 0 ≤ c.val * c.val := mul_self_nonneg _
    generalize n.val * n.val + k.val * k.val = T at *
    generalize c.val * c.val = Q at *
    have hq0 := i3.2.1
    generalize q.val = q' at *
    have s1 : t.val * q' - T * Q = (t.val - T) * q' + T * (q' - Q) := by ring
    rw [s1]
    refine (abs_add_le _ _).trans ?_
    rw [abs_mul, abs_mul, abs_of_nonneg hq0, abs_of_nonneg T0]
    have s2 : |t.val - T| * q' ≤ (T * (3 / 2 ^ 24) + 4 * η) * q' := mul_le_mul_of_nonneg_right ht hq0
    have s3 : T * |q' - Q| ≤ T * (Q * (1 / 2 ^ 24) + η) := mul_le_mul_of_nonneg_left e3 T0
    have s4 : q' ≤ Q + (Q * (1 / 2 ^ 24) + η) := by have := (abs_le.1 e3).2; linarith
    have s5 : T * q' ≤ T * (Q + (Q * (1 / 2 ^ 24) + η)) := mul_le_mul_of_nonneg_left s4 T0
    have s6 : T * η ≤ 512 * η := mul_le_mul_of_nonneg_right T1 hη0.le
    have s7 : η * q' ≤ η * 5 := mul_le_mul_of_nonneg_left q1 hη0.le
    have s8 : (T * (3 / 2 ^ 24) + 4 * η) * q' = (3 / 2 ^ 24) * (T * q') + 4 * (η * q') := by ring
    have s9 : T * (Q * (1 / 2 ^ 24) + η) = (1 / 2 ^ 24) * (T * Q) + T * η := by ring
    have s10 : T * (Q + (Q * (1 / 2 ^ 24) + η)) = (1 + 1 / 2 ^ 24) * (T * Q) + T * η := by ring
    rw [s8] at s2
    rw [s9] at s3
    rw [s10] at s5
    generalize T * Q = W at *
    norm_num at *
    linarith
  have ht2 : |(F32.mul t q).val - (n.val * n.val + k.val * k.val) * (c.val * c.val)| ≤
      (n.val * n.val + k.val * k.val) * (c.val * c.val) * (7 / 2 ^ 24) + 700 * η := by
    clear e1 e2 e3 e4 e5 e6 hnm he ht
    generalize (n.val * n.val + k.val * k.val) * (c.val * c.val) = W at *
    rw [abs_le] at *
    obtain ⟨h1, h1'⟩ := htq
    obtain ⟨h2, h2'⟩ := e7
    norm_num at *
    constructor <;> linarith
  have hlow : (2 : ℚ) ^ (-100 : ℤ) ≤ t.val := by
    have h1 : (1 / 64 : ℚ) * (1 / 64) ≤ n.val * n.val := mul_le_mul n0 n0 (by norm_num) pn
    have h2 : 0 ≤ k.val * k.val := mul_self_nonneg _
    have := (abs_le.1 ht).1
    norm_num at *; linarith
  have R1 := metal_ratio i5 i6 i3 (Or.inl hlow)
  have R2 := metal_ratio (q := one) i7 i6 ⟨trivial, by rw [one_finite.2]; norm_num, by rw [one_finite.2]; norm_num⟩
    (Or.inr (by rw [one_finite.2]; norm_num))
  rw [eη] at R1 R2
  rw [one_finite.2] at R2
  have hk' : n.val * n.val + k.val * k.val + 1 ≤ 1024 * (k.val * k.val) := by nlinarith [hk]
  have C1 : (t.val + e.val) / 2 ^ 24 + η ≤ t.val - e.val + q.val := by
    have sqn : 0 ≤ n.val * n.val - 2 * (n.val * c.val) + c.val * c.val := by nlinarith [sq_nonneg (n.val - c.val)]
    have a0 : 0 ≤ n.val * n.val := mul_self_nonneg _
    have b0 : 0 ≤ k.val * k.val := mul_self_nonneg _
    have Q0 : 0 ≤ c.val * c.val := mul_self_nonneg _
    clear e1 e2 e4 e5 e6 e7 hnm htq ht2 W0 R1 R2 hk
    rw [abs_le] at *
    obtain ⟨h1, h1'⟩ := ht
    obtain ⟨h2, h2'⟩ := he
    obtain ⟨h3, h3'⟩ := e3
    generalize n.val * n.val = a at *
    generalize k.val * k.val = b at *
    generalize c.val * c.val = Q at *
    generalize n.val * c.val = P at *
    norm_num at *
    linarith
  have C2 : ((F32.mul t q).val + e.val) / 2 ^ 24 + η ≤ (F32.mul t q).val - e.val + 1 := by
    have Q0 : 0 ≤ c.val * c.val := mul_self_nonneg _
    have eW : (n.val * n.val + k.val * k.val) * (c.val * c.val) =
        (n.val * c.val) * (n.val * c.val) + k.val * k.val * (c.val * c.val) := by ring
    have hR : (n.val * c.val) * (n.val * c.val) ≤ 1024 * (k.val * k.val * (c.val * c.val)) := by
      have h1 : n.val * n.val ≤ 1024 * (k.val * k.val) := by
        have : 0 ≤ k.val * k.val := mul_self_nonneg _
        linarith
      have := mul_le_mul_of_nonneg_right h1 Q0
      calc (n.val * c.val) * (n.val * c.val) = n.val * n.val * (c.val * c.val) := by ring
        _ ≤ 1024 * (k.val * k.val) * (c.val * c.val) := this
        _ = _ := by ring
    rw [eW] at ht2 W0
    have R0 : 0 ≤ k.val * k.val * (c.val * c.val) := mul_nonneg (mul_self_nonneg _) Q0
    clear e1 e2 e3 e4 e5 e6 e7 hnm htq ht eW R1 R2 hk hk' C1
    generalize k.val * k.val * (c.val * c.val) = R at *
    generalize n.val * c.val = P at *
    have k2 := quad P
    have PP0 : 0 ≤ P * P := mul_self_nonneg _
    rw [abs_le] at *
    obtain ⟨h1, h1'⟩ := ht2
    obtain ⟨h2, h2'⟩ := he
    generalize P * P = PP at *
    norm_num at *
    linarith
  refine half_sum ⟨R1.1.1, R1.2 C1, R1.1.2.2⟩ ⟨R2.1.1, R2.2 C2, R2.1.2.2⟩

/-- The constants of the table, as checked below. -/
def constantsOk (n k : ℚ) : Bool :=
  match F32.round false n, F32.round false k with
  | num a, num b => decide (1 / 64 ≤ a) && decide (a ≤ 16) && decide (1 / 64 ≤ b) && decide (b ≤ 16) &&
      decide (a ^ 2 + b ^ 2 + 1 ≤ 1024 * b ^ 2)
  | _, _ => false

theorem constantsOk_spec {n k : ℚ} (h : constantsOk n k = true) :
    MetalConstants (F32.round false n) (F32.round false k) := by
  unfold constantsOk at h
  generalize F32.round false n = a at *
  generalize F32.round false k = b at *
  cases a <;> cases b <;> simp at h
  obtain ⟨⟨⟨⟨h1, h2⟩, h3⟩, h4⟩, h5⟩ := h
  refine ⟨⟨trivial, ?_, h2⟩, ⟨trivial, ?_, h4⟩, h5⟩
  · simpa [F32.val] using h1
  · simpa [F32.val] using h3

theorem table_ok : ∀ e ∈ Metals.table, ∀ p ∈ e.1.zip e.2, constantsOk p.1 p.2 = true := by decide +kernel

/-- **C157.** The reflectance of every metal of the table, at every wavelength and from every angle, is a number between
zero and one. -/
theorem C157_metals (e : List ℚ × List ℚ) (he : e ∈ Metals.table) (p : ℚ × ℚ) (hp : p ∈ e.1.zip e.2) (c : F32)
    (hc : In 0 2 c) : In 0 1 (conductor (F32.round false p.1) (F32.round false p.2) c) :=
  C157_metal _ _ _ (constantsOk_spec (table_ok e he p hp)) hc

example : ∃ e ∈ Metals.table, ∃ p ∈ e.1.zip e.2, In 0 2 one ∧ p.1 < p.2 :=
  ⟨Metals.table[0], List.getElem_mem _, (Metals.table[0].1.zip Metals.table[0].2)[0]'(by decide), List.getElem_mem _,
    ⟨trivial, by norm_num [one, F32.val], by norm_num [one, F32.val]⟩, by decide +kernel⟩

/-- **C157 violated.** Seen from behind a metal reflects more light than it receives: the cosine of the mirror is not
made positive (gold constants at one wavelength, seen along the normal). -/
theorem C157_violated_behind : 1 < (conductorReflection (num (1 / 8)) (num 4) (num (-1))).val := by decide +kernel

/-! ### Refraction -/

/-- **C158.** The refracted direction computed in binary32 is on the other side of the surface and not along it; the
value is a number that is not negative. -/
theorem C158_refraction (etaI etaT : F32) (wo : V3 F32) (hi : Index etaI) (ht : Index etaT)
    (hx : In (-2) 2 wo.x) (hy : In (-2) 2 wo.y) (hz : In (-(1 + 1 / 2 ^ 17)) (1 + 1 / 2 ^ 17) wo.z) :
    refraction etaI etaT wo = .total ∨
      ∃ v wi, refraction etaI etaT wo = .ray v wi ∧ In 0 (2 ^ 52) v ∧ wi.x.Finite ∧ wi.y.Finite ∧ wi.z.Finite ∧
        (0 < wo.z.val → wi.z.val ≤ -(1 / 4096)) ∧ (wo.z.val ≤ 0 → 1 / 4096 ≤ wi.z.val) := by
  have r1 : Rep 1 := ⟨by decide +kernel, by norm_num⟩
  have r0 : Rep 0 := ⟨by decide +kernel, by norm_num⟩
  have r2 : ∀ k : ℕ, k ≤ 60 → Rep (2 ^ k) ∧ Rep (-2 ^ k) := by
    intro k hk
    have h := rnd32_pow (k : ℤ) (by omega)
    rw [zpow_natCast] at h
    have h3 : (2 : ℚ) ^ k < 2 ^ 128 := pow_lt_pow_right₀ (by norm_num) (by omega)
    refine ⟨⟨h, by rw [abs_of_pos (by positivity)]; exact h3⟩, ⟨by rw [rnd32_neg, h], ?_⟩⟩
    rw [abs_neg, abs_of_pos (by positivity)]; exact h3
  have r13 := r2 13 (by norm_num)
  have r20 := r2 20 (by norm_num)
  have r21 := r2 21 (by norm_num)
  have r40 := r2 40 (by norm_num)
  have r52 := r2 52 (by norm_num)
  have r25 := r2 25 (by norm_num)
  have r24 := r2 24 (by norm_num)
  -- sine of the incident ray
  have z2 : In 0 (1 + 1 / 2 ^ 15) (F32.mul wo.z wo.z) := by
    refine in_mul hz.1 hz.1 (mul_self_nonneg _) ?_ r0 ⟨by decide +kernel, by norm_num⟩
    have h := abs_le.2 ⟨hz.2.1, hz.2.2⟩
    have := mul_le_mul h h (abs_nonneg _) (by norm_num)
    rw [abs_mul_abs_self] at this
    refine this.trans ?_
    norm_num
  have si : In (-(1 / 2 ^ 15)) 1 (sub one (F32.mul wo.z wo.z)) := by
    have := z2.2.1; have := z2.2.2
    exact in_sub trivial z2.1 (by rw [one_finite.2]; linarith) (by rw [one_finite.2]; linarith)
      ⟨by decide +kernel, by norm_num⟩ r1
  have key : ∀ ei et c : F32, ∀ out : Bool, Index ei → Index et → In 0 2 c →
      let eta := div ei et
      let sint2 := F32.mul (F32.mul eta eta) (sub one (F32.mul wo.z wo.z))
      ge sint2 one = true ∨
        (ge sint2 one = false ∧
          In (1 / 4096) (2 ^ 13) (F32.sqrt (sub one sint2)) ∧
          In (-2 ^ 21) (2 ^ 21) (F32.mul eta (neg wo.x)) ∧ In (-2 ^ 21) (2 ^ 21) (F32.mul eta (neg wo.y)) ∧
          ∀ z : F32, z.Finite → |z.val| = (F32.sqrt (sub one sint2)).val →
            In 0 (2 ^ 52) (div (F32.mul (sub one (fresnelPart ei et c (F32.sqrt (sub one sint2))))
              (div (F32.mul ei ei) (F32.mul et et))) (F32.abs z))) := by
    intro ei et c out k1 k2 k3 eta sint2
    have pi := index_pos k1
    have pt := index_pos k2
    have q : In 0 (2 ^ 20) eta := by
      refine in_div k1.2.1 k2.2.1 pt.ne' (by positivity) ?_ r0 r20.1
      rw [div_le_iff₀ pt]
      have := k1.2.2.2; have := k2.2.2.1
      norm_num; linarith
    have q2 : In 0 (2 ^ 40) (F32.mul eta eta) := by
      refine in_mul q.1 q.1 (mul_self_nonneg _) ?_ r0 r40.1
      have := mul_le_mul q.2.2 q.2.2 q.2.1 (by norm_num)
      refine this.trans ?_; norm_num
    have s : In (-2 ^ 25) (2 ^ 40) sint2 := by
      refine in_mul q2.1 si.1 ?_ ?_ r25.2 r40.1
      · have h1 := mul_le_mul_of_nonneg_left si.2.1 q2.2.1
        have h2 := q2.2.2
        norm_num at *; linarith
      · have h1 := mul_le_mul_of_nonneg_left si.2.2 q2.2.1
        have h2 := q2.2.2
        norm_num at *; linarith
    rw [ge_finite s.1 one_finite.1, one_finite.2]
    by_cases g : 1 ≤ sint2.val
    · left; simpa using g
    · right
      push Not at g
      refine ⟨by simpa using g, ?_⟩
      have gg := gap_one (ok_val (mul_ok _ _)).1 g
      have d : In (1 / 2 ^ 24) 67108860 (sub one sint2) := by
        have h1 := s.2.1
        refine in_sub trivial s.1 (by rw [one_finite.2]; linarith) ?_ ⟨by decide +kernel, by norm_num⟩
          ⟨by decide +kernel, by norm_num⟩
        rw [one_finite.2]; norm_num at *; linarith
      have d0 : 0 < (sub one sint2).val := lt_of_lt_of_le (by norm_num) d.2.1
      have sq : In (1 / 4096) (2 ^ 13) (F32.sqrt (sub one sint2)) := by
        obtain ⟨f, -, e, -⟩ := sqrt_finite d.1 d0.le
        refine ⟨f, ?_, ?_⟩
        · rw [e d0]
          have := le_sqrt32 d0 (k := -12) (by have := d.2.1; norm_num at *; linarith)
          norm_num at *; exact this
        · rw [e d0]
          have := sqrt32_le d0 (k := 13) (by have := d.2.2; norm_num at *; linarith)
          norm_num at *; exact this
      have comp : ∀ w : F32, In (-2) 2 w → In (-2 ^ 21) (2 ^ 21) (F32.mul eta (neg w)) := by
        intro w hw
        obtain ⟨f, e⟩ := neg_finite hw.1
        have h1 : |eta.val * (neg w).val| ≤ 2 ^ 21 := by
          rw [abs_mul, abs_of_nonneg q.2.1, e, abs_neg]
          have := mul_le_mul q.2.2 (abs_le.2 ⟨hw.2.1, hw.2.2⟩) (abs_nonneg _) (by norm_num)
          refine this.trans ?_; norm_num
        exact in_mul q.1 f (abs_le.1 h1).1 (abs_le.1 h1).2 r21.2 r21.1
      refine ⟨sq, comp _ hx, comp _ hy, fun z fz ez => ?_⟩
      have p := part_in k1 k2 (k3.wide le_rfl (by norm_num)) (sq.wide (by norm_num) le_rfl)
        (Or.inr (le_trans (by norm_num) sq.2.1))
      generalize fresnelPart ei et c (F32.sqrt (sub one sint2)) = w at *
      have v1 : In 0 1 (sub one w) :=
        in_sub trivial p.1 (by rw [one_finite.2]; linarith [p.2.2]) (by rw [one_finite.2]; linarith [p.2.1]) r0 r1
      have ii : In 0 (2 ^ 20) (F32.mul ei ei) := by
        refine in_mul k1.2.1 k1.2.1 (mul_self_nonneg _) ?_ r0 r20.1
        have := mul_le_mul k1.2.2.2 k1.2.2.2 pi.le (by norm_num)
        refine this.trans ?_; norm_num
      have tt : In (1 / 2 ^ 20) (2 ^ 20) (F32.mul et et) := by
        refine in_mul k2.2.1 k2.2.1 ?_ ?_ ⟨by decide +kernel, by norm_num⟩ r20.1
        · have := mul_le_mul k2.2.2.1 k2.2.2.1 (by norm_num) pt.le
          refine le_trans ?_ this; norm_num
        · have := mul_le_mul k2.2.2.2 k2.2.2.2 pt.le (by norm_num)
          refine this.trans ?_; norm_num
      have t0 : 0 < (F32.mul et et).val := lt_of_lt_of_le (by norm_num) tt.2.1
      have rr : In 0 (2 ^ 40) (div (F32.mul ei ei) (F32.mul et et)) := by
        refine in_div ii.1 tt.1 t0.ne' (div_nonneg ii.2.1 t0.le) ?_ r0 r40.1
        rw [div_le_iff₀ t0]
        have := ii.2.2; have := tt.2.1
        norm_num at *; linarith
      have m1 : In 0 (2 ^ 40) (F32.mul (sub one w) (div (F32.mul ei ei) (F32.mul et et))) := by
        refine in_mul v1.1 rr.1 (mul_nonneg v1.2.1 rr.2.1) ?_ r0 r40.1
        have := mul_le_mul v1.2.2 rr.2.2 rr.2.1 (by norm_num)
        linarith
      obtain ⟨fz', ez'⟩ := abs_finite fz
      have z0 : (1 / 4096 : ℚ) ≤ (F32.abs z).val := by rw [ez', ez]; exact sq.2.1
      have z1 : 0 < (F32.abs z).val := lt_of_lt_of_le (by norm_num) z0
      refine in_div m1.1 fz' z1.ne' (div_nonneg m1.2.1 z1.le) ?_ r0 r52.1
      rw [div_le_iff₀ z1]
      have := m1.2.2
      norm_num at *; linarith
  unfold refraction
  simp only
  rw [lt_finite (show zip.Finite from trivial) hz.1, show zip.val = 0 from rfl]
  obtain ⟨fa, ea⟩ := abs_finite hz.1
  by_cases n : 0 < wo.z.val
  · simp only [n, decide_true, if_true]
    rcases key etaI etaT wo.z true hi ht ⟨hz.1, n.le, hz.2.2.trans (by norm_num)⟩ with h | ⟨h, a, b, c, d⟩
    · left; rw [h]; rfl
    · right
      rw [h]
      obtain ⟨f, e⟩ := neg_finite a.1
      refine ⟨_, _, rfl, d _ f ?_, b.1, c.1, f, fun _ => ?_, fun h => absurd n (not_lt.2 h)⟩
      · rw [e, abs_neg, abs_of_nonneg (le_trans (by norm_num) a.2.1)]
      · show (neg _).val ≤ _
        rw [e]; linarith [a.2.1]
  · simp only [n, decide_false, Bool.false_eq_true, if_false]
    push Not at n
    rcases key etaT etaI (F32.abs wo.z) false ht hi ⟨fa, by rw [ea]; exact abs_nonneg _, by
      rw [ea, abs_of_nonpos n]; have := hz.2.1; norm_num at *; linarith⟩ with h | ⟨h, a, b, c, d⟩
    · left; rw [h]; rfl
    · right
      rw [h]
      refine ⟨_, _, rfl, d _ a.1 ?_, b.1, c.1, a.1, fun h => absurd (show 0 < wo.z.val by simp at h) (not_lt.2 n), fun _ => a.2.1⟩
      rw [abs_of_nonneg (le_trans (by norm_num) a.2.1)]

/-- Light leaving glass at an angle of about thirty degrees. -/
example : Index one ∧ Index (num (3 / 2)) ∧ In (-2) 2 (num (1 / 2)) ∧ In (-(1 + 1 / 2 ^ 17)) (1 + 1 / 2 ^ 17) (num (-7 / 8)) := by
  refine ⟨⟨⟨by norm_num, by decide +kernel, by norm_num⟩, trivial, ?_, ?_⟩,
    ⟨⟨by norm_num, by decide +kernel, by norm_num⟩, trivial, ?_, ?_⟩, ⟨trivial, ?_, ?_⟩, trivial, ?_, ?_⟩ <;>
  · simp only [one, F32.val]; norm_num

end Spectre.FMat
