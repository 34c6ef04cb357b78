import Verif.Model.FloatMicrofacet
import Verif.Props.FloatMaterial
import Verif.Props.FloatSphere

/-
Property C163: the microfacet terms and the diffuse sampling in binary32.
-/

namespace Spectre.FMicro

open Spectre.Geom Spectre.FMat F32

/-! ### Spec -/

/-- Not NaN, and not negative: plus infinity, plus zero, or a positive number. -/
def Plus (x : F32) : Prop := x = inf false ∨ x = zero false ∨ ∃ q, 0 < q ∧ x = num q

/-- Plus infinity, or a finite number that is at least `k`. -/
def AtLeast (k : ℚ) (x : F32) : Prop := x = inf false ∨ (x.Finite ∧ k ≤ x.val)

/-- `2^-24`, the relative error of one operation. -/
def eps : ℚ := 1 / 2 ^ 24

/-! ### Bounds that allow infinity -/

theorem round_atLeast {k q : ℚ} {s : Bool} (hk : 0 ≤ k) (rk : Rep k) (h : k ≤ q) : AtLeast k (F32.round s q) := by
  have hm := rnd32_mono h
  rw [rk.1] at hm
  have hq : 0 ≤ q := hk.trans h
  unfold F32.round
  split_ifs with h1 h2 h3
  · exact Or.inr ⟨trivial, by rw [h1] at h; exact h⟩
  · exact Or.inr ⟨trivial, by rw [h2] at hm; exact hm⟩
  · left
    rw [decide_eq_false (not_lt.2 hq)]
  · exact Or.inr ⟨trivial, hm⟩

theorem add_atLeast {a b : F32} {j k : ℚ} (ha : In j j a) (hb : AtLeast k b) (hk : 0 ≤ j + k) (r : Rep (j + k)) :
    AtLeast (j + k) (add a b) := by
  obtain ⟨fa, l, u⟩ := ha
  rcases hb with rfl | ⟨fb, hb⟩
  · left
    cases a <;> simp only [F32.Finite] at fa <;> rfl
  · have e : ∃ s, add a b = F32.round s (a.val + b.val) := by
      cases a <;> cases b <;> simp only [F32.Finite] at fa fb <;> exact ⟨_, rfl⟩
    obtain ⟨s, e⟩ := e
    rw [e]
    exact round_atLeast hk r (by linarith)

theorem div_atLeast {a b : F32} (fa : a.Finite) (fb : b.Finite) (ha : 0 ≤ a.val) (hb : 0 < b.val) :
    AtLeast 0 (div a b) := by
  have e : ∃ s, div a b = F32.round s (a.val / b.val) := by
    cases b with
    | nan => exact fb.elim
    | inf s => exact fb.elim
    | zero s => exact absurd hb (lt_irrefl _)
    | num q => cases a <;> simp only [F32.Finite] at fa <;> exact ⟨_, rfl⟩
  obtain ⟨s, e⟩ := e
  rw [e]
  exact round_atLeast le_rfl ⟨by decide +kernel, by norm_num⟩ (div_nonneg ha hb.le)

theorem sqrt_atLeast_one {a : F32} (h : AtLeast 1 a) : AtLeast 1 (F32.sqrt a) := by
  rcases h with rfl | ⟨f, h⟩
  · left; rfl
  · right
    obtain ⟨g, -, e, -⟩ := sqrt_finite f (by linarith)
    refine ⟨g, ?_⟩
    rw [e (by linarith)]
    simpa using le_sqrt32 (q := a.val) (by linarith) (k := 0) (by simpa using h)

theorem two_div {a : F32} (h : AtLeast 2 a) : In 0 1 (div two a) := by
  rcases h with rfl | ⟨f, h⟩
  · exact ⟨trivial, le_rfl, show (0 : ℚ) ≤ 1 by norm_num⟩
  · refine in_div two_finite.1 f (by linarith) ?_ ?_ ⟨by decide +kernel, by norm_num⟩ ⟨by decide +kernel, by norm_num⟩
    · rw [two_finite.2]; exact div_nonneg (by norm_num) (by linarith)
    · rw [two_finite.2, div_le_iff₀ (by linarith)]; linarith

theorem eq_zip {a : F32} (h : a.Finite) : F32.eq a zip = decide (a.val = 0) := by
  cases a <;> simp only [F32.Finite] at h <;> rfl

theorem in_sin {c : F32} (h : In 0 4 c) : In 0 1 (fmax zip (sub one c)) := by
  obtain ⟨f, l, u⟩ := h
  have h1 : In (-3) 1 (sub one c) := in_sub one_finite.1 f (by rw [one_finite.2]; linarith) (by rw [one_finite.2]; linarith)
    ⟨by decide +kernel, by norm_num⟩ ⟨by decide +kernel, by norm_num⟩
  exact (in_fmax h1 (by norm_num)).1

/-- **C163, roughness.**  The squared roughness is in [0, 1] for every roughness of the scene file but NaN: the square of
the nearest number in [0, 1], rounded once. -/
theorem C163_roughness {r : F32} (h : r ≠ nan) : In 0 1 (ggxA2 r) ∧
    (∀ q : ℚ, r.Finite → q = max 0 (min 1 r.val) → (ggxA2 r).val = rnd32 (q * q)) ∧
    (r = inf false → (ggxA2 r).val = 1) ∧ (r = inf true → (ggxA2 r).val = 0) := by
  have key : ∀ c : F32, In 0 1 c → In 0 1 (F32.mul c c) ∧ (F32.mul c c).val = rnd32 (c.val * c.val) := fun c hc =>
    ⟨sq_in ⟨hc.1, by linarith [hc.2.1], hc.2.2⟩, by
      have h0 : 0 ≤ c.val * c.val := mul_self_nonneg _
      have h1 : c.val * c.val ≤ 1 := mul_le_one₀ hc.2.2 hc.2.1 hc.2.2
      exact (mul_finite hc.1 hc.1 (rnd_between h0 h1 ⟨by decide +kernel, by norm_num⟩ ⟨by decide +kernel, by norm_num⟩).1).2⟩
  have z0 : In 0 1 zip := ⟨trivial, le_rfl, by norm_num [F32.val, zip]⟩
  have z1 : In 0 1 one := ⟨trivial, by norm_num [F32.val, one], le_rfl⟩
  by_cases hf : r.Finite
  · have hc : ∃ c, clamp r zip one = c ∧ In 0 1 c ∧ c.val = max 0 (min 1 r.val) := by
      refine ⟨_, rfl, ?_⟩
      unfold clamp
      rw [lt_finite hf z0.1, lt_finite z1.1 hf]
      have e0 : zip.val = 0 := rfl
      have e1 : one.val = 1 := rfl
      rw [e0, e1]
      simp only [decide_eq_true_eq]
      split_ifs with h1 h2
      · exact ⟨z0, by rw [e0, min_eq_right (by linarith), max_eq_left h1.le]⟩
      · exact ⟨z1, by rw [e1, min_eq_left h2.le, max_eq_right zero_le_one]⟩
      · exact ⟨⟨hf, not_lt.1 h1, not_lt.1 h2⟩, by rw [min_eq_right (not_lt.1 h2), max_eq_right (not_lt.1 h1)]⟩
    obtain ⟨c, e, hc, v⟩ := hc
    unfold ggxA2
    simp only [e]
    refine ⟨(key c hc).1, fun q _ hq => by rw [(key c hc).2, v, hq], fun h' => ?_, fun h' => ?_⟩ <;>
      exact absurd hf (by rw [h']; exact not_false)
  · cases r with
    | nan => exact absurd rfl h
    | zero _ => exact absurd trivial hf
    | num _ => exact absurd trivial hf
    | inf s =>
      cases s with
      | false =>
        have e : ggxA2 (inf false) = num 1 := by decide +kernel
        rw [e]
        exact ⟨z1, fun _ f => absurd f hf, fun _ => rfl, fun h' => by simp at h'⟩
      | true =>
        have e : ggxA2 (inf true) = zero false := by decide +kernel
        rw [e]
        exact ⟨z0, fun _ f => absurd f hf, fun h' => by simp at h', fun _ => rfl⟩

example : ggxA2 (num (3 / 4)) = num (9 / 16) ∧ ggxA2 (num 7) = num 1 ∧ ggxA2 (num (-3)) = zero false ∧ ggxA2 nan = nan := by
  decide +kernel

/-! ### The masking term -/

/-- **C163, masking.**  The term `G1` of GGX lies in [0, 1] for every cosine in [-1, 1], down to those whose square
underflows. -/
theorem C163_visible {a2 z : F32} (ha : In 0 1 a2) (hz : In (-1) 1 z) : In 0 1 (ggxG1 a2 z) := by
  have hc : In 0 1 (F32.mul z z) := sq_in hz
  unfold ggxG1
  simp only
  rw [eq_zip hc.1]
  split_ifs with h0
  · exact ⟨trivial, le_rfl, by norm_num [F32.val, zip]⟩
  · have h0 : (F32.mul z z).val ≠ 0 := by simpa using h0
    have hp : 0 < (F32.mul z z).val := lt_of_le_of_ne hc.2.1 (Ne.symm h0)
    have hc4 : In 0 1 (F32.mul (F32.mul z z) (F32.mul z z)) := sq_in ⟨hc.1, by linarith [hc.2.1], hc.2.2⟩
    have hs := in_sin (c := F32.mul (F32.mul z z) (F32.mul z z)) ⟨hc4.1, hc4.2.1, by linarith [hc4.2.2]⟩
    have hm : In 0 1 (F32.mul a2 (fmax zip (sub one (F32.mul (F32.mul z z) (F32.mul z z))))) :=
      in_mul ha.1 hs.1 (mul_nonneg ha.2.1 hs.2.1) (mul_le_one₀ ha.2.2 hs.2.1 hs.2.2)
        ⟨by decide +kernel, by norm_num⟩ ⟨by decide +kernel, by norm_num⟩
    have hq := div_atLeast hm.1 hc.1 hm.2.1 hp
    have i1 : In 1 1 one := ⟨trivial, le_rfl, le_rfl⟩
    have hw := add_atLeast i1 hq (by norm_num) ⟨by decide +kernel, by norm_num⟩
    rw [add_zero] at hw
    have hv := add_atLeast i1 (sqrt_atLeast_one hw) (by norm_num) ⟨by decide +kernel, by norm_num⟩
    norm_num at hv
    exact two_div hv

/-- **C163, masking and shadowing.**  So does the product for two directions. -/
theorem C163_shadowing {a2 zo zi : F32} (ha : In 0 1 a2) (ho : In (-1) 1 zo) (hi : In (-1) 1 zi) :
    In 0 1 (ggxG a2 zo zi) := by
  have h1 := C163_visible ha ho
  have h2 := C163_visible ha hi
  exact in_mul h1.1 h2.1 (mul_nonneg h1.2.1 h2.2.1) (mul_le_one₀ h1.2.2 h2.2.1 h2.2.2)
    ⟨by decide +kernel, by norm_num⟩ ⟨by decide +kernel, by norm_num⟩

/-! ### Signs -/

theorem plus_round {s : Bool} {q : ℚ} (h : 0 < q) : Plus (F32.round s q) := by
  have hn := rnd32_nonneg h.le
  unfold F32.round
  rw [if_neg h.ne', decide_eq_false (not_lt.2 h.le)]
  split_ifs with h2 h3
  · exact Or.inr (Or.inl rfl)
  · exact Or.inl rfl
  · exact Or.inr (Or.inr ⟨_, lt_of_le_of_ne hn (Ne.symm h2), rfl⟩)

theorem plus_round0 {q : ℚ} (h : 0 ≤ q) : Plus (F32.round false q) := by
  rcases eq_or_lt_of_le h with h | h
  · rw [← h]; exact Or.inr (Or.inl (by unfold F32.round; simp))
  · exact plus_round h

theorem plus_add {a b : F32} (ha : Plus a) (hb : Plus b) : Plus (add a b) := by
  rcases ha with rfl | rfl | ⟨q, hq, rfl⟩ <;> rcases hb with rfl | rfl | ⟨p, hp, rfl⟩
  any_goals exact Or.inl rfl
  · exact plus_round0 (by simp [F32.val])
  · exact plus_round (by simpa [F32.val] using hp)
  · exact plus_round (by simpa [F32.val] using hq)
  · exact plus_round (by simpa [F32.val] using add_pos hq hp)

theorem sgn {q : ℚ} (h : 0 < q) : decide (q < 0) = false := decide_eq_false (not_lt.2 h.le)

theorem plus_sq {a : F32} (ha : Plus a) : Plus (F32.mul a a) := by
  rcases ha with rfl | rfl | ⟨q, hq, rfl⟩
  · exact Or.inl rfl
  · exact Or.inr (Or.inl (by decide +kernel))
  · exact plus_round (mul_pos hq hq)

/-- Multiplication by a positive number. -/
theorem plus_mul {a : F32} {p : ℚ} (ha : Plus a) (hp : 0 < p) : Plus (F32.mul a (num p)) := by
  rcases ha with rfl | rfl | ⟨q, hq, rfl⟩
  · left; show inf (xor false (decide (p < 0))) = _; rw [sgn hp]; rfl
  · have : F32.mul (zero false) (num p) = F32.round (xor false (decide (p < 0))) (0 * p) := rfl
    rw [this, sgn hp]; exact plus_round0 (by simp)
  · exact plus_round (mul_pos hq hp)

/-- A positive number over something that is not negative. -/
theorem plus_div {a : F32} {p : ℚ} (ha : Plus a) (hp : 0 < p) : Plus (div (num p) a) := by
  rcases ha with rfl | rfl | ⟨q, hq, rfl⟩
  · right; left; show zero (xor (decide (p < 0)) false) = _; rw [sgn hp]; rfl
  · left; show inf (xor (decide (p < 0)) false) = _; rw [sgn hp]; rfl
  · exact plus_round (div_pos hp hq)

/-- Something finite over a positive number. -/
theorem plus_div' {a : F32} {p : ℚ} (ha : Plus a) (hf : a.Finite) (hp : 0 < p) : Plus (div a (num p)) := by
  rcases ha with rfl | rfl | ⟨q, hq, rfl⟩
  · exact hf.elim
  · have : div (zero false) (num p) = F32.round (xor false (decide (p < 0))) (0 / p) := rfl
    rw [this, sgn hp]; exact plus_round0 (by simp)
  · exact plus_round (div_pos hq hp)

theorem onePi_pos : ∃ p, 0 < p ∧ onePi = num p :=
  ⟨13176795 / 4194304, by norm_num, by decide +kernel⟩

/-- The square of a number, as far as its sign goes. -/
theorem sq_cases {z : F32} (hz : In (-1) 1 z) (hn : z.val ≠ 0) :
    F32.mul z z = zero false ∨ ∃ q, 0 < q ∧ q ≤ 1 ∧ F32.mul z z = num q := by
  obtain ⟨f, l, u⟩ := hz
  cases z with
  | nan => exact f.elim
  | inf s => exact f.elim
  | zero s => exact absurd rfl hn
  | num q =>
    have hq : q ≠ 0 := hn
    have h := sq_in (a := num q) ⟨f, l, u⟩
    rcases plus_round (s := xor (decide (q < 0)) (decide (q < 0))) (q := q * q) (mul_self_pos.2 hq) with h1 | h1 | ⟨p, hp, h1⟩
    · exfalso
      have : F32.mul (num q) (num q) = inf false := h1
      rw [this] at h
      exact h.1
    · exact Or.inl h1
    · right
      have e : F32.mul (num q) (num q) = num p := h1
      rw [e] at h
      exact ⟨p, hp, h.2.2, e⟩

theorem plus_sin {q : ℚ} (h0 : 0 < q) (h1 : q ≤ 1) : Plus (fmax zip (sub one (num q))) ∧
    (fmax zip (sub one (num q))).Finite := by
  have hf := (in_sin (c := num q) ⟨trivial, h0.le, show q ≤ 4 by linarith⟩).1
  refine ⟨?_, hf⟩
  have e : sub one (num q) = F32.round (false && decide (-q < 0)) (1 + -q) := by
    show F32.round (decide ((1 : ℚ) < 0) && decide (-q < 0)) (1 + -q) = _
    rw [sgn one_pos]
  rw [Bool.false_and] at e
  have hp : Plus (sub one (num q)) := by rw [e]; exact plus_round0 (by linarith)
  unfold fmax
  split_ifs with c
  · exact Or.inr (Or.inl rfl)
  · exact hp

/-! ### The density -/

/-- **C163, density.**  For every half vector the density of GGX is not negative, and it is NaN exactly if the cosine is
not zero but its square underflows. -/
theorem C163_density {a2 : ℚ} {z : F32} (ha : 0 < a2) (hz : In (-1) 1 z) :
    (¬ (z.val ≠ 0 ∧ (F32.mul z z).val = 0) → Plus (ggxD (num a2) z)) ∧
      (z.val ≠ 0 ∧ (F32.mul z z).val = 0 → ggxD (num a2) z = nan) := by
  unfold ggxD
  rw [eq_zip hz.1]
  by_cases h0 : z.val = 0
  · rw [if_pos (by simpa using h0)]
    exact ⟨fun _ => Or.inr (Or.inl rfl), fun h => absurd h0 h.1⟩
  · rw [if_neg (by simpa using h0)]
    rcases sq_cases hz h0 with e | ⟨q, q0, q1, e⟩
    · refine ⟨fun h => absurd ⟨h0, by rw [e]; rfl⟩ h, fun _ => ?_⟩
      simp only
      rw [e]
      have : fmax zip (sub one (zero false)) = num 1 := by decide +kernel
      rw [this]
      have : add (num a2) (div (num 1) (zero false)) = inf false := by
        have : div (num 1) (zero false) = inf false := by decide +kernel
        rw [this]; rfl
      rw [this]
      rfl
    · refine ⟨fun _ => ?_, fun h => ?_⟩
      · simp only
        rw [e]
        obtain ⟨s1, s2⟩ := plus_sin q0 q1
        obtain ⟨p, p0, pe⟩ := onePi_pos
        rw [pe]
        exact plus_div (plus_mul (plus_mul (plus_mul (plus_sq (plus_add (Or.inr (Or.inr ⟨a2, ha, rfl⟩))
          (plus_div' s1 s2 q0))) q0) q0) p0) ha
      · rw [e] at h
        exact absurd h.2 q0.ne'

/-! ### Sampling -/

theorem eps_pos : 0 < eps := by unfold eps; norm_num

theorem eps_small : eps ≤ 1 / 10000000 := by unfold eps; norm_num

/-- The absolute error of a result up to one. -/
theorem rnd_one {q : ℚ} (h : |q| ≤ 1) : |rnd32 q - q| ≤ eps := by
  refine (rnd32_err q).trans (max_le ?_ (by unfold eps; norm_num))
  unfold eps
  nlinarith [abs_nonneg q]

theorem sqrt_near {a : F32} (h : In 0 1 a) : |(F32.sqrt a).val ^ 2 - a.val| ≤ 5 / 2 * eps := by
  have hs := in_sqrt h
  obtain ⟨f, l, r⟩ := h
  obtain ⟨-, -, e, e0⟩ := sqrt_finite f l
  rcases eq_or_lt_of_le l with h1 | h1
  · rw [e0 h1.symm, ← h1]; norm_num [eps]
  · obtain ⟨p, b1, b2⟩ := sqrt32_sq h1
    have hs1 := hs.2.2
    rw [e h1] at hs1 ⊢
    generalize sqrt32 a.val = x at *
    have x2 : x ^ 2 ≤ 1 := by nlinarith
    have x0 : 0 ≤ x ^ 2 := sq_nonneg x
    unfold eps
    rw [abs_le]
    constructor <;> norm_num at * <;> linarith

theorem r0_one {r : F32} (hr : r.Ok) (h : In 0 1 r) (h1 : r.val ≠ 1) : 1 / 2 ^ 24 ≤ 1 - r.val := by
  have := gap_one (ok_val hr).1 (lt_of_le_of_ne h.2.2 h1)
  linarith

theorem sub_one_range {r : F32} (h : In 0 1 r) : In 0 1 (sub one r) :=
  in_sub one_finite.1 h.1 (by rw [one_finite.2]; linarith [h.2.2]) (by rw [one_finite.2]; linarith [h.2.1])
    ⟨by decide +kernel, by norm_num⟩ ⟨by decide +kernel, by norm_num⟩

/-- The denominator of `cos2t`. -/
def ggxDen (a2 r0 : F32) : F32 := add (F32.mul r0 (sub a2 one)) one

theorem fin1 {q : ℚ} (h : |q| ≤ 1) : |rnd32 q| < 2 ^ 128 := by
  obtain ⟨h1, h2⟩ := abs_le.1 h
  exact (rnd_between h1 h2 ⟨by decide +kernel, by norm_num⟩ ⟨by decide +kernel, by norm_num⟩).1

theorem den_facts {a2 r0 : F32} (ha : In 0 1 a2) (hr : r0.Ok) (h : In 0 1 r0) :
    In 0 1 (ggxDen a2 r0) ∧ (sub one r0).val ≤ (ggxDen a2 r0).val ∧
      |(ggxDen a2 r0).val - (1 - r0.val * (1 - a2.val))| ≤ 3 * eps := by
  obtain ⟨fa, la, ua⟩ := ha
  obtain ⟨fr, lr, ur⟩ := h
  obtain ⟨rr, rb⟩ := ok_val hr
  have hm : In (-1) 0 (sub a2 one) := in_sub fa one_finite.1 (by rw [one_finite.2]; linarith)
    (by rw [one_finite.2]; linarith) ⟨by decide +kernel, by norm_num⟩ ⟨by decide +kernel, by norm_num⟩
  have em : (sub a2 one).val = rnd32 (a2.val - 1) := by
    have := (sub_fin fa one_finite.1 (by rw [one_finite.2]; exact fin1 (abs_le.2 ⟨by linarith, by linarith⟩))).2
    rwa [one_finite.2] at this
  have e2 := rnd_one (q := a2.val - 1) (abs_le.2 ⟨by linarith, by linarith⟩)
  rw [← em] at e2
  obtain ⟨fm, lm, um⟩ := hm
  generalize hM : sub a2 one = M at *
  have pr1 : -r0.val ≤ r0.val * M.val := by nlinarith
  have pr2 : r0.val * M.val ≤ 0 := by nlinarith
  have hp : In (-r0.val) 0 (F32.mul r0 M) := in_mul fr fm pr1 pr2
    ⟨by rw [rnd32_neg, rr], by rwa [abs_neg]⟩ ⟨by decide +kernel, by norm_num⟩
  have ep : (F32.mul r0 M).val = rnd32 (r0.val * M.val) :=
    (mul_finite fr fm (fin1 (abs_le.2 ⟨by linarith, by linarith⟩))).2
  have e3 := rnd_one (q := r0.val * M.val) (abs_le.2 ⟨by linarith, by linarith⟩)
  rw [← ep] at e3
  obtain ⟨fp, lp, up⟩ := hp
  have hden : ggxDen a2 r0 = add (F32.mul r0 M) one := by unfold ggxDen; rw [hM]
  rw [hden]
  generalize hP : F32.mul r0 M = P at *
  have hd : In 0 1 (add P one) := in_add fp one_finite.1 (by rw [one_finite.2]; linarith)
    (by rw [one_finite.2]; linarith) ⟨by decide +kernel, by norm_num⟩ ⟨by decide +kernel, by norm_num⟩
  have ed : (add P one).val = rnd32 (P.val + 1) := by
    have := (add_finite fp one_finite.1 (by rw [one_finite.2]; exact fin1 (abs_le.2 ⟨by linarith, by linarith⟩))).2
    rwa [one_finite.2] at this
  have e4 := rnd_one (q := P.val + 1) (abs_le.2 ⟨by linarith, by linarith⟩)
  have en : (sub one r0).val = rnd32 (1 - r0.val) := by
    have := (sub_fin one_finite.1 fr (by rw [one_finite.2]; exact fin1 (abs_le.2 ⟨by linarith, by linarith⟩))).2
    rwa [one_finite.2] at this
  refine ⟨hd, ?_, ?_⟩
  · rw [en, ed]; exact rnd32_mono (by linarith)
  · rw [← ed] at e4
    have e5 : |r0.val * (M.val - (a2.val - 1))| ≤ eps := by
      rw [abs_mul, abs_of_nonneg lr]
      nlinarith [abs_nonneg (M.val - (a2.val - 1))]
    have e6 : (add P one).val - (1 - r0.val * (1 - a2.val)) =
        ((add P one).val - (P.val + 1)) + ((P.val - r0.val * M.val) + r0.val * (M.val - (a2.val - 1))) := by ring
    rw [e6]
    refine (abs_add_le _ _).trans ?_
    have := abs_add_le (P.val - r0.val * M.val) (r0.val * (M.val - (a2.val - 1)))
    linarith

/-- Only `1 - 2^-25` and what lies beyond rounds to one. -/
theorem rnd_minus_one {x : ℚ} (h0 : 0 ≤ x) : rnd32 (x - 1) = -1 ↔ x ≤ 1 / 2 ^ 25 := by
  constructor
  · intro h
    by_contra hc
    push Not at hc
    by_cases h2 : x ≤ 1 / 2
    · have hy : 0 < 1 - x := by linarith
      have l1 : -1 ≤ Int.log 2 (1 - x) := by
        rw [← Int.zpow_le_iff_le_log (by norm_num) hy]; norm_num; linarith
      have hx0 : 1 - x < 1 := by
        have : (0 : ℚ) < 1 / 2 ^ 25 := by norm_num
        linarith
      have l2 : Int.log 2 (1 - x) < 0 := by
        rw [← Int.lt_zpow_iff_log_lt (by norm_num) hy]; simpa using hx0
      have e : ulp32 (1 - x) = -24 := by
        unfold ulp32 ulpExp
        rw [abs_of_pos hy, show Int.log 2 (1 - x) = -1 by omega]; rfl
      have h' : rnd32 (1 - x) = 1 := by
        rw [show 1 - x = -(x - 1) by ring, rnd32_neg, h]; norm_num
      unfold rnd32 at h'
      rw [e] at h'
      have b := (rne_bounds ((1 - x) / 2 ^ (-24 : ℤ))).2
      generalize (rne ((1 - x) / 2 ^ (-24 : ℤ)) : ℚ) = n at *
      norm_num at *
      linarith
    · have := rnd32_mono (a := -(1 / 2)) (b := x - 1) (by linarith)
      rw [show rnd32 (-(1 / 2)) = -(1 / 2) by decide +kernel, h] at this
      norm_num at this
  · intro h
    have a := rnd32_mono (a := -1) (b := x - 1) (by linarith)
    have b := rnd32_mono (a := x - 1) (b := 1 / 2 ^ 25 - 1) (by linarith)
    rw [show rnd32 (-1) = -1 by decide +kernel] at a
    rw [show rnd32 (1 / 2 ^ 25 - 1) = -1 by decide +kernel] at b
    linarith

theorem den_zero {a2 r0 : F32} (ha : In 0 1 a2) (hr : r0.Ok) (h : In 0 1 r0) :
    (ggxDen a2 r0).val = 0 ↔ r0.val = 1 ∧ a2.val ≤ 1 / 2 ^ 25 := by
  obtain ⟨d1, d2, -⟩ := den_facts ha hr h
  have en : (sub one r0).val = rnd32 (1 - r0.val) := by
    have := (sub_fin one_finite.1 h.1 (by
      rw [one_finite.2]; exact fin1 (abs_le.2 ⟨by linarith [h.2.2], by linarith [h.2.1]⟩))).2
    rwa [one_finite.2] at this
  by_cases h1 : r0.val = 1
  · have em : (sub a2 one).Finite ∧ (sub a2 one).val = rnd32 (a2.val - 1) := by
      have := (sub_fin ha.1 one_finite.1 (by
        rw [one_finite.2]; exact fin1 (abs_le.2 ⟨by linarith [ha.2.1], by linarith [ha.2.2]⟩)))
      rwa [one_finite.2] at this
    have hm := rnd_between (q := a2.val - 1) (lo := -1) (hi := 0) (by linarith [ha.2.1]) (by linarith [ha.2.2])
      ⟨by decide +kernel, by norm_num⟩ ⟨by decide +kernel, by norm_num⟩
    have rm : rnd32 (rnd32 (a2.val - 1)) = rnd32 (a2.val - 1) := rnd32_rnd32 _
    have ep : (F32.mul r0 (sub a2 one)).Finite ∧ (F32.mul r0 (sub a2 one)).val = rnd32 (a2.val - 1) := by
      have := mul_finite h.1 em.1 (by rw [h1, one_mul, em.2, rm]; exact hm.1)
      rwa [h1, one_mul, em.2, rm] at this
    have ed : (ggxDen a2 r0).val = rnd32 (rnd32 (a2.val - 1) + 1) := by
      have := (add_finite ep.1 one_finite.1 (by
        rw [one_finite.2, ep.2]; exact fin1 (abs_le.2 ⟨by linarith [hm.2.1], by linarith [hm.2.2]⟩))).2
      rwa [one_finite.2, ep.2] at this
    rw [ed, ← rnd_minus_one ha.2.1]
    constructor
    · intro hz
      refine ⟨h1, ?_⟩
      by_contra hc
      have : -(rnd32 (a2.val - 1)) ≤ 1 - 1 / 2 ^ 24 := by
        apply gap_one
        · rw [rnd32_neg, rm]
        · have : -1 < rnd32 (a2.val - 1) := lt_of_le_of_ne hm.2.1 (Ne.symm hc)
          linarith
      have := rnd32_mono (a := 1 / 2 ^ 24) (b := rnd32 (a2.val - 1) + 1) (by linarith)
      rw [hz, show rnd32 (1 / 2 ^ 24) = 1 / 2 ^ 24 by decide +kernel] at this
      norm_num at this
    · rintro ⟨-, hz⟩
      rw [hz]; norm_num [rnd32_zero]
  · refine ⟨fun hz => ?_, fun hz => absurd hz.1 h1⟩
    exfalso
    have := rnd32_mono (r0_one hr h h1)
    rw [show rnd32 (1 / 2 ^ 24) = 1 / 2 ^ 24 by decide +kernel, ← en] at this
    have h3 : (0 : ℚ) < 1 / 2 ^ 24 := by norm_num
    linarith

/-- **C163, sampling the half vector.**  Whenever the random number is below one or the squared roughness above `2^-25`,
the cosine and the sine of `GGXiso::sample_wh` are numbers in [0, 1], their squares add up to one within `6*2^-24`, and the
cosine satisfies the equation of the distribution within `8*2^-24`. -/
theorem C163_sample_partial {a2 r0 : F32} (ha : In 0 1 a2) (hr : r0.Ok) (h : In 0 1 r0)
    (hn : ¬ (r0.val = 1 ∧ a2.val ≤ 1 / 2 ^ 25)) :
    In 0 1 (ggxAngle a2 r0).1 ∧ In 0 1 (ggxAngle a2 r0).2 ∧
      |(ggxAngle a2 r0).1.val ^ 2 + (ggxAngle a2 r0).2.val ^ 2 - 1| ≤ 6 * eps ∧
      |(ggxAngle a2 r0).1.val ^ 2 * (1 - r0.val * (1 - a2.val)) - (1 - r0.val)| ≤ 8 * eps := by
  obtain ⟨d1, d2, d3⟩ := den_facts ha hr h
  have dz := den_zero ha hr h
  have hd0 : 0 < (ggxDen a2 r0).val := lt_of_le_of_ne d1.2.1 (fun e => hn (dz.1 e.symm))
  have ec : ggxCos2 a2 r0 = div (sub one r0) (ggxDen a2 r0) := rfl
  have en : (sub one r0).val = rnd32 (1 - r0.val) := by
    have := (sub_fin one_finite.1 h.1 (by
      rw [one_finite.2]; exact fin1 (abs_le.2 ⟨by linarith [h.2.2], by linarith [h.2.1]⟩))).2
    rwa [one_finite.2] at this
  have n1 := rnd_one (q := 1 - r0.val) (abs_le.2 ⟨by linarith [h.2.2], by linarith [h.2.1]⟩)
  rw [← en] at n1
  have hN := sub_one_range h
  have q0 : 0 ≤ (sub one r0).val / (ggxDen a2 r0).val := div_nonneg hN.2.1 d1.2.1
  have q1 : (sub one r0).val / (ggxDen a2 r0).val ≤ 1 := by rw [div_le_one hd0]; exact d2
  have hc : In 0 1 (ggxCos2 a2 r0) := by
    rw [ec]
    exact in_div hN.1 d1.1 hd0.ne' q0 q1 ⟨by decide +kernel, by norm_num⟩ ⟨by decide +kernel, by norm_num⟩
  have ev : (ggxCos2 a2 r0).val = rnd32 ((sub one r0).val / (ggxDen a2 r0).val) := by
    rw [ec]
    exact (div_finite hN.1 d1.1 hd0.ne' (fin1 (abs_le.2 ⟨by linarith, q1⟩))).2
  have c1 := rnd_one (q := (sub one r0).val / (ggxDen a2 r0).val) (abs_le.2 ⟨by linarith, q1⟩)
  rw [← ev] at c1
  have c2 : |(ggxCos2 a2 r0).val * (ggxDen a2 r0).val - (sub one r0).val| ≤ eps := by
    have e : (ggxCos2 a2 r0).val * (ggxDen a2 r0).val - (sub one r0).val =
        ((ggxCos2 a2 r0).val - (sub one r0).val / (ggxDen a2 r0).val) * (ggxDen a2 r0).val := by
      field_simp
    rw [e, abs_mul, abs_of_nonneg d1.2.1]
    nlinarith [abs_nonneg ((ggxCos2 a2 r0).val - (sub one r0).val / (ggxDen a2 r0).val), d1.2.2]
  obtain ⟨m1, m1e⟩ := in_fmax hc (by norm_num)
  rw [max_eq_right hc.2.1] at m1e
  have hs := sub_one_range hc
  have es : (sub one (ggxCos2 a2 r0)).val = rnd32 (1 - (ggxCos2 a2 r0).val) := by
    have := (sub_fin one_finite.1 hc.1 (by
      rw [one_finite.2]; exact fin1 (abs_le.2 ⟨by linarith [hc.2.2], by linarith [hc.2.1]⟩))).2
    rwa [one_finite.2] at this
  have s1 := rnd_one (q := 1 - (ggxCos2 a2 r0).val) (abs_le.2 ⟨by linarith [hc.2.2], by linarith [hc.2.1]⟩)
  rw [← es] at s1
  obtain ⟨m2, m2e⟩ := in_fmax hs (by norm_num)
  rw [max_eq_right hs.2.1] at m2e
  have k1 := sqrt_near m1
  have k2 := sqrt_near m2
  rw [m1e] at k1
  rw [m2e] at k2
  have D0 : 0 ≤ 1 - r0.val * (1 - a2.val) := by nlinarith [h.2.1, h.2.2, ha.2.1, ha.2.2]
  have D1 : 1 - r0.val * (1 - a2.val) ≤ 1 := by nlinarith [h.2.1, h.2.2, ha.2.1, ha.2.2]
  have f1 : |((ggxAngle a2 r0).1.val ^ 2 - (ggxCos2 a2 r0).val) * (1 - r0.val * (1 - a2.val))| ≤ 5 / 2 * eps := by
    rw [abs_mul, abs_of_nonneg D0]
    exact (mul_le_of_le_one_right (abs_nonneg _) D1).trans k1
  have f2 : |(ggxCos2 a2 r0).val * ((ggxDen a2 r0).val - (1 - r0.val * (1 - a2.val)))| ≤ 3 * eps := by
    rw [abs_mul, abs_of_nonneg hc.2.1]
    exact (mul_le_of_le_one_left (abs_nonneg _) hc.2.2).trans d3
  refine ⟨in_sqrt m1, in_sqrt m2, ?_, ?_⟩
  · have k1 : |(ggxAngle a2 r0).1.val ^ 2 - (ggxCos2 a2 r0).val| ≤ 5 / 2 * eps := k1
    have k2 : |(ggxAngle a2 r0).2.val ^ 2 - (sub one (ggxCos2 a2 r0)).val| ≤ 5 / 2 * eps := k2
    rw [abs_le] at *
    constructor <;> linarith [k1.1, k1.2, k2.1, k2.2, s1.1, s1.2]
  · rw [abs_le] at f1 f2 n1 c2 ⊢
    have := eps_pos
    constructor <;> nlinarith [f1.1, f1.2, f2.1, f2.2, n1.1, n1.2, c2.1, c2.2]

/-- **C163, violated.**  With the random number one and a squared roughness up to `2^-25` the half vector is NaN. -/
theorem C163_sample_nan {a2 r0 : F32} (ha : In 0 1 a2) (hr : r0.Ok) (h : In 0 1 r0)
    (hn : r0.val = 1 ∧ a2.val ≤ 1 / 2 ^ 25) (cp sp woz : F32) : (ggxSample a2 r0 cp sp woz) = ⟨nan, nan, nan⟩ := by
  have hz := (den_zero ha hr h).2 hn
  obtain ⟨d1, -, -⟩ := den_facts ha hr h
  have hN : sub one r0 = zero false := by
    cases r0 with
    | nan => exact h.1.elim
    | inf s => exact h.1.elim
    | zero s => exact absurd hn.1 (by norm_num [F32.val])
    | num q =>
      have : q = 1 := hn.1
      rw [this]; decide +kernel
  have hD : ∃ s, ggxDen a2 r0 = zero s := by
    unfold ggxDen at hz d1 ⊢
    generalize hX : add (F32.mul r0 (sub a2 one)) one = X at *
    cases X with
    | nan => exact d1.1.elim
    | inf s => exact d1.1.elim
    | zero s => exact ⟨s, rfl⟩
    | num q =>
      exfalso
      have hq : q = 0 := hz
      have hmo : (sub a2 one).Finite := (sub_fin ha.1 one_finite.1 (by
        rw [one_finite.2]; exact fin1 (abs_le.2 ⟨by linarith [ha.2.1], by linarith [ha.2.2]⟩))).1
      have : ∀ a b : F32, ∀ q, add a b = num q → q ≠ 0 := by
        intro a b q hh
        have key : ∀ s x, F32.round s x = num q → q ≠ 0 := by
          intro s x hx
          unfold F32.round at hx
          split_ifs at hx with h1 h2
          cases hx
          exact h2
        cases a <;> cases b <;> simp only [add] at hh <;> first | exact key _ _ hh | cases hh | skip
        split_ifs at hh
      exact this _ _ _ hX hq
  obtain ⟨s, hD⟩ := hD
  have ec : ggxCos2 a2 r0 = nan := by
    have : ggxCos2 a2 r0 = div (sub one r0) (ggxDen a2 r0) := rfl
    rw [this, hN, hD]; rfl
  unfold ggxSample ggxAngle
  rw [ec]
  unfold halfVec
  have m1 : F32.sqrt (fmax zip nan) = nan := rfl
  have m2 : F32.sqrt (fmax zip (sub one nan)) = nan := rfl
  simp only [m1, m2]
  have m3 : ∀ x : F32, F32.mul nan x = nan := fun x => by cases x <;> rfl
  rw [m3, m3]
  split_ifs <;> rfl

/-- **C163, sampling, violated.**  A material with roughness 0.0001 and the random number 1, which the generator returns
(C05): the sampled half vector is NaN in every component. -/
theorem C163_violated_sample (cp sp woz : F32) :
    ggxSample (ggxA2 (F32.round false (1 / 10000))) (num 1) cp sp woz = ⟨nan, nan, nan⟩ :=
  C163_sample_nan (by
    have : ggxA2 (F32.round false (1 / 10000)) = num (5629499 / 562949953421312) := by decide +kernel
    rw [this]
    exact ⟨trivial, by norm_num [F32.val], by norm_num [F32.val]⟩)
    (show (num 1).Ok from ⟨by norm_num, by decide +kernel, by norm_num⟩)
    (show In 0 1 (num 1) from ⟨trivial, by norm_num [F32.val], by norm_num [F32.val]⟩)
    ⟨rfl, by
      have : ggxA2 (F32.round false (1 / 10000)) = num (5629499 / 562949953421312) := by decide +kernel
      rw [this]; norm_num [F32.val]⟩ cp sp woz

/-- The cosine and the sine of an angle, as the library computes them. -/
def Angle (cp sp : F32) : Prop := In (-1) 1 cp ∧ In (-1) 1 sp ∧ |cp.val ^ 2 + sp.val ^ 2 - 1| ≤ 4 * eps

/-- The full statement: for every roughness of a material that is not perfectly smooth and every random number in [0, 1]
the sampled half vector is made of numbers. -/
def SampleStatement : Prop := ∀ rough r0 cp sp woz : F32, rough.Ok → r0.Ok → In 0 1 rough → 0 < rough.val → In 0 1 r0 →
  Angle cp sp → In (-1) 1 woz → (ggxSample (ggxA2 rough) r0 cp sp woz).z.Finite

theorem angle_zero : Angle (num 1) (zero false) := by
  refine ⟨⟨trivial, by norm_num [F32.val], by norm_num [F32.val]⟩, ⟨trivial, by norm_num [F32.val], by norm_num [F32.val]⟩, ?_⟩
  norm_num [F32.val, eps]

/-- **C163, sampling, violated.**  The full statement does not hold. -/
theorem C163_violated_statement : ¬ SampleStatement := by
  intro h
  have := h (F32.round false (1 / 10000)) (num 1) (num 1) (zero false) (num 1) (round_ok _ _)
    (show (num 1).Ok from ⟨by norm_num, by decide +kernel, by norm_num⟩)
    (by
      have : F32.round false (1 / 10000) = num (13743895 / 137438953472) := by decide +kernel
      rw [this]; exact ⟨trivial, by norm_num [F32.val], by norm_num [F32.val]⟩)
    (by
      have : F32.round false (1 / 10000) = num (13743895 / 137438953472) := by decide +kernel
      rw [this]; norm_num [F32.val])
    ⟨trivial, by norm_num [F32.val], by norm_num [F32.val]⟩ angle_zero
    ⟨trivial, by norm_num [F32.val], by norm_num [F32.val]⟩
  rw [C163_violated_sample] at this
  exact this

/-- **C163, density, violated.**  The density at the cosine `2^-80` is NaN, although the cosine is not zero. -/
theorem C163_violated_density : ggxD (num (1 / 4)) (num (2 ^ (-80 : ℤ))) = nan := by decide +kernel

/-! ### The half vector -/

theorem mul_near {s c : F32} (hs : In 0 1 s) (hc : In (-1) 1 c) :
    In (-1) 1 (F32.mul s c) ∧ |(F32.mul s c).val ^ 2 - s.val ^ 2 * c.val ^ 2| ≤ 2 * eps := by
  obtain ⟨fs, ls, us⟩ := hs
  obtain ⟨fc, lc, uc⟩ := hc
  have p1 : -1 ≤ s.val * c.val := by nlinarith
  have p2 : s.val * c.val ≤ 1 := by nlinarith
  have hi := in_mul fs fc p1 p2 ⟨by decide +kernel, by norm_num⟩ ⟨by decide +kernel, by norm_num⟩
  refine ⟨hi, ?_⟩
  have e := (mul_finite fs fc (fin1 (abs_le.2 ⟨p1, p2⟩))).2
  have r := rnd_one (abs_le.2 ⟨p1, p2⟩)
  rw [← e] at r
  have : (F32.mul s c).val ^ 2 - s.val ^ 2 * c.val ^ 2 =
      ((F32.mul s c).val - s.val * c.val) * ((F32.mul s c).val + s.val * c.val) := by ring
  rw [this, abs_mul]
  have h2 : |(F32.mul s c).val + s.val * c.val| ≤ 2 := abs_le.2 ⟨by linarith [hi.2.1], by linarith [hi.2.2]⟩
  nlinarith [abs_nonneg ((F32.mul s c).val - s.val * c.val), abs_nonneg ((F32.mul s c).val + s.val * c.val)]

theorem neg_in {a : F32} (h : In (-1) 1 a) : In (-1) 1 (neg a) := by
  obtain ⟨f, e⟩ := neg_finite h.1
  exact ⟨f, by rw [e]; linarith [h.2.2], by rw [e]; linarith [h.2.1]⟩

/-- **C163, half vector.**  From a cosine and a sine in [0, 1] the half vector is made of numbers in [-1, 1], its squared
length differs from one by at most `8*2^-24` more than the squares do, and it is on the side of the outgoing direction. -/
theorem C163_half {cost sint cp sp woz : F32} {k : ℚ} (hc : In 0 1 cost) (hs : In 0 1 sint) (ha : Angle cp sp)
    (hw : In (-1) 1 woz) (hk : |cost.val ^ 2 + sint.val ^ 2 - 1| ≤ k * eps) :
    let w := halfVec cost sint cp sp woz
    In (-1) 1 w.x ∧ In (-1) 1 w.y ∧ In (-1) 1 w.z ∧
      |w.x.val ^ 2 + w.y.val ^ 2 + w.z.val ^ 2 - 1| ≤ (k + 8) * eps ∧ 0 ≤ (F32.mul woz w.z).val ∧
      (|w.z.val| = cost.val) := by
  intro w
  obtain ⟨h1, h2, h3⟩ := ha
  obtain ⟨x1, x2⟩ := mul_near hs h1
  obtain ⟨y1, y2⟩ := mul_near hs h2
  have hc' : In (-1) 1 cost := ⟨hc.1, by linarith [hc.2.1], hc.2.2⟩
  have s1 : |sint.val ^ 2 * (cp.val ^ 2 + sp.val ^ 2 - 1)| ≤ 4 * eps := by
    rw [abs_mul, abs_of_nonneg (sq_nonneg _)]
    have : sint.val ^ 2 ≤ 1 := by nlinarith [hs.2.1, hs.2.2]
    exact (mul_le_of_le_one_left (abs_nonneg _) this).trans h3
  have key : |(F32.mul sint cp).val ^ 2 + (F32.mul sint sp).val ^ 2 + cost.val ^ 2 - 1| ≤ (k + 8) * eps := by
    rw [abs_le] at x2 y2 s1 hk ⊢
    constructor <;> nlinarith [x2.1, x2.2, y2.1, y2.2, s1.1, s1.2, hk.1, hk.2]
  have pm : ∀ c : F32, In (-1) 1 c → (F32.mul woz c).Finite ∧ (F32.mul woz c).val = rnd32 (woz.val * c.val) := by
    intro c hc
    refine mul_finite hw.1 hc.1 (fin1 (abs_le.2 ⟨?_, ?_⟩)) <;> nlinarith [hw.2.1, hw.2.2, hc.2.1, hc.2.2]
  show In (-1) 1 (halfVec cost sint cp sp woz).x ∧ _
  unfold w halfVec
  simp only
  rw [lt_finite (pm _ hc').1 (show zip.Finite from trivial)]
  have z0 : zip.val = 0 := rfl
  rw [z0]
  by_cases c : (F32.mul woz cost).val < 0
  · simp only [c, decide_true, if_true]
    refine ⟨neg_in x1, neg_in y1, neg_in hc', ?_, ?_, ?_⟩
    · rw [(neg_finite x1.1).2, (neg_finite y1.1).2, (neg_finite hc.1).2, neg_sq, neg_sq, neg_sq]; exact key
    · rw [(pm _ (neg_in hc')).2, (neg_finite hc.1).2]
      rw [(pm _ hc').2] at c
      rw [mul_neg, rnd32_neg]
      linarith
    · rw [(neg_finite hc.1).2, abs_neg, abs_of_nonneg hc.2.1]
  · simp only [c, decide_false, Bool.false_eq_true, if_false]
    exact ⟨x1, y1, hc', key, not_lt.1 c, abs_of_nonneg hc.2.1⟩

/-! ### Beckmann -/

/-- What a logarithm of a number in [0, 1] is: minus infinity or a number that is not positive. -/
def LogSpec (log : F32 → F32) : Prop := ∀ x, In 0 1 x → log x = inf true ∨ ((log x).Finite ∧ (log x).val ≤ 0)

theorem neg_mul_atLeast {a l : F32} (ha : a.Finite) (h0 : 0 < a.val) (hl : l = inf true ∨ (l.Finite ∧ l.val ≤ 0)) :
    AtLeast 0 (neg (F32.mul a l)) := by
  cases a with
  | nan => exact ha.elim
  | inf s => exact ha.elim
  | zero s => exact absurd h0 (lt_irrefl _)
  | num q =>
    have hq : 0 < q := h0
    rcases hl with rfl | ⟨f, hl⟩
    · left
      show neg (inf (xor (decide (q < 0)) true)) = _
      rw [sgn hq]; rfl
    · have e : ∃ s, F32.mul (num q) l = F32.round s (q * l.val) := by
        cases l <;> simp only [F32.Finite] at f <;> exact ⟨_, rfl⟩
      obtain ⟨s, e⟩ := e
      rw [e]
      have hn : q * l.val ≤ 0 := mul_nonpos_of_nonneg_of_nonpos hq.le hl
      have hr := rnd32_nonneg (q := -(q * l.val)) (by linarith)
      rw [rnd32_neg] at hr
      unfold F32.round
      split_ifs with h1 h2 h3
      · exact Or.inr ⟨trivial, le_rfl⟩
      · exact Or.inr ⟨trivial, le_rfl⟩
      · left
        rw [decide_eq_true (lt_of_le_of_ne hn h1)]; rfl
      · exact Or.inr ⟨trivial, hr⟩

theorem one_div_in {a : F32} (h : AtLeast 1 a) : In 0 1 (div one a) := by
  rcases h with rfl | ⟨f, h⟩
  · exact ⟨trivial, le_rfl, show (0 : ℚ) ≤ 1 by norm_num⟩
  · refine in_div one_finite.1 f (by linarith) ?_ ?_ ⟨by decide +kernel, by norm_num⟩ ⟨by decide +kernel, by norm_num⟩
    · rw [one_finite.2]; exact div_nonneg (by norm_num) (by linarith)
    · rw [one_finite.2, div_le_iff₀ (by linarith)]; linarith

/-- **C163, Beckmann.**  As long as the squared roughness does not underflow, the cosine and the sine of
`Beckmann::sample_wh` are numbers in [0, 1] for every random number, one included, and their squares add up to one within
`5*2^-24`. -/
theorem C163_beckmann_partial {log : F32 → F32} (hl : LogSpec log) {a r0 : F32} (ha : In 0 1 a) (h2 : 0 < (F32.mul a a).val)
    (hr : In 0 1 r0) :
    In 0 1 (beckmannAngle log a r0).1 ∧ In 0 1 (beckmannAngle log a r0).2 ∧
      |(beckmannAngle log a r0).1.val ^ 2 + (beckmannAngle log a r0).2.val ^ 2 - 1| ≤ 5 * eps := by
  have hsq : In 0 1 (F32.mul a a) := sq_in ⟨ha.1, by linarith [ha.2.1], ha.2.2⟩
  have i1 : In 1 1 one := ⟨trivial, le_rfl, le_rfl⟩
  have h1 := add_atLeast i1 (neg_mul_atLeast hsq.1 h2 (hl _ (sub_one_range hr))) (by norm_num)
    ⟨by decide +kernel, by norm_num⟩
  rw [add_zero] at h1
  have hc := one_div_in (sqrt_atLeast_one h1)
  change In 0 1 (beckmannAngle log a r0).1 at hc
  have e : (beckmannAngle log a r0).2 =
    F32.sqrt (sub one (F32.mul (beckmannAngle log a r0).1 (beckmannAngle log a r0).1)) := rfl
  rw [e]
  generalize (beckmannAngle log a r0).1 = c at *
  have hcc : In 0 1 (F32.mul c c) := sq_in ⟨hc.1, by linarith [hc.2.1], hc.2.2⟩
  have pc : |c.val * c.val| ≤ 1 := by
    rw [abs_le]; constructor <;> nlinarith [hc.2.1, hc.2.2]
  have r1 := rnd_one pc
  rw [← (mul_finite hc.1 hc.1 (fin1 pc)).2] at r1
  have hs := sub_one_range hcc
  have b1 : |1 - (F32.mul c c).val| ≤ 1 := abs_le.2 ⟨by linarith [hcc.2.2], by linarith [hcc.2.1]⟩
  have es : (sub one (F32.mul c c)).val = rnd32 (1 - (F32.mul c c).val) := by
    have := (sub_fin one_finite.1 hcc.1 (by rw [one_finite.2]; exact fin1 b1)).2
    rwa [one_finite.2] at this
  have r2 := rnd_one b1
  rw [← es] at r2
  have k := sqrt_near hs
  refine ⟨hc, in_sqrt hs, ?_⟩
  have := eps_pos
  rw [abs_le] at r1 r2 k ⊢
  constructor <;> nlinarith [r1.1, r1.2, r2.1, r2.2, k.1, k.2]

/-! ### Diffuse sampling -/

/-- **C163, diffuse sampling.**  For every random number in [0, 1] the sampled direction is made of numbers in [-1, 1], its
squared length is one within `16*2^-24`, it is on the side of the outgoing direction, and the density is in [0, 1/π] and
within `2^-24` of the cosine over π. -/
theorem C163_diffuse {ct st r1 woz : F32} (ha : Angle ct st) (hr : In 0 1 r1) (hw : woz.Finite) :
    let w := (diffuse ct st r1 woz).1
    In (-1) 1 w.x ∧ In (-1) 1 w.y ∧ In (-1) 1 w.z ∧
      |w.x.val ^ 2 + w.y.val ^ 2 + w.z.val ^ 2 - 1| ≤ 16 * eps ∧
      |w.x.val ^ 2 + w.y.val ^ 2 - r1.val| ≤ 11 * eps ∧
      (woz.val < 0 → w.z.val ≤ 0) ∧ (0 ≤ woz.val → 0 ≤ w.z.val) ∧
      In 0 invPi.val (diffuse ct st r1 woz).2 ∧
      |(diffuse ct st r1 woz).2.val - |w.z.val| * invPi.val| ≤ eps := by
  obtain ⟨h1, h2, h3⟩ := ha
  have hq := in_sqrt hr
  have kq := sqrt_near hr
  obtain ⟨x1, x2⟩ := mul_near hq h1
  obtain ⟨y1, y2⟩ := mul_near hq h2
  unfold diffuse
  simp only
  generalize F32.sqrt r1 = r at *
  have s1 : |r.val ^ 2 * (ct.val ^ 2 + st.val ^ 2 - 1)| ≤ 4 * eps := by
    rw [abs_mul, abs_of_nonneg (sq_nonneg _)]
    have : r.val ^ 2 ≤ 1 := by nlinarith [hq.2.1, hq.2.2]
    exact (mul_le_of_le_one_left (abs_nonneg _) this).trans h3
  have kxy : |(F32.mul r ct).val ^ 2 + (F32.mul r st).val ^ 2 - r1.val| ≤ 11 * eps := by
    have := eps_pos
    rw [abs_le] at x2 y2 s1 kq ⊢
    constructor <;> nlinarith [x2.1, x2.2, y2.1, y2.2, s1.1, s1.2, kq.1, kq.2]
  generalize F32.mul r ct = x at *
  generalize F32.mul r st = y at *
  have sx := sq_in x1
  have sy := sq_in y1
  have px : |x.val * x.val| ≤ 1 := by rw [abs_le]; constructor <;> nlinarith [x1.2.1, x1.2.2]
  have py : |y.val * y.val| ≤ 1 := by rw [abs_le]; constructor <;> nlinarith [y1.2.1, y1.2.2]
  have rx := rnd_one px
  rw [← (mul_finite x1.1 x1.1 (fin1 px)).2] at rx
  have ry := rnd_one py
  rw [← (mul_finite y1.1 y1.1 (fin1 py)).2] at ry
  generalize F32.mul x x = xx at *
  generalize F32.mul y y = yy at *
  have ha := sub_one_range sx
  have ba : |1 - xx.val| ≤ 1 := abs_le.2 ⟨by linarith [sx.2.2], by linarith [sx.2.1]⟩
  have ea : (sub one xx).val = rnd32 (1 - xx.val) := by
    have := (sub_fin one_finite.1 sx.1 (by rw [one_finite.2]; exact fin1 ba)).2
    rwa [one_finite.2] at this
  have ra := rnd_one ba
  rw [← ea] at ra
  generalize sub one xx = p at *
  have bb : |p.val - yy.val| ≤ 1 := abs_le.2 ⟨by linarith [ha.2.1, sy.2.2], by linarith [ha.2.2, sy.2.1]⟩
  obtain ⟨fb, eb⟩ := sub_fin ha.1 sy.1 (fin1 bb)
  have rb := rnd_one bb
  rw [← eb] at rb
  have hb : In (-1) 1 (sub p yy) := in_sub ha.1 sy.1 (abs_le.1 bb).1 (abs_le.1 bb).2 ⟨by decide +kernel, by norm_num⟩
    ⟨by decide +kernel, by norm_num⟩
  have okm : (sub p yy).Ok := add_ok _ _
  generalize sub p yy = m at *
  obtain ⟨m1, m2⟩ := in_fmax hb (by norm_num)
  have okz : (F32.sqrt (fmax zip m)).Ok := by
    apply F32.sqrt_ok
    unfold fmax
    split_ifs
    · trivial
    · exact okm
  have km := sqrt_near m1
  have hz := in_sqrt m1
  rw [m2] at km
  generalize F32.sqrt (fmax zip m) = z at *
  have hz' : In (-1) 1 z := ⟨hz.1, by linarith [hz.2.1], hz.2.2⟩
  have hpi : invPi.Finite ∧ invPi.val = 10680707 / 33554432 := by
    have : invPi = num (10680707 / 33554432) := by decide +kernel
    rw [this]; exact ⟨trivial, rfl⟩
  have flip : (F32.mul z (num (-1))).Finite ∧ (F32.mul z (num (-1))).val = rnd32 (-z.val) := by
    have := mul_finite hz.1 (show (num (-1)).Finite from trivial) (by
      show |rnd32 (z.val * -1)| < _
      exact fin1 (abs_le.2 ⟨by linarith [hz.2.2], by linarith [hz.2.1]⟩))
    rwa [show z.val * (num (-1)).val = -z.val by show z.val * -1 = _; ring] at this
  rw [rnd32_neg, (ok_val okz).1] at flip
  have kz : |x.val ^ 2 + y.val ^ 2 + z.val ^ 2 - 1| ≤ 16 * eps := by
    have := eps_pos
    have hr1 := hr.2.2
    rcases le_total 0 m.val with c | c
    · rw [max_eq_right c] at km
      rw [abs_le] at km rb ra rx ry ⊢
      rw [← sq] at rx ry
      constructor <;> linarith [km.1, km.2, rb.1, rb.2, ra.1, ra.2, rx.1, rx.2, ry.1, ry.2]
    · rw [max_eq_left c] at km
      rw [abs_le] at km rb ra rx ry kxy ⊢
      rw [← sq] at rx ry
      constructor <;> linarith [km.1, km.2, rb.1, rb.2, ra.1, ra.2, rx.1, rx.2, ry.1, ry.2, kxy.1, kxy.2]
  have dens : ∀ w : F32, In (-1) 1 w → In 0 invPi.val (F32.mul (F32.abs w) invPi) ∧
      |(F32.mul (F32.abs w) invPi).val - |w.val| * invPi.val| ≤ eps := by
    intro w hw
    obtain ⟨fw, ew⟩ := abs_finite hw.1
    have aw : |w.val| ≤ 1 := abs_le.2 ⟨hw.2.1, hw.2.2⟩
    have a0 := abs_nonneg w.val
    have t1 : |w.val| * invPi.val ≤ invPi.val := by rw [hpi.2]; nlinarith
    have t0 : 0 ≤ |w.val| * invPi.val := by rw [hpi.2]; positivity
    refine ⟨in_mul fw hpi.1 (by rw [ew]; exact t0) (by rw [ew]; exact t1) ⟨by decide +kernel, by norm_num⟩
      (by rw [hpi.2]; exact ⟨by decide +kernel, by norm_num⟩), ?_⟩
    have t2 : |(F32.abs w).val * invPi.val| ≤ 1 := by
      rw [ew, abs_of_nonneg t0]; refine t1.trans ?_; rw [hpi.2]; norm_num
    have := rnd_one t2
    rw [← (mul_finite fw hpi.1 (fin1 t2)).2, ew] at this
    exact this
  rw [lt_finite hw (show zip.Finite from trivial)]
  have z0 : zip.val = 0 := rfl
  rw [z0]
  by_cases c : woz.val < 0
  · simp only [c, decide_true, if_true]
    have hf : In (-1) 1 (F32.mul z (num (-1))) := ⟨flip.1, by rw [flip.2]; linarith [hz.2.2], by rw [flip.2]; linarith [hz.2.1]⟩
    refine ⟨x1, y1, hf, by rw [flip.2, neg_sq]; exact kz, kxy, fun _ => by rw [flip.2]; linarith [hz.2.1],
      fun h => absurd h (not_le.2 c), (dens _ hf).1, (dens _ hf).2⟩
  · simp only [c, decide_false, Bool.false_eq_true, if_false]
    exact ⟨x1, y1, hz', kz, kxy, fun h => absurd h (by simp), fun _ => hz.2.1, (dens _ hz').1, (dens _ hz').2⟩

/-! ### Concrete values -/

/-- Roughness a half, the random number a half: the squared cosine is 4/5, and the bounds apply. -/
example : ggxCos2 (num (1 / 4)) (num (1 / 2)) = F32.round false (4 / 5) ∧
    |(ggxAngle (num (1 / 4)) (num (1 / 2))).1.val ^ 2 * (5 / 8) - 1 / 2| ≤ 8 * eps := by
  refine ⟨by decide +kernel, ?_⟩
  have := (C163_sample_partial (a2 := num (1 / 4)) (r0 := num (1 / 2)) ⟨trivial, by norm_num [F32.val], by norm_num [F32.val]⟩
    ⟨by norm_num, by decide +kernel, by norm_num⟩ ⟨trivial, by norm_num [F32.val], by norm_num [F32.val]⟩
    (by norm_num [F32.val])).2.2.2
  norm_num [F32.val] at this ⊢
  exact this

/-- The random number one with roughness a half: the half vector is at right angles to the normal. -/
example : ggxCos2 (num (1 / 4)) (num 1) = zero false := by decide +kernel

/-- The masking term along the normal is one, the density there is `1/(a2*π)`, and at right angles both are zero. -/
example : ggxG1 (num (1 / 4)) (num 1) = num 1 ∧ ggxG1 (num (1 / 4)) (zero true) = zero false ∧
    ggxD (num (1 / 4)) (zero true) = zero false ∧ Plus (ggxD (num (1 / 4)) (num 1)) := by
  refine ⟨?_, by decide +kernel, by decide +kernel, Or.inr (Or.inr ⟨(ggxD (num (1 / 4)) (num 1)).val, ?_, ?_⟩)⟩
  · have e : add one (div (F32.mul (num (1 / 4)) (fmax zip (sub one (F32.mul (F32.mul (num 1) (num 1))
        (F32.mul (num 1) (num 1)))))) (F32.mul (num 1) (num 1))) = num 1 := by decide +kernel
    have h : F32.eq (F32.mul (num 1) (num 1)) zip = false := by decide +kernel
    unfold ggxG1
    simp only
    rw [h, e]
    have e2 : F32.sqrt (num 1) = num 1 := by
      show (if (1 : ℚ) < 0 then nan else num (sqrt32 1)) = _
      rw [if_neg (by norm_num), sqrt32_one]
    rw [e2]
    decide +kernel
  · decide +kernel
  · decide +kernel

/-- The cosine `2^-70` is not zero, its square is a subnormal number, and the density is zero, not NaN. -/
example : ggxD (num (1 / 4)) (num (2 ^ (-70 : ℤ))) = zero false := by decide +kernel

/-- A function that is minus infinity at zero and minus one elsewhere is such a logarithm, and the random number one gives
the cosine zero. -/
example : LogSpec (fun x => if x.val = 0 then inf true else num (-1)) ∧
    (beckmannAngle (fun x => if x.val = 0 then inf true else num (-1)) (num (1 / 2)) (num 1)).1 = zero false := by
  refine ⟨fun x _ => ?_, by decide +kernel⟩
  simp only
  split_ifs
  · exact Or.inl rfl
  · exact Or.inr ⟨trivial, by norm_num [F32.val]⟩

/-- If the squared roughness underflows the random number one gives NaN. -/
example : (beckmannAngle (fun x => if x.val = 0 then inf true else num (-1)) (num (2 ^ (-80 : ℤ))) (num 1)).1 = nan := by
  decide +kernel

/-- Diffuse sampling with the angle zero and the random number a quarter. -/
example : |((diffuse (num 1) (zero false) (num (1 / 4)) (num (-1))).1.x.val) ^ 2 - 1 / 4| ≤ 11 * eps ∧
    (diffuse (num 1) (zero false) (num (1 / 4)) (num (-1))).1.z.val ≤ 0 := by
  have h := C163_diffuse (r1 := num (1 / 4)) (woz := num (-1)) angle_zero
    ⟨trivial, by norm_num [F32.val], by norm_num [F32.val]⟩ trivial
  simp only at h
  obtain ⟨-, -, -, -, h5, h6, -⟩ := h
  refine ⟨?_, h6 (by norm_num [F32.val])⟩
  have hy : (diffuse (num 1) (zero false) (num (1 / 4)) (num (-1))).1.y.val = 0 := by
    have e : F32.sqrt (num (1 / 4)) = num (1 / 2) := by
      show (if (1 / 4 : ℚ) < 0 then nan else num (sqrt32 (1 / 4))) = _
      rw [if_neg (by norm_num)]
      have := Normalize.sqrt32_pow (-1)
      norm_num at this
      rw [show (1 / 4 : ℚ) = 1 / 4 from rfl, this]
    show (F32.mul (F32.sqrt (num (1 / 4))) (zero false)).val = 0
    rw [e]; decide +kernel
  rw [hy] at h5
  have e4 : (num (1 / 4)).val = 1 / 4 := rfl
  rw [e4] at h5
  simpa using h5

end Spectre.FMicro
