import Verif.Model.FloatFilm
import Verif.Props.FloatMicroError
import Mathlib.Data.List.Perm.Basic

/-
Property C164: pixels of the film in binary32.
-/

namespace Spectre.FFilm

open Spectre.Geom Spectre.FMat F32

/-! ### Bytes -/

theorem toUint_in {v : F32} (h : In 0 255 v) : ∃ n, toUint v = some n ∧ n = ⌊v.val⌋.toNat ∧ n ≤ 255 := by
  obtain ⟨f, l, u⟩ := h
  have hb : ⌊v.val⌋.toNat ≤ 255 := by
    have : ⌊v.val⌋ ≤ 255 := by
      have := Int.floor_le v.val
      have : (⌊v.val⌋ : ℚ) ≤ 255 := by linarith
      exact_mod_cast this
    omega
  have hc : -1 < v.val ∧ v.val < 2 ^ 32 := ⟨by linarith, lt_of_le_of_lt u (by norm_num)⟩
  refine ⟨_, ?_, rfl, hb⟩
  cases v with
  | nan => exact f.elim
  | inf s => exact f.elim
  | zero s => unfold toUint; simp only; rw [if_pos hc]
  | num q => unfold toUint; simp only; rw [if_pos hc]

/-- What is converted, for every number. -/
theorem scaled (v : F32) : In 0 255 (fmin (F32.mul (fmax zip v) (num 255)) (num 255)) := by
  have top : In 0 255 (num 255) := ⟨trivial, by norm_num [F32.val], by norm_num [F32.val]⟩
  have key : ∀ x : F32, (x = nan ∨ x = inf false ∨ (x.Finite ∧ 0 ≤ x.val)) → In 0 255 (fmin x (num 255)) := by
    intro x hx
    unfold fmin
    rcases hx with rfl | rfl | ⟨f, h⟩
    · exact top
    · exact top
    · rw [lt_finite f (show (num 255).Finite from trivial)]
      split_ifs with c
      · exact ⟨f, h, (of_decide_eq_true c).le⟩
      · exact top
  apply key
  cases v with
  | nan => exact Or.inl rfl
  | inf s =>
    cases s
    · right; left; decide +kernel
    · right; right
      have e : F32.mul (fmax zip (inf true)) (num 255) = zero false := by decide +kernel
      rw [e]; exact ⟨trivial, le_rfl⟩
  | zero s =>
    right; right
    have e : ∃ t, F32.mul (fmax zip (zero s)) (num 255) = zero t := by
      cases s
      · exact ⟨false, by decide +kernel⟩
      · exact ⟨true, by decide +kernel⟩
    obtain ⟨t, e⟩ := e
    rw [e]; exact ⟨trivial, le_rfl⟩
  | num q =>
    unfold fmax
    rw [lt_finite (show (num q).Finite from trivial) (show zip.Finite from trivial)]
    split_ifs with c
    · have e : F32.mul zip (num 255) = zero false := by decide +kernel
      rw [e]; exact Or.inr (Or.inr ⟨trivial, le_rfl⟩)
    · have hq : 0 ≤ q := by
        exact not_lt.1 (fun hh => c (decide_eq_true hh))
      have e : F32.mul (num q) (num 255) = F32.round (xor (decide (q < 0)) (decide ((255 : ℚ) < 0))) (q * 255) := rfl
      rw [e]
      unfold F32.round
      have hr := rnd32_nonneg (q := q * 255) (by positivity)
      split_ifs with h1 h2 h3
      · exact Or.inr (Or.inr ⟨trivial, le_rfl⟩)
      · exact Or.inr (Or.inr ⟨trivial, le_rfl⟩)
      · right; left
        rw [decide_eq_false (not_lt.2 (by positivity : (0 : ℚ) ≤ q * 255))]
      · exact Or.inr (Or.inr ⟨trivial, hr⟩)

/-- **C164, conversions.**  The conversion of a channel to a byte is defined for every number, infinite ones and NaN
included, and the result is a byte. -/
theorem C164_byte (v : F32) : ∃ n, byte v = some n ∧ n ≤ 255 := by
  obtain ⟨n, h, -, hn⟩ := toUint_in (scaled v)
  exact ⟨n, h, hn⟩

/-- **C164, saved pixels.**  So saving a pixel never is undefined behaviour, whatever its sums are and whatever `powf` is. -/
theorem C164_defined (pow : F32 → F32) (p : Pix) :
    ∃ r g b, savePixel pow p = some (r, g, b) ∧ r ≤ 255 ∧ g ≤ 255 ∧ b ≤ 255 := by
  obtain ⟨r, hr, r1⟩ := C164_byte (develop pow p).x
  obtain ⟨g, hg, g1⟩ := C164_byte (develop pow p).y
  obtain ⟨b, hb, b1⟩ := C164_byte (develop pow p).z
  refine ⟨r, g, b, ?_, r1, g1, b1⟩
  unfold savePixel
  simp only [hr, hg, hb]
  rfl

/-- What is converted, for the numbers. -/
theorem scaled_val {v : F32} (f : v.Finite) :
    (fmin (F32.mul (fmax zip v) (num 255)) (num 255)).val = min (rnd32 (max 0 v.val * 255)) 255 := by
  have top : (num 255).val = 255 := rfl
  have hm : (fmax zip v).Finite ∧ (fmax zip v).val = max 0 v.val := by
    unfold fmax
    rw [lt_finite f (show zip.Finite from trivial)]
    have z0 : zip.val = 0 := rfl
    rw [z0]
    split_ifs with c
    · exact ⟨trivial, by rw [z0, max_eq_left (of_decide_eq_true c).le]⟩
    · exact ⟨f, by rw [max_eq_right]; simpa using c⟩
  rw [← hm.2]
  have hp : 0 ≤ (fmax zip v).val := by rw [hm.2]; exact le_max_left _ _
  generalize fmax zip v = w at *
  by_cases h : |rnd32 (w.val * 255)| < 2 ^ 128
  · obtain ⟨g, e⟩ := mul_finite (b := num 255) hm.1 trivial h
    rw [top] at e
    unfold fmin
    rw [lt_finite g (show (num 255).Finite from trivial), e, top]
    split_ifs with c
    · have c : rnd32 (w.val * 255) < 255 := of_decide_eq_true c
      rw [e, min_eq_left c.le]
    · have c : ¬ rnd32 (w.val * 255) < 255 := by simpa using c
      rw [top, min_eq_right (not_lt.1 c)]
  · push Not at h
    have hr := rnd32_nonneg (q := w.val * 255) (by positivity)
    rw [abs_of_nonneg hr] at h
    rw [min_eq_right (le_trans (by norm_num) h)]
    have hw : w.val ≠ 0 := by
      intro h0
      rw [h0, zero_mul, rnd32_zero] at h
      norm_num at h
    cases w with
    | nan => exact hm.1.elim
    | inf s => exact hm.1.elim
    | zero s => exact absurd rfl hw
    | num q =>
      have hq : 0 < q := lt_of_le_of_ne hp (Ne.symm hw)
      have e : F32.mul (num q) (num 255) = inf false := by
        show F32.round _ (q * 255) = _
        have h' : 2 ^ 128 ≤ rnd32 (q * 255) := h
        unfold F32.round
        rw [if_neg (by positivity), if_neg (by
          intro h0; rw [h0] at h'; norm_num at h'), if_pos (by rw [abs_of_nonneg (le_trans (by norm_num) h')]; exact h'),
          decide_eq_false (not_lt.2 (by positivity : (0 : ℚ) ≤ q * 255))]
      rw [e]; rfl

theorem byte_eq {v : F32} (f : v.Finite) : byte v = some ⌊min (rnd32 (max 0 v.val * 255)) 255⌋.toNat := by
  obtain ⟨n, h, e, -⟩ := toUint_in (scaled v)
  rw [scaled_val f] at e
  unfold byte
  rw [h, e]

/-- **C164, levels.**  The byte of a channel in [0, 1] is 255 times the channel, cut off, up to a deviation of `2^-16`. -/
theorem C164_level {v : F32} (h : In 0 1 v) :
    ∃ n, byte v = some n ∧ (n : ℚ) ≤ 255 * v.val + 1 / 2 ^ 16 ∧ 255 * v.val - 1 / 2 ^ 16 < n + 1 := by
  obtain ⟨f, l, u⟩ := h
  refine ⟨_, byte_eq f, ?_⟩
  rw [max_eq_right l]
  have hp : 0 ≤ v.val * 255 := by positivity
  have hr := rnd32_nonneg hp
  have hu : rnd32 (v.val * 255) ≤ 255 := by
    have := rnd32_mono (a := v.val * 255) (b := 255) (by linarith)
    rwa [show rnd32 255 = 255 by decide +kernel] at this
  have he := rnd32_err (v.val * 255)
  have he : |rnd32 (v.val * 255) - v.val * 255| ≤ 1 / 2 ^ 16 := by
    refine he.trans (max_le ?_ (by norm_num))
    rw [abs_of_nonneg hp]
    norm_num
    linarith
  rw [min_eq_left hu]
  generalize rnd32 (v.val * 255) = x at *
  have hf : 0 ≤ ⌊x⌋ := Int.floor_nonneg.2 hr
  have hc : ((⌊x⌋.toNat : ℕ) : ℚ) = (⌊x⌋ : ℚ) := by
    have : ((⌊x⌋.toNat : ℕ) : ℤ) = ⌊x⌋ := Int.toNat_of_nonneg hf
    exact_mod_cast this
  rw [hc]
  have h1 := Int.floor_le x
  have h2 := Int.lt_floor_add_one x
  obtain ⟨e1, e2⟩ := abs_le.1 he
  constructor <;> linarith

/-- Middle grey. -/
example : byte (num (1 / 2)) = some 127 := by decide +kernel

/-- **C164, order of the levels.**  A larger channel never gets a smaller byte. -/
theorem C164_monotone {v w : F32} (fv : v.Finite) (fw : w.Finite) (h : v.val ≤ w.val) :
    ∃ n m, byte v = some n ∧ byte w = some m ∧ n ≤ m := by
  refine ⟨_, _, byte_eq fv, byte_eq fw, ?_⟩
  apply Int.toNat_le_toNat
  apply Int.floor_le_floor
  apply min_le_min _ le_rfl
  apply rnd32_mono
  apply mul_le_mul_of_nonneg_right _ (by norm_num)
  exact max_le_max le_rfl h

/-! ### NaN -/

theorem nan_add (a : F32) : add nan a = nan := by cases a <;> rfl
theorem add_nan (a : F32) : add a nan = nan := by cases a <;> rfl
theorem nan_mul (a : F32) : F32.mul nan a = nan := by cases a <;> rfl

/-- NaN in one of the three. -/
def HasNan (c : V3 F32) : Prop := c.x = nan ∨ c.y = nan ∨ c.z = nan

theorem row_nan {c : V3 F32} (h : HasNan c) (a b d : F32) : row c a b d = nan := by
  unfold row
  rcases h with h | h | h <;> rw [h, nan_mul]
  · rw [nan_add, nan_add]
  · rw [add_nan, nan_add]
  · rw [add_nan]

theorem encode_nan (pow : F32 → F32) : encode pow nan = nan := by
  unfold encode
  have : lt (lit 0.0031308) nan = false := by
    generalize lit 0.0031308 = a
    cases a <;> rfl
  rw [this]
  simp [nan_mul]

theorem byte_nan : byte nan = some 255 := by decide +kernel

/-- A sum with NaN stays NaN. -/
theorem collect_nan {l : List (V3 F32 × F32)} {e : V3 F32 × F32} (he : e ∈ l) (hn : HasNan e.1) :
    HasNan ⟨(collect l).x, (collect l).y, (collect l).z⟩ := by
  have pos_nan : positive nan = nan := by decide +kernel
  have keep : ∀ (l : List (V3 F32 × F32)) (p : Pix), HasNan ⟨p.x, p.y, p.z⟩ →
      HasNan ⟨(l.foldl (fun p e => p.put e.1 e.2) p).x, (l.foldl (fun p e => p.put e.1 e.2) p).y,
        (l.foldl (fun p e => p.put e.1 e.2) p).z⟩ := by
    intro l
    induction l with
    | nil => intro p h; exact h
    | cons a l ih =>
      intro p h
      rw [List.foldl_cons]
      apply ih
      have h : p.x = nan ∨ p.y = nan ∨ p.z = nan := h
      rcases h with h | h | h
      · left; show add p.x _ = nan; rw [h, nan_add]
      · right; left; show add p.y _ = nan; rw [h, nan_add]
      · right; right; show add p.z _ = nan; rw [h, nan_add]
  have main : ∀ (l : List (V3 F32 × F32)) (p : Pix), e ∈ l →
      HasNan ⟨(l.foldl (fun p e => p.put e.1 e.2) p).x, (l.foldl (fun p e => p.put e.1 e.2) p).y,
        (l.foldl (fun p e => p.put e.1 e.2) p).z⟩ := by
    intro l
    induction l with
    | nil => intro p h; simp at h
    | cons a l ih =>
      intro p h
      rw [List.foldl_cons]
      rcases List.mem_cons.1 h with rfl | h
      · apply keep
        rcases hn with h | h | h
        · left; show add p.x (F32.mul (positive e.1.x) _) = nan; rw [h, pos_nan, nan_mul, add_nan]
        · right; left; show add p.y (F32.mul (positive e.1.y) _) = nan; rw [h, pos_nan, nan_mul, add_nan]
        · right; right; show add p.z (F32.mul (positive e.1.z) _) = nan; rw [h, pos_nan, nan_mul, add_nan]
      · exact ih _ h
  exact main l Pix.empty he

/-- **C164, violated by NaN.**  A single sample with NaN in one channel makes every pixel it reaches white, whatever the other
samples are. -/
theorem C164_violated_nan (pow : F32 → F32) {l : List (V3 F32 × F32)} {e : V3 F32 × F32} (he : e ∈ l)
    (hn : HasNan e.1) (hs : lt zip (collect l).samples = true) : savePixel pow (collect l) = some (255, 255, 255) := by
  have h := collect_nan he hn
  have hd : develop pow (collect l) = ⟨nan, nan, nan⟩ := by
    unfold develop
    rw [if_pos hs]
    generalize collect l = p at *
    have h' : HasNan ⟨F32.mul p.x (div one p.samples), F32.mul p.y (div one p.samples), F32.mul p.z (div one p.samples)⟩ := by
      have h : p.x = nan ∨ p.y = nan ∨ p.z = nan := h
      rcases h with h | h | h
      · left; show F32.mul p.x _ = nan; rw [h, nan_mul]
      · right; left; show F32.mul p.y _ = nan; rw [h, nan_mul]
      · right; right; show F32.mul p.z _ = nan; rw [h, nan_mul]
    simp only
    unfold toSrgb
    rw [row_nan h', row_nan h', row_nan h', encode_nan]
  unfold savePixel
  simp only [hd, byte_nan]
  rfl

/-- A black pixel with ten thousand black samples and a NaN among them would be white; here with three. -/
example (pow : F32 → F32) :
    savePixel pow (collect [(⟨zip, zip, zip⟩, num 1), (⟨nan, zip, zip⟩, num 1), (⟨zip, zip, zip⟩, num 1)]) =
      some (255, 255, 255) :=
  C164_violated_nan pow (e := (⟨nan, zip, zip⟩, num 1)) (by simp) (Or.inl rfl) (by decide +kernel)

/-! ### Sums -/

/-- Binary32 numbers are multiples of the smallest one. -/
theorem multiple {q : ℚ} (h : rnd32 q = q) : ∃ n : ℤ, q = n * 2 ^ (-149 : ℤ) := by
  unfold rnd32 at h
  have hu : -149 ≤ ulp32 q := le_max_right _ _
  obtain ⟨d, hd⟩ := Int.le.dest hu
  refine ⟨rne (q / 2 ^ ulp32 q) * 2 ^ d, ?_⟩
  rw [← h]
  push_cast
  conv_rhs => rw [mul_assoc, ← zpow_natCast, ← zpow_add₀ (by norm_num : (2 : ℚ) ≠ 0)]
  rw [← hd]
  rw [show ((d : ℤ) + -149) = -149 + d by ring]
  conv_lhs => rw [hd]
  rw [hd]
  congr 3
  rw [h]

/-- The sum of two numbers has a relative error of `2^-24`, also among the subnormal numbers. -/
theorem add_rel {a b : ℚ} (ha : rnd32 a = a) (hb : rnd32 b = b) : |rnd32 (a + b) - (a + b)| ≤ |a + b| * (1 / 2 ^ 24) := by
  by_cases h : 2 ^ (-126 : ℤ) ≤ |a + b|
  · exact rnd32_rel h
  · push Not at h
    obtain ⟨n, hn⟩ := multiple ha
    obtain ⟨m, hm⟩ := multiple hb
    have e : a + b = ((n + m : ℤ) : ℚ) * 2 ^ (-149 : ℤ) := by rw [hn, hm]; push_cast; ring
    have hb : |n + m| ≤ 2 ^ 24 := by
      rw [e, abs_mul, abs_of_pos (two_zpow_pos (-149))] at h
      have h2 : |((n + m : ℤ) : ℚ)| < 2 ^ 23 := by
        by_contra hc
        push Not at hc
        have := mul_le_mul_of_nonneg_right hc (two_zpow_pos (-149)).le
        have e2 : (2 : ℚ) ^ 23 * 2 ^ (-149 : ℤ) = 2 ^ (-126 : ℤ) := by norm_num
        rw [e2] at this
        linarith
      rw [← Int.cast_abs] at h2
      have h3 : |n + m| < 2 ^ 23 := by exact_mod_cast h2
      have : (2 : ℤ) ^ 23 ≤ 2 ^ 24 := by norm_num
      linarith
    rw [e, rnd32_rep _ _ hb le_rfl, sub_self, abs_zero]
    positivity

/-- `2^-24`, the relative error of one operation. -/
def eps : ℚ := 1 / 2 ^ 24

theorem eps_pos : 0 < eps := by unfold eps; norm_num

theorem eps_lt : eps < 1 := by unfold eps; norm_num

/-- A binary32 number that is not negative. -/
def NonNeg (a : F32) : Prop := a.Ok ∧ a.Finite ∧ 0 ≤ a.val

/-- The exact sum. -/
def total (l : List F32) : ℚ := (l.map F32.val).sum

theorem total_nonneg {l : List F32} (h : ∀ a ∈ l, NonNeg a) : 0 ≤ total l := by
  unfold total
  apply List.sum_nonneg
  intro x hx
  obtain ⟨a, ha, rfl⟩ := List.mem_map.1 hx
  exact (h a ha).2.2

theorem sum_from (l : List F32) : ∀ a : F32, NonNeg a → (∀ b ∈ l, NonNeg b) →
    (1 + eps) ^ l.length * (a.val + total l) ≤ 2 ^ 127 →
    NonNeg (l.foldl add a) ∧ (1 - eps) ^ l.length * (a.val + total l) ≤ (l.foldl add a).val ∧
      (l.foldl add a).val ≤ (1 + eps) ^ l.length * (a.val + total l) := by
  induction l with
  | nil =>
    intro a ha _ _
    refine ⟨ha, ?_, ?_⟩ <;> simp [total]
  | cons b l ih =>
    intro a ha hl hb
    obtain ⟨oa, fa, pa⟩ := ha
    obtain ⟨ob, fb, pb⟩ := hl b (by simp)
    have hl' : ∀ c ∈ l, NonNeg c := fun c hc => hl c (by simp [hc])
    have t0 := total_nonneg hl'
    have et : total (b :: l) = b.val + total l := by simp [total]
    rw [et] at hb ⊢
    have e0 := eps_pos
    have e1 := eps_lt
    have hr := add_rel (ok_val oa).1 (ok_val ob).1
    rw [abs_of_nonneg (add_nonneg pa pb)] at hr
    change |rnd32 (a.val + b.val) - (a.val + b.val)| ≤ (a.val + b.val) * eps at hr
    obtain ⟨r1, r2⟩ := abs_le.1 hr
    have rn := rnd32_nonneg (add_nonneg pa pb)
    have pw : (1 : ℚ) ≤ (1 + eps) ^ l.length := one_le_pow₀ (by linarith)
    have pw' : (0 : ℚ) ≤ (1 - eps) ^ l.length := pow_nonneg (by linarith) _
    have step : (1 + eps) ^ l.length * (rnd32 (a.val + b.val) + total l) ≤
        (1 + eps) ^ (b :: l).length * (a.val + (b.val + total l)) := by
      rw [List.length_cons, pow_succ, mul_assoc]
      apply mul_le_mul_of_nonneg_left _ (by linarith)
      nlinarith
    have step' : (1 - eps) ^ (b :: l).length * (a.val + (b.val + total l)) ≤
        (1 - eps) ^ l.length * (rnd32 (a.val + b.val) + total l) := by
      rw [List.length_cons, pow_succ, mul_assoc]
      apply mul_le_mul_of_nonneg_left _ pw'
      nlinarith
    have fin : |rnd32 (a.val + b.val)| < 2 ^ 128 := by
      rw [abs_of_nonneg rn]
      have h1 : rnd32 (a.val + b.val) ≤ (1 + eps) ^ l.length * (rnd32 (a.val + b.val) + total l) := by nlinarith
      have h2 : (2 : ℚ) ^ 127 < 2 ^ 128 := by norm_num
      linarith
    obtain ⟨fs, es⟩ := add_finite fa fb fin
    rw [List.foldl_cons]
    have := ih (add a b) ⟨add_ok a b, fs, by rw [es]; exact rn⟩ hl' (by rw [es]; exact step.trans hb)
    rw [es] at this
    exact ⟨this.1, step'.trans this.2.1, this.2.2.trans step⟩

/-- Powers next to one. -/
theorem pow_upper (n : Nat) :
    1 - n * eps ≤ (1 - eps) ^ n ∧ (1 + eps) ^ n * (1 - n * eps) ≤ 1 := by
  have e0 := eps_pos
  have e1 := eps_lt
  have h1 : 1 - n * eps ≤ (1 - eps) ^ n := by
    have := one_add_mul_le_pow (a := -eps) (by linarith) n
    rw [show (1 : ℚ) + n * -eps = 1 - n * eps by ring, show (1 : ℚ) + -eps = 1 - eps by ring] at this
    exact this
  refine ⟨h1, ?_⟩
  have hp : (0 : ℚ) ≤ (1 + eps) ^ n := pow_nonneg (by linarith) _
  calc (1 + eps) ^ n * (1 - n * eps) ≤ (1 + eps) ^ n * (1 - eps) ^ n := mul_le_mul_of_nonneg_left h1 hp
    _ = ((1 + eps) * (1 - eps)) ^ n := (mul_pow _ _ _).symm
    _ ≤ 1 := pow_le_one₀ (by nlinarith) (by nlinarith)

/-- **C164, sums.**  The sum of `n` contributions that are not negative is within `2*n*2^-24` of the exact sum, relatively,
in whatever order the threads add them. -/
theorem C164_sum {l l' : List F32} (hp : l'.Perm l) (hl : ∀ a ∈ l, NonNeg a) (hn : l.length ≤ 2 ^ 21)
    (hs : total l ≤ 2 ^ 126) :
    NonNeg (l'.foldl add zip) ∧ |(l'.foldl add zip).val - total l| ≤ 2 * l.length * eps * total l := by
  have et : total l' = total l := (hp.map F32.val).sum_eq
  have el : l'.length = l.length := hp.length_eq
  have t0 := total_nonneg hl
  have hne : (l.length : ℚ) * eps ≤ 1 / 8 := by
    have : (l.length : ℚ) ≤ 2 ^ 21 := by exact_mod_cast hn
    unfold eps
    generalize (l.length : ℚ) = k at *
    norm_num at *
    linarith
  obtain ⟨p1, p2⟩ := pow_upper l.length
  have z0 : zip.val = 0 := rfl
  have e0 := eps_pos
  have n0 : 0 ≤ (l.length : ℚ) * eps := by positivity
  have up : (1 + eps) ^ l.length ≤ 1 + 2 * (l.length * eps) := by
    have hp : (0 : ℚ) ≤ (1 + eps) ^ l.length := pow_nonneg (by linarith) _
    generalize (1 + eps) ^ l.length = P at *
    generalize (l.length : ℚ) * eps = x at *
    nlinarith
  obtain ⟨h1, h2, h3⟩ := sum_from l' zip ⟨trivial, trivial, le_rfl⟩ (fun a ha => hl a (hp.subset ha)) (by
    rw [z0, zero_add, et, el]
    have : (1 + eps) ^ l.length ≤ 2 := by linarith
    calc (1 + eps) ^ l.length * total l ≤ 2 * 2 ^ 126 := mul_le_mul this hs t0 (by norm_num)
      _ = _ := by norm_num)
  rw [z0, zero_add, et, el] at h2 h3
  refine ⟨h1, ?_⟩
  have u := mul_le_mul_of_nonneg_right up t0
  have d := mul_le_mul_of_nonneg_right p1 t0
  rw [abs_le]
  constructor
  · nlinarith [mul_nonneg n0 t0]
  · nlinarith

/-- Two orders of three numbers. -/
example : |([num 1, num (1 / 2 ^ 24), num 3].foldl add zip).val - total [num 3, num 1, num (1 / 2 ^ 24)]| ≤
    2 * (3 : ℕ) * eps * total [num 3, num 1, num (1 / 2 ^ 24)] := by
  refine (C164_sum (l := [num 3, num 1, num (1 / 2 ^ 24)]) (l' := [num 1, num (1 / 2 ^ 24), num 3]) ?_ ?_ ?_ ?_).2
  · exact (List.perm_append_comm (l₁ := [num 1, num (1 / 2 ^ 24)]) (l₂ := [num 3]))
  · intro a ha
    simp only [List.mem_cons, List.not_mem_nil, or_false] at ha
    rcases ha with rfl | rfl | rfl
    · exact ⟨⟨by norm_num, by decide +kernel, by norm_num⟩, trivial, by norm_num [F32.val]⟩
    · exact ⟨⟨by norm_num, by decide +kernel, by norm_num⟩, trivial, by norm_num [F32.val]⟩
    · exact ⟨⟨by norm_num, by decide +kernel, by norm_num⟩, trivial, by norm_num [F32.val]⟩
  · decide
  · norm_num [total, F32.val]

/-- **C164, sample counts.**  With weights one the count is exact up to `2^24` samples. -/
theorem C164_count (n : Nat) (h : n ≤ 2 ^ 24) : ((List.replicate n (num 1)).foldl add zip).val = n ∧
    ((List.replicate n (num 1)).foldl add zip).Finite := by
  induction n with
  | zero => exact ⟨by simp [F32.val, zip], trivial⟩
  | succ n ih =>
    obtain ⟨e, f⟩ := ih (by omega)
    rw [List.replicate_succ', List.foldl_append, List.foldl_cons, List.foldl_nil]
    have r : rnd32 ((n : ℚ) + 1) = (n : ℚ) + 1 := by
      have := rnd32_rep (n + 1) 0 (by rw [abs_of_nonneg (by positivity)]; exact_mod_cast h) (by norm_num)
      simpa using this
    have hb : ((n : ℚ) + 1) ≤ 2 ^ 24 := by exact_mod_cast h
    have := add_finite f (show (num 1).Finite from trivial) (by
      rw [e, show (num 1).val = 1 from rfl, r, abs_of_nonneg (by positivity)]
      exact lt_of_le_of_lt hb (by norm_num))
    rw [e, show (num 1).val = 1 from rfl, r] at this
    exact ⟨by rw [this.2]; push_cast; ring, this.1⟩

/-- **C164, sample counts, violated.**  From there on a sample of weight one is not counted. -/
theorem C164_violated_count : add (num (2 ^ 24)) (num 1) = num (2 ^ 24) := by decide +kernel

/-! ### The mean -/

theorem collect_x (l : List (V3 F32 × F32)) :
    (collect l).x = (l.map fun e => F32.mul (positive e.1.x) e.2).foldl add zip ∧
    (collect l).y = (l.map fun e => F32.mul (positive e.1.y) e.2).foldl add zip ∧
    (collect l).z = (l.map fun e => F32.mul (positive e.1.z) e.2).foldl add zip ∧
    (collect l).samples = (l.map fun e => e.2).foldl add zip := by
  have main : ∀ (l : List (V3 F32 × F32)) (p : Pix),
      (l.foldl (fun p e => p.put e.1 e.2) p).x = (l.map fun e => F32.mul (positive e.1.x) e.2).foldl add p.x ∧
      (l.foldl (fun p e => p.put e.1 e.2) p).y = (l.map fun e => F32.mul (positive e.1.y) e.2).foldl add p.y ∧
      (l.foldl (fun p e => p.put e.1 e.2) p).z = (l.map fun e => F32.mul (positive e.1.z) e.2).foldl add p.z ∧
      (l.foldl (fun p e => p.put e.1 e.2) p).samples = (l.map fun e => e.2).foldl add p.samples := by
    intro l
    induction l with
    | nil => intro p; exact ⟨rfl, rfl, rfl, rfl⟩
    | cons a l ih =>
      intro p
      simp only [List.foldl_cons, List.map_cons]
      exact ih _
  exact main l Pix.empty

/-- The colour of a pixel before the conversion to sRGB. -/
def mean (p : Pix) : V3 F32 :=
  ⟨F32.mul p.x (div one p.samples), F32.mul p.y (div one p.samples), F32.mul p.z (div one p.samples)⟩

theorem develop_mean (pow : F32 → F32) {p : Pix} (h : lt zip p.samples = true) :
    develop pow p = toSrgb pow (mean p) := by
  unfold develop
  rw [if_pos h]
  rfl

theorem positive_nonneg {v : F32} (h : NonNeg v) : positive v = v := by
  unfold positive
  rw [lt_finite h.2.1 (show zip.Finite from trivial), show zip.val = 0 from rfl,
    if_neg (by simpa using h.2.2)]

/-- A product without underflow, as a sum is added. -/
theorem mul_part {c w : F32} (hc : NonNeg c) (hw : NonNeg w) (hr : c.val * w.val = 0 ∨ 2 ^ (-126 : ℤ) ≤ c.val * w.val)
    (hu : c.val * w.val ≤ 2 ^ 126) : NonNeg (F32.mul (positive c) w) ∧
      (1 - eps) * (c.val * w.val) ≤ (F32.mul (positive c) w).val ∧
      (F32.mul (positive c) w).val ≤ (1 + eps) * (c.val * w.val) := by
  rw [positive_nonneg hc]
  have h0 : 0 ≤ c.val * w.val := mul_nonneg hc.2.2 hw.2.2
  have hn := rnd32_nonneg h0
  have he : |rnd32 (c.val * w.val) - c.val * w.val| ≤ c.val * w.val * eps := by
    rcases hr with hr | hr
    · rw [hr, rnd32_zero]; simp
    · have := rnd32_rel (q := c.val * w.val) (by rw [abs_of_nonneg h0]; exact hr)
      rwa [abs_of_nonneg h0] at this
  obtain ⟨e1, e2⟩ := abs_le.1 he
  have es : eps < 1 := eps_lt
  have hb : rnd32 (c.val * w.val) ≤ 2 ^ 127 := by
    have : c.val * w.val * eps ≤ c.val * w.val * 1 := mul_le_mul_of_nonneg_left es.le h0
    have h2 : (2 : ℚ) ^ 126 + 2 ^ 126 = 2 ^ 127 := by norm_num
    linarith
  obtain ⟨f, e⟩ := mul_finite hc.2.1 hw.2.1 (by
    rw [abs_of_nonneg hn]; exact lt_of_le_of_lt hb (by norm_num))
  refine ⟨⟨mul_ok _ _, f, by rw [e]; exact hn⟩, ?_, ?_⟩ <;> rw [e] <;> linarith

/-- The samples of a channel: colour and weight. -/
def Samples (l : List (F32 × F32)) : Prop := ∀ e ∈ l, NonNeg e.1 ∧ NonNeg e.2 ∧
  (e.1.val * e.2.val = 0 ∨ 2 ^ (-126 : ℤ) ≤ e.1.val * e.2.val)

/-- The weighted sum. -/
def weighted (l : List (F32 × F32)) : ℚ := (l.map fun e => e.1.val * e.2.val).sum

/-- The sum of the weights. -/
def weights (l : List (F32 × F32)) : ℚ := (l.map fun e => e.2.val).sum

theorem weighted_nonneg {l : List (F32 × F32)} (h : Samples l) : 0 ≤ weighted l := by
  unfold weighted
  apply List.sum_nonneg
  intro x hx
  obtain ⟨a, ha, rfl⟩ := List.mem_map.1 hx
  exact mul_nonneg (h a ha).1.2.2 (h a ha).2.1.2.2

theorem products {l : List (F32 × F32)} (h : Samples l) (hu : weighted l ≤ 2 ^ 126) :
    (∀ b ∈ l.map (fun e => F32.mul (positive e.1) e.2), NonNeg b) ∧
    (1 - eps) * weighted l ≤ total (l.map fun e => F32.mul (positive e.1) e.2) ∧
    total (l.map fun e => F32.mul (positive e.1) e.2) ≤ (1 + eps) * weighted l := by
  induction l with
  | nil => refine ⟨by simp, ?_, ?_⟩ <;> simp [weighted, total]
  | cons a l ih =>
    have h' : Samples l := fun e he => h e (by simp [he])
    obtain ⟨a1, a2, a3⟩ := h a (by simp)
    have ew : weighted (a :: l) = a.1.val * a.2.val + weighted l := by simp [weighted]
    rw [ew] at hu ⊢
    have p0 := mul_nonneg a1.2.2 a2.2.2
    have w0 := weighted_nonneg h'
    obtain ⟨i1, i2, i3⟩ := ih h' (by linarith)
    obtain ⟨m1, m2, m3⟩ := mul_part a1 a2 a3 (by linarith)
    have et : total ((a :: l).map fun e => F32.mul (positive e.1) e.2) =
        (F32.mul (positive a.1) a.2).val + total (l.map fun e => F32.mul (positive e.1) e.2) := by simp [total]
    rw [et]
    refine ⟨?_, by linarith, by linarith⟩
    intro b hb
    rw [List.map_cons, List.mem_cons] at hb
    rcases hb with rfl | hb
    · exact m1
    · exact i1 b hb

/-- **C164, means.**  The colour of a pixel before the conversion is within `(3*n+4)*2^-24` of the weighted mean of its `n`
samples, relatively, whatever the order of the samples.  Assumed are colours and weights that are not negative, products
without underflow and sums in the middle of the range. -/
theorem C164_mean_partial {l : List (F32 × F32)} (h : Samples l) (hn : l.length ≤ 2 ^ 16)
    (hx : weighted l = 0 ∨ 2 ^ (-60 : ℤ) ≤ weighted l) (hx' : weighted l ≤ 2 ^ 60)
    (hw : 2 ^ (-40 : ℤ) ≤ weights l) (hw' : weights l ≤ 2 ^ 40) :
    let x := (l.map fun e => F32.mul (positive e.1) e.2).foldl add zip
    let s := (l.map fun e => e.2).foldl add zip
    lt zip s = true ∧ (F32.mul x (div one s)).Finite ∧
      |(F32.mul x (div one s)).val - weighted l / weights l| ≤ (3 * l.length + 4) * eps * (weighted l / weights l) := by
  intro x s
  have e0 := eps_pos
  have e1 := eps_lt
  have w0 := weighted_nonneg h
  obtain ⟨q1, q2, q3⟩ := products h (hx'.trans (by norm_num))
  have hs : ∀ b ∈ l.map (fun e => e.2), NonNeg b := by
    intro b hb
    obtain ⟨a, ha, rfl⟩ := List.mem_map.1 hb
    exact (h a ha).2.1
  have ts : total (l.map fun e => e.2) = weights l := by
    unfold total weights
    rw [List.map_map]; rfl
  have hne : (l.length : ℚ) * eps ≤ 1 / 256 := by
    have : (l.length : ℚ) ≤ 2 ^ 16 := by exact_mod_cast hn
    unfold eps
    generalize (l.length : ℚ) = k at *
    norm_num at *
    linarith
  have n0 : 0 ≤ (l.length : ℚ) * eps := by positivity
  obtain ⟨p1, p2⟩ := pow_upper l.length
  have pp : (1 : ℚ) ≤ (1 + eps) ^ l.length := one_le_pow₀ (by linarith)
  have pu : (1 + eps) ^ l.length ≤ 1 + 101 / 100 * (l.length * eps) := by
    generalize (1 + eps) ^ l.length = P at *
    generalize (l.length : ℚ) * eps = t at *
    nlinarith
  have wp : 0 < weights l := lt_of_lt_of_le (two_zpow_pos _) hw
  have z0 : zip.val = 0 := rfl
  have nz : NonNeg zip := ⟨trivial, trivial, le_rfl⟩
  have t0 := total_nonneg q1
  obtain ⟨x1, x2, x3⟩ := sum_from _ zip nz q1 (by
    rw [z0, zero_add, List.length_map]
    calc (1 + eps) ^ l.length * _ ≤ 2 * (2 * 2 ^ 60) := mul_le_mul (by linarith)
          (q3.trans (mul_le_mul (by linarith) hx' w0 (by norm_num))) t0 (by norm_num)
      _ ≤ _ := by norm_num)
  obtain ⟨s1, s2, s3⟩ := sum_from _ zip nz hs (by
    rw [z0, zero_add, List.length_map, ts]
    calc (1 + eps) ^ l.length * _ ≤ 2 * 2 ^ 40 := mul_le_mul (by linarith) hw' wp.le (by norm_num)
      _ ≤ _ := by norm_num)
  rw [z0, zero_add, List.length_map] at x2 x3 s2 s3
  rw [ts] at s2 s3
  change NonNeg x at x1
  change _ ≤ x.val at x2
  change x.val ≤ _ at x3
  change NonNeg s at s1
  change _ ≤ s.val at s2
  change s.val ≤ _ at s3
  clear_value x s
  have epsE : (1 : ℚ) / 2 ^ 24 = eps := rfl
  have esm : eps ≤ 1 / 1000000 := by unfold eps; norm_num
  rw [show ((3 : ℚ) * l.length + 4) * eps = 3 * (l.length * eps) + 4 * eps by ring]
  generalize (1 + eps) ^ l.length = P at *
  generalize (1 - eps) ^ l.length = M at *
  generalize (l.length : ℚ) * eps = t at *
  generalize total (l.map fun e => F32.mul (positive e.1) e.2) = T at *
  generalize weighted l = X at *
  generalize weights l = W at *
  have rs : FMicro.Rl s W (101 / 100 * t) := by
    refine ⟨s1.2.1, wp.le, ?_⟩
    rw [abs_le]
    constructor
    · nlinarith
    · nlinarith
  have rx : FMicro.Rl x X (101 / 100 * t + 101 / 100 * eps) := by
    refine ⟨x1.2.1, w0, ?_⟩
    have a1 : x.val ≤ (1 + 101 / 100 * t) * ((1 + eps) * X) :=
      x3.trans (mul_le_mul pu q3 t0 (by linarith))
    have a2 : (1 - t) * ((1 - eps) * X) ≤ x.val := by
      refine le_trans ?_ x2
      have h1 : (1 - t) * ((1 - eps) * X) ≤ (1 - t) * T := mul_le_mul_of_nonneg_left q2 (by linarith)
      have h2 : (1 - t) * T ≤ M * T := mul_le_mul_of_nonneg_right p1 t0
      linarith
    have b1 : (1 + 101 / 100 * t) * ((1 + eps) * X) = X + (101 / 100 * t + eps + 101 / 100 * t * eps) * X := by ring
    have b2 : (1 - t) * ((1 - eps) * X) = X - (t + eps - t * eps) * X := by ring
    have b3 : 101 / 100 * t * eps ≤ 1 / 100 * eps := by
      apply mul_le_mul_of_nonneg_right _ e0.le; linarith
    have b4 : (101 / 100 * t + eps + 101 / 100 * t * eps) * X ≤ (101 / 100 * t + 101 / 100 * eps) * X :=
      mul_le_mul_of_nonneg_right (by linarith) w0
    have b5 : (t + eps - t * eps) * X ≤ (101 / 100 * t + 101 / 100 * eps) * X :=
      mul_le_mul_of_nonneg_right (by nlinarith) w0
    rw [abs_le]
    constructor <;> linarith
  have iw1 : (2 : ℚ) ^ (-40 : ℤ) ≤ 1 / W := by
    rw [le_div_iff₀ wp]
    calc (2 : ℚ) ^ (-40 : ℤ) * W ≤ 2 ^ (-40 : ℤ) * 2 ^ 40 := mul_le_mul_of_nonneg_left hw' (two_zpow_pos _).le
      _ ≤ 1 := by norm_num
  have iw2 : 1 / W ≤ (2 : ℚ) ^ 40 := by
    rw [div_le_iff₀ wp]
    calc (1 : ℚ) = 2 ^ 40 * 2 ^ (-40 : ℤ) := by norm_num
      _ ≤ 2 ^ 40 * W := mul_le_mul_of_nonneg_left hw (by norm_num)
  have d1 : 0 < 1 - 101 / 100 * t := by linarith
  have dq : (0 + 101 / 100 * t) / (1 - 101 / 100 * t) ≤ 102 / 100 * t := by
    rw [div_le_iff₀ d1]; nlinarith
  have r1 : FMicro.Rl one 1 0 := FMicro.rl_exact one_finite.1 (by rw [one_finite.2]; norm_num) |> fun h => by
    rwa [one_finite.2] at h
  have rd : FMicro.Rl (div one s) (1 / W) (102 / 100 * t + 101 / 100 * eps) := by
    refine FMicro.rl_div r1 rs wp le_rfl (by positivity) (by linarith) (Or.inr (le_trans (by norm_num) iw1))
      (iw2.trans (by norm_num)) (dq.trans (by linarith)) ?_
    rw [epsE]
    generalize (0 + 101 / 100 * t) / (1 - 101 / 100 * t) = d at *
    have : (1 + d) * eps ≤ 101 / 100 * eps := mul_le_mul_of_nonneg_right (by linarith) e0.le
    linarith
  have hk : (101 / 100 * t + 101 / 100 * eps) + (102 / 100 * t + 101 / 100 * eps) +
      (101 / 100 * t + 101 / 100 * eps) * (102 / 100 * t + 101 / 100 * eps) ≤ 205 / 100 * t + 205 / 100 * eps := by
    have : (101 / 100 * t + 101 / 100 * eps) * (102 / 100 * t + 101 / 100 * eps) ≤
      (101 / 100 * t + 101 / 100 * eps) * (1 / 100) := mul_le_mul_of_nonneg_left (by linarith) (by linarith)
    linarith
  have rm : FMicro.Rl (F32.mul x (div one s)) (X * (1 / W)) (3 * t + 4 * eps) := by
    refine FMicro.rl_mul rx rd (by linarith) ?_ ?_ (hk.trans (by linarith)) ?_
    · rcases hx with hx | hx
      · left; rw [hx, zero_mul]
      · right
        calc (2 : ℚ) ^ (-100 : ℤ) = 2 ^ (-60 : ℤ) * 2 ^ (-40 : ℤ) := by norm_num
          _ ≤ X * (1 / W) := mul_le_mul hx iw1 (two_zpow_pos _).le w0
    · calc X * (1 / W) ≤ 2 ^ 60 * 2 ^ 40 := mul_le_mul hx' iw2 (by positivity) (by norm_num)
        _ = _ := by norm_num
    · rw [epsE]
      generalize (101 / 100 * t + 101 / 100 * eps) + (102 / 100 * t + 101 / 100 * eps) +
        (101 / 100 * t + 101 / 100 * eps) * (102 / 100 * t + 101 / 100 * eps) = d at *
      have : (1 + d) * eps ≤ 2 * eps - eps * (9 / 10) := by
        have := mul_le_mul_of_nonneg_right (show 1 + d ≤ 11 / 10 by linarith) e0.le
        linarith
      linarith
  rw [show X * (1 / W) = X / W by ring] at rm
  refine ⟨?_, rm.1, rm.2.2⟩
  rw [lt_finite (show zip.Finite from trivial) s1.2.1, z0]
  apply decide_eq_true
  have := (abs_le.1 rs.2.2).1
  have : 101 / 100 * t * W ≤ 1 / 2 * W := mul_le_mul_of_nonneg_right (by linarith) wp.le
  linarith

/-- Three samples with different weights: the hypotheses hold, and the mean is `7/5`. -/
example : let l : List (F32 × F32) := [(num 1, num 2), (num 3, num 1), (num 1, num 2)]
    Samples l ∧ weighted l = 7 ∧ weights l = 5 := by
  refine ⟨?_, by norm_num [weighted, F32.val], by norm_num [weights, F32.val]⟩
  have o1 : NonNeg (num 1) := ⟨⟨by norm_num, by decide +kernel, by norm_num⟩, trivial, by norm_num [F32.val]⟩
  have o2 : NonNeg (num 2) := ⟨⟨by norm_num, by decide +kernel, by norm_num⟩, trivial, by norm_num [F32.val]⟩
  have o3 : NonNeg (num 3) := ⟨⟨by norm_num, by decide +kernel, by norm_num⟩, trivial, by norm_num [F32.val]⟩
  intro e he
  simp only [List.mem_cons, List.not_mem_nil, or_false] at he
  rcases he with rfl | rfl | rfl
  · exact ⟨o1, o2, Or.inr (by norm_num [F32.val])⟩
  · exact ⟨o3, o1, Or.inr (by norm_num [F32.val])⟩
  · exact ⟨o1, o2, Or.inr (by norm_num [F32.val])⟩

/-- The five samples of the next theorem: one of them large, four of half a unit in its last place. -/
def five : List (V3 F32 × F32) :=
  [(⟨num (4023011 / 8589934592), zip, zip⟩, num 1), (⟨num (1 / 68719476736), zip, zip⟩, num 1),
    (⟨num (1 / 68719476736), zip, zip⟩, num 1), (⟨num (1 / 68719476736), zip, zip⟩, num 1),
    (⟨num (1 / 68719476736), zip, zip⟩, num 1)]

/-- Dark pixels do not depend on `powf`. -/
theorem save_dark (pow pow' : F32 → F32) {p : Pix} (h : lt zip p.samples = true)
    (hx : lt (lit 0.0031308) (row (mean p) (lit 3.2404542) (lit (-1.5371385)) (lit (-0.4985314))) = false)
    (hy : lt (lit 0.0031308) (row (mean p) (lit (-0.9692660)) (lit 1.8760108) (lit 0.0415560)) = false)
    (hz : lt (lit 0.0031308) (row (mean p) (lit 0.0556434) (lit (-0.2040259)) (lit 1.0572252)) = false) :
    savePixel pow p = savePixel pow' p := by
  have : develop pow p = develop pow' p := by
    rw [develop_mean pow h, develop_mean pow' h]
    unfold toSrgb encode
    rw [hx, hy, hz]
    simp
  unfold savePixel
  rw [this]

/-- **C164, violated for different orders.**  The saved bytes depend on the order in which the samples are added, that is, on
the schedule of the threads. -/
theorem C164_violated_order (pow : F32 → F32) : savePixel pow (collect five) = some (0, 0, 0) ∧
    savePixel pow (collect five.reverse) = some (1, 0, 0) := by
  constructor
  · rw [save_dark pow (fun _ => nan) (by decide +kernel) (by decide +kernel) (by decide +kernel) (by decide +kernel)]
    decide +kernel
  · rw [save_dark pow (fun _ => nan) (by decide +kernel) (by decide +kernel) (by decide +kernel) (by decide +kernel)]
    decide +kernel

/-- **C164, the full statement.**  Saved bytes do not depend on the order of the samples, and samples that are not numbers do
not spoil a pixel: the bytes are those of the other samples. -/
def C164_statement : Prop := ∀ pow : F32 → F32, ∀ l l' : List (V3 F32 × F32),
  (l'.Perm l → savePixel pow (collect l') = savePixel pow (collect l)) ∧
  (∀ e, HasNan e.1 → savePixel pow (collect (e :: l)) = savePixel pow (collect l))

theorem C164_violated_statement : ¬ C164_statement := by
  intro h
  have h1 := (h (fun _ => nan) five five.reverse).1 (List.reverse_perm _)
  rw [(C164_violated_order _).1, (C164_violated_order _).2] at h1
  simp at h1

/-! ### Colours -/

/-- One rounding of a number up to `2^100`. -/
theorem rnd_small {q : ℚ} (h : |q| ≤ 2 ^ 100) : |rnd32 q| < 2 ^ 128 ∧ |rnd32 q - q| ≤ |q| * (1 / 2 ^ 24) + 2 ^ (-150 : ℤ) := by
  have e : |rnd32 q - q| ≤ |q| * (1 / 2 ^ 24) + 2 ^ (-150 : ℤ) := by
    refine (rnd32_err q).trans (max_le ?_ ?_)
    · have := two_zpow_pos (-150)
      have := abs_nonneg q
      nlinarith
    · have : 0 ≤ |q| * (1 / 2 ^ 24) := by positivity
      linarith
  refine ⟨?_, e⟩
  have t : |rnd32 q| ≤ |rnd32 q - q| + |q| := by
    have := abs_add_le (rnd32 q - q) q
    rwa [sub_add_cancel] at this
  have : (2 : ℚ) ^ (-150 : ℤ) ≤ 1 := by norm_num
  have h2 : |q| * (1 / 2 ^ 24) ≤ |q| := by
    have := abs_nonneg q
    nlinarith
  have : |rnd32 q| ≤ 2 ^ 100 + 2 ^ 100 + 1 := by linarith
  exact lt_of_le_of_lt this (by norm_num)

/-- The error of a row for coefficients near `A`, `B`, `D`. -/
theorem row_near {c : V3 F32} {a b d : F32} {A B D M : ℚ} (fx : c.x.Finite) (fy : c.y.Finite) (fz : c.z.Finite)
    (fa : a.Finite) (fb : b.Finite) (fd : d.Finite) (hx : |c.x.val| ≤ M) (hy : |c.y.val| ≤ M) (hz : |c.z.val| ≤ M)
    (m1 : 1 ≤ M) (m2 : M ≤ 2 ^ 64) (ea : |a.val - A| ≤ 1 / 2 ^ 23) (eb : |b.val - B| ≤ 1 / 2 ^ 23) (ed : |d.val - D| ≤ 1 / 2 ^ 23)
    (hs : |A| + |B| + |D| ≤ 11 / 2) :
    (row c a b d).Finite ∧ |(row c a b d).val - (c.x.val * A + c.y.val * B + c.z.val * D)| ≤ M / 2 ^ 19 := by
  have prod : ∀ {x u : F32} {U : ℚ}, x.Finite → u.Finite → |x.val| ≤ M → |u.val - U| ≤ 1 / 2 ^ 23 → |U| ≤ 11 / 2 →
      (F32.mul x u).Finite ∧ |(F32.mul x u).val - x.val * U| ≤ M * ((|U| + 3) / 2 ^ 24) := by
    intro x u U fx fu hx hu hU
    have hu' : |u.val| ≤ |U| + 1 / 2 ^ 23 := by
      have := abs_add_le (u.val - U) U
      rw [sub_add_cancel] at this
      linarith
    have hp : |x.val * u.val| ≤ M * (|U| + 1 / 2 ^ 23) := by
      rw [abs_mul]
      exact mul_le_mul hx hu' (abs_nonneg _) (by linarith)
    have hp' : |x.val * u.val| ≤ 2 ^ 100 := by
      refine hp.trans ?_
      calc M * (|U| + 1 / 2 ^ 23) ≤ 2 ^ 64 * 8 := mul_le_mul m2 (by linarith [show (1 : ℚ) / 2 ^ 23 ≤ 1 by norm_num])
            (by positivity) (by norm_num)
        _ ≤ _ := by norm_num
    obtain ⟨l, e⟩ := rnd_small hp'
    obtain ⟨f, v⟩ := mul_finite fx fu l
    refine ⟨f, ?_⟩
    rw [v]
    have e2 : |x.val * u.val - x.val * U| ≤ M * (1 / 2 ^ 23) := by
      rw [← mul_sub, abs_mul]
      exact mul_le_mul hx hu (abs_nonneg _) (by linarith)
    have tri := abs_add_le (rnd32 (x.val * u.val) - x.val * u.val) (x.val * u.val - x.val * U)
    rw [sub_add_sub_cancel] at tri
    have t : (2 : ℚ) ^ (-150 : ℤ) ≤ M * (1 / 2 ^ 25) := le_trans (by norm_num) (mul_le_mul_of_nonneg_right m1 (by norm_num))
    have n0 := abs_nonneg U
    generalize |U| = W at *
    have : M * (W + 1 / 2 ^ 23) * (1 / 2 ^ 24) + M * (1 / 2 ^ 25) + M * (1 / 2 ^ 23) ≤ M * ((W + 3) / 2 ^ 24) := by
      have : (W + 1 / 2 ^ 23) * (1 / 2 ^ 24) + 1 / 2 ^ 25 + 1 / 2 ^ 23 ≤ (W + 3) / 2 ^ 24 := by
        norm_num
        linarith
      calc _ = M * ((W + 1 / 2 ^ 23) * (1 / 2 ^ 24) + 1 / 2 ^ 25 + 1 / 2 ^ 23) := by ring
        _ ≤ _ := mul_le_mul_of_nonneg_left this (by linarith)
    have : |x.val * u.val| * (1 / 2 ^ 24) ≤ M * (W + 1 / 2 ^ 23) * (1 / 2 ^ 24) := mul_le_mul_of_nonneg_right hp (by norm_num)
    linarith
  have nA := abs_nonneg A
  have nB := abs_nonneg B
  have nD := abs_nonneg D
  obtain ⟨f1, e1⟩ := prod fx fa hx ea (by linarith)
  obtain ⟨f2, e2⟩ := prod fy fb hy eb (by linarith)
  obtain ⟨f3, e3⟩ := prod fz fd hz ed (by linarith)
  have b1 : |c.x.val * A| ≤ M * |A| := by rw [abs_mul]; exact mul_le_mul_of_nonneg_right hx nA
  have b2 : |c.y.val * B| ≤ M * |B| := by rw [abs_mul]; exact mul_le_mul_of_nonneg_right hy nB
  have b3 : |c.z.val * D| ≤ M * |D| := by rw [abs_mul]; exact mul_le_mul_of_nonneg_right hz nD
  unfold row
  generalize F32.mul c.x a = p at *
  generalize F32.mul c.y b = q at *
  generalize F32.mul c.z d = r at *
  generalize c.x.val * A = P at *
  generalize c.y.val * B = Q at *
  generalize c.z.val * D = R at *
  generalize |A| = A' at *
  generalize |B| = B' at *
  generalize |D| = D' at *
  have mA : M * A' + M * B' + M * D' ≤ M * (11 / 2) := by
    rw [← mul_add, ← mul_add]; exact mul_le_mul_of_nonneg_left hs (by linarith)
  have pA : 0 ≤ M * A' := mul_nonneg (by linarith) nA
  have pB : 0 ≤ M * B' := mul_nonneg (by linarith) nB
  have pD : 0 ≤ M * D' := mul_nonneg (by linarith) nD
  have x1 : M * ((A' + 3) / 2 ^ 24) = M * A' / 2 ^ 24 + 3 * M / 2 ^ 24 := by ring
  have x2 : M * ((B' + 3) / 2 ^ 24) = M * B' / 2 ^ 24 + 3 * M / 2 ^ 24 := by ring
  have x3 : M * ((D' + 3) / 2 ^ 24) = M * D' / 2 ^ 24 + 3 * M / 2 ^ 24 := by ring
  rw [x1] at e1; rw [x2] at e2; rw [x3] at e3
  generalize M * A' = mA' at *
  generalize M * B' = mB' at *
  generalize M * D' = mD' at *
  have s1 : |p.val + q.val| ≤ 6 * M := by
    rw [abs_le] at *
    constructor <;> norm_num only at * <;> linarith
  obtain ⟨l1, g1⟩ := rnd_small (s1.trans (by nlinarith [show (6 : ℚ) * 2 ^ 64 ≤ 2 ^ 100 by norm_num]))
  obtain ⟨h1, v1⟩ := add_finite f1 f2 l1
  rw [← v1] at g1
  have g1' : |(add p q).val - (p.val + q.val)| ≤ 6 * M * (1 / 2 ^ 24) + 2 ^ (-150 : ℤ) :=
    g1.trans (by linarith [mul_le_mul_of_nonneg_right s1 (show (0 : ℚ) ≤ 1 / 2 ^ 24 by norm_num)])
  generalize add p q = t at *
  have s2 : |t.val + r.val| ≤ 6 * M := by
    clear g1 l1
    rw [abs_le] at *
    constructor <;> norm_num only at * <;> linarith
  obtain ⟨l2, g2⟩ := rnd_small (s2.trans (by nlinarith [show (6 : ℚ) * 2 ^ 64 ≤ 2 ^ 100 by norm_num]))
  obtain ⟨h2, v2⟩ := add_finite h1 f3 l2
  rw [← v2] at g2
  refine ⟨h2, ?_⟩
  have g2' : |(add t r).val - (t.val + r.val)| ≤ 6 * M * (1 / 2 ^ 24) + 2 ^ (-150 : ℤ) :=
    g2.trans (by linarith [mul_le_mul_of_nonneg_right s2 (show (0 : ℚ) ≤ 1 / 2 ^ 24 by norm_num)])
  generalize add t r = w at *
  clear g1 l1 g2 l2 s1 s2
  rw [abs_le] at *
  constructor <;> norm_num only at * <;> linarith

theorem lit_val {q : ℚ} {r : ℚ} (h : lit q = num r) : (lit q).Finite ∧ (lit q).val = r := by
  rw [h]; exact ⟨trivial, rfl⟩

/-- The linear sRGB channels of a colour, exactly (the matrix of IEC 61966-2-1 for D65). -/
def linear (x y z : ℚ) : ℚ × ℚ × ℚ :=
  (3.2404542 * x - 1.5371385 * y - 0.4985314 * z, -0.9692660 * x + 1.8760108 * y + 0.0415560 * z,
    0.0556434 * x - 0.2040259 * y + 1.0572252 * z)

/-- **C164, encoding.**  Up to the rounded limit 0.0031308 a channel is multiplied by 12.92, above it is `1.055 p - 0.055` where
`p` is the computed power, both with rounding errors of the last bits only. -/
theorem C164_encode {pow : F32 → F32} {v : F32} (fv : v.Finite) (hv : |v.val| ≤ 2 ^ 64) :
    (v.val ≤ rnd32 0.0031308 → (encode pow v).Finite ∧
      |(encode pow v).val - 12.92 * v.val| ≤ |12.92 * v.val| / 2 ^ 22 + 2 ^ (-149 : ℤ)) ∧
    (rnd32 0.0031308 < v.val → In 0 1 (pow v) → (encode pow v).Finite ∧
      |(encode pow v).val - (1.055 * (pow v).val - 0.055)| ≤ 1 / 2 ^ 22) := by
  have t : lit 0.0031308 = num (rnd32 0.0031308) := by decide +kernel
  obtain ⟨f1, v1⟩ := lit_val (q := 12.92) (r := 6773801 / 524288) (by decide +kernel)
  obtain ⟨f2, v2⟩ := lit_val (q := 1.055) (r := 8849981 / 8388608) (by decide +kernel)
  obtain ⟨f3, v3⟩ := lit_val (q := 0.055) (r := 14763950 / 268435456) (by decide +kernel)
  unfold encode
  rw [t, lt_finite (show (num (rnd32 0.0031308)).Finite from trivial) fv]
  simp only [decide_eq_true_eq]
  rw [show (num (rnd32 0.0031308)).val = rnd32 0.0031308 from rfl]
  refine ⟨fun h => ?_, fun h hp => ?_⟩
  · rw [if_neg (not_lt.2 h)]
    have hq : |v.val * (lit 12.92).val| = |12.92 * v.val| * (6773801 / 524288 / 12.92) := by
      rw [v1, abs_mul, abs_mul, abs_of_pos (show (0 : ℚ) < 6773801 / 524288 by norm_num),
        abs_of_pos (show (0 : ℚ) < 12.92 by norm_num)]
      ring
    obtain ⟨l, e⟩ := rnd_small (q := v.val * (lit 12.92).val) (by
      rw [v1, abs_mul, abs_of_pos (show (0 : ℚ) < 6773801 / 524288 by norm_num)]
      exact le_trans (mul_le_mul_of_nonneg_right hv (by norm_num)) (by norm_num))
    obtain ⟨f, w⟩ := mul_finite fv f1 l
    refine ⟨f, ?_⟩
    rw [w]
    rw [hq] at e
    have e2 : |v.val * (lit 12.92).val - 12.92 * v.val| = |12.92 * v.val| * (12.92 - 6773801 / 524288) / 12.92 ∨
        |v.val * (lit 12.92).val - 12.92 * v.val| = |12.92 * v.val| * (6773801 / 524288 - 12.92) / 12.92 := by
      have : v.val * (lit 12.92).val - 12.92 * v.val = 12.92 * v.val * ((6773801 / 524288 - 12.92) / 12.92) := by
        rw [v1]; ring
      rw [this, abs_mul]
      rcases abs_choice ((6773801 / 524288 - 12.92 : ℚ) / 12.92) with h | h <;> rw [h]
      · right; ring
      · left; ring
    have tri := abs_add_le (rnd32 (v.val * (lit 12.92).val) - v.val * (lit 12.92).val) (v.val * (lit 12.92).val - 12.92 * v.val)
    rw [sub_add_sub_cancel] at tri
    have n := abs_nonneg (12.92 * v.val)
    have z : (2 : ℚ) ^ (-149 : ℤ) = 2 * 2 ^ (-150 : ℤ) := by norm_num
    have zp := two_zpow_pos (-150)
    rw [z]
    generalize (2 : ℚ) ^ (-150 : ℤ) = tiny at *
    generalize |12.92 * v.val| = W at *
    rcases e2 with e2 | e2 <;> rw [e2] at tri <;> norm_num only at * <;> linarith
  · rw [if_pos h]
    have p0 := hp.2.1
    have p1 := hp.2.2
    obtain ⟨l, e⟩ := rnd_small (q := (lit 1.055).val * (pow v).val) (by
      rw [v2, abs_of_nonneg (by positivity)]
      exact le_trans (by norm_num only; linarith) (show (2 : ℚ) ≤ 2 ^ 100 by norm_num))
    obtain ⟨f, w⟩ := mul_finite f2 hp.1 l
    rw [← w, v2, abs_of_nonneg (a := 8849981 / 8388608 * (pow v).val) (mul_nonneg (by norm_num) p0)] at e
    generalize F32.mul (lit 1.055) (pow v) = m at *
    generalize (pow v).val = P at *
    have tiny : (2 : ℚ) ^ (-150 : ℤ) ≤ 1 / 2 ^ 100 := by norm_num
    have tp := two_zpow_pos (-150)
    generalize (2 : ℚ) ^ (-150 : ℤ) = tn at *
    have hm : |m.val - (lit 0.055).val| ≤ 2 := by
      rw [v3]
      rw [abs_le] at e ⊢
      constructor <;> norm_num only at * <;> linarith
    obtain ⟨l', e'⟩ := rnd_small (hm.trans (by norm_num))
    obtain ⟨f', w'⟩ := sub_fin f f3 l'
    refine ⟨f', ?_⟩
    rw [← w'] at e'
    have hm' : |m.val - (lit 0.055).val| ≤ 1 + 1 / 2 ^ 10 := by
      rw [v3]
      rw [abs_le] at e ⊢
      constructor <;> norm_num only at * <;> linarith
    have e'' : |(sub m (lit 0.055)).val - (m.val - (lit 0.055).val)| ≤ (1 + 1 / 2 ^ 10) * (1 / 2 ^ 24) + 1 / 2 ^ 100 :=
      e'.trans (add_le_add (mul_le_mul_of_nonneg_right hm' (by norm_num)) (by norm_num))
    rw [v3] at e''
    clear e' hm hm' l' w' l hv
    generalize (sub m (lit 0.055)).val = s at *
    rw [abs_le] at *
    constructor <;> norm_num only at * <;> linarith

/-- **C164, colour.**  For every colour with components up to `M` the linear channels before the encoding are the exact ones up
to `M * 2^-19`: the channels of a saved pixel are encodings of numbers that near to the exact channels. -/
theorem C164_colour (pow : F32 → F32) {c : V3 F32} {M : ℚ} (fx : c.x.Finite) (fy : c.y.Finite) (fz : c.z.Finite)
    (hx : |c.x.val| ≤ M) (hy : |c.y.val| ≤ M) (hz : |c.z.val| ≤ M) (m1 : 1 ≤ M) (m2 : M ≤ 2 ^ 64) :
    ∃ r g b : F32, toSrgb pow c = ⟨encode pow r, encode pow g, encode pow b⟩ ∧ r.Finite ∧ g.Finite ∧ b.Finite ∧
      |r.val - (linear c.x.val c.y.val c.z.val).1| ≤ M / 2 ^ 19 ∧ |g.val - (linear c.x.val c.y.val c.z.val).2.1| ≤ M / 2 ^ 19 ∧
      |b.val - (linear c.x.val c.y.val c.z.val).2.2| ≤ M / 2 ^ 19 := by
  have near : ∀ (q r : ℚ), lit q = num r → |r - q| ≤ 1 / 2 ^ 23 → (lit q).Finite ∧ |(lit q).val - q| ≤ 1 / 2 ^ 23 :=
    fun q r h e => by rw [h]; exact ⟨trivial, e⟩
  have k : ∀ (q : ℚ), lit q = num (rnd32 q) → |rnd32 q - q| ≤ 1 / 2 ^ 23 → (lit q).Finite ∧ |(lit q).val - q| ≤ 1 / 2 ^ 23 :=
    fun q => near q _
  obtain ⟨a1, a2⟩ := k 3.2404542 (by decide +kernel) (by decide +kernel)
  obtain ⟨b1, b2⟩ := k (-1.5371385) (by decide +kernel) (by decide +kernel)
  obtain ⟨d1, d2⟩ := k (-0.4985314) (by decide +kernel) (by decide +kernel)
  obtain ⟨a1', a2'⟩ := k (-0.9692660) (by decide +kernel) (by decide +kernel)
  obtain ⟨b1', b2'⟩ := k 1.8760108 (by decide +kernel) (by decide +kernel)
  obtain ⟨d1', d2'⟩ := k 0.0415560 (by decide +kernel) (by decide +kernel)
  obtain ⟨a1'', a2''⟩ := k 0.0556434 (by decide +kernel) (by decide +kernel)
  obtain ⟨b1'', b2''⟩ := k (-0.2040259) (by decide +kernel) (by decide +kernel)
  obtain ⟨d1'', d2''⟩ := k 1.0572252 (by decide +kernel) (by decide +kernel)
  obtain ⟨f1, e1⟩ := row_near fx fy fz a1 b1 d1 hx hy hz m1 m2 a2 b2 d2 (by decide +kernel)
  obtain ⟨f2, e2⟩ := row_near fx fy fz a1' b1' d1' hx hy hz m1 m2 a2' b2' d2' (by decide +kernel)
  obtain ⟨f3, e3⟩ := row_near fx fy fz a1'' b1'' d1'' hx hy hz m1 m2 a2'' b2'' d2'' (by decide +kernel)
  refine ⟨_, _, _, rfl, f1, f2, f3, ?_, ?_, ?_⟩
  · refine le_trans (le_of_eq ?_) e1
    unfold linear; dsimp only; congr 1; ring
  · refine le_trans (le_of_eq ?_) e2
    unfold linear; dsimp only; congr 1; ring
  · refine le_trans (le_of_eq ?_) e3
    unfold linear; dsimp only; congr 1; ring

/-- The white of D65 has the linear channels one, up to the four digits of the matrix. -/
example : |(linear 0.95047 1 1.08883).1 - 1| ≤ 1 / 1000 ∧ |(linear 0.95047 1 1.08883).2.1 - 1| ≤ 1 / 1000 ∧
    |(linear 0.95047 1 1.08883).2.2 - 1| ≤ 1 / 1000 := by decide +kernel


end Spectre.FFilm
