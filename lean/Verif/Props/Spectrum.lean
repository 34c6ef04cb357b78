import Verif.Props.Color
import Mathlib.Analysis.Complex.ExponentialBounds

/-
C114: black bodies.  C115: colour of a spectrum.  C116: spectrum of a colour.  C117: refraction indices.
C118: Adobe RGB.
-/

namespace Spectre.Color
open Spectre.Geom

/-! ### C114 -/

/-- Planck's law: spectral radiance of a black body of temperature `t` at wavelength `l`. -/
noncomputable def planck (h c k t l : ℝ) : ℝ := 2 * h * c ^ 2 / l ^ 5 / (Real.exp (h * c / (l * k * t)) - 1)

/-- Planck's law at a sample. -/
noncomputable def planckAt (t : ℝ) (i : Fin 16) : ℝ := planck planckH lightSpeed boltzmannK t (wavelength i)

/-- The argument of the exponential. -/
noncomputable def hot (t : ℝ) (i : Fin 16) : ℝ := planckH * lightSpeed / boltzmannK / (t * wavelength i)

theorem wavelength_pos (i : Fin 16) : 0 < wavelength i := by
  unfold wavelength
  have : (0 : ℝ) ≤ (i.val : ℝ) := Nat.cast_nonneg _
  positivity

theorem wavelength_lt {i j : Fin 16} (h : i < j) : wavelength i < wavelength j := by
  unfold wavelength
  have : (i.val : ℝ) < (j.val : ℝ) := by exact_mod_cast h
  linarith

theorem consts_pos : 0 < planckH ∧ 0 < lightSpeed ∧ 0 < boltzmannK := by
  unfold planckH lightSpeed boltzmannK
  norm_num

theorem hot_pos {t : ℝ} (ht : 0 < t) (i : Fin 16) : 0 < hot t i := by
  obtain ⟨h1, h2, h3⟩ := consts_pos
  have := wavelength_pos i
  unfold hot
  positivity

theorem emission_eq (t : ℝ) (i : Fin 16) :
    emission t i = 2 * planckH * lightSpeed ^ 2 / wavelength i ^ 5 / (Real.exp (hot t i) + 1) := by
  unfold emission hot
  simp only
  rw [mul_one_div]
  congr 2
  ring

theorem planckAt_eq (t : ℝ) (i : Fin 16) :
    planckAt t i = 2 * planckH * lightSpeed ^ 2 / wavelength i ^ 5 / (Real.exp (hot t i) - 1) := by
  unfold planckAt planck hot
  congr 3
  rw [div_div]
  congr 1
  ring

theorem emission_pos (t : ℝ) (i : Fin 16) : 0 < emission t i := by
  obtain ⟨h1, h2, h3⟩ := consts_pos
  have := wavelength_pos i
  rw [emission_eq]
  positivity

theorem largest_spec (t : ℝ) : fltMin ≤ largest t ∧ (∀ i, emission t i ≤ largest t) ∧
    (largest t = fltMin ∨ ∃ i, largest t = emission t i) := by
  have key : ∀ (l : List (Fin 16)) (m : ℝ),
      let r := l.foldl (fun m i => if m < emission t i then emission t i else m) m
      m ≤ r ∧ (∀ i ∈ l, emission t i ≤ r) ∧ (r = m ∨ ∃ i, r = emission t i) := by
    intro l
    induction l with
    | nil => intro m; simp
    | cons a l ih =>
      intro m
      simp only [List.foldl_cons]
      have ⟨h1, h2, h3⟩ := ih (if m < emission t a then emission t a else m)
      have hm : m ≤ (if m < emission t a then emission t a else m) := by split <;> linarith
      have ha : emission t a ≤ (if m < emission t a then emission t a else m) := by split <;> linarith
      refine ⟨hm.trans h1, ?_, ?_⟩
      · intro i hi
        rcases List.mem_cons.mp hi with hi | hi
        · rw [hi]; exact ha.trans h1
        · exact h2 i hi
      · rcases h3 with h3 | h3
        · by_cases hc : m < emission t a
          · rw [if_pos hc] at h3 ⊢; exact Or.inr ⟨a, h3⟩
          · rw [if_neg hc] at h3 ⊢; exact Or.inl h3
        · exact Or.inr h3
  have ⟨h1, h2, h3⟩ := key (List.finRange 16) fltMin
  exact ⟨h1, fun i => h2 i (List.mem_finRange i), h3⟩

theorem fltMin_pos : 0 < fltMin := by unfold fltMin; positivity

/-- **C114.** The samples of a light given by its temperature are between 0 and 1; the largest is 1 unless all are
below the smallest normal number. -/
theorem C114_normalised (t : Nat) (ht : 0 < t) :
    (∀ i, 0 < blackBody t i ∧ blackBody t i ≤ 1) ∧ ((∃ i, fltMin ≤ emission t i) → ∃ i, blackBody t i = 1) := by
  have ⟨h1, h2, h3⟩ := largest_spec (t : ℝ)
  have lp : 0 < largest (t : ℝ) := fltMin_pos.trans_le h1
  unfold blackBody
  rw [if_neg (by omega)]
  refine ⟨fun i => ⟨div_pos (emission_pos _ i) lp, (div_le_one lp).mpr (h2 i)⟩, ?_⟩
  rintro ⟨j, hj⟩
  rcases h3 with h3 | ⟨i, h3⟩
  · refine ⟨j, ?_⟩
    rw [div_eq_one_iff_eq lp.ne']
    exact le_antisymm (h2 j) (h3 ▸ hj)
  · exact ⟨i, by rw [h3, div_self (emission_pos _ i).ne']⟩

example : ∀ i, 0 < blackBody 6500 i ∧ blackBody 6500 i ≤ 1 := (C114_normalised 6500 (by norm_num)).1

/-- **C114.** No temperature is black. -/
theorem C114_black : blackBody 0 = fun _ => 0 := by
  unfold blackBody; simp

/-- **C114.** What is computed is Planck's law up to a factor that is near 1 for short wavelengths and low
temperatures: `exp + 1` is written instead of `exp - 1`. -/
theorem C114_error_partial (t : ℝ) (ht : 0 < t) (i : Fin 16) :
    emission t i = planckAt t i * (1 - 2 / (Real.exp (hot t i) + 1)) := by
  have e1 : 0 < Real.exp (hot t i) - 1 := by
    have := Real.add_one_lt_exp (hot_pos ht i).ne'
    linarith [hot_pos ht i]
  have := wavelength_pos i
  rw [emission_eq, planckAt_eq]
  generalize Real.exp (hot t i) = E at *
  have : 0 < E + 1 := by linarith
  field_simp
  ring

/-- **C114, violated.** At no temperature do two samples have the ratio of Planck's law. -/
theorem C114_violated (t : Nat) (ht : 0 < t) (i j : Fin 16) (h : i < j) :
    blackBody t i * planckAt t j ≠ blackBody t j * planckAt t i := by
  have tp : (0 : ℝ) < (t : ℝ) := by exact_mod_cast ht
  have lp : 0 < largest (t : ℝ) := fltMin_pos.trans_le (largest_spec _).1
  have pos : ∀ k, 0 < planckAt t k := by
    intro k
    obtain ⟨h1, h2, h3⟩ := consts_pos
    have := wavelength_pos k
    have e1 : 0 < Real.exp (hot t k) - 1 := by
      have := Real.add_one_lt_exp (hot_pos tp k).ne'
      linarith [hot_pos tp k]
    rw [planckAt_eq]
    positivity
  have lt : hot t j < hot t i := by
    obtain ⟨h1, h2, h3⟩ := consts_pos
    have := wavelength_pos i
    have := wavelength_lt h
    unfold hot
    apply div_lt_div_of_pos_left (by positivity) (by positivity)
    exact mul_lt_mul_of_pos_left this tp
  have le := Real.exp_lt_exp.mpr lt
  unfold blackBody
  rw [if_neg (by omega)]
  rw [C114_error_partial _ tp i, C114_error_partial _ tp j]
  intro hc
  have pi := pos i
  have pj := pos j
  have e2 : (1 - 2 / (Real.exp (hot t i) + 1)) = (1 - 2 / (Real.exp (hot t j) + 1)) := by
    have : planckAt t i * planckAt t j / largest (t : ℝ) * (1 - 2 / (Real.exp (hot t i) + 1)) =
        planckAt t i * planckAt t j / largest (t : ℝ) * (1 - 2 / (Real.exp (hot t j) + 1)) := by
      linear_combination hc
    exact mul_left_cancel₀ (by positivity) this
  have : 2 / (Real.exp (hot t i) + 1) < 2 / (Real.exp (hot t j) + 1) := by
    apply div_lt_div_of_pos_left (by norm_num) (by positivity)
    linarith
  linarith

example : blackBody 3000 2 * planckAt 3000 9 ≠ blackBody 3000 9 * planckAt 3000 2 := by
  have := C114_violated 3000 (by norm_num) 2 9 (by decide)
  exact_mod_cast this

/-- **C114, violated by how much.** At 6500 K red (700 nm) is more than 7% too dark compared with violet (400 nm). -/
theorem C114_violated_amount :
    blackBody 6500 15 * planckAt 6500 0 < 0.93 * (blackBody 6500 0 * planckAt 6500 15) := by
  have tp : (0 : ℝ) < 6500 := by norm_num
  have lp : 0 < largest ((6500 : Nat) : ℝ) := fltMin_pos.trans_le (largest_spec _).1
  have pos : ∀ k, 0 < planckAt (6500 : ℝ) k := by
    intro k
    obtain ⟨h1, h2, h3⟩ := consts_pos
    have := wavelength_pos k
    have e1 : 0 < Real.exp (hot 6500 k) - 1 := by
      have := Real.add_one_lt_exp (hot_pos tp k).ne'
      linarith [hot_pos tp k]
    rw [planckAt_eq]
    positivity
  have w0 : wavelength 0 = 400 * 1e-9 := by unfold wavelength; norm_num
  have w15 : wavelength 15 = 700 * 1e-9 := by
    unfold wavelength
    have : (((15 : Fin 16).val : ℕ) : ℝ) = 15 := by norm_cast
    rw [this]; norm_num
  have h15 : hot 6500 15 < 3.2 := by
    unfold hot; rw [w15]; unfold planckH lightSpeed boltzmannK; norm_num
  have h0 : 5.5 < hot 6500 0 := by
    unfold hot; rw [w0]; unfold planckH lightSpeed boltzmannK; norm_num
  have e15 : Real.exp (hot 6500 15) < 24.6 := by
    refine (Real.exp_lt_exp.mpr h15).trans ?_
    have p : Real.exp 3.2 ^ 5 = Real.exp 1 ^ 16 := by
      rw [← Real.exp_nat_mul, ← Real.exp_nat_mul]; norm_num
    have q : Real.exp 1 ^ 16 < 2.7182818286 ^ 16 :=
      pow_lt_pow_left₀ Real.exp_one_lt_d9 (Real.exp_pos 1).le (by norm_num)
    rw [← p] at q
    exact lt_of_pow_lt_pow_left₀ 5 (by norm_num) (q.trans (by norm_num))
  have e0 : 244 < Real.exp (hot 6500 0) := by
    refine lt_trans ?_ (Real.exp_lt_exp.mpr h0)
    have p : Real.exp 5.5 ^ 2 = Real.exp 1 ^ 11 := by
      rw [← Real.exp_nat_mul, ← Real.exp_nat_mul]; norm_num
    have q : (2.7182818283 : ℝ) ^ 11 < Real.exp 1 ^ 11 :=
      pow_lt_pow_left₀ Real.exp_one_gt_d9 (by norm_num) (by norm_num)
    rw [← p] at q
    exact lt_of_pow_lt_pow_left₀ 2 (Real.exp_pos _).le (lt_trans (by norm_num) q)
  have f15 : 1 - 2 / (Real.exp (hot 6500 15) + 1) < 0.922 := by
    have : (0.078125 : ℝ) < 2 / (Real.exp (hot 6500 15) + 1) := by
      rw [lt_div_iff₀ (by positivity)]; linarith
    linarith
  have f0 : 0.9918 < 1 - 2 / (Real.exp (hot 6500 0) + 1) := by
    have : 2 / (Real.exp (hot 6500 0) + 1) < 0.0082 := by
      rw [div_lt_iff₀ (by positivity)]; linarith
    linarith
  unfold blackBody
  rw [if_neg (by norm_num)]
  have c : ((6500 : Nat) : ℝ) = 6500 := by norm_num
  simp only [c] at lp ⊢
  rw [C114_error_partial _ tp 15, C114_error_partial _ tp 0]
  have pp := mul_pos (pos 15) (pos 0)
  generalize (1 - 2 / (Real.exp (hot 6500 15) + 1)) = a at *
  generalize (1 - 2 / (Real.exp (hot 6500 0) + 1)) = b at *
  have : a < 0.93 * b := by linarith
  have k : planckAt 6500 15 * planckAt 6500 0 / largest 6500 * a <
      planckAt 6500 15 * planckAt 6500 0 / largest 6500 * (0.93 * b) :=
    mul_lt_mul_of_pos_left this (by positivity)
  calc planckAt 6500 15 * a / largest 6500 * planckAt 6500 0
      = planckAt 6500 15 * planckAt 6500 0 / largest 6500 * a := by ring
    _ < planckAt 6500 15 * planckAt 6500 0 / largest 6500 * (0.93 * b) := k
    _ = _ := by ring

/-! ### C115 -/

/-- **C115.** The luminance is the Y of the colour. -/
theorem C115_luminance (w : Samples) : luminance w = (spectrumXyz w).y := rfl

theorem match_nonneg (i : Fin 16) : 0 ≤ matchX i ∧ 0 ≤ matchY i ∧ 0 ≤ matchZ i := by
  fin_cases i <;> simp [matchX, matchY, matchZ] <;> norm_num

/-- **C115.** More light is not darker: the colour is linear and not negative. -/
theorem C115_linear (a b : ℝ) (v w : Samples) :
    spectrumXyz (fun i => a * v i + b * w i) =
      ⟨a * (spectrumXyz v).x + b * (spectrumXyz w).x, a * (spectrumXyz v).y + b * (spectrumXyz w).y,
        a * (spectrumXyz v).z + b * (spectrumXyz w).z⟩ ∧
    ((∀ i, 0 ≤ w i) → 0 ≤ (spectrumXyz w).x ∧ 0 ≤ (spectrumXyz w).y ∧ 0 ≤ (spectrumXyz w).z) := by
  constructor
  · have k : ∀ f : Samples, (∑ i, (a * v i + b * w i) * f i) = a * ∑ i, v i * f i + b * ∑ i, w i * f i := by
      intro f
      rw [Finset.mul_sum, Finset.mul_sum, ← Finset.sum_add_distrib]
      apply Finset.sum_congr rfl
      intro i _; ring
    simp only [spectrumXyz, k]
    congr 1 <;> ring
  · intro h
    have i0 : 0 ≤ invYSum := by unfold invYSum; norm_num
    refine ⟨mul_nonneg (Finset.sum_nonneg fun i _ => mul_nonneg (h i) (match_nonneg i).1) i0,
      mul_nonneg (Finset.sum_nonneg fun i _ => mul_nonneg (h i) (match_nonneg i).2.1) i0,
      mul_nonneg (Finset.sum_nonneg fun i _ => mul_nonneg (h i) (match_nonneg i).2.2) i0⟩

theorem spectrum_one : 0.99 < (spectrumXyz fun _ => 1).x ∧ (spectrumXyz fun _ => 1).x < 1 ∧
    0.99 < (spectrumXyz fun _ => 1).y ∧ (spectrumXyz fun _ => 1).y < 1 ∧
    0.99 < (spectrumXyz fun _ => 1).z ∧ (spectrumXyz fun _ => 1).z < 1 := by
  simp only [spectrumXyz, matchX, matchY, matchZ, invYSum, Fin.sum_univ_succ, Fin.sum_univ_zero]
  simp
  norm_num

/-- **C115.** Constant spectra: both builds give the same colour up to 1%. -/
theorem C115_constant_partial (v : ℝ) (h : 0 < v) :
    reduce (fun _ => v) = ⟨v, v, v⟩ ∧
    0.99 * v < (spectrumXyz fun _ => v).x ∧ (spectrumXyz fun _ => v).x < v ∧
    0.99 * v < (spectrumXyz fun _ => v).y ∧ (spectrumXyz fun _ => v).y < v ∧
    0.99 * v < (spectrumXyz fun _ => v).z ∧ (spectrumXyz fun _ => v).z < v := by
  have e : (spectrumXyz fun _ => v) = ⟨v * (spectrumXyz fun _ => 1).x, v * (spectrumXyz fun _ => 1).y,
      v * (spectrumXyz fun _ => 1).z⟩ := by
    have := (C115_linear v 0 (fun _ => 1) (fun _ => 1)).1
    simpa using this
  obtain ⟨h1, h2, h3, h4, h5, h6⟩ := spectrum_one
  rw [e]
  refine ⟨by unfold reduce; congr 1 <;> ring, ?_, ?_, ?_, ?_, ?_, ?_⟩ <;> nlinarith

example : reduce (fun _ => 3) = ⟨3, 3, 3⟩ := (C115_constant_partial 3 (by norm_num)).1

/-- Light of the longest wavelengths only, from 620 nm. -/
noncomputable def redLight : Samples := fun i => if 11 ≤ i.val then 1 else 0

/-- **C115, violated.** Red light is red in one build and has a negative amount of red in the other: the means of
short, middle and long wavelengths are stored as X, Y and Z. -/
theorem C115_violated_red :
    0 < (xyzToRgb (spectrumXyz redLight)).x ∧
    (xyzToRgb (spectrumXyz redLight)).y < (xyzToRgb (spectrumXyz redLight)).x ∧
    (xyzToRgb (spectrumXyz redLight)).z < (xyzToRgb (spectrumXyz redLight)).x ∧
    (xyzToRgb (reduce redLight)).x < 0 ∧ 1 < (xyzToRgb (reduce redLight)).z := by
  have e : ∀ f : Samples, (∑ i, redLight i * f i) = f 11 + f 12 + f 13 + f 14 + f 15 := by
    intro f
    simp only [Fin.sum_univ_succ, Fin.sum_univ_zero, redLight]
    simp [Fin.succ]
    ring_nf
  have r : reduce redLight = ⟨0, 0, 1⟩ := by
    simp only [reduce, redLight]
    norm_num
  rw [r]
  simp only [spectrumXyz, e, xyzToRgb]
  have x : matchX 11 = 0.91729557037353515 ∧ matchX 12 = 0.55824810008207959 ∧ matchX 13 = 0.24846323480208715 ∧
    matchX 14 = 0.082662385882188882 ∧ matchX 15 = 0.023565863414357107 := ⟨rfl, rfl, rfl, rfl, rfl⟩
  have y : matchY 11 = 0.43439004709323248 ∧ matchY 12 = 0.22639957609275976 ∧ matchY 13 = 0.093565923050045963 ∧
    matchY 14 = 0.030277141408684354 ∧ matchY 15 = 0.0085307513410225518 := ⟨rfl, rfl, rfl, rfl, rfl⟩
  have z : matchZ 11 = 0.00025727244249234595 ∧ matchZ 12 = 3.9191220954914268e-5 ∧
    matchZ 13 = 1.964333174934533e-6 ∧ matchZ 14 = 0 ∧ matchZ 15 = 0 := ⟨rfl, rfl, rfl, rfl, rfl⟩
  rw [x.1, x.2.1, x.2.2.1, x.2.2.2.1, x.2.2.2.2, y.1, y.2.1, y.2.2.1, y.2.2.2.1, y.2.2.2.2, z.1, z.2.1, z.2.2.1,
    z.2.2.2.1, z.2.2.2.2]
  unfold invYSum
  norm_num

/-! ### C116 -/

/-- **C116.** The spectrum of a colour is the common part as white, the rest of the two larger components as the
secondary and of the largest as the primary; on ties all orders agree. -/
theorem C116_orders (b : Base) (c : V3 ℝ) (i : Fin 16) :
    (c.x ≤ c.y → c.y ≤ c.z → mix b c i = b.white i * c.x + b.cyan i * (c.y - c.x) + b.blue i * (c.z - c.y)) ∧
    (c.x ≤ c.z → c.z ≤ c.y → mix b c i = b.white i * c.x + b.cyan i * (c.z - c.x) + b.green i * (c.y - c.z)) ∧
    (c.y ≤ c.x → c.x ≤ c.z → mix b c i = b.white i * c.y + b.magenta i * (c.x - c.y) + b.blue i * (c.z - c.x)) ∧
    (c.y ≤ c.z → c.z ≤ c.x → mix b c i = b.white i * c.y + b.magenta i * (c.z - c.y) + b.red i * (c.x - c.z)) ∧
    (c.z ≤ c.x → c.x ≤ c.y → mix b c i = b.white i * c.z + b.yellow i * (c.x - c.z) + b.green i * (c.y - c.x)) ∧
    (c.z ≤ c.y → c.y ≤ c.x → mix b c i = b.white i * c.z + b.yellow i * (c.y - c.z) + b.red i * (c.x - c.y)) := by
  obtain ⟨x, y, z⟩ := c
  unfold mix
  simp only [zero_add]
  refine ⟨?_, ?_, ?_, ?_, ?_, ?_⟩ <;> intro h1 h2 <;> split_ifs <;> grind

theorem C116_range (c : V3 ℝ) (light : Bool) (i : Fin 16) : 0 ≤ ofRgb c light i ∧ ofRgb c light i ≤ 1 := by
  unfold ofRgb clamp01
  split_ifs <;> constructor <;> linarith

theorem white_bounds (i : Fin 16) : 1.06 < white i ∧ white i < 1.0626 := by
  fin_cases i <;> simp [white] <;> norm_num

/-- **C116.** A grey surface has a luminance between 0.985 and 1 times its component. -/
theorem C116_grey (g : ℝ) (h0 : 0 < g) (h1 : g ≤ 1) :
    0.985 * g < luminance (ofRgb ⟨g, g, g⟩ false) ∧ luminance (ofRgb ⟨g, g, g⟩ false) < g := by
  have e : ∀ i, ofRgb ⟨g, g, g⟩ false i = white i * g * 0.94 := by
    intro i
    have m := (C116_orders surfaceBase ⟨g, g, g⟩ i).1 le_rfl le_rfl
    have w := white_bounds i
    unfold ofRgb clamp01
    simp only [Bool.false_eq_true, if_false]
    rw [m]
    simp only [surfaceBase, sub_self, mul_zero, add_zero]
    have p1 : 0 < white i * g * 0.94 := by
      have : 0 < white i := by linarith
      positivity
    have p2 : white i * g * 0.94 ≤ 1 := by nlinarith
    rw [if_neg (by linarith), if_neg (by linarith)]
  have s1 : ∑ i : Fin 16, (0.9964 * g) * matchY i ≤ ∑ i, ofRgb ⟨g, g, g⟩ false i * matchY i := by
    apply Finset.sum_le_sum
    intro i _
    apply mul_le_mul_of_nonneg_right _ (match_nonneg i).2.1
    rw [e]
    nlinarith [white_bounds i]
  have s2 : ∑ i, ofRgb ⟨g, g, g⟩ false i * matchY i ≤ ∑ i : Fin 16, g * matchY i := by
    apply Finset.sum_le_sum
    intro i _
    apply mul_le_mul_of_nonneg_right _ (match_nonneg i).2.1
    rw [e]
    nlinarith [white_bounds i]
  rw [← Finset.mul_sum] at s1 s2
  have o := spectrum_one
  simp only [spectrumXyz, one_mul] at o
  have i0 : 0 < invYSum := by unfold invYSum; norm_num
  unfold luminance
  constructor
  · have := mul_le_mul_of_nonneg_right s1 i0.le
    nlinarith [o.2.2.1]
  · have := mul_le_mul_of_nonneg_right s2 i0.le
    nlinarith [o.2.2.2.1]

example (i : Fin 16) : mix surfaceBase ⟨0.2, 0.7, 0.5⟩ i = white i * 0.2 + cyan i * (0.5 - 0.2) + green i * (0.7 - 0.5) :=
  (C116_orders surfaceBase ⟨0.2, 0.7, 0.5⟩ i).2.1 (by norm_num) (by norm_num)

/-- **C116, violated.** The two builds do not agree about the colour of a surface: with `SPECTRAL` the coded
component is taken as the amount of light.  Grey 1/2 reflects 49% in one build and less than 22% in the other. -/
theorem C116_violated_coding :
    0.49 < luminance (ofRgb ⟨0.5, 0.5, 0.5⟩ false) ∧ (ofRgbPlain ⟨0.5, 0.5, 0.5⟩).y < 0.22 := by
  constructor
  · have := (C116_grey 0.5 (by norm_num) (by norm_num)).1
    linarith
  · unfold ofRgbPlain toXyz rgbToXyz
    simp only
    have : decode 0.5 < 0.215 := by
      rw [decode_high (by norm_num)]
      unfold curve
      have p := pow24 ((0.5 + 0.055) / 1.055) (by norm_num)
      by_contra hc
      have := pow_le_pow_left₀ (by norm_num) (not_lt.mp hc) 5
      rw [p] at this
      norm_num at this
    linarith

/-- **C116.** Without `SPECTRAL` the colour of a surface is its colour in the texture. -/
theorem C116_plain (c : V3 ℝ) : ofRgbPlain c = toXyz c := rfl

/-! ### C117 -/

theorem micron_pos (i : Fin 16) : 0.4 ≤ micron i := by
  unfold micron
  have : (0 : ℝ) ≤ (i.val : ℝ) := Nat.cast_nonneg _
  linarith

theorem micron_lt {i j : Fin 16} (h : i < j) : micron i < micron j := by
  unfold micron
  have : (i.val : ℝ) < (j.val : ℝ) := by exact_mod_cast h
  linarith

/-- **C117.** Cauchy: the index decreases with the wavelength and is at least `B`; the build without `SPECTRAL`
takes a value between the smallest and the largest. -/
theorem C117_cauchy (b c d : ℝ) (hc : 0 ≤ c) (hd : 0 ≤ d) :
    (∀ i, b ≤ cauchy b c d i) ∧ (∀ i j, i < j → cauchy b c d j ≤ cauchy b c d i) ∧
    cauchy b c d 15 ≤ cauchyPlain b c d ∧ cauchyPlain b c d ≤ cauchy b c d 0 := by
  have anti : ∀ i j, i < j → cauchy b c d j ≤ cauchy b c d i := by
    intro i j h
    have pi := micron_pos i
    have l := micron_lt h
    have i0 : 0 < micron i := by linarith
    unfold cauchy
    have h2 : c / (micron j * micron j) ≤ c / (micron i * micron i) :=
      div_le_div_of_nonneg_left hc (by positivity) (mul_le_mul l.le l.le i0.le (by linarith))
    have h4 : d / micron j ^ 4 ≤ d / micron i ^ 4 :=
      div_le_div_of_nonneg_left hd (by positivity) (pow_le_pow_left₀ i0.le l.le 4)
    linarith
  refine ⟨?_, anti, ?_, ?_⟩
  · intro i
    have : 0 < micron i := by linarith [micron_pos i]
    have : 0 ≤ c / (micron i * micron i) := by positivity
    have : 0 ≤ d / micron i ^ 4 := by positivity
    unfold cauchy
    linarith
  · have : ∑ _i : Fin 16, cauchy b c d 15 ≤ ∑ i, cauchy b c d i := by
      apply Finset.sum_le_sum
      intro i _
      rcases (Fin.le_last i).lt_or_eq with h | h
      · exact anti i 15 h
      · rw [h]; rfl
    rw [Finset.sum_const, Finset.card_univ, Fintype.card_fin, nsmul_eq_mul] at this
    unfold cauchyPlain
    push_cast at this
    linarith
  · have : ∑ i, cauchy b c d i ≤ ∑ _i : Fin 16, cauchy b c d 0 := by
      apply Finset.sum_le_sum
      intro i _
      rcases (Fin.zero_le i).lt_or_eq with h | h
      · exact anti 0 i h
      · rw [← h]
    rw [Finset.sum_const, Finset.card_univ, Fintype.card_fin, nsmul_eq_mul] at this
    unfold cauchyPlain
    push_cast at this
    linarith

example : cauchyPlain 1.5 0.004 0 ≤ cauchy 1.5 0.004 0 0 := (C117_cauchy 1.5 0.004 0 (by norm_num) (by norm_num)).2.2.2

/-- **C117.** Sellmeier: with absorption below 400 nm the index is defined, at least 1 and decreasing.  Missing: the
infrared resonance of real glasses, for which the value can only be bounded with the numbers of the glass. -/
theorem C117_sellmeier_partial (b1 b2 b3 c1 c2 c3 : ℝ) (h1 : 0 ≤ b1) (h2 : 0 ≤ b2) (h3 : 0 ≤ b3)
    (k1 : 0 ≤ c1 ∧ c1 < 0.16) (k2 : 0 ≤ c2 ∧ c2 < 0.16) (k3 : 0 ≤ c3 ∧ c3 < 0.16) (i j : Fin 16) (h : i < j) :
    ∃ n m, sellmeier b1 b2 b3 c1 c2 c3 i = some n ∧ sellmeier b1 b2 b3 c1 c2 c3 j = some m ∧ 1 ≤ m ∧ m ≤ n := by
  have sq : ∀ k, 0.16 ≤ micron k * micron k := fun k => by nlinarith [micron_pos k]
  have sqlt : micron i * micron i < micron j * micron j := by nlinarith [micron_pos i, micron_lt h]
  have term : ∀ b c w : ℝ, 0 ≤ b → 0 ≤ c ∧ c < 0.16 → 0.16 ≤ w → 0 ≤ b * w / (w - c) := by
    intro b c w hb hc hw
    apply div_nonneg (mul_nonneg hb (by linarith)) (by linarith [hc.2])
  have dec : ∀ b c v w : ℝ, 0 ≤ b → 0 ≤ c ∧ c < 0.16 → 0.16 ≤ v → v < w → b * w / (w - c) ≤ b * v / (v - c) := by
    intro b c v w hb hc hv hw
    rw [div_le_div_iff₀ (by linarith [hc.2]) (by linarith [hc.2])]
    nlinarith [mul_nonneg (mul_nonneg hb hc.1) (by linarith : 0 ≤ w - v)]
  have val : ∀ k, sellmeier b1 b2 b3 c1 c2 c3 k = some (Real.sqrt (1 + b1 * (micron k * micron k) / (micron k * micron k - c1) +
      b2 * (micron k * micron k) / (micron k * micron k - c2) + b3 * (micron k * micron k) / (micron k * micron k - c3))) := by
    intro k
    have s := sq k
    unfold sellmeier
    simp only
    rw [if_neg (by
      rintro (h | h | h)
      · linarith [k1.2]
      · linarith [k2.2]
      · linarith [k3.2]), if_neg (by
      rw [not_lt]
      linarith [term b1 c1 _ h1 k1 s, term b2 c2 _ h2 k2 s, term b3 c3 _ h3 k3 s])]
  refine ⟨_, _, val i, val j, ?_, ?_⟩
  · rw [Real.one_le_sqrt]
    have s := sq j
    linarith [term b1 c1 _ h1 k1 s, term b2 c2 _ h2 k2 s, term b3 c3 _ h3 k3 s]
  · apply Real.sqrt_le_sqrt
    linarith [dec b1 c1 _ _ h1 k1 (sq i) sqlt, dec b2 c2 _ _ h2 k2 (sq i) sqlt, dec b3 c3 _ _ h3 k3 (sq i) sqlt]

example : ∃ n m, sellmeier 0.7 0.4 0 0.004 0.013 0 2 = some n ∧ sellmeier 0.7 0.4 0 0.004 0.013 0 9 = some m ∧ 1 ≤ m ∧ m ≤ n :=
  C117_sellmeier_partial _ _ _ _ _ _ (by norm_num) (by norm_num) (by norm_num) (by norm_num) (by norm_num) (by norm_num)
    2 9 (by decide)

/-- **C117, violated.** An absorption at a sampled wavelength divides by zero, one inside the range takes the root of
a negative number: fused silica with its infrared resonance moved to 500 nm. -/
theorem C117_violated_sellmeier :
    sellmeier 0.7 0.4 0.9 0.004 0.013 (0.5 * 0.5) 5 = none ∧ sellmeier 0.7 0.4 0.9 0.004 0.013 (0.49 * 0.49) 4 = none := by
  have m5 : micron 5 = 0.5 := by
    unfold micron
    have : (((5 : Fin 16).val : ℕ) : ℝ) = 5 := by norm_cast
    rw [this]; norm_num
  have m4 : micron 4 = 0.48 := by
    unfold micron
    have : (((4 : Fin 16).val : ℕ) : ℝ) = 4 := by norm_cast
    rw [this]; norm_num
  constructor
  · unfold sellmeier
    simp only [m5]
    rw [if_pos (by norm_num)]
  · unfold sellmeier
    simp only [m4]
    rw [if_neg (by norm_num), if_pos (by norm_num)]

/-! ### C118 -/

/-- **C118.** Adobe RGB is defined for the colours inside of its gamut, and then not negative. -/
theorem C118_defined_partial (c : V3 ℝ) (h1 : 0 ≤ c.x * 2.04159 + c.y * -0.56501 + c.z * -0.34473)
    (h2 : 0 ≤ c.x * -0.96924 + c.y * 1.87597 + c.z * 0.03342) (h3 : 0 ≤ c.x * 0.01344 + c.y * -0.11836 + c.z * 1.34926) :
    ∃ v, toAdobe c = some v ∧ 0 ≤ v.x ∧ 0 ≤ v.y ∧ 0 ≤ v.z := by
  unfold toAdobe adobeEncode
  rw [if_neg (not_lt.mpr h1), if_neg (not_lt.mpr h2), if_neg (not_lt.mpr h3)]
  exact ⟨_, rfl, Real.rpow_nonneg h1 _, Real.rpow_nonneg h2 _, Real.rpow_nonneg h3 _⟩

example : ∃ v, toAdobe ⟨0.9505, 1, 1.089⟩ = some v ∧ 0 ≤ v.x ∧ 0 ≤ v.y ∧ 0 ≤ v.z :=
  C118_defined_partial _ (by norm_num) (by norm_num) (by norm_num)

/-- **C118.** Outside of the gamut it is not a number. -/
theorem C118_undefined (c : V3 ℝ) : toAdobe c = none ↔
    c.x * 2.04159 + c.y * -0.56501 + c.z * -0.34473 < 0 ∨ c.x * -0.96924 + c.y * 1.87597 + c.z * 0.03342 < 0 ∨
      c.x * 0.01344 + c.y * -0.11836 + c.z * 1.34926 < 0 := by
  unfold toAdobe adobeEncode
  generalize c.x * 2.04159 + c.y * -0.56501 + c.z * -0.34473 = r
  generalize c.x * -0.96924 + c.y * 1.87597 + c.z * 0.03342 = g
  generalize c.x * 0.01344 + c.y * -0.11836 + c.z * 1.34926 = b
  by_cases h1 : r < 0
  · simp [h1]
  by_cases h2 : g < 0
  · simp [h1, h2]
  by_cases h3 : b < 0
  · simp [h1, h2, h3]
  · simp [h1, h2, h3]

/-- **C118, violated.** The colour of light of 500 nm, from the tables of the program, has no Adobe RGB: the root of
a negative number is taken. -/
theorem C118_violated : toAdobe (spectrumXyz fun i => if i = 5 then 1 else 0) = none := by
  have e : ∀ f : Samples, (∑ i, (if i = (5 : Fin 16) then (1 : ℝ) else 0) * f i) = f 5 := by
    intro f
    simp
  have x : matchX 5 = 0.0074335845497747266 ∧ matchY 5 = 0.38263264827430249 ∧ matchZ 5 = 0.24021451229850452 :=
    ⟨rfl, rfl, rfl⟩
  unfold toAdobe
  simp only [spectrumXyz, e]
  rw [x.1, x.2.1, x.2.2]
  unfold adobeEncode invYSum
  rw [if_pos (by norm_num)]
  rfl

end Spectre.Color
