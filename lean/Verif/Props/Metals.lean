import Verif.Model.Metals
import Verif.Props.Specular
import Verif.Props.Spectrum

/-
Property C155: metals have the colour of their constants.
-/

namespace Spectre.Metals

open Spectre.Scene (Metal)
open Spectre.Color Spectre.Specular Spectre.Geom

/-! ### Spec -/

/-- The reflectance of a metal seen along its normal. -/
noncomputable def normalReflectance (n k : ℝ) : ℝ := ((n - 1) ^ 2 + k ^ 2) / ((n + 1) ^ 2 + k ^ 2)

/-- Blue below green below red. -/
def Falling (c : V3 ℝ) : Prop := c.z < c.y ∧ c.y < c.x

/-! ### The table -/

theorem rows : ∀ e ∈ table, e.1.length = 16 ∧ e.2.length = 16 ∧ (∀ v ∈ e.1, (0 : ℚ) < v) ∧ ∀ v ∈ e.2, (0 : ℚ) < v := by
  decide +kernel

theorem number_lt (m : Metal) : number m < table.length := by cases m <;> decide

theorem construct_some (l : List ℚ) (h : l.length = 16) (p : ∀ v ∈ l, (0 : ℚ) < v) :
    ∃ w, construct l = some w ∧ (∀ i, 0 < w i) ∧ ∀ i : Fin 16, w i = ((l[i.val]'(by rw [h]; exact i.2) : ℚ) : ℝ) := by
  refine ⟨_, if_pos h, ?_, ?_⟩
  · intro i
    rw [List.getD_eq_getElem _ _ (by rw [h]; exact i.2)]
    exact_mod_cast p _ (List.getElem_mem _)
  · intro i
    rw [List.getD_eq_getElem _ _ (by rw [h]; exact i.2)]

/-- **C155.** The table has a row for every metal; building it throws nothing, and all the constants are
positive. -/
theorem C155_table (m : Metal) : ∃ n k, constants m = some (n, k) ∧ ∀ i, 0 < n i ∧ 0 < k i := by
  obtain ⟨a, b, c, d⟩ := rows _ (List.getElem_mem (number_lt m))
  obtain ⟨n, en, pn, -⟩ := construct_some _ a c
  obtain ⟨k, ek, pk, -⟩ := construct_some _ b d
  refine ⟨n, k, ?_, fun i => ⟨pn i, pk i⟩⟩
  simp [constants, List.getElem?_eq_getElem (number_lt m), en, ek]

theorem reduce_pos (w : Samples) (h : ∀ i, 0 < w i) : 0 < (reduce w).x ∧ 0 < (reduce w).y ∧ 0 < (reduce w).z := by
  unfold reduce
  have := h 0; have := h 1; have := h 2; have := h 3; have := h 4; have := h 5; have := h 6; have := h 7
  have := h 8; have := h 9; have := h 10; have := h 11; have := h 12; have := h 13; have := h 14; have := h 15
  refine ⟨by positivity, by positivity, by positivity⟩

/-- **C155.** From every angle a metal reflects a fraction of the light, in both builds, and along the normal
the fraction that follows from the constants. -/
theorem C155_fraction (m : Metal) (c : ℝ) (hc : 0 ≤ c) :
    ∃ n k, constants m = some (n, k) ∧
      (∀ i, ∃ r, reflectance n k c i = some r ∧ 0 ≤ r ∧ r ≤ 1 ∧ (c = 1 → r = normalReflectance (n i) (k i))) ∧
      ∃ r, reflectance3 n k c = some r ∧ 0 ≤ r.x ∧ r.x ≤ 1 ∧ 0 ≤ r.y ∧ r.y ≤ 1 ∧ 0 ≤ r.z ∧ r.z ≤ 1 ∧
        (c = 1 → r = ⟨normalReflectance (reduce n).x (reduce k).x, normalReflectance (reduce n).y (reduce k).y,
          normalReflectance (reduce n).z (reduce k).z⟩) := by
  obtain ⟨n, k, e, p⟩ := C155_table m
  refine ⟨n, k, e, fun i => ?_, ?_⟩
  · obtain ⟨r, a, b, d, f, -⟩ := C83_conductor_partial (n i) (k i) c (p i).1 hc
    exact ⟨r, a, b, d, f⟩
  · obtain ⟨x, y, z⟩ := reduce_pos n fun i => (p i).1
    obtain ⟨r0, a0, b0, d0, f0, -⟩ := C83_conductor_partial _ (reduce k).x c x hc
    obtain ⟨r1, a1, b1, d1, f1, -⟩ := C83_conductor_partial _ (reduce k).y c y hc
    obtain ⟨r2, a2, b2, d2, f2, -⟩ := C83_conductor_partial _ (reduce k).z c z hc
    refine ⟨⟨r0, r1, r2⟩, by simp [reflectance3, a0, a1, a2], b0, d0, b1, d1, b2, d2, fun h => ?_⟩
    rw [f0 h, f1 h, f2 h]; rfl

/-! ### Colours, exactly -/

/-- The tables of `Model/Color.lean` as fractions. -/
def qX : Fin 16 → ℚ :=
  ![0.048547909657160444, 0.24864331478873888, 0.33913105790813763, 0.23759311571717262,
    0.068513086394717301, 0.0074335845497747266, 0.08596576422452927, 0.30151855826377871,
    0.58514208267132439, 0.88403650492429731, 1.0476295638084412, 0.91729557037353515,
    0.55824810008207959, 0.24846323480208715, 0.082662385882188882, 0.023565863414357107]
def qY : Fin 16 → ℚ :=
  ![0.0013634899475922187, 0.010440415943351884, 0.033597446996718648, 0.077808559965342278,
    0.16970793592433134, 0.38263264827430249, 0.73335171341896055, 0.95049857179323827,
    0.98971243401368458, 0.88304891208807623, 0.67035055945316946, 0.43439004709323248,
    0.22639957609275976, 0.093565923050045963, 0.030277141408684354, 0.0085307513410225518]
def qZ : Fin 16 → ℚ :=
  ![0.23185277074575425, 1.2145957302053769, 1.7617404375473658, 1.4557389440139135,
    0.66370667571822806, 0.24021451229850452, 0.075098564475774759, 0.020824563254912696,
    0.0045391401535986612, 0.0017035374639090151, 0.00090068979518643274, 0.00025727244249234595,
    3.9191220954914268e-5, 1.964333174934533e-6, 0, 0]

theorem match_cast (i : Fin 16) : matchX i = (qX i : ℝ) ∧ matchY i = (qY i : ℝ) ∧ matchZ i = (qZ i : ℝ) := by
  fin_cases i <;> simp [matchX, matchY, matchZ, qX, qY, qZ]

def qRgb (c : V3 ℚ) : V3 ℚ :=
  ⟨c.x * 3.2404542 + c.y * -1.5371385 + c.z * -0.4985314, c.x * -0.9692660 + c.y * 1.8760108 + c.z * 0.0415560,
    c.x * 0.0556434 + c.y * -0.2040259 + c.z * 1.0572252⟩

def qXyz (w : Fin 16 → ℚ) : V3 ℚ :=
  ⟨(∑ i, w i * qX i) * 0.17546832144055843, (∑ i, w i * qY i) * 0.17546832144055843,
    (∑ i, w i * qZ i) * 0.17546832144055843⟩

def up (c : V3 ℚ) : V3 ℝ := ⟨c.x, c.y, c.z⟩

theorem rgb_cast (c : V3 ℚ) : xyzToRgb (up c) = up (qRgb c) := by
  simp only [xyzToRgb, up, qRgb, V3.mk.injEq]
  push_cast
  exact ⟨by norm_num, by norm_num, by norm_num⟩

theorem xyz_cast (w : Fin 16 → ℚ) : (spectrumXyz fun i => (w i : ℝ)) = up (qXyz w) := by
  simp only [spectrumXyz, up, qXyz, invYSum, (match_cast _).1, (match_cast _).2.1, (match_cast _).2.2, V3.mk.injEq]
  push_cast
  exact ⟨by norm_num, by norm_num, by norm_num⟩

def qRefl (n k : ℚ) : ℚ := ((n - 1) ^ 2 + k ^ 2) / ((n + 1) ^ 2 + k ^ 2)

theorem refl_cast (n k : ℚ) : normalReflectance (n : ℝ) (k : ℝ) = (qRefl n k : ℝ) := by
  unfold normalReflectance qRefl; push_cast; rfl

def qReduce (l : List ℚ) : V3 ℚ :=
  ⟨(l.getD 0 0 + l.getD 1 0 + l.getD 2 0 + l.getD 3 0 + l.getD 4 0) / 5,
   (l.getD 5 0 + l.getD 6 0 + l.getD 7 0 + l.getD 8 0 + l.getD 9 0 + l.getD 10 0) / 6,
   (l.getD 11 0 + l.getD 12 0 + l.getD 13 0 + l.getD 14 0 + l.getD 15 0) / 5⟩

/-- Colour along the normal with `SPECTRAL`, and without. -/
def qSpectral (e : List ℚ × List ℚ) : V3 ℚ :=
  qRgb (qXyz fun i => qRefl (e.1.getD i.val 0) (e.2.getD i.val 0))
def qReduced (e : List ℚ × List ℚ) : V3 ℚ :=
  let n := qReduce e.1
  let k := qReduce e.2
  qRgb ⟨qRefl n.x k.x, qRefl n.y k.y, qRefl n.z k.z⟩

theorem colours (m : Metal) : ∃ n k w c, constants m = some (n, k) ∧ (∀ i, reflectance n k 1 i = some (w i)) ∧
    reflectance3 n k 1 = some c ∧ xyzToRgb (spectrumXyz w) = up (qSpectral (table[number m]'(number_lt m))) ∧
    xyzToRgb c = up (qReduced (table[number m]'(number_lt m))) := by
  obtain ⟨n, k, e, f, r, er, -, -, -, -, -, -, hr⟩ := C155_fraction m 1 zero_le_one
  have e' := e
  simp only [constants, List.getElem?_eq_getElem (number_lt m), Option.bind_eq_bind, Option.bind_some, construct] at e'
  obtain ⟨a, b', -, -⟩ := rows _ (List.getElem_mem (number_lt m))
  rw [if_pos a, if_pos b'] at e'
  simp only [Option.bind_some, Option.some.injEq, Prod.mk.injEq] at e'
  obtain ⟨en, ek⟩ := e'
  refine ⟨n, k, fun i => normalReflectance (n i) (k i), r, e, fun i => ?_, er, ?_, ?_⟩
  · obtain ⟨r, h, -, -, q⟩ := f i
    rw [h, q rfl]
  · subst en ek
    beta_reduce
    simp only [refl_cast]
    rw [xyz_cast fun i => qRefl ((table[number m]'(number_lt m)).1.getD i.val 0) ((table[number m]'(number_lt m)).2.getD i.val 0),
      rgb_cast]
    rfl
  · rw [hr rfl]
    subst en ek
    have red : ∀ l : List ℚ, reduce (fun i => ((l.getD i.val 0 : ℚ) : ℝ)) = up (qReduce l) := by
      intro l
      simp only [reduce, up, qReduce, V3.mk.injEq]
      push_cast
      exact ⟨rfl, rfl, rfl⟩
    simp only [red]
    rw [show qReduced (table[number m]'(number_lt m)) = qRgb ⟨qRefl (qReduce (table[number m]'(number_lt m)).1).x (qReduce (table[number m]'(number_lt m)).2).x,
      qRefl (qReduce (table[number m]'(number_lt m)).1).y (qReduce (table[number m]'(number_lt m)).2).y,
      qRefl (qReduce (table[number m]'(number_lt m)).1).z (qReduce (table[number m]'(number_lt m)).2).z⟩ from rfl, ← rgb_cast]
    simp only [up, refl_cast]

/-! ### Gold and copper -/

/-- **C155.** With `SPECTRAL` gold and copper seen along the normal in white light are as their constants make
them: red above green above blue. -/
theorem C155_spectral_partial (m : Metal) (h : m = .gold ∨ m = .copper) :
    ∃ n k w, constants m = some (n, k) ∧ (∀ i, reflectance n k 1 i = some (w i)) ∧
      Falling (xyzToRgb (spectrumXyz w)) ∧ 0 < (xyzToRgb (spectrumXyz w)).z := by
  obtain ⟨n, k, w, c, e, f, -, g, -⟩ := colours m
  refine ⟨n, k, w, e, f, ?_⟩
  rw [g]
  simp only [Falling, up]
  rcases h with rfl | rfl
  · have : (qSpectral (table[number .gold]'(number_lt _))).z < (qSpectral (table[number .gold]'(number_lt _))).y ∧
      (qSpectral (table[number .gold]'(number_lt _))).y < (qSpectral (table[number .gold]'(number_lt _))).x ∧
      0 < (qSpectral (table[number .gold]'(number_lt _))).z := by decide +kernel
    exact ⟨⟨by exact_mod_cast this.1, by exact_mod_cast this.2.1⟩, by exact_mod_cast this.2.2⟩
  · have : (qSpectral (table[number .copper]'(number_lt _))).z < (qSpectral (table[number .copper]'(number_lt _))).y ∧
      (qSpectral (table[number .copper]'(number_lt _))).y < (qSpectral (table[number .copper]'(number_lt _))).x ∧
      0 < (qSpectral (table[number .copper]'(number_lt _))).z := by decide +kernel
    exact ⟨⟨by exact_mod_cast this.1, by exact_mod_cast this.2.1⟩, by exact_mod_cast this.2.2⟩

/-- **C155, violated** without `SPECTRAL`: the constants of the short wavelengths are stored as X and those of the
long ones as Z, so that gold has a negative amount of red, and copper less red than blue. -/
theorem C155_violated_gold :
    (∃ n k c, constants .gold = some (n, k) ∧ reflectance3 n k 1 = some c ∧ (xyzToRgb c).x < -(3 / 10) ∧
      8 / 10 < (xyzToRgb c).z) ∧
    (∃ n k c, constants .copper = some (n, k) ∧ reflectance3 n k 1 = some c ∧ (xyzToRgb c).x < (xyzToRgb c).z / 2) := by
  constructor
  · obtain ⟨n, k, w, c, e, -, f, -, g⟩ := colours .gold
    refine ⟨n, k, c, e, f, ?_⟩
    rw [g]
    have : (qReduced (table[number .gold]'(number_lt _))).x < -(3 / 10) ∧
      8 / 10 < (qReduced (table[number .gold]'(number_lt _))).z := by decide +kernel
    simp only [up]
    constructor
    · have := (Rat.cast_lt (K := ℝ)).2 this.1
      push_cast at this; exact this
    · have := (Rat.cast_lt (K := ℝ)).2 this.2
      push_cast at this; exact this
  · obtain ⟨n, k, w, c, e, -, f, -, g⟩ := colours .copper
    refine ⟨n, k, c, e, f, ?_⟩
    rw [g]
    have : (qReduced (table[number .copper]'(number_lt _))).x < (qReduced (table[number .copper]'(number_lt _))).z / 2 := by
      decide +kernel
    simp only [up]
    have := (Rat.cast_lt (K := ℝ)).2 this
    push_cast at this; exact this

example : ∃ n k, constants .gold = some (n, k) ∧ ∀ i, ∃ r, reflectance n k (1 / 2) i = some r ∧ 0 ≤ r ∧ r ≤ 1 := by
  obtain ⟨n, k, e, f, -⟩ := C155_fraction .gold (1 / 2) (by norm_num)
  exact ⟨n, k, e, fun i => by obtain ⟨r, a, b, c, -⟩ := f i; exact ⟨r, a, b, c⟩⟩

end Spectre.Metals
