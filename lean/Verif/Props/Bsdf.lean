import Verif.Model.Bsdf
import Mathlib.Algebra.Order.Floor.Ring
import Mathlib.Data.Rat.Floor
import Mathlib.Algebra.BigOperators.Group.List.Basic
import Mathlib.Algebra.BigOperators.Ring.List
import Mathlib.Tactic.Linarith
import Mathlib.Tactic.NormNum
import Mathlib.Tactic.Ring

/-
Properties C32 (layered material: sampling and evaluation agree), C33 (no access outside of the layers),
C66 (the density reported by sampling is the density of the material).
-/

namespace Spectre.Bsdf

variable {K W S : Type} [Field K] [LinearOrder K] [IsStrictOrderedRing K] [FloorRing K]

/-! ### Specification -/

/-- Sum over the layers with the given flags. -/
def layerSum (ls : List (Layer K S)) (flags : Nat) (g : Layer K S → K) : K :=
  (ls.map fun l => if l.bdf.matches flags then g l else 0).sum

/-- Change of space and back is the identity for normalised directions. -/
def Frame.RoundTrip (f : Frame K W S) : Prop := ∀ s, f.toShading (f.toWorld (f.normalize s)) = f.normalize s

/-- The flags used by the materials of the program (lambertian.cpp:16, oren_nayar.cpp, reflection.cpp:31,
refraction.cpp:7, microfacet.cpp): reflection or transmission, specular or not. -/
def Bdf.WellTyped (b : Bdf K S) : Prop := b.type = 1 ∨ b.type = 2 ∨ b.type = 5 ∨ b.type = 6

/-- The statement of C32. -/
def SampleMatchesValue (f : Frame K W S) (ls : List (Layer K S)) (r0 r1 r2 : K) (wo : W) (matchSpec : Bool) :
    Prop :=
  ∀ v wi p, sampleValue f ls r0 r1 r2 wo matchSpec = .result v wi p false → v = value f ls wo wi false

/-! ### Lemmas -/

theorem fold_if (ls : List (Layer K S)) (flags : Nat) (g : Layer K S → K) (a : K) :
    ls.foldl (fun acc l => if l.bdf.matches flags then acc + g l else acc) a = a + layerSum ls flags g := by
  induction ls generalizing a with
  | nil => simp [layerSum]
  | cons l ls ih =>
    simp only [List.foldl_cons, ih, layerSum, List.map_cons, List.sum_cons]
    by_cases h : l.bdf.matches flags = true
    · simp only [h, if_true]; ring
    · simp only [h]; simp

theorem fold_count (ls : List (Layer K S)) (flags : Nat) (a : Nat) :
    ls.foldl (fun acc l => if l.bdf.matches flags then acc + 1 else acc) a =
      a + (ls.filter fun l => l.bdf.matches flags).length := by
  induction ls generalizing a with
  | nil => simp
  | cons l ls ih =>
    simp only [List.foldl_cons, ih]
    by_cases h : l.bdf.matches flags = true
    · simp [h]; omega
    · simp [h]

theorem evalAll_eq (ls : List (Layer K S)) (flags : Nat) (woS wiS : S) (t : K) :
    evalAll ls flags woS wiS t =
      (layerSum ls flags fun l => l.bdf.value woS wiS * t, layerSum ls flags fun l => l.bdf.pdf woS wiS) := by
  have aux : ∀ a : K × K, ls.foldl (fun acc l => if l.bdf.matches flags then
      (acc.1 + l.bdf.value woS wiS * t, acc.2 + l.bdf.pdf woS wiS) else acc) a =
      (a.1 + layerSum ls flags (fun l => l.bdf.value woS wiS * t),
        a.2 + layerSum ls flags fun l => l.bdf.pdf woS wiS) := by
    induction ls with
    | nil => intro a; simp [layerSum]
    | cons l ls ih =>
      intro a
      simp only [List.foldl_cons, ih, layerSum, List.map_cons, List.sum_cons]
      by_cases h : l.bdf.matches flags = true
      · simp only [h, if_true]; ext <;> simp only <;> ring
      · simp only [h]; simp
  have := aux (0, 0)
  simpa [evalAll] using this

theorem value_eq (f : Frame K W S) (ls : List (Layer K S)) (wo wi : W) (ms : Bool) :
    value f ls wo wi ms = layerSum ls ((if ms then flagSPEC else 0) ||| side f wo wi)
      fun l => l.bdf.value (f.toShading wo) (f.toShading wi) * l.tex := by
  unfold value
  simp only
  rw [fold_if]; simp

theorem layerSum_congr (ls : List (Layer K S)) (flags : Nat) (g h : Layer K S → K)
    (e : ∀ l ∈ ls, l.bdf.matches flags = true → g l = h l) : layerSum ls flags g = layerSum ls flags h := by
  unfold layerSum
  congr 1
  apply List.map_congr_left
  intro l hl
  by_cases c : l.bdf.matches flags = true
  · rw [if_pos c, if_pos c, e l hl c]
  · rw [if_neg c, if_neg c]

/-- The index used by `sample_value`: a layer of the material, whenever there is one. -/
theorem chosen_spec (n : Nat) (r0 : K) (h0 : 0 ≤ r0) (h1 : r0 ≤ 1) (hn : 0 < n) :
    let c := if ⌊r0 * (n : K)⌋ = (n : Int) then ⌊r0 * (n : K)⌋ - 1 else ⌊r0 * (n : K)⌋
    0 ≤ c ∧ c.toNat < n := by
  intro c
  have hn' : (0 : K) < n := by exact_mod_cast hn
  have hl : 0 ≤ ⌊r0 * (n : K)⌋ := Int.floor_nonneg.2 (by positivity)
  have hu : ⌊r0 * (n : K)⌋ ≤ n := by
    have : r0 * (n : K) ≤ n := by nlinarith
    have := Int.floor_le_floor this
    simpa using this
  by_cases e : ⌊r0 * (n : K)⌋ = (n : Int)
  · simp only [c, if_pos e]; omega
  · simp only [c, if_neg e]; omega

/-! ### C32 -/

/-- A hit point and layers used in the examples. -/
def exFrame : Frame ℚ Unit Unit := ⟨id, id, fun _ => 1, fun _ => false, id⟩
def exDiffuse : Bdf ℚ Unit := ⟨1, fun _ _ => 1, fun _ _ => 1, fun _ _ _ => (1, (), 1)⟩
def exTransmit : Bdf ℚ Unit := ⟨2, fun _ _ => 1, fun _ _ => 1, fun _ _ _ => (1, (), 1)⟩
def exMirror : Bdf ℚ Unit := ⟨5, fun _ _ => 0, fun _ _ => 0, fun _ _ _ => (1, (), 1)⟩

/-- **C32 is violated**: two diffuse layers with textures 1/2 and 1/4; the sampled value is 1, the value of
the material for the same directions is 3/4: the texture of the chosen layer is used for all of them. -/
theorem C32_violated :
    ¬ ∀ (f : Frame ℚ Unit Unit) (ls : List (Layer ℚ Unit)) (r0 r1 r2 : ℚ) (wo : Unit) (ms : Bool),
      f.RoundTrip → (∀ l ∈ ls, l.bdf.WellTyped) → 0 ≤ r0 → r0 ≤ 1 →
        SampleMatchesValue f ls r0 r1 r2 wo ms := by
  intro h
  have := h exFrame [⟨exDiffuse, 1 / 2⟩, ⟨exDiffuse, 1 / 4⟩] 0 0 0 () false (fun _ => rfl)
    (by intro l hl; simp at hl; rcases hl with rfl | rfl <;> exact Or.inl rfl) le_rfl zero_le_one 1 () 1
    (by decide +kernel)
  exact absurd this (by decide +kernel)

/-- **C32**, a second way to violate it: with a specular layer before a diffuse one, the texture is taken
from the specular layer, because the index counts only the layers that are not specular.  Here the diffuse
layer is black and the result is not. -/
theorem C32_violated_index :
    ∃ (f : Frame ℚ Unit Unit) (ls : List (Layer ℚ Unit)),
      f.RoundTrip ∧ (ls.filter fun l => !l.bdf.isSpecular).length = 1 ∧
      sampleValue f ls 0 0 0 () false = .result 1 () 1 false ∧ value f ls () () false = 0 := by
  refine ⟨exFrame, [⟨exMirror, 1⟩, ⟨exDiffuse, 0⟩], fun _ => rfl, ?_, ?_, ?_⟩
  · decide +kernel
  · decide +kernel
  · decide +kernel

/-- What a non-specular sample is made of: everything but the texture is right. -/
theorem sample_diffuse (f : Frame K W S) (hf : f.RoundTrip) (ls : List (Layer K S)) (r0 r1 r2 : K) (wo : W)
    (ms : Bool) (v : K) (wi : W) (p : K) (h : sampleValue f ls r0 r1 r2 wo ms = .result v wi p false) :
    ∃ (i : Nat) (d : Layer K S), ls[i]? = some d ∧
      v = layerSum ls (side f wo wi) (fun l => l.bdf.value (f.toShading wo) (f.toShading wi) * d.tex) ∧
      p = layerSum ls (side f wo wi) (fun l => l.bdf.pdf (f.toShading wo) (f.toShading wi)) /
        (if 1 < (if ms then ls else ls.filter fun l => !l.bdf.isSpecular).length then
          ((if ms then ls else ls.filter fun l => !l.bdf.isSpecular).length : K) else 1) := by
  unfold sampleValue at h
  simp only at h
  generalize (if ms then ls else ls.filter fun l => !l.bdf.isSpecular) = m at h ⊢
  split at h
  · cases h
  · generalize (if ⌊r0 * (m.length : K)⌋ = (m.length : Int) then ⌊r0 * (m.length : K)⌋ - 1
      else ⌊r0 * (m.length : K)⌋) = c at h
    split at h
    · cases h
    · split at h
      · rename_i x d e1 e2
        split at h
        · cases h
        · split at h
          · cases h
          · simp only [evalAll_eq, Sampled.result.injEq, and_true] at h
            obtain ⟨rfl, rfl, rfl⟩ := h
            refine ⟨c.toNat, d, e2, ?_, ?_⟩
            · rw [hf]
            · rw [hf]
      · cases h

/-- **C32**, the part that holds: the sampled value is the value of the material if the layers that
contribute have the same texture as the chosen one; the full property (different textures) is false. -/
theorem C32_same_texture_partial (f : Frame K W S) (hf : f.RoundTrip) (ls : List (Layer K S))
    (r0 r1 r2 : K) (wo : W) (ms : Bool) (t : K) (ht : ∀ l ∈ ls, l.tex = t) :
    SampleMatchesValue f ls r0 r1 r2 wo ms := by
  intro v wi p h
  obtain ⟨i, d, e, hv, -⟩ := sample_diffuse f hf ls r0 r1 r2 wo ms v wi p h
  rw [hv, value_eq]
  simp only [Bool.false_eq_true, if_false, Nat.zero_or]
  apply layerSum_congr
  intro l hl _
  rw [ht l hl, ht d (List.mem_of_getElem? e)]

/-- **C32**, also with the specular layers included in the evaluation, as their `value` is black
(reflection.cpp:36-39, refraction.cpp). -/
theorem C32_same_texture_spec_partial (f : Frame K W S) (hf : f.RoundTrip) (ls : List (Layer K S))
    (r0 r1 r2 : K) (wo : W) (ms : Bool) (t : K) (ht : ∀ l ∈ ls, l.tex = t) (hw : ∀ l ∈ ls, l.bdf.WellTyped)
    (hs : ∀ l ∈ ls, l.bdf.isSpecular = true → ∀ a b, l.bdf.value a b = 0) (v : K) (wi : W) (p : K)
    (h : sampleValue f ls r0 r1 r2 wo ms = .result v wi p false) : v = value f ls wo wi true := by
  rw [C32_same_texture_partial f hf ls r0 r1 r2 wo ms t ht v wi p h, value_eq, value_eq]
  unfold layerSum
  congr 1
  apply List.map_congr_left
  intro l hl
  by_cases c : l.bdf.isSpecular = true
  · simp only [hs l hl c]
    simp
  · have : l.bdf.matches (flagSPEC ||| side f wo wi) = l.bdf.matches (side f wo wi) := by
      rcases hw l hl with e | e | e | e
      · simp only [Bdf.matches, e, side]; split <;> rfl
      · simp only [Bdf.matches, e, side]; split <;> rfl
      · exact absurd (by simp [Bdf.isSpecular, e, flagSPEC]) c
      · exact absurd (by simp [Bdf.isSpecular, e, flagSPEC]) c
    simp only [if_true, this]
    simp

/-- **C32** for a single layer. -/
theorem C32_single_layer_partial (f : Frame K W S) (hf : f.RoundTrip) (l : Layer K S)
    (r0 r1 r2 : K) (wo : W) (ms : Bool) : SampleMatchesValue f [l] r0 r1 r2 wo ms :=
  C32_same_texture_partial f hf [l] r0 r1 r2 wo ms l.tex (by simp)

/-- **C32**, `SingleBRDF`: sampled and evaluated value agree for a direction on the reflected side, if the
layer samples its own value. -/
theorem C32_single_brdf (f : Frame K W S) (l : Layer K S) (r1 r2 : K) (wo : W) (ms : Bool) (v : K) (wi : W)
    (p : K) (hf : f.RoundTrip) (hw : l.bdf.WellTyped) (hB : l.bdf.matches (flagBRDF ||| flagSPEC) = true)
    (hn : ∀ s a b, f.normalize (l.bdf.sample s a b).2.1 = (l.bdf.sample s a b).2.1)
    (hv : ∀ s a b, (l.bdf.sample s a b).1 = l.bdf.value s (l.bdf.sample s a b).2.1)
    (hp : ∀ s a b, (l.bdf.sample s a b).2.2 = l.bdf.pdf s (l.bdf.sample s a b).2.1)
    (h : singleSample f l r1 r2 wo ms = .result v wi p false) (hside : 0 < f.cosN wi * f.cosN wo) :
    v = singleValue f l wo wi ms ∧ p = singlePdf f l wo wi ms := by
  unfold singleSample at h
  split at h
  · cases h
  · simp only [Sampled.result.injEq] at h
    obtain ⟨h1, h2, h3, h4⟩ := h
    have hsh : f.toShading wi = (l.bdf.sample (f.toShading wo) r1 r2).2.1 := by
      rw [← h2, hf, hn]
    have hm : ∀ ms : Bool, l.bdf.matches ((if ms then flagSPEC else 0) ||| flagBRDF) = true := by
      intro ms
      rcases hw with e | e | e | e
      · cases ms <;> simp [Bdf.matches, e, flagBRDF, flagSPEC]
      · simp [Bdf.matches, e, flagBRDF, flagSPEC] at hB
      · simp [Bdf.isSpecular, e, flagSPEC] at h4
      · simp [Bdf.isSpecular, e, flagSPEC] at h4
    constructor
    · unfold singleValue
      rw [if_pos hside]
      simp only
      rw [if_pos (hm ms), ← h1, hsh, ← hv]
    · unfold singlePdf
      rw [if_neg (by rintro ⟨-, h⟩; rw [h4] at h; cases h), ← h3, hsh, ← hp]

/-- The hypotheses hold for a real stack: two diffuse layers with the same texture. -/
example : ∃ (f : Frame ℚ Unit Unit) (ls : List (Layer ℚ Unit)), f.RoundTrip ∧ ls.length = 2 ∧
    (∀ l ∈ ls, l.tex = 1 / 2) ∧ (∀ l ∈ ls, l.bdf.WellTyped) ∧
    sampleValue f ls (1 / 2) 0 0 () true = .result 1 () 1 false ∧ value f ls () () false = 1 := by
  refine ⟨exFrame, [⟨exDiffuse, 1 / 2⟩, ⟨exDiffuse, 1 / 2⟩], fun _ => rfl, rfl, by simp, ?_, ?_, ?_⟩
  · intro l hl; simp at hl; rw [hl]; exact Or.inl rfl
  · decide +kernel
  · decide +kernel

/-! ### C33 -/

/-- Adding the layers one after the other to a new material. -/
def build (layers : List (Layer K S)) : Option (List (Layer K S)) := layers.foldlM inherit []

/-- The statement of C33 for a sequence of layers. -/
def NeverOutside (f : Frame K W S) (layers : List (Layer K S)) (r0 r1 r2 : K) (wo : W) (ms : Bool) : Prop :=
  ∃ ls, build layers = some ls ∧ sampleValue f ls r0 r1 r2 wo ms ≠ .outOfBounds

theorem build_ok (layers : List (Layer K S)) (h : layers.length ≤ maxBdf) : build layers = some layers := by
  have aux : ∀ (l acc : List (Layer K S)), acc.length + l.length ≤ maxBdf →
      l.foldlM inherit acc = some (acc ++ l) := by
    intro l
    induction l with
    | nil => intro acc _; simp
    | cons a l ih =>
      intro acc ha
      simp only [List.length_cons] at ha
      have : inherit acc a = some (acc ++ [a]) := by
        unfold inherit; rw [if_pos (by omega)]
      simp only [List.foldlM_cons, this, Option.bind_eq_bind, Option.bind_some]
      rw [ih _ (by simp; omega)]
      simp
  have := aux layers [] (by simpa using h)
  rw [List.nil_append] at this
  exact this

/-- **C33 is violated** when adding: the sixth layer is written outside of the arrays (the check is only
compiled in debug builds). -/
theorem C33_violated_add (layers : List (Layer K S)) (h : maxBdf < layers.length) : build layers = none := by
  have aux : ∀ (l acc : List (Layer K S)), acc.length ≤ maxBdf → maxBdf < acc.length + l.length →
      l.foldlM inherit acc = none := by
    intro l
    induction l with
    | nil => intro acc h1 h2; simp at h2; omega
    | cons a l ih =>
      intro acc h1 h2
      simp only [List.length_cons] at h2
      simp only [List.foldlM_cons]
      by_cases hlt : acc.length < maxBdf
      · have : inherit acc a = some (acc ++ [a]) := by unfold inherit; rw [if_pos hlt]
        simp only [this, Option.bind_eq_bind, Option.bind_some]
        exact ih _ (by simp; omega) (by simp; omega)
      · have : inherit acc a = none := by unfold inherit; rw [if_neg hlt]
        simp [this]
  exact aux layers [] (by simp) (by simpa using h)

/-- **C33 is violated** when sampling a material without layers with `matchSpec`: element -1 is read. -/
theorem C33_violated_empty (f : Frame K W S) (r0 r1 r2 : K) (wo : W) :
    ¬ NeverOutside f [] r0 r1 r2 wo true := by
  rintro ⟨ls, h1, h2⟩
  simp [build] at h1
  subst h1
  apply h2
  simp [sampleValue]

/-- **C33**, the part that holds: from one to five layers, all random numbers in `[0, 1]`. -/
theorem C33_partial (f : Frame K W S) (layers : List (Layer K S)) (h1 : 1 ≤ layers.length)
    (h5 : layers.length ≤ maxBdf) (r0 r1 r2 : K) (hr0 : 0 ≤ r0) (hr1 : r0 ≤ 1) (wo : W) (ms : Bool) :
    NeverOutside f layers r0 r1 r2 wo ms := by
  refine ⟨layers, build_ok layers h5, ?_⟩
  unfold sampleValue
  simp only
  generalize hm : (if ms then layers else layers.filter fun l => !l.bdf.isSpecular) = m
  have hle : m.length ≤ layers.length := by
    rw [← hm]; split
    · exact le_rfl
    · exact List.length_filter_le _ _
  by_cases hb : ms = false ∧ m.length = 0
  · rw [if_pos hb]; intro h; cases h
  · rw [if_neg hb]
    have hpos : 0 < m.length := by
      cases ms with
      | false =>
        by_contra h0
        exact hb ⟨rfl, by omega⟩
      | true => simp at hm; rw [← hm]; exact h1
    have hc := chosen_spec m.length r0 hr0 hr1 hpos
    simp only at hc
    generalize (if ⌊r0 * (m.length : K)⌋ = (m.length : Int) then ⌊r0 * (m.length : K)⌋ - 1
      else ⌊r0 * (m.length : K)⌋) = c at hc
    rw [if_neg (by omega), List.getElem?_eq_getElem hc.2, List.getElem?_eq_getElem (by omega)]
    simp only
    split
    · intro h; cases h
    · split <;> (intro h; cases h)

/-- **C33**, sampling without specular layers is safe also for an empty material. -/
theorem C33_empty_nospec_partial (f : Frame K W S) (r0 r1 r2 : K) (wo : W) :
    NeverOutside f [] r0 r1 r2 wo false := by
  refine ⟨[], by simp [build], ?_⟩
  simp [sampleValue]

/-! ### C66 -/

theorem matches_nonspec (b : Bdf K S) (hw : b.WellTyped) :
    b.matches (flagBRDF ||| flagBTDF) = !b.isSpecular := by
  rcases hw with e | e | e | e <;> simp [Bdf.matches, Bdf.isSpecular, e, flagBRDF, flagBTDF, flagSPEC]

theorem matches_all (b : Bdf K S) (hw : b.WellTyped) :
    b.matches (flagBRDF ||| flagBTDF ||| flagSPEC) = true := by
  rcases hw with e | e | e | e <;> simp [Bdf.matches, e, flagBRDF, flagBTDF, flagSPEC]

/-- **C66.** The density returned with a non-specular sample is the density that `pdf` gives for the same
directions, for all layer stacks in which specular layers and layers of the other side have density zero for
these directions. -/
theorem C66_pdf (f : Frame K W S) (hf : f.RoundTrip) (ls : List (Layer K S)) (hw : ∀ l ∈ ls, l.bdf.WellTyped)
    (r0 r1 r2 : K) (wo : W) (ms : Bool) (v : K) (wi : W) (p : K)
    (hz : ∀ l ∈ ls, l.bdf.matches (side f wo wi) = false →
      l.bdf.pdf (f.toShading wo) (f.toShading wi) = 0)
    (h : sampleValue f ls r0 r1 r2 wo ms = .result v wi p false) : p = pdf f ls wo wi ms := by
  obtain ⟨i, d, e, -, hp⟩ := sample_diffuse f hf ls r0 r1 r2 wo ms v wi p h
  have hne : ls.length ≠ 0 := by
    intro h0
    have := List.length_eq_zero_iff.1 h0
    subst this
    simp at e
  have hside : side f wo wi = 1 ∨ side f wo wi = 2 := by
    unfold side; split
    · exact Or.inl rfl
    · exact Or.inr rfl
  have hall : layerSum ls (side f wo wi) (fun l => l.bdf.pdf (f.toShading wo) (f.toShading wi)) =
      (ls.map fun l => l.bdf.pdf (f.toShading wo) (f.toShading wi)).sum := by
    unfold layerSum
    congr 1
    apply List.map_congr_left
    intro l hl
    by_cases c : l.bdf.matches (side f wo wi) = true
    · rw [if_pos c]
    · rw [if_neg c, hz l hl (by simpa using c)]
  have hsum : ∀ flags, (∀ l ∈ ls, l.bdf.matches flags = false → l.bdf.matches (side f wo wi) = false) →
      layerSum ls flags (fun l => l.bdf.pdf (f.toShading wo) (f.toShading wi)) =
      (ls.map fun l => l.bdf.pdf (f.toShading wo) (f.toShading wi)).sum := by
    intro flags hfl
    unfold layerSum
    congr 1
    apply List.map_congr_left
    intro l hl
    by_cases c : l.bdf.matches flags = true
    · rw [if_pos c]
    · rw [if_neg c, hz l hl (hfl l hl (by simpa using c))]
  rw [hp, hall]
  unfold pdf
  simp only [if_neg hne, fold_if, fold_count, zero_add]
  cases ms with
  | true =>
    simp only [if_true]
    rw [hsum _ (by intro l hl h; rw [matches_all l.bdf (hw l hl)] at h; cases h)]
    rw [List.filter_eq_self.2 (by intro l hl; exact matches_all l.bdf (hw l hl))]
    by_cases c : 1 < ls.length
    · rw [if_pos c, if_pos c]
    · rw [if_neg c, if_neg c, div_one]
  | false =>
    simp only [Bool.false_eq_true, if_false]
    rw [hsum _ (by
      intro l hl h
      rw [matches_nonspec l.bdf (hw l hl)] at h
      have hs : l.bdf.isSpecular = true := by simpa using h
      rcases hw l hl with e | e | e | e
      · simp [Bdf.isSpecular, e, flagSPEC] at hs
      · simp [Bdf.isSpecular, e, flagSPEC] at hs
      · rcases hside with s | s <;> simp [Bdf.matches, e, s]
      · rcases hside with s | s <;> simp [Bdf.matches, e, s])]
    rw [List.filter_congr (q := fun l => !l.bdf.isSpecular) (fun l hl => matches_nonspec l.bdf (hw l hl))]
    generalize (ls.filter fun l => !l.bdf.isSpecular).length = n
    by_cases c : 1 < n
    · rw [if_pos c, if_pos c]
    · rw [if_neg c, if_neg c, div_one]

/-- **C66**, the hypothesis is needed: a transmitting layer next to a reflecting one makes `pdf` larger if
its density does not vanish on the reflecting side. -/
example : ∃ (f : Frame ℚ Unit Unit) (ls : List (Layer ℚ Unit)), f.RoundTrip ∧ (∀ l ∈ ls, l.bdf.WellTyped) ∧
    sampleValue f ls 0 0 0 () false = .result 1 () (1 / 2) false ∧ pdf f ls () () false = 1 := by
  refine ⟨exFrame, [⟨exDiffuse, 1⟩, ⟨exTransmit, 1⟩], fun _ => rfl, ?_, ?_, ?_⟩
  · intro l hl; simp at hl
    rcases hl with rfl | rfl
    · exact Or.inl rfl
    · exact Or.inr (Or.inl rfl)
  · decide +kernel
  · decide +kernel

/-- And the hypotheses hold for a stack of a diffuse and a specular layer. -/
example : ∃ (f : Frame ℚ Unit Unit) (ls : List (Layer ℚ Unit)), f.RoundTrip ∧ (∀ l ∈ ls, l.bdf.WellTyped) ∧
    (∀ l ∈ ls, l.bdf.matches (side f () ()) = false → l.bdf.pdf () () = 0) ∧
    sampleValue f ls 0 0 0 () true = .result 1 () (1 / 2) false ∧ pdf f ls () () true = 1 / 2 := by
  refine ⟨exFrame, [⟨exDiffuse, 1⟩, ⟨exMirror, 1⟩], fun _ => rfl, ?_, ?_, ?_, ?_⟩
  · intro l hl; simp at hl
    rcases hl with rfl | rfl
    · exact Or.inl rfl
    · exact Or.inr (Or.inr (Or.inl rfl))
  · intro l hl; simp at hl
    rcases hl with rfl | rfl <;> decide +kernel
  · decide +kernel
  · decide +kernel

end Spectre.Bsdf
