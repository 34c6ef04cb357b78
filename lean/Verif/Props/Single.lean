import Verif.Model.Single
import Verif.Props.Bsdf
import Verif.Props.Frame
import Verif.Props.Sampling
import Mathlib.Analysis.SpecialFunctions.Complex.Arg

/-
Property C148 (one reflecting layer, one of two materials).
-/

namespace Spectre.Single

open Spectre.Geom Spectre.Bsdf

/-! ### Specification -/

/-- Both directions are on the same side of a plane with the given normal. -/
def SameSide (normal wo wi : V3 ℝ) : Prop :=
  (0 < dot wo normal ∧ 0 < dot wi normal) ∨ (dot wo normal < 0 ∧ dot wi normal < 0)

/-- What is expected of a sampled direction: it stays on the side of the surface from which the light comes,
and value and density are those that the material has for this pair of directions. -/
def Agrees (f : Bsdf.Frame ℝ (V3 ℝ) (V3 ℝ)) (normal : V3 ℝ) (l : Layer ℝ (V3 ℝ)) (r1 r2 : ℝ) (wo : V3 ℝ)
    (ms : Bool) : Prop :=
  ∃ v wi p, singleSample f l r1 r2 wo ms = .result v wi p false ∧ SameSide normal wo wi ∧
    v = singleValue f l wo wi ms ∧ p = singlePdf f l wo wi ms

/-! ### Lemmas -/

theorem normalize_unit {v : V3 ℝ} (h : dot v v = 1) : normalize v = v := by
  rw [normalize, Frame.unit_unit h]; rfl

theorem world_spec (m : Frame.Space) (hm : Frame.Orthonormal m) (nh v : V3 ℝ) (hv : dot v v = 1) :
    (hitFrame m nh).toWorld v = Frame.combine m v ∧
    (hitFrame m nh).toShading (Frame.combine m v) = v := by
  have h1 : Frame.toWorld m v = some (Frame.combine m v) := by
    rw [Frame.toWorld_eq, Frame.unit_unit]; rw [Frame.dot_combine m hm, hv]
  obtain ⟨w, e1, -, -, e2⟩ := (Frame.C98_round_trip m hm).1 v hv
  rw [h1] at e1
  cases e1
  constructor
  · show (Frame.toWorld m v).getD _ = _
    rw [h1]; rfl
  · show (Frame.toShading m _).getD _ = _
    rw [e2]; rfl

theorem shading_z (m : Frame.Space) (hm : Frame.Orthonormal m) (nh w : V3 ℝ) (hw : dot w w = 1) :
    ((hitFrame m nh).toShading w).z = dot w m.n := by
  obtain ⟨v, e1, -, e2, -⟩ := (Frame.C98_round_trip m hm).2.1 w hw
  show ((Frame.toShading m w).getD _).z = _
  rw [e1, ← e2]; rfl

theorem lambert_specular : (lambertian).isSpecular = false := by
  simp [lambertian, Bdf.isSpecular, flagBRDF, flagSPEC]

theorem lambert_matches (ms : Bool) :
    (lambertian).matches ((if ms then flagSPEC else 0) ||| flagBRDF) = true := by
  cases ms <;> simp [lambertian, Bdf.matches, flagBRDF, flagSPEC]

/-- The sample of a diffuse layer. -/
theorem sample_eq (m : Frame.Space) (hm : Frame.Orthonormal m) (nh : V3 ℝ) (t r1 r2 : ℝ) (wo : V3 ℝ) (ms : Bool)
    (h0 : 0 ≤ r2) (h1 : r2 ≤ 1) :
    let s := Specular.cosineSample ((hitFrame m nh).toShading wo) r1 r2
    singleSample (hitFrame m nh) ⟨lambertian, t⟩ r1 r2 wo ms
      = .result (1 / Real.pi * t) (Frame.combine m s.1) s.2 false ∧
    (hitFrame m nh).toShading (Frame.combine m s.1) = s.1 := by
  intro s
  have hs : dot s.1 s.1 = 1 := (Specular.C86_direction _ r1 r2 h0 h1).1
  obtain ⟨a, b⟩ := world_spec m hm nh s.1 hs
  refine ⟨?_, b⟩
  unfold singleSample
  rw [if_neg (by rw [lambert_specular]; simp)]
  show Sampled.result (1 / Real.pi * t) ((hitFrame m nh).toWorld (normalize s.1)) s.2 lambertian.isSpecular = _
  rw [normalize_unit hs, a, lambert_specular]

theorem combine_dot (m : Frame.Space) (v h : V3 ℝ) :
    dot (Frame.combine m v) h = v.x * dot h m.s + v.y * dot h m.t + v.z * dot h m.n := by
  simp only [Frame.combine, Frame.add, Frame.scale, dot]; ring

theorem angle_exists (x y : ℝ) (h : x ^ 2 + y ^ 2 = 1) :
    ∃ r, 0 ≤ r ∧ r < 1 ∧ Real.cos (2 * Real.pi * r) = x ∧ Real.sin (2 * Real.pi * r) = y := by
  have hp := Real.pi_pos
  have hn : ‖(⟨x, y⟩ : ℂ)‖ = 1 := by
    rw [Complex.norm_def, Complex.normSq_mk, show x * x + y * y = 1 by nlinarith, Real.sqrt_one]
  have hz : (⟨x, y⟩ : ℂ) ≠ 0 := by
    intro e; rw [e] at hn; simp at hn
  have hc := Complex.cos_arg hz
  have hs := Complex.sin_arg (⟨x, y⟩ : ℂ)
  rw [hn, div_one] at hc hs
  have b := Complex.arg_mem_Ioc (⟨x, y⟩ : ℂ)
  set a := Complex.arg ⟨x, y⟩ with ha
  by_cases h0 : 0 ≤ a
  · refine ⟨a / (2 * Real.pi), by positivity, ?_, ?_, ?_⟩
    · rw [div_lt_one (by positivity)]; linarith [b.2]
    · rw [mul_div_cancel₀ _ (by positivity)]; exact hc
    · rw [mul_div_cancel₀ _ (by positivity)]; exact hs
  · have e : 2 * Real.pi * (a / (2 * Real.pi) + 1) = a + 2 * Real.pi := by
      field_simp
    refine ⟨a / (2 * Real.pi) + 1, ?_, ?_, ?_, ?_⟩
    · have : -(1 : ℝ) ≤ a / (2 * Real.pi) := by
        rw [le_div_iff₀ (by positivity)]; linarith [b.1]
      linarith
    · have : a / (2 * Real.pi) < 0 := div_neg_of_neg_of_pos (by linarith) (by positivity)
      linarith
    · rw [e, Real.cos_add_two_pi]; exact hc
    · rw [e, Real.sin_add_two_pi]; exact hs

/-! ### C148 -/

/-- **C148**, the part that holds: without a bump map (the normal of the matrix is the normal of the hit),
sample, value and density of a diffuse material agree and the sample stays on its side, for every direction
that is not grazing and all random numbers but `r2 = 1`.  The weight of each sample is the texture. -/
theorem C148_agrees_partial (m : Frame.Space) (hm : Frame.Orthonormal m) (t r1 r2 : ℝ) (wo : V3 ℝ) (ms : Bool)
    (hw : dot wo wo = 1) (hg : dot wo m.n ≠ 0) (h0 : 0 ≤ r2) (h1 : r2 < 1) :
    Agrees (hitFrame m m.n) m.n ⟨lambertian, t⟩ r1 r2 wo ms ∧
    ∀ v wi p, singleSample (hitFrame m m.n) ⟨lambertian, t⟩ r1 r2 wo ms = .result v wi p false →
      0 < p ∧ v * |dot wi m.n| / p = t := by
  obtain ⟨e, hsh⟩ := sample_eq m hm m.n t r1 r2 wo ms h0 h1.le
  have hz := shading_z m hm m.n wo hw
  set woS := (hitFrame m m.n).toShading wo with hwo
  set s := Specular.cosineSample woS r1 r2 with hs
  obtain ⟨d1, d2, d3, -, -⟩ := Specular.C86_direction woS r1 r2 h0 h1.le
  rw [← hs] at d1 d2 d3
  have hpos : 0 < |s.1.z| := by rw [d3]; exact Real.sqrt_pos.2 (by linarith)
  have hwz : dot (Frame.combine m s.1) m.n = s.1.z := congrArg V3.z (Frame.coords_combine m hm s.1)
  have hside : 0 < dot wo m.n * s.1.z := by
    rw [← hz]
    rcases lt_or_eq_of_le d2 with h | h
    · exact h
    · exfalso
      rcases mul_eq_zero.1 h.symm with g | g
      · exact hg (hz.symm.trans g)
      · rw [g, abs_zero] at hpos; exact lt_irrefl _ hpos
  have hpd : s.2 = |s.1.z| * (1 / Real.pi) := rfl
  refine ⟨⟨_, _, _, e, ?_, ?_, ?_⟩, ?_⟩
  · unfold SameSide
    rw [hwz]
    rcases pos_and_pos_or_neg_and_neg_of_mul_pos hside with ⟨a, b⟩ | ⟨a, b⟩
    · exact Or.inl ⟨a, b⟩
    · exact Or.inr ⟨a, b⟩
  · unfold singleValue
    rw [if_pos (by show 0 < dot _ m.n * dot wo m.n; rw [hwz, mul_comm]; exact hside)]
    simp only
    rw [if_pos (lambert_matches ms)]
    rfl
  · unfold singlePdf
    rw [if_neg (by rw [lambert_specular]; simp)]
    show _ = Specular.cosinePdf woS ((hitFrame m m.n).toShading (Frame.combine m s.1))
    rw [hsh]
    exact (Specular.C86_pdf_agrees_partial woS r1 r2 h0 h1.le (by rw [hz]; exact hg)).symm
  · intro v wi p h
    rw [e] at h
    simp only [Sampled.result.injEq, and_true] at h
    obtain ⟨rfl, rfl, rfl⟩ := h
    have hp := Real.pi_pos
    rw [hwz, hpd]
    constructor
    · positivity
    · field_simp

/-- **C148 is violated with a bump map**, for every one that changes the normal: seen along the bumped normal
there are samples with a positive density and the light of the texture that pass to the other side of the
surface, where `value` is black. -/
theorem C148_violated_bump (m : Frame.Space) (hm : Frame.Orthonormal m) (nh : V3 ℝ) (hn : dot nh nh = 1)
    (hf : 0 < dot nh m.n) (hb : nh ≠ m.n) (t : ℝ) (ht : 0 < t) (ms : Bool) :
    ∃ r1 r2 v wi p, 0 ≤ r1 ∧ r1 < 1 ∧ 0 ≤ r2 ∧ r2 < 1 ∧
      singleSample (hitFrame m nh) ⟨lambertian, t⟩ r1 r2 m.n ms = .result v wi p false ∧
      0 < v ∧ 0 < p ∧ 0 < dot m.n nh ∧ dot wi nh < 0 ∧
      singleValue (hitFrame m nh) ⟨lambertian, t⟩ m.n wi ms = 0 ∧
      singlePdf (hitFrame m nh) ⟨lambertian, t⟩ m.n wi ms = p := by
  have hp := Real.pi_pos
  set a := dot nh m.s with ha
  set b := dot nh m.t with hbb
  set c := dot nh m.n with hc
  have hsum : a ^ 2 + b ^ 2 + c ^ 2 = 1 := by
    have h1 := Frame.dot_combine m hm ⟨a, b, c⟩ ⟨a, b, c⟩
    have h2 : Frame.combine m ⟨a, b, c⟩ = nh := Frame.combine_coords m hm nh
    rw [h2, hn] at h1
    have h3 : dot (⟨a, b, c⟩ : V3 ℝ) ⟨a, b, c⟩ = a * a + b * b + c * c := rfl
    rw [h3] at h1
    nlinarith
  have hq : 0 < a ^ 2 + b ^ 2 := by
    rcases lt_or_eq_of_le (by positivity : 0 ≤ a ^ 2 + b ^ 2) with h | h
    · exact h
    · exfalso
      have a0 : a = 0 := by nlinarith [sq_nonneg a, sq_nonneg b]
      have b0 : b = 0 := by nlinarith [sq_nonneg a, sq_nonneg b]
      have c1 : c = 1 := by nlinarith
      apply hb
      have h2 : Frame.combine m ⟨a, b, c⟩ = nh := Frame.combine_coords m hm nh
      rw [← h2, a0, b0, c1]
      simp only [Frame.combine, Frame.add, Frame.scale]
      simp
  set q := Real.sqrt (a ^ 2 + b ^ 2) with hqd
  have q0 : 0 < q := Real.sqrt_pos.2 hq
  have q2 : q ^ 2 = a ^ 2 + b ^ 2 := Real.sq_sqrt hq.le
  obtain ⟨r1, hr0, hr1, hcos, hsin⟩ := angle_exists (-a / q) (-b / q) (by
    rw [div_pow, div_pow, ← add_div, neg_sq, neg_sq, ← q2]; exact div_self (by positivity))
  have hc1 : c < 1 := by nlinarith
  have hr20 : 0 ≤ (1 + c ^ 2) / 2 := by positivity
  have hr21 : (1 + c ^ 2) / 2 < 1 := by nlinarith
  have hmn : dot m.n m.n = 1 := hm.2.2.1
  obtain ⟨e, hsh⟩ := sample_eq m hm nh t r1 ((1 + c ^ 2) / 2) m.n ms hr20 hr21.le
  have hz := shading_z m hm nh m.n hmn
  rw [hmn] at hz
  set woS := (hitFrame m nh).toShading m.n with hwo
  set s := Specular.cosineSample woS r1 ((1 + c ^ 2) / 2) with hs
  have d3 := (Specular.C86_direction woS r1 ((1 + c ^ 2) / 2) hr20 hr21.le).2.2.1
  have d4 := Specular.cosine_z woS r1 ((1 + c ^ 2) / 2) hr20
  rw [← hs] at d3 d4
  rw [hz, if_neg (by norm_num), one_mul, max_eq_right (by linarith)] at d4
  have hx : s.1.x = Real.sqrt ((1 + c ^ 2) / 2) * (-a / q) := by rw [← hcos]; rfl
  have hy : s.1.y = Real.sqrt ((1 + c ^ 2) / 2) * (-b / q) := by rw [← hsin]; rfl
  have hcm : dot m.n nh = c := Frame.dot_comm _ _
  have hwi : dot (Frame.combine m s.1) nh < 0 := by
    rw [combine_dot, ← ha, ← hbb, ← hc, hx, hy, d4]
    have e1 : Real.sqrt ((1 + c ^ 2) / 2) * (-a / q) * a + Real.sqrt ((1 + c ^ 2) / 2) * (-b / q) * b
        = -(Real.sqrt ((1 + c ^ 2) / 2) * q) := by
      field_simp
      rw [q2]; ring
    rw [e1]
    have e2 : Real.sqrt (1 - (1 + c ^ 2) / 2) * c < Real.sqrt ((1 + c ^ 2) / 2) * q := by
      apply lt_of_pow_lt_pow_left₀ 2 (by positivity)
      rw [mul_pow, mul_pow, Real.sq_sqrt (by linarith), Real.sq_sqrt hr20, q2]
      nlinarith
    linarith
  have hzp : 0 < s.1.z := by rw [d4]; exact Real.sqrt_pos.2 (by linarith)
  have hpd : s.2 = |s.1.z| * (1 / Real.pi) := rfl
  refine ⟨r1, (1 + c ^ 2) / 2, _, _, _, hr0, hr1, hr20, hr21, e, by positivity, ?_, by rw [hcm]; exact hf, hwi, ?_, ?_⟩
  · rw [hpd, abs_of_pos hzp]; positivity
  · unfold singleValue
    rw [if_neg]
    show ¬ 0 < dot _ nh * dot m.n nh
    rw [hcm]
    nlinarith
  · unfold singlePdf
    rw [if_neg (by rw [lambert_specular]; simp)]
    show Specular.cosinePdf woS ((hitFrame m nh).toShading (Frame.combine m s.1)) = _
    rw [hsh]
    exact Specular.C86_pdf_agrees_partial woS r1 _ hr20 hr21.le (by rw [hz]; norm_num)

/-- **C148.** A layered material of reflecting layers is not affected: a diffuse sample on the other side of
the surface is black. -/
theorem C148_layered {K W S : Type} [Field K] [LinearOrder K] [IsStrictOrderedRing K] [FloorRing K]
    (f : Bsdf.Frame K W S) (hf : f.RoundTrip) (ls : List (Layer K S))
    (hr : ∀ l ∈ ls, l.bdf.type = flagBRDF ∨ l.bdf.type = flagBRDF ||| flagSPEC) (r0 r1 r2 : K) (wo : W)
    (ms : Bool) (v : K) (wi : W) (p : K) (h : sampleValue f ls r0 r1 r2 wo ms = .result v wi p false)
    (hs : f.cosN wi * f.cosN wo ≤ 0) : v = 0 ∧ p = 0 := by
  obtain ⟨i, d, -, hv, hp⟩ := sample_diffuse f hf ls r0 r1 r2 wo ms v wi p h
  have hz : ∀ g, layerSum ls (side f wo wi) g = 0 := by
    intro g
    unfold layerSum
    apply List.sum_eq_zero
    intro x hx
    rw [List.mem_map] at hx
    obtain ⟨l, hl, rfl⟩ := hx
    rw [if_neg]
    have e : side f wo wi = flagBTDF := by unfold side; rw [if_neg (not_lt.2 hs)]
    rw [e]
    rcases hr l hl with c | c <;> simp [Bdf.matches, c, flagBRDF, flagBTDF, flagSPEC]
  rw [hv, hp, hz, hz]
  simp

/-- **C148.** A specular layer takes part only if it is asked for: otherwise its sample is black and value and
density are 0; if it is asked for, the sample is marked as specular and is that of the layer. -/
theorem C148_specular {K W S : Type} [Field K] [LinearOrder K] [IsStrictOrderedRing K] [FloorRing K]
    (f : Bsdf.Frame K W S) (l : Layer K S) (hs : l.bdf.isSpecular = true) (r1 r2 : K) (wo wi : W) :
    singleSample f l r1 r2 wo false = .black ∧ singleValue f l wo wi false = 0 ∧
    singlePdf f l wo wi false = 0 ∧
    singlePdf f l wo wi true = l.bdf.pdf (f.toShading wo) (f.toShading wi) ∧
    ∃ v d p, l.bdf.sample (f.toShading wo) r1 r2 = (v, d, p) ∧
      singleSample f l r1 r2 wo true = .result (v * l.tex) (f.toWorld (f.normalize d)) p true := by
  refine ⟨?_, ?_, ?_, ?_, _, _, _, rfl, ?_⟩
  · unfold singleSample; rw [if_pos ⟨hs, rfl⟩]
  · unfold singleValue
    split
    · simp only
      rw [if_neg]
      intro hm
      simp only [Bdf.matches, beq_iff_eq, Bool.false_eq_true, if_false, Nat.zero_or] at hm
      simp only [Bdf.isSpecular, bne_iff_ne] at hs
      apply hs
      rw [← hm, Nat.and_assoc]
      simp [flagBRDF, flagSPEC]
    · rfl
  · unfold singlePdf; rw [if_pos ⟨rfl, hs⟩]
  · unfold singlePdf; rw [if_neg (by simp)]
  · unfold singleSample; rw [if_neg (by simp), hs]

/-- **C148.** The constructor keeps every reflecting layer, and replaces and deletes every other one. -/
theorem C148_construct (b : Bdf ℝ (V3 ℝ)) :
    (construct b).1.type &&& flagBRDF ≠ 0 ∧
    (b.type &&& flagBRDF ≠ 0 → construct b = (b, false)) ∧
    (b.type &&& flagBRDF = 0 → construct b = (lambertian, true)) := by
  unfold construct
  refine ⟨?_, fun h => by rw [if_pos h], fun h => by rw [if_neg (by simp [h])]⟩
  by_cases h : b.type &&& flagBRDF ≠ 0
  · rw [if_pos h]; exact h
  · rw [if_neg h]; simp [lambertian, flagBRDF]

/-- The axes. -/
def axes : Frame.Space := ⟨⟨1, 0, 0⟩, ⟨0, 1, 0⟩, ⟨0, 0, 1⟩⟩

theorem axes_orthonormal : Frame.Orthonormal axes := by
  simp [Frame.Orthonormal, axes, dot]

/-- A diffuse floor seen at an angle, without and with a bump. -/
example : Agrees (hitFrame axes ⟨0, 0, 1⟩) ⟨0, 0, 1⟩ ⟨lambertian, 1 / 2⟩ (1 / 4) (1 / 2) ⟨3 / 5, 0, 4 / 5⟩ true :=
  (C148_agrees_partial axes axes_orthonormal (1 / 2) (1 / 4) (1 / 2) ⟨3 / 5, 0, 4 / 5⟩ true
    (by norm_num [dot]) (by norm_num [dot, axes]) (by norm_num) (by norm_num)).1

example : ∃ r1 r2 v wi p, singleSample (hitFrame axes ⟨3 / 5, 0, 4 / 5⟩) ⟨lambertian, 1⟩ r1 r2 ⟨0, 0, 1⟩ true
      = .result v wi p false ∧ 0 < v ∧ 0 < p ∧ dot wi ⟨3 / 5, 0, 4 / 5⟩ < 0 := by
  obtain ⟨r1, r2, v, wi, p, -, -, -, -, h, hv, hp, -, hd, -⟩ := C148_violated_bump axes axes_orthonormal
    ⟨3 / 5, 0, 4 / 5⟩ (by norm_num [dot]) (by norm_num [dot, axes]) (by simp [axes]) 1 one_pos true
  exact ⟨r1, r2, v, wi, p, h, hv, hp, hd⟩

/-! ### C148: one of two materials -/

/-- Sample, value and density of a material agree at a hit point, in the matrix it gives. -/
def Consistent {H K W M : Type} (mat : Material H K W M) (h : H) : Prop :=
  ∀ r0 r1 r2 wo s v wi p, mat.sample h (mat.frame h) r0 r1 r2 wo s = .result v wi p false →
    v = mat.value h (mat.frame h) wo wi s ∧ p = mat.pdf h (mat.frame h) wo wi s

/-- **C148.** At each hit point a dual material is one of its two materials, in every respect: the first where
the mask is visible, else the second. -/
theorem C148_dual {H K W M : Type} (visible : H → Bool) (a b : Material H K W M) (h : H) :
    ∃ c, c = (if visible h then a else b) ∧ (dual visible a b).frame h = c.frame h ∧
      (∀ m wo wi s, (dual visible a b).value h m wo wi s = c.value h m wo wi s) ∧
      (∀ m wo wi s, (dual visible a b).pdf h m wo wi s = c.pdf h m wo wi s) ∧
      ∀ m r0 r1 r2 wo s, (dual visible a b).sample h m r0 r1 r2 wo s = c.sample h m r0 r1 r2 wo s := by
  refine ⟨_, rfl, ?_, ?_, ?_, ?_⟩ <;> intros <;> simp only [dual] <;> split <;> rfl

/-- **C148.** It is consistent where both are. -/
theorem C148_dual_consistent {H K W M : Type} (visible : H → Bool) (a b : Material H K W M) (h : H)
    (ha : Consistent a h) (hb : Consistent b h) : Consistent (dual visible a b) h := by
  intro r0 r1 r2 wo s v wi p hr
  simp only [dual] at hr ⊢
  by_cases hv : visible h = true
  · simp only [hv, if_true] at hr ⊢
    exact ha r0 r1 r2 wo s v wi p hr
  · simp only [hv] at hr ⊢
    exact hb r0 r1 r2 wo s v wi p hr

end Spectre.Single
