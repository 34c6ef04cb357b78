import Verif.Props.SceneMaterials
import Verif.Model.SceneMesh
import Verif.Model.Light
import Mathlib.Analysis.SpecialFunctions.Complex.Circle
import Mathlib.Analysis.Real.Pi.Irrational

/-!
# Objects and lights of a scene (C127)

`src/parsers/README.md:143-166`.
-/

namespace Spectre.Scene

open Spectre.Path (IsName IsDir render objPath mkObj)

/-! ## Specification -/

/-- The mesh of this name: the sphere, or the first one read with this name. -/
def IsShape (shapes : List Shape) (name : Str) (s : Shape) : Prop :=
  if name = sphereName then s = sphere
  else ∃ pre post, shapes = pre ++ s :: post ∧ s.name = name ∧ ∀ t ∈ pre, t.name ≠ name

/-- The object of the scene that a statement describes. -/
structure IsPlaced (shapes : List Shape) (l : Lib) (m : Mesh) (p : Placed) : Prop where
  shape : p.shape = m.name
  position : p.position = m.position
  rotation : p.rotation = m.rotation
  scale : p.scale = m.scale
  /-- Its own materials, if the statement has none. -/
  own : m.isLight = false → m.material = [] → ∃ s, IsShape shapes m.name s ∧ p.materials = s.materials ∧ p.index = s.association
  /-- Otherwise every face has the material of this name, or the default one. -/
  named : m.isLight = false → m.material ≠ [] →
    ∃ s, IsShape shapes m.name s ∧ p.index.length = s.faces ∧ ∀ i ∈ p.index, p.materials[i]? = some ((l.get m.material).getD dfltMaterial)
  light : p.light.isSome = m.isLight
  /-- The temperature counts, if there is one; otherwise the colour. -/
  temperature : m.isLight = true → 0 ≤ m.temperature → p.light = some (.blackbody m.temperature)
  colour : m.isLight = true → m.temperature < 0 → p.light = some (.colour (uniformColor m.color))
  mask : Chosen l.tex m.mask.tex p.mask
  channel : p.chn = m.mask.chn
  inverted : p.inv = m.mask.inv

/-- The statements without the lights after the first `n`. -/
def limited : Nat → List Mesh → List Mesh
  | _, [] => []
  | n, m :: ms =>
    if m.isLight then
      match n with
      | 0 => limited 0 ms
      | n + 1 => m :: limited n ms
    else m :: limited n ms

/-- The statement names a mesh. -/
def known (shapes : List Shape) (m : Mesh) : Bool := m.name = sphereName || shapes.any fun s => s.name = m.name

/-! ## Proofs -/

theorem findShape_none (shapes : List Shape) (m : Mesh) (h : findShape shapes m.name = none) : known shapes m = false := by
  unfold findShape at h
  unfold known
  by_cases hs : m.name = sphereName
  · simp [hs] at h
  · simp only [ne_eq, hs, not_false_iff, if_true, List.find?_eq_none, decide_eq_true_eq] at h
    simp only [hs, decide_false, Bool.false_or, List.any_eq_false, decide_eq_true_eq]
    exact h

theorem findShape_some (shapes : List Shape) (m : Mesh) (s : Shape) (h : findShape shapes m.name = some s) :
    known shapes m = true ∧ IsShape shapes m.name s := by
  unfold findShape at h
  unfold known IsShape
  by_cases hs : m.name = sphereName
  · simp only [ne_eq, hs, not_true, if_false, Option.some.injEq] at h
    simp [hs, h]
  · simp only [ne_eq, hs, not_false_iff, if_true] at h
    rw [if_neg hs]
    obtain ⟨h1, pre, post, h2, h3⟩ := List.find?_eq_some_iff_append.1 h
    simp only [decide_eq_true_eq, Bool.not_eq_true', decide_eq_false_iff_not] at h1 h3
    refine ⟨?_, pre, post, h2, h1, h3⟩
    simp only [hs, decide_false, Bool.false_or, List.any_eq_true, decide_eq_true_eq]
    exact ⟨s, by rw [h2]; simp, h1⟩

theorem buildMesh_spec (fs : Files) (st : List (List Char)) (hst : IsDir st) (filter : TexFilter) (shapes : List Shape)
    (m : Mesh) (l l' : Lib) (p : Option Placed) (h : buildMesh fs (render st) filter shapes m l = some (l', p)) :
    l'.mats = l.mats ∧ l.tex.Sub l'.tex ∧ (known shapes m = false → p = none) ∧
      (known shapes m = true → ∃ q, p = some q ∧ IsPlaced shapes l m q) := by
  unfold buildMesh at h
  cases hf : findShape shapes m.name with
  | none =>
    rw [hf] at h
    cases h
    exact ⟨rfl, fun _ _ h => h, fun _ => rfl, fun e => by rw [findShape_none shapes m hf] at e; cases e⟩
  | some s =>
    rw [hf] at h
    obtain ⟨hk, hs⟩ := findShape_some shapes m s hf
    simp only at h
    cases ho : optional fs (render st) filter m.mask.tex l.tex with
    | none => rw [ho] at h; cases h
    | some r =>
      obtain ⟨t, k⟩ := r
      rw [ho] at h
      obtain ⟨h1, h2⟩ := optional_spec fs st hst filter _ _ _ _ ho
      cases h
      refine ⟨rfl, h1, fun e => (by rw [hk] at e; cases e), fun _ => ⟨_, rfl, ?_⟩⟩
      exact {
        shape := rfl, position := rfl, rotation := rfl, scale := rfl, mask := h2, channel := rfl, inverted := rfl
        own := fun e1 e2 => ⟨s, hs, by simp [e1, e2], by simp [e1, e2]⟩
        named := fun e1 e2 => ⟨s, hs, by simp [e1, e2], by
          intro i hi
          simp only [e1, e2, Bool.false_eq_true, if_false, List.mem_replicate] at hi ⊢
          rw [hi.2]; rfl⟩
        light := by cases hl : m.isLight <;> simp
        temperature := fun e1 e2 => by simp [e1, e2]
        colour := fun e1 e2 => by simp [e1, not_le.2 e2] }

theorem isPlaced_mono {shapes : List Shape} {l l' : Lib} (hm : l'.mats = l.mats) (hs : l.tex.Sub l'.tex) {m : Mesh}
    {p : Placed} (h : IsPlaced shapes l' m p) : IsPlaced shapes l m p :=
  { h with
    named := fun e1 e2 => by
      obtain ⟨s, h1, h2, h3⟩ := h.named e1 e2
      refine ⟨s, h1, h2, fun i hi => ?_⟩
      rw [h3 i hi]
      unfold Lib.get
      rw [hm]
    mask := chosen_mono hs h.mask }

theorem limited_cons_object (n : Nat) (m : Mesh) (ms : List Mesh) (h : m.isLight = false) :
    limited n (m :: ms) = m :: limited n ms := by
  cases n <;> simp [limited, h]

theorem limited_cons_light (n : Nat) (m : Mesh) (ms : List Mesh) (h : m.isLight = true) :
    limited (n + 1) (m :: ms) = m :: limited n ms := by
  rw [limited, if_pos h]

theorem buildAll_spec (fs : Files) (st : List (List Char)) (hst : IsDir st) (filter : TexFilter) (shapes : List Shape)
    (ms : List Mesh) : ∀ (l l' : Lib) (w w' : World), w.lights.length ≤ maxLights →
      w.lights = w.assets.filter (fun p => p.light.isSome) →
      buildAll fs (render st) filter shapes ms l w = some (l', w') →
      (∃ ps, w'.assets = w.assets ++ ps ∧
        List.Forall₂ (IsPlaced shapes l) (limited (maxLights - w.lights.length) (ms.filter (known shapes))) ps) ∧
      w'.lights = w'.assets.filter (fun p => p.light.isSome) := by
  induction ms with
  | nil =>
    intro l l' w w' _ hw h
    cases h
    exact ⟨⟨[], by simp, by simp [limited]⟩, hw⟩
  | cons m ms ih =>
    intro l l' w w' hle hw h
    rw [buildAll] at h
    cases h1 : buildMesh fs (render st) filter shapes m l with
    | none => rw [h1] at h; cases h
    | some r =>
      obtain ⟨l1, p⟩ := r
      rw [h1] at h
      obtain ⟨a1, a2, a3, a4⟩ := buildMesh_spec fs st hst filter shapes m l l1 p h1
      have mono : ∀ {a : List Mesh} {b : List Placed}, List.Forall₂ (IsPlaced shapes l1) a b → List.Forall₂ (IsPlaced shapes l) a b :=
        fun h => h.imp fun _ _ h => isPlaced_mono a1 a2 h
      cases hk : known shapes m with
      | false =>
        have := a3 hk
        subst this
        obtain ⟨⟨ps, b1, b2⟩, b3⟩ := ih l1 l' w w' hle hw h
        rw [List.filter_cons_of_neg (by rw [hk]; simp)]
        exact ⟨⟨ps, b1, mono b2⟩, b3⟩
      | true =>
        obtain ⟨q, rfl, hq⟩ := a4 hk
        rw [List.filter_cons_of_pos hk]
        simp only at h
        cases hl : m.isLight with
        | false =>
          have hq' : q.light = none := by have := hq.light; rw [hl] at this; simpa using this
          have hadd : w.add q = { w with assets := w.assets ++ [q] } := by unfold World.add; rw [hq']
          rw [hadd] at h
          obtain ⟨⟨ps, b1, b2⟩, b3⟩ := ih l1 l' _ w' (by exact hle) (by simp [hw, hq']) h
          refine ⟨⟨q :: ps, by rw [b1]; simp, ?_⟩, b3⟩
          rw [limited_cons_object _ _ _ hl]
          exact List.Forall₂.cons hq (mono b2)
        | true =>
          obtain ⟨e, hq'⟩ : ∃ e, q.light = some e := by
            have := hq.light; rw [hl, Option.isSome_iff_exists] at this; exact this
          by_cases hlt : w.lights.length < maxLights
          · have hadd : w.add q = ⟨w.assets ++ [q], w.lights ++ [q]⟩ := by
              unfold World.add; rw [hq']; simp only; rw [if_pos hlt]
            rw [hadd] at h
            obtain ⟨⟨ps, b1, b2⟩, b3⟩ := ih l1 l' _ w' (by simp; omega) (by simp [hw, hq']) h
            refine ⟨⟨q :: ps, by rw [b1]; simp, ?_⟩, b3⟩
            rw [show maxLights - w.lights.length = (maxLights - (w.lights.length + 1)) + 1 by omega, limited_cons_light _ _ _ hl]
            refine List.Forall₂.cons hq (mono ?_)
            simpa using b2
          · have hadd : w.add q = w := by unfold World.add; rw [hq']; simp only; rw [if_neg hlt]
            rw [hadd] at h
            obtain ⟨⟨ps, b1, b2⟩, b3⟩ := ih l1 l' w w' hle hw h
            refine ⟨⟨ps, b1, ?_⟩, b3⟩
            have h0 : maxLights - w.lights.length = 0 := by omega
            rw [h0] at b2 ⊢
            rw [limited, if_pos hl]
            exact mono b2

/-! ## Properties -/

/-- C127: The scene has one object for every statement that names a mesh, from the last to the first, as described by the
statement; only the last 32 lights count. -/
theorem C127_objects (fs : Files) (st : List (List Char)) (hst : IsDir st) (filter : TexFilter) (shapes : List Shape)
    (ms : List Mesh) (l l' : Lib) (w : World) (h : buildMeshes fs (render st) filter shapes ms l = some (l', w)) :
    List.Forall₂ (IsPlaced shapes l) (limited 32 (ms.reverse.filter (known shapes))) w.assets ∧
      w.lights = w.assets.filter (fun p => p.light.isSome) := by
  obtain ⟨⟨ps, h1, h2⟩, h3⟩ := buildAll_spec fs st hst filter shapes ms.reverse l l' {} w (by simp) rfl h
  rw [show w.assets = ps from h1]
  exact ⟨h2, by rw [h3, h1]; rfl⟩

/-- C127: No object is left out if there are at most 32 lights. -/
theorem C127_complete (ms : List Mesh) (n : Nat) (h : (ms.filter fun m => m.isLight).length ≤ n) : limited n ms = ms := by
  induction ms generalizing n with
  | nil => rfl
  | cons m ms ih =>
    cases hl : m.isLight with
    | false =>
      rw [limited_cons_object _ _ _ hl, ih n]
      rw [List.filter_cons_of_neg (by simp [hl])] at h
      exact h
    | true =>
      rw [List.filter_cons_of_pos (by exact hl), List.length_cons] at h
      cases n with
      | zero => omega
      | succ n => rw [limited_cons_light _ _ _ hl, ih n (by omega)]

/-! ## Placement -/

open Light (placement)

/-- The rotation of a plane by an angle, as the multiplication of complex numbers. -/
def Rotates (a : ℝ) (x y x' y' : ℝ) : Prop := (x' + y' * Complex.I : ℂ) = Complex.exp (a * Complex.I) * (x + y * Complex.I)

/-- The point `p` scaled, rotated about the x-, y- and z-axis by the given angles, and moved. -/
def IsMoved (position angles size p q : Geom.V3 ℝ) : Prop :=
  ∃ y₁ z₁ z₂ x₂ x₃ y₃ : ℝ, Rotates angles.x (size.y * p.y) (size.z * p.z) y₁ z₁ ∧
    Rotates angles.y z₁ (size.x * p.x) z₂ x₂ ∧ Rotates angles.z x₂ y₁ x₃ y₃ ∧
    q = ⟨position.x + x₃, position.y + y₃, position.z + z₂⟩

/-- An angle given in degrees. -/
noncomputable def degrees (v : Geom.V3 ℝ) : Geom.V3 ℝ := ⟨v.x * (Real.pi / 180), v.y * (Real.pi / 180), v.z * (Real.pi / 180)⟩

theorem rotates_iff (a x y x' y' : ℝ) :
    Rotates a x y x' y' ↔ x' = Real.cos a * x - Real.sin a * y ∧ y' = Real.sin a * x + Real.cos a * y := by
  unfold Rotates
  rw [Complex.exp_mul_I, Complex.ext_iff, ← Complex.ofReal_cos, ← Complex.ofReal_sin]
  simp only [Complex.add_re, Complex.ofReal_re, Complex.mul_re, Complex.I_re, mul_zero, Complex.ofReal_im, Complex.I_im,
    mul_one, sub_self, add_zero, Complex.add_im, Complex.mul_im, zero_add]
  constructor
  · rintro ⟨h1, h2⟩; exact ⟨h1, by rw [h2]; ring⟩
  · rintro ⟨h1, h2⟩; exact ⟨h1, by rw [h2]; ring⟩

theorem mulPoint_placement (position rotation size p : Geom.V3 ℝ) :
    Geom.mulPoint (placement position rotation size) p =
      let m := placement position rotation size
      ⟨m.m00 * p.x + m.m01 * p.y + m.m02 * p.z + m.m03, m.m10 * p.x + m.m11 * p.y + m.m12 * p.z + m.m13,
        m.m20 * p.x + m.m21 * p.y + m.m22 * p.z + m.m23⟩ := by
  unfold Geom.mulPoint
  refine if_pos ?_
  simp [placement, Geom.mul, Light.translation, Light.scaling, Light.rotateX, Light.rotateY, Light.rotateZ]

/-- C127: The matrix of an object scales, rotates by the angles taken as radians, and moves. -/
theorem C127_radians (position rotation size p : Geom.V3 ℝ) :
    IsMoved position rotation size p (Geom.mulPoint (placement position rotation size) p) := by
  refine ⟨_, _, _, _, _, _, (rotates_iff _ _ _ _ _).2 ⟨rfl, rfl⟩, (rotates_iff _ _ _ _ _).2 ⟨rfl, rfl⟩,
    (rotates_iff _ _ _ _ _).2 ⟨rfl, rfl⟩, ?_⟩
  rw [mulPoint_placement]
  simp only [placement, Geom.mul, Light.translation, Light.scaling, Light.rotateX, Light.rotateY, Light.rotateZ]
  congr 1 <;> ring

/-- C127, partial: without rotation the object is placed as documented. -/
theorem C127_degrees_partial (position size p : Geom.V3 ℝ) :
    IsMoved position (degrees ⟨0, 0, 0⟩) size p (Geom.mulPoint (placement position ⟨0, 0, 0⟩ size) p) := by
  have : degrees ⟨0, 0, 0⟩ = ⟨0, 0, 0⟩ := by simp [degrees]
  rw [this]
  exact C127_radians _ _ _ _

/-- C127, violated: half a turn is not placed as documented. -/
theorem C127_violated_degrees :
    ¬ IsMoved ⟨0, 0, 0⟩ (degrees ⟨180, 0, 0⟩) ⟨1, 1, 1⟩ ⟨0, 1, 0⟩
      (Geom.mulPoint (placement ⟨0, 0, 0⟩ ⟨180, 0, 0⟩ ⟨1, 1, 1⟩) ⟨0, 1, 0⟩) := by
  rintro ⟨y₁, z₁, z₂, x₂, x₃, y₃, h1, h2, h3, h4⟩
  rw [rotates_iff] at h1 h2 h3
  have e : (180 : ℝ) * (Real.pi / 180) = Real.pi := by ring
  simp only [degrees, e, Real.cos_pi, zero_mul, Real.cos_zero, Real.sin_zero] at h1 h2 h3
  have hy : y₃ = -1 := by rw [h3.2, h1.1]; simp
  rw [mulPoint_placement] at h4
  have := congrArg Geom.V3.y h4
  simp only [hy, placement, Geom.mul, Light.translation, Light.scaling, Light.rotateX, Light.rotateY,
    Light.rotateZ, Real.cos_zero, Real.sin_zero] at this
  have hc : Real.cos 180 = -1 := by linarith
  obtain ⟨n, hn⟩ := Real.cos_eq_neg_one_iff.1 hc
  apply irrational_pi
  have hne : (1 + 2 * n : ℤ) ≠ 0 := by omega
  have hne' : (1 + 2 * n : ℝ) ≠ 0 := by exact_mod_cast hne
  refine ⟨180 / (1 + 2 * n), ?_⟩
  push_cast
  rw [div_eq_iff hne']
  linarith

/-! ## Masks -/

/-- C127, partial: a mask whose texture is found decides by its channel: visible from 128 on, or below if inverted. -/
theorem C127_mask_partial (t : Tex) (chn : Chan) (inv : Bool) (texel : Tex → Chan → Nat) :
    (visible (some t) chn inv texel = true ↔ (128 ≤ texel t chn ↔ inv = false)) ∧ visible none chn inv texel = true := by
  refine ⟨?_, rfl⟩
  unfold visible
  cases inv <;> simp

/-- C127, violated: a mask whose texture cannot be found is not disabled ("If also this can't be found, the mask is
disabled", README.md:166): inverted, it hides the whole object, since the default texture is white. -/
theorem C127_violated_mask : ∃ l p, buildMesh ⟨fun _ => false, fun _ => false⟩ (render ["s".toList]) .trilinear []
      { name := sphereName, mask := { tex := [109], inv := true } } {} = some (l, some p) ∧
    ∀ texel : Tex → Chan → Nat, texel dfltTex .alpha = 255 → visible p.mask p.chn p.inv texel = false := by
  have h : optional ⟨fun _ => false, fun _ => false⟩ (render ["s".toList]) .trilinear [109] {} = some ({}, some dfltTex) := by
    decide +kernel
  refine ⟨{}, ⟨sphereName, ⟨0, 0, 0⟩, ⟨0, 0, 0⟩, ⟨1, 1, 1⟩, [dfltMaterial], [0], none, some dfltTex, .alpha, true⟩, ?_, ?_⟩
  · unfold buildMesh
    rw [show findShape [] sphereName = some sphere from rfl]
    simp only [h]
    rfl
  · intro texel ht
    simp [visible, ht]

/-! ## Examples -/

/-- A sphere and a light in the scene. -/
example : ((buildMeshes ⟨fun _ => false, fun _ => false⟩ (render ["s".toList]) .trilinear []
    [{ name := sphereName, material := [97] }, { name := [120] }, { name := sphereName, isLight := true, temperature := 3000 }]
      {}).map fun r => r.2.assets.map fun p => (p.shape, p.light)) =
    some [(sphereName, some (.blackbody 3000)), (sphereName, none)] := by decide +kernel

end Spectre.Scene
