import Verif.Props.SceneTextures

/-!
# Materials of a scene (C126)

`src/parsers/README.md:178-202`.
-/

namespace Spectre.Scene

open Path (IsName IsDir render objPath mkObj)

/-! ## Specification -/

/-- What roughness, anisotropy and distribution mean, README.md:187-189: the surface is isotropic if the anisotropy is
unset or equals the roughness; a distribution is used if the roughness is not 0. -/
inductive Surface where
  | smooth
  | rough (d : Dist) (x : ℚ)
  | brushed (x y : ℚ)

def surface (r : ℚ) (a : Option ℚ) (d : Dist) : Surface :=
  if a = none ∨ a = some r then if r = 0 then .smooth else .rough d r else .brushed r (a.getD r)

/-- The distribution of a roughness. -/
def facets : Dist → ℚ → MDist
  | .blinn, x => .blinn (blinnExp x)
  | .beckmann, x => .beckmann x
  | .ggx, x => .ggx x

/-- A roughness that cannot be divided by is replaced by the least one. -/
def atLeast (x : ℚ) : ℚ := max (1 / 1000) x

/-- A material as in a file: roughness `r` and anisotropy `a` in the documented range. -/
structure Given (m : Mat) (r : ℚ) (a : Option ℚ) : Prop where
  rough : m.roughX = r
  aniso : m.roughY = a.getD (-1)
  zero_le : 0 ≤ r
  le_one : r ≤ 1
  zero_le' : ∀ y ∈ a, 0 ≤ y
  le_one' : ∀ y ∈ a, y ≤ 1

/-- The parameters can be used: no roughness is 0 or above 1, no exponent negative. -/
def MDist.Ok : MDist → Prop
  | .aniso x y => (1 / 1000 ≤ x ∧ x ≤ 1) ∧ 1 / 1000 ≤ y ∧ y ≤ 1
  | .blinn e => ∀ v ∈ e, 0 ≤ v
  | .beckmann x => 0 < x ∧ x ≤ 1
  | .ggx x => 0 < x ∧ x ≤ 1

def Look.Ok : Look → Prop
  | .orenNayar d => 0 < d ∧ d ≤ 100
  | .glossy d => d.Ok
  | .glass d _ => d.Ok
  | .metal d _ => d.Ok
  | _ => True

/-! ## Proofs -/

theorem clampQ_bounds (x lo hi : ℚ) (h : lo ≤ hi) : lo ≤ clampQ x lo hi ∧ clampQ x lo hi ≤ hi := by
  unfold clampQ
  split
  · exact ⟨le_refl _, h⟩
  · split
    · exact ⟨h, le_refl _⟩
    · constructor <;> linarith

theorem clampQ_of (x lo hi : ℚ) (h : lo ≤ x) (h' : x ≤ hi) : clampQ x lo hi = x := by
  unfold clampQ
  rw [if_neg (not_lt.2 h), if_neg (not_lt.2 h')]

theorem clampQ_atLeast (x : ℚ) (h' : x ≤ 1) : clampQ x minRoughness 1 = atLeast x := by
  unfold clampQ atLeast minRoughness
  split
  · rw [max_eq_left]; linarith
  · rw [if_neg (not_lt.2 h'), max_eq_right]; linarith

theorem roughness_smooth {m : Mat} {r : ℚ} {a : Option ℚ} (h : Given m r a) (hi : a = none ∨ a = some r) :
    roughness m = (r, -1) := by
  have hx : clampQ m.roughX 0 1 = r := by rw [h.rough]; exact clampQ_of _ _ _ h.zero_le h.le_one
  unfold roughness
  simp only [hx]
  have hy : (if m.roughY = r then (-1 : ℚ) else m.roughY) = -1 := by
    rcases hi with rfl | rfl
    · rw [h.aniso]; simp
    · rw [h.aniso]; simp
  rw [hy, if_neg (by simp)]

theorem roughness_brushed {m : Mat} {r : ℚ} {a : Option ℚ} (h : Given m r a) (hi : ¬(a = none ∨ a = some r)) :
    roughness m = (atLeast r, atLeast (a.getD r)) := by
  have hx : clampQ m.roughX 0 1 = r := by rw [h.rough]; exact clampQ_of _ _ _ h.zero_le h.le_one
  cases a with
  | none => exact absurd (Or.inl rfl) hi
  | some y =>
    have hne : y ≠ r := fun e => hi (Or.inr (by rw [e]))
    have h0 := h.zero_le' y rfl
    have h1 := h.le_one' y rfl
    have hy : m.roughY = y := h.aniso
    unfold roughness
    simp only [hx, hy, if_neg hne]
    rw [if_pos (by intro e; linarith), clampQ_atLeast r h.le_one, clampQ_atLeast y h1]
    rfl

theorem atLeast_pos (x : ℚ) : 0 < atLeast x := lt_of_lt_of_le (by norm_num) (le_max_left _ _)

theorem mdist_iso (d : Dist) (x : ℚ) : mdist d x (-1) = facets d x := by
  unfold mdist
  rw [if_neg (by simp)]
  cases d <;> rfl

theorem mdist_aniso (d : Dist) (x y : ℚ) (h : 0 < y) : mdist d x y = .aniso x y := by
  unfold mdist
  rw [if_pos (by intro e; linarith)]

/-! ## Properties -/

/-- C126: A metal is a mirror if it is smooth; otherwise it has the chosen distribution, or, if it is anisotropic, the
anisotropic one. -/
theorem C126_metal (m : Mat) (r : ℚ) (a : Option ℚ) (h : Given m r a) (ht : m.type = .metal) :
    appearance m = match surface r a m.dist with
      | .smooth => .metalSpecular m.elem
      | .rough d x => .metal (facets d x) m.elem
      | .brushed x y => .metal (.aniso (atLeast x) (atLeast y)) m.elem := by
  unfold appearance surface
  by_cases hi : a = none ∨ a = some r
  · rw [roughness_smooth h hi, if_pos hi, ht]
    by_cases hr : r = 0
    · simp [hr]
    · simp only [hr, if_false, false_and, ne_eq, not_true, and_false]
      rw [mdist_iso]
  · rw [roughness_brushed h hi, if_neg hi, ht]
    have h1 := atLeast_pos r
    have h2 := atLeast_pos (a.getD r)
    simp only
    rw [if_neg (by intro e; linarith [e.1]), if_pos ⟨h1.ne', by intro e; linarith⟩]

/-- C126: Glass is specular if it is smooth; otherwise its reflection and its transmission have the distribution. -/
theorem C126_glass (m : Mat) (r : ℚ) (a : Option ℚ) (h : Given m r a) (ht : m.type = .glass) :
    appearance m = match surface r a m.dist with
      | .smooth => .glassSpecular m.ior
      | .rough d x => .glass (facets d x) m.ior
      | .brushed x y => .glass (.aniso (atLeast x) (atLeast y)) m.ior := by
  unfold appearance surface
  by_cases hi : a = none ∨ a = some r
  · rw [roughness_smooth h hi, if_pos hi, ht]
    by_cases hr : r = 0
    · simp [hr]
    · simp only [hr, if_false, false_and]
      rw [mdist_iso]
  · rw [roughness_brushed h hi, if_neg hi, ht]
    have h1 := atLeast_pos r
    have h2 := atLeast_pos (a.getD r)
    simp only
    rw [if_neg (by intro e; linarith [e.1]), mdist_aniso _ _ _ h2]

/-- C126: A glossy material has the distribution; if it is smooth, with the least roughness. -/
theorem C126_glossy (m : Mat) (r : ℚ) (a : Option ℚ) (h : Given m r a) (ht : m.type = .glossy) :
    appearance m = match surface r a m.dist with
      | .smooth => .glossy (facets m.dist (1 / 1000))
      | .rough d x => .glossy (facets d x)
      | .brushed x y => .glossy (.aniso (atLeast x) (atLeast y)) := by
  unfold appearance surface
  by_cases hi : a = none ∨ a = some r
  · rw [roughness_smooth h hi, if_pos hi, ht]
    by_cases hr : r = 0
    · simp only [hr, if_true]
      rw [mdist_iso]
      rfl
    · simp only [hr, if_false]
      rw [mdist_iso]
  · rw [roughness_brushed h hi, if_neg hi, ht]
    have h1 := atLeast_pos r
    have h2 := atLeast_pos (a.getD r)
    simp only
    rw [if_neg h1.ne', mdist_aniso _ _ _ h2]

/-- C126: A matte material is Lambertian if its roughness is 0 and Oren-Nayar otherwise, with 100 times the roughness;
for the anisotropic the least roughness counts as well. -/
theorem C126_matte (m : Mat) (r : ℚ) (a : Option ℚ) (h : Given m r a) (ht : m.type = .matte) :
    appearance m = match surface r a m.dist with
      | .smooth => .lambert
      | .rough _ x => .orenNayar (100 * x)
      | .brushed x _ => .orenNayar (100 * atLeast x) := by
  unfold appearance surface
  by_cases hi : a = none ∨ a = some r
  · rw [roughness_smooth h hi, if_pos hi, ht]
    by_cases hr : r = 0
    · simp [hr]
    · simp [hr]
  · rw [roughness_brushed h hi, if_neg hi, ht]
    have h1 := atLeast_pos r
    simp only
    rw [if_pos h1.ne']

/-- C126: The exponent of a roughness: it has the slope variance of the roughness, and is finite unless the roughness is
below `2^(-63.5)`. -/
theorem C126_blinn (x : ℚ) (h0 : 0 < x) (h1 : x ≤ 1) :
    (∀ v, blinnExp x = some v → 0 ≤ v ∧ x ^ 2 * (v + 2) = 2) ∧ (blinnExp x = none ↔ x ^ 2 ≤ 1 / 2 ^ 127) := by
  have hx : 0 < x * x := mul_pos h0 h0
  unfold blinnExp
  constructor
  · intro v hv
    split at hv
    · cases hv
      refine ⟨?_, by field_simp; ring⟩
      rw [sub_nonneg, le_div_iff₀ hx]
      nlinarith
    · cases hv
  · rw [ite_eq_right_iff]
    have : (2 / (x * x) < 2 ^ 128) ↔ ¬ (x ^ 2 ≤ 1 / 2 ^ 127) := by
      rw [div_lt_iff₀ hx, not_le, div_lt_iff₀ (by norm_num)]
      constructor <;> intro h <;> nlinarith
    rw [this]
    simp

/-- C126: Whatever numbers are in the file, the parameters can be used. -/
theorem C126_parameters (m : Mat) : (appearance m).Ok := by
  have key : ∀ d : Dist, ∀ x y : ℚ, 0 < x → x ≤ 1 → (y ≠ -1 → 1 / 1000 ≤ x ∧ 1 / 1000 ≤ y ∧ y ≤ 1) → (mdist d x y).Ok := by
    intro d x y h0 h1 hy
    unfold mdist
    split
    · rename_i h; exact ⟨⟨(hy h).1, h1⟩, (hy h).2⟩
    · cases d
      · intro v hv; exact ((C126_blinn x h0 h1).1 v hv).1
      · exact ⟨h0, h1⟩
      · exact ⟨h0, h1⟩
  obtain ⟨x, y, hr, h0, h1, hy⟩ : ∃ x y, roughness m = (x, y) ∧ 0 ≤ x ∧ x ≤ 1 ∧
      (y ≠ -1 → 1 / 1000 ≤ x ∧ 1 / 1000 ≤ y ∧ y ≤ 1) := by
    unfold roughness
    simp only
    obtain ⟨b1, b2⟩ := clampQ_bounds m.roughX 0 1 (by norm_num)
    generalize clampQ m.roughX 0 1 = x at b1 b2
    generalize (if m.roughY = x then (-1 : ℚ) else m.roughY) = y
    have hm : minRoughness ≤ (1 : ℚ) := by unfold minRoughness; norm_num
    obtain ⟨c1, c2⟩ := clampQ_bounds x minRoughness 1 hm
    obtain ⟨d1, d2⟩ := clampQ_bounds y minRoughness 1 hm
    by_cases h : y ≠ -1
    · refine ⟨_, _, if_pos h, ?_, c2, fun _ => ⟨c1, d1, d2⟩⟩
      refine le_trans ?_ c1
      unfold minRoughness; norm_num
    · exact ⟨_, _, if_neg h, b1, b2, fun h' => absurd h' h⟩
  unfold appearance
  rw [hr]
  simp only
  cases m.type
  · simp only
    split
    · rename_i h
      have : 0 < x := lt_of_le_of_ne h0 (Ne.symm h)
      exact ⟨by linarith, by linarith⟩
    · trivial
  · simp only
    refine key _ _ _ ?_ ?_ ?_
    · split
      · unfold minRoughness; norm_num
      · rename_i h; exact lt_of_le_of_ne h0 (Ne.symm h)
    · split
      · unfold minRoughness; norm_num
      · exact h1
    · intro h
      obtain ⟨e1, e2, e3⟩ := hy h
      refine ⟨?_, e2, e3⟩
      split
      · unfold minRoughness; norm_num
      · exact e1
  · simp only
    split
    · trivial
    · rename_i h
      have hx : 0 < x := by
        refine lt_of_le_of_ne h0 fun e => ?_
        by_cases hy' : y = -1
        · exact h ⟨e.symm, hy'⟩
        · linarith [(hy hy').1]
      split
      · rename_i h2; exact ⟨⟨(hy h2.2).1, h1⟩, (hy h2.2).2⟩
      · exact key _ _ _ hx h1 (fun h => absurd rfl h)
  · simp only
    split
    · trivial
    · rename_i h
      have hx : 0 < x := by
        refine lt_of_le_of_ne h0 fun e => ?_
        by_cases hy' : y = -1
        · exact h ⟨e.symm, hy'⟩
        · linarith [(hy hy').1]
      exact key _ _ _ hx h1 hy

/-- C126, violated: a roughness in the documented range gives an infinite exponent. -/
theorem C126_violated_blinn : Given { type := .metal, roughX := 1 / 10 ^ 30, dist := .blinn } (1 / 10 ^ 30) none ∧
    appearance { type := .metal, roughX := 1 / 10 ^ 30, dist := .blinn } = .metal (.blinn none) .gold :=
  ⟨⟨rfl, rfl, by norm_num, by norm_num, by simp, by simp⟩, by decide +kernel⟩

/-! ## The library -/

/-- The texture of a material: a colour; nothing; or a name that the library `l` has. -/
def Painted (l : TexLib) (file : Str) (uniform : Option (Nat × Nat × Nat)) (p : Paint) : Prop :=
  (∀ c, uniform = some c → p = .uniform c) ∧ (uniform = none → file = [] → p = .image dfltTex) ∧
    (uniform = none → IsName (chars file) → ∀ t, l.tex (chars file) = some t → p = .image t)

/-- The normal map of a material or the mask, likewise. -/
def Chosen (l : TexLib) (file : Str) (p : Option Tex) : Prop :=
  (file = [] → p = none) ∧ (file ≠ [] → p ≠ none) ∧
    (IsName (chars file) → ∀ t, l.tex (chars file) = some t → p = some t)

/-- Every texture of the first library is in the second. -/
def TexLib.Sub (l l' : TexLib) : Prop := ∀ n t, l.tex n = some t → l'.tex n = some t

theorem newTexture_texs (fs : Files) (path : List Char) (shift scale : ℚ × ℚ) (filter : TexFilter) (l : TexLib) :
    (newTexture fs path shift scale filter l).1.texs = l.texs := by
  unfold newTexture
  cases l.map path with
  | some m => rfl
  | none => simp only; split <;> rfl

theorem loadTexture_sub (fs : Files) (dir path name : List Char) (shift scale : ℚ × ℚ) (filter : TexFilter) (l : TexLib)
    (r : TexLib × Tex) (h : loadTexture fs dir path name shift scale filter l = some r) : l.Sub r.1 := by
  rw [loadTexture] at h
  cases h1 : objPath dir path with
  | none => rw [h1] at h; cases h
  | some file =>
    rw [h1] at h
    simp only at h
    cases h2 : mkObj file with
    | none => rw [h2] at h; cases h
    | some f =>
      rw [h2] at h
      simp only at h
      cases h3 : f.filename with
      | none => rw [h3] at h; cases h
      | some base =>
        rw [h3] at h
        simp only at h
        generalize (if name = [] then base else name) = name at h
        cases h4 : l.tex name with
        | some t' => rw [h4] at h; cases h; exact fun _ _ h => h
        | none =>
          rw [h4] at h
          simp only at h
          by_cases hi : fs.image file = true
          · rw [if_pos hi] at h
            cases h
            intro n t ht
            simp only [TexLib.tex, lookup_snoc, newTexture_texs]
            rw [show l.texs.lookup n = some t from ht]
            rfl
          · rw [if_neg hi] at h
            cases h
            exact fun _ _ h => h

theorem sub_trans {a b c : TexLib} (h : a.Sub b) (h' : b.Sub c) : a.Sub c := fun n t ht => h' n t (h n t ht)

/-- A name that a library within `l` has. -/
theorem reference_known (fs : Files) (st : List (List Char)) (hst : IsDir st) (filter : TexFilter) (p : List Char)
    (hp : IsName p) (l : TexLib) (r : TexLib × Tex) (h : reference fs (render st) p filter l = some r) (t : Tex)
    (ht : l.tex p = some t) : r.2 = t := by
  rw [load_name fs st hst p hp, ht] at h
  cases h
  rfl

theorem paint_spec (fs : Files) (st : List (List Char)) (hst : IsDir st) (filter : TexFilter) (file : Str)
    (uniform : Option (Nat × Nat × Nat)) (l l' : TexLib) (p : Paint)
    (h : paint fs (render st) filter file uniform l = some (l', p)) : l.Sub l' ∧ Painted l file uniform p := by
  unfold paint at h
  cases uniform with
  | some c =>
    cases h
    exact ⟨fun _ _ h => h, fun c' e => by cases e; rfl, by simp, by simp⟩
  | none =>
    simp only at h
    by_cases hf : file = []
    · rw [if_pos hf] at h
      cases h
      refine ⟨fun _ _ h => h, by simp, fun _ _ => rfl, fun _ hn => ?_⟩
      subst hf
      exact absurd rfl hn.1
    · rw [if_neg hf] at h
      cases hr : reference fs (render st) (chars file) filter l with
      | none => rw [hr] at h; cases h
      | some r =>
        rw [hr] at h
        cases h
        exact ⟨loadTexture_sub _ _ _ _ _ _ _ _ _ hr, by simp, fun _ e => absurd e hf, fun _ hn t ht => by
          rw [← reference_known fs st hst filter _ hn l r hr t ht]⟩

theorem optional_spec (fs : Files) (st : List (List Char)) (hst : IsDir st) (filter : TexFilter) (file : Str)
    (l l' : TexLib) (p : Option Tex)
    (h : optional fs (render st) filter file l = some (l', p)) : l.Sub l' ∧ Chosen l file p := by
  unfold optional at h
  by_cases hf : file = []
  · rw [if_pos hf] at h
    cases h
    refine ⟨fun _ _ h => h, fun _ => rfl, fun e => absurd hf e, fun hn => ?_⟩
    subst hf
    exact absurd rfl hn.1
  · rw [if_neg hf] at h
    cases hr : reference fs (render st) (chars file) filter l with
    | none => rw [hr] at h; cases h
    | some r =>
      rw [hr] at h
      cases h
      exact ⟨loadTexture_sub _ _ _ _ _ _ _ _ _ hr, fun e => absurd e hf, fun _ => by simp, fun hn t ht => by
        rw [← reference_known fs st hst filter _ hn l r hr t ht]⟩

theorem painted_mono {l l' : TexLib} (h : l.Sub l') {file : Str} {u : Option (Nat × Nat × Nat)} {p : Paint}
    (hp : Painted l' file u p) : Painted l file u p :=
  ⟨hp.1, hp.2.1, fun hu hn t ht => hp.2.2 hu hn t (h _ _ ht)⟩

theorem chosen_mono {l l' : TexLib} (h : l.Sub l') {file : Str} {p : Option Tex} (hp : Chosen l' file p) :
    Chosen l file p := ⟨hp.1, hp.2.1, fun hn t ht => hp.2.2 hn t (h _ _ ht)⟩

theorem lookup_snoc' {α : Type} (l : List (Str × α)) (n m : Str) (x : α) :
    (l ++ [(n, x)]).lookup m = (l.lookup m).or (if m = n then some x else none) := by
  rw [List.lookup_append]
  congr 1
  by_cases h : m = n
  · subst h; simp [List.lookup]
  · rw [if_neg h, List.lookup, show (m == n) = false from beq_false_of_ne h]
    rfl

theorem get_snoc (l : Lib) (t : TexLib) (k : Str) (x : Material) (hk : l.get k = none) (n : Str) :
    (Lib.mk t (l.mats ++ [(k, x)])).get n = if n = k then some x else l.get n := by
  unfold Lib.get at hk ⊢
  simp only [lookup_snoc']
  by_cases hd : n = dfltName
  · rw [if_pos hd, if_pos hd]
    by_cases hn : n = k
    · rw [← hn, if_pos hd] at hk; cases hk
    · rw [if_neg hn]
  · rw [if_neg hd, if_neg hd]
    by_cases hn : n = k
    · subst hn
      rw [if_neg hd] at hk
      rw [hk, if_pos rfl]; rfl
    · rw [if_neg hn, if_neg hn, Option.or_none]

/-- What a material of the file becomes. -/
def Made (l : TexLib) (m : Mat) (x : Material) : Prop :=
  ∃ d s b, x = .simple (appearance m) d s b ∧ Painted l m.diffuse m.diffuseUniform d ∧ Painted l m.specular m.specularUniform s ∧
    Chosen l m.bump b

theorem buildMaterial_spec (fs : Files) (st : List (List Char)) (hst : IsDir st) (filter : TexFilter) (m : Mat) (l l' : Lib)
    (h : buildMaterial fs (render st) filter m l = some l') : l.tex.Sub l'.tex ∧
      (∀ n x, l.get n = some x → l'.get n = some x) ∧ (∀ n, m.name ≠ n → l'.get n = l.get n) ∧
      (l.get m.name = none → ∃ x, l'.get m.name = some x ∧ Made l.tex m x) := by
  unfold buildMaterial at h
  cases hg : l.get m.name with
  | some x =>
    rw [hg] at h
    cases h
    exact ⟨fun _ _ h => h, fun _ _ h => h, fun _ _ => rfl, fun e => by cases e⟩
  | none =>
    rw [hg] at h
    simp only at h
    cases h1 : paint fs (render st) filter m.diffuse m.diffuseUniform l.tex with
    | none => rw [h1] at h; cases h
    | some r1 =>
      obtain ⟨l1, d⟩ := r1
      rw [h1] at h
      simp only at h
      cases h2 : paint fs (render st) filter m.specular m.specularUniform l1 with
      | none => rw [h2] at h; cases h
      | some r2 =>
        obtain ⟨l2, s⟩ := r2
        rw [h2] at h
        simp only at h
        cases h3 : optional fs (render st) filter m.bump l2 with
        | none => rw [h3] at h; cases h
        | some r3 =>
          obtain ⟨l3, b⟩ := r3
          rw [h3] at h
          cases h
          obtain ⟨s1, p1⟩ := paint_spec fs st hst filter _ _ _ _ _ h1
          obtain ⟨s2, p2⟩ := paint_spec fs st hst filter _ _ _ _ _ h2
          obtain ⟨s3, p3⟩ := optional_spec fs st hst filter _ _ _ _ h3
          have key := get_snoc l l3 m.name (.simple (appearance m) d s b) hg
          refine ⟨sub_trans s1 (sub_trans s2 s3), fun n x hx => ?_, fun n hn => ?_, fun _ => ⟨.simple (appearance m) d s b, ?_, ?_⟩⟩
          · rw [key, if_neg (by rintro rfl; rw [hg] at hx; cases hx), hx]
          · rw [key, if_neg (Ne.symm hn)]
          · rw [key, if_pos rfl]
          · exact ⟨d, s, b, rfl, p1, painted_mono s1 p2, chosen_mono (sub_trans s1 s2) p3⟩

/-- C126: A name of the library keeps its material; any other name has the first material of this name in the file, with
the textures it names. -/
theorem C126_library (fs : Files) (st : List (List Char)) (hst : IsDir st) (filter : TexFilter) (ms : List Mat) (l l' : Lib)
    (h : buildMaterials fs (render st) filter ms l = some l') (n : Str) :
    (∀ x, l.get n = some x → l'.get n = some x) ∧
      (l.get n = none → match ms.find? (fun m => m.name = n) with
        | none => l'.get n = none
        | some m => ∃ x, l'.get n = some x ∧ Made l.tex m x) := by
  have key : ∀ (ms : List Mat) (l l' : Lib), buildMaterials fs (render st) filter ms l = some l' → l.tex.Sub l'.tex ∧
      (∀ x, l.get n = some x → l'.get n = some x) ∧
      (l.get n = none → match ms.find? (fun m => m.name = n) with
        | none => l'.get n = none
        | some m => ∃ x, l'.get n = some x ∧ Made l.tex m x) := by
    intro ms
    induction ms with
    | nil => intro l l' h; cases h; exact ⟨fun _ _ h => h, fun _ h => h, fun h => h⟩
    | cons m ms ih =>
      intro l l' h
      rw [buildMaterials] at h
      cases h1 : buildMaterial fs (render st) filter m l with
      | none => rw [h1] at h; cases h
      | some l1 =>
        rw [h1] at h
        obtain ⟨a1, a2, a3, a4⟩ := buildMaterial_spec fs st hst filter m l l1 h1
        obtain ⟨b1, b2, b3⟩ := ih l1 l' h
        refine ⟨sub_trans a1 b1, fun x hx => b2 x (a2 n x hx), fun hn => ?_⟩
        by_cases he : m.name = n
        · subst he
          simp only [List.find?_cons, decide_true]
          obtain ⟨x, hx, hm⟩ := a4 hn
          exact ⟨x, b2 x hx, hm⟩
        · simp only [List.find?_cons, he, decide_false]
          have := b3 (by rw [a3 n he, hn])
          cases hf : ms.find? (fun m => m.name = n) with
          | none => rw [hf] at this; exact this
          | some m' =>
            rw [hf] at this
            obtain ⟨x, hx, d, s, b, k1, k2, k3, k4⟩ := this
            exact ⟨x, hx, d, s, b, k1, painted_mono a1 k2, painted_mono a1 k3, chosen_mono a1 k4⟩
  exact (key ms l l' h).2

/-- C126: Dual materials: a name of the library keeps its material; any other name has the first dual material of this
name; it is made of the materials that its parts have at this point, or the default one. -/
theorem C126_dual (fs : Files) (st : List (List Char)) (hst : IsDir st) (filter : TexFilter) (pre : List DualMat) (m : DualMat)
    (post : List DualMat) (l l' : Lib) (h : buildDuals fs (render st) filter (pre ++ m :: post) l = some l')
    (hpre : ∀ k ∈ pre, k.name ≠ m.name) :
    (∀ n x, l.get n = some x → l'.get n = some x) ∧
      (l.get m.name = none → ∃ first second mask, l'.get m.name = some (.dual first second mask m.mask.chn m.mask.inv) ∧
        Chosen l.tex m.mask.tex mask ∧
        (∀ x, l.get m.first = some x → first = x) ∧ (∀ x, l.get m.second = some x → second = x) ∧
        ((∀ k ∈ pre, k.name ≠ m.first) → first = (l.get m.first).getD dfltMaterial) ∧
        ((∀ k ∈ pre, k.name ≠ m.second) → second = (l.get m.second).getD dfltMaterial)) := by
  have step : ∀ (m : DualMat) (ms : List DualMat) (l l' : Lib), buildDuals fs (render st) filter (m :: ms) l = some l' →
      ∃ l1 k, buildDuals fs (render st) filter ms l1 = some l' ∧ l.tex.Sub l1.tex ∧
        (∀ n x, l.get n = some x → l1.get n = some x) ∧ (∀ n, m.name ≠ n → l1.get n = l.get n) ∧
        Chosen l.tex m.mask.tex k ∧
        (l.get m.name = none → l1.get m.name = some (.dual ((l.get m.first).getD dfltMaterial)
          ((l.get m.second).getD dfltMaterial) k m.mask.chn m.mask.inv)) := by
    intro m ms l l' h
    rw [buildDuals] at h
    cases h1 : optional fs (render st) filter m.mask.tex l.tex with
    | none => rw [h1] at h; cases h
    | some r =>
      obtain ⟨t, k⟩ := r
      rw [h1] at h
      simp only at h
      obtain ⟨s1, s2⟩ := optional_spec fs st hst filter _ _ _ _ h1
      refine ⟨_, k, h, s1, ?_⟩
      cases hg : l.get m.name with
      | some x =>
        exact ⟨fun _ _ h => h, fun _ _ => rfl, s2, fun e => by cases e⟩
      | none =>
        simp only
        have key := get_snoc l t m.name (.dual ((l.get m.first).getD dfltMaterial) ((l.get m.second).getD dfltMaterial) k
          m.mask.chn m.mask.inv) hg
        refine ⟨fun n x hx => ?_, fun n hn => ?_, s2, fun _ => ?_⟩
        · rw [key, if_neg (by rintro rfl; rw [hg] at hx; cases hx), hx]
        · rw [key, if_neg (Ne.symm hn)]
        · rw [key, if_pos rfl]
  have keep : ∀ (ms : List DualMat) (l l' : Lib), buildDuals fs (render st) filter ms l = some l' →
      ∀ n x, l.get n = some x → l'.get n = some x := by
    intro ms
    induction ms with
    | nil => intro l l' h; cases h; exact fun _ _ h => h
    | cons m ms ih =>
      intro l l' h n x hx
      obtain ⟨l1, k, h1, -, h2, -⟩ := step m ms l l' h
      exact ih l1 l' h1 n x (h2 n x hx)
  refine ⟨keep _ _ _ h, ?_⟩
  clear hst
  induction pre generalizing l with
  | nil =>
    intro hn
    obtain ⟨l1, k, h1, -, h2, -, h3, h4⟩ := step m post l l' h
    refine ⟨_, _, k, keep _ _ _ h1 _ _ (h4 hn), h3, fun x hx => by rw [hx]; rfl, fun x hx => by rw [hx]; rfl, fun _ => rfl,
      fun _ => rfl⟩
  | cons p pre ih =>
    intro hn
    obtain ⟨l1, k, h1, h0, h2, h3, -⟩ := step p (pre ++ m :: post) l l' h
    have hp : p.name ≠ m.name := hpre p List.mem_cons_self
    obtain ⟨a, b, c, e1, e2, e3, e4, e5, e6⟩ := ih l1 h1 (fun k hk => hpre k (List.mem_cons_of_mem _ hk)) (by rw [h3 _ hp, hn])
    refine ⟨a, b, c, e1, chosen_mono h0 e2, fun x hx => e3 x (h2 _ _ hx), fun x hx => e4 x (h2 _ _ hx), fun hk => ?_,
      fun hk => ?_⟩
    · rw [e5 fun k hk' => hk k (List.mem_cons_of_mem _ hk'), h3 _ (hk p List.mem_cons_self)]
    · rw [e6 fun k hk' => hk k (List.mem_cons_of_mem _ hk'), h3 _ (hk p List.mem_cons_self)]

/-! ## Examples -/

example : Given { roughX := 1 / 2, roughY := 1 / 4 } (1 / 2) (some (1 / 4)) :=
  ⟨rfl, rfl, by norm_num, by norm_num, by simp, by simp; norm_num⟩

/-- Glass with anisotropy, rough gold, matte. -/
example : appearance { type := .glass, roughX := 1 / 2, roughY := 0 } = .glass (.aniso (1 / 2) (1 / 1000)) (.cauchy (145 / 100) 0 0) ∧
    appearance { type := .metal, roughX := 1 / 2, dist := .blinn } = .metal (.blinn (some 6)) .gold ∧
    appearance { roughX := 1 / 2, roughY := 1 / 2 } = .orenNayar 50 := by decide +kernel

/-- Two materials of one name and a dual material of them; the second one is dropped. -/
example : (buildMaterials ⟨fun _ => true, fun _ => true⟩ (render ["s".toList]) .ewa
    [{ name := [97], type := .metal }, { name := [97] }] {}).bind (fun l =>
      (buildDuals ⟨fun _ => true, fun _ => true⟩ (render ["s".toList]) .ewa [{ name := [98], first := [97] }] l).map
        fun l' => (l'.get [97], l'.get [98])) =
    some (some (.simple (.metalSpecular .gold) (.image dfltTex) (.image dfltTex) none),
      some (.dual (.simple (.metalSpecular .gold) (.image dfltTex) (.image dfltTex) none) dfltMaterial none .alpha false)) := by
  decide +kernel

end Spectre.Scene
