import Verif.Props.File
import Verif.Model.SceneBuild

/-!
# Textures of a scene (C125)

`src/parsers/README.md:168-176, 190-191`: a texture is put into the library under its name (the file name with
extension if it has none) with its scaling and shift and the texture filter set; a material or mask refers to it by its
name, or, if there is none of this name, to a file.
-/

namespace Spectre.Scene

open Path (IsName IsDir render objPath mkObj)

/-! ## Specification -/

/-- A texture statement, its file, and the name it goes by. -/
structure Named where
  stmt : TexLoad
  file : List Char
  name : List Char

/-- What the statement says: the file is found relative to `dir`, the name is the one given or that of the file. -/
def Named.Says (dir : List Char) (x : Named) : Prop :=
  objPath dir (chars x.stmt.path) = some x.file ∧
    if chars x.stmt.name = [] then ∃ f, mkObj x.file = some f ∧ f.filename = some x.name else x.name = chars x.stmt.name

/-- A texture without its filter: its picture (`none` is the default one), shift, scaling, whether it is filtered. -/
def Tex.view (t : Tex) : Option (List Char) × (ℚ × ℚ) × (ℚ × ℚ) × Bool := (t.map.file, t.shift, t.scale, t.unfiltered)

/-- The texture that a statement describes; pictures must be squares with a power of two as side. -/
def Named.view (fs : Files) (x : Named) : Option (List Char) × (ℚ × ℚ) × (ℚ × ℚ) × Bool :=
  (if fs.square x.file then some x.file else none, x.stmt.shift, x.stmt.scale, x.stmt.filter = .unfiltered)

/-! ## Proofs -/

theorem lookup_snoc {α : Type} (l : List (List Char × α)) (n m : List Char) (x : α) :
    (l ++ [(n, x)]).lookup m = (l.lookup m).or (if m = n then some x else none) := by
  rw [List.lookup_append]
  congr 1
  by_cases h : m = n
  · subst h; simp [List.lookup]
  · rw [if_neg h, List.lookup, show (m == n) = false from beq_false_of_ne h]
    rfl

/-- The map of a file is a picture of the file. -/
def MapsOk (fs : Files) (l : TexLib) : Prop := ∀ p m, l.map p = some m → m.file = some p ∧ fs.square p = true

theorem newTexture_spec (fs : Files) (path : List Char) (shift scale : ℚ × ℚ) (filter : TexFilter) (l : TexLib)
    (hl : MapsOk fs l) :
    let r := newTexture fs path shift scale filter l
    r.2.view = (if fs.square path then some path else none, shift, scale, decide (filter = .unfiltered)) ∧
      r.1.texs = l.texs ∧ MapsOk fs r.1 := by
  simp only [newTexture]
  cases hm : l.map path with
  | some m =>
    obtain ⟨h1, h2⟩ := hl path m hm
    refine ⟨?_, by trivial, hl⟩
    simp only [Tex.view, h1, h2, if_true]
  | none =>
    by_cases hs : fs.square path = true
    · simp only [hs, if_true]
      refine ⟨rfl, trivial, ?_⟩
      intro p m h
      rw [TexLib.map, lookup_snoc] at h
      cases hp : l.maps.lookup p with
      | some m' => rw [hp] at h; cases h; exact hl p m hp
      | none =>
        rw [hp] at h
        by_cases he : p = path
        · rw [if_pos he] at h; cases h; subst he; exact ⟨rfl, hs⟩
        · rw [if_neg he] at h; cases h
    · simp only [hs, if_false, Bool.false_eq_true]
      exact ⟨rfl, trivial, hl⟩

theorem loadTexture_says (fs : Files) (dir : List Char) (t : TexLoad) (l : TexLib) (r : TexLib × Tex) (hl : MapsOk fs l)
    (h : loadTexture fs dir (chars t.path) (chars t.name) t.shift t.scale t.filter l = some r) :
    ∃ x : Named, x.stmt = t ∧ x.Says dir ∧ MapsOk fs r.1 ∧
      ∀ n, (r.1.tex n).map Tex.view =
        ((l.tex n).map Tex.view).or (if fs.image x.file = true ∧ x.name = n then some (x.view fs) else none) := by
  rw [loadTexture] at h
  cases h1 : objPath dir (chars t.path) with
  | none => rw [h1] at h; cases h
  | some file =>
    rw [h1] at h
    simp only at h
    cases h2 : mkObj file with
    | none => rw [h2] at h; cases h
    | some f =>
      rw [h2] at h
      simp only at h
      cases h3 : f.filename with
      | none => rw [h3] at h; cases h
      | some base =>
        rw [h3] at h
        simp only at h
        generalize hn : (if chars t.name = [] then base else chars t.name) = name at h
        refine ⟨⟨t, file, name⟩, rfl, ⟨h1, ?_⟩, ?_⟩
        · simp only
          by_cases he : chars t.name = []
          · rw [if_pos he] at hn ⊢; exact ⟨f, h2, hn ▸ h3⟩
          · rw [if_neg he] at hn ⊢; exact hn.symm
        · simp only
          cases h4 : l.tex name with
          | some t' =>
            rw [h4] at h
            cases h
            refine ⟨hl, fun n => ?_⟩
            by_cases he : name = n
            · subst he; rw [h4]; rfl
            · rw [if_neg (fun h => he h.2), Option.or_none]
          | none =>
            rw [h4] at h
            simp only at h
            by_cases hi : fs.image file = true
            · rw [if_pos hi] at h
              obtain ⟨k1, k2, k3⟩ := newTexture_spec fs file t.shift t.scale t.filter l hl
              cases h
              refine ⟨k3, fun n => ?_⟩
              simp only [TexLib.tex, lookup_snoc, k2, hi, true_and]
              rw [Option.map_or]
              congr 1
              by_cases he : n = name
              · subst he; rw [if_pos rfl, if_pos rfl, Option.map_some, k1]; rfl
              · rw [if_neg he, if_neg (Ne.symm he), Option.map_none]
            · rw [if_neg hi] at h
              cases h
              exact ⟨hl, fun n => by rw [if_neg (fun h => hi h.1), Option.or_none]⟩

/-! ## Properties -/

/-- C125: After the texture statements the library has, under each name, the texture described by the first statement of
this name whose file is an image. -/
theorem C125_library (fs : Files) (dir : List Char) (ts : List TexLoad) (l : TexLib) (h : loadAll fs dir ts {} = some l) :
    ∃ xs : List Named, xs.map Named.stmt = ts ∧ (∀ x ∈ xs, x.Says dir) ∧
      ∀ n, (l.tex n).map Tex.view = (xs.find? fun x => fs.image x.file && x.name == n).map (Named.view fs) := by
  have key : ∀ (ts : List TexLoad) (l₀ l : TexLib), MapsOk fs l₀ → loadAll fs dir ts l₀ = some l →
      ∃ xs : List Named, xs.map Named.stmt = ts ∧ (∀ x ∈ xs, x.Says dir) ∧
        ∀ n, (l.tex n).map Tex.view =
          ((l₀.tex n).map Tex.view).or ((xs.find? fun x => fs.image x.file && x.name == n).map (Named.view fs)) := by
    intro ts
    induction ts with
    | nil => intro l₀ l _ h; cases h; exact ⟨[], rfl, by simp, fun n => by simp⟩
    | cons t ts ih =>
      intro l₀ l hok h
      rw [loadAll] at h
      cases hr : loadTexture fs dir (chars t.path) (chars t.name) t.shift t.scale t.filter l₀ with
      | none => rw [hr] at h; cases h
      | some r =>
        rw [hr] at h
        obtain ⟨x, rfl, h1, h2, h3⟩ := loadTexture_says fs dir t l₀ r hok hr
        obtain ⟨xs, h4, h5, h6⟩ := ih r.1 l h2 h
        refine ⟨x :: xs, by rw [List.map_cons, h4], List.forall_mem_cons.2 ⟨h1, h5⟩, fun n => ?_⟩
        rw [h6, h3, Option.or_assoc, List.find?_cons]
        congr 1
        by_cases he : fs.image x.file = true ∧ x.name = n
        · rw [if_pos he, show (fs.image x.file && x.name == n) = true by simp [he]]; rfl
        · rw [if_neg he, show (fs.image x.file && x.name == n) = false by
            rw [Bool.and_eq_false_iff]; by_cases hi : fs.image x.file = true
            · right; exact beq_false_of_ne fun e => he ⟨hi, e⟩
            · left; simpa using hi]
          rfl
  obtain ⟨xs, h1, h2, h3⟩ := key ts {} l (fun p m h => by simp [TexLib.map] at h) h
  exact ⟨xs, h1, h2, fun n => by rw [h3 n]; rfl⟩

/-- The filter of every map in the library is the one given. -/
theorem filters_same (fs : Files) (dir : List Char) (g : List Char → TexFilter) (ts : List TexLoad)
    (hg : ∀ t ∈ ts, ∀ p, objPath dir (chars t.path) = some p → t.filter = g p) : ∀ l₀ l : TexLib,
    (∀ p m, l₀.map p = some m → m.filter = g p) → (∀ n t, l₀.tex n = some t → ∀ p, t.map.file = some p → t.map.filter = g p) →
    (∀ p m, l₀.map p = some m → m.file = some p) →
    loadAll fs dir ts l₀ = some l → ∀ n t, l.tex n = some t → ∀ p, t.map.file = some p → t.map.filter = g p := by
  induction ts with
  | nil => intro l₀ l _ h2 _ h; cases h; exact h2
  | cons t ts ih =>
    intro l₀ l k1 k2 k3 h
    rw [loadAll] at h
    cases hr : loadTexture fs dir (chars t.path) (chars t.name) t.shift t.scale t.filter l₀ with
    | none => rw [hr] at h; cases h
    | some r =>
      rw [hr] at h
      have hg' := ih fun t' ht' => hg t' (List.mem_cons_of_mem _ ht')
      have hgt := hg t List.mem_cons_self
      refine hg' r.1 l ?_ ?_ ?_ h
      all_goals
        rw [loadTexture] at hr
        cases h1 : objPath dir (chars t.path) with
        | none => rw [h1] at hr; cases hr
        | some file =>
          rw [h1] at hr
          have hgf := hgt file h1
          simp only at hr
          cases h2 : mkObj file with
          | none => rw [h2] at hr; cases hr
          | some f =>
            rw [h2] at hr
            simp only at hr
            cases h3 : f.filename with
            | none => rw [h3] at hr; cases hr
            | some base =>
              rw [h3] at hr
              simp only at hr
              generalize (if chars t.name = [] then base else chars t.name) = name at hr
              cases h4 : l₀.tex name with
              | some t' => rw [h4] at hr; cases hr; assumption
              | none =>
                rw [h4] at hr
                simp only at hr
                by_cases hi : fs.image file = true
                · rw [if_pos hi] at hr
                  cases hr
                  simp only [newTexture]
                  cases hm : l₀.map file with
                  | some m =>
                    simp only [TexLib.tex, lookup_snoc]
                    first
                      | exact k1
                      | exact k3
                      | intro n t' ht p hp
                        cases hl : l₀.texs.lookup n with
                        | some t'' => rw [hl] at ht; cases ht; exact k2 n _ hl p hp
                        | none =>
                          rw [hl, Option.none_or] at ht
                          split at ht
                          · cases ht
                            simp only at hp ⊢
                            rw [k3 file m hm] at hp
                            cases hp
                            exact k1 _ m hm
                          · cases ht
                  | none =>
                    by_cases hs : fs.square file = true
                    · simp only [hs, if_true, TexLib.tex, TexLib.map, lookup_snoc]
                      first
                        | intro n t' ht p hp
                          cases hl : l₀.texs.lookup n with
                          | some t'' => rw [hl] at ht; cases ht; exact k2 n _ hl p hp
                          | none =>
                            rw [hl, Option.none_or] at ht
                            split at ht
                            · cases ht; cases hp; exact hgf
                            · cases ht
                        | intro p m hp
                          cases hl : l₀.maps.lookup p with
                          | some m' => rw [hl] at hp; cases hp; first | exact k1 p _ hl | exact k3 p _ hl
                          | none =>
                            rw [hl, Option.none_or] at hp
                            split at hp
                            · rename_i he
                              cases hp
                              subst he
                              first | exact hgf | rfl
                            · cases hp
                    · simp only [hs, if_false, Bool.false_eq_true, TexLib.tex, lookup_snoc]
                      first
                        | exact k1
                        | exact k3
                        | intro n t' ht p hp
                          cases hl : l₀.texs.lookup n with
                          | some t'' => rw [hl] at ht; cases ht; exact k2 n _ hl p hp
                          | none =>
                            rw [hl, Option.none_or] at ht
                            split at ht
                            · cases ht; cases hp
                            · cases ht
                · rw [if_neg hi] at hr; cases hr; assumption

/-- C125, filters, if every file is loaded with one filter only: the textures have it. -/
theorem C125_filter_partial (fs : Files) (dir : List Char) (g : List Char → TexFilter) (ts : List TexLoad)
    (hg : ∀ t ∈ ts, ∀ p, objPath dir (chars t.path) = some p → t.filter = g p) (l : TexLib)
    (h : loadAll fs dir ts {} = some l) (n : List Char) (t : Tex) (ht : l.tex n = some t) (p : List Char)
    (hp : t.map.file = some p) : t.map.filter = g p :=
  filters_same fs dir g ts hg {} l (fun p m h => by simp [TexLib.map] at h) (fun n t h => by simp [TexLib.tex] at h)
    (fun p m h => by simp [TexLib.map] at h) h n t ht p hp

theorem name_relative {c : List Char} (hc : IsName c) : Path.isAbsolute c = false := by
  have hl : 0 < c.length := List.length_pos_iff.2 hc.1
  unfold Path.isAbsolute
  rw [decide_eq_false_iff_not]
  intro e
  exact hc.2.1 (by rw [← e]; exact Path.peek_mem hl)

theorem load_name (fs : Files) (st : List (List Char)) (hst : IsDir st) (p : List Char) (hp : IsName p)
    (filter : TexFilter) (l : TexLib) : reference fs (render st) p filter l =
      match l.tex p with
      | some t => some (l, t)
      | none =>
        if fs.image (render (p :: st)) then
          let r := newTexture fs (render (p :: st)) (0, 0) (1, 1) filter l
          some ({ r.1 with texs := r.1.texs ++ [(p, r.2)] }, r.2)
        else some (l, dfltTex) := by
  have h1 : objPath (render st) p = some (render (p :: st)) := by
    unfold objPath; rw [name_relative hp]; simpa using Path.append_name st hst p hp
  have hd : IsDir (p :: st) := ⟨by simp, by
    intro c hc
    rw [List.mem_cons] at hc
    rcases hc with rfl | hc
    · exact hp
    · exact hst.2 c hc⟩
  obtain ⟨f, h2, h3, -⟩ := Path.C75_extension p st hd
  have h2' : mkObj (render (p :: st)) = some f := h2
  rw [reference, loadTexture, h1]
  simp only [h2', h3, if_true]
  rfl

/-- C125, references by a name without separators: the texture of this name, or the file of this name beside the scene,
or the default. -/
theorem C125_reference_partial (fs : Files) (st : List (List Char)) (hst : IsDir st) (p : List Char) (hp : IsName p)
    (filter : TexFilter) (l : TexLib) (hl : MapsOk fs l) : ∃ l' t, reference fs (render st) p filter l = some (l', t) ∧
      (∀ t', l.tex p = some t' → t = t' ∧ l' = l) ∧
      (l.tex p = none → fs.image (render (p :: st)) = true →
        t.view = (if fs.square (render (p :: st)) then some (render (p :: st)) else none, (0, 0), (1, 1),
          decide (filter = .unfiltered)) ∧ l'.tex p = some t) ∧
      (l.tex p = none → fs.image (render (p :: st)) = false → t = dfltTex ∧ l' = l) := by
  rw [load_name fs st hst p hp]
  cases h : l.tex p with
  | some t => exact ⟨l, t, rfl, fun t' e => ⟨Option.some.inj e, rfl⟩, fun e => (by cases e), fun e => (by cases e)⟩
  | none =>
    by_cases hi : fs.image (render (p :: st)) = true
    · simp only [hi, if_true]
      obtain ⟨k1, k2, -⟩ := newTexture_spec fs (render (p :: st)) (0, 0) (1, 1) filter l hl
      refine ⟨_, _, rfl, fun t' e => (by cases e), fun _ _ => ⟨k1, ?_⟩, fun _ e => (by cases e)⟩
      simp only [TexLib.tex, lookup_snoc, k2]
      rw [show l.texs.lookup p = none from h]
      simp
    · simp only [hi, if_false, Bool.false_eq_true]
      exact ⟨l, dfltTex, rfl, fun t' e => (by cases e), fun _ e => (by cases e), fun _ _ => ⟨rfl, rfl⟩⟩

/-- C125, violated: a reference to the file `b/w.tga` gets the texture `w.tga`, which is the file `a/w.tga`; and the texture
with the name `u/v` cannot be referred to. -/
theorem C125_violated_reference :
    let fs : Files := ⟨fun _ => true, fun _ => true⟩
    let dir := "/s".toList
    ∃ l t, loadAll fs dir [⟨[97, 47, 119, 46, 116, 103, 97], [], (0, 0), (1, 1), .trilinear⟩,
        ⟨[120], [117, 47, 118], (0, 0), (1, 1), .trilinear⟩] {} = some l ∧
      reference fs dir "b/w.tga".toList .trilinear l = some (l, t) ∧ t.map.file = some "/s/a/w.tga".toList ∧
      objPath dir "b/w.tga".toList = some "/s/b/w.tga".toList ∧
      l.tex "u/v".toList = some ⟨⟨some "/s/x".toList, .trilinear⟩, (0, 0), (1, 1), false⟩ ∧
      (reference fs dir "u/v".toList .trilinear l).map (fun r => r.2.map.file) = some (some "/s/u/v".toList) := by
  refine ⟨⟨[("w.tga".toList, ⟨⟨some "/s/a/w.tga".toList, .trilinear⟩, (0, 0), (1, 1), false⟩),
    ("u/v".toList, ⟨⟨some "/s/x".toList, .trilinear⟩, (0, 0), (1, 1), false⟩)],
    [("/s/a/w.tga".toList, ⟨some "/s/a/w.tga".toList, .trilinear⟩), ("/s/x".toList, ⟨some "/s/x".toList, .trilinear⟩)]⟩,
    ⟨⟨some "/s/a/w.tga".toList, .trilinear⟩, (0, 0), (1, 1), false⟩, ?_⟩
  decide +kernel

/-- C125, violated: the same file with two filters has the first for both textures. -/
theorem C125_violated_filter :
    let fs : Files := ⟨fun _ => true, fun _ => true⟩
    ∃ l, loadAll fs "/s".toList [⟨[119], [97], (0, 0), (1, 1), .trilinear⟩, ⟨[119], [98], (0, 0), (1, 1), .ewa⟩] {} = some l ∧
      (l.tex ['b']).map (fun t => t.map.filter) = some .trilinear := by
  refine ⟨⟨[(['a'], ⟨⟨some "/s/w".toList, .trilinear⟩, (0, 0), (1, 1), false⟩),
    (['b'], ⟨⟨some "/s/w".toList, .trilinear⟩, (0, 0), (1, 1), false⟩)],
    [("/s/w".toList, ⟨some "/s/w".toList, .trilinear⟩)]⟩, ?_⟩
  decide +kernel

/-! ## Examples -/

/-- Two textures, one without a name, and what the library has. -/
example : ∃ l, loadAll ⟨fun _ => true, fun _ => true⟩ "/s".toList [⟨[119, 46, 98], [], (0, 0), (2, 2), .ewa⟩,
    ⟨[120], [119, 46, 98], (0, 0), (1, 1), .ewa⟩] {} = some l ∧
    (l.tex "w.b".toList).map Tex.view = some (some "/s/w.b".toList, (0, 0), (2, 2), false) :=
  ⟨⟨[("w.b".toList, ⟨⟨some "/s/w.b".toList, .ewa⟩, (0, 0), (2, 2), false⟩)],
    [("/s/w.b".toList, ⟨some "/s/w.b".toList, .ewa⟩)]⟩, by decide +kernel⟩

example : IsDir ["s".toList] ∧ IsName "w.b".toList ∧ MapsOk ⟨fun _ => true, fun _ => true⟩ {} := by
  refine ⟨by decide, by unfold IsName; decide, ?_⟩
  intro p m h
  simp [TexLib.map] at h

end Spectre.Scene
