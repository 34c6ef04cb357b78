import Verif.Props.SceneText
import Verif.Props.Config
import Verif.Model.SceneChain

/-!
# Chained files (C124)

README.md:66-71: a scene file may name further files; every keyword works the same way in them, "and could potentially
add more assets or even overwrite parent's settings"; the files they name themselves are ignored.
-/

namespace Spectre.Scene

/-! ## Specification -/

/-- The file consists of these statements. -/
def IsFile (text : List Byte) (ss : List Stmt) : Prop :=
  ss ≠ [] ∧ (∀ s ∈ ss, s.Proper) ∧ scan text = .tokens (ss.flatMap Stmt.toks)

/-- The statement is about the picture as a whole, not about an object of the scene. -/
def Stmt.IsSetting : Stmt → Prop
  | .out _ => True
  | .resolution _ => True
  | .filter _ => True
  | .sampler _ => True
  | .spp _ => True
  | .camera _ => True
  | _ => False

/-- What the renderer should be given: the settings of all files together, checked. -/
def documented (main : List Stmt) (children : List (List Stmt)) : Option Settings :=
  (meaning {} (main ++ children.flatten)).check.map Driver.settings

/-! ## Proofs -/

theorem idle_check {d r : Driver} (h : d.check = some r) (hd : Idle d) : Idle r := by
  rw [Driver.check] at h
  cases h1 : Config.checkResolution d.width.toNat d.height.toNat with
  | none => rw [h1] at h; cases h
  | some p =>
    rw [h1] at h
    obtain ⟨a, b⟩ := p
    simp only at h
    cases h2 : d.sampler with
    | random => rw [h2] at h; cases h; exact ⟨hd.1, hd.2, hd.3, hd.4, hd.5, hd.6, hd.7⟩
    | stratified =>
      rw [h2] at h
      cases h3 : Config.checkSpp d.spp.toNat with
      | none => rw [h3] at h; cases h
      | some n => rw [h3] at h; cases h; exact ⟨hd.1, hd.2, hd.3, hd.4, hd.5, hd.6, hd.7⟩

theorem check_children {d r : Driver} (h : d.check = some r) :
    r.children = d.children ∧ r.shapes = d.shapes ∧ r.meshes = d.meshes ∧ r.mats = d.mats ∧ r.duals = d.duals ∧
      r.loads = d.loads ∧ r.texFilter = d.texFilter := by
  rw [Driver.check] at h
  cases h1 : Config.checkResolution d.width.toNat d.height.toNat with
  | none => rw [h1] at h; cases h
  | some p =>
    rw [h1] at h
    obtain ⟨a, b⟩ := p
    simp only at h
    cases h2 : d.sampler with
    | random => rw [h2] at h; cases h; exact ⟨rfl, rfl, rfl, rfl, rfl, rfl, rfl⟩
    | stratified =>
      rw [h2] at h
      cases h3 : Config.checkSpp d.spp.toNat with
      | none => rw [h3] at h; cases h
      | some n => rw [h3] at h; cases h; exact ⟨rfl, rfl, rfl, rfl, rfl, rfl, rfl⟩

theorem check_settings {d d' : Driver} (h : d.settings = d'.settings) :
    d.check.map Driver.settings = d'.check.map Driver.settings := by
  simp only [Driver.settings, Settings.mk.injEq] at h
  obtain ⟨h1, h2, h3, h4, h5, h6, h7, h8, h9, h10, h11, h12, h13⟩ := h
  rw [Driver.check, Driver.check, h2, h3, h4, h5]
  rcases Config.checkResolution d'.width.toNat d'.height.toNat with _ | ⟨a, b⟩
  · rfl
  · rcases d'.sampler with _ | _
    · simp [Driver.settings, *]
    · rcases Config.checkSpp d'.spp.toNat with _ | n <;> simp [Driver.settings, *]

theorem readChildren_accept (l : List (Option (List Byte))) (d d' : Driver) (hd : Idle d) :
    readChildren l d = .accept d' ↔
      ∃ cs : List (List Stmt), List.Forall₂ IsFile (l.filterMap id) cs ∧ d' = meaning d cs.flatten := by
  induction l generalizing d with
  | nil =>
    simp only [readChildren, Out.accept.injEq, List.filterMap_nil, List.forall₂_nil_left_iff, exists_eq_left,
      List.flatten_nil, meaning_nil d hd, eq_comm]
  | cons x l ih =>
    cases x with
    | none => rw [readChildren, ih _ hd]; rfl
    | some text =>
      rw [readChildren, show (some text :: l).filterMap id = text :: l.filterMap id from rfl]
      have key : ∀ ss, Idle (meaning d ss) := fun ss => (C122_concatenation d hd ss []).1
      constructor
      · intro h
        cases hp : parseText text d with
        | reject e => rw [hp] at h; cases h
        | ub => rw [hp] at h; cases h
        | accept e =>
          rw [hp] at h
          obtain ⟨ss, h1, h2, h3, rfl⟩ := (C122_text text d e hd).1 hp
          obtain ⟨cs, h4, rfl⟩ := (ih _ (key ss)).1 h
          exact ⟨ss :: cs, .cons ⟨h1, h2, h3⟩ h4, by rw [List.flatten_cons, (C122_concatenation d hd ss _).2]⟩
      · rintro ⟨cs, h, rfl⟩
        cases h with
        | @cons _ ss _ cs h1 h2 =>
          rw [(C122_text text d (meaning d ss) hd).2 ⟨ss, h1.1, h1.2.1, h1.2.2, rfl⟩]
          simp only
          exact (ih _ (key ss)).2 ⟨cs, h2, by rw [List.flatten_cons, (C122_concatenation d hd ss _).2]⟩

/-! ## Properties -/

/-- C124: The scene is accepted exactly if the file and all its children that exist are.  The renderer is given the
settings of the file alone, checked; the children of children are ignored. -/
theorem C124_chain (find : List Str → List (Option (List Byte))) (main : List Byte) (s : Settings) (d : Driver) :
    parseScene find main = .accept (s, d) ↔
      ∃ (ss : List Stmt) (r : Driver) (cs : List (List Stmt)), IsFile main ss ∧ (meaning {} ss).check = some r ∧
        s = r.settings ∧ List.Forall₂ IsFile ((find (meaning {} ss).children).filterMap id) cs ∧
        d = { meaning { r with children := [] } cs.flatten with children := [] } := by
  have hi : Idle {} := C122_defaults.2
  rw [parseScene]
  constructor
  · intro h
    cases hp : parseText main {} with
    | reject e => rw [hp] at h; cases h
    | ub => rw [hp] at h; cases h
    | accept e =>
      rw [hp] at h
      obtain ⟨ss, h1, h2, h3, rfl⟩ := (C122_text main {} e hi).1 hp
      have hm := (C122_concatenation {} hi ss []).1
      simp only at h
      cases hc : (meaning {} ss).check with
      | none => rw [hc] at h; cases h
      | some r =>
        rw [hc] at h
        simp only at h
        have hr := idle_check hc hm
        have hr' : Idle { r with children := [] } := ⟨hr.1, hr.2, hr.3, hr.4, hr.5, hr.6, hr.7⟩
        cases hq : readChildren (find r.children) { r with children := [] } with
        | reject e => rw [hq] at h; cases h
        | ub => rw [hq] at h; cases h
        | accept e =>
          rw [hq] at h
          simp only [Out.accept.injEq, Prod.mk.injEq] at h
          obtain ⟨cs, h4, rfl⟩ := (readChildren_accept _ _ _ hr').1 hq
          rw [(check_children hc).1] at h4
          exact ⟨ss, r, cs, ⟨h1, h2, h3⟩, hc, h.1.symm, h4, h.2.symm⟩
  · rintro ⟨ss, r, cs, h1, hc, rfl, h4, rfl⟩
    have hm := (C122_concatenation {} hi ss []).1
    have hr := idle_check hc hm
    have hr' : Idle { r with children := [] } := ⟨hr.1, hr.2, hr.3, hr.4, hr.5, hr.6, hr.7⟩
    rw [(C122_text main {} (meaning {} ss) hi).2 ⟨ss, h1.1, h1.2.1, h1.2.2, rfl⟩]
    simp only [hc]
    rw [(readChildren_accept (find r.children) { r with children := [] } (meaning { r with children := [] } cs.flatten)
      hr').2 ⟨cs, by rwa [(check_children hc).1], rfl⟩]

/-- C124: The objects are those of all files together, in order. -/
theorem C124_objects (find : List Str → List (Option (List Byte))) (main : List Byte) (s : Settings) (d : Driver)
    (h : parseScene find main = .accept (s, d)) : ∃ (ss : List Stmt) (cs : List (List Stmt)), IsFile main ss ∧
      List.Forall₂ IsFile ((find (meaning {} ss).children).filterMap id) cs ∧
      d.shapes = (meaning {} (ss ++ cs.flatten)).shapes ∧ d.meshes = (meaning {} (ss ++ cs.flatten)).meshes ∧
      d.mats = (meaning {} (ss ++ cs.flatten)).mats ∧ d.duals = (meaning {} (ss ++ cs.flatten)).duals ∧
      d.loads = (meaning {} (ss ++ cs.flatten)).loads := by
  obtain ⟨ss, r, cs, h1, h2, -, h4, rfl⟩ := (C124_chain find main s d).1 h
  obtain ⟨-, k1, k2, k3, k4, k5, k6⟩ := check_children h2
  refine ⟨ss, cs, h1, h4, ?_⟩
  rw [← (C122_concatenation {} C122_defaults.2 ss cs.flatten).2]
  refine ⟨?_, ?_, ?_, ?_, ?_⟩
  · show r.shapes ++ _ = (meaning {} ss).shapes ++ _
    rw [k1]
  · show r.meshes ++ _ = (meaning {} ss).meshes ++ _
    rw [k2]
  · show r.mats ++ _ = (meaning {} ss).mats ++ _
    rw [k3]
  · show r.duals ++ _ = (meaning {} ss).duals ++ _
    rw [k4]
  · show r.loads ++ (List.range cs.flatten.length).filterMap (loadAt r.texFilter cs.flatten) =
      (meaning {} ss).loads ++ (List.range cs.flatten.length).filterMap (loadAt (meaning {} ss).texFilter cs.flatten)
    rw [k5, k6]

theorem settings_objects (d : Driver) (ss : List Stmt) (h : ∀ s ∈ ss, ¬ s.IsSetting) :
    (meaning d ss).settings = d.settings := by
  have e : ∀ {α : Type} {f : Stmt → Option α} (x : α), (∀ s, ¬ s.IsSetting → f s = none) → lastOr x (ss.filterMap f) = x := by
    intro α f x hf
    rw [List.filterMap_eq_nil_iff.2 fun s hs => hf s (h s hs)]
    rfl
  have e2 : ∀ {α : Type} {f : Stmt → List α}, (∀ s, ¬ s.IsSetting → f s = []) → ss.flatMap f = [] := by
    intro α f hf
    rw [List.flatMap_eq_nil_iff]
    exact fun s hs => hf s (h s hs)
  have h1 : resItems ss = [] := e2 fun s hs => by cases s <;> first | rfl | exact absurd trivial hs
  have h2 : filterItems ss = [] := e2 fun s hs => by cases s <;> first | rfl | exact absurd trivial hs
  have h3 : cameraItems ss = [] := e2 fun s hs => by cases s <;> first | rfl | exact absurd trivial hs
  simp only [Driver.settings, meaning, h1, h2, h3, List.filterMap_nil, lastOr_nil, Settings.mk.injEq, and_true, true_and]
  refine ⟨e _ ?_, e _ ?_, e _ ?_⟩ <;> intro s hs <;> cases s <;> first | rfl | exact absurd trivial hs

/-- C124, if the children have no settings: the renderer is given what is documented. -/
theorem C124_settings_partial (find : List Str → List (Option (List Byte))) (main : List Byte) (s : Settings) (d : Driver)
    (h : parseScene find main = .accept (s, d)) : ∃ (ss : List Stmt) (cs : List (List Stmt)), IsFile main ss ∧
      List.Forall₂ IsFile ((find (meaning {} ss).children).filterMap id) cs ∧
      ((∀ s ∈ cs.flatten, ¬ s.IsSetting) → documented ss cs = some s) := by
  obtain ⟨ss, r, cs, h1, h2, rfl, h4, rfl⟩ := (C124_chain find main s d).1 h
  refine ⟨ss, cs, h1, h4, fun h5 => ?_⟩
  rw [documented, ← (C122_concatenation {} C122_defaults.2 ss cs.flatten).2, check_settings (settings_objects _ _ h5), h2]
  rfl

/-- The file `material:'a'`, and the file `spp:4` for every path. -/
def chainWitness : Out (Settings × Driver) := parseScene (fun l => l.map fun _ => some (bytes "spp:4")) (bytes "material:'a'")

/-- C124, violated: a child sets 4 samples per pixel, the renderer is given the default. -/
theorem C124_violated : ∃ d s, chainWitness = .accept (s, d) ∧ s.spp = 121 ∧ ∃ ss cs, IsFile (bytes "material:'a'") ss ∧
    List.Forall₂ IsFile [bytes "spp:4"] cs ∧ (documented ss cs).map (·.spp) = some 4 := by
  have h : ∃ p, chainWitness = .accept p ∧ p.1.spp = 121 := by
    have h1 : (match chainWitness with | .accept p => p.1.spp == 121 | _ => false) = true := by decide +kernel
    cases hc : chainWitness with
    | accept p => rw [hc] at h1; exact ⟨p, rfl, by simpa using h1⟩
    | reject p => rw [hc] at h1; cases h1
    | ub => rw [hc] at h1; cases h1
  obtain ⟨⟨s, d⟩, h1, h2⟩ := h
  refine ⟨d, s, h1, h2, [.child ⟨bytes "'a'", by decide⟩], [[.spp 4]], ?_, ?_, ?_⟩
  · exact ⟨by simp, by simp [Stmt.Proper], by decide +kernel⟩
  · exact .cons ⟨by simp, by simp [Stmt.Proper], by decide +kernel⟩ .nil
  · decide +kernel

/-- C124: What the renderer is given differs from what is written only in the width, the height and, for the stratified
sampler, the number of samples; a positive width is rounded up to a multiple of 32, and the number of samples is a
square. -/
theorem C124_checked (find : List Str → List (Option (List Byte))) (main : List Byte) (s : Settings) (d : Driver)
    (h : parseScene find main = .accept (s, d)) : ∃ ss : List Stmt, IsFile main ss ∧
      s = { (meaning {} ss).settings with width := s.width, height := s.height, spp := s.spp } ∧
      (0 < (meaning {} ss).width → 0 < s.width ∧ s.width % 32 = 0 ∧ (meaning {} ss).width ≤ s.width ∧
        s.width < (meaning {} ss).width + 32 ∧ (meaning {} ss).height ≤ s.height) ∧
      (s.sampler = .random → s.spp = (meaning {} ss).spp) ∧
      (s.sampler = .stratified → 0 < (meaning {} ss).spp → (meaning {} ss).spp ≤ 2 ^ 24 → ∃ k : Int, s.spp = k * k) := by
  obtain ⟨ss, r, cs, h1, h2, rfl, -, -⟩ := (C124_chain find main s d).1 h
  refine ⟨ss, h1, ?_⟩
  generalize meaning {} ss = e at h2
  rw [Driver.check] at h2
  cases hres : Config.checkResolution e.width.toNat e.height.toNat with
  | none => rw [hres] at h2; cases h2
  | some p =>
    obtain ⟨w, hh⟩ := p
    rw [hres] at h2
    simp only at h2
    have key : 0 < e.width → 0 < (w : Int) ∧ (w : Int) % 32 = 0 ∧ e.width ≤ w ∧ (w : Int) < e.width + 32 ∧
        e.height ≤ hh := by
      intro hw
      obtain ⟨k1, k2, k3, k4, -, -, k7⟩ := Config.C52_partial _ _ _ _ (by omega) hres
      omega
    cases hs : e.sampler with
    | random =>
      rw [hs] at h2
      cases h2
      exact ⟨by simp [Driver.settings, hs], key, fun _ => rfl, fun hc => by simp [Driver.settings] at hc⟩
    | stratified =>
      rw [hs] at h2
      simp only at h2
      cases hn : Config.checkSpp e.spp.toNat with
      | none => rw [hn] at h2; cases h2
      | some n =>
        rw [hn] at h2
        cases h2
        refine ⟨by simp [Driver.settings, hs], key, fun hc => by simp [Driver.settings] at hc, fun _ k1 k2 => ?_⟩
        obtain ⟨k, -, e1, -, -⟩ := Config.C51_near_partial e.spp.toNat (by omega) (by omega)
        rw [hn] at e1
        cases e1
        exact ⟨k, by simp [Driver.settings]⟩

end Spectre.Scene
