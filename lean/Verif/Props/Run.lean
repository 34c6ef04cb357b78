import Verif.Model.Run
import Verif.Props.SceneChain
import Verif.Props.ImageIo
import Verif.Props.Tiles

/-
C159: the exit status of the program.
-/

namespace Spectre.Run

open Spectre.Scene (Str Byte Out Driver Settings parseText readChildren parseScene IsFile meaning Stmt bytes)
open Spectre.ImageIo (Build Fs Opened Format openFilm saveFormat)
open Spectre.Tiles (jobs coverCount)

/-- The scene file is given and can be read, it and its children are accepted with the settings `s`, and the picture
can be opened as `f`. -/
def Accepted (w : World) (args : List (List Char)) (s : Settings) (f : Path.Obj) : Prop :=
  ∃ exe path rest main d, args = exe :: path :: rest ∧ w.file path = some main ∧
    parseScene w.find main = .accept (s, d) ∧ openFilm w.build w.fs w.cwd (text s.output) = some (.out f)

/-- A picture with all its pixels rendered once. -/
def Complete (p : Picture) (s : Settings) : Prop :=
  p.width = s.width.toNat ∧ p.height = s.height.toNat ∧
    ∀ x y, coverCount p.tiles x y = if x < p.width ∧ y < p.height then 1 else 0

/-- Full statement of C159: the status tells whether the picture was written. -/
def C159_statement : Prop := ∀ w args status picture, run w args = .exit status picture →
  (status = 0 ↔ picture.isSome = true)

theorem render_exit {w : World} {f : Path.Obj} {d : Driver} {st : Nat} {pic : Option Picture}
    (h : render w f d = .exit st pic) : st = 0 ∧ ∃ name fmt, f.absolute = some name ∧ saveFormat w.build f = some fmt ∧
      pic = fmt.bind fun fmt => if w.write name fmt then
        some ⟨name, fmt, d.width.toNat, d.height.toNat, jobs d.width.toNat d.height.toNat⟩ else none := by
  unfold render at h
  split at h
  · rename_i name fmt h1 h2
    injection h with h3 h4
    exact ⟨h3.symm, name, fmt, h1, h2, h4.symm⟩
  · cases h

theorem render_ends {w : World} {f : Path.Obj} {d : Driver} {name : List Char} {fmt : Option Format}
    (h1 : f.absolute = some name) (h2 : saveFormat w.build f = some fmt) :
    render w f d = .exit 0 (fmt.bind fun fmt => if w.write name fmt then
        some ⟨name, fmt, d.width.toNat, d.height.toNat, jobs d.width.toNat d.height.toNat⟩ else none) := by
  unfold render
  rw [h1, h2]

theorem run_accepted {w : World} {args : List (List Char)} {s : Settings} {f : Path.Obj} (h : Accepted w args s f) :
    ∃ d : Driver, d.settings = s ∧ run w args = render w f d := by
  obtain ⟨exe, path, rest, main, d0, rfl, h1, h2, h3⟩ := h
  unfold parseScene at h2
  unfold run parseAndRender
  simp only [h1]
  cases hp : parseText main {} with
  | reject d => rw [hp] at h2; cases h2
  | ub => rw [hp] at h2; cases h2
  | accept d =>
    rw [hp] at h2
    simp only at h2 ⊢
    cases hc : d.check with
    | none => rw [hc] at h2; cases h2
    | some d =>
      rw [hc] at h2
      simp only at h2 ⊢
      cases hr : readChildren (w.find d.children) { d with children := [] } with
      | reject d => rw [hr] at h2; cases h2
      | ub => rw [hr] at h2; cases h2
      | accept d' =>
        rw [hr] at h2
        injection h2 with h2
        injection h2 with h2 h4
        refine ⟨d, h2, ?_⟩
        have ho : s.output = d.output := by rw [← h2]; rfl
        rw [ho] at h3
        rw [h3]

theorem accepted_of_zero {w : World} {args : List (List Char)} {pic : Option Picture} (h : run w args = .exit 0 pic) :
    ∃ s f d, Accepted w args s f ∧ d.settings = s ∧ d.width % 32 = 0 ∧ render w f d = .exit 0 pic := by
  unfold run at h
  split at h
  · rename_i exe path rest
    split at h
    · cases h
    · rename_i main hm
      unfold parseAndRender at h
      split at h
      · cases h
      · cases h
      · rename_i d0 hp
        split at h
        · cases h
        · rename_i d hc
          split at h
          · cases h
          · cases h
          · cases h
          · rename_i f ho
            split at h
            · cases h
            · cases h
            · rename_i d' hr
              refine ⟨d.settings, f, d, ⟨exe, path, rest, main, { d' with children := [] }, rfl, hm, ?_, ho⟩, rfl, ?_, h⟩
              · unfold parseScene
                rw [hp]
                simp only [hc, hr]
              · have hw : ∀ a b c e, Config.checkResolution a b = some (c, e) → c % 32 = 0 := by
                  intro a b c e hce
                  by_cases ha : 0 < a
                  · exact (Config.C52_partial a b c e ha hce).2.1
                  · have : a = 0 := by omega
                    subst this
                    rw [Config.C52_violated.1] at hce
                    cases hce; rfl
                unfold Driver.check at hc
                split at hc
                · cases hc
                · rename_i a b hres
                  have := hw _ _ _ _ hres
                  split at hc
                  · cases hc; show (a : Int) % 32 = 0; omega
                  · split at hc
                    · cases hc
                    · cases hc; show (a : Int) % 32 = 0; omega
  · cases h

/-- **C159.** A run that ends with another status than 0 ends with 1 and has written no picture; and whenever a picture is
written, the status is 0, the scene was accepted, and every pixel of the picture belongs to exactly one tile. -/
theorem C159_picture (w : World) (args : List (List Char)) (status : Nat) (picture : Option Picture)
    (h : run w args = .exit status picture) :
    (status = 0 ∨ status = 1) ∧ (status = 1 → picture = none) ∧
    ∀ p, picture = some p → status = 0 ∧ ∃ s f, Accepted w args s f ∧ f.absolute = some p.name ∧
      saveFormat w.build f = some (some p.format) ∧ w.write p.name p.format = true ∧ Complete p s := by
  have hs : (status = 0 ∨ status = 1) ∧ (status = 1 → picture = none) := by
    have h' := h
    unfold run parseAndRender at h'
    repeat' split at h'
    all_goals first
      | exact ⟨Or.inl (render_exit h').1, fun e => absurd ((render_exit h').1.symm.trans e) (by decide)⟩
      | (injection h' with h1 h2; subst h1; subst h2; exact ⟨Or.inr rfl, fun _ => rfl⟩)
      | cases h'
  refine ⟨hs.1, hs.2, fun p hp => ?_⟩
  have h0 : status = 0 := by
    rcases hs.1 with e | e
    · exact e
    · rw [hs.2 e] at hp; cases hp
  refine ⟨h0, ?_⟩
  subst h0 hp
  obtain ⟨s, f, d, ha, hd, hw, hr⟩ := accepted_of_zero h
  obtain ⟨-, name, fmt, hn, hf, he⟩ := render_exit hr
  cases fmt with
  | none => cases he
  | some fmt =>
    simp only [Option.bind_some] at he
    split at he
    · rename_i hwr
      cases he
      refine ⟨s, f, ha, hn, hf, hwr, ?_, ?_, ?_⟩
      · rw [← hd]; rfl
      · rw [← hd]; rfl
      · intro x y
        refine Tiles.C06_tiles_partition _ _ ?_ x y
        show d.width.toNat % 32 = 0
        omega
    · cases he

/-- **C159**, for worlds in which every picture can be written and the name of the output names a file: the status is 0
exactly if the scene is accepted, and then the picture is written. -/
theorem C159_status_partial (w : World) (args : List (List Char)) (hw : ∀ n f, w.write n f = true) (s : Settings)
    (c : List Char) (st : List (List Char)) (hd : Path.IsDir (c :: st)) (hp : ImageIo.Names w.cwd (text s.output) c st)
    (f : Path.Obj) (ha : Accepted w args s f) : ∃ p, run w args = .exit 0 (some p) := by
  obtain ⟨d, -, hr⟩ := run_accepted ha
  obtain ⟨-, -, -, -, -, -, -, -, ho⟩ := id ha
  obtain ⟨e, fmt, -, -, hf, hn⟩ := ImageIo.C135_saved_partial w.build w.fs w.cwd _ c st hd hp f ho
  have hn' : ∃ name, f.absolute = some name := by
    rcases hn with ⟨-, hn⟩ | ⟨hn, -⟩
    · exact ⟨_, hn⟩
    · exact ⟨_, hn⟩
  obtain ⟨name, hn⟩ := hn'
  rw [hr, render_ends hn hf]
  simp only [Option.bind_some, hw, if_true]
  exact ⟨_, rfl⟩

/-- **C159**: without an argument, without the file, or with one that is not accepted, the status is 1. -/
theorem C159_refused (w : World) (exe path : List Char) (rest : List (List Char)) :
    (∀ args : List (List Char), args.length < 2 → run w args = .exit 1 none) ∧
    (w.file path = none → run w (exe :: path :: rest) = .exit 1 none) ∧
    (∀ main d, w.file path = some main → parseText main {} = .reject d → run w (exe :: path :: rest) = .exit 1 none) := by
  refine ⟨?_, ?_, ?_⟩
  · intro args h
    match args with
    | [] => rfl
    | [_] => rfl
    | _ :: _ :: _ => simp at h
  · intro h
    simp only [run, h]
  · intro main d h1 h2
    simp only [run, h1, parseAndRender, h2]

/-- **C159, violated.** If the picture of an accepted scene cannot be written (no space, or the file belongs to someone
else), the whole scene is rendered, the status is 0 and there is no picture. -/
theorem C159_violated (w : World) (args : List (List Char)) (s : Settings) (f : Path.Obj) (ha : Accepted w args s f)
    (hw : ∀ n fmt, w.write n fmt = false) (name : List Char) (fmt : Option Format) (h1 : f.absolute = some name)
    (h2 : saveFormat w.build f = some fmt) : run w args = .exit 0 none := by
  obtain ⟨d, -, hr⟩ := run_accepted ha
  rw [hr, render_ends h1 h2]
  cases fmt with
  | none => rfl
  | some fmt => simp [hw]

/-- Everything in one folder: the scene file `spp:4`, and a file system where everything can be written or nothing. -/
def demo (ok : Bool) : World where
  build := ⟨true, true, true⟩
  fs := ⟨fun _ => false, fun _ => true⟩
  cwd := ['/', 'h', 'o']
  file := fun p => if p = ['s'] then some (bytes "spp:4") else none
  find := fun _ => []
  write := fun _ _ => ok

theorem demo_runs (ok : Bool) : (match run (demo ok) [['x'], ['s']] with
    | .exit 0 (some p) => ok && p.name == ['/', 'h', 'o', '/', 'o', 'u', 't', '.', 'p', 'p', 'm'] && p.width == 800 &&
        p.height == 600 && p.tiles.length == 475
    | .exit 0 none => !ok
    | _ => false) = true := by
  cases ok <;> decide +kernel

/-- **C159, violated**: the full statement fails. -/
theorem C159_violated_statement : ¬ C159_statement := by
  intro h
  have hd := demo_runs false
  cases hr : run (demo false) [['x'], ['s']] with
  | undefined => rw [hr] at hd; cases hd
  | exit st pic =>
    have := h _ _ _ _ hr
    rw [hr] at hd
    match st, pic with
    | 0, none => simp at this
    | 0, some p => simp at hd
    | n + 1, none => simp at hd
    | n + 1, some p => simp at hd

/-- Non-vacuity: the demo is accepted and its picture written. -/
example : ∃ p s f, run (demo true) [['x'], ['s']] = .exit 0 (some p) ∧ Accepted (demo true) [['x'], ['s']] s f := by
  have hd := demo_runs true
  cases hr : run (demo true) [['x'], ['s']] with
  | undefined => rw [hr] at hd; cases hd
  | exit st pic =>
    rw [hr] at hd
    match st, pic with
    | 0, some p =>
      obtain ⟨-, -, h3⟩ := C159_picture _ _ _ _ hr
      obtain ⟨-, s, f, ha, -⟩ := h3 p rfl
      exact ⟨p, s, f, rfl, ha⟩
    | 0, none => simp at hd
    | n + 1, none => simp at hd
    | n + 1, some p => simp at hd

/-- Non-vacuity of `C159_status_partial`: the hypotheses hold for the demo. -/
example : ∃ s c st f, Path.IsDir (c :: st) ∧ ImageIo.Names (demo true).cwd (text s.output) c st ∧
    Accepted (demo true) [['x'], ['s']] s f ∧ ∀ n fm, (demo true).write n fm = true := by
  have hp : (match parseScene (demo true).find (bytes "spp:4") with
      | .accept (s, _) => text s.output == ['o', 'u', 't', '.', 'p', 'p', 'm']
      | _ => false) = true := by decide +kernel
  cases hs : parseScene (demo true).find (bytes "spp:4") with
  | reject d => rw [hs] at hp; cases hp
  | ub => rw [hs] at hp; cases hp
  | accept sd =>
    obtain ⟨s, d⟩ := sd
    rw [hs] at hp
    have he : text s.output = ['o', 'u', 't', '.', 'p', 'p', 'm'] := by simpa using hp
    have ho : (match openFilm (demo true).build (demo true).fs (demo true).cwd ['o', 'u', 't', '.', 'p', 'p', 'm'] with
      | some (.out _) => true
      | _ => false) = true := by decide +kernel
    have hnm : Path.IsName ['o', 'u', 't', '.', 'p', 'p', 'm'] := by unfold Path.IsName; decide +kernel
    cases hf : openFilm (demo true).build (demo true).fs (demo true).cwd ['o', 'u', 't', '.', 'p', 'p', 'm'] with
    | none => rw [hf] at ho; cases ho
    | some o =>
      cases o with
      | isFolder => rw [hf] at ho; cases ho
      | denied => rw [hf] at ho; cases ho
      | out f =>
        refine ⟨s, ['o', 'u', 't', '.', 'p', 'p', 'm'], [['h', 'o']], f, ?_, ?_, ?_, fun _ _ => rfl⟩
        · decide +kernel
        · rw [he]
          exact ImageIo.C135_names _ [['h', 'o']] (by decide +kernel) hnm
        · exact ⟨['x'], ['s'], [], bytes "spp:4", d, rfl, rfl, hs, by rw [he]; exact hf⟩

end Spectre.Run
