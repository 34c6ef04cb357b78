import Verif.Model.SceneChain
import Verif.Model.ImageIo
import Verif.Model.Tiles

/-
A run of the program, from its arguments to its exit status: /repo/src/main.cpp:11-29, `ConfigDriver::parse`
(/repo/src/parsers/config_driver.cpp:45-117) and `Renderer::render` (/repo/src/renderer.cpp:79-151).

`Console.critical` ends the program with the status `EXIT_FAILURE`, which is 1 (console.cpp:124-144).  Reading, parsing,
the checks of the settings, the constructor of the film and the tiles are those of the other models.  Building the
materials and meshes (config_driver.cpp:95-115) and rendering are left out: they are taken to end, and neither of them
ends the program (in the version without DEBUG).  Memory is never short, and `File(f.c_str()).get_parent()` (line 49) is taken to be defined.  The time that is printed is left out.
-/

namespace Spectre.Run

open Spectre.Scene (Str Byte Out Driver parseText readChildren)
open Spectre.ImageIo (Build Fs Opened Format openFilm saveFormat)
open Spectre.Tiles (Task jobs)

/-- What the program finds and asks outside of itself. -/
structure World where
  build : Build
  fs : Fs
  cwd : List Char
  /-- the file opened by `scan_begin`, config_lexer.l:184-192 -/
  file : List Char → Option (List Byte)
  /-- the files at the paths of the children that exist, config_driver.cpp:73-79 -/
  find : List Str → List (Option (List Byte))
  /-- whether `img_write` can write the file -/
  write : List Char → Format → Bool

/-- A picture written, and the tiles that were rendered for it. -/
structure Picture where
  name : List Char
  format : Format
  width : Nat
  height : Nat
  tiles : List Task

/-- How the program ends. -/
inductive End where
  | exit (status : Nat) (picture : Option Picture)
  | undefined

/-- `std::string` of a path. -/
def text (s : Str) : List Char := s.map fun b => Char.ofNat b.val

/-- `Renderer::render`, renderer.cpp:100-151, with the film of the size of the settings; the result of `save_image` is
dropped (line 147). -/
def render (w : World) (f : Path.Obj) (d : Driver) : End :=
  match f.absolute, saveFormat w.build f with
  | some name, some fmt =>
    .exit 0 (fmt.bind fun fmt =>
      if w.write name fmt then
        some ⟨name, fmt, d.width.toNat, d.height.toNat, jobs d.width.toNat d.height.toNat⟩
      else none)
  | _, _ => .undefined

/-- `ConfigDriver::parse`, config_driver.cpp:51-88, and what follows in `main`, main.cpp:18-29.  The film is opened
(line 61) before the children are read. -/
def parseAndRender (w : World) (main : List Byte) : End :=
  match parseText main {} with
  | .reject _ => .exit 1 none
  | .ub => .undefined
  | .accept d =>
    match d.check with
    | none => .undefined
    | some d =>
      match openFilm w.build w.fs w.cwd (text d.output) with
      | none => .undefined
      | some .isFolder => .exit 1 none
      | some .denied => .exit 1 none
      | some (.out f) =>
        match readChildren (w.find d.children) { d with children := [] } with
        | .reject _ => .exit 1 none
        | .ub => .undefined
        | .accept _ => render w f d

/-- `main`, main.cpp:11-29. -/
def run (w : World) (args : List (List Char)) : End :=
  match args with
  | _ :: path :: _ =>
    match w.file path with
    | none => .exit 1 none
    | some text => parseAndRender w text
  | _ => .exit 1 none

end Spectre.Run
