import Mathlib.Data.List.Basic

/-
The material library, /repo/src/materials/material_library.cpp, the texture library,
/repo/src/textures/texture_library.cpp, and the containers of the scene, /repo/src/utility/scene.cpp.

Objects are numbered by their address.  `freed` records the deletions in order; an address in it twice is a double
free, an address handed out that is in it is dangling.
-/

namespace Spectre.Lib

/-- `std::unordered_map<std::string, ...>` with distinct keys. -/
abbrev Map := List (String × Nat)

/-- `find`. -/
def Map.find (m : Map) (n : String) : Option Nat :=
  match m with
  | [] => none
  | (k, p) :: r => if k = n then some p else Map.find r n

/-- `insert`: does nothing when the key is there. -/
def Map.insert (m : Map) (n : String) (p : Nat) : Map :=
  match m.find n with
  | none => (n, p) :: m
  | some _ => m

/-- `erase` of an iterator. -/
def Map.erase (m : Map) (n : String) : Map :=
  match m with
  | [] => []
  | (k, p) :: r => if k = n then r else (k, p) :: Map.erase r n

/-- The objects. -/
def Map.ptrs (m : Map) : List Nat := m.map Prod.snd

/-! ### Materials -/

/-- The fields, material_library.hpp:124-125. -/
structure Mtl where
  lib : Map
  dflt : Nat
  freed : List Nat
  deriving DecidableEq, Repr

/-- The constructor, material_library.cpp:6-10. -/
def Mtl.init (d : Nat) : Mtl := ⟨[("Default", d)], d, []⟩

/-- The calls that change the library. -/
inductive MOp where
  | add (name : String) (p : Nat)
  | erase (name : String)
  | clear
  deriving DecidableEq, Repr

/-- material_library.cpp:17-20, 34-62.  `none`: `clear` dereferences the end iterator. -/
def Mtl.step (s : Mtl) : MOp → Option Mtl
  | .add n p => some { s with lib := s.lib.insert n p }
  | .erase n =>
    if n = "Default" then some s
    else
      match s.lib.find n with
      | none => some s
      | some p => some { s with lib := s.lib.erase n, freed := p :: s.freed }
  | .clear =>
    match s.lib.find "Default" with
    | none => none
    | some d => some { s with lib := Map.insert [] "Default" d, freed := (s.lib.erase "Default").ptrs ++ s.freed }

/-- A sequence of calls. -/
def Mtl.run (s : Mtl) : List MOp → Option Mtl
  | [] => some s
  | o :: os =>
    match s.step o with
    | none => none
    | some s' => s'.run os

/-- `get`, material_library.cpp:22-32; `NULL` is `none`. -/
def Mtl.get (s : Mtl) (n : String) : Option Nat := s.lib.find n

/-! ### Textures -/

/-- The fields, texture_library.hpp:194-199; the three defaults are owned directly. -/
structure Tex where
  texlib : Map
  maplib : Map
  unref : List Nat
  defaults : List Nat
  freed : List Nat
  deriving DecidableEq, Repr

/-- The constructor, texture_library.cpp:7-15. -/
def Tex.init (texture map teximg : Nat) : Tex := ⟨[], [], [], [map, teximg, texture], []⟩

/-- The calls that change the library. -/
inductive TOp where
  | inheritTexture (name : String) (p : Nat)
  | inheritUnnamed (p : Nat)
  | inheritMap (name : String) (p : Nat)
  | eraseTexture (name : String)
  | eraseMap (name : String)
  | clear
  deriving DecidableEq, Repr

/-- texture_library.cpp:25-39 and 63-96. -/
def Tex.step (s : Tex) : TOp → Tex
  | .inheritTexture n p => { s with texlib := s.texlib.insert n p }
  | .inheritUnnamed p => { s with unref := s.unref ++ [p] }
  | .inheritMap n p => { s with maplib := s.maplib.insert n p }
  | .eraseTexture n =>
    match s.texlib.find n with
    | none => s
    | some p => { s with texlib := s.texlib.erase n, freed := p :: s.freed }
  | .eraseMap n =>
    match s.maplib.find n with
    | none => s
    | some p => { s with maplib := s.maplib.erase n, freed := p :: s.freed }
  | .clear =>
    { s with texlib := [], maplib := [], unref := [], freed := s.texlib.ptrs ++ s.maplib.ptrs ++ s.unref ++ s.freed }

/-- A sequence of calls. -/
def Tex.run (s : Tex) (os : List TOp) : Tex := os.foldl Tex.step s

/-- The destructor, texture_library.cpp:17-23. -/
def Tex.destroy (s : Tex) : Tex :=
  let s := s.step .clear
  { s with defaults := [], freed := s.defaults ++ s.freed }

/-! ### Scene -/

/-- The containers, scene.hpp:107-116; assets are numbered by their id.  `kd` are the assets given to the kd-tree. -/
structure Scene where
  assets : List Nat
  lights : List Nat
  kd : List Nat
  deriving DecidableEq, Repr

/-- The empty scene. -/
def Scene.init : Scene := ⟨[], [], []⟩

/-- The calls that change the scene. -/
inductive SOp where
  | asset (id : Nat)
  | light (id : Nat)
  deriving DecidableEq, Repr

/-- `inherit_asset` and `inherit_light`, scene.cpp:34-60; `_MAX_LIGHTS_` is 32. -/
def Scene.step (s : Scene) : SOp → Scene
  | .asset a => { s with assets := if a ∈ s.assets then s.assets else s.assets ++ [a], kd := s.kd ++ [a] }
  | .light a =>
    if s.lights.length < 32 then
      if a ∈ s.assets then s
      else { assets := s.assets ++ [a], lights := s.lights ++ [a], kd := s.kd ++ [a] }
    else s

/-- A sequence of calls. -/
def Scene.run (s : Scene) (os : List SOp) : Scene := os.foldl Scene.step s

end Spectre.Lib
