import Verif.Model.SceneBuild

/-!
# Objects and lights of a scene (`src/parsers/config_driver.cpp:572-705`, `src/utility/scene.cpp:34-60`)

Simplifications: a mesh is given by its name and number of faces; an asset keeps the three vectors of its matrix (the
matrix is `Spectre.Light.placement`); assets have distinct numbers, so the maps of the scene are lists.
-/

namespace Spectre.Scene

/-- `MeshObject`, config_driver.hpp:124-141: a mesh of an .obj file with the materials of its faces. -/
structure Shape where
  name : Str
  faces : Nat
  materials : List Material
  association : List Nat

/-- The name of the sphere, config_driver.cpp:582. -/
def sphereName : Str := [83, 112, 104, 101, 114, 101]

/-- The built-in sphere, config_driver.cpp:600-610; it has one face (sphere.cpp, `get_faces_number`). -/
def sphere : Shape := ⟨sphereName, 1, [dfltMaterial], [0]⟩

/-- `shapes.find`, config_driver.cpp:582-610; `shapes` has the meshes in the order they were read
(config_driver.cpp:549-566: of several with one name the first is kept). -/
def findShape (shapes : List Shape) (name : Str) : Option Shape :=
  if name ≠ sphereName then shapes.find? fun s => s.name = name else some sphere

/-- What a light emits: the temperature of a black body, or a colour. -/
inductive Emission where
  | blackbody (kelvin : Int)
  | colour (rgb : Nat × Nat × Nat)
  deriving DecidableEq

/-- An `Asset` or `AreaLight`. -/
structure Placed where
  shape : Str
  position : V3
  rotation : V3
  scale : V3
  materials : List Material
  index : List Nat
  light : Option Emission
  mask : Option Tex
  chn : Chan
  inv : Bool

/-- The body of the loop of `build_meshes`, config_driver.cpp:574-692, without the insertion into the scene. -/
def buildMesh (fs : Files) (dir : List Char) (filter : TexFilter) (shapes : List Shape) (m : Mesh) (l : Lib) :
    Option (Lib × Option Placed) :=
  match findShape shapes m.name with
  | none => some (l, none)
  | some s =>
    match optional fs dir filter m.mask.tex l.tex with
    | none => none
    | some (t, k) =>
      let mats :=
        if m.isLight then ([dfltMaterial], List.replicate s.faces 0)
        else if m.material = [] then (s.materials, s.association)
        else ([(l.get m.material).getD dfltMaterial], List.replicate s.faces 0)
      let light :=
        if m.isLight then some (if 0 ≤ m.temperature then .blackbody m.temperature else .colour (uniformColor m.color))
        else none
      some ({ l with tex := t }, some ⟨m.name, m.position, m.rotation, m.scale, mats.1, mats.2, light, k, m.mask.chn, m.mask.inv⟩)

/-- `_MAX_LIGHTS_`, settings.h:30. -/
def maxLights : Nat := 32

/-- `Scene::inherit_asset` and `inherit_light`, scene.cpp:34-60: the assets and the lights among them. -/
structure World where
  assets : List Placed := []
  lights : List Placed := []

def World.add (w : World) (p : Placed) : World :=
  match p.light with
  | none => { w with assets := w.assets ++ [p] }
  | some _ => if w.lights.length < maxLights then ⟨w.assets ++ [p], w.lights ++ [p]⟩ else w

/-- The loop, on the objects in the order it takes them. -/
def buildAll (fs : Files) (dir : List Char) (filter : TexFilter) (shapes : List Shape) : List Mesh → Lib → World →
    Option (Lib × World)
  | [], l, w => some (l, w)
  | m :: ms, l, w =>
    match buildMesh fs dir filter shapes m l with
    | none => none
    | some (l', none) => buildAll fs dir filter shapes ms l' w
    | some (l', some p) => buildAll fs dir filter shapes ms l' (w.add p)

/-- `build_meshes`, config_driver.cpp:572-693: from the last object to the first. -/
def buildMeshes (fs : Files) (dir : List Char) (filter : TexFilter) (shapes : List Shape) (ms : List Mesh) (l : Lib) :
    Option (Lib × World) := buildAll fs dir filter shapes ms.reverse l {}

/-- `MaskBoolean::is_visible`, mask_boolean.cpp:13-31, where `texel` is the map's value at the point: its channels in the
order of `Texel`. -/
def visible (map : Option Tex) (chn : Chan) (inv : Bool) (texel : Tex → Chan → Nat) : Bool :=
  match map with
  | none => true
  | some t => decide (128 ≤ texel t chn) != inv

end Spectre.Scene
