import Verif.Model.SceneDriver
import Verif.Model.File

/-!
# Building the scene from the parsed objects (`src/parsers/config_driver.cpp:261-705`, `src/textures/texture_image.cpp`)

Simplifications: the files are given by two tests (`Files`); numbers are exact; objects are values, not pointers.
-/

namespace Spectre.Scene

/-- Bytes as characters. -/
def chars (s : Str) : List Char := s.map fun b => Char.ofNat b.val

/-- The file system as far as textures are concerned. -/
structure Files where
  /-- `exists() && readable() && !is_folder() && img_valid(…)`, config_driver.cpp:278-279. -/
  image : List Char → Bool
  /-- `width == height && (height & (height-1)) == 0`, texture_image.cpp:20. -/
  square : List Char → Bool

/-- An `ImageMap`, texture_image.cpp:25-34: the file, and the filter it was made for; the default map has no file. -/
structure Map where
  file : Option (List Char)
  filter : TexFilter
  deriving DecidableEq

/-- A `TextureImage`. -/
structure Tex where
  map : Map
  shift : ℚ × ℚ
  scale : ℚ × ℚ
  unfiltered : Bool
  deriving DecidableEq

/-- `get_dflt_map` and `get_dflt_teximage`, texture_library.cpp:7-15. -/
def dfltMap : Map := ⟨none, .unfiltered⟩
def dfltTex : Tex := ⟨dfltMap, (0, 0), (1, 1), true⟩

/-- The library, `texlib` and `maplib` (`insert` keeps an entry that exists, so the entries are looked up from the
oldest on), texture_library.cpp:26-60. -/
structure TexLib where
  texs : List (List Char × Tex) := []
  maps : List (List Char × Map) := []
  deriving DecidableEq

def TexLib.tex (l : TexLib) (name : List Char) : Option Tex := l.texs.lookup name
def TexLib.map (l : TexLib) (path : List Char) : Option Map := l.maps.lookup path

/-- `TextureImage::TextureImage`, texture_image.cpp:3-50; `readable` was tested by the caller. -/
def newTexture (fs : Files) (path : List Char) (shift scale : ℚ × ℚ) (filter : TexFilter) (l : TexLib) : TexLib × Tex :=
  match l.map path with
  | some m => (l, ⟨m, shift, scale, filter = .unfiltered⟩)
  | none =>
    if fs.square path then
      let m : Map := ⟨some path, filter⟩
      ({ l with maps := l.maps ++ [(path, m)] }, ⟨m, shift, scale, filter = .unfiltered⟩)
    else (l, ⟨dfltMap, shift, scale, filter = .unfiltered⟩)

/-- `load_texture`, config_driver.cpp:261-293, in the directory `dir`; `none` is undefined behaviour of the path
functions. -/
def loadTexture (fs : Files) (dir path name : List Char) (shift scale : ℚ × ℚ) (filter : TexFilter) (l : TexLib) :
    Option (TexLib × Tex) :=
  match Path.objPath dir path with
  | none => none
  | some file =>
    match Path.mkObj file with
    | none => none
    | some f =>
      match f.filename with
      | none => none
      | some base =>
        let name := if name = [] then base else name
        match l.tex name with
        | some t => some (l, t)
        | none =>
          if fs.image file then
            let (l', t) := newTexture fs file shift scale filter l
            some ({ l' with texs := l'.texs ++ [(name, t)] }, t)
          else some (l, dfltTex)

/-- The statements `texture:{…}`, which load while the file is parsed (config_parser.y:234-237). -/
def loadAll (fs : Files) (dir : List Char) : List TexLoad → TexLib → Option TexLib
  | [], l => some l
  | t :: ts, l =>
    match loadTexture fs dir (chars t.path) (chars t.name) t.shift t.scale t.filter l with
    | none => none
    | some (l', _) => loadAll fs dir ts l'

/-- `load_texture` from `build_materials` and `build_mask`, config_driver.cpp:317-355, 695-705: no name, no shift, no
scaling, the filter set last. -/
def reference (fs : Files) (dir path : List Char) (filter : TexFilter) (l : TexLib) : Option (TexLib × Tex) :=
  loadTexture fs dir path [] (0, 0) (1, 1) filter l

/-! ## Materials -/

/-- A distribution of microfacets; the exponent of `blinn` is `none` if it is infinite. -/
inductive MDist where
  | aniso (x y : ℚ)
  | blinn (e : Option ℚ)
  | beckmann (x : ℚ)
  | ggx (x : ℚ)
  deriving DecidableEq

/-- The functions of a material, without their textures: `SingleBRDF(Lambertian)`, `SingleBRDF(OrenNayar)`,
`Lambertian + MicrofacetR`, `Refraction + DielectricReflection`, `MicrofacetT + MicrofacetR`,
`SingleBRDF(ConductorReflection)`, `SingleBRDF(MicrofacetR)`. -/
inductive Look where
  | lambert
  | orenNayar (degrees : ℚ)
  | glossy (d : MDist)
  | glassSpecular (ior : Ior)
  | glass (d : MDist) (ior : Ior)
  | metalSpecular (m : Metal)
  | metal (d : MDist) (m : Metal)
  deriving DecidableEq

/-- `MIN_ROUGHNESS`, config_driver.cpp:7 (a decimal number, not rounded). -/
def minRoughness : ℚ := 1 / 1000

/-- `clamp`, utility.hpp. -/
def clampQ (x lo hi : ℚ) : ℚ := if x < lo then lo else if hi < x then hi else x

/-- `2.f/(x*x)-2`, config_driver.cpp:403, 438-441, 482, exact up to the range of `float`. -/
def blinnExp (x : ℚ) : Option ℚ := if 2 / (x * x) < 2 ^ 128 then some (2 / (x * x) - 2) else none

/-- The choice of the distribution, config_driver.cpp:398-410, 429-453, 481-486. -/
def mdist (dist : Dist) (x y : ℚ) : MDist :=
  if y ≠ -1 then .aniso x y
  else
    match dist with
    | .blinn => .blinn (blinnExp x)
    | .beckmann => .beckmann x
    | .ggx => .ggx x

/-- The two roughnesses after config_driver.cpp:363-372. -/
def roughness (m : Mat) : ℚ × ℚ :=
  let x := clampQ m.roughX 0 1
  let y := if m.roughY = x then -1 else m.roughY
  if y ≠ -1 then (clampQ x minRoughness 1, clampQ y minRoughness 1) else (x, y)

/-- The body of the loop of `build_materials`, config_driver.cpp:363-494, without the textures. -/
def appearance (m : Mat) : Look :=
  let (x, y) := roughness m
  match m.type with
  | .matte => if x ≠ 0 then .orenNayar (100 * x) else .lambert
  | .glossy => .glossy (mdist m.dist (if x = 0 then minRoughness else x) y)
  | .glass => if x = 0 ∧ y = -1 then .glassSpecular m.ior else .glass (mdist m.dist x y) m.ior
  | .metal =>
    if x = 0 ∧ y = -1 then .metalSpecular m.elem
    else if x ≠ 0 ∧ y ≠ -1 then .metal (.aniso x y) m.elem
    else .metal (mdist m.dist x (-1)) m.elem

/-- A texture of a material. -/
inductive Paint where
  | uniform (rgb : Nat × Nat × Nat)
  | image (t : Tex)
  deriving DecidableEq

/-- A material of the library: a simple one with what multiplies its functions (for glass, `diffuse` belongs to the
transmission; metals have no texture) and its normal map; or two materials and a mask. -/
inductive Material where
  | simple (l : Look) (diffuse specular : Paint) (bump : Option Tex)
  | dual (first second : Material) (mask : Option Tex) (chn : Chan) (inv : Bool)
  deriving DecidableEq

/-- `MtlLib.get_default()`, material_library.cpp:8. -/
def dfltMaterial : Material := .simple .lambert (.image dfltTex) (.image dfltTex) none

/-- The library of materials (`insert` keeps an entry that exists) and the library of textures. -/
structure Lib where
  tex : TexLib := {}
  mats : List (Str × Material) := []

/-- The name of the default material, material_library.cpp:9. -/
def dfltName : Str := [68, 101, 102, 97, 117, 108, 116]

/-- `MtlLib.get`, material_library.cpp:22-33. -/
def Lib.get (l : Lib) (n : Str) : Option Material := if n = dfltName then some dfltMaterial else l.mats.lookup n

/-- `diffuse` or `specular`, config_driver.cpp:314-334. -/
def paint (fs : Files) (dir : List Char) (filter : TexFilter) (file : Str) (uniform : Option (Nat × Nat × Nat))
    (l : TexLib) : Option (TexLib × Paint) :=
  match uniform with
  | some c => some (l, .uniform c)
  | none =>
    if file = [] then some (l, .image dfltTex)
    else
      match reference fs dir (chars file) filter l with
      | none => none
      | some (l', t) => some (l', .image t)

/-- An optional texture: the normal map, config_driver.cpp:336-361, and the map of a mask, config_driver.cpp:695-705. -/
def optional (fs : Files) (dir : List Char) (filter : TexFilter) (file : Str) (l : TexLib) : Option (TexLib × Option Tex) :=
  if file = [] then some (l, none)
  else
    match reference fs dir (chars file) filter l with
    | none => none
    | some (l', t) => some (l', some t)

/-- The body of the loop of `build_materials`, config_driver.cpp:302-496. -/
def buildMaterial (fs : Files) (dir : List Char) (filter : TexFilter) (m : Mat) (l : Lib) : Option Lib :=
  match l.get m.name with
  | some _ => some l
  | none =>
    match paint fs dir filter m.diffuse m.diffuseUniform l.tex with
    | none => none
    | some (l₁, d) =>
      match paint fs dir filter m.specular m.specularUniform l₁ with
      | none => none
      | some (l₂, s) =>
        match optional fs dir filter m.bump l₂ with
        | none => none
        | some (l₃, b) => some ⟨l₃, l.mats ++ [(m.name, .simple (appearance m) d s b)]⟩

/-- `build_materials`, config_driver.cpp:295-498. -/
def buildMaterials (fs : Files) (dir : List Char) (filter : TexFilter) : List Mat → Lib → Option Lib
  | [], l => some l
  | m :: ms, l =>
    match buildMaterial fs dir filter m l with
    | none => none
    | some l' => buildMaterials fs dir filter ms l'

/-- `build_dualmaterials`, config_driver.cpp:500-520. -/
def buildDuals (fs : Files) (dir : List Char) (filter : TexFilter) : List DualMat → Lib → Option Lib
  | [], l => some l
  | m :: ms, l =>
    match optional fs dir filter m.mask.tex l.tex with
    | none => none
    | some (t, k) =>
      let x := Material.dual ((l.get m.first).getD dfltMaterial) ((l.get m.second).getD dfltMaterial) k m.mask.chn m.mask.inv
      buildDuals fs dir filter ms
        ⟨t, match l.get m.name with
          | some _ => l.mats
          | none => l.mats ++ [(m.name, x)]⟩

end Spectre.Scene
