import Mathlib.Data.List.Induction
import Mathlib.Tactic.FinCases
import Verif.Props.SceneGrammar
import Verif.Model.SceneDriver

/-!
# What a scene file means (C122)

The specification is a description of scene files as their authors see them: a file is a list of statements (`Stmt`),
which are written down as tokens (`Stmt.toks`) and have a meaning (`meaning`) given key by key as the documentation does
(`src/parsers/README.md:96-229`): the value of a key is the one written last, or its default.
-/

namespace Spectre.Scene

/-! ## Specification: statements -/

/-- A token without value. -/
def kw (t : Tok) : Tok × Val := (t, .unit)

/-- A string as written, with its quotes (not empty, but possibly cut off: a byte 0 ends it). -/
abbrev Quoted := { s : Str // s ≠ [] }

/-- The text between the quotes. -/
def Quoted.text (s : Quoted) : Str := s.1.tail.dropLast

def Quoted.toks (s : Quoted) : List (Tok × Val) := [(.STRING, .str s.1)]

/-- A number. -/
inductive Num where
  | uint (n : Int)
  | int (n : Int)
  | float (x : ℚ)

def Num.toks : Num → List (Tok × Val)
  | .uint n => [(.UINT, .uint n)]
  | .int n => [(.INT, .int n)]
  | .float x => [(.FLOAT, .num x)]

def Num.val : Num → ℚ
  | .uint n => n
  | .int n => n
  | .float x => x

/-- `[x,y,z]`. -/
structure Vec where
  x : Num
  y : Num
  z : Num

def Vec.toks (v : Vec) : List (Tok × Val) :=
  kw .OPEN_SQ :: v.x.toks ++ kw .COMMA :: v.y.toks ++ kw .COMMA :: v.z.toks ++ [kw .CLOSE_SQ]

def Vec.val (v : Vec) : V3 := ⟨v.x.val, v.y.val, v.z.val⟩

/-- `[x,y]`. -/
def pairToks (x y : Num) : List (Tok × Val) := kw .OPEN_SQ :: x.toks ++ kw .COMMA :: y.toks ++ [kw .CLOSE_SQ]

/-- `key: value`. -/
def entry (t : Tok) (l : List (Tok × Val)) : List (Tok × Val) := kw t :: kw .COLON :: l

/-- `key: {...}`. -/
def object (t : Tok) (l : List (Tok × Val)) : List (Tok × Val) := entry t (kw .OPEN_CU :: l ++ [kw .CLOSE_CU])

inductive ResItem where
  | width (n : Int)
  | height (n : Int)
  | comma

def ResItem.toks : ResItem → List (Tok × Val)
  | .width n => entry .WIDTH [(.UINT, .uint n)]
  | .height n => entry .HEIGHT [(.UINT, .uint n)]
  | .comma => [kw .COMMA]

def FilterType.tok : FilterType → Tok
  | .box => .BOX | .tent => .TENT | .gauss => .GAUSS | .mitchell => .MITCHELL | .lanczos => .LANCZOS

def TexFilter.tok : TexFilter → Tok
  | .unfiltered => .UNFILTERED | .trilinear => .TRILINEAR | .ewa => .EWA

inductive FilterItem where
  | type (f : FilterType)
  | value0 (x : Num)
  | value1 (x : Num)
  | texture (f : TexFilter)
  | comma

def FilterItem.toks : FilterItem → List (Tok × Val)
  | .type f => entry .TYPE [kw f.tok]
  | .value0 x => entry .VAL_0 x.toks
  | .value1 x => entry .VAL_1 x.toks
  | .texture f => entry .TEXTURE [kw f.tok]
  | .comma => [kw .COMMA]

def CameraType.tok : CameraType → Tok
  | .orthographic => .ORTHOGRAPHIC | .perspective => .PERSPECTIVE | .panorama => .PANORAMA

inductive CameraItem where
  | type (c : CameraType)
  | position (v : Vec)
  | target (v : Vec)
  | up (v : Vec)
  | fov (x : Num)
  | comma

def CameraItem.toks : CameraItem → List (Tok × Val)
  | .type c => entry .TYPE [kw c.tok]
  | .position v => entry .POSITION v.toks
  | .target v => entry .TARGET v.toks
  | .up v => entry .UP v.toks
  | .fov x => entry .FOV x.toks
  | .comma => [kw .COMMA]

def Chan.tok : Chan → Tok
  | .red => .CHNR | .green => .CHNG | .blue => .CHNB | .alpha => .CHNA

/-- `using channel R`, `inverted`. -/
inductive Attr where
  | chan (c : Chan)
  | inverted

def Attr.tok : Attr → Tok
  | .chan c => c.tok
  | .inverted => .INV

/-- `mask: "name" using channel R inverted`. -/
def maskToks (s : Quoted) (as : List Attr) : List (Tok × Val) := entry .MASK (s.toks ++ as.map fun a => kw a.tok)

inductive WorldItem where
  | position (v : Vec)
  | rotation (v : Vec)
  | scale (v : Vec)
  | scale1 (x : Num)
  | material (s : Quoted)
  | mask (s : Quoted) (as : List Attr)
  | comma

def WorldItem.toks : WorldItem → List (Tok × Val)
  | .position v => entry .POSITION v.toks
  | .rotation v => entry .ROTATION v.toks
  | .scale v => entry .SCALE v.toks
  | .scale1 x => entry .SCALE x.toks
  | .material s => entry .MATERIAL s.toks
  | .mask s as => maskToks s as
  | .comma => [kw .COMMA]

inductive LightItem where
  | world (i : WorldItem)
  | temperature (n : Int)
  | color (v : Vec)

def LightItem.toks : LightItem → List (Tok × Val)
  | .world i => i.toks
  | .temperature n => entry .TEMPERATURE [(.UINT, .uint n)]
  | .color v => entry .COLOR v.toks

inductive TexItem where
  | name (s : Quoted)
  | scale (x y : Num)
  | scale1 (x : Num)
  | shift (x y : Num)
  | comma

def TexItem.toks : TexItem → List (Tok × Val)
  | .name s => entry .NAME s.toks
  | .scale x y => entry .SCALE (pairToks x y)
  | .scale1 x => entry .SCALE x.toks
  | .shift x y => entry .SHIFT (pairToks x y)
  | .comma => [kw .COMMA]

def MatType.tok : MatType → Tok
  | .matte => .MATTE | .glossy => .GLOSSY | .metal => .METAL | .glass => .GLASS

def Dist.tok : Dist → Tok
  | .blinn => .BLINN | .beckmann => .BECKMANN | .ggx => .GGX

def Metal.tok : Metal → Tok
  | .silver => .SILVER | .aluminium => .ALUMINIUM | .gold => .GOLD | .copper => .COPPER | .iron => .IRON
  | .mercury => .MERCURY | .lead => .LEAD | .platinum => .PLATINUM | .tungsten => .TUNGSTEN | .beryllium => .BERYLLIUM
  | .bismuth => .BISMUTH | .cobalt => .COBALT | .chromium => .CHROMIUM | .germanium => .GERMANIUM
  | .potassium => .POTASSIUM | .lithium => .LITHIUM | .magnesium => .MAGNESIUM | .manganese => .MANGANESE
  | .molybdenum => .MOLYBDENUM | .sodium => .SODIUM | .niobium => .NIOBIUM | .nickel => .NICKEL
  | .palladium => .PALLADIUM | .rhodium => .RHODIUM | .tantalum => .TANTALUM | .titanium => .TITANIUM
  | .vanadium => .VANADIUM | .zinc => .ZINC | .zirconium => .ZIRCONIUM

inductive MatItem where
  | type (t : MatType)
  | ior1 (x : Num)
  | ior2 (x y : Num)
  | ior3 (v : Vec)
  | ior6 (v u : Vec)
  | roughness (x : Num)
  | anisotropy (x : Num)
  | distribution (d : Dist)
  | diffuse (s : Quoted)
  | diffuseColor (v : Vec)
  | specular (s : Quoted)
  | specularColor (v : Vec)
  | normal (s : Quoted)
  | element (m : Metal)
  | comma

def MatItem.toks : MatItem → List (Tok × Val)
  | .type t => entry .TYPE [kw t.tok]
  | .ior1 x => entry .IOR x.toks
  | .ior2 x y => entry .IOR (pairToks x y)
  | .ior3 v => entry .IOR v.toks
  | .ior6 v u => entry .IOR (v.toks ++ u.toks)
  | .roughness x => entry .ROUGHNESS x.toks
  | .anisotropy x => entry .ANISOTROPY x.toks
  | .distribution d => entry .DISTRIBUTION [kw d.tok]
  | .diffuse s => entry .DIFFUSE s.toks
  | .diffuseColor v => entry .DIFFUSE v.toks
  | .specular s => entry .SPECULAR s.toks
  | .specularColor v => entry .SPECULAR v.toks
  | .normal s => entry .NORMAL s.toks
  | .element m => entry .ELEM [kw m.tok]
  | .comma => [kw .COMMA]

inductive DualItem where
  | first (s : Quoted)
  | second (s : Quoted)
  | mask (s : Quoted) (as : List Attr)
  | comma

def DualItem.toks : DualItem → List (Tok × Val)
  | .first s => entry .FIRST s.toks
  | .second s => entry .SECOND s.toks
  | .mask s as => maskToks s as
  | .comma => [kw .COMMA]

def Sampler.tok : Sampler → Tok
  | .random => .RANDOM | .stratified => .STRATIFIED

/-- A statement of a scene file.  The items of a `texture`, `material` or `dualmaterial` are those before and after its
`src` or `name`, which must occur exactly once; the `name` of a `world` or `light` object must come first. -/
inductive Stmt where
  | out (s : Quoted)
  | resolution (l : List ResItem)
  | filter (l : List FilterItem)
  | sampler (s : Sampler)
  | spp (n : Int)
  | integrator
  | camera (l : List CameraItem)
  | shape (s : Quoted)
  | world (name : Quoted) (l : List WorldItem)
  | light (name : Quoted) (l : List LightItem)
  | texture (pre : List TexItem) (src : Quoted) (post : List TexItem)
  | child (s : Quoted)
  | material (pre : List MatItem) (name : Quoted) (post : List MatItem)
  | dual (pre : List DualItem) (name : Quoted) (post : List DualItem)
  | comma

def Stmt.toks : Stmt → List (Tok × Val)
  | .out s => entry .OUTPUT s.toks
  | .resolution l => object .RESOLUTION (l.flatMap ResItem.toks)
  | .filter l => object .FILTER (l.flatMap FilterItem.toks)
  | .sampler s => entry .SAMPLER [kw s.tok]
  | .spp n => entry .SPP [(.UINT, .uint n)]
  | .integrator => entry .INTEGRATOR [kw .PATH_TRACE]
  | .camera l => object .CAMERA (l.flatMap CameraItem.toks)
  | .shape s => entry .SHAPE s.toks
  | .world s l => object .WORLD (entry .NAME s.toks ++ l.flatMap WorldItem.toks)
  | .light s l => object .LIGHT (entry .NAME s.toks ++ l.flatMap LightItem.toks)
  | .texture pre s post => object .TEXTURE (pre.flatMap TexItem.toks ++ entry .SRC s.toks ++ post.flatMap TexItem.toks)
  | .child s => entry .MATERIAL s.toks
  | .material pre s post =>
    object .MATERIAL (pre.flatMap MatItem.toks ++ entry .NAME s.toks ++ post.flatMap MatItem.toks)
  | .dual pre s post =>
    object .DUALMATERIAL (pre.flatMap DualItem.toks ++ entry .NAME s.toks ++ post.flatMap DualItem.toks)
  | .comma => [kw .COMMA]

/-- These three objects may not be empty. -/
def Stmt.Proper : Stmt → Prop
  | .resolution l => l ≠ []
  | .filter l => l ≠ []
  | .camera l => l ≠ []
  | _ => True

/-! ## Specification: meaning -/

/-- The last of the values, or the default. -/
def lastOr {α : Type} (x : α) (l : List α) : α := l.getLast?.getD x

/-- The mask described by a name and attributes: the last channel counts, alpha if there is none. -/
def maskOf (s : Quoted) (as : List Attr) : Mask where
  tex := s.text
  chn := lastOr .alpha (as.filterMap fun | .chan c => some c | .inverted => none)
  inv := as.any fun | .inverted => true | .chan _ => false

/-- README.md:155-166. -/
def worldMesh (name : Quoted) (l : List WorldItem) : Mesh where
  name := name.text
  material := lastOr [] (l.filterMap fun | .material s => some s.text | _ => none)
  position := lastOr ⟨0, 0, 0⟩ (l.filterMap fun | .position v => some v.val | _ => none)
  rotation := lastOr ⟨0, 0, 0⟩ (l.filterMap fun | .rotation v => some v.val | _ => none)
  scale := lastOr ⟨1, 1, 1⟩ (l.filterMap fun
    | .scale v => some v.val
    | .scale1 x => some ⟨x.val, x.val, x.val⟩
    | _ => none)
  isLight := false
  temperature := -1
  color := ⟨255, 255, 255⟩
  mask := lastOr {} (l.filterMap fun | .mask s as => some (maskOf s as) | _ => none)

/-- README.md:143-153; the color counts if the temperature is not set (negative). -/
def lightMesh (name : Quoted) (l : List LightItem) : Mesh :=
  { worldMesh name (l.filterMap fun | .world i => some i | _ => none) with
    isLight := true
    temperature := lastOr (-1) (l.filterMap fun | .temperature n => some n | _ => none)
    color := lastOr ⟨255, 255, 255⟩ (l.filterMap fun | .color v => some v.val | _ => none) }

/-- README.md:168-176; the filter is the one in force. -/
def texLoad (f : TexFilter) (src : Quoted) (l : List TexItem) : TexLoad where
  path := src.text
  name := lastOr [] (l.filterMap fun | .name s => some s.text | _ => none)
  shift := lastOr (0, 0) (l.filterMap fun | .shift x y => some (x.val, y.val) | _ => none)
  scale := lastOr (1, 1) (l.filterMap fun
    | .scale x y => some (x.val, y.val)
    | .scale1 x => some (x.val, x.val)
    | _ => none)
  filter := f

/-- README.md:178-192. -/
def matOf (name : Quoted) (l : List MatItem) : Mat where
  name := name.text
  elem := lastOr .gold (l.filterMap fun | .element m => some m | _ => none)
  type := lastOr .matte (l.filterMap fun | .type t => some t | _ => none)
  ior := lastOr (.cauchy (145 / 100) 0 0) (l.filterMap fun
    | .ior1 x => some (.cauchy x.val 0 0)
    | .ior2 x y => some (.cauchy x.val y.val 0)
    | .ior3 v => some (.cauchy v.x.val v.y.val v.z.val)
    | .ior6 v u => some (.sellmeier v.val u.val)
    | _ => none)
  roughX := lastOr 0 (l.filterMap fun | .roughness x => some x.val | _ => none)
  roughY := lastOr (-1) (l.filterMap fun | .anisotropy x => some x.val | _ => none)
  dist := lastOr .beckmann (l.filterMap fun | .distribution d => some d | _ => none)
  diffuse := lastOr [] (l.filterMap fun | .diffuse s => some s.text | _ => none)
  diffuseUniform := lastOr none (l.filterMap fun | .diffuseColor v => some (some (uniformColor v.val)) | _ => none)
  specular := lastOr [] (l.filterMap fun | .specular s => some s.text | _ => none)
  specularUniform := lastOr none (l.filterMap fun | .specularColor v => some (some (uniformColor v.val)) | _ => none)
  bump := lastOr [] (l.filterMap fun | .normal s => some s.text | _ => none)

/-- README.md:194-202. -/
def dualOf (name : Quoted) (l : List DualItem) : DualMat where
  name := name.text
  first := lastOr [] (l.filterMap fun | .first s => some s.text | _ => none)
  second := lastOr [] (l.filterMap fun | .second s => some s.text | _ => none)
  mask := lastOr {} (l.filterMap fun | .mask s as => some (maskOf s as) | _ => none)

/-- The items of all `resolution`, `filter` and `camera` objects. -/
def resItems (ss : List Stmt) : List ResItem := ss.flatMap fun | .resolution l => l | _ => []
def filterItems (ss : List Stmt) : List FilterItem := ss.flatMap fun | .filter l => l | _ => []
def cameraItems (ss : List Stmt) : List CameraItem := ss.flatMap fun | .camera l => l | _ => []

/-- The texture filter after the statements, if it was `f` before. -/
def texFilterOf (f : TexFilter) (ss : List Stmt) : TexFilter :=
  lastOr f ((filterItems ss).filterMap fun | .texture f => some f | _ => none)

/-- The `n`th statement, if it is a texture, is loaded with the filter set before it. -/
def loadAt (f : TexFilter) (ss : List Stmt) (n : Nat) : Option TexLoad :=
  match ss[n]? with
  | some (.texture pre src post) => some (texLoad (texFilterOf f (ss.take n)) src (pre ++ post))
  | _ => none

/-- What the statements of a file mean, if the settings and objects were those of `d` before: settings are those written
last, or those of `d`; objects are collected in order. -/
def meaning (d : Driver) (ss : List Stmt) : Driver where
  output := lastOr d.output (ss.filterMap fun | .out s => some s.text | _ => none)
  width := lastOr d.width ((resItems ss).filterMap fun | .width n => some n | _ => none)
  height := lastOr d.height ((resItems ss).filterMap fun | .height n => some n | _ => none)
  spp := lastOr d.spp (ss.filterMap fun | .spp n => some n | _ => none)
  sampler := lastOr d.sampler (ss.filterMap fun | .sampler s => some s | _ => none)
  camera := lastOr d.camera ((cameraItems ss).filterMap fun | .type c => some c | _ => none)
  filter := lastOr d.filter ((filterItems ss).filterMap fun | .type f => some f | _ => none)
  texFilter := texFilterOf d.texFilter ss
  fov := lastOr d.fov ((cameraItems ss).filterMap fun | .fov x => some x.val | _ => none)
  value0 := lastOr d.value0 ((filterItems ss).filterMap fun | .value0 x => some x.val | _ => none)
  value1 := lastOr d.value1 ((filterItems ss).filterMap fun | .value1 x => some x.val | _ => none)
  cameraPos := lastOr d.cameraPos ((cameraItems ss).filterMap fun | .position v => some v.val | _ => none)
  cameraTar := lastOr d.cameraTar ((cameraItems ss).filterMap fun | .target v => some v.val | _ => none)
  cameraUp := lastOr d.cameraUp ((cameraItems ss).filterMap fun | .up v => some v.val | _ => none)
  texName := []
  texScale := (1, 1)
  texShift := (0, 0)
  children := d.children ++ ss.filterMap fun | .child s => some s.text | _ => none
  shapes := d.shapes ++ ss.filterMap fun | .shape s => some s.text | _ => none
  meshes := d.meshes ++ ss.filterMap fun
    | .world s l => some (worldMesh s l)
    | .light s l => some (lightMesh s l)
    | _ => none
  mats := d.mats ++ ss.filterMap fun | .material pre s post => some (matOf s (pre ++ post)) | _ => none
  duals := d.duals ++ ss.filterMap fun | .dual pre s post => some (dualOf s (pre ++ post)) | _ => none
  loads := d.loads ++ (List.range ss.length).filterMap (loadAt d.texFilter ss)
  curMesh := {}
  curMat := {}
  curDual := {}
  curMask := {}

/-- The defaults, README.md:96-141. -/
structure IsDefault (d : Driver) : Prop where
  output : d.output = "out.ppm".toList.map fun c => Fin.ofNat 256 c.toNat
  width : d.width = 800
  height : d.height = 600
  spp : d.spp = 121
  sampler : d.sampler = .stratified
  camera : d.camera = .perspective
  filter : d.filter = .mitchell
  texFilter : d.texFilter = .trilinear
  fov : d.fov = 55
  value0 : d.value0 = 33 / 100
  value1 : d.value1 = 33 / 100
  cameraPos : d.cameraPos = ⟨0, 0, 0⟩
  cameraTar : d.cameraTar = ⟨0, 0, 1⟩
  cameraUp : d.cameraUp = ⟨0, 1, 0⟩
  children : d.children = []
  shapes : d.shapes = []
  meshes : d.meshes = []
  mats : d.mats = []
  duals : d.duals = []
  loads : d.loads = []

/-- No object is being read. -/
structure Idle (d : Driver) : Prop where
  texName : d.texName = []
  texScale : d.texScale = (1, 1)
  texShift : d.texShift = (0, 0)
  curMesh : d.curMesh = {}
  curMat : d.curMat = {}
  curDual : d.curDual = {}
  curMask : d.curMask = {}

/-! ## Derivations with typed tokens -/

/-- The type of the value of a terminal. -/
def TokTy : Tok → Val → Prop
  | .UINT, v => ∃ n, v = .uint n
  | .INT, v => ∃ n, v = .int n
  | .FLOAT, v => ∃ x, v = .num x
  | .STRING, v => ∃ s : Quoted, v = .str s.1
  | _, v => v = .unit

def Typed (w : List (Tok × Val)) : Prop := ∀ t ∈ w, TokTy t.1 t.2

theorem typed_nil : Typed [] := by simp [Typed]

theorem typed_cons {t : Tok × Val} {w : List (Tok × Val)} : Typed (t :: w) ↔ TokTy t.1 t.2 ∧ Typed w := by simp [Typed]

theorem typed_append {w w' : List (Tok × Val)} : Typed (w ++ w') ↔ Typed w ∧ Typed w' := by
  simp only [Typed, List.mem_append]
  constructor
  · intro h; exact ⟨fun t ht => h t (Or.inl ht), fun t ht => h t (Or.inr ht)⟩
  · rintro ⟨h, h'⟩ t (ht | ht)
    · exact h t ht
    · exact h' t ht

/-- A derivation from typed tokens. -/
def T (ss : List Sym) (w : List (Tok × Val)) (d : Driver) (vs : List Val) (d' : Driver) : Prop :=
  Parses sem ss w d vs d' ∧ Typed w

theorem T_nil {w d vs d'} : T [] w d vs d' ↔ w = [] ∧ vs = [] ∧ d' = d := by
  constructor
  · rintro ⟨h, -⟩
    cases h
    exact ⟨rfl, rfl, rfl⟩
  · rintro ⟨rfl, rfl, rfl⟩
    exact ⟨.nil _, typed_nil⟩

theorem T_tok {a : Tok} {ss w d vs d'} : T (.t a :: ss) w d vs d' ↔
    ∃ v, TokTy a v ∧ ∃ w' vs', w = (a, v) :: w' ∧ vs = v :: vs' ∧ T ss w' d vs' d' := by
  constructor
  · rintro ⟨h, ht⟩
    cases h with
    | tok a v h =>
      rw [typed_cons] at ht
      exact ⟨v, ht.1, _, _, rfl, rfl, h, ht.2⟩
  · rintro ⟨v, hv, w', vs', rfl, rfl, h, ht⟩
    exact ⟨.tok a v h, typed_cons.2 ⟨hv, ht⟩⟩

theorem T_cons {A : NT} {ss w d vs d'} : T (.n A :: ss) w d vs d' ↔
    ∃ w₁ v d₁, T [.n A] w₁ d [v] d₁ ∧ ∃ w₂ vs', w = w₁ ++ w₂ ∧ vs = v :: vs' ∧ T ss w₂ d₁ vs' d' := by
  constructor
  · rintro ⟨h, ht⟩
    cases h with
    | @rule _ w₁ w₂ _ d₁ d₂ _ us v vs n A rhs hr h ha h' =>
      rw [typed_append] at ht
      refine ⟨w₁, v, d₂, ⟨?_, ht.1⟩, w₂, vs, rfl, rfl, h', ht.2⟩
      have := Parses.rule n A rhs hr h ha (.nil d₂)
      rwa [List.append_nil] at this
  · rintro ⟨w₁, v, d₁, ⟨h, ht⟩, w₂, vs', rfl, rfl, h', ht'⟩
    refine ⟨?_, typed_append.2 ⟨ht, ht'⟩⟩
    generalize hs : [Sym.n A] = s at h
    generalize hv : [v] = vs at h
    cases h with
    | nil => cases hs
    | tok => cases hs
    | rule n A' rhs hr h ha h'' =>
      cases hs
      cases h''
      cases hv
      rw [List.append_nil]
      exact .rule n _ rhs hr h ha h'

/-- A terminal without value. -/
def isKw : Tok → Bool
  | .UINT | .INT | .FLOAT | .STRING => false
  | _ => true

theorem T_kw {a : Tok} {ss w d vs d'} (h : isKw a = true) : T (.t a :: ss) w d vs d' ↔
    ∃ w' vs', (w = kw a :: w' ∧ vs = .unit :: vs') ∧ T ss w' d vs' d' := by
  have : ∀ v, TokTy a v ↔ v = .unit := by cases a <;> first | (exact absurd h (by decide)) | (exact fun v => Iff.rfl)
  rw [T_tok]
  simp only [this, exists_eq_left, kw, and_assoc]

theorem T_str {ss w d vs d'} : T (.t .STRING :: ss) w d vs d' ↔
    ∃ (s : Quoted) (w' : _) (vs' : _), (w = (.STRING, .str s.1) :: w' ∧ vs = .str s.1 :: vs') ∧ T ss w' d vs' d' := by
  rw [T_tok]
  simp only [TokTy, and_assoc]
  constructor
  · rintro ⟨_, ⟨s, rfl⟩, w', vs', h⟩; exact ⟨s, w', vs', h⟩
  · rintro ⟨s, w', vs', h⟩; exact ⟨_, ⟨s, rfl⟩, w', vs', h⟩

theorem T_uint {ss w d vs d'} : T (.t .UINT :: ss) w d vs d' ↔
    ∃ n w' vs', (w = (.UINT, .uint n) :: w' ∧ vs = .uint n :: vs') ∧ T ss w' d vs' d' := by
  rw [T_tok]
  simp only [TokTy, and_assoc]
  constructor
  · rintro ⟨_, ⟨s, rfl⟩, w', vs', h⟩; exact ⟨s, w', vs', h⟩
  · rintro ⟨s, w', vs', h⟩; exact ⟨_, ⟨s, rfl⟩, w', vs', h⟩

theorem T_int {ss w d vs d'} : T (.t .INT :: ss) w d vs d' ↔
    ∃ n w' vs', (w = (.INT, .int n) :: w' ∧ vs = .int n :: vs') ∧ T ss w' d vs' d' := by
  rw [T_tok]
  simp only [TokTy, and_assoc]
  constructor
  · rintro ⟨_, ⟨s, rfl⟩, w', vs', h⟩; exact ⟨s, w', vs', h⟩
  · rintro ⟨s, w', vs', h⟩; exact ⟨_, ⟨s, rfl⟩, w', vs', h⟩

theorem T_flt {ss w d vs d'} : T (.t .FLOAT :: ss) w d vs d' ↔
    ∃ x w' vs', (w = (.FLOAT, .num x) :: w' ∧ vs = .num x :: vs') ∧ T ss w' d vs' d' := by
  rw [T_tok]
  simp only [TokTy, and_assoc]
  constructor
  · rintro ⟨_, ⟨s, rfl⟩, w', vs', h⟩; exact ⟨s, w', vs', h⟩
  · rintro ⟨s, w', vs', h⟩; exact ⟨_, ⟨s, rfl⟩, w', vs', h⟩

/-- The rules of a nonterminal with their actions. -/
def rulesFor (A : NT) : List (List Sym × Action) :=
  (grammar.zip actions).filterMap fun r => if r.1.1 = A then some (r.1.2, r.2) else none

theorem mem_rulesFor {A : NT} {rhs : List Sym} {f : Action} : (rhs, f) ∈ rulesFor A ↔
    ∃ n : Nat, grammar[n]? = some (A, rhs) ∧ actions[n]? = some f := by
  unfold rulesFor
  rw [List.mem_filterMap]
  constructor
  · rintro ⟨⟨⟨B, r⟩, g⟩, hm, h⟩
    obtain ⟨n, hn⟩ := List.mem_iff_getElem?.1 hm
    rw [List.getElem?_zip_eq_some] at hn
    simp only at h
    split at h
    · rename_i e
      simp only [Option.some.injEq, Prod.mk.injEq] at h
      obtain ⟨rfl, rfl⟩ := h
      subst e
      exact ⟨n, hn⟩
    · cases h
  · rintro ⟨n, hn⟩
    exact ⟨((A, rhs), f), List.mem_iff_getElem?.2 ⟨n, List.getElem?_zip_eq_some.2 hn⟩, by simp⟩

theorem T_nt {A : NT} {w d v d'} : T [.n A] w d [v] d' ↔
    ∃ r ∈ rulesFor A, ∃ us d₁, T r.1 w d us d₁ ∧ r.2 us d₁ = some (v, d') := by
  constructor
  · rintro ⟨h, ht⟩
    generalize hv : [v] = vs at h
    cases h with
    | rule n A rhs hr h ha h' =>
      cases h'
      cases hv
      simp only [sem] at ha
      split at ha
      · cases ha
      rename_i f hf
      rw [List.append_nil] at ht ⊢
      exact ⟨(rhs, f), mem_rulesFor.2 ⟨n, hr, hf⟩, _, _, ⟨h, ht⟩, ha⟩
  · rintro ⟨⟨rhs, f⟩, hr, us, d₁, ⟨h, ht⟩, ha⟩
    obtain ⟨n, hn, hf⟩ := mem_rulesFor.1 hr
    have := Parses.rule n A rhs hn h (by simpa only [sem, hf] using ha) (.nil d')
    rw [List.append_nil] at this
    exact ⟨this, ht⟩

theorem strip_quoted (s : Quoted) : strip s.1 = some s.text := by
  obtain ⟨s, hs⟩ := s
  have : s.length ≠ 0 := by simpa using hs
  simp only [strip, this, if_false, Quoted.text, List.dropLast_eq_take, List.drop_one, List.length_tail, Nat.sub_sub]

/-! ## Numbers and vectors -/

/-- The rules of a nonterminal as alternatives. -/
theorem exists_rule {P : List Sym × Action → Prop} {r : List Sym × Action} {l : List (List Sym × Action)} :
    (∃ x ∈ r :: l, P x) ↔ P r ∨ ∃ x ∈ l, P x := by simp

theorem exists_rule_nil {P : List Sym × Action → Prop} : (∃ x ∈ ([] : List (List Sym × Action)), P x) ↔ False := by simp

theorem T_integer {w d v d'} : T [.n .integer] w d [v] d' ↔
    d' = d ∧ ∃ n, (w = [(.UINT, .uint n)] ∨ w = [(.INT, .int n)]) ∧ v = .int n := by
  have hr : rulesFor .integer = [([.t .UINT], giveUint 1), ([.t .INT], giveInt 1)] := rfl
  rw [T_nt, hr]
  simp only [exists_rule, exists_rule_nil, T_uint, T_int, T_nil]
  constructor
  · rintro (⟨_, _, ⟨n, _, _, ⟨rfl, rfl⟩, rfl, rfl, rfl⟩, h⟩ | ⟨_, _, ⟨n, _, _, ⟨rfl, rfl⟩, rfl, rfl, rfl⟩, h⟩ | h)
    · cases h; exact ⟨rfl, n, Or.inl rfl, rfl⟩
    · cases h; exact ⟨rfl, n, Or.inr rfl, rfl⟩
    · cases h
  · rintro ⟨rfl, n, rfl | rfl, rfl⟩
    · exact Or.inl ⟨_, _, ⟨_, _, _, ⟨rfl, rfl⟩, rfl, rfl, rfl⟩, rfl⟩
    · exact Or.inr (Or.inl ⟨_, _, ⟨_, _, _, ⟨rfl, rfl⟩, rfl, rfl, rfl⟩, rfl⟩)

theorem T_number {w d v d'} : T [.n .number] w d [v] d' ↔ d' = d ∧ ∃ x : Num, w = x.toks ∧ v = .num x.val := by
  have hr : rulesFor .number = [([.t .FLOAT], giveFloat 1), ([.n .integer], giveNumber 1)] := rfl
  rw [T_nt, hr]
  simp only [exists_rule, exists_rule_nil, T_flt, T_nil]
  constructor
  · rintro (⟨_, _, ⟨n, _, _, ⟨rfl, rfl⟩, rfl, rfl, rfl⟩, h⟩ | ⟨us, d₁, h', h⟩ | h)
    · cases h; exact ⟨rfl, .float n, rfl, rfl⟩
    · obtain ⟨w₁, v', d₂, h', w₂, vs', rfl, rfl, h''⟩ := T_cons.1 h'
      obtain ⟨rfl, rfl, rfl⟩ := T_nil.1 h''
      obtain ⟨rfl, n, rfl | rfl, rfl⟩ := T_integer.1 h'
      · cases h; exact ⟨rfl, .uint n, rfl, rfl⟩
      · cases h; exact ⟨rfl, .int n, rfl, rfl⟩
    · cases h
  · rintro ⟨rfl, (n | n | x), rfl, rfl⟩
    · exact Or.inr (Or.inl ⟨_, _, T_integer.2 ⟨rfl, n, Or.inl rfl, rfl⟩, rfl⟩)
    · exact Or.inr (Or.inl ⟨_, _, T_integer.2 ⟨rfl, n, Or.inr rfl, rfl⟩, rfl⟩)
    · exact Or.inl ⟨_, _, ⟨_, _, _, ⟨rfl, rfl⟩, rfl, rfl, rfl⟩, rfl⟩

theorem T_num_cons {ss w d vs d'} : T (.n .number :: ss) w d vs d' ↔
    ∃ (x : Num) (w' : _) (vs' : _), (w = x.toks ++ w' ∧ vs = .num x.val :: vs') ∧ T ss w' d vs' d' := by
  rw [T_cons]
  simp only [T_number]
  constructor
  · rintro ⟨_, _, _, ⟨rfl, x, rfl, rfl⟩, w', vs', rfl, rfl, h⟩; exact ⟨x, w', vs', ⟨rfl, rfl⟩, h⟩
  · rintro ⟨x, w', vs', ⟨rfl, rfl⟩, h⟩; exact ⟨_, _, _, ⟨rfl, x, rfl, rfl⟩, w', vs', rfl, rfl, h⟩

theorem T_vector {w d v d'} : T [.n .vector] w d [v] d' ↔ d' = d ∧ ∃ x : Vec, w = x.toks ∧ v = .vec x.val := by
  have hr : rulesFor .vector = [([.t .OPEN_SQ, .n .number, .t .COMMA, .n .number, .t .COMMA, .n .number, .t .CLOSE_SQ],
    giveVec 2 4 6)] := rfl
  rw [T_nt, hr]
  simp (disch := decide) only [exists_rule, exists_rule_nil, T_kw, T_num_cons, T_nil]
  constructor
  · rintro (⟨_, _, ⟨_, _, ⟨rfl, rfl⟩, x, _, _, ⟨rfl, rfl⟩, _, _, ⟨rfl, rfl⟩, y, _, _, ⟨rfl, rfl⟩, _, _, ⟨rfl, rfl⟩,
      z, _, _, ⟨rfl, rfl⟩, _, _, ⟨rfl, rfl⟩, rfl, rfl, rfl⟩, h⟩ | h)
    · cases h; exact ⟨rfl, ⟨x, y, z⟩, by simp [Vec.toks], rfl⟩
    · cases h
  · rintro ⟨rfl, ⟨x, y, z⟩, rfl, rfl⟩
    refine Or.inl ⟨_, _, ⟨_, _, ⟨?_, rfl⟩, x, _, _, ⟨rfl, rfl⟩, _, _, ⟨rfl, rfl⟩, y, _, _, ⟨rfl, rfl⟩, _, _, ⟨rfl, rfl⟩,
      z, _, _, ⟨rfl, rfl⟩, _, _, ⟨rfl, rfl⟩, rfl, rfl, rfl⟩, rfl⟩
    simp [Vec.toks]

theorem T_vec_cons {ss w d vs d'} : T (.n .vector :: ss) w d vs d' ↔
    ∃ (x : Vec) (w' : _) (vs' : _), (w = x.toks ++ w' ∧ vs = .vec x.val :: vs') ∧ T ss w' d vs' d' := by
  rw [T_cons]
  simp only [T_vector]
  constructor
  · rintro ⟨_, _, _, ⟨rfl, x, rfl, rfl⟩, w', vs', rfl, rfl, h⟩; exact ⟨x, w', vs', ⟨rfl, rfl⟩, h⟩
  · rintro ⟨x, w', vs', ⟨rfl, rfl⟩, h⟩; exact ⟨_, _, _, ⟨rfl, x, rfl, rfl⟩, w', vs', rfl, rfl, h⟩

theorem T_vector2 {w d v d'} : T [.n .vector2] w d [v] d' ↔
    d' = d ∧ ∃ x y : Num, w = pairToks x y ∧ v = .vec2 x.val y.val := by
  have hr : rulesFor .vector2 = [([.t .OPEN_SQ, .n .number, .t .COMMA, .n .number, .t .CLOSE_SQ], giveVec2 2 4)] := rfl
  rw [T_nt, hr]
  simp (disch := decide) only [exists_rule, exists_rule_nil, T_kw, T_num_cons, T_nil]
  constructor
  · rintro (⟨_, _, ⟨_, _, ⟨rfl, rfl⟩, x, _, _, ⟨rfl, rfl⟩, _, _, ⟨rfl, rfl⟩, y, _, _, ⟨rfl, rfl⟩, _, _, ⟨rfl, rfl⟩,
      rfl, rfl, rfl⟩, h⟩ | h)
    · cases h; exact ⟨rfl, x, y, by simp [pairToks], rfl⟩
    · cases h
  · rintro ⟨rfl, x, y, rfl, rfl⟩
    refine Or.inl ⟨_, _, ⟨_, _, ⟨?_, rfl⟩, x, _, _, ⟨rfl, rfl⟩, _, _, ⟨rfl, rfl⟩, y, _, _, ⟨rfl, rfl⟩, _, _, ⟨rfl, rfl⟩,
      rfl, rfl, rfl⟩, rfl⟩
    simp [pairToks]

theorem T_vec2_cons {ss w d vs d'} : T (.n .vector2 :: ss) w d vs d' ↔
    ∃ (x y : Num) (w' : _) (vs' : _), (w = pairToks x y ++ w' ∧ vs = .vec2 x.val y.val :: vs') ∧ T ss w' d vs' d' := by
  rw [T_cons]
  simp only [T_vector2]
  constructor
  · rintro ⟨_, _, _, ⟨rfl, x, y, rfl, rfl⟩, w', vs', rfl, rfl, h⟩; exact ⟨x, y, w', vs', ⟨rfl, rfl⟩, h⟩
  · rintro ⟨x, y, w', vs', ⟨rfl, rfl⟩, h⟩; exact ⟨_, _, _, ⟨rfl, x, y, rfl, rfl⟩, w', vs', rfl, rfl, h⟩

/-! ## Rules by their form -/

/-- The tokens are an instance of the right-hand side, with the effect of the action. -/
def R (r : List Sym × Action) (w : List (Tok × Val)) (d : Driver) (v : Val) (d' : Driver) : Prop :=
  ∃ us d₁, T r.1 w d us d₁ ∧ r.2 us d₁ = some (v, d')

theorem T_rules {A : NT} {l : List (List Sym × Action)} (h : rulesFor A = l) {w d v d'} :
    T [.n A] w d [v] d' ↔ ∃ r ∈ l, R r w d v d' := by rw [T_nt, h]; rfl

theorem R_comma {w d v d'} : R ([.t .COMMA], nop) w d v d' ↔ v = .unit ∧ w = [kw .COMMA] ∧ d' = d := by
  simp (disch := decide) only [R, T_kw, T_nil]
  constructor
  · rintro ⟨_, _, ⟨_, _, ⟨rfl, rfl⟩, rfl, rfl, rfl⟩, h⟩; cases h; exact ⟨rfl, rfl, rfl⟩
  · rintro ⟨rfl, rfl, rfl⟩; exact ⟨_, _, ⟨_, _, ⟨rfl, rfl⟩, rfl, rfl, rfl⟩, rfl⟩

theorem R_kw {K X : Tok} {f w d v d'} (hK : isKw K = true) (hX : isKw X = true) :
    R ([.t K, .t .COLON, .t X], upd f) w d v d' ↔ v = .unit ∧ w = entry K [kw X] ∧ d' = f d := by
  simp (disch := first | decide | assumption) only [R, T_kw, T_nil]
  constructor
  · rintro ⟨_, _, ⟨_, _, ⟨rfl, rfl⟩, _, _, ⟨rfl, rfl⟩, _, _, ⟨rfl, rfl⟩, rfl, rfl, rfl⟩, h⟩; cases h; exact ⟨rfl, rfl, rfl⟩
  · rintro ⟨rfl, rfl, rfl⟩
    exact ⟨_, _, ⟨_, _, ⟨rfl, rfl⟩, _, _, ⟨rfl, rfl⟩, _, _, ⟨rfl, rfl⟩, rfl, rfl, rfl⟩, rfl⟩

theorem R_str {K : Tok} {f w d v d'} (hK : isKw K = true) : R ([.t K, .t .COLON, .t .STRING], setStr 3 f) w d v d' ↔
    v = .unit ∧ ∃ s : Quoted, w = entry K s.toks ∧ d' = f s.text d := by
  simp (disch := first | decide | assumption) only [R, T_kw, T_str, T_nil]
  constructor
  · rintro ⟨_, _, ⟨_, _, ⟨rfl, rfl⟩, _, _, ⟨rfl, rfl⟩, s, _, _, ⟨rfl, rfl⟩, rfl, rfl, rfl⟩, h⟩
    simp only [setStr, Nat.add_one_sub_one, List.getElem?_cons_succ, List.getElem?_cons_zero, strip_quoted, Option.some.injEq, Prod.mk.injEq] at h
    exact ⟨h.1.symm, s, rfl, h.2.symm⟩
  · rintro ⟨rfl, s, rfl, rfl⟩
    refine ⟨_, _, ⟨_, _, ⟨rfl, rfl⟩, _, _, ⟨rfl, rfl⟩, s, _, _, ⟨rfl, rfl⟩, rfl, rfl, rfl⟩, ?_⟩
    simp only [setStr, Nat.add_one_sub_one, List.getElem?_cons_succ, List.getElem?_cons_zero, strip_quoted]

theorem R_uint {K : Tok} {f w d v d'} (hK : isKw K = true) : R ([.t K, .t .COLON, .t .UINT], setUint 3 f) w d v d' ↔
    v = .unit ∧ ∃ n, w = entry K [(.UINT, .uint n)] ∧ d' = f n d := by
  simp (disch := first | decide | assumption) only [R, T_kw, T_uint, T_nil]
  constructor
  · rintro ⟨_, _, ⟨_, _, ⟨rfl, rfl⟩, _, _, ⟨rfl, rfl⟩, s, _, _, ⟨rfl, rfl⟩, rfl, rfl, rfl⟩, h⟩
    cases h; exact ⟨rfl, s, rfl, rfl⟩
  · rintro ⟨rfl, s, rfl, rfl⟩
    exact ⟨_, _, ⟨_, _, ⟨rfl, rfl⟩, _, _, ⟨rfl, rfl⟩, s, _, _, ⟨rfl, rfl⟩, rfl, rfl, rfl⟩, rfl⟩

theorem R_num {K : Tok} {f w d v d'} (hK : isKw K = true) : R ([.t K, .t .COLON, .n .number], setNum 3 f) w d v d' ↔
    v = .unit ∧ ∃ x : Num, w = entry K x.toks ∧ d' = f x.val d := by
  simp (disch := first | decide | assumption) only [R, T_kw, T_num_cons, T_nil]
  constructor
  · rintro ⟨_, _, ⟨_, _, ⟨rfl, rfl⟩, _, _, ⟨rfl, rfl⟩, s, _, _, ⟨rfl, rfl⟩, rfl, rfl, rfl⟩, h⟩
    cases h; exact ⟨rfl, s, by simp [entry], rfl⟩
  · rintro ⟨rfl, s, rfl, rfl⟩
    exact ⟨_, _, ⟨_, _, ⟨rfl, rfl⟩, _, _, ⟨rfl, rfl⟩, s, _, _, ⟨(List.append_nil _).symm, rfl⟩, rfl, rfl, rfl⟩, rfl⟩

theorem R_vec {K : Tok} {f w d v d'} (hK : isKw K = true) : R ([.t K, .t .COLON, .n .vector], setVec 3 f) w d v d' ↔
    v = .unit ∧ ∃ x : Vec, w = entry K x.toks ∧ d' = f x.val d := by
  simp (disch := first | decide | assumption) only [R, T_kw, T_vec_cons, T_nil]
  constructor
  · rintro ⟨_, _, ⟨_, _, ⟨rfl, rfl⟩, _, _, ⟨rfl, rfl⟩, s, _, _, ⟨rfl, rfl⟩, rfl, rfl, rfl⟩, h⟩
    cases h; exact ⟨rfl, s, by simp [entry], rfl⟩
  · rintro ⟨rfl, s, rfl, rfl⟩
    exact ⟨_, _, ⟨_, _, ⟨rfl, rfl⟩, _, _, ⟨rfl, rfl⟩, s, _, _, ⟨(List.append_nil _).symm, rfl⟩, rfl, rfl, rfl⟩, rfl⟩

theorem R_vecs {K : Tok} {f w d v d'} (hK : isKw K = true) :
    R ([.t K, .t .COLON, .n .vector, .n .vector], setVecs 3 4 f) w d v d' ↔
    v = .unit ∧ ∃ x y : Vec, w = entry K (x.toks ++ y.toks) ∧ d' = f x.val y.val d := by
  simp (disch := first | decide | assumption) only [R, T_kw, T_vec_cons, T_nil]
  constructor
  · rintro ⟨_, _, ⟨_, _, ⟨rfl, rfl⟩, _, _, ⟨rfl, rfl⟩, s, _, _, ⟨rfl, rfl⟩, t, _, _, ⟨rfl, rfl⟩, rfl, rfl, rfl⟩, h⟩
    cases h; exact ⟨rfl, s, t, by simp [entry], rfl⟩
  · rintro ⟨rfl, s, t, rfl, rfl⟩
    exact ⟨_, _, ⟨_, _, ⟨rfl, rfl⟩, _, _, ⟨rfl, rfl⟩, s, _, _, ⟨rfl, rfl⟩, t, _, _, ⟨(List.append_nil _).symm, rfl⟩, rfl, rfl,
      rfl⟩, rfl⟩

theorem R_vec2 {K : Tok} {f w d v d'} (hK : isKw K = true) : R ([.t K, .t .COLON, .n .vector2], setVec2 3 f) w d v d' ↔
    v = .unit ∧ ∃ x y : Num, w = entry K (pairToks x y) ∧ d' = f x.val y.val d := by
  simp (disch := first | decide | assumption) only [R, T_kw, T_vec2_cons, T_nil]
  constructor
  · rintro ⟨_, _, ⟨_, _, ⟨rfl, rfl⟩, _, _, ⟨rfl, rfl⟩, s, t, _, _, ⟨rfl, rfl⟩, rfl, rfl, rfl⟩, h⟩
    cases h; exact ⟨rfl, s, t, by simp [entry], rfl⟩
  · rintro ⟨rfl, s, t, rfl, rfl⟩
    exact ⟨_, _, ⟨_, _, ⟨rfl, rfl⟩, _, _, ⟨rfl, rfl⟩, s, t, _, _, ⟨(List.append_nil _).symm, rfl⟩, rfl, rfl, rfl⟩, rfl⟩

/-- `T_cons` where a terminal follows. -/
theorem T_cons_tok {A : NT} {a : Tok} {ss w d vs d'} : T (.n A :: .t a :: ss) w d vs d' ↔
    ∃ w₁ v d₁, T [.n A] w₁ d [v] d₁ ∧ ∃ w₂ vs', w = w₁ ++ w₂ ∧ vs = v :: vs' ∧ T (.t a :: ss) w₂ d₁ vs' d' := T_cons

/-- An object in braces. -/
theorem R_obj {K : Tok} {O : NT} {f w d v d'} (hK : isKw K = true) :
    R ([.t K, .t .COLON, .t .OPEN_CU, .n O, .t .CLOSE_CU], upd f) w d v d' ↔
    v = .unit ∧ ∃ w' v' d₁, T [.n O] w' d [v'] d₁ ∧ w = object K w' ∧ d' = f d₁ := by
  simp (disch := first | decide | assumption) only [R, T_kw, T_cons_tok, T_nil]
  constructor
  · rintro ⟨_, _, ⟨_, _, ⟨rfl, rfl⟩, _, _, ⟨rfl, rfl⟩, _, _, ⟨rfl, rfl⟩, w', v', d₁, ht, _, _, rfl, rfl, _, _, ⟨rfl, rfl⟩, rfl,
      rfl, rfl⟩, h⟩
    cases h; exact ⟨rfl, w', v', _, ht, rfl, rfl⟩
  · rintro ⟨rfl, w', v', d₁, ht, rfl, rfl⟩
    exact ⟨_, _, ⟨_, _, ⟨rfl, rfl⟩, _, _, ⟨rfl, rfl⟩, _, _, ⟨rfl, rfl⟩, w', v', d₁, ht, _, _, rfl, rfl, _, _, ⟨rfl, rfl⟩, rfl,
      rfl, rfl⟩, rfl⟩

/-- No action is like an action without effect. -/
theorem nop_eq : nop = upd fun d => d := rfl

/-! ## Lists -/

/-- The effect of a list of items. -/
def applyAll {I : Type} (ap : I → Driver → Driver) (l : List I) (d : Driver) : Driver := l.foldl (fun d i => ap i d) d

theorem applyAll_append {I : Type} (ap : I → Driver → Driver) (l l' : List I) (d : Driver) :
    applyAll ap (l ++ l') d = applyAll ap l' (applyAll ap l d) := List.foldl_append

/-- A left-recursive list of items. -/
theorem T_list {I : Type} {L : NT} {Xs : List NT} (tk : I → List (Tok × Val)) (ap : I → Driver → Driver)
    (htk : ∀ i, tk i ≠ [])
    (hL : ∀ r ∈ rulesFor L, r.2 = nop ∧ ∃ X ∈ Xs, r.1 = [.n L, .n X] ∨ r.1 = [.n X])
    (hR : ∀ X ∈ Xs, ([.n L, .n X], nop) ∈ rulesFor L ∧ ([.n X], nop) ∈ rulesFor L)
    (hX : ∀ w d v d', (∃ X ∈ Xs, T [.n X] w d [v] d') ↔ v = .unit ∧ ∃ i, w = tk i ∧ d' = ap i d) {w d v d'} :
    T [.n L] w d [v] d' ↔ v = .unit ∧ ∃ l, l ≠ [] ∧ w = l.flatMap tk ∧ d' = applyAll ap l d := by
  constructor
  · intro h
    induction hn : w.length using Nat.strong_induction_on generalizing w v d' with
    | _ n ih =>
      obtain ⟨r, hr, us, d₁, ht, ha⟩ := T_nt.1 h
      obtain ⟨h2, X, hXs, h1 | h1⟩ := hL r hr
      · rw [h1] at ht
        rw [h2] at ha
        obtain ⟨w₁, v₁, d₂, h3, w₂, vs, rfl, rfl, h4⟩ := T_cons.1 ht
        obtain ⟨w₃, v₃, d₃, h5, w₄, vs', rfl, rfl, h6⟩ := T_cons.1 h4
        obtain ⟨rfl, rfl, rfl⟩ := T_nil.1 h6
        obtain ⟨rfl, i, rfl, rfl⟩ := (hX _ _ _ _).1 ⟨X, hXs, h5⟩
        have hpos : 0 < (tk i).length := List.length_pos_iff.2 (htk i)
        obtain ⟨rfl, l, hl, rfl, rfl⟩ := ih _ (by simp only [List.length_append] at hn; omega) h3 rfl
        cases ha
        refine ⟨rfl, l ++ [i], by simp, by simp, ?_⟩
        rw [applyAll_append]; rfl
      · rw [h1] at ht
        rw [h2] at ha
        obtain ⟨w₃, v₃, d₃, h5, w₄, vs', rfl, rfl, h6⟩ := T_cons.1 ht
        obtain ⟨rfl, rfl, rfl⟩ := T_nil.1 h6
        obtain ⟨rfl, i, rfl, rfl⟩ := (hX _ _ _ _).1 ⟨X, hXs, h5⟩
        cases ha
        exact ⟨rfl, [i], by simp, by simp, rfl⟩
  · rintro ⟨rfl, l, hl, rfl, rfl⟩
    induction l using List.reverseRecOn with
    | nil => exact absurd rfl hl
    | append_singleton l i ih =>
      obtain ⟨X, hXs, hT⟩ := (hX (tk i) (applyAll ap l d) .unit _).2 ⟨rfl, i, rfl, rfl⟩
      rw [applyAll_append]
      by_cases h : l = []
      · subst h
        refine T_nt.2 ⟨_, (hR X hXs).2, [.unit], _, ?_, rfl⟩
        simpa [applyAll] using hT
      · refine T_nt.2 ⟨_, (hR X hXs).1, [.unit, .unit], _,
          T_cons.2 ⟨_, _, _, ih h, _, [.unit], by rw [List.flatMap_append], rfl, ?_⟩, rfl⟩
        simpa [applyAll] using hT

/-- A left-recursive list of items of one kind. -/
theorem T_list1 {I : Type} {L X : NT} (tk : I → List (Tok × Val)) (ap : I → Driver → Driver) (htk : ∀ i, tk i ≠ [])
    (hL : rulesFor L = [([.n L, .n X], nop), ([.n X], nop)])
    (hX : ∀ w d v d', T [.n X] w d [v] d' ↔ v = .unit ∧ ∃ i, w = tk i ∧ d' = ap i d) {w d v d'} :
    T [.n L] w d [v] d' ↔ v = .unit ∧ ∃ l, l ≠ [] ∧ w = l.flatMap tk ∧ d' = applyAll ap l d := by
  refine T_list (Xs := [X]) tk ap htk ?_ ?_ (by simpa using hX)
  · rw [hL]; simp
  · rw [hL]; simp

/-! ## Items -/

def ResItem.apply : ResItem → Driver → Driver
  | .width n, d => { d with width := n }
  | .height n, d => { d with height := n }
  | .comma, d => d

theorem T_resItem (w d v d') : T [.n .resolution_stmt] w d [v] d' ↔ v = .unit ∧ ∃ i : ResItem,
  w = i.toks ∧ d' = i.apply d := by
  have hr : rulesFor .resolution_stmt = [
    ([.t .WIDTH, .t .COLON, .t .UINT], setUint 3 fun n d => { d with width := n }),
    ([.t .HEIGHT, .t .COLON, .t .UINT], setUint 3 fun n d => { d with height := n }),
    ([.t .COMMA], nop)] := rfl
  rw [T_rules hr]
  simp (disch := decide) only [exists_rule, exists_rule_nil, R_comma, R_uint, ← and_or_left, or_false]
  refine and_congr_right fun _ => ⟨?_, ?_⟩
  · rintro (⟨s, h⟩ | ⟨s, h⟩ | h)
    exacts [⟨.width s, h⟩, ⟨.height s, h⟩, ⟨.comma, h⟩]
  · rintro ⟨(x | x | _), h⟩
    exacts [.inl ⟨x, h⟩, .inr (.inl ⟨x, h⟩), .inr (.inr h)]

theorem T_resObj {w d v d'} : T [.n .resolution_obj] w d [v] d' ↔
    v = .unit ∧ ∃ l, l ≠ [] ∧ w = l.flatMap ResItem.toks ∧ d' = applyAll ResItem.apply l d :=
  T_list1 _ _ (fun i => by cases i <;> simp [ResItem.toks, entry]) rfl T_resItem

def FilterItem.apply : FilterItem → Driver → Driver
  | .type x, d => { d with filter := x }
  | .value0 x, d => { d with value0 := x.val }
  | .value1 x, d => { d with value1 := x.val }
  | .texture x, d => { d with texFilter := x }
  | .comma, d => d

theorem T_filterItem (w d v d') : T [.n .filter_stmt] w d [v] d' ↔ v = .unit ∧ ∃ i : FilterItem,
  w = i.toks ∧ d' = i.apply d := by
  have hr : rulesFor .filter_stmt = [
    ([.t .TYPE, .t .COLON, .t .BOX], upd fun d => { d with filter := .box }),
    ([.t .TYPE, .t .COLON, .t .TENT], upd fun d => { d with filter := .tent }),
    ([.t .TYPE, .t .COLON, .t .GAUSS], upd fun d => { d with filter := .gauss }),
    ([.t .TYPE, .t .COLON, .t .MITCHELL], upd fun d => { d with filter := .mitchell }),
    ([.t .TYPE, .t .COLON, .t .LANCZOS], upd fun d => { d with filter := .lanczos }),
    ([.t .VAL_0, .t .COLON, .n .number], setNum 3 fun x d => { d with value0 := x }),
    ([.t .VAL_1, .t .COLON, .n .number], setNum 3 fun x d => { d with value1 := x }),
    ([.t .TEXTURE, .t .COLON, .t .UNFILTERED], upd fun d => { d with texFilter := .unfiltered }),
    ([.t .TEXTURE, .t .COLON, .t .TRILINEAR], upd fun d => { d with texFilter := .trilinear }),
    ([.t .TEXTURE, .t .COLON, .t .EWA], upd fun d => { d with texFilter := .ewa }),
    ([.t .COMMA], nop)] := rfl
  rw [T_rules hr]
  simp (disch := decide) only [exists_rule, exists_rule_nil, R_comma, R_kw, R_num, ← and_or_left, or_false]
  refine and_congr_right fun _ => ⟨?_, ?_⟩
  · rintro (h | h | h | h | h | ⟨s, h⟩ | ⟨s, h⟩ | h | h | h | h)
    exacts [⟨.type .box, h⟩, ⟨.type .tent, h⟩, ⟨.type .gauss, h⟩, ⟨.type .mitchell, h⟩, ⟨.type .lanczos, h⟩,
      ⟨.value0 s, h⟩, ⟨.value1 s, h⟩, ⟨.texture .unfiltered, h⟩, ⟨.texture .trilinear, h⟩, ⟨.texture .ewa, h⟩,
      ⟨.comma, h⟩]
  · rintro ⟨((_ | _ | _ | _ | _) | x | x | (_ | _ | _) | _), h⟩
    exacts [.inl h, .inr (.inl h), .inr (.inr (.inl h)), .inr (.inr (.inr (.inl h))),
      .inr (.inr (.inr (.inr (.inl h)))), .inr (.inr (.inr (.inr (.inr (.inl ⟨x, h⟩))))),
      .inr (.inr (.inr (.inr (.inr (.inr (.inl ⟨x, h⟩)))))), .inr (.inr (.inr (.inr (.inr (.inr (.inr (.inl h))))))),
      .inr (.inr (.inr (.inr (.inr (.inr (.inr (.inr (.inl h)))))))),
      .inr (.inr (.inr (.inr (.inr (.inr (.inr (.inr (.inr (.inl h))))))))),
      .inr (.inr (.inr (.inr (.inr (.inr (.inr (.inr (.inr (.inr h)))))))))]

theorem T_filterObj {w d v d'} : T [.n .filter_obj] w d [v] d' ↔
    v = .unit ∧ ∃ l, l ≠ [] ∧ w = l.flatMap FilterItem.toks ∧ d' = applyAll FilterItem.apply l d :=
  T_list1 _ _ (fun i => by cases i <;> simp [FilterItem.toks, entry]) rfl T_filterItem

def CameraItem.apply : CameraItem → Driver → Driver
  | .type x, d => { d with camera := x }
  | .position x, d => { d with cameraPos := x.val }
  | .target x, d => { d with cameraTar := x.val }
  | .up x, d => { d with cameraUp := x.val }
  | .fov x, d => { d with fov := x.val }
  | .comma, d => d

theorem T_cameraItem (w d v d') : T [.n .camera_stmt] w d [v] d' ↔ v = .unit ∧ ∃ i : CameraItem,
  w = i.toks ∧ d' = i.apply d := by
  have hr : rulesFor .camera_stmt = [
    ([.t .TYPE, .t .COLON, .t .ORTHOGRAPHIC], upd fun d => { d with camera := .orthographic }),
    ([.t .TYPE, .t .COLON, .t .PERSPECTIVE], upd fun d => { d with camera := .perspective }),
    ([.t .TYPE, .t .COLON, .t .PANORAMA], upd fun d => { d with camera := .panorama }),
    ([.t .POSITION, .t .COLON, .n .vector], setVec 3 fun x d => { d with cameraPos := x }),
    ([.t .TARGET, .t .COLON, .n .vector], setVec 3 fun x d => { d with cameraTar := x }),
    ([.t .UP, .t .COLON, .n .vector], setVec 3 fun x d => { d with cameraUp := x }),
    ([.t .FOV, .t .COLON, .n .number], setNum 3 fun x d => { d with fov := x }),
    ([.t .COMMA], nop)] := rfl
  rw [T_rules hr]
  simp (disch := decide) only [exists_rule, exists_rule_nil, R_comma, R_kw, R_num, R_vec, ← and_or_left, or_false]
  refine and_congr_right fun _ => ⟨?_, ?_⟩
  · rintro (h | h | h | ⟨s, h⟩ | ⟨s, h⟩ | ⟨s, h⟩ | ⟨s, h⟩ | h)
    exacts [⟨.type .orthographic, h⟩, ⟨.type .perspective, h⟩, ⟨.type .panorama, h⟩, ⟨.position s, h⟩, ⟨.target s,
      h⟩, ⟨.up s, h⟩, ⟨.fov s, h⟩, ⟨.comma, h⟩]
  · rintro ⟨((_ | _ | _) | x | x | x | x | _), h⟩
    exacts [.inl h, .inr (.inl h), .inr (.inr (.inl h)), .inr (.inr (.inr (.inl ⟨x, h⟩))),
      .inr (.inr (.inr (.inr (.inl ⟨x, h⟩)))), .inr (.inr (.inr (.inr (.inr (.inl ⟨x, h⟩))))),
      .inr (.inr (.inr (.inr (.inr (.inr (.inl ⟨x, h⟩)))))), .inr (.inr (.inr (.inr (.inr (.inr (.inr h))))))]

theorem T_cameraObj {w d v d'} : T [.n .camera_obj] w d [v] d' ↔
    v = .unit ∧ ∃ l, l ≠ [] ∧ w = l.flatMap CameraItem.toks ∧ d' = applyAll CameraItem.apply l d :=
  T_list1 _ _ (fun i => by cases i <;> simp [CameraItem.toks, entry]) rfl T_cameraItem

/-! ### Masks -/

def Attr.apply : Attr → Driver → Driver
  | .chan c, d => { d with curMask.chn := c }
  | .inverted, d => { d with curMask.inv := true }

theorem R_give {X : Tok} {u w d v d'} (hX : isKw X = true) : R ([.t X], give u) w d v d' ↔
    d' = d ∧ w = [kw X] ∧ v = u := by
  simp (disch := first | decide | assumption) only [R, T_kw, T_nil]
  constructor
  · rintro ⟨_, _, ⟨_, _, ⟨rfl, rfl⟩, rfl, rfl, rfl⟩, h⟩; cases h; exact ⟨rfl, rfl, rfl⟩
  · rintro ⟨rfl, rfl, rfl⟩; exact ⟨_, _, ⟨_, _, ⟨rfl, rfl⟩, rfl, rfl, rfl⟩, rfl⟩

theorem T_channel {w d v d'} : T [.n .channel] w d [v] d' ↔ d' = d ∧ ∃ c : Chan, w = [kw c.tok] ∧ v = .chan c := by
  have hr : rulesFor .channel = [([.t .CHNR], give (.chan .red)), ([.t .CHNG], give (.chan .green)),
    ([.t .CHNB], give (.chan .blue)), ([.t .CHNA], give (.chan .alpha))] := rfl
  rw [T_rules hr]
  simp (disch := decide) only [exists_rule, exists_rule_nil, R_give, ← and_or_left, or_false]
  refine and_congr_right fun _ => ⟨?_, ?_⟩
  · rintro (h | h | h | h)
    exacts [⟨.red, h⟩, ⟨.green, h⟩, ⟨.blue, h⟩, ⟨.alpha, h⟩]
  · rintro ⟨(_ | _ | _ | _), h⟩
    exacts [.inr (.inr (.inr h)), .inl h, .inr (.inl h), .inr (.inr (.inl h))]

theorem T_attr (w d v d') : T [.n .attribute_] w d [v] d' ↔
    v = .unit ∧ ∃ i : Attr, w = [kw i.tok] ∧ d' = i.apply d := by
  have hr : rulesFor .attribute_ = [([.n .channel], setChan 1 fun c d => { d with curMask.chn := c }),
    ([.t .INV], upd fun d => { d with curMask.inv := true })] := rfl
  rw [T_rules hr]
  simp (disch := decide) only [exists_rule, exists_rule_nil, R, T_kw, T_nil, or_false]
  constructor
  · rintro (⟨us, d₁, ht, h⟩ | ⟨_, _, ⟨_, _, ⟨rfl, rfl⟩, rfl, rfl, rfl⟩, h⟩)
    · obtain ⟨w₁, v₁, d₂, h3, w₂, vs, rfl, rfl, h4⟩ := T_cons.1 ht
      obtain ⟨rfl, rfl, rfl⟩ := T_nil.1 h4
      obtain ⟨rfl, c, rfl, rfl⟩ := T_channel.1 h3
      cases h
      exact ⟨rfl, .chan c, rfl, rfl⟩
    · cases h
      exact ⟨rfl, .inverted, rfl, rfl⟩
  · rintro ⟨rfl, (c | _), rfl, rfl⟩
    · exact .inl ⟨_, _, T_channel.2 ⟨rfl, c, rfl, rfl⟩, rfl⟩
    · exact .inr ⟨_, _, ⟨_, _, ⟨rfl, rfl⟩, rfl, rfl, rfl⟩, rfl⟩

theorem T_attrs {w d v d'} : T [.n .attributes] w d [v] d' ↔
    v = .unit ∧ ∃ l : List Attr, l ≠ [] ∧ w = l.flatMap (fun a => [kw a.tok]) ∧ d' = applyAll Attr.apply l d :=
  T_list1 _ _ (fun i => by simp) rfl T_attr

theorem R_attrs {K : Tok} {f w d v d'} (hK : isKw K = true) :
    R ([.t K, .t .COLON, .t .STRING, .n .attributes], setStr 3 f) w d v d' ↔
    v = .unit ∧ ∃ (s : Quoted) (as : List Attr), as ≠ [] ∧ w = entry K (s.toks ++ as.map fun a => kw a.tok) ∧
      d' = f s.text (applyAll Attr.apply as d) := by
  have hm : ∀ as : List Attr, as.flatMap (fun a => [kw a.tok]) = as.map fun a => kw a.tok := fun as => by
    induction as with
    | nil => rfl
    | cons a as ih => rw [List.flatMap_cons, List.map_cons, ih]; rfl
  simp (disch := first | decide | assumption) only [R, T_kw, T_str]
  constructor
  · rintro ⟨_, _, ⟨_, _, ⟨rfl, rfl⟩, _, _, ⟨rfl, rfl⟩, s, _, _, ⟨rfl, rfl⟩, ht⟩, h⟩
    obtain ⟨w₁, v₁, d₂, h3, w₂, vs, rfl, rfl, h4⟩ := T_cons.1 ht
    obtain ⟨rfl, rfl, rfl⟩ := T_nil.1 h4
    obtain ⟨rfl, as, ha, rfl, rfl⟩ := T_attrs.1 h3
    simp only [setStr, Nat.add_one_sub_one, List.getElem?_cons_succ, List.getElem?_cons_zero, strip_quoted,
      Option.some.injEq, Prod.mk.injEq] at h
    exact ⟨h.1.symm, s, as, ha, by rw [hm]; simp [entry, Quoted.toks], h.2.symm⟩
  · rintro ⟨rfl, s, as, ha, rfl, rfl⟩
    refine ⟨_, applyAll Attr.apply as d, ⟨_, _, ⟨rfl, rfl⟩, _, _, ⟨rfl, rfl⟩, s, as.map fun a => kw a.tok, [.unit],
      ⟨rfl, rfl⟩, ?_⟩, ?_⟩
    · rw [← hm]
      exact T_attrs.2 ⟨rfl, as, ha, rfl, rfl⟩
    · simp only [setStr, Nat.add_one_sub_one, List.getElem?_cons_succ, List.getElem?_cons_zero, strip_quoted]

def maskToMesh (s : Str) (d : Driver) : Driver :=
  { d with curMesh.mask := { d.curMask with tex := s }, curMask := {} }

def maskToDual (s : Str) (d : Driver) : Driver :=
  { d with curDual.mask := { d.curMask with tex := s }, curMask := {} }

def WorldItem.apply : WorldItem → Driver → Driver
  | .position x, d => { d with curMesh.position := x.val }
  | .rotation x, d => { d with curMesh.rotation := x.val }
  | .scale x, d => { d with curMesh.scale := x.val }
  | .scale1 x, d => { d with curMesh.scale := ⟨x.val, x.val, x.val⟩ }
  | .material s, d => { d with curMesh.material := s.text }
  | .mask s as, d => maskToMesh s.text (applyAll Attr.apply as d)
  | .comma, d => d

theorem T_worldItem (w d v d') : T [.n .world_stmt] w d [v] d' ↔ v = .unit ∧ ∃ i : WorldItem,
  w = i.toks ∧ d' = i.apply d := by
  have hr : rulesFor .world_stmt = [
    ([.t .POSITION, .t .COLON, .n .vector], setVec 3 fun x d => { d with curMesh.position := x }),
    ([.t .ROTATION, .t .COLON, .n .vector], setVec 3 fun x d => { d with curMesh.rotation := x }),
    ([.t .SCALE, .t .COLON, .n .vector], setVec 3 fun x d => { d with curMesh.scale := x }),
    ([.t .SCALE, .t .COLON, .n .number], setNum 3 fun x d => { d with curMesh.scale := ⟨x, x, x⟩ }),
    ([.t .MATERIAL, .t .COLON, .t .STRING], setStr 3 fun s d => { d with curMesh.material := s }),
    ([.t .MASK, .t .COLON, .t .STRING], setStr 3 maskToMesh),
    ([.t .MASK, .t .COLON, .t .STRING, .n .attributes], setStr 3 maskToMesh),
    ([.t .COMMA], nop)] := rfl
  rw [T_rules hr]
  simp (disch := decide) only [exists_rule, exists_rule_nil, R_comma, R_num, R_str, R_str, R_attrs, R_vec,
    ← and_or_left, or_false]
  refine and_congr_right fun _ => ⟨?_, ?_⟩
  · rintro (⟨s, h⟩ | ⟨s, h⟩ | ⟨s, h⟩ | ⟨s, h⟩ | ⟨s, h⟩ | ⟨s, h⟩ | ⟨s, as, hn, h⟩ | h)
    exacts [⟨.position s, h⟩, ⟨.rotation s, h⟩, ⟨.scale s, h⟩, ⟨.scale1 s, h⟩, ⟨.material s, h⟩, ⟨.mask s [], h⟩,
      ⟨.mask s as, h⟩, ⟨.comma, h⟩]
  · rintro ⟨(x | x | x | x | x | ⟨x, (_ | ⟨a, as⟩)⟩ | _), h⟩
    exacts [.inl ⟨x, h⟩, .inr (.inl ⟨x, h⟩), .inr (.inr (.inl ⟨x, h⟩)), .inr (.inr (.inr (.inl ⟨x, h⟩))),
      .inr (.inr (.inr (.inr (.inl ⟨x, h⟩)))), .inr (.inr (.inr (.inr (.inr (.inl ⟨x, h⟩))))),
      .inr (.inr (.inr (.inr (.inr (.inr (.inl ⟨x, a :: as, by simp, h⟩)))))),
      .inr (.inr (.inr (.inr (.inr (.inr (.inr h))))))]

theorem T_worldRec {w d v d'} : T [.n .world_rec] w d [v] d' ↔
    v = .unit ∧ ∃ l, l ≠ [] ∧ w = l.flatMap WorldItem.toks ∧ d' = applyAll WorldItem.apply l d :=
  T_list1 _ _ (fun i => by cases i <;> simp [WorldItem.toks, entry, maskToks]) rfl T_worldItem

def TexItem.apply : TexItem → Driver → Driver
  | .name s, d => { d with texName := s.text }
  | .scale x y, d => { d with texScale := (x.val, y.val) }
  | .scale1 x, d => { d with texScale := (x.val, x.val) }
  | .shift x y, d => { d with texShift := (x.val, y.val) }
  | .comma, d => d

theorem T_texItem (w d v d') : T [.n .texture_stmt] w d [v] d' ↔ v = .unit ∧ ∃ i : TexItem,
  w = i.toks ∧ d' = i.apply d := by
  have hr : rulesFor .texture_stmt = [
    ([.t .NAME, .t .COLON, .t .STRING], setStr 3 fun s d => { d with texName := s }),
    ([.t .SCALE, .t .COLON, .n .vector2], setVec2 3 fun x y d => { d with texScale := (x, y) }),
    ([.t .SCALE, .t .COLON, .n .number], setNum 3 fun x d => { d with texScale := (x, x) }),
    ([.t .SHIFT, .t .COLON, .n .vector2], setVec2 3 fun x y d => { d with texShift := (x, y) }),
    ([.t .COMMA], nop)] := rfl
  rw [T_rules hr]
  simp (disch := decide) only [exists_rule, exists_rule_nil, R_comma, R_num, R_str, R_vec2, ← and_or_left, or_false]
  refine and_congr_right fun _ => ⟨?_, ?_⟩
  · rintro (⟨s, h⟩ | ⟨s, t, h⟩ | ⟨s, h⟩ | ⟨s, t, h⟩ | h)
    exacts [⟨.name s, h⟩, ⟨.scale s t, h⟩, ⟨.scale1 s, h⟩, ⟨.shift s t, h⟩, ⟨.comma, h⟩]
  · rintro ⟨(x | ⟨x, y⟩ | x | ⟨x, y⟩ | _), h⟩
    exacts [.inl ⟨x, h⟩, .inr (.inl ⟨x, y, h⟩), .inr (.inr (.inl ⟨x, h⟩)), .inr (.inr (.inr (.inl ⟨x, y, h⟩))),
      .inr (.inr (.inr (.inr h)))]

theorem T_texRec {w d v d'} : T [.n .texture_rec] w d [v] d' ↔
    v = .unit ∧ ∃ l, l ≠ [] ∧ w = l.flatMap TexItem.toks ∧ d' = applyAll TexItem.apply l d :=
  T_list1 _ _ (fun i => by cases i <;> simp [TexItem.toks, entry]) rfl T_texItem

theorem T_element {w d v d'} : T [.n .element] w d [v] d' ↔ d' = d ∧ ∃ m : Metal, w = [kw m.tok] ∧ v = .metal m := by
  have hr : rulesFor .element = [
    ([.t .SILVER], give (.metal .silver)),
    ([.t .ALUMINIUM], give (.metal .aluminium)),
    ([.t .GOLD], give (.metal .gold)),
    ([.t .COPPER], give (.metal .copper)),
    ([.t .IRON], give (.metal .iron)),
    ([.t .MERCURY], give (.metal .mercury)),
    ([.t .LEAD], give (.metal .lead)),
    ([.t .PLATINUM], give (.metal .platinum)),
    ([.t .TUNGSTEN], give (.metal .tungsten)),
    ([.t .BERYLLIUM], give (.metal .beryllium)),
    ([.t .BISMUTH], give (.metal .bismuth)),
    ([.t .COBALT], give (.metal .cobalt)),
    ([.t .CHROMIUM], give (.metal .chromium)),
    ([.t .GERMANIUM], give (.metal .germanium)),
    ([.t .POTASSIUM], give (.metal .potassium)),
    ([.t .LITHIUM], give (.metal .lithium)),
    ([.t .MAGNESIUM], give (.metal .magnesium)),
    ([.t .MANGANESE], give (.metal .manganese)),
    ([.t .MOLYBDENUM], give (.metal .molybdenum)),
    ([.t .SODIUM], give (.metal .sodium)),
    ([.t .NIOBIUM], give (.metal .niobium)),
    ([.t .NICKEL], give (.metal .nickel)),
    ([.t .PALLADIUM], give (.metal .palladium)),
    ([.t .RHODIUM], give (.metal .rhodium)),
    ([.t .TANTALUM], give (.metal .tantalum)),
    ([.t .TITANIUM], give (.metal .titanium)),
    ([.t .VANADIUM], give (.metal .vanadium)),
    ([.t .ZINC], give (.metal .zinc)),
    ([.t .ZIRCONIUM], give (.metal .zirconium))] := rfl
  rw [T_rules hr]
  simp (disch := decide) only [exists_rule, exists_rule_nil, R_give, ← and_or_left, or_false]
  refine and_congr_right fun _ => ⟨?_, ?_⟩
  · rintro (h | h | h | h | h | h | h | h | h | h | h | h | h | h | h | h | h | h | h | h | h | h | h | h | h | h |
    h | h | h)
    exacts [⟨.silver, h⟩, ⟨.aluminium, h⟩, ⟨.gold, h⟩, ⟨.copper, h⟩, ⟨.iron, h⟩, ⟨.mercury, h⟩, ⟨.lead, h⟩,
      ⟨.platinum, h⟩, ⟨.tungsten, h⟩, ⟨.beryllium, h⟩, ⟨.bismuth, h⟩, ⟨.cobalt, h⟩, ⟨.chromium, h⟩, ⟨.germanium, h⟩,
      ⟨.potassium, h⟩, ⟨.lithium, h⟩, ⟨.magnesium, h⟩, ⟨.manganese, h⟩, ⟨.molybdenum, h⟩, ⟨.sodium, h⟩, ⟨.niobium,
      h⟩, ⟨.nickel, h⟩, ⟨.palladium, h⟩, ⟨.rhodium, h⟩, ⟨.tantalum, h⟩, ⟨.titanium, h⟩, ⟨.vanadium, h⟩, ⟨.zinc, h⟩,
      ⟨.zirconium, h⟩]
  · rintro ⟨(_ | _ | _ | _ | _ | _ | _ | _ | _ | _ | _ | _ | _ | _ | _ | _ | _ | _ | _ | _ | _ | _ | _ | _ | _ | _ |
    _ | _ | _), h⟩
    exacts [.inl h, .inr (.inl h), .inr (.inr (.inl h)), .inr (.inr (.inr (.inl h))),
      .inr (.inr (.inr (.inr (.inl h)))), .inr (.inr (.inr (.inr (.inr (.inl h))))),
      .inr (.inr (.inr (.inr (.inr (.inr (.inl h)))))), .inr (.inr (.inr (.inr (.inr (.inr (.inr (.inl h))))))),
      .inr (.inr (.inr (.inr (.inr (.inr (.inr (.inr (.inl h)))))))),
      .inr (.inr (.inr (.inr (.inr (.inr (.inr (.inr (.inr (.inl h))))))))),
      .inr (.inr (.inr (.inr (.inr (.inr (.inr (.inr (.inr (.inr (.inl h)))))))))),
      .inr (.inr (.inr (.inr (.inr (.inr (.inr (.inr (.inr (.inr (.inr (.inl h))))))))))),
      .inr (.inr (.inr (.inr (.inr (.inr (.inr (.inr (.inr (.inr (.inr (.inr (.inl h)))))))))))),
      .inr (.inr (.inr (.inr (.inr (.inr (.inr (.inr (.inr (.inr (.inr (.inr (.inr (.inl h))))))))))))),
      .inr (.inr (.inr (.inr (.inr (.inr (.inr (.inr (.inr (.inr (.inr (.inr (.inr (.inr (.inl h)))))))))))))),
      .inr (.inr (.inr (.inr (.inr (.inr (.inr (.inr (.inr (.inr (.inr (.inr (.inr (.inr (.inr (.inl h))))))))))))))),
      .inr (.inr (.inr (.inr (.inr (.inr (.inr (.inr (.inr (.inr (.inr (.inr (.inr (.inr (.inr (.inr (.inl h)))))))))))))))),
      .inr (.inr (.inr (.inr (.inr (.inr (.inr (.inr (.inr (.inr (.inr (.inr (.inr (.inr (.inr (.inr (.inr (.inl h))))))))))))))))),
      .inr (.inr (.inr (.inr (.inr (.inr (.inr (.inr (.inr (.inr (.inr (.inr (.inr (.inr (.inr (.inr (.inr (.inr (.inl h)))))))))))))))))),
      .inr (.inr (.inr (.inr (.inr (.inr (.inr (.inr (.inr (.inr (.inr (.inr (.inr (.inr (.inr (.inr (.inr (.inr (.inr (.inl h))))))))))))))))))),
      .inr (.inr (.inr (.inr (.inr (.inr (.inr (.inr (.inr (.inr (.inr (.inr (.inr (.inr (.inr (.inr (.inr (.inr (.inr (.inr (.inl h)))))))))))))))))))),
      .inr (.inr (.inr (.inr (.inr (.inr (.inr (.inr (.inr (.inr (.inr (.inr (.inr (.inr (.inr (.inr (.inr (.inr (.inr (.inr (.inr (.inl h))))))))))))))))))))),
      .inr (.inr (.inr (.inr (.inr (.inr (.inr (.inr (.inr (.inr (.inr (.inr (.inr (.inr (.inr (.inr (.inr (.inr (.inr (.inr (.inr (.inr (.inl h)))))))))))))))))))))),
      .inr (.inr (.inr (.inr (.inr (.inr (.inr (.inr (.inr (.inr (.inr (.inr (.inr (.inr (.inr (.inr (.inr (.inr (.inr (.inr (.inr (.inr (.inr (.inl h))))))))))))))))))))))),
      .inr (.inr (.inr (.inr (.inr (.inr (.inr (.inr (.inr (.inr (.inr (.inr (.inr (.inr (.inr (.inr (.inr (.inr (.inr (.inr (.inr (.inr (.inr (.inr (.inl h)))))))))))))))))))))))),
      .inr (.inr (.inr (.inr (.inr (.inr (.inr (.inr (.inr (.inr (.inr (.inr (.inr (.inr (.inr (.inr (.inr (.inr (.inr (.inr (.inr (.inr (.inr (.inr (.inr (.inl h))))))))))))))))))))))))),
      .inr (.inr (.inr (.inr (.inr (.inr (.inr (.inr (.inr (.inr (.inr (.inr (.inr (.inr (.inr (.inr (.inr (.inr (.inr (.inr (.inr (.inr (.inr (.inr (.inr (.inr (.inl h)))))))))))))))))))))))))),
      .inr (.inr (.inr (.inr (.inr (.inr (.inr (.inr (.inr (.inr (.inr (.inr (.inr (.inr (.inr (.inr (.inr (.inr (.inr (.inr (.inr (.inr (.inr (.inr (.inr (.inr (.inr (.inl h))))))))))))))))))))))))))),
      .inr (.inr (.inr (.inr (.inr (.inr (.inr (.inr (.inr (.inr (.inr (.inr (.inr (.inr (.inr (.inr (.inr (.inr (.inr (.inr (.inr (.inr (.inr (.inr (.inr (.inr (.inr (.inr h)))))))))))))))))))))))))))]

theorem R_elem {K : Tok} {f w d v d'} (hK : isKw K = true) : R ([.t K, .t .COLON, .n .element],
  setMetal 3 f) w d v d' ↔
    v = .unit ∧ ∃ m : Metal, w = entry K [kw m.tok] ∧ d' = f m d := by
  simp (disch := first | decide | assumption) only [R, T_kw]
  constructor
  · rintro ⟨_, _, ⟨_, _, ⟨rfl, rfl⟩, _, _, ⟨rfl, rfl⟩, ht⟩, h⟩
    obtain ⟨w₁, v₁, d₂, h3, w₂, vs, rfl, rfl, h4⟩ := T_cons.1 ht
    obtain ⟨rfl, rfl, rfl⟩ := T_nil.1 h4
    obtain ⟨rfl, m, rfl, rfl⟩ := T_element.1 h3
    cases h
    exact ⟨rfl, m, rfl, rfl⟩
  · rintro ⟨rfl, m, rfl, rfl⟩
    exact ⟨_, _, ⟨_, _, ⟨rfl, rfl⟩, _, _, ⟨rfl, rfl⟩, T_element.2 ⟨rfl, m, rfl, rfl⟩⟩, rfl⟩

def MatItem.apply : MatItem → Driver → Driver
  | .type x, d => { d with curMat.type := x }
  | .ior1 x, d => { d with curMat.ior := .cauchy x.val 0 0 }
  | .ior2 x y, d => { d with curMat.ior := .cauchy x.val y.val 0 }
  | .ior3 x, d => { d with curMat.ior := .cauchy x.val.x x.val.y x.val.z }
  | .ior6 x y, d => { d with curMat.ior := .sellmeier x.val y.val }
  | .roughness x, d => { d with curMat.roughX := x.val }
  | .anisotropy x, d => { d with curMat.roughY := x.val }
  | .distribution x, d => { d with curMat.dist := x }
  | .diffuse s, d => { d with curMat.diffuse := s.text }
  | .diffuseColor x, d => { d with curMat.diffuseUniform := some (uniformColor x.val) }
  | .specular s, d => { d with curMat.specular := s.text }
  | .specularColor x, d => { d with curMat.specularUniform := some (uniformColor x.val) }
  | .normal s, d => { d with curMat.bump := s.text }
  | .element m, d => { d with curMat.elem := m }
  | .comma, d => d

theorem T_matItem (w d v d') : T [.n .material_stmt] w d [v] d' ↔ v = .unit ∧ ∃ i : MatItem,
  w = i.toks ∧ d' = i.apply d := by
  have hr : rulesFor .material_stmt = [
    ([.t .TYPE, .t .COLON, .t .MATTE], upd fun d => { d with curMat.type := .matte }),
    ([.t .TYPE, .t .COLON, .t .GLOSSY], upd fun d => { d with curMat.type := .glossy }),
    ([.t .TYPE, .t .COLON, .t .METAL], upd fun d => { d with curMat.type := .metal }),
    ([.t .TYPE, .t .COLON, .t .GLASS], upd fun d => { d with curMat.type := .glass }),
    ([.t .IOR, .t .COLON, .n .number], setNum 3 fun x d => { d with curMat.ior := .cauchy x 0 0 }),
    ([.t .IOR, .t .COLON, .n .vector2], setVec2 3 fun x y d => { d with curMat.ior := .cauchy x y 0 }),
    ([.t .IOR, .t .COLON, .n .vector], setVec 3 fun x d => { d with curMat.ior := .cauchy x.x x.y x.z }),
    ([.t .IOR, .t .COLON, .n .vector, .n .vector], setVecs 3 4 fun x y d => { d with curMat.ior := .sellmeier x y }),
    ([.t .ROUGHNESS, .t .COLON, .n .number], setNum 3 fun x d => { d with curMat.roughX := x }),
    ([.t .ANISOTROPY, .t .COLON, .n .number], setNum 3 fun x d => { d with curMat.roughY := x }),
    ([.t .DISTRIBUTION, .t .COLON, .t .BLINN], upd fun d => { d with curMat.dist := .blinn }),
    ([.t .DISTRIBUTION, .t .COLON, .t .BECKMANN], upd fun d => { d with curMat.dist := .beckmann }),
    ([.t .DISTRIBUTION, .t .COLON, .t .GGX], upd fun d => { d with curMat.dist := .ggx }),
    ([.t .DIFFUSE, .t .COLON, .t .STRING], setStr 3 fun s d => { d with curMat.diffuse := s }),
    ([.t .DIFFUSE, .t .COLON, .n .vector],
      setVec 3 fun x d => { d with curMat.diffuseUniform := some (uniformColor x) }),
    ([.t .SPECULAR, .t .COLON, .t .STRING], setStr 3 fun s d => { d with curMat.specular := s }),
    ([.t .SPECULAR, .t .COLON, .n .vector],
      setVec 3 fun x d => { d with curMat.specularUniform := some (uniformColor x) }),
    ([.t .NORMAL, .t .COLON, .t .STRING], setStr 3 fun s d => { d with curMat.bump := s }),
    ([.t .ELEM, .t .COLON, .n .element], setMetal 3 fun m d => { d with curMat.elem := m }),
    ([.t .COMMA], nop)] := rfl
  rw [T_rules hr]
  simp (disch := decide) only [exists_rule, exists_rule_nil, R_comma, R_elem, R_kw, R_num, R_str, R_vec, R_vec2,
    R_vecs, ← and_or_left, or_false]
  refine and_congr_right fun _ => ⟨?_, ?_⟩
  · rintro (h | h | h | h | ⟨s, h⟩ | ⟨s, t, h⟩ | ⟨s, h⟩ | ⟨s, t, h⟩ | ⟨s, h⟩ | ⟨s, h⟩ | h | h | h | ⟨s, h⟩ | ⟨s, h⟩ |
    ⟨s, h⟩ | ⟨s, h⟩ | ⟨s, h⟩ | ⟨s, h⟩ | h)
    exacts [⟨.type .matte, h⟩, ⟨.type .glossy, h⟩, ⟨.type .metal, h⟩, ⟨.type .glass, h⟩, ⟨.ior1 s, h⟩, ⟨.ior2 s t,
      h⟩, ⟨.ior3 s, h⟩, ⟨.ior6 s t, h⟩, ⟨.roughness s, h⟩, ⟨.anisotropy s, h⟩, ⟨.distribution .blinn, h⟩,
      ⟨.distribution .beckmann, h⟩, ⟨.distribution .ggx, h⟩, ⟨.diffuse s, h⟩, ⟨.diffuseColor s, h⟩, ⟨.specular s, h⟩,
      ⟨.specularColor s, h⟩, ⟨.normal s, h⟩, ⟨.element s, h⟩, ⟨.comma, h⟩]
  · rintro ⟨((_ | _ | _ | _) | x | ⟨x, y⟩ | x | ⟨x, y⟩ | x | x | (_ | _ | _) | x | x | x | x | x | x | _), h⟩
    exacts [.inl h, .inr (.inl h), .inr (.inr (.inl h)), .inr (.inr (.inr (.inl h))),
      .inr (.inr (.inr (.inr (.inl ⟨x, h⟩)))), .inr (.inr (.inr (.inr (.inr (.inl ⟨x, y, h⟩))))),
      .inr (.inr (.inr (.inr (.inr (.inr (.inl ⟨x, h⟩)))))), .inr (.inr (.inr (.inr (.inr (.inr (.inr (.inl ⟨x, y,
      h⟩))))))), .inr (.inr (.inr (.inr (.inr (.inr (.inr (.inr (.inl ⟨x, h⟩)))))))),
      .inr (.inr (.inr (.inr (.inr (.inr (.inr (.inr (.inr (.inl ⟨x, h⟩))))))))),
      .inr (.inr (.inr (.inr (.inr (.inr (.inr (.inr (.inr (.inr (.inl h)))))))))),
      .inr (.inr (.inr (.inr (.inr (.inr (.inr (.inr (.inr (.inr (.inr (.inl h))))))))))),
      .inr (.inr (.inr (.inr (.inr (.inr (.inr (.inr (.inr (.inr (.inr (.inr (.inl h)))))))))))),
      .inr (.inr (.inr (.inr (.inr (.inr (.inr (.inr (.inr (.inr (.inr (.inr (.inr (.inl ⟨x, h⟩))))))))))))),
      .inr (.inr (.inr (.inr (.inr (.inr (.inr (.inr (.inr (.inr (.inr (.inr (.inr (.inr (.inl ⟨x, h⟩)))))))))))))),
      .inr (.inr (.inr (.inr (.inr (.inr (.inr (.inr (.inr (.inr (.inr (.inr (.inr (.inr (.inr (.inl ⟨x,
      h⟩))))))))))))))),
      .inr (.inr (.inr (.inr (.inr (.inr (.inr (.inr (.inr (.inr (.inr (.inr (.inr (.inr (.inr (.inr (.inl ⟨x,
      h⟩)))))))))))))))),
      .inr (.inr (.inr (.inr (.inr (.inr (.inr (.inr (.inr (.inr (.inr (.inr (.inr (.inr (.inr (.inr (.inr (.inl ⟨x,
      h⟩))))))))))))))))),
      .inr (.inr (.inr (.inr (.inr (.inr (.inr (.inr (.inr (.inr (.inr (.inr (.inr (.inr (.inr (.inr (.inr (.inr (.inl ⟨x,
      h⟩)))))))))))))))))),
      .inr (.inr (.inr (.inr (.inr (.inr (.inr (.inr (.inr (.inr (.inr (.inr (.inr (.inr (.inr (.inr (.inr (.inr (.inr h))))))))))))))))))]

theorem T_matRec {w d v d'} : T [.n .material_rec] w d [v] d' ↔
    v = .unit ∧ ∃ l, l ≠ [] ∧ w = l.flatMap MatItem.toks ∧ d' = applyAll MatItem.apply l d :=
  T_list1 _ _ (fun i => by cases i <;> simp [MatItem.toks, entry]) rfl T_matItem

def DualItem.apply : DualItem → Driver → Driver
  | .first s, d => { d with curDual.first := s.text }
  | .second s, d => { d with curDual.second := s.text }
  | .mask s as, d => maskToDual s.text (applyAll Attr.apply as d)
  | .comma, d => d

theorem T_dualItem (w d v d') : T [.n .dualmaterial_stmt] w d [v] d' ↔ v = .unit ∧ ∃ i : DualItem,
  w = i.toks ∧ d' = i.apply d := by
  have hr : rulesFor .dualmaterial_stmt = [
    ([.t .FIRST, .t .COLON, .t .STRING], setStr 3 fun s d => { d with curDual.first := s }),
    ([.t .SECOND, .t .COLON, .t .STRING], setStr 3 fun s d => { d with curDual.second := s }),
    ([.t .MASK, .t .COLON, .t .STRING], setStr 3 maskToDual),
    ([.t .MASK, .t .COLON, .t .STRING, .n .attributes], setStr 3 maskToDual),
    ([.t .COMMA], nop)] := rfl
  rw [T_rules hr]
  simp (disch := decide) only [exists_rule, exists_rule_nil, R_comma, R_str, R_str, R_attrs, ← and_or_left, or_false]
  refine and_congr_right fun _ => ⟨?_, ?_⟩
  · rintro (⟨s, h⟩ | ⟨s, h⟩ | ⟨s, h⟩ | ⟨s, as, hn, h⟩ | h)
    exacts [⟨.first s, h⟩, ⟨.second s, h⟩, ⟨.mask s [], h⟩, ⟨.mask s as, h⟩, ⟨.comma, h⟩]
  · rintro ⟨(x | x | ⟨x, (_ | ⟨a, as⟩)⟩ | _), h⟩
    exacts [.inl ⟨x, h⟩, .inr (.inl ⟨x, h⟩), .inr (.inr (.inl ⟨x, h⟩)), .inr (.inr (.inr (.inl ⟨x, a :: as, by simp,
      h⟩))), .inr (.inr (.inr (.inr h)))]

theorem T_dualRec {w d v d'} : T [.n .dualmaterial_rec] w d [v] d' ↔
    v = .unit ∧ ∃ l, l ≠ [] ∧ w = l.flatMap DualItem.toks ∧ d' = applyAll DualItem.apply l d :=
  T_list1 _ _ (fun i => by cases i <;> simp [DualItem.toks, entry, maskToks]) rfl T_dualItem

/-! ### Lights -/

def LightItem.apply : LightItem → Driver → Driver
  | .world i, d => i.apply d
  | .temperature n, d => { d with curMesh.temperature := n }
  | .color x, d => { d with curMesh.color := x.val }

theorem T_lightItem (w d v d') : (∃ X ∈ [NT.world_stmt, NT.light_stmt], T [.n X] w d [v] d') ↔
    v = .unit ∧ ∃ i : LightItem, w = i.toks ∧ d' = i.apply d := by
  have hr : rulesFor .light_stmt = [
    ([.t .TEMPERATURE, .t .COLON, .t .UINT], setUint 3 fun n d => { d with curMesh.temperature := n }),
    ([.t .COLOR, .t .COLON, .n .vector], setVec 3 fun x d => { d with curMesh.color := x })] := rfl
  have h2 : T [.n .light_stmt] w d [v] d' ↔ v = .unit ∧
      ((∃ n, w = entry .TEMPERATURE [(.UINT, .uint n)] ∧ d' = { d with curMesh.temperature := n }) ∨
        ∃ x : Vec, w = entry .COLOR x.toks ∧ d' = { d with curMesh.color := x.val }) := by
    rw [T_rules hr]
    simp (disch := decide) only [exists_rule, exists_rule_nil, R_uint, R_vec, ← and_or_left, or_false]
  simp only [List.mem_cons, List.not_mem_nil, or_false, exists_eq_or_imp, exists_eq_left, T_worldItem, h2, ← and_or_left]
  refine and_congr_right fun _ => ⟨?_, ?_⟩
  · rintro (⟨i, h⟩ | ⟨n, h⟩ | ⟨x, h⟩)
    exacts [⟨.world i, h⟩, ⟨.temperature n, h⟩, ⟨.color x, h⟩]
  · rintro ⟨(i | n | x), h⟩
    exacts [.inl ⟨i, h⟩, .inr (.inl ⟨n, h⟩), .inr (.inr ⟨x, h⟩)]

theorem worldItem_toks_ne (i : WorldItem) : i.toks ≠ [] := by cases i <;> simp [WorldItem.toks, entry, maskToks]

theorem T_lightRec {w d v d'} : T [.n .light_rec] w d [v] d' ↔
    v = .unit ∧ ∃ l, l ≠ [] ∧ w = l.flatMap LightItem.toks ∧ d' = applyAll LightItem.apply l d := by
  have hr : rulesFor .light_rec = [([.n .light_rec, .n .world_stmt], nop), ([.n .light_rec, .n .light_stmt], nop),
    ([.n .light_stmt], nop), ([.n .world_stmt], nop)] := rfl
  refine T_list (Xs := [NT.world_stmt, NT.light_stmt]) _ _ (fun i => ?_) ?_ ?_ T_lightItem
  · cases i with
    | world i => exact worldItem_toks_ne i
    | _ => simp [LightItem.toks, entry]
  · rw [hr]; simp
  · rw [hr]; simp

/-! ## Objects -/

def nameMesh (s : Str) (d : Driver) : Driver := { d with curMesh.name := s }
def nameMat (s : Str) (d : Driver) : Driver := { d with curMat.name := s }
def nameDual (s : Str) (d : Driver) : Driver := { d with curDual.name := s }

theorem T_worldName {w d v d'} : T [.n .world_name] w d [v] d' ↔
    v = .unit ∧ ∃ s : Quoted, w = entry .NAME s.toks ∧ d' = nameMesh s.text d := by
  have hr : rulesFor .world_name = [([.t .NAME, .t .COLON, .t .STRING], setStr 3 nameMesh)] := rfl
  rw [T_rules hr]
  simp (disch := decide) only [exists_rule, exists_rule_nil, R_str, or_false]

/-- A name, possibly followed by items. -/
theorem T_named {I : Type} {O L : NT} (tk : I → List (Tok × Val)) (ap : I → Driver → Driver)
    (hL : ∀ w d v d', T [.n L] w d [v] d' ↔
      v = .unit ∧ ∃ l, l ≠ [] ∧ w = l.flatMap tk ∧ d' = applyAll ap l d)
    (hO : rulesFor O = [([.n .world_name, .n L], nop), ([.n .world_name], nop)]) {w d v d'} :
    T [.n O] w d [v] d' ↔ v = .unit ∧ ∃ (s : Quoted) (l : List I), w = entry .NAME s.toks ++ l.flatMap tk ∧
      d' = applyAll ap l (nameMesh s.text d) := by
  rw [T_rules hO]
  simp only [exists_rule, exists_rule_nil, R, or_false]
  constructor
  · rintro (⟨us, d₁, ht, ha⟩ | ⟨us, d₁, ht, ha⟩)
    · obtain ⟨w₁, v₁, d₂, h3, w₂, vs, rfl, rfl, h4⟩ := T_cons.1 ht
      obtain ⟨w₃, v₃, d₃, h5, w₄, vs', rfl, rfl, h6⟩ := T_cons.1 h4
      obtain ⟨rfl, rfl, rfl⟩ := T_nil.1 h6
      obtain ⟨rfl, s, rfl, rfl⟩ := T_worldName.1 h3
      obtain ⟨rfl, l, -, rfl, rfl⟩ := (hL _ _ _ _).1 h5
      cases ha
      exact ⟨rfl, s, l, by rw [List.append_nil], rfl⟩
    · obtain ⟨w₁, v₁, d₂, h3, w₂, vs, rfl, rfl, h4⟩ := T_cons.1 ht
      obtain ⟨rfl, rfl, rfl⟩ := T_nil.1 h4
      obtain ⟨rfl, s, rfl, rfl⟩ := T_worldName.1 h3
      cases ha
      exact ⟨rfl, s, [], rfl, rfl⟩
  · rintro ⟨rfl, s, l, rfl, rfl⟩
    have h3 : T [.n .world_name] (entry .NAME s.toks) d [.unit] (nameMesh s.text d) :=
      T_worldName.2 ⟨rfl, s, rfl, rfl⟩
    by_cases h : l = []
    · subst h
      exact .inr ⟨[.unit], _, by simpa [applyAll] using h3, rfl⟩
    · exact .inl ⟨[.unit, .unit], _, T_cons.2 ⟨_, _, _, h3, _, [.unit], rfl, rfl,
        (hL _ _ _ _).2 ⟨rfl, l, h, rfl, rfl⟩⟩, rfl⟩

/-- `key: "text"` among items. -/
theorem T_wrap {I : Type} {O L : NT} {K : Tok} (hK : isKw K = true) (tk : I → List (Tok × Val))
    (ap : I → Driver → Driver) (f : Str → Driver → Driver)
    (hL : ∀ w d v d', T [.n L] w d [v] d' ↔
      v = .unit ∧ ∃ l, l ≠ [] ∧ w = l.flatMap tk ∧ d' = applyAll ap l d)
    (hO : ∀ r, r ∈ rulesFor O ↔ r = ([.t K, .t .COLON, .t .STRING], setStr 3 f) ∨
      r = ([.t K, .t .COLON, .t .STRING, .n L], setStr 3 f) ∨ r = ([.n L, .t K, .t .COLON, .t .STRING], setStr 4 f) ∨
      r = ([.n L, .t K, .t .COLON, .t .STRING, .n L], setStr 4 f)) {w d v d'} :
    T [.n O] w d [v] d' ↔ v = .unit ∧ ∃ (pre : List I) (s : Quoted) (post : List I),
      w = pre.flatMap tk ++ entry K s.toks ++ post.flatMap tk ∧ d' = f s.text (applyAll ap (pre ++ post) d) := by
  have key : ∀ (ss : List Sym) w d vs d', T (.t K :: .t .COLON :: .t .STRING :: ss) w d vs d' ↔
      ∃ (s : Quoted) (w' : _) (vs' : _), w = entry K s.toks ++ w' ∧ vs = .unit :: .unit :: .str s.1 :: vs' ∧
        T ss w' d vs' d' := by
    intro ss w d vs d'
    simp (disch := first | decide | assumption) only [T_kw, T_str]
    constructor
    · rintro ⟨_, _, ⟨rfl, rfl⟩, _, _, ⟨rfl, rfl⟩, s, w', vs', ⟨rfl, rfl⟩, h⟩
      exact ⟨s, w', vs', rfl, rfl, h⟩
    · rintro ⟨s, w', vs', rfl, rfl, h⟩
      exact ⟨_, _, ⟨rfl, rfl⟩, _, _, ⟨rfl, rfl⟩, s, w', vs', ⟨rfl, rfl⟩, h⟩
  have act3 : ∀ (s : Quoted) vs d r, setStr 3 f (.unit :: .unit :: .str s.1 :: vs) d = some r ↔
      r = (.unit, f s.text d) := by
    intro s vs d r
    simp only [setStr, Nat.add_one_sub_one, List.getElem?_cons_succ, List.getElem?_cons_zero, strip_quoted,
      Option.some.injEq, eq_comm]
  have act4 : ∀ (s : Quoted) v vs d r, setStr 4 f (v :: .unit :: .unit :: .str s.1 :: vs) d = some r ↔
      r = (.unit, f s.text d) := by
    intro s v vs d r
    simp only [setStr, Nat.add_one_sub_one, List.getElem?_cons_succ, List.getElem?_cons_zero, strip_quoted,
      Option.some.injEq, eq_comm]
  rw [T_nt]
  constructor
  · rintro ⟨r, hr, us, d₁, ht, ha⟩
    rcases (hO r).1 hr with rfl | rfl | rfl | rfl
    · obtain ⟨s, w', vs', rfl, rfl, h⟩ := (key _ _ _ _ _).1 ht
      obtain ⟨rfl, rfl, rfl⟩ := T_nil.1 h
      cases (act3 s [] _ _).1 ha
      exact ⟨rfl, [], s, [], by simp, rfl⟩
    · obtain ⟨s, w', vs', rfl, rfl, h⟩ := (key _ _ _ _ _).1 ht
      obtain ⟨w₁, v₁, d₂, h3, w₂, vs, rfl, rfl, h4⟩ := T_cons.1 h
      obtain ⟨rfl, rfl, rfl⟩ := T_nil.1 h4
      obtain ⟨rfl, l, -, rfl, rfl⟩ := (hL _ _ _ _).1 h3
      cases (act3 s [.unit] _ _).1 ha
      exact ⟨rfl, [], s, l, by simp, rfl⟩
    · obtain ⟨w₁, v₁, d₂, h3, w₂, vs, rfl, rfl, h4⟩ := T_cons.1 ht
      obtain ⟨s, w', vs', rfl, rfl, h⟩ := (key _ _ _ _ _).1 h4
      obtain ⟨rfl, rfl, rfl⟩ := T_nil.1 h
      obtain ⟨rfl, l, -, rfl, rfl⟩ := (hL _ _ _ _).1 h3
      cases (act4 s .unit [] _ _).1 ha
      exact ⟨rfl, l, s, [], by simp, by rw [List.append_nil]⟩
    · obtain ⟨w₁, v₁, d₂, h3, w₂, vs, rfl, rfl, h4⟩ := T_cons.1 ht
      obtain ⟨s, w', vs', rfl, rfl, h⟩ := (key _ _ _ _ _).1 h4
      obtain ⟨w₃, v₃, d₃, h5, w₄, vs'', rfl, rfl, h6⟩ := T_cons.1 h
      obtain ⟨rfl, rfl, rfl⟩ := T_nil.1 h6
      obtain ⟨rfl, l, -, rfl, rfl⟩ := (hL _ _ _ _).1 h3
      obtain ⟨rfl, l', -, rfl, rfl⟩ := (hL _ _ _ _).1 h5
      cases (act4 s .unit [.unit] _ _).1 ha
      exact ⟨rfl, l, s, l', by simp, by rw [applyAll_append]⟩
  · rintro ⟨rfl, pre, s, post, rfl, rfl⟩
    have hl : ∀ l ≠ [], ∀ d, T [.n L] (l.flatMap tk) d [.unit] (applyAll ap l d) := fun l hl d =>
      (hL _ _ _ _).2 ⟨rfl, l, hl, rfl, rfl⟩
    by_cases h1 : pre = [] <;> by_cases h2 : post = []
    · subst h1 h2
      exact ⟨_, (hO _).2 (.inl rfl), [.unit, .unit, .str s.1], _,
        (key _ _ _ _ _).2 ⟨s, [], [], by simp, rfl, T_nil.2 ⟨rfl, rfl, rfl⟩⟩, (act3 s [] _ _).2 rfl⟩
    · subst h1
      exact ⟨_, (hO _).2 (.inr (.inl rfl)), [.unit, .unit, .str s.1, .unit], _,
        (key _ _ _ _ _).2 ⟨s, _, [.unit], rfl, rfl, hl post h2 d⟩, (act3 s [.unit] _ _).2 rfl⟩
    · subst h2
      refine ⟨_, (hO _).2 (.inr (.inr (.inl rfl))), [.unit, .unit, .unit, .str s.1], _,
        T_cons.2 ⟨_, _, _, hl pre h1 d, entry K s.toks, [.unit, .unit, .str s.1], by simp, rfl,
          (key _ _ _ _ _).2 ⟨s, [], [], by simp, rfl, T_nil.2 ⟨rfl, rfl, rfl⟩⟩⟩, (act4 s .unit [] _ _).2 ?_⟩
      rw [List.append_nil]
    · refine ⟨_, (hO _).2 (.inr (.inr (.inr rfl))), [.unit, .unit, .unit, .str s.1, .unit], _,
        T_cons.2 ⟨_, _, _, hl pre h1 d, _, [.unit, .unit, .str s.1, .unit], List.append_assoc _ _ _, rfl,
          (key _ _ _ _ _).2 ⟨s, _, [.unit], rfl, rfl, hl post h2 _⟩⟩, (act4 s .unit [.unit] _ _).2 ?_⟩
      rw [applyAll_append]

theorem T_worldObj {w d v d'} : T [.n .world_obj] w d [v] d' ↔ v = .unit ∧ ∃ (s : Quoted) (l : List WorldItem),
    w = entry .NAME s.toks ++ l.flatMap WorldItem.toks ∧ d' = applyAll WorldItem.apply l (nameMesh s.text d) :=
  T_named _ _ (fun _ _ _ _ => T_worldRec) rfl

theorem T_lightObj {w d v d'} : T [.n .light_obj] w d [v] d' ↔ v = .unit ∧ ∃ (s : Quoted) (l : List LightItem),
    w = entry .NAME s.toks ++ l.flatMap LightItem.toks ∧ d' = applyAll LightItem.apply l (nameMesh s.text d) :=
  T_named _ _ (fun _ _ _ _ => T_lightRec) rfl

theorem T_texObj {w d v d'} : T [.n .texture_obj] w d [v] d' ↔ v = .unit ∧
    ∃ (pre : List TexItem) (s : Quoted) (post : List TexItem),
      w = pre.flatMap TexItem.toks ++ entry .SRC s.toks ++ post.flatMap TexItem.toks ∧
      d' = (fun s d => Driver.loadTexture d s) s.text (applyAll TexItem.apply (pre ++ post) d) := by
  refine T_wrap rfl _ _ (fun s d => Driver.loadTexture d s) (fun _ _ _ _ => T_texRec) fun r => ?_
  rw [show rulesFor .texture_obj = [([.t .SRC, .t .COLON, .t .STRING], setStr 3 fun s d => d.loadTexture s),
    ([.t .SRC, .t .COLON, .t .STRING, .n .texture_rec], setStr 3 fun s d => d.loadTexture s),
    ([.n .texture_rec, .t .SRC, .t .COLON, .t .STRING], setStr 4 fun s d => d.loadTexture s),
    ([.n .texture_rec, .t .SRC, .t .COLON, .t .STRING, .n .texture_rec], setStr 4 fun s d => d.loadTexture s)] from rfl]
  simp only [List.mem_cons, List.not_mem_nil, or_false]

theorem T_matObj {w d v d'} : T [.n .material_obj] w d [v] d' ↔ v = .unit ∧
    ∃ (pre : List MatItem) (s : Quoted) (post : List MatItem),
      w = pre.flatMap MatItem.toks ++ entry .NAME s.toks ++ post.flatMap MatItem.toks ∧
      d' = nameMat s.text (applyAll MatItem.apply (pre ++ post) d) := by
  refine T_wrap rfl _ _ nameMat (fun _ _ _ _ => T_matRec) fun r => ?_
  rw [show rulesFor .material_obj = [([.t .NAME, .t .COLON, .t .STRING, .n .material_rec], setStr 3 nameMat),
    ([.n .material_rec, .t .NAME, .t .COLON, .t .STRING], setStr 4 nameMat),
    ([.n .material_rec, .t .NAME, .t .COLON, .t .STRING, .n .material_rec], setStr 4 nameMat),
    ([.t .NAME, .t .COLON, .t .STRING], setStr 3 nameMat)] from rfl]
  simp only [List.mem_cons, List.not_mem_nil, or_false]
  tauto

theorem T_dualObj {w d v d'} : T [.n .dualmaterial_obj] w d [v] d' ↔ v = .unit ∧
    ∃ (pre : List DualItem) (s : Quoted) (post : List DualItem),
      w = pre.flatMap DualItem.toks ++ entry .NAME s.toks ++ post.flatMap DualItem.toks ∧
      d' = nameDual s.text (applyAll DualItem.apply (pre ++ post) d) := by
  refine T_wrap rfl _ _ nameDual (fun _ _ _ _ => T_dualRec) fun r => ?_
  rw [show rulesFor .dualmaterial_obj = [
    ([.t .NAME, .t .COLON, .t .STRING, .n .dualmaterial_rec], setStr 3 nameDual),
    ([.n .dualmaterial_rec, .t .NAME, .t .COLON, .t .STRING], setStr 4 nameDual),
    ([.n .dualmaterial_rec, .t .NAME, .t .COLON, .t .STRING, .n .dualmaterial_rec], setStr 4 nameDual),
    ([.t .NAME, .t .COLON, .t .STRING], setStr 3 nameDual)] from rfl]
  simp only [List.mem_cons, List.not_mem_nil, or_false]
  tauto

/-! ## Statements -/

def pushWorld (d : Driver) : Driver := { d with meshes := d.meshes ++ [d.curMesh], curMesh := {} }
def pushLight (d : Driver) : Driver :=
  { d with meshes := d.meshes ++ [{ d.curMesh with isLight := true }], curMesh := {} }
def pushMat (d : Driver) : Driver := { d with mats := d.mats ++ [d.curMat], curMat := {} }
def pushDual (d : Driver) : Driver := { d with duals := d.duals ++ [d.curDual], curDual := {} }

def Stmt.apply : Stmt → Driver → Driver
  | .out s, d => { d with output := s.text }
  | .resolution l, d => applyAll ResItem.apply l d
  | .filter l, d => applyAll FilterItem.apply l d
  | .sampler x, d => { d with sampler := x }
  | .spp n, d => { d with spp := n }
  | .integrator, d => d
  | .camera l, d => applyAll CameraItem.apply l d
  | .shape s, d => { d with shapes := d.shapes ++ [s.text] }
  | .world s l, d => pushWorld (applyAll WorldItem.apply l (nameMesh s.text d))
  | .light s l, d => pushLight (applyAll LightItem.apply l (nameMesh s.text d))
  | .texture pre s post, d => (applyAll TexItem.apply (pre ++ post) d).loadTexture s.text
  | .child s, d => { d with children := d.children ++ [s.text] }
  | .material pre s post, d => pushMat (nameMat s.text (applyAll MatItem.apply (pre ++ post) d))
  | .dual pre s post, d => pushDual (nameDual s.text (applyAll DualItem.apply (pre ++ post) d))
  | .comma, d => d

/-- A proper statement. -/
abbrev PStmt := { s : Stmt // s.Proper }

theorem T_stmt (w d v d') : T [.n .stmt] w d [v] d' ↔
    v = .unit ∧ ∃ i : PStmt, w = i.1.toks ∧ d' = i.1.apply d := by
  have hr : rulesFor .stmt = [
    ([.t .OUTPUT, .t .COLON, .t .STRING], setStr 3 fun s d => { d with output := s }),
    ([.t .RESOLUTION, .t .COLON, .t .OPEN_CU, .n .resolution_obj, .t .CLOSE_CU], upd fun d => d),
    ([.t .FILTER, .t .COLON, .t .OPEN_CU, .n .filter_obj, .t .CLOSE_CU], upd fun d => d),
    ([.t .SAMPLER, .t .COLON, .t .RANDOM], upd fun d => { d with sampler := .random }),
    ([.t .SAMPLER, .t .COLON, .t .STRATIFIED], upd fun d => { d with sampler := .stratified }),
    ([.t .SPP, .t .COLON, .t .UINT], setUint 3 fun n d => { d with spp := n }),
    ([.t .INTEGRATOR, .t .COLON, .t .PATH_TRACE], upd fun d => d),
    ([.t .CAMERA, .t .COLON, .t .OPEN_CU, .n .camera_obj, .t .CLOSE_CU], upd fun d => d),
    ([.t .SHAPE, .t .COLON, .t .STRING], setStr 3 fun s d => { d with shapes := d.shapes ++ [s] }),
    ([.t .WORLD, .t .COLON, .t .OPEN_CU, .n .world_obj, .t .CLOSE_CU], upd pushWorld),
    ([.t .LIGHT, .t .COLON, .t .OPEN_CU, .n .light_obj, .t .CLOSE_CU], upd pushLight),
    ([.t .TEXTURE, .t .COLON, .t .OPEN_CU, .n .texture_obj, .t .CLOSE_CU], upd fun d => d),
    ([.t .MATERIAL, .t .COLON, .t .STRING], setStr 3 fun s d => { d with children := d.children ++ [s] }),
    ([.t .MATERIAL, .t .COLON, .t .OPEN_CU, .n .material_obj, .t .CLOSE_CU], upd pushMat),
    ([.t .DUALMATERIAL, .t .COLON, .t .OPEN_CU, .n .dualmaterial_obj, .t .CLOSE_CU], upd pushDual),
    ([.t .COMMA], nop)] := rfl
  rw [T_rules hr]
  simp (disch := decide) only [exists_rule, exists_rule_nil, R_str, R_obj, R_kw, R_uint, R_comma, ← and_or_left, or_false,
    T_resObj, T_filterObj, T_cameraObj, T_worldObj, T_lightObj, T_texObj, T_matObj, T_dualObj]
  refine and_congr_right fun _ => ⟨?_, ?_⟩
  · rintro (⟨s, h⟩ | ⟨_, _, _, ⟨-, l, hl, rfl, rfl⟩, h⟩ | ⟨_, _, _, ⟨-, l, hl, rfl, rfl⟩, h⟩ | h | h | ⟨n, h⟩ | h |
      ⟨_, _, _, ⟨-, l, hl, rfl, rfl⟩, h⟩ | ⟨s, h⟩ | ⟨_, _, _, ⟨-, s, l, rfl, rfl⟩, h⟩ | ⟨_, _, _, ⟨-, s, l, rfl, rfl⟩, h⟩ |
      ⟨_, _, _, ⟨-, pre, s, post, rfl, rfl⟩, h⟩ | ⟨s, h⟩ | ⟨_, _, _, ⟨-, pre, s, post, rfl, rfl⟩, h⟩ |
      ⟨_, _, _, ⟨-, pre, s, post, rfl, rfl⟩, h⟩ | h)
    exacts [⟨⟨.out s, trivial⟩, h⟩, ⟨⟨.resolution l, hl⟩, h⟩, ⟨⟨.filter l, hl⟩, h⟩, ⟨⟨.sampler .random, trivial⟩, h⟩,
      ⟨⟨.sampler .stratified, trivial⟩, h⟩, ⟨⟨.spp n, trivial⟩, h⟩, ⟨⟨.integrator, trivial⟩, h⟩, ⟨⟨.camera l, hl⟩, h⟩,
      ⟨⟨.shape s, trivial⟩, h⟩, ⟨⟨.world s l, trivial⟩, h⟩, ⟨⟨.light s l, trivial⟩, h⟩, ⟨⟨.texture pre s post, trivial⟩, h⟩,
      ⟨⟨.child s, trivial⟩, h⟩, ⟨⟨.material pre s post, trivial⟩, h⟩, ⟨⟨.dual pre s post, trivial⟩, h⟩,
      ⟨⟨.comma, trivial⟩, h⟩]
  · rintro ⟨⟨(s | l | l | s | n | _ | l | s | ⟨s, l⟩ | ⟨s, l⟩ | ⟨pre, s, post⟩ | s | ⟨pre, s, post⟩ | ⟨pre, s, post⟩ | _), hl⟩, h⟩
    · exact .inl ⟨s, h⟩
    · exact .inr <| .inl ⟨_, _, _, ⟨rfl, l, hl, rfl, rfl⟩, h⟩
    · exact .inr <| .inr <| .inl ⟨_, _, _, ⟨rfl, l, hl, rfl, rfl⟩, h⟩
    · cases s
      · exact .inr <| .inr <| .inr <| .inl h
      · exact .inr <| .inr <| .inr <| .inr <| .inl h
    · exact .inr <| .inr <| .inr <| .inr <| .inr <| .inl ⟨n, h⟩
    · exact .inr <| .inr <| .inr <| .inr <| .inr <| .inr <| .inl h
    · exact .inr <| .inr <| .inr <| .inr <| .inr <| .inr <| .inr <| .inl ⟨_, _, _, ⟨rfl, l, hl, rfl, rfl⟩, h⟩
    · exact .inr <| .inr <| .inr <| .inr <| .inr <| .inr <| .inr <| .inr <| .inl ⟨s, h⟩
    · exact .inr <| .inr <| .inr <| .inr <| .inr <| .inr <| .inr <| .inr <| .inr <| .inl
        ⟨_, _, _, ⟨rfl, s, l, rfl, rfl⟩, h⟩
    · exact .inr <| .inr <| .inr <| .inr <| .inr <| .inr <| .inr <| .inr <| .inr <| .inr <| .inl
        ⟨_, _, _, ⟨rfl, s, l, rfl, rfl⟩, h⟩
    · exact .inr <| .inr <| .inr <| .inr <| .inr <| .inr <| .inr <| .inr <| .inr <| .inr <| .inr <| .inl
        ⟨_, _, _, ⟨rfl, pre, s, post, rfl, rfl⟩, h⟩
    · exact .inr <| .inr <| .inr <| .inr <| .inr <| .inr <| .inr <| .inr <| .inr <| .inr <| .inr <| .inr <| .inl ⟨s, h⟩
    · exact .inr <| .inr <| .inr <| .inr <| .inr <| .inr <| .inr <| .inr <| .inr <| .inr <| .inr <| .inr <| .inr <| .inl
        ⟨_, _, _, ⟨rfl, pre, s, post, rfl, rfl⟩, h⟩
    · exact .inr <| .inr <| .inr <| .inr <| .inr <| .inr <| .inr <| .inr <| .inr <| .inr <| .inr <| .inr <| .inr <| .inr <|
        .inl ⟨_, _, _, ⟨rfl, pre, s, post, rfl, rfl⟩, h⟩
    · exact .inr <| .inr <| .inr <| .inr <| .inr <| .inr <| .inr <| .inr <| .inr <| .inr <| .inr <| .inr <| .inr <| .inr <|
        .inr h

theorem stmt_toks_ne (s : Stmt) : s.toks ≠ [] := by cases s <;> simp [Stmt.toks, entry, object]

theorem T_file {w d v d'} : T [.n .file] w d [v] d' ↔ v = .unit ∧ ∃ l : List PStmt, l ≠ [] ∧
    w = l.flatMap (fun i => i.1.toks) ∧ d' = applyAll (fun i : PStmt => i.1.apply) l d :=
  T_list1 (fun i : PStmt => i.1.toks) (fun i : PStmt => i.1.apply) (fun i => stmt_toks_ne i.1) rfl T_stmt

/-! ## From effects to meanings -/

theorem lastOr_nil {α : Type} (x : α) : lastOr x [] = x := rfl

theorem lastOr_cons {α : Type} (x a : α) (l : List α) : lastOr x (a :: l) = lastOr a l := by
  cases l with
  | nil => rfl
  | cons b l => simp [lastOr, List.getLast?_eq_getLast_of_ne_nil]

theorem applyAll_nil {I : Type} (ap : I → Driver → Driver) (d : Driver) : applyAll ap [] d = d := rfl

theorem applyAll_cons {I : Type} (ap : I → Driver → Driver) (i : I) (l : List I) (d : Driver) :
    applyAll ap (i :: l) d = applyAll ap l (ap i d) := rfl

theorem lastOr_append {α : Type} (x : α) (l l' : List α) : lastOr x (l ++ l') = lastOr (lastOr x l) l' := by
  induction l generalizing x with
  | nil => rfl
  | cons a l ih => rw [List.cons_append, lastOr_cons, lastOr_cons, ih]

theorem resItems_apply (l : List ResItem) (d : Driver) : applyAll ResItem.apply l d =
    { d with
      width := lastOr d.width (l.filterMap fun | .width n => some n | _ => none)
      height := lastOr d.height (l.filterMap fun | .height n => some n | _ => none) } := by
  induction l generalizing d with
  | nil => rfl
  | cons i l ih => cases i <;> simp [applyAll_cons, ih, ResItem.apply, lastOr_cons]

theorem filterItems_apply (l : List FilterItem) (d : Driver) : applyAll FilterItem.apply l d =
    { d with
      filter := lastOr d.filter (l.filterMap fun | .type f => some f | _ => none)
      texFilter := lastOr d.texFilter (l.filterMap fun | .texture f => some f | _ => none)
      value0 := lastOr d.value0 (l.filterMap fun | .value0 x => some x.val | _ => none)
      value1 := lastOr d.value1 (l.filterMap fun | .value1 x => some x.val | _ => none) } := by
  induction l generalizing d with
  | nil => rfl
  | cons i l ih => cases i <;> simp [applyAll_cons, ih, FilterItem.apply, lastOr_cons]

theorem cameraItems_apply (l : List CameraItem) (d : Driver) : applyAll CameraItem.apply l d =
    { d with
      camera := lastOr d.camera (l.filterMap fun | .type c => some c | _ => none)
      fov := lastOr d.fov (l.filterMap fun | .fov x => some x.val | _ => none)
      cameraPos := lastOr d.cameraPos (l.filterMap fun | .position v => some v.val | _ => none)
      cameraTar := lastOr d.cameraTar (l.filterMap fun | .target v => some v.val | _ => none)
      cameraUp := lastOr d.cameraUp (l.filterMap fun | .up v => some v.val | _ => none) } := by
  induction l generalizing d with
  | nil => rfl
  | cons i l ih => cases i <;> simp [applyAll_cons, ih, CameraItem.apply, lastOr_cons]

theorem texItems_apply (l : List TexItem) (d : Driver) : applyAll TexItem.apply l d =
    { d with
      texName := lastOr d.texName (l.filterMap fun | .name s => some s.text | _ => none)
      texShift := lastOr d.texShift (l.filterMap fun | .shift x y => some (x.val, y.val) | _ => none)
      texScale := lastOr d.texScale (l.filterMap fun
        | .scale x y => some (x.val, y.val)
        | .scale1 x => some (x.val, x.val)
        | _ => none) } := by
  induction l generalizing d with
  | nil => rfl
  | cons i l ih => cases i <;> simp [applyAll_cons, ih, TexItem.apply, lastOr_cons]

theorem matItems_apply (l : List MatItem) (d : Driver) : applyAll MatItem.apply l d =
    { d with
      curMat := { d.curMat with
        elem := lastOr d.curMat.elem (l.filterMap fun | .element m => some m | _ => none)
        type := lastOr d.curMat.type (l.filterMap fun | .type t => some t | _ => none)
        ior := lastOr d.curMat.ior (l.filterMap fun
          | .ior1 x => some (.cauchy x.val 0 0)
          | .ior2 x y => some (.cauchy x.val y.val 0)
          | .ior3 v => some (.cauchy v.x.val v.y.val v.z.val)
          | .ior6 v u => some (.sellmeier v.val u.val)
          | _ => none)
        roughX := lastOr d.curMat.roughX (l.filterMap fun | .roughness x => some x.val | _ => none)
        roughY := lastOr d.curMat.roughY (l.filterMap fun | .anisotropy x => some x.val | _ => none)
        dist := lastOr d.curMat.dist (l.filterMap fun | .distribution d => some d | _ => none)
        diffuse := lastOr d.curMat.diffuse (l.filterMap fun | .diffuse s => some s.text | _ => none)
        diffuseUniform := lastOr d.curMat.diffuseUniform
          (l.filterMap fun | .diffuseColor v => some (some (uniformColor v.val)) | _ => none)
        specular := lastOr d.curMat.specular (l.filterMap fun | .specular s => some s.text | _ => none)
        specularUniform := lastOr d.curMat.specularUniform
          (l.filterMap fun | .specularColor v => some (some (uniformColor v.val)) | _ => none)
        bump := lastOr d.curMat.bump (l.filterMap fun | .normal s => some s.text | _ => none) } } := by
  induction l generalizing d with
  | nil => rfl
  | cons i l ih => cases i <;> simp [applyAll_cons, ih, MatItem.apply, lastOr_cons, Vec.val]

theorem attrs_apply (l : List Attr) (d : Driver) : applyAll Attr.apply l d =
    { d with
      curMask := { d.curMask with
        chn := lastOr d.curMask.chn (l.filterMap fun | .chan c => some c | .inverted => none)
        inv := d.curMask.inv || l.any fun | .inverted => true | .chan _ => false } } := by
  induction l generalizing d with
  | nil => simp [applyAll_nil, lastOr_nil]
  | cons i l ih => cases i <;> simp [applyAll_cons, ih, Attr.apply, lastOr_cons]

theorem maskToMesh_apply (s : Quoted) (as : List Attr) (d : Driver) (h : d.curMask = {}) :
    maskToMesh s.text (applyAll Attr.apply as d) = { d with curMesh.mask := maskOf s as } := by
  rw [attrs_apply]
  obtain ⟨⟩ := d
  simp only at h
  subst h
  simp [maskToMesh, maskOf]

theorem maskToDual_apply (s : Quoted) (as : List Attr) (d : Driver) (h : d.curMask = {}) :
    maskToDual s.text (applyAll Attr.apply as d) = { d with curDual.mask := maskOf s as } := by
  rw [attrs_apply]
  obtain ⟨⟩ := d
  simp only at h
  subst h
  simp [maskToDual, maskOf]

theorem dualItems_apply (l : List DualItem) (d : Driver) (h : d.curMask = {}) : applyAll DualItem.apply l d =
    { d with
      curDual := { d.curDual with
        first := lastOr d.curDual.first (l.filterMap fun | .first s => some s.text | _ => none)
        second := lastOr d.curDual.second (l.filterMap fun | .second s => some s.text | _ => none)
        mask := lastOr d.curDual.mask (l.filterMap fun | .mask s as => some (maskOf s as) | _ => none) } } := by
  induction l generalizing d with
  | nil => rfl
  | cons i l ih =>
    cases i <;> simp [applyAll_cons, ih, h, DualItem.apply, maskToDual_apply, lastOr_cons]

theorem lightItems_apply (l : List LightItem) (d : Driver) (h : d.curMask = {}) : applyAll LightItem.apply l d =
    { d with
      curMesh := { d.curMesh with
        material := lastOr d.curMesh.material (l.filterMap fun | .world (.material s) => some s.text | _ => none)
        position := lastOr d.curMesh.position (l.filterMap fun | .world (.position v) => some v.val | _ => none)
        rotation := lastOr d.curMesh.rotation (l.filterMap fun | .world (.rotation v) => some v.val | _ => none)
        scale := lastOr d.curMesh.scale (l.filterMap fun
          | .world (.scale v) => some v.val
          | .world (.scale1 x) => some ⟨x.val, x.val, x.val⟩
          | _ => none)
        temperature := lastOr d.curMesh.temperature (l.filterMap fun | .temperature n => some n | _ => none)
        color := lastOr d.curMesh.color (l.filterMap fun | .color v => some v.val | _ => none)
        mask := lastOr d.curMesh.mask (l.filterMap fun | .world (.mask s as) => some (maskOf s as) | _ => none) } } := by
  induction l generalizing d with
  | nil => rfl
  | cons i l ih =>
    cases i with
    | world i =>
      cases i <;> simp [applyAll_cons, ih, h, LightItem.apply, WorldItem.apply, maskToMesh_apply, lastOr_cons]
    | _ => simp [applyAll_cons, ih, h, LightItem.apply, lastOr_cons]

theorem worldItems_apply (l : List WorldItem) (d : Driver) : applyAll WorldItem.apply l d =
    applyAll LightItem.apply (l.map .world) d := by
  induction l generalizing d with
  | nil => rfl
  | cons i l ih => rw [List.map_cons, applyAll_cons, applyAll_cons, ih]; rfl

theorem world_apply (s : Quoted) (l : List WorldItem) (d : Driver) (h : Idle d) : (Stmt.world s l).apply d =
    { d with meshes := d.meshes ++ [worldMesh s l] } := by
  obtain ⟨-, -, -, h1, -, -, h2⟩ := h
  simp only [Stmt.apply, worldItems_apply]
  rw [lightItems_apply _ _ (by exact h2)]
  obtain ⟨⟩ := d
  simp only at h1 h2
  subst h1 h2
  have e : ∀ {α : Type} {f : LightItem → Option α} {g : WorldItem → Option α} (x : α), (∀ i, f (.world i) = g i) →
      lastOr x ((l.map .world).filterMap f) = lastOr x (l.filterMap g) := by
    intro α f g x h
    rw [List.filterMap_map]
    exact congrArg (fun g => lastOr x (l.filterMap g)) (funext h)
  have e' : ∀ {α : Type} {f : LightItem → Option α} (x : α), (∀ i, f (.world i) = none) →
      lastOr x ((l.map .world).filterMap f) = x := by
    intro α f x h
    rw [e (g := fun _ => none) x h]
    simp [lastOr_nil]
  simp only [pushWorld, nameMesh, worldMesh, Driver.mk.injEq, true_and, and_true, List.append_cancel_left_eq,
    List.cons.injEq, Mesh.mk.injEq]
  refine ⟨e _ ?_, e _ ?_, e _ ?_, e _ ?_, e' _ ?_, e' _ ?_, e _ ?_⟩ <;> intro i <;> cases i <;> rfl

theorem light_apply (s : Quoted) (l : List LightItem) (d : Driver) (h : Idle d) : (Stmt.light s l).apply d =
    { d with meshes := d.meshes ++ [lightMesh s l] } := by
  obtain ⟨-, -, -, h1, -, -, h2⟩ := h
  simp only [Stmt.apply]
  rw [lightItems_apply _ _ (by exact h2)]
  obtain ⟨⟩ := d
  simp only at h1 h2
  subst h1 h2
  have e : ∀ {α : Type} {f : LightItem → Option α} {g : WorldItem → Option α} (x : α), (∀ i, f (.world i) = g i) →
      (∀ n, f (.temperature n) = none) → (∀ v, f (.color v) = none) →
      lastOr x (l.filterMap f) = lastOr x ((l.filterMap fun | .world i => some i | _ => none).filterMap g) := by
    intro α f g x h h' h''
    rw [List.filterMap_filterMap]
    refine congrArg (fun g => lastOr x (l.filterMap g)) (funext fun i => ?_)
    cases i
    exacts [h _, h' _, h'' _]
  simp only [pushLight, nameMesh, lightMesh, worldMesh, Driver.mk.injEq, true_and, and_true, List.append_cancel_left_eq,
    List.cons.injEq, Mesh.mk.injEq]
  refine ⟨e _ ?_ ?_ ?_, e _ ?_ ?_ ?_, e _ ?_ ?_ ?_, e _ ?_ ?_ ?_, e _ ?_ ?_ ?_⟩ <;> intro i <;> cases i <;> rfl

theorem dual_apply (pre post : List DualItem) (s : Quoted) (d : Driver) (h : Idle d) : (Stmt.dual pre s post).apply d =
    { d with duals := d.duals ++ [dualOf s (pre ++ post)] } := by
  obtain ⟨-, -, -, -, -, h1, h2⟩ := h
  simp only [Stmt.apply]
  rw [dualItems_apply _ _ h2]
  obtain ⟨⟩ := d
  simp only at h1 h2
  subst h1 h2
  rfl

theorem idle_apply (s : Stmt) (d : Driver) (h : Idle d) : Idle (s.apply d) := by
  cases s with
  | world s l => rw [world_apply _ _ _ h]; exact ⟨h.1, h.2, h.3, h.4, h.5, h.6, h.7⟩
  | light s l => rw [light_apply _ _ _ h]; exact ⟨h.1, h.2, h.3, h.4, h.5, h.6, h.7⟩
  | resolution l => simp only [Stmt.apply, resItems_apply]; exact ⟨h.1, h.2, h.3, h.4, h.5, h.6, h.7⟩
  | filter l => simp only [Stmt.apply, filterItems_apply]; exact ⟨h.1, h.2, h.3, h.4, h.5, h.6, h.7⟩
  | camera l => simp only [Stmt.apply, cameraItems_apply]; exact ⟨h.1, h.2, h.3, h.4, h.5, h.6, h.7⟩
  | texture pre s post =>
    simp only [Stmt.apply, texItems_apply]; exact ⟨rfl, rfl, rfl, h.4, h.5, h.6, h.7⟩
  | material pre s post =>
    simp only [Stmt.apply, matItems_apply]; exact ⟨h.1, h.2, h.3, h.4, rfl, h.6, h.7⟩
  | dual pre s post =>
    simp only [Stmt.apply]
    rw [dualItems_apply _ _ h.7]
    exact ⟨h.1, h.2, h.3, h.4, h.5, rfl, h.7⟩
  | _ => exact ⟨h.1, h.2, h.3, h.4, h.5, h.6, h.7⟩

theorem meaning_nil (d : Driver) (h : Idle d) : meaning d [] = d := by
  obtain ⟨h1, h2, h3, h4, h5, h6, h7⟩ := h
  obtain ⟨⟩ := d
  simp only at h1 h2 h3 h4 h5 h6 h7
  subst h1 h2 h3 h4 h5 h6 h7
  simp [meaning, resItems, filterItems, cameraItems, texFilterOf, lastOr_nil]

theorem loads_cons (f : TexFilter) (s : Stmt) (ss : List Stmt) :
    (List.range (ss.length + 1)).filterMap (loadAt f (s :: ss)) =
      (loadAt f [s] 0).toList ++ (List.range ss.length).filterMap (loadAt (texFilterOf f [s]) ss) := by
  have h : ∀ n, loadAt f (s :: ss) (n + 1) = loadAt (texFilterOf f [s]) ss n := by
    intro n
    simp only [loadAt, List.getElem?_cons_succ, List.take_succ_cons]
    have : ∀ l, texFilterOf f (s :: l) = texFilterOf (texFilterOf f [s]) l := by
      intro l
      simp only [texFilterOf, filterItems, List.flatMap_cons, List.flatMap_nil, List.append_nil, List.filterMap_append,
        lastOr_append]
    rw [this]
  have h0 : loadAt f (s :: ss) 0 = loadAt f [s] 0 := by simp [loadAt]
  rw [List.range_succ_eq_map, List.filterMap_cons, List.filterMap_map, h0]
  have : (loadAt f (s :: ss) ∘ Nat.succ) = loadAt (texFilterOf f [s]) ss := funext h
  rw [this]
  cases loadAt f [s] 0 <;> rfl

theorem meaning_world (d : Driver) (s : Quoted) (l : List WorldItem) (ss : List Stmt) (h : Idle d) :
    meaning d (Stmt.world s l :: ss) = meaning ((Stmt.world s l).apply d) ss := by
  rw [world_apply _ _ _ h]
  simp [meaning, loads_cons, loadAt, resItems, filterItems, cameraItems, texFilterOf, lastOr_nil]

theorem meaning_light (d : Driver) (s : Quoted) (l : List LightItem) (ss : List Stmt) (h : Idle d) :
    meaning d (Stmt.light s l :: ss) = meaning ((Stmt.light s l).apply d) ss := by
  rw [light_apply _ _ _ h]
  simp [meaning, loads_cons, loadAt, resItems, filterItems, cameraItems, texFilterOf, lastOr_nil]

theorem meaning_dual (d : Driver) (pre post : List DualItem) (s : Quoted) (ss : List Stmt) (h : Idle d) :
    meaning d (Stmt.dual pre s post :: ss) = meaning ((Stmt.dual pre s post).apply d) ss := by
  rw [dual_apply _ _ _ _ h]
  simp [meaning, loads_cons, loadAt, resItems, filterItems, cameraItems, texFilterOf, lastOr_nil]

theorem meaning_texture (d : Driver) (pre post : List TexItem) (s : Quoted) (ss : List Stmt) (h : Idle d) :
    meaning d (Stmt.texture pre s post :: ss) = meaning ((Stmt.texture pre s post).apply d) ss := by
  obtain ⟨h1, h2, h3, -⟩ := h
  simp [meaning, loads_cons, loadAt, resItems, filterItems, cameraItems, texFilterOf, lastOr_nil, Stmt.apply,
    texItems_apply, Driver.loadTexture, texLoad, h1, h2, h3]

theorem meaning_material (d : Driver) (pre post : List MatItem) (s : Quoted) (ss : List Stmt) (h : Idle d) :
    meaning d (Stmt.material pre s post :: ss) = meaning ((Stmt.material pre s post).apply d) ss := by
  obtain ⟨-, -, -, -, h5, -⟩ := h
  simp [meaning, loads_cons, loadAt, resItems, filterItems, cameraItems, texFilterOf, lastOr_nil, Stmt.apply,
    matItems_apply, pushMat, nameMat, matOf, h5]

theorem meaning_cons (d : Driver) (s : Stmt) (ss : List Stmt) (h : Idle d) :
    meaning d (s :: ss) = meaning (s.apply d) ss := by
  cases s with
  | world s l => exact meaning_world d s l ss h
  | light s l => exact meaning_light d s l ss h
  | texture pre s post => exact meaning_texture d pre post s ss h
  | material pre s post => exact meaning_material d pre post s ss h
  | dual pre s post => exact meaning_dual d pre post s ss h
  | resolution l =>
    simp [meaning, loads_cons, loadAt, resItems, filterItems, cameraItems, texFilterOf, lastOr_nil, Stmt.apply,
      resItems_apply, lastOr_append]
  | filter l =>
    simp [meaning, loads_cons, loadAt, resItems, filterItems, cameraItems, texFilterOf, Stmt.apply,
      filterItems_apply, lastOr_append]
  | camera l =>
    simp [meaning, loads_cons, loadAt, resItems, filterItems, cameraItems, texFilterOf, lastOr_nil, Stmt.apply,
      cameraItems_apply, lastOr_append]
  | _ =>
    simp [meaning, loads_cons, loadAt, resItems, filterItems, cameraItems, texFilterOf, lastOr_nil, lastOr_cons,
      Stmt.apply]

theorem applyAll_meaning (ss : List PStmt) (d : Driver) (h : Idle d) :
    applyAll (fun i : PStmt => i.1.apply) ss d = meaning d (ss.map Subtype.val) := by
  induction ss generalizing d with
  | nil => exact (meaning_nil d h).symm
  | cons s ss ih => rw [applyAll_cons, ih _ (idle_apply _ _ h), List.map_cons, meaning_cons _ _ _ h]

/-! ## Types of values -/

/-- The types of the values, config_parser.y:138-148. -/
def Ty : Sym → Val → Prop
  | .t a, v => TokTy a v
  | .n .number, v => ∃ x, v = .num x
  | .n .integer, v => ∃ n, v = .int n
  | .n .vector, v => ∃ x, v = .vec x
  | .n .vector2, v => ∃ x y, v = .vec2 x y
  | .n .element, v => ∃ m, v = .metal m
  | .n .channel, v => ∃ c, v = .chan c
  | _, v => v = .unit

theorem forall₂_get {rhs : List Sym} {vs : List Val} (h : List.Forall₂ Ty rhs vs) {k : Nat} {s : Sym}
    (hk : rhs[k]? = some s) : ∃ v, vs[k]? = some v ∧ Ty s v := by
  induction h generalizing k with
  | nil => simp at hk
  | cons h1 h2 ih =>
    cases k with
    | zero => rw [List.getElem?_cons_zero, Option.some.injEq] at hk; subst hk; exact ⟨_, rfl, h1⟩
    | succ k => rw [List.getElem?_cons_succ] at hk ⊢; exact ih hk

/-- The action is defined on values of the types of the right-hand side and gives a value of the left-hand side. -/
def Defined (r : (NT × List Sym) × Action) : Prop :=
  ∀ vs d, List.Forall₂ Ty r.1.2 vs → ∃ v d', r.2 vs d = some (v, d') ∧ Ty (.n r.1.1) v

theorem def_nop {A rhs} (hA : Ty (.n A) .unit) : Defined (rule A rhs, nop) := fun _ d _ => ⟨.unit, d, rfl, hA⟩

theorem def_upd {A rhs f} (hA : Ty (.n A) .unit) : Defined (rule A rhs, upd f) := fun _ d _ => ⟨.unit, f d, rfl, hA⟩

theorem def_give {A rhs v} (hA : Ty (.n A) v) : Defined (rule A rhs, give v) := fun _ d _ => ⟨v, d, rfl, hA⟩

theorem def_str {A rhs k f} (hA : Ty (.n A) .unit) (hk : rhs[k - 1]? = some (.t .STRING)) :
    Defined (rule A rhs, setStr k f) := fun vs d h => by
  obtain ⟨v, hv, s, rfl⟩ := forall₂_get h hk
  exact ⟨.unit, f s.text d, by simp only [setStr, hv, strip_quoted], hA⟩

theorem def_uint {A rhs k f} (hA : Ty (.n A) .unit) (hk : rhs[k - 1]? = some (.t .UINT)) :
    Defined (rule A rhs, setUint k f) := fun vs d h => by
  obtain ⟨v, hv, s, rfl⟩ := forall₂_get h hk
  exact ⟨.unit, f s d, by simp only [setUint, hv], hA⟩

theorem def_num {A rhs k f} (hA : Ty (.n A) .unit) (hk : rhs[k - 1]? = some (.n .number)) :
    Defined (rule A rhs, setNum k f) := fun vs d h => by
  obtain ⟨v, hv, s, rfl⟩ := forall₂_get h hk
  exact ⟨.unit, f s d, by simp only [setNum, hv], hA⟩

theorem def_vec {A rhs k f} (hA : Ty (.n A) .unit) (hk : rhs[k - 1]? = some (.n .vector)) :
    Defined (rule A rhs, setVec k f) := fun vs d h => by
  obtain ⟨v, hv, s, rfl⟩ := forall₂_get h hk
  exact ⟨.unit, f s d, by simp only [setVec, hv], hA⟩

theorem def_vecs {A rhs k l f} (hA : Ty (.n A) .unit) (hk : rhs[k - 1]? = some (.n .vector))
    (hl : rhs[l - 1]? = some (.n .vector)) : Defined (rule A rhs, setVecs k l f) := fun vs d h => by
  obtain ⟨v, hv, s, rfl⟩ := forall₂_get h hk
  obtain ⟨u, hu, t, rfl⟩ := forall₂_get h hl
  exact ⟨.unit, f s t d, by simp only [setVecs, hv, hu], hA⟩

theorem def_vec2 {A rhs k f} (hA : Ty (.n A) .unit) (hk : rhs[k - 1]? = some (.n .vector2)) :
    Defined (rule A rhs, setVec2 k f) := fun vs d h => by
  obtain ⟨v, hv, s, t, rfl⟩ := forall₂_get h hk
  exact ⟨.unit, f s t d, by simp only [setVec2, hv], hA⟩

theorem def_metal {A rhs k f} (hA : Ty (.n A) .unit) (hk : rhs[k - 1]? = some (.n .element)) :
    Defined (rule A rhs, setMetal k f) := fun vs d h => by
  obtain ⟨v, hv, s, rfl⟩ := forall₂_get h hk
  exact ⟨.unit, f s d, by simp only [setMetal, hv], hA⟩

theorem def_chan {A rhs k f} (hA : Ty (.n A) .unit) (hk : rhs[k - 1]? = some (.n .channel)) :
    Defined (rule A rhs, setChan k f) := fun vs d h => by
  obtain ⟨v, hv, s, rfl⟩ := forall₂_get h hk
  exact ⟨.unit, f s d, by simp only [setChan, hv], hA⟩

theorem def_giveVec : Defined (rule .vector
    [.t .OPEN_SQ, .n .number, .t .COMMA, .n .number, .t .COMMA, .n .number, .t .CLOSE_SQ], giveVec 2 4 6) := fun vs d h => by
  obtain ⟨v1, h1, x, rfl⟩ := forall₂_get (k := 1) (s := .n .number) h rfl
  obtain ⟨v2, h2, y, rfl⟩ := forall₂_get (k := 3) (s := .n .number) h rfl
  obtain ⟨v3, h3, z, rfl⟩ := forall₂_get (k := 5) (s := .n .number) h rfl
  exact ⟨.vec ⟨x, y, z⟩, d, by simp only [giveVec, Nat.add_one_sub_one, h1, h2, h3], _, rfl⟩

theorem def_giveVec2 : Defined (rule .vector2
    [.t .OPEN_SQ, .n .number, .t .COMMA, .n .number, .t .CLOSE_SQ], giveVec2 2 4) := fun vs d h => by
  obtain ⟨v1, h1, x, rfl⟩ := forall₂_get (k := 1) (s := .n .number) h rfl
  obtain ⟨v2, h2, y, rfl⟩ := forall₂_get (k := 3) (s := .n .number) h rfl
  exact ⟨.vec2 x y, d, by simp only [giveVec2, Nat.add_one_sub_one, h1, h2], _, _, rfl⟩

theorem def_giveFloat : Defined (rule .number [.t .FLOAT], giveFloat 1) := fun vs d h => by
  obtain ⟨v1, h1, x, rfl⟩ := forall₂_get (k := 0) (s := .t .FLOAT) h rfl
  exact ⟨.num x, d, by simp only [giveFloat, Nat.sub_self, h1], _, rfl⟩

theorem def_giveNumber : Defined (rule .number [.n .integer], giveNumber 1) := fun vs d h => by
  obtain ⟨v1, h1, x, rfl⟩ := forall₂_get (k := 0) (s := .n .integer) h rfl
  exact ⟨.num x, d, by simp only [giveNumber, Nat.sub_self, h1], _, rfl⟩

theorem def_giveUint : Defined (rule .integer [.t .UINT], giveUint 1) := fun vs d h => by
  obtain ⟨v1, h1, x, rfl⟩ := forall₂_get (k := 0) (s := .t .UINT) h rfl
  exact ⟨.int x, d, by simp only [giveUint, Nat.sub_self, h1], _, rfl⟩

theorem def_giveInt : Defined (rule .integer [.t .INT], giveInt 1) := fun vs d h => by
  obtain ⟨v1, h1, x, rfl⟩ := forall₂_get (k := 0) (s := .t .INT) h rfl
  exact ⟨.int x, d, by simp only [giveInt, Nat.sub_self, h1], _, rfl⟩

theorem all_defined : ∀ r ∈ grammar.zip actions, Defined r := by
  simp only [grammar, actions, List.zip_cons_cons, List.zip_nil_left, List.forall_mem_cons]
  repeat' apply And.intro
  all_goals first
    | exact def_nop rfl | exact def_upd rfl | exact def_str rfl rfl | exact def_uint rfl rfl | exact def_num rfl rfl
    | exact def_vec rfl rfl | exact def_vec2 rfl rfl | exact def_vecs rfl rfl rfl | exact def_metal rfl rfl
    | exact def_chan rfl rfl | exact def_give ⟨_, rfl⟩ | exact def_giveVec | exact def_giveVec2 | exact def_giveFloat
    | exact def_giveNumber | exact def_giveUint | exact def_giveInt
    | (intro x hx; exact absurd hx (by simp))

theorem sem_defined (n : Nat) (A : NT) (rhs : List Sym) (vs : List Val) (d : Driver)
    (hg : grammar[n]? = some (A, rhs)) (h : List.Forall₂ Ty rhs vs) :
    ∃ v d', sem (n + 1) vs d = some (v, d') ∧ Ty (.n A) v := by
  have hl : actions.length = grammar.length := rfl
  have hn : n < actions.length := by
    rw [hl]; exact (List.getElem?_eq_some_iff.1 hg).1
  have ha := List.getElem?_eq_getElem hn
  have hm : ((A, rhs), actions[n]) ∈ grammar.zip actions :=
    List.mem_iff_getElem?.2 ⟨n, List.getElem?_zip_eq_some.2 ⟨hg, ha⟩⟩
  simpa only [sem, ha] using all_defined _ hm vs d h

/-! ## Properties -/

/-- C122: A list of tokens is accepted exactly if it is a list of statements, and then the driver holds what they mean. -/
theorem C122_meaning (w : List (Tok × Val)) (hw : ∀ t ∈ w, t.1 ≠ Tok.END) (ht : Typed w) (d d' : Driver) (hd : Idle d) :
    run sem (9 * (w.length + 1) + 1) (initial .unit w d) = some (.accept d') ↔
      ∃ ss : List Stmt, ss ≠ [] ∧ (∀ s ∈ ss, s.Proper) ∧ w = ss.flatMap Stmt.toks ∧ d' = meaning d ss := by
  have h1 : run sem (9 * (w.length + 1) + 1) (initial .unit w d) = some (.accept d') ↔
      ∃ v, T [.n .file] w d [v] d' := by
    have h2 := C119_accepts_iff sem .unit w hw d d'
    constructor
    · intro h
      obtain ⟨v, h3⟩ := h2.1 ⟨_, h⟩
      exact ⟨v, h3, ht⟩
    · rintro ⟨v, h3, -⟩
      obtain ⟨N, hN⟩ := h2.2 ⟨v, h3⟩
      obtain ⟨o, ho⟩ := C119_terminates sem .unit w d
      rw [ho, run_det hN ho]
  rw [h1]
  simp only [T_file]
  constructor
  · rintro ⟨v, rfl, l, hl, rfl, rfl⟩
    refine ⟨l.map Subtype.val, fun h => hl (List.map_eq_nil_iff.1 h), ?_, ?_, applyAll_meaning l d hd⟩
    · intro s hs
      obtain ⟨p, -, rfl⟩ := List.mem_map.1 hs
      exact p.2
    · rw [List.flatMap_map]
  · rintro ⟨ss, hn, hp, rfl, rfl⟩
    have hs : (ss.attachWith Stmt.Proper hp).map Subtype.val = ss := List.attachWith_map_subtype_val ..
    refine ⟨.unit, rfl, ss.attachWith Stmt.Proper hp, by simpa using hn, ?_, ?_⟩
    · conv_lhs => rw [← hs]
      rw [List.flatMap_map]
    · rw [applyAll_meaning _ d hd, hs]

/-- C122: Otherwise there is a syntax error; no action is undefined. -/
theorem C122_rejected (w : List (Tok × Val)) (hw : ∀ t ∈ w, t.1 ≠ Tok.END) (ht : Typed w) (d : Driver) (hd : Idle d)
    (h : ¬ ∃ ss : List Stmt, ss ≠ [] ∧ (∀ s ∈ ss, s.Proper) ∧ w = ss.flatMap Stmt.toks) :
    ∃ d', run sem (9 * (w.length + 1) + 1) (initial .unit w d) = some (.reject d') := by
  obtain ⟨o, ho⟩ := C119_terminates sem .unit w d
  cases o with
  | accept d' =>
    obtain ⟨ss, h1, h2, h3, -⟩ := (C122_meaning w hw ht d d' hd).1 ho
    exact absurd ⟨ss, h1, h2, h3⟩ h
  | reject d' => exact ⟨d', ho⟩
  | ub => exact absurd ho (C119_no_undefined_behaviour sem Ty sem_defined .unit rfl w ht d _)

/-- C122: The constructor sets the documented defaults. -/
theorem C122_defaults : IsDefault {} ∧ Idle {} :=
  ⟨⟨by decide, rfl, rfl, rfl, rfl, rfl, rfl, rfl, rfl, rfl, rfl, rfl, rfl, rfl, rfl, rfl, rfl, rfl, rfl, rfl⟩,
    ⟨rfl, rfl, rfl, rfl, rfl, rfl, rfl⟩⟩

/-- C122: Files read one after the other mean what they mean together. -/
theorem C122_concatenation (d : Driver) (hd : Idle d) (ss ss' : List Stmt) :
    Idle (meaning d ss) ∧ meaning (meaning d ss) ss' = meaning d (ss ++ ss') := by
  refine ⟨⟨rfl, rfl, rfl, rfl, rfl, rfl, rfl⟩, ?_⟩
  induction ss generalizing d with
  | nil => rw [meaning_nil d hd, List.nil_append]
  | cons s ss ih => rw [List.cons_append, meaning_cons _ _ _ hd, meaning_cons _ _ _ hd, ih _ (idle_apply _ _ hd)]

/-! ## Examples -/

/-- The tokens of `spp: 4 resolution: {width: 3}`: the hypotheses of `C122_meaning` hold, and it gives the driver. -/
example :
    let w := [kw .SPP, kw .COLON, (.UINT, .uint 4), kw .RESOLUTION, kw .COLON, kw .OPEN_CU, kw .WIDTH, kw .COLON,
      (.UINT, .uint 3), kw .CLOSE_CU]
    (∀ t ∈ w, t.1 ≠ Tok.END) ∧ Typed w ∧ Idle {} ∧
      run sem (9 * (w.length + 1) + 1) (initial .unit w {}) = some (.accept { spp := 4, width := 3 }) := by
  have hw : ∀ t ∈ [kw .SPP, kw .COLON, (.UINT, .uint 4), kw .RESOLUTION, kw .COLON, kw .OPEN_CU, kw .WIDTH, kw .COLON,
      (.UINT, .uint 3), kw .CLOSE_CU], t.1 ≠ Tok.END := by decide
  have ht : Typed [kw .SPP, kw .COLON, (.UINT, .uint 4), kw .RESOLUTION, kw .COLON, kw .OPEN_CU, kw .WIDTH, kw .COLON,
      (.UINT, .uint 3), kw .CLOSE_CU] := by
    simp only [typed_cons, typed_nil, and_true]
    exact ⟨rfl, rfl, ⟨_, rfl⟩, rfl, rfl, rfl, rfl, rfl, ⟨_, rfl⟩, rfl⟩
  refine ⟨hw, ht, C122_defaults.2, (C122_meaning _ hw ht _ _ C122_defaults.2).2 ?_⟩
  refine ⟨[.spp 4, .resolution [.width 3]], by simp, ?_, by decide, rfl⟩
  intro s hs
  fin_cases hs <;> simp [Stmt.Proper]

/-- A texture is loaded with the filter set before it: that of a later statement does not count. -/
example (name : Quoted) : ((meaning {} [.texture [] name [], .filter [.texture .unfiltered]]).loads.map (·.filter)) =
    [TexFilter.trilinear] := rfl

end Spectre.Scene
