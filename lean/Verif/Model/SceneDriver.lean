import Verif.Model.SceneScanner
import Mathlib.Data.Rat.Floor

/-!
# The actions of the scene file parser (`src/parsers/config_parser.y`, `src/parsers/config_driver.{hpp,cpp}`)

What the parser stores in the driver for every rule, the values of the tokens, and the whole way from the text of a file
to the driver.

Simplifications: numbers are rational and not rounded to `float`; an index of refraction is kept as the call that
computes it (the computation is in `Verif/Model/Color.lean`); the loading of a texture is recorded as a request, with
everything it depends on, since its result is used by no other action; `tex_src` and `tex_color`, which are only
arguments of these calls, are dropped.
-/

namespace Spectre.Scene

/-- The contents of a `std::string`. -/
abbrev Str := List Byte

/-- `Vec3`, `Point3`. -/
structure V3 where
  x : ℚ
  y : ℚ
  z : ℚ
  deriving DecidableEq

/-- `SPECTRE_SAMPLER_*`. -/
inductive Sampler where
  | random | stratified
  deriving DecidableEq

/-- `SPECTRE_FILTER_*`. -/
inductive FilterType where
  | box | tent | gauss | mitchell | lanczos
  deriving DecidableEq

/-- `SPECTRE_CAMERA_*`. -/
inductive CameraType where
  | orthographic | perspective | panorama
  deriving DecidableEq

/-- `TextureFilter_t`, texture_image.hpp:19-24. -/
inductive TexFilter where
  | unfiltered | trilinear | ewa
  deriving DecidableEq

/-- `ImageChannel`, texture_image.hpp:39-54. -/
inductive Chan where
  | alpha | red | green | blue
  deriving DecidableEq

/-- `mat_t`, config_driver.hpp:69-72. -/
inductive MatType where
  | matte | glossy | metal | glass
  deriving DecidableEq

/-- `SPECTRE_DIST_*`. -/
inductive Dist where
  | blinn | beckmann | ggx
  deriving DecidableEq

/-- `metal_t`, metals.hpp:40-73. -/
inductive Metal where
  | silver | aluminium | gold | copper | iron | mercury | lead | platinum | tungsten | beryllium | bismuth | cobalt
  | chromium | germanium | potassium | lithium | magnesium | manganese | molybdenum | sodium | niobium | nickel
  | palladium | rhodium | tantalum | titanium | vanadium | zinc | zirconium
  deriving DecidableEq

/-- A call of `cauchy` or `sellmeier`, refraction.hpp:99 and 115. -/
inductive Ior where
  | cauchy (b c d : ℚ)
  | sellmeier (b c : V3)
  deriving DecidableEq

/-- `ParsedMask`, config_driver.hpp:144-159, with the defaults of config_driver.cpp:707-711. -/
structure Mask where
  tex : Str := []
  chn : Chan := .alpha
  inv : Bool := false
  deriving DecidableEq

/-- `MeshWorld`, config_driver.hpp:162-196. -/
structure Mesh where
  name : Str := []
  material : Str := []
  position : V3 := ⟨0, 0, 0⟩
  rotation : V3 := ⟨0, 0, 0⟩
  scale : V3 := ⟨1, 1, 1⟩
  isLight : Bool := false
  temperature : Int := -1
  color : V3 := ⟨255, 255, 255⟩
  mask : Mask := {}
  deriving DecidableEq

/-- `ParsedMaterial`, config_driver.hpp:75-121, with the defaults of config_driver.cpp:9-22.  A uniform texture is kept as
its colour. -/
structure Mat where
  name : Str := []
  elem : Metal := .gold
  type : MatType := .matte
  ior : Ior := .cauchy (145 / 100) 0 0
  roughX : ℚ := 0
  roughY : ℚ := -1
  dist : Dist := .beckmann
  diffuse : Str := []
  diffuseUniform : Option (Nat × Nat × Nat) := none
  specular : Str := []
  specularUniform : Option (Nat × Nat × Nat) := none
  bump : Str := []
  deriving DecidableEq

/-- `ParsedDualMaterial`, config_driver.hpp:199-214. -/
structure DualMat where
  name : Str := []
  first : Str := []
  second : Str := []
  mask : Mask := {}
  deriving DecidableEq

/-- A call of `load_texture`, config_driver.cpp:261-293, with the members of the driver that it reads. -/
structure TexLoad where
  path : Str
  name : Str
  shift : ℚ × ℚ
  scale : ℚ × ℚ
  filter : TexFilter
  deriving DecidableEq

/-- The text `out.ppm`. -/
def outName : Str := [111, 117, 116, 46, 112, 112, 109]

/-- The members of `ConfigDriver` that the actions use, with the values of its constructor, config_driver.cpp:24-43. -/
structure Driver where
  output : Str := outName
  width : Int := 800
  height : Int := 600
  spp : Int := 121
  sampler : Sampler := .stratified
  camera : CameraType := .perspective
  filter : FilterType := .mitchell
  texFilter : TexFilter := .trilinear
  fov : ℚ := 55
  value0 : ℚ := 33 / 100
  value1 : ℚ := 33 / 100
  cameraPos : V3 := ⟨0, 0, 0⟩
  cameraTar : V3 := ⟨0, 0, 1⟩
  cameraUp : V3 := ⟨0, 1, 0⟩
  texName : Str := []
  texScale : ℚ × ℚ := (1, 1)
  texShift : ℚ × ℚ := (0, 0)
  children : List Str := []
  shapes : List Str := []
  meshes : List Mesh := []
  mats : List Mat := []
  duals : List DualMat := []
  loads : List TexLoad := []
  curMesh : Mesh := {}
  curMat : Mat := {}
  curDual : DualMat := {}
  curMask : Mask := {}
  deriving DecidableEq

/-- Values of symbols: `%token <…>` and `%type <…>`, config_parser.y:138-148. -/
inductive Val where
  | unit
  | uint (n : Int)
  | int (n : Int)
  | num (x : ℚ)
  | str (s : Str)
  | metal (m : Metal)
  | chan (c : Chan)
  | vec (v : V3)
  | vec2 (x y : ℚ)
  deriving DecidableEq

/-! ## Parts of the actions -/

/-- `s.substr(1, s.size() - 2)`: without the first and the last byte.  Of an empty string it throws; of a string of one
byte, whose size minus two wraps around, it is empty. -/
def strip (s : Str) : Option Str := if s.length = 0 then none else some ((s.drop 1).take (s.length - 2))

/-- `load_texture_uniform`, config_driver.cpp:249-259: clamped and cut off to bytes. -/
def uniformColor (v : V3) : Nat × Nat × Nat :=
  ((⌊max 0 (min 255 v.x)⌋).toNat, (⌊max 0 (min 255 v.y)⌋).toNat, (⌊max 0 (min 255 v.z)⌋).toNat)

/-- `load_texture`, config_driver.cpp:261-293, as far as the driver is concerned. -/
def Driver.loadTexture (d : Driver) (path : Str) : Driver :=
  { d with
    loads := d.loads ++ [⟨path, d.texName, d.texShift, d.texScale, d.texFilter⟩]
    texName := [], texScale := (1, 1), texShift := (0, 0) }

/-- An action: the values of the right-hand side and the driver give the value of the left-hand side and the new driver;
`none` if a value is read at a type it does not have. -/
abbrev Action := List Val → Driver → Option (Val × Driver)

/-- No action. -/
def nop : Action := fun _ d => some (.unit, d)

/-- Change the driver. -/
def upd (f : Driver → Driver) : Action := fun _ d => some (.unit, f d)

/-- Use the `k`th value as a quoted string. -/
def setStr (k : Nat) (f : Str → Driver → Driver) : Action := fun vs d =>
  match vs[k - 1]? with
  | some (.str s) =>
    match strip s with
    | some s => some (.unit, f s d)
    | none => none
  | _ => none

/-- Use the `k`th value as an `unsigned int`. -/
def setUint (k : Nat) (f : Int → Driver → Driver) : Action := fun vs d =>
  match vs[k - 1]? with
  | some (.uint n) => some (.unit, f n d)
  | _ => none

/-- Use the `k`th value as a `float`. -/
def setNum (k : Nat) (f : ℚ → Driver → Driver) : Action := fun vs d =>
  match vs[k - 1]? with
  | some (.num x) => some (.unit, f x d)
  | _ => none

/-- Use the `k`th value as a `Vec3`. -/
def setVec (k : Nat) (f : V3 → Driver → Driver) : Action := fun vs d =>
  match vs[k - 1]? with
  | some (.vec v) => some (.unit, f v d)
  | _ => none

/-- Use two values as `Vec3`. -/
def setVecs (k l : Nat) (f : V3 → V3 → Driver → Driver) : Action := fun vs d =>
  match vs[k - 1]?, vs[l - 1]? with
  | some (.vec v), some (.vec u) => some (.unit, f v u d)
  | _, _ => none

/-- Use the `k`th value as a `Vec2`. -/
def setVec2 (k : Nat) (f : ℚ → ℚ → Driver → Driver) : Action := fun vs d =>
  match vs[k - 1]? with
  | some (.vec2 x y) => some (.unit, f x y d)
  | _ => none

/-- Use the `k`th value as a `metal_t`. -/
def setMetal (k : Nat) (f : Metal → Driver → Driver) : Action := fun vs d =>
  match vs[k - 1]? with
  | some (.metal m) => some (.unit, f m d)
  | _ => none

/-- Use the `k`th value as an `ImageChannel`. -/
def setChan (k : Nat) (f : Chan → Driver → Driver) : Action := fun vs d =>
  match vs[k - 1]? with
  | some (.chan c) => some (.unit, f c d)
  | _ => none

/-- `$$ = v`. -/
def give (v : Val) : Action := fun _ d => some (v, d)

/-- `$$ = Vec3($i,$j,$k)`. -/
def giveVec (i j k : Nat) : Action := fun vs d =>
  match vs[i - 1]?, vs[j - 1]?, vs[k - 1]? with
  | some (.num x), some (.num y), some (.num z) => some (.vec ⟨x, y, z⟩, d)
  | _, _, _ => none

/-- `$$ = Vec2($i,$j)`. -/
def giveVec2 (i j : Nat) : Action := fun vs d =>
  match vs[i - 1]?, vs[j - 1]? with
  | some (.num x), some (.num y) => some (.vec2 x y, d)
  | _, _ => none

/-- `$$ = $k` for a `float`. -/
def giveFloat (k : Nat) : Action := fun vs d =>
  match vs[k - 1]? with
  | some (.num x) => some (.num x, d)
  | _ => none

/-- `$$ = $k`, from `unsigned int` to `int`. -/
def giveUint (k : Nat) : Action := fun vs d =>
  match vs[k - 1]? with
  | some (.uint n) => some (.int n, d)
  | _ => none

/-- `$$ = $k` for an `int`. -/
def giveInt (k : Nat) : Action := fun vs d =>
  match vs[k - 1]? with
  | some (.int n) => some (.int n, d)
  | _ => none

/-- `$$ = (float)$k` for an `int`; not rounded. -/
def giveNumber (k : Nat) : Action := fun vs d =>
  match vs[k - 1]? with
  | some (.int n) => some (.num n, d)
  | _ => none

/-! ## The actions -/

/-- The actions of the rules, in the order of `grammar`: config_parser.tab.cc:622-1354 (the same as in
config_parser.y:154-364).  Rules without an action do nothing: the values are variants, for which Bison does not copy
`$1` (config_parser.tab.cc:568-570). -/
def actions : List Action := [
  nop,  -- 1
  nop,  -- 2
  nop,  -- 3
  setStr 3 fun s d => { d with output := s },  -- 4
  nop,  -- 5
  nop,  -- 6
  upd fun d => { d with sampler := .random },  -- 7
  upd fun d => { d with sampler := .stratified },  -- 8
  setUint 3 fun n d => { d with spp := n },  -- 9
  nop,  -- 10
  nop,  -- 11
  setStr 3 fun s d => { d with shapes := d.shapes ++ [s] },  -- 12
  upd fun d => { d with meshes := d.meshes ++ [d.curMesh], curMesh := {} },  -- 13
  upd fun d => { d with meshes := d.meshes ++ [{ d.curMesh with isLight := true }], curMesh := {} },  -- 14
  nop,  -- 15
  setStr 3 fun s d => { d with children := d.children ++ [s] },  -- 16
  upd fun d => { d with mats := d.mats ++ [d.curMat], curMat := {} },  -- 17
  upd fun d => { d with duals := d.duals ++ [d.curDual], curDual := {} },  -- 18
  nop,  -- 19
  nop,  -- 20
  nop,  -- 21
  setUint 3 fun n d => { d with width := n },  -- 22
  setUint 3 fun n d => { d with height := n },  -- 23
  nop,  -- 24
  nop,  -- 25
  nop,  -- 26
  upd fun d => { d with filter := .box },  -- 27
  upd fun d => { d with filter := .tent },  -- 28
  upd fun d => { d with filter := .gauss },  -- 29
  upd fun d => { d with filter := .mitchell },  -- 30
  upd fun d => { d with filter := .lanczos },  -- 31
  setNum 3 fun x d => { d with value0 := x },  -- 32
  setNum 3 fun x d => { d with value1 := x },  -- 33
  upd fun d => { d with texFilter := .unfiltered },  -- 34
  upd fun d => { d with texFilter := .trilinear },  -- 35
  upd fun d => { d with texFilter := .ewa },  -- 36
  nop,  -- 37
  nop,  -- 38
  nop,  -- 39
  upd fun d => { d with camera := .orthographic },  -- 40
  upd fun d => { d with camera := .perspective },  -- 41
  upd fun d => { d with camera := .panorama },  -- 42
  setVec 3 fun v d => { d with cameraPos := ⟨v.x, v.y, v.z⟩ },  -- 43
  setVec 3 fun v d => { d with cameraTar := ⟨v.x, v.y, v.z⟩ },  -- 44
  setVec 3 fun v d => { d with cameraUp := v },  -- 45
  setNum 3 fun x d => { d with fov := x },  -- 46
  nop,  -- 47
  nop,  -- 48
  nop,  -- 49
  nop,  -- 50
  nop,  -- 51
  setStr 3 fun s d => { d with curMesh.name := s },  -- 52
  setVec 3 fun v d => { d with curMesh.position := v },  -- 53
  setVec 3 fun v d => { d with curMesh.rotation := v },  -- 54
  setVec 3 fun v d => { d with curMesh.scale := v },  -- 55
  setNum 3 fun x d => { d with curMesh.scale := ⟨x, x, x⟩ },  -- 56
  setStr 3 fun s d => { d with curMesh.material := s },  -- 57
  setStr 3 fun s d => { d with curMesh.mask := { d.curMask with tex := s }, curMask := {} },  -- 58
  setStr 3 fun s d => { d with curMesh.mask := { d.curMask with tex := s }, curMask := {} },  -- 59
  nop,  -- 60
  nop,  -- 61
  nop,  -- 62
  nop,  -- 63
  nop,  -- 64
  nop,  -- 65
  nop,  -- 66
  setUint 3 fun n d => { d with curMesh.temperature := n },  -- 67
  setVec 3 fun v d => { d with curMesh.color := v },  -- 68
  setStr 3 fun s d => d.loadTexture s,  -- 69
  setStr 3 fun s d => d.loadTexture s,  -- 70
  setStr 4 fun s d => d.loadTexture s,  -- 71
  setStr 4 fun s d => d.loadTexture s,  -- 72
  nop,  -- 73
  nop,  -- 74
  setStr 3 fun s d => { d with texName := s },  -- 75
  setVec2 3 fun x y d => { d with texScale := (x, y) },  -- 76
  setNum 3 fun x d => { d with texScale := (x, x) },  -- 77
  setVec2 3 fun x y d => { d with texShift := (x, y) },  -- 78
  nop,  -- 79
  setStr 3 fun s d => { d with curMat.name := s },  -- 80
  setStr 4 fun s d => { d with curMat.name := s },  -- 81
  setStr 4 fun s d => { d with curMat.name := s },  -- 82
  setStr 3 fun s d => { d with curMat.name := s },  -- 83
  nop,  -- 84
  nop,  -- 85
  upd fun d => { d with curMat.type := .matte },  -- 86
  upd fun d => { d with curMat.type := .glossy },  -- 87
  upd fun d => { d with curMat.type := .metal },  -- 88
  upd fun d => { d with curMat.type := .glass },  -- 89
  setNum 3 fun x d => { d with curMat.ior := .cauchy x 0 0 },  -- 90
  setVec2 3 fun x y d => { d with curMat.ior := .cauchy x y 0 },  -- 91
  setVec 3 fun v d => { d with curMat.ior := .cauchy v.x v.y v.z },  -- 92
  setVecs 3 4 fun v u d => { d with curMat.ior := .sellmeier v u },  -- 93
  setNum 3 fun x d => { d with curMat.roughX := x },  -- 94
  setNum 3 fun x d => { d with curMat.roughY := x },  -- 95
  upd fun d => { d with curMat.dist := .blinn },  -- 96
  upd fun d => { d with curMat.dist := .beckmann },  -- 97
  upd fun d => { d with curMat.dist := .ggx },  -- 98
  setStr 3 fun s d => { d with curMat.diffuse := s },  -- 99
  setVec 3 fun v d => { d with curMat.diffuseUniform := some (uniformColor v) },  -- 100
  setStr 3 fun s d => { d with curMat.specular := s },  -- 101
  setVec 3 fun v d => { d with curMat.specularUniform := some (uniformColor v) },  -- 102
  setStr 3 fun s d => { d with curMat.bump := s },  -- 103
  setMetal 3 fun e d => { d with curMat.elem := e },  -- 104
  nop,  -- 105
  setStr 3 fun s d => { d with curDual.name := s },  -- 106
  setStr 4 fun s d => { d with curDual.name := s },  -- 107
  setStr 4 fun s d => { d with curDual.name := s },  -- 108
  setStr 3 fun s d => { d with curDual.name := s },  -- 109
  nop,  -- 110
  nop,  -- 111
  setStr 3 fun s d => { d with curDual.first := s },  -- 112
  setStr 3 fun s d => { d with curDual.second := s },  -- 113
  setStr 3 fun s d => { d with curDual.mask := { d.curMask with tex := s }, curMask := {} },  -- 114
  setStr 3 fun s d => { d with curDual.mask := { d.curMask with tex := s }, curMask := {} },  -- 115
  nop,  -- 116
  give (.metal .silver),  -- 117
  give (.metal .aluminium),  -- 118
  give (.metal .gold),  -- 119
  give (.metal .copper),  -- 120
  give (.metal .iron),  -- 121
  give (.metal .mercury),  -- 122
  give (.metal .lead),  -- 123
  give (.metal .platinum),  -- 124
  give (.metal .tungsten),  -- 125
  give (.metal .beryllium),  -- 126
  give (.metal .bismuth),  -- 127
  give (.metal .cobalt),  -- 128
  give (.metal .chromium),  -- 129
  give (.metal .germanium),  -- 130
  give (.metal .potassium),  -- 131
  give (.metal .lithium),  -- 132
  give (.metal .magnesium),  -- 133
  give (.metal .manganese),  -- 134
  give (.metal .molybdenum),  -- 135
  give (.metal .sodium),  -- 136
  give (.metal .niobium),  -- 137
  give (.metal .nickel),  -- 138
  give (.metal .palladium),  -- 139
  give (.metal .rhodium),  -- 140
  give (.metal .tantalum),  -- 141
  give (.metal .titanium),  -- 142
  give (.metal .vanadium),  -- 143
  give (.metal .zinc),  -- 144
  give (.metal .zirconium),  -- 145
  nop,  -- 146
  nop,  -- 147
  setChan 1 fun c d => { d with curMask.chn := c },  -- 148
  upd fun d => { d with curMask.inv := true },  -- 149
  give (.chan .red),  -- 150
  give (.chan .green),  -- 151
  give (.chan .blue),  -- 152
  give (.chan .alpha),  -- 153
  giveVec 2 4 6,  -- 154
  giveVec2 2 4,  -- 155
  giveFloat 1,  -- 156
  giveNumber 1,  -- 157
  giveUint 1,  -- 158
  giveInt 1]  -- 159

/-- The action of rule `n`, numbered from 1. -/
def sem (n : Nat) (vs : List Val) (d : Driver) : Option (Val × Driver) :=
  match n with
  | 0 => none
  | n + 1 =>
    match actions[n]? with
    | none => none
    | some f => f vs d

/-! ## From the text to the tokens -/

/-- The digit a byte stands for. -/
def digit (b : Byte) : Option Nat := if 48 ≤ b.val ∧ b.val ≤ 57 then some (b.val - 48) else none

/-- The number written by the digits at the beginning, after those already read, and the rest. -/
def digits (acc : Nat) : List Byte → Nat × List Byte
  | [] => (acc, [])
  | b :: u =>
    match digit b with
    | some k => digits (10 * acc + k) u
    | none => (acc, b :: u)

/-- Sign and rest. -/
def sign : List Byte → Int × List Byte
  | [] => (1, [])
  | b :: u => if b = 45 then (-1, u) else if b = 43 then (1, u) else (1, b :: u)

/-- `atoi` (config_lexer.l:143-144); undefined, `none`, if the number is not an `int`. -/
def atoi (u : List Byte) : Option Int :=
  let (s, u) := sign u
  let n := s * (digits 0 u).1
  if -2147483648 ≤ n ∧ n ≤ 2147483647 then some n else none

/-- `atof` (config_lexer.l:145), not rounded. -/
def atof (u : List Byte) : ℚ :=
  let (s, u) := sign u
  let (n, v) := digits 0 u
  let (m, w) : ℚ × List Byte :=
    match v with
    | 46 :: v' =>
      let (k, w) := digits 0 v'
      (n + k / 10 ^ (v'.length - w.length), w)
    | _ => (n, v)
  let e : Int :=
    match w with
    | [] => 0
    | _ :: w' =>
      let (s', w'') := sign w'
      s' * (digits 0 w'').1
  s * m * (10 : ℚ) ^ e

/-- The value of a token, config_lexer.l:143-146; a string ends at its first byte 0 (it is passed as `yytext`). -/
def tokVal (t : Tok) (u : List Byte) : Option Val :=
  match t with
  | .UINT => (atoi u).map .uint
  | .INT => (atoi u).map .int
  | .FLOAT => some (.num (atof u))
  | .STRING => some (.str (u.takeWhile fun b => b.val ≠ 0))
  | _ => some .unit

/-- The result of scanning a file: its tokens; the tokens up to an unknown character, which ends the program
(config_lexer.l:179, config_driver.cpp:193-201); or undefined behaviour. -/
inductive Scanned where
  | tokens (l : List (Tok × Val))
  | unknown (l : List (Tok × Val))
  | ub
  deriving DecidableEq

/-- A token in front. -/
def Scanned.push (t : Tok × Val) : Scanned → Scanned
  | .tokens l => .tokens (t :: l)
  | .unknown l => .unknown (t :: l)
  | .ub => .ub

/-- What the actions of config_lexer.l:68-179 make of the matches. -/
def classify : List (Nat × List Byte) → Scanned
  | [] => .tokens []
  | (n, u) :: l =>
    match lexRules[n - 1]? with
    | none => .ub
    | some (_, .skip) => classify l
    | some (_, .newline) => classify l
    | some (_, .unknown) => .unknown []
    | some (_, .tok t) =>
      match tokVal t u with
      | none => .ub
      | some v => (classify l).push (t, v)

/-- The tokens of a file.  Simplified: the scanner is called by the parser when it needs a token; here the whole file is
scanned first. -/
def scan (text : List Byte) : Scanned :=
  match lexAll (text.length + 1) text with
  | none => .ub
  | some l => classify l

/-- `scan_begin`, `parser.parse()`, `scan_end`, config_driver.cpp:51-54: the driver after a file; a syntax error or an
unknown character ends the program (`reject`). -/
def parseText (text : List Byte) (d : Driver) : Out Driver :=
  match scan text with
  | .tokens l => (run sem (9 * (l.length + 1) + 1) (initial .unit l d)).getD .ub
  | .unknown _ => .reject d
  | .ub => .ub

end Spectre.Scene
