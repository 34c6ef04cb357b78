/-
Memory of shapes and assets: the triangles of a mesh (/repo/src/primitives/mesh.cpp), and who frees the shapes, the
arrays of their materials and the assets (/repo/src/parsers/config_driver.cpp, /repo/src/utility/scene.cpp).
-/

namespace Spectre.Memory

/-! ## The triangles of a mesh -/

/-- `_MAX_TRIS_`, settings.h:36 (65 in the tests, settings.h:33). -/
def maxTris : Nat := 1000000

/-- `tris` and `count`, mesh.hpp; `alloc` is the length of `tris`.  `none`: a triangle made by the default constructor. -/
structure Tris (T : Type) where
  tris : List (Option T)
  count : Nat

/-- `Mesh::Mesh`, mesh.cpp:6-13. -/
def Tris.new (T : Type) (size : Nat) : Tris T := ⟨List.replicate size none, 0⟩

/-- What `add_triangle` does. -/
inductive Added (T : Type) where
  | stored (m : Tris T)
  | refused               -- a message is printed, line 39
  | outOfBounds           -- writes behind the array

/-- The size of the new array, mesh.cpp:45 (`alloc << 1` does not overflow up to `max`). -/
def newSize (max alloc : Nat) : Nat := if alloc <<< 1 < max then alloc <<< 1 else max

/-- `memcpy` of the triangles into a new array of `size` default ones, mesh.cpp:46-47 and 65-66 (`size` is never less than
the number of triangles). -/
def resized {T : Type} (m : Tris T) (size : Nat) : List (Option T) :=
  (m.tris.take m.count ++ List.replicate (size - m.count) none).take size

/-- `Mesh::add_triangle`, mesh.cpp:35-57; `max` is `_MAX_TRIS_`. -/
def add {T : Type} (max : Nat) (m : Tris T) (t : T) : Added T :=
  if m.count = max then .refused
  else
    let tris := if m.count = m.tris.length then resized m (newSize max m.tris.length) else m.tris
    if m.count < tris.length then .stored ⟨tris.set m.count (some t), m.count + 1⟩ else .outOfBounds

/-- Calls of `add_triangle` in a row; refused triangles are left out. -/
def addAll {T : Type} (max : Nat) : List T → Tris T → Option (Tris T)
  | [], m => some m
  | t :: ts, m =>
    match add max m t with
    | .stored m' => addAll max ts m'
    | .refused => addAll max ts m
    | .outOfBounds => none

/-- The array after `Mesh::finalize`, mesh.cpp:62-70. -/
def shrink {T : Type} (m : Tris T) : Tris T := if m.count < m.tris.length then ⟨resized m m.count, m.count⟩ else m

/-! ## Shapes, arrays and assets -/

/-- Things allocated.  Meshes and their arrays are numbered in the order of `new Mesh`, objects in the order in which
`build_meshes` takes them. -/
inductive Block where
  | sphere                      -- config_driver.cpp:92
  | mesh (k : Nat)              -- config_driver.cpp:537 and 566
  | materials (k : Nat)         -- config_driver.cpp:543
  | association (k : Nat)       -- config_driver.cpp:545
  | sphereMaterials (i : Nat)   -- config_driver.cpp:605
  | sphereAssociation (i : Nat) -- config_driver.cpp:608
  | asset (i : Nat)             -- config_driver.cpp:630, 666 and 677, with the arrays that the asset frees
  deriving DecidableEq

inductive Event where
  | alloc (b : Block)
  | free (b : Block)
  | use (b : Block)
  deriving DecidableEq

variable {Name : Type} [DecidableEq Name]

/-- The driver: the number of the next mesh, `shapes`, and (history) the meshes with names that were taken. -/
structure Driver (Name : Type) where
  next : Nat := 0
  shapes : List (Name × Nat) := []
  duplicates : List (Name × Nat) := []

/-- The loop of `parse_and_allocate_obj` for the meshes of one file, config_driver.cpp:537-569. -/
def parseObj : List Name → Driver Name → List Event × Driver Name
  | [], d => ([.alloc (.mesh d.next), .free (.mesh d.next)], { d with next := d.next + 1 })
  | n :: ns, d =>
    let k := d.next
    let start := [.alloc (.mesh k), .use (.mesh k), .alloc (.materials k), .alloc (.association k)]
    if n ∈ d.shapes.map Prod.fst then
      let r := parseObj ns { d with next := k + 1, duplicates := d.duplicates ++ [(n, k)] }
      (start ++ [.free (.mesh k)] ++ r.1, r.2)
    else
      let r := parseObj ns { d with next := k + 1, shapes := d.shapes ++ [(n, k)] }
      (start ++ r.1, r.2)

/-- All files, config_driver.cpp:98-99. -/
def parseObjs : List (List Name) → Driver Name → List Event × Driver Name
  | [], d => ([], d)
  | f :: fs, d =>
    let r := parseObj f d
    let q := parseObjs fs r.2
    (r.1 ++ q.1, q.2)

/-- An object statement: `none` is the sphere, otherwise the name of a mesh; and whether it is a light. -/
structure Object (Name : Type) where
  name : Option Name
  light : Bool

/-- The scene: assets with the blocks of their shapes, the number of lights, and (history) the lights refused. -/
structure Built where
  assets : List (Nat × Block) := []
  lights : Nat := 0
  refused : List Nat := []

/-- Line 587 and 604: the shape of an object. -/
def shapeOf (shapes : List (Name × Nat)) (o : Object Name) : Option Block :=
  match o.name with
  | none => some .sphere
  | some n => (shapes.find? fun p => p.1 = n).map fun p => .mesh p.2

/-- `build_meshes`, config_driver.cpp:572-693, for the objects in the order they are taken; `i` numbers them.  An asset
uses its shape when it is made; a mesh's arrays are used if the object has no material of its own (here always, which
asks for more).  scene.cpp:34-60: of the lights only the first 32 are kept. -/
def buildObjects (shapes : List (Name × Nat)) : List (Object Name) → Nat → Built → List Event × Built
  | [], _, b => ([], b)
  | o :: os, i, b =>
    match shapeOf shapes o with
    | none => buildObjects shapes os (i + 1) b
    | some s =>
      let arrays := match s with
        | .mesh k => [.use (.materials k), .use (.association k)]
        | _ => [.alloc (.sphereMaterials i), .alloc (.sphereAssociation i)]
      let made := arrays ++ [.alloc (.asset i), .use s]
      let b' : Built :=
        if o.light = false then { b with assets := b.assets ++ [(i, s)] }
        else if b.lights < 32 then { b with assets := b.assets ++ [(i, s)], lights := b.lights + 1 }
        else { b with refused := b.refused ++ [i] }
      let r := buildObjects shapes os (i + 1) b'
      (made ++ r.1, r.2)

/-- `used_shapes`, config_driver.cpp:592. -/
def used (shapes : List (Name × Nat)) (os : List (Object Name)) (n : Name) : Bool :=
  decide (n ∈ shapes.map Prod.fst) && os.any fun o => o.name = some n

/-- Lines 105-117: the shapes in the order `order` of the map. -/
def cleanUp (isUsed : Name → Bool) (order : List (Name × Nat)) : List Event :=
  order.flatMap fun p =>
    (if isUsed p.1 then [] else [.free (.mesh p.2)]) ++ [.free (.materials p.2), .free (.association p.2)]

/-- The shapes of the scene, lines 93 and 112. -/
def inherited (isUsed : Name → Bool) (order : List (Name × Nat)) : List Block :=
  .sphere :: (order.filter fun p => isUsed p.1).map fun p => .mesh p.2

/-- `ConfigDriver::parse`, rendering (each asset is used, and its shape), and `Scene::~Scene`, scene.cpp:6-21.  `order` is
the order of `shapes` in its map, `sorder` and `aorder` those of the maps of the scene. -/
def program (files : List (List Name)) (os : List (Object Name)) (order : List (Name × Nat)) (sorder : List Block)
    (aorder : List (Nat × Block)) : List Event :=
  let r := parseObjs files {}
  let q := buildObjects r.2.shapes os 0 {}
  [.alloc .sphere] ++ r.1 ++ q.1 ++ cleanUp (used r.2.shapes os) order ++
    q.2.assets.flatMap (fun a => [.use (.asset a.1), .use a.2]) ++
    sorder.map .free ++ aorder.map (fun a => .free (.asset a.1))

end Spectre.Memory
