/-
The reader of wavefront files, /repo/src/parsers/parser_obj.cpp (whole file), and the loop which calls it,
/repo/src/parsers/config_driver.cpp:522-570.

The file is read in chunks of `BUFFER_SIZE` bytes (4096, or 3 in the tests, parser_obj.cpp:3-8); a sentinel byte 7
is written behind every chunk.  What the pointer `buffer` sees is modelled as one list: `some c` is a byte of the file
and `none` the sentinel behind a chunk which is followed by another one; the end of the list is the sentinel behind
the last chunk, where `fread` keeps returning nothing.

Simplified: files which contain the sentinel byte itself are outside of the model; `strtof` and the computation of a
normal are parameters; the vertex counts are below 2^31, so that `(int)size()` is exact; the limit of 10^6
triangles of `Mesh::add_triangle` and the line counter (used in messages only) are left out.
-/

namespace Spectre.Obj

/-- What can happen besides returning. -/
inductive Fault where
  /-- `fread` keeps returning nothing and a loop waits for a byte forever. -/
  | hang
  /-- Undefined behaviour: an uninitialised byte or an element outside of an array is read. -/
  | undef
  /-- `std::vector::at` throws `std::out_of_range`, which nobody catches. -/
  | throw
  /-- Not a behaviour of the code: the step bound of the model is exhausted (`C57_no_fuel` excludes it). -/
  | fuel
  deriving DecidableEq, Repr

/-- The bytes in front of `buffer`, with `none` for a sentinel which is followed by a further chunk. -/
abbrev Stream := List (Option Char)

/-- The bytes of the file still to be read. -/
def strip (s : Stream) : List Char := s.filterMap id

/-- A file cut in chunks of `b` bytes, as `start_parsing` (32-50) and `feed_buffer` (521-525) see it. -/
def chunks (b : Nat) : Nat → List Char → Stream
  | _, [] => []
  | 0, c :: cs => none :: some c :: chunks b (b - 1) cs
  | k + 1, c :: cs => some c :: chunks b k cs

/-- The array `token` of `TOKEN_SIZE` bytes, 91; `none` is a byte never written. -/
abbrev Mem := List (Option Char)

/-- The terminator. -/
def nul : Char := '\x00'

/-- `TOKEN_SIZE`, 10. -/
def tokenSize : Nat := 255

/-- First loop of `get_next_token`, 475-494: blanks are skipped, sentinels lead to the next chunk. -/
def skipBlank : Stream → Except Fault Stream
  | [] => .error .hang
  | none :: s => skipBlank s
  | some c :: s => if c = ' ' ∨ c = '\t' then skipBlank s else .ok (some c :: s)

/-- Second loop of `get_next_token`, 497-517: every character up to a space or a line end. -/
def readToken : Stream → Except Fault (List Char × Stream)
  | [] => .error .hang
  | none :: s => readToken s
  | some c :: s =>
    if c = ' ' ∨ c = '\n' ∨ c = '\r' then .ok ([], some c :: s)
    else match readToken s with
      | .ok (t, r) => .ok (c :: t, r)
      | .error e => .error e

/-- The characters stored in the array, 511-512 and 518; what lies behind the terminator is what was there before. -/
def store (mem : Mem) (t : List Char) : Mem := t.map some ++ some nul :: mem.drop (t.length + 1)

/-- `get_next_token`, 472-519.  At most `max_size - 1` characters are stored. -/
def nextToken (s : Stream) (mem : Mem) : Except Fault (Stream × Mem) :=
  match skipBlank s with
  | .error e => .error e
  | .ok s1 =>
    match readToken s1 with
    | .error e => .error e
    | .ok (t, s2) => .ok (s2, store mem (t.take (tokenSize - 1)))

/-- The rest of a line is skipped together with the line end, 378-401; a sentinel behind the line end is replaced
by the next chunk. -/
def skipLine : Stream → Except Fault Stream
  | [] => .error .hang
  | none :: s => skipLine s
  | some c :: s =>
    if c = '\n' then
      match s with
      | none :: r => .ok r
      | r => .ok r
    else skipLine s

/-- The C string at the beginning of the array. -/
def cstr (mem : Mem) : List Char := (mem.takeWhile (fun x => x != some nul)).filterMap id

/-! ### Numbers -/

/-- `isspace`. -/
def isSpace (c : Char) : Bool := c = ' ' || (9 ≤ c.toNat && c.toNat ≤ 13)

/-- White space in front of a number. -/
def skipSpace : Mem → Except Fault Mem
  | [] => .error .undef
  | none :: _ => .error .undef
  | some c :: m => if isSpace c then skipSpace m else .ok (some c :: m)

/-- The digits of a number, read up to the first other character. -/
def digits : Mem → Nat → Except Fault (Nat × Mem)
  | [], _ => .error .undef
  | none :: _, _ => .error .undef
  | some c :: m, acc => if c.isDigit then digits m (10 * acc + (c.toNat - 48)) else .ok (acc, some c :: m)

/-- The range of `long`. -/
def clampLong (x : Int) : Int := max (-2 ^ 63) (min (2 ^ 63 - 1) x)

/-- `(int)` of a `long`. -/
def toInt (x : Int) : Int := Int.bmod x (2 ^ 32)

/-- An optional sign. -/
def sign : Mem → Bool × Mem
  | some c :: m => if c = '-' then (true, m) else if c = '+' then (false, m) else (false, some c :: m)
  | m => (false, m)

/-- `(int)strtol(p, &p, 10)`, 231, 237 and 239: value and new position; without digits the position does not change.
Reading a byte which was never written, or behind the array, is undefined. -/
def strtol (mem : Mem) : Except Fault (Int × Mem) :=
  match skipSpace mem with
  | .error e => .error e
  | .ok m =>
    match (sign m).2 with
    | some c :: _ =>
      if c.isDigit then
        match digits (sign m).2 0 with
        | .error e => .error e
        | .ok (n, r) => .ok (toInt (clampLong (if (sign m).1 then -(n : Int) else n)), r)
      else .ok (0, mem)
    | _ => .error .undef

/-- The three indices of one corner of a face, 226-240.  For the form `v/t` the position is moved behind the
terminator (238), so the third number is read from what an earlier token left in the array. -/
def faceIndex (mem : Mem) : Except Fault (Int × Int × Int) :=
  match strtol mem with
  | .error e => .error e
  | .ok (v, some c :: r) =>
    if c = nul then .ok (v, 0, 0)
    else
      match r with
      | some d :: r' =>
        if d = '/' then
          match strtol r' with
          | .error e => .error e
          | .ok (n, _) => .ok (v, 0, n)
        else
          match strtol r with
          | .error e => .error e
          | .ok (t, r2) =>
            match strtol (r2.drop 1) with
            | .error e => .error e
            | .ok (n, _) => .ok (v, t, n)
      | _ => .error .undef
  | .ok _ => .error .undef

/-- Outcome of the check of one index, 242-301. -/
inductive Index where
  /-- Index zero: the default value stays. -/
  | absent
  /-- The position read. -/
  | pos (k : Nat)
  /-- Reported as an error. -/
  | bad
  /-- `at` throws. -/
  | throws
  deriving DecidableEq, Repr

/-- Check and translation of an index, 242-258 (also 259-279 and 280-301). -/
def resolve (size : Nat) (i : Int) : Index :=
  if i = 0 then .absent
  else if i < 0 then
    let k := (size : Int) + i
    if 0 ≤ k ∧ k < size then .pos k.toNat else .throws
  else if i ≤ size then .pos (i.toNat - 1)
  else .bad

/-! ### Faces -/

/-- `Vertex`, primitives/triangle.hpp:31-41. -/
structure Vertex (K : Type) where
  p : K × K × K
  n : K × K × K
  t : K × K
  deriving DecidableEq, Repr

/-- What the reader takes from elsewhere: `strtof`, the normalised cross product of 316-319, the numbers 0 and 1,
`MtlLib.get` and `MtlLib.get_default` (materials are numbers here). -/
structure Env (K : Type) where
  strtof : List Char → K
  faceNormal : K × K × K → K × K × K → K × K × K → K × K × K
  zero : K
  one : K
  lib : List Char → Option Nat
  dflt : Nat

/-- The members of `ParserObj` which survive a call, parser_obj.hpp. -/
structure Parser (K : Type) where
  stream : Stream
  craft : Option Char
  groups : Bool
  vertices : List (K × K × K)
  textures : List (K × K)
  normals : List (K × K × K)

/-- A triangle. -/
abbrev Tri (K : Type) := Vertex K × Vertex K × Vertex K

/-- The variables of one call of `get_next_mesh`, 68-91, and the mesh. -/
structure Mesh (K : Type) where
  name : List Char
  used : List (List Char × Nat)
  materials : List Nat
  current : Nat
  assoc : List Nat
  tris : List (Tri K)
  retval : Bool
  mem : Mem

variable {K : Type}

/-- `Vertex res`, 232: every constructor involved sets zeros. -/
def Env.vertex (e : Env K) : Vertex K := ⟨(e.zero, e.zero, e.zero), (e.zero, e.zero, e.zero), (e.zero, e.zero)⟩

/-- The element an index designates, `old` if there is no index; `none`: the index was reported as wrong. -/
def fetch {α : Type} (l : List α) (i : Int) (old : α) : Except Fault (Option α) :=
  match resolve l.length i with
  | .absent => .ok (some old)
  | .pos k => .ok (some (l.getD k old))
  | .bad => .ok none
  | .throws => .error .throw

/-- One corner, 241-301: the vertex and whether texture coordinates and normal are missing; `none`: an index was
reported as wrong. -/
def corner (e : Env K) (p : Parser K) (i : Int × Int × Int) : Except Fault (Option (Vertex K × Bool × Bool)) :=
  match fetch p.vertices i.1 e.vertex.p with
  | .error x => .error x
  | .ok none => .ok none
  | .ok (some v) =>
    match fetch p.textures i.2.1 e.vertex.t with
    | .error x => .error x
    | .ok none => .ok none
    | .ok (some t) =>
      match fetch p.normals i.2.2 e.vertex.n with
      | .error x => .error x
      | .ok none => .ok none
      | .ok (some n) => .ok (some (⟨v, n, t⟩, i.2.1 == 0, i.2.2 == 0))

/-- Result of the loop over the corners of a face. -/
inductive FaceOut (K : Type) where
  /-- An index was reported as wrong: `return false`. -/
  | bad (s : Stream) (mem : Mem)
  /-- The corners; missing texture coordinates; missing normals. -/
  | fin (s : Stream) (mem : Mem) (f : List (Vertex K)) (recT recN : Bool)

/-- The loop over the corners of a face, 224-311. -/
def faceLoop (e : Env K) (p : Parser K) :
    Nat → Stream → Mem → List (Vertex K) → Bool → Bool → Except Fault (FaceOut K)
  | 0, _, _, _, _, _ => .error .fuel
  | n + 1, s, mem, f, rt, rn =>
    if s.head? = some (some ' ') then
      match nextToken s mem with
      | .error x => .error x
      | .ok (s1, mem1) =>
        match faceIndex mem1 with
        | .error x => .error x
        | .ok i =>
          match corner e p i with
          | .error x => .error x
          | .ok none => .ok (.bad s1 mem1)
          | .ok (some (v, t, nn)) => faceLoop e p n s1 mem1 (f ++ [v]) (rt || t) (rn || nn)
    else .ok (.fin s mem f rt rn)

/-- `face_tmp[i].t = uv`. -/
def setT (f : List (Vertex K)) (i : Nat) (uv : K × K) : List (Vertex K) := f.modify i (fun v => { v with t := uv })

/-- The loop 347-364 over the further corners of a polygon, from corner `i`; `k` steps remain. -/
def fanLoop (e : Env K) (recT : Bool) : Nat → Nat → List (Vertex K) → List (Tri K)
  | 0, _, _ => []
  | k + 1, i, f =>
    let f := if recT then setT (setT f (i - 1) (e.one, e.zero)) i (e.one, e.one) else f
    (f.getD 0 e.vertex, f.getD (i - 1) e.vertex, f.getD i e.vertex) :: fanLoop e recT k (i + 1) f

/-- The triangles of a face with at least three corners, 323-364. -/
def fan (e : Env K) (recT : Bool) (f : List (Vertex K)) : List (Tri K) :=
  let f := if recT then setT (setT (setT f 0 (e.zero, e.zero)) 1 (e.one, e.zero)) 2 (e.one, e.one) else f
  (f.getD 0 e.vertex, f.getD 1 e.vertex, f.getD 2 e.vertex) :: fanLoop e recT (f.length - 3) 3 f

/-- The common normal of a face, 312-322; undefined if there are less than three corners. -/
def faceNormals (e : Env K) (recN : Bool) (f : List (Vertex K)) : Except Fault (List (Vertex K)) :=
  if recN then
    match f with
    | a :: b :: c :: r => .ok ((a :: b :: c :: r).map (fun v => { v with n := e.faceNormal a.p b.p c.p }))
    | _ => .error .undef
  else .ok f

/-- One line: the loop goes on, or the function returns. -/
inductive Step (K : Type) where
  | next (p : Parser K) (m : Mesh K)
  | ret (b : Bool) (p : Parser K) (m : Mesh K)

/-- A number, for example 109-111. -/
def float (e : Env K) (s : Stream) (mem : Mem) : Except Fault (K × Stream × Mem) :=
  match nextToken s mem with
  | .error x => .error x
  | .ok (s1, mem1) => .ok (e.strtof (cstr mem1), s1, mem1)

/-- Three numbers, 118-128 and 134-144. -/
def float3 (e : Env K) (s : Stream) (mem : Mem) : Except Fault ((K × K × K) × Stream × Mem) :=
  match float e s mem with
  | .error x => .error x
  | .ok (a, s1, m1) =>
    match float e s1 m1 with
    | .error x => .error x
    | .ok (b, s2, m2) =>
      match float e s2 m2 with
      | .error x => .error x
      | .ok (c, s3, m3) => .ok ((a, b, c), s3, m3)

/-- Two numbers, 105-112. -/
def float2 (e : Env K) (s : Stream) (mem : Mem) : Except Fault ((K × K) × Stream × Mem) :=
  match float e s mem with
  | .error x => .error x
  | .ok (a, s1, m1) =>
    match float e s1 m1 with
    | .error x => .error x
    | .ok (b, s2, m2) => .ok ((a, b), s2, m2)

/-- Case `v`, 98-150. -/
def caseV (e : Env K) (p : Parser K) (m : Mesh K) : Except Fault (Step K) :=
  if (cstr m.mem).drop 1 |>.head? |> (· = some 't') then
    match float2 e p.stream m.mem with
    | .error x => .error x
    | .ok (uv, s, mem) => .ok (.next { p with stream := s, textures := p.textures ++ [uv] } { m with mem := mem })
  else if (cstr m.mem).drop 1 |>.head? |> (· = some 'n') then
    match float3 e p.stream m.mem with
    | .error x => .error x
    | .ok (v, s, mem) => .ok (.next { p with stream := s, normals := p.normals ++ [v] } { m with mem := mem })
  else
    match float3 e p.stream m.mem with
    | .error x => .error x
    | .ok (v, s, mem) => .ok (.next { p with stream := s, vertices := p.vertices ++ [v] } { m with mem := mem })

/-- The material named by `usemtl`, 158-178.  `current_material` is an `unsigned char`. -/
def useMaterial (e : Env K) (m : Mesh K) (name : List Char) : Mesh K :=
  match m.used.lookup name with
  | some k => { m with current := k }
  | none =>
    match e.lib name with
    | none => { m with used := m.used ++ [(name, 0)], current := 0 }
    | some mat =>
      { m with used := m.used ++ [(name, m.materials.length % 256)], current := m.materials.length % 256,
               materials := m.materials ++ [mat] }

/-- The keyword `usemtl`, 153. -/
def kwUsemtl : List Char := ['u', 's', 'e', 'm', 't', 'l']

/-- Case `u`, 151-181. -/
def caseU (e : Env K) (p : Parser K) (m : Mesh K) : Except Fault (Step K) :=
  if cstr m.mem = kwUsemtl then
    match nextToken p.stream m.mem with
    | .error x => .error x
    | .ok (s, mem) => .ok (.next { p with stream := s } (useMaterial e { m with mem := mem } (cstr mem)))
  else .ok (.next p m)

/-- Case `o`, 182-201. -/
def caseO (p : Parser K) (m : Mesh K) : Except Fault (Step K) :=
  if m.name ≠ [] then .ok (.ret m.retval { p with craft := some 'o' } m)
  else
    match nextToken p.stream m.mem with
    | .error x => .error x
    | .ok (s, mem) => .ok (.next { p with stream := s } { m with name := cstr mem, mem := mem })

/-- Case `g`, 202-221. -/
def caseG (p : Parser K) (m : Mesh K) : Except Fault (Step K) :=
  if m.name ≠ [] ∧ p.groups = true then .ok (.ret m.retval { p with craft := some 'g' } m)
  else if m.name = [] ∨ p.groups = true then
    match nextToken p.stream m.mem with
    | .error x => .error x
    | .ok (s, mem) => .ok (.next { p with stream := s, groups := true } { m with name := cstr mem, mem := mem })
  else .ok (.next p m)

/-- Case `f`, 222-373. -/
def caseF (e : Env K) (p : Parser K) (m : Mesh K) : Except Fault (Step K) :=
  match faceLoop e p ((strip p.stream).length + 1) p.stream m.mem [] false false with
  | .error x => .error x
  | .ok (.bad s mem) => .ok (.ret false { p with stream := s } { m with mem := mem })
  | .ok (.fin s mem f recT recN) =>
    match faceNormals e recN f with
    | .error x => .error x
    | .ok f =>
      if f.length < 3 then .ok (.ret false { p with stream := s } { m with mem := mem })
      else
        .ok (.next { p with stream := s }
          { m with mem := mem, tris := m.tris ++ fan e recT f,
                   assoc := m.assoc ++ List.replicate (f.length - 2) m.current, retval := true })

/-- The token at the beginning of a line, 94-103. -/
def lineToken (p : Parser K) (m : Mesh K) : Except Fault (Parser K × Mesh K) :=
  match p.craft with
  | some c => .ok ({ p with craft := none }, { m with mem := store m.mem [c] })
  | none =>
    match nextToken p.stream m.mem with
    | .error x => .error x
    | .ok (s, mem) => .ok ({ p with stream := s }, { m with mem := mem })

/-- The `switch`, 96-376. -/
def dispatch (e : Env K) (p : Parser K) (m : Mesh K) : Except Fault (Step K) :=
  match (cstr m.mem).head? with
  | some c =>
    if c = 'v' then caseV e p m
    else if c = 'u' then caseU e p m
    else if c = 'o' then caseO p m
    else if c = 'g' then caseG p m
    else if c = 'f' then caseF e p m
    else .ok (.next p m)
  | none => .ok (.next p m)

/-- The loop over the lines, 92-402; the condition looks at the sentinel. -/
def meshLoop (e : Env K) : Nat → Parser K → Mesh K → Except Fault (Bool × Parser K × Mesh K)
  | 0, _, _ => .error .fuel
  | n + 1, p, m =>
    match p.stream with
    | some _ :: _ =>
      match lineToken p m with
      | .error x => .error x
      | .ok (p1, m1) =>
        match dispatch e p1 m1 with
        | .error x => .error x
        | .ok (.ret b p2 m2) => .ok (b, p2, m2)
        | .ok (.next p2 m2) =>
          match skipLine p2.stream with
          | .error x => .error x
          | .ok s => meshLoop e n { p2 with stream := s } m2
    | _ => .ok (m.retval, p, m)

/-! ### The material table -/

/-- The first loop of `finalize_mesh`, 425-429: `count` gives every used material its new number in the order of
first use. -/
def countLoop : List Nat → List (Option Nat) → Nat → List (Option Nat) × Nat
  | [], c, k => (c, k)
  | a :: as, c, k =>
    match c.getD a none with
    | none => countLoop as (c.set a (some k)) (k + 1)
    | some _ => countLoop as c k

/-- The loop 432-436 over the 256 entries of `count`; an entry `none` of the result was never written, or comes
from outside of the old table. -/
def tableLoop (old : List Nat) (count : List (Option Nat)) : Nat → Nat → List (Option Nat) → List (Option Nat)
  | 0, _, t => t
  | k + 1, i, t =>
    match count.getD i none with
    | none => tableLoop old count k (i + 1) t
    | some j => tableLoop old count k (i + 1) (t.set j old[i]?)

/-- `finalize_mesh`, 407-442: new table and new numbers of the faces. -/
def finalize (materials : List Nat) (assoc : List Nat) : List (Option Nat) × List Nat :=
  if assoc = [] then (materials.map some, assoc)
  else
    let c := countLoop assoc (List.replicate 256 none) 0
    (tableLoop materials c.1 256 0 (List.replicate c.2 none), assoc.map (fun a => (c.1.getD a none).getD 0))

/-- `get_material_no`, 449-453: an `unsigned char`. -/
def materialNo (table : List (Option Nat)) : Nat := table.length % 256

/-- What a finished mesh consists of. -/
structure Out (K : Type) where
  name : List Char
  table : List (Option Nat)
  assoc : List Nat
  tris : List (Tri K)

/-- The name used for a mesh without name, 412-413. -/
def unnamed : List Char := ['U', 'n', 'n', 'a', 'm', 'e', 'd']

/-- `finalize_mesh` as a whole. -/
def finish (m : Mesh K) : Out K :=
  let f := finalize m.materials m.assoc
  ⟨if m.name = [] then unnamed else m.name, f.1, f.2, m.tris⟩

/-- The initial values of a call, 68-91.  Nothing of the array `token` is initialised. -/
def Mesh.init (e : Env K) : Mesh K :=
  ⟨[], [(['D', 'e', 'f', 'a', 'u', 'l', 't'], 0)], [e.dflt], 0, [], [], false, List.replicate tokenSize none⟩

/-- `get_next_mesh`, 66-405, for an open file. -/
def getNextMesh (e : Env K) (p : Parser K) : Except Fault (Bool × Parser K × Out K) :=
  match meshLoop e ((strip p.stream).length + 1) p (Mesh.init e) with
  | .error x => .error x
  | .ok (b, p', m) => .ok (b, p', finish m)

/-- The state after `start_parsing`, 32-50. -/
def start (s : Stream) : Parser K := ⟨s, none, false, [], [], []⟩

/-- The loop of `parse_and_allocate_obj`, config_driver.cpp:539-567: the meshes delivered (the handling of equal
names is left out). -/
def readAll (e : Env K) : Nat → Parser K → Except Fault (List (Out K))
  | 0, _ => .error .fuel
  | n + 1, p =>
    match getNextMesh e p with
    | .error x => .error x
    | .ok (false, _, _) => .ok []
    | .ok (true, p', o) =>
      match readAll e n p' with
      | .error x => .error x
      | .ok l => .ok (o :: l)

/-- A whole file read in chunks of `b` bytes. -/
def readFile (e : Env K) (b : Nat) (file : List Char) : Except Fault (List (Out K)) :=
  readAll e (file.length + 1) (start (chunks b b file))

end Spectre.Obj
