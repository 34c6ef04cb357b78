import Verif.Model.File

/-
`File` and the file system: /repo/src/utility/file.cpp:143-210 and 227-479 (the POSIX variant).

The file system is a tree of folders and files without links.  A place in it is the list of the names on the way, the
innermost first; the root is `[]`.  Accesses outside of an allocation are `none`, as in `Verif.Model.File`.
-/

namespace Spectre.Fsys

open Spectre.Path

/-- What is at a place; of the permissions only that of making something inside of a folder is modelled. -/
inductive Kind where
  | folder (writable : Bool)
  | file
  deriving DecidableEq, Repr

/-- The file system; every place without an entry is missing. -/
abbrev Tree := List (List Char) → Option Kind

/-- The pieces of a string between separators. -/
def pieces : List Char → List (List Char)
  | [] => [[]]
  | c :: r =>
    if c = '/' then [] :: pieces r
    else
      match pieces r with
      | [] => [[c]]
      | h :: t => (c :: h) :: t

/-- The place that the system finds for an absolute path without `.` and `..`. -/
def place (s : List Char) : List (List Char) := ((pieces s).filter (· ≠ [])).reverse

/-- `stat` and `access(…, F_OK)`. -/
def stat (t : Tree) (s : List Char) : Option Kind := t (place s)

/-- The system call `mkdir`.  `fails` are the places that cannot be made for other reasons (as a name that is too long).
The owner can write to the new folder (file.cpp:368; the mask of the process is not modelled). -/
def sysMkdir (fails : List (List Char) → Bool) (t : Tree) (s : List Char) : Bool × Tree :=
  match place s with
  | [] => (false, t)
  | c :: st =>
    if t (c :: st) = none ∧ t st = some (.folder true) ∧ fails (c :: st) = false then
      (true, fun q => if q = c :: st then some (.folder true) else t q)
    else (false, t)

/-- `File`, file.hpp:214-224: the string with its offsets, and the result of the last `stat` (`none`: it failed). -/
structure Entry where
  obj : Obj
  info : Option Kind

/-- `File::File`, file.cpp:143-192. -/
def ctor (t : Tree) (cwd p : List Char) : Option Entry := do
  let s ← ctorString cwd p
  let o ← mkObj s
  pure ⟨o, stat t s⟩

/-- The copy constructor, file.cpp:194-205. -/
def copyEntry (e : Entry) : Option Entry := (copy e.obj).map fun o => ⟨o, e.info⟩

/-- `append`, file.cpp:290-311. -/
def appendEntry (t : Tree) (e : Entry) (p : List Char) : Option Entry := do
  let a ← e.obj.absolute
  let s ← append a p
  let o ← mkObj s
  pure ⟨o, stat t s⟩

/-- `get_parent`, file.cpp:313-361: starts from a copy, and asks the system nothing. -/
def parentEntry (e : Entry) : Option Entry := (getParent e.obj).map fun o => ⟨o, e.info⟩

/-- `exists`, file.cpp:227-234. -/
def Entry.present (t : Tree) (e : Entry) : Option Bool := e.obj.absolute.map fun s => (stat t s).isSome

/-- `is_folder`, file.cpp:254-263. -/
def Entry.isFolder (e : Entry) : Bool :=
  match e.info with
  | some (.folder _) => true
  | _ => false

/-- `is_file`, file.cpp:265-274. -/
def Entry.isFile (e : Entry) : Bool :=
  match e.info with
  | some .file => true
  | _ => false

/-- `File::mkdir`, file.cpp:363-373. -/
def mkdir (fails : List (List Char) → Bool) (t : Tree) (e : Entry) : Option (Bool × Tree × Entry) := do
  let s ← e.obj.absolute
  let r := sysMkdir fails t s
  pure (r.1, r.2, { e with info := stat r.2 s })

/-- `while(index<len && absolute[++index] != '/');`, file.cpp:387. -/
def reach (mem : List Char) (len index : Nat) : Option Nat :=
  if index < len then
    match mem[index + 1]? with
    | none => none
    | some c => if c = '/' then some (index + 1) else reach mem len (index + 1)
  else some index
termination_by len - index

/-- An assignment to a byte of the string. -/
def poke (e : Entry) (i : Nat) (c : Char) : Option Entry :=
  if i < e.obj.mem.length then some { e with obj := { e.obj with mem := e.obj.mem.set i c } } else none

/-- The loop of `mkdirs`, file.cpp:384-408, from its state: the result is `created`.  `n` bounds the iterations. -/
def mkdirsLoop (fails : List (List Char) → Bool) (len : Nat) : Nat → Nat → Bool → Tree → Entry →
    Option (Bool × Tree × Entry)
  | 0, _, _, _, _ => none
  | n + 1, index, created, t, e =>
    if index < len then do
      let i ← reach e.obj.mem len index
      let e1 ← poke e i nul
      let s ← e1.obj.absolute
      if stat t s = none then
        let (res, t', e2) ← mkdir fails t e1
        let e3 ← poke e2 i '/'
        if res then mkdirsLoop fails len n i true t' e3
        else pure (false, t', e3)
      else
        let e3 ← poke e1 i '/'
        mkdirsLoop fails len n i created t e3
    else pure (created, t, e)

/-- `File::mkdirs`, file.cpp:375-414. -/
def mkdirs (fails : List (List Char) → Bool) (t : Tree) (e : Entry) : Option (Bool × Tree × Entry) := do
  let (res, t1, e1) ← mkdir fails t e
  if res then pure (true, t1, e1)
  else
    let s ← e1.obj.absolute
    let (created, t2, e2) ← mkdirsLoop fails s.length (s.length + 1) 1 false t1 e1
    let e3 ← poke e2 s.length nul
    pure (created, t2, e3)

/-- The loop of `ls`, file.cpp:456-474: `allocated` bytes at `element_name`, `abs` the folder; `names` is what `readdir`
returns. -/
def lsLoop (t : Tree) (abs : List Char) : Nat → List (List Char) → Option (List Entry)
  | _, [] => some []
  | allocated, name :: names => do
    let allocated := if abs.length + 1 + 2 + name.length ≥ allocated then abs.length + 1 + 2 + name.length else allocated
    if name ≠ ['.'] ∧ name ≠ ['.', '.'] then
      let s := abs ++ '/' :: name
      if s.length + 1 ≤ allocated then
        let e ← ctor t [] s
        let es ← lsLoop t abs allocated names
        pure (e :: es)
      else none
    else lsLoop t abs allocated names

/-- `ls`, file.cpp:416-479; `names` is the content of the folder at `absolute`, or `none` if it cannot be opened. -/
def ls (t : Tree) (e : Entry) (names : List Char → Option (List (List Char))) : Option (List Entry) := do
  let abs ← e.obj.absolute
  if e.isFolder then
    match names abs with
    | none => pure []
    | some l => lsLoop t abs (abs.length + 255) l
  else pure []

/-! Assignment -/

/-- The heap: the bytes of the blocks, `none` for a byte that was not written.  `next` is the first unused block. -/
structure Heap where
  block : Nat → Option (List (Option Char))
  next : Nat

/-- A `File` in memory: the block of `absolute`, and the offsets of `file` and `ext` in it. -/
structure Ptr where
  absolute : Nat
  file : Nat
  ext : Nat
  info : Option Kind

/-- The string in a block, if it is initialised and terminated. -/
def readString : List (Option Char) → Option (List Char)
  | [] => none
  | none :: _ => none
  | some c :: m => if c = nul then some [] else (readString m).map (c :: ·)

/-- The string at a pointer. -/
def Heap.string (h : Heap) (b : Nat) : Option (List Char) := (h.block b).bind readString

/-- `malloc` and `strcpy`: a new block with the string `s`. -/
def Heap.store (h : Heap) (s : List Char) : Heap × Nat :=
  (⟨fun b => if b = h.next then some ((s ++ [nul]).map some) else h.block b, h.next + 1⟩, h.next)

/-- A new block of `n` bytes that nothing was written to. -/
def Heap.malloc (h : Heap) (n : Nat) : Heap × Nat :=
  (⟨fun b => if b = h.next then some (List.replicate n none) else h.block b, h.next + 1⟩, h.next)

/-- `free`; `none` if there is no such block. -/
def Heap.free (h : Heap) (b : Nat) : Option Heap :=
  if (h.block b).isSome then some ⟨fun c => if c = b then none else h.block c, h.next⟩ else none

/-- The objects of a program by number. -/
abbrev Objects := Nat → Option Ptr

/-- `dst = src`, file.cpp:276-288: `malloc` writes to the member of `dst` before `strcpy` reads the member of `src`. -/
def assign (h : Heap) (os : Objects) (dst src : Nat) : Option (Heap × Objects) := do
  let d ← os dst
  let s ← os src
  let str ← h.string s.absolute
  let (h1, b) := h.malloc (str.length + 1)
  let os1 : Objects := fun k => if k = dst then some { d with absolute := b } else os k
  let s1 ← os1 src
  let str1 ← h1.string s1.absolute
  let h2 : Heap := ⟨fun c => if c = b then some ((str1 ++ [nul]).map some) else h1.block c, h1.next⟩
  pure (h2, fun k => if k = dst then some ⟨b, s1.file, s1.ext, s1.info⟩ else os1 k)

/-- `~File`, file.cpp:207-210. -/
def destroy (h : Heap) (os : Objects) (k : Nat) : Option (Heap × Objects) := do
  let p ← os k
  let h' ← h.free p.absolute
  pure (h', fun j => if j = k then none else os j)

/-- `File k = File(old)`, file.cpp:194-205, for a new object `k`. -/
def copyInto (h : Heap) (os : Objects) (k old : Nat) : Option (Heap × Objects) := do
  let s ← os old
  let str ← h.string s.absolute
  let (h1, b) := h.store str
  pure (h1, fun j => if j = k then some ⟨b, s.file, s.ext, s.info⟩ else os j)

end Spectre.Fsys
