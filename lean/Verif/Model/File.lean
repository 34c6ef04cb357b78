/-
Paths: src/utility/file.cpp (the POSIX variant) and the resolution of included files in
src/parsers/config_driver.cpp.

Strings are lists of characters without the terminator; `nul` is the terminator when memory is meant.  Every
access outside of an allocation, and the use of the result of a failed `strrchr`, is `none`.
The file system is not modelled: `stat`, `access` and `realpath` do not influence the strings.
-/

namespace Spectre.Path

/-- The terminator of strings. -/
def nul : Char := '\x00'

/-- Reading a terminated string, `rel[relative_index+k]`. -/
def peek (s : List Char) (k : Nat) : Char := s.getD k nul

/-- Separators are replaced on entry, file.cpp:51-62. -/
def toSlash (c : Char) : Char := if c = '\\' then '/' else c

/-- `while(absolute_index-->0 && out[absolute_index] != '/');`, file.cpp:75-76 and 115-116, on the reversed
contents of the first `absolute_index` bytes.  The result is the new reversed contents; `none` when the index
becomes -1, after which every continuation of the code accesses memory in front of the buffer. -/
def scan : List Char → Option (List Char)
  | [] => none
  | c :: o => if c = '/' then some o else scan o

/-- The loop of `append_relative`, file.cpp:92-132: `rest` is the unread part of `rel`, `out` the reversed first
`absolute_index` bytes of the result, `cap` the size of its allocation. -/
def go (cap : Nat) (rest out : List Char) : Option (List Char) :=
  match rest with
  | [] => some out
  | c :: r =>
    if c = '/' ∧ peek r 0 = '.' ∧ (peek r 1 = '/' ∨ peek r 1 = nul) then go cap (r.drop 1) out
    else if c = '/' ∧ peek r 0 = '.' ∧ peek r 1 = '.' ∧ (peek r 2 = '/' ∨ peek r 2 = nul) then
      if out.length ≤ 1 then go cap (r.drop 2) out
      else
        match scan (out.drop 2) with
        | none => none
        | some o => go cap (r.drop 2) o
    else if c = '/' ∧ peek r 0 = '/' then go cap r out
    else if out.length < cap then go cap r (c :: out)
    else none
termination_by rest.length
decreasing_by all_goals simp only [List.length_cons, List.length_drop]; omega

/-- Removal of a trailing separator and termination, file.cpp:133-139. -/
def finish (cap : Nat) (out : List Char) : Option (List Char) :=
  match out with
  | [] => none
  | c :: o =>
    let res := if c = '/' ∧ o ≠ [] then o else c :: o
    if res.length < cap then some res.reverse else none

/-- The first component, file.cpp:64-80: rest of `rel` and reversed contents. -/
def start (abs rel : List Char) : Option (List Char × List Char) :=
  if peek rel 0 = '.' then
    if peek rel 1 = '.' ∧ peek rel 2 = '/' then (scan abs.reverse).map fun o => (rel.drop 2, o)
    else if peek rel 1 = '/' then some (rel.drop 1, abs.reverse)
    else some (rel, abs.reverse)
  else some (rel, abs.reverse)

/-- The separator before a relative name, file.cpp:81-85. -/
def withSep (cap : Nat) (rest out : List Char) : Option (List Char) :=
  if peek rest 0 ≠ '/' ∧ out ≠ [] then if out.length < cap then some ('/' :: out) else none else some out

/-- `append_relative`, file.cpp:20-141, with `cap` bytes at `out`. -/
def appendRelative (cap : Nat) (abs relative : List Char) : Option (List Char) :=
  if abs.length < cap then
    match start abs (relative.map toSlash) with
    | none => none
    | some (rest, out) =>
      match withSep cap rest out with
      | none => none
      | some out =>
        match go cap rest out with
        | none => none
        | some out => finish cap out
  else none

/-- `is_absolute`, file.hpp:228-238. -/
def isAbsolute (p : List Char) : Bool := peek p 0 = '/'

/-- The string of `File::File`, file.cpp:143-166; `cwd` is the result of `realpath(".")`. -/
def ctorString (cwd p : List Char) : Option (List Char) :=
  if isAbsolute p then appendRelative (p.length + 1) [] p
  else appendRelative (cwd.length + 1 + p.length + 1) cwd p

/-- The string of `File::append`, file.cpp:290-296. -/
def append (abs p : List Char) : Option (List Char) := appendRelative (abs.length + p.length + 2) abs p

/-- A `File`: the bytes at `absolute` and the offsets of `file` and `ext`. -/
structure Obj where
  mem : List Char
  file : Nat
  ext : Nat
  deriving DecidableEq

/-- A terminated string in memory. -/
def cstr : List Char → Option (List Char)
  | [] => none
  | c :: m => if c = nul then some [] else (cstr m).map (c :: ·)

/-- `absolute_path`, file.cpp:222-225. -/
def Obj.absolute (f : Obj) : Option (List Char) := cstr f.mem
/-- `filename`, file.cpp:217-220. -/
def Obj.filename (f : Obj) : Option (List Char) := cstr (f.mem.drop f.file)
/-- `extension`, file.cpp:212-215. -/
def Obj.extension (f : Obj) : Option (List Char) := cstr (f.mem.drop f.ext)

/-- `strrchr` as an offset. -/
def rfind (c : Char) : List Char → Option Nat
  | [] => none
  | d :: s =>
    match rfind c s with
    | some k => some (k + 1)
    | none => if d = c then some 0 else none

/-- The offsets, file.cpp:171-191 and 300-309. -/
def mkObj (s : List Char) : Option Obj :=
  match rfind '/' s with
  | none => none
  | some k =>
    let file := if k + 1 < s.length then k + 1 else k
    let ext :=
      match rfind '.' (s.drop file) with
      | none => s.length
      | some j => if j = 0 then s.length else file + j + 1
    some ⟨s ++ [nul], file, ext⟩

/-- The copy constructor, file.cpp:194-205. -/
def copy (f : Obj) : Option Obj := (cstr f.mem).map fun s => ⟨s ++ [nul], f.file, f.ext⟩

/-- The offset of the last separator at or before `j`, the loop of file.cpp:352. -/
def backScan (m : List Char) : Nat → Option Nat
  | 0 => if m.getD 0 nul = '/' then some 0 else none
  | j + 1 => if m.getD (j + 1) nul = '/' then some (j + 1) else backScan m j

/-- `get_parent`, file.cpp:313-361. -/
def getParent (f : Obj) : Option Obj :=
  match copy f with
  | none => none
  | some r =>
    match r.mem[r.file]? with
    | none => none
    | some c =>
      if c = '/' then some r
      else if r.file = 1 then some ⟨r.mem.set 1 nul, 0, 1⟩
      else if r.file < 2 then none
      else
        let m := r.mem.set (r.file - 1) nul
        match backScan f.mem (f.file - 2) with
        | none => some ⟨m, 0, r.file - 1⟩
        | some j => some ⟨m, if j ≠ 0 then j + 1 else r.file, r.file - 1⟩

/-! Included files -/

/-- One child, config_driver.cpp:73-78: the directory afterwards and the path.  `current_dir.append` changes the
directory. -/
def child (dir p : List Char) : Option (List Char × List Char) :=
  if isAbsolute p then (ctorString [] p).map fun q => (dir, q)
  else (append dir p).map fun q => (q, q)

/-- The loop over the children, config_driver.cpp:70-87. -/
def children (dir : List Char) : List (List Char) → Option (List Char × List (List Char))
  | [] => some (dir, [])
  | p :: ps =>
    match child dir p with
    | none => none
    | some (d, q) =>
      match children d ps with
      | none => none
      | some (d', qs) => some (d', q :: qs)

/-- `parse_and_allocate_obj`, config_driver.cpp:524-529: works on a copy of the directory. -/
def objPath (dir p : List Char) : Option (List Char) :=
  if isAbsolute p then ctorString [] p else append dir p

end Spectre.Path
