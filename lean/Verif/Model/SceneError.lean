import Verif.Model.SceneScanner

/-!
# Reporting errors in scene files (`src/parsers/config_lexer.l`, `src/parsers/config_driver.cpp`)

Where the parser stops, the positions that the scanner keeps, and the report that is printed, with the line of the file
and the underlined token.

Simplifications: the program ends after the first report (`Console.critical` calls `exit`); line and column numbers,
file positions and lengths are unbounded (files below 2 GiB), except in the two subtractions that can become negative;
the text of the message itself is not modelled; the values of tokens do not matter here and are dropped.
-/

namespace Spectre.Scene

/-! ## Where the parser stops -/

/-- The parser without values: states of the stack (last first) and tokens not yet shifted. -/
abbrev Bare := Config Unit Unit

/-- Actions of the rules without values. -/
def blind (_ : Nat) (_ : List Unit) (_ : Unit) : Option (Unit × Unit) := some ((), ())

/-- How many tokens are left when the parser stops with a syntax error, or asks for a token that is not there
(`yyerrlab`, config_parser.tab.cc:1374-1380); `some none` if it does not stop in this way. -/
def leftOver : Nat → Bare → Option (Option Nat)
  | 0, _ => none
  | fuel + 1, c =>
    match step blind c with
    | .inl c' => leftOver fuel c'
    | .inr (.reject _) => some (some c.inp.length)
    | .inr .ub => if c.inp = [] then some (some 0) else some none
    | .inr (.accept _) => some none

/-- The number of tokens shifted before the error; `none` if there is no error. -/
def stopsAt (ts : List Tok) : Option Nat :=
  match leftOver (9 * (ts.length + 1) + 1) ⟨[], ts.map fun t => (t, ()), ()⟩ with
  | some (some k) => some (ts.length - k)
  | _ => none

/-! ## Positions -/

/-- `yy::position`, position.hh:57-112; both numbers count from 1. -/
structure Mark where
  line : Nat := 1
  col : Nat := 1
  deriving DecidableEq

/-- `loc` (begin and end), `current_pos` and `last_line_pos`, config_lexer.l:15-17. -/
structure Cursor where
  first : Mark := {}
  last : Mark := {}
  pos : Nat := 0
  line : Nat := 0
  deriving DecidableEq

/-- `scan_begin`, config_lexer.l:184-192: `loc` keeps its value from the file before. -/
def Cursor.start (m : Mark) : Cursor := { first := m, last := m }

/-- `strlen`. -/
def strlen (u : List Byte) : Nat := (u.takeWhile fun b => decide (b.val ≠ 0)).length

/-- `YY_USER_ACTION`, config_lexer.l:59; `loc.columns` is location.hh:94-97. -/
def Cursor.columns (c : Cursor) (u : List Byte) : Cursor := { c with last.col := c.last.col + u.length }

/-- `UPDATE_POS`, config_lexer.l:60. -/
def Cursor.update (c : Cursor) (u : List Byte) : Cursor := { c with pos := c.pos + strlen u }

/-- `loc.step()`, location.hh:88-91. -/
def Cursor.step (c : Cursor) : Cursor := { c with first := c.last }

/-- The action of the rule for `\n`, config_lexer.l:178, after `YY_USER_ACTION`; `loc.lines` is position.hh:84-91. -/
def Cursor.newline (c : Cursor) (u : List Byte) : Cursor :=
  let c := c.update u
  let c := { c with last := ⟨c.last.line + u.length, 1⟩ }
  { c.step with line := c.pos }

/-- The state of the scanner when it returns token number `i` (from 0), or reaches an unknown character or the end of
the file.  `yylex` begins with `loc.step()`, config_lexer.l:66; rule 61 is the one for `bump`, whose action is empty
(config_lexer.l:128, lex.yy.cc:1331-1335). -/
def cursorAt (c : Cursor) : List (Nat × List Byte) → Nat → Cursor
  | [], _ => c
  | (n, u) :: l, i =>
    match lexRules[n - 1]? with
    | none => c
    | some (_, .skip) =>
      if n = 61 then cursorAt (c.columns u) l i else cursorAt ((c.columns u).update u).step l i
    | some (_, .newline) => cursorAt ((c.columns u).newline u) l i
    | some (_, .unknown) => (c.columns u).update u
    | some (_, .tok _) =>
      match i with
      | 0 => (c.columns u).update u
      | i + 1 => cursorAt ((c.columns u).update u).step l i

/-! ## The report -/

/-- A buffer of 128 bytes, config_driver.cpp:174-175; `none` is a byte that was never written. -/
abbrev Buffer := List (Option Byte)

/-- `fseek` and `fread` in `get_line`, config_lexer.l:211-212: the bytes of the file from `start` on. -/
def readBuffer (text : List Byte) (start : Nat) : Buffer :=
  let bs := (text.drop start).take 128
  bs.map some ++ List.replicate (128 - bs.length) none

/-- The loop of `get_line`, config_lexer.l:213-221, from index `i` on: the index where it stops and the buffer with the
end of line replaced by 0.  `none` if a byte is used that was never written. -/
def cutLine : Nat → Nat → Buffer → Option (Nat × Buffer)
  | 0, i, buf => some (i, buf)
  | fuel + 1, i, buf =>
    match buf[i]? with
    | none => some (i, buf)
    | some none => none
    | some (some b) =>
      if b = 10 ∨ b = 13 ∨ b = 0 then some (i, buf.set i (some 0)) else cutLine fuel (i + 1) buf

/-- Three dots written at index `i`. -/
def dots (buf : Buffer) (i : Nat) : Buffer := ((buf.set i (some 46)).set (i + 1) (some 46)).set (i + 2) (some 46)

/-- `get_line(buf, 128)`, config_lexer.l:199-236: the offset returned and the buffer. -/
def getLine (text : List Byte) (c : Cursor) : Int × Option Buffer :=
  let tooLong : Bool := (c.pos : Int) - c.line ≥ 124
  let start : Int := if tooLong then (c.pos : Int) - 64 else c.line
  let offset : Int := if tooLong then start - c.line else 0
  match cutLine 129 0 (readBuffer text start.toNat) with
  | none => (offset, none)
  | some (i, buf) =>
    let buf := if i = 128 then (dots buf 124).set 127 (some 0) else buf
    (offset, some (if offset ≠ 0 then dots buf 0 else buf))

/-- The bytes of a string in a buffer, up to the byte 0; `none` if one of them was never written or there is no byte 0
in the buffer. -/
def cString : Buffer → Option (List Byte)
  | [] => none
  | none :: _ => none
  | some b :: buf => if b = 0 then some [] else (cString buf).map (b :: ·)

/-- An `unsigned int` computed as a difference. -/
def uint32 (z : Int) : Nat := (z % 4294967296).toNat

/-- The loops that fill `under`, config_driver.cpp:177-181, with `p = l.begin.column-1-offset` and
`q = end_col-offset`; `none` if something is written outside of the 128 bytes. -/
def underline (p q : Nat) : Option (List Byte) :=
  if p ≤ 128 ∧ q < 128 then some (List.replicate (min p q) 32 ++ List.replicate (q - p) 126) else none

/-- What is printed: only the position; the position, the line and the underline; or undefined behaviour. -/
inductive Report where
  | plain (line col : Nat)
  | shown (line col : Nat) (text under : List Byte)
  | ub
  deriving DecidableEq

/-- `ConfigDriver::error`, config_driver.cpp:159-191. -/
def reportAt (text : List Byte) (c : Cursor) : Report :=
  let endCol := c.last.col - 1
  if c.first.col < c.last.col ∧ c.first.line = c.last.line ∧ c.last.col - c.first.col ≤ 123 then
    match getLine text c with
    | (_, none) => .ub
    | (offset, some buf) =>
      match cString buf, underline (uint32 ((c.first.col : Int) - 1 - offset)) (uint32 ((endCol : Int) - offset)) with
      | some s, some v => .shown c.last.line endCol s v
      | _, _ => .ub
  else .plain c.last.line endCol

/-- The tokens of a list of matches, up to an unknown character, and the end of the file if there is none. -/
def kinds : List (Nat × List Byte) → List Tok
  | [] => [.END]
  | (n, _) :: l =>
    match lexRules[n - 1]? with
    | some (_, .tok t) => t :: kinds l
    | some (_, .unknown) => []
    | _ => kinds l

/-- The report for a file, if there is one: the text is scanned, and the error is at the first token that stops the
parser, or at an unknown character before.  `m` is the position at which the scanner begins. -/
def report (m : Mark) (text : List Byte) : Option Report :=
  match lexAll (text.length + 1) text with
  | none => some .ub
  | some l => (stopsAt (kinds l)).map fun i => reportAt text (cursorAt (Cursor.start m) l i)

end Spectre.Scene
