import Verif.Model.SceneGrammar

/-!
# The scanner of the scene files (`src/parsers/config_lexer.l`, `src/parsers/lex.yy.cc`)

The patterns as written in `config_lexer.l`, and the table-driven scanner that Flex made of them, with the tables of
`lex.yy.cc` copied number by number.  The two are transcribed independently: nothing in this file relates them.

Simplifications: the buffer holds the rest of the file at once, so that the refilling of `yy_get_next_buffer`
(lex.yy.cc:1742-1876) happens only at the end of the file; `yytext` is the list of matched bytes.
-/

namespace Spectre.Scene

/-- A byte of the file. -/
abbrev Byte := Fin 256

/-! ## The patterns of config_lexer.l -/

/-- Regular expressions; a class of bytes is a mask with bit `b` set for each byte `b` in it. -/
inductive RE where
  | eps
  | cls (m : Nat)
  | seq (r s : RE)
  | alt (r s : RE)
  | star (r : RE)
  deriving DecidableEq

namespace RE

/-- The mask with the given characters. -/
def maskOf (cs : List Char) : Nat := cs.foldl (fun m c => m ||| 1 <<< c.toNat) 0

/-- One character. -/
def chr (c : Char) : RE := .cls (1 <<< c.toNat)

/-- A sequence of characters (not empty). -/
def word : List Char → RE
  | [] => .eps
  | [c] => chr c
  | c :: cs => .seq (chr c) (word cs)

/-- `[abc]`. -/
def oneOf (cs : List Char) : RE := .cls (maskOf cs)

/-- `[^abc]`; the newline is in it unless it is listed.  Flex's `.` is `[^\n]`. -/
def noneOf (cs : List Char) : RE := .cls ((2 ^ 256 - 1) ^^^ maskOf cs)

/-- `[a-b]`. -/
def range (a b : Char) : RE := .cls (2 ^ (b.toNat + 1) - 2 ^ a.toNat)

/-- `r+`. -/
def plus (r : RE) : RE := .seq r (.star r)

/-- `r?`. -/
def opt (r : RE) : RE := .alt r .eps

/-- `uint`, config_lexer.l:24. -/
def uintRe : RE := .seq (opt (chr '+')) (plus (range '0' '9'))

/-- `int`, config_lexer.l:25. -/
def intRe : RE := .seq (chr '-') (plus (range '0' '9'))

/-- `float`, config_lexer.l:26. -/
def floatRe : RE := .seq (opt (oneOf ['-', '+'])) (.seq (.alt (.seq (.star (range '0' '9')) (.seq (chr '.') (plus (range '0' '9')))) (plus (range '0' '9'))) (opt (.seq (oneOf ['e', 'E']) (.seq (opt (oneOf ['-', '+'])) (plus (range '0' '9'))))))

/-- `string`, config_lexer.l:27. -/
def stringRe : RE := .alt (.seq (chr '"') (.seq (.star (.alt (.seq (chr '\\') (noneOf ['\n'])) (noneOf ['\\', '"']))) (chr '"'))) (.seq (chr '\'') (.seq (.star (.alt (.seq (chr '\\') (noneOf ['\n'])) (noneOf ['\'']))) (chr '\'')))

end RE

/-- What the action of a rule does: return a token, go on, go on with a new line, or report an unknown character. -/
inductive RuleAction where
  | tok (t : Tok)
  | skip
  | newline
  | unknown
  deriving DecidableEq

open RE in
/-- The rules, config_lexer.l:68-179; the rule at index `n` is Flex's rule `n + 1`.  The definitions of the chemical
symbols, config_lexer.l:28-56, are written out. -/
def lexRules : List (RE × RuleAction) := [
  (chr ':', .tok .COLON), (chr '[', .tok .OPEN_SQ), (chr ']', .tok .CLOSE_SQ), (chr '{', .tok .OPEN_CU),
  (chr '}', .tok .CLOSE_CU), (chr ',', .tok .COMMA), (word ['o', 'u', 't'], .tok .OUTPUT),
  (word ['i', 'n', 't', 'e', 'g', 'r', 'a', 't', 'o', 'r'], .tok .INTEGRATOR),
  (word ['p', 'a', 't', 'h'], .tok .PATH_TRACE),
  (word ['r', 'e', 's', 'o', 'l', 'u', 't', 'i', 'o', 'n'], .tok .RESOLUTION), (word ['s', 'p', 'p'], .tok .SPP),
  (word ['w', 'i', 'd', 't', 'h'], .tok .WIDTH), (word ['h', 'e', 'i', 'g', 'h', 't'], .tok .HEIGHT),
  (word ['v', 'a', 'l', 'u', 'e', '0'], .tok .VAL_0), (word ['v', 'a', 'l', 'u', 'e', '1'], .tok .VAL_1),
  (word ['s', 'a', 'm', 'p', 'l', 'e', 'r'], .tok .SAMPLER), (word ['r', 'a', 'n', 'd', 'o', 'm'], .tok .RANDOM),
  (word ['s', 't', 'r', 'a', 't', 'i', 'f', 'i', 'e', 'd'], .tok .STRATIFIED),
  (word ['f', 'i', 'l', 't', 'e', 'r'], .tok .FILTER), (word ['t', 'y', 'p', 'e'], .tok .TYPE),
  (word ['b', 'o', 'x'], .tok .BOX), (word ['t', 'e', 'n', 't'], .tok .TENT),
  (word ['t', 'r', 'i', 'a', 'n', 'g', 'l', 'e'], .tok .TENT), (word ['g', 'a', 'u', 's', 's'], .tok .GAUSS),
  (word ['g', 'a', 'u', 's', 's', 'i', 'a', 'n'], .tok .GAUSS),
  (word ['m', 'i', 't', 'c', 'h', 'e', 'l', 'l'], .tok .MITCHELL),
  (word ['l', 'a', 'n', 'c', 'z', 'o', 's'], .tok .LANCZOS),
  (word ['u', 'n', 'f', 'i', 'l', 't', 'e', 'r', 'e', 'd'], .tok .UNFILTERED),
  (word ['t', 'r', 'i', 'l', 'i', 'n', 'e', 'a', 'r'], .tok .TRILINEAR), (word ['e', 'w', 'a'], .tok .EWA),
  (word ['c', 'a', 'm', 'e', 'r', 'a'], .tok .CAMERA),
  (word ['p', 'e', 'r', 's', 'p', 'e', 'c', 't', 'i', 'v', 'e'], .tok .PERSPECTIVE),
  (word ['p', 'a', 'n', 'o', 'r', 'a', 'm', 'a'], .tok .PANORAMA),
  (word ['o', 'r', 't', 'h', 'o', 'g', 'r', 'a', 'p', 'h', 'i', 'c'], .tok .ORTHOGRAPHIC),
  (word ['p', 'o', 's', 'i', 't', 'i', 'o', 'n'], .tok .POSITION),
  (word ['t', 'a', 'r', 'g', 'e', 't'], .tok .TARGET), (word ['u', 'p'], .tok .UP),
  (word ['f', 'o', 'v'], .tok .FOV), (word ['s', 'h', 'a', 'p', 'e'], .tok .SHAPE),
  (word ['w', 'o', 'r', 'l', 'd'], .tok .WORLD), (word ['l', 'i', 'g', 'h', 't'], .tok .LIGHT),
  (word ['n', 'a', 'm', 'e'], .tok .NAME), (word ['r', 'o', 't', 'a', 't', 'i', 'o', 'n'], .tok .ROTATION),
  (word ['s', 'c', 'a', 'l', 'e'], .tok .SCALE), (word ['s', 'h', 'i', 'f', 't'], .tok .SHIFT),
  (word ['t', 'e', 'm', 'p', 'e', 'r', 'a', 't', 'u', 'r', 'e'], .tok .TEMPERATURE),
  (word ['m', 'a', 't', 'e', 'r', 'i', 'a', 'l'], .tok .MATERIAL),
  (word ['d', 'u', 'a', 'l', 'm', 'a', 't', 'e', 'r', 'i', 'a', 'l'], .tok .DUALMATERIAL),
  (word ['t', 'e', 'x', 't', 'u', 'r', 'e'], .tok .TEXTURE), (word ['s', 'r', 'c'], .tok .SRC),
  (word ['m', 'a', 't', 't', 'e'], .tok .MATTE), (word ['g', 'l', 'o', 's', 's', 'y'], .tok .GLOSSY),
  (word ['m', 'e', 't', 'a', 'l'], .tok .METAL), (word ['g', 'l', 'a', 's', 's'], .tok .GLASS),
  (word ['i', 'o', 'r'], .tok .IOR), (word ['r', 'o', 'u', 'g', 'h', 'n', 'e', 's', 's'], .tok .ROUGHNESS),
  (word ['a', 'n', 'i', 's', 'o', 't', 'r', 'o', 'p', 'y'], .tok .ANISOTROPY),
  (word ['d', 'i', 's', 't', 'r', 'i', 'b', 'u', 't', 'i', 'o', 'n'], .tok .DISTRIBUTION),
  (word ['d', 'i', 'f', 'f', 'u', 's', 'e'], .tok .DIFFUSE),
  (word ['s', 'p', 'e', 'c', 'u', 'l', 'a', 'r'], .tok .SPECULAR), (word ['b', 'u', 'm', 'p'], .skip),
  (word ['n', 'o', 'r', 'm', 'a', 'l'], .tok .NORMAL), (word ['b', 'l', 'i', 'n', 'n'], .tok .BLINN),
  (word ['b', 'e', 'c', 'k', 'm', 'a', 'n', 'n'], .tok .BECKMANN), (word ['g', 'g', 'x'], .tok .GGX),
  (word ['c', 'o', 'l', 'o', 'r'], .tok .COLOR), (word ['e', 'l', 'e', 'm', 'e', 'n', 't'], .tok .ELEM),
  (word ['u', 's', 'i', 'n', 'g', ' ', 'c', 'h', 'a', 'n', 'n', 'e', 'l', ' ', 'R'], .tok .CHNR),
  (word ['u', 's', 'i', 'n', 'g', ' ', 'c', 'h', 'a', 'n', 'n', 'e', 'l', ' ', 'G'], .tok .CHNG),
  (word ['u', 's', 'i', 'n', 'g', ' ', 'c', 'h', 'a', 'n', 'n', 'e', 'l', ' ', 'B'], .tok .CHNB),
  (word ['u', 's', 'i', 'n', 'g', ' ', 'c', 'h', 'a', 'n', 'n', 'e', 'l', ' ', 'A'], .tok .CHNA),
  (word ['i', 'n', 'v', 'e', 'r', 't', 'e', 'd'], .tok .INV), (word ['m', 'a', 's', 'k'], .tok .MASK),
  (word ['f', 'i', 'r', 's', 't'], .tok .FIRST), (word ['s', 'e', 'c', 'o', 'n', 'd'], .tok .SECOND),
  (uintRe, .tok .UINT), (intRe, .tok .INT), (floatRe, .tok .FLOAT), (stringRe, .tok .STRING),
  (.seq (oneOf ['A', 'a']) (oneOf ['G', 'g']), .tok .SILVER),
  (.seq (oneOf ['A', 'a']) (oneOf ['L', 'l']), .tok .ALUMINIUM),
  (.seq (oneOf ['A', 'a']) (oneOf ['U', 'u']), .tok .GOLD),
  (.seq (oneOf ['C', 'c']) (oneOf ['U', 'u']), .tok .COPPER),
  (.seq (oneOf ['F', 'f']) (oneOf ['E', 'e']), .tok .IRON),
  (.seq (oneOf ['H', 'h']) (oneOf ['G', 'g']), .tok .MERCURY),
  (.seq (oneOf ['P', 'p']) (oneOf ['B', 'b']), .tok .LEAD),
  (.seq (oneOf ['P', 'p']) (oneOf ['T', 't']), .tok .PLATINUM), (oneOf ['W', 'w'], .tok .TUNGSTEN),
  (.seq (oneOf ['B', 'b']) (oneOf ['E', 'e']), .tok .BERYLLIUM),
  (.seq (oneOf ['B', 'b']) (oneOf ['I', 'i']), .tok .BISMUTH),
  (.seq (oneOf ['C', 'c']) (oneOf ['O', 'o']), .tok .COBALT),
  (.seq (oneOf ['C', 'c']) (oneOf ['R', 'r']), .tok .CHROMIUM),
  (.seq (oneOf ['G', 'g']) (oneOf ['E', 'e']), .tok .GERMANIUM), (oneOf ['K', 'k'], .tok .POTASSIUM),
  (.seq (oneOf ['L', 'l']) (oneOf ['I', 'i']), .tok .LITHIUM),
  (.seq (oneOf ['M', 'm']) (oneOf ['G', 'g']), .tok .MAGNESIUM),
  (.seq (oneOf ['M', 'm']) (oneOf ['N', 'n']), .tok .MANGANESE),
  (.seq (oneOf ['M', 'm']) (oneOf ['O', 'o']), .tok .MOLYBDENUM),
  (.seq (oneOf ['N', 'n']) (oneOf ['A', 'a']), .tok .SODIUM),
  (.seq (oneOf ['N', 'n']) (oneOf ['B', 'b']), .tok .NIOBIUM),
  (.seq (oneOf ['N', 'n']) (oneOf ['I', 'i']), .tok .NICKEL),
  (.seq (oneOf ['P', 'p']) (oneOf ['D', 'd']), .tok .PALLADIUM),
  (.seq (oneOf ['R', 'r']) (oneOf ['H', 'h']), .tok .RHODIUM),
  (.seq (oneOf ['T', 't']) (oneOf ['A', 'a']), .tok .TANTALUM),
  (.seq (oneOf ['T', 't']) (oneOf ['I', 'i']), .tok .TITANIUM), (oneOf ['V', 'v'], .tok .VANADIUM),
  (.seq (oneOf ['Z', 'z']) (oneOf ['N', 'n']), .tok .ZINC),
  (.seq (oneOf ['Z', 'z']) (oneOf ['R', 'r']), .tok .ZIRCONIUM),
  (.seq (chr '#') (.star (noneOf ['\n', '\r'])), .skip), (oneOf [' ', '\t', '\r'], .skip), (oneOf ['\n'], .newline),
  (noneOf ['\n'], .unknown)]

/-! ## The tables of lex.yy.cc -/

/-- The rule a state accepts, 0 for none, 114 for the end of the buffer: `yy_accept`, lex.yy.cc:366-417. -/
def yyAccept : List Nat := [
  0, 0, 0, 114, 112, 110, 111, 112, 109, 112, 112, 6, 112, 112, 76, 1, 112, 112, 112, 112, 112, 112, 94, 112, 112,
  112, 112, 112, 112, 106, 88, 112, 2, 3, 112, 112, 112, 112, 112, 112, 112, 112, 112, 112, 112, 112, 112, 112,
  112, 112, 112, 112, 106, 88, 4, 5, 0, 79, 0, 109, 0, 0, 0, 76, 77, 78, 0, 80, 81, 82, 89, 90, 91, 92, 83, 84, 93,
  85, 95, 96, 97, 98, 99, 100, 101, 86, 102, 87, 103, 104, 105, 107, 108, 0, 89, 0, 0, 0, 0, 91, 0, 0, 0, 0, 0, 0,
  0, 0, 0, 0, 0, 0, 0, 95, 0, 0, 0, 99, 0, 0, 0, 0, 0, 0, 0, 0, 0, 0, 0, 0, 0, 0, 0, 0, 104, 0, 0, 0, 0, 37, 0, 0,
  0, 0, 0, 79, 0, 0, 78, 0, 0, 0, 21, 0, 0, 0, 0, 0, 0, 0, 30, 0, 0, 38, 0, 65, 0, 0, 0, 0, 0, 55, 0, 0, 0, 0, 0,
  0, 0, 0, 0, 7, 0, 0, 0, 0, 0, 0, 0, 0, 0, 0, 0, 0, 0, 0, 11, 50, 0, 0, 0, 0, 0, 0, 0, 0, 0, 0, 0, 0, 0, 0, 0, 61,
  0, 0, 0, 0, 0, 0, 0, 0, 0, 0, 0, 0, 0, 0, 0, 0, 73, 0, 0, 0, 0, 42, 0, 0, 0, 9, 0, 0, 0, 0, 0, 0, 0, 0, 0, 0, 0,
  0, 0, 0, 0, 22, 0, 0, 0, 20, 0, 0, 0, 0, 0, 0, 0, 63, 0, 66, 0, 0, 0, 0, 0, 74, 24, 54, 0, 0, 0, 0, 0, 41, 0, 51,
  53, 0, 0, 0, 0, 0, 0, 0, 0, 0, 0, 0, 44, 0, 39, 45, 0, 0, 0, 0, 0, 0, 0, 0, 0, 0, 12, 40, 0, 0, 31, 0, 0, 0, 0,
  19, 0, 52, 13, 0, 0, 0, 0, 0, 62, 0, 0, 0, 0, 17, 0, 0, 0, 0, 75, 0, 0, 36, 0, 0, 0, 0, 0, 0, 14, 15, 0, 0, 59,
  0, 0, 67, 0, 0, 0, 27, 0, 0, 0, 0, 0, 0, 0, 0, 0, 16, 0, 0, 0, 49, 0, 0, 0, 0, 0, 64, 0, 0, 25, 0, 72, 47, 26, 0,
  33, 0, 35, 0, 43, 0, 60, 0, 0, 23, 0, 0, 0, 0, 0, 0, 0, 0, 0, 0, 56, 0, 0, 29, 0, 0, 57, 0, 0, 8, 0, 0, 10, 18,
  0, 28, 0, 0, 0, 0, 32, 46, 0, 58, 48, 34, 0, 0, 0, 71, 70, 69, 68, 0]

/-- The class of a byte: `yy_ec`, lex.yy.cc:419-449. -/
def yyEc : List Nat := [
  0, 1, 1, 1, 1, 1, 1, 1, 1, 2, 3, 1, 1, 4, 1, 1, 1, 1, 1, 1, 1, 1, 1, 1, 1, 1, 1, 1, 1, 1, 1, 1, 5, 1, 6, 7, 1, 1,
  1, 8, 1, 1, 1, 9, 10, 11, 12, 1, 13, 14, 15, 15, 15, 15, 15, 15, 15, 15, 16, 1, 1, 1, 1, 1, 1, 17, 18, 19, 20,
  21, 22, 23, 24, 25, 1, 26, 27, 28, 29, 30, 31, 1, 32, 1, 33, 34, 35, 36, 1, 1, 37, 38, 39, 40, 1, 1, 1, 41, 42,
  43, 44, 45, 46, 47, 48, 49, 1, 50, 51, 52, 53, 54, 55, 1, 56, 57, 58, 59, 60, 61, 62, 63, 64, 65, 1, 66, 1, 1, 1,
  1, 1, 1, 1, 1, 1, 1, 1, 1, 1, 1, 1, 1, 1, 1, 1, 1, 1, 1, 1, 1, 1, 1, 1, 1, 1, 1, 1, 1, 1, 1, 1, 1, 1, 1, 1, 1, 1,
  1, 1, 1, 1, 1, 1, 1, 1, 1, 1, 1, 1, 1, 1, 1, 1, 1, 1, 1, 1, 1, 1, 1, 1, 1, 1, 1, 1, 1, 1, 1, 1, 1, 1, 1, 1, 1, 1,
  1, 1, 1, 1, 1, 1, 1, 1, 1, 1, 1, 1, 1, 1, 1, 1, 1, 1, 1, 1, 1, 1, 1, 1, 1, 1, 1, 1, 1, 1, 1, 1, 1, 1, 1, 1, 1, 1,
  1, 1, 1, 1, 1, 1, 1, 1, 1, 1, 1, 1, 1]

/-- The class used after a default: `yy_meta`, lex.yy.cc:451-460. -/
def yyMeta : List Nat := [
  0, 1, 1, 2, 2, 1, 1, 1, 1, 1, 1, 1, 1, 1, 1, 1, 1, 1, 1, 1, 1, 1, 1, 1, 1, 1, 1, 1, 1, 1, 1, 1, 1, 1, 1, 1, 1, 1,
  1, 1, 1, 1, 1, 1, 1, 1, 1, 1, 1, 1, 1, 1, 1, 1, 1, 1, 1, 1, 1, 1, 1, 1, 1, 1, 1, 1, 1]

/-- Offset of the row of a state: `yy_base`, lex.yy.cc:462-513. -/
def yyBase : List Nat := [
  0, 0, 0, 581, 582, 582, 582, 61, 0, 60, 57, 582, 61, 64, 68, 582, 61, 65, 62, 64, 66, 68, 582, 68, 75, 106, 107,
  78, 113, 582, 582, 103, 582, 582, 110, 121, 144, 48, 92, 137, 143, 148, 114, 111, 176, 190, 47, 193, 195, 205,
  237, 124, 539, 85, 582, 582, 144, 582, 576, 0, 165, 189, 242, 252, 256, 266, 281, 582, 582, 582, 582, 582, 582,
  582, 582, 582, 582, 582, 582, 582, 582, 582, 582, 582, 582, 582, 582, 582, 582, 582, 582, 582, 582, 529, 534,
  527, 513, 522, 521, 521, 155, 530, 525, 528, 158, 508, 508, 504, 148, 516, 158, 508, 510, 515, 184, 503, 502,
  507, 502, 499, 498, 169, 499, 497, 500, 495, 200, 499, 509, 506, 234, 165, 505, 491, 490, 236, 496, 489, 497,
  582, 493, 490, 496, 483, 237, 264, 296, 292, 295, 481, 487, 483, 582, 480, 489, 479, 486, 473, 479, 477, 582,
  470, 470, 582, 469, 582, 468, 467, 476, 477, 476, 582, 477, 471, 468, 257, 476, 473, 470, 462, 465, 582, 458,
  463, 453, 460, 464, 453, 465, 458, 449, 452, 448, 446, 454, 456, 582, 582, 457, 450, 441, 437, 436, 233, 448,
  443, 438, 431, 431, 437, 433, 434, 432, 582, 428, 427, 423, 425, 428, 434, 433, 419, 419, 418, 417, 425, 425,
  415, 406, 411, 582, 412, 422, 415, 417, 582, 423, 409, 406, 582, 406, 402, 405, 407, 399, 408, 404, 409, 400,
  407, 393, 391, 391, 403, 402, 582, 387, 392, 395, 582, 392, 395, 396, 392, 395, 380, 396, 582, 395, 582, 378,
  385, 392, 379, 375, 582, 381, 582, 366, 370, 371, 368, 371, 582, 375, 582, 582, 378, 371, 374, 379, 374, 369,
  365, 357, 366, 361, 368, 582, 368, 582, 582, 360, 361, 351, 352, 351, 359, 352, 346, 398, 299, 582, 582, 346,
  348, 582, 355, 357, 340, 339, 582, 355, 582, 582, 354, 349, 336, 351, 340, 582, 334, 337, 345, 333, 582, 328,
  331, 339, 327, 582, 341, 335, 582, 339, 334, 327, 332, 331, 332, 582, 582, 320, 320, 582, 313, 326, 582, 317,
  311, 324, 582, 316, 315, 324, 323, 305, 309, 312, 307, 302, 582, 302, 308, 298, 582, 310, 313, 297, 304, 296,
  582, 292, 293, 582, 294, 582, 582, 582, 292, 582, 297, 582, 291, 582, 287, 582, 298, 283, 582, 278, 288, 291,
  267, 280, 279, 271, 278, 265, 271, 582, 279, 265, 582, 276, 266, 582, 264, 273, 582, 242, 240, 582, 582, 207,
  582, 180, 171, 145, 144, 582, 582, 100, 582, 582, 582, 90, 114, 299, 582, 582, 582, 582, 582, 335, 100, 337, 339]

/-- The state whose row is used by default: `yy_def`, lex.yy.cc:515-566. -/
def yyDef : List Nat := [
  0, 443, 1, 443, 443, 443, 443, 444, 445, 446, 443, 443, 443, 443, 443, 443, 443, 443, 443, 443, 443, 443, 443,
  443, 443, 443, 443, 443, 443, 443, 443, 443, 443, 443, 443, 443, 443, 443, 443, 443, 443, 443, 443, 443, 443,
  443, 443, 443, 443, 443, 443, 443, 443, 443, 443, 443, 444, 443, 444, 445, 446, 447, 443, 443, 443, 443, 443,
  443, 443, 443, 443, 443, 443, 443, 443, 443, 443, 443, 443, 443, 443, 443, 443, 443, 443, 443, 443, 443, 443,
  443, 443, 443, 443, 443, 443, 443, 443, 443, 443, 443, 443, 443, 443, 443, 443, 443, 443, 443, 443, 443, 443,
  443, 443, 443, 443, 443, 443, 443, 443, 443, 443, 443, 443, 443, 443, 443, 443, 443, 443, 443, 443, 443, 443,
  443, 443, 443, 443, 443, 443, 443, 443, 443, 443, 443, 446, 446, 447, 443, 443, 443, 443, 443, 443, 443, 443,
  443, 443, 443, 443, 443, 443, 443, 443, 443, 443, 443, 443, 443, 443, 443, 443, 443, 443, 443, 443, 443, 443,
  443, 443, 443, 443, 443, 443, 443, 443, 443, 443, 443, 443, 443, 443, 443, 443, 443, 443, 443, 443, 443, 443,
  443, 443, 443, 443, 443, 443, 443, 443, 443, 443, 443, 443, 443, 443, 443, 443, 443, 443, 443, 443, 443, 443,
  443, 443, 443, 443, 443, 443, 443, 443, 443, 443, 443, 443, 443, 443, 443, 443, 443, 443, 443, 443, 443, 443,
  443, 443, 443, 443, 443, 443, 443, 443, 443, 443, 443, 443, 443, 443, 443, 443, 443, 443, 443, 443, 443, 443,
  443, 443, 443, 443, 443, 443, 443, 443, 443, 443, 443, 443, 443, 443, 443, 443, 443, 443, 443, 443, 443, 443,
  443, 443, 443, 443, 443, 443, 443, 443, 443, 443, 443, 443, 443, 443, 443, 443, 443, 443, 443, 443, 443, 443,
  443, 443, 443, 443, 443, 443, 443, 443, 443, 443, 443, 443, 443, 443, 443, 443, 443, 443, 443, 443, 443, 443,
  443, 443, 443, 443, 443, 443, 443, 443, 443, 443, 443, 443, 443, 443, 443, 443, 443, 443, 443, 443, 443, 443,
  443, 443, 443, 443, 443, 443, 443, 443, 443, 443, 443, 443, 443, 443, 443, 443, 443, 443, 443, 443, 443, 443,
  443, 443, 443, 443, 443, 443, 443, 443, 443, 443, 443, 443, 443, 443, 443, 443, 443, 443, 443, 443, 443, 443,
  443, 443, 443, 443, 443, 443, 443, 443, 443, 443, 443, 443, 443, 443, 443, 443, 443, 443, 443, 443, 443, 443,
  443, 443, 443, 443, 443, 443, 443, 443, 443, 443, 443, 443, 443, 443, 443, 443, 443, 443, 443, 443, 443, 443,
  443, 443, 0, 443, 443, 443, 443]

/-- Next states, all rows overlapping: `yy_nxt`, lex.yy.cc:568-641. -/
def yyNxt : List Nat := [
  0, 4, 5, 6, 5, 5, 7, 8, 9, 10, 11, 12, 13, 14, 14, 14, 15, 16, 17, 18, 4, 4, 19, 20, 21, 4, 22, 23, 24, 25, 4,
  26, 27, 28, 4, 29, 30, 31, 32, 4, 33, 34, 35, 36, 37, 38, 39, 40, 41, 42, 22, 43, 44, 45, 46, 47, 48, 49, 50, 51,
  52, 53, 4, 4, 31, 54, 55, 57, 57, 62, 63, 63, 63, 62, 64, 64, 64, 65, 65, 65, 62, 63, 63, 63, 67, 75, 70, 76, 68,
  66, 71, 77, 72, 78, 73, 69, 74, 100, 79, 61, 58, 59, 88, 119, 80, 81, 120, 101, 67, 75, 70, 76, 68, 66, 71, 77,
  72, 78, 73, 438, 69, 74, 79, 82, 83, 85, 88, 86, 80, 81, 89, 84, 91, 67, 142, 92, 78, 68, 90, 143, 87, 437, 70,
  102, 69, 436, 71, 82, 83, 85, 57, 86, 112, 103, 89, 84, 91, 67, 75, 92, 113, 68, 90, 93, 76, 87, 94, 110, 111,
  69, 71, 77, 95, 57, 72, 96, 73, 138, 74, 139, 97, 140, 75, 58, 106, 98, 104, 435, 76, 166, 107, 105, 60, 109,
  108, 77, 434, 145, 99, 79, 73, 156, 167, 74, 61, 80, 81, 82, 83, 161, 195, 85, 157, 86, 162, 84, 169, 114, 170,
  88, 196, 115, 182, 79, 433, 116, 87, 183, 146, 80, 81, 117, 83, 432, 121, 85, 124, 86, 122, 84, 125, 174, 175,
  88, 118, 57, 127, 123, 128, 126, 129, 87, 431, 130, 89, 65, 65, 65, 188, 189, 131, 132, 90, 133, 62, 63, 63, 63,
  62, 64, 64, 64, 57, 66, 257, 193, 61, 66, 134, 65, 65, 65, 135, 194, 258, 430, 90, 66, 200, 201, 147, 429, 147,
  136, 148, 148, 148, 66, 202, 60, 137, 66, 231, 61, 145, 148, 148, 148, 148, 148, 148, 66, 350, 351, 428, 232,
  439, 440, 427, 426, 425, 424, 441, 423, 422, 421, 420, 419, 418, 417, 416, 442, 415, 414, 413, 146, 56, 56, 60,
  60, 144, 144, 412, 411, 410, 409, 408, 407, 406, 405, 404, 403, 402, 401, 400, 399, 398, 397, 396, 395, 394, 393,
  392, 391, 390, 389, 388, 387, 386, 385, 384, 383, 382, 381, 380, 379, 378, 377, 376, 375, 374, 373, 372, 371,
  370, 369, 368, 367, 366, 365, 364, 363, 362, 361, 360, 359, 358, 357, 356, 355, 354, 353, 352, 349, 348, 347,
  346, 345, 344, 343, 342, 341, 340, 339, 338, 337, 336, 335, 334, 333, 332, 331, 330, 329, 328, 327, 326, 325,
  324, 323, 322, 321, 320, 319, 318, 317, 316, 315, 314, 313, 312, 311, 310, 309, 308, 307, 306, 305, 304, 303,
  302, 301, 300, 299, 298, 297, 296, 295, 294, 293, 292, 291, 290, 289, 288, 287, 286, 285, 284, 283, 282, 281,
  280, 279, 278, 277, 276, 275, 274, 273, 272, 271, 270, 269, 268, 267, 266, 265, 264, 263, 262, 261, 260, 259,
  256, 255, 254, 253, 252, 251, 250, 249, 248, 247, 246, 245, 244, 243, 242, 241, 240, 239, 238, 237, 236, 235,
  234, 233, 230, 229, 228, 227, 226, 225, 224, 223, 222, 221, 220, 219, 218, 217, 216, 215, 214, 213, 212, 211,
  210, 209, 208, 207, 206, 205, 204, 203, 199, 198, 197, 192, 191, 190, 187, 186, 185, 184, 181, 180, 179, 178,
  177, 176, 173, 172, 171, 168, 165, 164, 163, 160, 159, 158, 155, 154, 153, 152, 151, 150, 149, 443, 141, 443, 3,
  443, 443, 443, 443, 443, 443, 443, 443, 443, 443, 443, 443, 443, 443, 443, 443, 443, 443, 443, 443, 443, 443,
  443, 443, 443, 443, 443, 443, 443, 443, 443, 443, 443, 443, 443, 443, 443, 443, 443, 443, 443, 443, 443, 443,
  443, 443, 443, 443, 443, 443, 443, 443, 443, 443, 443, 443, 443, 443, 443, 443, 443, 443, 443, 443, 443, 443]

/-- The state an entry of `yyNxt` belongs to: `yy_chk`, lex.yy.cc:643-716. -/
def yyChk : List Nat := [
  0, 1, 1, 1, 1, 1, 1, 1, 1, 1, 1, 1, 1, 1, 1, 1, 1, 1, 1, 1, 1, 1, 1, 1, 1, 1, 1, 1, 1, 1, 1, 1, 1, 1, 1, 1, 1, 1,
  1, 1, 1, 1, 1, 1, 1, 1, 1, 1, 1, 1, 1, 1, 1, 1, 1, 1, 1, 1, 1, 1, 1, 1, 1, 1, 1, 1, 1, 7, 9, 10, 10, 10, 10, 12,
  12, 12, 12, 13, 13, 13, 14, 14, 14, 14, 16, 19, 17, 20, 16, 14, 17, 21, 18, 23, 18, 16, 18, 37, 24, 9, 7, 445,
  27, 46, 24, 24, 46, 37, 16, 19, 17, 20, 16, 14, 17, 21, 18, 23, 18, 437, 16, 18, 24, 25, 25, 26, 27, 26, 24, 24,
  28, 25, 31, 34, 53, 31, 43, 34, 28, 53, 26, 436, 35, 38, 34, 432, 35, 25, 25, 26, 56, 26, 43, 38, 28, 25, 31, 34,
  39, 31, 43, 34, 28, 34, 40, 26, 35, 42, 42, 34, 35, 41, 35, 60, 36, 35, 36, 51, 36, 51, 35, 51, 39, 56, 40, 36,
  39, 429, 40, 108, 40, 39, 61, 41, 40, 41, 428, 61, 36, 44, 36, 100, 108, 36, 60, 44, 44, 45, 45, 104, 131, 47,
  100, 47, 104, 45, 110, 44, 110, 48, 131, 44, 121, 44, 427, 44, 47, 121, 61, 44, 44, 45, 45, 426, 47, 47, 48, 47,
  47, 45, 48, 114, 114, 48, 45, 144, 49, 47, 49, 48, 49, 47, 424, 49, 50, 62, 62, 62, 126, 126, 49, 49, 50, 49, 63,
  63, 63, 63, 64, 64, 64, 64, 145, 63, 203, 130, 144, 64, 50, 65, 65, 65, 50, 130, 203, 421, 50, 65, 135, 135, 66,
  420, 66, 50, 66, 66, 66, 63, 135, 146, 50, 64, 175, 145, 146, 147, 147, 147, 148, 148, 148, 65, 311, 311, 418,
  175, 438, 438, 417, 415, 414, 412, 438, 411, 409, 408, 407, 406, 405, 404, 403, 438, 402, 401, 400, 146, 444,
  444, 446, 446, 447, 447, 398, 397, 395, 393, 391, 389, 385, 383, 382, 380, 379, 378, 377, 376, 374, 373, 372,
  370, 369, 368, 367, 366, 365, 364, 363, 362, 360, 359, 358, 356, 355, 353, 352, 349, 348, 347, 346, 345, 344,
  342, 341, 339, 338, 337, 336, 334, 333, 332, 331, 329, 328, 327, 326, 325, 322, 320, 319, 318, 317, 315, 314,
  310, 309, 308, 307, 306, 305, 304, 303, 302, 299, 297, 296, 295, 294, 293, 292, 291, 290, 289, 288, 287, 284,
  282, 281, 280, 279, 278, 276, 274, 273, 272, 271, 270, 268, 266, 265, 264, 263, 262, 261, 260, 258, 257, 256,
  254, 253, 252, 251, 250, 249, 248, 247, 246, 245, 244, 243, 242, 241, 240, 238, 237, 236, 234, 233, 232, 231,
  229, 228, 227, 226, 225, 224, 223, 222, 221, 220, 219, 218, 217, 216, 215, 214, 212, 211, 210, 209, 208, 207,
  206, 205, 204, 202, 201, 200, 199, 198, 195, 194, 193, 192, 191, 190, 189, 188, 187, 186, 185, 184, 183, 182,
  180, 179, 178, 177, 176, 174, 173, 172, 170, 169, 168, 167, 166, 164, 162, 161, 159, 158, 157, 156, 155, 154,
  153, 151, 150, 149, 143, 142, 141, 140, 138, 137, 136, 134, 133, 132, 129, 128, 127, 125, 124, 123, 122, 120,
  119, 118, 117, 116, 115, 113, 112, 111, 109, 107, 106, 105, 103, 102, 101, 99, 98, 97, 96, 95, 94, 93, 58, 52, 3,
  443, 443, 443, 443, 443, 443, 443, 443, 443, 443, 443, 443, 443, 443, 443, 443, 443, 443, 443, 443, 443, 443,
  443, 443, 443, 443, 443, 443, 443, 443, 443, 443, 443, 443, 443, 443, 443, 443, 443, 443, 443, 443, 443, 443,
  443, 443, 443, 443, 443, 443, 443, 443, 443, 443, 443, 443, 443, 443, 443, 443, 443, 443, 443, 443, 443, 443, 443]


/-! ## The scanner -/

/-- The next state over a class, lex.yy.cc:1002-1008 (and 1895-1901, 1923-1929); `none` if a table is read out of its
bounds or the loop does not end within `fuel` rounds. -/
def follow : Nat → Nat → Nat → Option Nat
  | 0, _, _ => none
  | fuel + 1, q, c =>
    match yyBase[q]? with
    | none => none
    | some b =>
      match yyChk[b + c]? with
      | none => none
      | some k =>
        if k = q then yyNxt[b + c]?
        else
          match yyDef[q]? with
          | none => none
          | some q' =>
            if 444 ≤ q' then
              match yyMeta[c]? with
              | none => none
              | some c' => follow fuel q' c'
            else follow fuel q' c

/-- The next state over a class; no more defaults than states. -/
def nextState (q c : Nat) : Option Nat := follow 448 q c

/-- `yy_last_accepting_state` and `yy_last_accepting_cpos` (counted from the beginning of the token), which are not
set before the first accepting state. -/
abbrev Last := Option (Nat × Nat)

/-- Remember an accepting state, lex.yy.cc:997-1001, 1890-1894, 1918-1922. -/
def remember' (q pos : Nat) (last : Last) : Option Last :=
  match yyAccept[q]? with
  | none => none
  | some 0 => some last
  | some _ => some (some (q, pos))

/-- The byte at a position: the text is followed by two end-of-buffer bytes, which are 0 (lex.yy.cc:1870-1871);
`none` after them. -/
def charAt (text : List Byte) (pos : Nat) : Option Nat :=
  if pos < text.length + 2 then some (text.getD pos 0).val else none

/-- The loop at `yy_match`, lex.yy.cc:994-1011, from state `q` at position `pos` until state 443; the result is what is
remembered at its end (lines 1012-1013 go there). -/
def matchLoop (text : List Byte) : Nat → Nat → Nat → Last → Option Last
  | 0, _, _, _ => none
  | fuel + 1, q, pos, last =>
    match charAt text pos with
    | none => none
    | some b =>
      match yyEc[b]?, remember' q pos last with
      | some c, some last =>
        match nextState q c with
        | none => none
        | some q' => if q' = 443 then some last else matchLoop text fuel q' (pos + 1) last
      | _, _ => none

/-- `yy_get_previous_state`, lex.yy.cc:1880-1905, over the first `n` bytes of the token: the state and what is
remembered.  A byte 0 is in class 1 here. -/
def prevState (text : List Byte) : Nat → Last → Option (Nat × Last)
  | 0, last => some (1, last)
  | n + 1, last =>
    match prevState text n last, charAt text n with
    | some (q, last), some b =>
      match (if b = 0 then some 1 else yyEc[b]?), remember' q n last with
      | some c, some last =>
        match nextState q c with
        | none => none
        | some q' => some (q', last)
      | _, _ => none
    | _, _ => none

/-- `yy_try_NUL_trans`, lex.yy.cc:1912-1933: the next state (0 if there is none) and what is remembered. -/
def tryNul (q pos : Nat) (last : Last) : Option (Nat × Last) :=
  match remember' q pos last, nextState q 1 with
  | some last, some q' => some (if q' = 443 then 0 else q', last)
  | _, _ => none

/-- Result of one run of the scanner: the end of the file, or a rule and the number of bytes matched. -/
inductive Lexed where
  | eof
  | token (rule len : Nat)
  deriving DecidableEq

/-- Where the scanner is: at `yy_match` or at `yy_find_action`. -/
inductive Phase where
  | matching (q pos : Nat)
  | action (q pos : Nat)

/-- `yylex`, lex.yy.cc:980-1726, from `yy_match` or `yy_find_action` to the action of a rule: `case 0` is 1024-1029,
`case YY_END_OF_BUFFER` 1604-1719.  At the end of the file `yy_get_next_buffer` reads nothing and returns
`EOB_ACT_END_OF_FILE` or `EOB_ACT_LAST_MATCH` (lines 1749-1751, 1839-1852). -/
def lexFrom (text : List Byte) : Nat → Last → Phase → Option Lexed
  | 0, _, _ => none
  | fuel + 1, last, .matching q pos =>
    match matchLoop text (text.length + 3) q pos last with
    | some (some (q', pos')) => lexFrom text fuel (some (q', pos')) (.action q' pos')
    | _ => none
  | fuel + 1, last, .action q pos =>
    match yyAccept[q]? with
    | none => none
    | some 0 =>
      match last with
      | none => none
      | some (q', pos') => lexFrom text fuel last (.action q' pos')
    | some 114 =>
      if pos ≤ text.length then
        match prevState text (pos - 1) last with
        | none => none
        | some (q₁, last₁) =>
          match tryNul q₁ (pos - 1) last₁ with
          | none => none
          | some (0, some (q', pos')) => lexFrom text fuel (some (q', pos')) (.action q' pos')
          | some (0, none) => none
          | some (q₂ + 1, last₂) => lexFrom text fuel last₂ (.matching (q₂ + 1) pos)
      else if pos = text.length + 1 then
        if pos - 1 = 0 then some .eof
        else
          match prevState text text.length last with
          | none => none
          | some (q₁, last₁) => lexFrom text fuel last₁ (.action q₁ text.length)
      else none
    | some (r + 1) => some (.token (r + 1) pos)

/-- One token from the beginning of `text`. -/
def lexOne (text : List Byte) : Option Lexed := lexFrom text (2 * text.length + 6) none (.matching 1 0)

/-- The rules and texts of all tokens up to the end of the file: the calls of `yylex` and its outer loop,
lex.yy.cc:980-1726. -/
def lexAll : Nat → List Byte → Option (List (Nat × List Byte))
  | 0, _ => none
  | fuel + 1, text =>
    match lexOne text with
    | none => none
    | some .eof => some []
    | some (.token r n) =>
      match lexAll fuel (text.drop n) with
      | none => none
      | some l => some ((r, text.take n) :: l)

end Spectre.Scene
