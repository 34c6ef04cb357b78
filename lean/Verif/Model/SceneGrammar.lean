import Mathlib.Data.List.Basic

/-!
# The scene file parser (`src/parsers/config_parser.y`, `src/parsers/config_parser.tab.cc`)

The grammar of the scene files, as written in `config_parser.y`, and the table-driven machine that Bison made of it,
with the tables of `config_parser.tab.cc` copied number by number.  The two are transcribed independently: nothing in
this file relates the tables to the rules.

Simplifications: locations are dropped (they never influence the parser), and error recovery is not modelled, because
the error routine ends the program (`config_driver.cpp:159-191`, `Console.critical`); the message of a syntax error is
not modelled either.  Semantic values and the state of the driver are parameters here; `Verif/Model/SceneDriver.lean`
instantiates them.
-/

namespace Spectre.Scene

/-- Terminal symbols with the numbers Bison gives them, in the order of the `%token` lines, config_parser.y:33-141
(0 is the end of the file, 1 the `error` token, 2 an undefined token; see `yytranslate_`, config_parser.tab.hh:1219-1273). -/
inductive Tok where
  | END | ERROR_ | UNDEF_ | INVALID | COLON | OPEN_SQ | CLOSE_SQ | OPEN_CU | CLOSE_CU | COMMA | OUTPUT
  | INTEGRATOR | RESOLUTION | WIDTH | HEIGHT | SAMPLER | SPP | FILTER | TYPE | CAMERA | ORTHOGRAPHIC
  | PERSPECTIVE | PANORAMA | POSITION | TARGET | UP | FOV | RANDOM | STRATIFIED | BOX | TENT | GAUSS | MITCHELL
  | LANCZOS | UNFILTERED | TRILINEAR | EWA | VAL_0 | VAL_1 | SHAPE | WORLD | LIGHT | TEMPERATURE | NAME
  | ROTATION | SCALE | SHIFT | COLOR | MATERIAL | DUALMATERIAL | TEXTURE | ANISOTROPY | BECKMANN | BLINN
  | DIFFUSE | DISTRIBUTION | ELEM | GGX | GLASS | GLOSSY | IOR | MATTE | METAL | ROUGHNESS | SPECULAR | NORMAL
  | SRC | PATH_TRACE | CHNR | CHNG | CHNB | CHNA | INV | MASK | FIRST | SECOND | SILVER | ALUMINIUM | GOLD
  | COPPER | IRON | MERCURY | LEAD | PLATINUM | TUNGSTEN | BERYLLIUM | BISMUTH | COBALT | CHROMIUM | GERMANIUM
  | POTASSIUM | LITHIUM | MAGNESIUM | MANGANESE | MOLYBDENUM | SODIUM | NIOBIUM | NICKEL | PALLADIUM | RHODIUM
  | TANTALUM | TITANIUM | VANADIUM | ZINC | ZIRCONIUM | UINT | INT | FLOAT | STRING
  deriving DecidableEq, Repr

/-- The internal number of a terminal: its position in the list above. -/
def Tok.num (t : Tok) : Nat := t.ctorIdx

/-- Nonterminal symbols, in the order of their first rule, config_parser.y:154-364 (`accept_` is Bison's `$accept`). -/
inductive NT where
  | accept_ | file | stmt | resolution_obj | resolution_stmt | filter_obj | filter_stmt | camera_obj
  | camera_stmt | world_obj | world_rec | world_name | world_stmt | light_obj | light_rec | light_stmt
  | texture_obj | texture_rec | texture_stmt | material_obj | material_rec | material_stmt | dualmaterial_obj
  | dualmaterial_rec | dualmaterial_stmt | element | attributes | attribute_ | channel | vector | vector2
  | number | integer
  deriving DecidableEq, Repr

/-- The internal number of a nonterminal: `yyntokens_` (109, config_parser.tab.hh:1208) plus its position. -/
def NT.num (n : NT) : Nat := 109 + n.ctorIdx

/-- A symbol of the grammar. -/
inductive Sym where
  | t (a : Tok)
  | n (a : NT)
  deriving DecidableEq, Repr

/-- The internal number of a symbol. -/
def Sym.num : Sym → Nat
  | .t a => a.num
  | .n a => a.num

instance : Coe Tok Sym := ⟨.t⟩
instance : Coe NT Sym := ⟨.n⟩

/-- A rule of the grammar. -/
def rule (A : NT) (rhs : List Sym) : NT × List Sym := (A, rhs)

open Tok NT in
/-- The rules of config_parser.y, in the order of the file (lines 154-364); the first is the rule `$accept: file END`
that Bison adds.  Bison numbers them from 1. -/
def grammar : List (NT × List Sym) := [
  rule accept_ [file, END],  -- 1
  rule file [file, stmt],  -- 2
  rule file [stmt],  -- 3
  rule stmt [OUTPUT, COLON, STRING],  -- 4
  rule stmt [RESOLUTION, COLON, OPEN_CU, resolution_obj, CLOSE_CU],  -- 5
  rule stmt [FILTER, COLON, OPEN_CU, filter_obj, CLOSE_CU],  -- 6
  rule stmt [SAMPLER, COLON, RANDOM],  -- 7
  rule stmt [SAMPLER, COLON, STRATIFIED],  -- 8
  rule stmt [SPP, COLON, UINT],  -- 9
  rule stmt [INTEGRATOR, COLON, PATH_TRACE],  -- 10
  rule stmt [CAMERA, COLON, OPEN_CU, camera_obj, CLOSE_CU],  -- 11
  rule stmt [SHAPE, COLON, STRING],  -- 12
  rule stmt [WORLD, COLON, OPEN_CU, world_obj, CLOSE_CU],  -- 13
  rule stmt [LIGHT, COLON, OPEN_CU, light_obj, CLOSE_CU],  -- 14
  rule stmt [TEXTURE, COLON, OPEN_CU, texture_obj, CLOSE_CU],  -- 15
  rule stmt [MATERIAL, COLON, STRING],  -- 16
  rule stmt [MATERIAL, COLON, OPEN_CU, material_obj, CLOSE_CU],  -- 17
  rule stmt [DUALMATERIAL, COLON, OPEN_CU, dualmaterial_obj, CLOSE_CU],  -- 18
  rule stmt [COMMA],  -- 19
  rule resolution_obj [resolution_obj, resolution_stmt],  -- 20
  rule resolution_obj [resolution_stmt],  -- 21
  rule resolution_stmt [WIDTH, COLON, UINT],  -- 22
  rule resolution_stmt [HEIGHT, COLON, UINT],  -- 23
  rule resolution_stmt [COMMA],  -- 24
  rule filter_obj [filter_obj, filter_stmt],  -- 25
  rule filter_obj [filter_stmt],  -- 26
  rule filter_stmt [TYPE, COLON, BOX],  -- 27
  rule filter_stmt [TYPE, COLON, TENT],  -- 28
  rule filter_stmt [TYPE, COLON, GAUSS],  -- 29
  rule filter_stmt [TYPE, COLON, MITCHELL],  -- 30
  rule filter_stmt [TYPE, COLON, LANCZOS],  -- 31
  rule filter_stmt [VAL_0, COLON, number],  -- 32
  rule filter_stmt [VAL_1, COLON, number],  -- 33
  rule filter_stmt [TEXTURE, COLON, UNFILTERED],  -- 34
  rule filter_stmt [TEXTURE, COLON, TRILINEAR],  -- 35
  rule filter_stmt [TEXTURE, COLON, EWA],  -- 36
  rule filter_stmt [COMMA],  -- 37
  rule camera_obj [camera_obj, camera_stmt],  -- 38
  rule camera_obj [camera_stmt],  -- 39
  rule camera_stmt [TYPE, COLON, ORTHOGRAPHIC],  -- 40
  rule camera_stmt [TYPE, COLON, PERSPECTIVE],  -- 41
  rule camera_stmt [TYPE, COLON, PANORAMA],  -- 42
  rule camera_stmt [POSITION, COLON, vector],  -- 43
  rule camera_stmt [TARGET, COLON, vector],  -- 44
  rule camera_stmt [UP, COLON, vector],  -- 45
  rule camera_stmt [FOV, COLON, number],  -- 46
  rule camera_stmt [COMMA],  -- 47
  rule world_obj [world_name, world_rec],  -- 48
  rule world_obj [world_name],  -- 49
  rule world_rec [world_rec, world_stmt],  -- 50
  rule world_rec [world_stmt],  -- 51
  rule world_name [NAME, COLON, STRING],  -- 52
  rule world_stmt [POSITION, COLON, vector],  -- 53
  rule world_stmt [ROTATION, COLON, vector],  -- 54
  rule world_stmt [SCALE, COLON, vector],  -- 55
  rule world_stmt [SCALE, COLON, number],  -- 56
  rule world_stmt [MATERIAL, COLON, STRING],  -- 57
  rule world_stmt [MASK, COLON, STRING],  -- 58
  rule world_stmt [MASK, COLON, STRING, attributes],  -- 59
  rule world_stmt [COMMA],  -- 60
  rule light_obj [world_name, light_rec],  -- 61
  rule light_obj [world_name],  -- 62
  rule light_rec [light_rec, world_stmt],  -- 63
  rule light_rec [light_rec, light_stmt],  -- 64
  rule light_rec [light_stmt],  -- 65
  rule light_rec [world_stmt],  -- 66
  rule light_stmt [TEMPERATURE, COLON, UINT],  -- 67
  rule light_stmt [COLOR, COLON, vector],  -- 68
  rule texture_obj [SRC, COLON, STRING],  -- 69
  rule texture_obj [SRC, COLON, STRING, texture_rec],  -- 70
  rule texture_obj [texture_rec, SRC, COLON, STRING],  -- 71
  rule texture_obj [texture_rec, SRC, COLON, STRING, texture_rec],  -- 72
  rule texture_rec [texture_rec, texture_stmt],  -- 73
  rule texture_rec [texture_stmt],  -- 74
  rule texture_stmt [NAME, COLON, STRING],  -- 75
  rule texture_stmt [SCALE, COLON, vector2],  -- 76
  rule texture_stmt [SCALE, COLON, number],  -- 77
  rule texture_stmt [SHIFT, COLON, vector2],  -- 78
  rule texture_stmt [COMMA],  -- 79
  rule material_obj [NAME, COLON, STRING, material_rec],  -- 80
  rule material_obj [material_rec, NAME, COLON, STRING],  -- 81
  rule material_obj [material_rec, NAME, COLON, STRING, material_rec],  -- 82
  rule material_obj [NAME, COLON, STRING],  -- 83
  rule material_rec [material_rec, material_stmt],  -- 84
  rule material_rec [material_stmt],  -- 85
  rule material_stmt [TYPE, COLON, MATTE],  -- 86
  rule material_stmt [TYPE, COLON, GLOSSY],  -- 87
  rule material_stmt [TYPE, COLON, METAL],  -- 88
  rule material_stmt [TYPE, COLON, GLASS],  -- 89
  rule material_stmt [IOR, COLON, number],  -- 90
  rule material_stmt [IOR, COLON, vector2],  -- 91
  rule material_stmt [IOR, COLON, vector],  -- 92
  rule material_stmt [IOR, COLON, vector, vector],  -- 93
  rule material_stmt [ROUGHNESS, COLON, number],  -- 94
  rule material_stmt [ANISOTROPY, COLON, number],  -- 95
  rule material_stmt [DISTRIBUTION, COLON, BLINN],  -- 96
  rule material_stmt [DISTRIBUTION, COLON, BECKMANN],  -- 97
  rule material_stmt [DISTRIBUTION, COLON, GGX],  -- 98
  rule material_stmt [DIFFUSE, COLON, STRING],  -- 99
  rule material_stmt [DIFFUSE, COLON, vector],  -- 100
  rule material_stmt [SPECULAR, COLON, STRING],  -- 101
  rule material_stmt [SPECULAR, COLON, vector],  -- 102
  rule material_stmt [NORMAL, COLON, STRING],  -- 103
  rule material_stmt [ELEM, COLON, element],  -- 104
  rule material_stmt [COMMA],  -- 105
  rule dualmaterial_obj [NAME, COLON, STRING, dualmaterial_rec],  -- 106
  rule dualmaterial_obj [dualmaterial_rec, NAME, COLON, STRING],  -- 107
  rule dualmaterial_obj [dualmaterial_rec, NAME, COLON, STRING, dualmaterial_rec],  -- 108
  rule dualmaterial_obj [NAME, COLON, STRING],  -- 109
  rule dualmaterial_rec [dualmaterial_rec, dualmaterial_stmt],  -- 110
  rule dualmaterial_rec [dualmaterial_stmt],  -- 111
  rule dualmaterial_stmt [FIRST, COLON, STRING],  -- 112
  rule dualmaterial_stmt [SECOND, COLON, STRING],  -- 113
  rule dualmaterial_stmt [MASK, COLON, STRING],  -- 114
  rule dualmaterial_stmt [MASK, COLON, STRING, attributes],  -- 115
  rule dualmaterial_stmt [COMMA],  -- 116
  rule element [SILVER],  -- 117
  rule element [ALUMINIUM],  -- 118
  rule element [GOLD],  -- 119
  rule element [COPPER],  -- 120
  rule element [IRON],  -- 121
  rule element [MERCURY],  -- 122
  rule element [LEAD],  -- 123
  rule element [PLATINUM],  -- 124
  rule element [TUNGSTEN],  -- 125
  rule element [BERYLLIUM],  -- 126
  rule element [BISMUTH],  -- 127
  rule element [COBALT],  -- 128
  rule element [CHROMIUM],  -- 129
  rule element [GERMANIUM],  -- 130
  rule element [POTASSIUM],  -- 131
  rule element [LITHIUM],  -- 132
  rule element [MAGNESIUM],  -- 133
  rule element [MANGANESE],  -- 134
  rule element [MOLYBDENUM],  -- 135
  rule element [SODIUM],  -- 136
  rule element [NIOBIUM],  -- 137
  rule element [NICKEL],  -- 138
  rule element [PALLADIUM],  -- 139
  rule element [RHODIUM],  -- 140
  rule element [TANTALUM],  -- 141
  rule element [TITANIUM],  -- 142
  rule element [VANADIUM],  -- 143
  rule element [ZINC],  -- 144
  rule element [ZIRCONIUM],  -- 145
  rule attributes [attributes, attribute_],  -- 146
  rule attributes [attribute_],  -- 147
  rule attribute_ [channel],  -- 148
  rule attribute_ [INV],  -- 149
  rule channel [CHNR],  -- 150
  rule channel [CHNG],  -- 151
  rule channel [CHNB],  -- 152
  rule channel [CHNA],  -- 153
  rule vector [OPEN_SQ, number, COMMA, number, COMMA, number, CLOSE_SQ],  -- 154
  rule vector2 [OPEN_SQ, number, COMMA, number, CLOSE_SQ],  -- 155
  rule number [FLOAT],  -- 156
  rule number [integer],  -- 157
  rule integer [UINT],  -- 158
  rule integer [INT]]  -- 159

/-- Row offsets: `yypact_`, config_parser.tab.cc:1611-1643. -/
def yypact : List Int := [
  127, -260, 27, 34, 36, 40, 46, 48, 51, 79, 98, 118, 119, 122, 124, 226, -260, -45, 62, 125, 71, 29, 128, 133,
  37, 134, 140, 11, 144, 164, -260, -260, -260, -260, 59, -260, -260, -260, 16, 235, -260, 136, 136, 109, -260,
  14, 19, -260, 179, 184, 145, -260, -260, 196, 197, 198, 205, 112, -260, -260, 206, 207, 209, 210, 214, 231,
  -260, 215, 213, 52, 1, 219, -260, 218, 224, 227, 242, 243, 244, 246, 247, 248, 258, 222, 152, -260, -260,
  259, 260, 269, 307, 304, 17, -260, -260, 309, 310, 311, 312, 313, 58, -260, 100, 212, -260, -260, 239, 50,
  50, 35, -260, -260, 176, 314, 314, 314, 50, -260, -260, 216, -260, -260, 316, 318, 319, 321, 322, 52, -260,
  323, 324, -260, 1, -260, -260, 131, 221, 50, -1, -36, 201, 4, 50, 0, 223, -260, 326, -260, 225, 228, 229,
  230, -260, 328, -260, 232, 7, 329, 233, -260, 331, -260, -260, -260, -260, -260, -260, -260, -260, -260,
  -260, -260, -260, -260, -260, -260, -260, -260, -260, -260, -260, 50, -260, -260, -260, -260, -260, 314, 314,
  10, 234, 236, -260, 240, 314, -260, -260, -260, -260, -260, -260, 169, -260, -260, -260, -260, -260, -260,
  -260, -260, -260, -260, -260, -260, -260, -260, -260, -260, -260, -260, -260, -260, -260, -260, -260, -260,
  -260, -260, -260, -260, -260, -260, -260, -260, -260, -260, -260, -260, 50, 314, -260, -260, -260, -260,
  -260, -260, 241, 20, 238, -260, -260, 245, -260, 50, -260, -260, -260, 13, 249, 330, -260, -260, -260, -260,
  -260, 238, -260, -260, 169, 334, -260, 169, 20, -260, -260, -260, -260, -260, 238, -260, -260, 20, 337, 13,
  13, 50, 238, 50, 169, -260, 20, 50, 13, 338, 33, 342, 50, -260, 344, -260]

/-- Default reductions: `yydefact_`, config_parser.tab.cc:1646-1678. -/
def yydefact : List Nat := [
  0, 19, 0, 0, 0, 0, 0, 0, 0, 0, 0, 0, 0, 0, 0, 0, 3, 0, 0, 0, 0, 0, 0, 0, 0, 0, 0, 0, 0, 0, 1, 2, 4, 10, 0, 7,
  8, 9, 0, 0, 12, 0, 0, 0, 16, 0, 0, 24, 0, 0, 0, 21, 37, 0, 0, 0, 0, 0, 26, 47, 0, 0, 0, 0, 0, 0, 39, 0, 0,
  49, 62, 0, 105, 0, 0, 0, 0, 0, 0, 0, 0, 0, 0, 0, 0, 85, 116, 0, 0, 0, 0, 0, 0, 111, 79, 0, 0, 0, 0, 0, 0, 74,
  0, 0, 5, 20, 0, 0, 0, 0, 6, 25, 0, 0, 0, 0, 0, 11, 38, 0, 13, 60, 0, 0, 0, 0, 0, 48, 51, 0, 0, 66, 61, 65,
  14, 0, 0, 0, 0, 0, 0, 0, 0, 0, 0, 17, 0, 84, 0, 0, 0, 0, 18, 0, 110, 0, 0, 0, 0, 15, 0, 73, 22, 23, 27, 28,
  29, 30, 31, 158, 159, 156, 32, 157, 33, 34, 35, 36, 40, 41, 42, 0, 43, 44, 45, 46, 52, 0, 0, 0, 0, 0, 50, 0,
  0, 63, 64, 89, 87, 86, 88, 83, 95, 99, 100, 97, 96, 98, 117, 118, 119, 120, 121, 122, 123, 124, 125, 126,
  127, 128, 129, 130, 131, 132, 133, 134, 135, 136, 137, 138, 139, 140, 141, 142, 143, 144, 145, 104, 0, 92,
  91, 90, 94, 101, 102, 103, 0, 109, 114, 112, 113, 0, 75, 0, 76, 77, 78, 69, 0, 0, 53, 54, 55, 56, 57, 58, 67,
  68, 80, 0, 93, 81, 106, 150, 151, 152, 153, 149, 115, 147, 148, 107, 0, 70, 71, 0, 59, 0, 82, 146, 108, 0,
  72, 0, 0, 0, 0, 155, 0, 154]

/-- `yypgoto_`, config_parser.tab.cc:1681-1687. -/
def yypgoto : List Int := [
  -260, -260, 303, -260, 301, -260, 295, -260, 289, -260, -260, 317, -50, -260, -260, 237, -260, -243, -98,
  -260, -193, -84, -260, -234, -91, -260, 90, -259, -260, -108, -51, -105, -260]

/-- `yydefgoto_`, config_parser.tab.cc:1690-1696. -/
def yydefgoto : List Int := [
  -1, 15, 16, 50, 51, 57, 58, 65, 66, 68, 127, 69, 128, 71, 132, 133, 99, 100, 101, 83, 84, 85, 91, 92, 93,
  237, 278, 279, 280, 182, 240, 172, 173]

/-- `yytable_`, config_parser.tab.cc:1699-1738. -/
def yytable : List Nat := [
  147, 154, 161, 174, 181, 181, 183, 184, 268, 238, 121, 185, 253, 272, 283, 181, 205, 206, 43, 289, 131, 207,
  94, 86, 122, 52, 86, 289, 94, 86, 204, 17, 202, 239, 53, 244, 241, 242, 18, 297, 19, 292, 296, 129, 20, 123,
  124, 290, 130, 125, 21, 255, 22, 54, 55, 23, 95, 87, 96, 97, 153, 121, 95, 32, 96, 97, 56, 94, 47, 175, 176,
  177, 48, 49, 126, 122, 259, 192, 288, 260, 261, 262, 195, 24, 263, 98, 267, 88, 89, 90, 88, 89, 90, 88, 89,
  90, 123, 124, 35, 36, 125, 95, 25, 96, 97, 254, 256, 203, 243, 169, 170, 171, 169, 170, 171, 169, 170, 171,
  72, 44, 110, 52, 26, 27, 160, 126, 28, 73, 29, 33, 53, 270, 34, 269, 37, 38, 1, 2, 3, 4, 39, 41, 5, 6, 7, 40,
  8, 42, 282, 54, 55, 45, 74, 104, 47, 169, 170, 171, 48, 49, 75, 72, 56, 76, 77, 78, 9, 10, 11, 79, 73, 46,
  80, 81, 82, 12, 13, 14, 72, 67, 293, 154, 294, 102, 147, 161, 295, 73, 103, 197, 198, 298, 199, 200, 161,
  146, 178, 179, 180, 154, 106, 107, 108, 75, 147, 162, 76, 77, 78, 109, 112, 113, 79, 114, 115, 80, 81, 82,
  116, 119, 75, 120, 135, 76, 77, 78, 30, 134, 136, 79, 145, 137, 80, 81, 82, 1, 2, 3, 4, 117, 59, 5, 6, 7, 59,
  8, 138, 139, 140, 60, 141, 142, 143, 60, 61, 62, 63, 64, 61, 62, 63, 64, 144, 148, 149, 9, 10, 11, 164, 165,
  166, 167, 168, 150, 12, 13, 14, 208, 209, 210, 211, 212, 213, 214, 215, 216, 217, 218, 219, 220, 221, 222,
  223, 224, 225, 226, 227, 228, 229, 230, 231, 232, 233, 234, 235, 236, 273, 274, 275, 276, 277, 151, 152, 155,
  156, 157, 158, 163, 31, 181, 187, 159, 188, 189, 186, 190, 191, 193, 194, 201, 246, 245, 251, 247, 253, 258,
  248, 249, 250, 285, 252, 257, 264, 287, 265, 266, 291, 296, 297, 271, 299, 105, 111, 281, 118, 286, 0, 284,
  0, 70, 0, 0, 0, 0, 0, 0, 0, 0, 0, 196]

/-- `yycheck_`, config_parser.tab.cc:1741-1780. -/
def yycheck : List Int := [
  84, 92, 100, 108, 5, 5, 114, 115, 201, 5, 9, 116, 5, 247, 257, 5, 52, 53, 7, 278, 70, 57, 9, 9, 23, 9, 9,
  286, 9, 9, 138, 4, 137, 141, 18, 143, 141, 142, 4, 6, 4, 284, 9, 42, 4, 44, 45, 281, 47, 48, 4, 156, 4, 37,
  38, 4, 43, 43, 45, 46, 43, 9, 43, 108, 45, 46, 50, 9, 9, 34, 35, 36, 13, 14, 73, 23, 181, 127, 271, 187, 188,
  189, 132, 4, 189, 66, 194, 73, 74, 75, 73, 74, 75, 73, 74, 75, 44, 45, 27, 28, 48, 43, 4, 45, 46, 156, 157,
  108, 108, 105, 106, 107, 105, 106, 107, 105, 106, 107, 9, 108, 8, 9, 4, 4, 66, 73, 4, 18, 4, 67, 18, 239, 7,
  238, 105, 7, 9, 10, 11, 12, 7, 7, 15, 16, 17, 108, 19, 7, 253, 37, 38, 7, 43, 8, 9, 105, 106, 107, 13, 14,
  51, 9, 50, 54, 55, 56, 39, 40, 41, 60, 18, 7, 63, 64, 65, 48, 49, 50, 9, 43, 285, 272, 287, 4, 268, 283, 291,
  18, 4, 58, 59, 296, 61, 62, 292, 43, 20, 21, 22, 290, 4, 4, 4, 51, 288, 105, 54, 55, 56, 4, 4, 4, 60, 4, 4,
  63, 64, 65, 4, 4, 51, 8, 4, 54, 55, 56, 0, 8, 4, 60, 8, 4, 63, 64, 65, 9, 10, 11, 12, 8, 9, 15, 16, 17, 9,
  19, 4, 4, 4, 18, 4, 4, 4, 18, 23, 24, 25, 26, 23, 24, 25, 26, 4, 4, 4, 39, 40, 41, 29, 30, 31, 32, 33, 4, 48,
  49, 50, 76, 77, 78, 79, 80, 81, 82, 83, 84, 85, 86, 87, 88, 89, 90, 91, 92, 93, 94, 95, 96, 97, 98, 99, 100,
  101, 102, 103, 104, 68, 69, 70, 71, 72, 4, 8, 4, 4, 4, 4, 105, 15, 5, 4, 8, 4, 4, 108, 4, 4, 4, 4, 108, 4,
  108, 4, 108, 5, 4, 108, 108, 108, 9, 108, 108, 108, 9, 108, 105, 9, 9, 6, 108, 6, 50, 57, 108, 65, 265, -1,
  108, -1, 42, -1, -1, -1, -1, -1, -1, -1, -1, -1, 132]

/-- Left-hand sides of the rules: `yyr1_`, config_parser.tab.cc:1818-1836. -/
def yyr1 : List Nat := [
  0, 109, 110, 110, 111, 111, 111, 111, 111, 111, 111, 111, 111, 111, 111, 111, 111, 111, 111, 111, 112, 112,
  113, 113, 113, 114, 114, 115, 115, 115, 115, 115, 115, 115, 115, 115, 115, 115, 116, 116, 117, 117, 117, 117,
  117, 117, 117, 117, 118, 118, 119, 119, 120, 121, 121, 121, 121, 121, 121, 121, 121, 122, 122, 123, 123, 123,
  123, 124, 124, 125, 125, 125, 125, 126, 126, 127, 127, 127, 127, 127, 128, 128, 128, 128, 129, 129, 130, 130,
  130, 130, 130, 130, 130, 130, 130, 130, 130, 130, 130, 130, 130, 130, 130, 130, 130, 130, 131, 131, 131, 131,
  132, 132, 133, 133, 133, 133, 133, 134, 134, 134, 134, 134, 134, 134, 134, 134, 134, 134, 134, 134, 134, 134,
  134, 134, 134, 134, 134, 134, 134, 134, 134, 134, 134, 134, 134, 134, 135, 135, 136, 136, 137, 137, 137, 137,
  138, 139, 140, 140, 141, 141]

/-- Lengths of the right-hand sides: `yyr2_`, config_parser.tab.cc:1839-1857. -/
def yyr2 : List Nat := [
  0, 2, 2, 1, 3, 5, 5, 3, 3, 3, 3, 5, 3, 5, 5, 5, 3, 5, 5, 1, 2, 1, 3, 3, 1, 2, 1, 3, 3, 3, 3, 3, 3, 3, 3, 3,
  3, 1, 2, 1, 3, 3, 3, 3, 3, 3, 3, 1, 2, 1, 2, 1, 3, 3, 3, 3, 3, 3, 3, 4, 1, 2, 1, 2, 2, 1, 1, 3, 3, 3, 4, 4,
  5, 2, 1, 3, 3, 3, 3, 1, 4, 4, 5, 3, 2, 1, 3, 3, 3, 3, 3, 3, 3, 4, 3, 3, 3, 3, 3, 3, 3, 3, 3, 3, 3, 1, 4, 4,
  5, 3, 2, 1, 3, 3, 3, 4, 1, 1, 1, 1, 1, 1, 1, 1, 1, 1, 1, 1, 1, 1, 1, 1, 1, 1, 1, 1, 1, 1, 1, 1, 1, 1, 1, 1,
  1, 1, 2, 1, 1, 1, 1, 1, 1, 1, 7, 5, 1, 1, 1, 1]

/-- What the machine does next: shift and go to a state, reduce by a rule, report a syntax error; `ub` stands for a
table read outside its bounds. -/
inductive Act where
  | shift (s : Nat)
  | reduce (n : Nat)
  | error
  | ub
  deriving DecidableEq, Repr

/-- `yydefault`, config_parser.tab.cc:554-558. -/
def defaultAct (s : Nat) : Act :=
  match yydefact[s]? with
  | none => .ub
  | some 0 => .error
  | some n => .reduce n

/-- `yybackup`, config_parser.tab.cc:503-549: the decision in state `s` on the terminal number `a`.  `yytable_` is
unsigned (config_parser.tab.hh:1081), so that the test for `yytable_ninf_` (-1, line 1608) never succeeds and a zero
entry would be a reduction by rule 0.  `-260` is `yypact_ninf_` (line 1606), `369` is `yylast_`
(config_parser.tab.hh:1203).  Simplified: when `yypact_` holds the default value the C++ does not read the token, here
it is merely not used. -/
def action (s a : Nat) : Act :=
  match yypact[s]? with
  | none => .ub
  | some p =>
    if p = -260 then defaultAct s
    else if p + a < 0 ∨ 369 < p + a then defaultAct s
    else
      match yycheck[(p + a).toNat]? with
      | none => .ub
      | some c =>
        if c ≠ a then defaultAct s
        else
          match yytable[(p + a).toNat]? with
          | none => .ub
          | some 0 => .reduce 0
          | some v => .shift v

/-- `yy_lr_goto_state_`, config_parser.tab.cc:427-435: the state after reducing to nonterminal number `A` on top of
state `s`.  `none` is a read outside the tables, or a negative state. -/
def gotoState (s A : Nat) : Option Nat := do
  let g ← yypgoto[A - 109]?
  let d ← yydefgoto[A - 109]?
  if 0 ≤ g + s ∧ g + s ≤ 369 then
    let c ← yycheck[(g + s).toNat]?
    if c = s then yytable[(g + s).toNat]?
    else if 0 ≤ d then some d.toNat else none
  else if 0 ≤ d then some d.toNat else none

section Engine

variable {V D : Type}

/-- The machine: the states and values above the initial one, last first; the tokens not yet shifted; the driver. -/
structure Config (V D : Type) where
  stack : List (Nat × V)
  inp : List (Tok × V)
  drv : D

/-- How a run can end: accepted with the final driver; a syntax error, with the driver at that moment; undefined
behaviour (a read outside the tables or the stack, or an action without a defined result). -/
inductive Out (D : Type) where
  | accept (d : D)
  | reject (d : D)
  | ub
  deriving DecidableEq, Repr

/-- The state on top of the stack (`yystack_[0].state`); the initial state is 0, config_parser.tab.cc:490. -/
def topState : List (Nat × V) → Nat
  | [] => 0
  | (s, _) :: _ => s

/-- One round of the loop from `yynewstate`, config_parser.tab.cc:493-558, and `yyreduce`, 563-568 and 1362-1369.
`sem n vs d` is the action of rule `n` with the values `$1 … $k` in `vs`; `none` if it has no defined result.
`yyfinal_` is 30, config_parser.tab.hh:1205. -/
def step (sem : Nat → List V → D → Option (V × D)) (c : Config V D) : Config V D ⊕ Out D :=
  if topState c.stack = 30 then .inr (.accept c.drv)
  else
    match c.inp with
    | [] => .inr .ub
    | t :: rest =>
      match action (topState c.stack) t.1.num with
      | .ub => .inr .ub
      | .error => .inr (.reject c.drv)
      | .shift s => .inl ⟨(s, t.2) :: c.stack, rest, c.drv⟩
      | .reduce n =>
        match yyr1[n]?, yyr2[n]? with
        | some A, some k =>
          if k ≤ c.stack.length then
            match sem n ((c.stack.take k).map Prod.snd).reverse c.drv with
            | none => .inr .ub
            | some (v, d) =>
              match gotoState (topState (c.stack.drop k)) A with
              | none => .inr .ub
              | some s => .inl ⟨(s, v) :: c.stack.drop k, c.inp, d⟩
          else .inr .ub
        | _, _ => .inr .ub

/-- `ConfigParser::parse`, config_parser.tab.cc:449-1480, cut off after `fuel` rounds (`none`). -/
def run (sem : Nat → List V → D → Option (V × D)) : Nat → Config V D → Option (Out D)
  | 0, _ => none
  | fuel + 1, c =>
    match step sem c with
    | .inr o => some o
    | .inl c' => run sem fuel c'

/-- The start: an empty stack, the tokens of the file followed by the end of the file.  `e` is the (unused) value of
the end token. -/
def initial (e : V) (w : List (Tok × V)) (d : D) : Config V D := ⟨[], w ++ [(.END, e)], d⟩

end Engine

end Spectre.Scene
