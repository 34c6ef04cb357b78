import Verif.Model.SceneGrammar

/-!
# Certificate for the parser tables

For every state of Bison's machine the list of its items: rule number, position of the dot, and the set of terminals
that may follow, as a bit mask.  The data come from a separate computation; what matters is that `checkState` accepts
every state, which the kernel evaluates below.  `Verif/Props/SceneGrammar.lean` proves what the check implies.
-/

namespace Spectre.Scene

/-- The grammar with numbers for symbols; entry 0 is a dummy, so that the index is Bison's rule number. -/
def rulesN : List (Nat × List Nat) := [
  (0, []),
  (109, [110, 0]), (110, [110, 111]), (110, [111]), (111, [10, 4, 108]), (111, [12, 4, 7, 112, 8]),
  (111, [17, 4, 7, 114, 8]), (111, [15, 4, 27]), (111, [15, 4, 28]), (111, [16, 4, 105]), (111, [11, 4, 67]),
  (111, [19, 4, 7, 116, 8]), (111, [39, 4, 108]), (111, [40, 4, 7, 118, 8]), (111, [41, 4, 7, 122, 8]),
  (111, [50, 4, 7, 125, 8]), (111, [48, 4, 108]), (111, [48, 4, 7, 128, 8]), (111, [49, 4, 7, 131, 8]),
  (111, [9]), (112, [112, 113]), (112, [113]), (113, [13, 4, 105]), (113, [14, 4, 105]), (113, [9]),
  (114, [114, 115]), (114, [115]), (115, [18, 4, 29]), (115, [18, 4, 30]), (115, [18, 4, 31]),
  (115, [18, 4, 32]), (115, [18, 4, 33]), (115, [37, 4, 140]), (115, [38, 4, 140]), (115, [50, 4, 34]),
  (115, [50, 4, 35]), (115, [50, 4, 36]), (115, [9]), (116, [116, 117]), (116, [117]), (117, [18, 4, 20]),
  (117, [18, 4, 21]), (117, [18, 4, 22]), (117, [23, 4, 138]), (117, [24, 4, 138]), (117, [25, 4, 138]),
  (117, [26, 4, 140]), (117, [9]), (118, [120, 119]), (118, [120]), (119, [119, 121]), (119, [121]),
  (120, [43, 4, 108]), (121, [23, 4, 138]), (121, [44, 4, 138]), (121, [45, 4, 138]), (121, [45, 4, 140]),
  (121, [48, 4, 108]), (121, [73, 4, 108]), (121, [73, 4, 108, 135]), (121, [9]), (122, [120, 123]),
  (122, [120]), (123, [123, 121]), (123, [123, 124]), (123, [124]), (123, [121]), (124, [42, 4, 105]),
  (124, [47, 4, 138]), (125, [66, 4, 108]), (125, [66, 4, 108, 126]), (125, [126, 66, 4, 108]),
  (125, [126, 66, 4, 108, 126]), (126, [126, 127]), (126, [127]), (127, [43, 4, 108]), (127, [45, 4, 139]),
  (127, [45, 4, 140]), (127, [46, 4, 139]), (127, [9]), (128, [43, 4, 108, 129]), (128, [129, 43, 4, 108]),
  (128, [129, 43, 4, 108, 129]), (128, [43, 4, 108]), (129, [129, 130]), (129, [130]), (130, [18, 4, 61]),
  (130, [18, 4, 59]), (130, [18, 4, 62]), (130, [18, 4, 58]), (130, [60, 4, 140]), (130, [60, 4, 139]),
  (130, [60, 4, 138]), (130, [60, 4, 138, 138]), (130, [63, 4, 140]), (130, [51, 4, 140]), (130, [55, 4, 53]),
  (130, [55, 4, 52]), (130, [55, 4, 57]), (130, [54, 4, 108]), (130, [54, 4, 138]), (130, [64, 4, 108]),
  (130, [64, 4, 138]), (130, [65, 4, 108]), (130, [56, 4, 134]), (130, [9]), (131, [43, 4, 108, 132]),
  (131, [132, 43, 4, 108]), (131, [132, 43, 4, 108, 132]), (131, [43, 4, 108]), (132, [132, 133]),
  (132, [133]), (133, [74, 4, 108]), (133, [75, 4, 108]), (133, [73, 4, 108]), (133, [73, 4, 108, 135]),
  (133, [9]), (134, [76]), (134, [77]), (134, [78]), (134, [79]), (134, [80]), (134, [81]), (134, [82]),
  (134, [83]), (134, [84]), (134, [85]), (134, [86]), (134, [87]), (134, [88]), (134, [89]), (134, [90]),
  (134, [91]), (134, [92]), (134, [93]), (134, [94]), (134, [95]), (134, [96]), (134, [97]), (134, [98]),
  (134, [99]), (134, [100]), (134, [101]), (134, [102]), (134, [103]), (134, [104]), (135, [135, 136]),
  (135, [136]), (136, [137]), (136, [72]), (137, [68]), (137, [69]), (137, [70]), (137, [71]),
  (138, [5, 140, 9, 140, 9, 140, 6]), (139, [5, 140, 9, 140, 6]), (140, [107]), (140, [141]), (141, [105]),
  (141, [106])]

/-- Terminals a string derived from nonterminal 109 + i may begin with (bit masks). -/
def firstN : List Nat := [
  1974173128433152, 1974173128433152, 1974173128433152, 25088, 25088, 1126312223965696, 1126312223965696,
  126091776, 126091776, 8796093022208, 9444733299990833660416, 8796093022208, 9444733299990833660416,
  8796093022208, 9444733445126368526848, 145135534866432, 73787090644047495680, 114349209289216,
  114349209289216, 65844887148063621632, 65844878351970599424, 65844878351970599424, 66113130768971126014464,
  66113130760175032992256, 66113130760175032992256, 40564819131745477121980179152896, 9149585060559937601536,
  9149585060559937601536, 4427218577690292387840, 32, 32, 283953734451123385935261518004224,
  121694457621910022543683507716096]

/-- A weight for nonterminal 109 + i, such that every reduction lowers the weight of the stack. -/
def weightN : List Nat := [
  7, 6, 7, 6, 7, 6, 7, 6, 7, 6, 6, 7, 7, 6, 6, 7, 7, 6, 7, 7, 6, 7, 7, 6, 7, 7, 5, 6, 7, 7, 7, 6, 7]

/-- The items (rule, dot, lookahead mask) of every state. -/
def itemsN : List (List (Nat × Nat × Nat)) := [
  [(1, 0, 1), (2, 0, 1974173128433153), (3, 0, 1974173128433153), (4, 0, 1974173128433153), (5, 0, 1974173128433153), (6, 0, 1974173128433153), (7, 0, 1974173128433153), (8, 0, 1974173128433153), (9, 0, 1974173128433153), (10, 0, 1974173128433153), (11, 0, 1974173128433153), (12, 0, 1974173128433153), (13, 0, 1974173128433153), (14, 0, 1974173128433153), (15, 0, 1974173128433153), (16, 0, 1974173128433153), (17, 0, 1974173128433153), (18, 0, 1974173128433153), (19, 0, 1974173128433153)],
  [(19, 1, 1974173128433153)],
  [(4, 1, 1974173128433153)],
  [(10, 1, 1974173128433153)],
  [(5, 1, 1974173128433153)],
  [(7, 1, 1974173128433153), (8, 1, 1974173128433153)],
  [(9, 1, 1974173128433153)],
  [(6, 1, 1974173128433153)],
  [(11, 1, 1974173128433153)],
  [(12, 1, 1974173128433153)],
  [(13, 1, 1974173128433153)],
  [(14, 1, 1974173128433153)],
  [(16, 1, 1974173128433153), (17, 1, 1974173128433153)],
  [(18, 1, 1974173128433153)],
  [(15, 1, 1974173128433153)],
  [(1, 1, 1), (2, 1, 1974173128433153), (4, 0, 1974173128433153), (5, 0, 1974173128433153), (6, 0, 1974173128433153), (7, 0, 1974173128433153), (8, 0, 1974173128433153), (9, 0, 1974173128433153), (10, 0, 1974173128433153), (11, 0, 1974173128433153), (12, 0, 1974173128433153), (13, 0, 1974173128433153), (14, 0, 1974173128433153), (15, 0, 1974173128433153), (16, 0, 1974173128433153), (17, 0, 1974173128433153), (18, 0, 1974173128433153), (19, 0, 1974173128433153)],
  [(3, 1, 1974173128433153)],
  [(4, 2, 1974173128433153)],
  [(10, 2, 1974173128433153)],
  [(5, 2, 1974173128433153)],
  [(7, 2, 1974173128433153), (8, 2, 1974173128433153)],
  [(9, 2, 1974173128433153)],
  [(6, 2, 1974173128433153)],
  [(11, 2, 1974173128433153)],
  [(12, 2, 1974173128433153)],
  [(13, 2, 1974173128433153)],
  [(14, 2, 1974173128433153)],
  [(16, 2, 1974173128433153), (17, 2, 1974173128433153)],
  [(18, 2, 1974173128433153)],
  [(15, 2, 1974173128433153)],
  [(1, 2, 1)],
  [(2, 2, 1974173128433153)],
  [(4, 3, 1974173128433153)],
  [(10, 3, 1974173128433153)],
  [(5, 3, 1974173128433153), (20, 0, 25344), (21, 0, 25344), (22, 0, 25344), (23, 0, 25344), (24, 0, 25344)],
  [(7, 3, 1974173128433153)],
  [(8, 3, 1974173128433153)],
  [(9, 3, 1974173128433153)],
  [(6, 3, 1974173128433153), (25, 0, 1126312223965952), (26, 0, 1126312223965952), (27, 0, 1126312223965952), (28, 0, 1126312223965952), (29, 0, 1126312223965952), (30, 0, 1126312223965952), (31, 0, 1126312223965952), (32, 0, 1126312223965952), (33, 0, 1126312223965952), (34, 0, 1126312223965952), (35, 0, 1126312223965952), (36, 0, 1126312223965952), (37, 0, 1126312223965952)],
  [(11, 3, 1974173128433153), (38, 0, 126092032), (39, 0, 126092032), (40, 0, 126092032), (41, 0, 126092032), (42, 0, 126092032), (43, 0, 126092032), (44, 0, 126092032), (45, 0, 126092032), (46, 0, 126092032), (47, 0, 126092032)],
  [(12, 3, 1974173128433153)],
  [(13, 3, 1974173128433153), (48, 0, 256), (49, 0, 256), (52, 0, 9444733299990833660672)],
  [(14, 3, 1974173128433153), (52, 0, 9444733445126368527104), (61, 0, 256), (62, 0, 256)],
  [(17, 3, 1974173128433153), (80, 0, 256), (81, 0, 256), (82, 0, 256), (83, 0, 256), (84, 0, 65844887148063621632), (85, 0, 65844887148063621632), (86, 0, 65844887148063621632), (87, 0, 65844887148063621632), (88, 0, 65844887148063621632), (89, 0, 65844887148063621632), (90, 0, 65844887148063621632), (91, 0, 65844887148063621632), (92, 0, 65844887148063621632), (93, 0, 65844887148063621632), (94, 0, 65844887148063621632), (95, 0, 65844887148063621632), (96, 0, 65844887148063621632), (97, 0, 65844887148063621632), (98, 0, 65844887148063621632), (99, 0, 65844887148063621632), (100, 0, 65844887148063621632), (101, 0, 65844887148063621632), (102, 0, 65844887148063621632), (103, 0, 65844887148063621632), (104, 0, 65844887148063621632), (105, 0, 65844887148063621632)],
  [(16, 3, 1974173128433153)],
  [(18, 3, 1974173128433153), (106, 0, 256), (107, 0, 256), (108, 0, 256), (109, 0, 256), (110, 0, 66113130768971126014464), (111, 0, 66113130768971126014464), (112, 0, 66113130768971126014464), (113, 0, 66113130768971126014464), (114, 0, 66113130768971126014464), (115, 0, 66113130768971126014464), (116, 0, 66113130768971126014464)],
  [(15, 3, 1974173128433153), (69, 0, 256), (70, 0, 256), (71, 0, 256), (72, 0, 256), (73, 0, 73787090644047495680), (74, 0, 73787090644047495680), (75, 0, 73787090644047495680), (76, 0, 73787090644047495680), (77, 0, 73787090644047495680), (78, 0, 73787090644047495680), (79, 0, 73787090644047495680)],
  [(24, 1, 25344)],
  [(22, 1, 25344)],
  [(23, 1, 25344)],
  [(5, 4, 1974173128433153), (20, 1, 25344), (22, 0, 25344), (23, 0, 25344), (24, 0, 25344)],
  [(21, 1, 25344)],
  [(37, 1, 1126312223965952)],
  [(27, 1, 1126312223965952), (28, 1, 1126312223965952), (29, 1, 1126312223965952), (30, 1, 1126312223965952), (31, 1, 1126312223965952)],
  [(32, 1, 1126312223965952)],
  [(33, 1, 1126312223965952)],
  [(34, 1, 1126312223965952), (35, 1, 1126312223965952), (36, 1, 1126312223965952)],
  [(6, 4, 1974173128433153), (25, 1, 1126312223965952), (27, 0, 1126312223965952), (28, 0, 1126312223965952), (29, 0, 1126312223965952), (30, 0, 1126312223965952), (31, 0, 1126312223965952), (32, 0, 1126312223965952), (33, 0, 1126312223965952), (34, 0, 1126312223965952), (35, 0, 1126312223965952), (36, 0, 1126312223965952), (37, 0, 1126312223965952)],
  [(26, 1, 1126312223965952)],
  [(47, 1, 126092032)],
  [(40, 1, 126092032), (41, 1, 126092032), (42, 1, 126092032)],
  [(43, 1, 126092032)],
  [(44, 1, 126092032)],
  [(45, 1, 126092032)],
  [(46, 1, 126092032)],
  [(11, 4, 1974173128433153), (38, 1, 126092032), (40, 0, 126092032), (41, 0, 126092032), (42, 0, 126092032), (43, 0, 126092032), (44, 0, 126092032), (45, 0, 126092032), (46, 0, 126092032), (47, 0, 126092032)],
  [(39, 1, 126092032)],
  [(52, 1, 9444733445126368527104)],
  [(13, 4, 1974173128433153)],
  [(48, 1, 256), (49, 1, 256), (50, 0, 9444733299990833660672), (51, 0, 9444733299990833660672), (53, 0, 9444733299990833660672), (54, 0, 9444733299990833660672), (55, 0, 9444733299990833660672), (56, 0, 9444733299990833660672), (57, 0, 9444733299990833660672), (58, 0, 9444733299990833660672), (59, 0, 9444733299990833660672), (60, 0, 9444733299990833660672)],
  [(53, 0, 9444733445126368527104), (54, 0, 9444733445126368527104), (55, 0, 9444733445126368527104), (56, 0, 9444733445126368527104), (57, 0, 9444733445126368527104), (58, 0, 9444733445126368527104), (59, 0, 9444733445126368527104), (60, 0, 9444733445126368527104), (61, 1, 256), (62, 1, 256), (63, 0, 9444733445126368527104), (64, 0, 9444733445126368527104), (65, 0, 9444733445126368527104), (66, 0, 9444733445126368527104), (67, 0, 9444733445126368527104), (68, 0, 9444733445126368527104)],
  [(14, 4, 1974173128433153)],
  [(105, 1, 65844887148063621888)],
  [(86, 1, 65844887148063621888), (87, 1, 65844887148063621888), (88, 1, 65844887148063621888), (89, 1, 65844887148063621888)],
  [(80, 1, 256), (83, 1, 256)],
  [(95, 1, 65844887148063621888)],
  [(99, 1, 65844887148063621888), (100, 1, 65844887148063621888)],
  [(96, 1, 65844887148063621888), (97, 1, 65844887148063621888), (98, 1, 65844887148063621888)],
  [(104, 1, 65844887148063621888)],
  [(90, 1, 65844887148063621888), (91, 1, 65844887148063621888), (92, 1, 65844887148063621888), (93, 1, 65844887148063621888)],
  [(94, 1, 65844887148063621888)],
  [(101, 1, 65844887148063621888), (102, 1, 65844887148063621888)],
  [(103, 1, 65844887148063621888)],
  [(17, 4, 1974173128433153)],
  [(81, 1, 256), (82, 1, 256), (84, 1, 65844887148063621632), (86, 0, 65844887148063621632), (87, 0, 65844887148063621632), (88, 0, 65844887148063621632), (89, 0, 65844887148063621632), (90, 0, 65844887148063621632), (91, 0, 65844887148063621632), (92, 0, 65844887148063621632), (93, 0, 65844887148063621632), (94, 0, 65844887148063621632), (95, 0, 65844887148063621632), (96, 0, 65844887148063621632), (97, 0, 65844887148063621632), (98, 0, 65844887148063621632), (99, 0, 65844887148063621632), (100, 0, 65844887148063621632), (101, 0, 65844887148063621632), (102, 0, 65844887148063621632), (103, 0, 65844887148063621632), (104, 0, 65844887148063621632), (105, 0, 65844887148063621632)],
  [(85, 1, 65844887148063621888)],
  [(116, 1, 66113130768971126014720)],
  [(106, 1, 256), (109, 1, 256)],
  [(114, 1, 66113130768971126014720), (115, 1, 66113130768971126014720)],
  [(112, 1, 66113130768971126014720)],
  [(113, 1, 66113130768971126014720)],
  [(18, 4, 1974173128433153)],
  [(107, 1, 256), (108, 1, 256), (110, 1, 66113130768971126014464), (112, 0, 66113130768971126014464), (113, 0, 66113130768971126014464), (114, 0, 66113130768971126014464), (115, 0, 66113130768971126014464), (116, 0, 66113130768971126014464)],
  [(111, 1, 66113130768971126014720)],
  [(79, 1, 73787090644047495936)],
  [(75, 1, 73787090644047495936)],
  [(76, 1, 73787090644047495936), (77, 1, 73787090644047495936)],
  [(78, 1, 73787090644047495936)],
  [(69, 1, 256), (70, 1, 256)],
  [(15, 4, 1974173128433153)],
  [(71, 1, 256), (72, 1, 256), (73, 1, 73787090644047495680), (75, 0, 73787090644047495680), (76, 0, 73787090644047495680), (77, 0, 73787090644047495680), (78, 0, 73787090644047495680), (79, 0, 73787090644047495680)],
  [(74, 1, 73787090644047495936)],
  [(22, 2, 25344)],
  [(23, 2, 25344)],
  [(5, 5, 1974173128433153)],
  [(20, 2, 25344)],
  [(27, 2, 1126312223965952), (28, 2, 1126312223965952), (29, 2, 1126312223965952), (30, 2, 1126312223965952), (31, 2, 1126312223965952)],
  [(32, 2, 1126312223965952), (156, 0, 1126312223965952), (157, 0, 1126312223965952), (158, 0, 1126312223965952), (159, 0, 1126312223965952)],
  [(33, 2, 1126312223965952), (156, 0, 1126312223965952), (157, 0, 1126312223965952), (158, 0, 1126312223965952), (159, 0, 1126312223965952)],
  [(34, 2, 1126312223965952), (35, 2, 1126312223965952), (36, 2, 1126312223965952)],
  [(6, 5, 1974173128433153)],
  [(25, 2, 1126312223965952)],
  [(40, 2, 126092032), (41, 2, 126092032), (42, 2, 126092032)],
  [(43, 2, 126092032), (154, 0, 126092032)],
  [(44, 2, 126092032), (154, 0, 126092032)],
  [(45, 2, 126092032), (154, 0, 126092032)],
  [(46, 2, 126092032), (156, 0, 126092032), (157, 0, 126092032), (158, 0, 126092032), (159, 0, 126092032)],
  [(11, 5, 1974173128433153)],
  [(38, 2, 126092032)],
  [(52, 2, 9444733445126368527104)],
  [(13, 5, 1974173128433153)],
  [(60, 1, 9444733445126368527104)],
  [(53, 1, 9444733445126368527104)],
  [(54, 1, 9444733445126368527104)],
  [(55, 1, 9444733445126368527104), (56, 1, 9444733445126368527104)],
  [(57, 1, 9444733445126368527104)],
  [(58, 1, 9444733445126368527104), (59, 1, 9444733445126368527104)],
  [(48, 2, 256), (50, 1, 9444733299990833660672), (53, 0, 9444733299990833660672), (54, 0, 9444733299990833660672), (55, 0, 9444733299990833660672), (56, 0, 9444733299990833660672), (57, 0, 9444733299990833660672), (58, 0, 9444733299990833660672), (59, 0, 9444733299990833660672), (60, 0, 9444733299990833660672)],
  [(51, 1, 9444733299990833660672)],
  [(67, 1, 9444733445126368527104)],
  [(68, 1, 9444733445126368527104)],
  [(66, 1, 9444733445126368527104)],
  [(53, 0, 9444733445126368527104), (54, 0, 9444733445126368527104), (55, 0, 9444733445126368527104), (56, 0, 9444733445126368527104), (57, 0, 9444733445126368527104), (58, 0, 9444733445126368527104), (59, 0, 9444733445126368527104), (60, 0, 9444733445126368527104), (61, 2, 256), (63, 1, 9444733445126368527104), (64, 1, 9444733445126368527104), (67, 0, 9444733445126368527104), (68, 0, 9444733445126368527104)],
  [(65, 1, 9444733445126368527104)],
  [(14, 5, 1974173128433153)],
  [(86, 2, 65844887148063621888), (87, 2, 65844887148063621888), (88, 2, 65844887148063621888), (89, 2, 65844887148063621888)],
  [(80, 2, 256), (83, 2, 256)],
  [(95, 2, 65844887148063621888), (156, 0, 65844887148063621888), (157, 0, 65844887148063621888), (158, 0, 65844887148063621888), (159, 0, 65844887148063621888)],
  [(99, 2, 65844887148063621888), (100, 2, 65844887148063621888), (154, 0, 65844887148063621888)],
  [(96, 2, 65844887148063621888), (97, 2, 65844887148063621888), (98, 2, 65844887148063621888)],
  [(104, 2, 65844887148063621888), (117, 0, 65844887148063621888), (118, 0, 65844887148063621888), (119, 0, 65844887148063621888), (120, 0, 65844887148063621888), (121, 0, 65844887148063621888), (122, 0, 65844887148063621888), (123, 0, 65844887148063621888), (124, 0, 65844887148063621888), (125, 0, 65844887148063621888), (126, 0, 65844887148063621888), (127, 0, 65844887148063621888), (128, 0, 65844887148063621888), (129, 0, 65844887148063621888), (130, 0, 65844887148063621888), (131, 0, 65844887148063621888), (132, 0, 65844887148063621888), (133, 0, 65844887148063621888), (134, 0, 65844887148063621888), (135, 0, 65844887148063621888), (136, 0, 65844887148063621888), (137, 0, 65844887148063621888), (138, 0, 65844887148063621888), (139, 0, 65844887148063621888), (140, 0, 65844887148063621888), (141, 0, 65844887148063621888), (142, 0, 65844887148063621888), (143, 0, 65844887148063621888), (144, 0, 65844887148063621888), (145, 0, 65844887148063621888)],
  [(90, 2, 65844887148063621888), (91, 2, 65844887148063621888), (92, 2, 65844887148063621888), (93, 2, 65844887148063621888), (154, 0, 65844887148063621920), (155, 0, 65844887148063621888), (156, 0, 65844887148063621888), (157, 0, 65844887148063621888), (158, 0, 65844887148063621888), (159, 0, 65844887148063621888)],
  [(94, 2, 65844887148063621888), (156, 0, 65844887148063621888), (157, 0, 65844887148063621888), (158, 0, 65844887148063621888), (159, 0, 65844887148063621888)],
  [(101, 2, 65844887148063621888), (102, 2, 65844887148063621888), (154, 0, 65844887148063621888)],
  [(103, 2, 65844887148063621888)],
  [(17, 5, 1974173128433153)],
  [(81, 2, 256), (82, 2, 256)],
  [(84, 2, 65844887148063621888)],
  [(106, 2, 256), (109, 2, 256)],
  [(114, 2, 66113130768971126014720), (115, 2, 66113130768971126014720)],
  [(112, 2, 66113130768971126014720)],
  [(113, 2, 66113130768971126014720)],
  [(18, 5, 1974173128433153)],
  [(107, 2, 256), (108, 2, 256)],
  [(110, 2, 66113130768971126014720)],
  [(75, 2, 73787090644047495936)],
  [(76, 2, 73787090644047495936), (77, 2, 73787090644047495936), (155, 0, 73787090644047495936), (156, 0, 73787090644047495936), (157, 0, 73787090644047495936), (158, 0, 73787090644047495936), (159, 0, 73787090644047495936)],
  [(78, 2, 73787090644047495936), (155, 0, 73787090644047495936)],
  [(69, 2, 256), (70, 2, 256)],
  [(15, 5, 1974173128433153)],
  [(71, 2, 256), (72, 2, 256)],
  [(73, 2, 73787090644047495936)],
  [(22, 3, 25344)],
  [(23, 3, 25344)],
  [(27, 3, 1126312223965952)],
  [(28, 3, 1126312223965952)],
  [(29, 3, 1126312223965952)],
  [(30, 3, 1126312223965952)],
  [(31, 3, 1126312223965952)],
  [(158, 1, 9584366505250355675968)],
  [(159, 1, 9584366505250355675968)],
  [(156, 1, 9584366505250355675968)],
  [(32, 3, 1126312223965952)],
  [(157, 1, 9584366505250355675968)],
  [(33, 3, 1126312223965952)],
  [(34, 3, 1126312223965952)],
  [(35, 3, 1126312223965952)],
  [(36, 3, 1126312223965952)],
  [(40, 3, 126092032)],
  [(41, 3, 126092032)],
  [(42, 3, 126092032)],
  [(154, 1, 9510578332274549588736), (156, 0, 512), (157, 0, 512), (158, 0, 512), (159, 0, 512)],
  [(43, 3, 126092032)],
  [(44, 3, 126092032)],
  [(45, 3, 126092032)],
  [(46, 3, 126092032)],
  [(52, 3, 9444733445126368527104)],
  [(53, 2, 9444733445126368527104), (154, 0, 9444733445126368527104)],
  [(54, 2, 9444733445126368527104), (154, 0, 9444733445126368527104)],
  [(55, 2, 9444733445126368527104), (56, 2, 9444733445126368527104), (154, 0, 9444733445126368527104), (156, 0, 9444733445126368527104), (157, 0, 9444733445126368527104), (158, 0, 9444733445126368527104), (159, 0, 9444733445126368527104)],
  [(57, 2, 9444733445126368527104)],
  [(58, 2, 9444733445126368527104), (59, 2, 9444733445126368527104)],
  [(50, 2, 9444733299990833660672)],
  [(67, 2, 9444733445126368527104)],
  [(68, 2, 9444733445126368527104), (154, 0, 9444733445126368527104)],
  [(63, 2, 9444733445126368527104)],
  [(64, 2, 9444733445126368527104)],
  [(89, 3, 65844887148063621888)],
  [(87, 3, 65844887148063621888)],
  [(86, 3, 65844887148063621888)],
  [(88, 3, 65844887148063621888)],
  [(80, 3, 256), (83, 3, 256), (84, 0, 65844878351970599680), (85, 0, 65844878351970599680), (86, 0, 65844878351970599680), (87, 0, 65844878351970599680), (88, 0, 65844878351970599680), (89, 0, 65844878351970599680), (90, 0, 65844878351970599680), (91, 0, 65844878351970599680), (92, 0, 65844878351970599680), (93, 0, 65844878351970599680), (94, 0, 65844878351970599680), (95, 0, 65844878351970599680), (96, 0, 65844878351970599680), (97, 0, 65844878351970599680), (98, 0, 65844878351970599680), (99, 0, 65844878351970599680), (100, 0, 65844878351970599680), (101, 0, 65844878351970599680), (102, 0, 65844878351970599680), (103, 0, 65844878351970599680), (104, 0, 65844878351970599680), (105, 0, 65844878351970599680)],
  [(95, 3, 65844887148063621888)],
  [(99, 3, 65844887148063621888)],
  [(100, 3, 65844887148063621888)],
  [(97, 3, 65844887148063621888)],
  [(96, 3, 65844887148063621888)],
  [(98, 3, 65844887148063621888)],
  [(117, 1, 65844887148063621888)],
  [(118, 1, 65844887148063621888)],
  [(119, 1, 65844887148063621888)],
  [(120, 1, 65844887148063621888)],
  [(121, 1, 65844887148063621888)],
  [(122, 1, 65844887148063621888)],
  [(123, 1, 65844887148063621888)],
  [(124, 1, 65844887148063621888)],
  [(125, 1, 65844887148063621888)],
  [(126, 1, 65844887148063621888)],
  [(127, 1, 65844887148063621888)],
  [(128, 1, 65844887148063621888)],
  [(129, 1, 65844887148063621888)],
  [(130, 1, 65844887148063621888)],
  [(131, 1, 65844887148063621888)],
  [(132, 1, 65844887148063621888)],
  [(133, 1, 65844887148063621888)],
  [(134, 1, 65844887148063621888)],
  [(135, 1, 65844887148063621888)],
  [(136, 1, 65844887148063621888)],
  [(137, 1, 65844887148063621888)],
  [(138, 1, 65844887148063621888)],
  [(139, 1, 65844887148063621888)],
  [(140, 1, 65844887148063621888)],
  [(141, 1, 65844887148063621888)],
  [(142, 1, 65844887148063621888)],
  [(143, 1, 65844887148063621888)],
  [(144, 1, 65844887148063621888)],
  [(145, 1, 65844887148063621888)],
  [(104, 3, 65844887148063621888)],
  [(154, 1, 65844887148063621920), (155, 1, 65844887148063621888), (156, 0, 512), (157, 0, 512), (158, 0, 512), (159, 0, 512)],
  [(92, 3, 65844887148063621888), (93, 3, 65844887148063621888), (154, 0, 65844887148063621888)],
  [(91, 3, 65844887148063621888)],
  [(90, 3, 65844887148063621888)],
  [(94, 3, 65844887148063621888)],
  [(101, 3, 65844887148063621888)],
  [(102, 3, 65844887148063621888)],
  [(103, 3, 65844887148063621888)],
  [(81, 3, 256), (82, 3, 256)],
  [(106, 3, 256), (109, 3, 256), (110, 0, 66113130760175032992512), (111, 0, 66113130760175032992512), (112, 0, 66113130760175032992512), (113, 0, 66113130760175032992512), (114, 0, 66113130760175032992512), (115, 0, 66113130760175032992512), (116, 0, 66113130760175032992512)],
  [(114, 3, 66113130768971126014720), (115, 3, 66113130768971126014720), (146, 0, 75262715829531063616256), (147, 0, 75262715829531063616256), (148, 0, 75262715829531063616256), (149, 0, 75262715829531063616256), (150, 0, 75262715829531063616256), (151, 0, 75262715829531063616256), (152, 0, 75262715829531063616256), (153, 0, 75262715829531063616256)],
  [(112, 3, 66113130768971126014720)],
  [(113, 3, 66113130768971126014720)],
  [(107, 3, 256), (108, 3, 256)],
  [(75, 3, 73787090644047495936)],
  [(155, 1, 73787090644047495936), (156, 0, 512), (157, 0, 512), (158, 0, 512), (159, 0, 512)],
  [(76, 3, 73787090644047495936)],
  [(77, 3, 73787090644047495936)],
  [(78, 3, 73787090644047495936)],
  [(69, 3, 256), (70, 3, 256), (73, 0, 114349209289472), (74, 0, 114349209289472), (75, 0, 114349209289472), (76, 0, 114349209289472), (77, 0, 114349209289472), (78, 0, 114349209289472), (79, 0, 114349209289472)],
  [(71, 3, 256), (72, 3, 256)],
  [(154, 2, 9510578332274549588736)],
  [(53, 3, 9444733445126368527104)],
  [(54, 3, 9444733445126368527104)],
  [(55, 3, 9444733445126368527104)],
  [(56, 3, 9444733445126368527104)],
  [(57, 3, 9444733445126368527104)],
  [(58, 3, 9444733445126368527104), (59, 3, 9444733445126368527104), (146, 0, 18594318505686306128640), (147, 0, 18594318505686306128640), (148, 0, 18594318505686306128640), (149, 0, 18594318505686306128640), (150, 0, 18594318505686306128640), (151, 0, 18594318505686306128640), (152, 0, 18594318505686306128640), (153, 0, 18594318505686306128640)],
  [(67, 3, 9444733445126368527104)],
  [(68, 3, 9444733445126368527104)],
  [(80, 4, 256), (84, 1, 65844878351970599680), (86, 0, 65844878351970599680), (87, 0, 65844878351970599680), (88, 0, 65844878351970599680), (89, 0, 65844878351970599680), (90, 0, 65844878351970599680), (91, 0, 65844878351970599680), (92, 0, 65844878351970599680), (93, 0, 65844878351970599680), (94, 0, 65844878351970599680), (95, 0, 65844878351970599680), (96, 0, 65844878351970599680), (97, 0, 65844878351970599680), (98, 0, 65844878351970599680), (99, 0, 65844878351970599680), (100, 0, 65844878351970599680), (101, 0, 65844878351970599680), (102, 0, 65844878351970599680), (103, 0, 65844878351970599680), (104, 0, 65844878351970599680), (105, 0, 65844878351970599680)],
  [(154, 2, 65844887148063621920), (155, 2, 65844887148063621888)],
  [(93, 4, 65844887148063621888)],
  [(81, 4, 256), (82, 4, 256), (84, 0, 65844878351970599680), (85, 0, 65844878351970599680), (86, 0, 65844878351970599680), (87, 0, 65844878351970599680), (88, 0, 65844878351970599680), (89, 0, 65844878351970599680), (90, 0, 65844878351970599680), (91, 0, 65844878351970599680), (92, 0, 65844878351970599680), (93, 0, 65844878351970599680), (94, 0, 65844878351970599680), (95, 0, 65844878351970599680), (96, 0, 65844878351970599680), (97, 0, 65844878351970599680), (98, 0, 65844878351970599680), (99, 0, 65844878351970599680), (100, 0, 65844878351970599680), (101, 0, 65844878351970599680), (102, 0, 65844878351970599680), (103, 0, 65844878351970599680), (104, 0, 65844878351970599680), (105, 0, 65844878351970599680)],
  [(106, 4, 256), (110, 1, 66113130760175032992512), (112, 0, 66113130760175032992512), (113, 0, 66113130760175032992512), (114, 0, 66113130760175032992512), (115, 0, 66113130760175032992512), (116, 0, 66113130760175032992512)],
  [(150, 1, 75262716308918141715200)],
  [(151, 1, 75262716308918141715200)],
  [(152, 1, 75262716308918141715200)],
  [(153, 1, 75262716308918141715200)],
  [(149, 1, 75262716308918141715200)],
  [(115, 4, 66113130768971126014720), (146, 1, 75262715829531063616256), (148, 0, 75262715829531063616256), (149, 0, 75262715829531063616256), (150, 0, 75262715829531063616256), (151, 0, 75262715829531063616256), (152, 0, 75262715829531063616256), (153, 0, 75262715829531063616256)],
  [(147, 1, 75262716308918141715200)],
  [(148, 1, 75262716308918141715200)],
  [(107, 4, 256), (108, 4, 256), (110, 0, 66113130760175032992512), (111, 0, 66113130760175032992512), (112, 0, 66113130760175032992512), (113, 0, 66113130760175032992512), (114, 0, 66113130760175032992512), (115, 0, 66113130760175032992512), (116, 0, 66113130760175032992512)],
  [(155, 2, 73787090644047495936)],
  [(70, 4, 256), (73, 1, 114349209289472), (75, 0, 114349209289472), (76, 0, 114349209289472), (77, 0, 114349209289472), (78, 0, 114349209289472), (79, 0, 114349209289472)],
  [(71, 4, 256), (72, 4, 256), (73, 0, 114349209289472), (74, 0, 114349209289472), (75, 0, 114349209289472), (76, 0, 114349209289472), (77, 0, 114349209289472), (78, 0, 114349209289472), (79, 0, 114349209289472)],
  [(154, 3, 9510578332274549588736), (156, 0, 512), (157, 0, 512), (158, 0, 512), (159, 0, 512)],
  [(59, 4, 9444733445126368527104), (146, 1, 18594318505686306128640), (148, 0, 18594318505686306128640), (149, 0, 18594318505686306128640), (150, 0, 18594318505686306128640), (151, 0, 18594318505686306128640), (152, 0, 18594318505686306128640), (153, 0, 18594318505686306128640)],
  [(154, 3, 65844887148063621920), (155, 3, 65844887148063621888), (156, 0, 576), (157, 0, 576), (158, 0, 576), (159, 0, 576)],
  [(82, 5, 256), (84, 1, 65844878351970599680), (86, 0, 65844878351970599680), (87, 0, 65844878351970599680), (88, 0, 65844878351970599680), (89, 0, 65844878351970599680), (90, 0, 65844878351970599680), (91, 0, 65844878351970599680), (92, 0, 65844878351970599680), (93, 0, 65844878351970599680), (94, 0, 65844878351970599680), (95, 0, 65844878351970599680), (96, 0, 65844878351970599680), (97, 0, 65844878351970599680), (98, 0, 65844878351970599680), (99, 0, 65844878351970599680), (100, 0, 65844878351970599680), (101, 0, 65844878351970599680), (102, 0, 65844878351970599680), (103, 0, 65844878351970599680), (104, 0, 65844878351970599680), (105, 0, 65844878351970599680)],
  [(146, 2, 75262716308918141715200)],
  [(108, 5, 256), (110, 1, 66113130760175032992512), (112, 0, 66113130760175032992512), (113, 0, 66113130760175032992512), (114, 0, 66113130760175032992512), (115, 0, 66113130760175032992512), (116, 0, 66113130760175032992512)],
  [(155, 3, 73787090644047495936), (156, 0, 64), (157, 0, 64), (158, 0, 64), (159, 0, 64)],
  [(72, 5, 256), (73, 1, 114349209289472), (75, 0, 114349209289472), (76, 0, 114349209289472), (77, 0, 114349209289472), (78, 0, 114349209289472), (79, 0, 114349209289472)],
  [(154, 4, 9510578332274549588736)],
  [(154, 4, 65844887148063621920), (155, 4, 65844887148063621888)],
  [(155, 4, 73787090644047495936)],
  [(154, 5, 9510578332274549588768), (156, 0, 64), (157, 0, 64), (158, 0, 64), (159, 0, 64)],
  [(155, 5, 139631968996018094848)],
  [(154, 6, 9510578332274549588768)],
  [(154, 7, 9510578332274549588768)]]

/-- `yypact`, shifted by 260, packed 10 bits per entry. -/
def pactP : Nat :=
  708637662296259399120782803916062839494850857782034827883276046204406633085835621032556540305865388821330202782278578256449273902512084036292250062816380601739788329468603732000365159920428349745144044551663788678746841065786202334692426194168053158237366985114540725966931713498298634034500513203426441261123807660000696946131226633416181874089233371391760057904093034780497579512033857252584169899655417527179292880972184481659412552361286138665073270992295215476636413755424621772302441051214799773305146950574819534103322505564135467872564784243830917324246964801668650540502621291433204023956075695514184594112191754032164234856132460693267842568367862131336869765336305366160554052846489025114524513739766058313916017461072418997598146727569615110181348001796629567297824727543609273527301653215398486072839639876528774555153168963808731471502473578385372058886869164341097802151505600495747459

/-- `yydefact`, as it is, packed 10 bits per entry. -/
def defactP : Nat :=
  185015525258889736729340416753332677531481853543860482670786195951776965264964895323143754205785813879836849504100509733897549848555839515860205589174133759948418844704738605148679791852136796035919317707419961163653531439868863983081443880152507317630547153658108654761555317927155605812363773808324314969951336023898421868821557761636413197756707690750349480745884917523873863454770870518803640557083349775419103825519971530961340897547379082345765640515897303758715828726151447629346461894309481693531799861044615196816590795901933644246045182439573653503350796602097976915176122469653430529118275347171971173780182914118449984753853073949928908164382620526989190618070624740016689649906653959833910118956008836011908715022970739443079256660033985508927453493388718642098351434176699862817743901670813836018607722396433811349223228303573744320756804322435296950428073541641007598054568204799068621824

/-- `yycheck`, shifted by 1, packed 10 bits per entry. -/
def checkP : Nat :=
  840495980890375022280530713702610939563708863836250460256180560701311479073965548690063282165528714211494161960716456370362340041460763517134192227882156270295155554109405750169824399058405141629098531614918275523098307210611982063474700669635060888148953508724916187905483786810452463866601079728916827055852483805820136833738999385315466744773283527377211377665181394320376784683633129037263014763872822456589312522809159709960457898957230855878807983714994187271481662754572827526985896462201378997528721095648706921120293947236302380405899996796775466306204559793024801492939170664509303693424524045932226287398845975861107063341962391428745912948324715419640859675825035115207015912275630178064107137292046691367861466622110291603478012428995041935669321351221845418652168118859780790028343037792294368183650417931887657537039727216276337365453481429073120459769237369890926464459462273073699749327706368663860880113260074051629393122727942641028741676129123801816478026246134214965185574677405465660196749100278776177627365267497901918382688003676133563431467709279394014017391839547108738662030294958306389

/-- `yytable`, as it is, packed 10 bits per entry. -/
def tableP : Nat :=
  1238625656048973717044992630719670234568407750599788861571854553742473448437972128772153069020115082540107110354562946538690625281027835258097637701722728731095233818374340729981461428436939561732798653670595229630639850591289597242610166676471618046056444268523061850185867820760650931450781475441925157729434884371497970882888447297710344609466817406976809710546578830753481188340036763234080681096609333535124933901990509507719242678404688741662091658594092455332240623801102276768039359170836924148697551425725315829737635266737810601835113345862668446157294401654571868528794999724701564935898141682714498714249513810485592433587415242249515382151619206646796686199307026006092121010023976629378686015793635565604842319597417397316303296816390413866723725195298005098043301892770827411977737345351376146110420113507606634076366132357659857989729868144184301298073566539678597815558646314818621309056563988135062834015520910394019436559743247624448541299281408765309918900816212932593589852607696843163036603025983676798368555176059277315684141887761148659408635053869861591410520596051588592735610473001674899

/-- `yypgoto`, shifted by 260, packed 10 bits per entry. -/
def pgotoP : Nat :=
  323744393055393821928424670460449644366904015348696026124503626214219115100703102948155084242944

/-- `yydefgoto`, shifted by 1, packed 10 bits per entry. -/
def defgotoP : Nat :=
  372023100537775288553566319590442695787659026579015749226833737606399860608514198539974012121923584

/-- Entry `i` of a packed table. -/
def look (p i : Nat) : Nat := (p >>> (10 * i)) % 1024

/-- The packed form of a list of numbers below 1024. -/
def pack : List Nat → Nat
  | [] => 0
  | x :: xs => x + 1024 * pack xs

theorem look_pack : ∀ (l : List Nat), (∀ x ∈ l, x < 1024) → ∀ i, i < l.length →
    l[i]? = some (look (pack l) i)
  | [], _, i, hi => by simp at hi
  | x :: xs, h, 0, _ => by
      have hx : x < 1024 := h x (by simp)
      simp only [look, pack, List.getElem?_cons_zero, Nat.mul_zero, Nat.shiftRight_zero]
      congr 1
      omega
  | x :: xs, h, i + 1, hi => by
      have hx : x < 1024 := h x (by simp)
      have ih := look_pack xs (fun y hy => h y (by simp [hy])) i (by simpa using hi)
      rw [List.getElem?_cons_succ, ih]
      congr 1
      have e : (x + 1024 * pack xs) >>> (10 * (i + 1)) = pack xs >>> (10 * i) := by
        rw [show 10 * (i + 1) = 10 + 10 * i by omega, Nat.shiftRight_add]
        congr 1
        rw [Nat.shiftRight_eq_div_pow]
        omega
      show look (pack xs) i = ((x + 1024 * pack xs) >>> (10 * (i + 1))) % 1024
      rw [e]; rfl

/-- `defaultAct` on the packed table. -/
def defaultP (s : Nat) : Act :=
  match look defactP s with
  | 0 => .error
  | n + 1 => .reduce (n + 1)

/-- `action` on the packed tables. -/
def actionP (s a : Nat) : Act :=
  match look pactP s with
  | 0 => defaultP s
  | q + 1 =>
    match Nat.ble 260 (q + 1 + a) && Nat.ble (q + 1 + a) 629 with
    | false => defaultP s
    | true =>
      match Nat.beq (look checkP (q + 1 + a - 260)) (a + 1) with
      | false => defaultP s
      | true =>
        match look tableP (q + 1 + a - 260) with
        | 0 => .reduce 0
        | v + 1 => .shift (v + 1)

/-- `gotoState` on the packed tables. -/
def gotoP (s A : Nat) : Option Nat :=
  match Nat.ble 260 (look pgotoP (A - 109) + s) && Nat.ble (look pgotoP (A - 109) + s) 629 &&
      Nat.beq (look checkP (look pgotoP (A - 109) + s - 260)) (s + 1) with
  | true => some (look tableP (look pgotoP (A - 109) + s - 260))
  | false =>
    match look defgotoP (A - 109) with
    | 0 => none
    | d + 1 => some d

/-- Rule `n` in numbers. -/
def ruleN (n : Nat) : Nat × List Nat := rulesN.getD n (0, [])

/-- The items of state `s`. -/
def itemsAt (s : Nat) : List (Nat × Nat × Nat) := itemsN.getD s []

/-- Is there an item with rule `n` and dot `k`? -/
def hasItem (l : List (Nat × Nat × Nat)) (n k : Nat) : Bool :=
  l.any fun i => Nat.beq i.1 n && Nat.beq i.2.1 k

/-- Is there an item with rule `n`, dot `k` and at least the lookaheads `la`? -/
def hasLa (l : List (Nat × Nat × Nat)) (n k la : Nat) : Bool :=
  l.any fun i => Nat.beq i.1 n && Nat.beq i.2.1 k && Nat.beq (i.2.2 &&& la) la

/-- The terminals a symbol may begin with. -/
def firstOf (X : Nat) : Nat :=
  match Nat.blt X 109 with
  | true => 1 <<< X
  | false => firstN.getD (X - 109) 0

/-- The terminals that may come after a symbol followed by `β`. -/
def followMask (β : List Nat) (la : Nat) : Nat :=
  match β with
  | [] => la
  | X :: _ => firstOf X

/-- The state reached from `s` over symbol `X`. -/
def transP (s X : Nat) : Option Nat :=
  match Nat.blt X 109 with
  | true =>
    match actionP s X with
    | .shift t => some t
    | _ => none
  | false => gotoP s X

/-- Is this action the reduction by rule `n`? -/
def isReduce (n : Nat) : Act → Bool
  | .reduce m => Nat.beq m n
  | _ => false

/-- The rules for nonterminal `X` all have their initial item in `l`, with the lookaheads `la`; `m` counts rules. -/
def closed (l : List (Nat × Nat × Nat)) (X la : Nat) : List (Nat × List Nat) → Nat → Bool
  | [], _ => true
  | r :: rs, m => (!(Nat.beq r.1 X) || hasLa l m 0 la) && closed l X la rs (m + 1)

/-- What is required of one item of state `s`, whose items are `l`. -/
def checkItem (s : Nat) (l : List (Nat × Nat × Nat)) (i : Nat × Nat × Nat) : Bool :=
  match (ruleN i.1).2.drop i.2.1 with
  | [] => Nat.beq i.1 1 || (List.range 109).all fun a => !(i.2.2.testBit a) || isReduce i.1 (actionP s a)
  | X :: β =>
    match transP s X with
    | none => false
    | some t =>
      Nat.blt 0 t && Nat.blt t 300 && hasLa (itemsAt t) i.1 (i.2.1 + 1) i.2.2 &&
        ((itemsAt t).all fun j =>
          match j.2.1 with
          | 0 => true
          | k + 1 =>
            (match (ruleN j.1).2.drop k with
              | [] => false
              | Y :: _ => Nat.beq Y X) && hasItem l j.1 k) &&
        (Nat.blt X 109 || closed l X (followMask β i.2.2) rulesN 0)

/-- What is required of the action of state `s` on terminal `a`. -/
def checkAct (s : Nat) (l : List (Nat × Nat × Nat)) (a : Nat) : Bool :=
  match actionP s a with
  | .ub => false
  | .error => true
  | .shift _ => l.any fun i =>
      match (ruleN i.1).2.drop i.2.1 with
      | [] => false
      | Y :: _ => Nat.beq Y a
  | .reduce m => Nat.ble 2 m && Nat.blt m 160 && hasItem l m (ruleN m).2.length

/-- What is required of state `s`. -/
def checkState (s : Nat) (l : List (Nat × Nat × Nat)) : Bool :=
  (l.all fun i => checkItem s l i) && (Nat.beq s 30 || (List.range 109).all fun a => checkAct s l a) &&
    (Nat.beq s 0 || !(hasItem l 1 0)) && l.all fun i => Nat.ble 1 i.1 && Nat.blt i.1 160

/-- Check the states `s, s + 1, …`. -/
def checkFrom : Nat → List (List (Nat × Nat × Nat)) → Bool
  | _, [] => true
  | s, l :: ls => checkState s l && checkFrom (s + 1) ls

set_option maxRecDepth 100000 in
theorem check_all : checkFrom 0 itemsN = true := by decide +kernel

/-! ## The packed tables are the tables -/

theorem pact_pack : pack (yypact.map fun z => (z + 260).toNat) = pactP ∧
    (∀ z ∈ yypact, -260 ≤ z ∧ z < 764) ∧ yypact.length = 300 := by decide +kernel
theorem defact_pack : pack yydefact = defactP ∧ (∀ z ∈ yydefact, z < 1024) ∧ yydefact.length = 300 := by
  decide +kernel
theorem check_pack : pack (yycheck.map fun z => (z + 1).toNat) = checkP ∧
    (∀ z ∈ yycheck, -1 ≤ z ∧ z < 1023) ∧ yycheck.length = 370 := by decide +kernel
theorem table_pack : pack yytable = tableP ∧ (∀ z ∈ yytable, z < 1024) ∧ yytable.length = 370 := by decide +kernel
theorem pgoto_pack : pack (yypgoto.map fun z => (z + 260).toNat) = pgotoP ∧
    (∀ z ∈ yypgoto, -260 ≤ z ∧ z < 764) ∧ yypgoto.length = 33 := by decide +kernel
theorem defgoto_pack : pack (yydefgoto.map fun z => (z + 1).toNat) = defgotoP ∧
    (∀ z ∈ yydefgoto, -1 ≤ z ∧ z < 1023) ∧ yydefgoto.length = 33 := by decide +kernel

/-- Reading a table of naturals. -/
theorem look_nat {l : List Nat} {p n : Nat} (h : pack l = p ∧ (∀ z ∈ l, z < 1024) ∧ l.length = n) {i : Nat}
    (hi : i < n) : l[i]? = some (look p i) := by
  rw [← h.1]
  exact look_pack l h.2.1 i (h.2.2 ▸ hi)

/-- Reading a table of integers. -/
theorem look_int {l : List Int} {p n : Nat} {o : Int}
    (h : pack (l.map fun z => (z + o).toNat) = p ∧ (∀ z ∈ l, -o ≤ z ∧ z < 1024 - o) ∧ l.length = n) {i : Nat}
    (hi : i < n) : l[i]? = some ((look p i : Int) - o) := by
  obtain ⟨h1, h2, h3⟩ := h
  have hb : ∀ x ∈ l.map (fun z => (z + o).toNat), x < 1024 := by
    intro x hx
    obtain ⟨z, hz, rfl⟩ := List.mem_map.1 hx
    have := h2 z hz
    omega
  have hl : i < l.length := h3 ▸ hi
  have := look_pack _ hb i (by simpa using hl)
  rw [h1, List.getElem?_map, List.getElem?_eq_getElem hl] at this
  rw [List.getElem?_eq_getElem hl]
  simp only [Option.map_some, Option.some.injEq] at this ⊢
  have hm := h2 l[i] (List.getElem_mem hl)
  omega

theorem default_eq {s : Nat} (hs : s < 300) : defaultAct s = defaultP s := by
  unfold defaultAct defaultP
  rw [look_nat defact_pack hs]
  rcases look defactP s with _ | n <;> rfl

theorem action_eq {s a : Nat} (hs : s < 300) : action s a = actionP s a := by
  unfold action actionP
  rw [look_int pact_pack hs]
  simp only [default_eq hs]
  generalize look pactP s = q
  rcases q with _ | q
  · rfl
  · simp only
    rw [if_neg (by omega)]
    by_cases h : 260 ≤ q + 1 + a ∧ q + 1 + a ≤ 629
    · rw [if_neg (by omega), show (Nat.ble 260 (q + 1 + a) && Nat.ble (q + 1 + a) 629) = true by
        rw [Bool.and_eq_true, Nat.ble_eq, Nat.ble_eq]; exact h]
      have hi : (((q + 1 : Nat) : Int) - 260 + (a : Int)).toNat = q + 1 + a - 260 := by omega
      rw [hi, look_int check_pack (by omega : q + 1 + a - 260 < 370)]
      simp only
      by_cases hc : look checkP (q + 1 + a - 260) = a + 1
      · rw [if_neg (by omega), show Nat.beq (look checkP (q + 1 + a - 260)) (a + 1) = true by
          rw [Nat.beq_eq]; exact hc, look_nat table_pack (by omega : q + 1 + a - 260 < 370)]
        rcases look tableP (q + 1 + a - 260) with _ | v <;> rfl
      · rw [if_pos (by omega), show Nat.beq (look checkP (q + 1 + a - 260)) (a + 1) = false by
          rw [Bool.eq_false_iff, ne_eq, Nat.beq_eq]; exact hc]
    · rw [if_pos (by omega), show (Nat.ble 260 (q + 1 + a) && Nat.ble (q + 1 + a) 629) = false by
        rw [Bool.eq_false_iff, ne_eq, Bool.and_eq_true, Nat.ble_eq, Nat.ble_eq]; exact h]

theorem goto_eq {s A : Nat} (hA : A - 109 < 33) : gotoState s A = gotoP s A := by
  unfold gotoState gotoP
  rw [look_int pgoto_pack hA, look_int defgoto_pack hA]
  simp only [Option.bind_eq_bind, Option.bind_some]
  generalize look pgotoP (A - 109) = g
  have hd : (if (0 : Int) ≤ (look defgotoP (A - 109) : Int) - 1 then
      some ((look defgotoP (A - 109) : Int) - 1).toNat else none) =
      (match look defgotoP (A - 109) with | 0 => none | d + 1 => some d) := by
    rcases look defgotoP (A - 109) with _ | d
    · rfl
    · simp only
      rw [if_pos (by omega)]
      congr 1
      omega
  by_cases h : 260 ≤ g + s ∧ g + s ≤ 629
  · rw [if_pos (by omega)]
    have hi : ((g : Int) - 260 + (s : Int)).toNat = g + s - 260 := by omega
    rw [hi, look_int check_pack (by omega : g + s - 260 < 370)]
    simp only [Option.bind_some]
    by_cases hc : look checkP (g + s - 260) = s + 1
    · rw [if_pos (by omega), show (Nat.ble 260 (g + s) && Nat.ble (g + s) 629 &&
        Nat.beq (look checkP (g + s - 260)) (s + 1)) = true by
          rw [Bool.and_eq_true, Bool.and_eq_true, Nat.ble_eq, Nat.ble_eq, Nat.beq_eq]; exact ⟨h, hc⟩,
        look_nat table_pack (by omega : g + s - 260 < 370)]
    · rw [if_neg (by omega), show (Nat.ble 260 (g + s) && Nat.ble (g + s) 629 &&
        Nat.beq (look checkP (g + s - 260)) (s + 1)) = false by
          rw [Bool.eq_false_iff, ne_eq, Bool.and_eq_true, Bool.and_eq_true, Nat.ble_eq, Nat.ble_eq, Nat.beq_eq]
          exact fun h' => hc h'.2, hd]
  · rw [if_neg (by omega), show (Nat.ble 260 (g + s) && Nat.ble (g + s) 629 &&
      Nat.beq (look checkP (g + s - 260)) (s + 1)) = false by
        rw [Bool.eq_false_iff, ne_eq, Bool.and_eq_true, Bool.and_eq_true, Nat.ble_eq, Nat.ble_eq, Nat.beq_eq]
        exact fun h' => h h'.1, hd]

/-! ## The numbers are the grammar -/

theorem rules_eq : rulesN.tail = grammar.map fun r => (r.1.num, r.2.map Sym.num) := by decide +kernel

/-- The lengths and left-hand sides in the tables are those of the grammar. -/
theorem r1_eq : yyr1 = rulesN.map Prod.fst ∧ yyr2 = rulesN.map (fun r => r.2.length) ∧ rulesN.length = 160 := by
  decide +kernel

/-- No right-hand side is empty, `firstN` is closed under the rules, weights decrease, left-hand sides are
nonterminals. -/
def checkRule (r : Nat × List Nat) : Bool :=
  match r.2 with
  | [] => false
  | X :: _ => Nat.beq (firstN.getD (r.1 - 109) 0 &&& firstOf X) (firstOf X) && Nat.ble 109 r.1 && Nat.blt r.1 142 &&
    Nat.blt (weightN.getD (r.1 - 109) 0)
      ((r.2.map fun X => if X < 109 then 8 else weightN.getD (X - 109) 0).sum)

theorem check_rules : rulesN.tail.all checkRule = true := by decide +kernel

end Spectre.Scene
