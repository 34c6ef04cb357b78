import Verif.Model.SceneScanner
import Verif.Props.SceneTables

/-!
# Certificate for the scanner tables

For every state of Flex's machine the regular expressions that describe what may still follow (with the numbers of
their rules).  The data come from a separate computation; what matters is that the checks below accept them, which the
kernel evaluates.  `Verif/Props/SceneScanner.lean` proves what the checks imply.
-/

namespace Spectre.Scene

/-- A sequence of bytes. -/
def w : List Nat → RE
  | [] => .eps
  | [c] => .cls (1 <<< c)
  | c :: cs => .seq (.cls (1 <<< c)) (w cs)

def R0 : RE := .star (.cls 287948901175001088)
def R1 : RE := .cls 158456325065422163334507003904
def R2 : RE := .cls 316912650130844326669014007808
def R3 : RE := .cls 2535301201046754613352112062464
def R4 : RE := .cls 1267650600523377306676056031232
def R5 : RE := .cls 10141204804187018453408448249856
def R6 : RE := .cls 40564819216748073813633792999424
def R7 : RE := .cls 20282409608374036906816896499712
def R8 : RE := .cls 324518553733984590509070343995392
def R9 : RE := .cls 2596148429871876724072562751963136
def R10 : RE := .cls 1298074214935938362036281375981568
def R11 : RE := .cls 20769187438975013792580502015705088
def R12 : RE := .cls 83076749755900055170322008062820352
def R13 : RE := .cls 166153499511800110340644016125640704
def R14 : RE := .seq (.cls 287948901175001088) (.star (.cls 287948901175001088))
def R15 : RE := .star (.cls 115792089237316195423570985008687907853269984665640564039457584007913129630719)
def R16 : RE := .seq (.alt (.cls 43980465111040) (.eps)) (.seq (.cls 287948901175001088) (.star (.cls 287948901175001088)))
def R17 : RE := .seq (.star (.cls 287948901175001088)) (.alt (.seq (.cls 2535301201046754613352112062464) (.seq (.alt (.cls 43980465111040) (.eps)) (.seq (.cls 287948901175001088) (.star (.cls 287948901175001088))))) (.eps))
def R18 : RE := .seq (.star (.alt (.seq (w [92]) (.cls 115792089237316195423570985008687907853269984665640564039457584007913129638911)) (.cls 115792089237316195423570985008687907853269984665635612279300442486796353273855))) (w [34])
def R19 : RE := .seq (.star (.alt (.seq (w [92]) (.cls 115792089237316195423570985008687907853269984665640564039457584007913129638911)) (.cls 115792089237316195423570985008687907853269984665640564039457584007363373826047))) (w [39])
def R20 : RE := .seq (.seq (.cls 287948901175001088) (.star (.cls 287948901175001088))) (.alt (.seq (.cls 2535301201046754613352112062464) (.seq (.alt (.cls 43980465111040) (.eps)) (.seq (.cls 287948901175001088) (.star (.cls 287948901175001088))))) (.eps))
def R21 : RE := .seq (.seq (.star (.cls 287948901175001088)) (.seq (w [46]) (.seq (.cls 287948901175001088) (.star (.cls 287948901175001088))))) (.alt (.seq (.cls 2535301201046754613352112062464) (.seq (.alt (.cls 43980465111040) (.eps)) (.seq (.cls 287948901175001088) (.star (.cls 287948901175001088))))) (.eps))
def R22 : RE := .seq (.seq (.cls 115792089237316195423570985008687907853269984665640564039457584007913129638911) (.star (.alt (.seq (w [92]) (.cls 115792089237316195423570985008687907853269984665640564039457584007913129638911)) (.cls 115792089237316195423570985008687907853269984665640564039457584007363373826047)))) (w [39])
def R23 : RE := .seq (.seq (.cls 115792089237316195423570985008687907853269984665640564039457584007913129638911) (.star (.alt (.seq (w [92]) (.cls 115792089237316195423570985008687907853269984665640564039457584007913129638911)) (.cls 115792089237316195423570985008687907853269984665635612279300442486796353273855)))) (w [34])
def R24 : RE := .seq (.alt (.seq (.star (.cls 287948901175001088)) (.seq (w [46]) (.seq (.cls 287948901175001088) (.star (.cls 287948901175001088))))) (.seq (.cls 287948901175001088) (.star (.cls 287948901175001088)))) (.alt (.seq (.cls 2535301201046754613352112062464) (.seq (.alt (.cls 43980465111040) (.eps)) (.seq (.cls 287948901175001088) (.star (.cls 287948901175001088))))) (.eps))

/-- What may follow in each state; empty for states 0, 2, 3, 443, which are not reached over bytes, and for the initial
state 1, for which the rules themselves are used. -/
def residuals : List (List (Nat × RE)) := [
  [],
  [],
  [],
  [],
  [(112, .eps)],
  [(110, .eps), (112, .eps)],
  [(111, .eps)],
  [(79, R18), (112, .eps)],
  [(109, R15), (112, .eps)],
  [(79, R19), (112, .eps)],
  [(76, R14), (78, R24), (112, .eps)],
  [(6, .eps), (112, .eps)],
  [(77, R14), (78, R24), (112, .eps)],
  [(78, R20), (112, .eps)],
  [(76, R0), (78, R21), (78, R17), (112, .eps)],
  [(1, .eps), (112, .eps)],
  [(80, R5), (81, R8), (82, R13), (112, .eps)],
  [(89, R3), (90, R6), (112, .eps)],
  [(83, R13), (91, R9), (92, R11), (112, .eps)],
  [(84, R3), (112, .eps)],
  [(93, R3), (112, .eps)],
  [(85, R5), (112, .eps)],
  [(94, .eps), (112, .eps)],
  [(95, R6), (112, .eps)],
  [(96, R5), (97, R10), (98, R9), (112, .eps)],
  [(99, R1), (100, R2), (101, R6), (112, .eps)],
  [(86, R2), (87, R12), (102, R4), (112, .eps)],
  [(103, R7), (112, .eps)],
  [(104, R1), (105, R6), (112, .eps)],
  [(106, .eps), (112, .eps)],
  [(88, .eps), (112, .eps)],
  [(107, R10), (108, R11), (112, .eps)],
  [(2, .eps), (112, .eps)],
  [(3, .eps), (112, .eps)],
  [(57, w [110, 105, 115, 111, 116, 114, 111, 112, 121]), (80, R5), (81, R8), (82, R13), (112, .eps)],
  [(21, w [111, 120]), (61, w [117, 109, 112]), (63, w [108, 105, 110, 110]), (64, w [101, 99, 107, 109, 97, 110, 110]), (89, R3), (90, R6), (112, .eps)],
  [(31, w [97, 109, 101, 114, 97]), (66, w [111, 108, 111, 114]), (83, R13), (91, R9), (92, R11), (112, .eps)],
  [(48, w [117, 97, 108, 109, 97, 116, 101, 114, 105, 97, 108]), (58, w [105, 115, 116, 114, 105, 98, 117, 116, 105, 111, 110]), (59, w [105, 102, 102, 117, 115, 101]), (112, .eps)],
  [(30, w [119, 97]), (67, w [108, 101, 109, 101, 110, 116]), (112, .eps)],
  [(19, w [105, 108, 116, 101, 114]), (38, w [111, 118]), (74, w [105, 114, 115, 116]), (84, R3), (112, .eps)],
  [(24, w [97, 117, 115, 115]), (25, w [97, 117, 115, 115, 105, 97, 110]), (52, w [108, 111, 115, 115, 121]), (54, w [108, 97, 115, 115]), (65, w [103, 120]), (93, R3), (112, .eps)],
  [(13, w [101, 105, 103, 104, 116]), (85, R5), (112, .eps)],
  [(8, w [110, 116, 101, 103, 114, 97, 116, 111, 114]), (55, w [111, 114]), (72, w [110, 118, 101, 114, 116, 101, 100]), (112, .eps)],
  [(27, w [97, 110, 99, 122, 111, 115]), (41, w [105, 103, 104, 116]), (95, R6), (112, .eps)],
  [(26, w [105, 116, 99, 104, 101, 108, 108]), (47, w [97, 116, 101, 114, 105, 97, 108]), (51, w [97, 116, 116, 101]), (53, w [101, 116, 97, 108]), (73, w [97, 115, 107]), (96, R5), (97, R10), (98, R9), (112, .eps)],
  [(42, w [97, 109, 101]), (62, w [111, 114, 109, 97, 108]), (99, R1), (100, R2), (101, R6), (112, .eps)],
  [(7, w [117, 116]), (34, w [114, 116, 104, 111, 103, 114, 97, 112, 104, 105, 99]), (112, .eps)],
  [(9, w [97, 116, 104]), (32, w [101, 114, 115, 112, 101, 99, 116, 105, 118, 101]), (33, w [97, 110, 111, 114, 97, 109, 97]), (35, w [111, 115, 105, 116, 105, 111, 110]), (86, R2), (87, R12), (102, R4), (112, .eps)],
  [(10, w [101, 115, 111, 108, 117, 116, 105, 111, 110]), (17, w [97, 110, 100, 111, 109]), (43, w [111, 116, 97, 116, 105, 111, 110]), (56, w [111, 117, 103, 104, 110, 101, 115, 115]), (103, R7), (112, .eps)],
  [(11, w [112, 112]), (16, w [97, 109, 112, 108, 101, 114]), (18, w [116, 114, 97, 116, 105, 102, 105, 101, 100]), (39, w [104, 97, 112, 101]), (44, w [99, 97, 108, 101]), (45, w [104, 105, 102, 116]), (50, w [114, 99]), (60, w [112, 101, 99, 117, 108, 97, 114]), (75, w [101, 99, 111, 110, 100]), (112, .eps)],
  [(20, w [121, 112, 101]), (22, w [101, 110, 116]), (23, w [114, 105, 97, 110, 103, 108, 101]), (29, w [114, 105, 108, 105, 110, 101, 97, 114]), (36, w [97, 114, 103, 101, 116]), (46, w [101, 109, 112, 101, 114, 97, 116, 117, 114, 101]), (49, w [101, 120, 116, 117, 114, 101]), (104, R1), (105, R6), (112, .eps)],
  [(28, w [110, 102, 105, 108, 116, 101, 114, 101, 100]), (37, w [112]), (68, w [115, 105, 110, 103, 32, 99, 104, 97, 110, 110, 101, 108, 32, 82]), (69, w [115, 105, 110, 103, 32, 99, 104, 97, 110, 110, 101, 108, 32, 71]), (70, w [115, 105, 110, 103, 32, 99, 104, 97, 110, 110, 101, 108, 32, 66]), (71, w [115, 105, 110, 103, 32, 99, 104, 97, 110, 110, 101, 108, 32, 65]), (112, .eps)],
  [(14, w [97, 108, 117, 101, 48]), (15, w [97, 108, 117, 101, 49]), (106, .eps), (112, .eps)],
  [(12, w [105, 100, 116, 104]), (40, w [111, 114, 108, 100]), (88, .eps), (112, .eps)],
  [(4, .eps), (112, .eps)],
  [(5, .eps), (112, .eps)],
  [(79, R18)],
  [(79, .eps)],
  [(79, R23)],
  [(109, R15)],
  [(79, R19)],
  [(79, R22), (79, R19)],
  [(78, R20)],
  [(76, R0), (78, R21), (78, R17)],
  [(77, R0), (78, R21), (78, R17)],
  [(78, R17)],
  [(78, R16)],
  [(80, .eps)],
  [(81, .eps)],
  [(82, .eps)],
  [(89, .eps)],
  [(90, .eps)],
  [(91, .eps)],
  [(92, .eps)],
  [(83, .eps)],
  [(84, .eps)],
  [(93, .eps)],
  [(85, .eps)],
  [(95, .eps)],
  [(96, .eps)],
  [(97, .eps)],
  [(98, .eps)],
  [(99, .eps)],
  [(100, .eps)],
  [(101, .eps)],
  [(86, .eps)],
  [(102, .eps)],
  [(87, .eps)],
  [(103, .eps)],
  [(104, .eps)],
  [(105, .eps)],
  [(107, .eps)],
  [(108, .eps)],
  [(57, w [105, 115, 111, 116, 114, 111, 112, 121])],
  [(64, w [99, 107, 109, 97, 110, 110]), (89, .eps)],
  [(63, w [105, 110, 110])],
  [(21, w [120])],
  [(61, w [109, 112])],
  [(31, w [109, 101, 114, 97])],
  [(66, w [108, 111, 114]), (91, .eps)],
  [(58, w [115, 116, 114, 105, 98, 117, 116, 105, 111, 110]), (59, w [102, 102, 117, 115, 101])],
  [(48, w [97, 108, 109, 97, 116, 101, 114, 105, 97, 108])],
  [(67, w [101, 109, 101, 110, 116])],
  [(30, w [97])],
  [(19, w [108, 116, 101, 114]), (74, w [114, 115, 116])],
  [(38, w [118])],
  [(24, w [117, 115, 115]), (25, w [117, 115, 115, 105, 97, 110])],
  [(65, w [120])],
  [(52, w [111, 115, 115, 121]), (54, w [97, 115, 115])],
  [(13, w [105, 103, 104, 116])],
  [(8, w [116, 101, 103, 114, 97, 116, 111, 114]), (72, w [118, 101, 114, 116, 101, 100])],
  [(55, w [114])],
  [(27, w [110, 99, 122, 111, 115])],
  [(41, w [103, 104, 116]), (95, .eps)],
  [(47, w [116, 101, 114, 105, 97, 108]), (51, w [116, 116, 101]), (73, w [115, 107])],
  [(53, w [116, 97, 108])],
  [(26, w [116, 99, 104, 101, 108, 108])],
  [(42, w [109, 101]), (99, .eps)],
  [(62, w [114, 109, 97, 108])],
  [(34, w [116, 104, 111, 103, 114, 97, 112, 104, 105, 99])],
  [(7, w [116])],
  [(9, w [116, 104]), (33, w [110, 111, 114, 97, 109, 97])],
  [(32, w [114, 115, 112, 101, 99, 116, 105, 118, 101])],
  [(35, w [115, 105, 116, 105, 111, 110])],
  [(17, w [110, 100, 111, 109])],
  [(10, w [115, 111, 108, 117, 116, 105, 111, 110])],
  [(43, w [116, 97, 116, 105, 111, 110]), (56, w [117, 103, 104, 110, 101, 115, 115])],
  [(16, w [109, 112, 108, 101, 114])],
  [(44, w [97, 108, 101])],
  [(75, w [99, 111, 110, 100])],
  [(39, w [97, 112, 101]), (45, w [105, 102, 116])],
  [(11, w [112]), (60, w [101, 99, 117, 108, 97, 114])],
  [(50, w [99])],
  [(18, w [114, 97, 116, 105, 102, 105, 101, 100])],
  [(36, w [114, 103, 101, 116]), (104, .eps)],
  [(22, w [110, 116]), (46, w [109, 112, 101, 114, 97, 116, 117, 114, 101]), (49, w [120, 116, 117, 114, 101])],
  [(23, w [105, 97, 110, 103, 108, 101]), (29, w [105, 108, 105, 110, 101, 97, 114])],
  [(20, w [112, 101])],
  [(28, w [102, 105, 108, 116, 101, 114, 101, 100])],
  [(37, .eps)],
  [(68, w [105, 110, 103, 32, 99, 104, 97, 110, 110, 101, 108, 32, 82]), (69, w [105, 110, 103, 32, 99, 104, 97, 110, 110, 101, 108, 32, 71]), (70, w [105, 110, 103, 32, 99, 104, 97, 110, 110, 101, 108, 32, 66]), (71, w [105, 110, 103, 32, 99, 104, 97, 110, 110, 101, 108, 32, 65])],
  [(14, w [108, 117, 101, 48]), (15, w [108, 117, 101, 49])],
  [(12, w [100, 116, 104])],
  [(40, w [114, 108, 100])],
  [(79, R19)],
  [(79, R19), (79, .eps)],
  [(79, R19), (79, R22)],
  [(78, R14)],
  [(78, R0)],
  [(57, w [115, 111, 116, 114, 111, 112, 121])],
  [(64, w [107, 109, 97, 110, 110])],
  [(63, w [110, 110])],
  [(21, .eps)],
  [(61, w [112])],
  [(31, w [101, 114, 97])],
  [(66, w [111, 114])],
  [(59, w [102, 117, 115, 101])],
  [(58, w [116, 114, 105, 98, 117, 116, 105, 111, 110])],
  [(48, w [108, 109, 97, 116, 101, 114, 105, 97, 108])],
  [(67, w [109, 101, 110, 116])],
  [(30, .eps)],
  [(19, w [116, 101, 114])],
  [(74, w [115, 116])],
  [(38, .eps)],
  [(24, w [115, 115]), (25, w [115, 115, 105, 97, 110])],
  [(65, .eps)],
  [(54, w [115, 115])],
  [(52, w [115, 115, 121])],
  [(13, w [103, 104, 116])],
  [(8, w [101, 103, 114, 97, 116, 111, 114])],
  [(72, w [101, 114, 116, 101, 100])],
  [(55, .eps)],
  [(27, w [99, 122, 111, 115])],
  [(41, w [104, 116])],
  [(73, w [107])],
  [(47, w [101, 114, 105, 97, 108]), (51, w [116, 101])],
  [(53, w [97, 108])],
  [(26, w [99, 104, 101, 108, 108])],
  [(42, w [101])],
  [(62, w [109, 97, 108])],
  [(34, w [104, 111, 103, 114, 97, 112, 104, 105, 99])],
  [(7, .eps)],
  [(33, w [111, 114, 97, 109, 97])],
  [(9, w [104])],
  [(32, w [115, 112, 101, 99, 116, 105, 118, 101])],
  [(35, w [105, 116, 105, 111, 110])],
  [(17, w [100, 111, 109])],
  [(10, w [111, 108, 117, 116, 105, 111, 110])],
  [(43, w [97, 116, 105, 111, 110])],
  [(56, w [103, 104, 110, 101, 115, 115])],
  [(16, w [112, 108, 101, 114])],
  [(44, w [108, 101])],
  [(75, w [111, 110, 100])],
  [(39, w [112, 101])],
  [(45, w [102, 116])],
  [(60, w [99, 117, 108, 97, 114])],
  [(11, .eps)],
  [(50, .eps)],
  [(18, w [97, 116, 105, 102, 105, 101, 100])],
  [(36, w [103, 101, 116])],
  [(46, w [112, 101, 114, 97, 116, 117, 114, 101])],
  [(22, w [116])],
  [(49, w [116, 117, 114, 101])],
  [(23, w [97, 110, 103, 108, 101]), (29, w [108, 105, 110, 101, 97, 114])],
  [(20, w [101])],
  [(28, w [105, 108, 116, 101, 114, 101, 100])],
  [(68, w [110, 103, 32, 99, 104, 97, 110, 110, 101, 108, 32, 82]), (69, w [110, 103, 32, 99, 104, 97, 110, 110, 101, 108, 32, 71]), (70, w [110, 103, 32, 99, 104, 97, 110, 110, 101, 108, 32, 66]), (71, w [110, 103, 32, 99, 104, 97, 110, 110, 101, 108, 32, 65])],
  [(14, w [117, 101, 48]), (15, w [117, 101, 49])],
  [(12, w [116, 104])],
  [(40, w [108, 100])],
  [(57, w [111, 116, 114, 111, 112, 121])],
  [(64, w [109, 97, 110, 110])],
  [(63, w [110])],
  [(61, .eps)],
  [(31, w [114, 97])],
  [(66, w [114])],
  [(59, w [117, 115, 101])],
  [(58, w [114, 105, 98, 117, 116, 105, 111, 110])],
  [(48, w [109, 97, 116, 101, 114, 105, 97, 108])],
  [(67, w [101, 110, 116])],
  [(19, w [101, 114])],
  [(74, w [116])],
  [(24, w [115]), (25, w [115, 105, 97, 110])],
  [(54, w [115])],
  [(52, w [115, 121])],
  [(13, w [104, 116])],
  [(8, w [103, 114, 97, 116, 111, 114])],
  [(72, w [114, 116, 101, 100])],
  [(27, w [122, 111, 115])],
  [(41, w [116])],
  [(73, .eps)],
  [(47, w [114, 105, 97, 108])],
  [(51, w [101])],
  [(53, w [108])],
  [(26, w [104, 101, 108, 108])],
  [(42, .eps)],
  [(62, w [97, 108])],
  [(34, w [111, 103, 114, 97, 112, 104, 105, 99])],
  [(33, w [114, 97, 109, 97])],
  [(9, .eps)],
  [(32, w [112, 101, 99, 116, 105, 118, 101])],
  [(35, w [116, 105, 111, 110])],
  [(17, w [111, 109])],
  [(10, w [108, 117, 116, 105, 111, 110])],
  [(43, w [116, 105, 111, 110])],
  [(56, w [104, 110, 101, 115, 115])],
  [(16, w [108, 101, 114])],
  [(44, w [101])],
  [(75, w [110, 100])],
  [(39, w [101])],
  [(45, w [116])],
  [(60, w [117, 108, 97, 114])],
  [(18, w [116, 105, 102, 105, 101, 100])],
  [(36, w [101, 116])],
  [(46, w [101, 114, 97, 116, 117, 114, 101])],
  [(22, .eps)],
  [(49, w [117, 114, 101])],
  [(23, w [110, 103, 108, 101])],
  [(29, w [105, 110, 101, 97, 114])],
  [(20, .eps)],
  [(28, w [108, 116, 101, 114, 101, 100])],
  [(68, w [103, 32, 99, 104, 97, 110, 110, 101, 108, 32, 82]), (69, w [103, 32, 99, 104, 97, 110, 110, 101, 108, 32, 71]), (70, w [103, 32, 99, 104, 97, 110, 110, 101, 108, 32, 66]), (71, w [103, 32, 99, 104, 97, 110, 110, 101, 108, 32, 65])],
  [(14, w [101, 48]), (15, w [101, 49])],
  [(12, w [104])],
  [(40, w [100])],
  [(57, w [116, 114, 111, 112, 121])],
  [(64, w [97, 110, 110])],
  [(63, .eps)],
  [(31, w [97])],
  [(66, .eps)],
  [(59, w [115, 101])],
  [(58, w [105, 98, 117, 116, 105, 111, 110])],
  [(48, w [97, 116, 101, 114, 105, 97, 108])],
  [(67, w [110, 116])],
  [(19, w [114])],
  [(74, .eps)],
  [(24, .eps), (25, w [105, 97, 110])],
  [(54, .eps)],
  [(52, w [121])],
  [(13, w [116])],
  [(8, w [114, 97, 116, 111, 114])],
  [(72, w [116, 101, 100])],
  [(27, w [111, 115])],
  [(41, .eps)],
  [(47, w [105, 97, 108])],
  [(51, .eps)],
  [(53, .eps)],
  [(26, w [101, 108, 108])],
  [(62, w [108])],
  [(34, w [103, 114, 97, 112, 104, 105, 99])],
  [(33, w [97, 109, 97])],
  [(32, w [101, 99, 116, 105, 118, 101])],
  [(35, w [105, 111, 110])],
  [(17, w [109])],
  [(10, w [117, 116, 105, 111, 110])],
  [(43, w [105, 111, 110])],
  [(56, w [110, 101, 115, 115])],
  [(16, w [101, 114])],
  [(44, .eps)],
  [(75, w [100])],
  [(39, .eps)],
  [(45, .eps)],
  [(60, w [108, 97, 114])],
  [(18, w [105, 102, 105, 101, 100])],
  [(36, w [116])],
  [(46, w [114, 97, 116, 117, 114, 101])],
  [(49, w [114, 101])],
  [(23, w [103, 108, 101])],
  [(29, w [110, 101, 97, 114])],
  [(28, w [116, 101, 114, 101, 100])],
  [(68, w [32, 99, 104, 97, 110, 110, 101, 108, 32, 82]), (69, w [32, 99, 104, 97, 110, 110, 101, 108, 32, 71]), (70, w [32, 99, 104, 97, 110, 110, 101, 108, 32, 66]), (71, w [32, 99, 104, 97, 110, 110, 101, 108, 32, 65])],
  [(14, w [48]), (15, w [49])],
  [(12, .eps)],
  [(40, .eps)],
  [(57, w [114, 111, 112, 121])],
  [(64, w [110, 110])],
  [(31, .eps)],
  [(59, w [101])],
  [(58, w [98, 117, 116, 105, 111, 110])],
  [(48, w [116, 101, 114, 105, 97, 108])],
  [(67, w [116])],
  [(19, .eps)],
  [(25, w [97, 110])],
  [(52, .eps)],
  [(13, .eps)],
  [(8, w [97, 116, 111, 114])],
  [(72, w [101, 100])],
  [(27, w [115])],
  [(47, w [97, 108])],
  [(26, w [108, 108])],
  [(62, .eps)],
  [(34, w [114, 97, 112, 104, 105, 99])],
  [(33, w [109, 97])],
  [(32, w [99, 116, 105, 118, 101])],
  [(35, w [111, 110])],
  [(17, .eps)],
  [(10, w [116, 105, 111, 110])],
  [(43, w [111, 110])],
  [(56, w [101, 115, 115])],
  [(16, w [114])],
  [(75, .eps)],
  [(60, w [97, 114])],
  [(18, w [102, 105, 101, 100])],
  [(36, .eps)],
  [(46, w [97, 116, 117, 114, 101])],
  [(49, w [101])],
  [(23, w [108, 101])],
  [(29, w [101, 97, 114])],
  [(28, w [101, 114, 101, 100])],
  [(68, w [99, 104, 97, 110, 110, 101, 108, 32, 82]), (69, w [99, 104, 97, 110, 110, 101, 108, 32, 71]), (70, w [99, 104, 97, 110, 110, 101, 108, 32, 66]), (71, w [99, 104, 97, 110, 110, 101, 108, 32, 65])],
  [(14, .eps)],
  [(15, .eps)],
  [(57, w [111, 112, 121])],
  [(64, w [110])],
  [(59, .eps)],
  [(58, w [117, 116, 105, 111, 110])],
  [(48, w [101, 114, 105, 97, 108])],
  [(67, .eps)],
  [(25, w [110])],
  [(8, w [116, 111, 114])],
  [(72, w [100])],
  [(27, .eps)],
  [(47, w [108])],
  [(26, w [108])],
  [(34, w [97, 112, 104, 105, 99])],
  [(33, w [97])],
  [(32, w [116, 105, 118, 101])],
  [(35, w [110])],
  [(10, w [105, 111, 110])],
  [(43, w [110])],
  [(56, w [115, 115])],
  [(16, .eps)],
  [(60, w [114])],
  [(18, w [105, 101, 100])],
  [(46, w [116, 117, 114, 101])],
  [(49, .eps)],
  [(23, w [101])],
  [(29, w [97, 114])],
  [(28, w [114, 101, 100])],
  [(68, w [104, 97, 110, 110, 101, 108, 32, 82]), (69, w [104, 97, 110, 110, 101, 108, 32, 71]), (70, w [104, 97, 110, 110, 101, 108, 32, 66]), (71, w [104, 97, 110, 110, 101, 108, 32, 65])],
  [(57, w [112, 121])],
  [(64, .eps)],
  [(58, w [116, 105, 111, 110])],
  [(48, w [114, 105, 97, 108])],
  [(25, .eps)],
  [(8, w [111, 114])],
  [(72, .eps)],
  [(47, .eps)],
  [(26, .eps)],
  [(34, w [112, 104, 105, 99])],
  [(33, .eps)],
  [(32, w [105, 118, 101])],
  [(35, .eps)],
  [(10, w [111, 110])],
  [(43, .eps)],
  [(56, w [115])],
  [(60, .eps)],
  [(18, w [101, 100])],
  [(46, w [117, 114, 101])],
  [(23, .eps)],
  [(29, w [114])],
  [(28, w [101, 100])],
  [(68, w [97, 110, 110, 101, 108, 32, 82]), (69, w [97, 110, 110, 101, 108, 32, 71]), (70, w [97, 110, 110, 101, 108, 32, 66]), (71, w [97, 110, 110, 101, 108, 32, 65])],
  [(57, w [121])],
  [(58, w [105, 111, 110])],
  [(48, w [105, 97, 108])],
  [(8, w [114])],
  [(34, w [104, 105, 99])],
  [(32, w [118, 101])],
  [(10, w [110])],
  [(56, .eps)],
  [(18, w [100])],
  [(46, w [114, 101])],
  [(29, .eps)],
  [(28, w [100])],
  [(68, w [110, 110, 101, 108, 32, 82]), (69, w [110, 110, 101, 108, 32, 71]), (70, w [110, 110, 101, 108, 32, 66]), (71, w [110, 110, 101, 108, 32, 65])],
  [(57, .eps)],
  [(58, w [111, 110])],
  [(48, w [97, 108])],
  [(8, .eps)],
  [(34, w [105, 99])],
  [(32, w [101])],
  [(10, .eps)],
  [(18, .eps)],
  [(46, w [101])],
  [(28, .eps)],
  [(68, w [110, 101, 108, 32, 82]), (69, w [110, 101, 108, 32, 71]), (70, w [110, 101, 108, 32, 66]), (71, w [110, 101, 108, 32, 65])],
  [(58, w [110])],
  [(48, w [108])],
  [(34, w [99])],
  [(32, .eps)],
  [(46, .eps)],
  [(68, w [101, 108, 32, 82]), (69, w [101, 108, 32, 71]), (70, w [101, 108, 32, 66]), (71, w [101, 108, 32, 65])],
  [(58, .eps)],
  [(48, .eps)],
  [(34, .eps)],
  [(68, w [108, 32, 82]), (69, w [108, 32, 71]), (70, w [108, 32, 66]), (71, w [108, 32, 65])],
  [(68, w [32, 82]), (69, w [32, 71]), (70, w [32, 66]), (71, w [32, 65])],
  [(68, w [82]), (69, w [71]), (70, w [66]), (71, w [65])],
  [(71, .eps)],
  [(70, .eps)],
  [(69, .eps)],
  [(68, .eps)],
  []]

/-- A byte of each class. -/
def repsN : List Nat := [
  0, 255, 9, 10, 13, 32, 34, 35, 39, 43, 44, 45, 46, 48, 49, 57, 58, 65, 66, 67, 68, 69, 70, 71, 72, 73, 75, 76,
  77, 78, 79, 80, 82, 84, 85, 86, 87, 90, 91, 92, 93, 97, 98, 99, 100, 101, 102, 103, 104, 105, 107, 108, 109, 110,
  111, 112, 114, 115, 116, 117, 118, 119, 120, 121, 122, 123, 125]

/-- The bytes of each class, as a mask; byte 0 is in class 1 (lex.yy.cc:1889, 1915). -/
def classMasks : List Nat := [
  0,
  115792089237316195423570985008687907853206192187705833409433545905889647516159,
  512,
  1024,
  8192,
  4294967296,
  17179869184,
  34359738368,
  549755813888,
  8796093022208,
  17592186044416,
  35184372088832,
  70368744177664,
  281474976710656,
  562949953421312,
  287104476244869120,
  288230376151711744,
  36893488147419103232,
  73786976294838206464,
  147573952589676412928,
  295147905179352825856,
  590295810358705651712,
  1180591620717411303424,
  2361183241434822606848,
  4722366482869645213696,
  9444732965739290427392,
  37778931862957161709568,
  75557863725914323419136,
  151115727451828646838272,
  302231454903657293676544,
  604462909807314587353088,
  1208925819614629174706176,
  4835703278458516698824704,
  19342813113834066795298816,
  38685626227668133590597632,
  77371252455336267181195264,
  154742504910672534362390528,
  1237940039285380274899124224,
  2475880078570760549798248448,
  4951760157141521099596496896,
  9903520314283042199192993792,
  158456325028528675187087900672,
  316912650057057350374175801344,
  633825300114114700748351602688,
  1267650600228229401496703205376,
  2535301200456458802993406410752,
  5070602400912917605986812821504,
  10141204801825835211973625643008,
  20282409603651670423947251286016,
  40564819207303340847894502572032,
  162259276829213363391578010288128,
  324518553658426726783156020576256,
  649037107316853453566312041152512,
  1298074214633706907132624082305024,
  2596148429267413814265248164610048,
  5192296858534827628530496329220096,
  20769187434139310514121985316880384,
  41538374868278621028243970633760768,
  83076749736557242056487941267521536,
  166153499473114484112975882535043072,
  332306998946228968225951765070086144,
  664613997892457936451903530140172288,
  1329227995784915872903807060280344576,
  2658455991569831745807614120560689152,
  5316911983139663491615228241121378304,
  10633823966279326983230456482242756608,
  42535295865117307932921825928971026432]

/-- `yyAccept`, packed 10 bits per entry. -/
def yyAcceptP : Nat :=
  2429519076501144507707460543868351016854479227351398104495643158578656679912876014915256049539807298095391724904595919037877941961073421641670278094512421634534604861236668701115664156029786122340006415747417995631546652265542799043184747867000302797647652234276940918955227455496807527433048246330789670663814735135939996228376282301989962234173434154358676175267632128364076319754806665147226426318893445354085747866480357518866859789568907096734592347039744991986698361980597100307050314995914152171453976016251492132060689659040543210825124496107099148043853071225091319959862269435956752552606633237486112905738662697248341423462636179519972808733124374842340423983718069850078895762962392087538256510306696250208749925756771803175341106332121597772843819481263868298645594617354255222433547156962372812638142163714612472134946588784408892657302861189627067281414742815397502858089927935114518689199672292596421818745095910714738672578156812573526520541634910504882074811626161820802233003988225610480911164740970477641669993387546755781838581279963028916909343045399713225421795352421203141378160954907277482332772282130925892155025560067482050114836561247078157214641334111279018142872069831918699807545669644009233537392681805154665659578014709429293725947471616814157110019470471876098205355874554168020180432584335169683456

/-- `yyEc`, packed 10 bits per entry. -/
def yyEcP : Nat :=
  423558367815177692376574509281652521140617716825272303300910426732255773170350223727851416782457242791155874018222980615126334418984206762434117606280018013259087601395074404498203472492077665648967581115254164464030537090617717941098420065433812089873487316281255486214114720026831132689143651718848794803061438058414986835625312125842798722794302238566268814972056515849870714011978803198002373164291528911024531501371437943125399486098887037684706526462722684401428383213082501827606306376425013305920510356281508146427551363295106202370465470651036355226227555308926682272596859661933714440244181180391500478982738265214321324993513468265304571305177062537811060685231946559378673536323120532196298750220982540673901498489820980174220170476439659035864502327313408

/-- `yyMeta`, packed 10 bits per entry. -/
def yyMetaP : Nat :=
  4788742239156737475022336658261622291810588252807298104822498094444105929928201608616238327281409784637099305694158280686195331870700952673551047290608775597079546562351785846163493926047430004966400

/-- `yyBase`, packed 10 bits per entry. -/
def yyBaseP : Nat :=
  13636466430022818116296750641284136891049023449349622838481509922050904192856260353014779101470060586658769707189045107586826686971450558058543885012246909098120819903010442343827810808144625474605686506383610876173993492698664445204559882000504885554018355919045718196266507705264922492767641303556924879103785477204105287178237110217958305462543769626100049083417032411443395166029575444221955212155440993645045667777108600202391341717553538531745802028352832572421282728141134936614354043664704723598093311243610194176982496557802478739313418132200517347752749479927317718015420186740138006959183241860524534618180135221387860840829207109515758182928503970112971934951580853868472314750053690327918326403659226413787763640103652971818548081634149894257222156447497951166645460078755450342830597974535201619824600454319486901658838506609522739975785886527244225780648130916477766065757816717929910268541481916205318851992560467255298786359273200892705163773883438902182335499996782226582975191625688441590422208737509488390512348697561036077853425886828714542241719408727714753469570550044999581974265142550013002425435708259759606323589300199523986938329750287724197481085072445666503746412386271353929409661907404053378557672717163933275461494981661301085915959751692551179789789653349714526478657895221029866458735726744390741613736073315221504

/-- `yyDef`, packed 10 bits per entry. -/
def yyDefP : Nat :=
  17820039696328612667495555528985415029315613189062410008706240093856223520466627861154824015216055713560521930834566399146409926605434762837394008577300810386722030678837358137610336993667913843914062643474995641334589617657963443739470791122040193511396476067633267653888151409349234219383685138949625562468822390654271992333340359392826109631522050638839587215083597653622377522938869716553170972739802583086525626476183776021926461725090101662844650137934434609397279182329995108433908117047756993434070558923904018455460672873237819427774379650064357970394964614193051290767185218054802672588167341716754425557776191667233603120193394360547229520387691377281256580289274329517574501527268362865512920915079780821561864110592554966589853187840824306626639289715407978565249586939242763582732464983465556081379330038758964883945930337791526105754351397074121733432717891072367086968442127756954860643702844860512146067077368854085440694632612165126933377245217852187491951384157875152364059038017454129632546179407498564985860139286745567204237202612933224293408912133063595755143200046375104529811168465079316235497237264994703361213239314526175469703765225454267827460333256082293542052504660922015616836207918159580040291884823736456100710886826378875302096406553377082406523914268443722888560261438109576772501995165652426165338114802400553984

/-- `yyNxt`, packed 10 bits per entry. -/
def yyNxtP : Nat :=
  2095076819597227557615346568179305950546631261080475696334895436834950388336000191792097357564877183939199960743957467700670244621148750925556916099478180607816624839889146815973192907547385490959060701297642918899717896502754054776332839012855618716008236512076034012365743181418619947853165322966151777549279491968476968985008135762405876306785856346212008937459402538437790866224717157285709904722693053142755407951592908750954429866314516433153729911129876985823267889167619389509052396649985180659997288180691944808136875680276992895226112301451686135933247388975381149693969890424468663467357491368668765415965494420400955335146365517227269651693473036935515866015371072182576999163646239370473037904822394551628511281634579935620524703850641361652666558161172475741190596980845574964625309728702266370508127083133795279437438492059847912921972857418473252196621743876373084997967832327507203510398886158981280128989636198941141765593958350096995552272517296881744972395105984425464807784356894325826043964221729044222699716899988298976928025503420587284991480227419210927442582052284339844818676456804829460891347557316309804885854198065757543617217667136889552766830085245034348360242639924993866144887699824883000235214413086136445760572292196732283614968565771639148524194743134484876427287008691102814155061597852679373785708076151697174336349041420892437270625310771529771625444388121165591686424896498818242351848116179196892349301654001462969853465118453654089258544403921182478356446514715848246751038832405372402792162563984349694849237818586455302029175559683638265905708204897339470974965876885136762820576929188400407618560705717422904226220072956321645501966170022371409786993609253308215918382332403143518686923579763172377144983399718954438799210798830722856090917399598148524804914438442091279125914475939691123446939050480497391651204679665313895072482325647814992701550697041290172143830791251709006127817934428585582051665645568

/-- `yyChk`, packed 10 bits per entry. -/
def yyChkP : Nat :=
  2095076819597227557615346568179305950546631261080475696334895436834950388336000191792097357564877183939199960743957467700670244621148750925556916099478180607816624839889146815973192907547385490959061135410885066101430639526181738145622275866582882625998603049577104994958700830558776706230093596712732822460731147037760202501343747726444849387135514465999220282704312195095912892281123724980153726994050721224120090028447312115877494700241880923541952809368087068347125505932650122456367219730131013183882813795978877982334293222408828117237693774528343393041577395031247147222424353877265002758002539119062242523851992808461907629247124477215867236428968958937788504322614883095410221080668622313578489276823247341819012647687256389805969184710823266417265149006127942210437713439770476743621218482064185810575466593673217834938914858780090006283637524280445507201101392577550973390403723522406204821007560211238230409174596065312231769456671251798495168895975173459435613424804567885700414850916364973919661521845995827162920385847679516626567122520227798983274398723654315084571129415467569957201308555487586983261356364289953071986049819531525124585088410236178728408313415810229802401767356446589477340857654720456279069653487811743833128744381617862407029633392295567033414732235183939193946171379011855880306876770283775880941030994899044723489721078551007074876317133554490606542965934611612841461749593820618723538883764902704786352839283665925621922754165760560929908351296929825430975847515568338458936728615720456568601633603679849345877106779110564061243677238992420933663499226855342515551311073879707041750724050940398448514305347343516338831408289205964431817579680630265512268622966079889580723632008647150258061535813060719360328857249508455039648090826112909160701234950134196627969710517295921286504179937221251573103556732865239737383037995384539806841889553404827129303645736566680605937294005157401309156171198423636753070739686400


/-! ## Derivatives -/

/-- Does the expression match the empty text? -/
def nullable : RE → Bool
  | .eps => true
  | .cls _ => false
  | .seq r s => nullable r && nullable s
  | .alt r s => nullable r || nullable s
  | .star _ => true

/-- `r` followed by `s`. -/
def cat : RE → RE → RE
  | .eps, s => s
  | r, s => .seq r s

/-- What may follow after byte `b` (Antimirov's partial derivatives). -/
def pd (b : Nat) : RE → List RE
  | .eps => []
  | .cls m =>
    match m.testBit b with
    | true => [.eps]
    | false => []
  | .seq r s =>
    match nullable r with
    | true => (pd b r).map (cat · s) ++ pd b s
    | false => (pd b r).map (cat · s)
  | .alt r s => pd b r ++ pd b s
  | .star r => (pd b r).map (cat · (.star r))

/-- Equality of expressions. -/
def eqRE : RE → RE → Bool
  | .eps, .eps => true
  | .cls m, .cls n => Nat.beq m n
  | .seq r s, .seq r' s' => eqRE r r' && eqRE s s'
  | .alt r s, .alt r' s' => eqRE r r' && eqRE s s'
  | .star r, .star r' => eqRE r r'
  | _, _ => false

/-- Every class of bytes in the expression is a union of classes of the scanner. -/
def uniform : RE → Bool
  | .eps => true
  | .cls m => classMasks.all fun c =>
      match m &&& c with
      | 0 => true
      | x + 1 => Nat.beq (x + 1) c
  | .seq r s => uniform r && uniform s
  | .alt r s => uniform r && uniform s
  | .star r => uniform r

/-! ## Checks -/

/-- `follow` on the packed tables. -/
def followP : Nat → Nat → Nat → Option Nat
  | 0, _, _ => none
  | fuel + 1, q, c =>
    match Nat.beq (look yyChkP (look yyBaseP q + c)) q with
    | true => some (look yyNxtP (look yyBaseP q + c))
    | false =>
      match Nat.ble 444 (look yyDefP q) with
      | true => followP fuel (look yyDefP q) (look yyMetaP c)
      | false => followP fuel (look yyDefP q) c

/-- The rules with their numbers. -/
def numbered : List (RE × RuleAction) → Nat → List (Nat × RE)
  | [], _ => []
  | r :: rs, n => (n, r.1) :: numbered rs (n + 1)

/-- What may follow in a state. -/
def residualsAt (q : Nat) : List (Nat × RE) :=
  match Nat.beq q 1 with
  | true => numbered lexRules 1
  | false => residuals.getD q []

/-- All derivatives of a list of expressions. -/
def derive (b : Nat) (l : List (Nat × RE)) : List (Nat × RE) := l.flatMap fun p => (pd b p.2).map fun r => (p.1, r)

/-- Is the entry in the list? -/
def hasEntry (l : List (Nat × RE)) (p : Nat × RE) : Bool := l.any fun x => Nat.beq x.1 p.1 && eqRE x.2 p.2

/-- The least rule that matches the empty text, 0 if there is none. -/
def leastNull : List (Nat × RE) → Nat
  | [] => 0
  | p :: l =>
    match nullable p.2 with
    | false => leastNull l
    | true =>
      match leastNull l with
      | 0 => p.1
      | m + 1 =>
        match Nat.ble p.1 (m + 1) with
        | true => p.1
        | false => m + 1

/-- What is required of the transition of state `q` over class `c`. -/
def checkCell (q : Nat) (l : List (Nat × RE)) (c b : Nat) : Bool :=
  match followP 3 q c with
  | none => false
  | some t =>
    match Nat.beq t 443 with
    | true =>
      match derive b l with
      | [] => true
      | _ :: _ => false
    | false =>
      Nat.blt 3 t && Nat.blt t 443 && ((derive b l).all fun p => hasEntry (residualsAt t) p) &&
        (residualsAt t).all fun p => hasEntry (derive b l) p

/-- Is the result this state? -/
def isState (t : Nat) : Option Nat → Bool
  | none => false
  | some x => Nat.beq x t

/-- Check the transitions over the classes `c, c + 1, …`, whose representatives are listed. -/
def checkClasses (q : Nat) (l : List (Nat × RE)) : Nat → List Nat → Bool
  | _, [] => true
  | c, b :: bs => checkCell q l c b && checkClasses q l (c + 1) bs

/-- What is required of a state. -/
def checkLexState (q : Nat) (l : List (Nat × RE)) : Bool :=
  checkClasses q l 1 repsN.tail && Nat.beq (look yyAcceptP q) (leastNull l) && Nat.blt (look yyAcceptP q) 113 &&
    isState 3 (followP 3 q 0) && l.all fun p => Nat.blt 0 p.1

/-- Check the states `q, q + 1, …`, but only those reached over bytes. -/
def checkLexFrom : Nat → List (List (Nat × RE)) → Bool
  | _, [] => true
  | q, l :: ls => ((!(Nat.blt 3 q && Nat.blt q 443)) || checkLexState q l) && checkLexFrom (q + 1) ls

/-- Are these the results `t` for all classes below `n`? -/
def allClasses (q t : Nat) : Nat → Bool
  | 0 => true
  | n + 1 => isState t (followP 3 q n) && allClasses q t n

/-- The class of a byte; 0 is in class 1. -/
def classP (b : Nat) : Nat :=
  match b with
  | 0 => 1
  | b + 1 => look yyEcP (b + 1)

/-- Every byte is in the mask of its class, and so is the representative; the first byte leads to an accepting state. -/
def checkByte (b : Nat) : Bool :=
  Nat.blt 0 (classP b) && Nat.blt (classP b) 67 && (classMasks.getD (classP b) 0).testBit b &&
    (classMasks.getD (classP b) 0).testBit (repsN.getD (classP b) 0) &&
    match followP 3 1 (classP b) with
    | none => false
    | some t => Nat.blt 0 (look yyAcceptP t)

set_option maxRecDepth 100000 in
theorem lex_start : checkLexState 1 (numbered lexRules 1) = true := by decide +kernel

set_option maxRecDepth 100000 in
theorem lex_states : checkLexFrom 0 residuals = true := by decide +kernel

set_option maxRecDepth 100000 in
theorem lex_uniform : (lexRules.all fun p => uniform p.1) = true := by decide +kernel

set_option maxRecDepth 100000 in
theorem lex_bytes : ((List.range 256).all checkByte) = true := by decide +kernel

theorem lex_eob : (allClasses 3 443 67 && Nat.beq (look yyAcceptP 3) 114 && Nat.beq (look yyAcceptP 1) 0) = true := by
  decide +kernel

theorem residuals_length : residuals.length = 444 ∧ repsN.length = 67 ∧ classMasks.length = 67 ∧
    lexRules.length = 112 := by decide +kernel

/-! ## The packed tables are the tables -/

theorem accept_pack : pack yyAccept = yyAcceptP ∧ (∀ z ∈ yyAccept, z < 1024) ∧ yyAccept.length = 444 := by
  decide +kernel
theorem ec_pack : pack yyEc = yyEcP ∧ (∀ z ∈ yyEc, z < 67) ∧ yyEc.length = 256 := by decide +kernel
theorem meta_pack : pack yyMeta = yyMetaP ∧ (∀ z ∈ yyMeta, z < 67) ∧ yyMeta.length = 67 := by decide +kernel
theorem base_pack : pack yyBase = yyBaseP ∧ (∀ z ∈ yyBase, z < 583) ∧ yyBase.length = 448 := by decide +kernel
theorem def_pack : pack yyDef = yyDefP ∧ (∀ z ∈ yyDef, z < 448) ∧ yyDef.length = 448 := by decide +kernel
theorem nxt_pack : pack yyNxt = yyNxtP ∧ (∀ z ∈ yyNxt, z < 444) ∧ yyNxt.length = 649 := by decide +kernel
theorem chk_pack : pack yyChk = yyChkP ∧ (∀ z ∈ yyChk, z < 448) ∧ yyChk.length = 649 := by decide +kernel

end Spectre.Scene
