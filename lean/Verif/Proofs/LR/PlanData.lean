import Verif.Proofs.LR.Path
/-!
# How a text can be completed

Generated by `tools/gen_plan.py`; checked in `Proofs/LR/Viable.lean`.  Tables are in rows of ten states.
-/
namespace Verif.LR
open Spec

/-- In each state, the item that is completed: production and number of symbols that have been read. -/
def planTab : List (List (Nat × Nat)) := [
  [(0,0), (0,0), (2,1), (3,1), (18,1), (19,1), (4,1), (83,1), (45,1), (46,1)],
  [(47,1), (48,1), (49,1), (50,1), (51,1), (52,1), (6,1), (7,1), (53,1), (64,1)],
  [(65,1), (79,1), (80,1), (81,1), (82,1), (28,1), (37,1), (39,1), (63,1), (12,1)],
  [(55,1), (58,1), (88,1), (89,1), (90,1), (91,1), (92,1), (93,1), (94,1), (95,1)],
  [(96,1), (103,1), (33,1), (9,1), (106,1), (3,2), (5,2), (17,1), (19,2), (22,1)],
  [(23,1), (109,1), (110,1), (44,2), (54,2), (112,1), (66,2), (67,2), (68,2), (69,2)],
  [(70,2), (71,2), (72,2), (73,2), (74,2), (75,2), (76,2), (77,2), (78,2), (51,2)],
  [(85,1), (83,1), (52,2), (57,2), (65,2), (86,1), (79,2), (81,2), (28,2), (35,2)],
  [(37,2), (39,2), (63,2), (12,2), (14,2), (15,2), (56,2), (58,2), (59,2), (60,1)],
  [(61,1), (90,2), (91,2), (103,2), (105,2), (33,2), (19,3), (21,1), (44,3), (54,3)],
  [(66,3), (67,3), (68,3), (69,3), (70,3), (71,3), (72,3), (73,3), (74,3), (75,3)],
  [(76,3), (77,3), (78,3), (57,3), (65,3), (87,2), (111,1), (28,3), (35,3), (37,3)],
  [(39,3), (63,3), (12,3), (107,1), (14,3), (15,3), (56,3), (59,3), (104,3), (105,3)],
  [(33,3), (57,4), (87,3), (28,4), (35,4), (37,4), (39,4), (63,4), (12,4), (108,2)],
  [(11,1), (14,4), (15,4), (56,4), (59,4), (104,4), (105,4), (33,4), (28,5), (30,1)],
  [(35,5), (40,1), (41,1), (42,1), (43,1), (37,5), (39,5), (63,5), (12,5), (108,3)],
  [(14,5), (101,1), (97,1), (98,1), (15,5), (104,5), (33,5), (28,6), (32,1), (30,2)],
  [(35,6), (42,2), (37,6), (39,6), (63,6), (14,6), (102,2), (99,2), (98,2), (15,6)],
  [(33,6), (28,7), (32,2), (30,3), (35,7), (42,3), (37,7), (14,7), (102,3), (99,3)],
  [(15,7), (33,7), (30,4), (35,8), (37,8), (14,8), (15,8), (25,1), (26,1), (33,8)],
  [(30,5), (35,9), (14,9), (15,9), (27,2), (26,2), (14,10), (15,10), (27,3), (26,3)],
  [(14,11), (27,4)]]

/-- In each state, the tokens that can begin the completion. -/
def firstTab : List (List (List Nat)) := [
  [[], [1], [1], [1], [1,11,16,22,30,31,36], [5], [1], [1,11,16,22,30,31,36], [1,11,16,22,30,31,36], [1,11,16,22,30,31,36]],
  [[1,11,16,22,30,31,36], [1,11,16,22,30,31,36], [1,11,16,22,30,31,36], [1,11,16,22,30,31,36], [1,11,16,22,30,31,36], [1,11,16,22,30,31,36], [1], [1], [1,6,11,13,16,20,21,22,30,31,36,63,66], [1,6,11,13,16,20,21,22,30,31,36,63,66]],
  [[63], [33], [1,6,11,13,16,20,21,22,30,31,36,63,66], [27], [1,6,11,13,16,20,21,22,30,31,36,63,66], [33], [33], [33], [30], [10]],
  [[1,6,11,13,16,20,21,22,30,31,36,63,66], [33], [1,6,11,13,16,20,21,22,30,31,36,63,66], [1,6,11,13,16,20,21,22,30,31,36,63,66], [33], [33], [1,6,11,13,16,20,21,22,30,31,36,63,66], [1,6,11,13,16,20,21,22,30,31,36,63,66], [1,6,11,13,16,20,21,22,30,31,36,63,66], [1,6,11,13,16,20,21,22,30,31,36,63,66]],
  [[1,6,11,13,16,20,21,22,30,31,36,63,66], [8], [62], [10], [1,6,11,13,16,20,21,22,30,31,36,63,66], [1], [1], [1,11,16,22,30,31,36], [1,11,16,22,30,31,36], [1,11,16,22,30,31,36]],
  [[1,11,16,22,30,31,36], [1,11,16,22,30,31,36], [1,11,16,22,30,31,36], [33], [8], [8], [33], [33], [33], [33]],
  [[33], [33], [33], [33], [33], [33], [33], [33], [33], [1,11,16,22,30,31,36]],
  [[1,11,16,22,30,31,36,63], [1,6,11,13,16,20,21,22,30,31,36,63,66], [1,11,16,22,30,31,36], [33], [63], [63], [1,6,11,13,16,20,21,22,30,31,36,63,66], [1,6,11,13,16,20,21,22,30,31,36,63,66], [13], [8]],
  [[20], [21], [30], [8], [8], [8], [63], [1,6,11,13,16,20,21,22,30,31,36,63,66], [33], [1,6,11,13,16,20,21,22,30,31,36,63,66]],
  [[1,6,11,13,16,20,21,22,30,31,36,63,66], [1,6,11,13,16,20,21,22,30,31,36,63,66], [1,6,11,13,16,20,21,22,30,31,36,63,66], [1,6,11,13,16,20,21,22,30,31,36,63,66], [63], [33], [1,11,16,22,30,31,36], [1,11,16,22,30,31,36], [1,11,16,22,30,31,36], [1,6,11,13,16,20,21,22,30,31,36,63,66]],
  [[1,6,11,13,16,20,21,22,30,31,36,63,66], [1,6,11,13,16,20,21,22,30,31,36,63,66], [1,6,11,13,16,20,21,22,30,31,36,63,66], [1,6,11,13,16,20,21,22,30,31,36,63,66], [1,6,11,13,16,20,21,22,30,31,36,63,66], [1,6,11,13,16,20,21,22,30,31,36,63,66], [1,6,11,13,16,20,21,22,30,31,36,63,66], [1,6,11,13,16,20,21,22,30,31,36,63,66], [1,6,11,13,16,20,21,22,30,31,36,63,66], [1,6,11,13,16,20,21,22,30,31,36,63,66]],
  [[1,6,11,13,16,20,21,22,30,31,36,63,66], [1,6,11,13,16,20,21,22,30,31,36,63,66], [1,6,11,13,16,20,21,22,30,31,36,63,66], [66], [1,6,11,13,16,20,21,22,30,31,36,63,66], [63], [8,33,63], [16], [19], [33]],
  [[22], [31], [5], [5], [62], [62], [63], [63], [63], [63]],
  [[6], [1,6,11,13,16,20,21,22,30,31,36,63,66], [63], [16], [8], [21], [22], [31], [5], [8]],
  [[5,11,36], [63], [63], [1,6,11,13,16,20,21,22,30,31,36,63,66], [1,6,11,13,16,20,21,22,30,31,36,63,66], [63], [1,6,11,13,16,20,21,22,30,31,36,63,66], [33], [16], [33]],
  [[21], [21], [21], [34], [21], [22], [22], [31], [1], [5]],
  [[63], [63], [63], [8], [63], [1,6,11,13,16,20,21,22,30,31,36,63,66], [6], [16], [16], [13]],
  [[22], [63], [22], [1,11,16,22,30,31,36], [1,11,16,22,30,31,36], [36], [8], [33], [63], [11]],
  [[33], [1,11,16,22,30,31,36], [16], [16], [22], [21], [22], [36], [63], [63]],
  [[11], [63], [16], [22], [1,11,16,22,30,31,36], [36], [11], [11,36], [8], [1,6,11,13,16,20,21,22,30,31,36,63,66]],
  [[16], [1,11,16,22,30,31,36], [36], [11], [8], [5], [36], [1], [5], [11,36]],
  [[1], [11,36]]]

/-- Bounds the number of reductions that do not shorten the stack. -/
def rankTab : List (List Nat) := [
  [0, 0, 1, 1, 2, 2, 2, 4, 3, 3],
  [3, 3, 3, 3, 3, 3, 3, 3, 5, 4],
  [4, 4, 4, 4, 4, 4, 4, 4, 4, 4],
  [6, 6, 5, 5, 5, 5, 5, 5, 5, 5],
  [5, 5, 5, 5, 6, 0, 0, 1, 0, 1],
  [1, 2, 2, 0, 0, 1, 0, 0, 0, 0],
  [0, 0, 0, 0, 0, 0, 0, 0, 0, 0],
  [2, 3, 0, 0, 0, 1, 0, 0, 0, 0],
  [0, 0, 0, 0, 0, 0, 0, 0, 0, 1],
  [1, 0, 0, 0, 0, 0, 0, 1, 0, 0],
  [0, 0, 0, 0, 0, 0, 0, 0, 0, 0],
  [0, 0, 0, 0, 0, 0, 1, 0, 0, 0],
  [0, 0, 0, 1, 0, 0, 0, 0, 0, 0],
  [0, 0, 0, 0, 0, 0, 0, 0, 0, 0],
  [1, 0, 0, 0, 0, 0, 0, 0, 0, 1],
  [0, 1, 1, 1, 1, 0, 0, 0, 0, 0],
  [0, 1, 2, 2, 0, 0, 0, 0, 1, 0],
  [0, 0, 0, 0, 0, 0, 0, 0, 0, 0],
  [0, 0, 0, 0, 0, 0, 0, 0, 0, 0],
  [0, 0, 0, 0, 0, 0, 0, 1, 2, 0],
  [0, 0, 0, 0, 0, 0, 0, 0, 0, 0],
  [0, 0]]

/-- A token for a terminal in a completion. -/
def minLeaf (a : Terminal) : Tree := .leaf a.kind ⟨if a = .semi then [';'] else [], .str [], [], false⟩

/-- A tree for a symbol in a completion. -/
def minTree : Nat → Tree
  | 8 => minLeaf .ktoken_identifier
  | 10 => minLeaf .kVar
  | 11 => minLeaf .kEndProcedure
  | 13 => minLeaf .kThen
  | 16 => minLeaf .kEndIf
  | 19 => minLeaf .kIn
  | 20 => minLeaf .kTo
  | 21 => minLeaf .kLoop
  | 22 => minLeaf .kEndLoop
  | 30 => minLeaf .kCatch
  | 31 => minLeaf .kEndTry
  | 36 => minLeaf .kEndFunction
  | 62 => minLeaf .lpar
  | 63 => minLeaf .rpar
  | 66 => minLeaf .rbr
  | 102 => .node 16 []
  | 107 => .node 29 []
  | 108 => .node 31 []
  | 109 => .node 20 []
  | 110 => .node 86 [.node 84 []]
  | 111 => .node 64 [.node 88 [minLeaf .kString]]
  | 112 => .node 10 []
  | 114 => .node 88 [minLeaf .kString]
  | 115 => .node 100 []
  | 116 => .node 97 [minLeaf .ktoken_identifier]
  | 117 => .node 84 []
  | 118 => .node 60 [minLeaf .kString]
  | 120 => .node 40 [.node 53 [.node 55 [minLeaf .ktoken_identifier]]]
  | 121 => .node 103 [minLeaf .kNew, minLeaf .ktoken_identifier]
  | 123 => .node 24 []
  | 125 => .node 107 [minLeaf .ktoken_identifier]
  | 127 => .node 55 [minLeaf .ktoken_identifier]
  | 128 => .node 106 [minLeaf .kGoToLabel]
  | 129 => .node 22 [.node 109 [minLeaf .semi]]
  | 130 => .node 109 [minLeaf .semi]
  | 133 => .node 111 [minLeaf .comma]
  | 137 => .node 13 []
  | 138 => .node 34 []
  | 139 => .node 36 []
  | 140 => .node 38 []
  | 142 => .node 62 []
  | _ => minLeaf .semi

/-- The terminals of the completions. -/
def minTerms : List Terminal := [.semi, .comma, .ktoken_identifier, .kVar, .kEndProcedure, .kThen, .kEndIf, .kIn, .kTo, .kLoop, .kEndLoop, .kGoToLabel, .kCatch, .kEndTry, .kString, .kNew, .kEndFunction, .lpar, .rpar, .rbr]

end Verif.LR
