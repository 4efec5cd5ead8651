/-!
# Annotations of the states of the automaton

Generated by `tools/gen_lr.py`; checked against the tables of y.go and the productions in `Proofs/LR/Check.lean`.
All tables are in rows of ten states.
-/
namespace Verif.LR

/-- Entry `i` of a table in rows of ten. -/
def at10 {α : Type} (d : α) (t : List (List α)) (i : Nat) : α := (t.getD (i / 10) []).getD (i % 10) d

/-- Shifts: token and next state. -/
def shiftTab : List (List (List (Nat × Nat))) := [
  [[(7,43), (8,30), (12,25), (17,26), (23,13), (24,21), (26,27), (27,44), (28,12), (29,28), (32,33), (33,32), (34,41), (37,15), (38,14), (45,36), (46,37), (47,39), (49,38), (50,23), (51,31), (55,35), (56,34), (62,20), (64,42)],
   [],
   [],
   [(7,43), (8,30), (12,25), (17,26), (23,13), (24,21), (26,27), (27,44), (28,12), (29,28), (32,33), (33,32), (34,41), (37,15), (38,14), (45,36), (46,37), (47,39), (49,38), (50,23), (51,31), (55,35), (56,34), (62,20), (64,42)],
   [],
   [(4,52), (5,51)],
   [],
   [(40,53), (67,55)],
   [(39,66), (40,63), (41,67), (42,68), (43,64), (44,65), (53,61), (54,62), (55,56), (56,57), (57,58), (58,59), (59,60)],
   []],
  [[],
   [],
   [],
   [],
   [(8,30), (24,21), (27,44), (32,33), (33,32), (34,41), (45,36), (46,37), (47,39), (49,38), (50,23), (51,31), (55,35), (56,34), (62,20), (64,42)],
   [(8,30), (24,21), (27,44), (32,33), (33,32), (34,41), (45,36), (46,37), (47,39), (49,38), (50,23), (51,31), (55,35), (56,34), (62,20), (64,42)],
   [],
   [],
   [(65,73)],
   []],
  [[(8,30), (24,21), (27,44), (32,33), (33,32), (34,41), (45,36), (46,37), (47,39), (49,38), (50,23), (51,31), (55,35), (56,34), (62,20), (64,42)],
   [(8,30), (24,21), (27,44), (32,33), (33,32), (34,41), (45,36), (46,37), (47,39), (49,38), (50,23), (51,31), (55,35), (56,34), (62,20), (64,42)],
   [],
   [(27,44)],
   [],
   [(8,30), (24,21), (27,44), (32,33), (33,32), (34,41), (45,36), (46,37), (47,39), (49,38), (50,23), (51,31), (55,35), (56,34), (62,20), (64,42)],
   [(8,30), (18,79), (24,21), (27,44), (32,33), (33,32), (34,41), (45,36), (46,37), (47,39), (49,38), (50,23), (51,31), (55,35), (56,34), (62,20), (64,42)],
   [(8,30), (24,21), (27,44), (32,33), (33,32), (34,41), (45,36), (46,37), (47,39), (49,38), (50,23), (51,31), (55,35), (56,34), (62,20), (64,42)],
   [(8,30), (12,25), (17,26), (23,13), (24,21), (26,27), (27,44), (28,12), (29,28), (32,33), (33,32), (34,41), (37,15), (38,14), (45,36), (46,37), (47,39), (49,38), (50,23), (51,31), (55,35), (56,34), (62,20), (64,42)],
   [(9,85), (10,83), (35,84)]],
  [[(62,86)],
   [(8,90), (33,89), (62,88)],
   [],
   [],
   [(8,30), (24,21), (27,44), (32,33), (33,32), (34,41), (45,36), (46,37), (47,39), (49,38), (50,23), (51,31), (55,35), (56,34), (62,20), (64,42)],
   [(8,30), (24,21), (27,44), (32,33), (33,32), (34,41), (45,36), (46,37), (47,39), (49,38), (50,23), (51,31), (55,35), (56,34), (62,20), (64,42)],
   [],
   [],
   [],
   []],
  [[],
   [(8,93), (62,94)],
   [(62,95)],
   [],
   [],
   [(4,52), (5,51)],
   [],
   [],
   [(8,30), (12,25), (17,26), (23,13), (24,21), (26,27), (27,44), (28,12), (29,28), (32,33), (33,32), (34,41), (37,15), (38,14), (45,36), (46,37), (47,39), (49,38), (50,23), (51,31), (55,35), (56,34), (62,20), (64,42)],
   []],
  [[],
   [],
   [],
   [(8,30), (24,21), (27,44), (32,33), (33,32), (34,41), (45,36), (46,37), (47,39), (49,38), (50,23), (51,31), (55,35), (56,34), (62,20), (64,42)],
   [(8,30), (51,31)],
   [],
   [(8,30), (24,21), (27,44), (32,33), (33,32), (34,41), (45,36), (46,37), (47,39), (49,38), (50,23), (51,31), (55,35), (56,34), (62,20), (64,42)],
   [(8,30), (24,21), (27,44), (32,33), (33,32), (34,41), (45,36), (46,37), (47,39), (49,38), (50,23), (51,31), (55,35), (56,34), (62,20), (64,42)],
   [(8,30), (24,21), (27,44), (32,33), (33,32), (34,41), (45,36), (46,37), (47,39), (49,38), (50,23), (51,31), (55,35), (56,34), (62,20), (64,42)],
   [(8,30), (24,21), (27,44), (32,33), (33,32), (34,41), (45,36), (46,37), (47,39), (49,38), (50,23), (51,31), (55,35), (56,34), (62,20), (64,42)]],
  [[(8,30), (24,21), (27,44), (32,33), (33,32), (34,41), (45,36), (46,37), (47,39), (49,38), (50,23), (51,31), (55,35), (56,34), (62,20), (64,42)],
   [(8,30), (24,21), (27,44), (32,33), (33,32), (34,41), (45,36), (46,37), (47,39), (49,38), (50,23), (51,31), (55,35), (56,34), (62,20), (64,42)],
   [(8,30), (24,21), (27,44), (32,33), (33,32), (34,41), (45,36), (46,37), (47,39), (49,38), (50,23), (51,31), (55,35), (56,34), (62,20), (64,42)],
   [(8,30), (24,21), (27,44), (32,33), (33,32), (34,41), (45,36), (46,37), (47,39), (49,38), (50,23), (51,31), (55,35), (56,34), (62,20), (64,42)],
   [(8,30), (24,21), (27,44), (32,33), (33,32), (34,41), (45,36), (46,37), (47,39), (49,38), (50,23), (51,31), (55,35), (56,34), (62,20), (64,42)],
   [(8,30), (24,21), (27,44), (32,33), (33,32), (34,41), (45,36), (46,37), (47,39), (49,38), (50,23), (51,31), (55,35), (56,34), (62,20), (64,42)],
   [(8,30), (24,21), (27,44), (32,33), (33,32), (34,41), (45,36), (46,37), (47,39), (49,38), (50,23), (51,31), (55,35), (56,34), (62,20), (64,42)],
   [(8,30), (24,21), (27,44), (32,33), (33,32), (34,41), (45,36), (46,37), (47,39), (49,38), (50,23), (51,31), (55,35), (56,34), (62,20), (64,42)],
   [(8,30), (24,21), (27,44), (32,33), (33,32), (34,41), (45,36), (46,37), (47,39), (49,38), (50,23), (51,31), (55,35), (56,34), (62,20), (64,42)],
   []],
  [[(39,66), (40,63), (41,67), (42,68), (43,64), (44,65), (53,61), (54,62), (55,56), (56,57), (57,58), (58,59), (59,60)],
   [(67,55)],
   [],
   [(8,30), (24,21), (27,44), (32,33), (33,32), (34,41), (45,36), (46,37), (47,39), (49,38), (50,23), (51,31), (55,35), (56,34), (62,20), (64,42)],
   [(6,116), (63,114)],
   [],
   [(40,63), (53,61), (54,62), (55,56), (56,57), (57,58), (58,59), (59,60)],
   [],
   [(13,117), (39,66), (40,63), (41,67), (42,68), (43,64), (44,65), (53,61), (54,62), (55,56), (56,57), (57,58), (58,59), (59,60)],
   [(8,118)]],
  [[(20,119), (39,66), (40,63), (41,67), (42,68), (43,64), (44,65), (53,61), (54,62), (55,56), (56,57), (57,58), (58,59), (59,60)],
   [(21,120), (39,66), (40,63), (41,67), (42,68), (43,64), (44,65), (53,61), (54,62), (55,56), (56,57), (57,58), (58,59), (59,60)],
   [(4,52), (5,51), (30,121)],
   [(8,123)],
   [(8,124)],
   [(8,125)],
   [(8,30), (24,21), (27,44), (32,33), (33,32), (34,41), (45,36), (46,37), (47,39), (49,38), (50,23), (51,31), (55,35), (56,34), (62,20), (64,42)],
   [],
   [(8,30), (24,21), (27,44), (32,33), (33,32), (34,41), (45,36), (46,37), (47,39), (49,38), (50,23), (51,31), (55,35), (56,34), (62,20), (64,42)],
   []],
  [[],
   [],
   [],
   [(62,128)],
   [(8,30), (24,21), (27,44), (32,33), (33,32), (34,41), (45,36), (46,37), (47,39), (49,38), (50,23), (51,31), (55,35), (56,34), (62,20), (64,42)],
   [(8,30), (24,21), (27,44), (32,33), (33,32), (34,41), (45,36), (46,37), (47,39), (49,38), (50,23), (51,31), (55,35), (56,34), (62,20), (64,42)],
   [],
   [],
   [(39,66), (40,63), (41,67), (42,68), (43,64), (44,65), (53,61), (54,62), (55,56), (56,57), (57,58), (58,59), (59,60)],
   [(65,73)]],
  [[(57,58), (58,59), (59,60)],
   [(57,58), (58,59), (59,60)],
   [],
   [],
   [],
   [(55,56), (56,57), (57,58), (58,59), (59,60)],
   [(55,56), (56,57), (57,58), (58,59), (59,60)],
   [(53,61), (54,62), (55,56), (56,57), (57,58), (58,59), (59,60)],
   [(39,66), (40,63), (41,67), (42,68), (44,65), (53,61), (54,62), (55,56), (56,57), (57,58), (58,59), (59,60)],
   [(39,66), (40,63), (41,67), (42,68), (53,61), (54,62), (55,56), (56,57), (57,58), (58,59), (59,60)]],
  [[(40,63), (41,67), (42,68), (53,61), (54,62), (55,56), (56,57), (57,58), (58,59), (59,60)],
   [(40,63), (42,68), (53,61), (54,62), (55,56), (56,57), (57,58), (58,59), (59,60)],
   [(40,63), (53,61), (54,62), (55,56), (56,57), (57,58), (58,59), (59,60)],
   [(39,66), (40,63), (41,67), (42,68), (43,64), (44,65), (53,61), (54,62), (55,56), (56,57), (57,58), (58,59), (59,60), (66,131)],
   [],
   [(8,30), (24,21), (27,44), (32,33), (33,32), (34,41), (45,36), (46,37), (47,39), (49,38), (50,23), (51,31), (55,35), (56,34), (62,20), (64,42)],
   [],
   [(8,30), (12,25), (17,26), (23,13), (24,21), (26,27), (27,44), (28,12), (29,28), (32,33), (33,32), (34,41), (37,15), (38,14), (45,36), (46,37), (47,39), (49,38), (50,23), (51,31), (55,35), (56,34), (62,20), (64,42)],
   [(19,134)],
   [(8,30), (24,21), (27,44), (32,33), (33,32), (34,41), (45,36), (46,37), (47,39), (49,38), (50,23), (51,31), (55,35), (56,34), (62,20), (64,42)]],
  [[],
   [],
   [(6,116), (48,140)],
   [],
   [(62,141)],
   [(62,142)],
   [(6,116), (63,143)],
   [(39,66), (40,63), (41,67), (42,68), (43,64), (44,65), (53,61), (54,62), (55,56), (56,57), (57,58), (58,59), (59,60), (63,144)],
   [(8,30), (24,21), (27,44), (32,33), (33,32), (34,41), (45,36), (46,37), (47,39), (49,38), (50,23), (51,31), (55,35), (56,34), (62,20), (64,42)],
   [(6,116), (63,146)]],
  [[(6,116), (39,66), (40,63), (41,67), (42,68), (43,64), (44,65), (53,61), (54,62), (55,56), (56,57), (57,58), (58,59), (59,60)],
   [],
   [],
   [(4,52), (5,51), (14,149)],
   [(8,30), (34,41), (51,31), (62,153), (64,42)],
   [(21,155), (39,66), (40,63), (41,67), (42,68), (43,64), (44,65), (53,61), (54,62), (55,56), (56,57), (57,58), (58,59), (59,60)],
   [(8,30), (12,25), (17,26), (23,13), (24,21), (26,27), (27,44), (28,12), (29,28), (32,33), (33,32), (34,41), (37,15), (38,14), (45,36), (46,37), (47,39), (49,38), (50,23), (51,31), (55,35), (56,34), (62,20), (64,42)],
   [(8,30), (12,25), (17,26), (23,13), (24,21), (26,27), (27,44), (28,12), (29,28), (32,33), (33,32), (34,41), (37,15), (38,14), (45,36), (46,37), (47,39), (49,38), (50,23), (51,31), (55,35), (56,34), (62,20), (64,42)],
   [(5,51)],
   [(8,159)]],
  [[],
   [(8,162), (25,163)],
   [(8,162), (25,163)],
   [],
   [],
   [(6,116), (63,165)],
   [],
   [(8,30), (24,21), (27,44), (32,33), (33,32), (34,41), (45,36), (46,37), (47,39), (49,38), (50,23), (51,31), (55,35), (56,34), (62,20), (64,42)],
   [(15,168)],
   [(8,30), (24,21), (27,44), (32,33), (33,32), (34,41), (45,36), (46,37), (47,39), (49,38), (50,23), (51,31), (55,35), (56,34), (62,20), (64,42)]],
  [[(21,170)],
   [(67,55)],
   [],
   [(34,41)],
   [],
   [],
   [(4,52), (5,51), (22,173)],
   [(4,52), (5,51), (31,174)],
   [],
   []],
  [[(6,116), (63,175)],
   [(40,177)],
   [],
   [(8,178)],
   [(6,116), (63,179)],
   [],
   [(6,116), (39,66), (40,63), (41,67), (42,68), (43,64), (44,65), (53,61), (54,62), (55,56), (56,57), (57,58), (58,59), (59,60)],
   [(16,181)],
   [(8,30), (12,25), (17,26), (23,13), (24,21), (26,27), (27,44), (28,12), (29,28), (32,33), (33,32), (34,41), (37,15), (38,14), (45,36), (46,37), (47,39), (49,38), (50,23), (51,31), (55,35), (56,34), (62,20), (64,42)],
   [(13,183), (39,66), (40,63), (41,67), (42,68), (43,64), (44,65), (53,61), (54,62), (55,56), (56,57), (57,58), (58,59), (59,60)]],
  [[],
   [(63,185)],
   [(8,30), (12,25), (17,26), (23,13), (24,21), (26,27), (27,44), (28,12), (29,28), (32,33), (33,32), (34,41), (37,15), (38,14), (45,36), (46,37), (47,39), (49,38), (50,23), (51,31), (55,35), (56,34), (62,20), (64,42)],
   [],
   [],
   [(48,140)],
   [(8,162), (25,163)],
   [(27,44), (32,33), (33,32), (45,36), (46,37), (47,39), (49,38), (55,35), (56,34)],
   [],
   [(48,140)]],
  [[(8,30), (24,21), (27,44), (32,33), (33,32), (34,41), (45,36), (46,37), (47,39), (49,38), (50,23), (51,31), (55,35), (56,34), (62,20), (64,42)],
   [],
   [(4,52), (5,51)],
   [(8,30), (12,25), (17,26), (23,13), (24,21), (26,27), (27,44), (28,12), (29,28), (32,33), (33,32), (34,41), (37,15), (38,14), (45,36), (46,37), (47,39), (49,38), (50,23), (51,31), (55,35), (56,34), (62,20), (64,42)],
   [(8,30), (12,25), (17,26), (23,13), (24,21), (26,27), (27,44), (28,12), (29,28), (32,33), (33,32), (34,41), (37,15), (38,14), (45,36), (46,37), (47,39), (49,38), (50,23), (51,31), (55,35), (56,34), (62,20), (64,42)],
   [],
   [(4,52), (5,51), (22,194)],
   [],
   [(40,177)],
   []],
  [[(10,198)],
   [(39,66), (40,63), (41,67), (42,68), (43,64), (44,65), (53,61), (54,62), (55,56), (56,57), (57,58), (58,59), (59,60), (63,199)],
   [(4,52), (5,51), (14,149)],
   [(4,52), (5,51), (22,201)],
   [],
   [(10,198)],
   [(8,30), (12,25), (17,26), (23,13), (24,21), (26,27), (27,44), (28,12), (29,28), (32,33), (33,32), (34,41), (37,15), (38,14), (45,36), (46,37), (47,39), (49,38), (50,23), (51,31), (55,35), (56,34), (62,20), (64,42)],
   [(10,204)],
   [(8,123)],
   []],
  [[],
   [],
   [(8,30), (12,25), (17,26), (23,13), (24,21), (26,27), (27,44), (28,12), (29,28), (32,33), (33,32), (34,41), (37,15), (38,14), (45,36), (46,37), (47,39), (49,38), (50,23), (51,31), (55,35), (56,34), (62,20), (64,42)],
   [(4,52), (5,51), (11,207)],
   [(8,123)],
   [(5,51), (6,116)],
   [(4,52), (5,51), (36,210)],
   [],
   [(5,51), (6,116)],
   []],
  [[],
   []]]

/-- Gotos: nonterminal and next state. -/
def gotoTab : List (List (List (Nat × Nat))) := [
  [[(101,2), (102,5), (103,4), (104,10), (105,17), (106,9), (111,8), (113,29), (114,19), (119,7), (121,22), (122,24), (126,11), (127,18), (128,40), (132,16), (134,1), (135,3), (136,6)],
   [],
   [],
   [(101,47), (102,45), (103,4), (104,10), (105,17), (106,9), (111,8), (113,29), (114,19), (119,7), (121,22), (122,24), (126,11), (127,18), (128,40), (132,16), (136,46)],
   [],
   [(129,48), (130,49), (131,50)],
   [],
   [(141,54)],
   [],
   []],
  [[],
   [],
   [],
   [],
   [(111,70), (114,19), (117,69), (119,71), (121,22), (122,24), (127,18), (128,40)],
   [(111,70), (114,19), (117,72), (119,71), (121,22), (122,24), (127,18), (128,40)],
   [],
   [],
   [],
   []],
  [[(110,74), (111,70), (114,19), (117,75), (119,71), (121,22), (122,24), (127,18), (128,40)],
   [(111,76), (114,19), (119,71), (121,22), (122,24), (127,18), (128,40)],
   [],
   [(128,77)],
   [],
   [(111,78), (114,19), (119,71), (121,22), (122,24), (127,18), (128,40)],
   [(111,80), (114,19), (119,71), (121,22), (122,24), (127,18), (128,40)],
   [(111,81), (114,19), (119,71), (121,22), (122,24), (127,18), (128,40)],
   [(101,47), (102,82), (103,4), (104,10), (106,9), (111,8), (114,19), (119,7), (121,22), (122,24), (126,11), (127,18), (128,40)],
   []],
  [[],
   [(118,87)],
   [],
   [],
   [(111,91), (114,19), (119,71), (121,22), (122,24), (127,18), (128,40)],
   [(111,92), (114,19), (119,71), (121,22), (122,24), (127,18), (128,40)],
   [],
   [],
   [],
   []],
  [[],
   [],
   [],
   [],
   [],
   [(129,48), (130,49), (131,50)],
   [],
   [],
   [(103,97), (104,10), (106,9), (109,96), (111,8), (114,19), (119,7), (121,22), (122,24), (126,11), (127,18), (128,40)],
   []],
  [[],
   [],
   [],
   [(111,98), (114,19), (119,71), (121,22), (122,24), (127,18), (128,40)],
   [(127,99)],
   [],
   [(111,100), (114,19), (119,71), (121,22), (122,24), (127,18), (128,40)],
   [(111,101), (114,19), (119,71), (121,22), (122,24), (127,18), (128,40)],
   [(111,102), (114,19), (119,71), (121,22), (122,24), (127,18), (128,40)],
   [(111,103), (114,19), (119,71), (121,22), (122,24), (127,18), (128,40)]],
  [[(111,104), (114,19), (119,71), (121,22), (122,24), (127,18), (128,40)],
   [(111,105), (114,19), (119,71), (121,22), (122,24), (127,18), (128,40)],
   [(111,106), (114,19), (119,71), (121,22), (122,24), (127,18), (128,40)],
   [(111,107), (114,19), (119,71), (121,22), (122,24), (127,18), (128,40)],
   [(111,108), (114,19), (119,71), (121,22), (122,24), (127,18), (128,40)],
   [(111,109), (114,19), (119,71), (121,22), (122,24), (127,18), (128,40)],
   [(111,110), (114,19), (119,71), (121,22), (122,24), (127,18), (128,40)],
   [(111,111), (114,19), (119,71), (121,22), (122,24), (127,18), (128,40)],
   [(111,112), (114,19), (119,71), (121,22), (122,24), (127,18), (128,40)],
   []],
  [[],
   [(141,54)],
   [],
   [(111,113), (114,19), (119,71), (121,22), (122,24), (127,18), (128,40)],
   [(133,115)],
   [],
   [],
   [],
   [],
   []],
  [[],
   [],
   [(129,48), (130,49), (131,50)],
   [(125,122)],
   [],
   [],
   [(110,126), (111,70), (114,19), (117,75), (119,71), (121,22), (122,24), (127,18), (128,40)],
   [],
   [(111,127), (114,19), (119,71), (121,22), (122,24), (127,18), (128,40)],
   []],
  [[],
   [],
   [],
   [],
   [(110,129), (111,70), (114,19), (117,75), (119,71), (121,22), (122,24), (127,18), (128,40)],
   [(111,130), (114,19), (119,71), (121,22), (122,24), (127,18), (128,40)],
   [],
   [],
   [],
   []],
  [[],
   [],
   [],
   [],
   [],
   [],
   [],
   [],
   [],
   []],
  [[],
   [],
   [],
   [],
   [],
   [(111,70), (114,19), (117,132), (119,71), (121,22), (122,24), (127,18), (128,40)],
   [],
   [(101,47), (102,133), (103,4), (104,10), (106,9), (111,8), (114,19), (119,7), (121,22), (122,24), (126,11), (127,18), (128,40)],
   [],
   [(111,135), (114,19), (119,71), (121,22), (122,24), (127,18), (128,40)]],
  [[(140,136)],
   [(142,137)],
   [(112,138), (133,139)],
   [],
   [],
   [],
   [(133,115)],
   [],
   [(110,145), (111,70), (114,19), (117,75), (119,71), (121,22), (122,24), (127,18), (128,40)],
   [(133,115)]],
  [[(133,147)],
   [],
   [],
   [(107,148), (129,48), (130,49), (131,50)],
   [(119,151), (120,150), (121,152), (122,154), (127,18)],
   [],
   [(101,47), (102,156), (103,4), (104,10), (106,9), (111,8), (114,19), (119,7), (121,22), (122,24), (126,11), (127,18), (128,40)],
   [(101,47), (102,157), (103,4), (104,10), (106,9), (111,8), (114,19), (119,7), (121,22), (122,24), (126,11), (127,18), (128,40)],
   [(130,158)],
   []],
  [[],
   [(115,160), (116,161)],
   [(115,164), (116,161)],
   [],
   [],
   [(133,115)],
   [],
   [(111,166), (114,19), (119,71), (121,22), (122,24), (127,18), (128,40)],
   [(108,167)],
   [(111,169), (114,19), (119,71), (121,22), (122,24), (127,18), (128,40)]],
  [[],
   [(141,54)],
   [],
   [(121,171)],
   [],
   [(139,172)],
   [(129,48), (130,49), (131,50)],
   [(129,48), (130,49), (131,50)],
   [],
   []],
  [[(133,176)],
   [],
   [],
   [],
   [(133,176)],
   [],
   [(133,180)],
   [],
   [(101,47), (102,182), (103,4), (104,10), (106,9), (111,8), (114,19), (119,7), (121,22), (122,24), (126,11), (127,18), (128,40)],
   []],
  [[(138,184)],
   [],
   [(101,47), (102,186), (103,4), (104,10), (106,9), (111,8), (114,19), (119,7), (121,22), (122,24), (126,11), (127,18), (128,40)],
   [],
   [],
   [(112,187)],
   [(116,188)],
   [(114,189), (128,40)],
   [],
   [(112,190)]],
  [[(111,191), (114,19), (119,71), (121,22), (122,24), (127,18), (128,40)],
   [],
   [(129,48), (130,49), (131,50)],
   [(101,47), (102,192), (103,4), (104,10), (106,9), (111,8), (114,19), (119,7), (121,22), (122,24), (126,11), (127,18), (128,40)],
   [(101,47), (102,193), (103,4), (104,10), (106,9), (111,8), (114,19), (119,7), (121,22), (122,24), (126,11), (127,18), (128,40)],
   [],
   [(129,48), (130,49), (131,50)],
   [(137,195)],
   [],
   []],
  [[(123,196), (124,197)],
   [],
   [(107,200), (129,48), (130,49), (131,50)],
   [(129,48), (130,49), (131,50)],
   [],
   [(123,202), (124,197)],
   [(101,47), (102,203), (103,4), (104,10), (106,9), (111,8), (114,19), (119,7), (121,22), (122,24), (126,11), (127,18), (128,40)],
   [],
   [(125,205)],
   []],
  [[],
   [],
   [(101,47), (102,206), (103,4), (104,10), (106,9), (111,8), (114,19), (119,7), (121,22), (122,24), (126,11), (127,18), (128,40)],
   [(129,48), (130,49), (131,50)],
   [(125,208)],
   [(130,209), (133,139)],
   [(129,48), (130,49), (131,50)],
   [],
   [(130,211), (133,139)],
   []],
  [[],
   []]]

/-- Kernel items: production and position of the dot (> 0). -/
def kernTab : List (List (List (Nat × Nat))) := [
  [[],
   [(0,1)],
   [(2,1), (17,1)],
   [(3,1), (5,1)],
   [(18,1)],
   [(19,1)],
   [(4,1)],
   [(44,1), (54,1), (83,1)],
   [(45,1), (66,1), (67,1), (68,1), (69,1), (70,1), (71,1), (72,1), (73,1), (74,1), (75,1), (76,1), (77,1), (78,1)],
   [(46,1)]],
  [[(47,1)],
   [(48,1)],
   [(49,1)],
   [(50,1)],
   [(51,1)],
   [(52,1)],
   [(6,1)],
   [(7,1)],
   [(53,1), (57,1)],
   [(64,1)]],
  [[(65,1)],
   [(79,1)],
   [(80,1)],
   [(81,1)],
   [(82,1)],
   [(28,1)],
   [(35,1), (37,1)],
   [(39,1)],
   [(63,1)],
   [(12,1), (14,1), (15,1)]],
  [[(55,1), (56,1)],
   [(58,1), (59,1)],
   [(88,1)],
   [(89,1)],
   [(90,1)],
   [(91,1)],
   [(92,1)],
   [(93,1)],
   [(94,1)],
   [(95,1)]],
  [[(96,1)],
   [(103,1), (104,1), (105,1)],
   [(33,1)],
   [(9,1)],
   [(106,1)],
   [(3,2), (19,1)],
   [(5,2)],
   [(17,1)],
   [(19,2)],
   [(22,1)]],
  [[(23,1)],
   [(109,1)],
   [(110,1)],
   [(44,2)],
   [(54,2)],
   [(112,1)],
   [(66,2)],
   [(67,2)],
   [(68,2)],
   [(69,2)]],
  [[(70,2)],
   [(71,2)],
   [(72,2)],
   [(73,2)],
   [(74,2)],
   [(75,2)],
   [(76,2)],
   [(77,2)],
   [(78,2)],
   [(51,2)]],
  [[(66,1), (67,1), (68,1), (69,1), (70,1), (71,1), (72,1), (73,1), (74,1), (75,1), (76,1), (77,1), (78,1), (85,1)],
   [(54,1), (83,1)],
   [(52,2)],
   [(57,2)],
   [(65,2), (87,1)],
   [(86,1)],
   [(66,1), (67,1), (68,1), (69,1), (70,1), (71,1), (72,1), (73,1), (74,1), (75,1), (76,1), (77,1), (78,1), (79,2)],
   [(81,2)],
   [(28,2), (66,1), (67,1), (68,1), (69,1), (70,1), (71,1), (72,1), (73,1), (74,1), (75,1), (76,1), (77,1), (78,1)],
   [(35,2)]],
  [[(37,2), (66,1), (67,1), (68,1), (69,1), (70,1), (71,1), (72,1), (73,1), (74,1), (75,1), (76,1), (77,1), (78,1)],
   [(39,2), (66,1), (67,1), (68,1), (69,1), (70,1), (71,1), (72,1), (73,1), (74,1), (75,1), (76,1), (77,1), (78,1)],
   [(19,1), (63,2)],
   [(12,2)],
   [(14,2)],
   [(15,2)],
   [(56,2)],
   [(58,2)],
   [(59,2)],
   [(60,1)]],
  [[(61,1)],
   [(66,1), (67,1), (68,1), (69,1), (70,1), (71,1), (72,1), (73,1), (74,1), (75,1), (76,1), (77,1), (78,1), (90,2)],
   [(66,1), (67,1), (68,1), (69,1), (70,1), (71,1), (72,1), (73,1), (74,1), (75,1), (76,1), (77,1), (78,1), (91,2)],
   [(103,2), (104,2)],
   [(105,2)],
   [(33,2)],
   [(19,3)],
   [(21,1)],
   [(44,3), (66,1), (67,1), (68,1), (69,1), (70,1), (71,1), (72,1), (73,1), (74,1), (75,1), (76,1), (77,1), (78,1)],
   [(54,3), (57,1)]],
  [[(66,1), (66,3), (67,1), (68,1), (69,1), (70,1), (71,1), (72,1), (73,1), (74,1), (75,1), (76,1), (77,1), (78,1)],
   [(66,1), (67,1), (67,3), (68,1), (69,1), (70,1), (71,1), (72,1), (73,1), (74,1), (75,1), (76,1), (77,1), (78,1)],
   [(66,1), (67,1), (68,1), (68,3), (69,1), (70,1), (71,1), (72,1), (73,1), (74,1), (75,1), (76,1), (77,1), (78,1)],
   [(66,1), (67,1), (68,1), (69,1), (69,3), (70,1), (71,1), (72,1), (73,1), (74,1), (75,1), (76,1), (77,1), (78,1)],
   [(66,1), (67,1), (68,1), (69,1), (70,1), (70,3), (71,1), (72,1), (73,1), (74,1), (75,1), (76,1), (77,1), (78,1)],
   [(66,1), (67,1), (68,1), (69,1), (70,1), (71,1), (71,3), (72,1), (73,1), (74,1), (75,1), (76,1), (77,1), (78,1)],
   [(66,1), (67,1), (68,1), (69,1), (70,1), (71,1), (72,1), (72,3), (73,1), (74,1), (75,1), (76,1), (77,1), (78,1)],
   [(66,1), (67,1), (68,1), (69,1), (70,1), (71,1), (72,1), (73,1), (73,3), (74,1), (75,1), (76,1), (77,1), (78,1)],
   [(66,1), (67,1), (68,1), (69,1), (70,1), (71,1), (72,1), (73,1), (74,1), (74,3), (75,1), (76,1), (77,1), (78,1)],
   [(66,1), (67,1), (68,1), (69,1), (70,1), (71,1), (72,1), (73,1), (74,1), (75,1), (75,3), (76,1), (77,1), (78,1)]],
  [[(66,1), (67,1), (68,1), (69,1), (70,1), (71,1), (72,1), (73,1), (74,1), (75,1), (76,1), (76,3), (77,1), (78,1)],
   [(66,1), (67,1), (68,1), (69,1), (70,1), (71,1), (72,1), (73,1), (74,1), (75,1), (76,1), (77,1), (77,3), (78,1)],
   [(66,1), (67,1), (68,1), (69,1), (70,1), (71,1), (72,1), (73,1), (74,1), (75,1), (76,1), (77,1), (78,1), (78,3)],
   [(57,3), (66,1), (67,1), (68,1), (69,1), (70,1), (71,1), (72,1), (73,1), (74,1), (75,1), (76,1), (77,1), (78,1)],
   [(65,3)],
   [(87,2)],
   [(111,1)],
   [(28,3)],
   [(35,3)],
   [(37,3)]],
  [[(39,3)],
   [(63,3)],
   [(12,3), (108,1)],
   [(107,1)],
   [(14,3)],
   [(15,3)],
   [(56,3), (87,1)],
   [(59,3), (66,1), (67,1), (68,1), (69,1), (70,1), (71,1), (72,1), (73,1), (74,1), (75,1), (76,1), (77,1), (78,1)],
   [(104,3)],
   [(87,1), (105,3)]],
  [[(33,3), (66,1), (67,1), (68,1), (69,1), (70,1), (71,1), (72,1), (73,1), (74,1), (75,1), (76,1), (77,1), (78,1)],
   [(57,4)],
   [(87,3)],
   [(19,1), (28,4)],
   [(35,4)],
   [(37,4), (66,1), (67,1), (68,1), (69,1), (70,1), (71,1), (72,1), (73,1), (74,1), (75,1), (76,1), (77,1), (78,1)],
   [(39,4)],
   [(63,4)],
   [(12,4)],
   [(108,2)]],
  [[(11,1)],
   [(14,4)],
   [(15,4)],
   [(56,4)],
   [(59,4)],
   [(87,1), (104,4)],
   [(105,4)],
   [(33,4)],
   [(28,5)],
   [(30,1)]],
  [[(35,5)],
   [(40,1), (54,1)],
   [(41,1)],
   [(42,1)],
   [(43,1)],
   [(37,5)],
   [(19,1), (39,5)],
   [(19,1), (63,5)],
   [(12,5)],
   [(108,3)]],
  [[(14,5), (102,1)],
   [(99,1), (101,1)],
   [(97,1)],
   [(98,1)],
   [(15,5), (102,1)],
   [(104,5)],
   [(33,5), (66,1), (67,1), (68,1), (69,1), (70,1), (71,1), (72,1), (73,1), (74,1), (75,1), (76,1), (77,1), (78,1)],
   [(28,6)],
   [(32,1)],
   [(30,2), (66,1), (67,1), (68,1), (69,1), (70,1), (71,1), (72,1), (73,1), (74,1), (75,1), (76,1), (77,1), (78,1)]],
  [[(35,6)],
   [(42,2)],
   [(37,6)],
   [(39,6)],
   [(63,6)],
   [(14,6)],
   [(102,2)],
   [(99,2)],
   [(98,2)],
   [(15,6)]],
  [[(33,6)],
   [(28,7)],
   [(19,1), (32,2)],
   [(30,3)],
   [(35,7)],
   [(42,3)],
   [(19,1), (37,7)],
   [(14,7)],
   [(99,1), (102,3)],
   [(99,3)]],
  [[(15,7)],
   [(33,7), (66,1), (67,1), (68,1), (69,1), (70,1), (71,1), (72,1), (73,1), (74,1), (75,1), (76,1), (77,1), (78,1)],
   [(19,1), (30,4)],
   [(19,1), (35,8)],
   [(37,8)],
   [(14,8)],
   [(15,8)],
   [(25,1), (27,1)],
   [(26,1)],
   [(33,8)]],
  [[(30,5)],
   [(35,9)],
   [(14,9)],
   [(15,9), (19,1)],
   [(27,2)],
   [(26,2), (108,1)],
   [(14,10), (19,1)],
   [(15,10)],
   [(27,3), (108,1)],
   [(26,3)]],
  [[(14,11)],
   [(27,4)]]]

/-- Symbol by which the state is entered. -/
def accTab : List (List (Nat)) := [
  [0,
   134,
   101,
   135,
   103,
   102,
   136,
   119,
   111,
   106],
  [104,
   126,
   28,
   23,
   38,
   37,
   132,
   105,
   127,
   114],
  [62,
   24,
   121,
   50,
   122,
   12,
   17,
   26,
   29,
   113],
  [8,
   51,
   33,
   32,
   56,
   55,
   45,
   46,
   49,
   47],
  [128,
   34,
   64,
   7,
   27,
   102,
   136,
   101,
   129,
   130],
  [131,
   5,
   4,
   40,
   141,
   67,
   55,
   56,
   57,
   58],
  [59,
   53,
   54,
   40,
   43,
   44,
   39,
   41,
   42,
   117],
  [111,
   119,
   117,
   65,
   110,
   117,
   111,
   128,
   111,
   18],
  [111,
   111,
   102,
   10,
   35,
   9,
   62,
   118,
   62,
   33],
  [8,
   111,
   111,
   8,
   62,
   62,
   109,
   103,
   111,
   127],
  [111,
   111,
   111,
   111,
   111,
   111,
   111,
   111,
   111,
   111],
  [111,
   111,
   111,
   111,
   63,
   133,
   6,
   13,
   8,
   20],
  [21,
   30,
   125,
   8,
   8,
   8,
   110,
   111,
   62,
   110],
  [111,
   66,
   117,
   102,
   19,
   111,
   140,
   142,
   112,
   133],
  [48,
   62,
   62,
   63,
   63,
   110,
   63,
   133,
   107,
   14],
  [120,
   119,
   121,
   62,
   122,
   21,
   102,
   102,
   130,
   8],
  [115,
   116,
   8,
   25,
   115,
   63,
   111,
   108,
   15,
   111],
  [21,
   121,
   139,
   22,
   31,
   63,
   133,
   40,
   8,
   63],
  [133,
   16,
   102,
   13,
   138,
   63,
   102,
   112,
   116,
   114],
  [112,
   111,
   102,
   102,
   22,
   137,
   123,
   124,
   10,
   63],
  [107,
   22,
   123,
   102,
   10,
   125,
   102,
   11,
   125,
   130],
  [36,
   130]]

/-- Potential. -/
def potTab : List (List (Nat)) := [
  [3,
   0,
   1,
   3,
   8,
   0,
   4,
   10,
   9,
   9],
  [9,
   9,
   9,
   9,
   10,
   10,
   5,
   5,
   11,
   10],
  [4,
   0,
   10,
   0,
   10,
   0,
   0,
   0,
   3,
   0],
  [12,
   0,
   11,
   11,
   0,
   0,
   11,
   11,
   11,
   11],
  [11,
   0,
   0,
   1,
   12,
   0,
   2,
   7,
   7,
   8],
  [8,
   9,
   9,
   0,
   0,
   1,
   0,
   0,
   0,
   0],
  [0,
   0,
   0,
   0,
   0,
   0,
   0,
   0,
   0,
   7],
  [8,
   10,
   7,
   0,
   0,
   1,
   8,
   8,
   0,
   0],
  [0,
   0,
   0,
   0,
   0,
   0,
   4,
   10,
   0,
   11],
  [11,
   9,
   9,
   9,
   4,
   0,
   4,
   5,
   5,
   7],
  [6,
   6,
   6,
   6,
   6,
   6,
   6,
   6,
   6,
   6],
  [6,
   6,
   6,
   0,
   6,
   3,
   4,
   9,
   0,
   0],
  [6,
   6,
   3,
   4,
   0,
   0,
   0,
   0,
   4,
   0],
  [0,
   6,
   0,
   6,
   0,
   0,
   3,
   3,
   0,
   0],
  [10,
   3,
   3,
   6,
   6,
   0,
   5,
   0,
   3,
   0],
  [0,
   1,
   1,
   0,
   1,
   6,
   0,
   0,
   0,
   0],
  [0,
   1,
   2,
   0,
   0,
   3,
   0,
   0,
   3,
   0],
  [6,
   0,
   3,
   0,
   0,
   12,
   0,
   0,
   0,
   9],
  [0,
   0,
   0,
   6,
   3,
   0,
   0,
   9,
   0,
   0],
  [6,
   0,
   3,
   0,
   0,
   6,
   3,
   4,
   0,
   0],
  [0,
   0,
   3,
   0,
   0,
   0,
   0,
   0,
   0,
   1],
  [0,
   0]]

end Verif.LR
