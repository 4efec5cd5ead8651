/-!
# The parser tables of `/repo/ast/y.go`

Generated by `tools/gen_tables.py`; the numbers are those of y.go, in rows of ten.
-/
namespace Verif.Tables

/-- Table lookup `t[i]`, rows of ten entries. -/
def get (t : List (List Int)) (i : Nat) : Int := (t.getD (i / 10) []).getD (i % 10) 0

/-- `yyLast` (`/repo/ast/y.go:185`). -/
def yyLast : Int := 618
/-- `yyPrivate` (`/repo/ast/y.go:183`). -/
def yyPrivate : Nat := 57344
/-- `yyFlag` (`/repo/ast/y.go:429`). -/
def yyFlag : Int := -1000
/-- `yyErrCode` (`/repo/ast/y.go:157-159`). -/
def yyErrCode : Int := 2

/-- `yyExca` (`/repo/ast/y.go:164-181`), 32 entries. -/
def yyExca : List (List Int) := [
  [-1, 0, 1, 1, 4, 16, 5, 16, -2, 8],
  [-1, 1, 1, -1, -2, 0, -1, 2, 1, 2],
  [-2, 17, -1, 3, 9, 8, 10, 8, 35, 8],
  [-2, 16]]

/-- `yyAct` (`/repo/ast/y.go:187-250`), 618 entries. -/
def yyAct : List (List Int) := [
  [71, 7, 122, 115, 7, 5, 148, 49, 196, 45],
  [19, 8, 22, 160, 24, 138, 161, 55, 73, 185],
  [75, 74, 142, 53, 116, 116, 70, 70, 141, 7],
  [93, 128, 70, 76, 82, 69, 72, 78, 80, 81],
  [66, 63, 67, 68, 64, 65, 91, 92, 116, 7],
  [55, 95, 116, 116, 61, 62, 56, 57, 58, 59],
  [60, 30, 116, 4, 86, 98, 18, 131, 100, 101],
  [102, 103, 104, 105, 106, 107, 108, 109, 110, 111],
  [112, 179, 175, 116, 94, 113, 30, 41, 61, 62],
  [56, 57, 58, 59, 60, 177, 140, 90, 70, 41],
  [127, 58, 59, 60, 31, 165, 70, 130, 126, 146],
  [143, 44, 97, 52, 51, 153, 129, 42, 7, 114],
  [40, 99, 89, 133, 162, 140, 139, 70, 170, 31],
  [134, 135, 85, 83, 147, 151, 132, 7, 7, 204],
  [70, 163, 156, 157, 77, 210, 158, 152, 181, 154],
  [145, 88, 52, 51, 168, 198, 164, 123, 84, 166],
  [178, 169, 149, 159, 176, 125, 171, 124, 176, 7],
  [180, 52, 51, 7, 182, 51, 52, 51, 186, 56],
  [57, 58, 59, 60, 7, 7, 118, 137, 189, 192],
  [193, 187, 191, 188, 201, 190, 6, 7, 174, 200],
  [46, 205, 203, 7, 202, 43, 30, 208, 206, 139],
  [25, 54, 139, 209, 136, 26, 211, 51, 116, 52],
  [51, 13, 21, 172, 27, 44, 12, 28, 52, 51],
  [33, 32, 41, 52, 51, 15, 14, 194, 52, 51],
  [47, 2, 184, 36, 37, 39, 173, 38, 23, 31],
  [52, 51, 30, 35, 34, 195, 25, 207, 3, 121],
  [20, 26, 42, 1, 16, 50, 48, 13, 21, 11],
  [27, 44, 12, 28, 197, 150, 33, 32, 41, 87],
  [29, 15, 14, 96, 167, 9, 30, 17, 10, 36],
  [37, 39, 0, 38, 23, 31, 79, 0, 0, 35],
  [34, 0, 21, 0, 0, 44, 20, 0, 42, 0],
  [33, 32, 41, 0, 0, 0, 0, 0, 0, 30],
  [0, 0, 0, 36, 37, 39, 0, 38, 23, 31],
  [0, 0, 0, 35, 34, 21, 63, 0, 44, 0],
  [20, 0, 42, 33, 32, 41, 0, 0, 0, 61],
  [62, 56, 57, 58, 59, 60, 36, 37, 39, 0],
  [38, 23, 31, 0, 0, 0, 35, 34, 0, 66],
  [63, 67, 68, 20, 65, 42, 66, 63, 67, 68],
  [64, 65, 0, 61, 62, 56, 57, 58, 59, 60],
  [61, 62, 56, 57, 58, 59, 60, 0, 0, 0],
  [199, 66, 63, 67, 68, 64, 65, 183, 116, 0],
  [0, 0, 0, 0, 0, 61, 62, 56, 57, 58],
  [59, 60, 0, 0, 0, 144, 0, 0, 0, 0],
  [0, 0, 0, 66, 63, 67, 68, 64, 65, 0],
  [0, 66, 63, 67, 68, 64, 65, 61, 62, 56],
  [57, 58, 59, 60, 155, 61, 62, 56, 57, 58],
  [59, 60, 120, 0, 0, 0, 0, 0, 0, 0],
  [0, 0, 66, 63, 67, 68, 64, 65, 117, 0],
  [66, 63, 67, 68, 64, 65, 61, 62, 56, 57],
  [58, 59, 60, 119, 61, 62, 56, 57, 58, 59],
  [60, 0, 0, 0, 66, 63, 67, 68, 64, 65],
  [0, 0, 66, 63, 67, 68, 64, 65, 61, 62],
  [56, 57, 58, 59, 60, 0, 61, 62, 56, 57],
  [58, 59, 60, 66, 63, 67, 68, 64, 65, 0],
  [66, 63, 67, 68, 0, 0, 0, 61, 62, 56],
  [57, 58, 59, 60, 61, 62, 56, 57, 58, 59],
  [60, 63, 67, 68, 0, 0, 0, 0, 63, 0],
  [68, 0, 0, 0, 61, 62, 56, 57, 58, 59],
  [60, 61, 62, 56, 57, 58, 59, 60, 44, 0],
  [0, 0, 0, 33, 32, 0, 0, 0, 0, 0],
  [0, 0, 0, 0, 0, 0, 36, 37, 39, 0],
  [38, 0, 0, 0, 0, 0, 35, 34]]

/-- `yyPact` (`/repo/ast/y.go:252-275`), 212 entries. -/
def yyPact : List (List Int) := [
  [198, -1000, -1000, 198, -1000, 234, -1000, -17, 494, -1000],
  [-1000, -1000, -1000, -1000, 311, 311, -1000, -1000, -47, -1000],
  [311, 311, -1000, 84, -1000, 311, 278, 311, 244, 123],
  [2, 89, -1000, -1000, 311, 311, -1000, -1000, -1000, -1000],
  [-1000, 22, -11, -1000, -1000, 234, -1000, -1000, 244, -1000],
  [-1000, -1000, -1000, 311, 78, -1000, 311, 311, 311, 311],
  [311, 311, 311, 311, 311, 311, 311, 311, 311, -1000],
  [494, -50, -1000, 311, 56, -1000, 296, -1000, 465, 178],
  [473, 441, 229, 149, 159, 157, 311, -1000, 311, -1000],
  [-1000, -1000, -1000, -31, 311, 311, -1000, -1000, 494, -47],
  [44, 44, -1000, -1000, -1000, 124, 124, 35, 330, 501],
  [521, 528, 296, 1, -1000, 311, -1000, 244, 111, 311],
  [-1000, -1000, 77, -1000, -34, -40, 47, 362, 311, 46],
  [402, -1000, -1000, 148, 53, 433, 244, 244, 170, 155],
  [-1000, 116, 116, -1000, -1000, 42, -1000, 311, 139, 311],
  [107, -50, -1000, 65, -1000, -1000, 224, 167, -1000, -1000],
  [19, 55, -1000, 152, 18, -1000, 402, 132, 244, 394],
  [-1000, -44, 244, -1000, -1000, 48, 116, 561, -1000, 48],
  [311, -1000, 234, 244, 244, -1000, 215, -1000, 55, -1000],
  [145, 337, 148, 172, -1000, 145, 244, 129, 149, -1000],
  [-1000, -1000, 244, 246, 149, 212, 109, -1000, 212, -1000],
  [-1000, -1000]]

/-- `yyPgo` (`/repo/ast/y.go:277-283`), 43 entries. -/
def yyPgo : List (List Int) := [
  [0, 240, 5, 63, 288, 287, 285, 6, 284, 283],
  [21, 11, 15, 280, 10, 13, 16, 20, 279, 0],
  [275, 12, 14, 8, 274, 2, 269, 66, 120, 266],
  [7, 265, 264, 3, 263, 258, 196, 255, 242, 223],
  [214, 211, 187]]

/-- `yyR1` (`/repo/ast/y.go:285-298`), 113 entries. -/
def yyR1 : List (List Int) := [
  [0, 34, 34, 34, 35, 35, 36, 36, 13, 13],
  [12, 12, 32, 37, 5, 5, 2, 2, 1, 1],
  [9, 9, 29, 29, 23, 23, 24, 24, 6, 7],
  [7, 8, 8, 22, 38, 4, 39, 4, 40, 4],
  [20, 20, 20, 20, 3, 3, 3, 3, 3, 3],
  [3, 3, 3, 19, 19, 27, 27, 27, 27, 27],
  [18, 18, 42, 26, 11, 11, 11, 11, 11, 11],
  [11, 11, 11, 11, 11, 11, 11, 11, 11, 11],
  [11, 11, 11, 11, 17, 17, 10, 10, 14, 14],
  [14, 14, 14, 14, 14, 14, 14, 16, 16, 16],
  [15, 15, 15, 21, 21, 21, 28, 25, 25, 30],
  [31, 33, 41]]

/-- `yyR2` (`/repo/ast/y.go:300-313`), 113 entries. -/
def yyR2 : List (List Int) := [
  [0, 0, 1, 2, 1, 2, 1, 1, 0, 1],
  [0, 1, 5, 0, 11, 10, 0, 1, 1, 3],
  [0, 1, 1, 1, 0, 1, 3, 4, 7, 0],
  [5, 0, 2, 8, 0, 9, 0, 8, 0, 6],
  [1, 1, 3, 1, 3, 1, 1, 1, 1, 1],
  [1, 2, 2, 1, 3, 1, 4, 4, 2, 4],
  [1, 1, 0, 6, 1, 3, 3, 3, 3, 3],
  [3, 3, 3, 3, 3, 3, 3, 3, 3, 2],
  [1, 2, 1, 1, 0, 1, 1, 3, 1, 1],
  [2, 2, 1, 1, 1, 1, 1, 1, 2, 3],
  [0, 1, 3, 2, 5, 4, 1, 1, 3, 1],
  [1, 1, 1]]

/-- `yyChk` (`/repo/ast/y.go:315-338`), 212 entries. -/
def yyChk : List (List Int) := [
  [-1000, -34, -1, -35, -3, -2, -36, -19, -11, -6],
  [-4, -26, 28, 23, 38, 37, -32, -5, -27, -14],
  [62, 24, -21, 50, -22, 12, 17, 26, 29, -13],
  [8, 51, 33, 32, 56, 55, 45, 46, 49, 47],
  [-28, 34, 64, 7, 27, -2, -36, -1, -29, -30],
  [-31, 5, 4, 40, -41, 67, 55, 56, 57, 58],
  [59, 53, 54, 40, 43, 44, 39, 41, 42, -17],
  [-11, -19, -17, 65, -10, -17, -11, -28, -11, 18],
  [-11, -11, -2, 10, 35, 9, 62, -18, 62, 33],
  [8, -11, -11, 8, 62, 62, -9, -3, -11, -27],
  [-11, -11, -11, -11, -11, -11, -11, -11, -11, -11],
  [-11, -11, -11, -11, 63, -33, 6, 13, 8, 20],
  [21, 30, -25, 8, 8, 8, -10, -11, 62, -10],
  [-11, 66, -17, -2, 19, -11, -40, -42, -12, -33],
  [48, 62, 62, 63, 63, -10, 63, -33, -7, 14],
  [-20, -19, -21, 62, -22, 21, -2, -2, -30, 8],
  [-15, -16, 8, 25, -15, 63, -11, -8, 15, -11],
  [21, -21, -39, 22, 31, 63, -33, 40, 8, 63],
  [-33, 16, -2, 13, -38, 63, -2, -12, -16, -14],
  [-12, -11, -2, -2, 22, -37, -23, -24, 10, 63],
  [-7, 22, -23, -2, 10, -25, -2, 11, -25, -30],
  [36, -30]]

/-- `yyDef` (`/repo/ast/y.go:340-363`), 212 entries. -/
def yyDef : List (List Int) := [
  [-2, -2, -2, -2, 18, 0, 4, 83, 45, 46],
  [47, 48, 49, 50, 84, 84, 6, 7, 53, 64],
  [84, 0, 80, 0, 82, 0, 0, 0, 16, 0],
  [55, 0, 88, 89, 0, 0, 92, 93, 94, 95],
  [96, 0, 0, 9, 106, 3, 5, 17, 20, 22],
  [23, 109, 110, 0, 0, 112, 0, 0, 0, 0],
  [0, 0, 0, 0, 0, 0, 0, 0, 0, 51],
  [85, 83, 52, 0, 0, 86, 79, 81, 0, 0],
  [0, 0, 0, 0, 0, 0, 84, 58, 0, 60],
  [61, 90, 91, 103, 84, 0, 19, 21, 44, 54],
  [66, 67, 68, 69, 70, 71, 72, 73, 74, 75],
  [76, 77, 78, 0, 65, 84, 111, 16, 0, 0],
  [38, 62, 10, 107, 0, 0, 0, 0, 84, 0],
  [0, 57, 87, 29, 0, 0, 16, 16, 0, 0],
  [11, 100, 100, 56, 59, 0, 105, 0, 31, 0],
  [0, 40, 41, 0, 43, 36, 0, 0, 12, 108],
  [0, 101, 97, 0, 0, 104, 0, 0, 16, 0],
  [34, 0, 16, 39, 63, 10, 0, 0, 98, 10],
  [0, 28, 32, 16, 16, 42, 0, 13, 102, 99],
  [24, 0, 29, 0, 37, 24, 16, 25, 0, 33],
  [30, 35, 16, 0, 0, 0, 0, 15, 0, 26],
  [14, 27]]

/-- `yyTok1` (`/repo/ast/y.go:365-376`), 94 entries. -/
def yyTok1 : List (List Int) := [
  [1, 3, 3, 3, 3, 3, 3, 3, 3, 3],
  [3, 3, 3, 3, 3, 3, 3, 3, 3, 3],
  [3, 3, 3, 3, 3, 3, 3, 3, 3, 3],
  [3, 3, 3, 3, 3, 3, 3, 59, 3, 3],
  [62, 63, 57, 55, 6, 56, 67, 58, 3, 3],
  [3, 3, 3, 3, 3, 3, 3, 3, 4, 5],
  [54, 3, 53, 64, 3, 3, 3, 3, 3, 3],
  [3, 3, 3, 3, 3, 3, 3, 3, 3, 3],
  [3, 3, 3, 3, 3, 3, 3, 3, 3, 3],
  [3, 65, 3, 66]]

/-- `yyTok2` (`/repo/ast/y.go:378-384`), 50 entries. -/
def yyTok2 : List (List Int) := [
  [2, 3, 7, 8, 9, 10, 11, 12, 13, 14],
  [15, 16, 17, 18, 19, 20, 21, 22, 23, 24],
  [25, 26, 27, 28, 29, 30, 31, 32, 33, 34],
  [35, 36, 37, 38, 39, 40, 41, 42, 43, 44],
  [45, 46, 47, 48, 49, 50, 51, 52, 60, 61]]

/-- `yyTok3` (`/repo/ast/y.go:386-388`), 1 entries. -/
def yyTok3 : List (List Int) := [
  [0]]

end Verif.Tables
