import Verif.Spec.Grammar
/-!
# Numbers of the grammar symbols in `/repo/ast/y.go`

Generated by `tools/gen_grammar.py`.  Terminals have the internal numbers of y.go (1..67), nonterminal `n` of
`yyR1` is written `100 + n`.
-/
namespace Verif.LR
open Spec

/-- Internal number of a terminal (`yyToknames`, `/repo/ast/y.go:71-139`). -/
def tnum : Terminal → Nat
  | .colon => 4
  | .semi => 5
  | .comma => 6
  | .kDirective => 7
  | .ktoken_identifier => 8
  | .kProcedure => 9
  | .kVar => 10
  | .kEndProcedure => 11
  | .kIf => 12
  | .kThen => 13
  | .kElseIf => 14
  | .kElse => 15
  | .kEndIf => 16
  | .kFor => 17
  | .kEach => 18
  | .kIn => 19
  | .kTo => 20
  | .kLoop => 21
  | .kEndLoop => 22
  | .kBreak => 23
  | .kNot => 24
  | .kValueParam => 25
  | .kWhile => 26
  | .kGoToLabel => 27
  | .kContinue => 28
  | .kTry => 29
  | .kCatch => 30
  | .kEndTry => 31
  | .kNumber => 32
  | .kString => 33
  | .kNew => 34
  | .kFunction => 35
  | .kEndFunction => 36
  | .kReturn => 37
  | .kThrow => 38
  | .kNeEQ => 39
  | .kEQUAL => 40
  | .kLE => 41
  | .kGE => 42
  | .kOR => 43
  | .kAnd => 44
  | .kTrue => 45
  | .kFalse => 46
  | .kUndefind => 47
  | .kExport => 48
  | .kDate => 49
  | .kGoTo => 50
  | .kExecute => 51
  | .gt => 53
  | .lt => 54
  | .plus => 55
  | .minus => 56
  | .star => 57
  | .slash => 58
  | .percent => 59
  | .lpar => 62
  | .rpar => 63
  | .quest => 64
  | .lbr => 65
  | .rbr => 66
  | .dot => 67

/-- 100 + number of a nonterminal. -/
def nnum : NT → Nat
  | .n_body => 101
  | .n_opt_body => 102
  | .n_stmt => 103
  | .n_stmt_loop => 104
  | .n_funcProc => 105
  | .n_stmt_if => 106
  | .n_opt_elseif_list => 107
  | .n_opt_else => 108
  | .n_opt_stmt => 109
  | .n_exprs => 110
  | .n_expr => 111
  | .n_opt_export => 112
  | .n_opt_directive => 113
  | .n_simple_expr => 114
  | .n_declarations_method_params => 115
  | .n_declarations_method_param => 116
  | .n_opt_expr => 117
  | .n_execute_param => 118
  | .n_through_dot => 119
  | .n_loopExp => 120
  | .n_new_object => 121
  | .n_ternary => 122
  | .n_opt_explicit_variables => 123
  | .n_explicit_variables => 124
  | .n_identifiers => 125
  | .n_stmt_tryCatch => 126
  | .n_identifier => 127
  | .n_goToLabel => 128
  | .n_separator => 129
  | .n_semicolon => 130
  | .n_colon => 131
  | .n_global_variables => 132
  | .n_comma => 133
  | .n_module => 134
  | .n_main_items => 135
  | .n_main => 136
  | .mid13 => 137
  | .mid34 => 138
  | .mid36 => 139
  | .mid38 => 140
  | .n_dot => 141
  | .mid62 => 142

/-- All nonterminals. -/
def allNTs : List NT :=
  [.n_body, .n_opt_body, .n_stmt, .n_stmt_loop, .n_funcProc, .n_stmt_if, .n_opt_elseif_list, .n_opt_else, .n_opt_stmt, .n_exprs, .n_expr, .n_opt_export, .n_opt_directive, .n_simple_expr, .n_declarations_method_params, .n_declarations_method_param, .n_opt_expr, .n_execute_param, .n_through_dot, .n_loopExp, .n_new_object, .n_ternary, .n_opt_explicit_variables, .n_explicit_variables, .n_identifiers, .n_stmt_tryCatch, .n_identifier, .n_goToLabel, .n_separator, .n_semicolon, .n_colon, .n_global_variables, .n_comma, .n_module, .n_main_items, .n_main, .mid13, .mid34, .mid36, .mid38, .n_dot, .mid62]

def symNum : Sym → Nat
  | .t a => tnum a
  | .n A => nnum A

/-- Left side of production `p`. -/
def lhsTab : List Nat := [100, 134, 134, 134, 135, 135, 136, 136, 113, 113, 112, 112, 132, 137, 105, 105, 102, 102, 101, 101, 109, 109, 129, 129, 123, 123, 124, 124, 106, 107, 107, 108, 108, 122, 138, 104, 139, 104, 140, 104, 120, 120, 120, 120, 103, 103, 103, 103, 103, 103, 103, 103, 103, 119, 119, 127, 127, 127, 127, 127, 118, 118, 142, 126, 111, 111, 111, 111, 111, 111, 111, 111, 111, 111, 111, 111, 111, 111, 111, 111, 111, 111, 111, 111, 117, 117, 110, 110, 114, 114, 114, 114, 114, 114, 114, 114, 114, 116, 116, 116, 115, 115, 115, 121, 121, 121, 128, 125, 125, 130, 131, 133, 141]

/-- Right side of production `p`. -/
def rhsTab : List (List Nat) := [
  [134, 1],
  [],
  [101],
  [135, 102],
  [136],
  [135, 136],
  [132],
  [105],
  [],
  [7],
  [],
  [48],
  [113, 10, 125, 112, 130],
  [],
  [113, 35, 8, 62, 115, 63, 112, 137, 123, 102, 36],
  [113, 9, 8, 62, 115, 63, 112, 123, 102, 11],
  [],
  [101],
  [103],
  [102, 129, 109],
  [],
  [103],
  [130],
  [131],
  [],
  [124],
  [10, 125, 130],
  [124, 10, 125, 130],
  [12, 111, 13, 102, 107, 108, 16],
  [],
  [14, 111, 13, 102, 107],
  [],
  [15, 102],
  [64, 62, 111, 133, 111, 133, 111, 63],
  [],
  [17, 18, 8, 19, 120, 21, 138, 102, 22],
  [],
  [17, 111, 20, 111, 21, 139, 102, 22],
  [],
  [26, 111, 21, 140, 102, 22],
  [119],
  [121],
  [62, 121, 63],
  [122],
  [119, 40, 111],
  [111],
  [106],
  [104],
  [126],
  [28],
  [23],
  [38, 117],
  [37, 117],
  [127],
  [119, 141, 127],
  [8],
  [8, 62, 110, 63],
  [127, 65, 111, 66],
  [51, 118],
  [51, 62, 111, 63],
  [33],
  [8],
  [],
  [29, 102, 30, 142, 102, 31],
  [114],
  [62, 110, 63],
  [111, 55, 111],
  [111, 56, 111],
  [111, 57, 111],
  [111, 58, 111],
  [111, 59, 111],
  [111, 53, 111],
  [111, 54, 111],
  [111, 40, 111],
  [111, 43, 111],
  [111, 44, 111],
  [111, 39, 111],
  [111, 41, 111],
  [111, 42, 111],
  [24, 111],
  [121],
  [50, 128],
  [122],
  [119],
  [],
  [111],
  [117],
  [110, 133, 117],
  [33],
  [32],
  [56, 111],
  [55, 111],
  [45],
  [46],
  [49],
  [47],
  [128],
  [8],
  [25, 8],
  [116, 40, 114],
  [],
  [116],
  [115, 133, 116],
  [34, 8],
  [34, 8, 62, 110, 63],
  [34, 62, 110, 63],
  [27],
  [8],
  [125, 133, 8],
  [5],
  [4],
  [6],
  [67]]

def lhs (p : Nat) : Nat := lhsTab.getD p 0
def rhs (p : Nat) : List Nat := rhsTab.getD p []

end Verif.LR
