/-!
# Specification: the grammar of `/repo/ast/grammar.y`

Generated by `tools/gen_grammar.py`: the token classes, the nonterminals and the productions of grammar.y
(lines 85-378) in the order of the file, without the semantic actions.  An action in the middle of a right side
counts, as yacc has it, as an empty nonterminal of its own (`mid13` ... are the actions numbered 13, 34, 36, 38, 62).
-/
namespace Verif.Spec

/-- Token classes.  `k...` are the names of the `%token` declarations. -/
inductive Terminal
  | colon
  | semi
  | comma
  | kDirective
  | ktoken_identifier
  | kProcedure
  | kVar
  | kEndProcedure
  | kIf
  | kThen
  | kElseIf
  | kElse
  | kEndIf
  | kFor
  | kEach
  | kIn
  | kTo
  | kLoop
  | kEndLoop
  | kBreak
  | kNot
  | kValueParam
  | kWhile
  | kGoToLabel
  | kContinue
  | kTry
  | kCatch
  | kEndTry
  | kNumber
  | kString
  | kNew
  | kFunction
  | kEndFunction
  | kReturn
  | kThrow
  | kNeEQ
  | kEQUAL
  | kLE
  | kGE
  | kOR
  | kAnd
  | kTrue
  | kFalse
  | kUndefind
  | kExport
  | kDate
  | kGoTo
  | kExecute
  | gt
  | lt
  | plus
  | minus
  | star
  | slash
  | percent
  | lpar
  | rpar
  | quest
  | lbr
  | rbr
  | dot
deriving DecidableEq, Repr

/-- Nonterminals. -/
inductive NT
  | n_body
  | n_opt_body
  | n_stmt
  | n_stmt_loop
  | n_funcProc
  | n_stmt_if
  | n_opt_elseif_list
  | n_opt_else
  | n_opt_stmt
  | n_exprs
  | n_expr
  | n_opt_export
  | n_opt_directive
  | n_simple_expr
  | n_declarations_method_params
  | n_declarations_method_param
  | n_opt_expr
  | n_execute_param
  | n_through_dot
  | n_loopExp
  | n_new_object
  | n_ternary
  | n_opt_explicit_variables
  | n_explicit_variables
  | n_identifiers
  | n_stmt_tryCatch
  | n_identifier
  | n_goToLabel
  | n_separator
  | n_semicolon
  | n_colon
  | n_global_variables
  | n_comma
  | n_module
  | n_main_items
  | n_main
  | mid13
  | mid34
  | mid36
  | mid38
  | n_dot
  | mid62
deriving DecidableEq, Repr

inductive Sym
  | t (a : Terminal)
  | n (A : NT)
deriving DecidableEq, Repr

open Terminal NT in
/-- Left and right side of every production. -/
def productions : List (NT × List Sym) := [
  (n_module, []),
  (n_module, [.n n_body]),
  (n_module, [.n n_main_items, .n n_opt_body]),
  (n_main_items, [.n n_main]),
  (n_main_items, [.n n_main_items, .n n_main]),
  (n_main, [.n n_global_variables]),
  (n_main, [.n n_funcProc]),
  (n_opt_directive, []),
  (n_opt_directive, [.t kDirective]),
  (n_opt_export, []),
  (n_opt_export, [.t kExport]),
  (n_global_variables, [.n n_opt_directive, .t kVar, .n n_identifiers, .n n_opt_export, .n n_semicolon]),
  (mid13, []),
  (n_funcProc, [.n n_opt_directive, .t kFunction, .t ktoken_identifier, .t lpar, .n n_declarations_method_params, .t rpar, .n n_opt_export, .n mid13, .n n_opt_explicit_variables, .n n_opt_body, .t kEndFunction]),
  (n_funcProc, [.n n_opt_directive, .t kProcedure, .t ktoken_identifier, .t lpar, .n n_declarations_method_params, .t rpar, .n n_opt_export, .n n_opt_explicit_variables, .n n_opt_body, .t kEndProcedure]),
  (n_opt_body, []),
  (n_opt_body, [.n n_body]),
  (n_body, [.n n_stmt]),
  (n_body, [.n n_opt_body, .n n_separator, .n n_opt_stmt]),
  (n_opt_stmt, []),
  (n_opt_stmt, [.n n_stmt]),
  (n_separator, [.n n_semicolon]),
  (n_separator, [.n n_colon]),
  (n_opt_explicit_variables, []),
  (n_opt_explicit_variables, [.n n_explicit_variables]),
  (n_explicit_variables, [.t kVar, .n n_identifiers, .n n_semicolon]),
  (n_explicit_variables, [.n n_explicit_variables, .t kVar, .n n_identifiers, .n n_semicolon]),
  (n_stmt_if, [.t kIf, .n n_expr, .t kThen, .n n_opt_body, .n n_opt_elseif_list, .n n_opt_else, .t kEndIf]),
  (n_opt_elseif_list, []),
  (n_opt_elseif_list, [.t kElseIf, .n n_expr, .t kThen, .n n_opt_body, .n n_opt_elseif_list]),
  (n_opt_else, []),
  (n_opt_else, [.t kElse, .n n_opt_body]),
  (n_ternary, [.t quest, .t lpar, .n n_expr, .n n_comma, .n n_expr, .n n_comma, .n n_expr, .t rpar]),
  (mid34, []),
  (n_stmt_loop, [.t kFor, .t kEach, .t ktoken_identifier, .t kIn, .n n_loopExp, .t kLoop, .n mid34, .n n_opt_body, .t kEndLoop]),
  (mid36, []),
  (n_stmt_loop, [.t kFor, .n n_expr, .t kTo, .n n_expr, .t kLoop, .n mid36, .n n_opt_body, .t kEndLoop]),
  (mid38, []),
  (n_stmt_loop, [.t kWhile, .n n_expr, .t kLoop, .n mid38, .n n_opt_body, .t kEndLoop]),
  (n_loopExp, [.n n_through_dot]),
  (n_loopExp, [.n n_new_object]),
  (n_loopExp, [.t lpar, .n n_new_object, .t rpar]),
  (n_loopExp, [.n n_ternary]),
  (n_stmt, [.n n_through_dot, .t kEQUAL, .n n_expr]),
  (n_stmt, [.n n_expr]),
  (n_stmt, [.n n_stmt_if]),
  (n_stmt, [.n n_stmt_loop]),
  (n_stmt, [.n n_stmt_tryCatch]),
  (n_stmt, [.t kContinue]),
  (n_stmt, [.t kBreak]),
  (n_stmt, [.t kThrow, .n n_opt_expr]),
  (n_stmt, [.t kReturn, .n n_opt_expr]),
  (n_through_dot, [.n n_identifier]),
  (n_through_dot, [.n n_through_dot, .n n_dot, .n n_identifier]),
  (n_identifier, [.t ktoken_identifier]),
  (n_identifier, [.t ktoken_identifier, .t lpar, .n n_exprs, .t rpar]),
  (n_identifier, [.n n_identifier, .t lbr, .n n_expr, .t rbr]),
  (n_identifier, [.t kExecute, .n n_execute_param]),
  (n_identifier, [.t kExecute, .t lpar, .n n_expr, .t rpar]),
  (n_execute_param, [.t kString]),
  (n_execute_param, [.t ktoken_identifier]),
  (mid62, []),
  (n_stmt_tryCatch, [.t kTry, .n n_opt_body, .t kCatch, .n mid62, .n n_opt_body, .t kEndTry]),
  (n_expr, [.n n_simple_expr]),
  (n_expr, [.t lpar, .n n_exprs, .t rpar]),
  (n_expr, [.n n_expr, .t plus, .n n_expr]),
  (n_expr, [.n n_expr, .t minus, .n n_expr]),
  (n_expr, [.n n_expr, .t star, .n n_expr]),
  (n_expr, [.n n_expr, .t slash, .n n_expr]),
  (n_expr, [.n n_expr, .t percent, .n n_expr]),
  (n_expr, [.n n_expr, .t gt, .n n_expr]),
  (n_expr, [.n n_expr, .t lt, .n n_expr]),
  (n_expr, [.n n_expr, .t kEQUAL, .n n_expr]),
  (n_expr, [.n n_expr, .t kOR, .n n_expr]),
  (n_expr, [.n n_expr, .t kAnd, .n n_expr]),
  (n_expr, [.n n_expr, .t kNeEQ, .n n_expr]),
  (n_expr, [.n n_expr, .t kLE, .n n_expr]),
  (n_expr, [.n n_expr, .t kGE, .n n_expr]),
  (n_expr, [.t kNot, .n n_expr]),
  (n_expr, [.n n_new_object]),
  (n_expr, [.t kGoTo, .n n_goToLabel]),
  (n_expr, [.n n_ternary]),
  (n_expr, [.n n_through_dot]),
  (n_opt_expr, []),
  (n_opt_expr, [.n n_expr]),
  (n_exprs, [.n n_opt_expr]),
  (n_exprs, [.n n_exprs, .n n_comma, .n n_opt_expr]),
  (n_simple_expr, [.t kString]),
  (n_simple_expr, [.t kNumber]),
  (n_simple_expr, [.t minus, .n n_expr]),
  (n_simple_expr, [.t plus, .n n_expr]),
  (n_simple_expr, [.t kTrue]),
  (n_simple_expr, [.t kFalse]),
  (n_simple_expr, [.t kDate]),
  (n_simple_expr, [.t kUndefind]),
  (n_simple_expr, [.n n_goToLabel]),
  (n_declarations_method_param, [.t ktoken_identifier]),
  (n_declarations_method_param, [.t kValueParam, .t ktoken_identifier]),
  (n_declarations_method_param, [.n n_declarations_method_param, .t kEQUAL, .n n_simple_expr]),
  (n_declarations_method_params, []),
  (n_declarations_method_params, [.n n_declarations_method_param]),
  (n_declarations_method_params, [.n n_declarations_method_params, .n n_comma, .n n_declarations_method_param]),
  (n_new_object, [.t kNew, .t ktoken_identifier]),
  (n_new_object, [.t kNew, .t ktoken_identifier, .t lpar, .n n_exprs, .t rpar]),
  (n_new_object, [.t kNew, .t lpar, .n n_exprs, .t rpar]),
  (n_goToLabel, [.t kGoToLabel]),
  (n_identifiers, [.t ktoken_identifier]),
  (n_identifiers, [.n n_identifiers, .n n_comma, .t ktoken_identifier]),
  (n_semicolon, [.t semi]),
  (n_colon, [.t colon]),
  (n_comma, [.t comma]),
  (n_dot, [.t dot])]

/-- `Derives α w`: the sequence of symbols `α` derives the sequence of tokens `w`. -/
inductive Derives : List Sym → List Terminal → Prop
  | nil : Derives [] []
  | t (a : Terminal) {α : List Sym} {w : List Terminal} : Derives α w → Derives (.t a :: α) (a :: w)
  | n (A : NT) {β α : List Sym} {u w : List Terminal} :
      (A, β) ∈ productions → Derives β u → Derives α w → Derives (.n A :: α) (u ++ w)

/-- The sentences of the grammar. -/
def Sentence (w : List Terminal) : Prop := Derives [.n NT.n_module] w

/-- The token numbers that the tokeniser returns: the code of the character, or the position in the
`%token` declarations counted from 57346. -/
def Terminal.kind : Terminal → Nat
  | .colon => 58
  | .semi => 59
  | .comma => 44
  | .kDirective => 57346
  | .ktoken_identifier => 57347
  | .kProcedure => 57348
  | .kVar => 57349
  | .kEndProcedure => 57350
  | .kIf => 57351
  | .kThen => 57352
  | .kElseIf => 57353
  | .kElse => 57354
  | .kEndIf => 57355
  | .kFor => 57356
  | .kEach => 57357
  | .kIn => 57358
  | .kTo => 57359
  | .kLoop => 57360
  | .kEndLoop => 57361
  | .kBreak => 57362
  | .kNot => 57363
  | .kValueParam => 57364
  | .kWhile => 57365
  | .kGoToLabel => 57366
  | .kContinue => 57367
  | .kTry => 57368
  | .kCatch => 57369
  | .kEndTry => 57370
  | .kNumber => 57371
  | .kString => 57372
  | .kNew => 57373
  | .kFunction => 57374
  | .kEndFunction => 57375
  | .kReturn => 57376
  | .kThrow => 57377
  | .kNeEQ => 57378
  | .kEQUAL => 57379
  | .kLE => 57380
  | .kGE => 57381
  | .kOR => 57382
  | .kAnd => 57383
  | .kTrue => 57384
  | .kFalse => 57385
  | .kUndefind => 57386
  | .kExport => 57387
  | .kDate => 57388
  | .kGoTo => 57389
  | .kExecute => 57390
  | .gt => 62
  | .lt => 60
  | .plus => 43
  | .minus => 45
  | .star => 42
  | .slash => 47
  | .percent => 37
  | .lpar => 40
  | .rpar => 41
  | .quest => 63
  | .lbr => 91
  | .rbr => 93
  | .dot => 46

/-- All token classes. -/
def allTerminals : List Terminal :=
  [.colon, .semi, .comma, .kDirective, .ktoken_identifier, .kProcedure, .kVar, .kEndProcedure, .kIf, .kThen, .kElseIf, .kElse, .kEndIf, .kFor, .kEach, .kIn, .kTo, .kLoop, .kEndLoop, .kBreak, .kNot, .kValueParam, .kWhile, .kGoToLabel, .kContinue, .kTry, .kCatch, .kEndTry, .kNumber, .kString, .kNew, .kFunction, .kEndFunction, .kReturn, .kThrow, .kNeEQ, .kEQUAL, .kLE, .kGE, .kOR, .kAnd, .kTrue, .kFalse, .kUndefind, .kExport, .kDate, .kGoTo, .kExecute, .gt, .lt, .plus, .minus, .star, .slash, .percent, .lpar, .rpar, .quest, .lbr, .rbr, .dot]

end Verif.Spec
