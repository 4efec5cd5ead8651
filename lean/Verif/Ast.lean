import Verif.Lexer
/-!
# Syntax trees and the parser's view of an AstNode

Types of `/repo/ast/ast_struct.go` and the mutable state of `AstNode` (`/repo/ast/ast.go:15-24`).
-/
namespace Verif

/-- `OperationType` (`/repo/ast/ast_struct.go:15-30`) without `OpUndefined`, which no action produces. -/
inductive Op
  | plus | minus | mul | div | eq | gt | lt | ne | le | ge | mod | or | and
deriving DecidableEq, Repr

/-- Dynamic values of the Go interface type `Statement` (`/repo/ast/ast_struct.go:44-178`).

Simplifications: pointers are values (every node is referenced once while it can still be mutated);
`*FunctionOrProcedure` is not a `Stm` but an `Item`, because the grammar puts it only into the module
body; of the embedded `addStatementField` only the flags some method can set are kept; slices are
lists (`[]` stands for nil, see DESIGN.md); `ExprStatements` used as parameter list is just its list. -/
inductive Stm
  /-- nil interface -/
  | nil
  /-- `float64` -/
  | num (x : F64)
  /-- Go `string` -/
  | str (s : List Char)
  /-- `bool` -/
  | bool (b : Bool)
  /-- `time.Time` -/
  | date (t : Time)
  /-- `UndefinedStatement` (124) -/
  | undef
  /-- `VarStatement` (69-72) -/
  | var (name : List Char) (um not : Bool)
  /-- `CallChainStatement` (135-139) -/
  | chain (unit call : Stm) (um not : Bool)
  /-- `MethodStatement` (141-145) -/
  | method (name : List Char) (param : List Stm) (not : Bool)
  /-- `ItemStatement` (167-170) -/
  | item (item object : Stm)
  /-- `TernaryStatement` (161-165) -/
  | ternary (c t e : Stm)
  /-- `NewObjectStatement` (130-133) -/
  | new (ctor : List Char) (param : List Stm)
  /-- `AssignmentStatement` (47-50) -/
  | assign (v : Stm) (expr : List Stm)
  /-- `*ExpStatement` (96-101) -/
  | bin (op : Op) (l r : Stm) (um not : Bool)
  /-- `ExprStatements` (52-55) as an expression -/
  | exprs (l : List Stm) (not : Bool)
  /-- `*IfStatement` (108-113): Expression, TrueBlock, IfElseBlock, ElseBlock -/
  | ifS (cond : Stm) (tb elifs els : List Stm)
  /-- `TryStatement` (115-118) -/
  | tryS (body catch_ : List Stm)
  /-- `ThrowStatement` (120-122) -/
  | throw (param : Stm)
  /-- `*ReturnStatement` (126-128) -/
  | ret (param : Stm)
  /-- `BreakStatement` (147) -/
  | brk
  /-- `ContinueStatement` (150) -/
  | cont
  /-- `*LoopStatement` (153-159): For, To, In, WhileExpr, Body -/
  | loop (for_ to in_ while_ : Stm) (body : List Stm)
  /-- `GoToStatement` (172-174) with the name of its label -/
  | goto (label : List Char)
  /-- `*GoToLabelStatement` (176-178) -/
  | label (name : List Char)
deriving Repr

instance : Inhabited Stm := ⟨.nil⟩

/-- `ParamStatement` (`/repo/ast/ast_struct.go:84-88`). -/
structure Param where
  default : Stm
  name : List Char
  isValue : Bool
deriving Repr

/-- `FunctionOrProcedure` (`/repo/ast/ast_struct.go:74-82`).  `vars` is the map `ExplicitVariables`
(`none` = nil map) as the list of its keys in order of insertion; the map's values are
`VarStatement{Name: key}`.  `isFunc` is `Type == PFTypeFunction` (otherwise `PFTypeProcedure`). -/
structure FuncDecl where
  vars : Option (List (List Char))
  name : List Char
  directive : List Char
  body : List Stm
  params : List Param
  isFunc : Bool
  «export» : Bool
deriving Repr

/-- `GlobalVariables` (`/repo/ast/ast_struct.go:57-61`). -/
structure GVar where
  directive : List Char
  name : List Char
  «export» : Bool
deriving DecidableEq, Repr

/-- Elements of `ModuleStatement.Body`. -/
inductive Item
  | func (f : FuncDecl)
  | stm (s : Stm)
deriving Repr

/-- `ModuleStatement` (`/repo/ast/ast_struct.go:63-67`): the map `GlobalVariables` as the list of its
values in order of insertion (key = name).  `Name` is never set by the parser. -/
structure Module where
  globals : List GVar
  body : List Item
deriving Repr

/-- Messages passed to `AstNode.Error`, one per call site. -/
inductive Msg
  /-- `syntax error` (y.go:453) -/
  | syntaxError
  /-- ast.go:85 -/
  | loopOp (lit : List Char)
  /-- ast.go:93 -/
  | throwOp (lit : List Char)
  /-- ast.go:107 -/
  | procReturn
  /-- grammar.y:154 -/
  | semicolon
  /-- ast.go:152, ast_struct.go:304 -/
  | dupVar (name : List Char)
  /-- ast_struct.go:295 -/
  | varOrder
  /-- ast_struct.go:318 -/
  | funcOrder
deriving DecidableEq, Repr

/-- Errors stored in `AstNode.err`: from the tokeniser (ast.go:60), or from `AstNode.Error`
(ast.go:75-80) with line, column and literal. -/
inductive Err
  | lex (e : Lexer.LexErr)
  | «at» (m : Msg) (line column : Int) (literal : List Char)
deriving DecidableEq, Repr

/-- `AstNode` (`/repo/ast/ast.go:15-24`).  `cur = none` is the zero `Token` (whose `ast` is nil).  The
atomic counters are unbounded integers.  `mode` is unused by the Go code. -/
structure Ast where
  code : List Char
  err : Option Err
  mod : Module
  cur : Option Tok
  isLoop : Int
  isTry : Int
  isFunc : Bool

/-- `NewAST` (`/repo/ast/ast.go:31-35`). -/
def newAST (code : List Char) : Ast := ⟨code, none, ⟨[], []⟩, none, 0, 0, false⟩

/-- Runtime panics that can occur in the modelled code. -/
inductive Panic
  /-- nil dereference in `GetPosition` of the zero token (tokens.go:371) -/
  | nilToken
  /-- assignment to entry in nil map (ast.go:154) -/
  | nilMap
deriving DecidableEq, Repr

/-- `Token.GetPosition` (`/repo/ast/tokens.go:370-379`): line and column, from the text and the suffix
that remains after the token. -/
def getPosition (code rest : List Char) : Int × Int :=
  let pre := code.take (code.length - rest.length)
  ((pre.count '\n' : Int) + 1, ((pre.reverse.takeWhile (· ≠ '\n')).length : Int) + 1)

/-- `AstNode.Error` (`/repo/ast/ast.go:75-80`). -/
def Ast.error (a : Ast) (m : Msg) : Except Panic Ast :=
  match a.cur with
  | none => .error .nilToken
  | some t =>
    let (line, col) := getPosition a.code t.rest
    .ok { a with err := some (.at m line (col - (t.literal.length + 1)) t.literal) }

end Verif
