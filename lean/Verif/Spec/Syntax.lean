import Verif.Ast
import Verif.Spec.Grammar
/-!
# Specification: programs as written

The syntax of 1C modules as data: what is written, with its separators, parentheses and signs, but without layout.
`toks` lists the tokens of a program from left to right; `tree` is the syntax tree that belongs to it.  Everything
here is independent of the parser and of its tables.

Known deviations of the library from what one would expect are visible in `tree` and marked **deviation**.
-/
namespace Verif.Spec

abbrev Name := List Char

/-- What of a token can matter for the tree: its number, its text for names, its value for literals. -/
structure Key where
  kind : Nat
  name : Name
  val : Val
deriving DecidableEq, Repr

/-- A token that is fully described by its number: keyword, operator, punctuation. -/
def word (t : Terminal) : Key := ⟨t.kind, [], .nil⟩
/-- A token whose text matters. -/
def named (t : Terminal) (n : Name) : Key := ⟨t.kind, n, .nil⟩
/-- A literal. -/
def literal (t : Terminal) (v : Val) : Key := ⟨t.kind, [], v⟩
/-- An identifier. -/
def ident (n : Name) : Key := named .ktoken_identifier n

/-- The key of a token. -/
def key (x : Nat × Tok) : Key :=
  if x.1 ∈ [Terminal.ktoken_identifier, .kGoToLabel, .kDirective, .kExecute].map Terminal.kind then ⟨x.1, x.2.literal, .nil⟩
  else if x.1 ∈ [Terminal.kNumber, .kString, .kDate, .kTrue, .kFalse].map Terminal.kind then ⟨x.1, [], x.2.value⟩
  else ⟨x.1, [], .nil⟩

/-! ## Expressions -/

mutual
inductive Expr
  | simple (s : Simple)
  /-- `( , , )`: list in parentheses, elements may be missing -/
  | paren (es : Args)
  | bin (op : Op) (a b : Expr)
  /-- `Не e` -/
  | not (e : Expr)
  | new (n : New)
  /-- `Перейти ~label` -/
  | goto (label : Name)
  /-- `?(c, a, b)` -/
  | ternary (c a b : Expr)
  | path (p : Path)
inductive Simple
  | str (s : List Char)
  | num (x : F64)
  | neg (e : Expr)
  | pos (e : Expr)
  | bool (b : Bool)
  | date (t : Time)
  | undef
  | label (n : Name)
inductive New
  /-- `Новый c` -/
  | name (c : Name)
  /-- `Новый c(...)` -/
  | call (c : Name) (es : Args)
  /-- `Новый(...)` -/
  | args (es : Args)
/-- Names, calls and elements joined by points. -/
inductive Path
  | one (i : Ident)
  | dot (p : Path) (i : Ident)
inductive Ident
  | name (n : Name)
  | call (n : Name) (es : Args)
  | index (i : Ident) (e : Expr)
  /-- `Выполнить "..."`; `w` is the keyword as written -/
  | execStr (w : Name) (s : List Char)
  | execVar (w n : Name)
  | exec (w : Name) (e : Expr)
/-- One or more arguments. -/
inductive Args
  | one (e : OptExpr)
  | more (es : Args) (e : OptExpr)
inductive OptExpr
  | none
  | some (e : Expr)
end

def opTerminal : Op → Terminal
  | .plus => .plus | .minus => .minus | .mul => .star | .div => .slash | .eq => .kEQUAL | .gt => .gt | .lt => .lt
  | .ne => .kNeEQ | .le => .kLE | .ge => .kGE | .mod => .percent | .or => .kOR | .and => .kAnd

mutual
def Expr.toks : Expr → List Key
  | .simple s => s.toks
  | .paren es => word .lpar :: (es.toks ++ [word .rpar])
  | .bin op a b => a.toks ++ word (opTerminal op) :: b.toks
  | .not e => word .kNot :: e.toks
  | .new n => n.toks
  | .goto l => [word .kGoTo, named .kGoToLabel l]
  | .ternary c a b =>
    word .quest :: word .lpar :: (c.toks ++ word .comma :: (a.toks ++ word .comma :: (b.toks ++ [word .rpar])))
  | .path p => p.toks
def Simple.toks : Simple → List Key
  | .str s => [literal .kString (.str s)]
  | .num x => [literal .kNumber (.num x)]
  | .neg e => word .minus :: e.toks
  | .pos e => word .plus :: e.toks
  | .bool true => [literal .kTrue (.bool true)]
  | .bool false => [literal .kFalse (.bool false)]
  | .date t => [literal .kDate (.date t)]
  | .undef => [word .kUndefind]
  | .label n => [named .kGoToLabel n]
def New.toks : New → List Key
  | .name c => [word .kNew, ident c]
  | .call c es => word .kNew :: ident c :: word .lpar :: (es.toks ++ [word .rpar])
  | .args es => word .kNew :: word .lpar :: (es.toks ++ [word .rpar])
def Path.toks : Path → List Key
  | .one i => i.toks
  | .dot p i => p.toks ++ word .dot :: i.toks
def Ident.toks : Ident → List Key
  | .name n => [ident n]
  | .call n es => ident n :: word .lpar :: (es.toks ++ [word .rpar])
  | .index i e => i.toks ++ word .lbr :: (e.toks ++ [word .rbr])
  | .execStr w s => [named .kExecute w, literal .kString (.str s)]
  | .execVar w n => [named .kExecute w, ident n]
  | .exec w e => named .kExecute w :: word .lpar :: (e.toks ++ [word .rpar])
def Args.toks : Args → List Key
  | .one e => e.toks
  | .more es e => es.toks ++ word .comma :: e.toks
def OptExpr.toks : OptExpr → List Key
  | .none => []
  | .some e => e.toks
end

/-- A tree with a minus sign in front.  **Deviation**: only numbers, binary operations, names and chains have a
place for the sign; on anything else (parentheses, calls, elements, `?()`, `Новый`, ...) it is lost, and a second
sign does not cancel the first except on numbers. -/
def withMinus : Stm → Stm
  | .num x => .num x.negate
  | .bin op l r _ n => .bin op l r true n
  | .var s _ n => .var s true n
  | .chain u c _ n => .chain u c true n
  | x => x

/-- A tree with `Не` in front.  **Deviation**: lost on elements, `?()`, `Новый`, numbers, strings, dates; a second
`Не` does not cancel the first except on `Истина`/`Ложь`. -/
def withNot : Stm → Stm
  | .bool b => .bool !b
  | .bin op l r u _ => .bin op l r u true
  | .exprs l _ => .exprs l true
  | .var s u _ => .var s u true
  | .chain a c u _ => .chain a c u true
  | .method s p _ => .method s p true
  | x => x

mutual
def Expr.tree : Expr → Stm
  | .simple s => s.tree
  | .paren es => .exprs es.tree false
  | .bin op a b => .bin op a.tree b.tree false false
  | .not e => withNot e.tree
  | .new n => n.tree
  | .goto l => .goto l
  | .ternary c a b => .ternary c.tree a.tree b.tree
  | .path p => p.tree
def Simple.tree : Simple → Stm
  | .str s => .str s
  | .num x => .num x
  | .neg e => withMinus e.tree
  | .pos e => e.tree
  | .bool b => .bool b
  | .date t => .date t
  | .undef => .undef
  | .label n => .label n
def New.tree : New → Stm
  | .name c => .new c []
  | .call c es => .new c es.tree
  | .args es => .new [] es.tree
def Path.tree : Path → Stm
  | .one i => i.tree
  | .dot p i => .chain i.tree p.tree false false
def Ident.tree : Ident → Stm
  | .name n => .var n false false
  | .call n es => .method n es.tree false
  | .index i e => .item e.tree i.tree
  | .execStr w s => .method w [.str s] false
  | .execVar w n => .method w [.var n false false] false
  | .exec w e => .method w [e.tree] false
/-- A missing argument is nil. -/
def Args.tree : Args → List Stm
  | .one e => [e.tree]
  | .more es e => es.tree ++ [e.tree]
def OptExpr.tree : OptExpr → Stm
  | .none => .nil
  | .some e => e.tree
end

/-! ### Precedence

The levels of grammar.y:68-79, a higher number binds tighter.  The binary operators associate to the left. -/

def level : Op → Nat
  | .or => 1 | .and => 2 | .ne => 3 | .le => 4 | .ge => 5 | .eq => 7 | .gt => 8 | .lt => 8
  | .plus => 9 | .minus => 9 | .mul => 10 | .div => 10 | .mod => 10
/-- Level of `Не`. -/
def notLevel : Nat := 6
/-- Level of the signs. -/
def signLevel : Nat := 11

mutual
/-- `e` can stand to the left of an operator of level `n`: every operator whose right operand ends where `e` ends
binds at least as tightly. -/
def Expr.closes (n : Nat) : Expr → Prop
  | .bin op _ b => n ≤ level op ∧ b.closes n
  | .not e => n ≤ notLevel ∧ e.closes n
  | .simple s => s.closes n
  | _ => True
def Simple.closes (n : Nat) : Simple → Prop
  | .neg e => n ≤ signLevel ∧ e.closes n
  | .pos e => n ≤ signLevel ∧ e.closes n
  | _ => True
end

/-- `e` can stand to the right of an operator of level `n`: if it is a binary operation, it binds more tightly. -/
def Expr.opens (n : Nat) : Expr → Prop
  | .bin op _ _ => n < level op
  | _ => True

mutual
/-- All operators in the expression are grouped by precedence. -/
def Expr.grouped : Expr → Prop
  | .simple s => s.grouped
  | .paren es => es.grouped
  | .bin op a b => a.closes (level op) ∧ b.opens (level op) ∧ a.grouped ∧ b.grouped
  | .not e => e.opens notLevel ∧ e.grouped
  | .new n => n.grouped
  | .goto _ => True
  | .ternary c a b => c.grouped ∧ a.grouped ∧ b.grouped
  | .path p => p.grouped
def Simple.grouped : Simple → Prop
  | .neg e => e.opens signLevel ∧ e.grouped
  | .pos e => e.opens signLevel ∧ e.grouped
  | _ => True
def New.grouped : New → Prop
  | .name _ => True
  | .call _ es => es.grouped
  | .args es => es.grouped
def Path.grouped : Path → Prop
  | .one i => i.grouped
  | .dot p i => p.grouped ∧ i.grouped
def Ident.grouped : Ident → Prop
  | .name _ => True
  | .call _ es => es.grouped
  | .index i e => i.grouped ∧ e.grouped
  | .execStr _ _ => True
  | .execVar _ _ => True
  | .exec _ e => e.grouped
def Args.grouped : Args → Prop
  | .one e => e.grouped
  | .more es e => es.grouped ∧ e.grouped
def OptExpr.grouped : OptExpr → Prop
  | .none => True
  | .some e => e.grouped
end

/-- The expression does not begin with `path =`, which at the beginning of a statement is an assignment. -/
def Expr.noAssign : Expr → Prop
  | .bin op (.path _) _ => op ≠ .eq
  | .bin _ a _ => a.noAssign
  | _ => True

/-! ## Statements -/

inductive Sep
  | semi
  | colon
deriving DecidableEq, Repr

def Sep.tok : Sep → Key
  | .semi => word .semi
  | .colon => word .colon

/-- What `Для Каждого` can run over. -/
inductive Source
  | path (p : Path)
  | new (n : New)
  | parenNew (n : New)
  | ternary (c a b : Expr)

mutual
inductive Stmt
  | assign (p : Path) (e : Expr)
  | expr (e : Expr)
  | ifS (c : Expr) (t : Block) (es : Elifs) (e : Else)
  | forEach (n : Name) (s : Source) (b : Block)
  | forTo (a z : Expr) (b : Block)
  | while (c : Expr) (b : Block)
  | tryS (b h : Block)
  | cont
  | brk
  | throw (e : OptExpr)
  | ret (e : OptExpr)
inductive Elifs
  | nil
  | cons (c : Expr) (b : Block) (r : Elifs)
inductive Else
  | none
  | some (b : Block)
/-- Statements with separators, possibly none. -/
inductive Block
  | empty
  | body (b : Body)
inductive Body
  | one (s : Stmt)
  | sep (b : Block) (p : Sep) (s : OptStmt)
inductive OptStmt
  | none
  | some (s : Stmt)
end

def Source.toks : Source → List Key
  | .path p => p.toks
  | .new n => n.toks
  | .parenNew n => word .lpar :: (n.toks ++ [word .rpar])
  | .ternary c a b => (Expr.ternary c a b).toks

mutual
def Stmt.toks : Stmt → List Key
  | .assign p e => p.toks ++ word .kEQUAL :: e.toks
  | .expr e => e.toks
  | .ifS c t es e => word .kIf :: (c.toks ++ word .kThen :: (t.toks ++ (es.toks ++ (e.toks ++ [word .kEndIf]))))
  | .forEach n s b => word .kFor :: word .kEach :: ident n :: word .kIn ::
      (s.toks ++ word .kLoop :: (b.toks ++ [word .kEndLoop]))
  | .forTo a z b => word .kFor :: (a.toks ++ word .kTo :: (z.toks ++ word .kLoop :: (b.toks ++ [word .kEndLoop])))
  | .while c b => word .kWhile :: (c.toks ++ word .kLoop :: (b.toks ++ [word .kEndLoop]))
  | .tryS b h => word .kTry :: (b.toks ++ word .kCatch :: (h.toks ++ [word .kEndTry]))
  | .cont => [word .kContinue]
  | .brk => [word .kBreak]
  | .throw e => word .kThrow :: e.toks
  | .ret e => word .kReturn :: e.toks
def Elifs.toks : Elifs → List Key
  | .nil => []
  | .cons c b r => word .kElseIf :: (c.toks ++ word .kThen :: (b.toks ++ r.toks))
def Else.toks : Else → List Key
  | .none => []
  | .some b => word .kElse :: b.toks
def Block.toks : Block → List Key
  | .empty => []
  | .body b => b.toks
def Body.toks : Body → List Key
  | .one s => s.toks
  | .sep b p s => b.toks ++ p.tok :: s.toks
def OptStmt.toks : OptStmt → List Key
  | .none => []
  | .some s => s.toks
end

def Source.tree : Source → Stm
  | .path p => p.tree
  | .new n => n.tree
  | .parenNew n => n.tree
  | .ternary c a b => .ternary c.tree a.tree b.tree

mutual
def Stmt.tree : Stmt → Stm
  | .assign p e => .assign p.tree [e.tree]
  | .expr e => e.tree
  /- **Deviation**: the branches `ИначеЕсли` come in reverse order. -/
  | .ifS c t es e => .ifS c.tree t.tree es.tree.reverse e.tree
  | .forEach n s b => .loop (.str n) .nil s.tree .nil b.tree
  | .forTo a z b => .loop a.tree z.tree .nil .nil b.tree
  | .while c b => .loop .nil .nil .nil c.tree b.tree
  | .tryS b h => .tryS b.tree h.tree
  | .cont => .cont
  | .brk => .brk
  | .throw e => .throw e.tree
  | .ret e => .ret e.tree
/-- The branches in the order of the text. -/
def Elifs.tree : Elifs → List Stm
  | .nil => []
  | .cons c b r => .ifS c.tree b.tree [] [] :: r.tree
def Else.tree : Else → List Stm
  | .none => []
  | .some b => b.tree
/-- The statements of a block in the order of the text. -/
def Block.tree : Block → List Stm
  | .empty => []
  | .body b => b.tree
def Body.tree : Body → List Stm
  | .one s => [s.tree]
  | .sep b _ s => b.tree ++ s.tree
def OptStmt.tree : OptStmt → List Stm
  | .none => []
  | .some s => [s.tree]
end

/-! ## Declarations -/

/-- One or more names separated by commas. -/
structure Names where
  first : Name
  rest : List Name

def Names.list (n : Names) : List Name := n.first :: n.rest
def Names.toks (n : Names) : List Key := ident n.first :: n.rest.flatMap fun x => [word .comma, ident x]

/-- A parameter: `[Знач] name [= e]...`; the grammar allows several default values. -/
structure ParamD where
  byVal : Bool
  name : Name
  defaults : List Simple

def ParamD.toks (p : ParamD) : List Key :=
  (if p.byVal then [word .kValueParam] else []) ++ ident p.name ::
    p.defaults.flatMap fun s => word .kEQUAL :: s.toks

/-- The last default value counts. -/
def ParamD.tree (p : ParamD) : Param :=
  ⟨match p.defaults.getLast? with | none => .nil | some s => s.tree, p.name, p.byVal⟩

/-- The parameters between the parentheses; the grammar allows a comma before the first one. -/
structure ParamsD where
  first : Option ParamD
  rest : List ParamD

def ParamsD.toks (p : ParamsD) : List Key :=
  (match p.first with | none => [] | some x => x.toks) ++ p.rest.flatMap fun x => word .comma :: x.toks
def ParamsD.list (p : ParamsD) : List ParamD := p.first.toList ++ p.rest

/-- Procedure or function. -/
structure FuncD where
  directive : Option Name
  isFunc : Bool
  name : Name
  params : ParamsD
  «export» : Bool
  /-- the lists of `Перем` at the beginning -/
  vars : List Names
  body : Block

/-- `Перем a, b Экспорт;` -/
structure VarsD where
  directive : Option Name
  names : Names
  «export» : Bool

inductive Part
  | vars (v : VarsD)
  | func (f : FuncD)

/-- A module: declarations, then statements. -/
structure Program where
  parts : List Part
  body : Block

def directiveToks : Option Name → List Key
  | none => []
  | some n => [named .kDirective n]
def exportToks (b : Bool) : List Key := if b then [word .kExport] else []

def FuncD.toks (f : FuncD) : List Key :=
  directiveToks f.directive ++ word (if f.isFunc then .kFunction else .kProcedure) :: ident f.name :: word .lpar ::
    (f.params.toks ++ word .rpar :: (exportToks f.export ++
      ((f.vars.flatMap fun n => word .kVar :: (n.toks ++ [word .semi])) ++
        (f.body.toks ++ [word (if f.isFunc then .kEndFunction else .kEndProcedure)]))))

def VarsD.toks (v : VarsD) : List Key :=
  directiveToks v.directive ++ word .kVar :: (v.names.toks ++ (exportToks v.export ++ [word .semi]))

def Part.toks : Part → List Key
  | .vars v => v.toks
  | .func f => f.toks

def Program.toks (p : Program) : List Key := p.parts.flatMap Part.toks ++ p.body.toks

/-- The declared local variables in order. -/
def FuncD.locals (f : FuncD) : List Name := f.vars.flatMap Names.list

def FuncD.tree (f : FuncD) : FuncDecl where
  vars := some f.locals
  name := f.name
  directive := f.directive.getD []
  body := f.body.tree
  params := f.params.list.map ParamD.tree
  isFunc := f.isFunc
  «export» := f.export

/-- The module variables of a declaration. -/
def VarsD.tree (v : VarsD) : List GVar := v.names.list.map fun n => ⟨v.directive.getD [], n, v.export⟩

def Part.globals : Part → List GVar
  | .vars v => v.tree
  | .func _ => []
def Part.funcs : Part → List FuncD
  | .vars _ => []
  | .func f => [f]

def Program.globals (p : Program) : List GVar := p.parts.flatMap Part.globals
def Program.funcs (p : Program) : List FuncD := p.parts.flatMap Part.funcs

/-- The syntax tree of the module. -/
def Program.tree (p : Program) : Module where
  globals := p.globals
  body := p.funcs.map (fun f => .func f.tree) ++ p.body.tree.map .stm

/-! ## Rules that are not in the grammar -/

mutual
/-- No block begins with a separator. -/
def Stmt.clean : Stmt → Prop
  | .ifS _ t es e => t.clean ∧ es.clean ∧ e.clean
  | .forEach _ _ b => b.clean
  | .forTo _ _ b => b.clean
  | .while _ b => b.clean
  | .tryS b h => b.clean ∧ h.clean
  | _ => True
def Elifs.clean : Elifs → Prop
  | .nil => True
  | .cons _ b r => b.clean ∧ r.clean
def Else.clean : Else → Prop
  | .none => True
  | .some b => b.clean
def Block.clean : Block → Prop
  | .empty => True
  | .body b => b.clean
def Body.clean : Body → Prop
  | .one s => s.clean
  | .sep .empty _ _ => False
  | .sep (.body b) _ s => b.clean ∧ s.clean
def OptStmt.clean : OptStmt → Prop
  | .none => True
  | .some s => s.clean
end

end Verif.Spec
