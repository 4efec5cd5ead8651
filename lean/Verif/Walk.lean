import Verif.Ast
/-!
# Walking a syntax tree (`/repo/ast/ast_struct.go:283-289, 333-366`)
-/
namespace Verif

/-- Value of the callback's second argument `*parentStm`: the module body, a procedure (given by its
position in the module body), or a statement.  Simplifications: a parent statement is given as it was
before the walk reached its children, and storing through `parentStm` (the address of a local variable
of `walkHelper`) is not modelled. -/
inductive Parent
  | body
  | func (idx : Nat)
  | stm (s : Stm)

/-- What the callback is told: its first argument `root` (`none` = nil; a procedure is given by its
position in the module body), the parent and the element `*stm` (`α` is `Stm`, or `Item` for elements of
the module body). -/
structure Visit (α : Type) where
  root : Option Nat
  parent : Parent
  elem : α

/-- A callback (`fCallBack`, `/repo/ast/ast_struct.go:7`): a function on an arbitrary state `σ` that also
gives what is stored at `*stm` afterwards (the old element to store nothing).  The two components are the
callback on statements and on elements of the module body. -/
structure Callback (σ : Type) where
  stm : σ → Visit Stm → σ × Stm
  item : σ → Visit Item → σ × Item

variable {σ : Type}

mutual
/-- The `switch` in the loop of `walkHelper` (`/repo/ast/ast_struct.go:335-362`) for one statement: walks
its children; second component: the statement with the stores made below it.

Children passed as a temporary slice `Statements{x}` (lines 337, 354, 355, 357-359, 361) get the callback,
but what it stores goes to the temporary and is lost; stores below `x` are kept. -/
def walkKids (f : Callback σ) (root : Option Nat) (st : σ) : Stm → σ × Stm
  | .ifS c tb elifs els =>
    let v := Parent.stm (.ifS c tb elifs els)
    let (st, c') := walkKids f root st c
    let st := (f.stm st ⟨root, v, c'⟩).1
    let (st, tb') := walkL f root v st tb
    let (st, els') := walkL f root v st els
    let (st, elifs') := walkL f root v st elifs
    (st, .ifS c' tb' elifs' els')
  | .tryS b c =>
    let v := Parent.stm (.tryS b c)
    let (st, b') := walkL f root v st b
    let (st, c') := walkL f root v st c
    (st, .tryS b' c')
  | .loop a b c d body =>
    let v := Parent.stm (.loop a b c d body)
    let (st, body') := walkL f root v st body
    (st, .loop a b c d body')
  | .method n ps k =>
    let v := Parent.stm (.method n ps k)
    let (st, ps') := walkL f root v st ps
    (st, .method n ps' k)
  | .bin op l r u n =>
    let v := Parent.stm (.bin op l r u n)
    let (st, r') := walkKids f root st r
    let st := (f.stm st ⟨root, v, r'⟩).1
    let (st, l') := walkKids f root st l
    let st := (f.stm st ⟨root, v, l'⟩).1
    (st, .bin op l' r' u n)
  | .ternary c t e =>
    let v := Parent.stm (.ternary c t e)
    let (st, c') := walkKids f root st c
    let st := (f.stm st ⟨root, v, c'⟩).1
    let (st, t') := walkKids f root st t
    let st := (f.stm st ⟨root, v, t'⟩).1
    let (st, e') := walkKids f root st e
    let st := (f.stm st ⟨root, v, e'⟩).1
    (st, .ternary c' t' e')
  | .ret p =>
    let v := Parent.stm (.ret p)
    let (st, p') := walkKids f root st p
    let st := (f.stm st ⟨root, v, p'⟩).1
    (st, .ret p')
  | s => (st, s)
/-- `walkHelper` (`/repo/ast/ast_struct.go:333-366`) on a slice of statements held by the tree.  No
`*FunctionOrProcedure` occurs there, so `parent` (here `root`) stays the same. -/
def walkL (f : Callback σ) (root : Option Nat) (parent : Parent) (st : σ) : List Stm → σ × List Stm
  | [] => (st, [])
  | s :: l =>
    let (st, s') := walkKids f root st s
    let (st, s'') := f.stm st ⟨root, parent, s'⟩
    let (st, l') := walkL f root parent st l
    (st, s'' :: l')
end

/-- `StatementWalk` (`/repo/ast/ast_struct.go:287-289`) on statements. -/
def statementWalk (f : Callback σ) (parent : Parent) (st : σ) (l : List Stm) : σ × List Stm :=
  walkL f none parent st l

/-- `walkHelper` on the module body; `i` is the position of the first element of the list.  After a
procedure `parent = v` (line 348) stays in force for the rest of the loop. -/
def walkItems (f : Callback σ) (root : Option Nat) (i : Nat) (st : σ) : List Item → σ × List Item
  | [] => (st, [])
  | .func d :: l =>
    let (st, body') := walkL f (some i) (.func i) st d.body
    let (st, it) := f.item st ⟨some i, .body, .func { d with body := body' }⟩
    let (st, l') := walkItems f (some i) (i + 1) st l
    (st, it :: l')
  | .stm s :: l =>
    let (st, s') := walkKids f root st s
    let (st, it) := f.item st ⟨root, .body, .stm s'⟩
    let (st, l') := walkItems f root (i + 1) st l
    (st, it :: l')

/-- `ModuleStatement.Walk` (`/repo/ast/ast_struct.go:283-285`). -/
def walk (f : Callback σ) (st : σ) (m : Module) : σ × Module :=
  let (st, b) := walkItems f none 0 st m.body
  (st, { m with body := b })

end Verif
