import Verif.Spec.Syntax
import Mathlib.Data.List.Forall2
/-!
# Specification: rules beyond the grammar

Which programs obey the rules on `Прервать`, `ВызватьИсключение`, `Возврат` and `:`, whose expressions are grouped by
precedence, and how the statements of a block appear in the tree.
-/
namespace Verif.Spec

/-! ## Operators -/

def Source.grouped : Source → Prop
  | .path p => p.grouped
  | .new n => n.grouped
  | .parenNew n => n.grouped
  | .ternary c a b => c.grouped ∧ a.grouped ∧ b.grouped

mutual
/-- All expressions are grouped by precedence, and a statement that begins with `path =` is an assignment. -/
def Stmt.grouped : Stmt → Prop
  | .assign p e => p.grouped ∧ e.grouped
  | .expr e => e.grouped ∧ e.noAssign
  | .ifS c t es e => c.grouped ∧ t.grouped ∧ es.grouped ∧ e.grouped
  | .forEach _ s b => s.grouped ∧ b.grouped
  | .forTo a z b => a.grouped ∧ z.grouped ∧ b.grouped
  | .while c b => c.grouped ∧ b.grouped
  | .tryS b h => b.grouped ∧ h.grouped
  | .cont => True
  | .brk => True
  | .throw e => e.grouped
  | .ret e => e.grouped
def Elifs.grouped : Elifs → Prop
  | .nil => True
  | .cons c b r => c.grouped ∧ b.grouped ∧ r.grouped
def Else.grouped : Else → Prop
  | .none => True
  | .some b => b.grouped
def Block.grouped : Block → Prop
  | .empty => True
  | .body b => b.grouped
def Body.grouped : Body → Prop
  | .one s => s.grouped
  | .sep b _ s => b.grouped ∧ s.grouped
def OptStmt.grouped : OptStmt → Prop
  | .none => True
  | .some s => s.grouped
end

/-- Default values are grouped; one that is followed by another one ends before its `=`. -/
def ParamD.grouped (p : ParamD) : Prop :=
  (∀ s ∈ p.defaults, s.grouped) ∧ ∀ s ∈ p.defaults.dropLast, s.closes (level .eq)

def FuncD.grouped (f : FuncD) : Prop := (∀ p ∈ f.params.list, p.grouped) ∧ f.body.grouped

def Program.grouped (p : Program) : Prop := (∀ f ∈ p.funcs, f.grouped) ∧ p.body.grouped

/-! ## Loops -/

mutual
/-- Every `Прервать` and `Продолжить` is inside a loop (`inLoop`: the statement itself is). -/
def Stmt.loopsOk (inLoop : Bool) : Stmt → Prop
  | .ifS _ t es e => t.loopsOk inLoop ∧ es.loopsOk inLoop ∧ e.loopsOk inLoop
  | .forEach _ _ b => b.loopsOk true
  | .forTo _ _ b => b.loopsOk true
  | .while _ b => b.loopsOk true
  | .tryS b h => b.loopsOk inLoop ∧ h.loopsOk inLoop
  | .cont => inLoop = true
  | .brk => inLoop = true
  | _ => True
def Elifs.loopsOk (inLoop : Bool) : Elifs → Prop
  | .nil => True
  | .cons _ b r => b.loopsOk inLoop ∧ r.loopsOk inLoop
def Else.loopsOk (inLoop : Bool) : Else → Prop
  | .none => True
  | .some b => b.loopsOk inLoop
def Block.loopsOk (inLoop : Bool) : Block → Prop
  | .empty => True
  | .body b => b.loopsOk inLoop
def Body.loopsOk (inLoop : Bool) : Body → Prop
  | .one s => s.loopsOk inLoop
  | .sep b _ s => b.loopsOk inLoop ∧ s.loopsOk inLoop
def OptStmt.loopsOk (inLoop : Bool) : OptStmt → Prop
  | .none => True
  | .some s => s.loopsOk inLoop
end

mutual
/-- Number of loops `Пока`. -/
def Stmt.whiles : Stmt → Nat
  | .ifS _ t es e => t.whiles + es.whiles + e.whiles
  | .forEach _ _ b => b.whiles
  | .forTo _ _ b => b.whiles
  | .while _ b => 1 + b.whiles
  | .tryS b h => b.whiles + h.whiles
  | _ => 0
def Elifs.whiles : Elifs → Nat
  | .nil => 0
  | .cons _ b r => b.whiles + r.whiles
def Else.whiles : Else → Nat
  | .none => 0
  | .some b => b.whiles
def Block.whiles : Block → Nat
  | .empty => 0
  | .body b => b.whiles
def Body.whiles : Body → Nat
  | .one s => s.whiles
  | .sep b _ s => b.whiles + s.whiles
def OptStmt.whiles : OptStmt → Nat
  | .none => 0
  | .some s => s.whiles
end

mutual
/-- Every `Прервать` and `Продолжить` is inside a loop or somewhere after the beginning of a loop `Пока`; `n` counts
the loops around the statement and the loops `Пока` that ended before it. -/
def Stmt.breaksOk (n : Nat) : Stmt → Prop
  | .ifS _ t es e => t.breaksOk n ∧ es.breaksOk (n + t.whiles) ∧ e.breaksOk (n + t.whiles + es.whiles)
  | .forEach _ _ b => b.breaksOk (n + 1)
  | .forTo _ _ b => b.breaksOk (n + 1)
  | .while _ b => b.breaksOk (n + 1)
  | .tryS b h => b.breaksOk n ∧ h.breaksOk (n + b.whiles)
  | .cont => 0 < n
  | .brk => 0 < n
  | _ => True
def Elifs.breaksOk (n : Nat) : Elifs → Prop
  | .nil => True
  | .cons _ b r => b.breaksOk n ∧ r.breaksOk (n + b.whiles)
def Else.breaksOk (n : Nat) : Else → Prop
  | .none => True
  | .some b => b.breaksOk n
def Block.breaksOk (n : Nat) : Block → Prop
  | .empty => True
  | .body b => b.breaksOk n
def Body.breaksOk (n : Nat) : Body → Prop
  | .one s => s.breaksOk n
  | .sep b _ s => b.breaksOk n ∧ s.breaksOk (n + b.whiles)
def OptStmt.breaksOk (n : Nat) : OptStmt → Prop
  | .none => True
  | .some s => s.breaksOk n
end

/-! ## Exceptions -/

mutual
/-- `ВызватьИсключение` without a value stands only inside handlers (after `Исключение`); `n` is the number of
handlers around the statement. -/
def Stmt.throwsOk (n : Nat) : Stmt → Prop
  | .ifS _ t es e => t.throwsOk n ∧ es.throwsOk n ∧ e.throwsOk n
  | .forEach _ _ b => b.throwsOk n
  | .forTo _ _ b => b.throwsOk n
  | .while _ b => b.throwsOk n
  | .tryS b h => b.throwsOk n ∧ h.throwsOk (n + 1)
  | .throw .none => 0 < n
  | _ => True
def Elifs.throwsOk (n : Nat) : Elifs → Prop
  | .nil => True
  | .cons _ b r => b.throwsOk n ∧ r.throwsOk n
def Else.throwsOk (n : Nat) : Else → Prop
  | .none => True
  | .some b => b.throwsOk n
def Block.throwsOk (n : Nat) : Block → Prop
  | .empty => True
  | .body b => b.throwsOk n
def Body.throwsOk (n : Nat) : Body → Prop
  | .one s => s.throwsOk n
  | .sep b _ s => b.throwsOk n ∧ s.throwsOk n
def OptStmt.throwsOk (n : Nat) : OptStmt → Prop
  | .none => True
  | .some s => s.throwsOk n
end

/-! ## Return -/

mutual
/-- `Возврат` with a value stands only inside functions (`f`: the statement is in a function). -/
def Stmt.returnsOk (f : Bool) : Stmt → Prop
  | .ifS _ t es e => t.returnsOk f ∧ es.returnsOk f ∧ e.returnsOk f
  | .forEach _ _ b => b.returnsOk f
  | .forTo _ _ b => b.returnsOk f
  | .while _ b => b.returnsOk f
  | .tryS b h => b.returnsOk f ∧ h.returnsOk f
  | .ret (.some _) => f = true
  | _ => True
def Elifs.returnsOk (f : Bool) : Elifs → Prop
  | .nil => True
  | .cons _ b r => b.returnsOk f ∧ r.returnsOk f
def Else.returnsOk (f : Bool) : Else → Prop
  | .none => True
  | .some b => b.returnsOk f
def Block.returnsOk (f : Bool) : Block → Prop
  | .empty => True
  | .body b => b.returnsOk f
def Body.returnsOk (f : Bool) : Body → Prop
  | .one s => s.returnsOk f
  | .sep b _ s => b.returnsOk f ∧ s.returnsOk f
def OptStmt.returnsOk (f : Bool) : OptStmt → Prop
  | .none => True
  | .some s => s.returnsOk f
end

/-! ## Colons -/

mutual
/-- The last statement of a block. -/
def Block.last : Block → Option Stmt
  | .empty => none
  | .body b => b.last
def Body.last : Body → Option Stmt
  | .one s => some s
  | .sep _ _ (.some s) => some s
  | .sep b _ .none => b.last
end

/-- The statement is a label `~name` (possibly with signs or `Не` in front, which the tree does not show). -/
def Stmt.IsLabel (s : Stmt) : Prop := ∃ e n, s = .expr e ∧ e.tree = .label n

mutual
/-- `:` as a separator stands only after a label or before the first statement of a block. -/
def Stmt.colonsOk : Stmt → Prop
  | .ifS _ t es e => t.colonsOk ∧ es.colonsOk ∧ e.colonsOk
  | .forEach _ _ b => b.colonsOk
  | .forTo _ _ b => b.colonsOk
  | .while _ b => b.colonsOk
  | .tryS b h => b.colonsOk ∧ h.colonsOk
  | _ => True
def Elifs.colonsOk : Elifs → Prop
  | .nil => True
  | .cons _ b r => b.colonsOk ∧ r.colonsOk
def Else.colonsOk : Else → Prop
  | .none => True
  | .some b => b.colonsOk
def Block.colonsOk : Block → Prop
  | .empty => True
  | .body b => b.colonsOk
def Body.colonsOk : Body → Prop
  | .one s => s.colonsOk
  | .sep b p s => b.colonsOk ∧ s.colonsOk ∧ (p = .colon → ∀ x, b.last = some x → x.IsLabel)
def OptStmt.colonsOk : OptStmt → Prop
  | .none => True
  | .some s => s.colonsOk
end

mutual
/-- No `:` stands in a block before its first statement, except as the first token of the block. -/
def Stmt.tidy : Stmt → Prop
  | .ifS _ t es e => t.tidy ∧ es.tidy ∧ e.tidy
  | .forEach _ _ b => b.tidy
  | .forTo _ _ b => b.tidy
  | .while _ b => b.tidy
  | .tryS b h => b.tidy ∧ h.tidy
  | _ => True
def Elifs.tidy : Elifs → Prop
  | .nil => True
  | .cons _ b r => b.tidy ∧ r.tidy
def Else.tidy : Else → Prop
  | .none => True
  | .some b => b.tidy
def Block.tidy : Block → Prop
  | .empty => True
  | .body b => b.tidy
def Body.tidy : Body → Prop
  | .one s => s.tidy
  | .sep b p s => b.tidy ∧ s.tidy ∧ (p = .colon → b = .empty ∨ b.last ≠ none)
def OptStmt.tidy : OptStmt → Prop
  | .none => True
  | .some s => s.tidy
end

/-! ## Blocks in the tree -/

/-- The text of the block begins with a statement, not with a separator. -/
def Body.starts : Body → Bool
  | .one _ => true
  | .sep .empty _ _ => false
  | .sep (.body b) _ _ => b.starts

mutual
/-- `x` is a tree of the statement, where each block that begins with a separator may have foreign statements in
front (**deviation**). -/
def Stmt.shows : Stmt → Stm → Prop
  | .assign p e, x => x = .assign p.tree [e.tree]
  | .expr e, x => x = e.tree
  | .ifS c t es e, x => ∃ tb eb lb, x = .ifS c.tree tb eb.reverse lb ∧ t.shows tb ∧ es.shows eb ∧ e.shows lb
  | .forEach n s b, x => ∃ l, x = .loop (.str n) .nil s.tree .nil l ∧ b.shows l
  | .forTo a z b, x => ∃ l, x = .loop a.tree z.tree .nil .nil l ∧ b.shows l
  | .while c b, x => ∃ l, x = .loop .nil .nil .nil c.tree l ∧ b.shows l
  | .tryS b h, x => ∃ l l', x = .tryS l l' ∧ b.shows l ∧ h.shows l'
  | .cont, x => x = .cont
  | .brk, x => x = .brk
  | .throw e, x => x = .throw e.tree
  | .ret e, x => x = .ret e.tree
def Elifs.shows : Elifs → List Stm → Prop
  | .nil, l => l = []
  | .cons c b r, l => ∃ tb l', l = .ifS c.tree tb [] [] :: l' ∧ b.shows tb ∧ r.shows l'
def Else.shows : Else → List Stm → Prop
  | .none, l => l = []
  | .some b, l => b.shows l
/-- The list `l` is the tree of the block, with foreign statements in front if the block begins with a separator. -/
def Block.shows : Block → List Stm → Prop
  | .empty, l => l = []
  | .body b, l => ∃ old w, l = old ++ w ∧ b.exactly w ∧ (b.starts = true → old = [])
/-- The list consists of trees of the statements of the block, in the order of the text. -/
def Block.exactly : Block → List Stm → Prop
  | .empty, l => l = []
  | .body b, l => b.exactly l
def Body.exactly : Body → List Stm → Prop
  | .one s, l => ∃ x, l = [x] ∧ s.shows x
  | .sep b _ o, l => ∃ l1 l2, l = l1 ++ l2 ∧ b.exactly l1 ∧ o.exactly l2
def OptStmt.exactly : OptStmt → List Stm → Prop
  | .none, l => l = []
  | .some s, l => ∃ x, l = [x] ∧ s.shows x
end

/-- The record `d` describes the procedure or function `f`; only the body may differ from `f.tree`. -/
def FuncD.shows (f : FuncD) (d : FuncDecl) : Prop :=
  f.body.shows d.body ∧ d = { f.tree with body := d.body }

/-- The module `m` describes the program. -/
def Program.shows (p : Program) (m : Module) : Prop :=
  m.globals = p.globals ∧
  ∃ (ds : List FuncDecl) (l : List Stm), m.body = ds.map .func ++ l.map .stm ∧ List.Forall₂ FuncD.shows p.funcs ds ∧ p.body.shows l

def FuncD.tidy (f : FuncD) : Prop := f.body.tidy
/-- In no block of the program does `:` stand before the first statement, except as the first token of the block. -/
def Program.tidy (p : Program) : Prop := (∀ f ∈ p.funcs, f.tidy) ∧ p.body.tidy

def FuncD.clean (f : FuncD) : Prop := f.body.clean
/-- No block of the program begins with a separator. -/
def Program.clean (p : Program) : Prop := (∀ f ∈ p.funcs, f.clean) ∧ p.body.clean

/-! ## Whole programs -/

/-- Module variables come before procedures and functions. -/
def Program.ordered (p : Program) : Prop :=
  ∃ (vs : List VarsD) (fs : List FuncD), p.parts = vs.map Part.vars ++ fs.map Part.func

/-- The outermost blocks in the order of the text. -/
def Program.blocks (p : Program) : List Block := p.funcs.map FuncD.body ++ [p.body]

/-- `Прервать` and `Продолжить` only inside loops. -/
def Program.loopsOk (p : Program) : Prop := ∀ b ∈ p.blocks, b.loopsOk false

/-- `breaksOk` for blocks one after the other. -/
def blocksBreaksOk (n : Nat) : List Block → Prop
  | [] => True
  | b :: bs => b.breaksOk n ∧ blocksBreaksOk (n + b.whiles) bs

/-- `Прервать` and `Продолжить` only inside loops or after a loop `Пока` began. -/
def Program.breaksOk (p : Program) : Prop := blocksBreaksOk 0 p.blocks

/-- Number of loops `Пока`. -/
def Program.whiles (p : Program) : Nat := (p.blocks.map Block.whiles).sum

/-- `ВызватьИсключение` without value only inside handlers. -/
def Program.throwsOk (p : Program) : Prop := ∀ b ∈ p.blocks, b.throwsOk 0

/-- `Возврат` with a value only inside functions. -/
def Program.returnsOk (p : Program) : Prop := (∀ f ∈ p.funcs, f.body.returnsOk f.isFunc) ∧ p.body.returnsOk false

def Program.colonsOk (p : Program) : Prop := ∀ b ∈ p.blocks, b.colonsOk

/-- No module variable is declared twice, and no local variable of a procedure or function. -/
def Program.distinct (p : Program) : Prop :=
  (p.globals.map GVar.name).Nodup ∧ ∀ f ∈ p.funcs, f.locals.Nodup

end Verif.Spec
