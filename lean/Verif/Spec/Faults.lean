import Verif.Ast
import Verif.Spec.Rules
/-!
# Specification: violations of the rules beyond the grammar

What is wrong with a program, in the order in which a reader who goes through the text once, and judges every construct
when it ends, would find it.
-/
namespace Verif.Spec

inductive Fault
  /-- `Прервать` or `Продолжить` outside of loops -/
  | loop
  /-- `ВызватьИсключение` without a value outside of handlers -/
  | throw
  /-- `Возврат` with a value outside of functions -/
  | ret
  /-- `:` after something that is not a label -/
  | colon
  /-- a variable is declared a second time -/
  | twice (x : Name)
  /-- a module variable is declared after a procedure -/
  | late
  /-- none of these: an error of another kind -/
  | other
deriving DecidableEq

/-- What an error message says is wrong. -/
def _root_.Verif.Err.fault : Err → Fault
  | .lex _ => .other
  | .at (.loopOp _) _ _ _ => .loop
  | .at (.throwOp _) _ _ _ => .throw
  | .at .procReturn _ _ _ => .ret
  | .at .semicolon _ _ _ => .colon
  | .at (.dupVar x) _ _ _ => .twice x
  | .at .varOrder _ _ _ => .late
  | .at .syntaxError _ _ _ => .other
  | .at .funcOrder _ _ _ => .other

/-- The statement is a label (see `Stmt.IsLabel`). -/
def Stmt.isLabel : Stmt → Bool
  | .expr e => match e.tree with
    | .label _ => true
    | _ => false
  | _ => false

/-- `:` after the statements of the block is a mistake. -/
def Block.badColon (b : Block) : Sep → List Fault
  | .semi => []
  | .colon => match b.last with
    | some s => if s.isLabel then [] else [.colon]
    | none => []

mutual
/-- What is wrong in a statement.  `n` counts the loops around it and the loops `Пока` that ended before it, `k` the
handlers around it; `f`: it is in a function. -/
def Stmt.faults (n k : Nat) (f : Bool) : Stmt → List Fault
  | .ifS _ t es e => t.faults n k f ++ es.faults (n + t.whiles) k f ++ e.faults (n + t.whiles + es.whiles) k f
  | .forEach _ _ b => b.faults (n + 1) k f
  | .forTo _ _ b => b.faults (n + 1) k f
  | .while _ b => b.faults (n + 1) k f
  | .tryS b h => b.faults n k f ++ h.faults (n + b.whiles) (k + 1) f
  | .cont => if n = 0 then [.loop] else []
  | .brk => if n = 0 then [.loop] else []
  | .throw .none => if k = 0 then [.throw] else []
  | .ret (.some _) => if f then [] else [.ret]
  | _ => []
def Elifs.faults (n k : Nat) (f : Bool) : Elifs → List Fault
  | .nil => []
  | .cons _ b r => b.faults n k f ++ r.faults (n + b.whiles) k f
def Else.faults (n k : Nat) (f : Bool) : Else → List Fault
  | .none => []
  | .some b => b.faults n k f
def Block.faults (n k : Nat) (f : Bool) : Block → List Fault
  | .empty => []
  | .body b => b.faults n k f
def Body.faults (n k : Nat) (f : Bool) : Body → List Fault
  | .one s => s.faults n k f
  | .sep b p s => b.faults n k f ++ s.faults (n + b.whiles) k f ++ b.badColon p
def OptStmt.faults (n k : Nat) (f : Bool) : OptStmt → List Fault
  | .none => []
  | .some s => s.faults n k f
end

/-- The first of the names `xs` that is declared already, if `seen` are declared before. -/
def firstTwice (seen : List Name) : List Name → Option Name
  | [] => none
  | x :: xs => if x ∈ seen then some x else firstTwice (seen ++ [x]) xs

/-- The names known after one list `Перем xs;`: those before the first name that is declared already. -/
def seenAfter (seen : List Name) : List Name → List Name
  | [] => seen
  | x :: xs => if x ∈ seen then seen else seenAfter (seen ++ [x]) xs

/-- What is wrong in the lists `Перем` of a procedure: at most one fault in each list. -/
def localFaults (seen : List Name) : List Names → List Fault
  | [] => []
  | n :: ns => ((firstTwice seen n.list).map Fault.twice).toList ++ localFaults (seenAfter seen n.list) ns

def FuncD.faults (n : Nat) (f : FuncD) : List Fault := localFaults [] f.vars ++ f.body.faults n 0 f.isFunc

/-- What is wrong in a list of module variables (`seen`: names declared before). -/
def globalFaults (seen : List Name) : List Name → List Fault
  | [] => []
  | x :: xs => (if x ∈ seen then [Fault.twice x] else []) ++ globalFaults (seen ++ [x]) xs

/-- What is wrong in the declarations of a module.  `n`: as in `Stmt.faults`; `seen`: names of module variables before;
`procs`: there was a procedure or function before. -/
def partsFaults (n : Nat) (seen : List Name) (procs : Bool) : List Part → List Fault
  | [] => []
  | .vars v :: l =>
    (if procs then v.names.list.map fun _ => Fault.late else globalFaults seen v.names.list) ++
      partsFaults n (if procs then seen else seen ++ v.names.list) procs l
  | .func f :: l => f.faults n ++ partsFaults (n + f.body.whiles) seen true l

/-- What is wrong in a program. -/
def Program.faults (p : Program) : List Fault :=
  partsFaults 0 [] false p.parts ++ p.body.faults (p.funcs.map fun f => f.body.whiles).sum 0 false

/-- The first list `Перем` of the procedure has a name twice, and another list follows. -/
def FuncD.doomed (f : FuncD) : Prop := ∃ n m l, f.vars = n :: m :: l ∧ ¬ n.list.Nodup

/-- Some procedure or function is doomed. -/
def Program.doomed (p : Program) : Prop := ∃ f ∈ p.funcs, f.doomed

end Verif.Spec
