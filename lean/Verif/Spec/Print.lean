import Verif.Ast
import Verif.Spec.Num
/-!
# Specification: what printed text has to show
-/
namespace Verif.Spec

/-- `Не` and minus before an expression. -/
def signs (minus not : Bool) : List Char := (if not then "Не ".toList else []) ++ (if minus then ['-'] else [])

/-- The text that shows the signs of the expression: the signs together with what they stand before. -/
def signed : Stm → List Char
  | .var s u n => signs u n ++ s
  | .bin _ _ _ u n => if u || n then signs u n ++ ['('] else []
  | .exprs _ n => if n then signs false n ++ ['('] else []
  | .method f _ n => signs false n ++ f ++ ['(']
  | .chain _ _ _ n => signs false n
  | .num x => if x.neg then ['-'] else []
  | _ => []

/-- A variable. -/
def IsVar (s : Stm) : Prop := ∃ x u n, s = .var x u n

/-- What can stand before a point besides a plain variable. -/
inductive Callee : Stm → Prop
  | method (f : List Char) (ps : List Stm) (n : Bool) : Callee (.method f ps n)
  | item (i o : Stm) : Callee (.item i o)
  | chain (a c : Stm) (u : Bool) : Callee (.chain a c u false)

/-- `t` stands somewhere inside the expression or statement `s`: as operand, element, part of `?()`, index, right side of an
assignment, or, when it is not a plain variable, as argument, member of a chain or object of an index. -/
inductive InExpr : Stm → Stm → Prop
  | self (s : Stm) : InExpr s s
  | left {op l r u n t} : InExpr l t → InExpr (.bin op l r u n) t
  | right {op l r u n t} : InExpr r t → InExpr (.bin op l r u n) t
  | elem {l n s t} : s ∈ l → InExpr s t → InExpr (.exprs l n) t
  | cond {c x y t} : InExpr c t → InExpr (.ternary c x y) t
  | yes {c x y t} : InExpr x t → InExpr (.ternary c x y) t
  | no {c x y t} : InExpr y t → InExpr (.ternary c x y) t
  | index {i o t} : InExpr i t → InExpr (.item i o) t
  | object {i o t} : ¬ IsVar o → InExpr o t → InExpr (.item i o) t
  | arg {f ps n s t} : s ∈ ps → ¬ IsVar s → InExpr s t → InExpr (.method f ps n) t
  | newArg {f ps s t} : s ∈ ps → ¬ IsVar s → InExpr s t → InExpr (.new f ps) t
  | member {a c u n t} : c ≠ .nil → ¬ IsVar a → InExpr a t → InExpr (.chain a c u n) t
  | callee {a c u n t} : Callee c → InExpr c t → InExpr (.chain a c u n) t
  | value {v l s t} : s ∈ l → InExpr s t → InExpr (.assign v l) t

/-- `e` is an expression of the statement `s`: condition, bound, collection, result, argument of `ВызватьИсключение`, or the
statement itself; or an expression of a statement in a block of `s`. -/
inductive InStmt : Stm → Stm → Prop
  | assign {v l t} : InExpr (.assign v l) t → InStmt (.assign v l) t
  | call {f ps n t} : InExpr (.method f ps n) t → InStmt (.method f ps n) t
  | cond {c tb ei el t} : InExpr c t → InStmt (.ifS c tb ei el) t
  | thenB {c tb ei el s t} : s ∈ tb → InStmt s t → InStmt (.ifS c tb ei el) t
  | elseB {c tb ei el s t} : s ∈ el → InStmt s t → InStmt (.ifS c tb ei el) t
  | elifCond {c tb ei el c' tb' t} : .ifS c' tb' [] [] ∈ ei → InExpr c' t → InStmt (.ifS c tb ei el) t
  | elifB {c tb ei el c' tb' s t} : .ifS c' tb' [] [] ∈ ei → s ∈ tb' → InStmt s t → InStmt (.ifS c tb ei el) t
  | whileE {f k i w b t} : w ≠ .nil → InExpr w t → InStmt (.loop f k i w b) t
  | inE {f k i w b t} : i ≠ .nil → InExpr i t → InStmt (.loop f k i w b) t
  | fromE {f k i w b t} : k ≠ .nil → InExpr f t → InStmt (.loop f k i w b) t
  | toE {f k i w b t} : k ≠ .nil → InExpr k t → InStmt (.loop f k i w b) t
  | loopB {f k i w b s t} : s ∈ b → InStmt s t → InStmt (.loop f k i w b) t
  | tryB {b h s t} : s ∈ b → InStmt s t → InStmt (.tryS b h) t
  | handler {b h s t} : s ∈ h → InStmt s t → InStmt (.tryS b h) t
  | ret {e t} : InExpr e t → InStmt (.ret e) t
  | throw {l n s t} : s ∈ l → ¬ IsVar s → InExpr s t → InStmt (.throw (.exprs l n)) t

/-- `e` is an expression of the module. -/
inductive InModule (m : Module) (t : Stm) : Prop
  | code {s} : .stm s ∈ m.body → InStmt s t → InModule m t
  | func {f s} : .func f ∈ m.body → s ∈ f.body → InStmt s t → InModule m t

/-- The declaration of a module variable: directive on a line of its own, `Перем`, name, `Экспорт`. -/
def declaration (g : GVar) : List Char :=
  (if g.directive = [] then [] else "\n".toList ++ g.directive ++ "\n".toList) ++ "Перем ".toList ++ g.name ++
    (if g.export then " Экспорт ;".toList else ";".toList)

end Verif.Spec
