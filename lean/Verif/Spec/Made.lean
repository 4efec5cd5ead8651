import Verif.Spec.Text
import Verif.Spec.Reprint
/-!
# Specification: well-made trees

Users may build trees themselves, or change trees, and print them.  A tree is well made if it has the shape of trees of modules, its
names are names, its literals can be written, and the rules on declared variables, `ВызватьИсключение` and `Возврат` hold.
-/
namespace Verif
open Spec

section
variable [Letters]

/-- A name that is read as a name; after a dot every word is one. -/
def NameOk (dot : Bool) (n : Name) : Prop := Word n ∧ (dot = true ∨ KindOf n identNumber)

/-- A way to write `Выполнить`. -/
def ExecOk (w : Name) : Prop := Word w ∧ KindOf w Terminal.kExecute.kind

/-- No directive, or one. -/
def DirOk (w : Name) : Prop := w = [] ∨ ∃ v, w = '&' :: v ∧ String.ofList ('&' :: v.map lowerChar) ∈ directiveNames

mutual
/-- Parts between dots: names, calls, and elements of them. -/
inductive SaneI : Bool → Stm → Prop
  | name {dot n} : NameOk dot n → SaneI dot (.var n false false)
  | call {dot f ps} : NameOk dot f → (∀ s ∈ ps, SaneO s) → SaneI dot (.method f ps false)
  | exec {w s} : ExecOk w → SaneE s → SaneI false (.method w [s] false)
  | item {dot o s} : SaneI dot o → SaneE s → SaneI dot (.item s o)
/-- Parts joined by dots. -/
inductive SaneP : Stm → Prop
  | one {s} : SaneI false s → SaneP s
  | dot {u c} : SaneP c → SaneI true u → SaneP (.chain u c false false)
/-- An expression, or none. -/
inductive SaneO : Stm → Prop
  | none : SaneO .nil
  | some {s} : SaneE s → SaneO s
/-- Expressions. -/
inductive SaneE : Stm → Prop
  | num {x} : Finite64 x → SaneE (.num x)
  | str {v} : StrVal v → SaneE (.str v)
  | bool {b} : SaneE (.bool b)
  | date {t} : CalendarDate t → SaneE (.date t)
  | undef : SaneE .undef
  | var {n u m} : NameOk false n → SaneE (.var n u m)
  | call {f ps n} : SaneI false (.method f ps false) → SaneE (.method f ps n)
  | item {s o} : SaneI false (.item s o) → SaneE (.item s o)
  | chain {u c m n} : SaneP (.chain u c false false) → SaneE (.chain u c m n)
  | ternary {c t e} : SaneE c → SaneE t → SaneE e → SaneE (.ternary c t e)
  | new {c ps} : c = [] ∨ NameOk false c → (∀ s ∈ ps, SaneO s) → SaneE (.new c ps)
  | exprs {l n} : (∀ s ∈ l, SaneO s) → SaneE (.exprs l n)
  | bin {op l r u n} : SaneE l → SaneE r → SaneE (.bin op l r u n)
  | label {n} : (∀ c ∈ n, WordPart c) → SaneE (.label n)
  | goto {n} : (∀ c ∈ n, WordPart c) → SaneE (.goto n)
end

/-- What `Для Каждого` goes over. -/
inductive SaneSrc : Stm → Prop
  | path {s} : SaneP s → SaneSrc s
  | new {c ps} : c = [] ∨ NameOk false c → (∀ s ∈ ps, SaneO s) → SaneSrc (.new c ps)
  | ternary {c t e} : SaneE c → SaneE t → SaneE e → SaneSrc (.ternary c t e)

mutual
/-- Statements. -/
inductive SaneS : Stm → Prop
  | assign {v s} : SaneP v → SaneE s → SaneS (.assign v [s])
  | expr {s} : SaneE s → SaneS s
  | ifS {c t ei el} : SaneE c → (∀ s ∈ t, SaneS s) → (∀ s ∈ ei, SaneElif s) → (∀ s ∈ el, SaneS s) → SaneS (.ifS c t ei el)
  | forEach {n i b} : NameOk false n → SaneSrc i → (∀ s ∈ b, SaneS s) → SaneS (.loop (.str n) .nil i .nil b)
  | forTo {f z b} : SaneE f → SaneE z → (∀ s ∈ b, SaneS s) → SaneS (.loop f z .nil .nil b)
  | whileS {c b} : SaneE c → (∀ s ∈ b, SaneS s) → SaneS (.loop .nil .nil .nil c b)
  | tryS {b h} : (∀ s ∈ b, SaneS s) → (∀ s ∈ h, SaneS s) → SaneS (.tryS b h)
  | cont : SaneS .cont
  | brk : SaneS .brk
  | throw {s} : SaneO s → SaneS (.throw s)
  | ret {s} : SaneO s → SaneS (.ret s)
/-- Branches `ИначеЕсли`. -/
inductive SaneElif : Stm → Prop
  | mk {c b} : SaneE c → (∀ s ∈ b, SaneS s) → SaneElif (.ifS c b [] [])
end

/-- Parameters. -/
structure SaneParam (p : Param) : Prop where
  name : NameOk false p.name
  default : SaneO p.default

/-- Procedures and functions. -/
structure SaneFunc (f : FuncDecl) : Prop where
  name : NameOk false f.name
  dir : DirOk f.directive
  params : ∀ p ∈ f.params, SaneParam p
  body : ∀ s ∈ f.body, SaneS s

end

mutual
/-- `ВызватьИсключение` without value stands in handlers only; `n` handlers are around. -/
def th (n : Nat) : Stm → Prop
  | .ifS _ t ei el => thL n t ∧ thL n ei ∧ thL n el
  | .loop _ _ _ _ b => thL n b
  | .tryS b h => thL n b ∧ thL (n + 1) h
  | .throw .nil => 0 < n
  | _ => True
def thL (n : Nat) : List Stm → Prop
  | [] => True
  | s :: l => th n s ∧ thL n l
end
mutual
/-- `Возврат` with a value stands in functions only; `f` says if this is a function. -/
def rt (f : Bool) : Stm → Prop
  | .ifS _ t ei el => rtL f t ∧ rtL f ei ∧ rtL f el
  | .loop _ _ _ _ b => rtL f b
  | .tryS b h => rtL f b ∧ rtL f h
  | .ret .nil => True
  | .ret _ => f = true
  | _ => True
def rtL (f : Bool) : List Stm → Prop
  | [] => True
  | s :: l => rt f s ∧ rtL f l
end

namespace Spec

/-- The declarations stand in front of the statements. -/
def DeclaredFirst (M : Module) : Prop := ∃ fs l, M.body = List.map Item.func fs ++ List.map Item.stm l

/-- The tree could be the tree of a module. -/
structure WellMade [Letters] (M : Module) : Prop where
  vars : ∀ v ∈ M.globals, NameOk false v.name ∧ DirOk v.directive
  once : (M.globals.map GVar.name).Nodup
  order : DeclaredFirst M
  funcs : ∀ f, Item.func f ∈ M.body → SaneFunc f ∧ thL 0 f.body ∧ rtL f.isFunc f.body
  stms : ∀ s, Item.stm s ∈ M.body → SaneS s ∧ th 0 s ∧ rt false s

end Spec

end Verif
