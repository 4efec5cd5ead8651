import Verif.Spec.Rules
import Verif.Spec.Recase
/-!
# Specification: names are declared once

In the language the case of letters in names does not matter.
-/
namespace Verif.Spec

/-- No two of the names are the same, in any letter case. -/
def Apart (l : List (List Char)) : Prop := l.Pairwise fun a b => ¬ SameButCase a b

/-- The procedures and functions of a module. -/
def Module.declared (M : Module) : List FuncDecl := M.body.filterMap fun | .func f => some f | .stm _ => none

/-- The module declares no name twice: no variable, no procedure or function, and, in a procedure or function, no parameter or local
variable. -/
structure DeclaredOnce (M : Module) : Prop where
  globals : Apart (M.globals.map GVar.name)
  funcs : Apart ((Module.declared M).map FuncDecl.name)
  inner : ∀ f ∈ Module.declared M, Apart (f.params.map Param.name ++ f.vars.getD [])

/-- The same procedure or function under another name, with other parameters, another directive and with or without `Экспорт`. -/
def FuncD.OtherHeader (f f' : FuncD) : Prop := f.isFunc = f'.isFunc ∧ f.locals = f'.locals ∧ f.body = f'.body

inductive Part.OtherHeader : Part → Part → Prop
  | vars (v) : Part.OtherHeader (.vars v) (.vars v)
  | func {f f'} : f.OtherHeader f' → Part.OtherHeader (.func f) (.func f')

/-- Programs that differ in the headers of procedures and functions only. -/
structure Program.OtherHeaders (P P' : Program) : Prop where
  parts : List.Forall₂ Part.OtherHeader P.parts P'.parts
  body : P.body = P'.body

end Verif.Spec
