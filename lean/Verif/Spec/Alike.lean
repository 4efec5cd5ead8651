import Verif.Spec.Rename
/-!
# Specification: texts that differ in constants, labels and directives only
-/
namespace Verif.Spec

/-- Tokens that are the same, or are both labels, both directives, or constants of the same kind. -/
inductive Alike : Key → Key → Prop
  | same (k) : Alike k k
  | label (n n') : Alike (named .kGoToLabel n) (named .kGoToLabel n')
  | directive (n n') : Alike (named .kDirective n) (named .kDirective n')
  | number (x y) : Alike (literal .kNumber (.num x)) (literal .kNumber (.num y))
  | string (x y) : Alike (literal .kString (.str x)) (literal .kString (.str y))
  | date (x y) : Alike (literal .kDate (.date x)) (literal .kDate (.date y))

/-- All labels are the same, all directives are the same, all strings, all dates, and all numbers up to their sign (which comes from a
minus in front). -/
def Renaming.dull : Renaming where
  name := id
  label := fun _ => []
  directive := fun w => if w = [] then [] else "&НаКлиенте".toList
  num := fun x => ⟨x.neg, 0, 0⟩
  str := fun _ => []
  date := fun _ => ⟨1, 1, 1, 0, 0, 0⟩

/-- Trees that differ in constants, labels and directives only. -/
def AlikeTrees (M M' : Module) : Prop := M.rename .dull = M'.rename .dull

end Verif.Spec
