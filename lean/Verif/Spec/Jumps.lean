import Verif.Spec.Syntax
import Verif.Parser
/-!
# Specification: jumps and labels
-/
namespace Verif.Spec

mutual
/-- Where the statement, with the statements in it, jumps to.  Only jumps that stand as statements count: the grammar also allows
`а = Перейти ~б`, a jump as an expression. -/
def jumps : Stm → List Name
  | .goto n => [n]
  | .ifS _ t ei el => jumpsL t ++ (jumpsL ei ++ jumpsL el)
  | .loop _ _ _ _ b => jumpsL b
  | .tryS b h => jumpsL b ++ jumpsL h
  | _ => []
def jumpsL : List Stm → List Name
  | [] => []
  | s :: l => jumps s ++ jumpsL l
end

mutual
/-- The labels in it. -/
def labels : Stm → List Name
  | .label n => [n]
  | .ifS _ t ei el => labelsL t ++ (labelsL ei ++ labelsL el)
  | .loop _ _ _ _ b => labelsL b
  | .tryS b h => labelsL b ++ labelsL h
  | _ => []
def labelsL : List Stm → List Name
  | [] => []
  | s :: l => labels s ++ labelsL l
end

/-- No label stands twice, and every jump goes to a label. -/
def JumpsOk (l : List Stm) : Prop := (labelsL l).Nodup ∧ ∀ n ∈ jumpsL l, n ∈ labelsL l

/-- The same for every procedure, and for the statements of the module. -/
def JumpsHaveLabels (M : Module) : Prop :=
  (∀ f, Item.func f ∈ M.body → JumpsOk f.body) ∧ JumpsOk (M.body.filterMap fun | .stm s => some s | .func _ => none)

/-- Tokens that are the same or are both labels. -/
inductive SameButLabel : Key → Key → Prop
  | same (k) : SameButLabel k k
  | label (n n') : SameButLabel (named .kGoToLabel n) (named .kGoToLabel n')

end Verif.Spec
