import Verif.Spec.Rename
import Verif.Spec.Text
/-!
# Specification: renamings whose results can be written
-/
namespace Verif.Spec
variable [Letters]

/-- What can be written in a program can be written after the renaming: a name becomes a name and not a keyword, `Выполнить` remains
`Выполнить`, a label remains a label, a number does not become infinite, and so on. -/
def Renaming.Writable (ρ : Renaming) : Prop :=
  ∀ dot k, (∃ w F, Lexeme dot w k F) → ∃ w F, Lexeme dot w (ρ.key k) F

/-- Each of the tokens can be written in its place.  `dot`: the first one comes directly after a dot. -/
inductive AllWritable : Bool → List Key → Prop
  | nil {dot} : AllWritable dot []
  | cons {dot k ks} : (∃ w F, Lexeme dot w k F) → AllWritable (dotAfter dot k) ks → AllWritable dot (k :: ks)

end Verif.Spec
