import Verif.Spec.Lex
/-!
# Specification: letter case
-/
namespace Verif.Spec

/-- The two texts differ in the case of letters only (`caseTable`: A-Z, А-Я, Ё). -/
def SameButCase (s s' : List Char) : Prop := s.map lowerChar = s'.map lowerChar

/-- Token numbers of the keywords whose spelling is not kept: all but `Выполнить`, which stands in the tree as written. -/
def PlainKeyword (k : Nat) : Prop := (∃ w, (w, k) ∈ keywordTable) ∧ ("выполнить", k) ∉ keywordTable

end Verif.Spec
