import Verif.Lexer
import Verif.Spec.Lex
/-! # Specification of words (depends on the letter table `Letters` only) -/
namespace Verif.Spec
variable [Letters]

/-- First character of a word: a letter or an underscore. -/
def WordStart (c : Char) : Prop := Letters.isL c = true ∨ c = '_'

/-- Further characters of a word: letter, underscore or digit. -/
def WordPart (c : Char) : Prop := WordStart c ∨ Digit c

/-- A word. -/
inductive Word : List Char → Prop
  | mk {c w} : WordStart c → (∀ d ∈ w, WordPart d) → Word (c :: w)

/-- The text does not go on with a character of a word. -/
def WordEnds (r : List Char) : Prop := ∀ c r', r = c :: r' → ¬ WordPart c

/-- `k` is the token number of a keyword or of an identifier. -/
def WordNumber (k : Nat) : Prop := k = identNumber ∨ ∃ w, (w, k) ∈ keywordTable

/-- Token number of a word which does not follow a dot. -/
inductive KindOf (w : List Char) : Nat → Prop
  | keyword {k} : (String.ofList (w.map lowerChar), k) ∈ keywordTable → KindOf w k
  | ident : (∀ k, (String.ofList (w.map lowerChar), k) ∉ keywordTable) → KindOf w identNumber

end Verif.Spec
