import Verif.Spec.Words
import Verif.Spec.Str
import Verif.Spec.Num
import Verif.Spec.Date
import Verif.Spec.Syntax
/-!
# Specification: programs as texts

How the tokens of a program are written one after the other, with any layout between them.
-/
namespace Verif.Spec
variable [Letters]

/-- Tokens of one character. -/
def marks : List (Char × Terminal) :=
  [(':', .colon), (';', .semi), (',', .comma), ('(', .lpar), (')', .rpar), ('[', .lbr), (']', .rbr), ('?', .quest),
   ('+', .plus), ('-', .minus), ('*', .star), ('/', .slash), ('%', .percent), ('.', .dot), ('=', .kEQUAL)]

/-- Names of directives. -/
def directiveNames : List String :=
  ["&наклиенте", "&насервере", "&насерверебезконтекста", "&наклиентенасерверебезконтекста", "&наклиентенасервере"]

/-- What must hold of the text behind a number. -/
def NumberEnds (r : List Char) : Prop := ∀ c r', r = c :: r' → ¬ (Digit c ∨ c = '.' ∨ WordStart c)

/-- The text does not go on with this character. -/
def NotNext (c : Char) (r : List Char) : Prop := ∀ r', r ≠ c :: r'

/-- `Lexeme dot w k F`: the characters `w` are a way to write the token `k`, if `F` holds of the text behind.  `dot`: the
token comes directly after a dot, where every word is a name. -/
inductive Lexeme : Bool → List Char → Key → (List Char → Prop) → Prop
  | name {dot w} : Word w → (dot = true ∨ KindOf w identNumber) → Lexeme dot w (ident w) WordEnds
  | keyword {w} {t : Terminal} : Word w → KindOf w t.kind →
      t ∉ [Terminal.ktoken_identifier, .kTrue, .kFalse, .kExecute] → Lexeme false w (word t) WordEnds
  | tru {w} : Word w → KindOf w Terminal.kTrue.kind → Lexeme false w (literal .kTrue (.bool true)) WordEnds
  | fls {w} : Word w → KindOf w Terminal.kFalse.kind → Lexeme false w (literal .kFalse (.bool false)) WordEnds
  | exec {w} : Word w → KindOf w Terminal.kExecute.kind → Lexeme false w (named .kExecute w) WordEnds
  | mark {dot c t} : (c, t) ∈ marks → Lexeme dot [c] (word t) (fun r => c = '/' → NotNext '/' r)
  | ne {dot} : Lexeme dot ['<', '>'] (word .kNeEQ) (fun _ => True)
  | le {dot} : Lexeme dot ['<', '='] (word .kLE) (fun _ => True)
  | ge {dot} : Lexeme dot ['>', '='] (word .kGE) (fun _ => True)
  | lt {dot} : Lexeme dot ['<'] (word .lt) (fun r => NotNext '>' r ∧ NotNext '=' r)
  | gt {dot} : Lexeme dot ['>'] (word .gt) (NotNext '=')
  /-- `strconv.ParseFloat` is modelled by `F64.parseFloat`; C08 says what it gives -/
  | number {dot w v x} : NumLit w v → F64.parseFloat w = some x → Lexeme dot w (literal .kNumber (.num x)) NumberEnds
  | string {dot s v} : StrSrc s v → Lexeme dot ('"' :: (s ++ ['"'])) (literal .kString (.str v)) NoQuoteNext
  | date {dot s ds d} : DateSrc s ds → DateValue ds d → Lexeme dot ('\'' :: (s ++ ['\''])) (literal .kDate (.date d)) NoQuoteNext
  | directive {dot w} : String.ofList ('&' :: w.map lowerChar) ∈ directiveNames →
      Lexeme dot ('&' :: w) (named .kDirective ('&' :: w)) WordEnds
  | label {dot w} : (∀ c ∈ w, WordPart c) → Lexeme dot ('~' :: w) (named .kGoToLabel w) WordEnds

/-- Does a name follow?  After a dot, but not after two. -/
def dotAfter (dot : Bool) (k : Key) : Bool := !dot && decide (k = word .dot)

/-- `Written dot s ks`: the text `s` writes the tokens `ks`, with any layout between them. -/
inductive Written : Bool → List Char → List Key → Prop
  | done {dot s} : FinalLayout s → Written dot s []
  | next {dot l w r k ks F} : Layout l → Lexeme dot w k F → F r → Written (dotAfter dot k) r ks →
      Written dot (l ++ (w ++ r)) (k :: ks)

end Verif.Spec
