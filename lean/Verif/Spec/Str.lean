import Verif.Spec.Lex
/-! # Specification of string literals -/
namespace Verif.Spec

/-- Values of string tokens: ordinary characters, doubled quotes (kept doubled), and line breaks, each
followed by a vertical bar. -/
inductive StrVal : List Char → Prop
  | nil : StrVal []
  | plain {c v} : c ≠ '"' → c ≠ '\n' → StrVal v → StrVal (c :: v)
  | quote {v} : StrVal v → StrVal ('"' :: '"' :: v)
  | line {v} : StrVal v → StrVal ('\n' :: '|' :: v)

/-- What may stand between a line break inside a literal and the vertical bar: blanks, then possibly a
comment line followed by any layout. -/
inductive LineLayout : List Char → Prop
  | blanks {b} : (∀ c ∈ b, Blank c) → LineLayout b
  | comment {b t w} : (∀ c ∈ b, Blank c) → '\n' ∉ t → Layout w → LineLayout (b ++ '/' :: '/' :: (t ++ '\n' :: w))

/-- `StrSrc s v`: the text `s` between the outer quotes of a literal stands for the value `v`. -/
inductive StrSrc : List Char → List Char → Prop
  | nil : StrSrc [] []
  | plain {c s v} : c ≠ '"' → c ≠ '\n' → StrSrc s v → StrSrc (c :: s) (c :: v)
  | quote {s v} : StrSrc s v → StrSrc ('"' :: '"' :: s) ('"' :: '"' :: v)
  | line {l s v} : LineLayout l → StrSrc s v → StrSrc ('\n' :: (l ++ '|' :: s)) ('\n' :: '|' :: v)
  /-- adjacent literals, separated by at least one blank, are one literal -/
  | join {b s v} : b ≠ [] → (∀ c ∈ b, Blank c) → StrSrc s v → StrSrc ('"' :: (b ++ '"' :: s)) v

/-- The first character of `r` that is not blank is not a quote. -/
def NoQuoteNext (r : List Char) : Prop := ∀ b s, r = b ++ s → (∀ c ∈ b, Blank c) → ∀ s', s ≠ '"' :: s'

end Verif.Spec
