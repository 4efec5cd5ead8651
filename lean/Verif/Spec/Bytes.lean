/-!
# Specification: bytes of a UTF-8 text and its characters

`String.utf8EncodeChar` is the encoder of Lean's own library (RFC 3629).
-/
namespace Verif.Spec

/-- The bytes of a text. -/
def utf8 (cs : List Char) : List UInt8 := cs.flatMap String.utf8EncodeChar

/-- `Decodes bs cs`: iterating over the byte string `bs` character by character gives `cs`; a byte at
which no encoded character starts counts as one U+FFFD. -/
inductive Decodes : List UInt8 → List Char → Prop
  | nil : Decodes [] []
  | char (c : Char) {bs : List UInt8} {cs : List Char} :
      Decodes bs cs → Decodes (String.utf8EncodeChar c ++ bs) (c :: cs)
  | invalid {b : UInt8} {bs : List UInt8} {cs : List Char} :
      (∀ c r, b :: bs ≠ String.utf8EncodeChar c ++ r) → Decodes bs cs → Decodes (b :: bs) ('�' :: cs)

end Verif.Spec
