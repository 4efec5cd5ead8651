import Verif.Float64
import Verif.Spec.Lex
import Mathlib.Algebra.Order.Field.Rat
import Mathlib.Algebra.Order.Group.Unbundled.Abs
import Mathlib.Algebra.Order.Group.Abs
/-! # Specification of number literals -/
namespace Verif.Spec

/-- The rational number a float stands for. -/
def toRat (x : F64) : ℚ := (if x.neg then -1 else 1) * (x.mant : ℚ) * (2 : ℚ) ^ x.exp

/-- `x` is a finite IEEE 754 binary64 number. -/
def Finite64 (x : F64) : Prop := x.mant < 2 ^ 53 ∧ -1074 ≤ x.exp ∧ x.exp ≤ 971

/-- `x` is a binary64 number as near to `v` as any other. -/
def Nearest (x : F64) (v : ℚ) : Prop := Finite64 x ∧ ∀ y, Finite64 y → |toRat x - v| ≤ |toRat y - v|

/-- Value of a decimal digit. -/
def digitVal (c : Char) : ℚ := (['0', '1', '2', '3', '4', '5', '6', '7', '8', '9'].idxOf c : Nat)

/-- Value of the digits before the dot. -/
def intVal : List Char → ℚ
  | [] => 0
  | c :: s => digitVal c * 10 ^ s.length + intVal s

/-- Value of the digits after the dot. -/
def fracVal : List Char → ℚ
  | [] => 0
  | c :: s => (digitVal c + fracVal s) / 10

/-- Number literals and their exact values: digits, or digits with one dot after at least one digit. -/
inductive NumLit : List Char → ℚ → Prop
  | int {s} : s ≠ [] → (∀ c ∈ s, Digit c) → NumLit s (intVal s)
  | frac {s f} : s ≠ [] → (∀ c ∈ s, Digit c) → (∀ c ∈ f, Digit c) →
      NumLit (s ++ '.' :: f) (intVal s + fracVal f)

/-- Everything from here on rounds to a number too big for binary64. -/
def overflow64 : ℚ := 2 ^ 1024 - 2 ^ 970

end Verif.Spec
