/-!
# binary64 numbers as far as the parser needs them

Models `strconv.ParseFloat(s, 64)` on the strings the tokeniser passes to it, unary minus on
`float64` (`/repo/ast/ast.go:170`) and `fmt.Sprintf("%.0f", v)` (`/repo/ast/ast_print.go:154`).
-/
namespace Verif

/-- A finite `float64`: `(-1)^neg * mant * 2^exp`. -/
structure F64 where
  neg : Bool
  mant : Nat
  exp : Int
deriving DecidableEq, Repr

namespace F64

/-- Quotient `n / d` rounded to the nearest integer, ties to even (IEEE default rounding). -/
def roundHalfEven (n d : Nat) : Nat :=
  let q := n / d
  let r := n % d
  if 2 * r < d then q else if d < 2 * r then q + 1 else if q % 2 = 0 then q else q + 1

/-- `⌊log₂ (n / d)⌋` for positive `n`, `d`. -/
def floorLog2 (n d : Nat) : Int :=
  let l : Int := (Nat.log2 n : Int) - (Nat.log2 d : Int)
  if 0 ≤ l then (if d * 2 ^ l.toNat ≤ n then l else l - 1)
  else (if d ≤ n * 2 ^ (-l).toNat then l else l - 1)

/-- The `float64` nearest to `n / d`; `none` when it overflows (`strconv.ErrRange`).  The result is normalised (leading bit set unless
the exponent is the least one, zero with exponent 0), so that equal numbers are equal here. -/
def ofRat (n d : Nat) : Option F64 :=
  if n = 0 then some ⟨false, 0, 0⟩
  else
    let q : Int := max (floorLog2 n d - 52) (-1074)
    let m := if 0 ≤ q then roundHalfEven n (d * 2 ^ q.toNat) else roundHalfEven (n * 2 ^ (-q).toNat) d
    let (m, q) := if m = 2 ^ 53 then (2 ^ 52, q + 1) else if m = 0 then (0, 0) else (m, q)
    if 971 < q then none else some ⟨false, m, q⟩

/-- Value of a run of decimal digits. -/
def digitsVal (ds : List Char) : Nat := ds.foldl (fun a c => 10 * a + (c.toNat - 48)) 0

/-- `strconv.ParseFloat(s, 64)` for `s` consisting of digits and dots and starting with a digit
(that is what `scanNumber`, `/repo/ast/tokens.go:387-401`, produces; called at tokens.go:96).
`none` is the error result: more than one dot (invalid syntax) or overflow (range). -/
def parseFloat (s : List Char) : Option F64 :=
  let int := s.takeWhile (· ≠ '.')
  match s.dropWhile (· ≠ '.') with
  | [] => ofRat (digitsVal int) 1
  | _ :: frac =>
    if frac.contains '.' then none
    else ofRat (digitsVal (int ++ frac)) (10 ^ frac.length)

/-- `-v` on `float64`: flips the sign bit (also of zero). -/
def negate (x : F64) : F64 := { x with neg := !x.neg }

/-- Magnitude rounded to an integer, ties to even. -/
def roundInt (x : F64) : Nat :=
  if 0 ≤ x.exp then x.mant * 2 ^ x.exp.toNat else roundHalfEven x.mant (2 ^ (-x.exp).toNat)

/-- `fmt.Sprintf("%.0f", v)`. -/
def fmt0 (x : F64) : List Char :=
  (if x.neg then ['-'] else []) ++ Nat.toDigits 10 x.roundInt

end F64
end Verif
