import Verif.Json
/-!
# The text of `AstNode.JSON` (`/repo/ast/ast.go:49-51`)

Model of what `json.Marshal` (Go 1.23, go.mod:3) writes for the values of `Json.lean`.  Texts are lists of characters: strings in the
tree are taken to be valid UTF-8 (`encoding/json` would write `�` for a byte that is not).
-/
namespace Verif
namespace F64

/-- The magnitude of `x` as a fraction. -/
def top (x : F64) : Nat := x.mant * 2 ^ x.exp.toNat
def bot (x : F64) : Nat := 2 ^ (-x.exp).toNat

/-- `⌊log₁₀ (n / d)⌋` for positive `n`, `d`. -/
def log10 (n d : Nat) : Int :=
  if d ≤ n then ((Nat.toDigits 10 (n / d)).length : Int) - 1 else -((Nat.toDigits 10 ((d - 1) / n)).length : Int)

/-- `m * 10 ^ e` reads back as the magnitude of `x`. -/
def readsBack (x : F64) (c : Nat × Int) : Bool :=
  decide (ofRat (c.1 * 10 ^ c.2.toNat) (10 ^ (-c.2).toNat) = some { x with neg := false })

/-- The two decimals with `n` digits around the magnitude of `x`, the nearer one first. -/
def around (x : F64) (n : Nat) : List (Nat × Int) :=
  let s : Int := log10 x.top x.bot + 1 - n
  let a := x.top * 10 ^ (-s).toNat
  let b := x.bot * 10 ^ s.toNat
  let lo := a / b
  let r := a % b
  if 2 * r < b ∨ (2 * r = b ∧ lo % 2 = 0) then [(lo, s), (lo + 1, s)] else [(lo + 1, s), (lo, s)]

/-- The exact decimal. -/
def exactly (x : F64) : Nat × Int :=
  if 0 ≤ x.exp then (x.mant * 2 ^ x.exp.toNat, 0) else (x.mant * 5 ^ (-x.exp).toNat, x.exp)

/-- `strconv.FormatFloat` with precision -1: the decimal with the fewest digits that reads back as `x`, of these the nearest one.  The
algorithm of strconv is not followed, only what it is documented to find.  (17 digits are always enough, so that the exact decimal is
never taken.) -/
def shortest (x : F64) : Nat × Int :=
  if x.mant = 0 then (0, 0)
  else (((List.range' 1 17).flatMap (around x)).find? (readsBack x)).getD (exactly x)

/-- Digits without zeros at the end, and the position of the decimal point before (`decimalSlice` of strconv: digits, `dp`). -/
def decimal (x : F64) : List Char × Int :=
  let (m, e) := shortest x
  let ds := Nat.toDigits 10 m
  let ds' := (ds.reverse.dropWhile (· == '0')).reverse
  if m = 0 then ([], 0) else (ds', ds.length + e)

/-- `%f` of strconv (`fmtF`). -/
def fmtF (ds : List Char) (dp : Int) : List Char :=
  (if 0 < dp then ds.take dp.toNat ++ List.replicate (dp.toNat - ds.length) '0' else ['0']) ++
    (if dp < ds.length then '.' :: (List.replicate (-dp).toNat '0' ++ ds.drop dp.toNat) else [])

/-- `%e` of strconv (`fmtE`), the exponent without leading zero (`floatEncoder` of encoding/json makes `e-9` of `e-09`; positive
exponents have two digits at least). -/
def fmtE (ds : List Char) (dp : Int) : List Char :=
  ds.take 1 ++ (if ds.length ≤ 1 then [] else '.' :: ds.drop 1) ++
    ['e', if dp - 1 < 0 then '-' else '+'] ++ Nat.toDigits 10 (dp - 1).natAbs

/-- `x < n / d` for magnitudes. -/
def below (x : F64) (c : F64) : Bool := decide (x.top * c.bot < c.top * x.bot)

/-- The `float64` constant `1e-6`, normalised. -/
def millionth : F64 := ⟨false, 4722366482869645, -72⟩

/-- The `float64` constant `1e21`, normalised. -/
def sextillion : F64 := ⟨false, 7629394531250000, 17⟩

/-- `floatEncoder.encode` of encoding/json with 64 bits. -/
def numText (x : F64) : List Char :=
  let (ds, dp) := decimal x
  (if x.neg then ['-'] else []) ++
    (if x.mant ≠ 0 ∧ (x.below millionth ∨ ¬ x.below sextillion) then fmtE ds dp else fmtF ds dp)

end F64

/-- Lower case hexadecimal digit. -/
def hexChar (n : Nat) : Char := "0123456789abcdef".toList.getD n '0'

/-- One character of a string (`appendString` of encoding/json with `escapeHTML`, as `json.Marshal` calls it). -/
def jChar (c : Char) : List Char :=
  if c = '"' ∨ c = '\\' then ['\\', c]
  else if c = '\x08' then ['\\', 'b']
  else if c = '\x0c' then ['\\', 'f']
  else if c = '\n' then ['\\', 'n']
  else if c = '\r' then ['\\', 'r']
  else if c = '\t' then ['\\', 't']
  else if c.toNat < 0x20 ∨ c = '<' ∨ c = '>' ∨ c = '&' then ['\\', 'u', '0', '0', hexChar (c.toNat / 16), hexChar (c.toNat % 16)]
  else if c = '\u2028' ∨ c = '\u2029' then ['\\', 'u', '2', '0', '2', hexChar (c.toNat % 16)]
  else [c]

/-- Strings and keys. -/
def jString (s : List Char) : List Char := '"' :: s.flatMap jChar ++ ['"']

mutual
/-- The text of a value: no white space. -/
def jText : J → List Char
  | .null => ['n', 'u', 'l', 'l']
  | .bool true => ['t', 'r', 'u', 'e']
  | .bool false => ['f', 'a', 'l', 's', 'e']
  | .flt x => x.numText
  | .int n => Nat.toDigits 10 n
  | .str s => jString s
  | .arr l => '[' :: jElems l ++ [']']
  | .obj l => '{' :: jMembers l ++ ['}']
def jElems : List J → List Char
  | [] => []
  | [v] => jText v
  | v :: l => jText v ++ ',' :: jElems l
def jMembers : List (List Char × J) → List Char
  | [] => []
  | [(k, v)] => jString k ++ ':' :: jText v
  | (k, v) :: l => jString k ++ ':' :: (jText v ++ ',' :: jMembers l)
end

/-- `AstNode.JSON` (`/repo/ast/ast.go:49-51`). -/
def jsonText (m : Module) : List Char := jText (jModule m)

end Verif
