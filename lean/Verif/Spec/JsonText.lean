import Verif.Spec.Num
import Verif.Json
/-!
# Specification: JSON texts

The grammar of RFC 8259 together with what its texts mean.  `Reads (.value v) s`: the text `s` is JSON for the value `v`.
-/
namespace Verif.Spec

/-- JSON values.  A number is given by its sign and its magnitude (`-0` is not `0`). -/
inductive JV
  | null
  | bool (b : Bool)
  | num (neg : Bool) (q : ℚ)
  | str (s : List Char)
  | arr (l : List JV)
  | obj (l : List (List Char × JV))

/-- RFC 8259, section 2: white space. -/
def JWs (c : Char) : Prop := c ∈ [' ', '\t', '\n', '\r']

/-! ## Numbers: RFC 8259, section 6 -/

/-- No leading zeros. -/
inductive JInt : List Char → Prop
  | zero : JInt ['0']
  | digits {c s} : Digit c → c ≠ '0' → (∀ d ∈ s, Digit d) → JInt (c :: s)

/-- Fractional part. -/
inductive JFrac : List Char → ℚ → Prop
  | none : JFrac [] 0
  | some {s} : s ≠ [] → (∀ d ∈ s, Digit d) → JFrac ('.' :: s) (fracVal s)

/-- Exponent. -/
inductive JExp : List Char → ℤ → Prop
  | none : JExp [] 0
  | bare {c s} {n : Nat} : c = 'e' ∨ c = 'E' → s ≠ [] → (∀ d ∈ s, Digit d) → intVal s = n → JExp (c :: s) n
  | plus {c s} {n : Nat} : c = 'e' ∨ c = 'E' → s ≠ [] → (∀ d ∈ s, Digit d) → intVal s = n → JExp (c :: '+' :: s) n
  | minus {c s} {n : Nat} : c = 'e' ∨ c = 'E' → s ≠ [] → (∀ d ∈ s, Digit d) → intVal s = n → JExp (c :: '-' :: s) (-n)

/-- Number texts with sign and magnitude. -/
inductive JNum : Bool → ℚ → List Char → Prop
  | mk {neg i f v e k} : JInt i → JFrac f v → JExp e k →
      JNum neg ((intVal i + v) * 10 ^ k) ((if neg then ['-'] else []) ++ i ++ f ++ e)

/-! ## Strings: RFC 8259, section 7 -/

/-- Value of a hexadecimal digit. -/
def hexVal (c : Char) : Option Nat :=
  match "0123456789abcdef".toList.idxOf? c with
  | some n => some n
  | none => ("ABCDEF".toList.idxOf? c).map (· + 10)

/-- Four hexadecimal digits. -/
inductive JHex : Nat → List Char → Prop
  | mk {a b c d i j k l} : hexVal a = some i → hexVal b = some j → hexVal c = some k → hexVal d = some l →
      JHex (((i * 16 + j) * 16 + k) * 16 + l) [a, b, c, d]

/-- Escapes of one letter. -/
def escapes : List (Char × Char) :=
  [('"', '"'), ('\\', '\\'), ('/', '/'), ('b', '\x08'), ('f', '\x0c'), ('n', '\n'), ('r', '\r'), ('t', '\t')]

/-- Characters between quotes.  A lone surrogate stands for no character: texts with one are left out. -/
inductive JChars : List Char → List Char → Prop
  | nil : JChars [] []
  | plain {c u s} : 0x20 ≤ c.toNat → c ≠ '"' → c ≠ '\\' → JChars u s → JChars (c :: u) (c :: s)
  | escape {e c u s} : (e, c) ∈ escapes → JChars u s → JChars (c :: u) ('\\' :: e :: s)
  | unit {n h u s} : JHex n h → ¬ (0xD800 ≤ n ∧ n < 0xE000) → JChars u s → JChars (Char.ofNat n :: u) ('\\' :: 'u' :: h ++ s)
  | pair {n m h g u s} : JHex n h → JHex m g → 0xD800 ≤ n → n < 0xDC00 → 0xDC00 ≤ m → m < 0xE000 → JChars u s →
      JChars (Char.ofNat (0x10000 + (n - 0xD800) * 0x400 + (m - 0xDC00)) :: u) ('\\' :: 'u' :: h ++ '\\' :: 'u' :: g ++ s)

/-! ## Values: RFC 8259, sections 3 to 5 -/

/-- What a piece of JSON text can be. -/
inductive JForm
  | value (v : JV)
  | elems (l : List JV)
  | members (l : List (List Char × JV))

inductive Reads : JForm → List Char → Prop
  | null : Reads (.value .null) ['n', 'u', 'l', 'l']
  | true : Reads (.value (.bool true)) ['t', 'r', 'u', 'e']
  | false : Reads (.value (.bool false)) ['f', 'a', 'l', 's', 'e']
  | num {neg q s} : JNum neg q s → Reads (.value (.num neg q)) s
  | str {u s} : JChars u s → Reads (.value (.str u)) ('"' :: s ++ ['"'])
  | arr0 {w} : (∀ c ∈ w, JWs c) → Reads (.value (.arr [])) ('[' :: w ++ [']'])
  | arr {l s} : Reads (.elems l) s → Reads (.value (.arr l)) ('[' :: s ++ [']'])
  | obj0 {w} : (∀ c ∈ w, JWs c) → Reads (.value (.obj [])) ('{' :: w ++ ['}'])
  | obj {l s} : Reads (.members l) s → Reads (.value (.obj l)) ('{' :: s ++ ['}'])
  | elem {v w s w'} : (∀ c ∈ w, JWs c) → Reads (.value v) s → (∀ c ∈ w', JWs c) → Reads (.elems [v]) (w ++ s ++ w')
  | elems {v l w s w' r} : (∀ c ∈ w, JWs c) → Reads (.value v) s → (∀ c ∈ w', JWs c) → Reads (.elems l) r →
      Reads (.elems (v :: l)) (w ++ s ++ w' ++ ',' :: r)
  | member {k v w t w' w'' s w'''} : (∀ c ∈ w, JWs c) → JChars k t → (∀ c ∈ w', JWs c) → (∀ c ∈ w'', JWs c) → Reads (.value v) s →
      (∀ c ∈ w''', JWs c) → Reads (.members [(k, v)]) (w ++ ('"' :: t ++ '"' :: (w' ++ ':' :: (w'' ++ s ++ w'''))))
  | members {k v l w t w' w'' s w''' r} : (∀ c ∈ w, JWs c) → JChars k t → (∀ c ∈ w', JWs c) → (∀ c ∈ w'', JWs c) →
      Reads (.value v) s → (∀ c ∈ w''', JWs c) → Reads (.members l) r →
      Reads (.members ((k, v) :: l)) (w ++ ('"' :: t ++ '"' :: (w' ++ ':' :: (w'' ++ s ++ w''' ++ ',' :: r))))

/-- JSON texts. -/
inductive JsonText : JV → List Char → Prop
  | mk {v w s w'} : (∀ c ∈ w, JWs c) → Reads (.value v) s → (∀ c ∈ w', JWs c) → JsonText v (w ++ s ++ w')

/-- The number `q` is read as the binary64 number `x` (`F64.ofRat`: the model of `strconv.ParseFloat`, which `json.Unmarshal` calls). -/
def ReadAs (q : ℚ) (x : F64) : Prop := Nearest x q ∧ ∃ n d : Nat, d ≠ 0 ∧ q = n / d ∧ F64.ofRat n d = some x

/-- The value read from the text is the value of the tree; numbers are read back exactly, with their signs. -/
inductive Stands : JV → J → Prop
  | null : Stands .null .null
  | bool {b} : Stands (.bool b) (.bool b)
  | int {n : Nat} : Stands (.num false n) (.int n)
  | flt {x : F64} {q} : ReadAs q { x with neg := false } → Stands (.num x.neg q) (.flt x)
  | str {s} : Stands (.str s) (.str s)
  | arr0 : Stands (.arr []) (.arr [])
  | arr {v j l l'} : Stands v j → Stands (.arr l) (.arr l') → Stands (.arr (v :: l)) (.arr (j :: l'))
  | obj0 : Stands (.obj []) (.obj [])
  | obj {k v j l l'} : Stands v j → Stands (.obj l) (.obj l') → Stands (.obj ((k, v) :: l)) (.obj ((k, j) :: l'))

/-- Characters that a JSON text must not hold as they are if it is to be put into a line of a log, into HTML or into JavaScript. -/
def Raw (c : Char) : Prop := c.toNat < 0x20 ∨ c ∈ ['<', '>', '&', '\u2028', '\u2029']

end Verif.Spec
