/-!
# Go's UTF-8 decoding

Model of the library function `unicode/utf8.DecodeRuneInString` and of the two tokeniser primitives
that use it on bytes (`/repo/ast/tokens.go`).  Go runes delivered by the decoder are exactly the
Unicode scalar values, i.e. Lean's `Char` (invalid input gives U+FFFD).
-/
namespace Verif.Utf8

/-- The rune Go returns for undecodable input (`utf8.RuneError`, U+FFFD). -/
def runeError : Char := Char.ofNat 0xFFFD

/-- Continuation byte test `locb ≤ b ≤ hicb` of `unicode/utf8`. -/
def isCont (b : UInt8) : Bool := 0x80 ≤ b.toNat && b.toNat ≤ 0xBF

/-- Second byte range for a given first byte (`acceptRanges` of `unicode/utf8`). -/
def accept2 (b0 b1 : UInt8) : Bool :=
  let lo := if b0.toNat = 0xE0 then 0xA0 else if b0.toNat = 0xF0 then 0x90 else 0x80
  let hi := if b0.toNat = 0xED then 0x9F else if b0.toNat = 0xF4 then 0x8F else 0xBF
  lo ≤ b1.toNat && b1.toNat ≤ hi

/-- `utf8.DecodeRuneInString` (library; called in `/repo/ast/tokens.go:347,361,383`):
rune and its size in bytes; size 0 only for the empty string, `(RuneError, 1)` for invalid input. -/
def decodeRune : List UInt8 → Char × Nat
  | [] => (runeError, 0)
  | b0 :: r =>
    let x := b0.toNat
    if x < 0x80 then (Char.ofNat x, 1)
    else if x < 0xC2 then (runeError, 1)
    else if x < 0xE0 then
      match r with
      | b1 :: _ =>
        if isCont b1 then (Char.ofNat ((x % 0x20) * 0x40 + b1.toNat % 0x40), 2) else (runeError, 1)
      | _ => (runeError, 1)
    else if x < 0xF0 then
      match r with
      | b1 :: b2 :: _ =>
        if accept2 b0 b1 && isCont b2 then
          (Char.ofNat ((x % 0x10) * 0x1000 + (b1.toNat % 0x40) * 0x40 + b2.toNat % 0x40), 3)
        else (runeError, 1)
      | _ => (runeError, 1)
    else if x < 0xF5 then
      match r with
      | b1 :: b2 :: b3 :: _ =>
        if accept2 b0 b1 && isCont b2 && isCont b3 then
          (Char.ofNat ((x % 0x08) * 0x40000 + (b1.toNat % 0x40) * 0x1000 + (b2.toNat % 0x40) * 0x40
            + b3.toNat % 0x40), 4)
        else (runeError, 1)
      | _ => (runeError, 1)
    else (runeError, 1)

/-- Worker of `decodeAll`: skip `k` bytes that belong to the previous rune, then go on decoding. -/
def decodeFrom : Nat → List UInt8 → List Char
  | _, [] => []
  | k + 1, _ :: r => decodeFrom k r
  | 0, b :: r => (decodeRune (b :: r)).1 :: decodeFrom ((decodeRune (b :: r)).2 - 1) r

/-- The runes of a Go string, as delivered by `for _, r := range s` and `[]rune(s)`. -/
def decodeAll (bs : List UInt8) : List Char := decodeFrom 0 bs

/-- `utf8.EncodeRune` for a valid rune: the bytes of `string(r)`
(used by `string(ret)`, `/repo/ast/tokens.go:255,301,400`). -/
def encodeChar (c : Char) : List UInt8 :=
  let n := c.toNat
  if n < 0x80 then [UInt8.ofNat n]
  else if n < 0x800 then [UInt8.ofNat (0xC0 + n / 0x40), UInt8.ofNat (0x80 + n % 0x40)]
  else if n < 0x10000 then
    [UInt8.ofNat (0xE0 + n / 0x1000), UInt8.ofNat (0x80 + n / 0x40 % 0x40), UInt8.ofNat (0x80 + n % 0x40)]
  else
    [UInt8.ofNat (0xF0 + n / 0x40000), UInt8.ofNat (0x80 + n / 0x1000 % 0x40),
     UInt8.ofNat (0x80 + n / 0x40 % 0x40), UInt8.ofNat (0x80 + n % 0x40)]

/-- `string(runes)`: concatenation of the encodings. -/
def encode (cs : List Char) : List UInt8 := cs.flatMap encodeChar

/-- `Token.currentLet` (`/repo/ast/tokens.go:354-368`) on bytes; `none` is EOF (-1).
The `Println` on a decoding error is not modelled. -/
def currentLetB (code : List UInt8) (offset : Nat) : Option Char :=
  if offset ≥ code.length then none else some (decodeRune (code.drop offset)).1

/-- `Token.nextPos` (`/repo/ast/tokens.go:381-385`): the new offset.  `none` models the slice
expression `srsCode[t.offset:]` panicking. -/
def nextPosB (code : List UInt8) (offset : Nat) : Option Nat :=
  if offset > code.length then none else some (offset + (decodeRune (code.drop offset)).2)

/-- `Token.nextLet` (`/repo/ast/tokens.go:345-352`): the letter after the current one, offset unchanged. -/
def nextLetB (code : List UInt8) (offset : Nat) : Option (Option Char) :=
  if offset > code.length then none
  else some (currentLetB code (offset + (decodeRune (code.drop offset)).2))

end Verif.Utf8
