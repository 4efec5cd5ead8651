import Verif.Utf8
/-!
# The three lower-casing functions of the repository, on bytes
-/
namespace Verif.ToLower
open Verif.Utf8

/-- Worker of `fastToLower`: walks the string as `for i, r := range s` does.  the next `k` bytes
still belong to the previous rune and are copied unchanged. -/
def fastToLowerFrom : Nat → List UInt8 → List UInt8
  | _, [] => []
  | k + 1, b :: r => b :: fastToLowerFrom k r
  | 0, b :: r =>
    let c := (decodeRune (b :: r)).1
    let n := c.toNat
    if 0x41 ≤ n ∧ n ≤ 0x5A then (b + 32) :: fastToLowerFrom 0 r
    else if 0x410 ≤ n ∧ n ≤ 0x42F then
      match r with
      | b1 :: r' =>
        if b = 208 ∧ 0x41F < n then (b + 1) :: (b1 - 32) :: fastToLowerFrom 0 r'
        else b :: (b1 + 32) :: fastToLowerFrom 0 r'
      | [] => [b]
    else if n = 0x401 then
      match r with
      | _ :: r' => 209 :: 145 :: fastToLowerFrom 0 r'
      | [] => [b]
    else b :: fastToLowerFrom ((decodeRune (b :: r)).2 - 1) r

/-- `fastToLower` (`/repo/ast/tokens.go:457-475`).  The Go code patches a copy of the bytes at the
positions of the current rune; the model writes the patched bytes directly.  A two-byte rune always
has a second byte, so the `[]` branches (where Go would panic) are unreachable. -/
def fastToLower (s : List UInt8) : List UInt8 := fastToLowerFrom 0 s

/-- Rune lower-casing of `fastToLower_old` (`/repo/ast/tokens.go:445-452`). -/
def lowerRune (c : Char) : Char :=
  let n := c.toNat
  if (0x410 ≤ n ∧ n ≤ 0x42F) ∨ (0x41 ≤ n ∧ n ≤ 0x5A) then Char.ofNat (n + 0x20)
  else if n = 0x401 then Char.ofNat 0x451
  else c

/-- `fastToLower_old` (`/repo/ast/tokens.go:442-455`). -/
def fastToLowerOld (s : List UInt8) : List UInt8 := encode ((decodeAll s).map lowerRune)

/-- State of the C loop: the buffer (without the final NUL, reads past the end give NUL) and `i`. -/
structure CState where
  buf : List UInt8
  i : Nat
deriving DecidableEq, Repr

/-- `str[i]` in C; beyond the end the terminating NUL. -/
def cget (buf : List UInt8) (i : Nat) : UInt8 := buf.getD i 0

/-- C `tolower` in the "C" locale. -/
def cTolower (b : UInt8) : UInt8 := if 0x41 ≤ b.toNat ∧ b.toNat ≤ 0x5A then b + 32 else b

/-- One iteration of the loop of the C function `fastToLower`
(`/repo/ast/fast_tolower/gowrap.go:11-39`); `none` when the loop condition `str[i] != '\0'` fails. -/
def cStep (s : CState) : Option CState :=
  let b := cget s.buf s.i
  if b = 0 then none
  else
    let x := b.toNat
    let b1 := (cget s.buf (s.i + 1)).toNat
    let b2 := (cget s.buf (s.i + 2)).toNat
    let b3 := (cget s.buf (s.i + 3)).toNat
    let (ch, i) :=
      if x ≤ 0x7F then (x, s.i + 1)
      else if 0xC0 ≤ x ∧ x ≤ 0xDF then ((x % 0x20) * 0x40 + b1 % 0x40, s.i + 2)
      else if 0xE0 ≤ x ∧ x ≤ 0xEF then ((x % 0x10) * 0x1000 + (b1 % 0x40) * 0x40 + b2 % 0x40, s.i + 3)
      else if 0xF0 ≤ x ∧ x ≤ 0xF7 then
        ((x % 8) * 0x40000 + (b1 % 0x40) * 0x1000 + (b2 % 0x40) * 0x40 + b3 % 0x40, s.i + 4)
      else (0, s.i)
    let buf :=
      if 0x41 ≤ ch ∧ ch ≤ 0x5A then s.buf.set (i - 1) (cTolower (cget s.buf i))
      else if 1040 ≤ ch ∧ ch ≤ 1071 then
        (s.buf.set (i - 2) (UInt8.ofNat (0xC0 + (ch + 32) / 0x40))).set (i - 1)
          (UInt8.ofNat (0x80 + (ch + 32) % 0x40))
      else if ch = 1025 then (s.buf.set (i - 2) 209).set (i - 1) 145
      else s.buf
    some ⟨buf, i⟩

/-- `n` iterations of the C loop at most; `none` if it has not stopped by then. -/
def cRun : Nat → CState → Option (List UInt8)
  | 0, _ => none
  | n + 1, s => match cStep s with
    | none => some s.buf
    | some s' => cRun n s'

/-- `fast_tolower.FastToLower(s)` returns `out` (`/repo/ast/fast_tolower/gowrap.go:48-56`):
`C.CString` (the C side sees the bytes up to a NUL), the loop, `C.GoString` (up to the first NUL). -/
def CReturns (s out : List UInt8) : Prop :=
  ∃ n b, cRun n ⟨s.takeWhile (· ≠ 0), 0⟩ = some b ∧ out = b.takeWhile (· ≠ 0)

end Verif.ToLower
