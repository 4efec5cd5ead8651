import Verif.Utf8
import Verif.Lexer
/-!
# The tokeniser on bytes, with offsets

A second model of `/repo/ast/tokens.go`, statement by statement: the source is a byte string, the position is the byte offset
`t.offset`, every access goes through `currentLet`, `nextLet`, `nextPos`.  `Verif/Props/ByteLexer.lean` proves that `Verif/Lexer.lean`
describes the same tokens.  Loops carry a bound `n` on their rounds; running out of it, like a slice expression out of range, is the
result `none`, which is proved never to occur.
-/
namespace Verif.ByteLexer
open Utf8 Lexer

/-- Code that reads and moves `t.offset`; `none` is a panic. -/
abbrev BM := StateT Nat Option

/-- `t.currentLet()` (`/repo/ast/tokens.go:354-368`); `none` is EOF. -/
def cur (code : List UInt8) : BM (Option Char) := fun o => some (currentLetB code o, o)

/-- `t.nextLet()` (`/repo/ast/tokens.go:345-352`). -/
def nxt (code : List UInt8) : BM (Option Char) := fun o => (nextLetB code o).map fun c => (c, o)

/-- `t.nextPos()` (`/repo/ast/tokens.go:381-385`). -/
def adv (code : List UInt8) : BM Unit := fun o => (nextPosB code o).map fun o' => ((), o')

/-- A panic. -/
def stop {α : Type} : BM α := fun _ => none

/-- `skipSpace` (`/repo/ast/tokens.go:304-308`). -/
def skipSpaceB (code : List UInt8) : Nat → BM Unit
  | 0 => stop
  | n + 1 => do
    if (← cur code).any isSpace then
      adv code
      skipSpaceB code n
    else pure ()

/-- The loops to the end of the line (`/repo/ast/tokens.go:312-314`, `331-333`). -/
def skipLineB (code : List UInt8) : Nat → BM Unit
  | 0 => stop
  | n + 1 => do
    let ch ← cur code
    if ch ≠ some '\n' ∧ ch ≠ none then
      adv code
      skipLineB code n
    else pure ()

mutual
/-- `skipComment` (`/repo/ast/tokens.go:310-326`). -/
def skipCommentB (code : List UInt8) : Nat → BM Unit
  | 0 => stop
  | n + 1 => do
    -- `nextLet` is called only after `/` (the Go `&&`)
    if (← cur code) = some '/' then
      if (← nxt code) = some '/' then
        skipLineB code (code.length + 1)
        skipSpaceB code (code.length + 1)
        let cl ← cur code
        if cl = some '/' then skipCommentB code n
        else if cl = some '#' then skipRegionsB code n
        else pure ()
      else pure ()
    else pure ()
/-- `skipRegions` (`/repo/ast/tokens.go:328-343`). -/
def skipRegionsB (code : List UInt8) : Nat → BM Unit
  | 0 => stop
  | n + 1 => do
    if (← cur code) = some '#' then
      skipLineB code (code.length + 1)
      skipSpaceB code (code.length + 1)
    let cl ← cur code
    if cl = some '/' then skipCommentB code n
    else if cl = some '#' then skipRegionsB code n
    else pure ()
end

/-- The loop of `scanIdentifier` (`/repo/ast/tokens.go:245-253`); `ret` so far. -/
def scanIdentB [Letters] (code : List UInt8) : Nat → List Char → BM (List Char)
  | 0, _ => stop
  | n + 1, ret => do
    match ← cur code with
    | some c =>
      if !isLetter c && !isDigit c then pure ret
      else
        adv code
        scanIdentB code n (ret ++ [c])
    | none => pure ret

/-- The loop of `scanNumber` (`/repo/ast/tokens.go:390-394`): `ret` and the letter behind it. -/
def scanNumB (code : List UInt8) : Nat → List Char → BM (List Char × Option Char)
  | 0, _ => stop
  | n + 1, ret => do
    match ← cur code with
    | some c =>
      if isDigit c || c == '.' then
        adv code
        scanNumB code n (ret ++ [c])
      else pure (ret, some c)
    | none => pure (ret, none)

/-- The loop of `scanString` (`/repo/ast/tokens.go:258-302`). -/
def scanStrB (code : List UInt8) (close : Char) : Nat → List Char → BM (Except LexErr (List Char))
  | 0, _ => stop
  | n + 1, ret => do
    adv code
    let cl ← cur code
    if cl = some '\n' then
      adv code
      skipSpaceB code (code.length + 1)
      skipCommentB code (2 * code.length + 3)
      match ← cur code with
      | none => pure (.error .unexpectedEOL)
      | some d =>
        if d ≠ '|' ∧ !isSpace d then pure (.error .unexpectedEOL)
        else scanStrB code close n (ret ++ ['\n', d])
    else
      match cl with
      | none => pure (.error .unexpectedEOF)
      | some c =>
        if c = close then
          if (← nxt code) = some '"' then
            adv code
            scanStrB code close n (ret ++ ['"', '"'])
          else
            adv code
            skipSpaceB code (code.length + 1)
            if (← cur code) = some '"' then scanStrB code close n ret else pure (.ok ret)
        else scanStrB code close n (ret ++ [c])

/-- `t.offset` -/
def getOff : BM Nat := fun o => some (o, o)
/-- `t.offset = pos` -/
def setOff (pos : Nat) : BM Unit := fun _ => some ((), pos)

/-- The results of `next`: token number (`none` is EOF), literal, error. -/
structure RawB where
  tok : Option Nat
  literal : List UInt8
  err : Option LexErr

/-- A Go map from strings, given by its entries. -/
def lookupB (m : List (List Char × Nat)) (key : List UInt8) : Option Nat :=
  (m.map fun p => (encode p.1, p.2)).lookup key

/-- `next` behind the skips (`/repo/ast/tokens.go:132-239`), with the flag `prevDot` as it was on entry. -/
def scanB [Letters] (code : List UInt8) (prevDot : Bool) : BM RawB := do
  match ← cur code with
  | none =>
    adv code
    pure ⟨none, [], none⟩
  | some c =>
    let one (k : Nat) : BM RawB := do
      adv code
      pure ⟨some k, encode [c], none⟩
    if isLetter c then
      let literal := encode (← scanIdentB code (code.length + 1) [])
      match lookupB keywords (ToLower.fastToLower literal) with
      | some k => if !prevDot then pure ⟨some k, literal, none⟩ else pure ⟨some tIdent, literal, none⟩
      | none => pure ⟨some tIdent, literal, none⟩
    else if c = '.' then one c.toNat
    else if isDigit c then
      let (ret, behind) ← scanNumB code (code.length + 1) []
      if behind.any isLetter then pure ⟨none, [], some .identAfterNumber⟩ else pure ⟨some tNumber, encode ret, none⟩
    else if c = '\'' then
      match ← scanStrB code c (code.length + 1) [] with
      | .error e => pure ⟨none, [], some e⟩
      | .ok ret =>
        -- `extractDigits` ranges over the string
        let literal := encode (extractDigits (decodeAll (encode ret)))
        if literal = [] then pure ⟨none, [], some .emptyDate⟩ else pure ⟨some tDate, literal, none⟩
    else if isPunct c then one c.toNat
    else if c = '=' then one tEQUAL
    else if c = '"' then
      match ← scanStrB code c (code.length + 1) [] with
      | .error e => pure ⟨none, [], some e⟩
      | .ok ret => pure ⟨some tString, encode ret, none⟩
    else if c = '<' then
      if (← nxt code) = some '>' then
        adv code
        adv code
        pure ⟨some tNeEQ, encode ['<', '>'], none⟩
      else if (← nxt code) = some '=' then
        adv code
        adv code
        pure ⟨some tLE, encode ['<', '='], none⟩
      else one c.toNat
    else if c = '>' then
      if (← nxt code) = some '=' then
        adv code
        adv code
        pure ⟨some tGE, encode ['>', '='], none⟩
      else one c.toNat
    else if c = '&' then
      adv code
      let pos ← getOff
      let literal := encode ['&'] ++ encode (← scanIdentB code (code.length + 1) [])
      match lookupB directives (ToLower.fastToLower literal) with
      | some k => pure ⟨some k, literal, none⟩
      | none =>
        setOff pos
        pure ⟨some c.toNat, encode [c], some (.badChar c)⟩
    else if c = '~' then
      adv code
      pure ⟨some tGoToLabel, encode (← scanIdentB code (code.length + 1) []), none⟩
    else
      adv code
      pure ⟨some c.toNat, encode [c], some (.badChar c)⟩

/-- `Token` (`/repo/ast/tokens.go:24-31`). -/
structure TokB where
  literal : List UInt8
  value : Val
  offset : Nat
  prevDot : Bool
deriving DecidableEq

/-- The `switch` of `Next` (`/repo/ast/tokens.go:94-118`): value and error afterwards.  It looks at the token only, also when `next`
failed: the characters U+E002 to U+E02E are errors whose number is that of a token.  The library functions are modelled on the
characters of the literal (`F64.parseFloat` on digits and dots; `ParseFloat` fails on the literal U+E01B).  Simplification: when they
fail the value stays (nothing reads it after an error). -/
def valueB (r : RawB) (old : Val) : Val × Option LexErr :=
  match r.tok with
  | none => (old, r.err)
  | some k =>
    let l := decodeAll r.literal
    if k = tNumber ∧ ¬ l.all (fun c => isDigit c || c == '.') then (old, some .badNumber)
    else match valueOf k l old with
      -- `err` is assigned by the cases `Number` and `Date` only (for all zeros `return` keeps it)
      | .ok v => (v, if k = tNumber ∨ k = tDate ∧ ¬ l.all (· == '0') then none else r.err)
      | .error e => (old, some e)

/-- `Token.Next` (`/repo/ast/tokens.go:90-121`): the token afterwards, its number (`none` is EOF) and the error.  The two updates of
`prevDot` (128-130, 146) are merged: set by a dot unless it was set before. -/
def lexNextB [Letters] (code : List UInt8) (t : TokB) : Option (TokB × Option Nat × Option LexErr) := do
  let ((), o) ← (do
    skipSpaceB code (code.length + 1)
    skipCommentB code (2 * code.length + 3)
    skipRegionsB code (2 * code.length + 3) : BM Unit) t.offset
  let dot := currentLetB code o = some '.'
  let (r, o') ← scanB code t.prevDot o
  let (v, err) := valueB r t.value
  pure (⟨r.literal, v, o', !t.prevDot && dot⟩, r.tok, err)

/-- `Token.GetPosition` (`/repo/ast/tokens.go:370-379`) on bytes: line, and column in runes; `none` is a slice out of range. -/
def getPositionB (code : List UInt8) (offset : Nat) : Option (Int × Int) :=
  if offset > code.length then none
  else
    let pre := code.take offset
    -- `strings.LastIndex(pre, "\n") + 1`: what follows the last line feed
    let line := (pre.reverse.takeWhile (· ≠ 10)).reverse
    some ((pre.count 10 : Int) + 1, ((decodeAll line).length : Int) + 1)

end Verif.ByteLexer
