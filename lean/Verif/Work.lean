import Verif.ByteParser
/-!
# How much the tokeniser reads, and what it writes to standard output

A third model of `/repo/ast/tokens.go`, as in `Verif/ByteLexer.lean`, which counts two things: the calls of
`utf8.DecodeRuneInString`, which is all the access there is to the text, and the lines that `currentLet` writes to standard output
(`/repo/ast/tokens.go:363`: `fmt.Println` when the decoded character is U+FFFD).  Every call of `currentLet`, `nextLet` and `nextPos` in
the Go code has its counterpart here, in the same order, also where `Verif/ByteLexer.lean` merges two.
-/
namespace Verif.Work
open Utf8 Lexer ByteLexer Tables ByteParser

/-- `t.offset`, the characters decoded so far, the lines written so far. -/
structure St where
  off : Nat
  reads : Nat
  prints : Nat

/-- Code that moves `t.offset` and counts; `none` is a panic. -/
abbrev WM := StateT St Option

/-- The line written for a character (`/repo/ast/tokens.go:362-365`): the decoder gives U+FFFD for bytes that are not UTF-8, and for the
character U+FFFD itself. -/
def lines (c : Option Char) : Nat := if c = some runeError then 1 else 0

/-- `t.currentLet()` (`/repo/ast/tokens.go:354-368`). -/
def cur (code : List UInt8) : WM (Option Char) := fun s =>
  let c := currentLetB code s.off
  some (c, ⟨s.off, s.reads + 1, s.prints + lines c⟩)

/-- `t.nextLet()` (`/repo/ast/tokens.go:345-352`): decodes the character to find its size, then calls `currentLet`. -/
def nxt (code : List UInt8) : WM (Option Char) := fun s =>
  (nextLetB code s.off).map fun c => (c, ⟨s.off, s.reads + 2, s.prints + lines c⟩)

/-- `t.nextPos()` (`/repo/ast/tokens.go:381-385`). -/
def adv (code : List UInt8) : WM Unit := fun s => (nextPosB code s.off).map fun o => ((), ⟨o, s.reads + 1, s.prints⟩)

/-- A panic. -/
def stop {α : Type} : WM α := fun _ => none

/-- `skipSpace` (`/repo/ast/tokens.go:304-308`). -/
def skipSpaceW (code : List UInt8) : Nat → WM Unit
  | 0 => stop
  | n + 1 => do
    if (← cur code).any isSpace then
      adv code
      skipSpaceW code n
    else pure ()

/-- The loops to the end of the line (`/repo/ast/tokens.go:312-314`, `331-333`). -/
def skipLineW (code : List UInt8) : Nat → WM Unit
  | 0 => stop
  | n + 1 => do
    let ch ← cur code
    if ch ≠ some '\n' ∧ ch ≠ none then
      adv code
      skipLineW code n
    else pure ()

mutual
/-- `skipComment` (`/repo/ast/tokens.go:310-326`). -/
def skipCommentW (code : List UInt8) : Nat → WM Unit
  | 0 => stop
  | n + 1 => do
    if (← cur code) = some '/' then
      if (← nxt code) = some '/' then
        skipLineW code (code.length + 1)
        skipSpaceW code (code.length + 1)
        if (← cur code) = some '/' then skipCommentW code n
        else if (← cur code) = some '#' then skipRegionsW code n
        else pure ()
      else pure ()
    else pure ()
/-- `skipRegions` (`/repo/ast/tokens.go:328-343`). -/
def skipRegionsW (code : List UInt8) : Nat → WM Unit
  | 0 => stop
  | n + 1 => do
    if (← cur code) = some '#' then
      skipLineW code (code.length + 1)
      skipSpaceW code (code.length + 1)
    if (← cur code) = some '/' then skipCommentW code n
    else if (← cur code) = some '#' then skipRegionsW code n
    else pure ()
end

/-- The loop of `scanIdentifier` (`/repo/ast/tokens.go:245-253`). -/
def scanIdentW [Letters] (code : List UInt8) : Nat → List Char → WM (List Char)
  | 0, _ => stop
  | n + 1, ret => do
    match ← cur code with
    | some c =>
      if !isLetter c && !isDigit c then pure ret
      else
        adv code
        scanIdentW code n (ret ++ [c])
    | none => pure ret

/-- The loop of `scanNumber` (`/repo/ast/tokens.go:390-394`). -/
def scanNumW (code : List UInt8) : Nat → List Char → WM (List Char × Option Char)
  | 0, _ => stop
  | n + 1, ret => do
    match ← cur code with
    | some c =>
      if isDigit c || c == '.' then
        adv code
        scanNumW code n (ret ++ [c])
      else pure (ret, some c)
    | none => pure (ret, none)

/-- The loop of `scanString` (`/repo/ast/tokens.go:258-302`). -/
def scanStrW (code : List UInt8) (close : Char) : Nat → List Char → WM (Except LexErr (List Char))
  | 0, _ => stop
  | n + 1, ret => do
    adv code
    let cl ← cur code
    if cl = some '\n' then
      adv code
      skipSpaceW code (code.length + 1)
      skipCommentW code (2 * code.length + 3)
      match ← cur code with
      | none => pure (.error .unexpectedEOL)
      | some d =>
        if d ≠ '|' ∧ !isSpace d then pure (.error .unexpectedEOL)
        else scanStrW code close n (ret ++ ['\n', d])
    else
      match cl with
      | none => pure (.error .unexpectedEOF)
      | some c =>
        if c = close then
          if (← nxt code) = some '"' then
            adv code
            scanStrW code close n (ret ++ ['"', '"'])
          else
            adv code
            skipSpaceW code (code.length + 1)
            if (← cur code) = some '"' then scanStrW code close n ret else pure (.ok ret)
        else scanStrW code close n (ret ++ [c])

/-- `t.offset` -/
def getOff : WM Nat := fun s => some (s.off, s)
/-- `t.offset = pos` -/
def setOff (pos : Nat) : WM Unit := fun s => some ((), { s with off := pos })

/-- `next` behind the skips (`/repo/ast/tokens.go:132-239`), with the flag `prevDot` as it was on entry. -/
def scanW [Letters] (code : List UInt8) (prevDot : Bool) : WM RawB := do
  match ← cur code with
  | none =>
    adv code
    pure ⟨none, [], none⟩
  | some c =>
    let one (k : Nat) : WM RawB := do
      adv code
      pure ⟨some k, encode [c], none⟩
    if isLetter c then
      let literal := encode (← scanIdentW code (code.length + 1) [])
      match lookupB keywords (ToLower.fastToLower literal) with
      | some k => if !prevDot then pure ⟨some k, literal, none⟩ else pure ⟨some tIdent, literal, none⟩
      | none => pure ⟨some tIdent, literal, none⟩
    else if c = '.' then one c.toNat
    else if isDigit c then
      let (ret, behind) ← scanNumW code (code.length + 1) []
      if behind.any isLetter then pure ⟨none, [], some .identAfterNumber⟩ else pure ⟨some tNumber, encode ret, none⟩
    else if c = '\'' then
      match ← scanStrW code c (code.length + 1) [] with
      | .error e => pure ⟨none, [], some e⟩
      | .ok ret =>
        let literal := encode (extractDigits (decodeAll (encode ret)))
        if literal = [] then pure ⟨none, [], some .emptyDate⟩ else pure ⟨some tDate, literal, none⟩
    else if isPunct c then one c.toNat
    else if c = '=' then one tEQUAL
    else if c = '"' then
      match ← scanStrW code c (code.length + 1) [] with
      | .error e => pure ⟨none, [], some e⟩
      | .ok ret => pure ⟨some tString, encode ret, none⟩
    else if c = '<' then
      if (← nxt code) = some '>' then
        adv code
        adv code
        pure ⟨some tNeEQ, encode ['<', '>'], none⟩
      else if (← nxt code) = some '=' then
        adv code
        adv code
        pure ⟨some tLE, encode ['<', '='], none⟩
      else one c.toNat
    else if c = '>' then
      if (← nxt code) = some '=' then
        adv code
        adv code
        pure ⟨some tGE, encode ['>', '='], none⟩
      else one c.toNat
    else if c = '&' then
      adv code
      let pos ← getOff
      let literal := encode ['&'] ++ encode (← scanIdentW code (code.length + 1) [])
      match lookupB directives (ToLower.fastToLower literal) with
      | some k => pure ⟨some k, literal, none⟩
      | none =>
        setOff pos
        pure ⟨some c.toNat, encode [c], some (.badChar c)⟩
    else if c = '~' then
      adv code
      pure ⟨some tGoToLabel, encode (← scanIdentW code (code.length + 1) []), none⟩
    else
      adv code
      pure ⟨some c.toNat, encode [c], some (.badChar c)⟩

/-- `Token.Next` (`/repo/ast/tokens.go:90-121`) at an offset: the counts afterwards.  What follows `next` in `Next` does not touch the
text. -/
def nextW [Letters] (code : List UInt8) (t : TokB) : WM RawB := do
  skipSpaceW code (code.length + 1)
  skipCommentW code (2 * code.length + 3)
  skipRegionsW code (2 * code.length + 3)
  scanW code t.prevDot

/-- A count: characters decoded, lines written. -/
structure Count where
  reads : Nat
  prints : Nat

instance : Add Count := ⟨fun a b => ⟨a.reads + b.reads, a.prints + b.prints⟩⟩
instance : Zero Count := ⟨⟨0, 0⟩⟩

/-- A call of `Lex` (`/repo/ast/ast.go:53-69`). -/
def lexCount [Letters] (code : List UInt8) (t : TokB) : Count :=
  if code = [] then 0
  else match nextW code t ⟨t.offset, 0, 0⟩ with
    | some (_, s) => ⟨s.reads, s.prints⟩
    | none => 0

/-- Reading the lookahead (`/repo/ast/y.go:599-601`, `622-624`). -/
def fetchCount [Letters] (code : List UInt8) (c : CfgB) : Count :=
  match c.look with
  | some _ => 0
  | none => lexCount code c.lval

/-- Label `yydefault` (`/repo/ast/y.go:618-690`) in state `s`; the rest of it does not touch the text but for the position of an error,
see `Verif/Props/Work.lean`. -/
def defaultCount [Letters] (code : List UInt8) (c : CfgB) (s : Nat) : Count :=
  if get yyDef s = -2 then fetchCount code c else 0

/-- One round of the driver (`/repo/ast/y.go:594-725`). -/
def stepCount [Letters] (code : List UInt8) (c : CfgB) : Count :=
  match c.live with
  | [] => 0
  | (s, _) :: _ =>
    if get yyPact s ≤ yyFlag then defaultCount code c s
    else fetchCount code c + match fetchB code c with
      | .error _ => 0
      | .ok (c', t) => match shiftOf s t with
        | some _ => 0
        | none => defaultCount code c' s

/-- The driver loop with at most `n` rounds. -/
def runCount [Letters] (code : List UInt8) : Nat → CfgB → Count
  | 0, _ => 0
  | n + 1, c => stepCount code c + match stepB code c with
    | .ok (.go c') => runCount code n c'
    | _ => 0

/-- `NewAST(code)` (`/repo/ast/ast.go:31-35`) and `Parse` (37-47) on bytes: the characters that the tokeniser decodes, and the lines that
are written to standard output. -/
def parseCount [Letters] (code : List UInt8) : Count :=
  if (decodeAll code).all isUnicodeSpace then 0
  else runCount code (fuel (decodeAll code).length) ⟨newAST (decodeAll code), ⟨[], .nil, 0, false⟩, none, [(0, {})], []⟩

end Verif.Work
