import Verif.ToLower
import Verif.Float64
import Verif.Time
/-!
# The tokeniser (`/repo/ast/tokens.go`)

The Go tokeniser keeps a byte offset into the source.  The model keeps the not yet consumed suffix of
the *character* list instead (`rest`); `Verif/Props/Bytes.lean` proves that stepping through the bytes
with the Go primitives is the same as stepping through this list.  `Option.none`/`[]` is EOF (-1).
-/
namespace Verif

/-- `unicode.IsLetter` (library, used at `/repo/ast/tokens.go:404`) as a parameter: any table that is
right on ASCII, contains the Russian letters and does not contain U+FFFD. -/
class Letters where
  /-- the table lookup -/
  isL : Char → Bool
  /-- ASCII: exactly `A-Z`, `a-z` -/
  ascii : ∀ c : Char, c.toNat < 128 → isL c = c.isAlpha
  /-- Russian letters -/
  rus : ∀ c : Char, (0x410 ≤ c.toNat ∧ c.toNat ≤ 0x44F) ∨ c.toNat = 0x401 ∨ c.toNat = 0x451 → isL c = true
  /-- the replacement character is a symbol -/
  bad : isL (Char.ofNat 0xFFFD) = false

namespace Lexer

/-! ## Token numbers (`/repo/ast/y.go:36-83`) -/

/-- `Directive` -/ def tDirective : Nat := 57346
/-- `token_identifier` -/ def tIdent : Nat := 57347
/-- `Procedure` -/ def tProcedure : Nat := 57348
/-- `Var` -/ def tVar : Nat := 57349
/-- `EndProcedure` -/ def tEndProcedure : Nat := 57350
/-- `If` -/ def tIf : Nat := 57351
/-- `Then` -/ def tThen : Nat := 57352
/-- `ElseIf` -/ def tElseIf : Nat := 57353
/-- `Else` -/ def tElse : Nat := 57354
/-- `EndIf` -/ def tEndIf : Nat := 57355
/-- `For` -/ def tFor : Nat := 57356
/-- `Each` -/ def tEach : Nat := 57357
/-- `In` -/ def tIn : Nat := 57358
/-- `To` -/ def tTo : Nat := 57359
/-- `Loop` -/ def tLoop : Nat := 57360
/-- `EndLoop` -/ def tEndLoop : Nat := 57361
/-- `Break` -/ def tBreak : Nat := 57362
/-- `Not` -/ def tNot : Nat := 57363
/-- `ValueParam` -/ def tValueParam : Nat := 57364
/-- `While` -/ def tWhile : Nat := 57365
/-- `GoToLabel` -/ def tGoToLabel : Nat := 57366
/-- `Continue` -/ def tContinue : Nat := 57367
/-- `Try` -/ def tTry : Nat := 57368
/-- `Catch` -/ def tCatch : Nat := 57369
/-- `EndTry` -/ def tEndTry : Nat := 57370
/-- `Number` -/ def tNumber : Nat := 57371
/-- `String` -/ def tString : Nat := 57372
/-- `New` -/ def tNew : Nat := 57373
/-- `Function` -/ def tFunction : Nat := 57374
/-- `EndFunction` -/ def tEndFunction : Nat := 57375
/-- `Return` -/ def tReturn : Nat := 57376
/-- `Throw` -/ def tThrow : Nat := 57377
/-- `NeEQ` -/ def tNeEQ : Nat := 57378
/-- `EQUAL` -/ def tEQUAL : Nat := 57379
/-- `LE` -/ def tLE : Nat := 57380
/-- `GE` -/ def tGE : Nat := 57381
/-- `OR` -/ def tOR : Nat := 57382
/-- `And` -/ def tAnd : Nat := 57383
/-- `True` -/ def tTrue : Nat := 57384
/-- `False` -/ def tFalse : Nat := 57385
/-- `Undefind` -/ def tUndefind : Nat := 57386
/-- `Export` -/ def tExport : Nat := 57387
/-- `Date` -/ def tDate : Nat := 57388
/-- `GoTo` -/ def tGoTo : Nat := 57389
/-- `Execute` -/ def tExecute : Nat := 57390

/-- The keyword map `tokens` (`/repo/ast/tokens.go:39-79`). -/
def keywords : List (List Char × Nat) := [
  ("процедура".toList, tProcedure),
  ("перем".toList, tVar),
  ("перейти".toList, tGoTo),
  ("конецпроцедуры".toList, tEndProcedure),
  ("знач".toList, tValueParam),
  ("если".toList, tIf),
  ("тогда".toList, tThen),
  ("иначеесли".toList, tElseIf),
  ("иначе".toList, tElse),
  ("конецесли".toList, tEndIf),
  ("для".toList, tFor),
  ("каждого".toList, tEach),
  ("из".toList, tIn),
  ("по".toList, tTo),
  ("цикл".toList, tLoop),
  ("конеццикла".toList, tEndLoop),
  ("прервать".toList, tBreak),
  ("продолжить".toList, tContinue),
  ("попытка".toList, tTry),
  ("новый".toList, tNew),
  ("исключение".toList, tCatch),
  ("пока".toList, tWhile),
  ("конецпопытки".toList, tEndTry),
  ("функция".toList, tFunction),
  ("конецфункции".toList, tEndFunction),
  ("возврат".toList, tReturn),
  ("вызватьисключение".toList, tThrow),
  ("и".toList, tAnd),
  ("или".toList, tOR),
  ("истина".toList, tTrue),
  ("ложь".toList, tFalse),
  ("неопределено".toList, tUndefind),
  ("не".toList, tNot),
  ("экспорт".toList, tExport),
  ("выполнить".toList, tExecute)]

/-- The map `directives` (`/repo/ast/tokens.go:81-87`). -/
def directives : List (List Char × Nat) := [
  ("&наклиенте".toList, tDirective),
  ("&насервере".toList, tDirective),
  ("&насерверебезконтекста".toList, tDirective),
  ("&наклиентенасерверебезконтекста".toList, tDirective),
  ("&наклиентенасервере".toList, tDirective)]

/-! ## Character classes -/

/-- `isLetter` (`/repo/ast/tokens.go:403-405`). -/
def isLetter [Letters] (c : Char) : Bool := Letters.isL c || c == '_'

/-- `isDigit` (`/repo/ast/tokens.go:407-409`). -/
def isDigit (c : Char) : Bool := '0' ≤ c && c ≤ '9'

/-- `isSpace` (`/repo/ast/tokens.go:411-413`). -/
def isSpace (c : Char) : Bool := c == ' ' || c == '\t' || c == '\r' || c == '\n'

/-- Letter or digit, the loop condition of `scanIdentifier` (`/repo/ast/tokens.go:247`). -/
def isWordChar [Letters] (c : Char) : Bool := isLetter c || isDigit c

/-! ## Skipping -/

/-- `skipSpace` (`/repo/ast/tokens.go:304-308`). -/
def skipSpace : List Char → List Char
  | [] => []
  | c :: r => if isSpace c then skipSpace r else c :: r

/-- The loop skipping to the end of the line (`/repo/ast/tokens.go:312-314`, `331-333`). -/
def skipLine : List Char → List Char
  | [] => []
  | c :: r => if c = '\n' then c :: r else skipLine r

mutual
/-- `skipComment` (`/repo/ast/tokens.go:310-326`).  The first argument bounds the recursion depth (each
nested call has consumed at least one character, so the length of the text suffices). -/
def skipCommentF : Nat → List Char → List Char
  | 0, s => s
  | n + 1, s =>
    match s with
    | '/' :: '/' :: _ =>
      let s1 := skipSpace (skipLine s)
      match s1 with
      | '/' :: _ => skipCommentF n s1
      | '#' :: _ => skipRegionsF n s1
      | _ => s1
    | _ => s
/-- `skipRegions` (`/repo/ast/tokens.go:328-343`), depth bound as in `skipCommentF`. -/
def skipRegionsF : Nat → List Char → List Char
  | 0, s => s
  | n + 1, s =>
    let s1 := match s with
      | '#' :: _ => skipSpace (skipLine s)
      | _ => s
    match s1 with
    | '/' :: _ => skipCommentF n s1
    | '#' :: _ => skipRegionsF n s1
    | _ => s1
end

/-- `skipComment` with a sufficient depth bound. -/
def skipComment (s : List Char) : List Char := skipCommentF (2 * s.length + 2) s
/-- `skipRegions` with a sufficient depth bound. -/
def skipRegions (s : List Char) : List Char := skipRegionsF (2 * s.length + 2) s

/-- The three skips at the beginning of `next` (`/repo/ast/tokens.go:124-126`). -/
def skipTrivia (s : List Char) : List Char := skipRegions (skipComment (skipSpace s))

/-! ## Scanning -/

/-- Errors of the tokeniser, one per `fmt.Errorf` (texts not modelled). -/
inductive LexErr
  /-- `syntax error %q` (tokens.go:222, 237) -/
  | badChar (c : Char)
  /-- `unexpected EOL` (tokens.go:272) -/
  | unexpectedEOL
  /-- `unexpected EOF` (tokens.go:277) -/
  | unexpectedEOF
  /-- `identifier immediately follow the number` (tokens.go:397) -/
  | identAfterNumber
  /-- `incorrect Date type constant` (tokens.go:165) -/
  | emptyDate
  /-- error of `strconv.ParseFloat` (tokens.go:96) -/
  | badNumber
  /-- error of `time.Parse` (tokens.go:108) -/
  | badDate
deriving DecidableEq, Repr

/-- `scanIdentifier` (`/repo/ast/tokens.go:242-256`): the word and the remaining text. -/
def scanIdentifier [Letters] (s : List Char) : List Char × List Char :=
  (s.takeWhile isWordChar, s.dropWhile isWordChar)

/-- Prepend characters to the literal of a successful scan. -/
def addLit (p : List Char) : Except LexErr (List Char) × List Char → Except LexErr (List Char) × List Char
  | (.ok l, r) => (.ok (p ++ l), r)
  | (.error e, r) => (.error e, r)

/-- `scanString` (`/repo/ast/tokens.go:258-302`): `s` starts at the character the loop's first `nextPos`
skips.  Result: literal or error, and the text remaining.  The first argument bounds the number of
iterations (every iteration consumes a character). -/
def scanStringF (close : Char) : Nat → List Char → Except LexErr (List Char) × List Char
  | 0, s => (.error .unexpectedEOF, s)
  | n + 1, s =>
    match s.tail with
    | [] => (.error .unexpectedEOF, [])
    | c :: r =>
      if c = '\n' then
        match skipComment (skipSpace r) with
        | [] => (.error .unexpectedEOL, [])
        | d :: r' =>
          if d ≠ '|' ∧ !isSpace d then (.error .unexpectedEOL, d :: r')
          else addLit ['\n', d] (scanStringF close n (d :: r'))
      else if c = close then
        if r.head? = some '"' then addLit ['"', '"'] (scanStringF close n r)
        else
          let s2 := skipSpace r
          if s2.head? = some '"' then scanStringF close n s2 else (.ok [], s2)
      else addLit [c] (scanStringF close n (c :: r))

/-- `scanString` with a sufficient iteration bound. -/
def scanString (close : Char) (s : List Char) : Except LexErr (List Char) × List Char :=
  scanStringF close (s.length + 1) s

/-- `scanNumber` (`/repo/ast/tokens.go:387-401`). -/
def scanNumber [Letters] (s : List Char) : Except LexErr (List Char) × List Char :=
  let p := fun c => isDigit c || c == '.'
  let r := s.dropWhile p
  match r with
  | c :: _ => if isLetter c then (.error .identAfterNumber, r) else (.ok (s.takeWhile p), r)
  | [] => (.ok (s.takeWhile p), r)

/-- `extractDigits` (`/repo/ast/tokens.go:432-440`). -/
def extractDigits (s : List Char) : List Char := s.filter isDigit

/-- `fastToLower` on the characters of a (valid) string; `Verif/Props/ToLower.lean` proves that the byte
level function `Verif.ToLower.fastToLower` does exactly this (`/repo/ast/tokens.go:457-475`). -/
def lower (s : List Char) : List Char := s.map ToLower.lowerRune

/-- The characters that are tokens by themselves (`/repo/ast/tokens.go:169`). -/
def isPunct (c : Char) : Bool :=
  c == '/' || c == ';' || c == '(' || c == ')' || c == ',' || c == '-' || c == '+' || c == '*' ||
  c == '?' || c == '[' || c == ']' || c == ':' || c == '%'

/-- Result of `next`: token number (`none` = EOF) or error, literal, remaining text. -/
structure Raw where
  res : Except LexErr (Option Nat)
  literal : List Char
  rest : List Char

/-- A word (`/repo/ast/tokens.go:133-141`). -/
def lexWord [Letters] (prevDot : Bool) (s : List Char) : Raw :=
  let w := (scanIdentifier s).1
  let k := match keywords.lookup (lower w) with
    | some k => if prevDot then tIdent else k
    | none => tIdent
  ⟨.ok (some k), w, (scanIdentifier s).2⟩

/-- A number (`/repo/ast/tokens.go:150-155`). -/
def lexNumber [Letters] (s : List Char) : Raw :=
  match scanNumber s with
  | (.error e, r) => ⟨.error e, [], r⟩
  | (.ok l, r) => ⟨.ok (some tNumber), l, r⟩

/-- A date (`/repo/ast/tokens.go:157-168`). -/
def lexDate (s : List Char) : Raw :=
  match scanString '\'' s with
  | (.error e, r) => ⟨.error e, [], r⟩
  | (.ok l, r) =>
    if extractDigits l = [] then ⟨.error .emptyDate, [], r⟩
    else ⟨.ok (some tDate), extractDigits l, r⟩

/-- A string (`/repo/ast/tokens.go:175-181`). -/
def lexString (s : List Char) : Raw :=
  match scanString '"' s with
  | (.error e, r) => ⟨.error e, [], r⟩
  | (.ok l, r) => ⟨.ok (some tString), l, r⟩

/-- After `<` (`/repo/ast/tokens.go:182-194`). -/
def lexLess : List Char → Raw
  | '>' :: r => ⟨.ok (some tNeEQ), ['<', '>'], r⟩
  | '=' :: r => ⟨.ok (some tLE), ['<', '='], r⟩
  | r => ⟨.ok (some '<'.toNat), ['<'], r⟩

/-- After `>` (`/repo/ast/tokens.go:195-203`). -/
def lexGreater : List Char → Raw
  | '=' :: r => ⟨.ok (some tGE), ['>', '='], r⟩
  | r => ⟨.ok (some '>'.toNat), ['>'], r⟩

/-- After `&` (`/repo/ast/tokens.go:211-223`). -/
def lexDirective [Letters] (r : List Char) : Raw :=
  let w := '&' :: (scanIdentifier r).1
  match directives.lookup (lower w) with
  | some k => ⟨.ok (some k), w, (scanIdentifier r).2⟩
  | none => ⟨.error (.badChar '&'), ['&'], r⟩

/-- After `~` (`/repo/ast/tokens.go:224-226`). -/
def lexLabel [Letters] (r : List Char) : Raw :=
  ⟨.ok (some tGoToLabel), (scanIdentifier r).1, (scanIdentifier r).2⟩

/-- `Token.next` (`/repo/ast/tokens.go:123-240`) after the skips, on the text `s`. -/
def nextRaw [Letters] (prevDot : Bool) (s : List Char) : Raw :=
  match s with
  | [] => ⟨.ok none, [], []⟩
  | c :: r =>
    if isLetter c then lexWord prevDot (c :: r)
    else if c = '.' then ⟨.ok (some '.'.toNat), ['.'], r⟩
    else if isDigit c then lexNumber (c :: r)
    else if c = '\'' then lexDate (c :: r)
    else if isPunct c then ⟨.ok (some c.toNat), [c], r⟩
    else if c = '=' then ⟨.ok (some tEQUAL), [c], r⟩
    else if c = '"' then lexString (c :: r)
    else if c = '<' then lexLess r
    else if c = '>' then lexGreater r
    else if c = '&' then lexDirective r
    else if c = '~' then lexLabel r
    else ⟨.error (.badChar c), [c], r⟩

end Lexer

/-- Dynamic value of `Token.value` (`interface{}`, `/repo/ast/tokens.go:26`). -/
inductive Val
  | nil
  | num (x : F64)
  | str (s : List Char)
  | bool (b : Bool)
  | date (t : Time)
deriving DecidableEq, Repr

/-- `Token` (`/repo/ast/tokens.go:24-31`): literal, value, the text after the token (for `offset`), and
the flag `prevDot`.  The field `position` is never used by the Go code. -/
structure Tok where
  literal : List Char
  value : Val
  rest : List Char
  prevDot : Bool
deriving DecidableEq, Repr

namespace Lexer

/-- Value assignment of `Token.Next` (`/repo/ast/tokens.go:94-118`) for a token of number `k` with
literal `l`; `old` is the value left from the previous token. -/
def valueOf (k : Nat) (l : List Char) (old : Val) : Except LexErr Val :=
  if k = tNumber then
    match F64.parseFloat l with
    | some x => .ok (.num x)
    | none => .error .badNumber
  else if k = tString then .ok (.str l)
  else if k = tDate then
    if l.all (· == '0') then .ok (.date Time.zero)
    else match Time.parse 8 l with
      | some t => .ok (.date t)
      | none => match Time.parse 12 l with
        | some t => .ok (.date t)
        | none => match Time.parse 14 l with
          | some t => .ok (.date t)
          | none => .error .badDate
  else if k = tUndefind then .ok .nil
  else if k = tTrue then .ok (.bool true)
  else if k = tFalse then .ok (.bool false)
  else .ok old

/-- The `switch` of `Token.Next` after `next` failed (`/repo/ast/tokens.go:94-118`): value and error.  It looks at the token
only.  For a bad character the token is the code of the character (lines 219, 237), which for U+E002 to U+E02E is the number of a
token; otherwise it is EOF.  `strconv.ParseFloat` and `time.Parse` fail on these characters and replace the error.  Simplification:
when they fail the value stays (nothing reads it). -/
def failed (old : Val) : LexErr → Val × LexErr
  | .badChar c =>
    if c.toNat = tNumber then (old, .badNumber)
    else match valueOf c.toNat [c] old with
      | .ok v => (v, .badChar c)
      | .error e => (old, e)
  | e => (old, e)

/-- The end of `Token.Next` (`/repo/ast/tokens.go:91-121`): literal, flag, value. -/
def finish (t : Tok) (dot : Bool) (raw : Raw) : Tok × Except LexErr (Option Nat) :=
  match raw.res with
  | .error e => (⟨raw.literal, (failed t.value e).1, raw.rest, dot⟩, .error (failed t.value e).2)
  | .ok none => (⟨raw.literal, t.value, raw.rest, dot⟩, .ok none)
  | .ok (some k) =>
    match valueOf k raw.literal t.value with
    | .ok v => (⟨raw.literal, v, raw.rest, dot⟩, .ok (some k))
    | .error e => (⟨raw.literal, t.value, raw.rest, dot⟩, .error e)

/-- `Token.Next` (`/repo/ast/tokens.go:90-121`) with `Token.next` (123-240): the new token state, and
the token number (`none` = EOF) or the error.  The flag `prevDot` afterwards is as in lines 128-130 and
146. -/
def lexNext [Letters] (t : Tok) : Tok × Except LexErr (Option Nat) :=
  let s := skipTrivia t.rest
  finish t (!t.prevDot && s.head? == some '.') (nextRaw t.prevDot s)

/-- A fresh token at the beginning of the text (`Token{}` with `offset` 0). -/
def startTok (code : List Char) : Tok := ⟨[], .nil, code, false⟩

end Lexer
end Verif
