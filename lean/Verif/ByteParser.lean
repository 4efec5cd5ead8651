import Verif.ByteLexer
import Verif.Parser
/-!
# Parse on bytes

`AstNode.code` is a Go string, that is bytes, which need not be UTF-8.  This is the driver of `Verif/Parser.lean` reading its tokens
with the tokeniser of `Verif/ByteLexer.lean`: `lval` holds the offset into the bytes, and a slice out of range in a call of `Next` ends
the run.  The tables, the semantic actions and the error messages are those of `Verif/Parser.lean`, where a token is given by
characters: a token handed to them is seen through `TokB.chars`.
-/
namespace Verif.ByteParser
open Utf8 Lexer Tables ByteLexer

/-- A token as the parser of `Verif/Parser.lean` sees it: the characters of the literal and the characters behind the token. -/
def chars (code : List UInt8) (t : TokB) : Tok := ⟨decodeAll t.literal, t.value, decodeAll (code.drop t.offset), t.prevDot⟩

/-- `Cfg` (`/repo/ast/y.go:594`) with `yyrcvr.lval.token` as the tokeniser on bytes leaves it. -/
structure CfgB where
  ast : Ast
  lval : TokB
  look : Option Nat
  live : List (Nat × SV)
  stale : List SV

/-- The configuration of `Verif/Parser.lean`. -/
def CfgB.cfg (code : List UInt8) (c : CfgB) : Cfg := ⟨c.ast, chars code c.lval, c.look, c.live, c.stale⟩

/-- Panics: those of `Verif/Parser.lean`, or a slice out of range in the tokeniser. -/
inductive PanicB
  | of (p : Panic)
  | slice
deriving DecidableEq

/-- `AstNode.Lex` (`/repo/ast/ast.go:53-69`); the last component is the token number, `none` is EOF. -/
def lexCallB [Letters] (code : List UInt8) (a : Ast) (t : TokB) : Except PanicB (Ast × TokB × Option Nat) :=
  if code = [] then .ok (a, t, none)
  else
    match lexNextB code t with
    | none => .error .slice
    | some (t', _, some e) => .ok ({ a with err := some (.lex e) }, t', none)
    | some (t', none, none) => .ok (a, t', none)
    | some (t', some k, none) => .ok ({ a with cur := some (chars code t') }, t', some k)

/-- Reading the lookahead (`/repo/ast/y.go:599-601`, `622-624`). -/
def fetchB [Letters] (code : List UInt8) (c : CfgB) : Except PanicB (CfgB × Nat) :=
  match c.look with
  | some t => .ok (c, t)
  | none => do
    match ← lexCallB code c.ast c.lval with
    | (a, t, none) => .ok ({ c with ast := a, lval := t }, tokEnd)
    | (a, t, some k) => .ok ({ c with ast := a, lval := t, look := some (tokNum k) }, tokNum k)

/-- Outcome of one step of the driver. -/
inductive StepB
  | go (c : CfgB)
  | done (code : Nat) (a : Ast)

/-- A reduction or a syntax error (`/repo/ast/y.go:645-725, 1451`), which leave `lval` alone. -/
def keepTok (t : TokB) : Except Panic Step → Except PanicB StepB
  | .error p => .error (.of p)
  | .ok (.go c) => .ok (.go ⟨c.ast, t, c.look, c.live, c.stale⟩)
  | .ok (.done k a) => .ok (.done k a)

/-- Label `yydefault` (`/repo/ast/y.go:618-690`) in state `s`. -/
def defaultActionB [Letters] (code : List UInt8) (c : CfgB) (s : Nat) : Except PanicB StepB :=
  let n := get yyDef s
  if n = -2 then do
    let (c, t) ← fetchB code c
    let n := excaFind t (excaFrom s excaPairs)
    if n < 0 then .ok (.done 0 c.ast)
    else if n = 0 then keepTok c.lval (syntaxError (c.cfg code))
    else keepTok c.lval (reduce (c.cfg code) n.toNat)
  else if n = 0 then keepTok c.lval (syntaxError (c.cfg code))
  else keepTok c.lval (reduce (c.cfg code) n.toNat)

/-- One round of the driver (`/repo/ast/y.go:594-725`). -/
def stepB [Letters] (code : List UInt8) (c : CfgB) : Except PanicB StepB :=
  match c.live with
  | [] => .ok (.done 1 c.ast)
  | (s, _) :: _ =>
    if get yyPact s ≤ yyFlag then defaultActionB code c s
    else do
      let (c, t) ← fetchB code c
      match shiftOf s t with
      | some s' => .ok (.go ⟨c.ast, c.lval, none, (s', { token := chars code c.lval }) :: c.live, c.stale.tail⟩)
      | none => defaultActionB code c s

/-- The driver loop with at most `n` rounds; `none` if it has not returned by then. -/
def runB [Letters] (code : List UInt8) : Nat → CfgB → Except PanicB (Option (Nat × Ast))
  | 0, _ => .ok none
  | n + 1, c => do
    match ← stepB code c with
    | .done k a => .ok (some (k, a))
    | .go c' => runB code n c'

/-- Outcome of a call of `Parse`. -/
inductive OutcomeB
  | ret (a : Ast)
  | panic (p : PanicB)
  | loops

/-- `NewAST(code)` (`/repo/ast/ast.go:31-35`) and `Parse` (37-47) on bytes.  The bound on the rounds is counted in characters.
`strings.TrimSpace` (library) leaves nothing exactly if all characters are white space. -/
def parseB [Letters] (code : List UInt8) : OutcomeB :=
  let a := newAST (decodeAll code)
  if (decodeAll code).all isUnicodeSpace then .ret a
  else match runB code (fuel (decodeAll code).length) ⟨a, ⟨[], .nil, 0, false⟩, none, [(0, {})], []⟩ with
    | .error p => .panic p
    | .ok none => .loops
    | .ok (some (_, a')) => .ret a'

end Verif.ByteParser
