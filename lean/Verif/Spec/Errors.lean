import Verif.Spec.Program
/-!
# Specification: texts that can still become programs
-/
namespace Verif.Spec
open Lexer

/-- The tokens `ks` can be continued to a program. -/
def Viable (ks : List Key) : Prop := ∃ P : Program, P.grouped ∧ ks <+: P.toks

/-- `FirstTokens t l`: calling `Token.Next` again and again from state `t` first gives the tokens `l`; nothing is said about what comes
after them. -/
inductive FirstTokens [Letters] : Tok → List (Nat × Tok) → Prop
  | nil (t : Tok) : FirstTokens t []
  | next {t t' : Tok} {k : Nat} {l : List (Nat × Tok)} :
      lexNext t = (t', .ok (some k)) → FirstTokens t' l → FirstTokens t ((k, t') :: l)

/-- The text begins with the tokens `l`. -/
def Begins [Letters] (code : List Char) (l : List (Nat × Tok)) : Prop := FirstTokens (startTok code) l

/-- The same token in a text that has `q` appended. -/
def followedBy (q : List Char) (y : Nat × Tok) : Nat × Tok := (y.1, { y.2 with rest := y.2.rest ++ q })

/-- `Parse` reports a syntax error. -/
def SyntaxErr (a : Ast) : Prop := ∃ line column lit, a.err = some (.at .syntaxError line column lit)

/-- `Parse` reports a syntax error at the token `t` of the text: its literal, and line and column of its end less the length of the literal. -/
def SyntaxErrAt (code : List Char) (t : Tok) (a : Ast) : Prop :=
  a.err = some (.at .syntaxError (getPosition code t.rest).1 ((getPosition code t.rest).2 - (t.literal.length + 1)) t.literal)

end Verif.Spec
