import Verif.Lexer
/-!
# Specification: the tokens of a text

`lexNext` models one call of `Token.Next`.
-/
namespace Verif.Spec
open Lexer

/-- State after `n` calls of `Token.Next`. -/
def afterCalls [Letters] : Nat → Tok → Tok
  | 0, t => t
  | n + 1, t => afterCalls n (lexNext t).1

/-- `Tokens t l`: calling `Token.Next` again and again from state `t` reports no error, gives the tokens `l`
(number and contents) one after the other, and then end-of-file. -/
inductive Tokens [Letters] : Tok → List (Nat × Tok) → Prop
  | eof {t : Tok} : (lexNext t).2 = .ok none → Tokens t []
  | next {t t' : Tok} {k : Nat} {l : List (Nat × Tok)} :
      lexNext t = (t', .ok (some k)) → Tokens t' l → Tokens t ((k, t') :: l)

/-- The tokens of a text. -/
def TokensOf [Letters] (code : List Char) (l : List (Nat × Tok)) : Prop := Tokens (startTok code) l

end Verif.Spec
