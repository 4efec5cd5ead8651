import Verif.Parser
import Verif.Spec.Rename
/-!
# Specification: line ends

Windows ends a line with CR LF, other systems with LF.
-/
namespace Verif
namespace Spec

/-- The text with a carriage return in front of every line feed. -/
def withCR : List Char → List Char
  | [] => []
  | c :: r => if c = '\n' then '\r' :: '\n' :: withCR r else c :: withCR r

/-- The string constants get the line ends of the text they are in; nothing else changes. -/
def Renaming.crStrings : Renaming := { Renaming.none with str := withCR }

/-- The same with all names (they contain no line ends). -/
def Renaming.cr : Renaming := ⟨withCR, withCR, withCR, id, withCR, id⟩

end Spec

open Spec

/-- A message in which the mentioned word has the other line ends. -/
def Msg.withCR : Msg → Msg
  | .loopOp l => .loopOp (Spec.withCR l)
  | .throwOp l => .throwOp (Spec.withCR l)
  | .dupVar n => .dupVar (Spec.withCR n)
  | m => m

/-- An error in the text with the other line ends: the same line; the column that is reported is the end of the token less its length,
and so it is smaller for a string constant of several lines. -/
def Err.withCR : Err → Err
  | .lex e => .lex e
  | .at m line column literal => .at m.withCR line (column - literal.count '\n') (Spec.withCR literal)

/-- What a call of `Parse` did, on the text with the other line ends. -/
inductive Spec.SameButLineEnds : Outcome → Outcome → Prop
  | ret {a a' : Ast} : a'.mod = a.mod.rename Renaming.cr → a'.err = a.err.map Err.withCR → SameButLineEnds (.ret a) (.ret a')
  | panic (p : Panic) : SameButLineEnds (.panic p) (.panic p)

end Verif
