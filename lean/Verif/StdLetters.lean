import Verif.Parser
import Verif.AstEq
/-! A concrete letter table, for evaluating the model on examples (no counterpart in /repo). -/
namespace Verif

/-- ASCII and Russian letters only. -/
def stdIsL (c : Char) : Bool :=
  if c.toNat < 128 then c.isAlpha
  else (0x410 ≤ c.toNat && c.toNat ≤ 0x44F) || c.toNat == 0x401 || c.toNat == 0x451

/-- ASCII and Russian letters only, as a letter table. -/
@[instance_reducible] def stdLetters : Letters where
  isL := stdIsL
  ascii := by intro c h; simp [stdIsL, h]
  rus := by
    intro c h
    have h1 : ¬ c.toNat < 128 := by omega
    simp only [stdIsL, h1, if_false]
    rcases h with ⟨h, h'⟩ | h | h <;> simp [*]
  bad := by decide +kernel

deriving instance DecidableEq for Except
deriving instance DecidableEq for Ast
deriving instance DecidableEq for Outcome

/-- The module and the error after `NewAST(code).Parse()`, `none` if it does not return. -/
def parseStd (s : String) : Option (Module × Option Err) :=
  match @parse stdLetters (newAST s.toList) with
  | .ret a => some (a.mod, a.err)
  | _ => none

end Verif
