import Verif.Proofs.ErrorBound
import Verif.Props.Parse
/-!
# C73: the time Parse takes for errors

C71 bounds what the tokeniser reads.  The other thing that reads the text is `AstNode.Error`, which looks for the line and the column of the
current token by reading the text from its beginning.  `parseFront` of `Verif/ErrorWork.lean` counts the characters read this way, in all
calls of `Error` in one run of Parse.
-/
namespace Verif
open Lexer Tables LR ErrorWork

section
variable [Letters]

/-- What `parseFront` counts, for one round of the parser: whenever the round records an error with a place that was not there before, the
characters in front of the current token's end are counted, at least once. -/
theorem C73_counted (c : Cfg) (x : Step) (h : step c = .ok x) (m : Msg) (line column : Int) (literal : List Char)
    (hn : x.memory.err = some (.at m line column literal)) (ho : c.ast.err ≠ some (.at m line column literal))
    (t : Tok) (ht : x.memory.cur = some t) : x.memory.code.length - t.rest.length ≤ stepFront c := by
  have := step_counts h ⟨m, line, column, literal, hn, ho⟩
  unfold Ast.front at this
  rw [ht] at this
  exact this

/-- And nothing is counted for a round after which no error is recorded. -/
theorem C73_only (c : Cfg) (x : Step) (h : step c = .ok x) (he : x.memory.err = none) : stepFront c = 0 := step_quiet h he

/-- An identifier with `n + 1` colons behind: about `n²/2` characters are read to find the places of the errors. -/
theorem C73_quadratic (n : Nat) : n * n + 4 * n ≤ 2 * parseFront (newAST ('а' :: List.replicate (n + 1) ':')) :=
  colons_front n _ rfl

/-- So no linear bound holds. -/
theorem C73_violated : ¬ ∃ A B, ∀ code, parseFront (newAST code) ≤ A * code.length + B := by
  rintro ⟨A, B, h⟩
  have h1 := C73_quadratic (2 * A + 2 * B + 1)
  have h2 := h ('а' :: List.replicate (2 * A + 2 * B + 1 + 1) ':')
  rw [List.length_cons, List.length_replicate] at h2
  generalize parseFront (newAST ('а' :: List.replicate (2 * A + 2 * B + 1 + 1) ':')) = q at h1 h2
  nlinarith

/-- But it is never more than quadratic: whatever the text, and whatever `a` holds from before, no more is read than fifteen times the square of
its length and sixteen times its length. -/
theorem C73_at_most (a : Ast) : parseFront a ≤ 15 * (a.code.length * a.code.length) + 16 * a.code.length := by
  have := parse_credit a
  nlinarith

/-- For an accepted text nothing is read this way, so that the bound of `C71_linear` is all that is read.  Missing: texts with errors, for
which the claim is false. -/
theorem C73_accepted_partial (a a' : Ast) (h : parse a = .ret a') (he : a'.err = none) : parseFront a = 0 := by
  unfold parseFront
  cases hb : a.code.all isUnicodeSpace with
  | true => rfl
  | false =>
    obtain ⟨k, h1⟩ := parse_run hb h
    exact run_quiet (not_blank hb) _ _ _ (inv_init _ rfl) h1 he

end

/-- The count for a text with an error. -/
example : @parseFront stdLetters (newAST "Прервать;".toList) = 8 := by decide +kernel

/-- Two errors in one round: both variables of the second list are declared already, and twenty-three characters are read for each; then one of the third. -/
example : @parseFront stdLetters (newAST "Перем а, б; Перем а, б; Перем в, а;".toList) = 2 * 23 + 35 := by decide +kernel

/-- A round which records an error with a place: the second one for this text. -/
example : ∃ (c : Cfg) (x : Step) (t : Tok), @step stdLetters (initCfg (newAST "Прервать;".toList)) = .ok (.go c) ∧
    @step stdLetters c = .ok x ∧ x.memory.err = some (.at (.loopOp "Прервать".toList) 1 0 "Прервать".toList) ∧
    c.ast.err = none ∧ x.memory.cur = some t :=
  ⟨_, _, _, rfl, rfl, by decide +kernel, by decide +kernel, rfl⟩

/-- An accepted text. -/
example : ∃ a', @parse stdLetters (newAST "а = 1; Если а Тогда б(); КонецЕсли".toList) = .ret a' ∧ a'.err = none :=
  ⟨_, rfl, by decide +kernel⟩

end Verif
