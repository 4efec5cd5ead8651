import Verif.Proofs.LineEnds
import Verif.Props.Rename
import Verif.Props.Recase
import Verif.Props.Reprint
/-!
# Line ends: C67

`withCR code` (`Spec/LineEnds.lean`) is the text with a carriage return in front of every line feed.
-/
namespace Verif
open Spec Lexer LR

section
variable [Letters]

/-- **C67, tokens.** Every call of `Token.Next` returns the same kind of token or the same error on the text with the other line
ends, the literal with the other line ends, and stops at the same line and column. -/
theorem C67_tokens (code : List Char) (n : Nat) :
    let t := (lexNext (afterCalls n (startTok code))).1
    let t' := (lexNext (afterCalls n (startTok (withCR code)))).1
    (lexNext (afterCalls n (startTok (withCR code)))).2 = (lexNext (afterCalls n (startTok code))).2 ∧
    t'.literal = withCR t.literal ∧ t'.rest = withCR t.rest ∧ getPosition (withCR code) t'.rest = getPosition code t.rest := by
  intro t t'
  have h := LineEnds.lexNext_cr (afterCalls n (startTok code))
  have e : TextMap.mT withCR (startTok code) = startTok (withCR code) := rfl
  rw [← LineEnds.afterCalls_cr, e] at h
  have ht : t' = TextMap.mT withCR t := by show (lexNext _).1 = _; rw [h]
  refine ⟨by rw [h], by rw [ht]; rfl, by rw [ht]; rfl, ?_⟩
  rw [ht]
  refine LineEnds.position_cr ?_
  have := Recase.afterCalls_rest (n + 1) (startTok code)
  rwa [afterCalls_succ] at this

/-- Only string constants contain line ends. -/
theorem C67_names (t : Tok) {k : Nat} (h : (lexNext t).2 = .ok (some k)) (hk : k ≠ tString) : '\n' ∉ (lexNext t).1.literal := by
  have e := LineEnds.lexNext_lit h hk
  intro hm
  have := congrArg List.length e
  rw [LineEnds.cr_length] at this
  have := List.count_pos_iff.2 hm
  omega

/-- **C67.** `Parse` does on the text with the other line ends what it does on the text, whatever the text is: the tree differs in the
line ends only, the same complaint is made at the same line, or it panics in the same way. -/
theorem C67_parse (code : List Char) : SameButLineEnds (parse (newAST code)) (parse (newAST (withCR code))) := by
  have hall := LineEnds.all_cr isUnicodeSpace (by decide) (by decide) code
  unfold parse
  show SameButLineEnds (if code.all isUnicodeSpace then _ else _) (if (withCR code).all isUnicodeSpace then _ else _)
  rw [hall]
  by_cases h : code.all isUnicodeSpace = true
  · rw [if_pos h, if_pos h]
    exact .ret rfl rfl
  · rw [if_neg h, if_neg h]
    have hc : code ≠ [] := by rintro rfl; exact h rfl
    have hd := TextMap.driver LineEnds.ok hc
    have hf := parse_final (newAST code) hc
    show SameButLineEnds (match run (fuel code.length) (initCfg (newAST code)) with | .error p => _ | .ok none => _ | .ok (some (_, a')) => _)
      (match run (fuel (withCR code).length) (initCfg (newAST (withCR code))) with | .error p => _ | .ok none => _ | .ok (some (_, a')) => _)
    rw [hd]
    change match run (fuel code.length) (initCfg (newAST code)) with | _ => _ at hf
    cases hr : run (fuel code.length) (initCfg (newAST code)) with
    | error p => exact .panic p
    | ok x =>
      cases x with
      | none =>
        rw [show (newAST code).code = code from rfl, hr] at hf
        exact hf.elim
      | some x =>
        refine .ret rfl ?_
        show Option.map _ _ = _
        rw [show TextMap.mE withCR = Err.withCR from funext LineEnds.err_cr]

/-- **C67, accepted texts.** If the text is accepted then so is the text with the other line ends, and in the tree only the string
constants differ. -/
theorem C67_accepts (hL : ∀ c : Char, c.toNat ∈ whiteSpace → Letters.isL c = false) {code : List Char} {M : Module}
    (h : Accepts code M) : Accepts (withCR code) (M.rename Renaming.crStrings) := by
  by_cases hb : ∃ ks, HasKeys code ks
  · obtain ⟨ks, hk⟩ := hb
    exact C55_accepts hL LineEnds.crStrings_ok hk (LineEnds.hasKeys_cr hk) h
  · have hn : ¬ NotBlank code := by
      intro hn
      refine C33_lexical_error hn ?_ M h
      rintro ⟨l, hl⟩
      exact hb ⟨_, l, hl, rfl⟩
    obtain rfl := accepts_blank hn h
    refine C17_blank _ fun c hc => ?_
    by_contra hw
    exact hn ⟨c, LineEnds.mem_cr (by rintro rfl; exact hw (by decide)) hc, hw⟩

/-- The text is accepted if and only if the text with the other line ends is. -/
theorem C67_accepts_iff (code : List Char) : (∃ M, Accepts (withCR code) M) ↔ ∃ M, Accepts code M := by
  have h := C67_parse code
  constructor
  · rintro ⟨M, a, h1, h2, -⟩
    rw [h1] at h
    cases hx : parse (newAST code) with
    | panic p => rw [hx] at h; cases h
    | loops => rw [hx] at h; cases h
    | ret a' =>
      rw [hx] at h
      cases h with
      | ret g1 g2 =>
        rw [h2] at g2
        refine ⟨_, a', hx, ?_, rfl⟩
        cases he : a'.err with
        | none => rfl
        | some e => rw [he] at g2; cases g2
  · rintro ⟨M, a, h1, h2, -⟩
    rw [h1] at h
    cases hx : parse (newAST (withCR code)) with
    | panic p => rw [hx] at h; cases h
    | loops => rw [hx] at h; cases h
    | ret a' =>
      rw [hx] at h
      cases h with
      | ret g1 g2 => exact ⟨_, a', hx, by rw [g2, h2]; rfl, rfl⟩
end

/-! ## Examples -/

/-- A comment, a preprocessor line and a string constant of two lines. -/
def crText : List Char := "А = 1; // б\n#в\nГ = \"д\n |е\"; Ж(\"з\")".toList

example : withCR crText = "А = 1; // б\r\n#в\r\nГ = \"д\r\n |е\"; Ж(\"з\")".toList := by decide +kernel

example : ∃ M, @Accepts stdLetters crText M ∧ @Accepts stdLetters (withCR crText) (M.rename Renaming.crStrings) ∧
    M.rename Renaming.crStrings ≠ M := by
  have h := @accepts_modOf stdLetters crText (by decide +kernel)
  exact ⟨_, h, @C67_accepts stdLetters std_white _ _ h, by decide +kernel⟩

/-- The error a call of `Parse` returns. -/
def errOf (code : List Char) : Option Err :=
  match @parse stdLetters (newAST code) with
  | .ret a => a.err
  | _ => none

/-- The same place in both texts … -/
example : errOf "а = 1;\n б = ;".toList = errOf "а = 1;\r\n б = ;".toList ∧ errOf "а = 1;\n б = ;".toList ≠ none := by decide +kernel

/-- … but for a string constant of several lines the reported column is the end of the token less its length, and that counts the
carriage returns. -/
example : errOf "а \"б\n|в\"".toList = some (.at .syntaxError 2 (-1) "б\n|в".toList) ∧
    errOf "а \"б\r\n|в\"".toList = some (.at .syntaxError 2 (-2) "б\r\n|в".toList) := by decide +kernel

end Verif
