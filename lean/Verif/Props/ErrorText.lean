import Verif.Proofs.ErrorText
import Verif.Props.LineEnds
/-!
# The texts of errors: C69

`errText` (`ErrorText.lean`) is what `Error()` returns on an error of `Parse`.  `isPrint` stands for `strconv.IsPrint`; it may be any
function.
-/
namespace Verif
open Spec Lexer ErrorText

/-- **C69.** From the text of an error one can tell the error: two errors with the same text have the same message, line, column and
literal. -/
theorem C69_text (isPrint : Char → Bool) {e e' : Err} {t : List Char} (h : errText isPrint e = some t) (h' : errText isPrint e' = some t) :
    e = e' := err_inj h h'

/-- All errors but those of `ParseFloat` and `time.Parse` have a text in the model. -/
theorem C69_some (isPrint : Char → Bool) (e : Err) (h1 : e ≠ .lex .badNumber) (h2 : e ≠ .lex .badDate) : ∃ t, errText isPrint e = some t := by
  cases e with
  | «at» m l c lit => exact ⟨_, rfl⟩
  | lex e =>
    cases e with
    | badNumber => exact absurd rfl h1
    | badDate => exact absurd rfl h2
    | _ => exact ⟨_, rfl⟩

/-- **C69, place.** The text of an error with a place gives the line and the column in decimal, and then the literal between quotation
marks. -/
theorem C69_place (isPrint : Char → Bool) (m : Msg) (line column : Nat) (literal : List Char) :
    ∃ t p, errText isPrint (.at m line column literal) = some t ∧
      t = p ++ ". line: ".toList ++ Nat.toDigits 10 line ++ ", column: ".toList ++ Nat.toDigits 10 column ++ " (unexpected literal: ".toList ++
        quote isPrint literal ++ [')'] := by
  have e : ∀ n : Nat, showInt n = Nat.toDigits 10 n := by
    intro n
    unfold showInt
    rw [if_neg (by omega)]
    rfl
  refine ⟨_, msgText isPrint m, rfl, ?_⟩
  rw [e, e]
  simp only [List.append_assoc]

/-- A quotation shows printable characters as they are. -/
theorem C69_quote (isPrint : Char → Bool) (s : List Char) (h : ∀ c ∈ s, isPrint c = true ∧ c ≠ '"' ∧ c ≠ '\\') :
    quote isPrint s = '"' :: (s ++ ['"']) := by
  unfold quote
  have : s.flatMap (escape isPrint) = s := by
    induction s with
    | nil => rfl
    | cons c s ih =>
      have hc := h c List.mem_cons_self
      rw [List.flatMap_cons, ih (fun d hd => h d (List.mem_cons_of_mem _ hd))]
      unfold escape
      rw [if_neg (by rintro (h | h); exacts [hc.2.1 h, hc.2.2 h]), if_pos hc.1]
      rfl
  rw [this]

/-- **C69, one line.** The text of an error has printable characters only, whatever the literal it quotes is made of: no line ends, no
control characters. -/
theorem C69_printable (isPrint : Char → Bool) {e : Err} {t : List Char} (h : errText isPrint e = some t) :
    ∀ c ∈ t, isPrint c = true ∨ 0x20 ≤ c.toNat ∧ c.toNat < 0x7f := err_printable h

/-! ## Examples -/

/-- An approximation of `strconv.IsPrint`. -/
def printB (c : Char) : Bool := 0x20 ≤ c.toNat && c.toNat != 0x7f

def textOf (code : String) : Option String := (errOf code.toList).bind fun e => (errText printB e).map String.ofList

example : textOf "а = 1;\n б = ;" = some "syntax error. line: 2, column: 5 (unexpected literal: \";\")" := by decide +kernel
example : textOf "Прервать" = some "operator \"Прервать\" can only be used inside a loop. line: 1, column: 0 (unexpected literal: \"Прервать\")" := by
  decide +kernel
example : textOf "а \"б\n|\"\"в\"" = some "syntax error. line: 2, column: -1 (unexpected literal: \"б\\n|\\\"\\\"в\")" := by decide +kernel
example : textOf "а = 1 $" = some "get token error: syntax error \"$\"" := by decide +kernel

end Verif
