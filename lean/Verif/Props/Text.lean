import Verif.Proofs.TextInv
import Verif.Props.Tokens
import Verif.Props.Program
/-!
# Programs written as texts: C16, C49

`Written false code ks` (Spec/Text.lean): the text `code` consists of ways to write the tokens `ks`, with any layout (white
space, comments, `#` lines) between them.
-/
namespace Verif
open Spec Lexer LR

section
variable [Letters]

/-- A program written with any layout, any letter case of the keywords, is accepted with its tree.  Missing: as in
`C16_accepted_partial`. -/
theorem C16_any_layout_partial (code : List Char) (P : Program) (hb : NotBlank code) (hw : Written false code P.toks) (hg : P.grouped)
    (hl : P.Lawful) (hc : P.clean) : Accepts code P.tree :=
  C16_accepted_partial code P hb ⟨written_keys hw, hg⟩ hl hc

/-- Layout and spelling of keywords do not matter: what is accepted in one layout is accepted in every other, with the same
tree.  Missing: programs with blocks that begin with a separator; `C61_same` has them too. -/
theorem C16_layout_irrelevant_partial (code code' : List Char) (M : Module) (P : Program) (hb : NotBlank code) (hb' : NotBlank code')
    (hw : Written false code P.toks) (hw' : Written false code' P.toks) (hg : P.grouped) (hc : P.clean) (ha : Accepts code M) :
    Accepts code' M := by
  have hA := accepted hb ⟨written_keys hw, hg⟩ ha
  rw [Program.exact hc hA.shows]
  exact accepts_of hb' ⟨written_keys hw', hg⟩ ⟨hc, hA.breaks, hA.throws, hA.returns, hA.colons, hA.distinct, hA.ordered⟩
end

/-! ## C49 -/

section
variable [Letters]

/-- The tokeniser finds the tokens `ks` in a text if and only if the text is a way to write them. -/
theorem C49_tokens (code : List Char) (ks : List Key) : HasKeys code ks ↔ Written false code ks := by
  refine ⟨?_, written_keys⟩
  rintro ⟨l, h, rfl⟩
  exact tokens_written h

/-- A text is a way to write one sequence of tokens at most. -/
theorem C49_unique {code : List Char} {ks ks' : List Key} (h : Written false code ks) (h' : Written false code ks') : ks = ks' := by
  obtain ⟨l, h1, rfl⟩ := written_keys h
  obtain ⟨l', h2, rfl⟩ := written_keys h'
  rw [tokens_unique h1 h2]

theorem tokens_or_error (t : Tok) : (∃ l, Tokens t l) ∨ ∃ n e, (lexNext (afterCalls n t)).2 = .error e := by
  generalize hm : t.rest.length = m
  induction m using Nat.strongRecOn generalizing t with
  | _ m ih =>
    rcases hx : lexNext t with ⟨t', _ | _ | k⟩
    · exact .inr ⟨0, _, congrArg Prod.snd hx⟩
    · exact .inl ⟨[], .eof (congrArg Prod.snd hx)⟩
    · have hlt : t'.rest.length < t.rest.length := by
        rcases C01_progress t with h | h
        · rw [hx] at h; cases h
        · rwa [hx] at h
      rcases ih _ (by omega) t' rfl with ⟨l, hl⟩ | ⟨n, e, h⟩
      · exact .inl ⟨_, .next hx hl⟩
      · refine .inr ⟨n + 1, e, ?_⟩
        unfold afterCalls
        rwa [hx]

theorem tokens_no_error {t : Tok} {l : List (Nat × Tok)} (h : Tokens t l) : ∀ n e, (lexNext (afterCalls n t)).2 ≠ .error e := by
  induction h with
  | @eof t h =>
    intro n e he
    cases n with
    | zero => rw [afterCalls, h] at he; cases he
    | succ n => rw [afterCalls, C01_eof_sticky t h n] at he; cases he
  | @next t t' k l hx _ ih =>
    intro n e he
    cases n with
    | zero => rw [afterCalls, hx] at he; cases he
    | succ n => rw [afterCalls, hx] at he; exact ih n e he

/-- The tokeniser reports an error for exactly those texts that are not a way to write tokens. -/
theorem C49_error (code : List Char) :
    (∃ n e, (lexNext (afterCalls n (startTok code))).2 = .error e) ↔ ∀ ks, ¬ Written false code ks := by
  constructor
  · rintro ⟨n, e, h⟩ ks hw
    obtain ⟨l, h1, -⟩ := written_keys hw
    exact tokens_no_error h1 n e h
  · intro h
    rcases tokens_or_error (startTok code) with ⟨l, hl⟩ | he
    · exact absurd (tokens_written hl) (h _)
    · exact he

/-- What is accepted is a way to write a program, and only one program. -/
theorem C49_accepted {code : List Char} {M : Module} (hb : NotBlank code) (h : Accepts code M) :
    ∃ P : Program, Written false code P.toks ∧ P.grouped ∧ P.shows M ∧ ∀ P' : Program, Written false code P'.toks → P'.grouped → P' = P := by
  obtain ⟨P, h1, h2, h3, h4⟩ := C30_everywhere code M hb h
  exact ⟨P, (C49_tokens _ _).1 h1, h2, h3, fun P' h => h4 P' (written_keys h)⟩
end

/-- A text with comments, a `#` line and keywords in mixed case:
```
#Область А
// комментарий
 ЕСЛИ	а="x""y" тогда // ещё
а.если=1.5 КонецЕсли //
```
written as layout, token, layout, token, … -/
def layoutText : List Char :=
  "#Область А\n// комментарий\n ".toList ++ ("ЕСЛИ".toList ++ (['\t'] ++ ("а".toList ++ ([] ++ (['='] ++ ([] ++ ("\"x\"\"y\"".toList ++
  ([' '] ++ ("тогда".toList ++ ((' ' :: "// ещё\n".toList) ++ ("а".toList ++ ([] ++ (['.'] ++ ([] ++ ("если".toList ++ ([] ++ (['='] ++
  ([] ++ ("1.5".toList ++ ([' '] ++ ("КонецЕсли".toList ++ [' ', '/', '/'])))))))))))))))))))))

def layoutProgram : Program :=
  single (.ifS (.bin .eq (.path (.one (.name "а".toList))) (.simple (.str "x\"\"y".toList)))
    (.body (.one (.assign (.dot (.one (.name "а".toList)) (.name "если".toList)) (.simple (.num ⟨false, 6755399441055744, -52⟩))))) .nil .none)

section
variable [Letters]

theorem layout_written : Written false layoutText layoutProgram.toks := by
  have sp : Blank ' ' := (isSpace_iff _).1 (by decide)
  have blank : Layout [' '] := .blank sp .nil
  have noKey : KindOf "а".toList identNumber := .ident ((keywords_none _).1 (by decide +kernel))
  refine .next ?_ (.keyword (rus_word (by decide) (by decide))
    (.keyword (k := Terminal.kIf.kind) (by decide +kernel)) (by decide)) (wordEnds_ascii (c := '\t') (by decide) (by decide)) ?_
  · exact .hash (t := "Область А".toList) (by decide) (.comment (t := " комментарий".toList) (by decide) blank)
  refine .next (.blank ((isSpace_iff _).1 (by decide)) .nil) (.name (rus_word (by decide) (by decide)) (.inr noKey))
    (wordEnds_ascii (c := '=') (by decide) (by decide)) ?_
  refine .next .nil (.mark (t := .kEQUAL) (by decide)) (fun h => absurd h (by decide)) ?_
  refine .next .nil (.string (s := "x\"\"y".toList) ?_) ?_ ?_
  · exact .plain (by decide) (by decide) (.quote (.plain (by decide) (by decide) .nil))
  · exact noQuote_blank (by decide) (noQuote_cons (c := 'т') (by rw [← isSpace_iff]; decide) (by decide))
  refine .next blank (.keyword (rus_word (by decide) (by decide))
    (.keyword (k := Terminal.kThen.kind) (by decide +kernel)) (by decide)) (wordEnds_ascii (c := ' ') (by decide) (by decide)) ?_
  refine .next (.blank sp (.comment (t := " ещё".toList) (by decide) .nil))
    (.name (rus_word (by decide) (by decide)) (.inr noKey)) (wordEnds_ascii (c := '.') (by decide) (by decide)) ?_
  refine .next .nil (.mark (t := .dot) (by decide)) (fun h => absurd h (by decide)) ?_
  refine .next .nil (.name (rus_word (by decide) (by decide)) (.inl rfl))
    (wordEnds_ascii (c := '=') (by decide) (by decide)) ?_
  refine .next .nil (.mark (t := .kEQUAL) (by decide)) (fun h => absurd h (by decide)) ?_
  refine .next .nil (.number (.frac (s := ['1']) (f := ['5']) (by decide) (by simp [Digit]) (by simp [Digit]))
    (by decide +kernel)) (numberEnds_ascii (c := ' ') (by decide) (by decide) (by decide)) ?_
  refine .next blank (.keyword (rus_word (by decide) (by decide))
    (.keyword (k := Terminal.kEndIf.kind) (by decide +kernel)) (by decide)) (wordEnds_ascii (c := ' ') (by decide) (by decide)) ?_
  exact .done (.comment (w := [' ']) (t := []) blank (by decide))

theorem layout_accepted : Accepts layoutText layoutProgram.tree := by
  refine C16_any_layout_partial _ _ ((notBlank_iff _).2 (by decide +kernel)) layout_written ?_ ⟨?_, ?_, ?_, ?_, ?_, ?_⟩ ?_
  · simp [layoutProgram, single, Program.grouped, Program.funcs, Block.grouped, Body.grouped, Stmt.grouped, Elifs.grouped, Else.grouped,
      Path.grouped, Ident.grouped, Expr.grouped, Simple.grouped, Expr.closes, Expr.opens]
  · simp [layoutProgram, single, Program.loopsOk, Program.blocks, Program.funcs, Block.loopsOk, Body.loopsOk, Stmt.loopsOk, Elifs.loopsOk, Else.loopsOk]
  · simp [layoutProgram, single, Program.throwsOk, Program.blocks, Program.funcs, Block.throwsOk, Body.throwsOk, Stmt.throwsOk, Elifs.throwsOk, Else.throwsOk]
  · simp [layoutProgram, single, Program.returnsOk, Program.funcs, Block.returnsOk, Body.returnsOk, Stmt.returnsOk, Elifs.returnsOk, Else.returnsOk]
  · simp [layoutProgram, single, Program.colonsOk, Program.blocks, Program.funcs, Block.colonsOk, Body.colonsOk, Stmt.colonsOk, Elifs.colonsOk, Else.colonsOk]
  · simp [layoutProgram, single, Program.distinct, Program.globals, Program.funcs]
  · exact ⟨[], [], rfl⟩
  · simp [layoutProgram, single, Program.clean, Program.funcs, Block.clean, Body.clean, Stmt.clean, Elifs.clean, Else.clean]
end

/-- The same by computation. -/
example : @Accepts stdLetters layoutText layoutProgram.tree :=
  @accepts_eq stdLetters _ _ (by decide +kernel) (by decide +kernel)

/-- `layoutText` meets the hypotheses of C49, and a text with an open string that of `C49_error`. -/
example : @HasKeys stdLetters layoutText layoutProgram.toks := (@C49_tokens stdLetters _ _).2 (@layout_written stdLetters)
example : ∀ ks, ¬ @Written stdLetters false "а = \"б".toList ks :=
  (@C49_error stdLetters _).1 ⟨2, _, (by decide +kernel : _ = Except.error LexErr.unexpectedEOF)⟩

end Verif
