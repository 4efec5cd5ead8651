import Verif.Proofs.Recase
import Verif.Props.Rename
import Verif.Props.Text
/-!
# Layout and letter case: C61

`SameButCase s s'` (`Spec/Recase.lean`): the texts differ in the case of letters only.  `Written false code ks` (`Spec/Text.lean`):
the text `code` consists of ways to write the tokens `ks`, with any layout between them.
-/
namespace Verif
open Spec Lexer LR

section
variable [Letters]

/-- **C61, tokens.** If two texts differ in letter case only, then every call of `Token.Next` returns the same kind of token or
the same error on both, with literals that differ in letter case only, and stops at the same place. -/
theorem C61_tokens {code code' : List Char} (h : SameButCase code code') (n : Nat) :
    (lexNext (afterCalls n (startTok code))).2 = (lexNext (afterCalls n (startTok code'))).2 ∧
    SameButCase (lexNext (afterCalls n (startTok code))).1.literal (lexNext (afterCalls n (startTok code'))).1.literal ∧
    SameButCase (lexNext (afterCalls n (startTok code))).1.rest (lexNext (afterCalls n (startTok code'))).1.rest := by
  have e : Recase.lowT (startTok code) = Recase.lowT (startTok code') := by
    show Tok.mk _ _ (Recase.lows code) _ = Tok.mk _ _ (Recase.lows code') _
    rw [Recase.sameButCase_iff.1 h]; rfl
  have h1 := Recase.lexNext_low (afterCalls n (startTok code))
  have h2 := Recase.lexNext_low (afterCalls n (startTok code'))
  rw [← Recase.afterCalls_low, e, Recase.afterCalls_low, h2] at h1
  injection h1 with h3 h4
  injection h3 with h5 _ h6 _
  exact ⟨h4.symm, Recase.sameButCase_iff.2 h5.symm, Recase.sameButCase_iff.2 h6.symm⟩

/-- Whether a text has tokens at all does not depend on letter case. -/
theorem C61_readable {code code' : List Char} (h : SameButCase code code') : (∃ l, TokensOf code l) ↔ ∃ l, TokensOf code' l := by
  have one : ∀ {code code' : List Char}, SameButCase code code' → (∃ l, TokensOf code l) → ∃ l, TokensOf code' l := by
    rintro code code' h ⟨l, hl⟩
    rcases tokens_or_error (startTok code') with h' | ⟨n, e, h'⟩
    · exact h'
    · rw [← (C61_tokens h n).1] at h'
      exact absurd h' (tokens_no_error hl n e)
  exact ⟨one h, one h.symm⟩

/-- **C61, layout.** Two texts that write the same tokens — in whatever layout, with whatever letter case of the keywords — give the
same tree and are both accepted or both rejected with the same complaint. -/
theorem C61_same (hL : ∀ c : Char, c.toNat ∈ whiteSpace → Letters.isL c = false) {code code' : List Char} {ks : List Key}
    (h : Written false code ks) (h' : Written false code' ks) :
    Renaming.none.Outcomes (parse (newAST code)) (parse (newAST code')) := by
  have e : ks.map Renaming.none.key = ks := by rw [show Renaming.none.key = id from funext Recase.key_none, List.map_id]
  exact C55_renamed hL Recase.none_ok (written_keys h) (by rw [e]; exact written_keys h')

theorem C61_same_accepts (hL : ∀ c : Char, c.toNat ∈ whiteSpace → Letters.isL c = false) {code code' : List Char} {ks : List Key}
    (h : Written false code ks) (h' : Written false code' ks) (M : Module) : Accepts code M ↔ Accepts code' M := by
  have one : ∀ {code code' : List Char}, Written false code ks → Written false code' ks → Accepts code M → Accepts code' M := by
    intro code code' h h' ha
    have e : ks.map Renaming.none.key = ks := by rw [show Renaming.none.key = id from funext Recase.key_none, List.map_id]
    have := C55_accepts hL Recase.none_ok (written_keys h) (by rw [e]; exact written_keys h') ha
    rwa [Recase.module_rename_none] at this
  exact ⟨one h h', one h' h⟩

theorem notBlank_word (hL : ∀ c : Char, c.toNat ∈ whiteSpace → Letters.isL c = false) {p w q : List Char} (h : Word w) :
    NotBlank (p ++ (w ++ q)) := by
  cases h with
  | @mk c w h _ =>
    refine ⟨c, by simp, fun hc => ?_⟩
    rcases h with h | rfl
    · rw [hL c hc] at h; cases h
    · revert hc; decide

/-- **C61, one keyword.** Let the tokeniser read the keyword `w` between `p` and `q`.  Written in any other case it is the same
program: the text is accepted with the same tree or is rejected as before.  (`PlainKeyword`: every keyword but `Выполнить`.) -/
theorem C61_keyword (hL : ∀ c : Char, c.toNat ∈ whiteSpace → Letters.isL c = false) {p w q w' : List Char} {n k : Nat}
    (h1 : (lexNext (afterCalls n (startTok (p ++ (w ++ q))))).2 = .ok (some k)) (hk : PlainKeyword k)
    (h2 : (lexNext (afterCalls n (startTok (p ++ (w ++ q))))).1.literal = w)
    (h3 : (lexNext (afterCalls n (startTok (p ++ (w ++ q))))).1.rest = q) (hw : SameButCase w w') (M : Module) :
    Accepts (p ++ (w ++ q)) M ↔ Accepts (p ++ (w' ++ q)) M := by
  have hs : SameButCase (p ++ (w ++ q)) (p ++ (w' ++ q)) :=
    (SameButCase.refl _).append (hw.append (SameButCase.refl _))
  by_cases ht : ∃ l, TokensOf (p ++ (w ++ q)) l
  · obtain ⟨l, ht⟩ := ht
    have h4 := Recase.recase_one (n := n) (t' := (lexNext (afterCalls n (startTok (p ++ (w ++ q))))).1) ht
      (by rw [← h1]) hk (p := p) (by rw [h2, h3]; rfl) (by rw [h2]; exact hw)
    rw [h3] at h4
    exact C61_same_accepts hL (tokens_written ht) h4 M
  · have ht' := mt (C61_readable hs).2 ht
    obtain ⟨v, hv⟩ := hk.1
    obtain ⟨_, _, _, -, -, hword, -, h5, -⟩ := C02_whole_words _ k h1 (.inr ⟨v, hv⟩)
    rw [← h5, h2] at hword
    exact ⟨fun ha => absurd ha (C33_lexical_error (notBlank_word hL hword) ht M),
      fun ha => absurd ha (C33_lexical_error (notBlank_word hL (Recase.word_same hw hword)) ht' M)⟩
end

/-! ## Examples -/

/-- The white space characters are not letters. -/
theorem std_white : ∀ c : Char, c.toNat ∈ whiteSpace → @Letters.isL stdLetters c = false := by
  intro c hc
  have h : ∀ n ∈ whiteSpace, stdIsL (Char.ofNat n) = false := by decide +kernel
  have := h _ hc
  rwa [Char.ofNat_toNat] at this

/-- Everything in the other case: the same tokens, although the names are other names now. -/
example : SameButCase "Если Не А Тогда б = \"Ы\" КонецЕсли".toList "еСЛИ нЕ а тОГДА Б = \"ы\" кОНЕЦЕСЛИ".toList := by
  unfold SameButCase; decide +kernel

/-- `Тогда` is the fourth token; written in another case the tree is the same one. -/
example (M : Module) : 
    @Accepts stdLetters ("Если Не А ".toList ++ ("Тогда".toList ++ " б = 1 КонецЕсли".toList)) M ↔
    @Accepts stdLetters ("Если Не А ".toList ++ ("ТОГДА".toList ++ " б = 1 КонецЕсли".toList)) M :=
  @C61_keyword stdLetters std_white "Если Не А ".toList "Тогда".toList " б = 1 КонецЕсли".toList "ТОГДА".toList 3 57352
    (by decide +kernel) ⟨⟨"тогда", by decide⟩, by decide⟩ (by decide +kernel) (by decide +kernel) (by unfold SameButCase; decide +kernel) M

example : ∃ M, @Accepts stdLetters ("Если Не А ".toList ++ ("Тогда".toList ++ " б = 1 КонецЕсли".toList)) M :=
  ⟨_, @accepts_modOf stdLetters _ (by decide +kernel)⟩

/-- `Выполнить` is kept as written. -/
example : ∃ M M', M ≠ M' ∧ @Accepts stdLetters "Выполнить(а)".toList M ∧ @Accepts stdLetters "ВЫПОЛНИТЬ(а)".toList M' := by
  refine ⟨_, _, ?_, @accepts_modOf stdLetters _ (by decide +kernel), @accepts_modOf stdLetters _ (by decide +kernel)⟩
  decide +kernel

/-- Other layout, other case of keywords, and a complaint that is the same. -/
example : @Written stdLetters false "Прервать ; Возврат".toList [word .kBreak, word .semi, word .kReturn] ∧
    @Written stdLetters false " прервать // а\n#б\n\t; ВОЗВРАТ".toList [word .kBreak, word .semi, word .kReturn] :=
  ⟨(@C49_tokens stdLetters _ _).1 (@keysOf_sound stdLetters 100 _ _ (by decide +kernel)),
   (@C49_tokens stdLetters _ _).1 (@keysOf_sound stdLetters 100 _ _ (by decide +kernel))⟩

end Verif
