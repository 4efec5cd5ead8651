import Verif.Proofs.OnlyTokens
import Verif.Props.Program
import Verif.Props.Parse
/-!
# Only the tokens matter: C33

`Tokens`, `TokensOf` are in `Spec/Tokens.lean`, `whiteSpace` in `Spec/Space.lean`.
-/
namespace Verif
open Spec Lexer LR

/-- An error without its place in the text: message and literal of the token. -/
def Spec.errText : Err → Option Msg × List Char
  | .lex _ => (none, [])
  | .at m _ _ literal => (some m, literal)

/-- Two calls of `Parse` with the same observable outcome: both return, with the same tree, and both succeed, or both fail with
the same message about a token with the same literal; or both panic in the same way. -/
inductive Spec.SameOutcome : Outcome → Outcome → Prop
  | ret {a a' : Ast} : a.mod = a'.mod → a.err.map errText = a'.err.map errText → SameOutcome (.ret a) (.ret a')
  | panic (p : Panic) : SameOutcome (.panic p) (.panic p)

/-- The number and the literal of each token. -/
def Spec.kindsAndLiterals (l : List (Nat × Tok)) : List (Nat × List Char) := l.map fun p => (p.1, p.2.literal)

variable [Letters]

omit [Letters] in
theorem eErr_text {e e' : Option Err} (h : e.map eErr = e'.map eErr) : e.map errText = e'.map errText := by
  have : ∀ e, errText e = errText (eErr e) := by intro e; cases e <;> rfl
  have hf : errText = errText ∘ eErr := funext this
  rw [hf, ← Option.map_map, ← Option.map_map, h]

/-- White space characters that are not letters are not tokens. -/
theorem tokens_blank (hL : ∀ c : Char, c.toNat ∈ whiteSpace → Letters.isL c = false) {code : List Char} {l : List (Nat × Tok)}
    (ht : TokensOf code l) (hb : ¬ NotBlank code) : l = [] := by
  have hw : ∀ c ∈ code, c.toNat ∈ whiteSpace := by
    intro c hc
    by_contra hn
    exact hb ⟨c, hc, hn⟩
  cases ht with
  | eof _ => rfl
  | @next _ t' k l h _ =>
    exfalso
    have hsub : skipTrivia (startTok code).rest <:+ code := skipTrivia_suffix code
    unfold lexNext at h
    dsimp only at h
    generalize skipTrivia (startTok code).rest = s at h hsub
    cases s with
    | nil => injection h with _ h; injection h with h; cases h
    | cons c r =>
      have hc := hw c (hsub.subset (List.mem_cons_self ..))
      have hl : isLetter c = false := by
        unfold isLetter
        rw [hL c hc]
        have : ∀ n ∈ whiteSpace, n ≠ 95 := by decide
        have h95 := this _ hc
        simp only [Bool.false_or, beq_eq_false_iff_ne, ne_eq]
        rintro rfl
        exact h95 rfl
      have key : ∀ n ∈ whiteSpace, ∀ m ∈ [46, 39, 61, 34, 60, 62, 38, 126, 47, 59, 40, 41, 44, 45, 43, 42, 63, 91, 93, 58, 37, 48, 49, 50, 51, 52, 53, 54, 55, 56, 57],
          n ≠ m := by decide
      have hm : ∀ d : Char, d.toNat ∈ [46, 39, 61, 34, 60, 62, 38, 126, 47, 59, 40, 41, 44, 45, 43, 42, 63, 91, 93, 58, 37, 48, 49, 50, 51, 52, 53, 54, 55, 56, 57] →
          c ≠ d := by
        rintro d hd rfl
        exact key _ hc _ hd rfl
      have hdig : isDigit c = false := by
        rw [Bool.eq_false_iff]
        intro hd
        unfold isDigit at hd
        have h10 : c.toNat < 48 ∨ 57 < c.toNat := by
          have : ∀ n ∈ whiteSpace, n < 48 ∨ 57 < n := by decide
          exact this _ hc
        simp only [Bool.and_eq_true, decide_eq_true_eq] at hd
        have h1 : (48 : Nat) ≤ c.toNat := hd.1
        have h2 : c.toNat ≤ 57 := hd.2
        omega
      have hp : isPunct c = false := by
        unfold isPunct
        simp only [Bool.or_eq_false_iff, beq_eq_false_iff_ne]
        refine ⟨⟨⟨⟨⟨⟨⟨⟨⟨⟨⟨⟨?_, ?_⟩, ?_⟩, ?_⟩, ?_⟩, ?_⟩, ?_⟩, ?_⟩, ?_⟩, ?_⟩, ?_⟩, ?_⟩, ?_⟩ <;> exact hm _ (by decide)
      unfold nextRaw at h
      dsimp only at h
      rw [if_neg (by rw [hl]; decide), if_neg (hm _ (by decide)), if_neg (by rw [hdig]; decide), if_neg (hm _ (by decide)),
        if_neg (by rw [hp]; decide), if_neg (hm _ (by decide)), if_neg (hm _ (by decide)), if_neg (hm _ (by decide)),
        if_neg (hm _ (by decide)), if_neg (hm _ (by decide)), if_neg (hm _ (by decide))] at h
      injection h with _ h
      cases h

/-- **C17**, texts without any token (white space, comments, regions): accepted, with an empty module. -/
theorem C17_no_tokens {code : List Char} (h : TokensOf code []) : Accepts code ⟨[], []⟩ := by
  by_cases hb : NotBlank code
  · have hs : Spells code ⟨[], .empty⟩ := ⟨⟨[], h, rfl⟩, by
      simp [Program.grouped, Program.funcs, Block.grouped]⟩
    refine accepts_of hb hs ⟨?_, ?_, ?_, ?_, ?_, ?_, ?_⟩ <;>
      simp [Program.clean, Program.breaksOk, Program.throwsOk, Program.returnsOk, Program.colonsOk, Program.distinct, Program.ordered,
        Program.funcs, Program.blocks, Program.globals, Block.clean, blocksBreaksOk, Block.breaksOk, Block.throwsOk, Block.returnsOk, Block.colonsOk]
  · refine C17_blank code fun c hc => ?_
    by_contra hn
    exact hb ⟨c, hc, hn⟩

theorem same_of_accepts {code code' : List Char} {M : Module} (h : Accepts code M) (h' : Accepts code' M) :
    SameOutcome (parse (newAST code)) (parse (newAST code')) := by
  obtain ⟨a, h1, h2, h3⟩ := h
  obtain ⟨a', h1', h2', h3'⟩ := h'
  rw [h1, h1']
  exact .ret (h3.trans h3'.symm) (by rw [h2, h2'])

/-- **C33.** Two texts without lexical errors whose tokens have the same numbers and literals (then also the same values) have
the same outcome: the same tree, both accepted or both rejected with the same message.  (No white space character is a letter in
Unicode; the letter table is a parameter of the model, hence `hL`.)  A text with a lexical error is always rejected:
`C33_lexical_error`. -/
theorem C33_same_tokens (hL : ∀ c : Char, c.toNat ∈ whiteSpace → Letters.isL c = false) {code code' : List Char}
    {l l' : List (Nat × Tok)} (ht : TokensOf code l) (ht' : TokensOf code' l') (hk : kindsAndLiterals l = kindsAndLiterals l') :
    SameOutcome (parse (newAST code)) (parse (newAST code')) := by
  have empty : ∀ {code code' : List Char} {l l' : List (Nat × Tok)}, TokensOf code l → TokensOf code' l' →
      kindsAndLiterals l = kindsAndLiterals l' → ¬ NotBlank code → SameOutcome (parse (newAST code)) (parse (newAST code')) := by
    intro code code' l l' ht ht' hk hb
    obtain rfl := tokens_blank hL ht hb
    have : l' = [] := List.map_eq_nil_iff.1 hk.symm
    subst this
    exact same_of_accepts (C17_no_tokens ht) (C17_no_tokens ht')
  by_cases hb : NotBlank code
  · by_cases hb' : NotBlank code'
    · have h1 := (notBlank_iff code).1 hb
      have h2 := (notBlank_iff code').1 hb'
      have n1 : code ≠ [] := by rintro rfl; cases h1
      have n2 : code' ≠ [] := by rintro rfl; cases h2
      have h := run_same n1 n2 ht ht' hk
      unfold parse
      rw [if_neg (by show ¬ code.all isUnicodeSpace = true; rw [h1]; decide),
        if_neg (by show ¬ code'.all isUnicodeSpace = true; rw [h2]; decide)]
      have f1 := parse_final (newAST code) n1
      have f2 := parse_final (newAST code') n2
      change eR (run (fuel (newAST code).code.length) (initCfg (newAST code))) =
        eR (run (fuel (newAST code').code.length) (initCfg (newAST code'))) at h
      revert h f1 f2
      rcases run (fuel (newAST code).code.length) (initCfg (newAST code)) with p | (- | ⟨k, a⟩) <;>
        rcases run (fuel (newAST code').code.length) (initCfg (newAST code')) with p' | (- | ⟨k', a'⟩)
      · intro _ _ h; injection h with h; subst h; exact .panic p
      · intro _ f; exact f.elim
      · intro _ _ h; cases h
      · intro f; exact f.elim
      · intro f; exact f.elim
      · intro f; exact f.elim
      · intro _ _ h; cases h
      · intro _ f; exact f.elim
      · intro _ _ h
        injection h with h
        injection h with h
        injection h with h h'
        unfold eA at h'
        injection h' with _ h4 h5
        exact .ret h5 (eErr_text h4)
    · have := empty ht' ht hk.symm hb'
      revert this
      generalize parse (newAST code) = x
      generalize parse (newAST code') = y
      rintro (⟨h, g⟩ | _)
      · exact .ret h.symm g.symm
      · exact .panic _
  · exact empty ht ht' hk hb

/-- The same, for success: the same trees. -/
theorem C33_accepts (hL : ∀ c : Char, c.toNat ∈ whiteSpace → Letters.isL c = false) {code code' : List Char}
    {l l' : List (Nat × Tok)} (ht : TokensOf code l) (ht' : TokensOf code' l') (hk : kindsAndLiterals l = kindsAndLiterals l')
    (M : Module) : Accepts code M ↔ Accepts code' M := by
  have one : ∀ {x y : Outcome}, SameOutcome x y → (∃ a, x = .ret a ∧ a.err = none ∧ a.mod = M) → ∃ a, y = .ret a ∧ a.err = none ∧ a.mod = M := by
    rintro x y hs ⟨a, rfl, h2, h3⟩
    cases hs with
    | @ret _ a' h4 h5 =>
      rw [h2] at h5
      exact ⟨a', rfl, Option.map_eq_none_iff.1 h5.symm, h4 ▸ h3⟩
  exact ⟨one (C33_same_tokens hL ht ht' hk), one (C33_same_tokens hL ht' ht hk.symm)⟩

/-- A text with a lexical error is rejected (unless it is blank). -/
theorem C33_lexical_error {code : List Char} (hb : NotBlank code) (hn : ¬∃ l, TokensOf code l) (M : Module) : ¬ Accepts code M := by
  rintro ⟨a, h1, h2, -⟩
  obtain ⟨l, -, hl, -⟩ := C15_sound (newAST code) a ((notBlank_iff code).1 hb) h1 h2
  exact hn ⟨l, hl⟩

end Verif

/-! ## Examples -/
namespace Verif
open Spec Lexer LR

/-- Up to `n` tokens (for examples). -/
def toksF [Letters] : Nat → Tok → Option (List (Nat × Tok))
  | 0, _ => none
  | n + 1, t => match lexNext t with
    | (_, .ok none) => some []
    | (t', .ok (some k)) => (toksF n t').map ((k, t') :: ·)
    | _ => none

theorem toksF_sound [Letters] : ∀ {n t l}, toksF n t = some l → Tokens t l
  | 0, _, _, h => by simp [toksF] at h
  | n + 1, t, l, h => by
    unfold toksF at h
    split at h
    · next e => injection h with h; subst h; exact .eof (by rw [e])
    · next t' k e =>
      obtain ⟨l', h1, h2⟩ := Option.map_eq_some_iff.1 h
      subst h2
      exact .next e (toksF_sound h1)
    · cases h

def toksD (s : String) : List (Nat × Tok) := ((@toksF stdLetters 100 (startTok s.toList)).getD [])

theorem toksD_of {s : String} (h : (@toksF stdLetters 100 (startTok s.toList)).isSome = true) : @TokensOf stdLetters s.toList (toksD s) := by
  let _ := stdLetters
  obtain ⟨l, hl⟩ := Option.isSome_iff_exists.1 h
  have : toksD s = l := by unfold toksD; rw [hl]; rfl
  rw [this]
  exact toksF_sound hl

/-- The hypotheses are met: a text in two layouts, with a syntax error; and no white space character is a letter. -/
example : (∀ c : Char, c.toNat ∈ whiteSpace → stdLetters.isL c = false) ∧
    ∃ l l', @TokensOf stdLetters "Если а = 1.50 Тогда Ф(\"x\") КонецЦикла".toList l ∧
      @TokensOf stdLetters "Если а=1.50 // б\nТогда\n\tФ ( \"x\")КонецЦикла".toList l' ∧
      kindsAndLiterals l = kindsAndLiterals l' ∧ l.length = 10 := by
  refine ⟨?_, toksD "Если а = 1.50 Тогда Ф(\"x\") КонецЦикла", toksD "Если а=1.50 // б\nТогда\n\tФ ( \"x\")КонецЦикла",
    toksD_of (by decide +kernel), toksD_of (by decide +kernel), by decide +kernel, by decide +kernel⟩
  intro c hc
  have h : ∀ n ∈ whiteSpace, stdIsL (Char.ofNat n) = false := by decide +kernel
  have := h _ hc
  rwa [Char.ofNat_toNat] at this

/-- The literals do matter: `Прервать` and `ПРЕРВАТЬ` have the same number but are named differently in the message. -/
example : ∃ a a', @parse stdLetters (newAST "Прервать".toList) = .ret a ∧ @parse stdLetters (newAST "ПРЕРВАТЬ".toList) = .ret a' ∧
    a.err.map errText ≠ a'.err.map errText := by
  refine ⟨_, _, rfl, rfl, by decide +kernel⟩

/-- A text without tokens that is not blank. -/
example : @TokensOf stdLetters "// пусто".toList [] := toksD_of (s := "// пусто") (by decide +kernel)

/-- An error among the next `n` tokens (for examples). -/
private def errF [Letters] : Nat → Tok → Bool
  | 0, _ => false
  | n + 1, t => match lexNext t with
    | (_, .ok none) => false
    | (t', .ok (some _)) => errF n t'
    | _ => true

private theorem errF_sound [Letters] : ∀ {n t l}, errF n t = true → ¬ Tokens t l
  | 0, _, _, h => by cases h
  | n + 1, t, l, h => by
    intro ht
    unfold errF at h
    cases ht with
    | eof e =>
      revert h e
      rcases lexNext t with ⟨t', r⟩
      intro h e
      dsimp only at e
      subst e
      cases h
    | next e ht =>
      rw [e] at h
      exact errF_sound h ht

/-- A text with a lexical error. -/
example : ¬∃ l, @TokensOf stdLetters "а = 1ф".toList l := by
  rintro ⟨l, h⟩
  exact @errF_sound stdLetters 10 _ _ (by decide +kernel) h

end Verif
