import Verif.Props.Recase
import Verif.Props.ByteParser
import Verif.Props.Text
/-!
# Byte order marks: C75

1C writes modules to files with a byte order mark, U+FEFF, in front: the bytes EF BB BF.
-/
namespace Verif
open Spec Lexer Utf8 ByteParser

/-- The byte order mark. -/
def Spec.byteMark : Char := Char.ofNat 0xFEFF

/-- Characters with which no token, blank or comment begins. -/
def Spec.Foreign [Letters] (c : Char) : Prop :=
  ¬ Blank c ∧ ¬ WordStart c ∧ ¬ Digit c ∧
  c ∉ [':', ';', ',', '(', ')', '[', ']', '?', '+', '-', '*', '/', '%', '.', '=', '<', '>', '"', '\'', '&', '~', '#']

section
variable [Letters]

theorem foreign_error {p s : List Char} (hp : Layout p) {c : Char} (hc : Foreign c) (t : Tok) (ht : t.rest = p ++ c :: s) :
    ∃ e, (lexNext t).2 = .error e := by
  obtain ⟨h1, h2, h3, h4⟩ := hc
  simp only [List.mem_cons, List.not_mem_nil, or_false, not_or] at h4
  have hs : skipTrivia t.rest = c :: s := by
    rw [ht, skipTrivia_layout hp]
    refine skipTrivia_of_clean ⟨?_, ?_, ?_⟩
    · rintro d r h
      injection h with h
      subst h
      cases hsp : isSpace c with
      | false => rfl
      | true => exact absurd ((isSpace_iff _).1 hsp) h1
    · rintro r h
      injection h with h
      exact absurd h (by tauto)
    · rintro r h
      injection h with h
      exact absurd h (by tauto)
  have hr : nextRaw t.prevDot (c :: s) = ⟨.error (.badChar c), [c], s⟩ := by
    unfold nextRaw
    dsimp only
    rw [if_neg (fun h => h2 ((isLetter_iff c).1 h)), if_neg (by tauto), if_neg (fun h => h3 ((isDigit_iff c).1 h)), if_neg (by tauto),
      if_neg, if_neg (by tauto), if_neg (by tauto), if_neg (by tauto), if_neg (by tauto), if_neg (by tauto), if_neg (by tauto)]
    unfold isPunct
    simp only [Bool.or_eq_true, beq_iff_eq]
    tauto
  unfold lexNext
  dsimp only
  rw [hs, hr]
  exact ⟨_, rfl⟩

/-- **C75, in general.** A text with a foreign character between two tokens, in front of the first one or behind the last one, is
rejected. -/
theorem C75_foreign {code : List Char} (n : Nat) (hn : ∀ i < n, ∃ k, (lexNext (afterCalls i (startTok code))).2 = .ok (some k))
    {p s : List Char} (hp : Layout p) {c : Char} (hr : (afterCalls n (startTok code)).rest = p ++ c :: s) (hc : Foreign c) (hb : NotBlank code)
    (M : Module) : ¬ Accepts code M := by
  rintro ⟨a, h1, h2, -⟩
  obtain ⟨e, he⟩ := foreign_error hp hc _ hr
  exact C18_lexical_errors (newAST code) a ((notBlank_iff code).1 hb) h1 n e hn he h2

/-- **C75 does not hold**: no text with a byte order mark in front is accepted, whatever follows. -/
theorem C75_violated (h : Letters.isL byteMark = false) (code : List Char) (M : Module) : ¬ Accepts (byteMark :: code) M := by
  refine C75_foreign 0 (fun i hi => absurd hi (Nat.not_lt_zero i)) (p := []) .nil rfl ⟨?_, ?_, ?_, by decide⟩ ⟨byteMark, .head _, by decide⟩ M
  · unfold Blank; decide
  · rintro (h' | h')
    · rw [h] at h'; cases h'
    · exact absurd h' (by decide)
  · unfold Digit; decide

/-- **C75 does not hold**, for files: three bytes in front, and `Parse` returns an error or panics. -/
theorem C75_violated_bytes (h : Letters.isL byteMark = false) (code : List UInt8) (a : Ast) (ha : parseB (0xEF :: 0xBB :: 0xBF :: code) = .ret a) :
    a.err ≠ none := by
  have hd : Decodes (0xEF :: 0xBB :: 0xBF :: code) (byteMark :: decodeAll code) :=
    .char byteMark ((decodes_iff _ _).2 rfl)
  intro he
  exact C75_violated h (decodeAll code) a.mod ⟨a, ((C60_parse hd).1 a).1 ha, he, rfl⟩

/-- In a comment in front of the text the mark does not matter.  Missing: everywhere else (`C75_violated`). -/
theorem C75_comment_partial (hL : ∀ c : Char, c.toNat ∈ whiteSpace → Letters.isL c = false) (t code : List Char) (ht : '\n' ∉ t) {ks : List Key}
    (hk : HasKeys code ks) (M : Module) : Accepts ('/' :: '/' :: (byteMark :: t ++ '\n' :: code)) M ↔ Accepts code M := by
  have h := (C49_tokens _ _).1 hk
  refine C61_same_accepts hL (ks := ks) ?_ h M
  have ht' : '\n' ∉ byteMark :: t := by
    intro h
    rcases List.mem_cons.1 h with h | h
    · exact absurd h (by decide)
    · exact ht h
  have key : ∀ {dot s ks}, Written dot s ks → Written dot ('/' :: '/' :: (byteMark :: t ++ '\n' :: s)) ks := by
    intro dot s ks h
    cases h with
    | done h =>
      refine .done ?_
      have e : ∀ l : List Char, '/' :: '/' :: (byteMark :: t ++ '\n' :: l) = ('/' :: '/' :: (byteMark :: t ++ ['\n'])) ++ l := by simp
      cases h with
      | layout h => exact .layout (.comment ht' h)
      | @comment w u h hu =>
        have := FinalLayout.comment (w := '/' :: '/' :: (byteMark :: t ++ '\n' :: w)) (t := u) (.comment ht' h) hu
        simpa using this
      | @hash w u h hu =>
        have := FinalLayout.hash (w := '/' :: '/' :: (byteMark :: t ++ '\n' :: w)) (t := u) (.comment ht' h) hu
        simpa using this
    | @next _ l w r k ks F hl hw hF h =>
      have := Written.next (Layout.comment ht' hl) hw hF h
      simpa using this
  exact key h

end

/-! ## Examples -/

theorem std_mark : @Letters.isL stdLetters byteMark = false := by decide +kernel

example (M : Module) : ¬ @Accepts stdLetters (byteMark :: "а = 1;".toList) M ∧ ∃ M, @Accepts stdLetters "а = 1;".toList M :=
  ⟨@C75_violated stdLetters std_mark _ M, _, @accepts_modOf stdLetters _ (by decide +kernel)⟩

/-- A foreign character behind three tokens. -/
example : (∀ i < 3, ∃ k, (@lexNext stdLetters (@afterCalls stdLetters i (startTok "а = 1 @ ".toList))).2 = .ok (some k)) ∧
    (@afterCalls stdLetters 3 (startTok "а = 1 @ ".toList)).rest = [' '] ++ '@' :: [' '] := by
  refine ⟨fun i hi => ?_, by decide +kernel⟩
  match i, hi with
  | 0, _ => exact ⟨tIdent, by decide +kernel⟩
  | 1, _ => exact ⟨tEQUAL, by decide +kernel⟩
  | 2, _ => exact ⟨tNumber, by decide +kernel⟩

/-- The hypotheses of `C75_comment_partial`. -/
example : @HasKeys stdLetters "а = 1".toList [ident ['а'], word .kEQUAL, literal .kNumber (.num ⟨false, 2^52, -52⟩)] :=
  @keysOf_sound stdLetters 20 _ _ (by decide +kernel)

end Verif
