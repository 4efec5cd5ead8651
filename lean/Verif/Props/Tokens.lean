import Verif.Proofs.LexTok
import Verif.StdLetters
import Verif.Spec.Tokens
/-!
# C01–C06: the tokeniser

`lexNext t` models one call of `Token.Next`: `t` is the tokeniser state before it, `(lexNext t).1` the
state after it and `(lexNext t).2` what the call returns (`.ok none` is end-of-file, `.ok (some k)` the
token number `k`, `.error` an error).  `t.rest` is the text not read yet.  The theorems hold for every
state, hence for every state reached on any text.
-/
namespace Verif
open Lexer Spec List
variable [Letters]

/-! ## C01 -/

/-- Every call that does not report end-of-file consumes a character, also with an error. -/
theorem C01_progress (t : Tok) :
    (lexNext t).2 = .ok none ∨ (lexNext t).1.rest.length < t.rest.length := by
  cases hs : skipTrivia t.rest with
  | nil => exact .inl ((lexNext_eof_iff t).2 hs)
  | cons c r =>
    refine .inr ?_
    rw [lexNext_rest, hs]
    have h1 := (nextRaw_suffix t.prevDot c r).length_le
    have h2 := (skipTrivia_suffix t.rest).length_le
    rw [hs, length_cons] at h2
    omega

/-- End-of-file is reported exactly when nothing but layout is left. -/
theorem C01_eof_iff (t : Tok) : (lexNext t).2 = .ok none ↔ FinalLayout t.rest := by
  rw [lexNext_eof_iff]
  constructor
  · intro h
    obtain ⟨w, h1, h2⟩ := skipTrivia_split t.rest
    rw [h, append_nil] at h1
    rw [h1]
    rcases h2 with h2 | ⟨_, h2⟩
    · exact .layout h2
    · exact h2
  · exact skipTrivia_final

/-- After end-of-file every further call reports end-of-file again. -/
theorem C01_eof_sticky (t : Tok) (h : (lexNext t).2 = .ok none) (n : Nat) :
    (lexNext (afterCalls n (lexNext t).1)).2 = .ok none := by
  have key : ∀ n (u : Tok), u.rest = [] → (lexNext (afterCalls n u)).2 = .ok none := by
    intro n
    induction n with
    | zero =>
      intro u hu
      rw [afterCalls, lexNext_eof_iff, hu]; rfl
    | succ n ih =>
      intro u hu
      rw [afterCalls]
      apply ih
      have := (lexNext_suffix u).length_le
      rw [hu] at this
      exact eq_nil_of_length_eq_zero (by simpa using this)
  apply key
  rw [lexNext_rest, (lexNext_eof_iff t).1 h]
  rfl

/-- The end-of-file token is reached after at most one call per character. -/
theorem C01_reaches_eof (t : Tok) : ∃ n ≤ t.rest.length, (lexNext (afterCalls n t)).2 = .ok none := by
  generalize hm : t.rest.length = m
  induction m using Nat.strongRecOn generalizing t with
  | _ m ih =>
    rcases C01_progress t with h | h
    · exact ⟨0, by omega, h⟩
    · obtain ⟨n, h1, h2⟩ := ih _ (hm ▸ h) (lexNext t).1 rfl
      exact ⟨n + 1, by omega, h2⟩

/-- An erroneous text: the tokeniser still reaches the end. -/
example : (@lexNext stdLetters (startTok "\"a".toList)).2 = .error .unexpectedEOF ∧
    (@lexNext stdLetters (@lexNext stdLetters (startTok "\"a".toList)).1).2 = .ok none := by
  decide +kernel

/-! ## C02 -/

/-- An identifier or keyword token is the longest word after the layout; the next call continues
directly behind it. -/
theorem C02_whole_words (t : Tok) (k : Nat) (h : (lexNext t).2 = .ok (some k)) (hk : WordNumber k) :
    ∃ l w r, t.rest = l ++ w ++ r ∧ Layout l ∧ Word w ∧ WordEnds r ∧
      (lexNext t).1.literal = w ∧ (lexNext t).1.rest = r := by
  obtain ⟨l, w, r, h1, h2, h3, h4⟩ := lexNext_word_inv h hk
  obtain ⟨_, h5, h6, _⟩ := lexNext_word t h2 h3 h4 h1
  exact ⟨l, w, r, h1, h2, h3, h4, h5, h6⟩

/-- Conversely every word that is next in the text is read as an identifier or keyword. -/
theorem C02_words_are_read (t : Tok) {l w r : List Char} (ht : t.rest = l ++ w ++ r) (hl : Layout l)
    (hw : Word w) (hr : WordEnds r) :
    ∃ k, WordNumber k ∧ (lexNext t).2 = .ok (some k) ∧ (lexNext t).1.literal = w ∧ (lexNext t).1.rest = r := by
  obtain ⟨h1, h2, h3, _⟩ := lexNext_word t hl hw hr ht
  refine ⟨_, ?_, h1, h2, h3⟩
  cases t.prevDot with
  | true => rw [wordKind_true]; exact .inl rfl
  | false =>
    have h := wordKind_spec w
    generalize wordKind false w = k at h
    cases h with
    | keyword h => exact .inr ⟨_, h⟩
    | ident h => exact .inl rfl

example : (@lexNext stdLetters (startTok " // c\n Ёж_1+".toList)) =
    (⟨"Ёж_1".toList, .nil, "+".toList, false⟩, .ok (some identNumber)) := by
  decide +kernel

/-! ## C03, C04 -/

/-- Layout of any kind in front of a token changes nothing at all. -/
theorem C04_layout_invisible {w : List Char} (h : Layout w) (l : List Char) (v : Val) (s : List Char)
    (d : Bool) : lexNext ⟨l, v, w ++ s, d⟩ = lexNext ⟨l, v, s, d⟩ := by
  unfold lexNext
  dsimp only
  rw [skipTrivia_layout h]
  rfl

/-- At the end of the text a last comment or `#` line needs no line feed. -/
theorem C04_final (t : Tok) (h : FinalLayout t.rest) : (lexNext t).2 = .ok none :=
  (C01_eof_iff t).2 h

/-- Blanks in front of a token change nothing at all. -/
theorem C03_blanks {w : List Char} (h : ∀ c ∈ w, Blank c) (l : List Char) (v : Val) (s : List Char)
    (d : Bool) : lexNext ⟨l, v, w ++ s, d⟩ = lexNext ⟨l, v, s, d⟩ := by
  apply C04_layout_invisible
  induction w with
  | nil => exact .nil
  | cons c w ih =>
    simp only [mem_cons, forall_eq_or_imp] at h
    exact .blank h.1 (ih h.2)

/-- Removing or exchanging blanks: any two strings of blanks are interchangeable. -/
theorem C03_blanks_exchange {w w' : List Char} (h : ∀ c ∈ w, Blank c) (h' : ∀ c ∈ w', Blank c)
    (l : List Char) (v : Val) (s : List Char) (d : Bool) :
    lexNext ⟨l, v, w ++ s, d⟩ = lexNext ⟨l, v, w' ++ s, d⟩ := by
  rw [C03_blanks h, C03_blanks h']

example : Layout " \t#Область А\n// если \"\n\r".toList :=
  .blank (.inl rfl) (.blank (.inr (.inl rfl)) (.hash (t := "Область А".toList) (by decide)
    (.comment (t := " если \"".toList) (by decide) (.blank (.inr (.inr (.inl rfl))) .nil))))

/-! ## C05 -/

/-- A word not after a dot: its token number is that of the table, for any letter case. -/
theorem C05_keyword_iff {w r : List Char} (hw : Word w) (hr : WordEnds r) (l : List Char) (v : Val) (k : Nat) :
    (lexNext ⟨l, v, w ++ r, false⟩).2 = .ok (some k) ↔ KindOf w k := by
  obtain ⟨h1, _⟩ := lexNext_word ⟨l, v, w ++ r, false⟩ .nil hw hr rfl
  rw [h1]
  constructor
  · intro h
    injection h with h
    injection h with h
    exact h ▸ wordKind_spec w
  · intro h
    rw [kindOf_fun (wordKind_spec w) h]

/-- Two spellings of a word that differ only in the case of letters are both words and give the same
kind of token. -/
theorem C05_case_insensitive {w w' r r' : List Char} (hw : Word w)
    (he : w.map lowerChar = w'.map lowerChar) (hr : WordEnds r) (hr' : WordEnds r')
    (l l' : List Char) (v v' : Val) (d : Bool) :
    Word w' ∧ (lexNext ⟨l, v, w ++ r, d⟩).2 = (lexNext ⟨l', v', w' ++ r', d⟩).2 := by
  have hw' : Word w' := by
    cases hw with
    | @mk c w hc hw =>
      cases w' with
      | nil => simp at he
      | cons c' w' =>
        simp only [map_cons, cons.injEq] at he
        refine .mk ?_ ?_
        · rw [← isLetter_iff, ← isLetter_lowerChar, ← he.1, isLetter_lowerChar, isLetter_iff]; exact hc
        · intro d hd
          rw [← isWordChar_iff, ← isWordChar_lowerChar]
          have hm : lowerChar d ∈ w.map lowerChar := he.2 ▸ mem_map_of_mem hd
          obtain ⟨e, he1, he2⟩ := mem_map.1 hm
          rw [← he2, isWordChar_lowerChar, isWordChar_iff]
          exact hw e he1
  refine ⟨hw', ?_⟩
  rw [(lexNext_word ⟨l, v, w ++ r, d⟩ .nil hw hr rfl).1, (lexNext_word ⟨l', v', w' ++ r', d⟩ .nil hw' hr' rfl).1]
  unfold wordKind
  rw [lower_eq, lower_eq, he]

example : KindOf "кОНЕЦЕСЛИ".toList 57355 := .keyword (by decide +kernel)
example : KindOf "КонецЕсли1".toList identNumber :=
  .ident (fun k h => absurd ((keywords_iff _ k).2 h) (by
    have : keywords.lookup ("КонецЕсли1".toList.map lowerChar) = none := by decide +kernel
    rw [this]; simp))

/-! ## C06 -/

/-- Directly after a dot token (that does not itself follow a dot) every word is an identifier, and
the effect ends with that word. -/
theorem C06_member_name (t : Tok) (h0 : t.prevDot = false) (h : (lexNext t).2 = .ok (some '.'.toNat))
    {l w r : List Char} (ht : (lexNext t).1.rest = l ++ w ++ r) (hl : Layout l) (hw : Word w)
    (hr : WordEnds r) :
    (lexNext (lexNext t).1).2 = .ok (some identNumber) ∧ (lexNext (lexNext t).1).1.literal = w ∧
      (lexNext (lexNext t).1).1.rest = r ∧ (lexNext (lexNext t).1).1.prevDot = false := by
  have hd : (lexNext t).1.prevDot = true := by
    have h' := (lexNext_dot_iff t).1 h
    unfold lexNext
    dsimp only
    rw [finish_prevDot, h0, h']; rfl
  have := lexNext_word (lexNext t).1 hl hw hr ht
  rwa [hd, wordKind_true] at this

/-- The mark left by a dot: set exactly by a dot token that does not follow a marked dot, and never
kept longer than one token. -/
theorem C06_one_token (t : Tok) :
    (lexNext t).1.prevDot = true ↔ t.prevDot = false ∧ (lexNext t).2 = .ok (some '.'.toNat) := by
  rw [lexNext_dot_iff]
  unfold lexNext
  dsimp only
  rw [finish_prevDot]
  cases t.prevDot <;> simp

omit [Letters] in
/-- After two dots in a row the mark is gone: the word is a keyword again.  (This is why the property
speaks of a dot that does not follow a dot; two dots in a row are not valid syntax anyway.) -/
theorem C06_two_dots :
    (@lexNext stdLetters (@afterCalls stdLetters 2 (startTok "..если".toList))).2 = .ok (some 57351) := by
  decide +kernel

/-- A member named like a keyword. -/
example : (@lexNext stdLetters (@afterCalls stdLetters 2 (startTok "а. Если Если".toList))) =
    (⟨"Если".toList, .nil, " Если".toList, false⟩, .ok (some identNumber)) := by
  decide +kernel

end Verif
