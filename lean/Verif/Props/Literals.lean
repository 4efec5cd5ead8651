import Verif.Proofs.LexDate
import Verif.StdLetters
/-! # C07–C09: string, number and date literals -/
namespace Verif
open Lexer Spec List
variable [Letters]

/-! ## C07 -/

/-- The string tokens of a text, completely: a string token is returned exactly when the text goes on
with layout and a literal; the token's value and literal are the value of that literal, and reading
continues behind it (and the blanks after it). -/
theorem C07_string_tokens (t : Tok) :
    (lexNext t).2 = .ok (some tString) ↔
      ∃ l s v r, t.rest = l ++ '"' :: (s ++ '"' :: r) ∧ Layout l ∧ StrSrc s v ∧ NoQuoteNext r ∧
        (lexNext t).1.value = .str v ∧ (lexNext t).1.literal = v ∧
        ∃ b, (∀ c ∈ b, Blank c) ∧ r = b ++ (lexNext t).1.rest := by
  constructor
  · intro h
    obtain ⟨l, s, v, r, h1, h2, h3, h4⟩ := lexNext_string_inv h
    obtain ⟨_, h6⟩ := lexNext_string t h2 h3 h4 h1
    obtain ⟨b, hb, hbr⟩ := skipSpace_split r
    refine ⟨l, s, v, r, h1, h2, h3, h4, by rw [h6], by rw [h6], b, fun c hc => (isSpace_iff c).1 (hb c hc), ?_⟩
    rw [h6]; exact hbr
  · rintro ⟨l, s, v, r, h1, h2, h3, h4, _⟩
    exact (lexNext_string t h2 h3 h4 h1).1

/-- The value of any string token consists of ordinary characters, doubled quotes, and line breaks
followed by a bar. -/
theorem C07_value_form (t : Tok) (h : (lexNext t).2 = .ok (some tString)) :
    ∃ v, (lexNext t).1.value = .str v ∧ StrVal v := by
  obtain ⟨l, s, v, r, h1, h2, h3, h4⟩ := lexNext_string_inv h
  exact ⟨v, by rw [(lexNext_string t h2 h3 h4 h1).2], strSrc_val h3⟩

/-- Round trip: quote, value of a string token, quote is read back as the same string. -/
theorem C07_round_trip (t t' : Tok) (h : (lexNext t).2 = .ok (some tString)) (v : List Char)
    (hv : (lexNext t).1.value = .str v) (r : List Char) (hr : NoQuoteNext r)
    (ht : t'.rest = '"' :: (v ++ '"' :: r)) :
    (lexNext t').2 = .ok (some tString) ∧ (lexNext t').1.value = .str v ∧
      ∃ b, (∀ c ∈ b, Blank c) ∧ r = b ++ (lexNext t').1.rest := by
  obtain ⟨v', hv', hs⟩ := C07_value_form t h
  rw [hv] at hv'
  injection hv' with hv'
  subst hv'
  obtain ⟨h5, h6⟩ := lexNext_string t' (l := []) .nil (strVal_src hs) hr ht
  obtain ⟨b, hb, hbr⟩ := skipSpace_split r
  refine ⟨h5, by rw [h6], b, fun c hc => (isSpace_iff c).1 (hb c hc), ?_⟩
  rw [h6]; exact hbr

/-- A literal with a doubled quote, a line break with a comment line, and an adjacent literal. -/
example : (@lexNext stdLetters (startTok "\"а\"\"\n //к\n|б\" \"в\"; ".toList)) =
    (⟨"а\"\"\n|бв".toList, .str "а\"\"\n|бв".toList, "; ".toList, false⟩, .ok (some tString)) := by
  decide +kernel
example : (@lexNext stdLetters (startTok "\"а\"\"\n|бв\"; ".toList)) =
    (⟨"а\"\"\n|бв".toList, .str "а\"\"\n|бв".toList, "; ".toList, false⟩, .ok (some tString)) := by
  decide +kernel

/-! ## C08 -/

/-- A run of digits and dots that starts with a digit and cannot be extended: not followed by a letter
or underscore, it is accepted exactly when it is a number literal that does not overflow, and its value
is the binary64 number nearest to the literal. -/
theorem C08_number (t : Tok) {l : List Char} {a : Char} {w r : List Char} (ht : t.rest = l ++ (a :: w) ++ r)
    (hl : Layout l) (ha : Digit a) (hw : ∀ c ∈ w, Digit c ∨ c = '.')
    (hr : ∀ c r', r = c :: r' → ¬ (Digit c ∨ c = '.' ∨ WordStart c)) :
    (∃ v x, NumLit (a :: w) v ∧ v < overflow64 ∧ Nearest x v ∧ x.neg = false ∧
      lexNext t = (⟨a :: w, .num x, r, false⟩, .ok (some tNumber))) ∨
    ((¬ ∃ v, NumLit (a :: w) v ∧ v < overflow64) ∧ ∃ e, (lexNext t).2 = .error e) := by
  have h := lexNext_number t hl ha hw (fun c r' e hh => hr c r' e (hh.elim .inl (fun h => .inr (.inl h)))) ht
  rw [if_neg] at h
  · rw [h]
    cases hp : F64.parseFloat (a :: w) with
    | some x =>
      obtain ⟨v, hv⟩ := numLit_of_parse hw ha hp
      refine .inl ⟨v, x, hv, ?_, parseFloat_nearest hv hp, ?_, rfl⟩
      · apply lt_of_not_ge
        intro hge
        rw [(parseFloat_none_iff hv).2 hge] at hp
        cases hp
      · obtain ⟨n, d, _, h1, _⟩ := parseFloat_lit hv
        exact F64.ofRat_neg (h1 ▸ hp)
    | none =>
      refine .inr ⟨?_, _, rfl⟩
      rintro ⟨v, hv, hlt⟩
      exact absurd ((parseFloat_none_iff hv).1 hp) (not_le_of_gt hlt)
  · rw [any_isLetter_iff]
    rintro ⟨c, r', e, hc⟩
    exact hr c r' e (.inr (.inr hc))

/-- Directly followed by a letter or underscore the number is an error. -/
theorem C08_letter_after (t : Tok) {l : List Char} {a : Char} {w : List Char} {c : Char} {r : List Char}
    (ht : t.rest = l ++ (a :: w) ++ c :: r) (hl : Layout l) (ha : Digit a)
    (hw : ∀ c ∈ w, Digit c ∨ c = '.') (hc : WordStart c) : ∃ e, (lexNext t).2 = .error e := by
  have h := lexNext_number t (r := c :: r) hl ha hw (by
    rintro c' r' e hh
    cases e
    have hl := (isLetter_iff c).2 hc
    rcases hh with hh | hh
    · rw [(digit_facts hh).1] at hl; cases hl
    · subst hh; rw [isLetter_dot] at hl; cases hl) ht
  rw [if_pos ((any_isLetter_iff _).2 ⟨c, r, rfl, hc⟩)] at h
  exact ⟨_, by rw [h]⟩

/-- Every number token arises in this way. -/
theorem C08_number_inv (t : Tok) (h : (lexNext t).2 = .ok (some tNumber)) :
    ∃ l r v x, t.rest = l ++ (lexNext t).1.literal ++ r ∧ Layout l ∧ NumLit (lexNext t).1.literal v ∧
      Nearest x v ∧ (lexNext t).1.value = .num x ∧ (lexNext t).1.rest = r := by
  obtain ⟨l, a, w, r, h1, h2, h3, h4, h5⟩ := lexNext_number_inv h
  by_cases hr : ∃ c r', r = c :: r' ∧ WordStart c
  · obtain ⟨c, r', rfl, hc⟩ := hr
    obtain ⟨e, he⟩ := C08_letter_after t h1 h2 h3 h4 hc
    rw [he] at h; cases h
  · rcases C08_number t h1 h2 h3 h4 (by
      rintro c r' e (hh | hh | hh)
      · exact h5 c r' e (.inl hh)
      · exact h5 c r' e (.inr hh)
      · exact hr ⟨c, r', e, hh⟩) with ⟨v, x, hv, _, hx, _, he⟩ | ⟨_, e, he⟩
    · exact ⟨l, r, v, x, by rw [he]; exact h1, h2, by rw [he]; exact hv, hx, by rw [he], by rw [he]⟩
    · rw [he] at h; cases h

example : NumLit "12.5".toList (intVal "12".toList + fracVal "5".toList) :=
  .frac (s := "12".toList) (by decide) (by unfold Digit; decide) (by unfold Digit; decide)
example : (@lexNext stdLetters (startTok " 12.5;".toList)) =
    (⟨"12.5".toList, .num ⟨false, 7036874417766400, -49⟩, ";".toList, false⟩, .ok (some tNumber)) := by
  decide +kernel
example : (@lexNext stdLetters (startTok "1.2.3".toList)).2 = .error .badNumber ∧
    (@lexNext stdLetters (startTok "1а".toList)).2 = .error .identAfterNumber := by
  decide +kernel

/-! ## C09 -/

/-- A literal in single quotes: with the digits `ds` of its text, it is accepted exactly when they
denote a date, and the value is that date. -/
theorem C09_date (t : Tok) {l s ds r : List Char} (ht : t.rest = l ++ '\'' :: (s ++ '\'' :: r)) (hl : Layout l)
    (hs : DateSrc s ds) (hr : NoQuoteNext r) :
    (∃ d, DateValue ds d ∧ (lexNext t).2 = .ok (some tDate) ∧ (lexNext t).1.value = .date d ∧
      (lexNext t).1.literal = ds ∧ ∃ b, (∀ c ∈ b, Blank c) ∧ r = b ++ (lexNext t).1.rest) ∨
    ((¬ ∃ d, DateValue ds d) ∧ ∃ e, (lexNext t).2 = .error e) := by
  rcases lexNext_date t hl hs hr ht with ⟨d, h1, h2⟩ | h
  · obtain ⟨b, hb, hbr⟩ := skipSpace_split r
    refine .inl ⟨d, h1, by rw [h2], by rw [h2], by rw [h2], b, fun c hc => (isSpace_iff c).1 (hb c hc), ?_⟩
    rw [h2]; exact hbr
  · exact .inr h

omit [Letters] in
/-- The ordinary case: a literal on one line has the digits of its text. -/
theorem C09_one_line {s : List Char} (hs : ∀ c ∈ s, c ≠ '\'' ∧ c ≠ '\n') :
    DateSrc s (s.filter (fun c => decide (c ∈ ['0', '1', '2', '3', '4', '5', '6', '7', '8', '9']))) := by
  have he : (s.filter (fun c => decide (c ∈ ['0', '1', '2', '3', '4', '5', '6', '7', '8', '9']))) = extractDigits s := by
    unfold extractDigits
    congr 1
    funext c
    rw [Bool.eq_iff_iff, isDigit_iff]
    simp [Digit]
  rw [he]
  exact dateSrc_plain hs

/-- Every date token is written like that. -/
theorem C09_date_inv (t : Tok) (h : (lexNext t).2 = .ok (some tDate)) :
    ∃ l s ds d r, t.rest = l ++ '\'' :: (s ++ '\'' :: r) ∧ Layout l ∧ DateSrc s ds ∧ NoQuoteNext r ∧ DateValue ds d ∧
      (lexNext t).1.value = .date d ∧ (lexNext t).1.literal = ds ∧ ∃ b, (∀ c ∈ b, Blank c) ∧ r = b ++ (lexNext t).1.rest := by
  obtain ⟨l, s, ds, d, r, h1, h2, h3, h4, h5, h6⟩ := lexNext_date_inv h
  obtain ⟨b, hb, hbr⟩ := skipSpace_split r
  exact ⟨l, s, ds, d, r, h1, h2, h3, h4, h5, by rw [h6], by rw [h6], b, fun c hc => (isSpace_iff c).1 (hb c hc), by rw [h6]; exact hbr⟩

omit [Letters] in
/-- The digits determine the date. -/
theorem C09_unique {ds : List Char} (hd : ∀ c ∈ ds, Digit c) {d d' : Time} (h : DateValue ds d)
    (h' : DateValue ds d') : d = d' := by
  have hne : ds ≠ [] := by
    cases h with
    | zero h _ => exact h
    | date h _ _ => rintro rfl; obtain ⟨c, hc, _⟩ := h; simp at hc
  have key : ∀ d, DateValue ds d → (∃ c ∈ ds, c ≠ '0') →
      (ds.length = 8 ∧ Time.parse 8 ds = some d) ∨ (ds.length = 12 ∧ Time.parse 12 ds = some d) ∨
      (ds.length = 14 ∧ Time.parse 14 ds = some d) := by
    intro d h hz
    cases h with
    | zero _ h0 => obtain ⟨c, hc, hc'⟩ := hz; exact absurd (h0 c hc) hc'
    | date _ hc h =>
      rcases (dateDigits_iff _ _).1 h with ⟨h1, h2, h3, h4⟩ | ⟨h1, h2⟩ | h1
      · exact .inl ⟨by rw [h4]; rfl, (parse8 hd d).2 ⟨hc, h1, h2, h3, h4⟩⟩
      · exact .inr (.inl ⟨by rw [h2]; rfl, (parse12 hd d).2 ⟨hc, h1, h2⟩⟩)
      · exact .inr (.inr ⟨by rw [h1]; rfl, (parse14 hd d).2 ⟨hc, h1⟩⟩)
  by_cases hz : ∃ c ∈ ds, c ≠ '0'
  · rcases key d h hz with ⟨h1, h2⟩ | ⟨h1, h2⟩ | ⟨h1, h2⟩ <;>
      rcases key d' h' hz with ⟨h3, h4⟩ | ⟨h3, h4⟩ | ⟨h3, h4⟩ <;>
      first
        | (rw [h2] at h4; injection h4)
        | (rw [h1] at h3; cases h3)
  · cases h with
    | zero _ _ =>
      cases h' with
      | zero _ _ => rfl
      | date h _ _ => exact absurd h hz
    | date h _ _ => exact absurd h hz

example : DateValue "20240229".toList ⟨2024, 2, 29, 0, 0, 0⟩ :=
  .date (by decide) (by unfold CalendarDate; decide) (.day rfl rfl rfl)
example : (@lexNext stdLetters (startTok "'2024.02.29 23:59'".toList)).1.value = .date ⟨2024, 2, 29, 23, 59, 0⟩ ∧
    (@lexNext stdLetters (startTok "'20230229'".toList)).2 = .error .badDate := by
  decide +kernel
/-- A literal over two lines, and one that an apostrophe does not end. -/
example : (@lexNext stdLetters (startTok "'2024 // 5\n // 6\n |0229'".toList)).1.literal = "202450229".toList ∧
    (@lexNext stdLetters (startTok "'2024'  \"0229'".toList)).1.value = .date ⟨2024, 2, 29, 0, 0, 0⟩ := by
  decide +kernel

end Verif
