import Verif.Proofs.LexAppend
import Verif.Proofs.OnlyTokens
/-! The tokens of a text are the first tokens of the text with a line feed and anything else behind it. -/
namespace Verif
open Spec Lexer LR

theorem skipTrivia_newline {s : List Char} {c : Char} {r : List Char} (h : skipTrivia s = c :: r) (q : List Char) :
    skipTrivia (s ++ '\n' :: q) = c :: (r ++ '\n' :: q) := by
  cases r with
  | cons d r => exact skipTrivia_append h _
  | nil =>
    obtain ⟨w, h1, h2⟩ := skipTrivia_split s
    have hc := skipTrivia_clean s
    rw [h] at h1 h2 hc
    rw [h1, List.append_assoc, skipTrivia_layout (layout_of_split h2)]
    refine skipTrivia_of_clean ⟨fun c' r' e => ?_, fun r' e => ?_, fun r' e => ?_⟩
    · injection e with e; subst e; exact hc.1 _ _ rfl
    · injection e with e; subst e; exact hc.2.1 _ rfl
    · injection e with e e'; injection e' with e'; cases e'

theorem dropWhile_nil_append {α : Type} {p : α → Bool} {s : List α} (h : s.dropWhile p = []) {c : α} (hc : p c = false) (q : List α) :
    (s ++ c :: q).takeWhile p = s.takeWhile p ∧ (s ++ c :: q).dropWhile p = c :: q := by
  induction s with
  | nil => simp [hc]
  | cons d s ih =>
    rw [List.dropWhile_cons] at h
    split at h
    · rename_i hp
      obtain ⟨h1, h2⟩ := ih h
      rw [List.cons_append, List.takeWhile_cons, List.takeWhile_cons, List.dropWhile_cons, if_pos hp, if_pos hp, if_pos hp, h1, h2]
      exact ⟨rfl, rfl⟩
    · cases h

theorem noQuote_newline {r q : List Char} (hr : skipSpace r = []) (h : NoQuoteNext q) : NoQuoteNext (r ++ '\n' :: q) := by
  rw [noQuoteNext_iff] at h ⊢
  have : skipSpace (r ++ '\n' :: q) = skipSpace q := by
    induction r with
    | nil => rfl
    | cons c r ih =>
      rw [skipSpace] at hr
      split at hr
      · rename_i hc
        rw [List.cons_append, skipSpace, if_pos hc]
        exact ih hr
      · cases hr
  rwa [this]

variable [Letters]

/-- The text behind a line feed cannot continue the token: a string (or date) would go on with a quotation mark. -/
def Sealed (k : Nat) (q : List Char) : Prop := k = tString ∨ k = tDate → NoQuoteNext q

/-- A scan that reaches the end of the text finds the same in front of a line feed. -/
def Ends (f : List Char → Raw) (r q : List Char) : Prop :=
  ∀ k, (f r).res = .ok (some k) → (f r).rest = [] → Sealed k q →
    (f (r ++ '\n' :: q)).res = .ok (some k) ∧ (f (r ++ '\n' :: q)).literal = (f r).literal

theorem newline_letter : isLetter '\n' = false := isLetter_ascii_false (by decide) (by decide) (by decide)

theorem newline_word : isWordChar '\n' = false := by
  unfold isWordChar
  rw [newline_letter]
  decide

theorem scanIdentifier_newline {s : List Char} (hs : (scanIdentifier s).2 = []) (q : List Char) :
    (scanIdentifier (s ++ '\n' :: q)).1 = (scanIdentifier s).1 := (dropWhile_nil_append hs newline_word q).1

theorem ends_word (b : Bool) (s q : List Char) : Ends (lexWord b) s q := by
  intro k h hr _
  have := scanIdentifier_newline hr q
  unfold lexWord at h ⊢
  dsimp only at h ⊢
  rw [this]
  exact ⟨h, rfl⟩

theorem ends_number (s q : List Char) : Ends lexNumber s q := by
  intro k h hr _
  have hd : (s.dropWhile fun c => isDigit c || c == '.') = [] := by
    unfold lexNumber scanNumber at hr
    dsimp only at hr
    cases hm : s.dropWhile fun c => isDigit c || c == '.' with
    | nil => rfl
    | cons c r =>
      rw [hm] at hr
      dsimp only at hr
      split at hr
      · rename_i hx
        split at hx
        · injection hx with _ hx; rw [← hx] at hr; cases hr
        · cases hx
      · rename_i hx
        split at hx
        · cases hx
        · injection hx with _ hx; rw [← hx] at hr; cases hr
  obtain ⟨e1, e2⟩ := dropWhile_nil_append (c := '\n') hd (by decide) q
  unfold lexNumber scanNumber at h ⊢
  dsimp only at h ⊢
  rw [hd] at h
  rw [e1, e2, hd]
  dsimp only at h ⊢
  rw [newline_letter]
  exact ⟨h, rfl⟩

omit [Letters] in
theorem ends_date (r q : List Char) : Ends lexDate ('\'' :: r) q := by
  intro k h hr hq
  unfold lexDate at h hr ⊢
  split at h
  · cases h
  · rename_i v rest hscan
    rw [hscan] at hr
    obtain ⟨src, r1, h1, h2, h3, h4⟩ := scanString_date_inv _ _ _ _ (Nat.le_refl _) (by simp) hscan
    rw [List.tail_cons] at h1
    dsimp only at hr ⊢
    split at h
    · cases h
    · rename_i hne
      injection h with h; injection h with h
      rw [if_neg hne] at hr
      dsimp only at hr
      rw [h4] at hr
      obtain ⟨v', g1, g2⟩ := scanString_date h2 '\'' (noQuote_newline hr (hq (.inr h.symm)))
      have e : '\'' :: r ++ '\n' :: q = '\'' :: (src ++ '\'' :: (r1 ++ '\n' :: q)) := by rw [h1]; simp
      rw [e, g1]
      dsimp only
      rw [g2, if_neg hne, if_neg hne, h]
      exact ⟨rfl, rfl⟩

omit [Letters] in
theorem ends_string (r q : List Char) : Ends lexString ('"' :: r) q := by
  intro k h hr hq
  unfold lexString at h hr ⊢
  split at h
  · cases h
  · rename_i v rest hscan
    rw [hscan] at hr
    obtain ⟨src, r1, h1, h2, h3, h4⟩ := scanString_src_inv _ _ _ _ (Nat.le_refl _) (by simp) hscan
    rw [List.tail_cons] at h1
    injection h with h; injection h with h
    dsimp only at hr
    rw [h4] at hr
    have e : '"' :: r ++ '\n' :: q = '"' :: (src ++ '"' :: (r1 ++ '\n' :: q)) := by rw [h1]; simp
    rw [e, scanString_src h2 _ (noQuote_newline hr (hq (.inl h.symm))), ← h]
    exact ⟨rfl, rfl⟩

omit [Letters] in
theorem ends_less (r q : List Char) : Ends lexLess r q := by
  intro k h hr _
  cases r with
  | nil => exact ⟨h, rfl⟩
  | cons d r =>
    by_cases h1 : d = '>'
    · subst h1; exact ⟨h, rfl⟩
    · by_cases h2 : d = '='
      · subst h2; exact ⟨h, rfl⟩
      · have e : ∀ r, lexLess (d :: r) = ⟨.ok (some '<'.toNat), ['<'], d :: r⟩ := by
          intro r
          unfold lexLess
          split
          · next e => injection e with e; exact absurd e h1
          · next e => injection e with e; exact absurd e h2
          · rfl
        rw [e] at hr; cases hr

omit [Letters] in
theorem ends_greater (r q : List Char) : Ends lexGreater r q := by
  intro k h hr _
  cases r with
  | nil => exact ⟨h, rfl⟩
  | cons d r =>
    by_cases h2 : d = '='
    · subst h2; exact ⟨h, rfl⟩
    · have e : ∀ r, lexGreater (d :: r) = ⟨.ok (some '>'.toNat), ['>'], d :: r⟩ := by
        intro r
        unfold lexGreater
        split
        · next e => injection e with e; exact absurd e h2
        · rfl
      rw [e] at hr; cases hr

theorem ends_directive (r q : List Char) : Ends lexDirective r q := by
  intro k h hr _
  unfold lexDirective at h hr ⊢
  dsimp only at h hr ⊢
  split at h
  · rename_i k' hk'
    rw [hk'] at hr
    dsimp only at hr
    rw [scanIdentifier_newline hr q, hk']
    exact ⟨h, rfl⟩
  · cases h

theorem ends_label (r q : List Char) : Ends lexLabel r q := by
  intro k h hr _
  have := scanIdentifier_newline hr q
  unfold lexLabel at h ⊢
  exact ⟨h, this⟩

theorem nextRaw_newline {b : Bool} {c : Char} {r : List Char} {k : Nat} (h : (nextRaw b (c :: r)).res = .ok (some k))
    (hr : (nextRaw b (c :: r)).rest = []) {q : List Char} (hq : Sealed k q) :
    (nextRaw b (c :: (r ++ '\n' :: q))).res = .ok (some k) ∧
      (nextRaw b (c :: (r ++ '\n' :: q))).literal = (nextRaw b (c :: r)).literal := by
  have key : ∀ f : List Char → Raw, (∀ r, nextRaw b (c :: r) = f r) → Ends f r q →
      (nextRaw b (c :: (r ++ '\n' :: q))).res = .ok (some k) ∧
      (nextRaw b (c :: (r ++ '\n' :: q))).literal = (nextRaw b (c :: r)).literal := by
    intro f hf hst
    rw [hf] at h hr
    rw [hf, hf]
    exact hst k h hr hq
  have same : ∀ n lit, (∀ r, nextRaw b (c :: r) = ⟨.ok (some n), lit, r⟩) →
      (nextRaw b (c :: (r ++ '\n' :: q))).res = .ok (some k) ∧
      (nextRaw b (c :: (r ++ '\n' :: q))).literal = (nextRaw b (c :: r)).literal := by
    intro n lit hf
    rw [hf] at h
    rw [hf, hf]
    exact ⟨h, rfl⟩
  by_cases c1 : isLetter c = true
  · exact key (fun r => lexWord b (c :: r)) (fun r => by unfold nextRaw; dsimp only; rw [if_pos c1]) (ends_word b (c :: r) q)
  have n1 : ∀ r, nextRaw b (c :: r) = _ := fun r => by unfold nextRaw; dsimp only
  by_cases c2 : c = '.'
  · exact same _ _ fun r => by rw [n1, if_neg c1, if_pos c2]
  by_cases c3 : isDigit c = true
  · exact key (fun r => lexNumber (c :: r)) (fun r => by rw [n1, if_neg c1, if_neg c2, if_pos c3]) (ends_number (c :: r) q)
  by_cases c4 : c = '\''
  · refine key (fun r => lexDate ('\'' :: r)) (fun r => by rw [n1, if_neg c1, if_neg c2, if_neg c3, if_pos c4, c4]) (ends_date r q)
  by_cases c5 : isPunct c = true
  · exact same _ _ fun r => by rw [n1, if_neg c1, if_neg c2, if_neg c3, if_neg c4, if_pos c5]
  by_cases c6 : c = '='
  · exact same _ _ fun r => by rw [n1, if_neg c1, if_neg c2, if_neg c3, if_neg c4, if_neg c5, if_pos c6]
  by_cases c7 : c = '"'
  · refine key (fun r => lexString ('"' :: r)) (fun r => by rw [n1, if_neg c1, if_neg c2, if_neg c3, if_neg c4, if_neg c5, if_neg c6, if_pos c7, c7]) (ends_string r q)
  by_cases c8 : c = '<'
  · exact key lexLess (fun r => by rw [n1, if_neg c1, if_neg c2, if_neg c3, if_neg c4, if_neg c5, if_neg c6, if_neg c7, if_pos c8]) (ends_less r q)
  by_cases c9 : c = '>'
  · exact key lexGreater (fun r => by rw [n1, if_neg c1, if_neg c2, if_neg c3, if_neg c4, if_neg c5, if_neg c6, if_neg c7, if_neg c8, if_pos c9]) (ends_greater r q)
  by_cases c10 : c = '&'
  · exact key lexDirective (fun r => by
      rw [n1, if_neg c1, if_neg c2, if_neg c3, if_neg c4, if_neg c5, if_neg c6, if_neg c7, if_neg c8, if_neg c9, if_pos c10]) (ends_directive r q)
  by_cases c11 : c = '~'
  · exact key lexLabel (fun r => by
      rw [n1, if_neg c1, if_neg c2, if_neg c3, if_neg c4, if_neg c5, if_neg c6, if_neg c7, if_neg c8, if_neg c9, if_neg c10, if_pos c11]) (ends_label r q)
  rw [n1, if_neg c1, if_neg c2, if_neg c3, if_neg c4, if_neg c5, if_neg c6, if_neg c7, if_neg c8, if_neg c9, if_neg c10, if_neg c11] at h
  cases h

/-- The token at the end of a text is read the same way in front of a line feed. -/
theorem lexNext_newline {t t' : Tok} {k : Nat} (h : lexNext t = (t', .ok (some k))) (hr : t'.rest = []) {q : List Char} (hq : Sealed k q) :
    ∃ u, lexNext { t with rest := t.rest ++ '\n' :: q } = (u, .ok (some k)) ∧ u.literal = t'.literal := by
  obtain ⟨h1, h2, h3, h4⟩ := lexNext_parts h
  have hrest : t'.rest = (nextRaw t.prevDot (skipTrivia t.rest)).rest := by rw [← lexNext_rest, h]
  match hs : skipTrivia t.rest with
  | [] => rw [hs] at h1; simp [nextRaw] at h1
  | c :: r =>
    rw [hs] at h1 h2 h3 hrest
    rw [hrest] at hr
    obtain ⟨e1, e2⟩ := nextRaw_newline h1 hr hq
    unfold lexNext
    dsimp only
    rw [skipTrivia_newline hs q]
    unfold finish
    dsimp only
    rw [e1, e2]
    dsimp only
    rw [← h2, h4]
    exact ⟨_, rfl, rfl⟩

/-- The tokens of a text are the first tokens of the text with a line feed and anything else behind it. -/
theorem first_newline {q : List Char} {t : Tok} {l : List (Nat × Tok)} (h : Tokens t l) (hq : ∀ x, l.getLast? = some x → Sealed x.1 q) :
    ∃ l', FirstTokens { t with rest := t.rest ++ '\n' :: q } l' ∧ kinds l = kinds l' := by
  induction h with
  | eof _ => exact ⟨[], .nil _, rfl⟩
  | @next t t' k l hx hl ih =>
    by_cases hr : t'.rest = []
    · have : l = [] := by
        cases hl with
        | eof _ => rfl
        | next hy _ =>
          obtain ⟨h1, _⟩ := lexNext_parts hy
          rw [hr] at h1
          have : skipTrivia [] = [] := rfl
          rw [this] at h1
          simp [nextRaw] at h1
      subst this
      obtain ⟨u, hu, hlit⟩ := lexNext_newline hx hr (hq _ rfl)
      exact ⟨[(k, u)], .next hu (.nil _), by simp [kinds, hlit]⟩
    · obtain ⟨l', h1, h2⟩ := ih fun x hx' => hq x (by rw [List.getLast?_cons, hx']; rfl)
      refine ⟨_, .next (lexNext_append hx hr _) h1, ?_⟩
      unfold kinds at h2 ⊢
      rw [List.map_cons, List.map_cons, h2]

end Verif
