import Verif.Proofs.TextInv
import Verif.Spec.Errors
/-!
# Tokens do not depend on what comes later
-/
namespace Verif
open Spec Lexer LR

theorem dropWhile_append_ne {α : Type} {p : α → Bool} {s : List α} (h : s.dropWhile p ≠ []) (q : List α) :
    (s ++ q).takeWhile p = s.takeWhile p ∧ (s ++ q).dropWhile p = s.dropWhile p ++ q := by
  induction s with
  | nil => exact absurd rfl h
  | cons c s ih =>
    rw [List.cons_append, List.takeWhile_cons, List.takeWhile_cons, List.dropWhile_cons, List.dropWhile_cons]
    rw [List.dropWhile_cons] at h
    split
    · rename_i hp
      rw [if_pos hp] at h
      obtain ⟨h1, h2⟩ := ih h
      exact ⟨by rw [h1], h2⟩
    · exact ⟨rfl, rfl⟩

theorem skipSpace_append_ne {s : List Char} (h : skipSpace s ≠ []) (q : List Char) : skipSpace (s ++ q) = skipSpace s ++ q := by
  induction s with
  | nil => exact absurd rfl h
  | cons c s ih =>
    rw [List.cons_append, skipSpace, skipSpace]
    rw [skipSpace] at h
    split
    · rename_i hc
      rw [if_pos hc] at h
      exact ih h
    · rfl

theorem noQuoteNext_append {r : List Char} (h : NoQuoteNext r) (hr : skipSpace r ≠ []) (q : List Char) : NoQuoteNext (r ++ q) := by
  rw [noQuoteNext_iff] at h ⊢
  rw [skipSpace_append_ne hr]
  cases hs : skipSpace r with
  | nil => exact absurd hs hr
  | cons c s => rw [hs] at h; exact h

theorem skipTrivia_append {s : List Char} {c d : Char} {r : List Char} (h : skipTrivia s = c :: d :: r) (q : List Char) :
    skipTrivia (s ++ q) = c :: d :: (r ++ q) := by
  obtain ⟨w, h1, h2⟩ := skipTrivia_split s
  have hc := skipTrivia_clean s
  rw [h] at h1 h2 hc
  rw [h1, List.append_assoc, skipTrivia_layout (layout_of_split h2)]
  refine skipTrivia_of_clean ⟨fun c' r' e => ?_, fun r' e => ?_, fun r' e => ?_⟩
  · injection e with e; subst e; exact hc.1 _ _ rfl
  · injection e with e; subst e; exact hc.2.1 _ rfl
  · injection e with e e'; injection e' with e'; subst e; subst e'; exact hc.2.2 _ rfl

variable [Letters]

theorem scanIdentifier_append {s : List Char} (hs : (scanIdentifier s).2 ≠ []) (q : List Char) :
    scanIdentifier (s ++ q) = ((scanIdentifier s).1, (scanIdentifier s).2 ++ q) :=
  Prod.ext (dropWhile_append_ne hs q).1 (dropWhile_append_ne hs q).2

/-- A scan result that does not depend on what is appended. -/
def Stays (f : List Char → Raw) (r q : List Char) : Prop :=
  ∀ k, (f r).res = .ok (some k) → (f r).rest ≠ [] → f (r ++ q) = ⟨.ok (some k), (f r).literal, (f r).rest ++ q⟩

theorem stays_word (b : Bool) (s q : List Char) : Stays (lexWord b) s q := by
  intro k h hr
  have := scanIdentifier_append hr q
  unfold lexWord at h ⊢
  rw [this]
  dsimp only at h ⊢
  rw [h]

theorem stays_number (s q : List Char) : Stays lexNumber s q := by
  intro k h hr
  unfold lexNumber at h hr ⊢
  have hd : (s.dropWhile fun c => isDigit c || c == '.') ≠ [] := by
    intro e
    unfold scanNumber at hr
    dsimp only at hr
    rw [e] at hr
    exact hr rfl
  obtain ⟨e1, e2⟩ := dropWhile_append_ne hd q
  unfold scanNumber at h hr ⊢
  dsimp only at h hr ⊢
  rw [e1, e2]
  match hm : s.dropWhile fun c => isDigit c || c == '.', hd with
  | c' :: r', _ =>
    rw [hm] at h
    dsimp only [List.cons_append] at h ⊢
    by_cases hl : isLetter c' = true
    · rw [if_pos hl] at h; cases h
    · rw [if_neg hl] at h ⊢
      rw [if_neg hl]
      dsimp only at h ⊢
      rw [h, List.cons_append]

omit [Letters] in
theorem stays_date (r q : List Char) : Stays lexDate ('\'' :: r) q := by
  intro k h hr
  unfold lexDate at h hr ⊢
  split at h
  · cases h
  · rename_i v rest hscan
    rw [hscan] at hr
    obtain ⟨src, r1, h1, h2, h3, h4⟩ := scanString_date_inv _ _ _ _ (Nat.le_refl _) (by simp) hscan
    rw [List.tail_cons] at h1
    dsimp only at hr ⊢
    split at h
    · cases h
    · rename_i hne
      rw [if_neg hne] at hr
      rw [if_neg hne]
      dsimp only at hr ⊢
      rw [h4] at hr
      obtain ⟨v', g1, g2⟩ := scanString_date h2 '\'' (noQuoteNext_append h3 hr q)
      have e : '\'' :: r ++ q = '\'' :: (src ++ '\'' :: (r1 ++ q)) := by rw [h1]; simp
      rw [e, g1]
      dsimp only
      rw [g2, if_neg hne, skipSpace_append_ne hr, h4, ← h]

omit [Letters] in
theorem stays_string (r q : List Char) : Stays lexString ('"' :: r) q := by
  intro k h hr
  unfold lexString at h hr ⊢
  split at h
  · cases h
  · rename_i v rest hscan
    rw [hscan] at hr
    obtain ⟨src, r1, h1, h2, h3, h4⟩ := scanString_src_inv _ _ _ _ (Nat.le_refl _) (by simp) hscan
    rw [List.tail_cons] at h1
    dsimp only at hr ⊢
    rw [h4] at hr
    have e : '"' :: r ++ q = '"' :: (src ++ '"' :: (r1 ++ q)) := by rw [h1]; simp
    rw [e, scanString_src h2 _ (noQuoteNext_append h3 hr q)]
    dsimp only
    rw [skipSpace_append_ne hr, h4, ← h]

omit [Letters] in
theorem stays_less (r q : List Char) : Stays lexLess r q := by
  intro k h hr
  cases r with
  | nil => exact absurd rfl hr
  | cons d r =>
    by_cases h1 : d = '>'
    · subst h1
      rw [← h]; rfl
    · by_cases h2 : d = '='
      · subst h2
        rw [← h]; rfl
      · have e : ∀ r, lexLess (d :: r) = ⟨.ok (some '<'.toNat), ['<'], d :: r⟩ := by
          intro r
          unfold lexLess
          split
          · next e => injection e with e; exact absurd e h1
          · next e => injection e with e; exact absurd e h2
          · rfl
        rw [e] at h
        rw [List.cons_append, e, e, ← h]; rfl

omit [Letters] in
theorem stays_greater (r q : List Char) : Stays lexGreater r q := by
  intro k h hr
  cases r with
  | nil => exact absurd rfl hr
  | cons d r =>
    by_cases h2 : d = '='
    · subst h2
      rw [← h]; rfl
    · have e : ∀ r, lexGreater (d :: r) = ⟨.ok (some '>'.toNat), ['>'], d :: r⟩ := by
        intro r
        unfold lexGreater
        split
        · next e => injection e with e; exact absurd e h2
        · rfl
      rw [e] at h
      rw [List.cons_append, e, e, ← h]; rfl

theorem stays_directive (r q : List Char) : Stays lexDirective r q := by
  intro k h hr
  unfold lexDirective at h hr ⊢
  dsimp only at h hr ⊢
  split at h
  · rename_i k' hk'
    rw [hk'] at hr
    dsimp only at hr
    rw [scanIdentifier_append hr q]
    dsimp only
    rw [hk', ← h]
  · cases h

theorem stays_label (r q : List Char) : Stays lexLabel r q := by
  intro k h hr
  have := scanIdentifier_append hr q
  unfold lexLabel at h ⊢
  rw [this, ← h]

theorem nextRaw_append {b : Bool} {c : Char} {r : List Char} {k : Nat} (h : (nextRaw b (c :: r)).res = .ok (some k))
    (hr : (nextRaw b (c :: r)).rest ≠ []) (q : List Char) :
    nextRaw b (c :: (r ++ q)) = ⟨.ok (some k), (nextRaw b (c :: r)).literal, (nextRaw b (c :: r)).rest ++ q⟩ := by
  have key : ∀ f : List Char → Raw, (∀ r, nextRaw b (c :: r) = f r) → Stays f r q →
      nextRaw b (c :: (r ++ q)) = ⟨.ok (some k), (nextRaw b (c :: r)).literal, (nextRaw b (c :: r)).rest ++ q⟩ := by
    intro f hf hst
    rw [hf] at h hr
    rw [hf, hf]
    exact hst k h hr
  have same : ∀ n lit, (∀ r, nextRaw b (c :: r) = ⟨.ok (some n), lit, r⟩) →
      nextRaw b (c :: (r ++ q)) = ⟨.ok (some k), (nextRaw b (c :: r)).literal, (nextRaw b (c :: r)).rest ++ q⟩ := by
    intro n lit hf
    rw [hf] at h
    rw [hf, hf, ← h]
  by_cases c1 : isLetter c = true
  · exact key (fun r => lexWord b (c :: r)) (fun r => by unfold nextRaw; dsimp only; rw [if_pos c1]) (stays_word b (c :: r) q)
  have n1 : ∀ r, nextRaw b (c :: r) = _ := fun r => by unfold nextRaw; dsimp only
  by_cases c2 : c = '.'
  · exact same _ _ fun r => by rw [n1, if_neg c1, if_pos c2]
  by_cases c3 : isDigit c = true
  · exact key (fun r => lexNumber (c :: r)) (fun r => by rw [n1, if_neg c1, if_neg c2, if_pos c3]) (stays_number (c :: r) q)
  by_cases c4 : c = '\''
  · refine key (fun r => lexDate ('\'' :: r)) (fun r => by rw [n1, if_neg c1, if_neg c2, if_neg c3, if_pos c4, c4]) (stays_date r q)
  by_cases c5 : isPunct c = true
  · exact same _ _ fun r => by rw [n1, if_neg c1, if_neg c2, if_neg c3, if_neg c4, if_pos c5]
  by_cases c6 : c = '='
  · exact same _ _ fun r => by rw [n1, if_neg c1, if_neg c2, if_neg c3, if_neg c4, if_neg c5, if_pos c6]
  by_cases c7 : c = '"'
  · refine key (fun r => lexString ('"' :: r)) (fun r => by rw [n1, if_neg c1, if_neg c2, if_neg c3, if_neg c4, if_neg c5, if_neg c6, if_pos c7, c7]) (stays_string r q)
  by_cases c8 : c = '<'
  · exact key lexLess (fun r => by rw [n1, if_neg c1, if_neg c2, if_neg c3, if_neg c4, if_neg c5, if_neg c6, if_neg c7, if_pos c8]) (stays_less r q)
  by_cases c9 : c = '>'
  · exact key lexGreater (fun r => by rw [n1, if_neg c1, if_neg c2, if_neg c3, if_neg c4, if_neg c5, if_neg c6, if_neg c7, if_neg c8, if_pos c9]) (stays_greater r q)
  by_cases c10 : c = '&'
  · exact key lexDirective (fun r => by
      rw [n1, if_neg c1, if_neg c2, if_neg c3, if_neg c4, if_neg c5, if_neg c6, if_neg c7, if_neg c8, if_neg c9, if_pos c10]) (stays_directive r q)
  by_cases c11 : c = '~'
  · exact key lexLabel (fun r => by
      rw [n1, if_neg c1, if_neg c2, if_neg c3, if_neg c4, if_neg c5, if_neg c6, if_neg c7, if_neg c8, if_neg c9, if_neg c10, if_pos c11]) (stays_label r q)
  rw [n1, if_neg c1, if_neg c2, if_neg c3, if_neg c4, if_neg c5, if_neg c6, if_neg c7, if_neg c8, if_neg c9, if_neg c10, if_neg c11] at h
  cases h

/-- A token in front of more text is read the same way whatever is appended. -/
theorem lexNext_append {t t' : Tok} {k : Nat} (h : lexNext t = (t', .ok (some k))) (hr : t'.rest ≠ []) (q : List Char) :
    lexNext { t with rest := t.rest ++ q } = ({ t' with rest := t'.rest ++ q }, .ok (some k)) := by
  obtain ⟨h1, h2, h3, h4⟩ := lexNext_parts h
  have hrest : t'.rest = (nextRaw t.prevDot (skipTrivia t.rest)).rest := by rw [← lexNext_rest, h]
  match hs : skipTrivia t.rest with
  | [] => rw [hs] at h1; simp [nextRaw] at h1
  | [c] =>
    rw [hs] at hrest
    have := (nextRaw_suffix t.prevDot c []).length_le
    rw [← hrest] at this
    exact absurd (List.length_eq_zero_iff.1 (by simpa using this)) hr
  | c :: d :: r =>
    rw [hs] at h1 h2 h3 hrest
    rw [hrest] at hr
    have e := nextRaw_append h1 hr q
    unfold lexNext
    dsimp only
    rw [skipTrivia_append hs q]
    rw [List.cons_append] at e
    rw [e]
    unfold finish
    dsimp only
    rw [← h2, h4]
    dsimp only
    rw [hrest, h3]
    rfl

theorem first_suffix {t : Tok} {l : List (Nat × Tok)} (h : FirstTokens t l) : ∀ x ∈ l, x.2.rest <:+ t.rest := by
  induction h with
  | nil => exact nofun
  | @next t t' k l hx _ ih =>
    have h1 : t'.rest <:+ t.rest := by have := lexNext_suffix t; rwa [hx] at this
    intro x hm
    rcases List.mem_cons.1 hm with rfl | hm
    · exact h1
    · exact (ih x hm).trans h1

theorem first_append (q : List Char) {t : Tok} {l : List (Nat × Tok)} (h : FirstTokens t l) (hr : ∀ x, l.getLast? = some x → x.2.rest ≠ []) :
    FirstTokens { t with rest := t.rest ++ q } (l.map (followedBy q)) := by
  induction h with
  | nil => exact .nil _
  | @next t t' k l hx hl ih =>
    have key : t'.rest ≠ [] := by
      rcases List.eq_nil_or_concat l with rfl | ⟨l', y, rfl⟩
      · exact hr _ rfl
      · have h1 := hr y (by rw [List.concat_eq_append, List.getLast?_cons, List.getLast?_append]; rfl)
        have h2 : y.2.rest <:+ t'.rest := first_suffix hl y (by simp)
        intro e
        rw [e] at h2
        exact h1 (List.suffix_nil.1 h2)
    refine .next (lexNext_append hx key q) (ih ?_)
    intro x hx'
    refine hr x ?_
    rw [List.getLast?_cons, hx']
    rfl

end Verif
