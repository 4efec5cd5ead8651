import Verif.Proofs.LexScan
import Verif.Spec.Lex
/-! `skipTrivia` removes exactly the layout in front of a token. -/
namespace Verif.Lexer
open List Spec

theorem isSpace_iff (c : Char) : isSpace c = true ↔ Blank c := by
  simp [isSpace, Blank, or_assoc]

theorem skipLine_append {t : List Char} (h : '\n' ∉ t) (r : List Char) :
    skipLine (t ++ r) = skipLine r := by
  induction t with
  | nil => rfl
  | cons c t ih =>
    simp only [mem_cons, not_or] at h
    rw [cons_append, skipLine, if_neg (fun e => h.1 e.symm), ih h.2]

theorem skipLine_nl (r : List Char) : skipLine ('\n' :: r) = '\n' :: r := by simp [skipLine]

theorem skipSpace_nl (r : List Char) : skipSpace ('\n' :: r) = skipSpace r := by simp [skipSpace, isSpace]

/-- The text does not start with layout. -/
def Clean (s : List Char) : Prop :=
  (∀ c r, s = c :: r → isSpace c = false) ∧ (∀ r, s ≠ '#' :: r) ∧ (∀ r, s ≠ '/' :: '/' :: r)

theorem skipSpace_clean (s : List Char) : ∀ c r, skipSpace s = c :: r → isSpace c = false := by
  induction s with
  | nil => simp [skipSpace]
  | cons a t ih =>
    intro c r h
    rw [skipSpace] at h
    split at h
    · exact ih c r h
    · rename_i hh; cases h; simpa using hh

theorem skipSpace_of_clean {s : List Char} (h : ∀ c r, s = c :: r → isSpace c = false) :
    skipSpace s = s := by
  cases s with
  | nil => rfl
  | cons c r => simp [skipSpace, h c r rfl]

theorem skipRegions_of_clean {s : List Char} (h : Clean s) : skipRegions s = s := by
  rw [skipRegions_other h.2.1, skipComment_other h.2.2]

/-- `skipRegions` in closed form on texts not starting with a blank. -/
theorem skipRegions_step (s : List Char) :
    skipRegions s = s ∧ (∀ r, s ≠ '#' :: r) ∧ (∀ r, s ≠ '/' :: '/' :: r) ∨
    (∃ r, (s = '#' :: r ∨ s = '/' :: '/' :: r) ∧ skipRegions s = skipRegions (skipSpace (skipLine r))) := by
  by_cases h : ∃ r, s = '#' :: r
  · obtain ⟨r, rfl⟩ := h
    exact .inr ⟨r, .inl rfl, by rw [skipRegions_hash, dispatch_eq]⟩
  · by_cases h' : ∃ r, s = '/' :: '/' :: r
    · obtain ⟨r, rfl⟩ := h'
      refine .inr ⟨r, .inr rfl, ?_⟩
      rw [skipRegions_other (fun r e => h ⟨r, e⟩), skipComment_slash, dispatch_eq]
    · refine .inl ⟨?_, fun r e => h ⟨r, e⟩, fun r e => h' ⟨r, e⟩⟩
      rw [skipRegions_other (fun r e => h ⟨r, e⟩), skipComment_other (fun r e => h' ⟨r, e⟩)]

theorem skipRegions_clean (n : Nat) : ∀ s : List Char, s.length ≤ n →
    (∀ c r, s = c :: r → isSpace c = false) → Clean (skipRegions s) := by
  induction n with
  | zero =>
    intro s hs _
    have : s = [] := by cases s; rfl; simp at hs
    subst this
    rw [skipRegions_of_clean (by simp [Clean])]
    simp [Clean]
  | succ n ih =>
    intro s hs hc
    rcases skipRegions_step s with ⟨h, h1, h2⟩ | ⟨r, h, e⟩
    · rw [h]; exact ⟨hc, h1, h2⟩
    · rw [e]
      refine ih _ ?_ (skipSpace_clean _)
      have := Nat.le_trans (skipSpace_len (skipLine r)) (skipLine_len r)
      rcases h with rfl | rfl <;> simp only [length_cons] at hs <;> omega

theorem skipTrivia_eq (s : List Char) : skipTrivia s = skipRegions (skipSpace s) := by
  unfold skipTrivia
  by_cases h : ∃ r, skipSpace s = '/' :: '/' :: r
  · obtain ⟨r, h⟩ := h
    have e : skipRegions (skipSpace s) = skipComment (skipSpace s) := by
      rw [h]; exact skipRegions_other (by simp)
    rw [← e]
    exact skipRegions_of_clean (skipRegions_clean _ _ (Nat.le_refl _) (skipSpace_clean s))
  · rw [skipComment_other (fun r e => h ⟨r, e⟩)]

theorem skipTrivia_clean (s : List Char) : Clean (skipTrivia s) := by
  rw [skipTrivia_eq]; exact skipRegions_clean _ _ (Nat.le_refl _) (skipSpace_clean s)

theorem skipTrivia_of_clean {s : List Char} (h : Clean s) : skipTrivia s = s := by
  rw [skipTrivia_eq, skipSpace_of_clean h.1, skipRegions_of_clean h]

/-- Layout in front of a text is skipped. -/
theorem skipTrivia_layout {w : List Char} (h : Layout w) (s : List Char) :
    skipTrivia (w ++ s) = skipTrivia s := by
  induction h with
  | nil => rfl
  | blank hc _ ih =>
    rw [← ih, skipTrivia_eq, skipTrivia_eq, cons_append, skipSpace, if_pos ((isSpace_iff _).2 hc)]
  | @comment t w ht _ ih =>
    rw [← ih, skipTrivia_eq, skipTrivia_eq]
    have e : skipSpace ('/' :: '/' :: (t ++ '\n' :: w) ++ s) = '/' :: '/' :: (t ++ '\n' :: (w ++ s)) := by
      simp [skipSpace, isSpace]
    rw [e, skipRegions_other (by simp), skipComment_slash, dispatch_eq, skipLine_append ht, skipLine_nl,
      skipSpace_nl]
  | @hash t w ht _ ih =>
    rw [← ih, skipTrivia_eq, skipTrivia_eq]
    have e : skipSpace ('#' :: (t ++ '\n' :: w) ++ s) = '#' :: (t ++ '\n' :: (w ++ s)) := by
      simp [skipSpace, isSpace]
    rw [e, skipRegions_hash, dispatch_eq, skipLine_append ht, skipLine_nl, skipSpace_nl]

theorem _root_.Verif.Spec.Layout.append {v w : List Char} (h : Layout v) (h' : Layout w) : Layout (v ++ w) := by
  induction h with
  | nil => exact h'
  | blank hc _ ih => exact .blank hc ih
  | comment ht _ ih => simpa using Layout.comment ht ih
  | hash ht _ ih => simpa using Layout.hash ht ih

theorem skipSpace_split (s : List Char) : ∃ w, (∀ c ∈ w, isSpace c = true) ∧ s = w ++ skipSpace s := by
  induction s with
  | nil => exact ⟨[], by simp, rfl⟩
  | cons c r ih =>
    by_cases h : isSpace c
    · obtain ⟨w, h1, h2⟩ := ih
      refine ⟨c :: w, by simp [h]; exact h1, ?_⟩
      rw [skipSpace, if_pos h, cons_append, ← h2]
    · exact ⟨[], by simp, by simp [skipSpace, h]⟩

theorem blanks_layout {w : List Char} (h : ∀ c ∈ w, isSpace c = true) : Layout w := by
  induction w with
  | nil => exact .nil
  | cons c w ih =>
    simp only [mem_cons, forall_eq_or_imp] at h
    exact .blank ((isSpace_iff c).1 h.1) (ih h.2)

theorem skipLine_split (s : List Char) :
    ∃ t, '\n' ∉ t ∧ s = t ++ skipLine s ∧ (skipLine s = [] ∨ ∃ r, skipLine s = '\n' :: r) := by
  induction s with
  | nil => exact ⟨[], by simp, rfl, .inl rfl⟩
  | cons c r ih =>
    by_cases h : c = '\n'
    · subst h; exact ⟨[], by simp, by simp [skipLine], .inr ⟨r, by simp [skipLine]⟩⟩
    · obtain ⟨t, h1, h2, h3⟩ := ih
      have e : skipLine (c :: r) = skipLine r := by rw [skipLine, if_neg h]
      refine ⟨c :: t, ?_, ?_, ?_⟩
      · simp only [mem_cons, not_or]; exact ⟨fun e => h e.symm, h1⟩
      · rw [e, cons_append, ← h2]
      · rw [e]; exact h3

/-- What is skipped is layout; up to the end of the text if nothing remains. -/
theorem skipRegions_split (n : Nat) : ∀ s : List Char, s.length ≤ n →
    ∃ w, s = w ++ skipRegions s ∧ (Layout w ∨ (skipRegions s = [] ∧ FinalLayout w)) := by
  induction n with
  | zero =>
    intro s hs
    have : s = [] := by cases s; rfl; simp at hs
    subst this
    exact ⟨[], by rw [skipRegions_of_clean (by simp [Clean])]; rfl, .inl .nil⟩
  | succ n ih =>
    intro s hs
    rcases skipRegions_step s with ⟨h, h1, h2⟩ | ⟨r, h, e⟩
    · exact ⟨[], by rw [h]; rfl, .inl .nil⟩
    · obtain ⟨t, ht, hr, hcase⟩ := skipLine_split r
      have hl : r.length ≤ n := by
        rcases h with rfl | rfl <;> simp only [length_cons] at hs <;> omega
      rcases hcase with hnil | ⟨r', hr'⟩
      · -- the line runs to the end of the text
        have e0 : skipRegions s = [] := by
          rw [e, hnil]; exact skipRegions_of_clean (by simp [Clean, skipSpace])
        rw [hnil, append_nil] at hr
        refine ⟨s, by rw [e0, append_nil], .inr ⟨e0, ?_⟩⟩
        rcases h with rfl | rfl
        · exact FinalLayout.hash (w := []) .nil (hr ▸ ht)
        · exact FinalLayout.comment (w := []) .nil (hr ▸ ht)
      · rw [hr', skipSpace_nl] at e
        obtain ⟨b, hb, hbe⟩ := skipSpace_split r'
        have hl' : (skipSpace r').length ≤ n := by
          have h1 := skipSpace_len r'
          have h2 : r.length = t.length + (r'.length + 1) := by
            conv => lhs; rw [hr, hr']
            simp
          omega
        obtain ⟨w, hw, hlay⟩ := ih _ hl'
        have hr2 : r = t ++ '\n' :: (b ++ (w ++ skipRegions (skipSpace r'))) := by
          rw [← hw, ← hbe, ← hr', ← hr]
        rw [e]
        have hB := blanks_layout hb
        generalize skipRegions (skipSpace r') = q at hr2 hlay
        subst hr2
        rcases h with rfl | rfl
        · refine ⟨'#' :: (t ++ '\n' :: (b ++ w)), by simp, ?_⟩
          rcases hlay with hlay | ⟨h0, hlay⟩
          · exact .inl (.hash ht (hB.append hlay))
          · refine .inr ⟨h0, ?_⟩
            cases hlay with
            | layout h => exact .layout (.hash ht (hB.append h))
            | @comment w t' h h' =>
              have := FinalLayout.comment (Layout.hash ht (hB.append h)) h'
              simpa using this
            | @hash w t' h h' =>
              have := FinalLayout.hash (Layout.hash ht (hB.append h)) h'
              simpa using this
        · refine ⟨'/' :: '/' :: (t ++ '\n' :: (b ++ w)), by simp, ?_⟩
          rcases hlay with hlay | ⟨h0, hlay⟩
          · exact .inl (.comment ht (hB.append hlay))
          · refine .inr ⟨h0, ?_⟩
            cases hlay with
            | layout h => exact .layout (.comment ht (hB.append h))
            | @comment w t' h h' =>
              have := FinalLayout.comment (Layout.comment ht (hB.append h)) h'
              simpa using this
            | @hash w t' h h' =>
              have := FinalLayout.hash (Layout.comment ht (hB.append h)) h'
              simpa using this

theorem skipTrivia_split (s : List Char) :
    ∃ w, s = w ++ skipTrivia s ∧ (Layout w ∨ (skipTrivia s = [] ∧ FinalLayout w)) := by
  obtain ⟨b, hb, hbe⟩ := skipSpace_split s
  obtain ⟨w, hw, hlay⟩ := skipRegions_split _ (skipSpace s) (Nat.le_refl _)
  rw [skipTrivia_eq]
  refine ⟨b ++ w, by rw [append_assoc, ← hw, ← hbe], ?_⟩
  have hB := blanks_layout hb
  rcases hlay with h | ⟨h0, h⟩
  · exact .inl (hB.append h)
  · refine .inr ⟨h0, ?_⟩
    cases h with
    | layout h => exact .layout (hB.append h)
    | comment h h' => rw [← append_assoc]; exact .comment (hB.append h) h'
    | hash h h' => rw [← append_assoc]; exact .hash (hB.append h) h'

theorem skipTrivia_final {w : List Char} (h : FinalLayout w) : skipTrivia w = [] := by
  have hn : ∀ t : List Char, '\n' ∉ t → skipLine t = [] := by
    intro t ht
    have := skipLine_append ht []
    simpa [skipLine] using this
  have h0 : skipRegions [] = [] := skipRegions_of_clean (by simp [Clean])
  cases h with
  | layout h => have := skipTrivia_layout h []; rw [append_nil] at this; rw [this, skipTrivia_eq]; exact h0
  | comment h ht =>
    rw [skipTrivia_layout h, skipTrivia_eq]
    have e : ∀ t, skipSpace ('/' :: t) = '/' :: t := by intro t; simp [skipSpace, isSpace]
    rw [e, skipRegions_other (by simp), skipComment_slash, dispatch_eq, hn _ ht]
    exact h0
  | hash h ht =>
    rw [skipTrivia_layout h, skipTrivia_eq]
    have e : ∀ t, skipSpace ('#' :: t) = '#' :: t := by intro t; simp [skipSpace, isSpace]
    rw [e, skipRegions_hash, dispatch_eq, hn _ ht]
    exact h0

end Verif.Lexer
