import Verif.Proofs.LexTok
import Verif.Spec.Str
/-! The string scanner against its specification. -/
namespace Verif.Lexer
open List Spec

theorem skipSpace_blanks {b : List Char} (hb : ∀ c ∈ b, Blank c) (s : List Char) :
    skipSpace (b ++ s) = skipSpace s := by
  induction b with
  | nil => rfl
  | cons c b ih =>
    simp only [mem_cons, forall_eq_or_imp] at hb
    rw [cons_append, skipSpace, if_pos ((isSpace_iff c).2 hb.1), ih hb.2]

theorem noQuoteNext_iff (r : List Char) : NoQuoteNext r ↔ (skipSpace r).head? ≠ some '"' := by
  constructor
  · intro h e
    obtain ⟨b, hb, hr⟩ := skipSpace_split r
    cases hs : skipSpace r with
    | nil => rw [hs] at e; cases e
    | cons c s =>
      rw [hs] at e
      simp only [head?_cons, Option.some.injEq] at e
      subst e
      exact h b _ hr (fun c hc => (isSpace_iff c).1 (hb c hc)) s hs
  · intro h b s hr hb s' hs
    apply h
    rw [hr, skipSpace_blanks hb, hs]
    rfl

theorem skipSpace_bar (s : List Char) : skipSpace ('|' :: s) = '|' :: s := by
  rw [skipSpace, if_neg (by decide)]

theorem skipComment_bar (s : List Char) : skipComment ('|' :: s) = '|' :: s :=
  skipComment_other (by simp)

/-- Skipping a `LineLayout` in front of a bar. -/
theorem skip_lineLayout {l : List Char} (h : LineLayout l) (s : List Char) :
    skipComment (skipSpace (l ++ '|' :: s)) = '|' :: s := by
  have hbar : skipTrivia ('|' :: s) = '|' :: s :=
    skipTrivia_of_clean ⟨by intro c r e; cases e; decide, by simp, by simp⟩
  cases h with
  | blanks hb => rw [skipSpace_blanks hb, skipSpace_bar, skipComment_bar]
  | comment hb ht hw =>
    rw [append_assoc, skipSpace_blanks hb, cons_append, cons_append, skipSpace, if_neg (by decide),
      skipComment_slash, dispatch_eq, append_assoc, cons_append, skipLine_append ht, skipLine_nl,
      skipSpace_nl]
    rw [← skipTrivia_eq, skipTrivia_layout hw, hbar]

theorem skipComment_notSpace {s : List Char} (h : ∀ c r, s = c :: r → isSpace c = false) :
    ∀ c r, skipComment s = c :: r → isSpace c = false := by
  by_cases hc : ∃ r, s = '/' :: '/' :: r
  · obtain ⟨r, rfl⟩ := hc
    rw [skipComment_slash, dispatch_eq]
    exact (skipRegions_clean _ _ (Nat.le_refl _) (skipSpace_clean _)).1
  · rw [skipComment_other (fun r e => hc ⟨r, e⟩)]
    exact h

/-- What the scanner skips in front of a bar is a `LineLayout`. -/
theorem lineLayout_of_skip {r s : List Char} (h : skipComment (skipSpace r) = '|' :: s) :
    ∃ l, LineLayout l ∧ r = l ++ '|' :: s := by
  obtain ⟨b, hb, hr⟩ := skipSpace_split r
  have hb' : ∀ c ∈ b, Blank c := fun c hc => (isSpace_iff c).1 (hb c hc)
  by_cases hc : ∃ q, skipSpace r = '/' :: '/' :: q
  · obtain ⟨q, hq⟩ := hc
    rw [hq, skipComment_slash, dispatch_eq] at h
    obtain ⟨t, ht, hqt, hcase⟩ := skipLine_split q
    rcases hcase with h0 | ⟨q', hq'⟩
    · rw [h0] at h
      rw [show skipSpace [] = [] from rfl, skipRegions_of_clean (by simp [Clean])] at h
      cases h
    · rw [hq', skipSpace_nl] at h
      have h' : skipTrivia q' = '|' :: s := by rw [skipTrivia_eq]; exact h
      obtain ⟨w, hw, hlay⟩ := skipTrivia_split q'
      rw [h'] at hw hlay
      rcases hlay with hlay | ⟨h0, _⟩
      · refine ⟨_, .comment hb' ht hlay, ?_⟩
        rw [hr, hq, hqt, hq', hw]; simp
      · cases h0
  · rw [skipComment_other (fun q e => hc ⟨q, e⟩)] at h
    exact ⟨b, .blanks hb', by rw [← h]; exact hr⟩

theorem addLit_ok {p v r : List Char} {x : Except LexErr (List Char) × List Char}
    (h : addLit p x = (.ok v, r)) : ∃ v', x = (.ok v', r) ∧ v = p ++ v' := by
  rcases x with ⟨_ | l, r'⟩
  · simp [addLit] at h
  · simp only [addLit, Prod.mk.injEq, Except.ok.injEq] at h
    exact ⟨l, by rw [h.2], h.1.symm⟩

/-- The scanner reads what the specification says. -/
theorem scanString_src {s v : List Char} (h : StrSrc s v) (a : Char) {r : List Char} (hr : NoQuoteNext r) :
    scanString '"' (a :: (s ++ '"' :: r)) = (.ok v, skipSpace r) := by
  induction h generalizing a with
  | nil =>
    have h1 : r.head? ≠ some '"' := by
      intro e
      cases r with
      | nil => cases e
      | cons c r =>
        simp only [head?_cons, Option.some.injEq] at e
        subst e
        exact hr [] _ rfl (by simp) _ rfl
    rw [scanString_eq]
    simp only [nil_append, tail_cons]
    rw [if_neg (by decide), if_pos trivial, if_neg h1, if_neg ((noQuoteNext_iff r).1 hr)]
  | plain h1 h2 _ ih =>
    rw [scanString_eq]
    simp only [cons_append, tail_cons]
    rw [if_neg h2, if_neg h1, ih]
    rfl
  | quote _ ih =>
    rw [scanString_eq]
    simp only [cons_append, tail_cons]
    rw [if_neg (by decide), if_pos trivial, head?_cons, if_pos rfl, ih]
    rfl
  | line hl _ ih =>
    rw [scanString_eq]
    simp only [cons_append, tail_cons, append_assoc]
    rw [if_pos trivial, skip_lineLayout hl]
    dsimp only
    rw [if_neg (by simp), ih]
    rfl
  | @join b s v hne hb _ ih =>
    have hb0 : ∃ c b', b = c :: b' := by cases b; exact absurd rfl hne; exact ⟨_, _, rfl⟩
    obtain ⟨c, b', rfl⟩ := hb0
    have hc : c ≠ '"' := by
      rintro rfl
      have := hb _ mem_cons_self
      simp [Blank] at this
    rw [scanString_eq]
    simp only [cons_append, tail_cons, append_assoc]
    have hq : skipSpace (c :: (b' ++ '"' :: (s ++ '"' :: r))) = '"' :: (s ++ '"' :: r) := by
      rw [← cons_append, skipSpace_blanks hb, skipSpace, if_neg (by decide)]
    rw [if_neg (by decide), if_pos trivial, if_neg (by simpa using hc), hq, head?_cons, if_pos rfl, ih]

/-- Whatever the scanner accepts is described by the specification. -/
theorem scanString_src_inv (n : Nat) : ∀ (s v rest : List Char), s.length ≤ n → s ≠ [] →
    scanString '"' s = (.ok v, rest) →
    ∃ src r, s.tail = src ++ '"' :: r ∧ StrSrc src v ∧ NoQuoteNext r ∧ rest = skipSpace r := by
  induction n with
  | zero => intro s v rest hs hne; cases s; exact absurd rfl hne; simp at hs
  | succ n ih =>
    intro s v rest hs _ h
    rw [scanString_eq] at h
    cases s with
    | nil => simp at h
    | cons a s =>
      rw [tail_cons] at h ⊢
      simp only [length_cons] at hs
      cases s with
      | nil => simp at h
      | cons c s =>
        simp only [length_cons] at hs
        dsimp only at h
        split at h
        · rename_i hc
          subst hc
          have hns := skipComment_notSpace (skipSpace_clean s)
          have hlen := ((skipComment_suffix (skipSpace s)).trans (skipSpace_suffix s)).length_le
          split at h
          · simp at h
          · rename_i d r' hd
            rw [hd] at hlen
            split at h
            · simp at h
            · rename_i hbar
              obtain ⟨v', h', rfl⟩ := addLit_ok h
              have hd' : d = '|' := by
                have hsp := hns d r' hd
                apply Classical.byContradiction
                intro h0
                exact hbar ⟨h0, by simp [hsp]⟩
              subst hd'
              obtain ⟨src, r, h1, h2, h3, h4⟩ := ih _ _ _ (by omega) (by simp) h'
              obtain ⟨l, hl, hs'⟩ := lineLayout_of_skip hd
              refine ⟨'\n' :: (l ++ '|' :: src), r, ?_, .line hl h2, h3, h4⟩
              rw [hs']
              rw [tail_cons] at h1
              rw [h1]; simp
        · rename_i hc
          split at h
          · rename_i hq
            subst hq
            split at h
            · rename_i hh
              obtain ⟨v', h', rfl⟩ := addLit_ok h
              cases s with
              | nil => cases hh
              | cons e s =>
                simp only [head?_cons, Option.some.injEq] at hh
                subst hh
                obtain ⟨src, r, h1, h2, h3, h4⟩ := ih _ _ _ (by simp only [length_cons] at hs ⊢; omega) (by simp) h'
                rw [tail_cons] at h1
                exact ⟨'"' :: '"' :: src, r, by rw [h1]; rfl, .quote h2, h3, h4⟩
            · rename_i hh
              split at h
              · rename_i hh2
                obtain ⟨b, hb, hbe⟩ := skipSpace_split s
                cases hs2 : skipSpace s with
                | nil => rw [hs2] at hh2; cases hh2
                | cons e s2 =>
                  rw [hs2] at hh2
                  simp only [head?_cons, Option.some.injEq] at hh2
                  subst hh2
                  rw [hs2] at h
                  have hl2 := skipSpace_len s
                  rw [hs2] at hl2
                  obtain ⟨src, r, h1, h2, h3, h4⟩ := ih _ _ _ (by omega) (by simp) h
                  rw [tail_cons] at h1
                  refine ⟨'"' :: (b ++ '"' :: src), r, ?_, .join ?_ (fun c hc => (isSpace_iff c).1 (hb c hc)) h2, h3, h4⟩
                  · conv => lhs; rw [hbe, hs2, h1]
                    simp
                  · rintro rfl
                    rw [hs2] at hbe
                    rw [hbe] at hh
                    exact hh rfl
              · rename_i hh2
                simp only [Prod.mk.injEq, Except.ok.injEq] at h
                exact ⟨[], s, rfl, by rw [← h.1]; exact .nil, (noQuoteNext_iff s).2 hh2, h.2.symm⟩
          · rename_i hq
            obtain ⟨v', h', rfl⟩ := addLit_ok h
            obtain ⟨src, r, h1, h2, h3, h4⟩ := ih _ _ _ (by simp only [length_cons]; omega) (by simp) h'
            rw [tail_cons] at h1
            exact ⟨c :: src, r, by rw [h1]; rfl, .plain hq hc h2, h3, h4⟩

theorem strSrc_val {s v : List Char} (h : StrSrc s v) : StrVal v := by
  induction h with
  | nil => exact .nil
  | plain h1 h2 _ ih => exact .plain h1 h2 ih
  | quote _ ih => exact .quote ih
  | line _ _ ih => exact .line ih
  | join _ _ _ ih => exact ih

theorem strVal_src {v : List Char} (h : StrVal v) : StrSrc v v := by
  induction h with
  | nil => exact .nil
  | plain h1 h2 _ ih => exact .plain h1 h2 ih
  | quote _ ih => exact .quote ih
  | line _ ih => exact .line (l := []) (.blanks (by simp)) ih

variable [Letters]

theorem isLetter_ascii_false {c : Char} (h1 : c.toNat < 128) (h2 : c.isAlpha = false) (h3 : c ≠ '_') :
    isLetter c = false := by
  simp [isLetter, Letters.ascii c h1, h2, h3]

theorem nextRaw_quote (b : Bool) (s : List Char) : nextRaw b ('"' :: s) = lexString ('"' :: s) := by
  unfold nextRaw
  dsimp only
  rw [isLetter_ascii_false (by decide) (by decide) (by decide)]
  rfl

/-- Token numbers given by the branches of `nextRaw`. -/
theorem nextRaw_string_kind {b : Bool} {c : Char} {r : List Char}
    (h : (nextRaw b (c :: r)).res = .ok (some tString)) : c = '"' := by
  by_cases hc : c = '"'
  · exact hc
  exfalso
  revert h
  unfold nextRaw
  dsimp only
  have hs : tString = 57372 := rfl
  rw [hs]
  split
  · unfold lexWord
    dsimp only
    intro h; injection h with h; injection h with h
    split at h
    · rename_i k hk
      split at h
      · revert h; decide
      · have hall : ∀ p ∈ keywordTable, p.2 ≠ 57372 := by decide +kernel
        exact hall _ ((keywords_iff _ _).1 hk) h
    · revert h; decide
  split
  · intro h; injection h with h; injection h with h; revert h; decide
  split
  · unfold lexNumber; split
    · simp
    · intro h; injection h with h; injection h with h; revert h; decide
  split
  · unfold lexDate; split
    · simp
    · split
      · simp
      · intro h; injection h with h; injection h with h; revert h; decide
  split
  · rename_i hp
    have := isPunct_ascii hp
    intro h; injection h with h; injection h with h
    omega
  split
  · intro h; injection h with h; injection h with h; revert h; decide
  split
  · unfold lexLess; split <;> (intro h; injection h with h; injection h with h; revert h; decide)
  split
  · unfold lexGreater; split <;> (intro h; injection h with h; injection h with h; revert h; decide)
  split
  · unfold lexDirective
    dsimp only
    split
    · rename_i k' hk'
      have hall : ∀ p ∈ directives, p.2 = tDirective := by decide +kernel
      obtain ⟨l1, l2, he, _⟩ := lookup_eq_some_iff.1 hk'
      have := hall (lower ('&' :: (scanIdentifier r).fst), k') (by rw [he]; simp)
      dsimp only at this
      intro h; injection h with h; injection h with h; rw [this] at h; revert h; decide
    · simp
  split
  · unfold lexLabel
    intro h; injection h with h; injection h with h; revert h; decide
  · simp

omit [Letters] in
theorem quote_clean (s : List Char) : Clean ('"' :: s) :=
  ⟨by intro c r e; cases e; decide, by simp, by simp⟩

theorem lexNext_string (t : Tok) {l s v r : List Char} (hl : Layout l) (hs : StrSrc s v) (hr : NoQuoteNext r)
    (ht : t.rest = l ++ '"' :: (s ++ '"' :: r)) :
    (lexNext t).2 = .ok (some tString) ∧ (lexNext t).1 = ⟨v, .str v, skipSpace r, false⟩ := by
  have h1 : skipTrivia t.rest = '"' :: (s ++ '"' :: r) := by
    rw [ht, skipTrivia_layout hl, skipTrivia_of_clean (quote_clean _)]
  have h2 : nextRaw t.prevDot (skipTrivia t.rest) = ⟨.ok (some tString), v, skipSpace r⟩ := by
    rw [h1, nextRaw_quote]
    unfold lexString
    rw [scanString_src hs _ hr]
  unfold lexNext
  dsimp only
  rw [h2, h1]
  cases t.prevDot <;> exact ⟨rfl, rfl⟩

theorem lexNext_string_inv {t : Tok} (h : (lexNext t).2 = .ok (some tString)) :
    ∃ l s v r, t.rest = l ++ '"' :: (s ++ '"' :: r) ∧ Layout l ∧ StrSrc s v ∧ NoQuoteNext r := by
  have hres := lexNext_res_ok h
  obtain ⟨l, hl, hl'⟩ := skipTrivia_split t.rest
  cases hs : skipTrivia t.rest with
  | nil => rw [hs] at hres; simp [nextRaw] at hres
  | cons c s =>
    rw [hs] at hres hl hl'
    have hc := nextRaw_string_kind hres
    subst hc
    rw [nextRaw_quote] at hres
    unfold lexString at hres
    split at hres
    · simp at hres
    · rename_i v rest hscan
      obtain ⟨src, r, h1, h2, h3, _⟩ := scanString_src_inv _ _ _ _ (Nat.le_refl _) (by simp) hscan
      refine ⟨l, src, v, r, by rw [hl, tail_cons] at *; rw [h1], ?_, h2, h3⟩
      rcases hl' with h | ⟨h, _⟩
      · exact h
      · cases h

end Verif.Lexer
