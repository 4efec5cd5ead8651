import Verif.Proofs.LexWord
import Verif.Spec.Words
/-! Facts on whole tokens. -/
namespace Verif.Lexer
open List Spec
variable [Letters]

theorem isLetter_iff (c : Char) : isLetter c = true ↔ WordStart c := by
  simp [isLetter, WordStart]

theorem isWordChar_iff (c : Char) : isWordChar c = true ↔ WordPart c := by
  simp [isWordChar, WordPart, isLetter_iff, isDigit_iff]

theorem wordEnds_iff {r : List Char} : WordEnds r ↔ ∀ d r', r = d :: r' → isWordChar d = false := by
  unfold WordEnds
  constructor
  · intro h d r' e
    have := h d r' e
    rw [← isWordChar_iff] at this
    simpa using this
  · intro h d r' e hw
    have := h d r' e
    rw [← isWordChar_iff] at hw
    simp [hw] at this

omit [Letters] in
theorem wordKind_spec (w : List Char) : KindOf w (wordKind false w) := by
  unfold wordKind
  rw [lower_eq]
  cases h : keywords.lookup (w.map lowerChar) with
  | some k => exact .keyword ((keywords_iff _ _).1 h)
  | none => exact .ident ((keywords_none _).1 h)

omit [Letters] in
theorem keywordTable_fun {w : String} {j k : Nat} (h1 : (w, j) ∈ keywordTable) (h2 : (w, k) ∈ keywordTable) :
    j = k := by
  have := (keywords_iff w.toList j).2 (by simpa using h1)
  have h' := (keywords_iff w.toList k).2 (by simpa using h2)
  rw [this] at h'
  injection h'

omit [Letters] in
theorem kindOf_fun {w : List Char} {j k : Nat} (h1 : KindOf w j) (h2 : KindOf w k) : j = k := by
  cases h1 with
  | keyword h1 =>
    cases h2 with
    | keyword h2 => exact keywordTable_fun h1 h2
    | ident h2 => exact absurd h1 (h2 _)
  | ident h1 =>
    cases h2 with
    | keyword h2 => exact absurd h2 (h1 _)
    | ident _ => rfl

omit [Letters] in
theorem wordKind_true (w : List Char) : wordKind true w = identNumber := by
  unfold wordKind
  split <;> rfl

theorem wordStart_clean {c : Char} {r : List Char} (h : WordStart c) : Clean (c :: r) := by
  have key : ∀ d : Char, d.toNat < 128 → d.isAlpha = false → d ≠ '_' → c ≠ d := by
    rintro d h1 h2 h3 rfl
    rcases h with h | h
    · rw [Letters.ascii c h1, h2] at h; cases h
    · exact h3 h
  refine ⟨?_, ?_, ?_⟩
  · intro d r' e
    injection e with e1 e2
    subst e1
    simp only [isSpace, Bool.or_eq_false_iff, beq_eq_false_iff_ne]
    exact ⟨⟨⟨key _ (by decide) (by decide) (by decide), key _ (by decide) (by decide) (by decide)⟩,
      key _ (by decide) (by decide) (by decide)⟩, key _ (by decide) (by decide) (by decide)⟩
  · intro r' e
    injection e with e1 e2
    exact key _ (by decide) (by decide) (by decide) e1
  · intro r' e
    injection e with e1 e2
    exact key _ (by decide) (by decide) (by decide) e1

/-- Reading a word: everything is determined. -/
theorem lexNext_word (t : Tok) {l w r : List Char} (hl : Layout l) (hw : Word w) (hr : WordEnds r)
    (ht : t.rest = l ++ w ++ r) :
    (lexNext t).2 = .ok (some (wordKind t.prevDot w)) ∧ (lexNext t).1.literal = w ∧
      (lexNext t).1.rest = r ∧ (lexNext t).1.prevDot = false := by
  cases hw with
  | @mk c w hc hw =>
    have h1 : skipTrivia t.rest = c :: w ++ r := by
      rw [ht, append_assoc, skipTrivia_layout hl, cons_append, skipTrivia_of_clean (wordStart_clean hc)]
    have h2 := nextRaw_word t.prevDot c w r ((isLetter_iff c).2 hc) (fun d hd => (isWordChar_iff d).2 (hw d hd))
      (wordEnds_iff.1 hr)
    have hdot : c ≠ '.' := by
      rintro rfl
      rcases hc with h | h
      · rw [Letters.ascii _ (by decide)] at h; revert h; decide
      · revert h; decide
    unfold lexNext
    dsimp only
    rw [h1, h2]
    obtain ⟨v, hv⟩ := valueOf_ok (wordKind_num t.prevDot (c :: w)).1 (wordKind_num t.prevDot (c :: w)).2
      (c :: w) t.value
    unfold finish
    dsimp only
    rw [hv]
    simp [hdot]

/-- Where word tokens come from. -/
theorem lexNext_word_inv {t : Tok} {k : Nat} (h : (lexNext t).2 = .ok (some k)) (hk : WordNumber k) :
    ∃ l w r, t.rest = l ++ w ++ r ∧ Layout l ∧ Word w ∧ WordEnds r := by
  have hres : (nextRaw t.prevDot (skipTrivia t.rest)).res = .ok (some k) := by
    revert h
    unfold lexNext finish
    dsimp only
    split
    · simp
    · simp
    · rename_i j hj
      rw [hj]
      split
      · simp
      · simp
  obtain ⟨l, hl, hl'⟩ := skipTrivia_split t.rest
  cases hs : skipTrivia t.rest with
  | nil => rw [hs] at hres; simp [nextRaw] at hres
  | cons c s =>
    rw [hs] at hres
    have hc := nextRaw_kind hres hk
    refine ⟨l, (c :: s).takeWhile isWordChar, (c :: s).dropWhile isWordChar, ?_, ?_, ?_, ?_⟩
    · rw [append_assoc, takeWhile_append_dropWhile, ← hs]; exact hl
    · rcases hl' with h | ⟨h, _⟩
      · exact h
      · rw [hs] at h; cases h
    · have : isWordChar c = true := by simp [isWordChar, hc]
      rw [takeWhile_cons_of_pos this]
      refine .mk ((isLetter_iff c).1 hc) (fun d hd => (isWordChar_iff d).1 ?_)
      exact all_eq_true.1 (all_takeWhile (p := isWordChar) (l := s)) d hd
    · rw [wordEnds_iff]
      intro d r' e
      exact eq_false_of_ne_true (fun hh => by
        have := head?_dropWhile_not isWordChar (c :: s)
        rw [e] at this
        simp [hh] at this)

theorem lexNext_eof_iff (t : Tok) : (lexNext t).2 = .ok none ↔ skipTrivia t.rest = [] := by
  constructor
  · intro h
    cases hs : skipTrivia t.rest with
    | nil => rfl
    | cons c r =>
      exfalso
      revert h
      unfold lexNext finish
      dsimp only
      rw [hs]
      split
      · simp
      · rename_i h'; exact absurd h' (nextRaw_cons_ne _ _ _)
      · split <;> simp
  · intro h
    unfold lexNext
    rw [h]
    rfl

theorem isLetter_dot : isLetter '.' = false := by
  rw [Bool.eq_false_iff, ne_eq, isLetter_iff]
  rintro (h | h)
  · rw [Letters.ascii _ (by decide)] at h; revert h; decide
  · revert h; decide

/-- Dot tokens are exactly dots. -/
theorem nextRaw_dot_iff (b : Bool) (s : List Char) :
    (nextRaw b s).res = .ok (some '.'.toNat) ↔ s.head? = some '.' := by
  cases s with
  | nil => simp [nextRaw]
  | cons c r =>
    constructor
    · intro h
      by_cases hc : c = '.'
      · rw [hc]; rfl
      exfalso
      revert h
      have h46 : '.'.toNat = 46 := rfl
      unfold nextRaw
      dsimp only
      rw [h46]
      split
      · unfold lexWord
        dsimp only
        intro h; injection h with h; injection h with h
        split at h
        · rename_i k hk
          split at h
          · revert h; decide
          · have hall : ∀ p ∈ keywordTable, p.2 ≠ 46 := by decide +kernel
            exact hall _ ((keywords_iff _ _).1 hk) h
        · revert h; decide
      split
      · unfold lexNumber; split
        · simp
        · intro h; injection h with h; injection h with h; revert h; decide
      split
      · unfold lexDate; split
        · simp
        · split
          · simp
          · intro h; injection h with h; injection h with h; revert h; decide
      split
      · intro h; injection h with h; injection h with h
        apply hc
        rw [← Char.ofNat_toNat c, h]
      split
      · intro h; injection h with h; injection h with h; revert h; decide
      split
      · unfold lexString; split
        · simp
        · intro h; injection h with h; injection h with h; revert h; decide
      split
      · unfold lexLess; split <;> (intro h; injection h with h; injection h with h; revert h; decide)
      split
      · unfold lexGreater; split <;> (intro h; injection h with h; injection h with h; revert h; decide)
      split
      · unfold lexDirective
        dsimp only
        split
        · rename_i k' hk'
          have hall : ∀ p ∈ directives, p.2 = tDirective := by decide +kernel
          obtain ⟨l1, l2, he, _⟩ := lookup_eq_some_iff.1 hk'
          have := hall (lower ('&' :: (scanIdentifier r).fst), k') (by rw [he]; simp)
          dsimp only at this
          intro h; injection h with h; injection h with h; rw [this] at h; revert h; decide
        · simp
      split
      · unfold lexLabel
        intro h; injection h with h; injection h with h; revert h; decide
      · simp
    · intro h
      simp only [head?_cons, Option.some.injEq] at h
      subst h
      unfold nextRaw
      dsimp only
      rw [isLetter_dot]
      rfl

theorem lexNext_res_ok {t : Tok} {k : Nat} (h : (lexNext t).2 = .ok (some k)) :
    (nextRaw t.prevDot (skipTrivia t.rest)).res = .ok (some k) := by
  revert h
  unfold lexNext finish
  dsimp only
  split
  · simp
  · simp
  · rename_i j hj
    rw [hj]
    split
    · simp
    · simp

theorem lexNext_dot_iff (t : Tok) :
    (lexNext t).2 = .ok (some '.'.toNat) ↔ (skipTrivia t.rest).head? = some '.' := by
  constructor
  · intro h
    exact (nextRaw_dot_iff _ _).1 (lexNext_res_ok h)
  · intro h
    have h' := (nextRaw_dot_iff t.prevDot _).2 h
    unfold lexNext finish
    dsimp only
    rw [h']
    dsimp only
    obtain ⟨v, hv⟩ := valueOf_ok (k := '.'.toNat) (by decide) (by decide)
      (nextRaw t.prevDot (skipTrivia t.rest)).literal t.value
    rw [hv]

end Verif.Lexer
