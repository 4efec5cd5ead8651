import Verif.Proofs.LexLayout
/-! Words: lower-casing, keyword lookup, kinds of tokens. -/
namespace Verif.Lexer
open List Spec

theorem forall_char_lt {p : Char → Prop} (n : Nat) (h : ∀ k < n, p (Char.ofNat k)) (c : Char)
    (hc : c.toNat < n) : p c := by
  have := h c.toNat hc
  rwa [Char.ofNat_toNat] at this

theorem lowerChar_big {c : Char} (h : 0x460 ≤ c.toNat) : lowerChar c = c := by
  unfold lowerChar
  have : caseTable.lookup c = none := by
    rw [lookup_eq_none_iff]
    intro p hp
    have hall : ∀ p ∈ caseTable, p.1.toNat < 0x460 := by decide +kernel
    have := hall p hp
    rw [bne_iff_ne]
    intro e; rw [e] at h; omega
  rw [this]

theorem lowerRune_eq (c : Char) : ToLower.lowerRune c = lowerChar c := by
  by_cases h : c.toNat < 0x460
  · exact forall_char_lt (p := fun c => ToLower.lowerRune c = lowerChar c) 0x460 (by decide +kernel) c h
  · rw [lowerChar_big (by omega)]
    unfold ToLower.lowerRune
    dsimp only
    rw [if_neg (by omega), if_neg (by omega)]

theorem lower_eq (s : List Char) : lower s = s.map lowerChar := by
  unfold lower; congr; funext c; exact lowerRune_eq c

theorem isDigit_iff (c : Char) : isDigit c = true ↔ Digit c := by
  by_cases h : c.toNat < 128
  · exact forall_char_lt (p := fun c => isDigit c = true ↔ Digit c) 128
      (by unfold Digit; decide +kernel) c h
  · have h2 : ¬ c ≤ '9' := by
      intro h'
      have : c.toNat ≤ '9'.toNat := h'
      have h9 : '9'.toNat = 57 := rfl
      omega
    constructor
    · intro h1
      simp [isDigit, h2] at h1
    · intro hd
      have hall : ∀ c ∈ ['0', '1', '2', '3', '4', '5', '6', '7', '8', '9'], c.toNat < 128 := by decide +kernel
      exact absurd (hall c hd) h

variable [Letters]

/-- Letters of the case table are letters. -/
theorem isL_table {p : Char × Char} (h : p ∈ caseTable) : Letters.isL p.1 = true ∧ Letters.isL p.2 = true := by
  have hall : ∀ p ∈ caseTable,
      ((p.1.toNat < 128 ∧ p.1.isAlpha = true) ∨
        ((0x410 ≤ p.1.toNat ∧ p.1.toNat ≤ 0x44F) ∨ p.1.toNat = 0x401 ∨ p.1.toNat = 0x451)) ∧
      ((p.2.toNat < 128 ∧ p.2.isAlpha = true) ∨
        ((0x410 ≤ p.2.toNat ∧ p.2.toNat ≤ 0x44F) ∨ p.2.toNat = 0x401 ∨ p.2.toNat = 0x451)) := by
    decide +kernel
  have key : ∀ c : Char, ((c.toNat < 128 ∧ c.isAlpha = true) ∨
        ((0x410 ≤ c.toNat ∧ c.toNat ≤ 0x44F) ∨ c.toNat = 0x401 ∨ c.toNat = 0x451)) → Letters.isL c = true := by
    intro c h
    rcases h with ⟨h1, h2⟩ | h
    · rw [Letters.ascii c h1, h2]
    · exact Letters.rus c h
  exact ⟨key _ (hall p h).1, key _ (hall p h).2⟩

omit [Letters] in
theorem lowerChar_cases (c : Char) : lowerChar c = c ∨ (c, lowerChar c) ∈ caseTable := by
  unfold lowerChar
  cases h : caseTable.lookup c with
  | none => exact .inl rfl
  | some d =>
    refine .inr ?_
    obtain ⟨l1, l2, he, _⟩ := lookup_eq_some_iff.1 h
    rw [he]; simp

theorem isLetter_lowerChar (c : Char) : isLetter (lowerChar c) = isLetter c := by
  rcases lowerChar_cases c with h | h
  · rw [h]
  · obtain ⟨h1, h2⟩ := isL_table h
    dsimp only at h1 h2
    simp [isLetter, h1, h2]

theorem isWordChar_lowerChar (c : Char) : isWordChar (lowerChar c) = isWordChar c := by
  rcases lowerChar_cases c with h | h
  · rw [h]
  · obtain ⟨h1, h2⟩ := isL_table h
    dsimp only at h1 h2
    simp [isWordChar, isLetter, h1, h2]

omit [Letters] in
/-- The keyword table of the model is the one of the specification. -/
theorem keywords_iff (w : List Char) (k : Nat) :
    keywords.lookup w = some k ↔ (String.ofList w, k) ∈ keywordTable := by
  have h1 : ∀ p ∈ keywords, (String.ofList p.1, p.2) ∈ keywordTable := by decide +kernel
  have h2 : ∀ p ∈ keywordTable, keywords.lookup p.1.toList = some p.2 := by decide +kernel
  constructor
  · intro h
    obtain ⟨l1, l2, he, _⟩ := lookup_eq_some_iff.1 h
    exact h1 (w, k) (by rw [he]; simp)
  · intro h
    have := h2 _ h
    simpa using this

omit [Letters] in
theorem keywords_none (w : List Char) :
    keywords.lookup w = none ↔ ∀ k, (String.ofList w, k) ∉ keywordTable := by
  constructor
  · intro h k hk
    rw [(keywords_iff w k).2 hk] at h
    cases h
  · intro h
    cases h' : keywords.lookup w with
    | none => rfl
    | some k => exact absurd ((keywords_iff w k).1 h') (h k)

omit [Letters] in
theorem takeWhile_append_stop {p : Char → Bool} {w r : List Char} (hw : ∀ c ∈ w, p c = true)
    (hr : ∀ c r', r = c :: r' → p c = false) :
    (w ++ r).takeWhile p = w ∧ (w ++ r).dropWhile p = r := by
  induction w with
  | nil =>
    cases r with
    | nil => simp
    | cons c r' => simp [hr c r' rfl]
  | cons c w ih =>
    simp only [mem_cons, forall_eq_or_imp] at hw
    simp [hw.1, ih hw.2]

omit [Letters] in
/-- Words are never numbers, strings or dates, so the value computation cannot fail. -/
theorem valueOf_ok {k : Nat} (h1 : k ≠ tNumber) (h2 : k ≠ tDate) (l : List Char) (v : Val) :
    ∃ v', valueOf k l v = .ok v' := by
  unfold valueOf
  rw [if_neg h1]
  split
  · exact ⟨_, rfl⟩
  split
  · exact ⟨_, rfl⟩
  split
  · exact ⟨_, rfl⟩
  split <;> exact ⟨_, rfl⟩

omit [Letters] in
theorem keyword_num {w : List Char} {k : Nat} (h : keywords.lookup w = some k) : k ≠ tNumber ∧ k ≠ tDate := by
  have h2 : ∀ p ∈ keywordTable, p.2 ≠ tNumber ∧ p.2 ≠ tDate := by decide +kernel
  exact h2 _ ((keywords_iff w k).1 h)

/-- The kind of a word. -/
def wordKind (prevDot : Bool) (w : List Char) : Nat :=
  match keywords.lookup (lower w) with
  | some k => if prevDot then tIdent else k
  | none => tIdent

omit [Letters] in
theorem wordKind_num (b : Bool) (w : List Char) : wordKind b w ≠ tNumber ∧ wordKind b w ≠ tDate := by
  unfold wordKind
  split
  · rename_i h
    split
    · decide
    · exact keyword_num h
  · decide

/-- Reading a word. -/
theorem nextRaw_word (b : Bool) (c : Char) (w r : List Char) (hc : isLetter c = true)
    (hw : ∀ d ∈ w, isWordChar d = true) (hr : ∀ d r', r = d :: r' → isWordChar d = false) :
    nextRaw b (c :: w ++ r) = ⟨.ok (some (wordKind b (c :: w))), c :: w, r⟩ := by
  have h := takeWhile_append_stop (p := isWordChar) (w := c :: w) (r := r)
    (by simp only [mem_cons, forall_eq_or_imp]; exact ⟨by simp [isWordChar, hc], hw⟩) hr
  unfold nextRaw
  rw [cons_append]
  dsimp only
  rw [if_pos hc]
  rw [cons_append] at h
  unfold lexWord wordKind scanIdentifier
  dsimp only
  rw [h.1, h.2]
  rfl

omit [Letters] in
theorem isPunct_ascii {c : Char} (h : isPunct c = true) : c.toNat < 128 := by
  simp only [isPunct, Bool.or_eq_true, beq_iff_eq] at h
  rcases h with (((((((((((h | h) | h) | h) | h) | h) | h) | h) | h) | h) | h) | h) | h <;>
    (subst h; decide)

/-- Only words give identifier or keyword tokens. -/
theorem nextRaw_kind {b : Bool} {c : Char} {r : List Char} {k : Nat}
    (h : (nextRaw b (c :: r)).res = .ok (some k))
    (hk : k = identNumber ∨ ∃ w, (w, k) ∈ keywordTable) : isLetter c = true := by
  have hk' : k ∉ [tNumber, tDate, tEQUAL, tString, tNeEQ, tLE, tGE, tDirective, tGoToLabel] ∧ 128 ≤ k := by
    rcases hk with rfl | ⟨w, hw⟩
    · decide
    · have hall : ∀ p ∈ keywordTable,
        p.2 ∉ [tNumber, tDate, tEQUAL, tString, tNeEQ, tLE, tGE, tDirective, tGoToLabel] ∧ 128 ≤ p.2 := by
        decide +kernel
      exact hall _ hw
  by_cases hc : isLetter c = true
  · exact hc
  exfalso
  revert h
  simp only [mem_cons, not_or, not_mem_nil, not_false_eq_true, and_true] at hk'
  obtain ⟨⟨h1, h2, h3, h4, h5, h6, h7, h8, h9⟩, h10⟩ := hk'
  unfold nextRaw
  dsimp only
  rw [if_neg hc]
  have hd : '.'.toNat < 128 := by decide
  have hl : '<'.toNat < 128 := by decide
  have hg : '>'.toNat < 128 := by decide
  split
  · intro h; injection h with h; injection h with h; omega
  split
  · unfold lexNumber; split
    · simp
    · intro h; injection h with h; injection h with h; exact h1 h.symm
  split
  · unfold lexDate; split
    · simp
    · split
      · simp
      · intro h; injection h with h; injection h with h; exact h2 h.symm
  split
  · rename_i hp
    have := isPunct_ascii hp
    intro h; injection h with h; injection h with h; omega
  split
  · intro h; injection h with h; injection h with h; exact h3 h.symm
  split
  · unfold lexString; split
    · simp
    · intro h; injection h with h; injection h with h; exact h4 h.symm
  split
  · unfold lexLess; split
    · intro h; injection h with h; injection h with h; exact h5 h.symm
    · intro h; injection h with h; injection h with h; exact h6 h.symm
    · intro h; injection h with h; injection h with h; omega
  split
  · unfold lexGreater; split
    · intro h; injection h with h; injection h with h; exact h7 h.symm
    · intro h; injection h with h; injection h with h; omega
  split
  · unfold lexDirective
    dsimp only
    split
    · rename_i k' hk'
      have hall : ∀ p ∈ directives, p.2 = tDirective := by decide +kernel
      obtain ⟨l1, l2, he, _⟩ := lookup_eq_some_iff.1 hk'
      have := hall (lower ('&' :: (scanIdentifier r).fst), k') (by rw [he]; simp)
      dsimp only at this
      intro h; injection h with h; injection h with h; exact h8 (h ▸ this)
    · simp
  split
  · unfold lexLabel
    intro h; injection h with h; injection h with h; exact h9 h.symm
  · simp

end Verif.Lexer
