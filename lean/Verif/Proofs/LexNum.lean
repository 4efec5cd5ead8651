import Verif.Proofs.LexStr
import Verif.Proofs.Float
import Verif.Spec.Date
/-! Numbers and dates. -/
namespace Verif.Lexer
open List Spec

/-! ## Values of digits -/

theorem digitVal_nat {c : Char} (h : Digit c) : digitVal c = ((c.toNat - 48 : Nat) : ℚ) := by
  have : ∀ c ∈ ['0', '1', '2', '3', '4', '5', '6', '7', '8', '9'],
      ['0', '1', '2', '3', '4', '5', '6', '7', '8', '9'].idxOf c = c.toNat - 48 := by decide +kernel
  unfold digitVal
  rw [this c h]

theorem digitsVal_foldl (s : List Char) (h : ∀ c ∈ s, Digit c) (a : Nat) :
    ((s.foldl (fun a c => 10 * a + (c.toNat - 48)) a : Nat) : ℚ) = a * 10 ^ s.length + intVal s := by
  induction s generalizing a with
  | nil => simp [intVal]
  | cons c s ih =>
    simp only [mem_cons, forall_eq_or_imp] at h
    rw [foldl_cons, ih h.2, intVal, digitVal_nat h.1, length_cons, pow_succ]
    push_cast
    ring

theorem digitsVal_eq {s : List Char} (h : ∀ c ∈ s, Digit c) : (F64.digitsVal s : ℚ) = intVal s := by
  unfold F64.digitsVal
  rw [digitsVal_foldl s h]; simp

theorem intVal_frac (f : List Char) : intVal f = fracVal f * 10 ^ f.length := by
  induction f with
  | nil => simp [intVal, fracVal]
  | cons c f ih =>
    rw [intVal, fracVal, ih, length_cons, pow_succ]
    field_simp

theorem digitsVal_append {s f : List Char} (hs : ∀ c ∈ s, Digit c) (hf : ∀ c ∈ f, Digit c) :
    (F64.digitsVal (s ++ f) : ℚ) / ((10 ^ f.length : Nat) : ℚ) = intVal s + fracVal f := by
  unfold F64.digitsVal
  rw [foldl_append, digitsVal_foldl f hf]
  have := digitsVal_eq hs
  unfold F64.digitsVal at this
  rw [this, intVal_frac f]
  push_cast
  have : (10 : ℚ) ^ f.length ≠ 0 := by positivity
  field_simp

theorem digit_ne_dot {c : Char} (h : Digit c) : c ≠ '.' := by
  rintro rfl
  revert h
  unfold Digit
  decide

theorem span_digits {s r : List Char} (hs : ∀ c ∈ s, Digit c) :
    (s ++ '.' :: r).takeWhile (fun c => decide (c ≠ '.')) = s ∧ (s ++ '.' :: r).dropWhile (fun c => decide (c ≠ '.')) = '.' :: r :=
  takeWhile_append_stop (fun c hc => by simpa using digit_ne_dot (hs c hc)) (by rintro c r' h; cases h; simp)

theorem span_digits_nil {s : List Char} (hs : ∀ c ∈ s, Digit c) :
    s.takeWhile (fun c => decide (c ≠ '.')) = s ∧ s.dropWhile (fun c => decide (c ≠ '.')) = [] := by
  have := takeWhile_append_stop (p := (fun c => decide (c ≠ '.'))) (w := s) (r := [])
    (fun c hc => by simpa using digit_ne_dot (hs c hc)) (by simp)
  simpa using this

theorem parseFloat_lit {s : List Char} {v : ℚ} (h : NumLit s v) :
    ∃ n d : Nat, d ≠ 0 ∧ F64.parseFloat s = F64.ofRat n d ∧ (n : ℚ) / d = v := by
  cases h with
  | int _ hs =>
    refine ⟨F64.digitsVal s, 1, by simp, ?_, ?_⟩
    · unfold F64.parseFloat
      dsimp only
      rw [(span_digits_nil hs).2, (span_digits_nil hs).1]
    · rw [digitsVal_eq hs]; simp
  | @frac s f _ hs hf =>
    refine ⟨F64.digitsVal (s ++ f), 10 ^ f.length, by positivity, ?_, digitsVal_append hs hf⟩
    unfold F64.parseFloat
    dsimp only
    rw [(span_digits hs).2, (span_digits hs).1]
    dsimp only
    rw [if_neg]
    simp only [contains_iff_mem]
    intro h
    exact digit_ne_dot (hf _ h) rfl

theorem parseFloat_nearest {s : List Char} {v : ℚ} (h : NumLit s v) {x : F64} (hx : F64.parseFloat s = some x) :
    Nearest x v := by
  obtain ⟨n, d, hd, h1, rfl⟩ := parseFloat_lit h
  exact F64.ofRat_nearest hd (h1 ▸ hx)

theorem parseFloat_none_iff {s : List Char} {v : ℚ} (h : NumLit s v) :
    F64.parseFloat s = none ↔ overflow64 ≤ v := by
  obtain ⟨n, d, hd, h1, rfl⟩ := parseFloat_lit h
  rw [h1]
  exact F64.ofRat_none_iff hd

/-- Runs of digits and dots starting with a digit that convert at all are number literals. -/
theorem numLit_of_parse {s : List Char} (hs : ∀ c ∈ s, Digit c ∨ c = '.') {a : Char} (ha : Digit a)
    {x : F64} (h : F64.parseFloat (a :: s) = some x) : ∃ v, NumLit (a :: s) v := by
  have hall : ∀ c ∈ a :: s, Digit c ∨ c = '.' := by
    simp only [mem_cons, forall_eq_or_imp]; exact ⟨.inl ha, hs⟩
  have hsplit := (takeWhile_append_dropWhile (p := fun c => decide (c ≠ '.')) (l := a :: s)).symm
  have htw : ∀ c ∈ (a :: s).takeWhile (fun c => decide (c ≠ '.')), Digit c := by
    intro c hc
    have h1 := all_eq_true.1 (all_takeWhile (p := fun c => decide (c ≠ '.')) (l := a :: s)) c hc
    rcases hall c ((takeWhile_prefix _).subset hc) with h | h
    · exact h
    · simp [h] at h1
  have hne : (a :: s).takeWhile (fun c => decide (c ≠ '.')) ≠ [] := by
    rw [takeWhile_cons_of_pos (by simpa using digit_ne_dot ha)]
    simp
  have hhead := head?_dropWhile_not (fun c => decide (c ≠ '.')) (a :: s)
  unfold F64.parseFloat at h
  dsimp only at h
  have hdall : ∀ c ∈ (a :: s).dropWhile (fun c => decide (c ≠ '.')), Digit c ∨ c = '.' :=
    fun c hc => hall c ((dropWhile_suffix _).subset hc)
  generalize (a :: s).takeWhile (fun c => decide (c ≠ '.')) = tw at *
  generalize (a :: s).dropWhile (fun c => decide (c ≠ '.')) = dw at *
  cases dw with
  | nil =>
    rw [append_nil] at hsplit
    rw [hsplit]
    exact ⟨_, .int hne htw⟩
  | cons c f =>
    have hc : c = '.' := by simpa using hhead
    subst hc
    rw [hsplit]
    refine ⟨_, .frac hne htw ?_⟩
    intro c hc
    dsimp only at h
    split at h
    · cases h
    · rename_i hnd
      rcases hdall c (mem_cons_of_mem _ hc) with h | h
      · exact h
      · subst h; simp at hnd; exact absurd hc hnd

theorem numLit_chars {s : List Char} {v : ℚ} (h : NumLit s v) : ∀ c ∈ s, Digit c ∨ c = '.' := by
  cases h with
  | int _ hs => exact fun c hc => .inl (hs c hc)
  | frac _ hs hf =>
    intro c hc
    simp only [mem_append, mem_cons] at hc
    rcases hc with hc | hc | hc
    · exact .inl (hs c hc)
    · exact .inr hc
    · exact .inl (hf c hc)

/-! ## Classification of tokens by their first character -/

variable [Letters]

omit [Letters] in
theorem directive_num {w : List Char} {k : Nat} (h : directives.lookup w = some k) : k = tDirective := by
  have hall : ∀ p ∈ directives, p.2 = tDirective := by decide +kernel
  obtain ⟨l1, l2, he, _⟩ := lookup_eq_some_iff.1 h
  exact hall (w, k) (by rw [he]; simp)

/-- All possible token numbers with their first characters. -/
theorem nextRaw_cases {b : Bool} {c : Char} {r : List Char} {k : Nat}
    (h : (nextRaw b (c :: r)).res = .ok (some k)) :
    (isLetter c = true ∧ WordNumber k) ∨ (c = '.' ∧ k = 46) ∨ (isDigit c = true ∧ k = tNumber) ∨
    (c = '\'' ∧ k = tDate) ∨ (isPunct c = true ∧ k = c.toNat) ∨ (c = '=' ∧ k = tEQUAL) ∨
    (c = '"' ∧ k = tString) ∨ (c = '<' ∧ (k = tNeEQ ∨ k = tLE ∨ k = 60)) ∨
    (c = '>' ∧ (k = tGE ∨ k = 62)) ∨ (c = '&' ∧ k = tDirective) ∨ (c = '~' ∧ k = tGoToLabel) := by
  revert h
  unfold nextRaw
  dsimp only
  split
  · rename_i hl
    unfold lexWord
    dsimp only
    intro h; injection h with h; injection h with h
    refine .inl ⟨hl, ?_⟩
    split at h
    · rename_i k' hk
      split at h
      · exact .inl h.symm
      · exact .inr ⟨_, h ▸ (keywords_iff _ _).1 hk⟩
    · exact .inl h.symm
  refine fun h => .inr ?_
  revert h
  split
  · rename_i hc; intro h; injection h with h; injection h with h; exact .inl ⟨hc, h.symm⟩
  refine fun h => .inr ?_
  revert h
  split
  · rename_i hc
    unfold lexNumber; split
    · simp
    · intro h; injection h with h; injection h with h; exact .inl ⟨hc, h.symm⟩
  refine fun h => .inr ?_
  revert h
  split
  · rename_i hc
    unfold lexDate; split
    · simp
    · split
      · simp
      · intro h; injection h with h; injection h with h; exact .inl ⟨hc, h.symm⟩
  refine fun h => .inr ?_
  revert h
  split
  · rename_i hc
    intro h; injection h with h; injection h with h; exact .inl ⟨hc, h.symm⟩
  refine fun h => .inr ?_
  revert h
  split
  · rename_i hc; intro h; injection h with h; injection h with h; exact .inl ⟨hc, h.symm⟩
  refine fun h => .inr ?_
  revert h
  split
  · rename_i hc
    unfold lexString; split
    · simp
    · intro h; injection h with h; injection h with h; exact .inl ⟨hc, h.symm⟩
  refine fun h => .inr ?_
  revert h
  split
  · rename_i hc
    unfold lexLess
    split
    · intro h; injection h with h; injection h with h; exact .inl ⟨hc, .inl h.symm⟩
    · intro h; injection h with h; injection h with h; exact .inl ⟨hc, .inr (.inl h.symm)⟩
    · intro h; injection h with h; injection h with h; exact .inl ⟨hc, .inr (.inr h.symm)⟩
  refine fun h => .inr ?_
  revert h
  split
  · rename_i hc
    unfold lexGreater
    split
    · intro h; injection h with h; injection h with h; exact .inl ⟨hc, .inl h.symm⟩
    · intro h; injection h with h; injection h with h; exact .inl ⟨hc, .inr h.symm⟩
  refine fun h => .inr ?_
  revert h
  split
  · rename_i hc
    unfold lexDirective
    dsimp only
    split
    · rename_i k' hk'
      intro h; injection h with h; injection h with h
      exact .inl ⟨hc, h ▸ directive_num hk'⟩
    · simp
  refine fun h => .inr ?_
  revert h
  split
  · rename_i hc
    unfold lexLabel
    intro h; injection h with h; injection h with h; exact ⟨hc, h.symm⟩
  · simp

omit [Letters] in
theorem wordNumber_big {k : Nat} (h : WordNumber k) :
    57347 ≤ k ∧ k ∉ [tNumber, tDate, tEQUAL, tString, tNeEQ, tLE, tGE, tDirective, tGoToLabel] := by
  rcases h with rfl | ⟨w, hw⟩
  · decide
  · have hall : ∀ p ∈ keywordTable, 57347 ≤ p.2 ∧
      p.2 ∉ [tNumber, tDate, tEQUAL, tString, tNeEQ, tLE, tGE, tDirective, tGoToLabel] := by decide +kernel
    exact hall _ hw

theorem nextRaw_number_kind {b : Bool} {c : Char} {r : List Char}
    (h : (nextRaw b (c :: r)).res = .ok (some tNumber)) : isDigit c = true ∧ isLetter c = false := by
  have hl : isDigit c = true → isLetter c = false := by
    intro hd
    have hall : ∀ c ∈ ['0', '1', '2', '3', '4', '5', '6', '7', '8', '9'],
      c.toNat < 128 ∧ c.isAlpha = false ∧ c ≠ '_' := by decide +kernel
    obtain ⟨h1, h2, h3⟩ := hall c ((isDigit_iff c).1 hd)
    exact isLetter_ascii_false h1 h2 h3
  have := nextRaw_cases h
  rcases this with ⟨_, h⟩ | ⟨_, h⟩ | ⟨h, _⟩ | ⟨_, h⟩ | ⟨hp, h⟩ | ⟨_, h⟩ | ⟨_, h⟩ | ⟨_, h | h | h⟩ | ⟨_, h | h⟩ | ⟨_, h⟩ | ⟨_, h⟩
  · exact absurd (wordNumber_big h).2 (by decide)
  · exact absurd h (by decide)
  · exact ⟨h, hl h⟩
  · exact absurd h (by decide)
  · have := isPunct_ascii hp
    rw [← h] at this
    exact absurd this (by decide)
  all_goals exact absurd h (by decide)

theorem nextRaw_date_kind {b : Bool} {c : Char} {r : List Char}
    (h : (nextRaw b (c :: r)).res = .ok (some tDate)) : c = '\'' := by
  have := nextRaw_cases h
  rcases this with ⟨_, h⟩ | ⟨_, h⟩ | ⟨_, h⟩ | ⟨h, _⟩ | ⟨hp, h⟩ | ⟨_, h⟩ | ⟨_, h⟩ | ⟨_, h | h | h⟩ | ⟨_, h | h⟩ | ⟨_, h⟩ | ⟨_, h⟩
  · exact absurd (wordNumber_big h).2 (by decide)
  · exact absurd h (by decide)
  · exact absurd h (by decide)
  · exact h
  · have := isPunct_ascii hp
    rw [← h] at this
    exact absurd this (by decide)
  all_goals exact absurd h (by decide)

theorem digit_facts {c : Char} (h : Digit c) : isLetter c = false ∧ c ≠ '.' ∧ isDigit c = true ∧
    isSpace c = false ∧ c ≠ '#' ∧ c ≠ '/' := by
  have hall : ∀ c ∈ ['0', '1', '2', '3', '4', '5', '6', '7', '8', '9'],
    c.toNat < 128 ∧ c.isAlpha = false ∧ c ≠ '_' ∧ c ≠ '.' ∧ isDigit c = true ∧
    isSpace c = false ∧ c ≠ '#' ∧ c ≠ '/' := by decide +kernel
  obtain ⟨h1, h2, h3, h4⟩ := hall c h
  exact ⟨isLetter_ascii_false h1 h2 h3, h4⟩

theorem scanNumber_run {w r : List Char} (hw : ∀ c ∈ w, Digit c ∨ c = '.')
    (hr : ∀ c r', r = c :: r' → ¬ (Digit c ∨ c = '.')) :
    scanNumber (w ++ r) = if r.head?.any isLetter then (.error .identAfterNumber, r) else (.ok w, r) := by
  have h := takeWhile_append_stop (p := fun c => isDigit c || c == '.') (w := w) (r := r)
    (fun c hc => by
      rcases hw c hc with h | h
      · simp [(isDigit_iff c).2 h]
      · simp [h])
    (fun c r' e => by
      have := hr c r' e
      rw [← isDigit_iff] at this
      simp only [not_or, Bool.not_eq_true] at this
      simp [this])
  unfold scanNumber
  dsimp only
  rw [h.1, h.2]
  cases r <;> rfl

theorem any_isLetter_iff (r : List Char) : r.head?.any isLetter = true ↔ ∃ c r', r = c :: r' ∧ WordStart c := by
  cases r with
  | nil => simp
  | cons c r => simp [isLetter_iff]

theorem lexNext_number (t : Tok) {l : List Char} {a : Char} {w r : List Char} (hl : Layout l) (ha : Digit a)
    (hw : ∀ c ∈ w, Digit c ∨ c = '.') (hr : ∀ c r', r = c :: r' → ¬ (Digit c ∨ c = '.'))
    (ht : t.rest = l ++ (a :: w) ++ r) :
    lexNext t = if r.head?.any isLetter then (⟨[], t.value, r, false⟩, .error .identAfterNumber)
      else match F64.parseFloat (a :: w) with
        | some x => (⟨a :: w, .num x, r, false⟩, .ok (some tNumber))
        | none => (⟨a :: w, t.value, r, false⟩, .error .badNumber) := by
  obtain ⟨f1, f2, f3, f4, f5, f6⟩ := digit_facts ha
  have h1 : skipTrivia t.rest = a :: (w ++ r) := by
    rw [ht, append_assoc, skipTrivia_layout hl, cons_append, skipTrivia_of_clean]
    refine ⟨?_, ?_, ?_⟩
    · intro c r' e; cases e; exact f4
    · intro r' e; injection e with e; exact f5 e
    · intro r' e; injection e with e; exact f6 e
  have h2 : nextRaw t.prevDot (a :: (w ++ r)) = lexNumber (a :: (w ++ r)) := by
    unfold nextRaw
    dsimp only
    rw [if_neg (by simp [f1]), if_neg f2, if_pos f3]
  have h3 : scanNumber (a :: (w ++ r)) = _ := scanNumber_run (w := a :: w) (r := r)
    (by simp only [mem_cons, forall_eq_or_imp]; exact ⟨.inl ha, hw⟩) hr
  have hdot : (!t.prevDot && (a :: (w ++ r)).head? == some '.') = false := by simp [f2]
  unfold lexNext
  dsimp only
  rw [h1, h2, hdot]
  unfold lexNumber
  rw [h3]
  split
  · rename_i h
    split at h
    · rename_i hc
      rw [if_pos hc]
      simp only [Prod.mk.injEq, Except.error.injEq] at h
      rw [← h.1, ← h.2]; rfl
    · simp at h
  · rename_i h
    split at h
    · simp at h
    · rename_i hc
      rw [if_neg hc]
      simp only [Prod.mk.injEq, Except.ok.injEq] at h
      rw [← h.1, ← h.2]
      unfold finish valueOf
      dsimp only
      rw [if_pos rfl]
      cases F64.parseFloat (a :: w) <;> rfl

theorem lexNext_number_inv {t : Tok} (h : (lexNext t).2 = .ok (some tNumber)) :
    ∃ l a w r, t.rest = l ++ (a :: w) ++ r ∧ Layout l ∧ Digit a ∧ (∀ c ∈ w, Digit c ∨ c = '.') ∧
      (∀ c r', r = c :: r' → ¬ (Digit c ∨ c = '.')) := by
  have hres := lexNext_res_ok h
  obtain ⟨l, hl, hl'⟩ := skipTrivia_split t.rest
  cases hs : skipTrivia t.rest with
  | nil => rw [hs] at hres; simp [nextRaw] at hres
  | cons c s =>
    rw [hs] at hres hl hl'
    obtain ⟨hc, _⟩ := nextRaw_number_kind hres
    let p : Char → Bool := fun c => isDigit c || c == '.'
    refine ⟨l, c, s.takeWhile p, s.dropWhile p, ?_, ?_, (isDigit_iff c).1 hc, ?_, ?_⟩
    · rw [hl, append_assoc, cons_append, takeWhile_append_dropWhile]
    · rcases hl' with h | ⟨h, _⟩
      · exact h
      · cases h
    · intro d hd
      have := all_eq_true.1 (all_takeWhile (p := p) (l := s)) d hd
      simpa [p, isDigit_iff] using this
    · intro d r' e hh
      have := head?_dropWhile_not p s
      rw [e] at this
      simp only [head?_cons] at this
      rw [← isDigit_iff] at hh
      rcases hh with hh | hh <;> simp [p, hh] at this

end Verif.Lexer
