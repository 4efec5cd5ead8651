import Verif.Proofs.LexBasic
/-! Scanning functions: remaining texts are suffixes, bounds do not matter. -/
namespace Verif.Lexer
open List

theorem addLit_snd (p : List Char) (x : Except LexErr (List Char) × List Char) : (addLit p x).2 = x.2 := by
  rcases x with ⟨_ | _, _⟩ <;> rfl

theorem scanStringF_suffix (q : Char) (n : Nat) : ∀ s, (scanStringF q n s).2 <:+ s ∧
    (0 < n → (scanStringF q n s).2 <:+ s.tail) := by
  induction n with
  | zero => intro s; simp [scanStringF]
  | succ n ih =>
    intro s
    have key : (scanStringF q (n + 1) s).2 <:+ s.tail := by
      unfold scanStringF
      split
      · simp
      · rename_i c r he
        rw [he]
        split
        · split
          · simp
          · rename_i d r' hd
            have h1 : d :: r' <:+ c :: r := by
              rw [← hd]
              exact ((skipComment_suffix _).trans (skipSpace_suffix _)).trans (suffix_cons c r)
            split
            · exact h1
            · rw [addLit_snd]; exact (ih _).1.trans h1
        · split
          · split
            · rw [addLit_snd]; exact (ih _).1.trans (suffix_cons c r)
            · have h1 : skipSpace r <:+ c :: r := (skipSpace_suffix r).trans (suffix_cons c r)
              dsimp only
              split
              · exact (ih _).1.trans h1
              · exact h1
          · rw [addLit_snd]; exact (ih _).1
    exact ⟨key.trans (tail_suffix s), fun _ => key⟩

theorem scanStringF_fuel (q : Char) (n : Nat) : ∀ s m, s.length + 1 ≤ n → s.length + 1 ≤ m →
    scanStringF q n s = scanStringF q m s := by
  induction n with
  | zero => intro s m h; omega
  | succ n ih =>
    intro s m hn hm
    obtain ⟨m, rfl⟩ : ∃ k, m = k + 1 := ⟨m - 1, by omega⟩
    unfold scanStringF
    split
    · rfl
    · rename_i c r he
      have hl : s.length = r.length + 2 := by
        cases s with
        | nil => simp at he
        | cons a t => simp at he; subst he; rfl
      split
      · split
        · rfl
        · rename_i d r' hd
          have h1 : (d :: r').length ≤ r.length := by
            rw [← hd]
            exact ((skipComment_suffix _).trans (skipSpace_suffix _)).length_le
          split
          · rfl
          · rw [ih (d :: r') m (by omega) (by omega)]
      · split
        · split
          · rw [ih r m (by omega) (by omega)]
          · have h1 := skipSpace_len r
            dsimp only
            split
            · exact ih _ m (by omega) (by omega)
            · rfl
        · rw [ih (c :: r) m (by simp only [length_cons]; omega) (by simp only [length_cons]; omega)]

/-- `scanString` without the iteration bound. -/
theorem scanString_eq (q : Char) (s : List Char) :
    scanString q s =
      match s.tail with
      | [] => (.error .unexpectedEOF, [])
      | c :: r =>
        if c = '\n' then
          match skipComment (skipSpace r) with
          | [] => (.error .unexpectedEOL, [])
          | d :: r' =>
            if d ≠ '|' ∧ !isSpace d then (.error .unexpectedEOL, d :: r')
            else addLit ['\n', d] (scanString q (d :: r'))
        else if c = q then
          if r.head? = some '"' then addLit ['"', '"'] (scanString q r)
          else if (skipSpace r).head? = some '"' then scanString q (skipSpace r) else (.ok [], skipSpace r)
        else addLit [c] (scanString q (c :: r)) := by
  have hf : ∀ s', s'.length + 1 ≤ s.length → scanStringF q s.length s' = scanString q s' :=
    fun s' h => scanStringF_fuel q _ _ _ h (by omega)
  show scanStringF q (s.length + 1) s = _
  unfold scanStringF
  split
  · rename_i he; rw [he]
  · rename_i c r he
    have hl : s.length = r.length + 2 := by
      cases s with
      | nil => simp at he
      | cons a t => simp at he; subst he; rfl
    rw [he]
    split
    · rename_i hc
      simp only [hc, if_true]
      split
      · rename_i hd; rw [hd]
      · rename_i d r' hd
        rw [hd]
        have h1 : (d :: r').length ≤ r.length := by
          rw [← hd]
          exact ((skipComment_suffix _).trans (skipSpace_suffix _)).length_le
        rw [hf (d :: r') (by omega)]
    · rename_i hc
      simp only [hc, if_false]
      have h1 := skipSpace_len r
      rw [hf r (by omega), hf (skipSpace r) (by omega), hf (c :: r) (by simp only [length_cons]; omega)]

theorem scanString_suffix (q : Char) (s : List Char) : (scanString q s).2 <:+ s.tail :=
  (scanStringF_suffix q _ s).2 (by omega)

variable [Letters]

theorem scanNumber_suffix (s : List Char) :
    (scanNumber s).2 = s.dropWhile (fun c => isDigit c || c == '.') := by
  unfold scanNumber
  dsimp only
  split
  · split <;> rfl
  · simp [*]

omit [Letters] in
theorem dropWhile_suffix_tail (p : Char → Bool) {c : Char} (h : p c = true) (r : List Char) :
    (c :: r).dropWhile p <:+ r := by
  rw [dropWhile_cons, if_pos h]; exact dropWhile_suffix _

/-- The text remaining after a token is a suffix of what follows its first character. -/
theorem nextRaw_suffix (b : Bool) (c : Char) (r : List Char) : (nextRaw b (c :: r)).rest <:+ r := by
  unfold nextRaw
  dsimp only
  split
  · rename_i h
    exact dropWhile_suffix_tail _ (by simp [isWordChar, h]) r
  split
  · exact suffix_refl r
  split
  · rename_i h
    have h1 : (scanNumber (c :: r)).2 <:+ r := by
      rw [scanNumber_suffix]
      exact dropWhile_suffix_tail _ (by simp [h]) r
    unfold lexNumber
    split <;> rename_i h2 <;> rw [h2] at h1 <;> exact h1
  split
  · have h1 := scanString_suffix '\'' (c :: r)
    unfold lexDate
    split
    · rename_i h2; rw [h2] at h1; exact h1
    · rename_i h2; rw [h2] at h1
      split <;> exact h1
  split
  · exact suffix_refl r
  split
  · exact suffix_refl r
  split
  · have h1 := scanString_suffix '"' (c :: r)
    unfold lexString
    split <;> rename_i h2 <;> rw [h2] at h1 <;> exact h1
  split
  · unfold lexLess
    split
    · exact suffix_cons _ _
    · exact suffix_cons _ _
    · exact suffix_refl _
  split
  · unfold lexGreater
    split
    · exact suffix_cons _ _
    · exact suffix_refl _
  split
  · unfold lexDirective
    dsimp only
    split
    · exact dropWhile_suffix _
    · exact suffix_refl _
  split
  · exact dropWhile_suffix _
  · exact suffix_refl _

/-- End of file is reported only at the end of the text. -/
theorem nextRaw_cons_ne (b : Bool) (c : Char) (r : List Char) : (nextRaw b (c :: r)).res ≠ .ok none := by
  unfold nextRaw
  dsimp only
  split
  · simp [lexWord]
  split
  · simp
  split
  · unfold lexNumber; split <;> simp
  split
  · unfold lexDate
    split
    · simp
    · split <;> simp
  split
  · simp
  split
  · simp
  split
  · unfold lexString; split <;> simp
  split
  · unfold lexLess; split <;> simp
  split
  · unfold lexGreater; split <;> simp
  split
  · unfold lexDirective
    dsimp only
    split <;> simp
  split
  · simp [lexLabel]
  · simp

omit [Letters] in
theorem finish_rest (t : Tok) (d : Bool) (raw : Raw) : (finish t d raw).1.rest = raw.rest := by
  unfold finish
  split
  · rfl
  · rfl
  · split <;> rfl

omit [Letters] in
theorem finish_prevDot (t : Tok) (d : Bool) (raw : Raw) : (finish t d raw).1.prevDot = d := by
  unfold finish
  split
  · rfl
  · rfl
  · split <;> rfl

omit [Letters] in
theorem finish_literal (t : Tok) (d : Bool) (raw : Raw) : (finish t d raw).1.literal = raw.literal := by
  unfold finish
  split
  · rfl
  · rfl
  · split <;> rfl

theorem lexNext_rest (t : Tok) : (lexNext t).1.rest = (nextRaw t.prevDot (skipTrivia t.rest)).rest :=
  finish_rest _ _ _

theorem lexNext_suffix (t : Tok) : (lexNext t).1.rest <:+ t.rest := by
  rw [lexNext_rest]
  have h := skipTrivia_suffix t.rest
  revert h
  generalize skipTrivia t.rest = s
  intro h
  cases s with
  | nil => simp [nextRaw]
  | cons c r => exact ((nextRaw_suffix _ c r).trans (suffix_cons c r)).trans h

end Verif.Lexer
