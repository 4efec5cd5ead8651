import Verif.Lexer
/-! Basic facts about the skipping and scanning functions of the tokeniser. -/
namespace Verif.Lexer
open List

theorem skipSpace_suffix (s : List Char) : skipSpace s <:+ s := by
  induction s with
  | nil => simp [skipSpace]
  | cons c r ih =>
    rw [skipSpace]; split
    · exact ih.trans (suffix_cons c r)
    · exact suffix_refl _

theorem skipLine_suffix (s : List Char) : skipLine s <:+ s := by
  induction s with
  | nil => simp [skipLine]
  | cons c r ih =>
    rw [skipLine]; split
    · exact suffix_refl _
    · exact ih.trans (suffix_cons c r)

theorem skipSpace_len (s : List Char) : (skipSpace s).length ≤ s.length := (skipSpace_suffix s).length_le
theorem skipLine_len (s : List Char) : (skipLine s).length ≤ s.length := (skipLine_suffix s).length_le

theorem skipLine_cons_len {c : Char} (h : c ≠ '\n') (r : List Char) :
    (skipLine (c :: r)).length ≤ r.length := by
  rw [skipLine, if_neg h]; exact skipLine_len r

theorem skipSpace_idem (s : List Char) : skipSpace (skipSpace s) = skipSpace s := by
  induction s with
  | nil => rfl
  | cons c r ih =>
    by_cases h : isSpace c
    · simp [skipSpace, h, ih]
    · simp [skipSpace, h]

theorem skipSpace_append_blank {w : List Char} (hw : ∀ c ∈ w, isSpace c = true) (s : List Char) :
    skipSpace (w ++ s) = skipSpace s := by
  induction w with
  | nil => rfl
  | cons c w ih =>
    simp only [mem_cons, forall_eq_or_imp] at hw
    simp [skipSpace, hw.1, ih hw.2]

/-- The `switch` at the end of `skipComment` and `skipRegions`. -/
def dispatchF (n : Nat) (s : List Char) : List Char :=
  match s with
  | '/' :: _ => skipCommentF n s
  | '#' :: _ => skipRegionsF n s
  | _ => s

theorem skipCommentF_slash (n : Nat) (r : List Char) :
    skipCommentF (n + 1) ('/' :: '/' :: r) = dispatchF n (skipSpace (skipLine r)) := by
  have e : skipLine ('/' :: '/' :: r) = skipLine r := by simp [skipLine]
  unfold skipCommentF
  simp only [e]
  rfl

theorem skipCommentF_other (n : Nat) {s : List Char} (h : ∀ r, s ≠ '/' :: '/' :: r) :
    skipCommentF n s = s := by
  unfold skipCommentF
  split
  · rfl
  · split
    · exact absurd rfl (h _)
    · rfl

theorem skipRegionsF_hash (n : Nat) (r : List Char) :
    skipRegionsF (n + 1) ('#' :: r) = dispatchF n (skipSpace (skipLine r)) := by
  have e : skipLine ('#' :: r) = skipLine r := by simp [skipLine]
  unfold skipRegionsF
  simp only [e]
  rfl

theorem skipRegionsF_other (n : Nat) {s : List Char} (h : ∀ r, s ≠ '#' :: r) :
    skipRegionsF (n + 1) s = dispatchF n s := by
  unfold skipRegionsF
  split
  · exact absurd rfl (h _)
  · rfl

theorem skipF_suffix (n : Nat) :
    ∀ s, skipCommentF n s <:+ s ∧ skipRegionsF n s <:+ s ∧ dispatchF n s <:+ s := by
  induction n with
  | zero =>
    intro s
    refine ⟨by simp [skipCommentF], by simp [skipRegionsF], ?_⟩
    unfold dispatchF
    split <;> simp [skipCommentF, skipRegionsF]
  | succ n ih =>
    intro s
    have hs : ∀ s, skipSpace (skipLine s) <:+ s := fun s => (skipSpace_suffix _).trans (skipLine_suffix s)
    have h1 : skipCommentF (n + 1) s <:+ s := by
      by_cases h : ∃ r, s = '/' :: '/' :: r
      · obtain ⟨r, rfl⟩ := h
        rw [skipCommentF_slash]
        exact (ih _).2.2.trans ((hs r).trans ⟨['/', '/'], rfl⟩)
      · rw [skipCommentF_other _ (fun r e => h ⟨r, e⟩)]
        exact suffix_refl _
    have h2 : skipRegionsF (n + 1) s <:+ s := by
      by_cases h : ∃ r, s = '#' :: r
      · obtain ⟨r, rfl⟩ := h
        rw [skipRegionsF_hash]
        exact (ih _).2.2.trans ((hs r).trans ⟨['#'], rfl⟩)
      · rw [skipRegionsF_other _ (fun r e => h ⟨r, e⟩)]
        exact (ih _).2.2
    refine ⟨h1, h2, ?_⟩
    unfold dispatchF
    split
    · exact h1
    · exact h2
    · exact suffix_refl _

/-- The depth bound of the mutual recursion does not matter once it is large enough. -/
theorem skipF_fuel (n : Nat) : ∀ s : List Char,
    (∀ m, 2 * s.length + 1 ≤ n → 2 * s.length + 1 ≤ m → skipCommentF n s = skipCommentF m s) ∧
    (∀ m, 2 * s.length + 2 ≤ n → 2 * s.length + 2 ≤ m → skipRegionsF n s = skipRegionsF m s) := by
  induction n with
  | zero => intro s; constructor <;> intro m h <;> omega
  | succ n ih =>
    have hd : ∀ s m, 2 * s.length + 2 ≤ n → 2 * s.length + 2 ≤ m → dispatchF n s = dispatchF m s := by
      intro s m hn hm
      unfold dispatchF
      split
      · exact (ih _).1 m (by omega) (by omega)
      · exact (ih _).2 m (by omega) (by omega)
      · rfl
    have hs : ∀ s, (skipSpace (skipLine s)).length ≤ s.length :=
      fun s => Nat.le_trans (skipSpace_len _) (skipLine_len _)
    intro s
    constructor
    · intro m hn hm
      obtain ⟨m, rfl⟩ : ∃ k, m = k + 1 := ⟨m - 1, by omega⟩
      by_cases h : ∃ r, s = '/' :: '/' :: r
      · obtain ⟨r, rfl⟩ := h
        rw [skipCommentF_slash, skipCommentF_slash]
        simp only [length_cons] at hn hm
        have := hs r
        exact hd _ _ (by omega) (by omega)
      · rw [skipCommentF_other _ (fun r e => h ⟨r, e⟩), skipCommentF_other _ (fun r e => h ⟨r, e⟩)]
    · intro m hn hm
      obtain ⟨m, rfl⟩ : ∃ k, m = k + 1 := ⟨m - 1, by omega⟩
      by_cases h : ∃ r, s = '#' :: r
      · obtain ⟨r, rfl⟩ := h
        rw [skipRegionsF_hash, skipRegionsF_hash]
        simp only [length_cons] at hn hm
        have := hs r
        exact hd _ _ (by omega) (by omega)
      · rw [skipRegionsF_other _ (fun r e => h ⟨r, e⟩), skipRegionsF_other _ (fun r e => h ⟨r, e⟩)]
        unfold dispatchF
        split
        · exact (ih _).1 m (by omega) (by omega)
        · exact absurd ⟨_, rfl⟩ h
        · rfl

theorem skipComment_suffix (s : List Char) : skipComment s <:+ s := (skipF_suffix _ s).1
theorem skipRegions_suffix (s : List Char) : skipRegions s <:+ s := (skipF_suffix _ s).2.1
theorem skipTrivia_suffix (s : List Char) : skipTrivia s <:+ s :=
  (skipRegions_suffix _).trans ((skipComment_suffix _).trans (skipSpace_suffix s))

/-- The `switch` at the end of `skipComment` and `skipRegions`. -/
def dispatch (s : List Char) : List Char :=
  match s with
  | '/' :: _ => skipComment s
  | '#' :: _ => skipRegions s
  | _ => s

theorem dispatchF_eq {n : Nat} {s : List Char} (h : 2 * s.length + 2 ≤ n) : dispatchF n s = dispatch s := by
  unfold dispatchF dispatch
  split
  · exact (skipF_fuel _ _).1 _ (by omega) (by omega)
  · exact (skipF_fuel _ _).2 _ (by omega) (by omega)
  · rfl

/-- `skipComment` on a comment. -/
theorem skipComment_slash (r : List Char) :
    skipComment ('/' :: '/' :: r) = dispatch (skipSpace (skipLine r)) := by
  rw [skipComment, skipCommentF_slash]
  have := Nat.le_trans (skipSpace_len (skipLine r)) (skipLine_len r)
  exact dispatchF_eq (by simp only [length_cons]; omega)

/-- `skipComment` elsewhere. -/
theorem skipComment_other {s : List Char} (h : ∀ r, s ≠ '/' :: '/' :: r) : skipComment s = s :=
  skipCommentF_other _ h

/-- `skipRegions` on a `#` line. -/
theorem skipRegions_hash (r : List Char) :
    skipRegions ('#' :: r) = dispatch (skipSpace (skipLine r)) := by
  rw [skipRegions, skipRegionsF_hash]
  have := Nat.le_trans (skipSpace_len (skipLine r)) (skipLine_len r)
  exact dispatchF_eq (by simp only [length_cons]; omega)

/-- `skipRegions` elsewhere. -/
theorem skipRegions_other {s : List Char} (h : ∀ r, s ≠ '#' :: r) : skipRegions s = skipComment s := by
  rw [skipRegions, skipRegionsF_other _ h]
  unfold dispatchF
  split
  · exact (skipF_fuel _ _).1 _ (by omega) (by omega)
  · exact absurd rfl (h _)
  · rw [skipComment_other]
    rintro r rfl
    rename_i h1 _
    exact h1 _ rfl

theorem dispatch_eq (s : List Char) : dispatch s = skipRegions s := by
  unfold dispatch
  split
  · rw [skipRegions_other]; simp
  · rfl
  · rename_i h1 h2
    rw [skipRegions_other (fun r e => h2 r e), skipComment_other (fun r e => h1 _ e)]

end Verif.Lexer
