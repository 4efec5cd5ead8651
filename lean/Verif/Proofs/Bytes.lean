import Verif.Proofs.Utf8
import Verif.Spec.Bytes
/-! `Decodes` is computed by `decodeAll`, and the tokeniser primitives follow it. -/
namespace Verif.Utf8
open List Spec

theorem decodes_all (bs : List UInt8) : Decodes bs (decodeAll bs) := by
  induction hn : bs.length using Nat.strongRecOn generalizing bs with
  | _ n ih =>
    subst hn
    cases bs with
    | nil => exact .nil
    | cons b r =>
      rcases decodeRune_cases b r with ⟨c, r', e, _⟩ | he
      · have hl := congrArg length e
        simp only [length_cons, length_append] at hl
        have hc := encodeChar_len c
        rw [e, decodeAll_encodeChar, encodeChar_eq]
        exact .char c (ih r'.length (by simp only [length_cons]; omega) r' rfl)
      · rw [decodeAll_cons, he]
        refine .invalid ?_ (ih r.length (by simp) r rfl)
        intro c r' e
        rw [← encodeChar_eq] at e
        rw [e, decodeRune_encode] at he
        injection he with h1 h2
        subst h1
        revert h2
        decide

theorem decodes_iff (bs : List UInt8) (cs : List Char) : Decodes bs cs ↔ decodeAll bs = cs := by
  constructor
  · intro h
    induction h with
    | nil => rfl
    | char c _ ih => rw [← encodeChar_eq, decodeAll_encodeChar, ih]
    | @invalid b bs cs hno _ ih =>
      rcases decodeRune_cases b bs with ⟨c, r', e, _⟩ | he
      · rw [encodeChar_eq] at e
        exact absurd e (hno c r')
      · rw [decodeAll_cons, he]
        show runeError :: decodeAll bs = _
        rw [ih]
        rfl
  · rintro rfl; exact decodes_all bs

/-- The bytes of one character at the front, and the step over it. -/
theorem decodeRune_step (bs : List UInt8) (h : bs ≠ []) :
    ∃ c, decodeAll bs = c :: decodeAll (bs.drop (decodeRune bs).2) ∧ (decodeRune bs).1 = c ∧
      1 ≤ (decodeRune bs).2 ∧ (decodeRune bs).2 ≤ bs.length := by
  cases bs with
  | nil => exact absurd rfl h
  | cons b r =>
    rcases decodeRune_cases b r with ⟨c, r', e, hd⟩ | he
    · refine ⟨c, ?_, by rw [hd], by rw [hd]; exact encodeChar_len c, ?_⟩
      · rw [hd]
        dsimp only
        rw [e, decodeAll_encodeChar, drop_left]
      · rw [hd, e, length_append]; dsimp only; omega
    · refine ⟨runeError, ?_, by rw [he], by rw [he]; exact Nat.le_refl 1, by rw [he]; simp⟩
      rw [decodeAll_cons, he]
      rfl

theorem decodeAll_eq_nil {bs : List UInt8} : decodeAll bs = [] ↔ bs = [] := by
  constructor
  · intro h
    cases bs with
    | nil => rfl
    | cons b r => rw [decodeAll_cons] at h; cases h
  · rintro rfl; rfl

theorem currentLetB_eq (code : List UInt8) (o : Nat) : currentLetB code o = (decodeAll (code.drop o)).head? := by
  unfold currentLetB
  by_cases h : o ≥ code.length
  · rw [if_pos h, drop_of_length_le h]; rfl
  · rw [if_neg h]
    obtain ⟨c, hc, hd, _, _⟩ := decodeRune_step (code.drop o) (by
      intro e; have := congrArg length e; simp at this; omega)
    rw [hc, hd]
    rfl

theorem nextPosB_eq (code : List UInt8) (o : Nat) (ho : o ≤ code.length) :
    ∃ o', nextPosB code o = some o' ∧ o' ≤ code.length ∧
      decodeAll (code.drop o') = (decodeAll (code.drop o)).tail ∧ (o < code.length → o < o') := by
  unfold nextPosB
  rw [if_neg (by omega)]
  refine ⟨_, rfl, ?_⟩
  by_cases he : code.drop o = []
  · rw [he]
    refine ⟨ho, ?_, ?_⟩
    · show decodeAll (code.drop (o + 0)) = _
      rw [Nat.add_zero, he]; rfl
    · intro h
      have := congrArg length he
      simp at this; omega
  · obtain ⟨c, hc, hd, h1, h2⟩ := decodeRune_step (code.drop o) he
    rw [length_drop] at h2
    refine ⟨by omega, ?_, by omega⟩
    rw [hc, ← drop_drop]
    rfl

theorem nextLetB_eq (code : List UInt8) (o : Nat) (ho : o ≤ code.length) :
    nextLetB code o = some (decodeAll (code.drop o)).tail.head? := by
  obtain ⟨o', h1, _, h3, _⟩ := nextPosB_eq code o ho
  unfold nextPosB at h1
  unfold nextLetB
  rw [if_neg (by omega)] at h1 ⊢
  injection h1 with h1
  rw [h1, currentLetB_eq, h3]

/-- Number of bytes of the first `n` characters. -/
def bnd : Nat → List UInt8 → Nat
  | 0, _ => 0
  | n + 1, bs => (decodeRune bs).2 + bnd n (bs.drop (decodeRune bs).2)

theorem decodeRune_size_le (bs : List UInt8) : (decodeRune bs).2 ≤ bs.length := by
  by_cases h : bs = []
  · subst h; exact Nat.le_refl 0
  · exact (decodeRune_step bs h).choose_spec.2.2.2

theorem bnd_le (n : Nat) (bs : List UInt8) : bnd n bs ≤ bs.length := by
  induction n generalizing bs with
  | zero => exact Nat.zero_le _
  | succ n ih =>
    have h1 := decodeRune_size_le bs
    have h2 := ih (bs.drop (decodeRune bs).2)
    rw [length_drop] at h2
    rw [bnd]; omega

theorem bnd_drop (n : Nat) (bs : List UInt8) : decodeAll (bs.drop (bnd n bs)) = (decodeAll bs).drop n := by
  induction n generalizing bs with
  | zero => rfl
  | succ n ih =>
    rw [bnd, ← drop_drop, ih]
    by_cases h : bs = []
    · subst h; simp [decodeAll, decodeFrom]
    · obtain ⟨c, hc, -⟩ := decodeRune_step bs h
      rw [hc]; simp

theorem bnd_take (n : Nat) (bs : List UInt8) : decodeAll (bs.take (bnd n bs)) = (decodeAll bs).take n := by
  induction n generalizing bs with
  | zero => rfl
  | succ n ih =>
    rw [bnd]
    cases bs with
    | nil => simp [decodeAll, decodeFrom]
    | cons b r =>
      rw [take_add]
      rcases decodeRune_cases b r with ⟨c, r', e, hd⟩ | he
      · rw [hd, e]
        dsimp only
        rw [take_left, drop_left, decodeAll_encodeChar, decodeAll_encodeChar, ih, take_succ_cons]
      · rw [he]
        dsimp only
        rw [decodeAll_cons b r, he]
        dsimp only
        rw [take_succ_cons, take_zero, cons_append, nil_append, drop_succ_cons, drop_zero]
        rw [take_succ_cons, ← ih]
        have : decodeRune (b :: r.take (bnd n r)) = (runeError, 1) := by
          rcases decodeRune_cases b (r.take (bnd n r)) with ⟨c, r', e, hd⟩ | he'
          · exfalso
            have e2 : b :: r = encodeChar c ++ (r' ++ r.drop (bnd n r)) := by
              rw [← append_assoc, ← e, cons_append, take_append_drop]
            rw [e2, decodeRune_encode] at he
            injection he with h1 h2
            subst h1
            revert h2
            decide
          · exact he'
        rw [decodeAll_cons, this]
        rfl

end Verif.Utf8
