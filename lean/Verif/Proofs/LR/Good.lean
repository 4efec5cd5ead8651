import Verif.Proofs.LR.Derive
import Verif.Spec.Syntax
/-! Facts about single tokens: values match numbers, separators are what they seem. -/
namespace Verif.LR
open Tables Spec Lexer

/-- Value and text of a token fit its number. -/
structure Good (x : Nat × Tok) : Prop where
  num : x.1 = Terminal.kNumber.kind → ∃ v, x.2.value = .num v
  str : x.1 = Terminal.kString.kind → ∃ v, x.2.value = .str v
  date : x.1 = Terminal.kDate.kind → ∃ v, x.2.value = .date v
  tru : x.1 = Terminal.kTrue.kind → x.2.value = .bool true
  fls : x.1 = Terminal.kFalse.kind → x.2.value = .bool false
  colon : x.1 = Terminal.colon.kind → x.2.literal = [':']
  semi : x.1 = Terminal.semi.kind → x.2.literal = [';']

theorem valueOf_good {k : Nat} {l : List Char} {old v : Val} (h : valueOf k l old = .ok v) :
    (k = tNumber → ∃ x, v = .num x) ∧ (k = tString → ∃ x, v = .str x) ∧ (k = tDate → ∃ x, v = .date x) ∧
    (k = tTrue → v = .bool true) ∧ (k = tFalse → v = .bool false) := by
  refine ⟨?_, ?_, ?_, ?_, ?_⟩
  · rintro rfl
    unfold valueOf at h
    rw [if_pos rfl] at h
    split at h
    · injection h with h; exact ⟨_, h.symm⟩
    · cases h
  · rintro rfl
    unfold valueOf at h
    rw [if_neg (by decide), if_pos rfl] at h
    injection h with h; exact ⟨_, h.symm⟩
  · rintro rfl
    unfold valueOf at h
    rw [if_neg (by decide), if_neg (by decide), if_pos rfl] at h
    split at h
    · injection h with h; exact ⟨_, h.symm⟩
    · split at h
      · injection h with h; exact ⟨_, h.symm⟩
      · split at h
        · injection h with h; exact ⟨_, h.symm⟩
        · split at h
          · injection h with h; exact ⟨_, h.symm⟩
          · cases h
  · rintro rfl
    unfold valueOf at h
    rw [if_neg (by decide), if_neg (by decide), if_neg (by decide), if_neg (by decide), if_pos rfl] at h
    injection h with h; exact h.symm
  · rintro rfl
    unfold valueOf at h
    rw [if_neg (by decide), if_neg (by decide), if_neg (by decide), if_neg (by decide), if_neg (by decide), if_pos rfl] at h
    injection h with h; exact h.symm

variable [Letters]

theorem nextRaw_punct {b : Bool} {c : Char} {r : List Char} (hc : c = ':' ∨ c = ';') :
    (nextRaw b (c :: r)).literal = [c] := by
  have hl : isLetter c = false := by
    rcases hc with rfl | rfl <;> exact isLetter_ascii_false (by decide) (by decide) (by decide)
  unfold nextRaw
  dsimp only
  rw [hl, if_neg (by decide)]
  rcases hc with rfl | rfl
  · rw [if_neg (by decide), if_neg (by decide), if_neg (by decide), if_pos (by decide)]
  · rw [if_neg (by decide), if_neg (by decide), if_neg (by decide), if_pos (by decide)]

theorem good_punct {t t' : Tok} {k : Nat} (h : lexNext t = (t', .ok (some k))) {c : Char}
    (hc : c = ':' ∨ c = ';') (hk : k = c.toNat) : t'.literal = [c] := by
  have h1 := lexNext_res_ok (t := t) (k := k) (by rw [h])
  have hlit : t'.literal = (nextRaw t.prevDot (skipTrivia t.rest)).literal := by
    have := finish_literal t (!t.prevDot && (skipTrivia t.rest).head? == some '.') (nextRaw t.prevDot (skipTrivia t.rest))
    rw [← this]
    have h2 : finish t (!t.prevDot && (skipTrivia t.rest).head? == some '.') (nextRaw t.prevDot (skipTrivia t.rest)) = (t', .ok (some k)) := h
    rw [h2]
  rw [hlit]
  cases hs : skipTrivia t.rest with
  | nil =>
    have := (lexNext_eof_iff t).2 hs
    rw [h] at this; cases this
  | cons d r =>
    rw [hs] at h1
    have hk' : k = 58 ∨ k = 59 := by rcases hc with rfl | rfl <;> simp [hk]
    have hd : d = c := by
      rcases nextRaw_cases h1 with ⟨_, h⟩ | ⟨_, h⟩ | ⟨_, h⟩ | ⟨_, h⟩ | ⟨_, h⟩ | ⟨_, h⟩ | ⟨_, h⟩ | ⟨_, h⟩ | ⟨_, h⟩ |
        ⟨_, h⟩ | ⟨_, h⟩
      · have := (wordNumber_big h).1; omega
      · omega
      · exact absurd hk' (by rw [h]; decide)
      · exact absurd hk' (by rw [h]; decide)
      · rw [← Char.ofNat_toNat d, ← Char.ofNat_toNat c, ← h, hk]
      · exact absurd hk' (by rw [h]; decide)
      · exact absurd hk' (by rw [h]; decide)
      · rcases h with h | h | h <;> exact absurd hk' (by rw [h]; decide)
      · rcases h with h | h <;> exact absurd hk' (by rw [h]; decide)
      · exact absurd hk' (by rw [h]; decide)
      · exact absurd hk' (by rw [h]; decide)
    subst hd
    exact nextRaw_punct hc

theorem lexNext_good {t t' : Tok} {k : Nat} (h : lexNext t = (t', .ok (some k))) : Good (k, t') := by
  have hv : ∃ l old, valueOf k l old = .ok t'.value := by
    have h2 : finish t (!t.prevDot && (skipTrivia t.rest).head? == some '.') (nextRaw t.prevDot (skipTrivia t.rest)) = (t', .ok (some k)) := h
    unfold finish at h2
    split at h2
    · injection h2 with _ h2; cases h2
    · injection h2 with _ h2; cases h2
    · rename_i k' _
      split at h2
      · rename_i v hv
        injection h2 with h2 h3
        injection h3 with h3; injection h3 with h3
        subst h2; subst h3
        exact ⟨_, _, hv⟩
      · injection h2 with _ h2; cases h2
  obtain ⟨l, old, hv⟩ := hv
  obtain ⟨g1, g2, g3, g4, g5⟩ := valueOf_good hv
  exact ⟨g1, g2, g3, g4, g5, fun hk => good_punct h (.inl rfl) hk, fun hk => good_punct h (.inr rfl) hk⟩

theorem tokens_good {t : Tok} {l : List (Nat × Tok)} (h : Tokens t l) : ∀ x ∈ l, Good x := by
  induction h with
  | eof => exact nofun
  | next hx _ ih =>
    intro x hm
    rcases List.mem_cons.1 hm with rfl | hm
    · exact lexNext_good hx
    · exact ih x hm

end Verif.LR
