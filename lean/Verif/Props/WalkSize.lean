import Verif.Proofs.WalkSize
import Verif.Props.Size
/-!
# How often Walk calls its callback: C87

`walk (rooted f) (st, []) M` walks the module `M` with the callback `f`, whose variables have the value `st` before, and also writes down
the first argument of every call.
-/
namespace Verif
open Spec Lexer LR

section
variable [Letters]

/-- On the tree of an accepted text `Walk` calls the callback, whatever it stores, at most twice for every token of the text.  Missing:
texts with blocks that begin with a separator (where it is false, `C87_violated`). -/
theorem C87_calls_partial {σ : Type} (f : Callback σ) (st : σ) {code : List Char} {M : Module} {ks : List Key} (hc : CleanText code)
    (h : Accepts code M) (hk : HasKeys code ks) : (walk (rooted f) (st, []) M).1.2.length ≤ 2 * ks.length := by
  rw [C40_any_callback]
  show ((walk recorder [] M).1.map Seen.root).length ≤ _
  rw [List.length_map]
  by_cases hb : NotBlank code
  · obtain ⟨P, hs, hc⟩ := hc
    have hA := accepted hb hs h
    obtain rfl := Program.exact hc hA.shows
    obtain ⟨⟨l, h1, h2⟩, -⟩ := hs
    rw [hasKeys_unique hk ⟨l, h1, h2⟩]
    exact WalkSize.program P
  · rw [accepts_blank hb h]
    exact Nat.zero_le _

/-- … and hence at most twice for every character. -/
theorem C87_length_partial {σ : Type} (f : Callback σ) (st : σ) {code : List Char} {M : Module} (hc : CleanText code)
    (h : Accepts code M) : (walk (rooted f) (st, []) M).1.2.length ≤ 2 * code.length := by
  have ⟨P, ⟨⟨l, h1, h2⟩, _⟩, _⟩ := hc
  exact Nat.le_trans (C87_calls_partial f st hc h ⟨l, h1, h2⟩) (Nat.mul_le_mul_left 2 (C68_tokens ⟨l, h1, h2⟩))
end

/-- The property does not hold: a text of 14143 characters makes `Walk` call every callback more than a million times. -/
theorem C87_violated : ∃ code M, @Accepts stdLetters code M ∧ code.length = 14143 ∧
    ∀ (σ : Type) (f : Callback σ) (st : σ), 1000000 < (walk (rooted f) (st, []) M).1.2.length := by
  obtain ⟨code, M, h, hl, -, hw⟩ := C68_print_walk 20
  refine ⟨code, M, h, hl, fun σ f st => ?_⟩
  rw [C40_any_callback]
  show _ < ((walk recorder [] M).1.map Seen.root).length
  rw [List.length_map]
  exact Nat.lt_of_lt_of_le (by decide) hw

example : ∃ ks, @HasKeys stdLetters sampleText ks ∧ (walk recorder [] sampleProgram.tree).1.length ≤ 2 * ks.length ∧
    10 < (walk recorder [] sampleProgram.tree).1.length := by
  obtain ⟨⟨l, h1, h2⟩, h3⟩ := sample_spells
  refine ⟨_, ⟨l, h1, h2⟩, ?_, by decide +kernel⟩
  have h := @C87_calls_partial stdLetters _ recorder [] _ _ _ ⟨_, ⟨⟨l, h1, h2⟩, h3⟩, sample_clean⟩ sample_accepted ⟨l, h1, h2⟩
  rw [C40_any_callback] at h
  simpa using h

/-- Two is needed: `Возврат` is one token and makes two calls (for what it returns, which is nothing, and for itself). -/
example : (walk recorder [] ⟨[], [.stm (.ret .nil)]⟩).1.length = 2 := by decide +kernel

end Verif
