import Verif.Props.Reprint
import Verif.Props.Recase
/-!
# Code on one line and code on many lines: C77
-/
namespace Verif
open Spec Lexer LR

section
variable [Letters]

/-- What is printed of one module with two settings is read in the same way: both texts are accepted, with the same tree, or both are
rejected.  Modules that are not `Stable`, whose printed code is not read back as they are, are included.  Missing: modules that are not
`Printable`, blocks that begin with a separator, and settings that glue `Попытка` to the next word (`C77_violated`). -/
theorem C77_same_partial (hL : ∀ c : Char, c.toNat ∈ whiteSpace → Letters.isL c = false) {code : List Char} {P : Program} {M : Module}
    (hs : Spells code P) (hc : P.clean) (ha : Accepts code M) (hp : Printable M) {cf cf' : PrintConf} (ht : TryOk cf M) (ht' : TryOk cf' M)
    {gs : List GVar} (hg : gs.Perm M.globals) (M' : Module) :
    Accepts (printModule cf gs M) M' ↔ Accepts (printModule cf' gs M) M' := by
  obtain ⟨ks, h1, h2⟩ := C37_tokens_partial hs hc ha hp ht ht' hg
  have one : ∀ {s s' : List Char}, HasKeys s ks → HasKeys s' ks → Accepts s M' → Accepts s' M' := by
    intro s s' h h' h3
    have e : ks.map Renaming.none.key = ks := by rw [show Renaming.none.key = id from funext Recase.key_none, List.map_id]
    have := C55_accepts hL Recase.none_ok h (by rw [e]; exact h') h3
    rwa [Recase.module_rename_none] at this
  exact ⟨one h1 h2, one h2 h1⟩

end

example (m : Nat) := @C77_same_partial stdLetters std_white _ _ _ sample_spells sample_clean sample_accepted sample_printable.1
  _ _ (sample_printable.2.2.1 m) sample_printable.2.2.2 _ (.refl _)

/-- The property does not hold.  With a margin and line breaks these modules are read back as they are.  On one line the first is
rejected, and the second is accepted as another program: `Попытка`, `Исключение` and `КонецПопытки` become the name of a variable. -/
theorem C77_violated :
    (∃ code M, @Accepts stdLetters code M ∧ M.globals = [] ∧ @Accepts stdLetters (printModule ⟨4, false⟩ [] M) M ∧
      ∀ M', ¬ @Accepts stdLetters (printModule ⟨0, true⟩ [] M) M') ∧
    ∃ code M, @Accepts stdLetters code M ∧ M.globals = [] ∧ M.body = [.stm (.tryS [] [])] ∧
      @Accepts stdLetters (printModule ⟨4, false⟩ [] M) M ∧
      @Accepts stdLetters (printModule ⟨4, true⟩ [] M) ⟨[], [.stm (.var "ПопыткаИсключениеКонецПопытки".toList false false)]⟩ := by
  refine ⟨?_, ?_⟩
  · have h1 : @okB stdLetters "Попытка а() Исключение б() КонецПопытки".toList = true := by decide +kernel
    refine ⟨"Попытка а() Исключение б() КонецПопытки".toList, _, @accepts_modOf stdLetters _ h1, by decide +kernel, ?_, fun M' => ?_⟩
    · exact @accepts_eq stdLetters _ _ (by decide +kernel) (by decide +kernel)
    · exact @rejects_eq stdLetters _ (by decide +kernel) M'
  · refine ⟨"Попытка Исключение КонецПопытки".toList, ⟨[], [.stm (.tryS [] [])]⟩,
      @accepts_eq stdLetters _ _ (by decide +kernel) (by decide +kernel), rfl, rfl, ?_, ?_⟩
    · exact @accepts_eq stdLetters _ _ (by decide +kernel) (by decide +kernel)
    · exact @accepts_eq stdLetters _ _ (by decide +kernel) (by decide +kernel)

end Verif
