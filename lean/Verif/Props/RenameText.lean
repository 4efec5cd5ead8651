import Verif.Proofs.RenameText
import Verif.Props.Rename
import Verif.Props.Reprint
import Verif.Props.Text
import Verif.Props.Recase
/-!
# Names are changed in the tree: C74

`Renaming`, what it does to trees and when it is `Ok` is in `Spec/Rename.lean`, `Writable` in `Spec/RenameText.lean`; the classes of
modules that are printed as code that can be read again are in `Spec/Reprint.lean` and `Spec/Bare.lean`.
-/
namespace Verif
open Spec Lexer RenameText

section
variable [Letters] {ρ : Renaming}

/-- **C74, texts.** The renamed tree of an accepted text is the tree of an accepted text: the one with the renamed tokens. -/
theorem C74_text (hL : ∀ c : Char, c.toNat ∈ whiteSpace → Letters.isL c = false) (hρ : ρ.Ok) (hw : ρ.Writable) {code : List Char}
    {M : Module} (h : Accepts code M) :
    ∃ code', Accepts code' (M.rename ρ) ∧ ∀ ks, HasKeys code ks → HasKeys code' (ks.map ρ.key) := by
  by_cases hb : NotBlank code
  · obtain ⟨P, h1, -⟩ := C49_accepted hb h
    have hk := written_keys h1
    obtain ⟨s, hs⟩ := written_gap (keysOk_rename hw (hasKeys_ok hk))
    refine ⟨gap s, C55_accepts hL hρ hk (written_keys hs) h, fun ks hks => ?_⟩
    rw [C49_unique ((C49_tokens _ _).1 hks) h1]
    exact written_keys hs
  · rw [accepts_blank hb h]
    refine ⟨[], C17_blank [] (by simp), fun ks hks => ?_⟩
    obtain ⟨l, ht, rfl⟩ := hks
    rw [tokens_blank hL ht hb]
    exact written_keys (.done (.layout .nil))

/-- The renamed program has a text. -/
theorem spells_rename (hL : ∀ c : Char, c.toNat ∈ whiteSpace → Letters.isL c = false) (hρ : ρ.Ok) (hw : ρ.Writable) {code : List Char}
    {P : Program} {M : Module} (hs : Spells code P) (h : Accepts code M) :
    ∃ code', Spells code' (P.rename ρ) ∧ Accepts code' (M.rename ρ) := by
  obtain ⟨code', h1, h2⟩ := C74_text hL hρ hw h
  refine ⟨code', ⟨?_, (P.grouped_rename ρ).2 hs.2⟩, h1⟩
  rw [P.toks_rename ρ]
  exact h2 _ hs.1

/-- **C74.** Parse, rename in the tree, print, parse: the result is the renamed tree, up to parentheses that do not matter, digits
after the decimal point and local variables, and it is printed in exactly the same ways.  Missing: what is missing from
`C38_roundtrip_partial` and `C50_same_partial`, because the code violates these properties even without a renaming. -/
theorem C74_printed_partial (hL : ∀ c : Char, c.toNat ∈ whiteSpace → Letters.isL c = false) (hρ : ρ.Ok) (hw : ρ.Writable)
    {code : List Char} {P : Program} {M : Module} (hs : Spells code P) (hc : P.clean) (ha : Accepts code M) (hp : Printable M)
    (hst : Stable M) (hsg : ShowsSigns M) (hne : M.body ≠ [] ∨ M.globals = []) {cf : PrintConf} (ht : TryOk cf M) {s : List Char}
    (hs' : Prints cf (M.rename ρ) s) :
    ∃ M', Accepts s M' ∧ M'.globals.Perm (M.rename ρ).globals ∧ M'.body.map bareItem = (M.rename ρ).body.map bareItem ∧
      ∀ cf' s', Prints cf' M' s' ↔ Prints cf' (M.rename ρ) s' := by
  obtain ⟨code', h1, h2⟩ := spells_rename hL hρ hw hs ha
  have hc' := (P.clean_rename ρ).2 hc
  obtain ⟨M', g1, g2, g3⟩ := C50_same_partial h1 hc' h2 (printable_rename ρ M hp) (stable_rename ρ M hst) (shows_rename ρ M hsg)
    (hne.imp (fun h e => h (List.map_eq_nil_iff.1 e)) fun h => by show M.globals.map _ = []; rw [h]; rfl) (try_rename ρ cf M ht) hs'
  obtain ⟨M'', f1, f2⟩ := C38_roundtrip_partial h1 hc' h2 (printable_rename ρ M hp) (stable_rename ρ M hst) (try_rename ρ cf M ht) hs'
  obtain rfl := accepts_unique g1 f1
  exact ⟨M', g1, g2, g3, f2⟩

/-! ## Renamings that can be written -/

/-- Only names change, names become names, and `Выполнить` is left alone. -/
theorem writable_names {f : Name → Name} (h1 : ∀ w, Word w → Word (f w)) (h2 : ∀ w, Word w → KindOf w identNumber → KindOf (f w) identNumber)
    (h3 : ∀ w, Word w → KindOf w Terminal.kExecute.kind → f w = w) : { Renaming.none with name := f }.Writable := by
  rintro dot k ⟨w, F, h⟩
  cases h with
  | name hw hk => exact ⟨_, _, .name (h1 _ hw) (hk.imp id (h2 _ hw))⟩
  | keyword hw hk ht =>
    by_cases hg : Terminal.kGoToLabel = ‹Terminal› ∨ Terminal.kDirective = ‹Terminal›
    · rcases keyword_plain hk with e | ⟨t, e, ht'⟩
      · rcases hg with rfl | rfl <;> exact absurd e (by decide)
      · have := kind_inj e
        subst this
        rcases hg with rfl | rfl <;> exact absurd ht' (by decide)
    · rw [Renaming.key_word]
      · exact ⟨_, _, .keyword hw hk ht⟩
      · simp at ht hg ⊢
        tauto
  | tru hw hk => exact ⟨_, _, .tru hw hk⟩
  | fls hw hk => exact ⟨_, _, .fls hw hk⟩
  | exec hw hk =>
    rw [Renaming.key_exec]
    show ∃ w' F', Lexeme false w' (named .kExecute (f w)) F'
    rw [h3 _ hw hk]
    exact ⟨_, _, .exec hw hk⟩
  | mark h =>
    rw [Renaming.key_word]
    · exact ⟨_, _, .mark h⟩
    · have := mark_plain h
      simp at this ⊢
      tauto
  | ne => exact ⟨_, _, .ne⟩
  | le => exact ⟨_, _, .le⟩
  | ge => exact ⟨_, _, .ge⟩
  | lt => exact ⟨_, _, .lt⟩
  | gt => exact ⟨_, _, .gt⟩
  | number h h' => exact ⟨_, _, .number h h'⟩
  | string h => exact ⟨_, _, .string h⟩
  | date h h' => exact ⟨_, _, .date h h'⟩
  | directive h => exact ⟨_, _, .directive h⟩
  | label h => exact ⟨_, _, .label h⟩

/-- Two names change places. -/
theorem exchange_writable {x y : Name} (hx : Word x) (hx' : KindOf x identNumber) (hy : Word y) (hy' : KindOf y identNumber) :
    (Renaming.exchange x y).Writable := by
  have plain : ∀ w, KindOf w identNumber → ¬ KindOf w Terminal.kExecute.kind := by
    intro w h h'
    cases h' with
    | keyword hm =>
      cases h with
      | keyword hm' =>
        have : ∀ p ∈ keywordTable, p.2 ≠ identNumber := by decide
        exact this _ hm' rfl
      | ident hn => exact hn _ hm
  refine writable_names (fun w hw => ?_) (fun w hw hk => ?_) fun w hw hk => ?_
  · split
    · exact hy
    · split
      · exact hx
      · exact hw
  · split
    · exact hy'
    · split
      · exact hx'
      · exact hk
  · rw [if_neg, if_neg]
    · rintro rfl; exact plain _ hy' hk
    · rintro rfl; exact plain _ hx' hk

end

/-! ## Examples and violations -/

theorem plain_word {w : List Char} (h : ∀ p ∈ keywordTable, p.1 ≠ String.ofList (w.map lowerChar)) : KindOf w identNumber :=
  .ident fun _ hm => h _ hm rfl

/-- All hypotheses together: in `sampleText` the names `Ф` and `Новая` change places. -/
example (m : Nat) := @C74_printed_partial stdLetters _ std_white (exchange_ok (x := ['Ф']) (y := "Новая".toList) nofun nofun)
  (@exchange_writable stdLetters _ _ (@rus_word stdLetters _ nofun (by decide)) (plain_word (by decide +kernel)) (@rus_word stdLetters _ nofun (by decide)) (plain_word (by decide +kernel)))
  _ _ _ sample_spells sample_clean sample_accepted sample_printable.1 sample_printable.2.1 sample_signs (.inl nofun) _
  (sample_printable.2.2.1 m) _ ⟨_, .refl _, rfl⟩

/-- What is printed after the change. -/
example : printModule ⟨4, false⟩ [] (Module.rename (.exchange ['П'] "Новая".toList)
    ⟨[], [.stm (.method ['П'] [.var ['х'] false false, .method ['П'] [.nil] false] false)]⟩) = "\nНовая(х, Новая());".toList := by decide +kernel

/-- The trees of `Ф(-а)` and of `Ф(б)`. -/
def signed : Module := ⟨[], [.stm (.method ['Ф'] [.var ['а'] true false] false)]⟩
def unsigned : Module := ⟨[], [.stm (.method ['Ф'] [.var ['б'] false false] false)]⟩

theorem signed_accepted : @Accepts stdLetters "Ф(-а)".toList signed := by
  have h : @modOf stdLetters "Ф(-а)".toList = signed := by decide +kernel
  rw [← h]
  exact @accepts_modOf stdLetters _ (by decide +kernel)
theorem unsigned_accepted : @Accepts stdLetters "\nФ(б);".toList unsigned := by
  have h : @modOf stdLetters "\nФ(б);".toList = unsigned := by decide +kernel
  rw [← h]
  exact @accepts_modOf stdLetters _ (by decide +kernel)

/-- The property does not hold: if `а` becomes `б` in `Ф(-а)`, the printed code is `Ф(б)`, which is accepted and does not have the
renamed tree. -/
theorem C74_violated : ∃ (ρ : Renaming) (code s : List Char) (M M' : Module), ρ.Ok ∧ @Renaming.Writable stdLetters ρ ∧
    @Accepts stdLetters code M ∧ Prints ⟨4, false⟩ (M.rename ρ) s ∧ @Accepts stdLetters s M' ∧
    M'.body.map bareItem ≠ (M.rename ρ).body.map bareItem :=
  ⟨.exchange ['а'] ['б'], _, _, signed, unsigned, exchange_ok nofun nofun,
    @exchange_writable stdLetters _ _ (@rus_word stdLetters _ nofun (by decide)) (plain_word (by decide +kernel))
      (@rus_word stdLetters _ nofun (by decide)) (plain_word (by decide +kernel)),
    signed_accepted, ⟨[], .refl _, by decide +kernel⟩, unsigned_accepted, by decide +kernel⟩

end Verif
