import Verif.Proofs.Reprint.Signs
import Verif.Props.Turn
import Verif.Props.Snippet
/-!
# Exactly the signs that are not printed are lost: C50, C76

The other direction of `C50_same_partial` and `C76_same_partial`.
-/
namespace Verif
open Spec Lexer LR

section
variable [Letters]

/-- Which modules printed code gives back, up to the order of `ИначеЕсли`. -/
private theorem exact {code : List Char} {P : Program} {M : Module} (hs : Spells code P) (hc : P.clean) (ha : Accepts code M)
    (hp : Printable M) (hst : Steady M) (hl : Stable M ∨ BreaksInLoops M) {cf : PrintConf} (ht : TryOk cf M) {s : List Char}
    (hs' : Prints cf M s) {M' : Module} (h1 : Accepts s M') (h2 : M'.globals.Perm M.globals)
    (h3 : M'.body.map bareItem = (turnModule M).body.map bareItem) : ShowsSigns M ∧ (M.body ≠ [] ∨ M.globals = []) := by
  obtain ⟨gs, hg, rfl⟩ := hs'
  by_cases hne : M.body = []
  · refine ⟨fun i hi => ?_, .inr ?_⟩
    · rw [hne] at hi
      cases hi
    · unfold printModule at h1
      rw [if_pos hne] at h1
      rw [accepts_unique h1 (C17_blank [] (by simp))] at h2
      exact List.nil_perm.1 h2
  refine ⟨?_, .inl hne⟩
  have hb : NotBlank code := by
    by_contra hb
    rw [accepts_blank hb ha] at hne
    exact hne rfl
  obtain ⟨rfl, hok, hsane⟩ := accepted_parts hb hs hc ha
  obtain ⟨ds, b, h⟩ := printable_re (g := true) hsane hg hp fun _ => hst
  have hw := h.written hne ht
  obtain ⟨t, ht1, ht2⟩ := h.mark (by rw [← tree_body]; exact hne)
  have h4 : Accepts _ (progOf gs ds b).tree := accepts_of (written_mark hw ht1 ht2) ⟨written_keys hw, h.grouped⟩
    (h.ok hg hok (hl.imp breaks_stable breaks_loops))
  rw [accepts_unique h1 h4] at h3
  unfold turnModule at h3
  rw [tree_body P, turn_parts] at h3
  obtain ⟨g1, g2⟩ := h.shows h3
  intro i hi
  rw [tree_body] at hi
  rcases List.mem_append.1 hi with hi | hi
  · obtain ⟨f, hf, rfl⟩ := List.mem_map.1 hi
    exact g1 f hf
  · obtain ⟨x, hx, rfl⟩ := List.mem_map.1 hi
    exact g2 x hx

/-- Printed code says what the module says exactly if all signs of the module are printed and the module does not declare variables
only.  So `ShowsSigns` is the least condition for C50.  Missing: what is missing from `C38_roundtrip_partial`. -/
theorem C50_exact_partial {code : List Char} {P : Program} {M : Module} (hs : Spells code P) (hc : P.clean) (ha : Accepts code M)
    (hp : Printable M) (hst : Stable M) {cf : PrintConf} (ht : TryOk cf M) {s : List Char} (hs' : Prints cf M s) :
    (∃ M', Accepts s M' ∧ M'.globals.Perm M.globals ∧ M'.body.map bareItem = M.body.map bareItem) ↔
      ShowsSigns M ∧ (M.body ≠ [] ∨ M.globals = []) := by
  constructor
  · rintro ⟨M', h1, h2, h3⟩
    exact exact hs hc ha hp hst.steady (.inl hst) ht hs' h1 h2 (by rw [hst.still]; exact h3)
  · rintro ⟨h1, h2⟩
    exact C50_same_partial hs hc ha hp hst h1 h2 ht hs'

/-- The same with any number of branches `ИначеЕсли`. -/
theorem C76_exact_partial {code : List Char} {P : Program} {M : Module} (hs : Spells code P) (hc : P.clean) (ha : Accepts code M)
    (hp : Printable M) (hst : Steady M) (hl : BreaksInLoops M) (hne : M.body ≠ []) {cf : PrintConf} (ht : TryOk cf M)
    {s : List Char} (hs' : Prints cf M s) :
    (∃ M', Accepts s M' ∧ M'.globals.Perm M.globals ∧ M'.body.map bareItem = (turnModule M).body.map bareItem) ↔ ShowsSigns M := by
  constructor
  · rintro ⟨M', h1, h2, h3⟩
    exact (exact hs hc ha hp hst (.inr hl) ht hs' h1 h2 h3).1
  · exact fun h1 => C76_same_partial hs hc ha hp hst hl h1 hne ht hs'

end

/-! ## Examples -/

/-- A module with all signs printed, and one without: `Ф(-а)`. -/
example := (@C50_exact_partial stdLetters _ _ _ sample_spells sample_clean sample_accepted sample_printable.1 sample_printable.2.1
  _ (sample_printable.2.2.1 4) _ ⟨_, .refl _, rfl⟩).2 ⟨sample_signs, .inl nofun⟩

private def lostText : List Char := "Ф(-а)".toList
private def lostProgram : Program where
  parts := []
  body := .body (.one (.expr (.path (.one (.call "Ф".toList (.one (.some (.simple (.neg (nm "а"))))))))))

private theorem lost_spells : @Spells stdLetters lostText lostProgram := by
  refine ⟨@keysOf_sound stdLetters 20 _ _ (by decide +kernel), ?_⟩
  simp [lostProgram, Program.grouped, Program.funcs, Block.grouped, Body.grouped, Stmt.grouped, Path.grouped, Ident.grouped, Expr.grouped, Simple.grouped,
    OptExpr.grouped, nm, Args.grouped, Expr.noAssign, Expr.opens]

private theorem lost_clean : lostProgram.clean := by
  simp [lostProgram, Program.clean, Program.funcs, Block.clean, Body.clean, Stmt.clean]

private theorem lost_accepted : @Accepts stdLetters lostText lostProgram.tree :=
  @accepts_eq stdLetters _ _ (by decide +kernel) (by decide +kernel)

example : ¬ ∃ M', @Accepts stdLetters (printModule ⟨4, false⟩ lostProgram.tree.globals lostProgram.tree) M' ∧ M'.globals.Perm lostProgram.tree.globals ∧
    M'.body.map bareItem = lostProgram.tree.body.map bareItem := by
  rw [@C50_exact_partial stdLetters _ _ _ lost_spells lost_clean lost_accepted _ _ _ _ _ ⟨_, .refl _, rfl⟩]
  all_goals
    simp [Printable, Stable, ShowsSigns, TryOk, lostProgram, Program.tree, Program.funcs, Block.tree, Body.tree, Stmt.tree, Path.tree,
      Ident.tree, Expr.tree, OptExpr.tree, Args.tree, Simple.tree, withMinus, nm, plainS, plainE, plainEs, stableS, stableE, stableL,
      showsS, showsE, showsL, tryOk]

/-- `C65_turned_partial` for the loop of `branchText`, which has two branches `ИначеЕсли`. -/
def branchLoop : Stm :=
  .loop .nil .nil .nil (.var ['а'] false false) [.ifS (.var ['а'] false false) [.brk]
    [.ifS (.var ['в'] false false) [.method ['Г'] [.nil] false] [] [], .ifS (.var ['б'] false false) [.method ['Ф'] [.var ['а'] false false] false] [] []] []]

theorem branchLoop_of : StatementOf branchProgram.tree branchLoop 1 :=
  .func (f := (match branchProgram.tree.body with | [.func f] => f | _ => ⟨none, [], [], [], [], false, false⟩)) (by decide +kernel)
    (.here (by decide +kernel))

example (cf : PrintConf) := @C65_turned_partial stdLetters _ _ _ branch_spells branch_clean branch_accepted _ _ branchLoop_of
  (by simp [branchLoop, plainS, plainB, plainE, plainEs]) (by simp [branchLoop, steadyS, steadyB, stableE, stableL])
  (by simp [branchLoop, alone, aloneL]) cf (by simp [branchLoop, tryOk, tryOkL])

end Verif
