import Verif.Proofs.Reprint.Turn
import Verif.Props.Reprint
/-!
# Reading printed code reverses the branches `ИначеЕсли`: C76

`turnModule M` is `M` with the branches `ИначеЕсли` of every `Если` in the opposite order (`Verif/Spec/Turn.lean`).
-/
namespace Verif
open Spec Lexer LR

section
variable [Letters]

/-- The conditions on a module that was parsed. -/
theorem fine_of {code : List Char} {P : Program} (hb : NotBlank code) (hs : Spells code P) (hc : P.clean) (ha : Accepts code P.tree)
    (hp : Printable P.tree) (hst : Steady P.tree) (hl : BreaksInLoops P.tree) {cf : PrintConf} (ht : TryOk cf P.tree) {gs : List GVar}
    (hg : gs.Perm P.globals) (hne : P.tree.body ≠ []) : Fine cf gs (P.funcs.map FuncD.tree) P.body.tree := by
  obtain ⟨-, hok, hsane⟩ := accepted_parts hb hs hc ha
  unfold Printable at hp
  unfold Steady at hst
  unfold TryOk at ht
  rw [tree_body] at hp hst ht hne
  have mf : ∀ {f}, f ∈ P.funcs.map FuncD.tree → Item.func f ∈ (P.funcs.map FuncD.tree).map Item.func ++ P.body.tree.map Item.stm :=
    fun hf => List.mem_append_left _ (List.mem_map.2 ⟨_, hf, rfl⟩)
  have ms : ∀ {s}, s ∈ P.body.tree → Item.stm s ∈ (P.funcs.map FuncD.tree).map Item.func ++ P.body.tree.map Item.stm :=
    fun hs => List.mem_append_right _ (List.mem_map.2 ⟨_, hs, rfl⟩)
  have hL := breaks_loops hl
  exact ⟨⟨fun v hv => hsane.vars v (hg.subset hv), hsane.funcs, hsane.body⟩, treeOk hg hok, fun f hf => (hp _ (mf hf)).1,
    fun f hf => (hp _ (mf hf)).2, fun s hs => hp _ (ms hs), fun f hf => hst _ (mf hf), fun s hs => hst _ (ms hs), hL.1, hL.2,
    fun f hf => ht _ (mf hf), tryOkL_of fun s hs => ht _ (ms hs), hne⟩

/-- Printed code is accepted, and what it gives is printed, with all options, as the module with its branches `ИначеЕсли` in the
opposite order.  Missing: modules that are not `Printable` or not `Steady`, blocks that begin with a separator, settings that glue
`Попытка` to the next word (`C38_violated`), and `Прервать` outside of loops (`C76_violated`). -/
theorem C76_turned_partial {code : List Char} {P : Program} {M : Module} (hs : Spells code P) (hc : P.clean) (ha : Accepts code M)
    (hp : Printable M) (hst : Steady M) (hl : BreaksInLoops M) {cf : PrintConf} (ht : TryOk cf M) {s : List Char} (hs' : Prints cf M s) :
    ∃ M', Accepts s M' ∧ ∀ cf' s', Prints cf' M' s' ↔ Prints cf' (turnModule M) s' := by
  obtain ⟨gs, hg, rfl⟩ := hs'
  by_cases hne : M.body = []
  · refine ⟨⟨[], []⟩, ?_, ?_⟩
    · unfold printModule
      rw [if_pos hne]
      exact C17_blank [] (by simp)
    · have hn : (turnModule M).body = [] := by simp [turnModule, hne]
      intro cf' s'
      constructor
      · rintro ⟨gs', _, rfl⟩
        exact ⟨gs, hg, by unfold printModule; rw [if_pos hn, if_pos rfl]⟩
      · rintro ⟨gs', _, rfl⟩
        exact ⟨[], .refl _, by unfold printModule; rw [if_pos hn, if_pos rfl]⟩
  have hb : NotBlank code := by
    by_contra hb
    rw [accepts_blank hb ha] at hne
    exact hne rfl
  obtain ⟨rfl, -, -⟩ := accepted_parts hb hs hc ha
  obtain ⟨M', h1, h2, h3, -⟩ := (fine_of hb hs hc ha hp hst hl ht hg hne).reread
  have e : ∀ cf gs', printModule cf gs' (modOfParts gs (P.funcs.map FuncD.tree) P.body.tree) = printModule cf gs' P.tree := by
    intro cf gs'
    unfold printModule
    rw [tree_body]
  have e' : ∀ cf gs', printModule cf gs' (modOfParts gs ((P.funcs.map FuncD.tree).map turnFunc) (turnL P.body.tree)) =
      printModule cf gs' (turnModule P.tree) := by
    intro cf gs'
    unfold printModule turnModule
    rw [tree_body, turn_parts]
  refine ⟨M', by rw [← e]; exact h1, fun cf' s' => ?_⟩
  constructor
  · rintro ⟨gs', hp', rfl⟩
    rw [h2] at hp'
    exact ⟨gs', hp'.trans hg, by rw [h3 _ _ hp', e']⟩
  · rintro ⟨gs', hp', rfl⟩
    have hp'' : gs'.Perm gs := hp'.trans hg.symm
    exact ⟨gs', by rw [h2]; exact hp'', by rw [h3 _ _ hp'', e']⟩

/-- Nothing else changes: what is read has the same variables, declarations and statements, up to the order of `ИначеЕсли`,
parentheses that do not matter, digits after the decimal point and local variables.  Missing: what is missing from `C76_turned_partial`,
signs that are not printed, and modules that declare variables and nothing else. -/
theorem C76_same_partial {code : List Char} {P : Program} {M : Module} (hs : Spells code P) (hc : P.clean) (ha : Accepts code M)
    (hp : Printable M) (hst : Steady M) (hl : BreaksInLoops M) (hsg : ShowsSigns M) (hne : M.body ≠ []) {cf : PrintConf} (ht : TryOk cf M)
    {s : List Char} (hs' : Prints cf M s) :
    ∃ M', Accepts s M' ∧ M'.globals.Perm M.globals ∧ M'.body.map bareItem = (turnModule M).body.map bareItem := by
  obtain ⟨gs, hg, rfl⟩ := hs'
  have hb : NotBlank code := by
    by_contra hb
    rw [accepts_blank hb ha] at hne
    exact hne rfl
  obtain ⟨rfl, -, -⟩ := accepted_parts hb hs hc ha
  obtain ⟨M', h1, h2, -, h4⟩ := (fine_of hb hs hc ha hp hst hl ht hg hne).reread
  have e : printModule cf gs (modOfParts gs (P.funcs.map FuncD.tree) P.body.tree) = printModule cf gs P.tree := by
    unfold printModule
    rw [tree_body]
  refine ⟨M', by rw [← e]; exact h1, by rw [h2]; exact hg, ?_⟩
  unfold ShowsSigns at hsg
  rw [tree_body] at hsg
  rw [h4 (fun f hf => hsg (.func f) (List.mem_append_left _ (List.mem_map.2 ⟨f, hf, rfl⟩)))
    fun s hs => hsg (.stm s) (List.mem_append_right _ (List.mem_map.2 ⟨s, hs, rfl⟩))]
  unfold turnModule
  rw [tree_body, turn_parts]

/-- Printing and reading twice gives a module that is printed exactly as the first one.  Missing: what is missing from
`C76_turned_partial`. -/
theorem C76_twice_partial {code : List Char} {P : Program} {M : Module} (hs : Spells code P) (hc : P.clean) (ha : Accepts code M)
    (hp : Printable M) (hst : Steady M) (hl : BreaksInLoops M) {cf : PrintConf} (ht : TryOk cf M) {s : List Char} (hs' : Prints cf M s) :
    ∃ M', Accepts s M' ∧ ∀ s', Prints cf M' s' → ∃ M'', Accepts s' M'' ∧ ∀ cf' s'', Prints cf' M'' s'' ↔ Prints cf' M s'' := by
  obtain ⟨M', h1, h2⟩ := C76_turned_partial hs hc ha hp hst hl ht hs'
  refine ⟨M', h1, fun s' hs2 => ?_⟩
  obtain ⟨gs, hg, rfl⟩ := (h2 cf s').1 hs2
  by_cases hne : M.body = []
  · refine ⟨⟨[], []⟩, ?_, ?_⟩
    · unfold printModule
      rw [if_pos (by simp [turnModule, hne])]
      exact C17_blank [] (by simp)
    · intro cf' s'
      constructor
      · rintro ⟨gs', _, rfl⟩
        exact ⟨gs, hg, by unfold printModule; rw [if_pos hne, if_pos rfl]⟩
      · rintro ⟨gs', _, rfl⟩
        exact ⟨[], .refl _, by unfold printModule; rw [if_pos hne, if_pos rfl]⟩
  have hb : NotBlank code := by
    by_contra hb
    rw [accepts_blank hb ha] at hne
    exact hne rfl
  obtain ⟨rfl, -, -⟩ := accepted_parts hb hs hc ha
  obtain ⟨M'', g1, g2, g3, -⟩ := (fine_of hb hs hc ha hp hst hl ht hg hne).turn.reread
  have e : ∀ cf gs', printModule cf gs' (modOfParts gs ((P.funcs.map FuncD.tree).map turnFunc) (turnL P.body.tree)) =
      printModule cf gs' (turnModule P.tree) := by
    intro cf gs'
    unfold printModule turnModule
    rw [tree_body, turn_parts]
  have e' : ∀ cf gs', printModule cf gs' (modOfParts gs (((P.funcs.map FuncD.tree).map turnFunc).map turnFunc) (turnL (turnL P.body.tree))) =
      printModule cf gs' P.tree := by
    intro cf gs'
    have : ((P.funcs.map FuncD.tree).map turnFunc).map turnFunc = P.funcs.map FuncD.tree := by
      rw [List.map_map, show turnFunc ∘ turnFunc = id from funext turnFunc_turnFunc, List.map_id]
    rw [this, turnL_turnL]
    unfold printModule
    rw [tree_body]
  refine ⟨M'', by rw [← e]; exact g1, fun cf' s'' => ?_⟩
  constructor
  · rintro ⟨gs', hp', rfl⟩
    rw [g2] at hp'
    exact ⟨gs', hp'.trans hg, by rw [g3 _ _ hp', e']⟩
  · rintro ⟨gs', hp', rfl⟩
    have hp'' : gs'.Perm gs := hp'.trans hg.symm
    exact ⟨gs', by rw [g2]; exact hp'', by rw [g3 _ _ hp'', e']⟩

end

/-! ## Examples and witnesses -/

def branchText : List Char :=
  "Процедура П() Пока а Цикл Если а Тогда Прервать; ИначеЕсли б Тогда Ф(а); ИначеЕсли в Тогда Г(); КонецЕсли; КонецЦикла; КонецПроцедуры".toList

def branchCall (f : String) (o : OptExpr) : Stmt := .expr (.path (.one (.call f.toList (.one o))))
def branchBlock (s : Stmt) : Block := .body (.sep (.body (.one s)) .semi .none)

def branchProgram : Program where
  parts := [.func ⟨none, false, "П".toList, ⟨none, []⟩, false, [],
    branchBlock (.while (nm "а") (branchBlock (.ifS (nm "а") (branchBlock .brk)
      (.cons (nm "б") (branchBlock (branchCall "Ф" (.some (nm "а")))) (.cons (nm "в") (branchBlock (branchCall "Г" .none)) .nil)) .none)))⟩]
  body := .empty

theorem branch_spells : @Spells stdLetters branchText branchProgram := by
  refine ⟨@keysOf_sound stdLetters 100 _ _ (by decide +kernel), ?_⟩
  simp [branchProgram, branchBlock, branchCall, Program.grouped, Program.funcs, Part.funcs, FuncD.grouped, ParamsD.list, Block.grouped, Body.grouped,
    Stmt.grouped, OptStmt.grouped, Path.grouped, Ident.grouped, Expr.grouped, Elifs.grouped, Else.grouped,
    OptExpr.grouped, nm, Args.grouped, Expr.noAssign]

theorem branch_clean : branchProgram.clean := by
  simp [branchProgram, branchBlock, Program.clean, Program.funcs, Part.funcs, FuncD.clean, Block.clean, Body.clean, Stmt.clean, OptStmt.clean,
    Elifs.clean, Else.clean, branchCall]

theorem branch_accepted : @Accepts stdLetters branchText branchProgram.tree :=
  @accepts_eq stdLetters _ _ (by decide +kernel) (by decide +kernel)

theorem branch_fine : Printable branchProgram.tree ∧ Steady branchProgram.tree ∧ BreaksInLoops branchProgram.tree ∧
    ShowsSigns branchProgram.tree ∧ (∀ cf, TryOk cf branchProgram.tree) := by
  refine ⟨?_, ?_, ?_, ?_, fun cf => ?_⟩
  all_goals
    simp [Printable, Steady, BreaksInLoops, ShowsSigns, TryOk, branchProgram, branchBlock, branchCall, Program.tree, Program.funcs, Part.funcs, FuncD.tree,
      ParamsD.list, Block.tree, Body.tree, Stmt.tree, OptStmt.tree, Path.tree, Ident.tree, Expr.tree, OptExpr.tree, Args.tree,
      Elifs.tree, Else.tree, nm, plainB, plainS, plainE, plainEs, steadyB, steadyS, stableE, stableL, inLoopsL, inLoops, showsB, showsS, showsE,
      showsL, tryOkL, tryOk]

example (cf : PrintConf) := @C76_turned_partial stdLetters _ _ _ branch_spells branch_clean branch_accepted branch_fine.1 branch_fine.2.1 branch_fine.2.2.1
  cf (branch_fine.2.2.2.2 cf) _ ⟨_, .refl _, rfl⟩
example (cf : PrintConf) := @C76_same_partial stdLetters _ _ _ branch_spells branch_clean branch_accepted branch_fine.1 branch_fine.2.1 branch_fine.2.2.1
  branch_fine.2.2.2.1 nofun cf (branch_fine.2.2.2.2 cf) _ ⟨_, .refl _, rfl⟩
example (cf : PrintConf) := @C76_twice_partial stdLetters _ _ _ branch_spells branch_clean branch_accepted branch_fine.1 branch_fine.2.1 branch_fine.2.2.1
  cf (branch_fine.2.2.2.2 cf) _ ⟨_, .refl _, rfl⟩

/-- The branches of this module do change places, and `turnModule` changes no other module here. -/
example : turnModule branchProgram.tree ≠ branchProgram.tree ∧ turnModule sampleProgram.tree = sampleProgram.tree := by
  refine ⟨?_, ?_⟩
  · decide +kernel
  · decide +kernel

/-- `BreaksInLoops` cannot be left out: the parser accepts `Прервать` behind a loop `Пока` (C21), and when the branches change places it
stands in front of it, so that the printed code is rejected. -/
theorem C76_violated : ∃ code M s, @Accepts stdLetters code M ∧ Prints ⟨4, false⟩ M s ∧ ∀ M', ¬ @Accepts stdLetters s M' := by
  refine ⟨"Если а Тогда ИначеЕсли б Тогда Пока в Цикл КонецЦикла ИначеЕсли г Тогда Прервать КонецЕсли".toList, _, _,
    @accepts_modOf stdLetters _ (by decide +kernel), ⟨[], ?_, rfl⟩, fun M' h' => ?_⟩
  · rw [show (@modOf stdLetters "Если а Тогда ИначеЕсли б Тогда Пока в Цикл КонецЦикла ИначеЕсли г Тогда Прервать КонецЕсли".toList).globals = [] by
      decide +kernel]
  · rw [show printModule ⟨4, false⟩ [] (@modOf stdLetters
        "Если а Тогда ИначеЕсли б Тогда Пока в Цикл КонецЦикла ИначеЕсли г Тогда Прервать КонецЕсли".toList) =
        "\nЕсли а Тогда \nИначеЕсли г Тогда \n    Прервать;\nИначеЕсли б Тогда \n    Пока в Цикл \n    КонецЦикла;\n\nКонецЕсли;\n".toList by
      decide +kernel] at h'
    obtain ⟨a, g1, g2, -⟩ := h'
    have : @okB stdLetters "\nЕсли а Тогда \nИначеЕсли г Тогда \n    Прервать;\nИначеЕсли б Тогда \n    Пока в Цикл \n    КонецЦикла;\n\nКонецЕсли;\n".toList =
        true := by
      unfold okB
      rw [g1]
      simp [g2]
    revert this
    decide +kernel

end Verif
