import Verif.Proofs.Snippet
import Verif.Props.Lines
/-!
# Printing a single statement: C64, C65

`StatementOf M s d` (`Spec/Snippet.lean`): `s` is a statement of the module `M`, with `d` blocks around it.
-/
namespace Verif
open Spec Lexer LR

namespace Snippet

theorem whole_in {N : Terminal → Name → Prop} {V : Val → Prop} {s : Stm} {k : Nat} {l : List Stm} (h : InBlock s k l) :
    Stm.wholeL N V l → s.whole N V := by
  have mem : ∀ {s : Stm} {l : List Stm}, s ∈ l → Stm.wholeL N V l → s.whole N V := by
    intro s l h
    induction l with
    | nil => cases h
    | cons x l ih =>
      rintro ⟨h1, h2⟩
      rcases List.mem_cons.1 h with rfl | h
      · exact h1
      · exact ih h h2
  have memE : ∀ {c : Stm} {t x y : List Stm} {l : List Stm}, .ifS c t x y ∈ l → Stm.wholeE N V l → Stm.wholeL N V t := by
    intro c t x y l h
    induction l with
    | nil => cases h
    | cons z l ih =>
      intro g
      rcases List.mem_cons.1 h with rfl | h'
      · exact g.1.2.1
      · cases z <;> first | exact absurd g id | exact ih h' g.2
  induction h with
  | here h => exact mem h
  | then_ h _ ih => exact fun g => ih (mem h g).2.1
  | elif h h' _ ih => exact fun g => ih (memE h' (mem h g).2.2.1)
  | else_ h _ ih => exact fun g => ih (mem h g).2.2.2
  | loop h _ ih => exact fun g => ih (mem h g).1
  | tryB h _ ih => exact fun g => ih (mem h g).1
  | handler h _ ih => exact fun g => ih (mem h g).2

theorem whole_of {N : Terminal → Name → Prop} {V : Val → Prop} {M : Module} (hw : M.Whole N V) {s : Stm} {d : Nat} (h : StatementOf M s d) :
    s.whole N V := by
  cases h with
  | code hx h => exact whole_in h ⟨hw.stms _ hx, trivial⟩
  | func hx h => exact whole_in h (hw.funcs _ hx).body

theorem with_conf {N : Terminal → Name → Prop} {V : Val → Prop} {s : Stm} (h : s.whole N V) (cf : PrintConf) :
    printStatementWithConf cf s = printItem cf 0 s := by
  cases s <;> first | exact absurd h id | rfl

end Snippet

section
variable [Letters]

/-- **C64, part of the module.** What is printed for a statement of the tree is a contiguous part of what is printed for the whole module,
if the statement is not inside a block or the margin is 0. -/
theorem C64_part (code : List Char) (M : Module) (h : Accepts code M) (s : Stm) (d : Nat) (hs : StatementOf M s d) (cf : PrintConf)
    (hd : cf.margin = 0 ∨ d = 0) (t : List Char) (ht : Prints cf M t) : printStatementWithConf cf s <:+: t := by
  obtain ⟨gs, -, rfl⟩ := ht
  obtain ⟨a, h1, -, rfl⟩ := h
  rw [Snippet.with_conf (Snippet.whole_of (C51_whole code a (.parse .new h1)) hs)]
  exact Snippet.module_text hs hd gs

/-- **C64, lines.** What is printed for a statement has the lines that the whole module has for it, with less indentation. -/
theorem C64_lines (code : List Char) (M : Module) (h : Accepts code M) (s : Stm) (d : Nat) (hs : StatementOf M s d) (margin : Nat) :
    Arranged margin (lines 0 s) (printStatementWithConf ⟨margin, false⟩ s) ∧
      ∀ gs, (lines 0 s).map (Line.deeper d) <:+: moduleLines gs M := by
  obtain ⟨a, h1, -, rfl⟩ := h
  have hw := Snippet.whole_of (C51_whole code a (.parse .new h1)) hs
  rw [Snippet.with_conf hw]
  have := Lines.item s hw 0 (m := margin) (.done 0) Lines.breaks_nil
  simp only [List.replicate_zero, List.append_nil] at this
  exact ⟨this, Snippet.module_lines hs⟩

/-- **C64, default.** `PrintStatement` has these lines with a margin of 4. -/
theorem C64_default (code : List Char) (M : Module) (h : Accepts code M) (s : Stm) (d : Nat) (hs : StatementOf M s d) :
    Arranged 4 (lines 0 s) (printStatement s) := (C64_lines code M h s d hs 4).1

/-- **C64, lines of the text.** When the string constants of the text are written on one line: the lines of what is printed for a
statement, each behind `margin` spaces for every block around it, follow one another in the printed module. -/
theorem C64_text_lines (hL : Letters.isL '\n' = false) (code : List Char) (M : Module) (h : Accepts code M) (ho : OneLineStrings code)
    (s : Stm) (d : Nat) (hs : StatementOf M s d) (margin : Nat) (t : List Char) (ht : Prints ⟨margin, false⟩ M t) :
    (textLines (printStatementWithConf ⟨margin, false⟩ s)).map (List.replicate (margin * d) ' ' ++ ·) <:+: textLines t := by
  obtain ⟨gs, hg, e⟩ := C62_text_lines hL code M h ho margin t ht
  obtain ⟨h1, h2⟩ := C64_lines code M h s d hs margin
  have hgood := Lines.module_good (Lines.whole_no hL h ho) hg
  have h3 := h2 gs
  have hg' : ∀ l ∈ lines 0 s, '\n' ∉ l.text ∧ l.text ≠ [] := by
    intro l hl
    exact hgood (l.deeper d) (h3.subset (List.mem_map_of_mem hl))
  rw [Lines.arranged_lines h1 hg', e, List.map_map]
  obtain ⟨a, b, e'⟩ := h3
  rw [← e', List.map_append, List.map_append, List.map_map]
  refine ⟨a.map (Line.indented margin), b.map (Line.indented margin), ?_⟩
  congr 2
  refine List.map_congr_left fun l _ => ?_
  exact (Snippet.indented_deeper margin d l).symm

/-- **C65.** What is printed for a statement is accepted as a text of its own.  Its module has no variables and consists of one
statement, which is printed in the same way as the given one and is, exactly if no signs are lost, the same up to parentheses that do not
matter and digits behind the decimal point.  Missing: the statements that `C38_roundtrip_partial` excludes, programs with blocks that begin with a
separator, and statements that need the loop, handler or function around them (where it is false, `C65_violated`). -/
theorem C65_reads_partial {code : List Char} {P : Program} {M : Module} (hs : Spells code P) (hc : P.clean) (ha : Accepts code M)
    {s : Stm} {d : Nat} (hi : StatementOf M s d) (hp : plainS s) (hst : stableS s) (hal : alone false false s) {cf : PrintConf}
    (ht : tryOk cf s) : ∃ s', Accepts (printStatementWithConf cf s) ⟨[], [.stm s']⟩ ∧
      (∀ cf', printStatementWithConf cf' s' = printStatementWithConf cf' s) ∧ (bare s' = bare s ↔ showsS s) := by
  have hb : NotBlank code := by
    by_contra hb
    rw [accepts_blank hb ha] at hi
    cases hi with
    | code h => cases h
    | func h => cases h
  obtain ⟨rfl, -, hsane⟩ := accepted_parts hb hs hc ha
  have hS := Snippet.sane_of hsane hi
  obtain ⟨s', h1, h2, h3⟩ := Snippet.one_reads hS hp hst hal ht
  have hw : ∀ cf, printStatementWithConf cf s = printItem cf 0 s := fun cf => by
    have := Snippet.sane_nil hS
    cases s <;> first | exact absurd rfl this | rfl
  have hw' : ∀ cf, printStatementWithConf cf s' = printItem cf 0 s' := fun cf => by
    obtain ⟨a, g1, -, g2⟩ := h1
    exact Snippet.with_conf (Snippet.whole_of (C51_whole _ a (.parse .new g1))
      (.code (x := s') (by rw [g2]; simp) (.here (by simp)))) cf
  refine ⟨s', by rw [hw]; exact h1, fun cf' => ?_, h3⟩
  rw [hw, hw', h2]

/-- **C65, with several branches `ИначеЕсли`.** The same, with the branches in the opposite order (C76). -/
theorem C65_turned_partial {code : List Char} {P : Program} {M : Module} (hs : Spells code P) (hc : P.clean) (ha : Accepts code M)
    {s : Stm} {d : Nat} (hi : StatementOf M s d) (hp : plainS s) (hst : steadyS s) (hal : alone false false s) {cf : PrintConf}
    (ht : tryOk cf s) : ∃ s', Accepts (printStatementWithConf cf s) ⟨[], [.stm s']⟩ ∧
      (∀ cf', printStatementWithConf cf' s' = printStatementWithConf cf' (turn s)) ∧ (bare s' = bare (turn s) ↔ showsS s) := by
  have hb : NotBlank code := by
    by_contra hb
    rw [accepts_blank hb ha] at hi
    cases hi with
    | code h => cases h
    | func h => cases h
  obtain ⟨rfl, -, hsane⟩ := accepted_parts hb hs hc ha
  have hS := Snippet.sane_of hsane hi
  obtain ⟨s', h1, h2, h3⟩ := Snippet.one_turned hS hp hst hal ht
  have hw : ∀ cf, printStatementWithConf cf s = printItem cf 0 s := fun cf => by
    have := Snippet.sane_nil hS
    cases s <;> first | exact absurd rfl this | rfl
  have hw' : ∀ cf, printStatementWithConf cf s' = printItem cf 0 s' := fun cf => by
    obtain ⟨a, g1, -, g2⟩ := h1
    exact Snippet.with_conf (Snippet.whole_of (C51_whole _ a (.parse .new g1))
      (.code (x := s') (by rw [g2]; simp) (.here (by simp)))) cf
  have hw'' : ∀ cf, printStatementWithConf cf (turn s) = printItem cf 0 (turn s) := fun cf => by
    have := Snippet.sane_nil hS
    cases s <;> first | exact absurd rfl this | rfl
  refine ⟨s', by rw [hw]; exact h1, fun cf' => ?_, h3⟩
  rw [hw', hw'', h2]

end

/-! ## Examples and violations -/

/-- The loop of `sampleText`. -/
def sampleLoop : Stm :=
  .loop (.str ['х']) .nil (.var ['а'] false false) .nil [.ifS (.bin .eq (.var ['х'] false false) (.var ['б'] false false) false false) [.brk] [] []]

theorem sampleLoop_of : StatementOf sampleProgram.tree sampleLoop 1 := by
  have h : ∃ f ∈ sampleProgram.funcs, sampleLoop ∈ f.tree.body := by decide +kernel
  obtain ⟨f, hf, h⟩ := h
  exact .func (f := f.tree) (by rw [tree_body]; exact List.mem_append_left _ (List.mem_map_of_mem (List.mem_map_of_mem hf))) (.here h)

/-- The text of the loop. -/
example : printStatementWithConf ⟨2, false⟩ sampleLoop =
    "Для Каждого х Из а Цикл \n  Если х = б Тогда \n    Прервать;\n  КонецЕсли;\n\nКонецЦикла;\n".toList := by decide +kernel

/-- `C65_reads_partial` for the loop. -/
example (m : Nat) := @C65_reads_partial stdLetters _ _ _ sample_spells sample_clean sample_accepted _ _ sampleLoop_of
  (by simp [sampleLoop, plainS, plainB, plainE]) (by simp [sampleLoop, stableS, stableB, stableE, startsNot])
  (by simp [sampleLoop, alone, aloneL]) ⟨m, false⟩ (by simp [sampleLoop, tryOk, tryOkL])

/-- `C64_part` for the loop. -/
example (o : Bool) (t : List Char) (ht : Prints ⟨0, o⟩ sampleProgram.tree t) :=
  @C64_part stdLetters _ _ sample_accepted _ _ sampleLoop_of ⟨0, o⟩ (.inl rfl) t ht

/-- A statement in a branch of `linesText`, two levels deep. -/
theorem linesText_inner : StatementOf (@modOf stdLetters linesText)
    (.tryS [.method ['Г'] [.nil] false] []) 2 := by
  have h : ∃ f, Item.func f ∈ (@modOf stdLetters linesText).body ∧ ∃ c t ei, Stm.ifS c t ei [.tryS [.method ['Г'] [.nil] false] []] ∈ f.body := by
    refine ⟨(match (@modOf stdLetters linesText).body with | .func f :: _ => f | _ => ⟨none, [], [], [], [], false, false⟩), by decide +kernel, ?_⟩
    refine ⟨(match (@modOf stdLetters linesText).body with | .func ⟨_, _, _, .ifS c _ _ _ :: _, _, _, _⟩ :: _ => c | _ => .nil),
      (match (@modOf stdLetters linesText).body with | .func ⟨_, _, _, .ifS _ t _ _ :: _, _, _, _⟩ :: _ => t | _ => []),
      (match (@modOf stdLetters linesText).body with | .func ⟨_, _, _, .ifS _ _ e _ :: _, _, _, _⟩ :: _ => e | _ => []), by decide +kernel⟩
  obtain ⟨f, hf, c, t, ei, h⟩ := h
  exact .func hf (.else_ h (.here (by simp)))

/-- `C64_text_lines` for it: the lines are in the printed module, four spaces further to the right. -/
example (s : List Char) (hp : Prints ⟨2, false⟩ (@modOf stdLetters linesText) s) :
    ["    Попытка".toList, "      Г();".toList, "    Исключение".toList, "    КонецПопытки;".toList] <:+: textLines s := by
  have := @C64_text_lines stdLetters (by decide) linesText _ (@accepts_modOf stdLetters _ (by decide +kernel)) linesText_strings _ _
    linesText_inner 2 s hp
  rwa [show (textLines (printStatementWithConf ⟨2, false⟩ (.tryS [.method ['Г'] [.nil] false] []))).map (List.replicate (2 * 2) ' ' ++ ·) =
    ["    Попытка".toList, "      Г();".toList, "    Исключение".toList, "    КонецПопытки;".toList] by decide +kernel] at this

/-- The property does not hold: `Прервать` is not accepted without its loop, and the sign of an argument is lost. -/
theorem C65_violated :
    (∃ code M s d, @Accepts stdLetters code M ∧ StatementOf M s d ∧ ∀ M', ¬ @Accepts stdLetters (printStatement s) M') ∧
    ∃ code M s d s', @Accepts stdLetters code M ∧ StatementOf M s d ∧ @Accepts stdLetters (printStatement s) ⟨[], [.stm s']⟩ ∧
      bare s' ≠ bare s := by
  refine ⟨⟨"Для к = 1 По 2 Цикл Прервать КонецЦикла".toList, _, .brk, 1, @accepts_modOf stdLetters _ (by decide +kernel), ?_,
      fun M' => @rejects_eq stdLetters _ (by decide +kernel) M'⟩,
    "Ф(-а)".toList, ⟨[], [.stm (.method ['Ф'] [.var ['а'] true false] false)]⟩, .method ['Ф'] [.var ['а'] true false] false, 0,
    .method ['Ф'] [.var ['а'] false false] false, @accepts_eq stdLetters _ _ (by decide +kernel) (by decide +kernel),
    .code (List.mem_singleton_self _) (.here (List.mem_singleton_self _)),
    @accepts_eq stdLetters _ _ (by decide +kernel) (by decide +kernel), by decide +kernel⟩
  have h : ∃ f z b, Item.stm (.loop f z .nil .nil b) ∈ (@modOf stdLetters "Для к = 1 По 2 Цикл Прервать КонецЦикла".toList).body ∧ .brk ∈ b := by
    refine ⟨(match (@modOf stdLetters "Для к = 1 По 2 Цикл Прервать КонецЦикла".toList).body with | [.stm (.loop f _ _ _ _)] => f | _ => .nil),
      (match (@modOf stdLetters "Для к = 1 По 2 Цикл Прервать КонецЦикла".toList).body with | [.stm (.loop _ z _ _ _)] => z | _ => .nil),
      [.brk], by decide +kernel⟩
  obtain ⟨f, z, b, h1, h2⟩ := h
  exact .code h1 (.loop (List.mem_singleton_self _) (.here h2))

end Verif
