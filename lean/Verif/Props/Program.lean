import Verif.Proofs.Program
/-!
# Accepted programs: C16, C21–C32

`Spells code P` (Spec/Program.lean): the text `code` is the program `P`; `Accepts code M`: `Parse` returns nil and leaves the
module `M`; `P.tree`: the tree that belongs to the program (Spec/Syntax.lean, with the deviations marked there).

The examples use the standard letters (`stdLetters`).
-/
namespace Verif
open Spec Lexer LR

/-! ## C16 -/

section
variable [Letters]

/-- Every program that keeps the rules is accepted, whatever its layout (`Spells` says nothing on layout), and its tree is
`P.tree`.  Missing for the full property: blocks that begin with a separator (`clean`; see `C16_shown_partial` and `C16_violated`),
and `P.tree` is not always what is written (C28: order of `ИначеЕсли`, C29: lost signs). -/
theorem C16_accepted_partial (code : List Char) (P : Program) (hb : NotBlank code) (hs : Spells code P) (hl : P.Lawful) (hc : P.clean) :
    Accepts code P.tree :=
  accepts_of hb hs (Lawful.ok hl hc)

/-- Every program that keeps the rules is accepted, also if blocks begin with separators, and the tree shows the program, with foreign
statements at most in front of such blocks.  Missing for the full property: programs with a `:` in a block before its first statement that
is not the first token of the block (where the property is false, `C16_violated`), and the foreign statements (C27). -/
theorem C16_shown_partial (code : List Char) (P : Program) (hb : NotBlank code) (hs : Spells code P) (hl : P.Lawful) (hc : P.tidy) :
    ∃ M, Accepts code M ∧ P.shows M :=
  accepts_shows hb hs (Lawful.law hl hc)

/-- Exactly these programs are accepted: those that keep the rules for `Прервать` and `Продолжить` (as checked, see C21), for
`ВызватьИсключение`, `Возврат`, `:`, repeated names and the order of declarations.  Missing: programs that are not `tidy`, see
`C16_violated`. -/
theorem C16_exactly_partial (code : List Char) (P : Program) (hb : NotBlank code) (hs : Spells code P) (hc : P.tidy) :
    (∃ M, Accepts code M) ↔ P.breaksOk ∧ P.throwsOk ∧ P.returnsOk ∧ P.colonsOk ∧ P.distinct ∧ P.ordered := by
  constructor
  · rintro ⟨M, ha⟩
    have h := accepted hb hs ha
    exact ⟨h.breaks, h.throws, h.returns, h.colons, h.distinct, h.ordered⟩
  · rintro ⟨h1, h2, h3, h4, h5, h6⟩
    obtain ⟨M, h, -⟩ := accepts_shows hb hs ⟨hc, h1, h2, h3, h4, h5, h6⟩
    exact ⟨M, h⟩

/-- Conversely every accepted text is a program, and only one. -/
theorem C16_accepted_is_program (code : List Char) (M : Module) (hb : NotBlank code) (ha : Accepts code M) :
    ∃ P, Spells code P ∧ ∀ P', Spells code P' → P' = P := by
  obtain ⟨a, h1, h2, rfl⟩ := ha
  obtain ⟨l, P, ht, hl, hA⟩ := parse_program ((notBlank_iff code).1 hb) h1 h2
  refine ⟨P, ⟨⟨l, ht, hl⟩, hA.grouped⟩, ?_⟩
  rintro P' ⟨⟨l', ht', hl'⟩, hg'⟩
  exact program_unique ht' ht hl' hl hg' hA.grouped

/-- A text is at most one program. -/
theorem C16_program_unique (code : List Char) (P P' : Program) (h : Spells code P) (h' : Spells code P') : P = P' := by
  obtain ⟨⟨l, ht, hl⟩, hg⟩ := h
  obtain ⟨⟨l', ht', hl'⟩, hg'⟩ := h'
  exact program_unique ht ht' hl hl' hg hg'
end

/-- A text with every kind of declaration and some statements. -/
def sampleText : List Char :=
  "&НаСервере\nПерем г1, г2 Экспорт;\nФункция Ф(Знач а, б = 1) Экспорт\n Перем л;\n Для Каждого х Из а Цикл\n  Если х = б Тогда Прервать; КонецЕсли;\n КонецЦикла;\n Возврат а + б * 2\nКонецФункции\nПопытка\n Ф(1, );\nИсключение ВызватьИсключение; КонецПопытки".toList

def nm (s : String) : Expr := .path (.one (.name s.toList))
private def one : F64 := ⟨false, 4503599627370496, -52⟩
private def two : F64 := ⟨false, 4503599627370496, -51⟩

/-- The program of `sampleText`. -/
def sampleProgram : Program where
  parts := [
    .vars ⟨some "&НаСервере".toList, ⟨"г1".toList, ["г2".toList]⟩, true⟩,
    .func ⟨none, true, "Ф".toList, ⟨some ⟨true, "а".toList, []⟩, [⟨false, "б".toList, [.num one]⟩]⟩, true, [⟨"л".toList, []⟩],
      .body (.sep (.body (.one (.forEach "х".toList (.path (.one (.name "а".toList)))
          (.body (.sep (.body (.one (.ifS (.bin .eq (nm "х") (nm "б")) (.body (.sep (.body (.one .brk)) .semi .none)) .nil .none)))
            .semi .none))))) .semi
        (.some (.ret (.some (.bin .plus (nm "а") (.bin .mul (nm "б") (.simple (.num two))))))))⟩]
  body := .body (.one (.tryS
    (.body (.sep (.body (.one (.expr (.path (.one (.call "Ф".toList (.more (.one (.some (.simple (.num one)))) .none))))))) .semi .none))
    (.body (.sep (.body (.one (.throw .none))) .semi .none))))

theorem sample_notBlank : NotBlank sampleText := (notBlank_iff _).2 (by decide +kernel)

theorem sample_spells : @Spells stdLetters sampleText sampleProgram := by
  refine ⟨@keysOf_sound stdLetters 100 _ _ (by decide +kernel), ?_⟩
  simp [sampleProgram, Program.grouped, Program.funcs, Part.funcs, FuncD.grouped, ParamsD.list, ParamD.grouped, Block.grouped, Body.grouped,
    Stmt.grouped, OptStmt.grouped, Source.grouped, Path.grouped, Ident.grouped, Expr.grouped, Simple.grouped, Elifs.grouped, Else.grouped,
    OptExpr.grouped, Expr.closes, Expr.opens, nm, level, Args.grouped, Expr.noAssign]
  rintro p (rfl | rfl) <;> simp [Simple.grouped]

theorem sample_lawful : sampleProgram.Lawful where
  loops := by
    simp [sampleProgram, Program.loopsOk, Program.blocks, Program.funcs, Part.funcs, Block.loopsOk, Body.loopsOk, Stmt.loopsOk,
      OptStmt.loopsOk, Elifs.loopsOk, Else.loopsOk]
  throws := by
    simp [sampleProgram, Program.throwsOk, Program.blocks, Program.funcs, Part.funcs, Block.throwsOk, Body.throwsOk, Stmt.throwsOk,
      OptStmt.throwsOk, Elifs.throwsOk, Else.throwsOk]
  returns := by
    simp [sampleProgram, Program.returnsOk, Program.funcs, Part.funcs, Block.returnsOk, Body.returnsOk, Stmt.returnsOk,
      OptStmt.returnsOk, Elifs.returnsOk, Else.returnsOk]
  colons := by
    simp [sampleProgram, Program.colonsOk, Program.blocks, Program.funcs, Part.funcs, Block.colonsOk, Body.colonsOk, Stmt.colonsOk,
      OptStmt.colonsOk, Elifs.colonsOk, Else.colonsOk]
  distinct := by
    simp [sampleProgram, Program.distinct, Program.globals, Part.globals, VarsD.tree, Names.list, Program.funcs, Part.funcs, FuncD.locals]
  ordered := ⟨[_], [_], rfl⟩

theorem sample_clean : sampleProgram.clean := by
  simp [sampleProgram, Program.clean, Program.funcs, Part.funcs, FuncD.clean, Block.clean, Body.clean, Stmt.clean, OptStmt.clean, Elifs.clean,
    Else.clean]

/-- The hypotheses of `C16_accepted_partial` hold of `sampleText`. -/
theorem sample_accepted : @Accepts stdLetters sampleText sampleProgram.tree :=
  @C16_accepted_partial stdLetters _ _ sample_notBlank sample_spells sample_lawful sample_clean

/-- The same by computation. -/
example : @Accepts stdLetters sampleText sampleProgram.tree :=
  @accepts_eq stdLetters _ _ (by decide +kernel) (by decide +kernel)

/-- The property does not hold: a program that keeps the rules is rejected, because its second procedure begins with `;:` and the parser
takes the `:` to follow the statement `Возврат 1` of the function before. -/
theorem C16_violated : ∃ code P, NotBlank code ∧ @Spells stdLetters code P ∧ P.Lawful ∧ ∀ M, ¬ @Accepts stdLetters code M := by
  refine ⟨"Функция Ф() Возврат 1; КонецФункции Процедура П() ;: КонецПроцедуры".toList,
    ⟨[.func ⟨none, true, "Ф".toList, ⟨none, []⟩, false, [], .body (.sep (.body (.one (.ret (.some (.simple (.num one)))))) .semi .none)⟩,
      .func ⟨none, false, "П".toList, ⟨none, []⟩, false, [], .body (.sep (.body (.sep .empty .semi .none)) .colon .none)⟩], .empty⟩,
    (notBlank_iff _).2 (by decide +kernel), ⟨@keysOf_sound stdLetters 100 _ _ (by decide +kernel), ?_⟩, ⟨?_, ?_, ?_, ?_, ?_, ?_⟩, ?_⟩
  · simp [Program.grouped, Program.funcs, Part.funcs, FuncD.grouped, ParamsD.list, Block.grouped, Body.grouped, Stmt.grouped, OptStmt.grouped,
      OptExpr.grouped, Expr.grouped, Simple.grouped]
  · simp [Program.loopsOk, Program.blocks, Program.funcs, Part.funcs, Block.loopsOk, Body.loopsOk, Stmt.loopsOk, OptStmt.loopsOk]
  · simp [Program.throwsOk, Program.blocks, Program.funcs, Part.funcs, Block.throwsOk, Body.throwsOk, Stmt.throwsOk, OptStmt.throwsOk]
  · simp [Program.returnsOk, Program.funcs, Part.funcs, Block.returnsOk, Body.returnsOk, Stmt.returnsOk, OptStmt.returnsOk]
  · simp [Program.colonsOk, Program.blocks, Program.funcs, Part.funcs, Block.colonsOk, Body.colonsOk, Stmt.colonsOk, OptStmt.colonsOk,
      Block.last, Body.last]
  · simp [Program.distinct, Program.globals, Part.globals, Program.funcs, Part.funcs, FuncD.locals]
  · exact ⟨[], [_, _], rfl⟩
  · exact @rejects_eq stdLetters _ (by decide +kernel)

/-- A program whose blocks begin with separators. -/
def sepText : List Char := "Если а Тогда :; б() КонецЕсли".toList
def sepProgram : Program :=
  single (.ifS (nm "а") (.body (.sep (.body (.sep .empty .colon .none)) .semi (.some (.expr (.path (.one (.call "б".toList (.one .none))))))))
    .nil .none)

theorem sep_spells : @Spells stdLetters sepText sepProgram := by
  refine ⟨@keysOf_sound stdLetters 100 _ _ (by decide +kernel), ?_⟩
  simp [sepProgram, single, Program.grouped, Program.funcs, Block.grouped, Body.grouped, Stmt.grouped, OptStmt.grouped, Path.grouped,
    Ident.grouped, Expr.grouped, Elifs.grouped, Else.grouped, OptExpr.grouped, nm, Args.grouped, Expr.noAssign]

theorem sep_tidy : sepProgram.tidy := by
  simp [sepProgram, single, Program.tidy, Program.funcs, Block.tidy, Body.tidy, Stmt.tidy, OptStmt.tidy, Elifs.tidy, Else.tidy]

/-- The hypotheses of `C16_shown_partial` and `C16_exactly_partial` hold of it. -/
example : ∃ M, @Accepts stdLetters sepText M ∧ sepProgram.shows M := by
  refine @C16_shown_partial stdLetters _ _ ((notBlank_iff _).2 (by decide +kernel)) sep_spells ⟨?_, ?_, ?_, ?_, ?_, ⟨[], [], rfl⟩⟩ sep_tidy
  · simp [sepProgram, single, Program.loopsOk, Program.blocks, Program.funcs, Block.loopsOk, Body.loopsOk, Stmt.loopsOk, OptStmt.loopsOk,
      Elifs.loopsOk, Else.loopsOk]
  · simp [sepProgram, single, Program.throwsOk, Program.blocks, Program.funcs, Block.throwsOk, Body.throwsOk, Stmt.throwsOk, OptStmt.throwsOk,
      Elifs.throwsOk, Else.throwsOk]
  · simp [sepProgram, single, Program.returnsOk, Program.funcs, Block.returnsOk, Body.returnsOk, Stmt.returnsOk, OptStmt.returnsOk,
      Elifs.returnsOk, Else.returnsOk]
  · simp [sepProgram, single, Program.colonsOk, Program.blocks, Program.funcs, Block.colonsOk, Body.colonsOk, Stmt.colonsOk, OptStmt.colonsOk,
      Elifs.colonsOk, Else.colonsOk, Block.last]
  · simp [sepProgram, single, Program.distinct, Program.globals, Program.funcs]
example := @C16_exactly_partial stdLetters _ _ ((notBlank_iff _).2 (by decide +kernel)) sep_spells sep_tidy

/-! ## C21 -/

/-- The property does not hold: after a loop `Пока` a `Прервать` is accepted anywhere. -/
theorem C21_violated : ∃ code P M, NotBlank code ∧ @Spells stdLetters code P ∧ @Accepts stdLetters code M ∧ ¬ P.loopsOk := by
  refine ⟨"Пока а Цикл КонецЦикла; Прервать".toList,
    ⟨[], .body (.sep (.body (.one (.while (nm "а") .empty))) .semi (.some .brk))⟩, _, (notBlank_iff _).2 (by decide +kernel),
    ⟨@keysOf_sound stdLetters 100 _ _ (by decide +kernel), ?_⟩, @accepts_modOf stdLetters _ (by decide +kernel), ?_⟩
  · simp [Program.grouped, Program.funcs, Block.grouped, Body.grouped, Stmt.grouped, OptStmt.grouped, Path.grouped, Ident.grouped,
      Expr.grouped, nm]
  · simp [Program.loopsOk, Program.blocks, Program.funcs, Block.loopsOk, Body.loopsOk, Stmt.loopsOk, OptStmt.loopsOk]

section
variable [Letters]

/-- What holds: every `Прервать` and `Продолжить` is inside a loop or behind the beginning of a loop `Пока`; so without `Пока` the
property holds.  Missing: texts with `Пока` (where it is false, `C21_violated`). -/
theorem C21_loops_partial (code : List Char) (P : Program) (M : Module) (hb : NotBlank code) (hs : Spells code P) (ha : Accepts code M) :
    P.breaksOk ∧ (P.whiles = 0 → P.loopsOk) := by
  have h := (accepted hb hs ha).breaks
  exact ⟨h, fun hw => blocks_loops_of_breaks _ hw h⟩
end

example : sampleProgram.loopsOk :=
  (@C21_loops_partial stdLetters _ _ _ sample_notBlank sample_spells sample_accepted).2 (by
    simp [sampleProgram, Program.whiles, Program.blocks, Program.funcs, Part.funcs, Block.whiles, Body.whiles, Stmt.whiles, OptStmt.whiles,
      Elifs.whiles, Else.whiles])

section
variable [Letters]

/-! ## C22 -/

/-- In an accepted text `ВызватьИсключение` without value stands only inside exception handlers. -/
theorem C22_throw (code : List Char) (P : Program) (M : Module) (hb : NotBlank code) (hs : Spells code P) (ha : Accepts code M) :
    P.throwsOk :=
  (accepted hb hs ha).throws

/-! ## C23 -/

/-- In an accepted text `Возврат` with a value stands only inside functions. -/
theorem C23_return (code : List Char) (P : Program) (M : Module) (hb : NotBlank code) (hs : Spells code P) (ha : Accepts code M) :
    P.returnsOk :=
  (accepted hb hs ha).returns

/-! ## C24 -/

/-- No module variable is declared twice, and the module records exactly the declared ones, with directive and `Экспорт`. -/
theorem C24_globals (code : List Char) (P : Program) (M : Module) (hb : NotBlank code) (hs : Spells code P) (ha : Accepts code M) :
    (M.globals.map GVar.name).Nodup ∧
    ∀ g : GVar, g ∈ M.globals ↔ ∃ v : VarsD, Part.vars v ∈ P.parts ∧ g.name ∈ v.names.list ∧ g.directive = v.directive.getD [] ∧
      g.export = v.export := by
  have h := accepted hb hs ha
  rw [h.shows.1]
  refine ⟨h.distinct.1, fun g => ?_⟩
  simp only [Program.globals, List.mem_flatMap]
  constructor
  · rintro ⟨p, hp, hg⟩
    cases p with
    | func f => simp [Part.globals] at hg
    | vars v =>
      simp only [Part.globals, VarsD.tree, List.mem_map] at hg
      obtain ⟨n, hn, rfl⟩ := hg
      exact ⟨v, hp, hn, rfl, rfl⟩
  · rintro ⟨v, hv, h1, h2, h3⟩
    refine ⟨_, hv, ?_⟩
    simp only [Part.globals, VarsD.tree, List.mem_map]
    exact ⟨_, h1, by cases g; simp_all⟩

/-- The declarations that are counted, each once and in order. -/
theorem C24_globals_in_order (code : List Char) (P : Program) (M : Module) (hb : NotBlank code) (hs : Spells code P) (ha : Accepts code M) :
    M.globals = P.globals :=
  (accepted hb hs ha).shows.1

/-! ## C25 and C31 -/

/-- The procedures and functions of the module are those of the text, in order, each with exactly its local variables, none of
them twice. -/
theorem C25_locals (code : List Char) (P : Program) (M : Module) (hb : NotBlank code) (hs : Spells code P) (ha : Accepts code M) :
    (∀ f ∈ P.funcs, f.locals.Nodup) ∧
    ∃ (ds : List FuncDecl) (l : List Stm), M.body = ds.map .func ++ l.map .stm ∧ List.Forall₂ (fun f d => d.name = f.name ∧ d.vars = some f.locals) P.funcs ds := by
  have h := accepted hb hs ha
  refine ⟨h.distinct.2, ?_⟩
  obtain ⟨-, ds, l, h1, h2, -⟩ := h.shows
  refine ⟨ds, l, h1, h2.imp fun f d hd => ?_⟩
  rw [hd.2]
  exact ⟨rfl, rfl⟩

/-- The headers of procedures and functions are recorded as written. -/
theorem C31_headers (code : List Char) (P : Program) (M : Module) (hb : NotBlank code) (hs : Spells code P) (ha : Accepts code M) :
    ∃ (ds : List FuncDecl) (l : List Stm), M.body = ds.map .func ++ l.map .stm ∧ List.Forall₂ (fun f d =>
      d.name = f.name ∧ d.isFunc = f.isFunc ∧ d.directive = f.directive.getD [] ∧ d.export = f.export ∧
      List.Forall₂ (fun p q => q.name = p.name ∧ q.isValue = p.byVal ∧
        q.default = (match p.defaults.getLast? with | none => .nil | some s => s.tree)) f.params.list d.params) P.funcs ds := by
  obtain ⟨-, ds, l, h1, h2, -⟩ := (accepted hb hs ha).shows
  refine ⟨ds, l, h1, h2.imp fun f d hd => ?_⟩
  rw [hd.2]
  refine ⟨rfl, rfl, rfl, rfl, ?_⟩
  show List.Forall₂ _ _ (f.params.list.map ParamD.tree)
  rw [List.forall₂_map_right_iff]
  exact List.forall₂_same.2 fun p _ => ⟨rfl, rfl, rfl⟩

/-! ## C26 -/

/-- Module variables, then procedures and functions, then statements; in the tree procedures and functions come before the
statements, both in the order of the text. -/
theorem C26_order (code : List Char) (P : Program) (M : Module) (hb : NotBlank code) (hs : Spells code P) (ha : Accepts code M) :
    (∃ (vs : List VarsD) (fs : List FuncD), P = ⟨vs.map .vars ++ fs.map .func, P.body⟩ ∧
      P.toks = vs.flatMap VarsD.toks ++ (fs.flatMap FuncD.toks ++ P.body.toks)) ∧
    ∃ (ds : List FuncDecl) (l : List Stm), M.body = ds.map .func ++ l.map .stm ∧ List.Forall₂ FuncD.shows P.funcs ds ∧ P.body.shows l := by
  have h := accepted hb hs ha
  refine ⟨?_, h.shows.2⟩
  obtain ⟨vs, fs, hp⟩ := h.ordered
  refine ⟨vs, fs, by rw [← hp], ?_⟩
  simp only [Program.toks, hp, List.flatMap_append, List.flatMap_map, List.append_assoc, Part.toks]

/-! ## C32 -/

/-- In an accepted text every `:` that separates statements follows a label, or no statement of its block stands before it. -/
theorem C32_colons (code : List Char) (P : Program) (M : Module) (hb : NotBlank code) (hs : Spells code P) (ha : Accepts code M) :
    P.colonsOk :=
  (accepted hb hs ha).colons

/-! ## C27 -/

/-- What holds: every block shows its statements in the order of the text, and only in front of a block that begins with a
separator there may be others; a program without such blocks has exactly its tree.  Missing: blocks that begin with a separator
(where it is false, `C27_violated`). -/
theorem C27_blocks_partial (code : List Char) (P : Program) (M : Module) (hb : NotBlank code) (hs : Spells code P) (ha : Accepts code M) :
    P.shows M ∧ (P.clean → M = P.tree) := by
  have h := (accepted hb hs ha).shows
  exact ⟨h, fun hc => Program.exact hc h⟩
end

/-- Examples: the conclusions for `sampleText`. -/
example : sampleProgram.throwsOk ∧ sampleProgram.returnsOk ∧ sampleProgram.colonsOk :=
  ⟨@C22_throw stdLetters _ _ _ sample_notBlank sample_spells sample_accepted,
    @C23_return stdLetters _ _ _ sample_notBlank sample_spells sample_accepted,
    @C32_colons stdLetters _ _ _ sample_notBlank sample_spells sample_accepted⟩
example : (⟨"&НаСервере".toList, "г2".toList, true⟩ : GVar) ∈ sampleProgram.tree.globals :=
  ((@C24_globals stdLetters _ _ _ sample_notBlank sample_spells sample_accepted).2 _).2
    ⟨⟨some "&НаСервере".toList, ⟨"г1".toList, ["г2".toList]⟩, true⟩, .head _, by decide, rfl, rfl⟩
example : sampleProgram.tree.globals = sampleProgram.globals :=
  @C24_globals_in_order stdLetters _ _ _ sample_notBlank sample_spells sample_accepted
example := @C25_locals stdLetters _ _ _ sample_notBlank sample_spells sample_accepted
example := @C26_order stdLetters _ _ _ sample_notBlank sample_spells sample_accepted
example := @C27_blocks_partial stdLetters _ _ _ sample_notBlank sample_spells sample_accepted
example := @C31_headers stdLetters _ _ _ sample_notBlank sample_spells sample_accepted
/-- Texts that break the rules of C22, C23, C24, C25, C32 are rejected. -/
example : ∀ s ∈ ["Попытка ВызватьИсключение; Исключение КонецПопытки", "Процедура А() Возврат 1 КонецПроцедуры", "Перем а; Перем а;",
    "Процедура А() Перем а, а; КонецПроцедуры", "а = 1 : б = 2", "Процедура А() КонецПроцедуры Перем а;", "Прервать"],
    @okB stdLetters s.toList = false := by
  decide +kernel

/-- The property does not hold: the block of the second procedure is `;`, the tree shows a statement of the first one. -/
theorem C27_violated : ∃ code P M, NotBlank code ∧ @Spells stdLetters code P ∧ @Accepts stdLetters code M ∧
    ∃ f d, P.funcs[1]? = some f ∧ f.body.tree = [] ∧ M.body[1]? = some (.func d) ∧ d.body = [.ret (.num one)] := by
  refine ⟨"Функция Ф() Возврат 1; КонецФункции Процедура П() ; КонецПроцедуры".toList,
    ⟨[.func ⟨none, true, "Ф".toList, ⟨none, []⟩, false, [], .body (.sep (.body (.one (.ret (.some (.simple (.num one)))))) .semi .none)⟩,
      .func ⟨none, false, "П".toList, ⟨none, []⟩, false, [], .body (.sep .empty .semi .none)⟩], .empty⟩,
    _, (notBlank_iff _).2 (by decide +kernel),
    ⟨@keysOf_sound stdLetters 100 _ _ (by decide +kernel), ?_⟩, @accepts_modOf stdLetters _ (by decide +kernel), _,
    ⟨some [], "П".toList, [], [.ret (.num one)], [], false, false⟩, rfl, rfl, by decide +kernel, rfl⟩
  simp [Program.grouped, Program.funcs, Part.funcs, FuncD.grouped, ParamsD.list, Block.grouped, Body.grouped, Stmt.grouped, OptStmt.grouped,
    OptExpr.grouped, Expr.grouped, Simple.grouped]

/-! ## C28 -/

section
variable [Letters]

/-- What holds: an `Если` lists its branches `ИначеЕсли` in reverse order, so the order is right for at most one branch.  (For
statements in other places see `Stmt.tree` and `Stmt.shows` in C16 and C27.)  Missing: the right order for two and more branches
(where it is false, `C28_violated`). -/
theorem C28_branches_partial (code : List Char) (c : Expr) (t : Block) (es : Elifs) (e : Else) (M : Module) (hb : NotBlank code)
    (hs : Spells code (single (.ifS c t es e))) (hc : (Stmt.ifS c t es e).clean) (ha : Accepts code M) :
    M.body = [.stm (.ifS c.tree t.tree es.tree.reverse e.tree)] := by
  have h := (C27_blocks_partial code _ M hb hs ha).2 ⟨by simp [single, Program.funcs], by simpa only [single, Block.clean, Body.clean] using hc⟩
  rw [h]
  simp only [Program.tree, single, Program.funcs, List.flatMap_nil, List.map_nil, List.nil_append, Block.tree, Body.tree, Stmt.tree, List.map_cons]
end

/-- The property does not hold. -/
theorem C28_violated : ∃ code c t es e M, NotBlank code ∧ @Spells stdLetters code (single (.ifS c t es e)) ∧ @Accepts stdLetters code M ∧
    es.tree = [.ifS (nm "б").tree [] [] [], .ifS (nm "в").tree [] [] []] ∧
    M.body = [.stm (.ifS (nm "а").tree [] [.ifS (nm "в").tree [] [] [], .ifS (nm "б").tree [] [] []] [])] := by
  refine ⟨"Если а Тогда ИначеЕсли б Тогда ИначеЕсли в Тогда КонецЕсли".toList, nm "а", .empty,
    .cons (nm "б") .empty (.cons (nm "в") .empty .nil), .none, _, (notBlank_iff _).2 (by decide +kernel),
    ⟨@keysOf_sound stdLetters 100 _ _ (by decide +kernel), ?_⟩, @accepts_modOf stdLetters _ (by decide +kernel), ?_, by decide +kernel⟩
  · simp [single, Program.grouped, Program.funcs, Block.grouped, Body.grouped, Stmt.grouped, Elifs.grouped, Else.grouped, Path.grouped,
      Ident.grouped, Expr.grouped, nm]
  · simp [Elifs.tree, Block.tree]

/-! ## C29 -/

/-- The property does not hold: `-(б + 1)` and `(б + 1)` have the same tree, so have `Не а[0]` and `а[0]`. -/
theorem C29_violated :
    (∃ M, @Accepts stdLetters "а = -(б + 1)".toList M ∧ @Accepts stdLetters "а = (б + 1)".toList M) ∧
    (∃ M, @Accepts stdLetters "а = Не б[0]".toList M ∧ @Accepts stdLetters "а = б[0]".toList M) :=
  ⟨⟨_, @accepts_modOf stdLetters _ (by decide +kernel), @accepts_eq stdLetters _ _ (by decide +kernel) (by decide +kernel)⟩,
    ⟨_, @accepts_modOf stdLetters _ (by decide +kernel), @accepts_eq stdLetters _ _ (by decide +kernel) (by decide +kernel)⟩⟩

section
variable [Letters]

/-- What holds: `v = -e` and `v = e` have different trees exactly if the tree of `e` is a number, a binary operation, a name or a
chain of names without minus sign (`ShowsMinus`).  Missing: the other operands (where it is false, `C29_violated`). -/
theorem C29_minus_partial (code code' : List Char) (v : Path) (e : Expr) (hb : NotBlank code) (hb' : NotBlank code')
    (hk : HasKeys code (v.toks ++ word .kEQUAL :: word .minus :: e.toks)) (hk' : HasKeys code' (v.toks ++ word .kEQUAL :: e.toks))
    (hv : v.grouped) (he : e.grouped) (ho : e.opens signLevel) :
    ∃ M M', Accepts code M ∧ Accepts code' M' ∧ (M ≠ M' ↔ ShowsMinus e.tree) := by
  refine ⟨_, _, accepts_assign (e := .simple (.neg e)) hb (by simpa only [Expr.toks, Simple.toks] using hk) hv
    (by simp only [Expr.grouped, Simple.grouped]; exact ⟨ho, he⟩), accepts_assign hb' hk' hv he, ?_⟩
  rw [← withMinus_ne]
  simp only [Expr.tree, Simple.tree, ne_eq, Module.mk.injEq, true_and, List.cons.injEq, Item.stm.injEq, Stm.assign.injEq, and_true]

/-- What holds: `v = Не e` and `v = e` have different trees exactly if the tree of `e` is `Истина` or `Ложь`, or a binary operation,
parentheses, a name, a chain or a call without `Не` (`ShowsNot`).  Missing: the other operands (where it is false,
`C29_violated`). -/
theorem C29_not_partial (code code' : List Char) (v : Path) (e : Expr) (hb : NotBlank code) (hb' : NotBlank code')
    (hk : HasKeys code (v.toks ++ word .kEQUAL :: word .kNot :: e.toks)) (hk' : HasKeys code' (v.toks ++ word .kEQUAL :: e.toks))
    (hv : v.grouped) (he : e.grouped) (ho : e.opens notLevel) :
    ∃ M M', Accepts code M ∧ Accepts code' M' ∧ (M ≠ M' ↔ ShowsNot e.tree) := by
  refine ⟨_, _, accepts_assign (e := .not e) hb (by simpa only [Expr.toks] using hk) hv
    (by simp only [Expr.grouped]; exact ⟨ho, he⟩), accepts_assign hb' hk' hv he, ?_⟩
  rw [← withNot_ne]
  simp only [Expr.tree, ne_eq, Module.mk.injEq, true_and, List.cons.injEq, Item.stm.injEq, Stm.assign.injEq, and_true]

/-! ## C30 -/

/-- `v = a op1 b op2 c` is grouped to the right exactly if `op2` binds tighter. -/
theorem C30_binary (code : List Char) (v : Path) (a b c : Expr) (op1 op2 : Op) (hb : NotBlank code)
    (hk : HasKeys code (v.toks ++ word .kEQUAL :: (a.toks ++ word (opTerminal op1) :: (b.toks ++ word (opTerminal op2) :: c.toks))))
    (hv : v.grouped) (ha : Operand a) (hb' : Operand b) (hc : Operand c) :
    Accepts code ⟨[], [.stm (.assign v.tree [
      if level op1 < level op2 then .bin op1 a.tree (.bin op2 b.tree c.tree false false) false false
      else .bin op2 (.bin op1 a.tree b.tree false false) c.tree false false])]⟩ := by
  have l1 : level op1 ≤ 10 := by cases op1 <;> decide
  have l2 : level op2 ≤ 10 := by cases op2 <;> decide
  split
  · next h =>
    have := accepts_assign (e := .bin op1 a (.bin op2 b c)) hb (by simpa only [Expr.toks] using hk) hv (by
      simp only [Expr.grouped, Expr.opens]
      exact ⟨(ha.2 _ l1).1, h, ha.1, (hb'.2 _ l2).1, (hc.2 _ l2).2, hb'.1, hc.1⟩)
    simpa only [Expr.tree] using this
  · next h =>
    have := accepts_assign (e := .bin op2 (.bin op1 a b) c) hb (by simpa only [Expr.toks, List.append_assoc, List.cons_append] using hk) hv (by
      simp only [Expr.grouped, Expr.closes]
      exact ⟨⟨by omega, (hb'.2 _ l2).1⟩, (hc.2 _ l2).2, ⟨(ha.2 _ l1).1, (hb'.2 _ l1).2, ha.1, hb'.1⟩, hc.1⟩)
    simpa only [Expr.tree] using this

/-- `v = Не a op b`: `Не` covers the operation exactly if the operation binds tighter. -/
theorem C30_not (code : List Char) (v : Path) (a b : Expr) (op : Op) (hb : NotBlank code)
    (hk : HasKeys code (v.toks ++ word .kEQUAL :: word .kNot :: (a.toks ++ word (opTerminal op) :: b.toks)))
    (hv : v.grouped) (ha : Operand a) (hb' : Operand b) :
    Accepts code ⟨[], [.stm (.assign v.tree [
      if notLevel < level op then .bin op a.tree b.tree false true
      else .bin op (withNot a.tree) b.tree false false])]⟩ := by
  have l1 : level op ≤ 10 := by cases op <;> decide
  split
  · next h =>
    have := accepts_assign (e := .not (.bin op a b)) hb (by simpa only [Expr.toks] using hk) hv (by
      simp only [Expr.grouped, Expr.opens]
      exact ⟨h, (ha.2 _ l1).1, (hb'.2 _ l1).2, ha.1, hb'.1⟩)
    simpa only [Expr.tree, withNot] using this
  · next h =>
    have := accepts_assign (e := .bin op (.not a) b) hb (by simpa only [Expr.toks, List.cons_append] using hk) hv (by
      simp only [Expr.grouped, Expr.closes]
      exact ⟨⟨by omega, (ha.2 _ l1).1⟩, (hb'.2 _ l1).2, ⟨(ha.2 notLevel (by decide)).2, ha.1⟩, hb'.1⟩)
    simpa only [Expr.tree] using this

/-- `v = a op Не b`: the right operand is `Не b`. -/
theorem C30_not_right (code : List Char) (v : Path) (a b : Expr) (op : Op) (hb : NotBlank code)
    (hk : HasKeys code (v.toks ++ word .kEQUAL :: (a.toks ++ word (opTerminal op) :: word .kNot :: b.toks)))
    (hv : v.grouped) (ha : Operand a) (hb' : Operand b) :
    Accepts code ⟨[], [.stm (.assign v.tree [.bin op a.tree (withNot b.tree) false false])]⟩ := by
  have l1 : level op ≤ 10 := by cases op <;> decide
  have := accepts_assign (e := .bin op a (.not b)) hb (by simpa only [Expr.toks] using hk) hv (by
    simp only [Expr.grouped, Expr.opens]
    exact ⟨(ha.2 _ l1).1, trivial, ha.1, (hb'.2 notLevel (by decide)).2, hb'.1⟩)
  simpa only [Expr.tree] using this

/-- `v = -a op b`: the minus sign covers `a` only. -/
theorem C30_minus (code : List Char) (v : Path) (a b : Expr) (op : Op) (hb : NotBlank code)
    (hk : HasKeys code (v.toks ++ word .kEQUAL :: word .minus :: (a.toks ++ word (opTerminal op) :: b.toks)))
    (hv : v.grouped) (ha : Operand a) (hb' : Operand b) :
    Accepts code ⟨[], [.stm (.assign v.tree [.bin op (withMinus a.tree) b.tree false false])]⟩ := by
  have l1 : level op ≤ 10 := by cases op <;> decide
  have := accepts_assign (e := .bin op (.simple (.neg a)) b) hb (by simpa only [Expr.toks, Simple.toks, List.cons_append] using hk) hv (by
    simp only [Expr.grouped, Expr.closes, Simple.closes, Simple.grouped]
    have h11 : a.opens signLevel := by
      cases a with
      | bin op a b =>
        have h1 := (ha.2 10 (by decide)).2
        simp only [Expr.opens] at h1
        have : level op ≤ 10 := by cases op <;> decide
        omega
      | _ => simp only [Expr.opens]
    exact ⟨⟨Nat.le_trans l1 (by decide), (ha.2 _ l1).1⟩, (hb'.2 _ l1).2, ⟨h11, ha.1⟩, hb'.1⟩)
  simpa only [Expr.tree, Simple.tree] using this

/-- In every place of every accepted program: the one program the text is groups all operators by precedence (`Expr.grouped`). -/
theorem C30_everywhere (code : List Char) (M : Module) (hb : NotBlank code) (ha : Accepts code M) :
    ∃ P : Program, HasKeys code P.toks ∧ P.grouped ∧ P.shows M ∧ ∀ P' : Program, HasKeys code P'.toks → P'.grouped → P' = P := by
  obtain ⟨P, h1, h2⟩ := C16_accepted_is_program code M hb ha
  exact ⟨P, h1.1, h1.2, (accepted hb h1 ha).shows, fun P' h h' => h2 P' ⟨h, h'⟩⟩
end

theorem operand_name (s : String) : Operand (nm s) := by
  simp [Operand, nm, Expr.grouped, Path.grouped, Ident.grouped, Expr.closes, Expr.opens]

example : @Accepts stdLetters "а = б + в * г".toList ⟨[], [.stm (.assign (.var "а".toList false false) [
    .bin .plus (nm "б").tree (.bin .mul (nm "в").tree (nm "г").tree false false) false false])]⟩ :=
  @C30_binary stdLetters _ (.one (.name "а".toList)) (nm "б") (nm "в") (nm "г") .plus .mul ((notBlank_iff _).2 (by decide +kernel))
    (@keysOf_sound stdLetters 100 _ _ (by decide +kernel)) (by simp [Path.grouped, Ident.grouped]) (operand_name _) (operand_name _)
    (operand_name _)
example : @Accepts stdLetters "а = б - в + г".toList ⟨[], [.stm (.assign (.var "а".toList false false) [
    .bin .plus (.bin .minus (nm "б").tree (nm "в").tree false false) (nm "г").tree false false])]⟩ :=
  @C30_binary stdLetters _ (.one (.name "а".toList)) (nm "б") (nm "в") (nm "г") .minus .plus ((notBlank_iff _).2 (by decide +kernel))
    (@keysOf_sound stdLetters 100 _ _ (by decide +kernel)) (by simp [Path.grouped, Ident.grouped]) (operand_name _) (operand_name _)
    (operand_name _)
example : @Accepts stdLetters "а = Не б = в".toList ⟨[], [.stm (.assign (.var "а".toList false false) [
    .bin .eq (nm "б").tree (nm "в").tree false true])]⟩ :=
  @C30_not stdLetters _ (.one (.name "а".toList)) (nm "б") (nm "в") .eq ((notBlank_iff _).2 (by decide +kernel))
    (@keysOf_sound stdLetters 100 _ _ (by decide +kernel)) (by simp [Path.grouped, Ident.grouped]) (operand_name _) (operand_name _)
example : @Accepts stdLetters "а = б = Не в".toList ⟨[], [.stm (.assign (.var "а".toList false false) [
    .bin .eq (nm "б").tree (.var "в".toList false true) false false])]⟩ :=
  @C30_not_right stdLetters _ (.one (.name "а".toList)) (nm "б") (nm "в") .eq ((notBlank_iff _).2 (by decide +kernel))
    (@keysOf_sound stdLetters 100 _ _ (by decide +kernel)) (by simp [Path.grouped, Ident.grouped]) (operand_name _) (operand_name _)
example : @Accepts stdLetters "а = -б * в".toList ⟨[], [.stm (.assign (.var "а".toList false false) [
    .bin .mul (.var "б".toList true false) (nm "в").tree false false])]⟩ :=
  @C30_minus stdLetters _ (.one (.name "а".toList)) (nm "б") (nm "в") .mul ((notBlank_iff _).2 (by decide +kernel))
    (@keysOf_sound stdLetters 100 _ _ (by decide +kernel)) (by simp [Path.grouped, Ident.grouped]) (operand_name _) (operand_name _)
example : ∃ M M', @Accepts stdLetters "а = -б".toList M ∧ @Accepts stdLetters "а = б".toList M' ∧ M ≠ M' := by
  obtain ⟨M, M', h1, h2, h3⟩ := @C29_minus_partial stdLetters "а = -б".toList "а = б".toList (.one (.name "а".toList)) (nm "б")
    ((notBlank_iff _).2 (by decide +kernel)) ((notBlank_iff _).2 (by decide +kernel)) (@keysOf_sound stdLetters 100 _ _ (by decide +kernel))
    (@keysOf_sound stdLetters 100 _ _ (by decide +kernel)) (by simp [Path.grouped, Ident.grouped]) (operand_name _).1
    (by simp [nm, Expr.opens])
  exact ⟨M, M', h1, h2, h3.2 (.var _ _)⟩
example : ∃ M M', @Accepts stdLetters "а = Не б".toList M ∧ @Accepts stdLetters "а = б".toList M' ∧ M ≠ M' := by
  obtain ⟨M, M', h1, h2, h3⟩ := @C29_not_partial stdLetters "а = Не б".toList "а = б".toList (.one (.name "а".toList)) (nm "б")
    ((notBlank_iff _).2 (by decide +kernel)) ((notBlank_iff _).2 (by decide +kernel)) (@keysOf_sound stdLetters 100 _ _ (by decide +kernel))
    (@keysOf_sound stdLetters 100 _ _ (by decide +kernel)) (by simp [Path.grouped, Ident.grouped]) (operand_name _).1
    (by simp [nm, Expr.opens])
  exact ⟨M, M', h1, h2, h3.2 (.var _ _)⟩
example := @C30_everywhere stdLetters _ _ sample_notBlank sample_accepted
example := @C16_accepted_is_program stdLetters _ _ sample_notBlank sample_accepted

end Verif
