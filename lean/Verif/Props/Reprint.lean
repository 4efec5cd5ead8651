import Verif.Proofs.Reprint.Final
import Verif.Proofs.Reprint.Bare
import Verif.Props.Program
import Verif.Props.Print
/-!
# Printed text as code: C37, C38, C50

`printModule cf gs M` is the result of `Print` with options `cf` when the variables come in the order `gs`; the results of `Print`
are those with `gs` a permutation of the variables of `M` (`Prints`).

`Printable M`, `Stable M`, `TryOk cf M`: see `Verif/Spec/Reprint.lean`.
-/
namespace Verif
open Spec Lexer LR

section
variable [Letters]

theorem accepts_unique {code : List Char} {M M' : Module} (h : Accepts code M) (h' : Accepts code M') : M = M' := by
  obtain ⟨a, h1, -, rfl⟩ := h
  obtain ⟨b, h2, -, rfl⟩ := h'
  rw [h1] at h2
  injection h2 with h2
  rw [h2]

theorem hasKeys_unique {code : List Char} {ks ks' : List Key} (h : HasKeys code ks) (h' : HasKeys code ks') : ks = ks' := by
  obtain ⟨l, h1, rfl⟩ := h
  obtain ⟨l', h2, rfl⟩ := h'
  rw [tokens_unique h1 h2]

/-- Blank texts give the empty module. -/
theorem accepts_blank {code : List Char} (hb : ¬ NotBlank code) {M : Module} (ha : Accepts code M) : M = ⟨[], []⟩ := by
  have h : ∀ c ∈ code, c.toNat ∈ whiteSpace := by
    intro c hc
    by_contra hn
    exact hb ⟨c, hc, hn⟩
  exact accepts_unique ha (C17_blank code h)

/-! ## C37 -/

/-- The options change the layout only: the texts for two settings have the same tokens.  Missing: modules that are not
`Printable` (lists in parentheses with several elements, labels inside expressions, defaults that are not literals), blocks that
begin with a separator, and settings that glue `Попытка` to the next word (where it is false, `C37_violated`). -/
theorem C37_tokens_partial {code : List Char} {P : Program} {M : Module} (hs : Spells code P) (hc : P.clean) (ha : Accepts code M)
    (hp : Printable M) {cf cf' : PrintConf} (ht : TryOk cf M) (ht' : TryOk cf' M) {gs : List GVar} (hg : gs.Perm M.globals) :
    ∃ ks, HasKeys (printModule cf gs M) ks ∧ HasKeys (printModule cf' gs M) ks := by
  by_cases hne : M.body = []
  · unfold printModule
    rw [if_pos hne, if_pos hne]
    exact ⟨[], written_keys (.done (.layout .nil)), written_keys (.done (.layout .nil))⟩
  have hb : NotBlank code := by
    by_contra hb
    rw [accepts_blank hb ha] at hne
    exact hne rfl
  obtain ⟨rfl, hok, hsane⟩ := accepted_parts hb hs hc ha
  obtain ⟨ds, b, h⟩ := printable_re (g := false) hsane hg hp (by simp)
  exact ⟨_, written_keys (h.written hne ht), written_keys (h.written hne ht')⟩

/-! ## C38 -/

/-- Printed code is accepted, and what it gives is printed in exactly the same ways, with all options.  Missing: modules that are not
`Printable` or not `Stable`, blocks that begin with a separator, settings that glue `Попытка` to the next word (`C38_violated`). -/
theorem C38_roundtrip_partial {code : List Char} {P : Program} {M : Module} (hs : Spells code P) (hc : P.clean) (ha : Accepts code M)
    (hp : Printable M) (hst : Stable M) {cf : PrintConf} (ht : TryOk cf M) {s : List Char} (hs' : Prints cf M s) :
    ∃ M', Accepts s M' ∧ ∀ cf' s', Prints cf' M' s' ↔ Prints cf' M s' := by
  obtain ⟨gs, hg, rfl⟩ := hs'
  by_cases hne : M.body = []
  · refine ⟨⟨[], []⟩, ?_, ?_⟩
    · unfold printModule
      rw [if_pos hne]
      exact C17_blank [] (by simp)
    · intro cf' s'
      constructor
      · rintro ⟨gs', _, rfl⟩
        exact ⟨gs, hg, by unfold printModule; rw [if_pos hne, if_pos rfl]⟩
      · rintro ⟨gs', _, rfl⟩
        exact ⟨[], .refl _, by unfold printModule; rw [if_pos hne, if_pos rfl]⟩
  have hb : NotBlank code := by
    by_contra hb
    rw [accepts_blank hb ha] at hne
    exact hne rfl
  obtain ⟨rfl, hok, hsane⟩ := accepted_parts hb hs hc ha
  obtain ⟨ds, b, h⟩ := printable_re (g := true) hsane hg hp fun _ => hst.steady
  have hw := h.written hne ht
  have hne' := hne
  rw [tree_body] at hne'
  obtain ⟨t, ht1, ht2⟩ := h.mark hne'
  refine ⟨(progOf gs ds b).tree, accepts_of (written_mark hw ht1 ht2) ⟨written_keys hw, h.grouped⟩ (h.ok hg hok (.inl (breaks_stable hst))), ?_⟩
  have hglob : (progOf gs ds b).tree.globals = gs := globals_progOf ..
  have hbody : ∀ gs', (progOf gs ds b).tree.body = (progOf gs' ds b).tree.body := by
    intro gs'
    rw [tree_body, tree_body, funcs_progOf, funcs_progOf]
    rfl
  have hagain : ∀ cf' gs', gs'.Perm gs → printModule cf' gs' (progOf gs ds b).tree = printModule cf' gs' P.tree := by
    intro cf' gs' hp'
    have h' : ReM true gs' (P.funcs.map FuncD.tree) P.body.tree ds b := ⟨fun v hv => h.vars v (hp'.subset hv), h.funcs, h.body⟩
    have e := h'.again (globals := P.tree.globals) cf' hne'
    rw [← turn_parts, ← tree_body, show P.tree.body.map turnItem = P.tree.body from congrArg Module.body hst.still] at e
    have e2 : printModule cf' gs' (progOf gs ds b).tree = printModule cf' gs' (progOf gs' ds b).tree := by
      unfold printModule
      rw [hbody gs']
    rw [e2, e]
  intro cf' s'
  constructor
  · rintro ⟨gs', hp', rfl⟩
    rw [hglob] at hp'
    exact ⟨gs', hp'.trans hg, hagain cf' gs' hp'⟩
  · rintro ⟨gs', hp', rfl⟩
    have hp'' : gs'.Perm gs := hp'.trans hg.symm
    exact ⟨gs', by rw [hglob]; exact hp'', (hagain cf' gs' hp'').symm⟩

/-! ## C50 -/

/-- Printed code says what the module says: the same module-level variables, the same declarations with the same parameters and the
same statements, up to parentheses that do not matter, digits after the decimal point and local variables.  Missing: what is missing
from `C38_roundtrip_partial`, signs that are not printed, and modules that declare variables and nothing else (`C50_violated`). -/
theorem C50_same_partial {code : List Char} {P : Program} {M : Module} (hs : Spells code P) (hc : P.clean) (ha : Accepts code M)
    (hp : Printable M) (hst : Stable M) (hsg : ShowsSigns M) (hne : M.body ≠ [] ∨ M.globals = []) {cf : PrintConf} (ht : TryOk cf M)
    {s : List Char} (hs' : Prints cf M s) :
    ∃ M', Accepts s M' ∧ M'.globals.Perm M.globals ∧ M'.body.map bareItem = M.body.map bareItem := by
  obtain ⟨gs, hg, rfl⟩ := hs'
  by_cases hne' : M.body = []
  · refine ⟨⟨[], []⟩, ?_, ?_, ?_⟩
    · unfold printModule
      rw [if_pos hne']
      exact C17_blank [] (by simp)
    · rw [hne.resolve_left (fun h => h hne')]
    · rw [hne']
  have hb : NotBlank code := by
    by_contra hb
    rw [accepts_blank hb ha] at hne'
    exact hne' rfl
  obtain ⟨rfl, hok, hsane⟩ := accepted_parts hb hs hc ha
  obtain ⟨ds, b, h⟩ := printable_re (g := true) hsane hg hp fun _ => hst.steady
  have hw := h.written hne' ht
  have hbody := tree_body P
  obtain ⟨t, ht1, ht2⟩ := h.mark (by rw [← hbody]; exact hne')
  refine ⟨(progOf gs ds b).tree, accepts_of (written_mark hw ht1 ht2) ⟨written_keys hw, h.grouped⟩ (h.ok hg hok (.inl (breaks_stable hst))), ?_, ?_⟩
  · have hglob : (progOf gs ds b).tree.globals = gs := globals_progOf ..
    rw [hglob]
    exact hg
  · have e : P.tree.body.map turnItem = P.tree.body := congrArg Module.body hst.still
    rw [← e, hbody, turn_parts]
    refine h.bare (fun f hf => ?_) (fun s hs => ?_)
    · have := hsg (.func f) (by rw [hbody]; exact List.mem_append_left _ (List.mem_map_of_mem hf))
      exact this
    · have := hsg (.stm s) (by rw [hbody]; exact List.mem_append_right _ (List.mem_map_of_mem hs))
      exact this

end

/-! ## Examples and violations -/

/-- The hypotheses hold of `sampleText`, with line feeds, and with `OneLine` and a margin. -/
theorem sample_printable : Printable sampleProgram.tree ∧ Stable sampleProgram.tree ∧ (∀ m, TryOk ⟨m, false⟩ sampleProgram.tree) ∧
    TryOk ⟨2, true⟩ sampleProgram.tree := by
  refine ⟨?_, ?_, fun m => ?_, ?_⟩
  · simp [Printable, sampleProgram, Program.tree, Program.funcs, Part.funcs, FuncD.tree, ParamsD.list, ParamD.tree, IsLit, Simple.tree,
      Block.tree, Body.tree, Stmt.tree, OptStmt.tree, plainB, plainS, plainE, plainEs, Source.tree, Path.tree, Ident.tree, Expr.tree,
      OptExpr.tree, Args.tree, Elifs.tree, Else.tree, nm]
  · simp [Stable, sampleProgram, Program.tree, Program.funcs, Part.funcs, FuncD.tree, Simple.tree,
      Block.tree, Body.tree, Stmt.tree, OptStmt.tree, stableB, stableS, stableE, stableL, Source.tree, Path.tree, Ident.tree, Expr.tree,
      OptExpr.tree, Args.tree, Elifs.tree, Else.tree, startsNot, nm]
  · simp [TryOk, sampleProgram, Program.tree, Program.funcs, Part.funcs, FuncD.tree, Simple.tree,
      Block.tree, Body.tree, Stmt.tree, OptStmt.tree, tryOk, tryOkL, Source.tree, Path.tree, Ident.tree, Expr.tree,
      OptExpr.tree, Args.tree, Elifs.tree, Else.tree]
  · simp [TryOk, sampleProgram, Program.tree, Program.funcs, Part.funcs, FuncD.tree, Simple.tree,
      Block.tree, Body.tree, Stmt.tree, OptStmt.tree, tryOk, tryOkL, Source.tree, Path.tree, Ident.tree, Expr.tree,
      OptExpr.tree, Args.tree, Elifs.tree, Else.tree]

example (m : Nat) := @C37_tokens_partial stdLetters _ _ _ sample_spells sample_clean sample_accepted sample_printable.1
  _ _ (sample_printable.2.2.1 m) sample_printable.2.2.2 _ (.refl _)
example (m : Nat) := @C38_roundtrip_partial stdLetters _ _ _ sample_spells sample_clean sample_accepted sample_printable.1
  sample_printable.2.1 _ (sample_printable.2.2.1 m) _ ⟨_, .refl _, rfl⟩

/-- The property does not hold: with `OneLine` and margin 0 `Попытка` and the name behind it become one word. -/
theorem C37_violated : ∃ code M ks ks', @Accepts stdLetters code M ∧ @HasKeys stdLetters (printModule ⟨4, false⟩ [] M) ks ∧
    @HasKeys stdLetters (printModule ⟨0, true⟩ [] M) ks' ∧ M.globals = [] ∧ ks ≠ ks' := by
  refine ⟨"Попытка а() Исключение б() КонецПопытки".toList, @modOf stdLetters "Попытка а() Исключение б() КонецПопытки".toList,
    _, _, @accepts_modOf stdLetters _ (by decide +kernel), @keysOf_sound stdLetters 20 _
      [word .kTry, ident "а".toList, word .lpar, word .rpar, word .semi, word .kCatch, ident "б".toList, word .lpar, word .rpar, word .semi,
        word .kEndTry, word .semi] (by decide +kernel),
    @keysOf_sound stdLetters 20 _ [ident "Попыткаа".toList, word .lpar, word .rpar, word .semi, ident "Исключениеб".toList,
        word .lpar, word .rpar, word .semi, word .kEndTry, word .semi] (by decide +kernel), by decide +kernel, by decide⟩

/-- The text is accepted, and its module is printed as a text that is rejected or printed differently. -/
def NotBack (cf : PrintConf) (code : List Char) : Prop :=
  ∃ M s, @Accepts stdLetters code M ∧ Prints cf M s ∧ ∀ M', @Accepts stdLetters s M' → ¬ Prints cf M' s

theorem notBack {cf : PrintConf} {code s : List Char} (h1 : @okB stdLetters code = true) (h2 : printModule cf [] (@modOf stdLetters code) = s)
    (h0 : (@modOf stdLetters code).globals = [])
    (h3 : @okB stdLetters s = false ∨ ((@modOf stdLetters s).globals = [] ∧ printModule cf [] (@modOf stdLetters s) ≠ s)) : NotBack cf code := by
  refine ⟨_, s, @accepts_modOf stdLetters _ h1, ⟨[], by rw [h0], h2.symm⟩, ?_⟩
  rintro M' hM' ⟨gs, hgs, e⟩
  have hM := hM'
  obtain ⟨a, g1, g2, g3⟩ := hM
  have hok : @okB stdLetters s = true := by unfold okB; rw [g1]; simp [g2]
  rcases h3 with h3 | ⟨h3, h4⟩
  · rw [hok] at h3; cases h3
  · have := @accepts_unique stdLetters _ _ _ hM' (@accepts_modOf stdLetters _ hok)
    subst this
    rw [h3] at hgs
    rw [hgs.eq_nil] at e
    exact h4 e.symm

private theorem back1 : NotBack ⟨4, false⟩ "а = (1, б)".toList :=
  notBack (s := "\nа = 1б;".toList) (by decide +kernel) (by decide +kernel) (by decide +kernel) (.inl (by decide +kernel))
private theorem back2 : NotBack ⟨4, false⟩ "Процедура А(б = -в) КонецПроцедуры".toList :=
  notBack (s := "Процедура А(б = в) \n\n\n\nКонецПроцедуры \n\n\n".toList) (by decide +kernel) (by decide +kernel) (by decide +kernel) (.inl (by decide +kernel))
private theorem back3 : NotBack ⟨0, true⟩ "Попытка а() Исключение б() КонецПопытки".toList :=
  notBack (s := "Попыткаа();Исключениеб();КонецПопытки;".toList) (by decide +kernel) (by decide +kernel) (by decide +kernel) (.inl (by decide +kernel))
private theorem back4 : NotBack ⟨4, false⟩ "Если а Тогда ИначеЕсли б Тогда ИначеЕсли в Тогда КонецЕсли".toList :=
  notBack (s := "\nЕсли а Тогда \nИначеЕсли в Тогда \nИначеЕсли б Тогда \nКонецЕсли;\n".toList) (by decide +kernel) (by decide +kernel) (by decide +kernel) (.inr (by decide +kernel))
private theorem back5 : NotBack ⟨4, false⟩ "а = (Не б) + в".toList :=
  notBack (s := "\nа = Не б + в;".toList) (by decide +kernel) (by decide +kernel) (by decide +kernel) (.inr (by decide +kernel))
private theorem back6 : NotBack ⟨4, false⟩ "Ф((-а))".toList :=
  notBack (s := "\nФ(-а);".toList) (by decide +kernel) (by decide +kernel) (by decide +kernel) (.inr (by decide +kernel))

/-- The property does not hold.  Of these texts, which are all accepted, the printed code of the first three is rejected: a list in
parentheses, a default value with a sign, `Попытка` with `OneLine` and margin 0.  The other three are printed as code that is
printed differently: two branches `ИначеЕсли` change places, `(Не б) + в` becomes `Не б + в`, `Ф((-а))` becomes `Ф(-а)`. -/
theorem C38_violated :
    NotBack ⟨4, false⟩ "а = (1, б)".toList ∧
    NotBack ⟨4, false⟩ "Процедура А(б = -в) КонецПроцедуры".toList ∧
    NotBack ⟨0, true⟩ "Попытка а() Исключение б() КонецПопытки".toList ∧
    NotBack ⟨4, false⟩ "Если а Тогда ИначеЕсли б Тогда ИначеЕсли в Тогда КонецЕсли".toList ∧
    NotBack ⟨4, false⟩ "а = (Не б) + в".toList ∧
    NotBack ⟨4, false⟩ "Ф((-а))".toList :=
  ⟨back1, back2, back3, back4, back5, back6⟩

/-! ### C50 -/

/-- All signs of `sampleText` are printed. -/
theorem sample_signs : ShowsSigns sampleProgram.tree := by
  simp [ShowsSigns, sampleProgram, Program.tree, Program.funcs, Part.funcs, FuncD.tree, Simple.tree,
    Block.tree, Body.tree, Stmt.tree, OptStmt.tree, showsB, showsS, showsE, showsL, Source.tree, Path.tree, Ident.tree, Expr.tree,
    OptExpr.tree, Args.tree, Elifs.tree, Else.tree, nm]

example (m : Nat) := @C50_same_partial stdLetters _ _ _ sample_spells sample_clean sample_accepted sample_printable.1
  sample_printable.2.1 sample_signs (.inl nofun) _ (sample_printable.2.2.1 m) _ ⟨_, .refl _, rfl⟩

private def nameV (s : String) : Stm := .var s.toList false false

/-- `bare` keeps names, signs and the structure of expressions: of these pairs only the last two are the same. -/
example : bare (.var ['а'] true false) ≠ bare (nameV "а") ∧ bare (.exprs [nameV "а", nameV "б"] false) ≠ bare (.exprs [nameV "б", nameV "а"] false) ∧
    bare (.bin .minus (nameV "а") (.exprs [.bin .minus (nameV "б") (nameV "в") false false] false) false false) ≠
      bare (.bin .minus (.exprs [.bin .minus (nameV "а") (nameV "б") false false] false) (nameV "в") false false) ∧
    bare (.exprs [nameV "а"] true) ≠ bare (.exprs [nameV "а"] false) ∧
    bare (.exprs [nameV "а"] false) = bare (nameV "а") ∧ bare (.method ['а'] [.nil] false) = bare (.method ['а'] [] false) := by decide +kernel

/-- The text is accepted, and its module is printed as a text that is accepted and gives another module. -/
def Changes (code : List Char) : Prop :=
  ∃ M s M', @Accepts stdLetters code M ∧ Prints ⟨4, false⟩ M s ∧ @Accepts stdLetters s M' ∧
    (M'.globals ≠ M.globals ∨ M'.body.map bareItem ≠ M.body.map bareItem)

theorem changes {code s : List Char} (h1 : @okB stdLetters code = true)
    (h2 : printModule ⟨4, false⟩ (@modOf stdLetters code).globals (@modOf stdLetters code) = s) (h3 : @okB stdLetters s = true)
    (h4 : (@modOf stdLetters s).globals ≠ (@modOf stdLetters code).globals ∨
      (@modOf stdLetters s).body.map bareItem ≠ (@modOf stdLetters code).body.map bareItem) : Changes code :=
  ⟨_, s, _, @accepts_modOf stdLetters _ h1, ⟨_, .refl _, h2.symm⟩, @accepts_modOf stdLetters _ h3, h4⟩

/-- The property does not hold: a sign before an argument or before `а.б` is lost, and so is a variable of a module without procedures
and statements.  With two branches `ИначеЕсли` the order is lost, and `(Не б) + в` becomes `Не б + в`. -/
theorem C50_violated : Changes "Ф(-а)".toList ∧ Changes "а = -б.в".toList ∧ Changes "Перем а;".toList ∧
    Changes "Если а Тогда ИначеЕсли б Тогда ИначеЕсли в Тогда КонецЕсли".toList ∧ Changes "а = (Не б) + в".toList :=
  ⟨changes (s := "\nФ(а);".toList) (by decide +kernel) (by decide +kernel) (by decide +kernel) (.inr (by decide +kernel)),
    changes (s := "\nа = б.в;".toList) (by decide +kernel) (by decide +kernel) (by decide +kernel) (.inr (by decide +kernel)),
    changes (s := []) (by decide +kernel) (by decide +kernel) (by decide +kernel) (.inl (by decide +kernel)),
    changes (s := "\nЕсли а Тогда \nИначеЕсли в Тогда \nИначеЕсли б Тогда \nКонецЕсли;\n".toList) (by decide +kernel) (by decide +kernel)
      (by decide +kernel) (.inr (by decide +kernel)),
    changes (s := "\nа = Не б + в;".toList) (by decide +kernel) (by decide +kernel) (by decide +kernel) (.inr (by decide +kernel))⟩

end Verif
