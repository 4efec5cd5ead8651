import Verif.Proofs.Faults
import Verif.Proofs.LR.Sim
import Verif.Props.Parse
import Verif.Props.Program
/-!
# C57: what Parse says about violations of the rules

`P.faults` (Spec/Faults.lean): what is wrong with the program `P`, in the order of the text; `Err.fault`: what an error message says is
wrong; `P.doomed`: the first list `Перем` of some procedure has a name twice, and another list follows (there Parse panics, C20).

All theorems are about texts that spell a program, i.e. the violations are not of the grammar, and, by `P.tidy`, in which no block has a `:`
before its first statement other than as its first token.
-/
namespace Verif
open Spec Lexer LR

section
variable [Letters]

/-- Parse returns, and the error is about the last thing that is wrong; there is no error iff nothing is wrong. -/
theorem C57_last (code : List Char) (P : Program) (hb : NotBlank code) (hs : Spells code P) (hc : P.tidy) (hd : ¬ P.doomed) :
    ∃ a, parse (newAST code) = .ret a ∧ a.err.map Err.fault = P.faults.getLast? := by
  obtain ⟨⟨l, ht, hl⟩, hg⟩ := hs
  rcases parse_faults ((notBlank_iff code).1 hb) ht hl hg hc with ⟨-, h⟩ | ⟨q, h1, h2⟩
  · exact h
  · exact absurd (h2 (C20_only_after_error_partial _ _ h1).1) hd

/-- Parse panics on the doomed programs, and on no others. -/
theorem C57_panics (code : List Char) (P : Program) (hb : NotBlank code) (hs : Spells code P) (hc : P.tidy) :
    (∃ q, parse (newAST code) = .panic q) ↔ P.doomed := by
  obtain ⟨⟨l, ht, hl⟩, hg⟩ := hs
  rcases parse_faults ((notBlank_iff code).1 hb) ht hl hg hc with ⟨h1, a, h2, -⟩ | ⟨q, h1, h2⟩
  · refine ⟨?_, fun h => absurd h h1⟩
    rintro ⟨q, h⟩
    rw [h2] at h; cases h
  · exact ⟨fun _ => h2 (C20_only_after_error_partial _ _ h1).1, fun _ => ⟨q, h1⟩⟩

/-- An error is true: what it complains of is the case. -/
theorem C57_true (code : List Char) (P : Program) (hb : NotBlank code) (hs : Spells code P) (hc : P.tidy) (a : Ast) (e : Err)
    (hr : parse (newAST code) = .ret a) (he : a.err = some e) :
    match e.fault with
    | .loop => ¬ P.breaksOk
    | .throw => ¬ P.throwsOk
    | .ret => ¬ P.returnsOk
    | .colon => ¬ P.colonsOk
    | .twice x => 2 ≤ (P.globals.map GVar.name).count x ∨ ∃ f ∈ P.funcs, 2 ≤ f.locals.count x
    | .late => ¬ P.ordered
    | .other => False := by
  have hd : ¬ P.doomed := by
    intro h
    obtain ⟨q, h⟩ := (C57_panics code P hb hs hc).2 h
    rw [hr] at h; cases h
  obtain ⟨a', h1, h2⟩ := C57_last code P hb hs hc hd
  rw [hr] at h1
  injection h1 with h1
  subst h1
  rw [he] at h2
  have hm : e.fault ∈ P.faults := List.mem_of_getLast? h2.symm
  have h := program_are P
  cases hf : e.fault <;> rw [hf] at hm
  · exact h.loop.1 hm
  · exact h.throw.1 hm
  · exact h.ret.1 hm
  · exact h.colon.1 hm
  · exact h.twice _ hm
  · exact h.late.1 hm
  · exact h.other hm

/-- If one rule only is broken, the error is about that rule. -/
theorem C57_only (code : List Char) (P : Program) (hb : NotBlank code) (hs : Spells code P) (hc : P.tidy) (hd : ¬ P.doomed) (x : Fault)
    (h1 : x ≠ .loop → P.breaksOk) (h2 : x ≠ .throw → P.throwsOk) (h3 : x ≠ .ret → P.returnsOk) (h4 : x ≠ .colon → P.colonsOk)
    (h5 : x ≠ .late → P.ordered) (h6 : (∀ n, x ≠ .twice n) → P.distinct)
    (h7 : ∀ n, x = .twice n → (∀ m, 2 ≤ (P.globals.map GVar.name).count m → m = n) ∧ ∀ f ∈ P.funcs, ∀ m, 2 ≤ f.locals.count m → m = n)
    (hx : ¬ (P.breaksOk ∧ P.throwsOk ∧ P.returnsOk ∧ P.colonsOk ∧ P.ordered ∧ P.distinct)) :
    ∃ a e, parse (newAST code) = .ret a ∧ a.err = some e ∧ e.fault = x := by
  obtain ⟨a, g1, g2⟩ := C57_last code P hb hs hc hd
  have h := program_are P
  have hnd : ∀ (l : List Name) m, l.Nodup → ¬ 2 ≤ l.count m := fun l m hl => by have := List.nodup_iff_count_le_one.1 hl m; omega
  have key : ∀ y ∈ P.faults, y = x := by
    intro y hy
    by_contra hne
    have hne' : ¬ x = y := fun e => hne e.symm
    cases y with
    | loop => exact h.loop.1 hy (h1 hne')
    | throw => exact h.throw.1 hy (h2 hne')
    | ret => exact h.ret.1 hy (h3 hne')
    | colon => exact h.colon.1 hy (h4 hne')
    | late => exact h.late.1 hy (h5 hne')
    | other => exact h.other hy
    | twice m =>
      by_cases ht : ∃ n, x = .twice n
      · obtain ⟨n, rfl⟩ := ht
        rcases h.twice m hy with g | ⟨f, hf, g⟩
        · exact hne ((h7 n rfl).1 m g ▸ rfl)
        · exact hne ((h7 n rfl).2 f hf m g ▸ rfl)
      · have := h6 fun n e => ht ⟨n, e⟩
        rcases h.twice m hy with g | ⟨f, hf, g⟩
        · exact hnd _ m this.1 g
        · exact hnd _ m (this.2 f hf) g
  have hne : P.faults ≠ [] := by
    intro he
    have hno : ∀ y, y ∉ P.faults := by rw [he]; exact fun _ => List.not_mem_nil
    refine hx ⟨?_, ?_, ?_, ?_, ?_, ?_⟩
    · exact Classical.not_not.1 fun g => hno _ (h.loop.2 g)
    · exact Classical.not_not.1 fun g => hno _ (h.throw.2 g)
    · exact Classical.not_not.1 fun g => hno _ (h.ret.2 g)
    · exact Classical.not_not.1 fun g => hno _ (h.colon.2 g)
    · exact Classical.not_not.1 fun g => hno _ (h.late.2 g)
    · exact h.distinct (fun _ => hno _) (Classical.not_not.1 fun g => hno _ (h.late.2 g))
  have hy := List.getLast?_eq_some_getLast hne
  generalize P.faults.getLast hne = y at hy
  rw [hy] at g2
  cases he : a.err with
  | none => rw [he] at g2; cases g2
  | some e =>
    rw [he] at g2
    injection g2 with g2
    exact ⟨a, e, g1, he, g2.trans (key y (List.mem_of_getLast? hy))⟩

omit [Letters] in
/-- The list of faults and the rules. -/
theorem C57_rules (P : Program) :
    (Fault.loop ∈ P.faults ↔ ¬ P.breaksOk) ∧ (Fault.throw ∈ P.faults ↔ ¬ P.throwsOk) ∧ (Fault.ret ∈ P.faults ↔ ¬ P.returnsOk) ∧
    (Fault.colon ∈ P.faults ↔ ¬ P.colonsOk) ∧ (Fault.late ∈ P.faults ↔ ¬ P.ordered) ∧
    (P.ordered → ((∃ x, Fault.twice x ∈ P.faults) ↔ ¬ P.distinct)) := by
  have h := program_are P
  refine ⟨h.loop, h.throw, h.ret, h.colon, h.late, fun ho => ⟨?_, ?_⟩⟩
  · rintro ⟨x, hx⟩ hd
    have hnd : ∀ (l : List Name), l.Nodup → ¬ 2 ≤ l.count x := fun l hl => by have := List.nodup_iff_count_le_one.1 hl x; omega
    rcases h.twice x hx with g | ⟨f, hf, g⟩
    · exact hnd _ hd.1 g
    · exact hnd _ (hd.2 f hf) g
  · intro hd
    by_contra hx
    exact hd (h.distinct (fun x g => hx ⟨x, g⟩) ho)
end

/-! ## Examples -/

/-- `Прервать` outside of loops, then a name declared twice, then a value returned from a procedure. -/
def faultyText : List Char :=
  "Перем г;\nПроцедура А()\n Прервать\nКонецПроцедуры\nПроцедура Б() Перем х, у, х;\n Возврат х\nКонецПроцедуры".toList

def faultyProgram : Program where
  parts := [
    .vars ⟨none, ⟨"г".toList, []⟩, false⟩,
    .func ⟨none, false, "А".toList, ⟨none, []⟩, false, [], .body (.one .brk)⟩,
    .func ⟨none, false, "Б".toList, ⟨none, []⟩, false, [⟨"х".toList, ["у".toList, "х".toList]⟩], .body (.one (.ret (.some (nm "х"))))⟩]
  body := .empty

theorem faulty_notBlank : NotBlank faultyText := (notBlank_iff _).2 (by decide +kernel)

theorem faulty_spells : @Spells stdLetters faultyText faultyProgram := by
  refine ⟨@keysOf_sound stdLetters 100 _ _ (by decide +kernel), ?_⟩
  simp [faultyProgram, Program.grouped, Program.funcs, Part.funcs, FuncD.grouped, ParamsD.list, Block.grouped, Body.grouped,
    Stmt.grouped, Path.grouped, Ident.grouped, Expr.grouped, OptExpr.grouped, nm]

theorem faulty_tidy : faultyProgram.tidy := by
  simp [faultyProgram, Program.tidy, Program.funcs, Part.funcs, FuncD.tidy, Block.tidy, Body.tidy, Stmt.tidy]

theorem faulty_faults : faultyProgram.faults = [.loop, .twice "х".toList, .ret] := by
  simp [faultyProgram, Program.faults, partsFaults, FuncD.faults, localFaults, globalFaults, firstTwice, Names.list, Block.faults, Body.faults,
    Stmt.faults]

theorem faulty_not_doomed : ¬ faultyProgram.doomed := by
  simp [faultyProgram, Program.doomed, Program.funcs, Part.funcs, FuncD.doomed]

example : ∃ a, @parse stdLetters (newAST faultyText) = .ret a ∧ a.err.map Err.fault = some .ret := by
  have := @C57_last stdLetters _ _ faulty_notBlank faulty_spells faulty_tidy faulty_not_doomed
  rw [faulty_faults] at this
  exact this

/-- The same by computation. -/
example : (match @parse stdLetters (newAST faultyText) with
    | .ret a => a.err.map Err.fault
    | _ => none) = some .ret := by decide +kernel

/-- A doomed program (the text of `C20_violated`). -/
example : (⟨[.func ⟨none, false, "А".toList, ⟨none, []⟩, false, [⟨"а".toList, ["а".toList]⟩, ⟨"б".toList, []⟩], .empty⟩], .empty⟩ : Program).doomed :=
  ⟨_, List.mem_singleton.2 rfl, _, _, _, rfl, by decide⟩

/-- One example for each kind of fault. -/
example : ∀ x ∈ [("Прервать", Fault.loop), ("Попытка ВызватьИсключение; Исключение КонецПопытки", .throw), ("Возврат 1", .ret), ("а = 1:", .colon),
    ("Перем а; Перем а;", .twice "а".toList), ("Процедура А() КонецПроцедуры Перем а;", .late), ("а = ", .other)],
    (match @parse stdLetters (newAST x.1.toList) with
    | .ret a => a.err.map Err.fault
    | _ => none) = some x.2 := by decide +kernel

end Verif
