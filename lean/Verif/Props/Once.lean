import Verif.Spec.Once
import Verif.Props.Reprint
/-!
# Names are declared once: C78
-/
namespace Verif
open Spec Lexer LR

private theorem otherSide {α β : Type} {R : α → β → Prop} {l : List α} {l' : List β} (h : List.Forall₂ R l l') {b : β} (hb : b ∈ l') :
    ∃ a ∈ l, R a b := by
  induction h with
  | nil => cases hb
  | cons hr _ ih =>
    rcases List.mem_cons.1 hb with rfl | hb
    · exact ⟨_, List.mem_cons_self, hr⟩
    · obtain ⟨a, ha, h⟩ := ih hb
      exact ⟨a, List.mem_cons_of_mem _ ha, h⟩

section
variable [Letters]

/-- In an accepted module no two variables of the module and no two local variables of a procedure or function have the same name,
written in the same way.  Missing: names that differ in the case of letters, parameters, and the names of procedures and functions, where
it is false (`C78_violated`, `C78_headers_partial`). -/
theorem C78_written_partial {code : List Char} {M : Module} (h : Accepts code M) :
    (M.globals.map GVar.name).Nodup ∧ ∀ f ∈ Module.declared M, (f.vars.getD []).Nodup := by
  by_cases hb : NotBlank code
  · obtain ⟨P, hs, -⟩ := C16_accepted_is_program code M hb h
    refine ⟨(C24_globals code P M hb hs h).1, ?_⟩
    obtain ⟨h1, ds, l, e, h2⟩ := C25_locals code P M hb hs h
    intro f hf
    have hm : f ∈ ds := by
      unfold Module.declared at hf
      rw [e] at hf
      obtain ⟨i, hi, hi'⟩ := List.mem_filterMap.1 hf
      rcases List.mem_append.1 hi with hi | hi
      · obtain ⟨d, hd, rfl⟩ := List.mem_map.1 hi
        cases hi'
        exact hd
      · obtain ⟨s, _, rfl⟩ := List.mem_map.1 hi
        cases hi'
    obtain ⟨x, hx, -, h3⟩ := otherSide h2 hm
    rw [h3]
    exact h1 x hx
  · rw [accepts_blank hb h]
    exact ⟨List.nodup_nil, nofun⟩

omit [Letters] in
private theorem headers_parts {P P' : Program} (h : P.OtherHeaders P') :
    P.globals = P'.globals ∧ List.Forall₂ FuncD.OtherHeader P.funcs P'.funcs ∧ (P.ordered → P'.ordered) := by
  obtain ⟨ps, b⟩ := P
  obtain ⟨ps', b'⟩ := P'
  obtain ⟨h, -⟩ := h
  simp only at h
  refine ⟨?_, ?_, ?_⟩
  · unfold Program.globals
    induction h with
    | nil => rfl
    | cons hr _ ih =>
      simp only [List.flatMap_cons] at ih ⊢
      rw [ih]
      cases hr <;> rfl
  · unfold Program.funcs
    induction h with
    | nil => exact .nil
    | cons hr _ ih =>
      simp only [List.flatMap_cons] at ih ⊢
      cases hr with
      | vars => exact ih
      | func hf => exact .cons hf ih
  · rintro ⟨vs, fs, e⟩
    simp only at e
    subst e
    suffices ∃ fs' : List FuncD, ps' = vs.map Part.vars ++ fs'.map Part.func by
      obtain ⟨fs', e⟩ := this
      exact ⟨vs, fs', e⟩
    induction vs generalizing ps' with
    | nil =>
      simp only [List.map_nil, List.nil_append] at h ⊢
      induction fs generalizing ps' with
      | nil => cases h; exact ⟨[], rfl⟩
      | cons f fs ih =>
        cases h with
        | cons hr hrest =>
          obtain ⟨fs', rfl⟩ := ih _ hrest
          cases hr with
          | @func _ f' _ => exact ⟨f' :: fs', rfl⟩
    | cons v vs ih =>
      cases h with
      | cons hr hrest =>
        obtain ⟨fs', rfl⟩ := ih _ hrest
        cases hr
        exact ⟨fs', rfl⟩

omit [Letters] in
private theorem OtherHeaders.symm {P P' : Program} (h : P.OtherHeaders P') : P'.OtherHeaders P := by
  refine ⟨h.parts.flip.imp ?_, h.body.symm⟩
  rintro a b (v | ⟨h1, h2, h3⟩)
  · exact .vars v
  · exact .func ⟨h1.symm, h2.symm, h3.symm⟩

/-- Headers are not looked at: of two programs that differ only in the headers of procedures and functions, both are accepted or none.
So every procedure and every parameter may get the name of any other.  Missing: programs with a `:` in front of the first statement of a
block (C16). -/
theorem C78_headers_partial {code code' : List Char} {P P' : Program} (hb : NotBlank code) (hb' : NotBlank code') (hs : Spells code P)
    (hs' : Spells code' P') (hc : P.tidy) (h : P.OtherHeaders P') : (∃ M, Accepts code M) ↔ ∃ M, Accepts code' M := by
  have all : ∀ {P P' : Program} {Q : FuncD → Prop}, P.OtherHeaders P' → (∀ f f', f.OtherHeader f' → Q f → Q f') → (∀ f ∈ P.funcs, Q f) →
      ∀ f ∈ P'.funcs, Q f := by
    intro P P' Q h hQ hP f hf
    obtain ⟨x, hx, hr⟩ := otherSide (headers_parts h).2.1 hf
    exact hQ x f hr (hP x hx)
  have blocks : ∀ {P P' : Program}, P.OtherHeaders P' → P'.blocks = P.blocks := by
    intro P P' h
    unfold Program.blocks
    rw [h.body]
    congr 1
    have := (headers_parts h).2.1
    generalize P.funcs = l at this
    generalize P'.funcs = l' at this
    induction this with
    | nil => rfl
    | cons hr _ ih => rw [List.map_cons, List.map_cons, ih, hr.2.2]
  have hc' : P'.tidy := ⟨all (Q := FuncD.tidy) h (fun f f' hf hq => by unfold FuncD.tidy at hq ⊢; rw [← hf.2.2]; exact hq) hc.1, h.body ▸ hc.2⟩
  have one : ∀ {P P' : Program}, P.OtherHeaders P' →
      P.breaksOk ∧ P.throwsOk ∧ P.returnsOk ∧ P.colonsOk ∧ P.distinct ∧ P.ordered →
      P'.breaksOk ∧ P'.throwsOk ∧ P'.returnsOk ∧ P'.colonsOk ∧ P'.distinct ∧ P'.ordered := by
    rintro P P' h ⟨h1, h2, h3, h4, h5, h6⟩
    obtain ⟨g1, g2, g3⟩ := headers_parts h
    refine ⟨?_, ?_, ⟨?_, h.body ▸ h3.2⟩, ?_, ⟨g1 ▸ h5.1, ?_⟩, g3 h6⟩
    · unfold Program.breaksOk; rw [blocks h]; exact h1
    · unfold Program.throwsOk; rw [blocks h]; exact h2
    · exact all h (fun f f' hf hq => by rw [← hf.1, ← hf.2.2]; exact hq) h3.1
    · unfold Program.colonsOk; rw [blocks h]; exact h4
    · exact all h (fun f f' hf hq => by rw [← hf.2.1]; exact hq) h5.2
  rw [C16_exactly_partial code P hb hs hc, C16_exactly_partial code' P' hb' hs' hc']
  exact ⟨one h, one (OtherHeaders.symm h)⟩

end

/-! ## Examples and violations -/

/-- Accepted, with a name declared twice. -/
def NotOnce (code : List Char) : Prop := ∃ M, @Accepts stdLetters code M ∧ ¬ DeclaredOnce M

instance (a b : List Char) : Decidable (SameButCase a b) := inferInstanceAs (Decidable (_ = _))
instance (l : List (List Char)) : Decidable (Apart l) := inferInstanceAs (Decidable (l.Pairwise _))

theorem notOnce {code : List Char} (h : @okB stdLetters code = true)
    (h' : ¬ Apart ((@modOf stdLetters code).globals.map GVar.name) ∨ ¬ Apart ((Module.declared (@modOf stdLetters code)).map FuncDecl.name) ∨
      ((Module.declared (@modOf stdLetters code)).any fun f => !decide (Apart (f.params.map Param.name ++ f.vars.getD []))) = true) : NotOnce code := by
  refine ⟨_, @accepts_modOf stdLetters _ h, fun h1 => ?_⟩
  rcases h' with h' | h' | h'
  · exact h' h1.globals
  · exact h' h1.funcs
  · obtain ⟨f, hf, hf'⟩ := List.any_eq_true.1 h'
    have := h1.inner f hf
    simp only [Bool.not_eq_true', decide_eq_false_iff_not] at hf'
    exact hf' this

/-- The property does not hold: names that differ in the case of letters, two procedures, two parameters, a parameter and a variable. -/
theorem C78_violated :
    NotOnce "Перем а; Перем А;".toList ∧
    NotOnce "Процедура А() Перем б; Перем Б; КонецПроцедуры".toList ∧
    NotOnce "Процедура А() КонецПроцедуры Процедура А() КонецПроцедуры".toList ∧
    NotOnce "Процедура А(б, б) КонецПроцедуры".toList ∧
    NotOnce "Процедура А(б) Перем б; КонецПроцедуры".toList :=
  ⟨notOnce (by decide +kernel) (.inl (by decide +kernel)),
    notOnce (by decide +kernel) (.inr (.inr (by decide +kernel))),
    notOnce (by decide +kernel) (.inr (.inl (by decide +kernel))),
    notOnce (by decide +kernel) (.inr (.inr (by decide +kernel))),
    notOnce (by decide +kernel) (.inr (.inr (by decide +kernel)))⟩

/-- `C78_written_partial` for `sampleText`, which has two variables of the module and a local one. -/
example : (sampleProgram.tree.globals.map GVar.name).Nodup ∧ ∀ f ∈ Module.declared sampleProgram.tree, (f.vars.getD []).Nodup :=
  @C78_written_partial stdLetters _ _ sample_accepted

private def twoProcs (name : List Char) (p : Option ParamD) : Program :=
  ⟨[.func ⟨none, false, name, ⟨p, []⟩, false, [], .empty⟩, .func ⟨none, false, "Б".toList, ⟨none, []⟩, false, [], .empty⟩], .empty⟩

private theorem twoProcs_grouped (name : List Char) : (twoProcs name none).grouped ∧ (twoProcs name (some ⟨false, "в".toList, []⟩)).grouped := by
  simp [twoProcs, Program.grouped, Program.funcs, Part.funcs, FuncD.grouped, Block.grouped, ParamsD.list, ParamD.grouped]

/-- `C78_headers_partial`: the first procedure gets the name of the second and a parameter. -/
example := @C78_headers_partial stdLetters "Процедура А() КонецПроцедуры Процедура Б() КонецПроцедуры".toList
  "Процедура Б(в) КонецПроцедуры Процедура Б() КонецПроцедуры".toList
  (twoProcs "А".toList none) (twoProcs "Б".toList (some ⟨false, "в".toList, []⟩)) ((notBlank_iff _).2 (by decide +kernel))
  ((notBlank_iff _).2 (by decide +kernel))
  ⟨@keysOf_sound stdLetters 30 _ _ (by decide +kernel), (twoProcs_grouped _).1⟩
  ⟨@keysOf_sound stdLetters 30 _ _ (by decide +kernel), (twoProcs_grouped _).2⟩
  (by simp [twoProcs, Program.tidy, Program.funcs, Part.funcs, FuncD.tidy, Block.tidy])
  ⟨.cons (.func ⟨rfl, rfl, rfl⟩) (.cons (.func ⟨rfl, rfl, rfl⟩) .nil), rfl⟩

end Verif
