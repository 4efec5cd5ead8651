import Verif.Proofs.Join
import Verif.Props.Text
import Verif.Props.Program
/-!
# Texts one after the other: C54
-/
namespace Verif
open Spec Lexer LR

namespace Spec
/-- The text is a program none of whose blocks begins with a separator. -/
def CleanText [Letters] (code : List Char) : Prop := ∃ P, Spells code P ∧ P.clean

/-- Two modules, one behind the other. -/
def append (M N : Module) : Module := ⟨M.globals ++ N.globals, M.body ++ N.body⟩

/-- The declarations of `N` may stand behind those of `M`: no statement outside procedures comes first, no variable behind a procedure,
and no variable twice. -/
structure Fits (M N : Module) : Prop where
  noCode : ∀ i ∈ M.body, ∃ f, i = .func f
  order : N.globals = [] ∨ M.body = []
  names : ∀ g ∈ M.globals, ∀ g' ∈ N.globals, g.name ≠ g'.name
end Spec

section
variable [Letters]

/-- If two texts are accepted and their declarations may stand one behind the other, then the texts joined by a line feed are accepted,
and give the declarations of the first, then those of the second.  The result can be joined again.  Missing: texts with blocks that begin
with a separator (where it is false, `C54_violated`). -/
theorem C54_joined_partial (code code' : List Char) (M N : Module) (hb : NotBlank code) (hb' : NotBlank code')
    (hc : CleanText code) (hc' : CleanText code') (h : Accepts code M) (h' : Accepts code' N) (hf : Fits M N) :
    Accepts (code ++ '\n' :: code') (append M N) ∧ CleanText (code ++ '\n' :: code') := by
  obtain ⟨P, hs, hc⟩ := hc
  obtain ⟨Q, hs', hc'⟩ := hc'
  have hA := accepted hb hs h
  have hB := accepted hb' hs' h'
  obtain rfl := Program.exact hc hA.shows
  obtain rfl := Program.exact hc' hB.shows
  have hbody : P.body = .empty := by
    refine block_empty hc.2 ?_
    cases e : P.body.tree with
    | nil => rfl
    | cons s l =>
      obtain ⟨f, hf⟩ := hf.noCode (.stm s) (by simp [Program.tree, e])
      cases hf
  have hok : ProgOk (joinP P Q) := by
    refine joinP_ok ⟨hc, hA.breaks, hA.throws, hA.returns, hA.colons, hA.distinct, hA.ordered⟩
      ⟨hc', hB.breaks, hB.throws, hB.returns, hB.colons, hB.distinct, hB.ordered⟩ ?_ hf.names
    refine hf.order.imp_right fun h => ?_
    have h : P.funcs.map (fun f => Item.func f.tree) ++ P.body.tree.map .stm = [] := h
    simpa using (List.append_eq_nil_iff.1 h).1
  have hsp : Spells (code ++ '\n' :: code') (joinP P Q) := by
    obtain ⟨⟨l, h1, h2⟩, hg⟩ := hs
    obtain ⟨⟨l', h1', h2'⟩, hg'⟩ := hs'
    have w := tokens_written h1
    have w' := tokens_written h1'
    rw [h2] at w
    rw [h2'] at w'
    refine ⟨written_keys ?_, ?_, hg'.2⟩
    · rw [joinP_toks hbody]
      by_cases hne : P.parts = []
      · have : P.toks = [] := by simp [Program.toks, hne, hbody, Block.toks]
        rw [this] at w ⊢
        cases w with
        | done hfl =>
          rw [show code ++ '\n' :: code' = (code ++ ['\n']) ++ code' by simp]
          exact written_layout (final_newline hfl) w'
      · exact written_join w' w (parts_last hbody hne)
    · rw [joinP_funcs]
      exact fun f hf => (List.mem_append.1 hf).elim (hg.1 f) (hg'.1 f)
  refine ⟨?_, _, hsp, hok.clean⟩
  have := accepts_of (notBlank_right (r := '\n' :: code') ?_) hsp hok
  · rwa [joinP_tree hbody] at this
  · obtain ⟨c, h1, h2⟩ := hb'
    exact ⟨c, by simp [h1], h2⟩
end

/-- A text of declarations. -/
def declText : List Char := "Перем г;\nПроцедура П(а) Перем л; Пока а Цикл Прервать; КонецЦикла; КонецПроцедуры // конец".toList
def declText' : List Char := "Функция Ф() Возврат 1 КонецФункции П(Ф())".toList

/-- The hypotheses are met. -/
example : ∃ M N, @Accepts stdLetters declText M ∧ @Accepts stdLetters declText' N ∧ Fits M N ∧ M.body.length = 1 ∧ N.body.length = 2 := by
  refine ⟨@modOf stdLetters declText, @modOf stdLetters declText', @accepts_modOf stdLetters _ (by decide +kernel),
    @accepts_modOf stdLetters _ (by decide +kernel), ⟨?_, .inl (by decide +kernel), ?_⟩, by decide +kernel, by decide +kernel⟩
  · have h : (@modOf stdLetters declText).body.all (fun i => match i with | .func _ => true | _ => false) = true := by decide +kernel
    intro i hi
    have := List.all_eq_true.1 h i hi
    cases i with
    | func f => exact ⟨f, rfl⟩
    | stm s => cases this
  · have h : (@modOf stdLetters declText').globals = [] := by decide +kernel
    rw [h]
    exact fun _ _ _ hg => by cases hg

/-- The property does not hold: after `Функция А() Возврат 1; КонецФункции`, the procedure `Процедура В() ; КонецПроцедуры` gets a
statement that it has not alone; and a text that is rejected alone is accepted behind a text with `Пока`. -/
theorem C54_violated :
    (∃ code code' M N L, @Accepts stdLetters code M ∧ @Accepts stdLetters code' N ∧ Fits M N ∧
      @Accepts stdLetters (code ++ '\n' :: code') L ∧ L ≠ append M N) ∧
    ∃ code code' L, (∀ N, ¬ @Accepts stdLetters code' N) ∧ @Accepts stdLetters (code ++ '\n' :: code') L := by
  refine ⟨⟨"Функция А() Возврат 1; КонецФункции".toList, "Процедура В() ; КонецПроцедуры".toList, _, _, _,
    @accepts_modOf stdLetters _ (by decide +kernel), @accepts_modOf stdLetters _ (by decide +kernel), ⟨?_, .inl (by decide +kernel), ?_⟩,
    @accepts_modOf stdLetters _ (by decide +kernel), by decide +kernel⟩,
    "Процедура А() Пока б Цикл КонецЦикла; КонецПроцедуры".toList, "Процедура В() Прервать; КонецПроцедуры".toList, _,
    @rejects_eq stdLetters _ (by decide +kernel), @accepts_modOf stdLetters _ (by decide +kernel)⟩
  · have h : (@modOf stdLetters "Функция А() Возврат 1; КонецФункции".toList).body.all
        (fun i => match i with | .func _ => true | _ => false) = true := by decide +kernel
    intro i hi
    have := List.all_eq_true.1 h i hi
    cases i with
    | func f => exact ⟨f, rfl⟩
    | stm s => cases this
  · have h : (@modOf stdLetters "Функция А() Возврат 1; КонецФункции".toList).globals = [] := by decide +kernel
    rw [h]
    exact fun _ hg => by cases hg

end Verif
