import Verif.Proofs.Print
import Verif.Proofs.PrintNum
import Verif.Proofs.Program
import Verif.AstEq
/-!
# Printing: C34, C35, C36, C39

`Prints cf m s`: `s` is a possible result of `Print` for the module `m` with options `cf`.
-/
namespace Verif
open Spec Lexer LR

/-- The order of the declarations is the only freedom. -/
theorem prints_iff (cf : PrintConf) (m : Module) (s : List Char) : Prints cf m s ↔
    ∃ gs : List GVar, gs.Perm m.globals ∧ s = if m.body = [] then [] else (gs.map fun g => declaration g ++ cf.nl 1).flatten ++ printItems cf m.body := by
  unfold Prints printModule
  simp only [declaration_eq]

/-! ## C34 -/

/-- Numbers with an integer value are printed as literals of this value, after a minus if they are negative, and the literal reads
back as this value.  Missing: other numbers, which are rounded (`C34_violated`). -/
theorem C34_integers_partial (x : F64) (hx : Finite64 x) (hi : ∃ k : ℤ, toRat x = k) (l : Nat) :
    ∃ ds y, (∀ m, m = .expr l ∨ m = .var → pr m (.num x) = (if x.neg then ['-'] else []) ++ ds) ∧ NumLit ds |toRat x| ∧
      F64.parseFloat ds = some y ∧ toRat y = |toRat x| := by
  obtain ⟨k, hk⟩ := hi
  have ha : |toRat x| = (k.natAbs : ℚ) := by rw [hk, ← Int.cast_abs, Int.abs_eq_natAbs]; simp
  have hr : x.roundInt = k.natAbs := F64.roundInt_exact (by rw [← F64.abs_toRat, ha])
  obtain ⟨y, h1, -, -, h2, -⟩ := F64.reprint hx
  refine ⟨Nat.toDigits 10 x.roundInt, y, ?_, ?_, h1, ?_⟩
  · rintro m (rfl | rfl) <;> (rw [pr]; rfl)
  · rw [ha, hr]; exact F64.digits_lit _
  · rw [h2, ha, hr]

/-- Exactly the numbers with an integer value are printed as literals of their value. -/
theorem C34_exact_iff (x : F64) (hx : Finite64 x) :
    (∃ ds, prE (.num x) = (if x.neg then ['-'] else []) ++ ds ∧ NumLit ds |toRat x|) ↔ ∃ k : ℤ, toRat x = k := by
  constructor
  · rintro ⟨ds, h1, h2⟩
    have e : prE (.num x) = (if x.neg then ['-'] else []) ++ Nat.toDigits 10 x.roundInt := by unfold prE; rw [pr]; rfl
    rw [e] at h1
    have h3 := List.append_cancel_left h1
    subst h3
    have h4 := F64.digits_lit x.roundInt
    have h5 : |toRat x| = (x.roundInt : ℚ) := by
      obtain ⟨n, d, _, g1, g2⟩ := parseFloat_lit h2
      have key : ∀ {s : List Char} {v w : ℚ}, NumLit s v → NumLit s w → v = w := by
        intro s v w hv hw
        cases hv with
        | int _ h =>
          generalize hs : s = s' at hw
          cases hw with
          | int _ _ => rfl
          | @frac a b _ _ _ =>
            have := h '.' (by rw [hs]; simp)
            exact absurd rfl (digit_ne_dot this)
        | @frac a b _ ha hb =>
          generalize hs : a ++ '.' :: b = s' at hw
          cases hw with
          | int _ h =>
            have := h '.' (by rw [← hs]; simp)
            exact absurd rfl (digit_ne_dot this)
          | @frac a' b' _ ha' hb' =>
            have h1 := (span_digits (r := b) ha).1
            have h2 := (span_digits (r := b') ha').1
            rw [hs, h2] at h1
            subst h1
            have := List.append_cancel_left hs
            injection this with _ this
            rw [this]
      exact key h2 h4
    rcases abs_choice (toRat x) with h6 | h6
    · exact ⟨x.roundInt, by rw [← h6, h5]; simp⟩
    · exact ⟨-(x.roundInt : ℤ), by push_cast; rw [← h5, h6]; simp⟩
  · intro hi
    obtain ⟨ds, -, h1, h2, -⟩ := C34_integers_partial x hx hi 0
    exact ⟨ds, h1 _ (.inl rfl), h2⟩

example : ∃ ds y, prE (.num ⟨true, 3 * 2 ^ 51, -50⟩) = '-' :: ds ∧ NumLit ds 6 ∧ F64.parseFloat ds = some y ∧ toRat y = 6 := by
  have e : toRat ⟨true, 3 * 2 ^ 51, -50⟩ = ((-6 : ℤ) : ℚ) := by unfold toRat; norm_num
  obtain ⟨ds, y, h1, h2, h3, h4⟩ := C34_integers_partial ⟨true, 3 * 2 ^ 51, -50⟩ ⟨by norm_num, by norm_num, by norm_num⟩ ⟨-6, e⟩ 0
  rw [e] at h2 h4
  norm_num at h2 h4
  exact ⟨ds, y, h1 _ (.inl rfl), h2, h3, h4⟩

private def v1 (s : String) : Stm := .var s.toList false false

/-- The property does not hold: `а = 1.5` is printed as `а = 2`. -/
theorem C34_violated : ∃ code M M' s, @Accepts stdLetters code M ∧ Prints ⟨4, false⟩ M s ∧ @Accepts stdLetters s M' ∧
    ∃ x y : F64, M.body = [.stm (.assign (v1 "а") [.num x])] ∧ M'.body = [.stm (.assign (v1 "а") [.num y])] ∧ toRat x ≠ toRat y := by
  refine ⟨"а = 1.5".toList, ⟨[], [.stm (.assign (v1 "а") [.num ⟨false, 6755399441055744, -52⟩])]⟩,
    ⟨[], [.stm (.assign (v1 "а") [.num ⟨false, 4503599627370496, -51⟩])]⟩, "\nа = 2;".toList,
    @accepts_eq stdLetters _ _ (by decide +kernel) (by decide +kernel), ⟨[], List.Perm.refl _, by decide +kernel⟩,
    @accepts_eq stdLetters _ _ (by decide +kernel) (by decide +kernel), _, _, rfl, rfl, ?_⟩
  unfold toRat; norm_num

/-! ## C35 -/

/-- For every expression at one of the places of `InModule` the printed text contains its signs before the beginning of the
expression (`signed`).  Missing: minus of chains, signs of variables as arguments, defaults, members (where it is false,
`C35_violated`). -/
theorem C35_signs_partial (cf : PrintConf) (m : Module) (s : List Char) (hp : Prints cf m s) (t : Stm) (ht : InModule m t) :
    signed t <:+: s := signs_module ht hp

/-- Both texts are accepted, with different trees, which can be printed in the same way. -/
def SamePrint (code code' : List Char) : Prop :=
  ∃ M M' s, @Accepts stdLetters code M ∧ @Accepts stdLetters code' M' ∧ M ≠ M' ∧ Prints ⟨4, false⟩ M s ∧ Prints ⟨4, false⟩ M' s

theorem samePrint {code code' : List Char} (h1 : @okB stdLetters code = true) (h2 : @okB stdLetters code' = true)
    (h3 : @modOf stdLetters code ≠ @modOf stdLetters code')
    (h4 : printModule ⟨4, false⟩ (@modOf stdLetters code).globals (@modOf stdLetters code) =
      printModule ⟨4, false⟩ (@modOf stdLetters code').globals (@modOf stdLetters code')) : SamePrint code code' :=
  ⟨_, _, _, @accepts_modOf stdLetters _ h1, @accepts_modOf stdLetters _ h2, h3, ⟨_, List.Perm.refl _, rfl⟩, _, List.Perm.refl _, h4⟩

/-- The property does not hold: these texts differ in a minus or `Не`, and are printed in the same way. -/
theorem C35_violated : SamePrint "Ф(-а)".toList "Ф(а)".toList ∧ SamePrint "Ф(Не а)".toList "Ф(а)".toList ∧
    SamePrint "б = -а.в".toList "б = а.в".toList :=
  ⟨samePrint (by decide +kernel) (by decide +kernel) (by decide +kernel) (by decide +kernel),
    samePrint (by decide +kernel) (by decide +kernel) (by decide +kernel) (by decide +kernel),
    samePrint (by decide +kernel) (by decide +kernel) (by decide +kernel) (by decide +kernel)⟩

/-- `Если Не а И -(б + в) > 1 Тогда КонецЕсли` in a procedure. -/
example (s : List Char)
    (hp : Prints ⟨2, true⟩ ⟨[], [.func ⟨none, [], [], [.ifS (.bin .and (.var ['а'] false true)
      (.bin .gt (.bin .plus (v1 "б") (v1 "в") true false) (v1 "г") false false) false false) [] [] []], [], false, false⟩]⟩ s) :
    "Не а".toList <:+: s ∧ "-(".toList <:+: s :=
  ⟨C35_signs_partial _ _ _ hp _ (.func (.head _) (.head _) (.cond (.left (.self (.var ['а'] false true))))),
    C35_signs_partial _ _ _ hp _ (.func (.head _) (.head _) (.cond (.right (.left (.self (.bin .plus (v1 "б") (v1 "в") true false))))))⟩

/-! ## C36 -/

/-- When the module has procedures or statements, every module variable is declared in the printed text, with its directive and
`Экспорт`.  Missing: local variables, and modules of declarations only (where it is false, `C36_violated`). -/
theorem C36_globals_partial (cf : PrintConf) (m : Module) (hb : m.body ≠ []) (s : List Char) (hp : Prints cf m s) (g : GVar)
    (hg : g ∈ m.globals) : declaration g <:+: s := by
  obtain ⟨gs, h1, rfl⟩ := (prints_iff cf m s).1 hp
  rw [if_neg hb]
  refine infix_append_right _ ?_
  have hg' := h1.mem_iff.2 hg
  obtain ⟨l, r, rfl⟩ := List.append_of_mem hg'
  simp only [List.map_append, List.map_cons, List.flatten_append, List.flatten_cons, List.append_assoc]
  exact infix_append_left _ (List.prefix_append _ _).isInfix

/-- The property does not hold: local variables are not printed, and a module that has only variables is printed as the empty text. -/
theorem C36_violated :
    SamePrint "Процедура П() Перем л; КонецПроцедуры".toList "Процедура П() КонецПроцедуры".toList ∧
    SamePrint "Перем а;".toList "Перем б Экспорт;".toList ∧ Prints ⟨4, false⟩ ⟨[⟨[], ['а'], false⟩], []⟩ [] :=
  ⟨samePrint (by decide +kernel) (by decide +kernel) (by decide +kernel) (by decide +kernel),
    samePrint (by decide +kernel) (by decide +kernel) (by decide +kernel) (by decide +kernel), _, List.Perm.refl _, rfl⟩

/-- A module with two variables and a statement. -/
example : "\n&НаСервере\nПерем а Экспорт ;".toList <:+:
    printModule ⟨4, false⟩ [⟨[], ['б'], false⟩, ⟨"&НаСервере".toList, ['а'], true⟩] ⟨[⟨"&НаСервере".toList, ['а'], true⟩, ⟨[], ['б'], false⟩], [.stm .brk]⟩ :=
  C36_globals_partial _ _ (by simp) _ ⟨_, List.Perm.swap _ _ _, rfl⟩ ⟨"&НаСервере".toList, ['а'], true⟩ (.head _)

/-! ## C39 -/

/-- The printed text is: the declarations of all module variables, each once, in some order, each followed by the same end of line;
then text that does not depend on this order.  All orders are possible. -/
theorem C39_order (cf : PrintConf) (m : Module) (hb : m.body ≠ []) : ∃ eol rest : List Char, ∀ s, Prints cf m s ↔
    ∃ gs : List GVar, gs.Perm m.globals ∧ s = (gs.map fun g => declaration g ++ eol).flatten ++ rest := by
  refine ⟨cf.nl 1, printItems cf m.body, fun s => ?_⟩
  rw [prints_iff]
  simp only [if_neg hb]

/-- With at most one module variable the result is determined. -/
theorem C39_determined (cf : PrintConf) (m : Module) (hg : m.globals.length ≤ 1) (s s' : List Char) (h : Prints cf m s)
    (h' : Prints cf m s') : s = s' := by
  obtain ⟨gs, h1, rfl⟩ := h
  obtain ⟨gs', h1', rfl⟩ := h'
  have : ∀ l : List GVar, l.Perm m.globals → l = m.globals := by
    intro l hl
    match hm : m.globals, hg with
    | [], _ => rw [hm] at hl; exact hl.eq_nil
    | [a], _ => rw [hm] at hl; exact List.perm_singleton.1 hl
  rw [this gs h1, this gs' h1']

/-- Two variables: the two orders. -/
example : Prints ⟨4, true⟩ ⟨[⟨[], ['а'], false⟩, ⟨[], ['б'], false⟩], [.stm .brk]⟩ "Перем а;Перем б;Прервать;".toList ∧
    Prints ⟨4, true⟩ ⟨[⟨[], ['а'], false⟩, ⟨[], ['б'], false⟩], [.stm .brk]⟩ "Перем б;Перем а;Прервать;".toList :=
  ⟨⟨_, List.Perm.refl _, by decide +kernel⟩, ⟨[⟨[], ['б'], false⟩, ⟨[], ['а'], false⟩], List.Perm.swap _ _ _, by decide +kernel⟩⟩

end Verif
