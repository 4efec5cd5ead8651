import Verif.Proofs.Rename
import Verif.Props.Same
/-!
# Names and constants are opaque: C55

`Renaming` and what it does to tokens and trees is in `Spec/Rename.lean`; `HasKeys code ks`: the text has the tokens `ks`
(`Spec/Program.lean`).
-/
namespace Verif
open Spec Lexer LR

section
variable [Letters] {ρ : Renaming}

omit [Letters] in
theorem outcomes_of_accepts {x y : Outcome} (h : ∃ a, x = .ret a ∧ a.err = none ∧ a.mod = ⟨[], []⟩)
    (h' : ∃ a, y = .ret a ∧ a.err = none ∧ a.mod = ⟨[], []⟩) : ρ.Outcomes x y := by
  obtain ⟨a, rfl, h2, h3⟩ := h
  obtain ⟨a', rfl, h2', h3'⟩ := h'
  exact .ret (by rw [h3, h3']; rfl) (by rw [h2, h2']; rfl)

/-- **C55.** If the tokens of the second text are those of the first one with names and constants changed — different names
staying different — then `Parse` does the same on both: the tree of the second is the renamed tree of the first, and both texts
are accepted or both rejected with the same complaint. -/
theorem C55_renamed (hL : ∀ c : Char, c.toNat ∈ whiteSpace → Letters.isL c = false) (hρ : ρ.Ok) {code code' : List Char}
    {ks : List Key} (hk : HasKeys code ks) (hk' : HasKeys code' (ks.map ρ.key)) :
    ρ.Outcomes (parse (newAST code)) (parse (newAST code')) := by
  have empty : ks = [] → ρ.Outcomes (parse (newAST code)) (parse (newAST code')) := by
    rintro rfl
    obtain ⟨l, ht, hl⟩ := hk
    obtain ⟨l', ht', hl'⟩ := hk'
    obtain rfl := List.map_eq_nil_iff.1 hl
    obtain rfl := List.map_eq_nil_iff.1 hl'
    exact outcomes_of_accepts (C17_no_tokens ht) (C17_no_tokens ht')
  by_cases hb : NotBlank code
  · by_cases hb' : NotBlank code'
    · have h1 := (notBlank_iff code).1 hb
      have h2 := (notBlank_iff code').1 hb'
      have n1 : code ≠ [] := by rintro rfl; cases h1
      have n2 : code' ≠ [] := by rintro rfl; cases h2
      have h := run_renamed hρ n1 n2 hk hk'
      unfold parse
      rw [if_neg (by show ¬ code.all isUnicodeSpace = true; rw [h1]; decide),
        if_neg (by show ¬ code'.all isUnicodeSpace = true; rw [h2]; decide)]
      have f1 := parse_final (newAST code) n1
      change Rel (RunR ρ) (run (fuel (newAST code).code.length) (initCfg (newAST code)))
        (run (fuel (newAST code').code.length) (initCfg (newAST code'))) at h
      revert h f1
      generalize run (fuel (newAST code).code.length) (initCfg (newAST code)) = x
      generalize run (fuel (newAST code').code.length) (initCfg (newAST code')) = y
      intro f1 h
      cases h with
      | error q => exact .panic q
      | @ok x y h =>
        cases x with
        | none => exact f1.elim
        | some x =>
          cases y with
          | none => exact h.elim
          | some y => exact .ret h.2.mod h.2.err
    · obtain ⟨l', ht', hl'⟩ := hk'
      obtain rfl := tokens_blank hL ht' hb'
      exact empty (List.map_eq_nil_iff.1 hl'.symm)
  · obtain ⟨l, ht, rfl⟩ := hk
    obtain rfl := tokens_blank hL ht hb
    exact empty rfl

/-- Successful calls: the second tree is the renamed first tree. -/
theorem C55_accepts (hL : ∀ c : Char, c.toNat ∈ whiteSpace → Letters.isL c = false) (hρ : ρ.Ok) {code code' : List Char}
    {ks : List Key} (hk : HasKeys code ks) (hk' : HasKeys code' (ks.map ρ.key)) {M : Module} (h : Accepts code M) :
    Accepts code' (M.rename ρ) := by
  obtain ⟨a, h1, h2, h3⟩ := h
  have := C55_renamed hL hρ hk hk'
  rw [h1] at this
  cases ha : parse (newAST code') with
  | panic p => rw [ha] at this; cases this
  | loops => rw [ha] at this; cases this
  | ret a' =>
    rw [ha] at this
    cases this with
    | ret g1 g2 =>
      rw [h2] at g2
      exact ⟨a', ha, Option.map_eq_none_iff.1 g2, by rw [g1, h3]⟩

/-- Nothing is accepted or rejected because of its names. -/
theorem C55_accepted_iff (hL : ∀ c : Char, c.toNat ∈ whiteSpace → Letters.isL c = false) (hρ : ρ.Ok) {code code' : List Char}
    {ks : List Key} (hk : HasKeys code ks) (hk' : HasKeys code' (ks.map ρ.key)) :
    (∃ M, Accepts code M) ↔ ∃ M, Accepts code' M := by
  constructor
  · rintro ⟨M, h⟩; exact ⟨_, C55_accepts hL hρ hk hk' h⟩
  · rintro ⟨M, a', h1, h2, h3⟩
    have := C55_renamed hL hρ hk hk'
    rw [h1] at this
    cases ha : parse (newAST code) with
    | panic p => rw [ha] at this; cases this
    | loops => rw [ha] at this; cases this
    | ret a =>
      rw [ha] at this
      cases this with
      | ret g1 g2 =>
        rw [h2] at g2
        exact ⟨a.mod, a, ha, Option.map_eq_none_iff.1 g2.symm, rfl⟩

end

/-! ## One name -/

/-- The names `x` and `y` change places. -/
def Spec.Renaming.exchange (x y : Name) : Renaming :=
  { Renaming.none with name := fun n => if n = x then y else if n = y then x else n }

theorem exchange_ok {x y : Name} (hx : x ≠ []) (hy : y ≠ []) : (Renaming.exchange x y).Ok where
  inj := by
    intro a b h
    dsimp only [Renaming.exchange] at h
    by_cases h1 : a = x
    · by_cases h2 : b = x
      · rw [h1, h2]
      · rw [if_pos h1, if_neg h2] at h
        by_cases h3 : b = y
        · rw [if_pos h3] at h; rw [h1, h3, h]
        · rw [if_neg h3] at h; exact absurd h.symm h3
    · rw [if_neg h1] at h
      by_cases h2 : b = x
      · rw [if_pos h2] at h
        by_cases h3 : a = y
        · rw [if_pos h3] at h; rw [h3, h2, h]
        · rw [if_neg h3] at h; exact absurd h h3
      · rw [if_neg h2] at h
        by_cases h3 : a = y
        · by_cases h4 : b = y
          · rw [h3, h4]
          · rw [if_pos h3, if_neg h4] at h; exact absurd h.symm h2
        · rw [if_neg h3] at h
          by_cases h4 : b = y
          · rw [if_pos h4] at h; exact absurd h h1
          · rwa [if_neg h4] at h
  noName := by
    dsimp only [Renaming.exchange]
    rw [if_neg hx.symm, if_neg hy.symm]
  noDirective := rfl
  negate := fun _ => rfl

/-- Every identifier `x` becomes `y`. -/
def Spec.replaceName (x y : Name) (k : Key) : Key := if k = ident x then ident y else k

/-- **C55, one name.** A name `x` may be replaced everywhere by a name `y` that does not occur: the tree is the same but for
this name.  (`Выполнить` is kept in the tree as written, so it must not be spelled like `x` or `y`.) -/
theorem C55_one_name [Letters] (hL : ∀ c : Char, c.toNat ∈ whiteSpace → Letters.isL c = false) {x y : Name} (hx : x ≠ []) (hy : y ≠ [])
    {code code' : List Char} {ks : List Key} (hk : HasKeys code ks) (hk' : HasKeys code' (ks.map (replaceName x y)))
    (h1 : ident y ∉ ks) (h2 : named .kExecute x ∉ ks) (h3 : named .kExecute y ∉ ks) {M : Module} (h : Accepts code M) :
    Accepts code' (M.rename (.exchange x y)) := by
  refine C55_accepts hL (exchange_ok hx hy) hk ?_ h
  have : ks.map (Renaming.exchange x y).key = ks.map (replaceName x y) := by
    obtain ⟨l, -, rfl⟩ := hk
    refine List.map_congr_left fun k hkm => ?_
    obtain ⟨⟨n, t⟩, -, rfl⟩ := List.mem_map.1 hkm
    have val : ∀ v, (Renaming.exchange x y).val v = v := by intro v; cases v <;> rfl
    have other : ∀ k : Key, k.kind ≠ Terminal.ktoken_identifier.kind → replaceName x y k = k := by
      intro k hk
      unfold replaceName
      rw [if_neg]
      rintro rfl
      exact hk rfl
    by_cases hi : n = Terminal.ktoken_identifier.kind
    · subst hi
      have e : key (Terminal.ktoken_identifier.kind, t) = ident t.literal := rfl
      rw [e] at hkm ⊢
      have e2 : (Renaming.exchange x y).key (ident t.literal) = ident ((Renaming.exchange x y).name t.literal) := rfl
      rw [e2]
      unfold replaceName
      by_cases hx' : t.literal = x
      · rw [if_pos (by rw [hx'])]
        dsimp only [Renaming.exchange]
        rw [if_pos hx']
      · rw [if_neg (by intro e; injection e with _ e; exact hx' e)]
        dsimp only [Renaming.exchange]
        rw [if_neg hx', if_neg]
        intro e
        rw [e] at hkm
        exact h1 hkm
    · rw [other _ (by rw [key_kind]; exact hi)]
      unfold Renaming.key
      rw [key_kind]
      by_cases he : n = Terminal.kExecute.kind
      · subst he
        rw [if_pos (.inr rfl)]
        have e : key (Terminal.kExecute.kind, t) = named .kExecute t.literal := rfl
        rw [e] at hkm ⊢
        dsimp only [Renaming.exchange, named]
        rw [if_neg, if_neg]
        · rintro e; rw [e] at hkm; exact h3 hkm
        · rintro e; rw [e] at hkm; exact h2 hkm
      · rw [if_neg (by rintro (h | h); exacts [hi h, he h])]
        have eta : ∀ k : Key, k.kind = n → Key.mk n k.name k.val = k := by rintro k rfl; rfl
        split
        · exact eta _ (key_kind _)
        · split
          · exact eta _ (key_kind _)
          · rw [val]; exact eta _ (key_kind _)
  rw [this]
  exact hk'

/-! ## Examples -/

/-- A text with declarations, a procedure, labels and all kinds of constants. -/
def renText : List Char := "Перем а Экспорт; Процедура П(Знач х = 1) Перем т; ~л: т = х + -2.5; Для Каждого э Из а.б Цикл Ф(\"абв\", '20200101'); КонецЦикла; Перейти ~л; КонецПроцедуры".toList
/-- The same with other names and constants. -/
def renText' : List Char := "Перем а1 Экспорт; Процедура П1(Знач х1 = 2) Перем т1; ~лл: т1 = х1 + -5; Для Каждого э1 Из а1.б1 Цикл Ф1(\"вба\", '20210101'); КонецЦикла; Перейти ~лл; КонецПроцедуры".toList

/-- Names get a 1, labels are doubled, numbers too, strings are reversed, every date is replaced by the same one. -/
def renSample : Renaming where
  name n := if n = [] then [] else n ++ ['1']
  label n := n ++ n
  directive := id
  num x := ⟨x.neg, x.mant, x.exp + 1⟩
  str := List.reverse
  date _ := ⟨2021, 1, 1, 0, 0, 0⟩

theorem renSample_ok : renSample.Ok where
  inj := by
    intro a b h
    dsimp only [renSample] at h
    split at h
    · split at h
      · simp_all
      · exact absurd h.symm (by simp)
    · split at h
      · exact absurd h (by simp)
      · exact List.append_cancel_right h
  noName := rfl
  noDirective := rfl
  negate := fun _ => rfl

def renKeys : List Key := [word .kVar, ident "а".toList, word .kExport, word .semi, word .kProcedure, ident "П".toList,
  word .lpar, word .kValueParam, ident "х".toList, word .kEQUAL, literal .kNumber (.num ⟨false, 2^52, -52⟩), word .rpar,
  word .kVar, ident "т".toList, word .semi, named .kGoToLabel "л".toList, word .colon, ident "т".toList,
  word .kEQUAL, ident "х".toList, word .plus, word .minus, literal .kNumber (.num ⟨false, 5 * 2^50, -51⟩), word .semi,
  word .kFor, word .kEach, ident "э".toList, word .kIn, ident "а".toList, word .dot,
  ident "б".toList, word .kLoop, ident "Ф".toList, word .lpar, literal .kString (.str "абв".toList), word .comma,
  literal .kDate (.date ⟨2020, 1, 1, 0, 0, 0⟩), word .rpar, word .semi, word .kEndLoop, word .semi, word .kGoTo,
  named .kGoToLabel "л".toList, word .semi, word .kEndProcedure]
def renKeys' : List Key := [word .kVar, ident "а1".toList, word .kExport, word .semi, word .kProcedure, ident "П1".toList,
  word .lpar, word .kValueParam, ident "х1".toList, word .kEQUAL, literal .kNumber (.num ⟨false, 2^52, -51⟩), word .rpar,
  word .kVar, ident "т1".toList, word .semi, named .kGoToLabel "лл".toList, word .colon, ident "т1".toList,
  word .kEQUAL, ident "х1".toList, word .plus, word .minus, literal .kNumber (.num ⟨false, 5 * 2^50, -50⟩), word .semi,
  word .kFor, word .kEach, ident "э1".toList, word .kIn, ident "а1".toList, word .dot,
  ident "б1".toList, word .kLoop, ident "Ф1".toList, word .lpar, literal .kString (.str "вба".toList), word .comma,
  literal .kDate (.date ⟨2021, 1, 1, 0, 0, 0⟩), word .rpar, word .semi, word .kEndLoop, word .semi, word .kGoTo,
  named .kGoToLabel "лл".toList, word .semi, word .kEndProcedure]

theorem renKeys_map : renKeys.map renSample.key = renKeys' := by decide +kernel

/-- The hypotheses are met. -/
example : @HasKeys stdLetters renText renKeys ∧ @HasKeys stdLetters renText' (renKeys.map renSample.key) ∧
    ∃ M, @Accepts stdLetters renText M := by
  refine ⟨@keysOf_sound stdLetters 100 _ _ (by decide +kernel), ?_, _, @accepts_modOf stdLetters _ (by decide +kernel)⟩
  rw [renKeys_map]
  exact @keysOf_sound stdLetters 100 _ _ (by decide +kernel)

def oneText : List Char := "Функция Ф(х) Возврат х.у + Выполнить(х); КонецФункции".toList
def oneText' : List Char := "Функция Ф(новое) Возврат новое.у + Выполнить(новое); КонецФункции".toList
def oneKeys : List Key := [word .kFunction, ident "Ф".toList, word .lpar, ident "х".toList, word .rpar, word .kReturn,
  ident "х".toList, word .dot, ident "у".toList, word .plus, named .kExecute "Выполнить".toList, word .lpar,
  ident "х".toList, word .rpar, word .semi, word .kEndFunction]
def oneKeys' : List Key := [word .kFunction, ident "Ф".toList, word .lpar, ident "новое".toList, word .rpar, word .kReturn,
  ident "новое".toList, word .dot, ident "у".toList, word .plus, named .kExecute "Выполнить".toList, word .lpar,
  ident "новое".toList, word .rpar, word .semi, word .kEndFunction]

theorem oneKeys_map : oneKeys.map (replaceName ['х'] "новое".toList) = oneKeys' := by decide +kernel

/-- The hypotheses of `C55_one_name` are met: the parameter `х` is renamed, also where it is used. -/
example : @HasKeys stdLetters oneText oneKeys ∧
    @HasKeys stdLetters oneText' (oneKeys.map (replaceName ['х'] "новое".toList)) ∧
    ident "новое".toList ∉ oneKeys ∧ named .kExecute ['х'] ∉ oneKeys ∧ named .kExecute "новое".toList ∉ oneKeys ∧
    ∃ M, @Accepts stdLetters oneText M := by
  refine ⟨@keysOf_sound stdLetters 100 _ _ (by decide +kernel), ?_, by decide +kernel, by decide +kernel, by decide +kernel, _,
    @accepts_modOf stdLetters _ (by decide +kernel)⟩
  rw [oneKeys_map]
  exact @keysOf_sound stdLetters 100 _ _ (by decide +kernel)

/-- Different names must stay different. -/
example : (∃ M, @Accepts stdLetters "Перем а, б;".toList M) ∧ ∀ M, ¬ @Accepts stdLetters "Перем а, а;".toList M :=
  ⟨⟨_, @accepts_modOf stdLetters _ (by decide +kernel)⟩, fun M => @rejects_eq stdLetters _ (by decide +kernel) M⟩

end Verif
