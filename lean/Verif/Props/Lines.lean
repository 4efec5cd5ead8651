import Verif.Proofs.Lines
import Verif.Props.Whole
import Verif.Props.Program
import Verif.Props.Recase
import Verif.Props.Reprint
/-!
# Layout of printed code: C62

`moduleLines gs M` (`Spec/Lines.lean`): the lines of printed code with their nesting depth.  `Arranged margin ls s`: the text `s`
consists of these lines, each indented by `margin` spaces for every level, with line breaks between them.
-/
namespace Verif
open Spec Lexer LR

namespace Lines

mutual
theorem whole_mono {N N' : Terminal → Name → Prop} {V V' : Val → Prop} (hN : ∀ c n, N c n → N' c n) (hV : ∀ v, V v → V' v) :
    (s : Stm) → s.whole N V → s.whole N' V'
  | .nil, h => h
  | .num _, h => hV _ h
  | .str _, h => hV _ h
  | .bool _, h => hV _ h
  | .date _, h => hV _ h
  | .undef, _ => trivial
  | .var .., h => hN _ _ h
  | .chain u c _ _, h => ⟨whole_mono hN hV u h.1, whole_mono hN hV c h.2⟩
  | .method _ ps _, h => ⟨h.1.imp (hN _ _) (hN _ _), wholeO_mono hN hV ps h.2⟩
  | .item i o, h => ⟨whole_mono hN hV i h.1, whole_mono hN hV o h.2⟩
  | .ternary c t e, h => ⟨whole_mono hN hV c h.1, whole_mono hN hV t h.2.1, whole_mono hN hV e h.2.2⟩
  | .new _ ps, h => ⟨h.1.imp id (hN _ _), wholeO_mono hN hV ps h.2⟩
  | .assign v es, h => ⟨whole_mono hN hV v h.1, h.2.1, wholeL_mono hN hV es h.2.2⟩
  | .bin _ l r _ _, h => ⟨whole_mono hN hV l h.1, whole_mono hN hV r h.2⟩
  | .exprs l _, h => wholeO_mono hN hV l h
  | .ifS c t ei e, h => ⟨whole_mono hN hV c h.1, wholeL_mono hN hV t h.2.1, wholeE_mono hN hV ei h.2.2.1, wholeL_mono hN hV e h.2.2.2⟩
  | .tryS b c, h => ⟨wholeL_mono hN hV b h.1, wholeL_mono hN hV c h.2⟩
  | .throw p, h => Or.imp id (whole_mono hN hV p) h
  | .ret p, h => Or.imp id (whole_mono hN hV p) h
  | .brk, _ => trivial
  | .cont, _ => trivial
  | .loop f tl i w b, h => ⟨wholeL_mono hN hV b h.1, Or.imp
      (fun h => ⟨let ⟨n, e, h⟩ := h.1; ⟨n, e, hN _ _ h⟩, h.2.1, whole_mono hN hV i h.2.2.1, h.2.2.2⟩)
      (Or.imp (fun h => ⟨whole_mono hN hV f h.1, whole_mono hN hV tl h.2.1, h.2.2⟩)
        (fun h => ⟨h.1, h.2.1, h.2.2.1, whole_mono hN hV w h.2.2.2⟩)) h.2⟩
  | .goto _, h => hN _ _ h
  | .label _, h => hN _ _ h
theorem wholeL_mono {N N' : Terminal → Name → Prop} {V V' : Val → Prop} (hN : ∀ c n, N c n → N' c n) (hV : ∀ v, V v → V' v) :
    (l : List Stm) → Stm.wholeL N V l → Stm.wholeL N' V' l
  | [], _ => trivial
  | s :: l, h => ⟨whole_mono hN hV s h.1, wholeL_mono hN hV l h.2⟩
theorem wholeO_mono {N N' : Terminal → Name → Prop} {V V' : Val → Prop} (hN : ∀ c n, N c n → N' c n) (hV : ∀ v, V v → V' v) :
    (l : List Stm) → Stm.wholeO N V l → Stm.wholeO N' V' l
  | [], _ => trivial
  | s :: l, h => ⟨Or.imp id (whole_mono hN hV s) h.1, wholeO_mono hN hV l h.2⟩
theorem wholeE_mono {N N' : Terminal → Name → Prop} {V V' : Val → Prop} (hN : ∀ c n, N c n → N' c n) (hV : ∀ v, V v → V' v) :
    (l : List Stm) → Stm.wholeE N V l → Stm.wholeE N' V' l
  | [], _ => trivial
  | .ifS c t _ _ :: l, h =>
    ⟨⟨whole_mono hN hV c h.1.1, wholeL_mono hN hV t h.1.2.1, h.1.2.2.1, h.1.2.2.2⟩, wholeE_mono hN hV l h.2⟩
end

theorem module_mono {N N' : Terminal → Name → Prop} {V V' : Val → Prop} (hN : ∀ c n, N c n → N' c n) (hV : ∀ v, V v → V' v)
    {M : Module} (h : M.Whole N V) : M.Whole N' V' :=
  ⟨fun g hg => ⟨hN _ _ (h.globals g hg).1, (h.globals g hg).2.imp id (hN _ _)⟩,
   fun f hf =>
    have h := h.funcs f hf
    ⟨hN _ _ h.name, h.directive.imp id (hN _ _), fun ks e n hn => hN _ _ (h.vars ks e n hn),
      fun p hp => ⟨hN _ _ (h.params p hp).1, (h.params p hp).2.imp id (whole_mono hN hV _)⟩, wholeL_mono hN hV _ h.body⟩,
   fun s hs => whole_mono hN hV _ (h.stms s hs)⟩

section
variable [Letters]

/-- The names of tokens have no line breaks. -/
theorem lexeme_no (hL : Letters.isL '\n' = false) {dot : Bool} {w : List Char} {k : Key} {F : List Char → Prop}
    (h : Lexeme dot w k F) : '\n' ∉ k.name := by
  have part : ¬ WordPart '\n' := by
    rintro ((h | h) | h)
    · rw [hL] at h; cases h
    · cases h
    · unfold Digit at h; revert h; decide
  have wd : ∀ {w : List Char}, Word w → '\n' ∉ w := by
    rintro w ⟨h1, h2⟩ h
    rw [List.mem_cons] at h
    rcases h with rfl | h
    · exact part (.inl h1)
    · exact part (h2 _ h)
  cases h with
  | name h _ => exact wd h
  | exec h _ => exact wd h
  | @directive _ w h =>
    show '\n' ∉ '&' :: w
    intro hn
    have h1 : '\n' ∈ (String.ofList ('&' :: w.map lowerChar)).toList := by
      rw [String.toList_ofList]
      rw [List.mem_cons] at hn
      rcases hn with hn | hn
      · cases hn
      · exact List.mem_cons_of_mem _ (List.mem_map.2 ⟨_, hn, by decide⟩)
    revert h1 h
    generalize String.ofList ('&' :: w.map lowerChar) = x
    unfold directiveNames
    intro h h1
    simp only [List.mem_cons, List.not_mem_nil, or_false] at h
    rcases h with rfl | rfl | rfl | rfl | rfl <;> revert h1 <;> decide
  | label h => exact fun hn => part (h _ hn)
  | _ => exact List.not_mem_nil

theorem written_no (hL : Letters.isL '\n' = false) {dot : Bool} {s : List Char} {ks : List Key} (h : Written dot s ks) :
    ∀ k ∈ ks, '\n' ∉ k.name := by
  induction h with
  | done _ => intro k hk; cases hk
  | next _ hl _ _ ih =>
    intro k hk
    rw [List.mem_cons] at hk
    rcases hk with rfl | hk
    · exact lexeme_no hL hl
    · exact ih k hk

/-- Elements of the module of an accepted text: first procedures and functions, then statements. -/
theorem body_order {code : List Char} {M : Module} (h : Accepts code M) :
    ∃ (ds : List FuncDecl) (l : List Stm), M.body = ds.map .func ++ l.map .stm := by
  by_cases hb : NotBlank code
  · obtain ⟨P, -, -, h1, -⟩ := C49_accepted hb h
    obtain ⟨-, ds, l, h1, -⟩ := h1
    exact ⟨ds, l, h1⟩
  · rw [accepts_blank hb h]
    exact ⟨[], [], rfl⟩

end
end Lines

section
variable [Letters]

/-- **C62, lines.** Printed without `OneLine`, the code of an accepted text consists of the lines of `moduleLines`: every statement,
every word between blocks and every head begins a line of its own, indented by `Margin` spaces for every block around it. -/
theorem C62_lines (code : List Char) (M : Module) (h : Accepts code M) (margin : Nat) (s : List Char)
    (hp : Prints ⟨margin, false⟩ M s) : ∃ gs : List GVar, gs.Perm M.globals ∧ Arranged margin (moduleLines gs M) s := by
  obtain ⟨gs, hg, rfl⟩ := hp
  obtain ⟨ds, l, hm⟩ := Lines.body_order h
  obtain ⟨a, h1, -, rfl⟩ := h
  exact ⟨gs, hg, Lines.module_ hm (C51_whole code a (.parse .new h1)) gs⟩

/-- The string constants of the text are written on one line. -/
def OneLineStrings (code : List Char) : Prop :=
  ∀ ks, Written false code ks → ∀ v, literal .kString (.str v) ∈ ks → '\n' ∉ v

theorem Lines.whole_no (hL : Letters.isL '\n' = false) {code : List Char} {M : Module} (h : Accepts code M)
    (hs : OneLineStrings code) : M.Whole Lines.NoBrkN Lines.NoBrkV := by
  by_cases hb : NotBlank code
  · obtain ⟨ks, hk, hw⟩ := C53_tokens code M hb h
    refine Lines.module_mono (fun c n hn => Lines.written_no hL hk _ hn) ?_ hw
    rintro v ⟨c, u, h1, h2⟩ t rfl
    cases h2 with
    | same =>
      have : literal c (.str t) = literal .kString (.str t) := by
        have key : ∀ {dot : Bool} {s : List Char} {ks : List Key}, Written dot s ks → literal c (.str t) ∈ ks →
            literal c (.str t) = literal .kString (.str t) := by
          intro dot s ks h
          induction h with
          | done _ => intro h; cases h
          | next _ hl _ _ ih =>
            intro h
            rw [List.mem_cons] at h
            rcases h with h | h
            · generalize hq : literal c (.str t) = q at *
              have hv : q.val = .str t := by rw [← hq]; rfl
              subst h
              cases hl <;> first | (cases hv; rfl) | cases hv
            · exact ih h
        exact key hk h1
      rw [this] at h1
      exact hs ks hk t h1
  · rw [accepts_blank hb h]
    exact ⟨fun g hg => (by cases hg), fun f hf => (by cases hf), fun s hs => (by cases hs)⟩

/-- **C62, text lines.** When the string constants of the text are written on one line, these lines are exactly the lines of the
printed text that are not empty. -/
theorem C62_text_lines (hL : Letters.isL '\n' = false) (code : List Char) (M : Module) (h : Accepts code M)
    (hs : OneLineStrings code) (margin : Nat) (s : List Char) (hp : Prints ⟨margin, false⟩ M s) :
    ∃ gs : List GVar, gs.Perm M.globals ∧ textLines s = (moduleLines gs M).map (Line.indented margin) := by
  obtain ⟨gs, hg, h1⟩ := C62_lines code M h margin s hp
  exact ⟨gs, hg, Lines.arranged_lines h1 (Lines.module_good (Lines.whole_no hL h hs) hg)⟩

/-- **C62, one line.** With `OneLine` the code of a module without directives, whose string constants are written on one line, has no
line break. -/
theorem C62_one_line (hL : Letters.isL '\n' = false) (code : List Char) (M : Module) (h : Accepts code M)
    (hs : OneLineStrings code) (hd : ∀ g ∈ M.globals, g.directive = []) (hf : ∀ f, .func f ∈ M.body → f.directive = [])
    (margin : Nat) (s : List Char) (hp : Prints ⟨margin, true⟩ M s) : '\n' ∉ s := by
  obtain ⟨gs, hg, rfl⟩ := hp
  exact Lines.module_one rfl (Lines.whole_no hL h hs) hg hd hf

end

/-! ## An example -/

/-- A module with a directive, nested blocks and a label. -/
def linesText : List Char :=
  "Перем а; &НаКлиенте Функция Ф(Знач б, в = 1) Экспорт Если б Тогда Для к = 1 По 2 Цикл ~м: Прервать; КонецЦикла ИначеЕсли в Тогда Иначе Попытка Г() Исключение КонецПопытки КонецЕсли; Возврат б.в КонецФункции Пока а Цикл а = \"и\" КонецЦикла".toList

example : @Accepts stdLetters linesText (@modOf stdLetters linesText) := @accepts_modOf stdLetters _ (by decide +kernel)

/-- Its lines: depth and text. -/
example : (moduleLines (@modOf stdLetters linesText).globals (@modOf stdLetters linesText)) =
    [⟨0, "Перем а;".toList⟩,
     ⟨0, "&НаКлиенте".toList⟩,
     ⟨0, "Функция Ф(Знач б, в = 1) Экспорт ".toList⟩,
     ⟨1, "Если б Тогда ".toList⟩,
     ⟨2, "Для к = 1 По 2 Цикл ".toList⟩,
     ⟨3, "~м:".toList⟩,
     ⟨3, "Прервать;".toList⟩,
     ⟨2, "КонецЦикла;".toList⟩,
     ⟨1, "ИначеЕсли в Тогда ".toList⟩,
     ⟨1, "Иначе ".toList⟩,
     ⟨2, "Попытка".toList⟩,
     ⟨3, "Г();".toList⟩,
     ⟨2, "Исключение".toList⟩,
     ⟨2, "КонецПопытки;".toList⟩,
     ⟨1, "КонецЕсли;".toList⟩,
     ⟨1, "Возврат б.в;".toList⟩,
     ⟨0, "КонецФункции ".toList⟩,
     ⟨0, "Пока а Цикл ".toList⟩,
     ⟨1, "а = \"и\";".toList⟩,
     ⟨0, "КонецЦикла;".toList⟩] := by decide +kernel

/-- The one string of `linesText` is on one line. -/
theorem linesText_strings : @OneLineStrings stdLetters linesText := by
  intro ks hk v hv
  have h : (@keysOf stdLetters 100 (startTok linesText)).isSome := by decide +kernel
  obtain ⟨ks', h'⟩ := Option.isSome_iff_exists.1 h
  have h1 := @hasKeys_unique stdLetters _ _ _ (@written_keys stdLetters _ _ hk) (@keysOf_sound stdLetters 100 _ _ h')
  subst h1
  have h2 : ((@keysOf stdLetters 100 (startTok linesText)).getD []).all (fun k => match k.val with | .str v => !v.contains '\n' | _ => true) = true := by
    decide +kernel
  rw [h', Option.getD_some, List.all_eq_true] at h2
  have := h2 _ hv
  simpa [literal] using this

/-- `C62_text_lines` for it. -/
example (s : List Char) (hp : Prints ⟨2, false⟩ (@modOf stdLetters linesText) s) : "    Для к = 1 По 2 Цикл ".toList ∈ textLines s := by
  obtain ⟨gs, hg, h⟩ := @C62_text_lines stdLetters (by decide) linesText _ (@accepts_modOf stdLetters _ (by decide +kernel)) linesText_strings 2 s hp
  have e : (@modOf stdLetters linesText).globals = [⟨[], ['а'], false⟩] := by decide +kernel
  rw [e] at hg
  obtain rfl := List.perm_singleton.1 hg
  rw [h]
  decide +kernel

/-- `C62_one_line` for a text without directives. -/
example (s : List Char) (hp : Prints ⟨2, true⟩ (@modOf stdLetters "Если а Тогда Ф() КонецЕсли".toList) s) : '\n' ∉ s := by
  refine @C62_one_line stdLetters (by decide) "Если а Тогда Ф() КонецЕсли".toList _ (@accepts_modOf stdLetters _ (by decide +kernel)) ?_ ?_ ?_ 2 s hp
  · intro ks hk v hv
    have h1 := @hasKeys_unique stdLetters _ _ _ (@written_keys stdLetters _ _ hk) (@keysOf_sound stdLetters 20 _
      [word .kIf, ident ['а'], word .kThen, ident ['Ф'], word .lpar, word .rpar, word .kEndIf] (by decide +kernel))
    subst h1
    simp [word, literal, ident, named] at hv
  · rw [show (@modOf stdLetters "Если а Тогда Ф() КонецЕсли".toList).globals = [] by decide +kernel]
    intro g hg; cases hg
  · rw [show (@modOf stdLetters "Если а Тогда Ф() КонецЕсли".toList).body = [.stm (.ifS (.var ['а'] false false) [.method ['Ф'] [.nil] false] [] [])] by decide +kernel]
    intro f hf
    cases hf with
    | tail _ h => cases h

end Verif
