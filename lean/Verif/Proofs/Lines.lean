import Verif.Spec.Lines
import Verif.Spec.Whole
import Verif.Proofs.PrintNum
/-! # Lines of printed code -/
namespace Verif
open Spec

set_option linter.unusedSectionVars false

namespace Lines

theorem replicate_breaks (n : Nat) : Breaks (List.replicate n '\n') := by
  intro c r h
  cases n with
  | zero => cases h
  | succ n => rw [List.replicate_succ] at h; injection h with h _; exact h.symm

theorem breaks_cons (r : List Char) : Breaks ('\n' :: r) := by
  intro c r' h; injection h with h _; exact h.symm

theorem breaks_nil : Breaks [] := by intro c r h; cases h

/-- Line breaks may be put in front. -/
theorem brk {m : Nat} {ls : List Line} {s : List Char} (h : Arranged m ls s) : Arranged m ls ('\n' :: s) := by
  cases h with
  | done n => exact .done (n + 1)
  | line n l h hb => exact .line (n + 1) l h hb

theorem brks {m : Nat} {ls : List Line} {s : List Char} (h : Arranged m ls s) : (n : Nat) →
    Arranged m ls (List.replicate n '\n' ++ s)
  | 0 => h
  | n + 1 => brk (brks h n)

theorem one {m : Nat} (l : Line) {ls : List Line} {s : List Char} (h : Arranged m ls s) (hb : Breaks s) :
    Arranged m (l :: ls) (l.indented m ++ s) := .line 0 l h hb

/-- A line given by depth and text. -/
theorem one' {m : Nat} (d : Nat) (t : List Char) {ls : List Line} {s : List Char} (h : Arranged m ls s) (hb : Breaks s) :
    Arranged m (⟨d, t⟩ :: ls) (PrintConf.sp ⟨m, false⟩ d ++ (t ++ s)) := by
  have := one ⟨d, t⟩ h hb
  rwa [Line.indented, List.append_assoc] at this

/-- Statements without blocks. -/
def flat : Stm → Bool
  | .ifS .. => false
  | .loop .. => false
  | .tryS .. => false
  | _ => true

theorem flat_lines {d : Nat} {s : Stm} (h : flat s = true) : lines d s = [⟨d, printItem ⟨0, true⟩ 0 s⟩] := by
  cases s <;> first | rfl | cases h

/-- The text of a statement without blocks depends on the layout only by its indentation and a line break at the end. -/
theorem flat_item {m d : Nat} {s : Stm} (h : flat s = true) : ∃ e : List Char, (e = [] ∨ e = ['\n']) ∧
    printItem ⟨m, false⟩ d s = PrintConf.sp ⟨m, false⟩ d ++ (printItem ⟨0, true⟩ 0 s ++ e) := by
  have z : PrintConf.sp ⟨0, true⟩ 0 = [] := rfl
  have y : PrintConf.nl ⟨0, true⟩ 1 = [] := rfl
  have x : PrintConf.nl ⟨m, false⟩ 1 = ['\n'] := rfl
  cases s with
  | ifS => cases h
  | loop => cases h
  | tryS => cases h
  | label n =>
    refine ⟨['\n'], .inr rfl, ?_⟩
    rw [printItem, printItem, z, y, x]; simp
  | goto n =>
    refine ⟨['\n'], .inr rfl, ?_⟩
    rw [printItem, printItem, z, y, x]; simp
  | throw p =>
    refine ⟨[], .inl rfl, ?_⟩
    cases p <;> (simp only [printItem]; rw [z]; simp)
  | ret p =>
    refine ⟨[], .inl rfl, ?_⟩
    cases p <;> (simp only [printItem]; rw [z]; simp)
  | _ =>
    refine ⟨[], .inl rfl, ?_⟩
    rw [printItem, printItem, z] <;> simp

/-- A loop is printed with its head. -/
theorem loop_item {N : Terminal → Name → Prop} {V : Val → Prop} {f tl i w : Stm} {b : List Stm}
    (h : (Stm.loop f tl i w b).whole N V) (cf : PrintConf) (d : Nat) :
    printItem cf d (.loop f tl i w b) = cf.sp d ++ loopHead f tl i w ++ printBody cf (d + 1) b ++ cf.sp d ++
      "КонецЦикла".toList ++ [';'] ++ cf.nl 1 := by
  obtain ⟨-, ⟨-, rfl, h', rfl⟩ | ⟨-, h', rfl, rfl⟩ | ⟨-, rfl, rfl, h'⟩⟩ :=
    (show Stm.wholeL N V b ∧ _ from h)
  · have hn : i ≠ .nil := by rintro rfl; exact h'
    clear h h'
    cases i <;> first | exact absurd rfl hn | simp [printItem, loopHead]
  · have hn : tl ≠ .nil := by rintro rfl; exact h'
    clear h h'
    cases tl <;> first | exact absurd rfl hn | simp [printItem, loopHead]
  · have hn : w ≠ .nil := by rintro rfl; exact h'
    clear h h'
    cases w <;> first | exact absurd rfl hn | simp [printItem, loopHead]

theorem flatOk {m : Nat} {s : Stm} (h : flat s = true) (d : Nat) {ls : List Line} {r : List Char} (hr : Arranged m ls r)
    (hb : Breaks r) : Arranged m (lines d s ++ ls) (printItem ⟨m, false⟩ d s ++ r) := by
  obtain ⟨e, he, h1⟩ := flat_item (m := m) (d := d) h
  rw [flat_lines h, h1]
  rcases he with rfl | rfl
  · simpa using one' d (printItem ⟨0, true⟩ 0 s) hr hb
  · simpa using one' d (printItem ⟨0, true⟩ 0 s) (brk hr) (breaks_cons _)

variable {N : Terminal → Name → Prop} {V : Val → Prop} {m : Nat}

mutual
theorem item : (s : Stm) → s.whole N V → (d : Nat) → ∀ {ls : List Line} {r : List Char}, Arranged m ls r → Breaks r →
    Arranged m (lines d s ++ ls) (printItem ⟨m, false⟩ d s ++ r)
  | .ifS c tb elifs els, h, d, ls, r, hr, hb => by
    have h : c.whole N V ∧ Stm.wholeL N V tb ∧ Stm.wholeE N V elifs ∧ Stm.wholeL N V els := h
    have x : PrintConf.nl ⟨m, false⟩ 1 = ['\n'] := rfl
    have e : Arranged m (⟨d, "КонецЕсли;".toList⟩ :: ls) (PrintConf.sp ⟨m, false⟩ d ++ ("КонецЕсли;".toList ++ '\n' :: r)) :=
      one' d _ (brk hr) (breaks_cons _)
    have e1 : Arranged m ((if els.isEmpty then [] else ⟨d, "Иначе ".toList⟩ :: blockLines (d + 1) els) ++
          (⟨d, "КонецЕсли;".toList⟩ :: ls))
        ((if els.isEmpty then [] else PrintConf.sp ⟨m, false⟩ d ++ "Иначе ".toList ++ printBody ⟨m, false⟩ (d + 1) els) ++
          (PrintConf.sp ⟨m, false⟩ d ++ ("КонецЕсли;".toList ++ '\n' :: r))) := by
      cases els with
      | nil => exact e
      | cons s l =>
        have := (body (s :: l) h.2.2.2 (d + 1) e)
        have := one' d "Иначе ".toList this.1 this.2
        simpa using this
    have e2 := elifs_ elifs h.2.2.1 d e1
    have e3 := body tb h.2.1 (d + 1) e2
    have e4 := one' d ("Если ".toList ++ prE c ++ " Тогда ".toList) e3.1 e3.2
    rw [lines]
    cases els <;> (simp only [printItem, x]; simpa using e4)
  | .loop f tl i w b, h, d, ls, r, hr, hb => by
    have x : PrintConf.nl ⟨m, false⟩ 1 = ['\n'] := rfl
    have hb' : Stm.wholeL N V b := (show Stm.wholeL N V b ∧ _ from h).1
    have e : Arranged m (⟨d, "КонецЦикла;".toList⟩ :: ls) (PrintConf.sp ⟨m, false⟩ d ++ ("КонецЦикла;".toList ++ '\n' :: r)) :=
      one' d _ (brk hr) (breaks_cons _)
    have e3 := body b hb' (d + 1) e
    have e4 := one' d (loopHead f tl i w) e3.1 e3.2
    rw [loop_item h, lines, x]
    simpa using e4
  | .tryS b c, h, d, ls, r, hr, hb => by
    have h : Stm.wholeL N V b ∧ Stm.wholeL N V c := h
    have x : PrintConf.nl ⟨m, false⟩ 1 = ['\n'] := rfl
    have e : Arranged m (⟨d, "КонецПопытки;".toList⟩ :: ls) (PrintConf.sp ⟨m, false⟩ d ++ ("КонецПопытки;".toList ++ '\n' :: r)) :=
      one' d _ (brk hr) (breaks_cons _)
    have e2 := body c h.2 (d + 1) e
    have e3 := one' d "Исключение".toList e2.1 e2.2
    have e4 := body b h.1 (d + 1) e3
    have e5 := one' d "Попытка".toList e4.1 e4.2
    rw [lines]
    cases b <;> cases c <;> (simp only [printItem, x]; simpa [printBody, x] using e5)
  | .nil, _, d, ls, r, hr, hb => flatOk rfl d hr hb
  | .num _, _, d, ls, r, hr, hb => flatOk rfl d hr hb
  | .str _, _, d, ls, r, hr, hb => flatOk rfl d hr hb
  | .bool _, _, d, ls, r, hr, hb => flatOk rfl d hr hb
  | .date _, _, d, ls, r, hr, hb => flatOk rfl d hr hb
  | .undef, _, d, ls, r, hr, hb => flatOk rfl d hr hb
  | .var .., _, d, ls, r, hr, hb => flatOk rfl d hr hb
  | .chain .., _, d, ls, r, hr, hb => flatOk rfl d hr hb
  | .method .., _, d, ls, r, hr, hb => flatOk rfl d hr hb
  | .item .., _, d, ls, r, hr, hb => flatOk rfl d hr hb
  | .ternary .., _, d, ls, r, hr, hb => flatOk rfl d hr hb
  | .new .., _, d, ls, r, hr, hb => flatOk rfl d hr hb
  | .assign .., _, d, ls, r, hr, hb => flatOk rfl d hr hb
  | .bin .., _, d, ls, r, hr, hb => flatOk rfl d hr hb
  | .exprs .., _, d, ls, r, hr, hb => flatOk rfl d hr hb
  | .throw _, _, d, ls, r, hr, hb => flatOk rfl d hr hb
  | .ret _, _, d, ls, r, hr, hb => flatOk rfl d hr hb
  | .brk, _, d, ls, r, hr, hb => flatOk rfl d hr hb
  | .cont, _, d, ls, r, hr, hb => flatOk rfl d hr hb
  | .goto _, _, d, ls, r, hr, hb => flatOk rfl d hr hb
  | .label _, _, d, ls, r, hr, hb => flatOk rfl d hr hb
theorem body : (l : List Stm) → Stm.wholeL N V l → (d : Nat) → ∀ {ls : List Line} {r : List Char}, Arranged m ls r →
    Arranged m (blockLines d l ++ ls) (printBody ⟨m, false⟩ d l ++ r) ∧ Breaks (printBody ⟨m, false⟩ d l ++ r)
  | [], _, d, ls, r, hr => ⟨by rw [printBody]; exact brk hr, by rw [printBody]; exact breaks_cons _⟩
  | s :: l, h, d, ls, r, hr => by
    have h : s.whole N V ∧ Stm.wholeL N V l := h
    have h1 := body l h.2 d hr
    have h2 := brk (item s h.1 d h1.1 h1.2)
    have x : PrintConf.nl ⟨m, false⟩ 1 = ['\n'] := rfl
    rw [printBody, blockLines, x]
    refine ⟨by simpa using h2, ?_⟩
    simp only [List.append_assoc, List.cons_append, List.nil_append]
    exact breaks_cons _
theorem elifs_ : (l : List Stm) → Stm.wholeE N V l → (d : Nat) → ∀ {ls : List Line} {r : List Char}, Arranged m ls r →
    Arranged m (elifLines d l ++ ls) (printElifs ⟨m, false⟩ d l ++ r)
  | [], _, d, ls, r, hr => by rw [printElifs]; exact hr
  | .ifS c tb ei el :: l, h, d, ls, r, hr => by
    have h : (c.whole N V ∧ Stm.wholeL N V tb ∧ ei = [] ∧ el = []) ∧ Stm.wholeE N V l := h
    have h1 := body tb h.1.2.1 (d + 1) (elifs_ l h.2 d hr)
    have h2 := one' d ("ИначеЕсли ".toList ++ prE c ++ " Тогда ".toList) h1.1 h1.2
    rw [printElifs, elifLines]
    simpa using h2
end

theorem one0 (t : List Char) {ls : List Line} {r : List Char} (hr : Arranged m ls r) (hb : Breaks r) :
    Arranged m (⟨0, t⟩ :: ls) (t ++ r) := by
  have := one (m := m) ⟨0, t⟩ hr hb
  rwa [show Line.indented m ⟨0, t⟩ = t by simp [Line.indented]] at this

theorem directive (dir : List Char) {ls : List Line} {r : List Char} (hr : Arranged m ls r) :
    Arranged m (directiveLines dir ++ ls) ((if dir = [] then [] else ['\n'] ++ dir ++ ['\n']) ++ r) := by
  unfold directiveLines
  by_cases h : dir = []
  · rw [if_pos h, if_pos h]; exact hr
  · rw [if_neg h, if_neg h]
    simpa using brk (one0 (m := m) dir (brk hr) (breaks_cons _))

theorem global_eq (g : GVar) : printGlobal g = (if g.directive = [] then [] else ['\n'] ++ g.directive ++ ['\n']) ++
    ("Перем ".toList ++ g.name ++ (if g.export then " Экспорт ;".toList else ";".toList)) := by
  rw [printGlobal, onFlag]
  cases g.export <;> simp

theorem global (g : GVar) {ls : List Line} {r : List Char} (hr : Arranged m ls r) :
    Arranged m (globalLines g ++ ls) (printGlobal g ++ '\n' :: r) := by
  have h := directive g.directive (one0 (m := m) ("Перем ".toList ++ g.name ++ (if g.export then " Экспорт ;".toList else ";".toList))
    (brk hr) (breaks_cons _))
  rwa [globalLines, global_eq, List.append_assoc, List.append_assoc _ _ ('\n' :: r)]

theorem globals : (gs : List GVar) → ∀ {ls : List Line} {r : List Char}, Arranged m ls r →
    Arranged m (gs.flatMap globalLines ++ ls) ((gs.map fun g => printGlobal g ++ PrintConf.nl ⟨m, false⟩ 1).flatten ++ r)
  | [], _, _, hr => hr
  | g :: gs, _, _, hr => by
    have h := global g (globals gs hr)
    rw [List.flatMap_cons, List.map_cons, List.flatten_cons, show PrintConf.nl ⟨m, false⟩ 1 = ['\n'] from rfl]
    rw [show PrintConf.nl ⟨m, false⟩ 1 = ['\n'] from rfl] at h
    simpa using h

theorem join_eq (sep : List Char) : (l : List (List Char)) → join sep l = sep.intercalate l
  | [] => rfl
  | [x] => by simp [join, List.intercalate]
  | x :: y :: l => by
    rw [join, join_eq sep (y :: l)]
    · simp [List.intercalate]
    · intro h; cases h

theorem param_eq (p : Param) : printParam p = paramText p := by
  unfold printParam paramText onFlag
  rfl

theorem func_eq (cf : PrintConf) (f : FuncDecl) : printFunc cf f = (if f.directive = [] then [] else ['\n'] ++ f.directive ++ ['\n']) ++
    (headText f ++ (cf.nl 1 ++ (printBody cf 1 f.body ++ (cf.nl 2 ++
      (if f.isFunc then "КонецФункции ".toList else "КонецПроцедуры ".toList))))) := by
  rw [printFunc, headText, join_eq, List.map_congr_left fun p _ => param_eq p]
  generalize [',', ' '].intercalate (f.params.map paramText) = ps
  generalize printBody cf 1 f.body = b
  generalize (if f.directive = [] then [] else ['\n'] ++ f.directive ++ ['\n']) = dir
  unfold onFlag
  cases f.isFunc <;> cases f.export <;> simp

theorem func {f : FuncDecl} (hf : Stm.wholeL N V f.body) {ls : List Line} {r : List Char} (hr : Arranged m ls r) (hb : Breaks r) :
    Arranged m (funcLines f ++ ls) (printFunc ⟨m, false⟩ f ++ r) := by
  have h1 := one0 (m := m) (if f.isFunc then "КонецФункции ".toList else "КонецПроцедуры ".toList) hr hb
  have h2 := body f.body hf 1 (brk (brk h1))
  have h3 := one0 (m := m) (headText f) (brk h2.1) (breaks_cons _)
  have h4 := directive f.directive h3
  have x : PrintConf.nl ⟨m, false⟩ 1 = ['\n'] := rfl
  have y : PrintConf.nl ⟨m, false⟩ 2 = ['\n', '\n'] := rfl
  rw [funcLines, func_eq, x, y]
  simp only [List.append_assoc, List.cons_append, List.nil_append] at h4 ⊢
  exact h4

theorem stms : (l : List Stm) → (∀ s ∈ l, s.whole N V) →
    Arranged m (l.flatMap (lines 0)) (printItems ⟨m, false⟩ (l.map .stm)) ∧ Breaks (printItems ⟨m, false⟩ (l.map .stm))
  | [], _ => ⟨.done 0, breaks_nil⟩
  | s :: l, h => by
    have h1 := stms l fun s hs => h s (List.mem_cons_of_mem _ hs)
    have h2 := brk (item s (h s (List.mem_cons_self ..)) 0 h1.1 h1.2)
    have x : PrintConf.nl ⟨m, false⟩ 1 = ['\n'] := rfl
    rw [List.map_cons, printItems, x, List.flatMap_cons]
    exact ⟨by simpa using h2, by simpa using breaks_cons _⟩

theorem funcs : (ds : List FuncDecl) → (∀ f ∈ ds, Stm.wholeL N V f.body) → {l : List Item} → {ls : List Line} →
    Arranged m ls (printItems ⟨m, false⟩ l) →
    Arranged m (ds.flatMap funcLines ++ ls) (printItems ⟨m, false⟩ (ds.map .func ++ l))
  | [], _, _, _, hr => hr
  | f :: ds, h, l, ls, hr => by
    have h1 := funcs ds (fun f hf => h f (List.mem_cons_of_mem _ hf)) hr
    have h2 := func (h f (List.mem_cons_self ..)) (brk (brk (brk h1))) (breaks_cons _)
    have x : PrintConf.nl ⟨m, false⟩ 3 = ['\n', '\n', '\n'] := rfl
    rw [List.map_cons, List.cons_append, printItems, x, List.flatMap_cons]
    simpa using h2

theorem module_ {M : Module} {ds : List FuncDecl} {l : List Stm} (hm : M.body = ds.map .func ++ l.map .stm) (hw : M.Whole N V)
    (gs : List GVar) : Arranged m (moduleLines gs M) (printModule ⟨m, false⟩ gs M) := by
  unfold moduleLines printModule
  by_cases h : M.body = []
  · rw [if_pos h, if_pos (by rw [h]; rfl)]; exact .done 0
  · rw [if_neg h, if_neg (by simpa using h), hm]
    have h1 := stms (m := m) l fun s hs => hw.stms s (by rw [hm]; exact List.mem_append_right _ (List.mem_map_of_mem hs))
    have h2 := funcs ds (fun f hf => (hw.funcs f (by rw [hm]; exact List.mem_append_left _ (List.mem_map_of_mem hf))).body) h1.1
    have h3 := globals gs h2
    rwa [List.flatMap_append, List.flatMap_map, List.flatMap_map]

/-! ## Cutting at line breaks -/

theorem cut_text {t : List Char} (ht : '\n' ∉ t) (s : List Char) : ∃ l ls, cut s = l :: ls ∧ cut (t ++ s) = (t ++ l) :: ls := by
  induction t with
  | nil =>
    have : ∀ s : List Char, ∃ l ls, cut s = l :: ls := by
      intro s
      induction s with
      | nil => exact ⟨_, _, rfl⟩
      | cons c s ih =>
        obtain ⟨l, ls, h⟩ := ih
        rw [cut, h]
        split
        · exact ⟨_, _, rfl⟩
        · exact ⟨_, _, rfl⟩
    obtain ⟨l, ls, h⟩ := this s
    exact ⟨l, ls, h, h⟩
  | cons c t ih =>
    obtain ⟨l, ls, h1, h2⟩ := ih fun h => ht (List.mem_cons_of_mem _ h)
    refine ⟨l, ls, h1, ?_⟩
    rw [List.cons_append, cut, if_neg (fun h => ht (by rw [h]; exact List.mem_cons_self ..)), h2]
    rfl

theorem textLines_brk (s : List Char) : textLines ('\n' :: s) = textLines s := by
  unfold textLines
  rw [cut, if_pos rfl]
  rfl

theorem textLines_line {t s : List Char} (ht : '\n' ∉ t) (hn : t ≠ []) (hs : Breaks s) : textLines (t ++ s) = t :: textLines s := by
  obtain ⟨l, ls, h1, h2⟩ := cut_text ht s
  have hl : l = [] := by
    cases s with
    | nil => rw [cut] at h1; injection h1 with h1 _; exact h1.symm
    | cons c s =>
      rw [hs c s rfl, cut, if_pos rfl] at h1
      injection h1 with h1 _; exact h1.symm
  subst hl
  unfold textLines
  rw [h1, h2, List.append_nil]
  cases t with
  | nil => exact absurd rfl hn
  | cons c t => rfl

theorem arranged_lines {m : Nat} {ls : List Line} {s : List Char} (h : Arranged m ls s)
    (hl : ∀ l ∈ ls, '\n' ∉ l.text ∧ l.text ≠ []) : textLines s = ls.map (Line.indented m) := by
  induction h with
  | done n =>
    induction n with
    | zero => rfl
    | succ n ih => rw [List.replicate_succ, textLines_brk]; exact ih
  | line n l h hb ih =>
    have h1 := hl l (List.mem_cons_self ..)
    have h2 := ih fun l hl' => hl l (List.mem_cons_of_mem _ hl')
    have h3 : ∀ (n : Nat) (s : List Char), textLines (List.replicate n '\n' ++ s) = textLines s := by
      intro n s
      induction n with
      | zero => rfl
      | succ n ih => rw [List.replicate_succ, List.cons_append, textLines_brk, ih]
    rw [h3, textLines_line _ _ hb, h2, List.map_cons]
    · unfold Line.indented
      rw [List.mem_append, not_or]
      refine ⟨fun h => ?_, h1.1⟩
      have := List.eq_of_mem_replicate h
      cases this
    · unfold Line.indented
      intro h
      exact h1.2 (List.append_eq_nil_iff.1 h).2

/-! ## Texts without line breaks -/

/-- Names without line breaks. -/
def NoBrkN (_ : Terminal) (n : Name) : Prop := '\n' ∉ n
/-- String constants without line breaks. -/
def NoBrkV (v : Val) : Prop := ∀ s, v = .str s → '\n' ∉ s

theorem digits_no (n : Nat) : '\n' ∉ Nat.toDigits 10 n := by
  intro h
  have := Nat.isDigit_of_mem_toDigits (by decide) (by decide) h
  exact absurd this (by decide)

theorem pad_no (w n : Nat) : '\n' ∉ Time.pad w n := by
  unfold Time.pad
  simp only [List.mem_append, not_or]
  exact ⟨fun h => absurd (List.eq_of_mem_replicate h) (by decide), digits_no n⟩

theorem format_no (t : Time) : '\n' ∉ t.format := by
  unfold Time.format
  simp [pad_no]

theorem fmt0_no (x : F64) : '\n' ∉ x.fmt0 := by
  unfold F64.fmt0
  have := digits_no x.roundInt
  split <;> simp [this]

theorem onFlag_no {b : Bool} {s : List Char} (h : '\n' ∉ s) : '\n' ∉ onFlag b s := by
  cases b
  · exact List.not_mem_nil
  · exact h

theorem op_no (o : Op) : '\n' ∉ o.text := by cases o <;> decide

theorem join_no {sep : List Char} (hs : '\n' ∉ sep) : {l : List (List Char)} → (∀ x ∈ l, '\n' ∉ x) → '\n' ∉ join sep l
  | [], _ => List.not_mem_nil
  | [x], h => h x (List.mem_cons_self ..)
  | x :: y :: l, h => by
    rw [join]
    · simp only [List.mem_append, not_or]
      exact ⟨⟨h x (List.mem_cons_self ..), hs⟩, join_no hs fun z hz => h z (List.mem_cons_of_mem _ hz)⟩
    · intro h; cases h

mutual
theorem pr_no : (s : Stm) → s = .nil ∨ s.whole NoBrkN NoBrkV → (mo : PMode) → '\n' ∉ pr mo s
  | .nil, _, mo => by rw [pr] <;> first | exact List.not_mem_nil | nofun
  | .num x, _, mo => by rw [pr]; exact onFlag_no (fmt0_no x)
  | .str t, h, mo => by
    have h : '\n' ∉ t := by rcases h with h | h; · cases h
                            exact h t rfl
    rw [pr]; exact onFlag_no (by simp [h])
  | .bool b, _, mo => by rw [pr]; exact onFlag_no (by cases b <;> decide)
  | .date t, _, mo => by rw [pr]; exact onFlag_no (by simp [format_no])
  | .undef, _, mo => by rw [pr]; exact onFlag_no (by decide)
  | .var n u b, h, mo => by
    have h : '\n' ∉ n := by rcases h with h | h; · cases h
                            exact h
    rw [pr]
    simp only [List.mem_append, not_or]
    exact ⟨⟨onFlag_no (by decide), onFlag_no (by decide)⟩, h⟩
  | .chain u c a b, h, mo => by
    have h : u.whole NoBrkN NoBrkV ∧ c.whole NoBrkN NoBrkV := by
      rcases h with h | h; · cases h
      exact h
    have h1 := pr_no c (.inr h.2) .chain
    have h2 := pr_no u (.inr h.1) .var
    have h3 : '\n' ∉ onFlag (b && !mo.isChain) "Не ".toList := onFlag_no (by decide)
    cases c <;> (simp only [pr] at h1 ⊢; simp_all)
  | .method f ps n, h, mo => by
    have h : (NoBrkN .ktoken_identifier f ∨ NoBrkN .kExecute f) ∧ Stm.wholeO NoBrkN NoBrkV ps := by
      rcases h with h | h; · cases h
      exact h
    have h1 : '\n' ∉ f := h.1.elim id id
    have h2 := join_no (sep := [',', ' ']) (by decide) (prList_no ps h.2)
    have h3 : '\n' ∉ onFlag n "Не ".toList := onFlag_no (by decide)
    rw [pr]
    simp only [List.mem_append, not_or]
    exact ⟨⟨⟨⟨h3, h1⟩, by decide⟩, h2⟩, by decide⟩
  | .item i o, h, mo => by
    have h : i.whole NoBrkN NoBrkV ∧ o.whole NoBrkN NoBrkV := by
      rcases h with h | h; · cases h
      exact h
    have h1 := pr_no i (.inr h.1) (.expr 0)
    have h2 := pr_no o (.inr h.2) .var
    rw [pr]; simp [h1, h2]
  | .ternary c t e, h, mo => by
    have h : c.whole NoBrkN NoBrkV ∧ t.whole NoBrkN NoBrkV ∧ e.whole NoBrkN NoBrkV := by
      rcases h with h | h; · cases h
      exact h
    have h1 := pr_no c (.inr h.1) (.expr 0)
    have h2 := pr_no t (.inr h.2.1) (.expr 0)
    have h3 := pr_no e (.inr h.2.2) (.expr 0)
    rw [pr]; exact onFlag_no (by simp [h1, h2, h3])
  | .new c ps, h, mo => by
    have h : (c = [] ∨ NoBrkN .ktoken_identifier c) ∧ Stm.wholeO NoBrkN NoBrkV ps := by
      rcases h with h | h; · cases h
      exact h
    have h1 : '\n' ∉ c := by rcases h.1 with rfl | h; exacts [List.not_mem_nil, h]
    have h2 := join_no (sep := [',', ' ']) (by decide) (prList_no ps h.2)
    rw [pr]; exact onFlag_no (by simp [h1, h2])
  | .assign v l, h, mo => by
    have h : v.whole NoBrkN NoBrkV ∧ l.length = 1 ∧ Stm.wholeL NoBrkN NoBrkV l := by
      rcases h with h | h; · cases h
      exact h
    have h1 := pr_no v (.inr h.1) .var
    have h2 := prCatL_no l h.2.2 0
    rw [pr]; exact onFlag_no (by simp [h1, h2])
  | .exprs l n, h, mo => by
    have h : Stm.wholeO NoBrkN NoBrkV l := by
      rcases h with h | h; · cases h
      exact h
    have h2 := prCat_no l h (if mo.level = 0 then 0 else mo.level + 1)
    have h3 : '\n' ∉ onFlag n "Не (".toList := onFlag_no (by decide)
    have h4 : '\n' ∉ onFlag n [')'] := onFlag_no (by decide)
    rw [pr]
    refine onFlag_no ?_
    simp only [List.mem_append, not_or]
    exact ⟨⟨h3, h2⟩, h4⟩
  | .bin op l r u n, h, mo => by
    have h : l.whole NoBrkN NoBrkV ∧ r.whole NoBrkN NoBrkV := by
      rcases h with h | h; · cases h
      exact h
    have h1 := pr_no l (.inr h.1) (.expr (mo.level + 1))
    have h2 := pr_no r (.inr h.2) (.expr (mo.level + 1))
    rw [pr]
    refine onFlag_no ?_
    simp only [List.mem_append, not_or]
    refine ⟨⟨⟨⟨⟨⟨⟨⟨⟨⟨?_, ?_⟩, ?_⟩, ?_⟩, h1⟩, by decide⟩, op_no _⟩, by decide⟩, h2⟩, ?_⟩, ?_⟩ <;> exact onFlag_no (by decide)
  | .ifS .., _, mo => by rw [pr] <;> first | exact List.not_mem_nil | nofun
  | .tryS .., _, mo => by rw [pr] <;> first | exact List.not_mem_nil | nofun
  | .throw .., _, mo => by rw [pr] <;> first | exact List.not_mem_nil | nofun
  | .ret .., _, mo => by rw [pr] <;> first | exact List.not_mem_nil | nofun
  | .brk, _, mo => by rw [pr] <;> first | exact List.not_mem_nil | nofun
  | .cont, _, mo => by rw [pr] <;> first | exact List.not_mem_nil | nofun
  | .loop .., _, mo => by rw [pr] <;> first | exact List.not_mem_nil | nofun
  | .goto .., _, mo => by rw [pr] <;> first | exact List.not_mem_nil | nofun
  | .label .., _, mo => by rw [pr] <;> first | exact List.not_mem_nil | nofun
theorem prList_no : (l : List Stm) → Stm.wholeO NoBrkN NoBrkV l → ∀ x ∈ prList l, '\n' ∉ x
  | [], _, x, hx => by rw [prList] at hx; cases hx
  | s :: l, h, x, hx => by
    have h : (s = .nil ∨ s.whole NoBrkN NoBrkV) ∧ Stm.wholeO NoBrkN NoBrkV l := h
    rw [prList, List.mem_cons] at hx
    rcases hx with rfl | hx
    · exact pr_no s h.1 .var
    · exact prList_no l h.2 x hx
theorem prCat_no : (l : List Stm) → Stm.wholeO NoBrkN NoBrkV l → (k : Nat) → '\n' ∉ prCat k l
  | [], _, k => by rw [prCat]; exact List.not_mem_nil
  | s :: l, h, k => by
    have h : (s = .nil ∨ s.whole NoBrkN NoBrkV) ∧ Stm.wholeO NoBrkN NoBrkV l := h
    rw [prCat, List.mem_append, not_or]
    exact ⟨pr_no s h.1 _, prCat_no l h.2 k⟩
theorem prCatL_no : (l : List Stm) → Stm.wholeL NoBrkN NoBrkV l → (k : Nat) → '\n' ∉ prCat k l
  | [], _, k => by rw [prCat]; exact List.not_mem_nil
  | s :: l, h, k => by
    have h : s.whole NoBrkN NoBrkV ∧ Stm.wholeL NoBrkN NoBrkV l := h
    rw [prCat, List.mem_append, not_or]
    exact ⟨pr_no s (.inr h.1) _, prCatL_no l h.2 k⟩
end

theorem sp_no (cf : PrintConf) (d : Nat) : '\n' ∉ cf.sp d := fun h => absurd (List.eq_of_mem_replicate h) (by decide)

theorem nl_no {cf : PrintConf} (h : cf.oneLine = true) (n : Nat) : '\n' ∉ cf.nl n := by
  unfold PrintConf.nl; rw [if_pos h]; exact List.not_mem_nil

theorem prE_no {s : Stm} (h : s.whole NoBrkN NoBrkV) : '\n' ∉ prE s := pr_no s (.inr h) _

theorem head_no {f tl i w : Stm} {b : List Stm} (h : (Stm.loop f tl i w b).whole NoBrkN NoBrkV) : '\n' ∉ loopHead f tl i w := by
  obtain ⟨-, ⟨⟨n, rfl, hn⟩, rfl, h', rfl⟩ | ⟨hf, h', rfl, rfl⟩ | ⟨-, rfl, rfl, h'⟩⟩ :=
    (show Stm.wholeL NoBrkN NoBrkV b ∧ _ from h)
  · have h1 := prE_no h'
    have h2 : '\n' ∉ n := hn
    clear h h' hn
    cases i <;> (simp only [loopHead, forName]; simp [h1, h2])
  · have h1 := prE_no h'
    have h2 := prE_no hf
    clear h h' hf
    cases tl <;> (simp only [loopHead]; simp [h1, h2])
  · have h1 := prE_no h'
    clear h h'
    cases w <;> (simp only [loopHead]; simp [h1])

section
variable {cf : PrintConf} (hc : cf.oneLine = true)
include hc

/-- Statements without blocks. -/
theorem flat_no {s : Stm} (hs : flat s = true) (h : s.whole NoBrkN NoBrkV) (d : Nat) : '\n' ∉ printItem cf d s := by
  have h1 := sp_no cf d
  have h2 := nl_no hc 1
  cases s with
  | ifS => cases hs
  | loop => cases hs
  | tryS => cases hs
  | nil => cases h
  | label n =>
    have h : '\n' ∉ n := h
    simp only [printItem, List.mem_append, not_or]
    exact ⟨⟨⟨⟨h1, by decide⟩, h⟩, by decide⟩, h2⟩
  | goto n =>
    have h : '\n' ∉ n := h
    simp only [printItem, List.mem_append, not_or]
    exact ⟨⟨⟨⟨h1, by decide⟩, h⟩, by decide⟩, h2⟩
  | throw p =>
    rcases (show p = .nil ∨ p.whole NoBrkN NoBrkV from h) with rfl | h
    · simp only [printItem, List.mem_append, not_or]
      exact ⟨⟨⟨h1, by decide⟩, List.not_mem_nil⟩, by decide⟩
    · have key : ∀ l, Stm.wholeO NoBrkN NoBrkV l → '\n' ∉ ['('] ++ join [',', ' '] (prList l) ++ [')'] := by
        intro l hl
        have := join_no (sep := [',', ' ']) (by decide) (prList_no l hl)
        simp [this]
      have key' := key [p] ⟨.inr h, trivial⟩
      cases p with
      | nil => cases h
      | exprs l n =>
        have := key l h
        simp only [printItem, List.mem_append, not_or] at this ⊢
        exact ⟨⟨⟨h1, by decide⟩, this⟩, by decide⟩
      | _ =>
        simp only [printItem, List.mem_append, not_or] at key' ⊢
        exact ⟨⟨⟨h1, by decide⟩, key'⟩, by decide⟩
  | ret p =>
    rcases (show p = .nil ∨ p.whole NoBrkN NoBrkV from h) with rfl | h
    · simp only [printItem, List.mem_append, not_or]
      exact ⟨⟨⟨h1, by decide⟩, List.not_mem_nil⟩, by decide⟩
    · have key := prE_no h
      cases p with
      | nil => cases h
      | _ =>
        simp only [printItem, List.mem_append, not_or]
        exact ⟨⟨⟨h1, by decide⟩, by decide, key⟩, by decide⟩
  | brk => simp only [printItem, List.mem_append, not_or]; exact ⟨h1, by decide⟩
  | cont => simp only [printItem, List.mem_append, not_or]; exact ⟨h1, by decide⟩
  | bin op l r u n =>
    have := prE_no h
    simp only [printItem, List.mem_append, not_or]
    exact ⟨⟨h1, this⟩, by decide⟩
  | chain u c a b =>
    have := pr_no _ (.inr h) .chain
    simp only [printItem, List.mem_append, not_or]
    exact ⟨⟨h1, this⟩, by decide⟩
  | _ =>
    have := pr_no _ (.inr h) .var
    simp only [printItem, List.mem_append, not_or]
    exact ⟨⟨h1, this⟩, by decide⟩

mutual
theorem item_no : (s : Stm) → s.whole NoBrkN NoBrkV → (d : Nat) → '\n' ∉ printItem cf d s
  | .ifS c tb elifs els, h, d => by
    have h : c.whole NoBrkN NoBrkV ∧ Stm.wholeL NoBrkN NoBrkV tb ∧ Stm.wholeE NoBrkN NoBrkV elifs ∧ Stm.wholeL NoBrkN NoBrkV els := h
    have h1 := sp_no cf d
    have h2 := nl_no hc 1
    have h3 := prE_no h.1
    have h4 := body_no tb h.2.1 (d + 1)
    have h5 := elifs_no elifs h.2.2.1 d
    have h6 := body_no els h.2.2.2 (d + 1)
    cases els <;> (simp only [printItem]; simp [h1, h2, h3, h4, h5, h6])
  | .loop f tl i w b, h, d => by
    have h1 := sp_no cf d
    have h2 := nl_no hc 1
    have h3 := head_no h
    have h4 := body_no b (show Stm.wholeL NoBrkN NoBrkV b ∧ _ from h).1 (d + 1)
    rw [loop_item h]
    simp [h1, h2, h3, h4]
  | .tryS b c, h, d => by
    have h : Stm.wholeL NoBrkN NoBrkV b ∧ Stm.wholeL NoBrkN NoBrkV c := h
    have h1 := sp_no cf d
    have h2 := nl_no hc 1
    have h3 := body_no b h.1 (d + 1)
    have h4 := body_no c h.2 (d + 1)
    cases b <;> cases c <;> (simp only [printItem]; simp [h1, h2, h3, h4])
  | .nil, h, d => h.elim
  | .num _, h, d => flat_no hc rfl h d
  | .str _, h, d => flat_no hc rfl h d
  | .bool _, h, d => flat_no hc rfl h d
  | .date _, h, d => flat_no hc rfl h d
  | .undef, h, d => flat_no hc rfl h d
  | .var .., h, d => flat_no hc rfl h d
  | .chain .., h, d => flat_no hc rfl h d
  | .method .., h, d => flat_no hc rfl h d
  | .item .., h, d => flat_no hc rfl h d
  | .ternary .., h, d => flat_no hc rfl h d
  | .new .., h, d => flat_no hc rfl h d
  | .assign .., h, d => flat_no hc rfl h d
  | .bin .., h, d => flat_no hc rfl h d
  | .exprs .., h, d => flat_no hc rfl h d
  | .throw _, h, d => flat_no hc rfl h d
  | .ret _, h, d => flat_no hc rfl h d
  | .brk, h, d => flat_no hc rfl h d
  | .cont, h, d => flat_no hc rfl h d
  | .goto _, h, d => flat_no hc rfl h d
  | .label _, h, d => flat_no hc rfl h d
theorem body_no : (l : List Stm) → Stm.wholeL NoBrkN NoBrkV l → (d : Nat) → '\n' ∉ printBody cf d l
  | [], _, d => by rw [printBody]; exact nl_no hc 1
  | s :: l, h, d => by
    have h : s.whole NoBrkN NoBrkV ∧ Stm.wholeL NoBrkN NoBrkV l := h
    have h2 := nl_no hc 1
    have h3 := item_no s h.1 d
    have h4 := body_no l h.2 d
    rw [printBody]
    simp [h2, h3, h4]
theorem elifs_no : (l : List Stm) → Stm.wholeE NoBrkN NoBrkV l → (d : Nat) → '\n' ∉ printElifs cf d l
  | [], _, d => by rw [printElifs]; exact List.not_mem_nil
  | .ifS c tb ei el :: l, h, d => by
    have h : (c.whole NoBrkN NoBrkV ∧ Stm.wholeL NoBrkN NoBrkV tb ∧ ei = [] ∧ el = []) ∧ Stm.wholeE NoBrkN NoBrkV l := h
    have h1 := sp_no cf d
    have h3 := prE_no h.1.1
    have h4 := body_no tb h.1.2.1 (d + 1)
    have h5 := elifs_no l h.2 d
    rw [printElifs]
    simp [h1, h3, h4, h5]
end
end

/-- A line that is a line: no line break inside, not empty. -/
def Good (l : Line) : Prop := '\n' ∉ l.text ∧ l.text ≠ []

theorem flat_good {s : Stm} (hs : flat s = true) (h : s.whole NoBrkN NoBrkV) (d : Nat) : ∀ l ∈ lines d s, Good l := by
  rw [flat_lines hs]
  intro l hl
  rw [List.mem_singleton] at hl
  subst hl
  refine ⟨flat_no rfl hs h 0, ?_⟩
  show printItem ⟨0, true⟩ 0 s ≠ []
  cases s with
  | ifS => cases hs
  | loop => cases hs
  | tryS => cases hs
  | throw p => cases p <;> (simp only [printItem]; simp)
  | ret p => cases p <;> (simp only [printItem]; simp)
  | _ => simp only [printItem]; simp

mutual
theorem lines_good : (s : Stm) → s.whole NoBrkN NoBrkV → (d : Nat) → ∀ l ∈ lines d s, Good l
  | .ifS c tb elifs els, h, d => by
    have h : c.whole NoBrkN NoBrkV ∧ Stm.wholeL NoBrkN NoBrkV tb ∧ Stm.wholeE NoBrkN NoBrkV elifs ∧ Stm.wholeL NoBrkN NoBrkV els := h
    have h1 := prE_no h.1
    intro l hl
    rw [lines] at hl
    simp only [List.mem_cons, List.mem_append] at hl
    rcases hl with rfl | hl | hl | hl | rfl | hl
    · exact ⟨by simp [h1], by simp⟩
    · exact block_good tb h.2.1 _ l hl
    · exact elif_good elifs h.2.2.1 _ l hl
    · split at hl
      · cases hl
      · rw [List.mem_cons] at hl
        rcases hl with rfl | hl
        · exact ⟨by simp, by simp⟩
        · exact block_good els h.2.2.2 _ l hl
    · exact ⟨by simp, by simp⟩
    · cases hl
  | .loop f tl i w b, h, d => by
    have h1 := head_no h
    have h2 : loopHead f tl i w ≠ [] := by
      unfold loopHead; split <;> simp
    intro l hl
    rw [lines] at hl
    simp only [List.mem_cons, List.mem_append] at hl
    rcases hl with rfl | hl | rfl | hl
    · exact ⟨h1, h2⟩
    · exact block_good b (show Stm.wholeL NoBrkN NoBrkV b ∧ _ from h).1 _ l hl
    · exact ⟨by simp, by simp⟩
    · cases hl
  | .tryS b c, h, d => by
    have h : Stm.wholeL NoBrkN NoBrkV b ∧ Stm.wholeL NoBrkN NoBrkV c := h
    intro l hl
    rw [lines] at hl
    simp only [List.mem_cons, List.mem_append] at hl
    rcases hl with rfl | hl | rfl | hl | rfl | hl
    · exact ⟨by simp, by simp⟩
    · exact block_good b h.1 _ l hl
    · exact ⟨by simp, by simp⟩
    · exact block_good c h.2 _ l hl
    · exact ⟨by simp, by simp⟩
    · cases hl
  | .nil, h, d => h.elim
  | .num _, h, d => flat_good rfl h d
  | .str _, h, d => flat_good rfl h d
  | .bool _, h, d => flat_good rfl h d
  | .date _, h, d => flat_good rfl h d
  | .undef, h, d => flat_good rfl h d
  | .var .., h, d => flat_good rfl h d
  | .chain .., h, d => flat_good rfl h d
  | .method .., h, d => flat_good rfl h d
  | .item .., h, d => flat_good rfl h d
  | .ternary .., h, d => flat_good rfl h d
  | .new .., h, d => flat_good rfl h d
  | .assign .., h, d => flat_good rfl h d
  | .bin .., h, d => flat_good rfl h d
  | .exprs .., h, d => flat_good rfl h d
  | .throw _, h, d => flat_good rfl h d
  | .ret _, h, d => flat_good rfl h d
  | .brk, h, d => flat_good rfl h d
  | .cont, h, d => flat_good rfl h d
  | .goto _, h, d => flat_good rfl h d
  | .label _, h, d => flat_good rfl h d
theorem block_good : (b : List Stm) → Stm.wholeL NoBrkN NoBrkV b → (d : Nat) → ∀ l ∈ blockLines d b, Good l
  | [], _, d => by rw [blockLines]; intro l hl; cases hl
  | s :: b, h, d => by
    have h : s.whole NoBrkN NoBrkV ∧ Stm.wholeL NoBrkN NoBrkV b := h
    intro l hl
    rw [blockLines, List.mem_append] at hl
    exact hl.elim (lines_good s h.1 d l) (block_good b h.2 d l)
theorem elif_good : (b : List Stm) → Stm.wholeE NoBrkN NoBrkV b → (d : Nat) → ∀ l ∈ elifLines d b, Good l
  | [], _, d => by rw [elifLines]; intro l hl; cases hl
  | .ifS c tb ei el :: b, h, d => by
    have h : (c.whole NoBrkN NoBrkV ∧ Stm.wholeL NoBrkN NoBrkV tb ∧ ei = [] ∧ el = []) ∧ Stm.wholeE NoBrkN NoBrkV b := h
    have h1 := prE_no h.1.1
    intro l hl
    rw [elifLines, List.mem_cons, List.mem_append] at hl
    rcases hl with rfl | hl | hl
    · exact ⟨by simp [h1], by simp⟩
    · exact block_good tb h.1.2.1 _ l hl
    · exact elif_good b h.2 d l hl
end

theorem directive_good {dir : List Char} (h : '\n' ∉ dir) : ∀ l ∈ directiveLines dir, Good l := by
  intro l hl
  unfold directiveLines at hl
  split at hl
  · cases hl
  · rename_i hd
    rw [List.mem_singleton] at hl
    subst hl
    exact ⟨h, hd⟩

theorem headText_no {f : FuncDecl} (h : f.Whole NoBrkN NoBrkV) : '\n' ∉ headText f := by
  have h1 : '\n' ∉ f.name := h.name
  have h2 : '\n' ∉ [',', ' '].intercalate (f.params.map paramText) := by
    rw [← join_eq]
    refine join_no (by decide) ?_
    intro x hx
    obtain ⟨p, hp, rfl⟩ := List.mem_map.1 hx
    have h3 : '\n' ∉ p.name := (h.params p hp).1
    have h4 := pr_no p.default (h.params p hp).2 .var
    unfold paramText
    simp only [List.mem_append, not_or]
    refine ⟨⟨?_, h3⟩, ?_⟩
    · split <;> decide
    · split
      · exact List.not_mem_nil
      · simp [h4]
  unfold headText
  simp only [List.mem_append, not_or]
  refine ⟨⟨⟨⟨⟨?_, h1⟩, by decide⟩, h2⟩, by decide⟩, ?_⟩
  · split <;> decide
  · split <;> decide

theorem headText_ne (f : FuncDecl) : headText f ≠ [] :=
  List.append_ne_nil_of_left_ne_nil (List.append_ne_nil_of_right_ne_nil _ (by decide)) _

theorem lastLine (f : FuncDecl) : Good ⟨0, if f.isFunc then "КонецФункции ".toList else "КонецПроцедуры ".toList⟩ := by
  unfold Good
  cases f.isFunc <;> exact ⟨by decide, by decide⟩

theorem module_good {M : Module} (h : M.Whole NoBrkN NoBrkV) {gs : List GVar} (hg : gs.Perm M.globals) :
    ∀ l ∈ moduleLines gs M, Good l := by
  intro l hl
  unfold moduleLines at hl
  split at hl
  · cases hl
  rw [List.mem_append, List.mem_flatMap, List.mem_flatMap] at hl
  have dirs : ∀ {dir : List Char}, dir = [] ∨ NoBrkN .kDirective dir → '\n' ∉ dir := by
    rintro dir (rfl | h)
    exacts [List.not_mem_nil, h]
  rcases hl with ⟨g, hg', hl⟩ | ⟨i, hi, hl⟩
  · have h1 := h.globals g (hg.mem_iff.1 hg')
    have h2 : '\n' ∉ g.name := h1.1
    rw [globalLines, List.mem_append, List.mem_singleton] at hl
    rcases hl with hl | rfl
    · exact directive_good (dirs h1.2) l hl
    · refine ⟨?_, List.append_ne_nil_of_left_ne_nil (List.append_ne_nil_of_left_ne_nil (by decide) _) _⟩
      simp only [List.mem_append, not_or]
      exact ⟨⟨by decide, h2⟩, by split <;> decide⟩
  · cases i with
    | stm s => exact lines_good s (h.stms s hi) 0 l hl
    | func f =>
      have h1 := h.funcs f hi
      have hl : l ∈ funcLines f := hl
      rw [funcLines, List.mem_append, List.mem_cons, List.mem_append, List.mem_singleton] at hl
      rcases hl with hl | rfl | hl | rfl
      · exact directive_good (dirs h1.directive) l hl
      · exact ⟨headText_no h1, headText_ne f⟩
      · exact block_good _ h1.body 1 l hl
      · exact lastLine f

/-- Without directives nothing breaks the line. -/
theorem module_one {cf : PrintConf} (hc : cf.oneLine = true) {M : Module} (h : M.Whole NoBrkN NoBrkV) {gs : List GVar}
    (hg : gs.Perm M.globals) (hd : ∀ g ∈ M.globals, g.directive = []) (hf : ∀ f, .func f ∈ M.body → f.directive = []) :
    '\n' ∉ printModule cf gs M := by
  unfold printModule
  split
  · exact List.not_mem_nil
  rw [List.mem_append, not_or]
  constructor
  · rw [List.mem_flatten]
    rintro ⟨x, hx, hn⟩
    obtain ⟨g, hg', rfl⟩ := List.mem_map.1 hx
    have h1 := h.globals g (hg.mem_iff.1 hg')
    have h2 : '\n' ∉ g.name := h1.1
    rw [List.mem_append] at hn
    rcases hn with hn | hn
    · rw [global_eq, if_pos (hd g (hg.mem_iff.1 hg'))] at hn
      refine absurd hn ?_
      simp only [List.mem_append, not_or]
      exact ⟨List.not_mem_nil, ⟨by decide, h2⟩, by split <;> decide⟩
    · exact nl_no hc 1 hn
  · have : ∀ l : List Item, (∀ i ∈ l, i ∈ M.body) → '\n' ∉ printItems cf l := by
      intro l
      induction l with
      | nil => intro _; exact List.not_mem_nil
      | cons i l ih =>
        intro hl
        have h1 := ih fun i hi => hl i (List.mem_cons_of_mem _ hi)
        have hi := hl i (List.mem_cons_self ..)
        cases i with
        | stm s =>
          rw [printItems]
          simp only [List.mem_append, not_or]
          exact ⟨⟨nl_no hc 1, item_no hc s (h.stms s hi) 0⟩, h1⟩
        | func f =>
          have h2 := h.funcs f hi
          rw [printItems, func_eq, if_pos (hf f hi)]
          simp only [List.mem_append, not_or]
          refine ⟨⟨⟨List.not_mem_nil, headText_no h2, nl_no hc 1, body_no hc _ h2.body 1, nl_no hc 2, ?_⟩, nl_no hc 3⟩, h1⟩
          split <;> decide
    exact this M.body fun i hi => hi

end Lines
end Verif
