import Verif.Spec.Snippet
import Verif.Proofs.Lines
import Verif.Proofs.Reprint.Final
import Verif.Proofs.Reprint.Signs
/-!
# Single statements: their lines, their text, reading them
-/
namespace Verif.Snippet
open Spec Lexer LR

/-! ## Lines -/

mutual
theorem shift (k : Nat) : (s : Stm) → (d : Nat) → lines (k + d) s = (lines d s).map (Line.deeper k)
  | .ifS c tb ei el, d => by
    rw [lines, lines, Nat.add_assoc, shiftB k tb (d + 1), shiftE k ei d, shiftB k el (d + 1)]
    cases el <;> simp [Line.deeper]
  | .loop f z i w b, d => by
    rw [lines, lines, Nat.add_assoc, shiftB k b (d + 1)]
    simp [Line.deeper]
  | .tryS b h, d => by
    rw [lines, lines, Nat.add_assoc, shiftB k b (d + 1), shiftB k h (d + 1)]
    simp [Line.deeper]
  | .nil, d => rfl
  | .num _, d => rfl
  | .str _, d => rfl
  | .bool _, d => rfl
  | .date _, d => rfl
  | .undef, d => rfl
  | .var .., d => rfl
  | .chain .., d => rfl
  | .method .., d => rfl
  | .item .., d => rfl
  | .ternary .., d => rfl
  | .new .., d => rfl
  | .assign .., d => rfl
  | .bin .., d => rfl
  | .exprs .., d => rfl
  | .throw _, d => rfl
  | .ret _, d => rfl
  | .brk, d => rfl
  | .cont, d => rfl
  | .goto _, d => rfl
  | .label _, d => rfl
theorem shiftB (k : Nat) : (l : List Stm) → (d : Nat) → blockLines (k + d) l = (blockLines d l).map (Line.deeper k)
  | [], d => rfl
  | s :: l, d => by
    show lines (k + d) s ++ blockLines (k + d) l = (lines d s ++ blockLines d l).map _
    rw [shift k s d, shiftB k l d, List.map_append]
theorem shiftE (k : Nat) : (l : List Stm) → (d : Nat) → elifLines (k + d) l = (elifLines d l).map (Line.deeper k)
  | [], d => rfl
  | s :: l, d => by
    cases s
    case ifS c t x y =>
      show _ :: (blockLines (k + d + 1) t ++ elifLines (k + d) l) = (_ :: (blockLines (d + 1) t ++ elifLines d l)).map _
      rw [Nat.add_assoc, shiftB k t (d + 1), shiftE k l d]
      simp [Line.deeper]
    all_goals exact shiftE k l d
end

theorem mem_lines {d : Nat} {s : Stm} : {l : List Stm} → s ∈ l → lines d s <:+: blockLines d l
  | x :: l, h => by
    show _ <:+: lines d x ++ blockLines d l
    rcases List.mem_cons.1 h with rfl | h
    · exact (List.prefix_append _ _).isInfix
    · exact (mem_lines h).trans (List.suffix_append _ _).isInfix

theorem mem_elifs {d : Nat} {c : Stm} {t x y : List Stm} : {l : List Stm} → .ifS c t x y ∈ l → blockLines (d + 1) t <:+: elifLines d l
  | z :: l, h => by
    rcases List.mem_cons.1 h with rfl | h
    · show _ <:+: _ :: (blockLines (d + 1) t ++ elifLines d l)
      exact (List.prefix_append _ _).isInfix.trans (List.suffix_cons _ _).isInfix
    · have ih := mem_elifs (d := d) h
      cases z
      case ifS c' t' x' y' =>
        show _ <:+: _ :: (blockLines (d + 1) t' ++ elifLines d l)
        exact ih.trans ((List.suffix_append _ _).isInfix.trans (List.suffix_cons _ _).isInfix)
      all_goals exact ih

theorem infix_mid {α : Type} {l a b c : List α} (h : l <:+: b) : l <:+: a ++ (b ++ c) :=
  h.trans ((List.prefix_append _ _).isInfix.trans (List.suffix_append _ _).isInfix)

theorem block_lines {s : Stm} {k : Nat} {l : List Stm} (h : InBlock s k l) : ∀ d, lines (d + k) s <:+: blockLines d l := by
  induction h with
  | here h => intro d; exact mem_lines h
  | then_ h _ ih =>
    intro d
    refine .trans ?_ (mem_lines h)
    rw [lines, ← List.singleton_append]
    have := ih (d + 1)
    rw [Nat.add_assoc, Nat.add_comm 1] at this
    exact infix_mid this
  | elif h h' _ ih =>
    intro d
    refine .trans ?_ (mem_lines h)
    rw [lines, ← List.singleton_append, ← List.append_assoc]
    have := ih (d + 1)
    rw [Nat.add_assoc, Nat.add_comm 1] at this
    exact infix_mid (this.trans (mem_elifs h'))
  | @else_ _ _ _ _ _ el h hi ih =>
    intro d
    refine .trans ?_ (mem_lines h)
    have hne : el.isEmpty = false := by
      cases el with
      | nil => cases hi with
        | here h => cases h
        | then_ h => cases h
        | elif h => cases h
        | else_ h => cases h
        | loop h => cases h
        | tryB h => cases h
        | handler h => cases h
      | cons => rfl
    rw [lines, hne, ← List.singleton_append, ← List.append_assoc, ← List.append_assoc]
    have := ih (d + 1)
    rw [Nat.add_assoc, Nat.add_comm 1] at this
    exact infix_mid (this.trans (List.suffix_cons _ _).isInfix)
  | loop h _ ih =>
    intro d
    refine .trans ?_ (mem_lines h)
    rw [lines, ← List.singleton_append]
    have := ih (d + 1)
    rw [Nat.add_assoc, Nat.add_comm 1] at this
    exact infix_mid this
  | tryB h _ ih =>
    intro d
    refine .trans ?_ (mem_lines h)
    rw [lines, ← List.singleton_append]
    have := ih (d + 1)
    rw [Nat.add_assoc, Nat.add_comm 1] at this
    exact infix_mid this
  | handler h _ ih =>
    intro d
    refine .trans ?_ (mem_lines h)
    rw [lines, ← List.singleton_append, ← List.append_assoc, ← List.singleton_append (x := Line.mk d "Исключение".toList), ← List.append_assoc]
    have := ih (d + 1)
    rw [Nat.add_assoc, Nat.add_comm 1] at this
    exact infix_mid this

theorem mem_flatMap {α β : Type} {f : α → List β} {x : α} : {l : List α} → x ∈ l → f x <:+: l.flatMap f
  | y :: l, h => by
    rw [List.flatMap_cons]
    rcases List.mem_cons.1 h with rfl | h
    · exact (List.prefix_append _ _).isInfix
    · exact (mem_flatMap h).trans (List.suffix_append _ _).isInfix

theorem item_lines {M : Module} {i : Item} (h : i ∈ M.body) (gs : List GVar) : itemLines i <:+: moduleLines gs M := by
  unfold moduleLines
  rw [if_neg (by cases hb : M.body with | nil => rw [hb] at h; cases h | cons => simp)]
  exact (mem_flatMap h).trans (List.suffix_append _ _).isInfix

theorem module_lines {M : Module} {s : Stm} {d : Nat} (h : StatementOf M s d) (gs : List GVar) :
    (lines 0 s).map (Line.deeper d) <:+: moduleLines gs M := by
  rw [← shift d s 0]
  cases h with
  | code hx h =>
    have := block_lines h 0
    rw [Nat.zero_add] at this
    refine this.trans (.trans ?_ (item_lines hx gs))
    rw [blockLines, blockLines, List.append_nil]
    exact List.infix_refl _
  | @func k f hx h =>
    have := block_lines h 1
    rw [Nat.add_comm] at this
    refine this.trans (.trans ?_ (item_lines hx gs))
    show _ <:+: directiveLines _ ++ (_ :: (blockLines 1 f.body ++ _))
    rw [← List.singleton_append, ← List.append_assoc]
    exact infix_mid (List.infix_refl _)

theorem indented_deeper (m d : Nat) (l : Line) : (l.deeper d).indented m = List.replicate (m * d) ' ' ++ l.indented m := by
  unfold Line.deeper Line.indented
  rw [← List.append_assoc, List.replicate_append_replicate, Nat.mul_add]

/-! ## Text -/

mutual
theorem flush {cf : PrintConf} (h : cf.margin = 0) : (s : Stm) → (d : Nat) → printItem cf d s = printItem cf 0 s
  | .ifS c tb ei el, d => by
    have z : cf.sp d = cf.sp 0 := by simp [PrintConf.sp, h]
    rw [item_if, item_if, flushB h tb (d + 1), flushB h tb 1, flushE h ei d]
    cases el with
    | nil => simp only [z]
    | cons s l => simp only [z]; rw [flushB h (s :: l) (d + 1), flushB h (s :: l) 1]
  | .loop f t i w b, d => by
    have z : cf.sp d = cf.sp 0 := by simp [PrintConf.sp, h]
    conv => lhs; unfold printItem
    conv => rhs; unfold printItem
    rw [flushB h b (d + 1), flushB h b 1, z]
  | .tryS b c, d => by
    have z : cf.sp d = cf.sp 0 := by simp [PrintConf.sp, h]
    rw [item_try, item_try, flushB h b (d + 1), flushB h b 1, flushB h c (d + 1), flushB h c 1, z]
  | .nil, d => by simp [printItem, PrintConf.sp, h]
  | .num _, d => by simp [printItem, PrintConf.sp, h]
  | .str _, d => by simp [printItem, PrintConf.sp, h]
  | .bool _, d => by simp [printItem, PrintConf.sp, h]
  | .date _, d => by simp [printItem, PrintConf.sp, h]
  | .undef, d => by simp [printItem, PrintConf.sp, h]
  | .var .., d => by simp [printItem, PrintConf.sp, h]
  | .chain .., d => by simp [printItem, PrintConf.sp, h]
  | .method .., d => by simp [printItem, PrintConf.sp, h]
  | .item .., d => by simp [printItem, PrintConf.sp, h]
  | .ternary .., d => by simp [printItem, PrintConf.sp, h]
  | .new .., d => by simp [printItem, PrintConf.sp, h]
  | .assign .., d => by simp [printItem, PrintConf.sp, h]
  | .bin .., d => by simp [printItem, PrintConf.sp, h]
  | .exprs .., d => by simp [printItem, PrintConf.sp, h]
  | .throw _, d => by simp [printItem, PrintConf.sp, h]
  | .ret _, d => by simp [printItem, PrintConf.sp, h]
  | .brk, d => by simp [printItem, PrintConf.sp, h]
  | .cont, d => by simp [printItem, PrintConf.sp, h]
  | .goto _, d => by simp [printItem, PrintConf.sp, h]
  | .label _, d => by simp [printItem, PrintConf.sp, h]
theorem flushB {cf : PrintConf} (h : cf.margin = 0) : (l : List Stm) → (d : Nat) → printBody cf d l = printBody cf 0 l
  | [], d => by simp [printBody]
  | s :: l, d => by
    rw [printBody, printBody, flush h s d, flushB h l d]
theorem flushE {cf : PrintConf} (h : cf.margin = 0) : (l : List Stm) → (d : Nat) → printElifs cf d l = printElifs cf 0 l
  | [], d => by simp [printElifs]
  | s :: l, d => by
    cases s
    case ifS c t x y =>
      have z : cf.sp d = cf.sp 0 := by simp [PrintConf.sp, h]
      rw [elifs_cons, elifs_cons, flushB h t (d + 1), flushB h t 1, flushE h l d, z]
    all_goals (simp only [printElifs]; exact flushE h l d)
end

theorem mem_body {cf : PrintConf} {d : Nat} {s : Stm} : {l : List Stm} → s ∈ l → printItem cf d s <:+: printBody cf d l
  | x :: l, h => by
    rw [printBody]
    rcases List.mem_cons.1 h with rfl | h
    · rw [List.append_assoc]; exact infix_mid (List.infix_refl _)
    · exact (mem_body h).trans (List.suffix_append _ _).isInfix

theorem mem_elifText {cf : PrintConf} {d : Nat} {c : Stm} {t x y : List Stm} : {l : List Stm} → .ifS c t x y ∈ l →
    printBody cf (d + 1) t <:+: printElifs cf d l
  | z :: l, h => by
    rcases List.mem_cons.1 h with rfl | h
    · rw [elifs_cons, List.append_assoc]
      exact infix_mid (List.infix_refl _)
    · have ih := mem_elifText (cf := cf) (d := d) h
      cases z
      case ifS c' t' x' y' =>
        rw [elifs_cons]
        exact ih.trans (List.suffix_append _ _).isInfix
      all_goals (simp only [printElifs]; exact ih)

theorem block_item {cf : PrintConf} {s : Stm} {k : Nat} {l : List Stm} (h : InBlock s k l) :
    ∀ d, ∃ x ∈ l, printItem cf (d + k) s <:+: printItem cf d x := by
  induction h with
  | here h => intro d; exact ⟨_, h, List.infix_refl _⟩
  | then_ h _ ih =>
    intro d
    refine ⟨_, h, ?_⟩
    obtain ⟨y, hy, this⟩ := ih (d + 1)
    rw [Nat.add_assoc, Nat.add_comm 1] at this
    replace this := this.trans (mem_body hy)
    rw [item_if]
    simp only [List.append_assoc]
    simp only [← List.append_assoc (cf.sp d), ← List.append_assoc (cf.sp d ++ _), ← List.append_assoc (cf.sp d ++ _ ++ _)]
    exact infix_mid this
  | @elif k l c t ei el c' t' x y h h' _ ih =>
    intro d
    refine ⟨_, h, ?_⟩
    obtain ⟨y, hy, this⟩ := ih (d + 1)
    rw [Nat.add_assoc, Nat.add_comm 1] at this
    replace this := this.trans (mem_body hy)
    rw [item_if]
    refine (this.trans (mem_elifText (cf := cf) (d := d) h')).trans ?_
    generalize printElifs cf d ei = e
    refine ⟨cf.sp d ++ "Если ".toList ++ prE c ++ " Тогда ".toList ++ printBody cf (d + 1) t, (match el with
        | [] => []
        | els => cf.sp d ++ "Иначе ".toList ++ printBody cf (d + 1) els) ++ (cf.sp d ++ ("КонецЕсли".toList ++ ([';'] ++ cf.nl 1))), ?_⟩
    simp only [List.append_assoc]
    cases el <;> rfl
  | @else_ k l c t ei el h hi ih =>
    intro d
    refine ⟨_, h, ?_⟩
    obtain ⟨y, hy, this⟩ := ih (d + 1)
    rw [Nat.add_assoc, Nat.add_comm 1] at this
    replace this := this.trans (mem_body hy)
    rw [item_if]
    refine this.trans ?_
    cases el with
    | nil => cases hi with
      | here h => cases h
      | then_ h => cases h
      | elif h => cases h
      | else_ h => cases h
      | loop h => cases h
      | tryB h => cases h
      | handler h => cases h
    | cons a r =>
      refine ⟨cf.sp d ++ "Если ".toList ++ prE c ++ " Тогда ".toList ++ printBody cf (d + 1) t ++ printElifs cf d ei ++ cf.sp d ++
        "Иначе ".toList, cf.sp d ++ ("КонецЕсли".toList ++ ([';'] ++ cf.nl 1)), ?_⟩
      simp only [List.append_assoc]
  | @loop k l f z i w b h _ ih =>
    intro d
    refine ⟨_, h, ?_⟩
    obtain ⟨y, hy, this⟩ := ih (d + 1)
    rw [Nat.add_assoc, Nat.add_comm 1] at this
    replace this := this.trans (mem_body hy)
    refine this.trans ?_
    conv => rhs; unfold printItem
    rw [List.append_assoc, List.append_assoc, List.append_assoc, List.append_assoc]
    exact infix_mid (List.infix_refl _)
  | @tryB k l b c h _ ih =>
    intro d
    refine ⟨_, h, ?_⟩
    obtain ⟨y, hy, this⟩ := ih (d + 1)
    rw [Nat.add_assoc, Nat.add_comm 1] at this
    replace this := this.trans (mem_body hy)
    refine this.trans ?_
    rw [item_try]
    generalize printBody cf (d + 1) b = e
    refine ⟨cf.sp d ++ "Попытка".toList, cf.sp d ++ ("Исключение".toList ++ (printBody cf (d + 1) c ++ (cf.sp d ++
      ("КонецПопытки".toList ++ ([';'] ++ cf.nl 1))))), ?_⟩
    simp only [List.append_assoc]
  | @handler k l b c h _ ih =>
    intro d
    refine ⟨_, h, ?_⟩
    obtain ⟨y, hy, this⟩ := ih (d + 1)
    rw [Nat.add_assoc, Nat.add_comm 1] at this
    replace this := this.trans (mem_body hy)
    refine this.trans ?_
    rw [item_try]
    generalize printBody cf (d + 1) c = e
    refine ⟨cf.sp d ++ "Попытка".toList ++ printBody cf (d + 1) b ++ cf.sp d ++ "Исключение".toList, cf.sp d ++
      ("КонецПопытки".toList ++ ([';'] ++ cf.nl 1)), ?_⟩
    simp only [List.append_assoc]

theorem items_func {cf : PrintConf} {f : FuncDecl} : {l : List Item} → .func f ∈ l → printFunc cf f <:+: printItems cf l
  | i :: l, h => by
    rcases List.mem_cons.1 h with rfl | h
    · rw [printItems, List.append_assoc]; exact (List.prefix_append _ _).isInfix
    · refine (items_func h).trans ?_
      cases i with
      | func g => rw [printItems]; exact (List.suffix_append _ _).isInfix
      | stm s => rw [printItems]; exact (List.suffix_append _ _).isInfix

theorem items_stm {cf : PrintConf} {s : Stm} : {l : List Item} → .stm s ∈ l → printItem cf 0 s <:+: printItems cf l
  | i :: l, h => by
    rcases List.mem_cons.1 h with rfl | h
    · rw [printItems, List.append_assoc]; exact infix_mid (List.infix_refl _)
    · refine (items_stm h).trans ?_
      cases i with
      | func g => rw [printItems]; exact (List.suffix_append _ _).isInfix
      | stm s => rw [printItems]; exact (List.suffix_append _ _).isInfix

theorem module_text {cf : PrintConf} {M : Module} {s : Stm} {d : Nat} (h : StatementOf M s d) (hd : cf.margin = 0 ∨ d = 0) (gs : List GVar) :
    printItem cf 0 s <:+: printModule cf gs M := by
  have hb : M.body ≠ [] := by
    intro hb
    cases h with
    | code h => rw [hb] at h; cases h
    | func h => rw [hb] at h; cases h
  unfold printModule
  rw [if_neg hb]
  refine .trans ?_ (List.suffix_append _ _).isInfix
  cases h with
  | @code k x hx h =>
    obtain ⟨y, hy, this⟩ := block_item (cf := cf) h 0
    rw [List.mem_singleton.1 hy, Nat.zero_add] at this
    have e : printItem cf d s = printItem cf 0 s := by
      rcases hd with hd | rfl
      · exact flush hd s d
      · rfl
    rw [← e]
    exact this.trans (items_stm hx)
  | @func k f hx h =>
    obtain ⟨y, hy, this⟩ := block_item (cf := cf) h 1
    rw [flush (hd.resolve_right (by omega))] at this
    refine (this.trans (mem_body hy)).trans (.trans ?_ (items_func hx))
    rw [Lines.func_eq, ← List.append_assoc, ← List.append_assoc]
    exact infix_mid (List.infix_refl _)

/-! ## Reading a single statement -/

mutual
theorem alone_loops {h : Bool} : (s : Stm) → alone false h s → inLoops s
  | .ifS c t ei el, g => by
    simp only [alone] at g
    simp only [inLoops]
    exact ⟨alone_loopsL t g.1, alone_loopsL ei g.2.1, alone_loopsL el g.2.2⟩
  | .tryS l l', g => by
    simp only [alone] at g
    simp only [inLoops]
    exact ⟨alone_loopsL l g.1, alone_loopsL l' g.2⟩
  | .brk, g => by simp [alone] at g
  | .cont, g => by simp [alone] at g
  | .loop _ _ _ _ _, g | .num _, g | .str _, g | .bool _, g | .date _, g | .undef, g | .var _ _ _, g | .method _ _ _, g | .item _ _, g
  | .ternary _ _ _, g | .new _ _, g | .exprs _ _, g | .chain _ _ _ _, g | .bin _ _ _ _ _, g | .assign _ _, g
  | .nil, g | .throw _, g | .ret _, g | .label _, g | .goto _, g => by simp only [inLoops]
theorem alone_loopsL {h : Bool} : (l : List Stm) → aloneL false h l → inLoopsL l
  | [], _ => by simp only [inLoopsL]
  | s :: l, g => by
    simp only [aloneL] at g
    simp only [inLoopsL]
    exact ⟨alone_loops s g.1, alone_loopsL l g.2⟩
end

mutual
theorem alone_th {b h : Bool} {n : Nat} (hh : h = true → 0 < n) : (s : Stm) → alone b h s → th n s
  | .ifS c t ei el, g => by
    unfold alone at g
    unfold th
    exact ⟨alone_thL hh t g.1, alone_thL hh ei g.2.1, alone_thL hh el g.2.2⟩
  | .loop f z i w l, g => by
    unfold alone at g
    unfold th
    exact alone_thL hh l g
  | .tryS l l', g => by
    unfold alone at g
    unfold th
    exact ⟨alone_thL hh l g.1, alone_thL (fun _ => Nat.succ_pos n) l' g.2⟩
  | .throw p, g => by
    unfold alone at g
    by_cases hp : p = .nil
    · subst hp; unfold th; exact hh (g rfl)
    · exact (th_throw hp).2 trivial
  | .brk, _ => by unfold th; trivial
  | .cont, _ => by unfold th; trivial
  | .nil, _ => by unfold th; trivial
  | .num _, _ => by unfold th; trivial
  | .str _, _ => by unfold th; trivial
  | .bool _, _ => by unfold th; trivial
  | .date _, _ => by unfold th; trivial
  | .undef, _ => by unfold th; trivial
  | .var .., _ => by unfold th; trivial
  | .chain .., _ => by unfold th; trivial
  | .method .., _ => by unfold th; trivial
  | .item .., _ => by unfold th; trivial
  | .ternary .., _ => by unfold th; trivial
  | .new .., _ => by unfold th; trivial
  | .assign .., _ => by unfold th; trivial
  | .bin .., _ => by unfold th; trivial
  | .exprs .., _ => by unfold th; trivial
  | .ret _, _ => by unfold th; trivial
  | .goto _, _ => by unfold th; trivial
  | .label _, _ => by unfold th; trivial
theorem alone_thL {b h : Bool} {n : Nat} (hh : h = true → 0 < n) : (l : List Stm) → aloneL b h l → thL n l
  | [], _ => by unfold thL; trivial
  | s :: l, g => by
    unfold aloneL at g
    unfold thL
    exact ⟨alone_th hh s g.1, alone_thL hh l g.2⟩
end

mutual
theorem alone_rt {b h f : Bool} : (s : Stm) → alone b h s → rt f s
  | .ifS c t ei el, g => by
    unfold alone at g
    unfold rt
    exact ⟨alone_rtL t g.1, alone_rtL ei g.2.1, alone_rtL el g.2.2⟩
  | .loop _ z i w l, g => by
    unfold alone at g
    unfold rt
    exact alone_rtL l g
  | .tryS l l', g => by
    unfold alone at g
    unfold rt
    exact ⟨alone_rtL l g.1, alone_rtL l' g.2⟩
  | .ret p, g => by
    unfold alone at g
    subst g
    unfold rt
    trivial
  | .throw _, _ => by unfold rt; trivial
  | .brk, _ => by unfold rt; trivial
  | .cont, _ => by unfold rt; trivial
  | .nil, _ => by unfold rt; trivial
  | .num _, _ => by unfold rt; trivial
  | .str _, _ => by unfold rt; trivial
  | .bool _, _ => by unfold rt; trivial
  | .date _, _ => by unfold rt; trivial
  | .undef, _ => by unfold rt; trivial
  | .var .., _ => by unfold rt; trivial
  | .chain .., _ => by unfold rt; trivial
  | .method .., _ => by unfold rt; trivial
  | .item .., _ => by unfold rt; trivial
  | .ternary .., _ => by unfold rt; trivial
  | .new .., _ => by unfold rt; trivial
  | .assign .., _ => by unfold rt; trivial
  | .bin .., _ => by unfold rt; trivial
  | .exprs .., _ => by unfold rt; trivial
  | .goto _, _ => by unfold rt; trivial
  | .label _, _ => by unfold rt; trivial
theorem alone_rtL {b h f : Bool} : (l : List Stm) → aloneL b h l → rtL f l
  | [], _ => by unfold rtL; trivial
  | s :: l, g => by
    unfold aloneL at g
    unfold rtL
    exact ⟨alone_rt s g.1, alone_rtL l g.2⟩
end

variable [Letters]

theorem sane_if {c : Stm} {t ei el : List Stm} (h : SaneS (.ifS c t ei el)) :
    (∀ s ∈ t, SaneS s) ∧ (∀ s ∈ ei, SaneElif s) ∧ ∀ s ∈ el, SaneS s := by
  cases h with
  | expr h => cases h
  | ifS _ h1 h2 h3 => exact ⟨h1, h2, h3⟩

theorem sane_loop {f z i w : Stm} {b : List Stm} (h : SaneS (.loop f z i w b)) : ∀ s ∈ b, SaneS s := by
  cases h with
  | expr h => cases h
  | forEach _ _ h => exact h
  | forTo _ _ h => exact h
  | whileS _ h => exact h

theorem sane_try {b h' : List Stm} (h : SaneS (.tryS b h')) : (∀ s ∈ b, SaneS s) ∧ ∀ s ∈ h', SaneS s := by
  cases h with
  | expr h => cases h
  | tryS h1 h2 => exact ⟨h1, h2⟩

theorem sane_in {s : Stm} {k : Nat} {l : List Stm} (h : InBlock s k l) : (∀ x ∈ l, SaneS x) → SaneS s := by
  induction h with
  | here h => exact fun g => g _ h
  | then_ h _ ih => exact fun g => ih (sane_if (g _ h)).1
  | elif h h' _ ih =>
    intro g
    refine ih ?_
    have := (sane_if (g _ h)).2.1 _ h'
    cases this with
    | mk _ h => exact h
  | else_ h _ ih => exact fun g => ih (sane_if (g _ h)).2.2
  | loop h _ ih => exact fun g => ih (sane_loop (g _ h))
  | tryB h _ ih => exact fun g => ih (sane_try (g _ h)).1
  | handler h _ ih => exact fun g => ih (sane_try (g _ h)).2

theorem sane_of {P : Program} (h : SaneM P.globals (P.funcs.map FuncD.tree) P.body.tree) {s : Stm} {d : Nat} (hs : StatementOf P.tree s d) :
    SaneS s := by
  cases hs with
  | @code k x hx hi =>
    refine sane_in hi fun y hy => ?_
    rw [List.mem_singleton.1 hy]
    rw [tree_body] at hx
    rcases List.mem_append.1 hx with hx | hx
    · obtain ⟨_, _, e⟩ := List.mem_map.1 hx; cases e
    · obtain ⟨z, hz, e⟩ := List.mem_map.1 hx; cases e; exact h.body _ hz
  | @func k f hx hi =>
    refine sane_in hi ?_
    rw [tree_body] at hx
    rcases List.mem_append.1 hx with hx | hx
    · obtain ⟨z, hz, e⟩ := List.mem_map.1 hx; cases e
      exact (h.funcs _ hz).body
    · obtain ⟨_, _, e⟩ := List.mem_map.1 hx; cases e

theorem sane_nil {s : Stm} (h : SaneS s) : s ≠ .nil := by
  rintro rfl
  cases h with
  | expr h => cases h

/-- The program of one statement. -/
theorem one_ok {s : Stm} {x : Stmt} {p : Sep} (h : ReS true s x p) (ha : alone false false s) :
    ProgOk (progOf [] [] (.body (.sep (.body (.one x)) p .none))) := by
  have hb : ReB true [s] (.body (.sep (.body (.one x)) p .none)) := .body (.one h)
  have ha : aloneL false false [s] := ⟨ha, trivial⟩
  have hblocks : (progOf [] [] (.body (.sep (.body (.one x)) p .none))).blocks = [.body (.sep (.body (.one x)) p .none)] := by
    rw [Program.blocks, funcs_progOf]
    rfl
  constructor
  · refine ⟨?_, hb.clean.1⟩
    rw [funcs_progOf]
    intro d hd; cases hd
  · unfold Program.breaksOk
    rw [hblocks]
    simp only [blocksBreaksOk, hb.same.b]
    exact ⟨tbL_loops _ 0 (.inl ((inLoopsL_turn _).2 (alone_loopsL _ ha))), trivial⟩
  · unfold Program.throwsOk
    rw [hblocks]
    intro y hy
    rw [List.mem_singleton.1 hy, hb.same.t]
    exact (thL_turn _ _).2 (alone_thL (h := false) nofun _ ha)
  · unfold Program.returnsOk
    rw [funcs_progOf]
    refine ⟨(by intro d hd; cases hd), ?_⟩
    show Block.returnsOk false (.body (.sep (.body (.one x)) p .none))
    rw [hb.same.r]
    exact (rtL_turn _ _).2 (alone_rtL _ ha)
  · unfold Program.colonsOk
    rw [hblocks]
    intro y hy
    rw [List.mem_singleton.1 hy]
    exact hb.clean.2
  · unfold Program.distinct
    rw [globals_progOf, funcs_progOf]
    exact ⟨List.nodup_nil, by intro d hd; cases hd⟩
  · exact ⟨[], [], by simp [progOf]⟩

theorem one_turned {s : Stm} (hs : SaneS s) (hp : plainS s) (hst : steadyS s) (ha : alone false false s) {cf : PrintConf} (ht : tryOk cf s) :
    ∃ s', Accepts (printItem cf 0 s) ⟨[], [.stm s']⟩ ∧ (∀ cf' d, printItem cf' d s' = printItem cf' d (turn s)) ∧
      (bare s' = bare (turn s) ↔ showsS s) := by
  obtain ⟨x, p, h⟩ := hs.re (g := true) hp fun _ => hst
  have hw : Written false (printItem cf 0 s) (progOf [] [] (.body (.sep (.body (.one x)) p .none))).toks := by
    have := (h.sp 0 ht) [] [] trivial (.done (.layout .nil))
    simpa [progOf, Program.toks, Block.toks, Body.toks, OptStmt.toks] using this
  obtain ⟨t, h1, h2⟩ := sep_mem p
  have hm : word t ∈ (progOf [] [] (.body (.sep (.body (.one x)) p .none))).toks := by
    simp [progOf, Program.toks, Block.toks, Body.toks, h2]
  have hg : (progOf [] [] (.body (.sep (.body (.one x)) p .none))).grouped := by
    refine ⟨?_, (ReB.body (.one h)).grouped⟩
    rw [funcs_progOf]
    intro d hd; cases hd
  have := accepts_of (written_mark hw h1 hm) ⟨written_keys hw, hg⟩ (one_ok h ha)
  have e : (progOf [] [] (.body (.sep (.body (.one x)) p .none))).tree = ⟨[], [.stm x.tree]⟩ := by
    simp [progOf, Program.tree, Program.funcs, Program.globals, Block.tree, Body.tree, OptStmt.tree]
  rw [e] at this
  refine ⟨x.tree, this, fun cf' d => h.again cf' d, fun hb => ?_, fun hsh => h.bare hsh⟩
  have := congrArg signs hb
  rw [signs_bare, signs_bare, signs_turn] at this
  exact h.signs.2 this

theorem one_reads {s : Stm} (hs : SaneS s) (hp : plainS s) (hst : stableS s) (ha : alone false false s) {cf : PrintConf} (ht : tryOk cf s) :
    ∃ s', Accepts (printItem cf 0 s) ⟨[], [.stm s']⟩ ∧ (∀ cf' d, printItem cf' d s' = printItem cf' d s) ∧ (bare s' = bare s ↔ showsS s) := by
  obtain ⟨hst, hturn⟩ := stable_steady s hst
  have := one_turned hs hp hst ha ht
  rwa [hturn] at this

end Verif.Snippet
