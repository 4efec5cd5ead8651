import Verif.Print
import Verif.Spec.Print
/-! Signs and declarations in printed text. -/
namespace Verif
open Spec

theorem infix_append_left {α : Type} {a b : List α} (c : List α) (h : a <:+: b) : a <:+: c ++ b := h.trans (List.suffix_append c b).isInfix
theorem infix_append_right {α : Type} {a b : List α} (c : List α) (h : a <:+: b) : a <:+: b ++ c := h.trans (List.prefix_append b c).isInfix

theorem prList_eq (l : List Stm) : prList l = l.map (pr .var) := by
  induction l with
  | nil => rfl
  | cons s l ih => rw [prList, ih]; rfl

theorem prCat_mem {l : List Stm} {s : Stm} (h : s ∈ l) (n : Nat) : pr (.expr n) s <:+: prCat n l := by
  induction l with
  | nil => cases h
  | cons a l ih =>
    rw [prCat]
    rcases List.mem_cons.1 h with rfl | h
    · exact (List.prefix_append _ _).isInfix
    · exact infix_append_left _ (ih h)

theorem join_mem {sep : List Char} : ∀ {l : List (List Char)} {s : List Char}, s ∈ l → s <:+: join sep l
  | [], _, h => by cases h
  | [a], s, h => by rw [List.mem_singleton.1 h]; exact List.infix_rfl
  | a :: b :: l, s, h => by
    rw [join]
    · rcases List.mem_cons.1 h with rfl | h
      · rw [List.append_assoc]; exact (List.prefix_append _ _).isInfix
      · exact infix_append_left _ (join_mem h)
    · simp

theorem args_mem {l : List Stm} {s : Stm} (h : s ∈ l) : pr .var s <:+: join [',', ' '] (prList l) := by
  apply join_mem
  rw [prList_eq]
  exact List.mem_map_of_mem h

/-- Modes in which the signs of `s` are printed. -/
inductive Keeps : PMode → Stm → Prop
  | expr (n : Nat) (s : Stm) : Keeps (.expr n) s
  | var {s : Stm} : ¬ IsVar s → Keeps .var s
  | chain {s : Stm} : Callee s → Keeps .chain s

macro "infx" : tactic => `(tactic| (
  try simp only [List.append_assoc]
  repeat first
    | assumption
    | exact List.infix_rfl
    | exact List.nil_infix
    | exact (List.prefix_append _ _).isInfix
    | exact infix_append_right _ (by assumption)
    | apply infix_append_left))

theorem pr_chain {m : PMode} {a c : Stm} {u n : Bool} (hc : c ≠ .nil) :
    pr m (.chain a c u n) = onFlag (n && !m.isChain) "Не ".toList ++ (pr .chain c ++ ['.'] ++ pr .var a) := by
  rw [pr]; exact hc

theorem signs_self {m : PMode} {s : Stm} (hk : Keeps m s) : signed s <:+: pr m s := by
  cases s with
  | var x u n =>
    cases hk with
    | expr k _ =>
      simp only [signed, pr, signs, onFlag, PMode.isExpr, Bool.true_and]
      exact List.infix_rfl
    | var h => exact absurd ⟨_, _, _, rfl⟩ h
    | chain h => cases h
  | bin op l r u n =>
    have hc : m.isChain = false := by
      cases hk with
      | expr | var => rfl
      | chain h => cases h
    rw [signed, pr, hc]
    cases u <;> cases n <;> simp [signs, onFlag, List.nil_infix] <;> infx
  | exprs l n =>
    have hc : m.isChain = false := by
      cases hk with
      | expr | var => rfl
      | chain h => cases h
    rw [signed, pr, hc]
    cases n
    · exact List.nil_infix
    · simp [signs, onFlag]
      exact List.prefix_append (['Н', 'е', ' ', '(']) _ |>.isInfix
  | method f ps n =>
    rw [signed, pr]
    simp only [signs, onFlag, List.append_nil, Bool.false_eq_true, if_false]
    exact ⟨[], join [',', ' '] (prList ps) ++ [')'], by simp only [List.nil_append, List.append_assoc]⟩
  | chain a c u n =>
    have hc : (n && !m.isChain) = n := by
      cases hk with
      | expr | var => cases n <;> rfl
      | chain h => cases h; rfl
    by_cases h : c = .nil
    · subst h
      rw [signed, pr, hc]
      simp only [signs, onFlag, List.append_nil, Bool.false_eq_true, if_false]
      exact List.infix_rfl
    · rw [signed, pr_chain h, hc]
      simp only [signs, onFlag, List.append_nil, Bool.false_eq_true, if_false]
      exact (List.prefix_append _ _).isInfix
  | num x =>
    have hc : m.isChain = false := by
      cases hk with
      | expr | var => rfl
      | chain h => cases h
    rw [signed, pr, hc]
    simp only [onFlag, F64.fmt0]
    exact (List.prefix_append _ _).isInfix
  | _ => exact List.nil_infix

theorem signs_in {s t : Stm} (h : InExpr s t) : ∀ {m : PMode}, Keeps m s → signed t <:+: pr m s := by
  induction h with
  | self s => exact fun hk => signs_self hk
  | @left op l r u n t _ ih =>
    intro m hk
    have hc : m.isChain = false := by
      cases hk with
      | expr | var => rfl
      | chain h => cases h
    have := ih (.expr (m.level + 1) l)
    rw [pr, hc]
    simp only [onFlag, Bool.not_false, if_true]
    infx
  | @right op l r u n t _ ih =>
    intro m hk
    have hc : m.isChain = false := by
      cases hk with
      | expr | var => rfl
      | chain h => cases h
    have := ih (.expr (m.level + 1) r)
    rw [pr, hc]
    simp only [onFlag, Bool.not_false, if_true]
    infx
  | @elem l n s t hm _ ih =>
    intro m hk
    have hc : m.isChain = false := by
      cases hk with
      | expr | var => rfl
      | chain h => cases h
    have := (ih (.expr (if m.level = 0 then 0 else m.level + 1) s)).trans (prCat_mem hm _)
    rw [pr, hc]
    simp only [onFlag, Bool.not_false, if_true]
    infx
  | cond _ ih =>
    intro m hk
    have hc : m.isChain = false := by
      cases hk with
      | expr | var => rfl
      | chain h => cases h
    have := ih (.expr 0 _)
    rw [pr, hc]
    simp only [onFlag, Bool.not_false, if_true]
    infx
  | yes _ ih =>
    intro m hk
    have hc : m.isChain = false := by
      cases hk with
      | expr | var => rfl
      | chain h => cases h
    have := ih (.expr 0 _)
    rw [pr, hc]
    simp only [onFlag, Bool.not_false, if_true]
    infx
  | no _ ih =>
    intro m hk
    have hc : m.isChain = false := by
      cases hk with
      | expr | var => rfl
      | chain h => cases h
    have := ih (.expr 0 _)
    rw [pr, hc]
    simp only [onFlag, Bool.not_false, if_true]
    infx
  | index _ ih =>
    intro m hk
    have := ih (.expr 0 _)
    rw [pr]
    infx
  | object hv _ ih =>
    intro m hk
    have := ih (.var hv)
    rw [pr]
    infx
  | @arg f ps n s t hm hv _ ih =>
    intro m hk
    have := (ih (.var hv)).trans (args_mem hm)
    rw [pr]
    infx
  | @newArg f ps s t hm hv _ ih =>
    intro m hk
    have hc : m.isChain = false := by
      cases hk with
      | expr | var => rfl
      | chain h => cases h
    have := (ih (.var hv)).trans (args_mem hm)
    rw [pr, hc]
    simp only [onFlag, Bool.not_false, if_true]
    infx
  | @member a c u n t hn hv _ ih =>
    intro m hk
    have := ih (.var hv)
    rw [pr_chain hn]
    infx
  | @callee a c u n t hc _ ih =>
    intro m hk
    have := ih (.chain hc)
    rw [pr_chain (by rintro rfl; cases hc)]
    infx
  | @value v l s t hm _ ih =>
    intro m hk
    have hc : m.isChain = false := by
      cases hk with
      | expr | var => rfl
      | chain h => cases h
    have := (ih (.expr 0 s)).trans (prCat_mem hm 0)
    rw [pr, hc]
    simp only [onFlag, Bool.not_false, if_true]
    infx

theorem body_mem {l : List Stm} {s : Stm} (h : s ∈ l) (cf : PrintConf) (d : Nat) : printItem cf d s <:+: printBody cf d l := by
  induction l with
  | nil => cases h
  | cons a l ih =>
    rw [printBody]
    rcases List.mem_cons.1 h with rfl | h
    · exact infix_append_right _ (infix_append_left _ List.infix_rfl)
    · exact infix_append_left _ (ih h)

theorem elif_mem {l : List Stm} {c : Stm} {tb : List Stm} (h : .ifS c tb [] [] ∈ l) (cf : PrintConf) (d : Nat) :
    prE c <:+: printElifs cf d l ∧ printBody cf (d + 1) tb <:+: printElifs cf d l := by
  induction l with
  | nil => cases h
  | cons a l ih =>
    rcases List.mem_cons.1 h with rfl | h
    · rw [printElifs]
      have h1 : prE c <:+: prE c := List.infix_rfl
      have h2 : printBody cf (d + 1) tb <:+: printBody cf (d + 1) tb := List.infix_rfl
      constructor
      · infx
      · infx
    · obtain ⟨h1, h2⟩ := ih h
      have : ∃ p, printElifs cf d (a :: l) = p ++ printElifs cf d l := by
        cases a <;> (simp only [printElifs]; first | exact ⟨_, rfl⟩ | exact ⟨[], rfl⟩)
      obtain ⟨p, hp⟩ := this
      rw [hp]
      exact ⟨infix_append_left _ h1, infix_append_left _ h2⟩

def hdWhile (w : Stm) : List Char := match w with
  | .nil => "Для ".toList
  | w => "Пока ".toList ++ prE w ++ " Цикл ".toList
def hdIn (f i : Stm) : List Char := match i with
  | .nil => []
  | i => "Каждого ".toList ++ forName f ++ " Из ".toList ++ prE i ++ " Цикл ".toList
def hdTo (f k : Stm) : List Char := match k with
  | .nil => []
  | k => prE f ++ " По ".toList ++ prE k ++ " Цикл ".toList
def hdRet (p : Stm) : List Char := match p with
  | .nil => []
  | p => [' '] ++ prE p

def hdElse (cf : PrintConf) (d : Nat) (els : List Stm) : List Char := match els with
  | [] => []
  | els => cf.sp d ++ "Иначе ".toList ++ printBody cf (d + 1) els
def hdBlock (cf : PrintConf) (d : Nat) (b : List Stm) : List Char := match b with
  | [] => cf.nl 1
  | b => printBody cf (d + 1) b

theorem printItem_if (cf : PrintConf) (d : Nat) (c : Stm) (tb ei el : List Stm) : printItem cf d (.ifS c tb ei el) =
    cf.sp d ++ "Если ".toList ++ prE c ++ " Тогда ".toList ++ printBody cf (d + 1) tb ++ printElifs cf d ei ++ hdElse cf d el ++
      cf.sp d ++ "КонецЕсли".toList ++ [';'] ++ cf.nl 1 := by
  unfold printItem; rfl
theorem printItem_try (cf : PrintConf) (d : Nat) (b h : List Stm) : printItem cf d (.tryS b h) =
    cf.sp d ++ "Попытка".toList ++ hdBlock cf d b ++ cf.sp d ++ "Исключение".toList ++ hdBlock cf d h ++
      cf.sp d ++ "КонецПопытки".toList ++ [';'] ++ cf.nl 1 := by
  unfold printItem; rfl
theorem hdElse_ne {cf : PrintConf} {d : Nat} {l : List Stm} (h : l ≠ []) :
    hdElse cf d l = cf.sp d ++ "Иначе ".toList ++ printBody cf (d + 1) l := by rw [hdElse]; exact h
theorem hdBlock_eq (cf : PrintConf) (d : Nat) (l : List Stm) : hdBlock cf d l = printBody cf (d + 1) l := by
  cases l with
  | nil => rw [hdBlock, printBody]
  | cons a l => rw [hdBlock]; simp
theorem printItem_loop (cf : PrintConf) (d : Nat) (f k i w : Stm) (b : List Stm) : printItem cf d (.loop f k i w b) =
    cf.sp d ++ hdWhile w ++ hdIn f i ++ hdTo f k ++ printBody cf (d + 1) b ++ cf.sp d ++ "КонецЦикла".toList ++ [';'] ++ cf.nl 1 := by
  unfold printItem; rfl
theorem printItem_ret (cf : PrintConf) (d : Nat) (p : Stm) : printItem cf d (.ret p) =
    cf.sp d ++ "Возврат".toList ++ hdRet p ++ [';'] := by
  unfold printItem; rfl
theorem hdWhile_ne {w : Stm} (h : w ≠ .nil) : hdWhile w = "Пока ".toList ++ prE w ++ " Цикл ".toList := by rw [hdWhile]; exact h
theorem hdIn_ne {f i : Stm} (h : i ≠ .nil) : hdIn f i = "Каждого ".toList ++ forName f ++ " Из ".toList ++ prE i ++ " Цикл ".toList := by
  rw [hdIn]; exact h
theorem hdTo_ne {f k : Stm} (h : k ≠ .nil) : hdTo f k = prE f ++ " По ".toList ++ prE k ++ " Цикл ".toList := by rw [hdTo]; exact h
theorem hdRet_ne {p : Stm} (h : p ≠ .nil) : hdRet p = [' '] ++ prE p := by rw [hdRet]; exact h

theorem signs_stmt {s t : Stm} (h : InStmt s t) (cf : PrintConf) : ∀ d, signed t <:+: printItem cf d s := by
  induction h with
  | assign h =>
    intro d
    have := signs_in h (.var (by rintro ⟨_, _, _, h⟩; cases h))
    simp only [printItem]
    infx
  | call h =>
    intro d
    have := signs_in h (.var (by rintro ⟨_, _, _, h⟩; cases h))
    simp only [printItem]
    infx
  | cond h =>
    intro d
    have : _ <:+: prE _ := signs_in h (.expr 0 _)
    rw [printItem_if]
    infx
  | thenB hm _ ih =>
    intro d
    have := (ih (d + 1)).trans (body_mem hm cf (d + 1))
    rw [printItem_if]
    infx
  | elseB hm _ ih =>
    intro d
    have := (ih (d + 1)).trans (body_mem hm cf (d + 1))
    rw [printItem_if, hdElse_ne (by rintro rfl; cases hm)]
    infx
  | elifCond hm h =>
    intro d
    have h1 : _ <:+: prE _ := signs_in h (.expr 0 _)
    have := h1.trans (elif_mem hm cf d).1
    rw [printItem_if]
    infx
  | elifB hm hs _ ih =>
    intro d
    have := ((ih (d + 1)).trans (body_mem hs cf (d + 1))).trans (elif_mem hm cf d).2
    rw [printItem_if]
    infx
  | @whileE f k i w b t hw h =>
    intro d
    have : _ <:+: prE _ := signs_in h (.expr 0 _)
    rw [printItem_loop, hdWhile_ne hw]
    infx
  | @inE f k i w b t hw h =>
    intro d
    have : _ <:+: prE _ := signs_in h (.expr 0 _)
    rw [printItem_loop, hdIn_ne hw]
    infx
  | @fromE f k i w b t hw h =>
    intro d
    have : _ <:+: prE _ := signs_in h (.expr 0 _)
    rw [printItem_loop, hdTo_ne hw]
    infx
  | @toE f k i w b t hw h =>
    intro d
    have : _ <:+: prE _ := signs_in h (.expr 0 _)
    rw [printItem_loop, hdTo_ne hw]
    infx
  | loopB hm _ ih =>
    intro d
    have := (ih (d + 1)).trans (body_mem hm cf (d + 1))
    rw [printItem_loop]
    infx
  | tryB hm _ ih =>
    intro d
    have := (ih (d + 1)).trans (body_mem hm cf (d + 1))
    rw [printItem_try, hdBlock_eq]
    infx
  | handler hm _ ih =>
    intro d
    have := (ih (d + 1)).trans (body_mem hm cf (d + 1))
    rw [printItem_try, hdBlock_eq, hdBlock_eq]
    infx
  | @ret e t h =>
    intro d
    have : _ <:+: prE _ := signs_in h (.expr 0 _)
    by_cases he : e = .nil
    · subst he; cases h; exact List.nil_infix
    · rw [printItem_ret, hdRet_ne he]
      infx
  | throw hm hv h =>
    intro d
    have := (signs_in h (.var hv)).trans (args_mem hm)
    simp only [printItem]
    infx

theorem items_stm {l : List Item} {s : Stm} (h : .stm s ∈ l) (cf : PrintConf) : printItem cf 0 s <:+: printItems cf l := by
  induction l with
  | nil => cases h
  | cons a l ih =>
    rcases List.mem_cons.1 h with rfl | h
    · rw [printItems]
      exact infix_append_right _ (infix_append_left _ List.infix_rfl)
    · have := ih h
      cases a <;> (rw [printItems]; exact infix_append_left _ this)

theorem items_func {l : List Item} {f : FuncDecl} (h : .func f ∈ l) (cf : PrintConf) : printFunc cf f <:+: printItems cf l := by
  induction l with
  | nil => cases h
  | cons a l ih =>
    rcases List.mem_cons.1 h with rfl | h
    · rw [printItems, List.append_assoc]
      exact (List.prefix_append _ _).isInfix
    · have := ih h
      cases a <;> (rw [printItems]; exact infix_append_left _ this)

theorem items_module {cf : PrintConf} {m : Module} {s : List Char} (hb : m.body ≠ []) (h : Prints cf m s) : printItems cf m.body <:+: s := by
  obtain ⟨gs, -, rfl⟩ := h
  unfold printModule
  rw [if_neg hb]
  exact (List.suffix_append _ _).isInfix

theorem signs_module {cf : PrintConf} {m : Module} {s : List Char} {t : Stm} (h : InModule m t) (hp : Prints cf m s) : signed t <:+: s := by
  have hb : m.body ≠ [] := by
    intro e
    cases h with
    | code h _ => rw [e] at h; cases h
    | func h _ _ => rw [e] at h; cases h
  refine List.IsInfix.trans ?_ (items_module hb hp)
  cases h with
  | code h1 h2 => exact (signs_stmt h2 cf 0).trans (items_stm h1 cf)
  | func h1 h2 h3 =>
    have := ((signs_stmt h3 cf 1).trans (body_mem h2 cf 1))
    refine List.IsInfix.trans ?_ (items_func h1 cf)
    unfold printFunc
    infx

theorem declaration_eq (g : GVar) : printGlobal g = declaration g := by
  unfold printGlobal declaration onFlag
  cases g.export <;> simp

end Verif
