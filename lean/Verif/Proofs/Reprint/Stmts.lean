import Verif.Proofs.Reprint.Back
import Verif.Spec.Rules
import Verif.Spec.Reprint
import Verif.Spec.Turn
/-!
# The statements that printed text spells
-/
namespace Verif
open Spec Lexer

/-- Statements that are printed by `printVarStatement`. -/
def ExprStm : Stm → Prop
  | .num _ | .str _ | .bool _ | .date _ | .undef | .var _ _ _ | .method _ _ _ | .item _ _ | .ternary _ _ _ | .new _ _ | .exprs _ _ => True
  | _ => False

def IsExprs : Stm → Prop
  | .exprs _ _ => True
  | _ => False

variable [Letters]

inductive ReSrc (g : Bool) : Stm → Source → Prop
  | path {s p} : ReP g s p → ReSrc g s (.path p)
  | new {c ps n} : ReN g c ps n → ReSrc g (.new c ps) (.new n)
  | ternary {c t e c' t' e'} : ReE g .top c c' → ReE g .top t t' → ReE g .top e e' → ReSrc g (.ternary c t e) (.ternary c' t' e')

mutual
/-- The tree `s` is printed as the statement and the separator. -/
inductive ReS (g : Bool) : Stm → Stmt → Sep → Prop
  | assign {v s p e} : ReP g v p → ReE g .top s e → ReS g (.assign v [s]) (.assign p e) .semi
  | chain {u c m n p} : ReP g (.chain u c false false) p → ReS g (.chain u c m n) (.expr (.path p)) .semi
  | bin {op l r u n e} : ReE g .top (.bin op l r u n) e → (g = true → op ≠ .eq ∨ n = true) → ReS g (.bin op l r u n) (.expr e) .semi
  | expr {s e} : ExprStm s → ReE g .arg s e → (g = true → ¬ IsExprs s) → ReS g s (.expr e) .semi
  | ifS {c tb ei el c' t es e} : ReE g .top c c' → ReB g tb t → ReEl g ei es → ReElse g el e →
      ReS g (.ifS c tb ei el) (.ifS c' t es e) .semi
  | forEach {n i b s bl} : NameOk false n → ReSrc g i s → ReB g b bl → ReS g (.loop (.str n) .nil i .nil b) (.forEach n s bl) .semi
  | forTo {f z b f' z' bl} : ReE g .top f f' → ReE g .top z z' → ReB g b bl → ReS g (.loop f z .nil .nil b) (.forTo f' z' bl) .semi
  | whileS {c b c' bl} : ReE g .top c c' → ReB g b bl → ReS g (.loop .nil .nil .nil c b) (.while c' bl) .semi
  | tryS {b h bl hl} : ReB g b bl → ReB g h hl → ReS g (.tryS b h) (.tryS bl hl) .semi
  | cont : ReS g .cont .cont .semi
  | brk : ReS g .brk .brk .semi
  | rethrow : ReS g (.throw .nil) (.throw .none) .semi
  | throwList {l n a} : ReA g l a → ReS g (.throw (.exprs l n)) (.throw (.some (.paren a))) .semi
  | throw {s e} : ReE g .arg s e → ¬ IsExprs s → ReS g (.throw s) (.throw (.some (parenE e))) .semi
  | ret : ReS g (.ret .nil) (.ret .none) .semi
  | retValue {s e} : ReE g .top s e → ReS g (.ret s) (.ret (.some e)) .semi
  | label {n} : (∀ c ∈ n, WordPart c) → ReS g (.label n) (.expr (.simple (.label n))) .colon
  | goto {n} : (∀ c ∈ n, WordPart c) → ReS g (.goto n) (.expr (.goto n)) .semi
inductive ReEl (g : Bool) : List Stm → Elifs → Prop
  | nil : ReEl g [] .nil
  | cons {c b r c' bl es} : ReE g .top c c' → ReB g b bl → ReEl g r es → ReEl g (.ifS c b [] [] :: r) (.cons c' bl es)
inductive ReElse (g : Bool) : List Stm → Else → Prop
  | none : ReElse g [] .none
  | some {l b} : l ≠ [] → ReB g l b → ReElse g l (.some b)
inductive ReB (g : Bool) : List Stm → Block → Prop
  | empty : ReB g [] .empty
  | body {l b p} : ReBody g l b p → ReB g l (.body (.sep (.body b) p .none))
inductive ReBody (g : Bool) : List Stm → Body → Sep → Prop
  | one {s s' p} : ReS g s s' p → ReBody g [s] (.one s') p
  | snoc {l b p s s' q} : ReBody g l b p → ReS g s s' q → ReBody g (l ++ [s]) (.sep (.body b) p (.some s')) q
end

/-! ## Equations -/

section
omit [Letters]

/-- The statements of a block as printed, without the line feed at the end. -/
def bodyText (cf : PrintConf) (d : Nat) (l : List Stm) : List Char := (l.map fun s => cf.nl 1 ++ printItem cf d s).flatten

theorem printBody_eq (cf : PrintConf) (d : Nat) : ∀ l, printBody cf d l = bodyText cf d l ++ cf.nl 1
  | [] => by unfold printBody; rfl
  | s :: l => by
    unfold printBody
    rw [printBody_eq cf d l]
    simp [bodyText]

theorem bodyText_snoc (cf : PrintConf) (d : Nat) (l : List Stm) (s : Stm) :
    bodyText cf d (l ++ [s]) = bodyText cf d l ++ (cf.nl 1 ++ printItem cf d s) := by simp [bodyText]

theorem blanks_layout' : ∀ {l : List Char}, (∀ c ∈ l, Blank c) → Layout l
  | [], _ => .nil
  | c :: l, h => .blank (h c (by simp)) (blanks_layout' fun d hd => h d (by simp [hd]))

theorem sp_blank (cf : PrintConf) (d : Nat) : ∀ c ∈ cf.sp d, Blank c := by
  intro c hc
  rw [PrintConf.sp] at hc
  exact .inl (List.eq_of_mem_replicate hc)

theorem nl_blank (cf : PrintConf) (n : Nat) : ∀ c ∈ cf.nl n, Blank c := by
  intro c hc
  rw [PrintConf.nl] at hc
  split at hc
  · cases hc
  · exact .inr (.inr (.inr (List.eq_of_mem_replicate hc)))

theorem sp_layout (cf : PrintConf) (d : Nat) : Layout (cf.sp d) := blanks_layout' (sp_blank cf d)
theorem nl_layout (cf : PrintConf) (n : Nat) : Layout (cf.nl n) := blanks_layout' (nl_blank cf n)

theorem wordEnds_blank [Letters] {l r : List Char} (h : ∀ c ∈ l, Blank c) (hne : l ≠ []) : WordEnds (l ++ r) := by
  cases l with
  | nil => exact absurd rfl hne
  | cons c l =>
    rcases h c (by simp) with rfl | rfl | rfl | rfl <;> exact wordEnds_ascii (by decide) (by decide)

variable (cf : PrintConf) (d : Nat)

theorem item_if (c tb ei el) : printItem cf d (.ifS c tb ei el) = cf.sp d ++ "Если ".toList ++ prE c ++ " Тогда ".toList ++
      printBody cf (d + 1) tb ++ printElifs cf d ei ++
      (match el with
        | [] => []
        | els => cf.sp d ++ "Иначе ".toList ++ printBody cf (d + 1) els) ++
      cf.sp d ++ "КонецЕсли".toList ++ [';'] ++ cf.nl 1 := by
  cases el <;> (conv => lhs; unfold printItem)
theorem item_bin (op l r u n) : printItem cf d (.bin op l r u n) = cf.sp d ++ prE (.bin op l r u n) ++ [';'] := by unfold printItem; rfl
theorem item_each (n i b) (hi : i ≠ .nil) : printItem cf d (.loop (.str n) .nil i .nil b) = cf.sp d ++ "Для ".toList ++
      ("Каждого ".toList ++ n ++ " Из ".toList ++ prE i ++ " Цикл ".toList) ++
      printBody cf (d + 1) b ++ cf.sp d ++ "КонецЦикла".toList ++ [';'] ++ cf.nl 1 := by
  cases i <;> first | exact absurd rfl hi | (unfold printItem; simp [forName])
theorem item_to (f z b) (hz : z ≠ .nil) : printItem cf d (.loop f z .nil .nil b) = cf.sp d ++ "Для ".toList ++
      (prE f ++ " По ".toList ++ prE z ++ " Цикл ".toList) ++
      printBody cf (d + 1) b ++ cf.sp d ++ "КонецЦикла".toList ++ [';'] ++ cf.nl 1 := by
  cases z <;> first | exact absurd rfl hz | (unfold printItem; simp)
theorem item_while (c b) (hc : c ≠ .nil) : printItem cf d (.loop .nil .nil .nil c b) = cf.sp d ++
      ("Пока ".toList ++ prE c ++ " Цикл ".toList) ++
      printBody cf (d + 1) b ++ cf.sp d ++ "КонецЦикла".toList ++ [';'] ++ cf.nl 1 := by
  cases c <;> first | exact absurd rfl hc | (unfold printItem; simp)
theorem item_brk : printItem cf d .brk = cf.sp d ++ "Прервать;".toList := by unfold printItem; rfl
theorem item_cont : printItem cf d .cont = cf.sp d ++ "Продолжить;".toList := by unfold printItem; rfl
theorem item_chain (u c m n) : printItem cf d (.chain u c m n) = cf.sp d ++ pr .chain (.chain u c m n) ++ [';'] := by unfold printItem; rfl
theorem item_try (b h) : printItem cf d (.tryS b h) = cf.sp d ++ "Попытка".toList ++ printBody cf (d + 1) b ++
      cf.sp d ++ "Исключение".toList ++ printBody cf (d + 1) h ++ cf.sp d ++ "КонецПопытки".toList ++ [';'] ++ cf.nl 1 := by
  have e : printBody cf (d + 1) [] = cf.nl 1 := by unfold printBody; rfl
  cases b <;> cases h <;> (conv => lhs; unfold printItem) <;> simp only [e]
theorem item_rethrow : printItem cf d (.throw .nil) = cf.sp d ++ "ВызватьИсключение".toList ++ [';'] := by unfold printItem; simp
theorem item_throwList (l n) : printItem cf d (.throw (.exprs l n)) = cf.sp d ++ "ВызватьИсключение".toList ++
    (['('] ++ join [',', ' '] (prList l) ++ [')']) ++ [';'] := by unfold printItem; rfl
theorem item_throw (s) (h1 : s ≠ .nil) (h2 : ¬ IsExprs s) : printItem cf d (.throw s) = cf.sp d ++ "ВызватьИсключение".toList ++
    (['('] ++ pr .var s ++ [')']) ++ [';'] := by
  have e : join [',', ' '] (prList [s]) = pr .var s := by rw [prList_eq]; rfl
  rw [← e]
  cases s <;> first | exact absurd rfl h1 | exact absurd trivial h2 | (unfold printItem; rfl)
theorem item_ret : printItem cf d (.ret .nil) = cf.sp d ++ "Возврат".toList ++ [';'] := by unfold printItem; simp
theorem item_retValue (s) (h1 : s ≠ .nil) : printItem cf d (.ret s) = cf.sp d ++ "Возврат".toList ++ ([' '] ++ prE s) ++ [';'] := by
  cases s <;> first | exact absurd rfl h1 | (unfold printItem; rfl)
theorem item_label (n) : printItem cf d (.label n) = cf.sp d ++ ['~'] ++ n ++ [':'] ++ cf.nl 1 := by unfold printItem; rfl
theorem item_goto (n) : printItem cf d (.goto n) = cf.sp d ++ "Перейти ~".toList ++ n ++ [';'] ++ cf.nl 1 := by unfold printItem; rfl
theorem item_expr (s) (h : ExprStm s) : printItem cf d s = cf.sp d ++ pr .var s ++ [';'] := by
  cases s <;> first | exact absurd h id | (unfold printItem; rfl)
theorem item_assign (v l) : printItem cf d (.assign v l) = cf.sp d ++ pr .var (.assign v l) ++ [';'] := by unfold printItem; rfl
theorem elifs_nil : printElifs cf d [] = [] := by unfold printElifs; rfl
theorem elifs_cons (c b x y r) : printElifs cf d (.ifS c b x y :: r) = cf.sp d ++ "ИначеЕсли ".toList ++ prE c ++ " Тогда ".toList ++
      printBody cf (d + 1) b ++ printElifs cf d r := by conv => lhs; unfold printElifs
end

end Verif
