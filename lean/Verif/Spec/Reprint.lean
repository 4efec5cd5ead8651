import Verif.Print
import Verif.Spec.Words
import Verif.Spec.Syntax
/-!
# Specification: which trees print as text that can be read again
-/
namespace Verif.Spec

mutual
/-- `Попытка` and `Исключение` are separated from what follows: line feeds are printed, or there is a margin and no block of
the statement is empty. -/
def tryOk (cf : PrintConf) : Stm → Prop
  | .ifS _ tb ei el => tryOkL cf tb ∧ tryOkL cf ei ∧ tryOkL cf el
  | .loop _ _ _ _ b => tryOkL cf b
  | .tryS b h => (cf.oneLine = false ∨ (0 < cf.margin ∧ b ≠ [] ∧ h ≠ [])) ∧ tryOkL cf b ∧ tryOkL cf h
  | _ => True
def tryOkL (cf : PrintConf) : List Stm → Prop
  | [] => True
  | s :: l => tryOk cf s ∧ tryOkL cf l
end

/-! ## Trees whose text has the shape of a program

Not printed as code: lists in parentheses with several elements or a missing one (the elements come one after the other without
commas), labels and jumps inside expressions (nothing is printed), default values that are not literals. -/

mutual
def plainE : Stm → Prop
  | .chain u c _ _ => plainE u ∧ plainE c
  | .method _ ps _ => plainEs ps
  | .item i o => plainE i ∧ plainE o
  | .ternary c t e => plainE c ∧ plainE t ∧ plainE e
  | .new _ ps => plainEs ps
  | .exprs [s] _ => s ≠ .nil ∧ plainE s
  | .exprs _ _ => False
  | .bin _ l r _ _ => plainE l ∧ plainE r
  | .label _ => False
  | .goto _ => False
  | _ => True
def plainEs : List Stm → Prop
  | [] => True
  | s :: l => plainE s ∧ plainEs l
end

mutual
def plainS : Stm → Prop
  | .assign v l => plainE v ∧ plainEs l
  | .ifS c t ei el => plainE c ∧ plainB t ∧ plainB ei ∧ plainB el
  | .loop f z i w b => plainE f ∧ plainE z ∧ plainE i ∧ plainE w ∧ plainB b
  | .tryS b h => plainB b ∧ plainB h
  /- here the list is printed with commas -/
  | .throw (.exprs l _) => plainEs l
  | .throw s => plainE s
  | .ret s => plainE s
  | .label _ => True
  | .goto _ => True
  | s => plainE s
def plainB : List Stm → Prop
  | [] => True
  | s :: l => plainS s ∧ plainB l
end

/-- Literals. -/
def IsLit : Stm → Prop
  | .num _ | .str _ | .bool _ | .date _ | .undef => True
  | _ => False

/-- `Print` gives the code of this module. -/
def Printable (M : Module) : Prop := ∀ i ∈ M.body, match i with
  | .func f => (∀ p ∈ f.params, p.default = .nil ∨ IsLit p.default) ∧ plainB f.body
  | .stm s => plainS s

/-! ## Trees whose text reads back

The text of a tree can be the code of another program.  Excluded by `stable`: -/

/-- Where an expression is printed: as an argument, as an expression, or as operand of an operator. -/
inductive Place
  | arg | top | inner
deriving DecidableEq

/-- The place of an expression in parentheses. -/
def Place.sub : Place → Place
  | .inner => .inner
  | _ => .top

/-- A name or a parenthesis. -/
def VarLike : Stm → Prop
  | .var _ _ _ => True
  | .exprs _ _ => True
  | _ => False

/-- Printed as `Не …`. -/
def startsNot : Stm → Prop
  | .chain _ _ _ n => n = true
  | .method _ _ n => n = true
  | .var _ _ n => n = true
  | .exprs [s] n => n = true ∨ startsNot s
  | _ => False

mutual
def stableE (lv : Place) : Stm → Prop
  | .chain u c _ _ => stableE .arg u ∧ stableE .arg c
  | .method _ ps _ => stableL .arg ps
  | .item i o => stableE .top i ∧ stableE .arg o
  | .ternary c t e => stableE .top c ∧ stableE .top t ∧ stableE .top e
  | .new _ ps => stableL .arg ps
  /- `Ф((а))`, `Ф((-а))`: the inner expression changes its place -/
  | .exprs [s] n => (lv = .arg → n = false → ¬ VarLike s) ∧ stableE lv.sub s
  /- a minus in front of an operation is lost; `Не` in front of an operand; `(Не а) * б` becomes `Не а * б` -/
  | .bin op l r u n => u = false ∧ (lv = .inner → n = false) ∧ (startsNot l → level op ≤ notLevel) ∧ stableE .inner l ∧ stableE .inner r
  | _ => True
def stableL (lv : Place) : List Stm → Prop
  | [] => True
  | s :: l => stableE lv s ∧ stableL lv l
end

mutual
def stableS : Stm → Prop
  | .assign v l => stableE .arg v ∧ stableL .top l
  /- comparison as a statement: becomes an assignment -/
  | .bin op l r u n => (op = .eq → n = true) ∧ stableE .top (.bin op l r u n)
  /- two branches `ИначеЕсли` change places -/
  | .ifS c t ei el => ei.length ≤ 1 ∧ stableE .top c ∧ stableB t ∧ stableB ei ∧ stableB el
  | .loop f z i w b => stableE .top f ∧ stableE .top z ∧ stableE .top i ∧ stableE .top w ∧ stableB b
  | .tryS b h => stableB b ∧ stableB h
  | .throw (.exprs l _) => stableL .arg l
  | .throw s => stableE .arg s
  | .ret s => stableE .top s
  /- a parenthesis as a statement -/
  | .exprs _ _ => False
  | s => stableE .arg s
def stableB : List Stm → Prop
  | [] => True
  | s :: l => stableS s ∧ stableB l
end

/-- The code of this module is again a program with the same code. -/
def Stable (M : Module) : Prop := ∀ i ∈ M.body, match i with
  | .func f => stableB f.body
  | .stm s => stableS s

/-- `Попытка` and `Исключение` are separated everywhere in the module. -/
def TryOk (cf : PrintConf) (M : Module) : Prop := ∀ i ∈ M.body, match i with
  | .func f => tryOkL cf f.body
  | .stm s => tryOk cf s

end Verif.Spec
