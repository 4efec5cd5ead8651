import Verif.Print
import Verif.Spec.Text
import Verif.Spec.Reprint
import Verif.Spec.Made
import Verif.Proofs.PrintNum
/-!
# The expression that printed text spells

`ReE g lv s e`: printing the tree `s` at the place `lv` gives a text that spells the expression `e`.  With `g` the
expression `e` moreover groups as it stands and prints as the same text again.
-/
namespace Verif
open Spec

abbrev Lv := Place

/-- The mode of the printer. -/
def Spec.Place.mode : Place → PMode
  | .arg => .var
  | .top => .expr 0
  | .inner => .expr 1

/-- The number that a printed number denotes. -/
def printed (x : F64) : F64 := (F64.parseFloat (Nat.toDigits 10 x.roundInt)).getD x

/-- The expression for a printed number. -/
def numE (x : F64) : Simple := if x.neg then .neg (.simple (.num (printed x))) else .num (printed x)

/-- Signs in front. -/
def signsE (u n : Bool) (e : Expr) : Expr :=
  let e := if u then .simple (.neg e) else e
  if n then .not e else e

/-- An expression in parentheses. -/
def parenE (e : Expr) : Expr := .paren (.one (.some e))

/-- The printed text begins with `Не`. -/
def isNotE : Expr → Prop
  | .not _ => True
  | _ => False

/-- The expression for a printed binary operation on level 0. -/
def binE (op : Op) (a b : Expr) (u n : Bool) : Expr :=
  if u || n then signsE u n (parenE (.bin op a b)) else .bin op a b

variable [Letters]

mutual
inductive ReI (g : Bool) : Bool → Stm → Ident → Prop
  | name {dot n} : NameOk dot n → ReI g dot (.var n false false) (.name n)
  | call {dot f ps as} : NameOk dot f → ReA g ps as → ReI g dot (.method f ps false) (.call f as)
  | exec {w s e} : ExecOk w → ReE g .arg s e → ReI g false (.method w [s] false) (.exec w e)
  | item {dot o i s e} : ReI g dot o i → ReE g .top s e → ReI g dot (.item s o) (.index i e)
inductive ReP (g : Bool) : Stm → Path → Prop
  | one {s i} : ReI g false s i → ReP g s (.one i)
  | dot {u c p i} : ReP g c p → ReI g true u i → ReP g (.chain u c false false) (.dot p i)
inductive ReA (g : Bool) : List Stm → Args → Prop
  | nil : ReA g [] (.one .none)
  | one {s o} : ReO g s o → ReA g [s] (.one o)
  | snoc {l s a o} : l ≠ [] → ReA g l a → ReO g s o → ReA g (l ++ [s]) (.more a o)
inductive ReO (g : Bool) : Stm → OptExpr → Prop
  | none : ReO g .nil .none
  | some {s e} : ReE g .arg s e → ReO g s (.some e)
inductive ReN (g : Bool) : List Char → List Stm → New → Prop
  | call {c ps as} : NameOk false c → ReA g ps as → ReN g c ps (.call c as)
  | args {ps as} : ReA g ps as → ReN g [] ps (.args as)
inductive ReE (g : Bool) : Lv → Stm → Expr → Prop
  | num {lv x} : Finite64 x → ReE g lv (.num x) (.simple (numE x))
  | str {lv v} : StrVal v → ReE g lv (.str v) (.simple (.str v))
  | bool {lv b} : ReE g lv (.bool b) (.simple (.bool b))
  | date {lv t} : CalendarDate t → ReE g lv (.date t) (.simple (.date t))
  | undef {lv} : ReE g lv .undef (.simple .undef)
  | path {lv s p} : ReP g s p → ReE g lv s (.path p)
  | minus {lv u c p} : ReP g (.chain u c false false) p → ReE g lv (.chain u c true false) (.path p)
  | notChain {lv u c m p} : ReP g (.chain u c false false) p → ReE g lv (.chain u c m true) (.not (.path p))
  | notCall {lv f ps p} : ReP g (.method f ps false) p → ReE g lv (.method f ps true) (.not (.path p))
  | var {lv n u nt} : NameOk false n → lv ≠ .arg → ReE g lv (.var n u nt) (signsE u nt (.path (.one (.name n))))
  | varArg {n u nt} : NameOk false n → ReE g .arg (.var n u nt) (.path (.one (.name n)))
  | ternary {lv c t e c' t' e'} : ReE g .top c c' → ReE g .top t t' → ReE g .top e e' → ReE g lv (.ternary c t e) (.ternary c' t' e')
  | new {lv c ps n} : ReN g c ps n → ReE g lv (.new c ps) (.new n)
  | elem {lv s e} : ReE g lv.sub s e → (g = true → lv = .arg → ¬ VarLike s) → ReE g lv (.exprs [s] false) e
  | notElem {lv s e} : ReE g lv.sub s e → ReE g lv (.exprs [s] true) (.not (parenE e))
  | bin {lv op l r a b u n} : ReE g .inner l a → ReE g .inner r b → lv ≠ .inner →
      (g = true → u = false ∧ (isNotE a → level op ≤ notLevel)) → ReE g lv (.bin op l r u n) (binE op a b u n)
  | inner {op l r a b u n} : ReE g .inner l a → ReE g .inner r b →
      (g = true → u = false ∧ n = false ∧ (isNotE a → level op ≤ notLevel)) → ReE g .inner (.bin op l r u n) (parenE (binE op a b u n))
end

end Verif
