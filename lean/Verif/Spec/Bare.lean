import Verif.Spec.Reprint
/-!
# Specification: what a module says, apart from parentheses
-/
namespace Verif.Spec

/-- No arguments: `Ф()` has one missing argument, `Новый Ф` has none. -/
def noArgs : List Stm → List Stm
  | [.nil] => []
  | l => l

/-- Parentheses around one expression do not count, `Не (а = б)` is the same as `Не а = б`. -/
def unparen (l : List Stm) (n : Bool) : Stm :=
  match noArgs l, n with
  | [s], false => s
  | [.bin op a b u false], true => .bin op a b u true
  | l, n => .exprs l n

mutual
/-- The tree without parentheses that do not matter; numbers are rounded to integers. -/
def bare : Stm → Stm
  | .num x => .num ⟨x.neg, x.roundInt, 0⟩
  | .chain u c m n => .chain (bare u) (bare c) m n
  | .method f ps n => .method f (noArgs (bareL ps)) n
  | .item i o => .item (bare i) (bare o)
  | .ternary c t e => .ternary (bare c) (bare t) (bare e)
  | .new c ps => .new c (noArgs (bareL ps))
  | .exprs l n => unparen (bareL l) n
  | .bin op l r u n => .bin op (bare l) (bare r) u n
  | .assign v l => .assign (bare v) (bareL l)
  | .ifS c t ei el => .ifS (bare c) (bareL t) (bareL ei) (bareL el)
  | .loop f z i w b => .loop (bare f) (bare z) (bare i) (bare w) (bareL b)
  | .tryS b h => .tryS (bareL b) (bareL h)
  | .throw s => .throw (bare s)
  | .ret s => .ret (bare s)
  | s => s
def bareL : List Stm → List Stm
  | [] => []
  | s :: l => bare s :: bareL l
end

/-- The declaration without the local variables, which are never printed (C36). -/
def bareFunc (f : FuncDecl) : FuncDecl :=
  { f with vars := none, body := bareL f.body, params := f.params.map fun p => { p with default := bare p.default } }

def bareItem : Item → Item
  | .func f => .func (bareFunc f)
  | .stm s => .stm (bare s)

/-! ## Signs that are not printed (C35) -/

mutual
/-- The text of the expression shows its signs: variables as arguments and members have none, chains have no minus. -/
def showsE (lv : Place) : Stm → Prop
  | .var _ u n => lv = .arg → u = false ∧ n = false
  | .chain u c m _ => m = false ∧ showsE .arg u ∧ showsE .arg c
  | .method _ ps _ => showsL .arg ps
  | .item i o => showsE .top i ∧ showsE .arg o
  | .ternary c t e => showsE .top c ∧ showsE .top t ∧ showsE .top e
  | .new _ ps => showsL .arg ps
  | .exprs l _ => showsL lv.sub l
  | .bin _ l r _ _ => showsE .inner l ∧ showsE .inner r
  | _ => True
def showsL (lv : Place) : List Stm → Prop
  | [] => True
  | s :: l => showsE lv s ∧ showsL lv l
end

mutual
/-- The same for a statement. -/
def showsS : Stm → Prop
  | .assign v l => showsE .arg v ∧ showsL .top l
  | .chain u c m n => n = false ∧ showsE .arg (.chain u c m n)
  | .bin op l r u n => showsE .top (.bin op l r u n)
  | .ifS c t ei el => showsE .top c ∧ showsB t ∧ showsB ei ∧ showsB el
  | .loop f z i w b => showsE .top f ∧ showsE .top z ∧ showsE .top i ∧ showsE .top w ∧ showsB b
  | .tryS b h => showsB b ∧ showsB h
  | .throw (.exprs l n) => n = false ∧ showsL .arg l
  | .throw s => showsE .arg s
  | .ret s => showsE .top s
  | s => showsE .arg s
def showsB : List Stm → Prop
  | [] => True
  | s :: l => showsS s ∧ showsB l
end

/-- All signs of the module are printed. -/
def ShowsSigns (M : Module) : Prop := ∀ i ∈ M.body, match i with
  | .func f => showsB f.body
  | .stm s => showsS s

end Verif.Spec
