import Mathlib.Data.List.Forall2
import Verif.Memory
/-!
# Specification: what is read from memory
-/
namespace Verif

mutual
/-- The statement `s` is read at the node `x` when memory is `h`. -/
inductive Reads (h : Heap) : HStm → Stm → Prop
  | nil : Reads h .nil .nil
  | num (x) : Reads h (.num x) (.num x)
  | str (s) : Reads h (.str s) (.str s)
  | bool (b) : Reads h (.bool b) (.bool b)
  | date (t) : Reads h (.date t) (.date t)
  | undef : Reads h .undef .undef
  | var (n u k) : Reads h (.var n u k) (.var n u k)
  | chain {x y a b u k} : Reads h x a → Reads h y b → Reads h (.chain x y u k) (.chain a b u k)
  | method {n ps qs k} : ReadsL h ps qs → Reads h (.method n ps k) (.method n qs k)
  | item {x y a b} : Reads h x a → Reads h y b → Reads h (.item x y) (.item a b)
  | ternary {x y z a b c} : Reads h x a → Reads h y b → Reads h z c → Reads h (.ternary x y z) (.ternary a b c)
  | new {n ps qs} : ReadsL h ps qs → Reads h (.new n ps) (.new n qs)
  | assign {x a ps qs} : Reads h x a → ReadsL h ps qs → Reads h (.assign x ps) (.assign a qs)
  | bin {op x y a b u k} : Reads h x a → Reads h y b → Reads h (.bin op x y u k) (.bin op a b u k)
  | exprs {ps qs k} : ReadsL h ps qs → Reads h (.exprs ps k) (.exprs qs k)
  | ifS {x a t l e t' l' e'} : Reads h x a → ReadsB h t t' → ReadsL h l l' → ReadsB h e e' → Reads h (.ifS x t l e) (.ifS a t' l' e')
  | tryS {b c b' c'} : ReadsB h b b' → ReadsB h c c' → Reads h (.tryS b c) (.tryS b' c')
  | throw {x a} : Reads h x a → Reads h (.throw x) (.throw a)
  | ret {x a} : Reads h x a → Reads h (.ret x) (.ret a)
  | brk : Reads h .brk .brk
  | cont : Reads h .cont .cont
  | loop {x y z w b x' y' z' w' b'} : Reads h x x' → Reads h y y' → Reads h z z' → Reads h w w' → ReadsB h b b' →
      Reads h (.loop x y z w b) (.loop x' y' z' w' b')
  | goto (n) : Reads h (.goto n) (.goto n)
  | label (n) : Reads h (.label n) (.label n)
/-- One after the other. -/
inductive ReadsL (h : Heap) : List HStm → List Stm → Prop
  | nil : ReadsL h [] []
  | cons {x s l m} : Reads h x s → ReadsL h l m → ReadsL h (x :: l) (s :: m)
/-- The statements of a slice: the first cells of its array. -/
inductive ReadsB (h : Heap) : Slice → List Stm → Prop
  | nil : ReadsB h none []
  | arr {i n l} : n ≤ (h.arr i).2.length → ReadsL h ((h.arr i).2.take n) l → ReadsB h (some (i, n)) l
end

/-- Parameters. -/
def ReadsP (h : Heap) (x : HParam) (p : Param) : Prop :=
  Reads h x.default p.default ∧ x.name = p.name ∧ x.isValue = p.isValue

/-- Procedures and functions. -/
structure ReadsF (h : Heap) (x : HFunc) (f : FuncDecl) : Prop where
  vars : x.vars = f.vars
  name : x.name = f.name
  directive : x.directive = f.directive
  body : ReadsB h x.body f.body
  params : List.Forall₂ (ReadsP h) x.params f.params
  isFunc : x.isFunc = f.isFunc
  «export» : x.export = f.export

/-- Elements of the module body. -/
inductive ReadsI (h : Heap) : HItem → Item → Prop
  | func {x f} : ReadsF h x f → ReadsI h (.func x) (.func f)
  | stm {x s} : Reads h x s → ReadsI h (.stm x) (.stm s)

/-- The AstNode `a` is read from `x`: its module body from memory, everything else is the same. -/
structure ReadsA (h : Heap) (x : HAst) (a : Ast) : Prop where
  ctl : x.ctl = { a with mod := { a.mod with body := [] } }
  items : List.Forall₂ (ReadsI h) x.items a.mod.body

/-! ## Where the blocks are -/

mutual
/-- The blocks (arrays and lengths) in a node, without those in the statements of these blocks. -/
def HStm.blocks : HStm → List (Nat × Nat)
  | .chain a b _ _ => a.blocks ++ b.blocks
  | .method _ l _ => blocksL l
  | .item a b => a.blocks ++ b.blocks
  | .ternary a b c => a.blocks ++ b.blocks ++ c.blocks
  | .new _ l => blocksL l
  | .assign a l => a.blocks ++ blocksL l
  | .bin _ a b _ _ => a.blocks ++ b.blocks
  | .exprs l _ => blocksL l
  | .ifS a t l e => a.blocks ++ t.toList ++ blocksL l ++ e.toList
  | .tryS b c => b.toList ++ c.toList
  | .throw a => a.blocks
  | .ret a => a.blocks
  | .loop a b c d l => a.blocks ++ b.blocks ++ c.blocks ++ d.blocks ++ l.toList
  | _ => []
/-- One after the other. -/
def blocksL : List HStm → List (Nat × Nat)
  | [] => []
  | x :: l => x.blocks ++ blocksL l
end

/-- Procedures: default values of parameters and the body. -/
def HFunc.blocks (f : HFunc) : List (Nat × Nat) := f.params.flatMap (fun p => p.default.blocks) ++ f.body.toList

/-- Elements of the module body. -/
def HItem.blocks : HItem → List (Nat × Nat)
  | .func f => f.blocks
  | .stm s => s.blocks

/-- `L`: the numbers of the arrays of the given blocks and of all blocks in their statements, with repetitions. -/
inductive Arrays (h : Heap) : List (Nat × Nat) → List Nat → Prop
  | nil : Arrays h [] []
  | cons {i n bs L M} : n ≤ (h.arr i).2.length → Arrays h (blocksL ((h.arr i).2.take n)) L → Arrays h bs M →
      Arrays h ((i, n) :: bs) (i :: (L ++ M))

/-- Storing `y` in cell `k` of array `i`, as a callback of `Walk` does with `*stm = y` for the statement `k` of a block there. -/
def Heap.store (h : Heap) (i k : Nat) (y : HStm) : Heap := h.set i ((h.arr i).1, (h.arr i).2.set k y)

end Verif
