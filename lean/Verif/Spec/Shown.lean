import Verif.Spec.Walk
/-!
# Specification: what a walk shows

All parts of statements, and the places a walk does not look into.
-/
namespace Verif.Spec

/-- Everything a statement or expression directly consists of. -/
def allParts : Stm → List Stm
  | .chain u c _ _ => [u, c]
  | .method _ ps _ => ps
  | .item i o => [i, o]
  | .ternary c t e => [c, t, e]
  | .new _ ps => ps
  | .assign v l => v :: l
  | .bin _ l r _ _ => [l, r]
  | .exprs l _ => l
  | .ifS c b elifs els => c :: (b ++ elifs ++ els)
  | .tryS b c => b ++ c
  | .throw p => [p]
  | .ret p => [p]
  | .loop f t i w b => [f, t, i, w] ++ b
  | _ => []

/-- `t` is a part of `s` at any depth, or `s` itself. -/
inductive Within : Stm → Stm → Prop
  | self {s} : Within s s
  | part {s t u} : t ∈ allParts s → Within t u → Within s u

/-- `t` is a direct part of `s` in a place a walk does not look into: parts of a chain of names and calls (`а.б()`), of `а[б]`, of
`Новый а(б)`, of an assignment, of a list in parentheses, of `ВызватьИсключение`, and what stands before `Цикл`. -/
inductive Covered : Stm → Stm → Prop
  | unit {u c k n} : Covered (.chain u c k n) u
  | call {u c k n} : Covered (.chain u c k n) c
  | index {i o} : Covered (.item i o) i
  | object {i o} : Covered (.item i o) o
  | new {n ps t} : t ∈ ps → Covered (.new n ps) t
  | var {v l} : Covered (.assign v l) v
  | value {v l t} : t ∈ l → Covered (.assign v l) t
  | exprs {l n t} : t ∈ l → Covered (.exprs l n) t
  | throw {p} : Covered (.throw p) p
  | for_ {f t i w b} : Covered (.loop f t i w b) f
  | to {f t i w b} : Covered (.loop f t i w b) t
  | in_ {f t i w b} : Covered (.loop f t i w b) i
  | while_ {f t i w b} : Covered (.loop f t i w b) w

/-- `t` is a part of `s` at any depth, or `s` itself, and the way to it does not need such places. -/
inductive Open : Stm → Stm → Prop
  | self {s} : Open s s
  | cond {c b e f u} : Open c u → Open (.ifS c b e f) u
  | yes {c b e f t u} : t ∈ b → Open t u → Open (.ifS c b e f) u
  | elif {c b e f t u} : t ∈ e → Open t u → Open (.ifS c b e f) u
  | no {c b e f t u} : t ∈ f → Open t u → Open (.ifS c b e f) u
  | body {b c t u} : t ∈ b → Open t u → Open (.tryS b c) u
  | handler {b c t u} : t ∈ c → Open t u → Open (.tryS b c) u
  | loop {f k i w b t u} : t ∈ b → Open t u → Open (.loop f k i w b) u
  | arg {n ps k t u} : t ∈ ps → Open t u → Open (.method n ps k) u
  | left {op l r k n u} : Open l u → Open (.bin op l r k n) u
  | right {op l r k n u} : Open r u → Open (.bin op l r k n) u
  | test {c t e u} : Open c u → Open (.ternary c t e) u
  | first {c t e u} : Open t u → Open (.ternary c t e) u
  | second {c t e u} : Open e u → Open (.ternary c t e) u
  | ret {p u} : Open p u → Open (.ret p) u

/-- `s` is a statement of the module body or of a procedure, in no block. -/
def Top (m : Module) (s : Stm) : Prop := .stm s ∈ m.body ∨ ∃ d, .func d ∈ m.body ∧ s ∈ d.body

/-- `Walk` calls the callback for `t`. -/
def Shown (m : Module) (t : Stm) : Prop := ∃ x ∈ (walk recorder [] m).1, stmOf x.elem = some t

/-- A call of a procedure or function. -/
def IsCall : Stm → Prop
  | .method _ _ _ => True
  | _ => False

end Verif.Spec
