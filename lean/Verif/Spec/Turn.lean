import Verif.Spec.Reprint
/-!
# Specification: the order of `ИначеЕсли`

Parsing lists the branches `ИначеЕсли` from the last to the first, printing writes them in the order of the list.
-/
namespace Verif.Spec

mutual
/-- All branches `ИначеЕсли` of every `Если` in the opposite order; nothing else changes. -/
def turn : Stm → Stm
  | .ifS c t ei el => .ifS c (turnL t) (turnL ei).reverse (turnL el)
  | .loop f z i w b => .loop f z i w (turnL b)
  | .tryS b h => .tryS (turnL b) (turnL h)
  | s => s
def turnL : List Stm → List Stm
  | [] => []
  | s :: l => turn s :: turnL l
end

def turnFunc (f : FuncDecl) : FuncDecl := { f with body := turnL f.body }

def turnItem : Item → Item
  | .func f => .func (turnFunc f)
  | .stm s => .stm (turn s)

/-- The module with the branches in the opposite order. -/
def turnModule (M : Module) : Module := ⟨M.globals, M.body.map turnItem⟩

mutual
/-- As `stableS`, with any number of branches `ИначеЕсли`. -/
def steadyS : Stm → Prop
  | .assign v l => stableE .arg v ∧ stableL .top l
  | .bin op l r u n => (op = .eq → n = true) ∧ stableE .top (.bin op l r u n)
  | .ifS c t ei el => stableE .top c ∧ steadyB t ∧ steadyB ei ∧ steadyB el
  | .loop f z i w b => stableE .top f ∧ stableE .top z ∧ stableE .top i ∧ stableE .top w ∧ steadyB b
  | .tryS b h => steadyB b ∧ steadyB h
  | .throw (.exprs l _) => stableL .arg l
  | .throw s => stableE .arg s
  | .ret s => stableE .top s
  | .exprs _ _ => False
  | s => stableE .arg s
def steadyB : List Stm → Prop
  | [] => True
  | s :: l => steadyS s ∧ steadyB l
end

/-- As `Stable`, with any number of branches `ИначеЕсли`. -/
def Steady (M : Module) : Prop := ∀ i ∈ M.body, match i with
  | .func f => steadyB f.body
  | .stm s => steadyS s

mutual
/-- `Прервать` and `Продолжить` stand in loops only (the parser asks less, C21). -/
def inLoops : Stm → Prop
  | .ifS _ t ei el => inLoopsL t ∧ inLoopsL ei ∧ inLoopsL el
  | .tryS b h => inLoopsL b ∧ inLoopsL h
  | .brk => False
  | .cont => False
  | _ => True
def inLoopsL : List Stm → Prop
  | [] => True
  | s :: l => inLoops s ∧ inLoopsL l
end

/-- Every `Прервать` and `Продолжить` of the module stands in a loop. -/
def BreaksInLoops (M : Module) : Prop := ∀ i ∈ M.body, match i with
  | .func f => inLoopsL f.body
  | .stm s => inLoops s

end Verif.Spec
