import Verif.Ast
/-!
# Specification: the size of a tree
-/
namespace Verif

mutual
/-- The number of statements and expressions in a tree, itself included; a missing part counts nothing. -/
def Stm.nodes : Stm → Nat
  | .nil => 0
  | .num _ => 1
  | .str _ => 1
  | .bool _ => 1
  | .date _ => 1
  | .undef => 1
  | .var _ _ _ => 1
  | .chain a b _ _ => 1 + a.nodes + b.nodes
  | .method _ ps _ => 1 + Stm.nodesL ps
  | .item i o => 1 + i.nodes + o.nodes
  | .ternary c t e => 1 + c.nodes + t.nodes + e.nodes
  | .new _ ps => 1 + Stm.nodesL ps
  | .assign v es => 1 + v.nodes + Stm.nodesL es
  | .bin _ l r _ _ => 1 + l.nodes + r.nodes
  | .exprs l _ => 1 + Stm.nodesL l
  | .ifS c t ei e => 1 + c.nodes + Stm.nodesL t + Stm.nodesL ei + Stm.nodesL e
  | .tryS b c => 1 + Stm.nodesL b + Stm.nodesL c
  | .throw p => 1 + p.nodes
  | .ret p => 1 + p.nodes
  | .brk => 1
  | .cont => 1
  | .loop f t i w b => 1 + f.nodes + t.nodes + i.nodes + w.nodes + Stm.nodesL b
  | .goto _ => 1
  | .label _ => 1
def Stm.nodesL : List Stm → Nat
  | [] => 0
  | s :: l => s.nodes + Stm.nodesL l
end

/-- A parameter and its default value. -/
def Param.nodes (p : Param) : Nat := 1 + p.default.nodes

/-- A procedure: itself, its parameters, its variables and its statements. -/
def FuncDecl.nodes (f : FuncDecl) : Nat :=
  1 + (f.params.map Param.nodes).sum + (f.vars.getD []).length + Stm.nodesL f.body

def Item.nodes : Item → Nat
  | .func f => f.nodes
  | .stm s => s.nodes

/-- A module: its variables, procedures and statements. -/
def Module.nodes (m : Module) : Nat := m.globals.length + (m.body.map Item.nodes).sum

end Verif
