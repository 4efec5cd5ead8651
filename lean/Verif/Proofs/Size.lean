import Verif.Spec.Size
import Verif.Spec.Program
/-!
# The tree of a program is no bigger than the program
-/
namespace Verif
namespace Size
open Spec

theorem nodesL_append (a b : List Stm) : Stm.nodesL (a ++ b) = Stm.nodesL a + Stm.nodesL b := by
  induction a with
  | nil => show Stm.nodesL b = 0 + _; omega
  | cons x a ih => show x.nodes + Stm.nodesL (a ++ b) = x.nodes + Stm.nodesL a + _; rw [ih]; omega

theorem nodesL_reverse (a : List Stm) : Stm.nodesL a.reverse = Stm.nodesL a := by
  induction a with
  | nil => rfl
  | cons x a ih =>
    rw [List.reverse_cons, nodesL_append, ih]
    show _ + (x.nodes + 0) = x.nodes + _
    omega

theorem nodesL_one (s : Stm) : Stm.nodesL [s] = s.nodes := by show s.nodes + 0 = _; omega

theorem withMinus_nodes (s : Stm) : (withMinus s).nodes = s.nodes := by cases s <;> rfl
theorem withNot_nodes (s : Stm) : (withNot s).nodes = s.nodes := by cases s <;> rfl

mutual
theorem expr : (e : Expr) → e.tree.nodes ≤ e.toks.length
  | .simple s => simple s
  | .paren es => by have := args es; simp only [Expr.tree, Expr.toks, Stm.nodes, List.length_cons, List.length_append]; omega
  | .bin op a b => by
    have := expr a; have := expr b
    simp only [Expr.tree, Expr.toks, Stm.nodes, List.length_cons, List.length_append]; omega
  | .not e => by
    have := expr e
    simp only [Expr.tree, Expr.toks, withNot_nodes, List.length_cons]; omega
  | .new n => new n
  | .goto l => by simp [Expr.tree, Expr.toks, Stm.nodes]
  | .ternary c a b => by
    have := expr a; have := expr b; have := expr c
    simp only [Expr.tree, Expr.toks, Stm.nodes, List.length_cons, List.length_append]; omega
  | .path p => path p
theorem simple : (s : Simple) → s.tree.nodes ≤ s.toks.length
  | .str _ => by simp [Simple.tree, Simple.toks, Stm.nodes]
  | .num _ => by simp [Simple.tree, Simple.toks, Stm.nodes]
  | .neg e => by
    have := expr e
    simp only [Simple.tree, Simple.toks, withMinus_nodes, List.length_cons]; omega
  | .pos e => by
    have := expr e
    simp only [Simple.tree, Simple.toks, List.length_cons]; omega
  | .bool true => by simp [Simple.tree, Simple.toks, Stm.nodes]
  | .bool false => by simp [Simple.tree, Simple.toks, Stm.nodes]
  | .date _ => by simp [Simple.tree, Simple.toks, Stm.nodes]
  | .undef => by simp [Simple.tree, Simple.toks, Stm.nodes]
  | .label _ => by simp [Simple.tree, Simple.toks, Stm.nodes]
theorem new : (n : New) → n.tree.nodes ≤ n.toks.length
  | .name _ => by simp [New.tree, New.toks, Stm.nodes, Stm.nodesL]
  | .call _ es => by have := args es; simp only [New.tree, New.toks, Stm.nodes, List.length_cons, List.length_append]; omega
  | .args es => by have := args es; simp only [New.tree, New.toks, Stm.nodes, List.length_cons, List.length_append]; omega
theorem path : (p : Path) → p.tree.nodes ≤ p.toks.length
  | .one i => idt i
  | .dot p i => by
    have := path p; have := idt i
    simp only [Path.tree, Path.toks, Stm.nodes, List.length_cons, List.length_append]; omega
theorem idt : (i : Ident) → i.tree.nodes ≤ i.toks.length
  | .name _ => by simp [Ident.tree, Ident.toks, Stm.nodes]
  | .call _ es => by have := args es; simp only [Ident.tree, Ident.toks, Stm.nodes, List.length_cons, List.length_append]; omega
  | .index i e => by
    have := idt i; have := expr e
    simp only [Ident.tree, Ident.toks, Stm.nodes, List.length_cons, List.length_append]; omega
  | .execStr _ _ => by simp [Ident.tree, Ident.toks, Stm.nodes, Stm.nodesL]
  | .execVar _ _ => by simp [Ident.tree, Ident.toks, Stm.nodes, Stm.nodesL]
  | .exec _ e => by
    have := expr e
    simp only [Ident.tree, Ident.toks, Stm.nodes, nodesL_one, List.length_cons, List.length_append]; omega
theorem args : (es : Args) → Stm.nodesL es.tree ≤ es.toks.length
  | .one e => by have := opt e; simp only [Args.tree, Args.toks, nodesL_one]; omega
  | .more es e => by
    have := args es; have := opt e
    simp only [Args.tree, Args.toks, nodesL_append, nodesL_one, List.length_cons, List.length_append]; omega
theorem opt : (e : OptExpr) → e.tree.nodes ≤ e.toks.length
  | .none => Nat.le_refl _
  | .some e => expr e
end

theorem source : (s : Source) → s.tree.nodes ≤ s.toks.length
  | .path p => path p
  | .new n => new n
  | .parenNew n => by have := new n; simp only [Source.tree, Source.toks, List.length_cons, List.length_append]; omega
  | .ternary c a b => expr (.ternary c a b)

mutual
theorem stmt : (s : Stmt) → s.tree.nodes ≤ s.toks.length
  | .assign p e => by
    have := path p; have := expr e
    simp only [Stmt.tree, Stmt.toks, Stm.nodes, nodesL_one, List.length_cons, List.length_append]; omega
  | .expr e => expr e
  | .ifS c t es e => by
    have := expr c; have := block t; have := elifs es; have := els e
    simp only [Stmt.tree, Stmt.toks, Stm.nodes, nodesL_reverse, List.length_cons, List.length_append]; omega
  | .forEach n s b => by
    have := source s; have := block b
    simp only [Stmt.tree, Stmt.toks, Stm.nodes, List.length_cons, List.length_append]; omega
  | .forTo a z b => by
    have := expr a; have := expr z; have := block b
    simp only [Stmt.tree, Stmt.toks, Stm.nodes, List.length_cons, List.length_append]; omega
  | .while c b => by
    have := expr c; have := block b
    simp only [Stmt.tree, Stmt.toks, Stm.nodes, List.length_cons, List.length_append]; omega
  | .tryS b h => by
    have := block b; have := block h
    simp only [Stmt.tree, Stmt.toks, Stm.nodes, List.length_cons, List.length_append]; omega
  | .cont => Nat.le_refl _
  | .brk => Nat.le_refl _
  | .throw e => by have := opt e; simp only [Stmt.tree, Stmt.toks, Stm.nodes, List.length_cons]; omega
  | .ret e => by have := opt e; simp only [Stmt.tree, Stmt.toks, Stm.nodes, List.length_cons]; omega
theorem elifs : (es : Elifs) → Stm.nodesL es.tree ≤ es.toks.length
  | .nil => Nat.le_refl _
  | .cons c b r => by
    have := expr c; have := block b; have := elifs r
    simp only [Elifs.tree, Elifs.toks, Stm.nodes, Stm.nodesL, List.length_cons, List.length_append]; omega
theorem els : (e : Else) → Stm.nodesL e.tree ≤ e.toks.length
  | .none => Nat.le_refl _
  | .some b => by have := block b; simp only [Else.tree, Else.toks, List.length_cons]; omega
theorem block : (b : Block) → Stm.nodesL b.tree ≤ b.toks.length
  | .empty => Nat.le_refl _
  | .body b => body b
theorem body : (b : Body) → Stm.nodesL b.tree ≤ b.toks.length
  | .one s => by have := stmt s; simp only [Body.tree, Body.toks, nodesL_one]; omega
  | .sep b p s => by
    have := block b; have := optStmt s
    simp only [Body.tree, Body.toks, nodesL_append, List.length_cons, List.length_append]; omega
theorem optStmt : (s : OptStmt) → Stm.nodesL s.tree ≤ s.toks.length
  | .none => Nat.le_refl _
  | .some s => by have := stmt s; simp only [OptStmt.tree, OptStmt.toks, nodesL_one]; omega
end

theorem names (n : Names) : n.list.length ≤ n.toks.length := by
  obtain ⟨f, r⟩ := n
  have : ∀ r : List Name, r.length ≤ (r.flatMap fun x => [word .comma, ident x]).length := by
    intro r
    induction r with
    | nil => exact Nat.le_refl _
    | cons x r ih => simp only [List.flatMap_cons, List.length_cons, List.length_append]; omega
  have := this r
  simp only [Names.list, Names.toks, List.length_cons]; omega

theorem flat (l : List Simple) : ∀ s ∈ l, s.tree.nodes ≤ (l.flatMap fun s => word .kEQUAL :: s.toks).length := by
  induction l with
  | nil => nofun
  | cons x l ih =>
    intro s hs
    simp only [List.flatMap_cons, List.length_append, List.length_cons]
    rcases List.mem_cons.1 hs with rfl | hs
    · have := simple s; omega
    · have := ih s hs; omega

theorem param (p : ParamD) : p.tree.nodes ≤ p.toks.length := by
  unfold ParamD.tree ParamD.toks Param.nodes
  dsimp only
  rw [List.length_append, List.length_cons]
  split
  · show 1 + 0 ≤ _; omega
  · rename_i s h
    have := flat p.defaults s (List.mem_of_getLast? h)
    omega

theorem params (p : ParamsD) : ((p.list.map ParamD.tree).map Param.nodes).sum ≤ p.toks.length := by
  have hr : ∀ l : List ParamD, ((l.map ParamD.tree).map Param.nodes).sum ≤ (l.flatMap fun x => word .comma :: x.toks).length := by
    intro l
    induction l with
    | nil => exact Nat.le_refl _
    | cons x l ih =>
      have := param x
      simp only [List.map_cons, List.sum_cons, List.flatMap_cons, List.length_append, List.length_cons]; omega
  obtain ⟨f, r⟩ := p
  have := hr r
  cases f with
  | none =>
    show ((List.map ParamD.tree ([] ++ r)).map Param.nodes).sum ≤ ([] ++ _ : List Key).length
    exact this
  | some f =>
    have := param f
    show ((List.map ParamD.tree (f :: r)).map Param.nodes).sum ≤ (f.toks ++ _).length
    simp only [List.map_cons, List.sum_cons, List.length_append]
    omega

theorem locals (l : List Names) :
    (l.flatMap Names.list).length ≤ (l.flatMap fun n => word .kVar :: (n.toks ++ [word .semi])).length := by
  induction l with
  | nil => exact Nat.le_refl _
  | cons n l ih =>
    have := names n
    simp only [List.flatMap_cons, List.length_append, List.length_cons]; omega

theorem func (f : FuncD) : f.tree.nodes ≤ f.toks.length := by
  have h1 := params f.params
  have h2 := locals f.vars
  have h3 := block f.body
  unfold FuncDecl.nodes FuncD.toks
  show 1 + ((f.params.list.map ParamD.tree).map Param.nodes).sum + (f.vars.flatMap Names.list).length + Stm.nodesL f.body.tree ≤ _
  simp only [List.length_append, List.length_cons]
  omega

theorem parts (l : List Part) :
    (l.flatMap Part.globals).length + (((l.flatMap Part.funcs).map (fun f => Item.func f.tree)).map Item.nodes).sum ≤
      (l.flatMap Part.toks).length := by
  induction l with
  | nil => exact Nat.le_refl _
  | cons p l ih =>
    rw [List.flatMap_cons, List.flatMap_cons, List.flatMap_cons, List.map_append, List.map_append, List.sum_append, List.length_append,
      List.length_append]
    have : p.globals.length + ((p.funcs.map (fun f => Item.func f.tree)).map Item.nodes).sum ≤ p.toks.length := by
      cases p with
      | vars v =>
        have := names v.names
        show (v.names.list.map _).length + 0 ≤ (directiveToks v.directive ++ word .kVar :: (v.names.toks ++ _)).length
        simp only [List.length_map, List.length_append, List.length_cons]; omega
      | func f =>
        have := func f
        show 0 + (f.tree.nodes + 0) ≤ f.toks.length
        omega
    omega

theorem stms (l : List Stm) : ((l.map Item.stm).map Item.nodes).sum = Stm.nodesL l := by
  induction l with
  | nil => rfl
  | cons s l ih => exact congrArg (s.nodes + ·) ih

theorem program (P : Program) : P.tree.nodes ≤ P.toks.length := by
  have h1 := parts P.parts
  have h2 := block P.body
  unfold Module.nodes Program.toks
  show (P.parts.flatMap Part.globals).length + (((P.parts.flatMap Part.funcs).map (fun f : FuncD => Item.func f.tree) ++
    P.body.tree.map Item.stm).map Item.nodes).sum ≤ _
  rw [List.map_append, List.sum_append, stms, List.length_append]
  omega

end Size
end Verif
