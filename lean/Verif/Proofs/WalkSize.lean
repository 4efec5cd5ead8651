import Verif.Spec.Program
import Verif.Proofs.Walk
/-!
# How often a walk calls its callback
-/
namespace Verif
namespace WalkSize
open Spec

mutual
/-- The number of calls for a statement. -/
def cnt : Stm → Nat
  | .ifS c b elifs els => 1 + cnt c + cntL b + cntL elifs + cntL els
  | .tryS b c => 1 + cntL b + cntL c
  | .loop _ _ _ _ b => 1 + cntL b
  | .method _ ps _ => 1 + cntL ps
  | .bin _ l r _ _ => 1 + cnt l + cnt r
  | .ternary c t e => 1 + cnt c + cnt t + cnt e
  | .ret p => 1 + cnt p
  | _ => 1
def cntL : List Stm → Nat
  | [] => 0
  | s :: l => cnt s + cntL l
end

mutual
theorem below_cnt : ∀ s, (below s).length + 1 = cnt s
  | .ifS c b e f => by
    have := below_cnt c; have := belowL_cnt b; have := belowL_cnt e; have := belowL_cnt f
    simp only [below, cnt, List.length_append, List.length_cons]; omega
  | .tryS b c => by
    have := belowL_cnt b; have := belowL_cnt c
    simp only [below, cnt, List.length_append]; omega
  | .loop _ _ _ _ b => by have := belowL_cnt b; simp only [below, cnt]; omega
  | .method _ ps _ => by have := belowL_cnt ps; simp only [below, cnt, below_lengths]; omega
  | .bin _ l r _ _ => by
    have := below_cnt l; have := below_cnt r
    simp only [below, cnt, List.length_append, List.length_cons, List.length_nil]; omega
  | .ternary c t e => by
    have := below_cnt c; have := below_cnt t; have := below_cnt e
    simp only [below, cnt, List.length_append, List.length_cons, List.length_nil]; omega
  | .ret p => by
    have := below_cnt p
    simp only [below, cnt, List.length_append, List.length_cons, List.length_nil]; omega
  | .nil | .num _ | .str _ | .bool _ | .date _ | .undef | .var _ _ _ | .chain _ _ _ _ | .item _ _ | .new _ _ | .assign _ _
  | .exprs _ _ | .throw _ | .brk | .cont | .goto _ | .label _ => rfl
theorem belowL_cnt : ∀ l, (belowL l).length = cntL l
  | [] => rfl
  | s :: l => by
    have := below_cnt s; have := belowL_cnt l
    simp only [belowL, cntL, List.length_append, List.length_cons]; omega
end

/-- The number of calls for an element of the module body. -/
def itemCnt : Item → Nat
  | .func d => 1 + cntL d.body
  | .stm s => cnt s

theorem items_cnt : ∀ (l : List Item) (r : Option Nat) (i : Nat), (itemsSeen r i l).flatten.length = (l.map itemCnt).sum
  | [], _, _ => rfl
  | x :: l, r, i => by
    rw [itemsSeen, List.flatten_cons, List.length_append, items_cnt l, List.map_cons, List.sum_cons, List.length_map]
    congr 1
    cases x with
    | func d => have := belowL_cnt d.body; simp [belowItem, itemCnt]; omega
    | stm s => have := below_cnt s; simp [belowItem, itemCnt]; omega

theorem walk_cnt (m : Module) : (walk recorder [] m).1.length = (m.body.map itemCnt).sum := by
  rw [walk_rec, List.length_map, items_cnt]

theorem cntL_append (a b : List Stm) : cntL (a ++ b) = cntL a + cntL b := by
  induction a with
  | nil => show cntL b = 0 + _; omega
  | cons x a ih => show cnt x + cntL (a ++ b) = cnt x + cntL a + _; rw [ih]; omega

theorem cntL_reverse (a : List Stm) : cntL a.reverse = cntL a := by
  induction a with
  | nil => rfl
  | cons x a ih =>
    rw [List.reverse_cons, cntL_append, ih]
    show _ + (cnt x + 0) = cnt x + _
    omega

theorem cntL_one (s : Stm) : cntL [s] = cnt s := by show cnt s + 0 = _; omega

theorem withMinus_cnt (s : Stm) : cnt (withMinus s) = cnt s := by cases s <;> rfl
theorem withNot_cnt (s : Stm) : cnt (withNot s) = cnt s := by cases s <;> rfl

mutual
theorem expr : (e : Expr) → cnt e.tree ≤ 2 * e.toks.length
  | .simple s => simple s
  | .paren es => by have := args es; simp only [Expr.tree, Expr.toks, cnt, List.length_cons, List.length_append]; omega
  | .bin op a b => by
    have := expr a; have := expr b
    simp only [Expr.tree, Expr.toks, cnt, List.length_cons, List.length_append]; omega
  | .not e => by
    have := expr e
    simp only [Expr.tree, Expr.toks, withNot_cnt, List.length_cons]; omega
  | .new n => new n
  | .goto l => by simp [Expr.tree, Expr.toks, cnt]
  | .ternary c a b => by
    have := expr a; have := expr b; have := expr c
    simp only [Expr.tree, Expr.toks, cnt, List.length_cons, List.length_append]; omega
  | .path p => path p
theorem simple : (s : Simple) → cnt s.tree ≤ 2 * s.toks.length
  | .str _ => by simp [Simple.tree, Simple.toks, cnt]
  | .num _ => by simp [Simple.tree, Simple.toks, cnt]
  | .neg e => by
    have := expr e
    simp only [Simple.tree, Simple.toks, withMinus_cnt, List.length_cons]; omega
  | .pos e => by
    have := expr e
    simp only [Simple.tree, Simple.toks, List.length_cons]; omega
  | .bool true => by simp [Simple.tree, Simple.toks, cnt]
  | .bool false => by simp [Simple.tree, Simple.toks, cnt]
  | .date _ => by simp [Simple.tree, Simple.toks, cnt]
  | .undef => by simp [Simple.tree, Simple.toks, cnt]
  | .label _ => by simp [Simple.tree, Simple.toks, cnt]
theorem new : (n : New) → cnt n.tree ≤ 2 * n.toks.length
  | .name _ => by simp [New.tree, New.toks, cnt]
  | .call _ es => by have := args es; simp only [New.tree, New.toks, cnt, List.length_cons, List.length_append]; omega
  | .args es => by have := args es; simp only [New.tree, New.toks, cnt, List.length_cons, List.length_append]; omega
theorem path : (p : Path) → cnt p.tree ≤ 2 * p.toks.length
  | .one i => idt i
  | .dot p i => by
    have := path p; have := idt i
    simp only [Path.tree, Path.toks, cnt, List.length_cons, List.length_append]; omega
theorem idt : (i : Ident) → cnt i.tree ≤ 2 * i.toks.length
  | .name _ => by simp [Ident.tree, Ident.toks, cnt]
  | .call _ es => by have := args es; simp only [Ident.tree, Ident.toks, cnt, List.length_cons, List.length_append]; omega
  | .index i e => by
    have := idt i; have := expr e
    simp only [Ident.tree, Ident.toks, cnt, List.length_cons, List.length_append]; omega
  | .execStr _ _ => by simp [Ident.tree, Ident.toks, cnt, cntL]
  | .execVar _ _ => by simp [Ident.tree, Ident.toks, cnt, cntL]
  | .exec _ e => by
    have := expr e
    simp only [Ident.tree, Ident.toks, cnt, cntL_one, List.length_cons, List.length_append]; omega
theorem args : (es : Args) → cntL es.tree ≤ 2 * es.toks.length + 1
  | .one e => by have := opt e; simp only [Args.tree, Args.toks, cntL_one]; omega
  | .more es e => by
    have := args es; have := opt e
    simp only [Args.tree, Args.toks, cntL_append, cntL_one, List.length_cons, List.length_append]; omega
theorem opt : (e : OptExpr) → cnt e.tree ≤ 2 * e.toks.length + 1
  | .none => Nat.le_refl _
  | .some e => Nat.le_succ_of_le (expr e)
end

theorem source : (s : Source) → cnt s.tree ≤ 2 * s.toks.length
  | .path p => path p
  | .new n => new n
  | .parenNew n => by have := new n; simp only [Source.tree, Source.toks, List.length_cons, List.length_append]; omega
  | .ternary c a b => expr (.ternary c a b)

mutual
theorem stmt : (s : Stmt) → cnt s.tree ≤ 2 * s.toks.length
  | .assign p e => by
    have := path p; have := expr e
    simp only [Stmt.tree, Stmt.toks, cnt, List.length_cons, List.length_append]; omega
  | .expr e => expr e
  | .ifS c t es e => by
    have := expr c; have := block t; have := elifs es; have := els e
    simp only [Stmt.tree, Stmt.toks, cnt, cntL_reverse, List.length_cons, List.length_append]; omega
  | .forEach n s b => by
    have := source s; have := block b
    simp only [Stmt.tree, Stmt.toks, cnt, List.length_cons, List.length_append]; omega
  | .forTo a z b => by
    have := expr a; have := expr z; have := block b
    simp only [Stmt.tree, Stmt.toks, cnt, List.length_cons, List.length_append]; omega
  | .while c b => by
    have := expr c; have := block b
    simp only [Stmt.tree, Stmt.toks, cnt, List.length_cons, List.length_append]; omega
  | .tryS b h => by
    have := block b; have := block h
    simp only [Stmt.tree, Stmt.toks, cnt, List.length_cons, List.length_append]; omega
  | .cont => Nat.le_succ _
  | .brk => Nat.le_succ _
  | .throw e => by have := opt e; simp only [Stmt.tree, Stmt.toks, cnt, List.length_cons]; omega
  | .ret e => by have := opt e; simp only [Stmt.tree, Stmt.toks, cnt, List.length_cons]; omega
theorem elifs : (es : Elifs) → cntL es.tree ≤ 2 * es.toks.length
  | .nil => Nat.le_refl _
  | .cons c b r => by
    have := expr c; have := block b; have := elifs r
    simp only [Elifs.tree, Elifs.toks, cnt, cntL, List.length_cons, List.length_append]; omega
theorem els : (e : Else) → cntL e.tree ≤ 2 * e.toks.length
  | .none => Nat.le_refl _
  | .some b => by have := block b; simp only [Else.tree, Else.toks, List.length_cons]; omega
theorem block : (b : Block) → cntL b.tree ≤ 2 * b.toks.length
  | .empty => Nat.le_refl _
  | .body b => body b
theorem body : (b : Body) → cntL b.tree ≤ 2 * b.toks.length
  | .one s => by have := stmt s; simp only [Body.tree, Body.toks, cntL_one]; omega
  | .sep b p s => by
    have := block b; have := optStmt s
    simp only [Body.tree, Body.toks, cntL_append, List.length_cons, List.length_append]; omega
theorem optStmt : (s : OptStmt) → cntL s.tree ≤ 2 * s.toks.length
  | .none => Nat.le_refl _
  | .some s => by have := stmt s; simp only [OptStmt.tree, OptStmt.toks, cntL_one]; omega
end

theorem func (f : FuncD) : itemCnt (.func f.tree) ≤ 2 * f.toks.length := by
  have h3 := block f.body
  unfold FuncD.toks
  show 1 + cntL f.body.tree ≤ _
  simp only [List.length_append, List.length_cons]
  omega

theorem parts (l : List Part) :
    (((l.flatMap Part.funcs).map (fun f => Item.func f.tree)).map itemCnt).sum ≤ 2 * (l.flatMap Part.toks).length := by
  induction l with
  | nil => exact Nat.le_refl _
  | cons p l ih =>
    rw [List.flatMap_cons, List.flatMap_cons, List.map_append, List.map_append, List.sum_append, List.length_append]
    have : ((p.funcs.map (fun f => Item.func f.tree)).map itemCnt).sum ≤ 2 * p.toks.length := by
      cases p with
      | vars v => exact Nat.zero_le _
      | func f =>
        have := func f
        show itemCnt (.func f.tree) + 0 ≤ 2 * f.toks.length
        omega
    omega

theorem stms (l : List Stm) : ((l.map Item.stm).map itemCnt).sum = cntL l := by
  induction l with
  | nil => rfl
  | cons s l ih => exact congrArg (cnt s + ·) ih

theorem program (P : Program) : (walk recorder [] P.tree).1.length ≤ 2 * P.toks.length := by
  have h1 := parts P.parts
  have h2 := block P.body
  unfold Program.toks
  rw [walk_cnt]
  show (((P.parts.flatMap Part.funcs).map (fun f : FuncD => Item.func f.tree) ++ P.body.tree.map Item.stm).map itemCnt).sum ≤ _
  rw [List.map_append, List.sum_append, stms, List.length_append]
  omega

end WalkSize
end Verif
