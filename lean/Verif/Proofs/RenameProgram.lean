import Verif.Spec.Rename
import Verif.Spec.Rules
import Verif.Spec.Program
/-! Renaming of programs as written: the tokens are renamed, and nothing else changes. -/
namespace Verif
open Spec

namespace Spec.Renaming
variable (ρ : Renaming)

theorem key_word {t : Terminal} (h : t ∉ [Terminal.ktoken_identifier, .kExecute, .kGoToLabel, .kDirective]) : ρ.key (word t) = word t := by
  cases t <;> first | rfl | exact absurd (by decide) h
theorem key_ident (n : Name) : ρ.key (ident n) = ident (ρ.name n) := (rfl)
theorem key_exec (n : Name) : ρ.key (named .kExecute n) = named .kExecute (ρ.name n) := (rfl)
theorem key_label (n : Name) : ρ.key (named .kGoToLabel n) = named .kGoToLabel (ρ.label n) := (rfl)
theorem key_dir (n : Name) : ρ.key (named .kDirective n) = named .kDirective (ρ.directive n) := (rfl)
theorem key_str (s : List Char) : ρ.key (literal .kString (.str s)) = literal .kString (.str (ρ.str s)) := (rfl)
theorem key_num (x : F64) : ρ.key (literal .kNumber (.num x)) = literal .kNumber (.num (ρ.num x)) := (rfl)
theorem key_date (t : Time) : ρ.key (literal .kDate (.date t)) = literal .kDate (.date (ρ.date t)) := (rfl)
theorem key_true : ρ.key (literal .kTrue (.bool true)) = literal .kTrue (.bool true) := (rfl)
theorem key_false : ρ.key (literal .kFalse (.bool false)) = literal .kFalse (.bool false) := (rfl)
theorem key_op (op : Op) : ρ.key (word (opTerminal op)) = word (opTerminal op) := ρ.key_word (by cases op <;> decide)
end Spec.Renaming

mutual
def Spec.Expr.rename (ρ : Renaming) : Expr → Expr
  | .simple s => .simple (s.rename ρ)
  | .paren es => .paren (es.rename ρ)
  | .bin op a b => .bin op (a.rename ρ) (b.rename ρ)
  | .not e => .not (e.rename ρ)
  | .new n => .new (n.rename ρ)
  | .goto l => .goto (ρ.label l)
  | .ternary c a b => .ternary (c.rename ρ) (a.rename ρ) (b.rename ρ)
  | .path p => .path (p.rename ρ)
def Spec.Simple.rename (ρ : Renaming) : Simple → Simple
  | .str s => .str (ρ.str s)
  | .num x => .num (ρ.num x)
  | .neg e => .neg (e.rename ρ)
  | .pos e => .pos (e.rename ρ)
  | .bool b => .bool b
  | .date t => .date (ρ.date t)
  | .undef => .undef
  | .label n => .label (ρ.label n)
def Spec.New.rename (ρ : Renaming) : New → New
  | .name c => .name (ρ.name c)
  | .call c es => .call (ρ.name c) (es.rename ρ)
  | .args es => .args (es.rename ρ)
def Spec.Path.rename (ρ : Renaming) : Path → Path
  | .one i => .one (i.rename ρ)
  | .dot p i => .dot (p.rename ρ) (i.rename ρ)
def Spec.Ident.rename (ρ : Renaming) : Ident → Ident
  | .name n => .name (ρ.name n)
  | .call n es => .call (ρ.name n) (es.rename ρ)
  | .index i e => .index (i.rename ρ) (e.rename ρ)
  | .execStr w s => .execStr (ρ.name w) (ρ.str s)
  | .execVar w n => .execVar (ρ.name w) (ρ.name n)
  | .exec w e => .exec (ρ.name w) (e.rename ρ)
def Spec.Args.rename (ρ : Renaming) : Args → Args
  | .one e => .one (e.rename ρ)
  | .more es e => .more (es.rename ρ) (e.rename ρ)
def Spec.OptExpr.rename (ρ : Renaming) : OptExpr → OptExpr
  | .none => .none
  | .some e => .some (e.rename ρ)
end

def Spec.Source.rename (ρ : Renaming) : Source → Source
  | .path p => .path (p.rename ρ)
  | .new n => .new (n.rename ρ)
  | .parenNew n => .parenNew (n.rename ρ)
  | .ternary c a b => .ternary (c.rename ρ) (a.rename ρ) (b.rename ρ)

mutual
def Spec.Stmt.rename (ρ : Renaming) : Stmt → Stmt
  | .assign p e => .assign (p.rename ρ) (e.rename ρ)
  | .expr e => .expr (e.rename ρ)
  | .ifS c t es e => .ifS (c.rename ρ) (t.rename ρ) (es.rename ρ) (e.rename ρ)
  | .forEach n s b => .forEach (ρ.name n) (s.rename ρ) (b.rename ρ)
  | .forTo a z b => .forTo (a.rename ρ) (z.rename ρ) (b.rename ρ)
  | .while c b => .while (c.rename ρ) (b.rename ρ)
  | .tryS b h => .tryS (b.rename ρ) (h.rename ρ)
  | .cont => .cont
  | .brk => .brk
  | .throw e => .throw (e.rename ρ)
  | .ret e => .ret (e.rename ρ)
def Spec.Elifs.rename (ρ : Renaming) : Elifs → Elifs
  | .nil => .nil
  | .cons c b r => .cons (c.rename ρ) (b.rename ρ) (r.rename ρ)
def Spec.Else.rename (ρ : Renaming) : Else → Else
  | .none => .none
  | .some b => .some (b.rename ρ)
def Spec.Block.rename (ρ : Renaming) : Block → Block
  | .empty => .empty
  | .body b => .body (b.rename ρ)
def Spec.Body.rename (ρ : Renaming) : Body → Body
  | .one s => .one (s.rename ρ)
  | .sep b p s => .sep (b.rename ρ) p (s.rename ρ)
def Spec.OptStmt.rename (ρ : Renaming) : OptStmt → OptStmt
  | .none => .none
  | .some s => .some (s.rename ρ)
end

def Spec.Names.rename (ρ : Renaming) (n : Names) : Names := ⟨ρ.name n.first, n.rest.map ρ.name⟩
def Spec.ParamD.rename (ρ : Renaming) (p : ParamD) : ParamD := ⟨p.byVal, ρ.name p.name, p.defaults.map (Simple.rename ρ)⟩
def Spec.ParamsD.rename (ρ : Renaming) (p : ParamsD) : ParamsD := ⟨p.first.map (ParamD.rename ρ), p.rest.map (ParamD.rename ρ)⟩
def Spec.FuncD.rename (ρ : Renaming) (f : FuncD) : FuncD :=
  ⟨f.directive.map ρ.directive, f.isFunc, ρ.name f.name, f.params.rename ρ, f.export, f.vars.map (Names.rename ρ), f.body.rename ρ⟩
def Spec.VarsD.rename (ρ : Renaming) (v : VarsD) : VarsD := ⟨v.directive.map ρ.directive, v.names.rename ρ, v.export⟩
def Spec.Part.rename (ρ : Renaming) : Part → Part
  | .vars v => .vars (v.rename ρ)
  | .func f => .func (f.rename ρ)
def Spec.Program.rename (ρ : Renaming) (p : Program) : Program := ⟨p.parts.map (Part.rename ρ), p.body.rename ρ⟩

/-! ## Tokens -/

section
variable (ρ : Renaming)
open Renaming

mutual
theorem Spec.Expr.toks_rename : ∀ e : Expr, (e.rename ρ).toks = e.toks.map ρ.key
  | .simple s => by simpa only [Expr.rename, Expr.toks] using s.toks_rename
  | .paren es => by
    simp only [Expr.rename, Expr.toks, es.toks_rename, List.map_cons, List.map_append, List.map_nil, key_word ρ (t := .lpar) (by decide),
      key_word ρ (t := .rpar) (by decide)]
  | .bin op a b => by simp only [Expr.rename, Expr.toks, a.toks_rename, b.toks_rename, List.map_cons, List.map_append, key_op]
  | .not e => by simp only [Expr.rename, Expr.toks, e.toks_rename, List.map_cons, key_word ρ (t := .kNot) (by decide)]
  | .new n => by simpa only [Expr.rename, Expr.toks] using n.toks_rename
  | .goto l => by simp only [Expr.rename, Expr.toks, List.map_cons, List.map_nil, key_label, key_word ρ (t := .kGoTo) (by decide)]
  | .ternary c a b => by
    simp only [Expr.rename, Expr.toks, c.toks_rename, a.toks_rename, b.toks_rename, List.map_cons, List.map_append, List.map_nil,
      key_word ρ (t := .lpar) (by decide), key_word ρ (t := .rpar) (by decide), key_word ρ (t := .comma) (by decide),
      key_word ρ (t := .quest) (by decide)]
  | .path p => by simpa only [Expr.rename, Expr.toks] using p.toks_rename
theorem Spec.Simple.toks_rename : ∀ s : Simple, (s.rename ρ).toks = s.toks.map ρ.key
  | .str s => rfl
  | .num x => rfl
  | .neg e => by simp only [Simple.rename, Simple.toks, e.toks_rename, List.map_cons, key_word ρ (t := .minus) (by decide)]
  | .pos e => by simp only [Simple.rename, Simple.toks, e.toks_rename, List.map_cons, key_word ρ (t := .plus) (by decide)]
  | .bool true => rfl
  | .bool false => rfl
  | .date t => rfl
  | .undef => rfl
  | .label n => rfl
theorem Spec.New.toks_rename : ∀ n : New, (n.rename ρ).toks = n.toks.map ρ.key
  | .name c => rfl
  | .call c es => by
    simp only [New.rename, New.toks, es.toks_rename, List.map_cons, List.map_append, List.map_nil, key_ident,
      key_word ρ (t := .lpar) (by decide), key_word ρ (t := .rpar) (by decide), key_word ρ (t := .kNew) (by decide)]
  | .args es => by
    simp only [New.rename, New.toks, es.toks_rename, List.map_cons, List.map_append, List.map_nil,
      key_word ρ (t := .lpar) (by decide), key_word ρ (t := .rpar) (by decide), key_word ρ (t := .kNew) (by decide)]
theorem Spec.Path.toks_rename : ∀ p : Path, (p.rename ρ).toks = p.toks.map ρ.key
  | .one i => by simpa only [Path.rename, Path.toks] using i.toks_rename
  | .dot p i => by
    simp only [Path.rename, Path.toks, p.toks_rename, i.toks_rename, List.map_cons, List.map_append, key_word ρ (t := .dot) (by decide)]
theorem Spec.Ident.toks_rename : ∀ i : Ident, (i.rename ρ).toks = i.toks.map ρ.key
  | .name n => rfl
  | .call n es => by
    simp only [Ident.rename, Ident.toks, es.toks_rename, List.map_cons, List.map_append, List.map_nil, key_ident,
      key_word ρ (t := .lpar) (by decide), key_word ρ (t := .rpar) (by decide)]
  | .index i e => by
    simp only [Ident.rename, Ident.toks, i.toks_rename, e.toks_rename, List.map_cons, List.map_append, List.map_nil,
      key_word ρ (t := .lbr) (by decide), key_word ρ (t := .rbr) (by decide)]
  | .execStr w s => rfl
  | .execVar w n => rfl
  | .exec w e => by
    simp only [Ident.rename, Ident.toks, e.toks_rename, List.map_cons, List.map_append, List.map_nil, key_exec,
      key_word ρ (t := .lpar) (by decide), key_word ρ (t := .rpar) (by decide)]
theorem Spec.Args.toks_rename : ∀ a : Args, (a.rename ρ).toks = a.toks.map ρ.key
  | .one e => by simpa only [Args.rename, Args.toks] using e.toks_rename
  | .more es e => by
    simp only [Args.rename, Args.toks, es.toks_rename, e.toks_rename, List.map_cons, List.map_append, key_word ρ (t := .comma) (by decide)]
theorem Spec.OptExpr.toks_rename : ∀ e : OptExpr, (e.rename ρ).toks = e.toks.map ρ.key
  | .none => rfl
  | .some e => by simpa only [OptExpr.rename, OptExpr.toks] using e.toks_rename
end

theorem Spec.Source.toks_rename (s : Source) : (s.rename ρ).toks = s.toks.map ρ.key := by
  cases s with
  | path p => exact p.toks_rename ρ
  | new n => exact n.toks_rename ρ
  | parenNew n =>
    simp only [Source.rename, Source.toks, n.toks_rename, List.map_cons, List.map_append, List.map_nil,
      key_word ρ (t := .lpar) (by decide), key_word ρ (t := .rpar) (by decide)]
  | ternary c a b => exact (Expr.ternary c a b).toks_rename ρ

theorem Spec.Sep.key_tok (p : Sep) : ρ.key p.tok = p.tok := by
  cases p <;> rfl

mutual
theorem Spec.Stmt.toks_rename : ∀ s : Stmt, (s.rename ρ).toks = s.toks.map ρ.key
  | .assign p e => by
    simp only [Stmt.rename, Stmt.toks, p.toks_rename, e.toks_rename, List.map_cons, List.map_append, key_word ρ (t := .kEQUAL) (by decide)]
  | .expr e => by simpa only [Stmt.rename, Stmt.toks] using e.toks_rename ρ
  | .ifS c t es e => by
    simp only [Stmt.rename, Stmt.toks, c.toks_rename, t.toks_rename, es.toks_rename, e.toks_rename, List.map_cons, List.map_append,
      List.map_nil, key_word ρ (t := .kIf) (by decide), key_word ρ (t := .kThen) (by decide), key_word ρ (t := .kEndIf) (by decide)]
  | .forEach n s b => by
    simp only [Stmt.rename, Stmt.toks, s.toks_rename, b.toks_rename, List.map_cons, List.map_append, key_ident,
      List.map_nil, key_word ρ (t := .kFor) (by decide), key_word ρ (t := .kEach) (by decide), key_word ρ (t := .kIn) (by decide),
      key_word ρ (t := .kLoop) (by decide), key_word ρ (t := .kEndLoop) (by decide)]
  | .forTo a z b => by
    simp only [Stmt.rename, Stmt.toks, a.toks_rename, z.toks_rename, b.toks_rename, List.map_cons, List.map_append,
      List.map_nil, key_word ρ (t := .kFor) (by decide), key_word ρ (t := .kTo) (by decide),
      key_word ρ (t := .kLoop) (by decide), key_word ρ (t := .kEndLoop) (by decide)]
  | .while c b => by
    simp only [Stmt.rename, Stmt.toks, c.toks_rename, b.toks_rename, List.map_cons, List.map_append,
      List.map_nil, key_word ρ (t := .kWhile) (by decide),
      key_word ρ (t := .kLoop) (by decide), key_word ρ (t := .kEndLoop) (by decide)]
  | .tryS b h => by
    simp only [Stmt.rename, Stmt.toks, b.toks_rename, h.toks_rename, List.map_cons, List.map_append,
      List.map_nil, key_word ρ (t := .kTry) (by decide),
      key_word ρ (t := .kCatch) (by decide), key_word ρ (t := .kEndTry) (by decide)]
  | .cont => rfl
  | .brk => rfl
  | .throw e => by simp only [Stmt.rename, Stmt.toks, e.toks_rename, List.map_cons, key_word ρ (t := .kThrow) (by decide)]
  | .ret e => by simp only [Stmt.rename, Stmt.toks, e.toks_rename, List.map_cons, key_word ρ (t := .kReturn) (by decide)]
theorem Spec.Elifs.toks_rename : ∀ s : Elifs, (s.rename ρ).toks = s.toks.map ρ.key
  | .nil => rfl
  | .cons c b r => by
    simp only [Elifs.rename, Elifs.toks, c.toks_rename, b.toks_rename, r.toks_rename, List.map_cons, List.map_append,
      key_word ρ (t := .kElseIf) (by decide), key_word ρ (t := .kThen) (by decide)]
theorem Spec.Else.toks_rename : ∀ s : Else, (s.rename ρ).toks = s.toks.map ρ.key
  | .none => rfl
  | .some b => by simp only [Else.rename, Else.toks, b.toks_rename, List.map_cons, key_word ρ (t := .kElse) (by decide)]
theorem Spec.Block.toks_rename : ∀ s : Block, (s.rename ρ).toks = s.toks.map ρ.key
  | .empty => rfl
  | .body b => by simpa only [Block.rename, Block.toks] using b.toks_rename
theorem Spec.Body.toks_rename : ∀ s : Body, (s.rename ρ).toks = s.toks.map ρ.key
  | .one s => by simpa only [Body.rename, Body.toks] using s.toks_rename
  | .sep b p s => by
    simp only [Body.rename, Body.toks, b.toks_rename, s.toks_rename, List.map_cons, List.map_append, Sep.key_tok]
theorem Spec.OptStmt.toks_rename : ∀ s : OptStmt, (s.rename ρ).toks = s.toks.map ρ.key
  | .none => rfl
  | .some s => by simpa only [OptStmt.rename, OptStmt.toks] using s.toks_rename
end

theorem flatMap_rename {α : Type} {f : α → α} {t : α → List Key} (h : ∀ x, t (f x) = (t x).map ρ.key) (l : List α) :
    (l.map f).flatMap t = (l.flatMap t).map ρ.key := by
  induction l with
  | nil => rfl
  | cons x l ih => rw [List.map_cons, List.flatMap_cons, List.flatMap_cons, List.map_append, ih, h]

theorem Spec.Names.toks_rename (n : Names) : (n.rename ρ).toks = n.toks.map ρ.key := by
  unfold Names.rename Names.toks
  dsimp only
  rw [List.map_cons, key_ident]
  congr 1
  exact flatMap_rename ρ (f := ρ.name) (t := fun x => [word .comma, ident x]) (fun x => (rfl)) _

theorem Spec.ParamD.toks_rename (p : ParamD) : (p.rename ρ).toks = p.toks.map ρ.key := by
  unfold ParamD.rename ParamD.toks
  dsimp only
  rw [List.map_append, List.map_cons, key_ident, flatMap_rename ρ (f := Simple.rename ρ) (t := fun s : Simple => word .kEQUAL :: s.toks)]
  · cases p.byVal <;> rfl
  · intro s
    rw [s.toks_rename, List.map_cons]
    rfl

theorem Spec.ParamsD.toks_rename (p : ParamsD) : (p.rename ρ).toks = p.toks.map ρ.key := by
  unfold ParamsD.rename ParamsD.toks
  dsimp only
  rw [List.map_append, flatMap_rename ρ (f := ParamD.rename ρ) (t := fun x : ParamD => word .comma :: x.toks)]
  · cases p.first with
    | none => rfl
    | some x => exact congrArg (· ++ _) (x.toks_rename ρ)
  · intro s
    rw [s.toks_rename, List.map_cons]
    rfl

theorem directive_rename (d : Option Name) : directiveToks (d.map ρ.directive) = (directiveToks d).map ρ.key := by
  cases d <;> rfl
theorem export_rename (b : Bool) : exportToks b = (exportToks b).map ρ.key := by
  cases b <;> rfl

theorem Spec.FuncD.toks_rename (f : FuncD) : (f.rename ρ).toks = f.toks.map ρ.key := by
  unfold FuncD.rename FuncD.toks
  dsimp only
  rw [flatMap_rename ρ (f := Names.rename ρ) (t := fun n : Names => word .kVar :: (n.toks ++ [word .semi]))]
  · simp only [List.map_append, List.map_cons, List.map_nil, directive_rename, key_ident, ParamsD.toks_rename, Block.toks_rename,
      ← export_rename, key_word ρ (t := .lpar) (by decide), key_word ρ (t := .rpar) (by decide)]
    cases f.isFunc <;> rfl
  · intro s
    rw [s.toks_rename, List.map_cons, List.map_append]
    rfl

theorem Spec.VarsD.toks_rename (v : VarsD) : (v.rename ρ).toks = v.toks.map ρ.key := by
  unfold VarsD.rename VarsD.toks
  dsimp only
  simp only [List.map_append, List.map_cons, List.map_nil, directive_rename, Names.toks_rename, ← export_rename]
  rfl

theorem Spec.Program.toks_rename (p : Program) : (p.rename ρ).toks = p.toks.map ρ.key := by
  unfold Program.rename Program.toks
  dsimp only
  rw [List.map_append, Block.toks_rename, flatMap_rename ρ (t := Part.toks)]
  intro x
  cases x with
  | vars v => exact v.toks_rename ρ
  | func f => exact f.toks_rename ρ

/-! ## Grouping -/

mutual
theorem Spec.Expr.closes_rename (n : Nat) : ∀ e : Expr, (e.rename ρ).closes n ↔ e.closes n
  | .bin op a b => by simp only [Expr.rename, Expr.closes, b.closes_rename n]
  | .not e => by simp only [Expr.rename, Expr.closes, e.closes_rename n]
  | .simple s => by simpa only [Expr.rename, Expr.closes] using s.closes_rename n
  | .paren _ | .new _ | .goto _ | .ternary _ _ _ | .path _ => by simp only [Expr.rename, Expr.closes]
theorem Spec.Simple.closes_rename (n : Nat) : ∀ s : Simple, (s.rename ρ).closes n ↔ s.closes n
  | .neg e => by simp only [Simple.rename, Simple.closes, e.closes_rename n]
  | .pos e => by simp only [Simple.rename, Simple.closes, e.closes_rename n]
  | .str _ | .num _ | .bool _ | .date _ | .undef | .label _ => by simp only [Simple.rename, Simple.closes]
end

theorem Spec.Expr.opens_rename (n : Nat) (e : Expr) : (e.rename ρ).opens n ↔ e.opens n := by
  cases e <;> simp only [Expr.rename, Expr.opens]

mutual
theorem Spec.Expr.grouped_rename : ∀ e : Expr, (e.rename ρ).grouped ↔ e.grouped
  | .simple s => by simpa only [Expr.rename, Expr.grouped] using s.grouped_rename
  | .paren es => by simpa only [Expr.rename, Expr.grouped] using es.grouped_rename
  | .bin op a b => by
    simp only [Expr.rename, Expr.grouped, a.grouped_rename, b.grouped_rename, Expr.closes_rename, Expr.opens_rename]
  | .not e => by simp only [Expr.rename, Expr.grouped, e.grouped_rename, Expr.opens_rename]
  | .new n => by simpa only [Expr.rename, Expr.grouped] using n.grouped_rename
  | .goto _ => by simp only [Expr.rename, Expr.grouped]
  | .ternary c a b => by simp only [Expr.rename, Expr.grouped, c.grouped_rename, a.grouped_rename, b.grouped_rename]
  | .path p => by simpa only [Expr.rename, Expr.grouped] using p.grouped_rename
theorem Spec.Simple.grouped_rename : ∀ s : Simple, (s.rename ρ).grouped ↔ s.grouped
  | .neg e => by simp only [Simple.rename, Simple.grouped, e.grouped_rename, Expr.opens_rename]
  | .pos e => by simp only [Simple.rename, Simple.grouped, e.grouped_rename, Expr.opens_rename]
  | .str _ | .num _ | .bool _ | .date _ | .undef | .label _ => by simp only [Simple.rename, Simple.grouped]
theorem Spec.New.grouped_rename : ∀ s : New, (s.rename ρ).grouped ↔ s.grouped
  | .name _ => by simp only [New.rename, New.grouped]
  | .call _ es => by simpa only [New.rename, New.grouped] using es.grouped_rename
  | .args es => by simpa only [New.rename, New.grouped] using es.grouped_rename
theorem Spec.Path.grouped_rename : ∀ s : Path, (s.rename ρ).grouped ↔ s.grouped
  | .one i => by simpa only [Path.rename, Path.grouped] using i.grouped_rename
  | .dot p i => by simp only [Path.rename, Path.grouped, p.grouped_rename, i.grouped_rename]
theorem Spec.Ident.grouped_rename : ∀ s : Ident, (s.rename ρ).grouped ↔ s.grouped
  | .name _ | .execStr _ _ | .execVar _ _ => by simp only [Ident.rename, Ident.grouped]
  | .call _ es => by simpa only [Ident.rename, Ident.grouped] using es.grouped_rename
  | .index i e => by simp only [Ident.rename, Ident.grouped, i.grouped_rename, e.grouped_rename]
  | .exec _ e => by simpa only [Ident.rename, Ident.grouped] using e.grouped_rename
theorem Spec.Args.grouped_rename : ∀ s : Args, (s.rename ρ).grouped ↔ s.grouped
  | .one e => by simpa only [Args.rename, Args.grouped] using e.grouped_rename
  | .more es e => by simp only [Args.rename, Args.grouped, es.grouped_rename, e.grouped_rename]
theorem Spec.OptExpr.grouped_rename : ∀ s : OptExpr, (s.rename ρ).grouped ↔ s.grouped
  | .none => by simp only [OptExpr.rename, OptExpr.grouped]
  | .some e => by simpa only [OptExpr.rename, OptExpr.grouped] using e.grouped_rename
end

theorem Spec.Expr.noAssign_rename : ∀ e : Expr, (e.rename ρ).noAssign ↔ e.noAssign
  | .bin op a b => by
    have ih := a.noAssign_rename
    cases a <;> simp only [Expr.rename, Expr.noAssign] at ih ⊢ <;> exact ih
  | .simple _ | .paren _ | .not _ | .new _ | .goto _ | .ternary _ _ _ | .path _ => by simp only [Expr.rename, Expr.noAssign]

theorem Spec.Source.grouped_rename (s : Source) : (s.rename ρ).grouped ↔ s.grouped := by
  cases s <;> simp only [Source.rename, Source.grouped, Path.grouped_rename, New.grouped_rename, Expr.grouped_rename]

mutual
theorem Spec.Stmt.grouped_rename : ∀ s : Stmt, (s.rename ρ).grouped ↔ s.grouped
  | .assign p e => by simp only [Stmt.rename, Stmt.grouped, Path.grouped_rename, Expr.grouped_rename]
  | .expr e => by simp only [Stmt.rename, Stmt.grouped, Expr.grouped_rename, Expr.noAssign_rename]
  | .ifS c t es e => by
    simp only [Stmt.rename, Stmt.grouped, Expr.grouped_rename, t.grouped_rename, es.grouped_rename, e.grouped_rename]
  | .forEach n s b => by simp only [Stmt.rename, Stmt.grouped, Source.grouped_rename, b.grouped_rename]
  | .forTo a z b => by simp only [Stmt.rename, Stmt.grouped, Expr.grouped_rename, b.grouped_rename]
  | .while c b => by simp only [Stmt.rename, Stmt.grouped, Expr.grouped_rename, b.grouped_rename]
  | .tryS b h => by simp only [Stmt.rename, Stmt.grouped, b.grouped_rename, h.grouped_rename]
  | .cont | .brk => by simp only [Stmt.rename, Stmt.grouped]
  | .throw e => by simp only [Stmt.rename, Stmt.grouped, OptExpr.grouped_rename]
  | .ret e => by simp only [Stmt.rename, Stmt.grouped, OptExpr.grouped_rename]
theorem Spec.Elifs.grouped_rename : ∀ s : Elifs, (s.rename ρ).grouped ↔ s.grouped
  | .nil => by simp only [Elifs.rename, Elifs.grouped]
  | .cons c b r => by simp only [Elifs.rename, Elifs.grouped, Expr.grouped_rename, b.grouped_rename, r.grouped_rename]
theorem Spec.Else.grouped_rename : ∀ s : Else, (s.rename ρ).grouped ↔ s.grouped
  | .none => by simp only [Else.rename, Else.grouped]
  | .some b => by simp only [Else.rename, Else.grouped, b.grouped_rename]
theorem Spec.Block.grouped_rename : ∀ s : Block, (s.rename ρ).grouped ↔ s.grouped
  | .empty => by simp only [Block.rename, Block.grouped]
  | .body b => by simp only [Block.rename, Block.grouped, b.grouped_rename]
theorem Spec.Body.grouped_rename : ∀ s : Body, (s.rename ρ).grouped ↔ s.grouped
  | .one s => by simp only [Body.rename, Body.grouped, s.grouped_rename]
  | .sep b p s => by simp only [Body.rename, Body.grouped, b.grouped_rename, s.grouped_rename]
theorem Spec.OptStmt.grouped_rename : ∀ s : OptStmt, (s.rename ρ).grouped ↔ s.grouped
  | .none => by simp only [OptStmt.rename, OptStmt.grouped]
  | .some s => by simp only [OptStmt.rename, OptStmt.grouped, s.grouped_rename]
end

mutual
theorem Spec.Stmt.clean_rename : ∀ s : Stmt, (s.rename ρ).clean ↔ s.clean
  | .ifS c t es e => by simp only [Stmt.rename, Stmt.clean, t.clean_rename, es.clean_rename, e.clean_rename]
  | .forEach n s b => by simp only [Stmt.rename, Stmt.clean, b.clean_rename]
  | .forTo a z b => by simp only [Stmt.rename, Stmt.clean, b.clean_rename]
  | .while c b => by simp only [Stmt.rename, Stmt.clean, b.clean_rename]
  | .tryS b h => by simp only [Stmt.rename, Stmt.clean, b.clean_rename, h.clean_rename]
  | .assign _ _ | .expr _ | .cont | .brk | .throw _ | .ret _ => by simp only [Stmt.rename, Stmt.clean]
theorem Spec.Elifs.clean_rename : ∀ s : Elifs, (s.rename ρ).clean ↔ s.clean
  | .nil => by simp only [Elifs.rename, Elifs.clean]
  | .cons c b r => by simp only [Elifs.rename, Elifs.clean, b.clean_rename, r.clean_rename]
theorem Spec.Else.clean_rename : ∀ s : Else, (s.rename ρ).clean ↔ s.clean
  | .none => by simp only [Else.rename, Else.clean]
  | .some b => by simp only [Else.rename, Else.clean, b.clean_rename]
theorem Spec.Block.clean_rename : ∀ s : Block, (s.rename ρ).clean ↔ s.clean
  | .empty => by simp only [Block.rename, Block.clean]
  | .body b => by simp only [Block.rename, Block.clean, b.clean_rename]
theorem Spec.Body.clean_rename : ∀ s : Body, (s.rename ρ).clean ↔ s.clean
  | .one s => by simp only [Body.rename, Body.clean, s.clean_rename]
  | .sep .empty p s => by simp only [Body.rename, Block.rename, Body.clean]
  | .sep (.body b) p s => by simp only [Body.rename, Block.rename, Body.clean, b.clean_rename, s.clean_rename]
theorem Spec.OptStmt.clean_rename : ∀ s : OptStmt, (s.rename ρ).clean ↔ s.clean
  | .none => by simp only [OptStmt.rename, OptStmt.clean]
  | .some s => by simp only [OptStmt.rename, OptStmt.clean, s.clean_rename]
end

theorem Spec.ParamD.grouped_rename (p : ParamD) : (p.rename ρ).grouped ↔ p.grouped := by
  unfold ParamD.rename ParamD.grouped
  simp only [List.mem_map, forall_exists_index, and_imp, forall_apply_eq_imp_iff₂, Simple.grouped_rename, ← List.map_dropLast,
    Simple.closes_rename]

theorem Spec.ParamsD.list_rename (p : ParamsD) : (p.rename ρ).list = p.list.map (ParamD.rename ρ) := by
  unfold ParamsD.rename ParamsD.list
  cases p.first <;> simp

theorem Spec.FuncD.grouped_rename (f : FuncD) : (f.rename ρ).grouped ↔ f.grouped := by
  unfold FuncD.grouped
  rw [show (f.rename ρ).params = f.params.rename ρ from rfl, show (f.rename ρ).body = f.body.rename ρ from rfl, ParamsD.list_rename,
    Block.grouped_rename]
  simp only [List.mem_map, forall_exists_index, and_imp, forall_apply_eq_imp_iff₂, ParamD.grouped_rename]

theorem Spec.Program.funcs_rename (p : Program) : (p.rename ρ).funcs = p.funcs.map (FuncD.rename ρ) := by
  unfold Program.funcs Program.rename
  dsimp only
  induction p.parts with
  | nil => rfl
  | cons x l ih => cases x <;> simp [Part.rename, Part.funcs, ih]

theorem Spec.Program.grouped_rename (p : Program) : (p.rename ρ).grouped ↔ p.grouped := by
  unfold Program.grouped
  rw [Program.funcs_rename, show (p.rename ρ).body = p.body.rename ρ from rfl, Block.grouped_rename]
  simp only [List.mem_map, forall_exists_index, and_imp, forall_apply_eq_imp_iff₂, FuncD.grouped_rename]

theorem Spec.Program.clean_rename (p : Program) : (p.rename ρ).clean ↔ p.clean := by
  unfold Program.clean
  rw [Program.funcs_rename, show (p.rename ρ).body = p.body.rename ρ from rfl, Block.clean_rename]
  simp only [List.mem_map, forall_exists_index, and_imp, forall_apply_eq_imp_iff₂, FuncD.clean]
  simp only [FuncD.rename, Block.clean_rename]

end
end Verif
