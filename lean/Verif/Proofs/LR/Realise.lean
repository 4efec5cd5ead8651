import Verif.Proofs.LR.Good
import Verif.Spec.Syntax
/-!
# Every token of a program is the key of a token
-/
namespace Verif.LR
open Spec

/-- `k` is the key of a token whose value fits its kind. -/
def Real (k : Key) : Prop := ∃ x, key x = k ∧ Good x

def AllReal (l : List Key) : Prop := ∀ k ∈ l, Real k

@[simp] theorem allReal_nil : AllReal [] := nofun
@[simp] theorem allReal_cons (k : Key) (l : List Key) : AllReal (k :: l) ↔ Real k ∧ AllReal l := by simp [AllReal]
@[simp] theorem allReal_append (l m : List Key) : AllReal (l ++ m) ↔ AllReal l ∧ AllReal m := by
  simp only [AllReal, List.mem_append, or_imp, forall_and]

theorem allReal_flatMap {α : Type} {l : List α} {f : α → List Key} (h : ∀ x ∈ l, AllReal (f x)) : AllReal (l.flatMap f) := by
  intro k hk
  obtain ⟨x, hx, hk⟩ := List.mem_flatMap.1 hk
  exact h x hx k hk

theorem real_word (a : Terminal) (h : a ∉ [Terminal.ktoken_identifier, .kGoToLabel, .kDirective, .kExecute, .kNumber, .kString, .kDate, .kTrue, .kFalse]) :
    Real (word a) := by
  refine ⟨(a.kind, ⟨if a = .colon then [':'] else [';'], .nil, [], false⟩), ?_, ?_⟩
  · cases a <;> first | rfl | exact absurd h (by decide)
  · refine ⟨?_, ?_, ?_, ?_, ?_, fun hk => if_pos ?_, fun hk => if_neg ?_⟩
    case refine_6 => revert hk h; cases a <;> decide
    case refine_7 => revert hk h; cases a <;> decide
    all_goals intro hk; exfalso; revert hk h; cases a <;> decide

theorem real_named (a : Terminal) (h : a ∈ [Terminal.ktoken_identifier, .kGoToLabel, .kDirective, .kExecute]) (n : Name) : Real (named a n) := by
  refine ⟨(a.kind, ⟨n, .nil, [], false⟩), ?_, ?_⟩
  · unfold key
    rw [if_pos (List.mem_map_of_mem h)]; rfl
  · refine ⟨?_, ?_, ?_, ?_, ?_, ?_, ?_⟩ <;> intro hk <;> exfalso <;> dsimp only at hk <;> revert hk h <;> cases a <;> decide

@[simp] theorem real_ident (n : Name) : Real (ident n) := real_named _ (by decide) n
@[simp] theorem real_label (n : Name) : Real (named .kGoToLabel n) := real_named _ (by decide) n
@[simp] theorem real_directive (n : Name) : Real (named .kDirective n) := real_named _ (by decide) n
@[simp] theorem real_execute (n : Name) : Real (named .kExecute n) := real_named _ (by decide) n

theorem real_literal {a : Terminal} {v : Val} (h : a ∈ [Terminal.kNumber, .kString, .kDate, .kTrue, .kFalse])
    (hg : Good (a.kind, ⟨[], v, [], false⟩)) : Real (literal a v) := by
  refine ⟨_, ?_, hg⟩
  unfold key
  rw [if_neg, if_pos (List.mem_map_of_mem h)]
  · rfl
  · dsimp only; revert h; clear hg; cases a <;> decide

@[simp] theorem real_str (s : List Char) : Real (literal .kString (.str s)) :=
  real_literal (by decide) ⟨nofun, fun _ => ⟨s, rfl⟩, nofun, nofun, nofun, nofun, nofun⟩
@[simp] theorem real_num (x : F64) : Real (literal .kNumber (.num x)) :=
  real_literal (by decide) ⟨fun _ => ⟨x, rfl⟩, nofun, nofun, nofun, nofun, nofun, nofun⟩
@[simp] theorem real_date (x : Time) : Real (literal .kDate (.date x)) :=
  real_literal (by decide) ⟨nofun, nofun, fun _ => ⟨x, rfl⟩, nofun, nofun, nofun, nofun⟩
@[simp] theorem real_true : Real (literal .kTrue (.bool true)) :=
  real_literal (by decide) ⟨nofun, nofun, nofun, fun _ => rfl, nofun, nofun, nofun⟩
@[simp] theorem real_false : Real (literal .kFalse (.bool false)) :=
  real_literal (by decide) ⟨nofun, nofun, nofun, nofun, fun _ => rfl, nofun, nofun⟩

theorem real_op (op : Op) : Real (word (opTerminal op)) := real_word _ (by cases op <;> decide)
theorem real_sep (p : Sep) : Real p.tok := by cases p <;> exact real_word _ (by decide)

mutual
theorem Expr.real : (e : Expr) → AllReal e.toks
  | .simple s => by rw [Expr.toks]; exact Simple.real s
  | .paren es => by simp [Expr.toks, real_word, Args.real es]
  | .bin op a b => by simp [Expr.toks, real_op, Expr.real a, Expr.real b]
  | .not e => by simp [Expr.toks, real_word, Expr.real e]
  | .new n => by rw [Expr.toks]; exact New.real n
  | .goto l => by simp [Expr.toks, real_word]
  | .ternary c a b => by simp [Expr.toks, real_word, Expr.real a, Expr.real b, Expr.real c]
  | .path p => by rw [Expr.toks]; exact Path.real p
theorem Simple.real : (s : Simple) → AllReal s.toks
  | .str s => by simp [Simple.toks]
  | .num x => by simp [Simple.toks]
  | .neg e => by simp [Simple.toks, real_word, Expr.real e]
  | .pos e => by simp [Simple.toks, real_word, Expr.real e]
  | .bool true => by simp [Simple.toks]
  | .bool false => by simp [Simple.toks]
  | .date t => by simp [Simple.toks]
  | .undef => by simp [Simple.toks, real_word]
  | .label n => by simp [Simple.toks]
theorem New.real : (n : New) → AllReal n.toks
  | .name c => by simp [New.toks, real_word]
  | .call c es => by simp [New.toks, real_word, Args.real es]
  | .args es => by simp [New.toks, real_word, Args.real es]
theorem Path.real : (p : Path) → AllReal p.toks
  | .one i => by rw [Path.toks]; exact Ident.real i
  | .dot p i => by simp [Path.toks, real_word, Path.real p, Ident.real i]
theorem Ident.real : (i : Ident) → AllReal i.toks
  | .name n => by simp [Ident.toks]
  | .call n es => by simp [Ident.toks, real_word, Args.real es]
  | .index i e => by simp [Ident.toks, real_word, Ident.real i, Expr.real e]
  | .execStr w s => by simp [Ident.toks]
  | .execVar w n => by simp [Ident.toks]
  | .exec w e => by simp [Ident.toks, real_word, Expr.real e]
theorem Args.real : (es : Args) → AllReal es.toks
  | .one e => by rw [Args.toks]; exact OptExpr.real e
  | .more es e => by simp [Args.toks, real_word, Args.real es, OptExpr.real e]
theorem OptExpr.real : (e : OptExpr) → AllReal e.toks
  | .none => by simp [OptExpr.toks]
  | .some e => by rw [OptExpr.toks]; exact Expr.real e
end

theorem Source.real : (s : Source) → AllReal s.toks
  | .path p => Path.real p
  | .new n => New.real n
  | .parenNew n => by simp [Source.toks, real_word, New.real n]
  | .ternary c a b => Expr.real _

mutual
theorem Stmt.real : (s : Stmt) → AllReal s.toks
  | .assign p e => by simp [Stmt.toks, real_word, Path.real p, Expr.real e]
  | .expr e => by rw [Stmt.toks]; exact Expr.real e
  | .ifS c t es e => by simp [Stmt.toks, real_word, Expr.real c, Block.real t, Elifs.real es, Else.real e]
  | .forEach n s b => by simp [Stmt.toks, real_word, Source.real s, Block.real b]
  | .forTo a z b => by simp [Stmt.toks, real_word, Expr.real a, Expr.real z, Block.real b]
  | .while c b => by simp [Stmt.toks, real_word, Expr.real c, Block.real b]
  | .tryS b h => by simp [Stmt.toks, real_word, Block.real b, Block.real h]
  | .cont => by simp [Stmt.toks, real_word]
  | .brk => by simp [Stmt.toks, real_word]
  | .throw e => by simp [Stmt.toks, real_word, OptExpr.real e]
  | .ret e => by simp [Stmt.toks, real_word, OptExpr.real e]
theorem Elifs.real : (s : Elifs) → AllReal s.toks
  | .nil => by simp [Elifs.toks]
  | .cons c b r => by simp [Elifs.toks, real_word, Expr.real c, Block.real b, Elifs.real r]
theorem Else.real : (s : Else) → AllReal s.toks
  | .none => by simp [Else.toks]
  | .some b => by simp [Else.toks, real_word, Block.real b]
theorem Block.real : (s : Block) → AllReal s.toks
  | .empty => by simp [Block.toks]
  | .body b => by rw [Block.toks]; exact Body.real b
theorem Body.real : (s : Body) → AllReal s.toks
  | .one s => by rw [Body.toks]; exact Stmt.real s
  | .sep b p s => by simp [Body.toks, real_sep, Block.real b, OptStmt.real s]
theorem OptStmt.real : (s : OptStmt) → AllReal s.toks
  | .none => by simp [OptStmt.toks]
  | .some s => by rw [OptStmt.toks]; exact Stmt.real s
end

theorem Names.real (n : Names) : AllReal n.toks := by
  unfold Names.toks
  rw [allReal_cons]
  exact ⟨real_ident _, allReal_flatMap fun x _ => by simp [real_word]⟩

theorem ParamD.real (p : ParamD) : AllReal p.toks := by
  unfold ParamD.toks
  rw [allReal_append, allReal_cons]
  refine ⟨?_, real_ident _, allReal_flatMap fun x _ => by simp [real_word, Simple.real]⟩
  split <;> simp [real_word]

theorem ParamsD.real (p : ParamsD) : AllReal p.toks := by
  unfold ParamsD.toks
  rw [allReal_append]
  refine ⟨?_, allReal_flatMap fun x _ => by simp [real_word, ParamD.real]⟩
  split
  · simp
  · exact ParamD.real _

theorem directive_real (d : Option Name) : AllReal (directiveToks d) := by cases d <;> simp [directiveToks]
theorem export_real (b : Bool) : AllReal (exportToks b) := by cases b <;> simp [exportToks, real_word]

theorem FuncD.real (f : FuncD) : AllReal f.toks := by
  have : AllReal (f.vars.flatMap fun n => word .kVar :: (n.toks ++ [word .semi])) :=
    allReal_flatMap fun x _ => by simp [real_word, Names.real]
  have h1 : Real (word (if f.isFunc then .kFunction else .kProcedure)) := real_word _ (by split <;> decide)
  have h2 : Real (word (if f.isFunc then .kEndFunction else .kEndProcedure)) := real_word _ (by split <;> decide)
  simp [FuncD.toks, directive_real, export_real, ParamsD.real, Block.real, this, real_word, h1, h2]

theorem VarsD.real (v : VarsD) : AllReal v.toks := by
  simp [VarsD.toks, directive_real, export_real, Names.real, real_word]

theorem Program.real (P : Program) : AllReal P.toks := by
  unfold Program.toks
  rw [allReal_append]
  refine ⟨allReal_flatMap fun x _ => ?_, Block.real _⟩
  cases x
  · exact VarsD.real _
  · exact FuncD.real _

theorem AllReal.tokens {l : List Key} (h : AllReal l) : ∃ m : List (Nat × Tok), m.map key = l ∧ ∀ x ∈ m, Good x := by
  induction l with
  | nil => exact ⟨[], rfl, nofun⟩
  | cons k l ih =>
    rw [allReal_cons] at h
    obtain ⟨x, h1, h2⟩ := h.1
    obtain ⟨m, h3, h4⟩ := ih h.2
    refine ⟨x :: m, by rw [List.map_cons, h1, h3], ?_⟩
    intro y hy
    rcases List.mem_cons.1 hy with rfl | hy
    · exact h2
    · exact h4 y hy

end Verif.LR
