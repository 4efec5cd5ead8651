import Verif.Proofs.LR.Good
import Verif.Proofs.LR.Chain
import Verif.Spec.Rules
/-!
# What the nodes of a tree mean

`Sem X b ks la σ v σ'`: the keys `ks` form a construct of symbol `X`, read from state `b` before the token `la`; its
value is `v`, and the state of the AstNode goes from `σ` to `σ'`.
-/
namespace Verif.LR
open Tables Spec Lexer

/-- Number of the first token. -/
def nextK (ks : List Key) (la : Nat) : Nat :=
  match ks with
  | [] => la
  | k :: _ => tokNum k.kind

/-- State of the AstNode with counters that are not negative. -/
def St.at (M : Module) (n m : Nat) (f : Bool) : St := ⟨M, n, m, f⟩

/-- Internal number of an operator. -/
def opNum (op : Op) : Nat := tnum (opTerminal op)

structure ExprSem (b la : Nat) (e : Expr) : Prop where
  grouped : e.grouped
  closes : ∀ op, la = opNum op → e.closes (level op)
  opens : ∀ op x y, e = .bin op x y → follow b [111, opNum op] ≠ none
  noAssign : follow b [119, 40] ≠ none → e.noAssign
  path : ∀ p, e = .path p → la = 40 → follow b [119, 40] = none

structure SimpleSem (la : Nat) (s : Simple) : Prop where
  grouped : s.grouped
  closes : ∀ op, la = opNum op → s.closes (level op)

/-- The effect of a part of a block on the state, and the rules that were checked. -/
def Eff (σ σ' : St) (whiles : Nat) (breaks throws : Nat → Prop) (returns : Bool → Prop) : Prop :=
  ∀ M n m f, σ = St.at M n m f → σ' = St.at M (n + whiles) m f ∧ breaks n ∧ throws m ∧ returns f

abbrev Stmt.eff (s : Stmt) (σ σ' : St) : Prop :=
  Eff σ σ' s.whiles (fun n => s.breaksOk n) (fun n => s.throwsOk n) (fun f => s.returnsOk f)
abbrev Elifs.eff (s : Elifs) (σ σ' : St) : Prop :=
  Eff σ σ' s.whiles (fun n => s.breaksOk n) (fun n => s.throwsOk n) (fun f => s.returnsOk f)
abbrev Else.eff (s : Else) (σ σ' : St) : Prop :=
  Eff σ σ' s.whiles (fun n => s.breaksOk n) (fun n => s.throwsOk n) (fun f => s.returnsOk f)
abbrev Block.eff (s : Block) (σ σ' : St) : Prop :=
  Eff σ σ' s.whiles (fun n => s.breaksOk n) (fun n => s.throwsOk n) (fun f => s.returnsOk f)
abbrev Body.eff (s : Body) (σ σ' : St) : Prop :=
  Eff σ σ' s.whiles (fun n => s.breaksOk n) (fun n => s.throwsOk n) (fun f => s.returnsOk f)
abbrev OptStmt.eff (s : OptStmt) (σ σ' : St) : Prop :=
  Eff σ σ' s.whiles (fun n => s.breaksOk n) (fun n => s.throwsOk n) (fun f => s.returnsOk f)

/-- The checks and the effect of a procedure or function. -/
structure FuncEff (f : FuncD) (σ σ' : St) : Prop where
  eff : ∀ M n m g, σ = St.at M n m g → σ' = St.at M (n + f.body.whiles) m (if f.isFunc then false else g) ∧
    f.body.breaksOk n ∧ f.body.throwsOk m ∧ f.body.returnsOk (f.isFunc || g)
  colons : f.body.colonsOk
  grouped : f.grouped
  nodup : f.locals.Nodup

/-- The effect of a declaration. -/
inductive PartEff : Part → St → St → Prop
  | vars (v : VarsD) {M n m g} : M.body = [] →
      ((M.globals.map GVar.name).Nodup → ((M.globals ++ v.tree).map GVar.name).Nodup) →
      PartEff (.vars v) (St.at M n m g) (St.at ⟨M.globals ++ v.tree, []⟩ n m g)
  | func (f : FuncD) (d : FuncDecl) {M n m g} {σ1 : St} : FuncEff f (St.at M n m g) σ1 → f.shows d →
      (∀ s, M.body.getLast? ≠ some (.stm s)) →
      PartEff (.func f) (St.at M n m g) { σ1 with mod := ⟨M.globals, M.body ++ [.func d]⟩ }

inductive PartsEff : List Part → St → St → Prop
  | nil (σ : St) : PartsEff [] σ σ
  | snoc {ps p σ σ1 σ2} : PartsEff ps σ σ1 → PartEff p σ1 σ2 → PartsEff (ps ++ [p]) σ σ2

structure ProgEff (P : Program) (σ σ' : St) : Prop where
  parts : ∃ σ1, PartsEff P.parts σ σ1 ∧ ∀ M n m g, σ1 = St.at M n m g → ∃ l, P.body.shows l ∧
    P.body.breaksOk n ∧ P.body.throwsOk m ∧ P.body.returnsOk g ∧
    σ' = St.at ⟨M.globals, M.body ++ l.map .stm⟩ (n + P.body.whiles) m g
  colons : P.body.colonsOk
  grouped : P.body.grouped

def varsToks (l : List Names) : List Key := l.flatMap fun n => word .kVar :: (n.toks ++ [word .semi])

def Sem (X b : Nat) (ks : List Key) (la : Nat) (σ : St) (v : SV) (σ' : St) : Prop :=
  match X with
  -- expressions
  | 111 => σ' = σ ∧ ∃ e : Expr, ks = e.toks ∧ v.stmt = e.tree ∧ ExprSem b la e
  | 114 => σ' = σ ∧ ∃ s : Simple, ks = s.toks ∧ v.stmt = s.tree ∧ SimpleSem la s
  | 110 => σ' = σ ∧ ∃ e : Args, ks = e.toks ∧ v.exprs = e.tree ∧ e.grouped
  | 117 => σ' = σ ∧ ∃ e : OptExpr, ks = e.toks ∧ v.stmt = e.tree ∧ e.grouped
  | 118 => σ' = σ ∧ ((∃ s, ks = [literal .kString (.str s)] ∧ v.stmt = .str s) ∨
      (∃ n, ks = [ident n] ∧ v.stmt = .var n false false))
  | 119 => σ' = σ ∧ ∃ p : Path, ks = p.toks ∧ v.stmt = p.tree ∧ p.grouped
  | 127 => σ' = σ ∧ ∃ i : Ident, ks = i.toks ∧ v.stmt = i.tree ∧ i.grouped
  | 121 => σ' = σ ∧ ∃ n : New, ks = n.toks ∧ v.stmt = n.tree ∧ n.grouped
  | 122 => σ' = σ ∧ ∃ c x y : Expr, ks = (Expr.ternary c x y).toks ∧ v.stmt = (Expr.ternary c x y).tree ∧
      (Expr.ternary c x y).grouped
  | 120 => σ' = σ ∧ ∃ s : Source, ks = s.toks ∧ v.stmt = s.tree ∧ s.grouped
  | 128 => σ' = σ ∧ ∃ n, ks = [named .kGoToLabel n] ∧ v.goToLabel = .label n
  -- statements
  | 103 => ∃ s : Stmt, ks = s.toks ∧ s.shows v.stmt ∧ s.grouped ∧ s.colonsOk ∧ Stmt.eff s σ σ'
  | 106 => ∃ s : Stmt, ks = s.toks ∧ s.shows v.stmt_if ∧ s.grouped ∧ s.colonsOk ∧ Stmt.eff s σ σ'
  | 104 => ∃ s : Stmt, ks = s.toks ∧ s.shows v.stmt_loop ∧ s.grouped ∧ s.colonsOk ∧ Stmt.eff s σ σ'
  | 126 => ∃ s : Stmt, ks = s.toks ∧ s.shows v.stmt ∧ s.grouped ∧ s.colonsOk ∧ Stmt.eff s σ σ'
  | 107 => ∃ s : Elifs, ks = s.toks ∧ s.shows v.opt_elseif_list.reverse ∧ s.grouped ∧ s.colonsOk ∧ Elifs.eff s σ σ'
  | 108 => ∃ s : Else, ks = s.toks ∧ s.shows v.opt_else ∧ s.grouped ∧ s.colonsOk ∧ Else.eff s σ σ'
  | 101 => ∃ s : Body, ks = s.toks ∧ (Block.body s).shows v.body ∧ s.grouped ∧ s.colonsOk ∧ Body.eff s σ σ'
  | 102 => ∃ s : Block, ks = s.toks ∧ s.shows v.opt_body ∧ (s ≠ .empty → v.body = v.opt_body) ∧
      s.grouped ∧ s.colonsOk ∧ Block.eff s σ σ'
  | 109 => ∃ s : OptStmt, ks = s.toks ∧ s.exactly (if v.stmt.isNil then [] else [v.stmt]) ∧
      s.grouped ∧ s.colonsOk ∧ OptStmt.eff s σ σ'
  | 129 => σ' = σ ∧ ∃ p : Sep, ks = [p.tok] ∧ v.token.literal = (match p with | .semi => [';'] | .colon => [':'])
  | 130 => σ' = σ ∧ ks = [word .semi] ∧ v.token.literal = [';']
  | 131 => σ' = σ ∧ ks = [word .colon] ∧ v.token.literal = [':']
  | 133 => σ' = σ ∧ ks = [word .comma]
  | 141 => σ' = σ ∧ ks = [word .dot]
  | 138 => ks = [] ∧ ∀ M n m f, σ = St.at M n m f → σ' = St.at M (n + 1) m f
  | 139 => ks = [] ∧ ∀ M n m f, σ = St.at M n m f → σ' = St.at M (n + 1) m f
  | 140 => ks = [] ∧ ∀ M n m f, σ = St.at M n m f → σ' = St.at M (n + 1) m f
  | 142 => ks = [] ∧ ∀ M n m f, σ = St.at M n m f → σ' = St.at M n (m + 1) f
  -- declarations
  | 112 => σ' = σ ∧ ∃ e, ks = exportToks e ∧ v.opt_export.isSome = e
  | 113 => σ' = σ ∧ ∃ d, ks = directiveToks d ∧ v.opt_directive.map Tok.literal = d
  | 125 => σ' = σ ∧ ∃ n : Names, ks = n.toks ∧ v.identifiers.map Tok.literal = n.list
  | 124 => σ' = σ ∧ ∃ l : List Names, ks = varsToks l ∧ v.explicit_variables = some (l.flatMap Names.list) ∧
      (l.flatMap Names.list).Nodup
  | 123 => σ' = σ ∧ ∃ l : List Names, ks = varsToks l ∧ v.opt_explicit_variables = some (l.flatMap Names.list) ∧
      (l.flatMap Names.list).Nodup
  | 116 => σ' = σ ∧ ∃ p : ParamD, ks = p.toks ∧ v.dparam = p.tree ∧ p.grouped ∧
      (la = 40 → ∀ s, p.defaults.getLast? = some s → s.closes (level .eq))
  | 115 => σ' = σ ∧ ∃ p : ParamsD, ks = p.toks ∧ v.dparams = p.list.map ParamD.tree ∧ ∀ x ∈ p.list, x.grouped
  | 137 => ks = [] ∧ ∀ M n m f, σ = St.at M n m f → σ' = St.at M n m true
  | 132 => σ' = σ ∧ ∃ d : VarsD, ks = d.toks ∧ v.global_variables = d.tree
  | 105 => ∃ (f : FuncD) (d : FuncDecl), ks = f.toks ∧ v.funcProc = some d ∧ f.shows d ∧ FuncEff f σ σ'
  | 136 => ∃ p : Part, ks = p.toks ∧ ∀ M n m g, σ = St.at M n m g → PartEff p σ σ'
  | 135 => ∃ ps : List Part, ks = ps.flatMap Part.toks ∧ ∀ M n m g, σ = St.at M n m g → PartsEff ps σ σ'
  | 134 => ∃ P : Program, ks = P.toks ∧ ∀ M n m g, σ = St.at M n m g → ProgEff P σ σ'
  -- tokens
  | X => σ' = σ ∧ ∃ x : Nat × Tok, ks = [key x] ∧ tokNum x.1 = X ∧ Good x ∧ v = { token := x.2 }

inductive SemF : Nat → List Nat → List Key → Nat → St → List SV → St → Nat → Prop
  | nil (b la : Nat) (σ : St) : SemF b [] [] la σ [] σ b
  | cons {X xs b b1 k1 k2 la σ v σ1 vs σ2 e} : Sem X b k1 (nextK k2 la) σ v σ1 → trans b X = some b1 →
      SemF b1 xs k2 la σ1 vs σ2 e → SemF b (X :: xs) (k1 ++ k2) la σ (v :: vs) σ2 e

theorem sem_tok {X : Nat} (hX : X < 100) {b : Nat} {ks : List Key} {la : Nat} {σ σ' : St} {v : SV} :
    Sem X b ks la σ v σ' ↔
      (σ' = σ ∧ ∃ x : Nat × Tok, ks = [key x] ∧ tokNum x.1 = X ∧ Good x ∧ v = { token := x.2 }) := by
  unfold Sem
  split <;> first | omega | rfl

/-- A token with nothing but its number. -/
theorem sem_word (a : Terminal) (ha : a.kind ∉ [Terminal.ktoken_identifier, .kGoToLabel, .kDirective, .kExecute, .kNumber, .kString,
      .kDate, .kTrue, .kFalse].map Terminal.kind) {X b : Nat} (hX : X = tnum a) {ks : List Key} {la : Nat} {σ σ' : St} {v : SV}
    (h : Sem X b ks la σ v σ') : σ' = σ ∧ ks = [word a] ∧ v = { token := v.token } ∧
      (a = .colon → v.token.literal = [':']) ∧ (a = .semi → v.token.literal = [';']) := by
  subst hX
  obtain ⟨h1, x, h2, h3, h4, h5⟩ := (sem_tok (by cases a <;> decide)).1 h
  have hk := tnum_tokNum h3
  refine ⟨h1, ?_, by rw [h5], ?_, ?_⟩
  · rw [h2, key, hk, if_neg, if_neg]
    · rfl
    · intro hm; exact ha (by revert hm; simp only [List.map_cons, List.map_nil, List.mem_cons]; tauto)
    · intro hm; exact ha (by revert hm; simp only [List.map_cons, List.map_nil, List.mem_cons]; tauto)
  · rintro rfl; rw [h5]; exact h4.colon hk
  · rintro rfl; rw [h5]; exact h4.semi hk

/-- A token whose text counts. -/
theorem sem_named (a : Terminal) (ha : a ∈ [Terminal.ktoken_identifier, .kGoToLabel, .kDirective, .kExecute])
    {X b : Nat} (hX : X = tnum a) {ks : List Key} {la : Nat} {σ σ' : St} {v : SV}
    (h : Sem X b ks la σ v σ') : σ' = σ ∧ ks = [named a v.token.literal] := by
  subst hX
  obtain ⟨h1, x, h2, h3, h4, h5⟩ := (sem_tok (by cases a <;> decide)).1 h
  have hk := tnum_tokNum h3
  refine ⟨h1, ?_⟩
  rw [h2, key, hk, if_pos (List.mem_map_of_mem ha), h5]; rfl

/-- A literal. -/
theorem sem_literal (a : Terminal) (ha : a ∈ [Terminal.kNumber, .kString, .kDate, .kTrue, .kFalse])
    {X b : Nat} (hX : X = tnum a) {ks : List Key} {la : Nat} {σ σ' : St} {v : SV}
    (h : Sem X b ks la σ v σ') : σ' = σ ∧ ks = [literal a v.token.value] ∧ Good (a.kind, v.token) := by
  subst hX
  obtain ⟨h1, x, h2, h3, h4, h5⟩ := (sem_tok (by cases a <;> decide)).1 h
  have hk := tnum_tokNum h3
  refine ⟨h1, ?_, ?_⟩
  · rw [h2, key, hk, if_neg, if_pos (List.mem_map_of_mem ha), h5]; rfl
    simp only [List.mem_cons, List.not_mem_nil, or_false] at ha
    rcases ha with rfl | rfl | rfl | rfl | rfl <;> decide
  · rw [h5, ← hk]; exact h4

end Verif.LR
