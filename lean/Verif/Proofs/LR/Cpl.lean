import Verif.Proofs.LR.Syn
import Verif.Spec.Faults
/-!
# Completeness: definitions

`Cx b la y`: any token list with the keys of the syntax `y` has a derivation tree that reads back as `y`, that the
automaton builds when it starts in state `b` and the token after it is `la`, and whose actions, under the rules
`Wants y`, succeed and give what `Gives y` says.  Without the rules `Wants y` the actions give what `GivesE y` says, which
includes the error that is recorded.
-/
namespace Verif.LR
open Tables Spec Lexer

/-- The action of production `p` succeeds without error and gives `Φ`, whatever is in the slots above the stack. -/
def ActWp (p : Nat) (ws : List SV) (σ : St) (Φ : SV → St → Prop) : Prop :=
  ∀ junk a, view a = σ →
    ∃ v a', act p (fun i => (ws ++ junk).getD (i - 1) {}) ((ws ++ junk).headD {}) a = .ok (v, a') ∧ a'.err = a.err ∧ Φ v (view a')

mutual
/-- All actions of the tree succeed, and the value and the state at the end satisfy `Φ`. -/
def Tree.Runs : Tree → St → (SV → St → Prop) → Prop
  | .leaf _ t, σ, Φ => Φ { token := t } σ
  | .node p kids, σ, Φ => RunsL kids σ (fun ws σ1 => ActWp p ws σ1 Φ)
def RunsL : List Tree → St → (List SV → St → Prop) → Prop
  | [], σ, Ψ => Ψ [] σ
  | T :: ts, σ, Ψ => T.Runs σ (fun v σ1 => RunsL ts σ1 (fun vs => Ψ (v :: vs)))
end

theorem ActWp.mono {p : Nat} {ws : List SV} {σ : St} {Φ Φ' : SV → St → Prop} (h : ∀ v s, Φ v s → Φ' v s)
    (g : ActWp p ws σ Φ) : ActWp p ws σ Φ' := by
  intro junk a h1
  obtain ⟨v, a', h3, h4, h5⟩ := g junk a h1
  exact ⟨v, a', h3, h4, h _ _ h5⟩

mutual
theorem Tree.Runs.mono : {T : Tree} → {σ : St} → {Φ Φ' : SV → St → Prop} → (∀ v s, Φ v s → Φ' v s) → T.Runs σ Φ → T.Runs σ Φ'
  | .leaf _ _, σ, Φ, Φ', h, g => by rw [Tree.Runs] at g ⊢; exact h _ _ g
  | .node p kids, σ, Φ, Φ', h, g => by
    rw [Tree.Runs] at g ⊢
    exact RunsL.mono (fun ws s hw => ActWp.mono h hw) g
theorem RunsL.mono : {ts : List Tree} → {σ : St} → {Ψ Ψ' : List SV → St → Prop} → (∀ v s, Ψ v s → Ψ' v s) → RunsL ts σ Ψ → RunsL ts σ Ψ'
  | [], σ, Ψ, Ψ', h, g => by rw [RunsL] at g ⊢; exact h _ _ g
  | T :: ts, σ, Ψ, Ψ', h, g => by
    rw [RunsL] at g ⊢
    exact Tree.Runs.mono (fun v s hv => RunsL.mono (fun vs s' hs => h _ _ hs) hv) g
end

/-- The state in which the rules of a part of a block hold. -/
def StWants (tidy colons : Prop) (breaks throws : Nat → Prop) (returns : Bool → Prop) (σ : St) : Prop :=
  tidy ∧ colons ∧ ∃ M n m f, σ = St.at M n m f ∧ breaks n ∧ throws m ∧ returns f

/-- The number of loops is increased. -/
def Adds (w : Nat) (σ σ' : St) : Prop := ∀ M n m f, σ = St.at M n m f → σ' = St.at M (n + w) m f

def bodies (l : List Part) : List Block := (l.flatMap Part.funcs).map FuncD.body

/-- The rules for a procedure or function on its own. -/
structure FuncOk (f : FuncD) : Prop where
  tidy : f.body.tidy
  colons : f.body.colonsOk
  throws : f.body.throwsOk 0
  returns : f.body.returnsOk f.isFunc
  nodup : f.locals.Nodup

/-- The rules for declarations that follow the module `M`, after `n` loops `Пока`. -/
structure PartsOk (M : Module) (n : Nat) (l : List Part) : Prop where
  names : ((M.globals ++ l.flatMap Part.globals).map GVar.name).Nodup
  ordered : ∃ (vs : List VarsD) (fs : List FuncD), l = vs.map Part.vars ++ fs.map Part.func
  vars : (∃ v, Part.vars v ∈ l) → M.body = []
  last : (∃ f, Part.func f ∈ l) → ∀ s, M.body.getLast? ≠ some (.stm s)
  breaks : blocksBreaksOk n (bodies l)
  funcs : ∀ f ∈ l.flatMap Part.funcs, FuncOk f

/-- The rules for a whole program. -/
structure ProgOk (P : Program) : Prop where
  clean : P.clean
  breaks : P.breaksOk
  throws : P.throwsOk
  returns : P.returnsOk
  colons : P.colonsOk
  distinct : P.distinct
  ordered : P.ordered

/-- The rules for a whole program whose blocks may begin with a separator. -/
structure ProgLaw (P : Program) : Prop where
  tidy : P.tidy
  breaks : P.breaksOk
  throws : P.throwsOk
  returns : P.returnsOk
  colons : P.colonsOk
  distinct : P.distinct
  ordered : P.ordered

/-- A program may follow the module `M`, after `n` loops `Пока`. -/
structure ProgFits (M : Module) (n : Nat) (P : Program) : Prop where
  names : ((M.globals ++ P.globals).map GVar.name).Nodup
  vars : (∃ v, Part.vars v ∈ P.parts) → M.body = []
  last : (∃ f, Part.func f ∈ P.parts) → ∀ s, M.body.getLast? ≠ some (.stm s)
  breaks : blocksBreaksOk n P.blocks

/-- What must hold before. -/
def Wants (y : Syn) (σ : St) : Prop :=
  match y with
  | .stmt s | .ifS s | .loop s | .tryS s =>
    StWants s.tidy s.colonsOk (fun n => s.breaksOk n) (fun n => s.throwsOk n) (fun n => s.returnsOk n) σ
  | .elifs s => StWants s.tidy s.colonsOk (fun n => s.breaksOk n) (fun n => s.throwsOk n) (fun n => s.returnsOk n) σ
  | .els s => StWants s.tidy s.colonsOk (fun n => s.breaksOk n) (fun n => s.throwsOk n) (fun n => s.returnsOk n) σ
  | .body s => StWants s.tidy s.colonsOk (fun n => s.breaksOk n) (fun n => s.throwsOk n) (fun n => s.returnsOk n) σ
  | .block s => StWants s.tidy s.colonsOk (fun n => s.breaksOk n) (fun n => s.throwsOk n) (fun n => s.returnsOk n) σ
  | .optStmt s => StWants s.tidy s.colonsOk (fun n => s.breaksOk n) (fun n => s.throwsOk n) (fun n => s.returnsOk n) σ
  | .varsL l => (l.flatMap Names.list).Nodup
  | .optVars l => (l.flatMap Names.list).Nodup
  | .func f => FuncOk f ∧ ∃ M n, σ = St.at M n 0 false ∧ f.body.breaksOk n
  | .part (.vars v) => ∃ M n, σ = St.at M n 0 false ∧ M.body = [] ∧ ((M.globals ++ v.tree).map GVar.name).Nodup
  | .part (.func f) => FuncOk f ∧ ∃ M n, σ = St.at M n 0 false ∧ f.body.breaksOk n ∧ ∀ s, M.body.getLast? ≠ some (.stm s)
  | .parts l => ∃ M n, σ = St.at M n 0 false ∧ PartsOk M n l
  | .prog P => ∃ M n, σ = St.at M n 0 false ∧ ProgLaw P ∧ ProgFits M n P
  | _ => True

/-- What holds after. -/
def Gives (y : Syn) (σ : St) (v : SV) (σ' : St) : Prop :=
  match y with
  | .tok k => σ' = σ ∧ ∃ x : Nat × Tok, key x = k ∧ Good x ∧ v = { token := x.2 }
  | .expr e => σ' = σ ∧ v.stmt = e.tree
  | .simple e => σ' = σ ∧ v.stmt = e.tree
  | .optExpr e => σ' = σ ∧ v.stmt = e.tree
  | .args e => σ' = σ ∧ v.exprs = e.tree
  | .execStr s => σ' = σ ∧ v.stmt = .str s
  | .execVar n => σ' = σ ∧ v.stmt = .var n false false
  | .path e => σ' = σ ∧ v.stmt = e.tree
  | .ident e => σ' = σ ∧ v.stmt = e.tree
  | .new e => σ' = σ ∧ v.stmt = e.tree
  | .ternary c x y => σ' = σ ∧ v.stmt = .ternary c.tree x.tree y.tree
  | .source e => σ' = σ ∧ v.stmt = e.tree
  | .label n => σ' = σ ∧ v.goToLabel = .label n
  | .stmt s => s.shows v.stmt ∧ Adds s.whiles σ σ'
  | .ifS s => s.shows v.stmt_if ∧ Adds s.whiles σ σ'
  | .loop s => s.shows v.stmt_loop ∧ Adds s.whiles σ σ'
  | .tryS s => s.shows v.stmt ∧ Adds s.whiles σ σ'
  | .elifs s => (∃ l, v.opt_elseif_list = l.reverse ∧ s.shows l) ∧ Adds s.whiles σ σ'
  | .els s => s.shows v.opt_else ∧ Adds s.whiles σ σ'
  | .body s => (Block.body s).shows v.body ∧ Adds s.whiles σ σ'
  | .block s => s.shows v.opt_body ∧ (s ≠ .empty → v.body = v.opt_body) ∧ Adds s.whiles σ σ'
  | .optStmt s => s.exactly (if v.stmt.isNil then [] else [v.stmt]) ∧ Adds s.whiles σ σ'
  | .sep .semi => σ' = σ ∧ v.token.literal = [';']
  | .sep .colon => σ' = σ ∧ v.token.literal = [':']
  | .semi => σ' = σ ∧ v.token.literal = [';']
  | .colon => σ' = σ ∧ v.token.literal = [':']
  | .comma => σ' = σ ∧ True
  | .dot => σ' = σ ∧ True
  | .mid 137 => ∀ M n m f, σ = St.at M n m f → σ' = St.at M n m true
  | .mid 142 => ∀ M n m f, σ = St.at M n m f → σ' = St.at M n (m + 1) f
  | .mid _ => Adds 1 σ σ'
  | .exp b => σ' = σ ∧ v.opt_export.isSome = b
  | .dir d => σ' = σ ∧ v.opt_directive.map Tok.literal = d
  | .names n => σ' = σ ∧ v.identifiers.map Tok.literal = n.list
  | .varsL l => σ' = σ ∧ v.explicit_variables = some (l.flatMap Names.list)
  | .optVars l => σ' = σ ∧ v.opt_explicit_variables = some (l.flatMap Names.list)
  | .param p => σ' = σ ∧ v.dparam = p.tree
  | .params p => σ' = σ ∧ v.dparams = p.list.map ParamD.tree
  | .gvars d => σ' = σ ∧ v.global_variables = d.tree
  | .func f => ∃ d, f.shows d ∧ v.funcProc = some d ∧ ∀ M n, σ = St.at M n 0 false → σ' = St.at M (n + f.body.whiles) 0 false
  | .part (.vars v) => ∀ M n, σ = St.at M n 0 false → σ' = St.at ⟨M.globals ++ v.tree, M.body⟩ n 0 false
  | .part (.func f) => ∃ d, f.shows d ∧ ∀ M n, σ = St.at M n 0 false →
      σ' = St.at ⟨M.globals, M.body ++ [.func d]⟩ (n + f.body.whiles) 0 false
  | .parts l => ∃ ds, List.Forall₂ FuncD.shows (l.flatMap Part.funcs) ds ∧ ∀ M n, σ = St.at M n 0 false →
      σ' = St.at ⟨M.globals ++ l.flatMap Part.globals, M.body ++ ds.map .func⟩ (n + ((bodies l).map Block.whiles).sum) 0 false
  | .prog P => ∃ ds ss, List.Forall₂ FuncD.shows P.funcs ds ∧ P.body.shows ss ∧ ∀ M n, σ = St.at M n 0 false →
      σ' = St.at ⟨M.globals ++ P.globals, M.body ++ (ds.map .func ++ ss.map .stm)⟩ (n + P.whiles) 0 false

def catL (ys : List Syn) : List Key := ys.flatMap Syn.toks

/-- The conditions and results along a right side. -/
def WpF : List Syn → St → (List SV → St → Prop) → Prop
  | [], σ, Ψ => Ψ [] σ
  | y :: ys, σ, Ψ => Wants y σ ∧ ∀ v σ1, Gives y σ v σ1 → WpF ys σ1 (fun vs => Ψ (v :: vs))

/-- What is to be shown about a production, apart from states and lookahead. -/
structure Kit (p : Nat) (ys : List Syn) (y : Syn) : Prop where
  pos : 0 < p
  lt : p < nProds
  roots : ys.map Syn.root = rhs p
  left : y.root = lhs p
  toks : y.toks = catL ys
  build : build p ys = y
  ev : ∀ σ, Wants y σ → WpF ys σ (fun ws σ1 => ActWp p ws σ1 (Gives y σ))

/-! ## Errors -/

/-- What the recorded error says is wrong. -/
def comp (a : Ast) : Option Fault := a.err.map Err.fault

/-- The last of the faults, or what was recorded before. -/
def addF (m : Option Fault) (l : List Fault) : Option Fault := l.getLast?.or m

/-- The action of production `p` gives `Φ`, or there is a panic; if it is a write into a nil map, then `D` holds. -/
def ActWe (D : Prop) (p : Nat) (ws : List SV) (σ : St) (m : Option Fault) (Φ : SV → St → Option Fault → Prop) : Prop :=
  ∀ junk a, view a = σ → comp a = m →
    (∃ v a', act p (fun i => (ws ++ junk).getD (i - 1) {}) ((ws ++ junk).headD {}) a = .ok (v, a') ∧ Φ v (view a') (comp a')) ∨
    ∃ q, act p (fun i => (ws ++ junk).getD (i - 1) {}) ((ws ++ junk).headD {}) a = .error q ∧ (q = .nilMap → D)

mutual
/-- As `Tree.Runs`, with errors. -/
def Tree.RunsE (D : Prop) : Tree → St → Option Fault → (SV → St → Option Fault → Prop) → Prop
  | .leaf _ t, σ, m, Φ => Φ { token := t } σ m
  | .node p kids, σ, m, Φ => RunsLE D kids σ m (fun ws σ1 m1 => ActWe D p ws σ1 m1 Φ)
def RunsLE (D : Prop) : List Tree → St → Option Fault → (List SV → St → Option Fault → Prop) → Prop
  | [], σ, m, Ψ => Ψ [] σ m
  | T :: ts, σ, m, Ψ => T.RunsE D σ m (fun v σ1 m1 => RunsLE D ts σ1 m1 (fun vs => Ψ (v :: vs)))
end

theorem ActWe.mono {D : Prop} {p : Nat} {ws : List SV} {σ : St} {m : Option Fault} {Φ Φ' : SV → St → Option Fault → Prop}
    (h : ∀ v s n, Φ v s n → Φ' v s n) (g : ActWe D p ws σ m Φ) : ActWe D p ws σ m Φ' := by
  intro junk a h1 h2
  rcases g junk a h1 h2 with ⟨v, a', h3, h5⟩ | h3
  · exact .inl ⟨v, a', h3, h _ _ _ h5⟩
  · exact .inr h3

mutual
theorem Tree.RunsE.mono {D : Prop} : {T : Tree} → {σ : St} → {m : Option Fault} → {Φ Φ' : SV → St → Option Fault → Prop} →
    (∀ v s n, Φ v s n → Φ' v s n) → T.RunsE D σ m Φ → T.RunsE D σ m Φ'
  | .leaf _ _, σ, m, Φ, Φ', h, g => by rw [Tree.RunsE] at g ⊢; exact h _ _ _ g
  | .node p kids, σ, m, Φ, Φ', h, g => by
    rw [Tree.RunsE] at g ⊢
    exact RunsLE.mono (fun ws s n hw => ActWe.mono h hw) g
theorem RunsLE.mono {D : Prop} : {ts : List Tree} → {σ : St} → {m : Option Fault} → {Ψ Ψ' : List SV → St → Option Fault → Prop} →
    (∀ v s n, Ψ v s n → Ψ' v s n) → RunsLE D ts σ m Ψ → RunsLE D ts σ m Ψ'
  | [], σ, m, Ψ, Ψ', h, g => by rw [RunsLE] at g ⊢; exact h _ _ _ g
  | T :: ts, σ, m, Ψ, Ψ', h, g => by
    rw [RunsLE] at g ⊢
    exact Tree.RunsE.mono (fun v s n hw => RunsLE.mono (fun vs s' n' h' => h _ _ _ h') hw) g
end

mutual
/-- Actions that record no error leave the recorded one. -/
theorem Tree.Runs.err {D : Prop} {m : Option Fault} : {T : Tree} → {σ : St} → {Φ : SV → St → Prop} → T.Runs σ Φ →
    T.RunsE D σ m (fun v s n => Φ v s ∧ n = m)
  | .leaf _ _, σ, Φ, g => by rw [Tree.Runs] at g; rw [Tree.RunsE]; exact ⟨g, rfl⟩
  | .node p kids, σ, Φ, g => by
    rw [Tree.Runs] at g
    rw [Tree.RunsE]
    refine RunsLE.mono ?_ (RunsL.err g)
    rintro ws s n ⟨hw, rfl⟩ junk a h1 h2
    obtain ⟨v, a', h3, h4, h5⟩ := hw junk a h1
    exact .inl ⟨v, a', h3, h5, by unfold comp at h2 ⊢; rw [h4, h2]⟩
theorem RunsL.err {D : Prop} {m : Option Fault} : {ts : List Tree} → {σ : St} → {Ψ : List SV → St → Prop} → RunsL ts σ Ψ →
    RunsLE D ts σ m (fun v s n => Ψ v s ∧ n = m)
  | [], σ, Ψ, g => by rw [RunsL] at g; rw [RunsLE]; exact ⟨g, rfl⟩
  | T :: ts, σ, Ψ, g => by
    rw [RunsL] at g
    rw [RunsLE]
    refine Tree.RunsE.mono ?_ (Tree.Runs.err g)
    rintro v s n ⟨hw, rfl⟩
    exact RunsL.err hw
end

/-- The first list has a name twice, and another list follows. -/
def doomedL (l : List Names) : Prop := ∃ n m l', l = n :: m :: l' ∧ ¬ n.list.Nodup

/-- The map of the local variables. -/
def varsVal : List Names → Option (List Name)
  | [] => none
  | n :: l => if firstTwice [] n.list = none then some ((n :: l).foldl (fun s n => seenAfter s n.list) []) else none

/-- The module variables are `seen`; `procs`: there are procedures. -/
structure Known (M : Module) (seen : List Name) (procs : Bool) : Prop where
  names : ∀ x, x ∈ M.globals.map GVar.name ↔ x ∈ seen
  procs : M.body = [] ↔ procs = false
  last : ∀ s, M.body.getLast? ≠ some (.stm s)

def partSeen (seen : List Name) (procs : Bool) : Part → List Name
  | .vars v => if procs then seen else seen ++ v.names.list
  | .func _ => seen

def partProcs (procs : Bool) : Part → Bool
  | .vars _ => procs
  | .func _ => true

def partsSeen (seen : List Name) (procs : Bool) : List Part → List Name
  | [] => seen
  | p :: l => partsSeen (partSeen seen procs p) (partProcs procs p) l

def partsProcs (procs : Bool) : List Part → Bool
  | [] => procs
  | p :: l => partsProcs (partProcs procs p) l

/-- The error after statements. -/
def Says (fs : Nat → Nat → Bool → List Fault) (σ : St) (m m' : Option Fault) : Prop :=
  ∀ M n k f, σ = St.at M n k f → m' = addF m (fs n k f)

/-- The state and the error after declarations. -/
def PartsSay (l : List Part) (σ : St) (m : Option Fault) (σ' : St) (m' : Option Fault) : Prop :=
  ∀ M n seen procs, σ = St.at M n 0 false → Known M seen procs →
    ∃ M', σ' = St.at M' (n + ((bodies l).map Block.whiles).sum) 0 false ∧ Known M' (partsSeen seen procs l) (partsProcs procs l) ∧
      m' = addF m (partsFaults n seen procs l)

def IsAt (σ : St) : Prop := ∃ M n k f, σ = St.at M n k f

/-- A write into a nil map may happen. -/
def Doomed (y : Syn) : Prop :=
  match y with
  | .varsL l => doomedL l
  | .optVars l => doomedL l
  | .func f => f.doomed
  | .part p => ∃ f ∈ p.funcs, f.doomed
  | .parts l => ∃ f ∈ l.flatMap Part.funcs, f.doomed
  | .prog P => P.doomed
  | _ => False

/-- What must hold before, if errors are allowed. -/
def WantsE (y : Syn) (σ : St) : Prop :=
  match y with
  | .stmt s | .ifS s | .loop s | .tryS s => s.tidy ∧ IsAt σ
  | .elifs s => s.tidy ∧ IsAt σ
  | .els s => s.tidy ∧ IsAt σ
  | .body s => s.tidy ∧ IsAt σ
  | .block s => s.tidy ∧ IsAt σ
  | .optStmt s => s.tidy ∧ IsAt σ
  | .func f => f.body.tidy ∧ ∃ M n, σ = St.at M n 0 false
  | .part p => (∀ f ∈ p.funcs, f.body.tidy) ∧ ∃ M n seen procs, σ = St.at M n 0 false ∧ Known M seen procs
  | .parts l => (∀ f ∈ l.flatMap Part.funcs, f.body.tidy) ∧ ∃ M n seen procs, σ = St.at M n 0 false ∧ Known M seen procs
  | .prog P => P.tidy ∧ σ = St.at ⟨[], []⟩ 0 0 false
  | _ => True

/-- No error is possible. -/
def noFault : Syn → Bool
  | .stmt _ | .ifS _ | .loop _ | .tryS _ | .elifs _ | .els _ | .body _ | .block _ | .optStmt _ | .varsL _ | .optVars _ | .func _
  | .part _ | .parts _ | .prog _ => false
  | _ => true

/-- What holds after, if errors are allowed. -/
def GivesE (y : Syn) (σ : St) (m : Option Fault) (v : SV) (σ' : St) (m' : Option Fault) : Prop :=
  match y with
  | .stmt s => Gives (.stmt s) σ v σ' ∧ Says (fun n k f => s.faults n k f) σ m m'
  | .ifS s => Gives (.ifS s) σ v σ' ∧ Says (fun n k f => s.faults n k f) σ m m'
  | .loop s => Gives (.loop s) σ v σ' ∧ Says (fun n k f => s.faults n k f) σ m m'
  | .tryS s => Gives (.tryS s) σ v σ' ∧ Says (fun n k f => s.faults n k f) σ m m'
  | .elifs s => Gives (.elifs s) σ v σ' ∧ Says (fun n k f => s.faults n k f) σ m m'
  | .els s => Gives (.els s) σ v σ' ∧ Says (fun n k f => s.faults n k f) σ m m'
  | .body s => Gives (.body s) σ v σ' ∧ Says (fun n k f => s.faults n k f) σ m m'
  | .block s => Gives (.block s) σ v σ' ∧ Says (fun n k f => s.faults n k f) σ m m'
  | .optStmt s => Gives (.optStmt s) σ v σ' ∧ Says (fun n k f => s.faults n k f) σ m m'
  | .varsL l => σ' = σ ∧ m' = addF m (localFaults [] l) ∧ v.explicit_variables = varsVal l ∧ ¬ doomedL l
  | .optVars l => σ' = σ ∧ m' = addF m (localFaults [] l) ∧ ¬ doomedL l
  | .func f => (∃ d, v.funcProc = some d) ∧ (∀ M n, σ = St.at M n 0 false → σ' = St.at M (n + f.body.whiles) 0 false ∧
      m' = addF m (f.faults n)) ∧ ¬ f.doomed
  | .part p => PartsSay [p] σ m σ' m' ∧ ¬ ∃ f ∈ p.funcs, f.doomed
  | .parts l => PartsSay l σ m σ' m' ∧ ¬ ∃ f ∈ l.flatMap Part.funcs, f.doomed
  | .prog P => (σ = St.at ⟨[], []⟩ 0 0 false → m' = addF m P.faults) ∧ ¬ P.doomed
  | y => Gives y σ v σ' ∧ m' = m

theorem gives_noFault {y : Syn} (h : noFault y = true) {σ m v σ' m'} : GivesE y σ m v σ' m' ↔ Gives y σ v σ' ∧ m' = m := by
  cases y <;> first | exact Iff.rfl | cases h

theorem wants_noFault {y : Syn} (h : noFault y = true) (σ : St) : Wants y σ := by
  cases y <;> first | exact trivial | cases h

/-- As `WpF`, with errors. -/
def WpFE (D : Prop) : List Syn → St → Option Fault → (List SV → St → Option Fault → Prop) → Prop
  | [], σ, m, Ψ => Ψ [] σ m
  | y :: ys, σ, m, Ψ => WantsE y σ ∧ (Doomed y → D) ∧ ∀ v σ1 m1, GivesE y σ m v σ1 m1 → WpFE D ys σ1 m1 (fun vs => Ψ (v :: vs))

/-- What is to be shown about a production that can record errors. -/
def EvE (p : Nat) (ys : List Syn) (y : Syn) : Prop :=
  ∀ (D : Prop) σ m, WantsE y σ → (Doomed y → D) → WpFE D ys σ m (fun ws σ1 m1 => ActWe D p ws σ1 m1 (GivesE y σ m))

syntax "eve" : tactic
macro_rules | `(tactic| eve) => `(tactic| exact .inl rfl)

def Cx (b la : Nat) (y : Syn) : Prop :=
  b < nStates → la < nToks → (trans b y.root).isSome = true →
    ∀ l : List (Nat × Tok), l.map key = y.toks → (∀ x ∈ l, Good x) →
      ∃ T g, T.root = y.root ∧ T.yield = l ∧ LRF b [T] la g ∧ T.read = y ∧ (∀ σ, Wants y σ → T.Runs σ (Gives y σ)) ∧
        ∀ (D : Prop) σ m, WantsE y σ → (Doomed y → D) → T.RunsE D σ m (GivesE y σ m)

/-- `Cx` for the symbols of a right side. -/
def CxK (b la : Nat) : List Syn → Prop
  | [] => True
  | y :: ys => Cx b (nextK (catL ys) la) y ∧ ∀ b1, trans b y.root = some b1 → CxK b1 la ys

theorem nextK_lt {ks : List Key} {la : Nat} (h : la < nToks) : nextK ks la < nToks := by
  unfold nextK
  cases ks with
  | nil => exact h
  | cons k _ => exact (tokNum_lt _).1

theorem LRF.single_trans {b T la g} (h : LRF b [T] la g) (hb : b < nStates) : trans b T.root = some g := by
  have := h.follow hb
  rw [List.map_singleton, LR.follow] at this
  cases ht : trans b T.root with
  | none => rw [ht] at this; cases this
  | some s => rw [ht] at this; injection this with this; rw [← this]

theorem map_append_split {α β : Type} {f : α → β} {l : List α} {a b : List β} (h : l.map f = a ++ b) :
    ∃ l1 l2, l = l1 ++ l2 ∧ l1.map f = a ∧ l2.map f = b := by
  obtain ⟨l1, l2, rfl, rfl, rfl⟩ := List.map_eq_append_iff.1 h
  exact ⟨l1, l2, rfl, rfl, rfl⟩

/-- Building the right side. -/
theorem cx_kids : ∀ {ys : List Syn} {b la s : Nat}, CxK b la ys → b < nStates → la < nToks → follow b (ys.map Syn.root) = some s →
    ∀ l : List (Nat × Tok), l.map key = catL ys → (∀ x ∈ l, Good x) →
      ∃ ts, ts.map Tree.root = ys.map Syn.root ∧ yieldL ts = l ∧ LRF b ts la s ∧ readL ts = ys ∧
        (∀ σ Ψ, WpF ys σ Ψ → RunsL ts σ Ψ) ∧ ∀ D σ m Ψ, WpFE D ys σ m Ψ → RunsLE D ts σ m Ψ
  | [], b, la, s, _, _, _, hf, l, hl, _ => by
    cases hf
    cases l with
    | cons _ _ => cases hl
    | nil => exact ⟨[], rfl, rfl, .nil _ _, by rw [readL], fun σ Ψ h => by rw [RunsL]; exact h,
      fun D σ m Ψ h => by rw [RunsLE]; exact h⟩
  | y :: ys, b, la, s, hk, hb, hla, hf, l, hl, hg => by
    obtain ⟨l1, l2, rfl, h1, h2⟩ := map_append_split (a := y.toks) (b := catL ys) (by rw [hl]; rfl)
    rw [List.map_cons, follow] at hf
    cases ht : trans b y.root with
    | none => rw [ht] at hf; cases hf
    | some b1 =>
      rw [ht] at hf
      replace hf : follow b1 (ys.map Syn.root) = some s := hf
      have hb1 := trans_lt hb ht
      obtain ⟨ts, q1, q2, q3, q4, q5, q6⟩ := cx_kids (hk.2 b1 ht) hb1 hla hf l2 h2 (fun x hx => hg x (List.mem_append_right _ hx))
      obtain ⟨T, g, r1, r2, r3, r4, r5, r6⟩ := hk.1 hb (nextK_lt hla) (by rw [ht]; rfl) l1 h1 (fun x hx => hg x (List.mem_append_left _ hx))
      have hg' := r3.single_trans hb
      rw [r1, ht] at hg'
      injection hg' with hg'
      subst hg'
      have hn : nextK (catL ys) la = nextTok ts la := by rw [← nextK_keys, q2, h2]
      refine ⟨T :: ts, ?_, ?_, ?_, ?_, ?_, ?_⟩
      · rw [List.map_cons, List.map_cons, q1, r1]
      · rw [yieldL, r2, q2]
      · rw [hn] at r3
        exact LRF.append r3 q3
      · rw [readL, r4, q4]
      · intro σ Ψ h
        rw [RunsL]
        exact Tree.Runs.mono (fun v σ1 hv => q5 _ _ (h.2 v σ1 hv)) (r5 σ h.1)
      · intro D σ m Ψ h
        rw [RunsLE]
        exact Tree.RunsE.mono (fun v σ1 m1 hv => q6 _ _ _ _ (h.2.2 v σ1 m1 hv)) (r6 D σ m h.1 h.2.1)

theorem action_reds {s la p : Nat} (hs : s < nStates) (hla : la < nToks) (h : action s la = .reduce p) : p ∈ reds s := by
  refine dflAct_reduce hs hla ?_
  unfold action at h
  split at h
  · exact h
  · split at h
    · cases h
    · exact h

theorem follow_lt {b s : Nat} {xs : List Nat} (hb : b < nStates) (h : follow b xs = some s) : s < nStates := by
  induction xs generalizing b with
  | nil => cases h; exact hb
  | cons X xs ih =>
    rw [follow] at h
    cases ht : trans b X with
    | none => rw [ht] at h; cases h
    | some b1 => rw [ht] at h; exact ih (trans_lt hb ht) h

/-- A node. -/
theorem cx_node {p b la : Nat} {ys : List Syn} {y : Syn} (hk : Kit p ys y)
    (hs : (gotoL b (lhs p)).isSome = true → ∃ s, follow b (rhs p) = some s ∧ action s la = .reduce p) (h : CxK b la ys)
    (hx : noFault y = true ∨ EvE p ys y := by eve) : Cx b la y := by
  intro hb hla htr l hl hg
  have h100 := lhs_ge hk.lt
  rw [hk.left, trans, if_neg (by omega)] at htr
  obtain ⟨s, hf, ha⟩ := hs htr
  obtain ⟨g, hgo⟩ := Option.isSome_iff_exists.1 htr
  rw [hk.toks] at hl
  obtain ⟨ts, q1, q2, q3, q4, q5, q6⟩ := cx_kids h hb hla (by rw [hk.roots]; exact hf) l hl hg
  have hruns : ∀ σ, Wants y σ → (Tree.node p ts).Runs σ (Gives y σ) := by
    intro σ hw
    rw [Tree.Runs]
    exact q5 _ _ (hk.ev σ hw)
  refine ⟨.node p ts, g, ?_, ?_, ?_, ?_, hruns, ?_⟩
  · rw [Tree.root, hk.left]
  · rw [Tree.yield, q2]
  · refine .node p hk.pos hk.lt (q1.trans hk.roots) q3 ?_ ha hgo (.nil _ _)
    exact action_reds (follow_lt hb hf) hla ha
  · rw [Tree.read, q4, hk.build]
  · intro D σ m hw hd
    rcases hx with hx | hx
    · exact Tree.RunsE.mono (fun v s n hv => (gives_noFault hx).2 hv) (hruns σ (wants_noFault hx σ)).err
    · rw [Tree.RunsE]
      exact q6 _ _ _ _ (hx D σ m hw hd)

/-- A token. -/
theorem cx_tok (b la : Nat) (k : Key) : Cx b la (.tok k) := by
  intro hb hla htr l hl hg
  match l, hl with
  | [], hl => cases hl
  | x :: y :: l, hl => injection hl with _ hl; cases hl
  | [x], hl =>
    injection hl with hl _
    obtain ⟨g, ht⟩ := Option.isSome_iff_exists.1 htr
    have hx : tokNum x.1 = tokNum k.kind := by rw [← hl, key_kind]
    have hsh : shiftL b (tokNum x.1) = some g := by
      have h1 := (tokNum_lt k.kind).1
      unfold nToks at h1
      rw [hx]
      replace ht : trans b (tokNum k.kind) = some g := ht
      unfold trans at ht
      rwa [if_pos (by omega)] at ht
    refine ⟨.leaf x.1 x.2, g, hx, rfl, .leaf _ _ hsh (.nil _ _), by rw [Tree.read]; exact congrArg _ hl, fun σ _ => ?_, fun D σ m _ _ => ?_⟩
    · rw [Tree.Runs]
      exact ⟨rfl, x, hl, hg x (List.mem_singleton_self _), rfl⟩
    · rw [Tree.RunsE]
      exact ⟨⟨rfl, x, hl, hg x (List.mem_singleton_self _), rfl⟩, rfl⟩

end Verif.LR
