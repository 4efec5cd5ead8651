import Mathlib.Data.List.GetD
import Mathlib.Tactic.IntervalCases
import Verif.Spec.Memory
/-!
# Reading the tree from memory gives the tree of the model on values
-/
namespace Verif.Mem
open Lexer Tables List

/-! ## Memory only grows -/

/-- Every array keeps its cells and may get more. -/
def Le (h h' : Heap) : Prop := ∀ i, (h.arr i).2 <+: (h'.arr i).2

theorem Le.refl (h : Heap) : Le h h := fun _ => prefix_rfl

theorem take_prefix {α : Type} {l l' : List α} {n : Nat} (h : l <+: l') (hn : n ≤ l.length) : l'.take n = l.take n := by
  obtain ⟨t, rfl⟩ := h
  rw [take_append_of_le_length hn]

mutual
theorem Reads.mono {h h' : Heap} (hl : Le h h') : ∀ {x s}, Reads h x s → Reads h' x s
  | _, _, .nil => .nil
  | _, _, .num x => .num x
  | _, _, .str x => .str x
  | _, _, .bool x => .bool x
  | _, _, .date x => .date x
  | _, _, .undef => .undef
  | _, _, .var a b c => .var a b c
  | _, _, .chain a b => .chain (Reads.mono hl a) (Reads.mono hl b)
  | _, _, .method a => .method (ReadsL.mono hl a)
  | _, _, .item a b => .item (Reads.mono hl a) (Reads.mono hl b)
  | _, _, .ternary a b c => .ternary (Reads.mono hl a) (Reads.mono hl b) (Reads.mono hl c)
  | _, _, .new a => .new (ReadsL.mono hl a)
  | _, _, .assign a b => .assign (Reads.mono hl a) (ReadsL.mono hl b)
  | _, _, .bin a b => .bin (Reads.mono hl a) (Reads.mono hl b)
  | _, _, .exprs a => .exprs (ReadsL.mono hl a)
  | _, _, .ifS a b c d => .ifS (Reads.mono hl a) (ReadsB.mono hl b) (ReadsL.mono hl c) (ReadsB.mono hl d)
  | _, _, .tryS a b => .tryS (ReadsB.mono hl a) (ReadsB.mono hl b)
  | _, _, .throw a => .throw (Reads.mono hl a)
  | _, _, .ret a => .ret (Reads.mono hl a)
  | _, _, .brk => .brk
  | _, _, .cont => .cont
  | _, _, .loop a b c d e => .loop (Reads.mono hl a) (Reads.mono hl b) (Reads.mono hl c) (Reads.mono hl d) (ReadsB.mono hl e)
  | _, _, .goto n => .goto n
  | _, _, .label n => .label n
theorem ReadsL.mono {h h' : Heap} (hl : Le h h') : ∀ {x s}, ReadsL h x s → ReadsL h' x s
  | _, _, .nil => .nil
  | _, _, .cons a b => .cons (Reads.mono hl a) (ReadsL.mono hl b)
theorem ReadsB.mono {h h' : Heap} (hl : Le h h') : ∀ {x s}, ReadsB h x s → ReadsB h' x s
  | _, _, .nil => .nil
  | _, _, .arr (i := i) hn a => .arr (Nat.le_trans hn (hl i).length_le) (by rw [take_prefix (hl i) hn]; exact ReadsL.mono hl a)
end

theorem ReadsP.mono {h h' : Heap} (hl : Le h h') {x p} (H : ReadsP h x p) : ReadsP h' x p := ⟨Reads.mono hl H.1, H.2⟩

theorem ReadsF.mono {h h' : Heap} (hl : Le h h') {x f} (H : ReadsF h x f) : ReadsF h' x f :=
  { H with body := ReadsB.mono hl H.body, params := H.params.imp fun _ _ => ReadsP.mono hl }

theorem ReadsI.mono {h h' : Heap} (hl : Le h h') {x f} (H : ReadsI h x f) : ReadsI h' x f := by
  cases H with
  | func H => exact .func (ReadsF.mono hl H)
  | stm H => exact .stm (Reads.mono hl H)

theorem ReadsA.mono {h h' : Heap} (hl : Le h h') {x a} (H : ReadsA h x a) : ReadsA h' x a :=
  { H with items := H.items.imp fun _ _ => ReadsI.mono hl }

theorem ReadsL.append {h : Heap} {l l' m m'} (H : ReadsL h l m) (H' : ReadsL h l' m') : ReadsL h (l ++ l') (m ++ m') := by
  induction l generalizing m with
  | nil => cases H; exact H'
  | cons x l ih => cases H with | cons a b => exact .cons a (ih b)

theorem ReadsL.single {h : Heap} {x s} (H : Reads h x s) : ReadsL h [x] [s] := .cons H .nil

theorem ReadsB.elems {h : Heap} {s l} (H : ReadsB h s l) : ReadsL h (h.elems s) l := by
  cases H with
  | nil => exact .nil
  | arr _ H => exact H

/-! ## Results side by side -/

/-- Both panic the same way, or both return related values. -/
inductive Both {α β : Type} (R : α → β → Prop) : Except Panic α → Except Panic β → Prop
  | error (p) : Both R (.error p) (.error p)
  | ok {a b} : R a b → Both R (.ok a) (.ok b)

theorem Both.bind {α β γ δ : Type} {R : α → β → Prop} {S : γ → δ → Prop} {x y} {f : α → Except Panic γ} {g : β → Except Panic δ}
    (h : Both R x y) (hf : ∀ a b, R a b → Both S (f a) (g b)) : Both S (x >>= f) (y >>= g) := by
  cases h with
  | error p => exact .error p
  | ok h => exact hf _ _ h

theorem both_refl {α : Type} (x : Except Panic α) : Both Eq x x := by
  cases x with
  | error p => exact .error p
  | ok a => exact .ok rfl

/-! ## Helpers of the actions -/

/-- The values of a stack slot. -/
structure ReadsV (h : Heap) (x : HSV) (v : SV) : Prop where
  token : x.token = v.token
  stmt_if : Reads h x.stmt_if v.stmt_if
  opt_elseif_list : ReadsL h x.opt_elseif_list v.opt_elseif_list
  opt_else : ReadsB h x.opt_else v.opt_else
  stmt : Reads h x.stmt v.stmt
  stmt_loop : Reads h x.stmt_loop v.stmt_loop
  funcProc : Option.Rel (ReadsF h) x.funcProc v.funcProc
  body : ReadsB h x.body v.body
  opt_body : ReadsB h x.opt_body v.opt_body
  dparams : Forall₂ (ReadsP h) x.dparams v.dparams
  dparam : ReadsP h x.dparam v.dparam
  exprs : ReadsL h x.exprs v.exprs
  opt_export : x.opt_export = v.opt_export
  opt_directive : x.opt_directive = v.opt_directive
  explicit_variables : x.explicit_variables = v.explicit_variables
  global_variables : x.global_variables = v.global_variables
  opt_explicit_variables : x.opt_explicit_variables = v.opt_explicit_variables
  identifiers : x.identifiers = v.identifiers
  goToLabel : Reads h x.goToLabel v.goToLabel

theorem ReadsV.zero (h : Heap) : ReadsV h {} {} where
  token := rfl
  stmt_if := .nil
  opt_elseif_list := .nil
  opt_else := .nil
  stmt := .nil
  stmt_loop := .nil
  funcProc := .none
  body := .nil
  opt_body := .nil
  dparams := .nil
  dparam := ⟨.nil, rfl, rfl⟩
  exprs := .nil
  opt_export := rfl
  opt_directive := rfl
  explicit_variables := rfl
  global_variables := rfl
  opt_explicit_variables := rfl
  identifiers := rfl
  goToLabel := .nil

theorem ReadsV.mono {h h' : Heap} (hl : Le h h') {x v} (H : ReadsV h x v) : ReadsV h' x v :=
  { H with
    stmt_if := Reads.mono hl H.stmt_if
    opt_elseif_list := ReadsL.mono hl H.opt_elseif_list
    opt_else := ReadsB.mono hl H.opt_else
    stmt := Reads.mono hl H.stmt
    stmt_loop := Reads.mono hl H.stmt_loop
    funcProc := by
      have := H.funcProc
      revert this
      cases x.funcProc <;> cases v.funcProc <;> intro g <;> cases g
      · exact .none
      · rename_i g; exact .some (ReadsF.mono hl g)
    body := ReadsB.mono hl H.body
    opt_body := ReadsB.mono hl H.opt_body
    dparams := H.dparams.imp fun _ _ => ReadsP.mono hl
    dparam := ReadsP.mono hl H.dparam
    exprs := ReadsL.mono hl H.exprs
    goToLabel := Reads.mono hl H.goToLabel }

variable {h : Heap}

theorem Reads.isNil {x s} (H : Reads h x s) : x.isNil = s.isNil := by cases H <;> rfl

theorem unaryMinus_reads {x s} (H : Reads h x s) : Reads h (unaryMinusH x) (unaryMinus s) := by
  cases H <;> constructor <;> assumption

theorem not_reads {x s} (H : Reads h x s) : Reads h (notStmH x) (notStm s) := by
  cases H <;> constructor <;> assumption

theorem value_reads (v : Val) : Reads h v.toHStm v.toStm := by
  cases v <;> constructor

theorem goto_reads {x s} (H : Reads h x s) : Reads h (mkGotoH x) (mkGoto s) := by
  cases H <;> exact .goto _

theorem default_reads {x p y s} (H : ReadsP h x p) (H' : Reads h y s) : ReadsP h (x.defaultValue y) (p.defaultValue s) := by
  refine ⟨?_, H.2⟩
  cases H' <;> first | exact .undef | (constructor <;> assumption)

theorem error_reads {x a} (H : ReadsA h x a) (m : Msg) : Both (ReadsA h) (x.errorH m) (a.error m) := by
  unfold HAst.errorH
  rw [H.ctl]
  unfold Ast.error
  cases a.cur with
  | none => exact .error _
  | some t => exact .ok ⟨rfl, H.items⟩

theorem appendGlobal_reads {x a} (H : ReadsA h x a) (v : GVar) : Both (ReadsA h) (appendGlobalH x v) (appendGlobal a v) := by
  unfold appendGlobal
  have hi := H.items
  have hg : x.ctl.mod.globals = a.mod.globals := by rw [H.ctl]
  cases hx : x.items with
  | nil =>
    rw [hx] at hi
    have hb : a.mod.body = [] := by
      revert hi; cases a.mod.body <;> intro hi
      · rfl
      · cases hi
    rw [if_neg (not_not.2 hb)]
    have : appendGlobalH x v = if a.mod.globals.any (fun g => g.name == v.name) then x.errorH (.dupVar v.name)
        else .ok { x with ctl := { x.ctl with mod := { x.ctl.mod with globals := x.ctl.mod.globals ++ [v] } } } := by
      unfold appendGlobalH; rw [hx, hg]
    rw [this]
    split
    · exact error_reads H _
    · refine .ok ⟨?_, H.items⟩
      rw [H.ctl]
  | cons y l =>
    rw [hx] at hi
    have hb : a.mod.body ≠ [] := by intro e; rw [e] at hi; exact absurd hi nofun
    rw [if_pos hb]
    have : appendGlobalH x v = x.errorH .varOrder := by unfold appendGlobalH; rw [hx]
    rw [this]
    exact error_reads H _

theorem appendGlobals_reads (l : List GVar) : ∀ {x a}, ReadsA h x a → Both (ReadsA h) (appendGlobalsH x l) (appendGlobals a l) := by
  induction l with
  | nil => intro x a H; exact .ok H
  | cons v l ih => intro x a H; exact (appendGlobal_reads H v).bind fun _ _ => ih

theorem forall₂_snoc {α β : Type} {R : α → β → Prop} {l m x y} (H : Forall₂ R l m) (H' : R x y) : Forall₂ R (l ++ [x]) (m ++ [y]) := by
  induction H with
  | nil => exact .cons H' .nil
  | cons a _ ih => exact .cons a ih

theorem forall₂_append {α β : Type} {R : α → β → Prop} {l m l' m'} (H : Forall₂ R l m) (H' : Forall₂ R l' m') :
    Forall₂ R (l ++ l') (m ++ m') := by
  induction H with
  | nil => exact H'
  | cons a _ ih => exact .cons a ih

theorem forall₂_last {α β : Type} {R : α → β → Prop} {l m} (H : Forall₂ R l m) : Option.Rel R l.getLast? m.getLast? := by
  induction H with
  | nil => exact .none
  | @cons a b l m H1 H2 ih =>
    cases H2 with
    | nil => exact .some H1
    | cons _ _ => rw [getLast?_cons_cons, getLast?_cons_cons]; exact ih

theorem ReadsL.forall₂ {l m} (H : ReadsL h l m) : Forall₂ (Reads h) l m := by
  induction l generalizing m with
  | nil => cases H; exact .nil
  | cons x l ih => cases H with | cons a b => exact .cons a (ih b)

theorem appendStms_reads {x a l m} (H : ReadsA h x a) (H' : ReadsL h l m) : ReadsA h (appendStmsH x l) (appendStms a m) := by
  refine ⟨H.ctl, forall₂_append H.items ?_⟩
  have := ReadsL.forall₂ H'
  clear H'
  induction this with
  | nil => exact .nil
  | cons a _ ih => exact .cons (.stm a) ih

theorem appendFunc_reads {x a f f'} (H : ReadsA h x a) (H' : ReadsF h f f') : Both (ReadsA h) (appendFuncH x f) (appendFunc a f') := by
  unfold appendFuncH appendFunc
  have hl := forall₂_last H.items
  have hok : Both (ReadsA h) (.ok { x with items := x.items ++ [.func f] })
      (.ok { a with mod := { a.mod with body := a.mod.body ++ [.func f'] } }) :=
    .ok ⟨H.ctl, forall₂_snoc H.items (.func H')⟩
  revert hl
  cases x.items.getLast? <;> cases a.mod.body.getLast? <;> intro hl <;> cases hl
  · exact hok
  · rename_i hl
    cases hl with
    | func _ => exact hok
    | stm _ => exact error_reads H _

theorem checkLoop_reads {x a} (H : ReadsA h x a) (t : Tok) : Both (ReadsA h) (checkLoopH x t) (checkLoop a t) := by
  unfold checkLoopH checkLoop
  rw [H.ctl]
  dsimp only
  split
  · exact error_reads H _
  · exact .ok H

theorem checkThrow_reads {x a y s} (H : ReadsA h x a) (t : Tok) (H' : Reads h y s) :
    Both (ReadsA h) (checkThrowH x t y) (checkThrow a t s) := by
  unfold checkThrowH checkThrow
  rw [H.ctl, Reads.isNil H']
  dsimp only
  split
  · exact error_reads H _
  · exact .ok H

theorem checkReturn_reads {x a y s} (H : ReadsA h x a) (H' : Reads h y s) :
    Both (ReadsA h) (checkReturnH x y) (checkReturn a s) := by
  unfold checkReturnH checkReturn
  rw [H.ctl, Reads.isNil H']
  dsimp only
  split
  · exact error_reads H _
  · exact .ok H

theorem checkColon_reads {x a l m} (H : ReadsA h x a) (t : Tok) (H' : ReadsL h l m) :
    Both (ReadsA h) (checkColonH x t l) (checkColon a t m) := by
  unfold checkColonH checkColon
  have hl := forall₂_last (ReadsL.forall₂ H')
  split
  · revert hl
    cases l.getLast? <;> cases m.getLast? <;> intro hl <;> cases hl
    · exact .ok H
    · rename_i hl
      cases hl <;> first | exact .ok H | exact error_reads H _
  · exact .ok H

theorem setLoop_reads {x a} (H : ReadsA h x a) (b : Bool) : ReadsA h (setLoopH x b) (setLoop a b) :=
  ⟨by show setLoop x.ctl b = _; rw [H.ctl]; rfl, H.items⟩

theorem setTry_reads {x a} (H : ReadsA h x a) (b : Bool) : ReadsA h (setTryH x b) (setTry a b) :=
  ⟨by show setTry x.ctl b = _; rw [H.ctl]; rfl, H.items⟩

theorem setFunc_reads {x a} (H : ReadsA h x a) (b : Bool) : ReadsA h (x.setFunc b) { a with isFunc := b } :=
  ⟨by show { x.ctl with isFunc := b } = _; rw [H.ctl], H.items⟩

theorem createFunc_reads {b : Bool} {dir dir' : Option Tok} {n n' : List Char} {ps : List HParam} {ps' : List Param} {e e' : Option Tok}
    {vs vs' : Option (List (List Char))} {bd : Slice} {bd' : List Stm} (h1 : dir = dir') (h2 : n = n') (h3 : Forall₂ (ReadsP h) ps ps')
    (h4 : e = e') (h5 : vs = vs') (h6 : ReadsB h bd bd') :
    Option.Rel (ReadsF h) (some (createFuncH b dir n ps e vs bd)) (some (createFunc b dir' n' ps' e' vs' bd')) := by
  subst h1 h2 h4 h5
  exact .some ⟨rfl, rfl, rfl, h6, h3, rfl, rfl⟩

/-! ## The actions that do not touch arrays -/

/-- Result of an action: values and AstNode are read, the slice `body` of the slot is the one that was there. -/
def Keeps (h : Heap) (b : Slice) (r : HSV × HAst) (r' : SV × Ast) : Prop :=
  ReadsV h r.1 r'.1 ∧ ReadsA h r.2 r'.2 ∧ r.1.body = b

theorem Keeps.mk {b x v y a} (h1 : ReadsV h x v) (h2 : ReadsA h y a) (h3 : x.body = b) :
    Both (Keeps h b) (.ok (x, y)) (.ok (v, a)) := .ok ⟨h1, h2, h3⟩

theorem act_big (q d v a) : act (q + 112) d v a = .ok (v, a) := by
  unfold act
  rfl

theorem actP_big (q d v a) : actP (q + 112) d v a = .ok (v, a) := by
  unfold actP
  rfl

theorem actP_reads {p : Nat} {d : Nat → HSV} {d' : Nat → SV} {v v' x a} (hp : p ≠ 2 ∧ p ≠ 3 ∧ p ≠ 18 ∧ p ≠ 19)
    (hd : ∀ i, ReadsV h (d i) (d' i)) (hv : ReadsV h v v') (ha : ReadsA h x a) :
    Both (Keeps h v.body) (actP p d v x) (act p d' v' a) := by
  have e0 := fun i => (hd i).token
  have e1 := fun i => (hd i).stmt_if
  have e2 := fun i => (hd i).opt_elseif_list
  have e3 := fun i => (hd i).opt_else
  have e4 := fun i => (hd i).stmt
  have e5 := fun i => (hd i).stmt_loop
  have e6 := fun i => (hd i).funcProc
  have e8 := fun i => (hd i).opt_body
  have e9 := fun i => (hd i).dparams
  have e10 := fun i => (hd i).dparam
  have e11 := fun i => (hd i).exprs
  have e12 := fun i => (hd i).explicit_variables
  have e13 := fun i => (hd i).global_variables
  have e14 := fun i => (hd i).opt_explicit_variables
  have e15 := fun i => (hd i).goToLabel
  have e16 := fun i => (hd i).opt_export
  have e17 := fun i => (hd i).opt_directive
  have e18 := fun i => (hd i).identifiers
  by_cases h112 : 112 ≤ p
  · obtain ⟨q, rfl⟩ : ∃ q, p = q + 112 := ⟨p - 112, by omega⟩
    rw [act_big, actP_big]
    exact .ok ⟨hv, ha, rfl⟩
  by_cases h0 : p = 0
  · subst h0
    exact .ok ⟨hv, ha, rfl⟩
  unfold actP
  split
  -- 1
  · exact .ok ⟨hv, ha, rfl⟩
  -- 4
  · exact .ok ⟨hv, ha, rfl⟩
  -- 5
  · exact .ok ⟨hv, ha, rfl⟩
  -- 6
  · rw [e13]; exact (appendGlobals_reads _ ha).bind fun _ _ H => .ok ⟨hv, H, rfl⟩
  -- 7
  · have hf := e6 1
    show Both _ (match (d 1).funcProc with
      | some f => do .ok (v, ← appendFuncH x f)
      | none => .ok (v, x)) (match (d' 1).funcProc with
      | some f => do .ok (v', ← appendFunc a f)
      | none => .ok (v', a))
    revert hf
    cases (d 1).funcProc <;> cases (d' 1).funcProc <;> intro hf <;> cases hf
    · exact .ok ⟨hv, ha, rfl⟩
    · rename_i hf
      exact (appendFunc_reads ha hf).bind fun _ _ H => .ok ⟨hv, H, rfl⟩
  -- 8
  · exact .ok ⟨{ hv with opt_directive := rfl }, ha, rfl⟩
  -- 9
  · exact .ok ⟨{ hv with opt_directive := congrArg some (e0 1) }, ha, rfl⟩
  -- 10
  · exact .ok ⟨{ hv with opt_export := rfl }, ha, rfl⟩
  -- 11
  · exact .ok ⟨{ hv with opt_export := congrArg some (e0 1) }, ha, rfl⟩
  -- 12
  · exact .ok ⟨{ hv with global_variables := by rw [e18, e17, e16]; rfl }, ha, rfl⟩
  -- 13
  · exact .ok ⟨hv, setFunc_reads ha true, rfl⟩
  -- 14
  · exact .ok ⟨{ hv with funcProc := createFunc_reads (e17 _) (by rw [e0]) (e9 _) (e16 _) (e14 _) (e8 _) }, setFunc_reads ha false, rfl⟩
  -- 15
  · exact .ok ⟨{ hv with funcProc := createFunc_reads (e17 _) (by rw [e0]) (e9 _) (e16 _) (e14 _) (e8 _) }, ha, rfl⟩
  -- 16
  · exact .ok ⟨{ hv with opt_body := .nil }, ha, rfl⟩
  -- 17
  · exact .ok ⟨{ hv with opt_body := (hd 1).body }, ha, rfl⟩
  -- 20
  · exact .ok ⟨{ hv with stmt := .nil }, ha, rfl⟩
  -- 21
  · exact .ok ⟨{ hv with stmt := e4 1 }, ha, rfl⟩
  -- 22
  · exact .ok ⟨{ hv with token := e0 1 }, ha, rfl⟩
  -- 23
  · exact .ok ⟨{ hv with token := e0 1 }, ha, rfl⟩
  -- 24
  · exact .ok ⟨{ hv with opt_explicit_variables := rfl }, ha, rfl⟩
  -- 25
  · exact .ok ⟨{ hv with opt_explicit_variables := e12 1 }, ha, rfl⟩
  -- 26
  · rw [e18]
    refine Both.bind (both_refl (appendVars (some []) (d' 2).identifiers)) fun r _ e => ?_
    subst e
    rcases r with ⟨m, - | n⟩
    · exact .ok ⟨{ hv with explicit_variables := rfl }, ha, rfl⟩
    · exact (error_reads ha (.dupVar n)).bind fun _ _ H => .ok ⟨hv, H, rfl⟩
  -- 27
  · rw [e18, e12]
    refine Both.bind (both_refl (appendVars (d' 1).explicit_variables (d' 3).identifiers)) fun r _ e => ?_
    subst e
    rcases r with ⟨m, - | n⟩
    · exact .ok ⟨{ hv with explicit_variables := rfl }, ha, rfl⟩
    · exact (error_reads ha (.dupVar n)).bind fun _ _ H => .ok ⟨{ hv with explicit_variables := rfl }, H, rfl⟩
  -- 28
  · exact .ok ⟨{ hv with stmt_if := .ifS (e4 2) (e8 4) (e2 5) (e3 6) }, ha, rfl⟩
  -- 29
  · exact .ok ⟨{ hv with opt_elseif_list := .nil }, ha, rfl⟩
  -- 30
  · exact .ok ⟨{ hv with opt_elseif_list := ReadsL.append (e2 5) (ReadsL.single (.ifS (e4 2) (e8 4) .nil .nil)) }, ha, rfl⟩
  -- 31
  · exact .ok ⟨{ hv with opt_else := .nil }, ha, rfl⟩
  -- 32
  · exact .ok ⟨{ hv with opt_else := e8 2 }, ha, rfl⟩
  -- 33
  · exact .ok ⟨{ hv with stmt := .ternary (e4 3) (e4 5) (e4 7) }, ha, rfl⟩
  -- 34
  · exact .ok ⟨hv, setLoop_reads ha true, rfl⟩
  -- 35
  · exact .ok ⟨{ hv with stmt_loop := .loop (by rw [e0]; exact .str _) .nil (e4 5) .nil (e8 8) }, setLoop_reads ha false, rfl⟩
  -- 36
  · exact .ok ⟨hv, setLoop_reads ha true, rfl⟩
  -- 37
  · exact .ok ⟨{ hv with stmt_loop := .loop (e4 2) (e4 4) .nil .nil (e8 7) }, setLoop_reads ha false, rfl⟩
  -- 38
  · exact .ok ⟨hv, setLoop_reads ha true, rfl⟩
  -- 39
  · exact .ok ⟨{ hv with stmt_loop := .loop .nil .nil .nil (e4 2) (e8 5) }, ha, rfl⟩
  -- 40
  · exact .ok ⟨{ hv with stmt := e4 1 }, ha, rfl⟩
  -- 41
  · exact .ok ⟨{ hv with stmt := e4 1 }, ha, rfl⟩
  -- 42
  · exact .ok ⟨{ hv with stmt := e4 2 }, ha, rfl⟩
  -- 43
  · exact .ok ⟨{ hv with stmt := e4 1 }, ha, rfl⟩
  -- 44
  · exact .ok ⟨{ hv with stmt := .assign (e4 1) (ReadsL.single (e4 3)) }, ha, rfl⟩
  -- 45
  · exact .ok ⟨{ hv with stmt := e4 1 }, ha, rfl⟩
  -- 46
  · exact .ok ⟨{ hv with stmt := e1 1 }, ha, rfl⟩
  -- 47
  · exact .ok ⟨{ hv with stmt := e5 1 }, ha, rfl⟩
  -- 48
  · exact .ok ⟨{ hv with stmt := e4 1 }, ha, rfl⟩
  -- 49
  · rw [e0]; exact (checkLoop_reads ha _).bind fun _ _ H => .ok ⟨{ hv with stmt := .cont }, H, rfl⟩
  -- 50
  · rw [e0]; exact (checkLoop_reads ha _).bind fun _ _ H => .ok ⟨{ hv with stmt := .brk }, H, rfl⟩
  -- 51
  · rw [e0]; exact (checkThrow_reads ha _ (e4 2)).bind fun _ _ H => .ok ⟨{ hv with stmt := .throw (e4 2) }, H, rfl⟩
  -- 52
  · exact (checkReturn_reads ha (e4 2)).bind fun _ _ H => .ok ⟨{ hv with stmt := .ret (e4 2) }, H, rfl⟩
  -- 53
  · exact .ok ⟨{ hv with stmt := e4 1 }, ha, rfl⟩
  -- 54
  · exact .ok ⟨{ hv with stmt := .chain (e4 3) (e4 1) }, ha, rfl⟩
  -- 55
  · exact .ok ⟨{ hv with stmt := by rw [e0]; exact .var _ _ _ }, ha, rfl⟩
  -- 56
  · exact .ok ⟨{ hv with stmt := by rw [e0]; exact .method (e11 3) }, ha, rfl⟩
  -- 57
  · exact .ok ⟨{ hv with stmt := .item (e4 3) (e4 1) }, ha, rfl⟩
  -- 58
  · exact .ok ⟨{ hv with stmt := by rw [e0]; exact .method (ReadsL.single (e4 2)) }, ha, rfl⟩
  -- 59
  · exact .ok ⟨{ hv with stmt := by rw [e0]; exact .method (ReadsL.single (e4 3)) }, ha, rfl⟩
  -- 60
  · exact .ok ⟨{ hv with stmt := by rw [e0]; exact value_reads _ }, ha, rfl⟩
  -- 61
  · exact .ok ⟨{ hv with stmt := by rw [e0]; exact .var _ _ _ }, ha, rfl⟩
  -- 62
  · exact .ok ⟨hv, setTry_reads ha true, rfl⟩
  -- 63
  · exact .ok ⟨{ hv with stmt := .tryS (e8 2) (e8 5) }, setTry_reads ha false, rfl⟩
  -- 64
  · exact .ok ⟨{ hv with stmt := e4 1 }, ha, rfl⟩
  -- 65
  · exact .ok ⟨{ hv with stmt := .exprs (e11 2) }, ha, rfl⟩
  -- 66
  · exact .ok ⟨{ hv with stmt := .bin (e4 1) (e4 3) }, ha, rfl⟩
  -- 67
  · exact .ok ⟨{ hv with stmt := .bin (e4 1) (e4 3) }, ha, rfl⟩
  -- 68
  · exact .ok ⟨{ hv with stmt := .bin (e4 1) (e4 3) }, ha, rfl⟩
  -- 69
  · exact .ok ⟨{ hv with stmt := .bin (e4 1) (e4 3) }, ha, rfl⟩
  -- 70
  · exact .ok ⟨{ hv with stmt := .bin (e4 1) (e4 3) }, ha, rfl⟩
  -- 71
  · exact .ok ⟨{ hv with stmt := .bin (e4 1) (e4 3) }, ha, rfl⟩
  -- 72
  · exact .ok ⟨{ hv with stmt := .bin (e4 1) (e4 3) }, ha, rfl⟩
  -- 73
  · exact .ok ⟨{ hv with stmt := .bin (e4 1) (e4 3) }, ha, rfl⟩
  -- 74
  · exact .ok ⟨{ hv with stmt := .bin (e4 1) (e4 3) }, ha, rfl⟩
  -- 75
  · exact .ok ⟨{ hv with stmt := .bin (e4 1) (e4 3) }, ha, rfl⟩
  -- 76
  · exact .ok ⟨{ hv with stmt := .bin (e4 1) (e4 3) }, ha, rfl⟩
  -- 77
  · exact .ok ⟨{ hv with stmt := .bin (e4 1) (e4 3) }, ha, rfl⟩
  -- 78
  · exact .ok ⟨{ hv with stmt := .bin (e4 1) (e4 3) }, ha, rfl⟩
  -- 79
  · exact .ok ⟨{ hv with stmt := not_reads (e4 2) }, ha, rfl⟩
  -- 80
  · exact .ok ⟨{ hv with stmt := e4 1 }, ha, rfl⟩
  -- 81
  · exact .ok ⟨{ hv with stmt := goto_reads (e15 2) }, ha, rfl⟩
  -- 82
  · exact .ok ⟨{ hv with stmt := e4 1 }, ha, rfl⟩
  -- 83
  · exact .ok ⟨{ hv with stmt := e4 1 }, ha, rfl⟩
  -- 84
  · exact .ok ⟨{ hv with stmt := .nil }, ha, rfl⟩
  -- 85
  · exact .ok ⟨{ hv with stmt := e4 1 }, ha, rfl⟩
  -- 86
  · exact .ok ⟨{ hv with exprs := ReadsL.single (e4 1) }, ha, rfl⟩
  -- 87
  · exact .ok ⟨{ hv with exprs := ReadsL.append hv.exprs (ReadsL.single (e4 3)) }, ha, rfl⟩
  -- 88
  · exact .ok ⟨{ hv with stmt := by rw [e0]; exact value_reads _ }, ha, rfl⟩
  -- 89
  · exact .ok ⟨{ hv with stmt := by rw [e0]; exact value_reads _ }, ha, rfl⟩
  -- 90
  · exact .ok ⟨{ hv with stmt := unaryMinus_reads (e4 2) }, ha, rfl⟩
  -- 91
  · exact .ok ⟨{ hv with stmt := e4 2 }, ha, rfl⟩
  -- 92
  · exact .ok ⟨{ hv with stmt := by rw [e0]; exact value_reads _ }, ha, rfl⟩
  -- 93
  · exact .ok ⟨{ hv with stmt := by rw [e0]; exact value_reads _ }, ha, rfl⟩
  -- 94
  · exact .ok ⟨{ hv with stmt := by rw [e0]; exact value_reads _ }, ha, rfl⟩
  -- 95
  · exact .ok ⟨{ hv with stmt := .undef }, ha, rfl⟩
  -- 96
  · exact .ok ⟨{ hv with stmt := e15 1 }, ha, rfl⟩
  -- 97
  · exact .ok ⟨{ hv with dparam := ⟨.nil, congrArg Tok.literal (e0 1), rfl⟩ }, ha, rfl⟩
  -- 98
  · exact .ok ⟨{ hv with dparam := ⟨.nil, congrArg Tok.literal (e0 2), rfl⟩ }, ha, rfl⟩
  -- 99
  · exact .ok ⟨{ hv with dparam := default_reads hv.dparam (e4 3) }, ha, rfl⟩
  -- 100
  · exact .ok ⟨{ hv with dparams := .nil }, ha, rfl⟩
  -- 101
  · exact .ok ⟨{ hv with dparams := .cons (e10 1) .nil }, ha, rfl⟩
  -- 102
  · exact .ok ⟨{ hv with dparams := forall₂_snoc (e9 1) (e10 3) }, ha, rfl⟩
  -- 103
  · exact .ok ⟨{ hv with stmt := by rw [e0]; exact .new .nil }, ha, rfl⟩
  -- 104
  · exact .ok ⟨{ hv with stmt := by rw [e0]; exact .new (e11 4) }, ha, rfl⟩
  -- 105
  · exact .ok ⟨{ hv with stmt := .new (e11 3) }, ha, rfl⟩
  -- 106
  · exact .ok ⟨{ hv with goToLabel := by rw [e0]; exact .label _ }, ha, rfl⟩
  -- 107
  · exact .ok ⟨{ hv with identifiers := by rw [e0] }, ha, rfl⟩
  -- 108
  · exact .ok ⟨{ hv with identifiers := by rw [hv.identifiers, e0] }, ha, rfl⟩
  -- 109
  · exact .ok ⟨{ hv with token := e0 1 }, ha, rfl⟩
  -- 110
  · exact .ok ⟨{ hv with token := e0 1 }, ha, rfl⟩
  -- 111
  · exact .ok ⟨{ hv with token := e0 1 }, ha, rfl⟩
  -- others
  · (exfalso; clear e0 e1 e2 e3 e4 e5 e6 e8 e9 e10 e11 e12 e13 e14 e15 e16 e17 e18 ha hv hd; interval_cases p <;> contradiction)

/-! ## Who may extend an array -/

/-- The slice ends where its array ends. -/
def Tip (h : Heap) (s : Slice) : Prop := ∀ i n, s = some (i, n) → i < h.length ∧ (h.arr i).2.length = n

/-- The slices are in different arrays. -/
def Apart (a b : Slice) : Prop := ∀ i n m, a = some (i, n) → b = some (i, m) → False

/-- The slices of the stack slots: each ends where its array ends, no two are in one array, and none is in an array
of the memory `h₀` at the start, which is as it was. -/
structure Own (h₀ h : Heap) (l : List Slice) : Prop where
  old : h₀ <+: h
  new : ∀ s ∈ l, ∀ i n, s = some (i, n) → h₀.length ≤ i
  tip : ∀ s ∈ l, Tip h s
  apart : l.Pairwise Apart

/-- One slice is left alone, is forgotten, is replaced by one in a new array, or is extended together with its array. -/
inductive Turn (h : Heap) : Heap → Slice → Slice → Prop
  | same (b) : Turn h h b b
  | drop (b) : Turn h h b none
  | fresh (b cap cells) : Turn h (h ++ [(cap, cells)]) b (some (h.length, cells.length))
  | extend {i n cap cells} (x) : h.arr i = (cap, cells) → i < h.length → cells.length = n →
      Turn h (h.set i (cap, cells ++ [x])) (some (i, n)) (some (i, n + 1))

theorem arr_append_lt {h : Heap} {p : Nat × List HStm} {i : Nat} (hi : i < h.length) : Heap.arr (h ++ [p]) i = h.arr i := by
  unfold Heap.arr
  rw [getD_append _ _ _ _ hi]

theorem arr_append_eq {h : Heap} {p : Nat × List HStm} : Heap.arr (h ++ [p]) h.length = p := by
  unfold Heap.arr
  rw [getD_append_right _ _ _ _ (Nat.le_refl _), Nat.sub_self]
  rfl

theorem arr_ge {h : Heap} {i : Nat} (hi : h.length ≤ i) : h.arr i = (0, []) := getD_eq_default _ _ hi

theorem arr_set_eq {h : Heap} {p : Nat × List HStm} {i : Nat} (hi : i < h.length) : Heap.arr (h.set i p) i = p := by
  unfold Heap.arr
  rw [getD_eq_getElem?_getD, getElem?_set_self hi]
  rfl

theorem arr_set_ne {h : Heap} {p : Nat × List HStm} {i j : Nat} (hj : i ≠ j) : Heap.arr (h.set i p) j = h.arr j := by
  unfold Heap.arr
  rw [getD_eq_getElem?_getD, getElem?_set_ne hj, getD_eq_getElem?_getD]

theorem Turn.le {h h' : Heap} {b b'} (t : Turn h h' b b') : Le h h' := by
  intro j
  cases t with
  | same => exact prefix_rfl
  | drop => exact prefix_rfl
  | fresh cap cells =>
    by_cases hj : j < h.length
    · rw [arr_append_lt hj]; exact prefix_rfl
    · rw [arr_ge (by omega)]; exact nil_prefix
  | @extend i n cap cells x h1 h2 h3 =>
    by_cases hj : i = j
    · subst hj; rw [arr_set_eq h2, h1]; exact prefix_append _ _
    · rw [arr_set_ne hj]; exact prefix_rfl

theorem Turn.length {h h' : Heap} {b b'} (t : Turn h h' b b') : h.length ≤ h'.length := by
  cases t with
  | same => exact Nat.le_refl _
  | drop => exact Nat.le_refl _
  | fresh cap cells => rw [length_append]; omega
  | extend => rw [length_set]

/-- A slice in another array stays at the end of it. -/
theorem Turn.other {h h' : Heap} {b b' s} (t : Turn h h' b b') (ht : Tip h s) (ha : Apart b s) : Tip h' s ∧ Apart b' s := by
  cases t with
  | same => exact ⟨ht, ha⟩
  | drop => exact ⟨ht, nofun⟩
  | fresh cap cells =>
    constructor
    · intro i n e
      obtain ⟨h1, h2⟩ := ht i n e
      rw [arr_append_lt h1, length_append]
      exact ⟨by omega, h2⟩
    · rintro i n m e1 e2
      injection e1 with e1
      injection e1 with e1 _
      have := (ht i m e2).1
      omega
  | @extend i n cap cells x g1 g2 g3 =>
    constructor
    · intro j m e
      obtain ⟨h1, h2⟩ := ht j m e
      have hj : i ≠ j := by rintro rfl; exact ha i n m rfl e
      rw [arr_set_ne hj, length_set]
      exact ⟨h1, h2⟩
    · rintro j k m e1 e2
      injection e1 with e1
      injection e1 with e1 _
      subst e1
      exact ha i n m rfl e2

theorem Turn.own {h h' : Heap} {b b'} (t : Turn h h' b b') (ht : Tip h b) : Tip h' b' := by
  cases t with
  | same => exact ht
  | drop => exact nofun
  | fresh cap cells =>
    intro i n e
    injection e with e
    injection e with e1 e2
    subst e1 e2
    rw [arr_append_eq, length_append]
    exact ⟨by simp, rfl⟩
  | @extend i n cap cells x g1 g2 g3 =>
    intro j m e
    injection e with e
    injection e with e1 e2
    subst e1 e2
    rw [arr_set_eq g2, length_set]
    exact ⟨g2, by simp [g3]⟩

theorem Apart.symm {a b} (h : Apart a b) : Apart b a := fun i n m e1 e2 => h i m n e2 e1

theorem apart_none (b : Slice) : Apart none b := nofun

theorem Turn.old {h₀ h h' : Heap} {b b'} (t : Turn h h' b b') (ho : h₀ <+: h) (hn : ∀ i n, b = some (i, n) → h₀.length ≤ i) :
    h₀ <+: h' ∧ ∀ i n, b' = some (i, n) → h₀.length ≤ i := by
  cases t with
  | same => exact ⟨ho, hn⟩
  | drop => exact ⟨ho, nofun⟩
  | fresh cap cells =>
    refine ⟨ho.trans (prefix_append _ _), fun i n e => ?_⟩
    injection e with e
    injection e with e1 _
    subst e1
    exact ho.length_le
  | @extend i n cap cells x g1 g2 g3 =>
    have hi := hn i n rfl
    refine ⟨?_, fun j m e => ?_⟩
    · obtain ⟨r, rfl⟩ := ho
      rw [set_append_right _ _ hi]
      exact prefix_append _ _
    · injection e with e
      injection e with e1 _
      subst e1
      exact hi

theorem Own.turn {h₀ h h' : Heap} {b b' l r} (H : Own h₀ h (l ++ b :: r)) (t : Turn h h' b b') : Own h₀ h' (l ++ b' :: r) := by
  have h1 : ∀ s ∈ l, Apart b s := fun s hs => (pairwise_append.1 H.apart).2.2 s hs b (by simp) |>.symm
  have h2 : ∀ s ∈ r, Apart b s := fun s hs => (pairwise_cons.1 (pairwise_append.1 H.apart).2.1).1 s hs
  have h3 := t.old H.old (H.new b (by simp))
  refine ⟨h3.1, fun s hs => ?_, fun s hs => ?_, pairwise_append.2 ⟨(pairwise_append.1 H.apart).1, pairwise_cons.2 ⟨fun s hs => ?_, ?_⟩, fun s hs u hu => ?_⟩⟩
  · rcases mem_append.1 hs with hs | hs
    · exact H.new s (by simp [hs])
    · rcases mem_cons.1 hs with rfl | hs
      · exact h3.2
      · exact H.new s (by simp [hs])
  · rcases mem_append.1 hs with hs | hs
    · exact (t.other (H.tip s (by simp [hs])) (h1 s hs)).1
    · rcases mem_cons.1 hs with rfl | hs
      · exact t.own (H.tip b (by simp))
      · exact (t.other (H.tip s (by simp [hs])) (h2 s hs)).1
  · exact (t.other (H.tip s (by simp [hs])) (h2 s hs)).2
  · exact (pairwise_cons.1 (pairwise_append.1 H.apart).2.1).2
  · rcases mem_cons.1 hu with rfl | hu
    · exact (t.other (H.tip s (by simp [hs])) (h1 s hs)).2.symm
    · exact (pairwise_append.1 H.apart).2.2 s hs u (by simp [hu])

theorem Own.snoc {h₀ h : Heap} {l} (H : Own h₀ h l) : Own h₀ h (l ++ [none]) := by
  refine ⟨H.old, fun s hs => ?_, fun s hs => ?_, pairwise_append.2 ⟨H.apart, pairwise_singleton _ _, fun s _ u hu => ?_⟩⟩
  · rcases mem_append.1 hs with hs | hs
    · exact H.new s hs
    · rw [mem_singleton] at hs; subst hs; exact nofun
  · rcases mem_append.1 hs with hs | hs
    · exact H.tip s hs
    · rw [mem_singleton] at hs; subst hs; exact nofun
  · rw [mem_singleton] at hu; subst hu; exact (apart_none s).symm

theorem Own.sub {h₀ h : Heap} {l m} (H : Own h₀ h l) (hs : m <+ l) : Own h₀ h m :=
  ⟨H.old, fun s k => H.new s (hs.subset k), fun s k => H.tip s (hs.subset k), H.apart.sublist hs⟩

/-- `append` on a slice that ends where its array ends. -/
theorem append_turn (g : Nat → Nat → Nat) {h : Heap} {s : Slice} (x : HStm) (ht : Tip h s) :
    Turn h (h.append g s x).2 s (h.append g s x).1 ∧
      ∀ {l y}, ReadsB h s l → Reads h x y → ReadsB (h.append g s x).2 (h.append g s x).1 (l ++ [y]) := by
  have new : ∀ cap cells, Turn h (h ++ [(cap, cells)]) s (some (h.length, cells.length)) ∧
      ∀ {l}, ReadsL h cells l → ReadsB (h ++ [(cap, cells)]) (some (h.length, cells.length)) l := by
    intro cap cells
    have t := Turn.fresh (h := h) s cap cells
    refine ⟨t, fun hr => .arr ?_ ?_⟩
    · rw [arr_append_eq]
    · rw [arr_append_eq, take_length]; exact ReadsL.mono t.le hr
  cases s with
  | none =>
    refine ⟨(new _ [x]).1, fun hb hx => ?_⟩
    cases hb
    exact (new _ [x]).2 (ReadsL.single hx)
  | some p =>
    obtain ⟨i, n⟩ := p
    obtain ⟨h1, h2⟩ := ht i n rfl
    have e : h.append g (some (i, n)) x =
        if n < (h.arr i).1 then (some (i, n + 1), h.set i ((h.arr i).1, (h.arr i).2 ++ [x]))
        else h.alloc (n + 1 + g h.length (n + 1)) ((h.arr i).2 ++ [x]) := by
      show (if n < (h.arr i).1 then (some (i, n + 1), h.set i ((h.arr i).1, (h.arr i).2.take n ++ x :: (h.arr i).2.drop (n + 1)))
        else h.alloc (n + 1 + g h.length (n + 1)) ((h.arr i).2.take n ++ [x])) = _
      rw [take_of_length_le (by omega), drop_eq_nil_of_le (by omega)]
    rw [e]
    split
    · have t : Turn h (h.set i ((h.arr i).1, (h.arr i).2 ++ [x])) (some (i, n)) (some (i, n + 1)) := .extend x rfl h1 h2
      refine ⟨t, fun hb hx => .arr ?_ ?_⟩
      · rw [arr_set_eq h1]; simp [h2]
      · rw [arr_set_eq h1, take_of_length_le (by simp [h2])]
        cases hb with
        | arr _ hl =>
          rw [take_of_length_le (by omega)] at hl
          exact ReadsL.append (ReadsL.mono t.le hl) (ReadsL.single (Reads.mono t.le hx))
    · refine ⟨(new _ _).1, fun hb hx => (new _ _).2 ?_⟩
      cases hb with
      | arr _ hl =>
        rw [take_of_length_le (by omega)] at hl
        exact ReadsL.append hl (ReadsL.single hx)

/-! ## The actions -/

/-- Result of an action, memory included. -/
def Next (h : Heap) (b : Slice) (r : HSV × HAst × Heap) (r' : SV × Ast) : Prop :=
  ReadsV r.2.2 r.1 r'.1 ∧ ReadsA r.2.2 r.2.1 r'.2 ∧ Turn h r.2.2 b r.1.body

theorem act_reads (g : Nat → Nat → Nat) {p : Nat} {d : Nat → HSV} {d' : Nat → SV} {v v' x a}
    (hd : ∀ i, ReadsV h (d i) (d' i)) (hv : ReadsV h v v') (ha : ReadsA h x a) (ht : Tip h v.body) :
    Both (Next h v.body) (actH g p d v x h) (act p d' v' a) := by
  unfold actH
  split
  · exact .ok ⟨hv, appendStms_reads ha (ReadsB.elems (hd 1).body), .same _⟩
  · exact .ok ⟨hv, appendStms_reads ha (ReadsB.elems (hd 2).opt_body), .same _⟩
  · have t := Turn.fresh (h := h) v.body 1 [(d 1).stmt]
    refine .ok ⟨{ ReadsV.mono t.le hv with body := ?_ }, ReadsA.mono t.le ha, t⟩
    show ReadsB (h ++ [(1, [(d 1).stmt])]) (some (h.length, [(d 1).stmt].length)) [(d' 1).stmt]
    refine .arr (by rw [arr_append_eq]) ?_
    rw [arr_append_eq, take_length]
    exact ReadsL.single (Reads.mono t.le (hd 1).stmt)
  · have hc := checkColon_reads ha (d 2).token (ReadsB.elems (hd 1).opt_body)
    rw [(hd 2).token] at hc
    show Both _ (checkColonH x (d 2).token (h.elems (d 1).opt_body) >>= _) (checkColon a (d' 2).token (d' 1).opt_body >>= _)
    rw [(hd 2).token]
    refine hc.bind fun y b hy => ?_
    have hn := Reads.isNil (hd 3).stmt
    rw [hn]
    split
    · exact .ok ⟨hv, hy, .same _⟩
    · obtain ⟨t, hr⟩ := append_turn g (d 3).stmt ht
      exact .ok ⟨{ ReadsV.mono t.le hv with body := hr hv.body (hd 3).stmt }, ReadsA.mono t.le hy, t⟩
  · rename_i n2 n3 n18 n19
    have hk := actP_reads (p := p) ⟨n2, n3, n18, n19⟩ hd hv ha
    have e : act p d' v' a = (act p d' v' a >>= fun r => .ok r) := by cases act p d' v' a <;> rfl
    rw [e]
    exact hk.bind fun r r' ⟨h1, h2, h3⟩ => .ok ⟨h1, h2, by show Turn h h v.body r.1.body; rw [h3]; exact .same _⟩

/-! ## The driver -/

/-- The configuration of the driver on values is read from the one in memory. -/
structure ReadsC (h₀ : Heap) (C : HCfg) (c : Cfg) : Prop where
  ast : ReadsA C.heap C.ast c.ast
  lval : C.lval = c.lval
  look : C.look = c.look
  live : Forall₂ (fun x y => x.1 = y.1 ∧ ReadsV C.heap x.2 y.2) C.live c.live
  stale : Forall₂ (ReadsV C.heap) C.stale c.stale
  own : Own h₀ C.heap ((C.live.reverse.map fun x => x.2.body) ++ C.stale.map HSV.body)

/-- Outcomes of a round. -/
inductive ReadsStep (h₀ : Heap) : HStep → Step → Prop
  | go {C c} : ReadsC h₀ C c → ReadsStep h₀ (.go C) (.go c)
  | done {k x h a} : ReadsA h x a → h₀ <+: h → ReadsStep h₀ (.done k x h) (.done k a)

theorem getD_reads {l : List HSV} {m : List SV} (H : Forall₂ (ReadsV h) l m) (i : Nat) : ReadsV h (l.getD i {}) (m.getD i {}) := by
  induction H generalizing i with
  | nil => exact ReadsV.zero h
  | cons a _ ih =>
    cases i with
    | zero => exact a
    | succ i => exact ih i

theorem headD_reads {l : List HSV} {m : List SV} (H : Forall₂ (ReadsV h) l m) : ReadsV h (l.headD {}) (m.headD {}) := by
  cases H with
  | nil => exact ReadsV.zero h
  | cons a _ => exact a

theorem pop_reads (n : Nat) : ∀ {l l' st st'}, Forall₂ (fun x y => x.1 = y.1 ∧ ReadsV h x.2 y.2) l l' → Forall₂ (ReadsV h) st st' →
    Forall₂ (fun x y => x.1 = y.1 ∧ ReadsV h x.2 y.2) (popNH n l st).1 (popN n l' st').1 ∧
      Forall₂ (ReadsV h) (popNH n l st).2 (popN n l' st').2 ∧
      ((popNH n l st).1.reverse.map fun x => x.2.body) ++ (popNH n l st).2.map HSV.body =
        (l.reverse.map fun x => x.2.body) ++ st.map HSV.body := by
  induction n with
  | zero =>
    intro l l' st st' h1 h2
    cases h1 with
    | nil => exact ⟨.nil, h2, rfl⟩
    | cons a b => exact ⟨.cons a b, h2, rfl⟩
  | succ n ih =>
    intro l l' st st' h1 h2
    cases h1 with
    | nil => exact ⟨.nil, h2, rfl⟩
    | @cons x y l l' a b =>
      obtain ⟨k1, k2, k3⟩ := ih b (.cons a.2 h2)
      refine ⟨k1, k2, k3.trans ?_⟩
      rw [reverse_cons, map_append, append_assoc]
      rfl

theorem push_reads {h₀ : Heap} {C : HCfg} {c : Cfg} {s h' v v' x a} (H : ReadsC h₀ C c) (t : Turn C.heap h' (C.stale.headD {}).body v.body)
    (hv : ReadsV h' v v') (ha : ReadsA h' x a) :
    ReadsC h₀ (({ C with ast := x, heap := h' } : HCfg).push s v) (({ c with ast := a } : Cfg).push s v') := by
  refine ⟨ha, H.lval, H.look, .cons ⟨rfl, hv⟩ (H.live.imp fun _ _ k => ⟨k.1, ReadsV.mono t.le k.2⟩), ?_, ?_⟩
  · have := H.stale
    show Forall₂ (ReadsV h') C.stale.tail c.stale.tail
    revert this
    cases C.stale <;> cases c.stale <;> intro k <;> cases k
    · exact .nil
    · rename_i k; exact k.imp fun _ _ => ReadsV.mono t.le
  · have ho := H.own
    show Own h₀ h' ((((s, v) :: C.live).reverse.map fun x => x.2.body) ++ C.stale.tail.map HSV.body)
    rw [reverse_cons, map_append, append_assoc]
    show Own h₀ h' (_ ++ v.body :: C.stale.tail.map HSV.body)
    revert t ho
    cases C.stale with
    | nil =>
      intro t ho
      rw [map_nil, append_nil] at ho
      exact ho.snoc.turn t
    | cons y st => intro t ho; exact ho.turn t

theorem reduce_reads (g : Nat → Nat → Nat) {h₀ : Heap} {C : HCfg} {c : Cfg} (H : ReadsC h₀ C c) (p : Nat) :
    Both (ReadsStep h₀) (reduceH g C p) (reduce c p) := by
  unfold reduceH reduce
  obtain ⟨k1, k2, k3⟩ := pop_reads (get yyR2 p).toNat H.live H.stale
  revert k1 k2 k3
  dsimp only
  generalize popNH (get yyR2 p).toNat C.live C.stale = q
  generalize popN (get yyR2 p).toNat c.live c.stale = q'
  obtain ⟨l, st⟩ := q
  obtain ⟨l', st'⟩ := q'
  intro k1 k2 k3
  dsimp only at k1 k2 k3 ⊢
  cases k1 with
  | nil => exact .ok (.done H.ast H.own.old)
  | @cons x y l l' a b =>
    obtain ⟨s, w⟩ := x
    obtain ⟨s', w'⟩ := y
    obtain ⟨rfl, a⟩ := a
    have H' : ReadsC h₀ { C with live := (s, w) :: l, stale := st } { c with live := (s, w') :: l', stale := st' } :=
      ⟨H.ast, H.lval, H.look, .cons ⟨rfl, a⟩ b, k2, by
        show Own h₀ C.heap _
        rw [k3]; exact H.own⟩
    have ht : Tip C.heap (st.headD {}).body := by
      cases st with
      | nil => exact nofun
      | cons z st => exact H'.own.tip _ (by simp)
    refine (act_reads g (fun i => getD_reads k2 (i - 1)) (headD_reads k2) H.ast ht).bind fun r r' hr => ?_
    exact .ok (.go (push_reads H' hr.2.2 hr.1 hr.2.1))

theorem recover_reads {l : List (Nat × HSV)} {l' : List (Nat × SV)} (H : Forall₂ (fun x y => x.1 = y.1 ∧ ReadsV h x.2 y.2) l l') :
    Option.Rel (fun x y => x.1 = y.1 ∧ Forall₂ (fun x y => x.1 = y.1 ∧ ReadsV h x.2 y.2) x.2 y.2 ∧ x.2 <:+ l) (recoverH l) (recover l') := by
  induction H with
  | nil => exact .none
  | @cons x y l l' a b ih =>
    obtain ⟨s, w⟩ := x
    obtain ⟨s', w'⟩ := y
    obtain ⟨rfl, a⟩ := a
    unfold recoverH recover
    cases shiftOf s yyErrCode.toNat with
    | some s' => exact .some ⟨rfl, .cons ⟨rfl, a⟩ b, suffix_rfl⟩
    | none =>
      dsimp only
      revert ih
      cases recoverH l <;> cases recover l' <;> intro ih <;> cases ih
      · exact .none
      · rename_i ih; exact .some ⟨ih.1, ih.2.1, ih.2.2.trans (suffix_cons _ _)⟩

theorem syntaxError_reads {h₀ : Heap} {C : HCfg} {c : Cfg} (H : ReadsC h₀ C c) :
    Both (ReadsStep h₀) (syntaxErrorH C) (syntaxError c) := by
  unfold syntaxErrorH syntaxError
  refine (error_reads H.ast _).bind fun x a hx => ?_
  have hr := recover_reads H.live
  revert hr
  cases recoverH C.live <;> cases recover c.live <;> intro hr <;> cases hr
  · exact .ok (.done hx H.own.old)
  · rename_i p q hr
    obtain ⟨s, l⟩ := p
    obtain ⟨s', l'⟩ := q
    obtain ⟨rfl, h1, h2⟩ := hr
    have H' : ReadsC h₀ { C with live := l } { c with live := l' } :=
      ⟨H.ast, H.lval, H.look, h1, H.stale, H.own.sub (((reverse_prefix.2 h2).sublist.map _).append_right _)⟩
    exact .ok (.go (push_reads H' (.drop _) (ReadsV.zero _) hx))

section
variable [Letters]

theorem fetch_reads {h₀ : Heap} {C : HCfg} {c : Cfg} (H : ReadsC h₀ C c) :
    ReadsC h₀ (fetchH C).1 (fetch c).1 ∧ (fetchH C).2 = (fetch c).2 ∧ (fetchH C).1.live = C.live ∧ (fetch c).1.live = c.live := by
  unfold fetchH fetch
  rw [← H.look]
  cases hl : C.look with
  | some t => exact ⟨H, rfl, rfl, rfl⟩
  | none =>
    dsimp only
    have e := H.ast.ctl
    rw [e, H.lval]
    unfold lexCall
    dsimp only
    by_cases hc : c.ast.code = []
    · rw [if_pos hc, if_pos hc]
      exact ⟨⟨⟨rfl, H.ast.items⟩, rfl, rfl, H.live, H.stale, H.own⟩, rfl, rfl, rfl⟩
    · rw [if_neg hc, if_neg hc]
      rcases lexNext c.lval with ⟨t, _ | _ | k⟩
      · exact ⟨⟨⟨rfl, H.ast.items⟩, rfl, rfl, H.live, H.stale, H.own⟩, rfl, rfl, rfl⟩
      · exact ⟨⟨⟨rfl, H.ast.items⟩, rfl, rfl, H.live, H.stale, H.own⟩, rfl, rfl, rfl⟩
      · exact ⟨⟨⟨rfl, H.ast.items⟩, rfl, rfl, H.live, H.stale, H.own⟩, rfl, rfl, rfl⟩

theorem defaultAction_reads (g : Nat → Nat → Nat) {h₀ : Heap} {C : HCfg} {c : Cfg} (H : ReadsC h₀ C c) (s : Nat) :
    Both (ReadsStep h₀) (defaultActionH g C s) (defaultAction c s) := by
  unfold defaultActionH defaultAction
  dsimp only
  split
  · obtain ⟨h1, h2, _, _⟩ := fetch_reads H
    rw [h2]
    split
    · exact .ok (.done h1.ast h1.own.old)
    · split
      · exact syntaxError_reads h1
      · exact reduce_reads g h1 _
  · split
    · exact syntaxError_reads H
    · exact reduce_reads g H _

theorem step_reads (g : Nat → Nat → Nat) {h₀ : Heap} {C : HCfg} {c : Cfg} (H : ReadsC h₀ C c) :
    Both (ReadsStep h₀) (stepH g C) (step c) := by
  unfold stepH step
  have hl := H.live
  revert hl
  generalize C.live = l
  generalize c.live = l'
  intro hl
  cases hl with
  | nil => exact .ok (.done H.ast H.own.old)
  | @cons x y _ _ a _ =>
    obtain ⟨s, w⟩ := x
    obtain ⟨s', w'⟩ := y
    obtain ⟨rfl, a⟩ := a
    dsimp only
    split
    · exact defaultAction_reads g H s
    · obtain ⟨h1, h2, _, _⟩ := fetch_reads H
      rw [h2]
      cases shiftOf s (fetch c).2 with
      | none => exact defaultAction_reads g h1 s
      | some s' =>
        have H' : ReadsC h₀ { (fetchH C).1 with look := none } { (fetch c).1 with look := none } :=
          ⟨h1.ast, h1.lval, rfl, h1.live, h1.stale, h1.own⟩
        exact .ok (.go (push_reads (v := { token := (fetchH C).1.lval }) (v' := { token := (fetch c).1.lval }) H' (.drop _)
          { ReadsV.zero _ with token := h1.lval } h1.ast))

/-- Outcomes of the loop. -/
inductive ReadsRun (h₀ : Heap) : Option (HAst × Heap) → Option (Nat × Ast) → Prop
  | none : ReadsRun h₀ none none
  | some {x h k a} : ReadsA h x a → h₀ <+: h → ReadsRun h₀ (some (x, h)) (some (k, a))

theorem run_reads (g : Nat → Nat → Nat) {h₀ : Heap} (n : Nat) : ∀ {C : HCfg} {c : Cfg}, ReadsC h₀ C c →
    Both (ReadsRun h₀) (runH g n C) (run n c) := by
  induction n with
  | zero => exact fun _ => .ok .none
  | succ n ih =>
    intro C c H
    unfold runH run
    refine (step_reads g H).bind fun r r' hr => ?_
    cases hr with
    | go h => exact ih h
    | done h k => exact .ok (.some h k)

/-- The outcome of `Parse` on values is read from the outcome in memory. -/
inductive ReadsO (h₀ : Heap) : HOutcome → Outcome → Prop
  | ret {x h a} : ReadsA h x a → h₀ <+: h → ReadsO h₀ (.ret x h) (.ret a)
  | panic (p) : ReadsO h₀ (.panic p) (.panic p)
  | loops : ReadsO h₀ .loops .loops

theorem parse_reads (g : Nat → Nat → Nat) {h : Heap} {x : HAst} {a : Ast} (H : ReadsA h x a) :
    ReadsO h (parseH g x h) (parse a) := by
  unfold parseH parse
  rw [show x.ctl.code = a.code by rw [H.ctl]]
  split
  · exact .ret H prefix_rfl
  · have hr := run_reads g (h₀ := h) (fuel a.code.length) (C := initCfgH x h) (c := initCfg a)
      ⟨H, by show startTok x.ctl.code = _; rw [H.ctl]; rfl, rfl, .cons ⟨rfl, ReadsV.zero _⟩ .nil, .nil,
        ⟨prefix_rfl, by simp [initCfgH], by simp [initCfgH, Tip], by simp [initCfgH]⟩⟩
    revert hr
    generalize runH g (fuel a.code.length) (initCfgH x h) = r
    generalize run (fuel a.code.length) (initCfg a) = r'
    intro hr
    cases hr with
    | error p => exact .panic p
    | ok hr =>
      cases hr with
      | none => exact .loops
      | some h1 h2 => exact .ret h1 h2

end

/-! ## One reading -/

mutual
theorem Reads.inj {h : Heap} : ∀ {x s t}, Reads h x s → Reads h x t → s = t
  | _, _, _, .nil, .nil => rfl
  | _, _, _, .num _, .num _ => rfl
  | _, _, _, .str _, .str _ => rfl
  | _, _, _, .bool _, .bool _ => rfl
  | _, _, _, .date _, .date _ => rfl
  | _, _, _, .undef, .undef => rfl
  | _, _, _, .var _ _ _, .var _ _ _ => rfl
  | _, _, _, .chain a b, .chain a' b' => by rw [Reads.inj a a', Reads.inj b b']
  | _, _, _, .method a, .method a' => by rw [ReadsL.inj a a']
  | _, _, _, .item a b, .item a' b' => by rw [Reads.inj a a', Reads.inj b b']
  | _, _, _, .ternary a b c, .ternary a' b' c' => by rw [Reads.inj a a', Reads.inj b b', Reads.inj c c']
  | _, _, _, .new a, .new a' => by rw [ReadsL.inj a a']
  | _, _, _, .assign a b, .assign a' b' => by rw [Reads.inj a a', ReadsL.inj b b']
  | _, _, _, .bin a b, .bin a' b' => by rw [Reads.inj a a', Reads.inj b b']
  | _, _, _, .exprs a, .exprs a' => by rw [ReadsL.inj a a']
  | _, _, _, .ifS a b c d, .ifS a' b' c' d' => by rw [Reads.inj a a', ReadsB.inj b b', ReadsL.inj c c', ReadsB.inj d d']
  | _, _, _, .tryS a b, .tryS a' b' => by rw [ReadsB.inj a a', ReadsB.inj b b']
  | _, _, _, .throw a, .throw a' => by rw [Reads.inj a a']
  | _, _, _, .ret a, .ret a' => by rw [Reads.inj a a']
  | _, _, _, .brk, .brk => rfl
  | _, _, _, .cont, .cont => rfl
  | _, _, _, .loop a b c d e, .loop a' b' c' d' e' => by
    rw [Reads.inj a a', Reads.inj b b', Reads.inj c c', Reads.inj d d', ReadsB.inj e e']
  | _, _, _, .goto _, .goto _ => rfl
  | _, _, _, .label _, .label _ => rfl
theorem ReadsL.inj {h : Heap} : ∀ {x s t}, ReadsL h x s → ReadsL h x t → s = t
  | _, _, _, .nil, .nil => rfl
  | _, _, _, .cons a b, .cons a' b' => by rw [Reads.inj a a', ReadsL.inj b b']
theorem ReadsB.inj {h : Heap} : ∀ {x s t}, ReadsB h x s → ReadsB h x t → s = t
  | _, _, _, .nil, .nil => rfl
  | _, _, _, .arr _ a, .arr _ a' => ReadsL.inj a a'
end

theorem forall₂_inj {α β : Type} {R : α → β → Prop} (hR : ∀ x a b, R x a → R x b → a = b) : ∀ {l m k}, Forall₂ R l m → Forall₂ R l k → m = k
  | _, _, _, .nil, .nil => rfl
  | _, _, _, .cons a b, .cons a' b' => by rw [hR _ _ _ a a', forall₂_inj hR b b']

theorem ReadsP.inj {h : Heap} {x p q} (H : ReadsP h x p) (K : ReadsP h x q) : p = q := by
  obtain ⟨d, n, v⟩ := p
  obtain ⟨d', n', v'⟩ := q
  obtain ⟨h1, h2, h3⟩ := H
  obtain ⟨k1, k2, k3⟩ := K
  have e1 : d = d' := Reads.inj h1 k1
  have e2 : n = n' := h2.symm.trans k2
  have e3 : v = v' := h3.symm.trans k3
  rw [e1, e2, e3]

theorem ReadsF.inj {h : Heap} {x f g} (H : ReadsF h x f) (K : ReadsF h x g) : f = g := by
  obtain ⟨f1, f2, f3, f4, f5, f6, f7⟩ := f
  obtain ⟨g1, g2, g3, g4, g5, g6, g7⟩ := g
  have e := forall₂_inj (R := ReadsP h) (fun _ _ _ => ReadsP.inj) H.params K.params
  have e' := ReadsB.inj H.body K.body
  have e1 := H.vars.symm.trans K.vars
  have e2 := H.name.symm.trans K.name
  have e3 := H.directive.symm.trans K.directive
  have e4 := H.isFunc.symm.trans K.isFunc
  have e5 := H.export.symm.trans K.export
  dsimp only at e e' e1 e2 e3 e4 e5
  subst e e' e1 e2 e3 e4 e5
  rfl

theorem ReadsI.inj {h : Heap} {x i j} (H : ReadsI h x i) (K : ReadsI h x j) : i = j := by
  cases H with
  | func H => cases K with | func K => rw [ReadsF.inj H K]
  | stm H => cases K with | stm K => rw [Reads.inj H K]

theorem ReadsA.inj {h : Heap} {x a b} (H : ReadsA h x a) (K : ReadsA h x b) : a = b := by
  have e := forall₂_inj (R := ReadsI h) (fun _ _ _ => ReadsI.inj) H.items K.items
  have e' := H.ctl.symm.trans K.ctl
  obtain ⟨a1, a2, ⟨a3, a4⟩, a5, a6, a7, a8⟩ := a
  obtain ⟨b1, b2, ⟨b3, b4⟩, b5, b6, b7, b8⟩ := b
  dsimp only at e e'
  subst e
  injection e' with e1 e2 e3 e4 e5 e6 e7
  injection e3 with e3 _
  subst e1 e2 e3 e4 e5 e6 e7
  rfl

theorem le_of_prefix {h h' : Heap} (H : h <+: h') : Le h h' := by
  obtain ⟨r, rfl⟩ := H
  intro i
  by_cases hi : i < h.length
  · show (Heap.arr h i).2 <+: (getD (h ++ r) i (0, [])).2
    rw [getD_append _ _ _ _ hi]
    exact prefix_rfl
  · rw [arr_ge (by omega)]
    exact nil_prefix

end Verif.Mem
