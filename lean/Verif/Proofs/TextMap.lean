import Verif.Proofs.LR.Says
import Verif.Proofs.LR.Rename
import Verif.Proofs.OnlyTokens
/-!
# The driver commutes with a map of texts

`f` changes texts; tokens, trees and configurations are changed alike.  If the tokeniser commutes with `f`, so does the driver.
-/
namespace Verif
namespace TextMap
open Tables Spec Lexer LR

variable (f : List Char → List Char)

/-- All names and strings are changed by `f`. -/
def rho : Renaming := ⟨f, f, f, id, f, id⟩

/-- A token of the changed text. -/
def mT (t : Tok) : Tok := ⟨f t.literal, (rho f).val t.value, f t.rest, t.prevDot⟩

def mM : Msg → Msg
  | .loopOp l => .loopOp (f l)
  | .throwOp l => .throwOp (f l)
  | .dupVar n => .dupVar (f n)
  | m => m

def mE : Err → Err
  | .lex e => .lex e
  | .at m l c lit => .at (mM f m) l (c + lit.length - (f lit).length) (f lit)

def mA (a : Ast) : Ast :=
  { a with code := f a.code, err := a.err.map (mE f), mod := a.mod.rename (rho f), cur := a.cur.map (mT f) }

def mS (v : SV) : SV where
  token := mT f v.token
  stmt_if := v.stmt_if.rename (rho f)
  opt_elseif_list := v.opt_elseif_list.map (Stm.rename (rho f))
  opt_else := v.opt_else.map (Stm.rename (rho f))
  stmt := v.stmt.rename (rho f)
  stmt_loop := v.stmt_loop.rename (rho f)
  funcProc := v.funcProc.map (FuncDecl.rename (rho f))
  body := v.body.map (Stm.rename (rho f))
  opt_body := v.opt_body.map (Stm.rename (rho f))
  dparams := v.dparams.map (Param.rename (rho f))
  dparam := v.dparam.rename (rho f)
  exprs := v.exprs.map (Stm.rename (rho f))
  opt_export := v.opt_export.map (mT f)
  opt_directive := v.opt_directive.map (mT f)
  explicit_variables := v.explicit_variables.map (List.map f)
  global_variables := v.global_variables.map (GVar.rename (rho f))
  opt_explicit_variables := v.opt_explicit_variables.map (List.map f)
  identifiers := v.identifiers.map (mT f)
  goToLabel := v.goToLabel.rename (rho f)

def mP (p : SV × Ast) : SV × Ast := (mS f p.1, mA f p.2)

def mL (l : List (Nat × SV)) : List (Nat × SV) := l.map fun p => (p.1, mS f p.2)

/-- A configuration on the changed text. -/
def mC (c : Cfg) : Cfg :=
  { ast := mA f c.ast, lval := mT f c.lval, look := c.look, live := mL f c.live, stale := c.stale.map (mS f) }

def mStep : Step → Step
  | .go c => .go (mC f c)
  | .done k a => .done k (mA f a)

/-- What is needed of `f`. -/
structure Ok [Letters] : Prop where
  nil : f [] = []
  inj : Function.Injective f
  colon : f [':'] = [':']
  lex : ∀ t, lexNext (mT f t) = (mT f (lexNext t).1, (lexNext t).2)
  pos : ∀ code rest, rest <:+ code → getPosition (f code) (f rest) = getPosition code rest

variable {f} [Letters] (ho : Ok f)

/-- The current token is one of the text. -/
def CurOk (a : Ast) : Prop := ∀ t, a.cur = some t → t.rest <:+ a.code

include ho

theorem rho_ok : (rho f).Ok := ⟨ho.inj, ho.nil, ho.nil, fun _ => rfl⟩

theorem mS_zero : mS f {} = {} := by
  have h := ho.nil
  simp only [mS, mT, zeroTok, Stm.rename, Param.rename, rho, Renaming.val, List.map_nil, Option.map_none, h]

theorem error_m {a : Ast} (h : CurOk a) (m : Msg) : (mA f a).error (mM f m) = (a.error m).map (mA f) := by
  unfold Ast.error
  show (match a.cur.map (mT f) with | none => _ | some t => _) = _
  cases hc : a.cur with
  | none => rfl
  | some t =>
    have hp : getPosition (mA f a).code (mT f t).rest = getPosition a.code t.rest := ho.pos _ _ (h t hc)
    simp only [Option.map_some]
    rw [hp]
    show Except.ok _ = Except.ok _
    congr 1
    show Ast.mk .. = Ast.mk ..
    congr 1
    · show some (Err.at _ _ _ _) = some (Err.at _ _ _ _)
      congr 2
      show _ - ((f t.literal).length + 1 : Int) = _ - (t.literal.length + 1 : Int) + _ - _
      omega
    · show a.cur.map _ = _
      rw [hc]

omit ho [Letters] in
theorem CurOk.error {a a' : Ast} (h : CurOk a) {m : Msg} (he : a.error m = .ok a') : CurOk a' := by
  unfold Ast.error at he
  cases hc : a.cur with
  | none => rw [hc] at he; cases he
  | some t =>
    rw [hc] at he
    injection he with he
    subst he
    intro t' ht'
    exact h t' (hc.trans ht')

theorem any_m (l : List GVar) (n : List Char) :
    (l.map (GVar.rename (rho f))).any (fun g => g.name == f n) = l.any (fun g => g.name == n) := by
  induction l with
  | nil => rfl
  | cons g l ih =>
    rw [List.map_cons, List.any_cons, List.any_cons, ih]
    congr 1
    show (f g.name == f n) = _
    rw [Bool.eq_iff_iff, beq_iff_eq, beq_iff_eq]
    exact ho.inj.eq_iff

theorem appendGlobal_m {a : Ast} (h : CurOk a) (v : GVar) :
    appendGlobal (mA f a) (v.rename (rho f)) = (appendGlobal a v).map (mA f) := by
  unfold appendGlobal
  have e1 : ((mA f a).mod.body ≠ []) = (a.mod.body ≠ []) := by
    show (a.mod.body.map _ ≠ []) = _
    rw [ne_eq, ne_eq, List.map_eq_nil_iff]
  have e2 : (mA f a).mod.globals.any (fun g => g.name == (v.rename (rho f)).name) = a.mod.globals.any (fun g => g.name == v.name) :=
    any_m ho _ _
  rw [e2]
  by_cases h1 : a.mod.body ≠ []
  · rw [if_pos (e1 ▸ h1), if_pos h1]; exact error_m ho h .varOrder
  · rw [if_neg (by rw [e1]; exact h1), if_neg h1]
    by_cases h2 : a.mod.globals.any (fun g => g.name == v.name) = true
    · rw [if_pos h2, if_pos h2]; exact error_m ho h (.dupVar v.name)
    · rw [if_neg h2, if_neg h2]
      show Except.ok _ = Except.ok _
      simp only [mA, Module.rename, List.map_append, List.map_cons, List.map_nil]

omit ho [Letters] in
theorem appendGlobal_cur {a a' : Ast} (h : CurOk a) {v : GVar} (he : appendGlobal a v = .ok a') : CurOk a' := by
  unfold appendGlobal at he
  split at he
  · exact h.error he
  · split at he
    · exact h.error he
    · injection he with he; subst he; exact h

theorem appendGlobals_m (l : List GVar) : ∀ {a : Ast}, CurOk a →
    appendGlobals (mA f a) (l.map (GVar.rename (rho f))) = (appendGlobals a l).map (mA f) := by
  induction l with
  | nil => intro a h; rfl
  | cons v l ih =>
    intro a h
    show (appendGlobal (mA f a) (v.rename (rho f)) >>= fun b => appendGlobals b (l.map _)) = Except.map _ (appendGlobal a v >>= fun b => appendGlobals b l)
    rw [appendGlobal_m ho h]
    cases hx : appendGlobal a v with
    | error p => rfl
    | ok b => exact ih (appendGlobal_cur h hx)

theorem appendFunc_m {a : Ast} (h : CurOk a) (g : FuncDecl) :
    appendFunc (mA f a) (g.rename (rho f)) = (appendFunc a g).map (mA f) := by
  unfold appendFunc
  have e : (mA f a).mod.body.getLast? = a.mod.body.getLast?.map (Item.rename (rho f)) := by
    show (a.mod.body.map _).getLast? = _
    rw [List.getLast?_map]
  rw [e]
  have ok : (Except.ok { mA f a with mod := { (mA f a).mod with body := (mA f a).mod.body ++ [.func (g.rename (rho f))] } } : Except Panic Ast)
      = Except.map (mA f) (.ok { a with mod := { a.mod with body := a.mod.body ++ [.func g] } }) := by
    show Except.ok _ = Except.ok _
    simp only [mA, Module.rename, List.map_append, List.map_cons, List.map_nil, Item.rename]
  rcases a.mod.body.getLast? with - | s
  · exact ok
  · cases s
    · exact ok
    · exact error_m ho h .funcOrder

theorem checkLoop_m {a : Ast} (h : CurOk a) (t : Tok) : checkLoop (mA f a) (mT f t) = (checkLoop a t).map (mA f) := by
  unfold checkLoop
  show (if a.isLoop = 0 then _ else _) = _
  split
  · exact error_m ho h (.loopOp t.literal)
  · rfl

theorem checkThrow_m {a : Ast} (h : CurOk a) (t : Tok) (s : Stm) :
    checkThrow (mA f a) (mT f t) (s.rename (rho f)) = (checkThrow a t s).map (mA f) := by
  unfold checkThrow
  rw [isNil_rename]
  show (if a.isTry = 0 ∧ s.isNil = true then (mA f a).error (mM f (.throwOp t.literal)) else .ok (mA f a)) = _
  by_cases h1 : a.isTry = 0 ∧ s.isNil = true
  · rw [if_pos h1, if_pos h1]; exact error_m ho h (.throwOp t.literal)
  · rw [if_neg h1, if_neg h1]; rfl

theorem checkReturn_m {a : Ast} (h : CurOk a) (s : Stm) :
    checkReturn (mA f a) (s.rename (rho f)) = (checkReturn a s).map (mA f) := by
  unfold checkReturn
  rw [isNil_rename]
  show (if !a.isFunc ∧ !s.isNil then (mA f a).error (mM f .procReturn) else .ok (mA f a)) = _
  by_cases h1 : (!a.isFunc) = true ∧ (!s.isNil) = true
  · rw [if_pos h1, if_pos h1]; exact error_m ho h .procReturn
  · rw [if_neg h1, if_neg h1]; rfl

theorem checkColon_m {a : Ast} (h : CurOk a) (t : Tok) (l : List Stm) :
    checkColon (mA f a) (mT f t) (l.map (Stm.rename (rho f))) = (checkColon a t l).map (mA f) := by
  unfold checkColon
  have e : ((mT f t).literal = [':']) = (t.literal = [':']) := by
    apply propext
    constructor
    · intro h; exact ho.inj (h.trans ho.colon.symm)
    · intro h; show f t.literal = _; rw [h, ho.colon]
  by_cases h1 : t.literal = [':']
  · rw [if_pos (e ▸ h1), if_pos h1, List.getLast?_map]
    rcases l.getLast? with - | s
    · rfl
    · cases s <;> first | rfl | exact error_m ho h .semicolon
  · rw [if_neg (by rw [e]; exact h1), if_neg h1]; rfl

omit ho [Letters] in
/-- The result of `appendVars` with other names. -/
def mV (r : AppendVars) : AppendVars := ⟨r.map.map (List.map f), r.dup.map f⟩

theorem contains_m (l : List (List Char)) (n : List Char) : (l.map f).contains (f n) = l.contains n := by
  induction l with
  | nil => rfl
  | cons g l ih =>
    rw [List.map_cons, List.contains_cons, List.contains_cons, ih]
    congr 1
    rw [Bool.eq_iff_iff, beq_iff_eq, beq_iff_eq]
    exact ho.inj.eq_iff

theorem appendVars_m (l : List Tok) : ∀ m, appendVars (m.map (List.map f)) (l.map (mT f)) = (appendVars m l).map (mV (f := f)) := by
  induction l with
  | nil => intro m; rfl
  | cons t l ih =>
    intro m
    cases m with
    | none => rfl
    | some ks =>
      show (if (ks.map f).contains (f t.literal) then _ else appendVars (some (ks.map f ++ [f t.literal])) (l.map (mT f))) = Except.map _
        (if ks.contains t.literal then _ else appendVars (some (ks ++ [t.literal])) l)
      rw [contains_m ho]
      split
      · rfl
      · rw [← ih]
        simp only [Option.map_some, List.map_append, List.map_cons, List.map_nil]

omit ho [Letters] in
theorem mok {v w : SV} {a b : Ast} (hv : v = mS f w) (ha : a = mA f b) :
    (Except.ok (v, a) : Except Panic _) = (Except.ok (w, b) : Except Panic _).map (mP f) := by
  rw [hv, ha]; rfl

omit ho [Letters] in
theorem mpair {x y : Except Panic Ast} {v w : SV} (h : x = y.map (mA f)) (hv : v = mS f w) :
    (x >>= fun a => (Except.ok (v, a) : Except Panic _)) = (y >>= fun a => (Except.ok (w, a) : Except Panic _)).map (mP f) := by
  rw [h, hv]
  cases y <;> rfl

omit ho [Letters] in
theorem loopVar_m (s i : Stm) : (rho f).loopVar (s.rename (rho f)) s i = s.rename (rho f) := by
  cases s <;> cases i <;> rfl

omit ho [Letters] in
theorem loopVar_str (n : List Char) (i : Stm) : (rho f).loopVar (.str ((rho f).str n)) (.str n) i = .str ((rho f).str n) := by
  cases i <;> rfl

theorem mkGoto_m (s : Stm) : mkGoto (s.rename (rho f)) = (mkGoto s).rename (rho f) := by
  cases s <;> first | rfl | (show Stm.goto [] = Stm.goto (f []); rw [ho.nil])

macro "mapped" ho:term : tactic => `(tactic|
  (simp only [mS, mT, Stm.rename, renameL_map, loopVar_m, loopVar_str, List.map_append, List.map_cons, List.map_nil, notStm_rename,
    toStm_rename, unaryMinus_rename (rho_ok $ho), mkGoto_m $ho, defaultValue_rename, Option.map_some, Option.map_none,
    (rho_ok $ho).noName] <;> rfl))

theorem act_m (p : Nat) (d : Nat → SV) (v : SV) {a : Ast} (h : CurOk a) :
    act p (fun i => mS f (d i)) (mS f v) (mA f a) = (act p d v a).map (mP f) := by
  have stms : ∀ l : List Stm, appendStms (mA f a) (l.map (Stm.rename (rho f))) = mA f (appendStms a l) := by
    intro l
    simp only [appendStms, mA, Module.rename, List.map_append, List.map_map]
    rfl
  unfold act
  split <;> try (refine mok ?_ rfl; rfl)
  all_goals try (refine mok rfl ?_; exact stms _)
  all_goals try (exact mpair (by first | exact appendGlobals_m ho _ h | exact checkLoop_m ho h _ | exact checkThrow_m ho h _ _ | exact checkReturn_m ho h _) rfl)
  all_goals try (refine mok ?_ rfl; dsimp only; mapped ho)
  -- 7
  · show (match (d 1).funcProc.map (FuncDecl.rename (rho f)) with
      | some g => do .ok (mS f v, ← appendFunc (mA f a) g)
      | none => .ok (mS f v, mA f a)) = _
    cases (d 1).funcProc with
    | none => rfl
    | some g => exact mpair (appendFunc_m ho h g) rfl
  -- 12
  · refine mok ?_ rfl
    simp only [mS, List.map_map, Option.isSome_map]
    congr 1
    refine List.map_congr_left fun t _ => ?_
    simp only [Function.comp, GVar.rename]
    congr 1
    cases (d 1).opt_directive with
    | none => exact ho.nil.symm
    | some t => rfl
  -- 14, 15
  · refine mok ?_ rfl
    simp only [mS, createFunc, FuncDecl.rename, Option.isSome_map, Option.map_some]
    congr 2
    congr 1
    cases (d 1).opt_directive with
    | none => exact ho.nil.symm
    | some t => rfl
  · refine mok ?_ rfl
    simp only [mS, createFunc, FuncDecl.rename, Option.isSome_map, Option.map_some]
    congr 2
    congr 1
    cases (d 1).opt_directive with
    | none => exact ho.nil.symm
    | some t => rfl
  -- 19
  · refine mpair (checkColon_m ho h _ _) ?_
    show (if ((d 3).stmt.rename (rho f)).isNil then mS f v else _) = _
    rw [isNil_rename]
    by_cases h1 : (d 3).stmt.isNil = true
    · rw [if_pos h1, if_pos h1]
    · rw [if_neg h1, if_neg h1]
      mapped ho
  -- 26
  · show (appendVars ((some []).map (List.map f)) ((d 2).identifiers.map (mT f)) >>= _) = _
    rw [appendVars_m ho]
    cases appendVars (some []) (d 2).identifiers with
    | error q => rfl
    | ok r =>
      rcases r with ⟨m, - | n⟩
      · exact mok rfl rfl
      · exact mpair (error_m ho h (.dupVar n)) rfl
  -- 27
  · show (appendVars ((d 1).explicit_variables.map (List.map f)) ((d 3).identifiers.map (mT f)) >>= _) = _
    rw [appendVars_m ho]
    cases appendVars (d 1).explicit_variables (d 3).identifiers with
    | error q => rfl
    | ok r =>
      rcases r with ⟨m, - | n⟩
      · exact mok rfl rfl
      · exact mpair (error_m ho h (.dupVar n)) rfl

/-! ## The driver -/

omit ho [Letters] in
theorem popN_m (n : Nat) : ∀ l st, popN n (mL f l) (st.map (mS f)) = (mL f (popN n l st).1, (popN n l st).2.map (mS f)) := by
  induction n with
  | zero => intro l st; cases l <;> rfl
  | succ n ih =>
    intro l st
    cases l with
    | nil => rfl
    | cons x l => exact ih l (x.2 :: st)

omit ho [Letters] in
theorem recover_m (l : List (Nat × SV)) : recover (mL f l) = (recover l).map fun p => (p.1, mL f p.2) := by
  induction l with
  | nil => rfl
  | cons x l ih =>
    show (match shiftOf x.1 yyErrCode.toNat with
      | some s' => some (s', mL f (x :: l)) | none => recover (mL f l)) = (match shiftOf x.1 yyErrCode.toNat with
      | some s' => some (s', x :: l) | none => recover l).map _
    cases shiftOf x.1 yyErrCode.toNat with
    | none => exact ih
    | some s => rfl

theorem getD_m (st : List SV) (i : Nat) : (st.map (mS f)).getD i {} = mS f (st.getD i {}) := by
  rw [List.getD_eq_getElem?_getD, List.getD_eq_getElem?_getD, List.getElem?_map]
  cases st[i]? with
  | none => exact (mS_zero ho).symm
  | some v => rfl

theorem headD_m (st : List SV) : (st.map (mS f)).headD {} = mS f (st.headD {}) := by
  cases st with
  | nil => exact (mS_zero ho).symm
  | cons v st => rfl

omit ho [Letters] in
theorem push_m (c : Cfg) (s : Nat) (v : SV) : (mC f c).push s (mS f v) = mC f (c.push s v) := by
  simp only [mC, Cfg.push, mL, List.map_cons, List.map_tail]

theorem reduce_m {c : Cfg} (h : CurOk c.ast) (p : Nat) : reduce (mC f c) p = (reduce c p).map (mStep f) := by
  unfold reduce
  have hp : popN (get yyR2 p).toNat (mC f c).live (mC f c).stale = _ := popN_m _ c.live c.stale
  dsimp only
  rw [hp]
  rcases popN (get yyR2 p).toNat c.live c.stale with ⟨live, stale⟩
  cases live with
  | nil => rfl
  | cons x live =>
    show (act p (fun i => (stale.map (mS f)).getD (i - 1) {}) ((stale.map (mS f)).headD {}) (mA f c.ast) >>= fun r =>
        .ok (.go (({ mC f c with ast := r.2, live := mL f (x :: live), stale := stale.map (mS f) } : Cfg).push (gotoOf x.1 p) r.1))) =
      Except.map (mStep f) (act p (fun i => stale.getD (i - 1) {}) (stale.headD {}) c.ast >>= fun r =>
        .ok (.go (({ c with ast := r.2, live := x :: live, stale := stale } : Cfg).push (gotoOf x.1 p) r.1)))
    simp only [getD_m ho, headD_m ho]
    rw [act_m ho p (fun i => stale.getD (i - 1) {}) (stale.headD {}) h]
    cases act p (fun i => stale.getD (i - 1) {}) (stale.headD {}) c.ast with
    | error q => rfl
    | ok r => exact congrArg Except.ok (congrArg Step.go (push_m { c with ast := r.2, live := x :: live, stale := stale } _ _))

theorem syntaxError_m {c : Cfg} (h : CurOk c.ast) : syntaxError (mC f c) = (syntaxError c).map (mStep f) := by
  unfold syntaxError
  show ((mA f c.ast).error (mM f .syntaxError) >>= _) = _
  rw [error_m ho h]
  cases c.ast.error .syntaxError with
  | error q => rfl
  | ok a =>
    have hr : recover (mC f c).live = _ := recover_m c.live
    show (match recover (mC f c).live with
      | none => .ok (.done 1 (mA f a))
      | some (s', live) => .ok (.go (({ mC f c with ast := mA f a, live := live } : Cfg).push s' {}))) =
      Except.map (mStep f) (match recover c.live with
      | none => .ok (.done 1 a)
      | some (s', live) => .ok (.go (({ c with ast := a, live := live } : Cfg).push s' {})))
    rw [hr]
    rcases recover c.live with - | ⟨s', live⟩
    · rfl
    · refine congrArg Except.ok (congrArg Step.go ?_)
      have := push_m (f := f) { c with ast := a, live := live } s' {}
      rw [mS_zero ho] at this
      exact this

theorem code_m (code : List Char) : f code = [] ↔ code = [] :=
  ⟨fun h => ho.inj (h.trans ho.nil.symm), fun h => by rw [h, ho.nil]⟩

theorem fetch_m (c : Cfg) : fetch (mC f c) = (mC f (fetch c).1, (fetch c).2) := by
  cases hl : c.look with
  | some t =>
    rw [fetch_look hl, fetch_look (c := mC f c) hl]
  | none =>
    rw [fetch_none hl, fetch_none (c := mC f c) hl]
    by_cases hc : c.ast.code = []
    · unfold lexCall
      rw [if_pos hc, if_pos (show (mC f c).ast.code = [] from (code_m ho _).2 hc)]
    · rw [lexCall_eq hc, lexCall_eq (a := (mC f c).ast) (mt (code_m ho _).1 hc)]
      show (match (match lexNext (mT f c.lval) with
        | (t', .error e) => ({ (mC f c).ast with err := some (.lex e) }, t', none)
        | (t', .ok none) => ((mC f c).ast, t', none)
        | (t', .ok (some k)) => ({ (mC f c).ast with cur := some t' }, t', some k)) with
        | (a, t, none) => ({ mC f c with ast := a, lval := t }, tokEnd)
        | (a, t, some k) => ({ mC f c with ast := a, lval := t, look := some (tokNum k) }, tokNum k)) = _
      rw [ho.lex]
      rcases lexNext c.lval with ⟨t', e | (_ | k)⟩ <;> rfl

theorem perform_m {c : Cfg} (h : CurOk c.ast) (A : Act) : perform (mC f c) A = (perform c A).map (mStep f) := by
  cases A with
  | shift s =>
    show Except.ok (Step.go _) = Except.ok (Step.go _)
    congr 2
    have := push_m (f := f) { c with look := none } s { token := c.lval }
    rw [show mS f { token := c.lval } = { token := mT f c.lval } by
      have := mS_zero ho
      have e : mS f { token := c.lval } = { mS f {} with token := mT f c.lval } := rfl
      rw [e, this]] at this
    exact this
  | accept => rfl
  | error => exact syntaxError_m ho h
  | reduce p => exact reduce_m ho h p

omit ho in
theorem curOk {code : List Char} {a : Ast} (h : PosOk code a) : CurOk a := by
  intro t ht
  obtain ⟨k, n, hk⟩ := h.cur t ht
  rw [h.codeEq]
  have h1 := lexNext_suffix (afterCalls n (startTok code))
  rw [hk] at h1
  have h2 : ∀ n (t : Tok), (afterCalls n t).rest <:+ t.rest := by
    intro n
    induction n with
    | zero => intro t; exact List.suffix_rfl
    | succ n ih => intro t; exact (ih _).trans (lexNext_suffix t)
  exact h1.trans (h2 n (startTok code))

theorem default_m {code : List Char} {c : Cfg} (hc : code ≠ []) (h : PosOk code c.ast) (hs : ∃ n, c.lval = afterCalls n (startTok code))
    (s : Nat) : defaultAction (mC f c) s = (defaultAction c s).map (mStep f) := by
  unfold defaultAction
  dsimp only
  by_cases h1 : get yyDef s = -2
  · rw [if_pos h1, if_pos h1, fetch_m ho]
    have h2 := curOk (h.fetch hc hs)
    dsimp only
    split
    · rfl
    · split
      · exact syntaxError_m ho h2
      · exact reduce_m ho h2 _
  · rw [if_neg h1, if_neg h1]
    split
    · exact syntaxError_m ho (curOk h)
    · exact reduce_m ho (curOk h) _

theorem step_m {code : List Char} {c : Cfg} (hc : code ≠ []) (h : PosOk code c.ast) (hs : ∃ n, c.lval = afterCalls n (startTok code)) :
    step (mC f c) = (step c).map (mStep f) := by
  unfold step
  cases hl : c.live with
  | nil =>
    rw [show (mC f c).live = [] by show mL f c.live = []; rw [hl]; rfl]
    rfl
  | cons x r =>
    obtain ⟨s, v⟩ := x
    rw [show (mC f c).live = (s, mS f v) :: mL f r by show mL f c.live = _; rw [hl]; rfl]
    dsimp only
    by_cases hz : get yyPact s ≤ yyFlag
    · rw [if_pos hz, if_pos hz]
      exact default_m ho hc h hs s
    · rw [if_neg hz, if_neg hz, fetch_m ho]
      dsimp only
      have hcode : c.ast.code ≠ [] := by rw [h.codeEq]; exact hc
      have h1 := h.fetch hc hs
      have h2 := fetch_lval hcode hs
      cases shiftOf s (fetch c).2 with
      | some s' => exact perform_m ho (curOk h1) (.shift s')
      | none => exact default_m ho hc h1 h2 s

/-- The result of the driver on the changed text. -/
def mR : Except Panic (Option (Nat × Ast)) → Except Panic (Option (Nat × Ast)) :=
  Except.map (Option.map fun p => (p.1, mA f p.2))

theorem run_m {code : List Char} (hc : code ≠ []) (n : Nat) {c : Cfg} (h : PosOk code c.ast)
    (hs : ∃ n, c.lval = afterCalls n (startTok code)) : run n (mC f c) = mR (f := f) (run n c) := by
  induction n generalizing c with
  | zero => rfl
  | succ n ih =>
    have hp := step_pos hc h hs
    show (step (mC f c) >>= fun x => match x with | .done k a => .ok (some (k, a)) | .go c' => run n c') =
      mR (step c >>= fun x => match x with | .done k a => .ok (some (k, a)) | .go c' => run n c')
    rw [step_m ho hc h hs]
    cases hx : step c with
    | error q => rfl
    | ok x =>
      rw [hx] at hp
      cases x with
      | done k a => rfl
      | go c' => exact ih hp.1 hp.2

theorem init_m (code : List Char) : initCfg (newAST (f code)) = mC f (initCfg (newAST code)) := by
  have h0 := mS_zero ho
  have hn := ho.nil
  show Cfg.mk _ _ _ _ _ = Cfg.mk _ _ _ _ _
  congr 1
  · show Tok.mk [] .nil (f code) false = Tok.mk (f []) .nil (f code) false
    rw [hn]
  · show [(0, _)] = [(0, mS f {})]
    rw [h0]

/-- The driver on the changed text. -/
theorem driver {code : List Char} (hc : code ≠ []) :
    run (fuel (f code).length) (initCfg (newAST (f code))) = mR (f := f) (run (fuel code.length) (initCfg (newAST code))) := by
  have hc' : f code ≠ [] := mt (code_m ho _).1 hc
  have hr := run_m ho hc (fuel (f code).length + fuel code.length) (c := initCfg (newAST code))
    ⟨rfl, nofun, nofun⟩ ⟨0, rfl⟩
  have f1 : run (fuel code.length) (initCfg (newAST code)) ≠ .ok none := by
    intro e
    have := parse_final (newAST code) hc
    rw [show (newAST code).code = code from rfl, e] at this
    exact this
  have f2 : run (fuel (f code).length) (initCfg (newAST (f code))) ≠ .ok none := by
    intro e
    have := parse_final (newAST (f code)) hc'
    rw [show (newAST (f code)).code = f code from rfl, e] at this
    exact this
  have e1 := run_more _ (fuel (f code).length) _ f1
  have e2 := run_more _ (fuel code.length) _ f2
  rw [Nat.add_comm] at e1
  rw [← e2, ← e1, init_m ho, hr]

end TextMap
end Verif
