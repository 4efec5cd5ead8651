import Verif.Proofs.LR.Sim
/-!
# The parser sees the text only through its tokens

Texts and positions are erased from the configurations of the driver; the driver commutes with that.
-/
namespace Verif.LR
open Tables Spec Lexer

/-- Without the position. -/
def eT (t : Tok) : Tok := { t with rest := [], prevDot := false }

def eS (v : SV) : SV :=
  { v with token := eT v.token, opt_export := v.opt_export.map eT, opt_directive := v.opt_directive.map eT,
           identifiers := v.identifiers.map eT }

def eErr : Err → Err
  | .lex e => .lex e
  | .at m _ _ l => .at m 0 0 l

def eA (a : Ast) : Ast := { a with code := [], err := a.err.map eErr, cur := a.cur.map eT }

def eP (p : SV × Ast) : SV × Ast := (eS p.1, eA p.2)

def eL (l : List (Nat × SV)) : List (Nat × SV) := l.map fun p => (p.1, eS p.2)

theorem eT_eT (t : Tok) : eT (eT t) = eT t := rfl

theorem eT_map (l : List Tok) : (l.map eT).map eT = l.map eT := by
  rw [List.map_map]; rfl

theorem eS_eS (v : SV) : eS (eS v) = eS v := by
  show SV.mk .. = SV.mk ..
  congr 1
  · show (v.opt_export.map eT).map eT = _
    cases v.opt_export <;> rfl
  · show (v.opt_directive.map eT).map eT = _
    cases v.opt_directive <;> rfl
  · exact eT_map _

theorem eA_eA (a : Ast) : eA (eA a) = eA a := by
  rcases a with ⟨c, e, m, t, x, y, z⟩
  cases e with
  | none => cases t <;> rfl
  | some e => cases e <;> cases t <;> rfl

theorem error_e (a : Ast) (m : Msg) : (a.error m).map eA = ((eA a).error m).map eA := by
  rcases a with ⟨c, e, md, t, x, y, z⟩
  cases t <;> rfl

theorem ok_e (a : Ast) : (Except.ok a : Except Panic Ast).map eA = (Except.ok (eA a) : Except Panic Ast).map eA := by
  show Except.ok _ = Except.ok _
  rw [eA_eA]

/-- Pairing a result with a value. -/
theorem pair_e {x y : Except Panic Ast} {v w : SV} (h : x.map eA = y.map eA) (hv : eS v = eS w) :
    (x >>= fun a => (Except.ok (v, a) : Except Panic _)).map eP = (y >>= fun a => (Except.ok (w, a) : Except Panic _)).map eP := by
  cases x <;> cases y
  · injection h with h; subst h; rfl
  · cases h
  · cases h
  · injection h with h
    show Except.ok (eS v, eA _) = Except.ok (eS w, eA _)
    rw [h, hv]

theorem bind_e {x y : Except Panic Ast} {f : Ast → Except Panic Ast} (h : x.map eA = y.map eA)
    (hf : ∀ a, (f a).map eA = (f (eA a)).map eA) : (x >>= f).map eA = (y >>= f).map eA := by
  cases x <;> cases y
  · injection h with h; subst h; rfl
  · cases h
  · cases h
  · injection h with h
    show (f _).map eA = (f _).map eA
    rw [hf, h, ← hf]

theorem appendGlobal_e (a : Ast) (v : GVar) : (appendGlobal a v).map eA = (appendGlobal (eA a) v).map eA := by
  unfold appendGlobal
  show _ = (if a.mod.body ≠ [] then (eA a).error .varOrder
    else if a.mod.globals.any (fun g => g.name == v.name) then (eA a).error (.dupVar v.name)
    else Except.ok (eA { a with mod := { a.mod with globals := a.mod.globals ++ [v] } })).map eA
  split
  · exact error_e _ _
  · split
    · exact error_e _ _
    · exact ok_e _

theorem appendGlobals_e (l : List GVar) : ∀ a : Ast, (appendGlobals a l).map eA = (appendGlobals (eA a) l).map eA := by
  induction l with
  | nil => intro a; exact ok_e a
  | cons v l ih => intro a; exact bind_e (appendGlobal_e a v) ih

theorem appendFunc_e (a : Ast) (f : FuncDecl) : (appendFunc a f).map eA = (appendFunc (eA a) f).map eA := by
  unfold appendFunc
  show _ = (match a.mod.body.getLast? with
    | some (.stm _) => (eA a).error .funcOrder
    | _ => Except.ok (eA { a with mod := { a.mod with body := a.mod.body ++ [Item.func f] } })).map eA
  rcases a.mod.body.getLast? with - | s
  · exact ok_e { a with mod := { a.mod with body := a.mod.body ++ [Item.func f] } }
  · cases s
    · exact ok_e { a with mod := { a.mod with body := a.mod.body ++ [Item.func f] } }
    · exact error_e _ _

theorem checkLoop_e (a : Ast) (t : Tok) : (checkLoop a t).map eA = (checkLoop (eA a) (eT t)).map eA := by
  unfold checkLoop
  show _ = (if a.isLoop = 0 then (eA a).error (.loopOp t.literal) else Except.ok (eA a)).map eA
  split
  · exact error_e _ _
  · exact ok_e _

theorem checkThrow_e (a : Ast) (t : Tok) (s : Stm) : (checkThrow a t s).map eA = (checkThrow (eA a) (eT t) s).map eA := by
  unfold checkThrow
  show _ = (if a.isTry = 0 ∧ s.isNil then (eA a).error (.throwOp t.literal) else Except.ok (eA a)).map eA
  split
  · exact error_e _ _
  · exact ok_e _

theorem checkReturn_e (a : Ast) (s : Stm) : (checkReturn a s).map eA = (checkReturn (eA a) s).map eA := by
  unfold checkReturn
  show _ = (if !a.isFunc ∧ !s.isNil then (eA a).error .procReturn else Except.ok (eA a)).map eA
  split
  · exact error_e _ _
  · exact ok_e _

theorem checkColon_e (a : Ast) (t : Tok) (l : List Stm) : (checkColon a t l).map eA = (checkColon (eA a) (eT t) l).map eA := by
  unfold checkColon
  show _ = (if t.literal = [':'] then
    match l.getLast? with
    | none => Except.ok (eA a)
    | some (.label _) => Except.ok (eA a)
    | some _ => (eA a).error .semicolon
  else Except.ok (eA a)).map eA
  split
  · rcases l.getLast? with - | s
    · exact ok_e _
    · cases s <;> first | exact ok_e _ | exact error_e _ _
  · exact ok_e _

theorem appendVars_e (l : List Tok) : ∀ m, appendVars m (l.map eT) = appendVars m l := by
  induction l with
  | nil => intro m; rfl
  | cons t l ih =>
    intro m
    cases m with
    | none => rfl
    | some ks =>
      show (if ks.contains t.literal then _ else appendVars (some (ks ++ [t.literal])) (l.map eT)) = _
      rw [ih]; rfl

theorem eok {v w : SV} {a b : Ast} (hv : eS v = eS w) (ha : eA a = eA b) :
    (Except.ok (v, a) : Except Panic _).map eP = (Except.ok (w, b) : Except Panic _).map eP := by
  show Except.ok (eS v, eA a) = Except.ok (eS w, eA b)
  rw [hv, ha]

theorem eO_eO (o : Option Tok) : (o.map eT).map eT = o.map eT := by cases o <;> rfl

theorem eT_lit (t : Tok) : (eT t).literal = t.literal := rfl
theorem eT_val (t : Tok) : (eT t).value = t.value := rfl

macro "erase" : tactic => `(tactic|
  simp only [eS, eO_eO, eT_map, eT_eT, eT_lit, eT_val, Option.map_some, Option.map_none, List.map_append, List.map_cons,
    List.map_nil, fillParam])

theorem act_e (p : Nat) (d : Nat → SV) (v : SV) (a : Ast) :
    (act p d v a).map eP = (act p (fun i => eS (d i)) (eS v) (eA a)).map eP := by
  unfold act
  split <;> try (refine eok ?_ (eA_eA _).symm; erase; done)
  all_goals try (exact pair_e (by first | exact appendGlobals_e _ _ | exact checkLoop_e .. | exact checkThrow_e .. | exact checkReturn_e ..) (by
      erase))
  -- 7
  · show Except.map eP (match (d 1).funcProc with
      | some f => do .ok (v, ← appendFunc a f)
      | none => .ok (v, a)) = Except.map eP (match (d 1).funcProc with
      | some f => do .ok (eS v, ← appendFunc (eA a) f)
      | none => .ok (eS v, eA a))
    cases (d 1).funcProc with
    | none => exact eok (eS_eS _).symm (eA_eA _).symm
    | some f => exact pair_e (appendFunc_e a f) (eS_eS _).symm
  -- 12
  · refine eok ?_ (eA_eA _).symm
    simp only [eS, eO_eO, eT_eT, List.map_map, Option.isSome_map]
    congr 1
    cases (d 1).opt_directive <;> rfl
  -- 14, 15
  · refine eok ?_ (eA_eA { a with isFunc := false }).symm
    simp only [eS, eO_eO, eT_map, eT_eT, eT_lit, createFunc, Option.isSome_map]
    congr 2
    cases (d 1).opt_directive <;> rfl
  · refine eok ?_ (eA_eA _).symm
    simp only [eS, eO_eO, eT_map, eT_eT, eT_lit, createFunc, Option.isSome_map]
    congr 2
    cases (d 1).opt_directive <;> rfl
  -- 19
  · refine pair_e (checkColon_e ..) ?_
    show eS (if (d 3).stmt.isNil then v else _) = eS (if (d 3).stmt.isNil then eS v else _)
    split <;> erase
  -- 26
  · show Except.map eP (appendVars (some []) (d 2).identifiers >>= _) =
      Except.map eP (appendVars (some []) ((d 2).identifiers.map eT) >>= _)
    rw [appendVars_e]
    cases appendVars (some []) (d 2).identifiers with
    | error q => rfl
    | ok r =>
      rcases r with ⟨m, - | n⟩
      · refine eok ?_ (eA_eA _).symm
        erase
      · exact pair_e (error_e _ _) (eS_eS _).symm
  -- 27
  · show Except.map eP (appendVars (d 1).explicit_variables (d 3).identifiers >>= _) =
      Except.map eP (appendVars (d 1).explicit_variables ((d 3).identifiers.map eT) >>= _)
    rw [appendVars_e]
    cases appendVars (d 1).explicit_variables (d 3).identifiers with
    | error q => rfl
    | ok r =>
      rcases r with ⟨m, - | n⟩
      · refine eok ?_ (eA_eA _).symm
        erase
      · refine pair_e (error_e _ _) ?_
        erase

/-! ## The driver -/

theorem popN_e (n : Nat) : ∀ l st, popN n (eL l) (st.map eS) = (eL (popN n l st).1, (popN n l st).2.map eS) := by
  induction n with
  | zero => intro l st; cases l <;> rfl
  | succ n ih =>
    intro l st
    cases l with
    | nil => rfl
    | cons x l => exact ih l (x.2 :: st)

theorem recover_e (l : List (Nat × SV)) : recover (eL l) = (recover l).map fun p => (p.1, eL p.2) := by
  induction l with
  | nil => rfl
  | cons x l ih =>
    show (match shiftOf x.1 yyErrCode.toNat with
      | some s' => some (s', eL (x :: l)) | none => recover (eL l)) = (match shiftOf x.1 yyErrCode.toNat with
      | some s' => some (s', x :: l) | none => recover l).map _
    cases shiftOf x.1 yyErrCode.toNat with
    | none => exact ih
    | some s => rfl

/-- What is compared of a configuration: everything but the text and the positions. -/
def eC (c : Cfg) : Cfg :=
  { ast := eA c.ast, lval := eT c.lval, look := c.look, live := eL c.live, stale := c.stale.map eS }

def eStep : Step → Step
  | .go c => .go (eC c)
  | .done k a => .done k (eA a)

theorem getD_e (st : List SV) (i : Nat) : (st.map eS).getD i {} = eS (st.getD i {}) := by
  rw [List.getD_eq_getElem?_getD, List.getD_eq_getElem?_getD, List.getElem?_map]
  cases st[i]? <;> rfl

theorem headD_e (st : List SV) : (st.map eS).headD {} = eS (st.headD {}) := by
  cases st <;> rfl

theorem eL_eL (l : List (Nat × SV)) : eL (eL l) = eL l := by
  unfold eL
  rw [List.map_map]
  exact List.map_congr_left fun x _ => by show (x.1, eS (eS x.2)) = _; rw [eS_eS]

theorem eSs (l : List SV) : (l.map eS).map eS = l.map eS := by
  rw [List.map_map]
  exact List.map_congr_left fun x _ => eS_eS x

theorem eC_eC (c : Cfg) : eC (eC c) = eC c := by
  unfold eC
  simp only [eA_eA, eT_eT, eL_eL, eSs]

theorem reduce_e (c : Cfg) (p : Nat) : (reduce c p).map eStep = (reduce (eC c) p).map eStep := by
  unfold reduce
  have hp : popN (get yyR2 p).toNat (eC c).live (eC c).stale = _ := popN_e _ c.live c.stale
  dsimp only
  rw [hp]
  rcases popN (get yyR2 p).toNat c.live c.stale with ⟨live, stale⟩
  cases live with
  | nil => exact congrArg Except.ok (congrArg (Step.done 1) (eA_eA c.ast).symm)
  | cons x live =>
    show Except.map eStep (act p (fun i => stale.getD (i - 1) {}) (stale.headD {}) c.ast >>= fun r =>
        .ok (.go (({ c with ast := r.2, live := x :: live, stale := stale } : Cfg).push (gotoOf x.1 p) r.1))) =
      Except.map eStep (act p (fun i => (stale.map eS).getD (i - 1) {}) ((stale.map eS).headD {}) (eA c.ast) >>= fun r =>
        .ok (.go (({ eC c with ast := r.2, live := eL (x :: live), stale := stale.map eS } : Cfg).push (gotoOf x.1 p) r.1)))
    have h := act_e p (fun i => stale.getD (i - 1) {}) (stale.headD {}) c.ast
    simp only [getD_e, headD_e]
    revert h
    cases act p (fun i => stale.getD (i - 1) {}) (stale.headD {}) c.ast <;>
      cases act p (fun i => eS (stale.getD (i - 1) {})) (eS (stale.headD {})) (eA c.ast)
    · intro h; injection h with h; subst h; rfl
    · intro h; cases h
    · intro h; cases h
    · intro h
      injection h with h
      injection h with h1 h2
      refine congrArg Except.ok (congrArg Step.go ?_)
      simp only [eC, Cfg.push, eL, List.map_cons, h1, h2, eT_eT, eS_eS, ← List.map_tail, eSs]
      congr 2
      exact congrArg (_ :: ·) (eL_eL live).symm

theorem syntaxError_e (c : Cfg) : (syntaxError c).map eStep = (syntaxError (eC c)).map eStep := by
  unfold syntaxError
  have h := error_e c.ast .syntaxError
  show Except.map eStep (c.ast.error .syntaxError >>= _) = Except.map eStep ((eA c.ast).error .syntaxError >>= _)
  revert h
  cases c.ast.error .syntaxError <;> cases (eA c.ast).error .syntaxError
  · intro h; injection h with h; subst h; rfl
  · intro h; cases h
  · intro h; cases h
  · rename_i a b
    intro h
    injection h with h
    have hr : recover (eC c).live = _ := recover_e c.live
    show Except.map eStep (match recover c.live with
      | none => .ok (.done 1 a)
      | some (s', live) => .ok (.go (({ c with ast := a, live := live } : Cfg).push s' {}))) =
      Except.map eStep (match recover (eC c).live with
      | none => .ok (.done 1 b)
      | some (s', live) => .ok (.go (({ eC c with ast := b, live := live } : Cfg).push s' {})))
    rw [hr]
    rcases recover c.live with - | ⟨s', live⟩
    · exact congrArg Except.ok (congrArg (Step.done 1) h)
    · refine congrArg Except.ok (congrArg Step.go ?_)
      simp only [eC, Cfg.push, eL, List.map_cons, h, eT_eT, ← List.map_tail, eSs]
      congr 2
      exact (eL_eL live).symm

/-- Equal but for text and positions. -/
def Like (c c' : Cfg) : Prop := eC c = eC c'

/-- Outcomes of a round, equal but for text and positions. -/
theorem reduce_like {c c' : Cfg} (h : Like c c') (p : Nat) : (reduce c p).map eStep = (reduce c' p).map eStep := by
  rw [reduce_e, h, ← reduce_e]

theorem syntaxError_like {c c' : Cfg} (h : Like c c') : (syntaxError c).map eStep = (syntaxError c').map eStep := by
  rw [syntaxError_e, h, ← syntaxError_e]

variable [Letters]

/-- The token numbers and literals. -/
def kinds (l : List (Nat × Tok)) : List (Nat × List Char) := l.map fun p => (p.1, p.2.literal)

/-- Same number and literal: the value is determined. -/
theorem lexNext_val {t t' u u' : Tok} {k : Nat} (h : lexNext t = (t', .ok (some k))) (g : lexNext u = (u', .ok (some k)))
    (hl : t'.literal = u'.literal) (hv : t.value = u.value) : t'.value = u'.value := by
  have key : ∀ {t t' : Tok} {b : Bool} {r : Raw}, finish t b r = (t', .ok (some k)) → valueOf k t'.literal t.value = .ok t'.value := by
    intro t t' b r h
    unfold finish at h
    split at h
    · injection h with _ h; cases h
    · injection h with _ h; cases h
    · split at h
      · rename_i v hv
        injection h with h1 h2
        injection h2 with h2
        injection h2 with h2
        subst h1; subst h2
        exact hv
      · injection h with _ h; cases h
  have h1 := key h
  have h2 := key g
  rw [hl, hv, h2] at h1
  injection h1 with h1
  exact h1.symm

theorem lexNext_eof {t : Tok} (h : (lexNext t).2 = .ok none) :
    (lexNext t).1.literal = [] ∧ (lexNext t).1.value = t.value := by
  have h1 := (lexNext_eof_iff t).1 h
  unfold lexNext
  dsimp only
  rw [h1]
  exact ⟨rfl, rfl⟩

/-- Two runs on texts with the same tokens. -/
structure Par (c c' : Cfg) : Prop where
  like : Like c c'
  code : c.ast.code ≠ []
  code' : c'.ast.code ≠ []
  toks : ∃ l l', Tokens c.lval l ∧ Tokens c'.lval l' ∧ kinds l = kinds l'

omit [Letters] in
theorem Like.parts {c c' : Cfg} (h : Like c c') : eA c.ast = eA c'.ast ∧ eT c.lval = eT c'.lval ∧ c.look = c'.look ∧
    eL c.live = eL c'.live ∧ c.stale.map eS = c'.stale.map eS := by
  unfold Like eC at h
  injection h with h1 h2 h3 h4 h5
  exact ⟨h1, h2, h3, h4, h5⟩

omit [Letters] in
theorem like_of {c c' : Cfg} (h1 : eA c.ast = eA c'.ast) (h2 : eT c.lval = eT c'.lval) (h3 : c.look = c'.look)
    (h4 : eL c.live = eL c'.live) (h5 : c.stale.map eS = c'.stale.map eS) : Like c c' := by
  unfold Like eC
  rw [h1, h2, h3, h4, h5]

omit [Letters] in
theorem eT_eq {t t' : Tok} : eT t = eT t' ↔ t.literal = t'.literal ∧ t.value = t'.value := by
  constructor
  · intro h; injection h with h1 h2; exact ⟨h1, h2⟩
  · rintro ⟨h1, h2⟩; unfold eT; rw [h1, h2]

omit [Letters] in
theorem eA_cur {a a' : Ast} (h : eA a = eA a') {t t' : Tok} (ht : eT t = eT t') :
    eA { a with cur := some t } = eA { a' with cur := some t' } := by
  unfold eA at h ⊢
  injection h with h1 h2 h3 h4 h5 h6 h7
  dsimp only
  rw [h2, h3, h5, h6, h7, Option.map_some, Option.map_some, ht]

theorem Par.fetch {c c' : Cfg} (h : Par c c') : Par (Verif.fetch c).1 (Verif.fetch c').1 ∧ (Verif.fetch c).2 = (Verif.fetch c').2 := by
  obtain ⟨p1, p2, p3, p4, p5⟩ := h.like.parts
  cases hl : c.look with
  | some t =>
    have hl' : c'.look = some t := p3 ▸ hl
    have e : Verif.fetch c = (c, t) := by unfold Verif.fetch; rw [hl]
    have e' : Verif.fetch c' = (c', t) := by unfold Verif.fetch; rw [hl']
    rw [e, e']; exact ⟨h, rfl⟩
  | none =>
    have hl' : c'.look = none := p3 ▸ hl
    rw [fetch_none hl, fetch_none hl', lexCall_eq h.code, lexCall_eq h.code']
    obtain ⟨l, l', t1, t2, hk⟩ := h.toks
    obtain ⟨q1, q2⟩ := eT_eq.1 p2
    cases t1 with
    | eof hx =>
      cases t2 with
      | next _ _ => cases hk
      | eof hy =>
        have ex := lexNext_end hx
        have ey := lexNext_end hy
        obtain ⟨x1, x2⟩ := lexNext_eof hx
        obtain ⟨y1, y2⟩ := lexNext_eof hy
        revert hx hy ex ey x1 x2 y1 y2
        rcases lexNext c.lval with ⟨t, r⟩
        rcases lexNext c'.lval with ⟨t', r'⟩
        intro hx hy ex ey x1 x2 y1 y2
        dsimp only at hx hy ex ey x1 x2 y1 y2
        subst hx; subst hy
        refine ⟨⟨like_of p1 (eT_eq.2 ⟨x1.trans y1.symm, x2.trans (q2.trans y2.symm)⟩) p3 p4 p5, h.code, h.code',
          ⟨[], [], .eof ex, .eof ey, rfl⟩⟩, rfl⟩
    | @next _ t k l hx tx =>
      cases t2 with
      | eof _ => cases hk
      | @next _ t' k' l' hy ty =>
        injection hk with hk1 hk2
        injection hk1 with hk1 hk3
        dsimp only at hk1 hk3
        subst hk1
        have hv := lexNext_val hx hy hk3 q2
        rw [hx, hy]
        have he := eT_eq.2 ⟨hk3, hv⟩
        exact ⟨⟨like_of (eA_cur p1 he) he rfl p4 p5, h.code, h.code', ⟨l, l', tx, ty, hk2⟩⟩, rfl⟩

omit [Letters] in
theorem reduce_keep {c d : Cfg} {p : Nat} (h : reduce c p = .ok (.go d)) : d.lval = c.lval ∧ d.ast.code = c.ast.code := by
  unfold reduce at h
  dsimp only at h
  split at h
  · cases h
  · obtain ⟨⟨v, a⟩, h1, h2⟩ := bind_ok h
    injection h2 with h2
    injection h2 with h2
    subst h2
    exact ⟨rfl, (act_frame h1).code⟩

omit [Letters] in
theorem syntaxError_keep {c d : Cfg} (h : syntaxError c = .ok (.go d)) : d.lval = c.lval ∧ d.ast.code = c.ast.code := by
  unfold syntaxError at h
  obtain ⟨a, h1, h2⟩ := bind_ok h
  split at h2
  · cases h2
  · injection h2 with h2
    injection h2 with h2
    subst h2
    exact ⟨rfl, (error_frame h1).1.code⟩

/-- Outcomes of a round on texts with the same tokens. -/
def ParStep (x y : Except Panic Step) : Prop :=
  x.map eStep = y.map eStep ∧ ∀ d d', x = .ok (.go d) → y = .ok (.go d') → Par d d'

theorem ParStep.of {c c' : Cfg} {x y : Except Panic Step} (hp : Par c c') (h : x.map eStep = y.map eStep)
    (kx : ∀ d, x = .ok (.go d) → d.lval = c.lval ∧ d.ast.code = c.ast.code)
    (ky : ∀ d, y = .ok (.go d) → d.lval = c'.lval ∧ d.ast.code = c'.ast.code) : ParStep x y := by
  refine ⟨h, ?_⟩
  rintro d d' rfl rfl
  injection h with h
  injection h with h
  obtain ⟨a1, a2⟩ := kx d rfl
  obtain ⟨b1, b2⟩ := ky d' rfl
  refine ⟨h, a2 ▸ hp.code, b2 ▸ hp.code', ?_⟩
  rw [a1, b1]
  exact hp.toks

theorem ParStep.red {c c' : Cfg} (h : Par c c') (p : Nat) : ParStep (reduce c p) (reduce c' p) :=
  .of h (reduce_like h.like p) (fun _ => reduce_keep) (fun _ => reduce_keep)

theorem ParStep.synt {c c' : Cfg} (h : Par c c') : ParStep (syntaxError c) (syntaxError c') :=
  .of h (syntaxError_like h.like) (fun _ => syntaxError_keep) (fun _ => syntaxError_keep)

theorem Par.done {c c' : Cfg} (h : Par c c') (k : Nat) : ParStep (.ok (.done k c.ast)) (.ok (.done k c'.ast)) :=
  ⟨congrArg Except.ok (congrArg (Step.done k) h.like.parts.1), fun _ _ he => by injection he with he; cases he⟩

theorem Par.defaultAction {c c' : Cfg} (h : Par c c') (s : Nat) :
    ParStep (Verif.defaultAction c s) (Verif.defaultAction c' s) := by
  unfold Verif.defaultAction
  dsimp only
  split
  · obtain ⟨h1, h2⟩ := h.fetch
    revert h1 h2
    rcases Verif.fetch c with ⟨d, t⟩
    rcases Verif.fetch c' with ⟨d', t'⟩
    intro h1 h2
    dsimp only at h1 h2 ⊢
    subst h2
    split
    · exact h1.done 0
    · split
      · exact .synt h1
      · exact .red h1 _
  · split
    · exact .synt h
    · exact .red h _

theorem Par.step {c c' : Cfg} (h : Par c c') : ParStep (Verif.step c) (Verif.step c') := by
  obtain ⟨-, -, -, p4, -⟩ := h.like.parts
  unfold Verif.step
  cases hl : c.live with
  | nil =>
    rw [hl] at p4
    have hl' : c'.live = [] := List.map_eq_nil_iff.1 p4.symm
    rw [hl']
    exact h.done 1
  | cons x l =>
    rw [hl] at p4
    cases hl' : c'.live with
    | nil => rw [hl'] at p4; cases p4
    | cons x' l' =>
      rw [hl'] at p4
      injection p4 with p4 _
      injection p4 with p4 _
      obtain ⟨s, v⟩ := x
      obtain ⟨s', v'⟩ := x'
      dsimp only at p4 ⊢
      subst p4
      split
      · exact h.defaultAction s
      · obtain ⟨h1, h2⟩ := h.fetch
        revert h1 h2
        rcases Verif.fetch c with ⟨d, t⟩
        rcases Verif.fetch c' with ⟨d', t'⟩
        intro h1 h2
        dsimp only at h1 h2 ⊢
        subst h2
        cases shiftOf s t with
        | none => exact h1.defaultAction s
        | some r =>
          obtain ⟨q1, q2, q3, q4, q5⟩ := h1.like.parts
          have hlike : Like (({ d with look := none } : Cfg).push r { token := d.lval })
              (({ d' with look := none } : Cfg).push r { token := d'.lval }) := by
            refine like_of q1 q2 rfl ?_ ?_
            · show (r, eS { token := d.lval }) :: eL d.live = (r, eS { token := d'.lval }) :: eL d'.live
              rw [q4]
              congr 2
              unfold eS
              rw [q2]
            · show d.stale.tail.map eS = d'.stale.tail.map eS
              rw [List.map_tail, List.map_tail, q5]
          refine ⟨congrArg Except.ok (congrArg Step.go hlike), ?_⟩
          rintro e e' he he'
          injection he with he; injection he with he; subst he
          injection he' with he'; injection he' with he'; subst he'
          exact ⟨hlike, h1.code, h1.code', h1.toks⟩

/-- Outcomes of the driver loop, equal but for text and positions. -/
def eR : Except Panic (Option (Nat × Ast)) → Except Panic (Option (Nat × Ast)) :=
  Except.map (Option.map fun p => (p.1, eA p.2))

theorem Par.run (n : Nat) {c c' : Cfg} (h : Par c c') : eR (Verif.run n c) = eR (Verif.run n c') := by
  induction n generalizing c c' with
  | zero => rfl
  | succ n ih =>
    obtain ⟨h1, h2⟩ := h.step
    unfold Verif.run
    revert h1 h2
    cases Verif.step c with
    | error q =>
      cases Verif.step c' with
      | error q' => intro h1 _; injection h1 with h1; subst h1; rfl
      | ok _ => intro h1; cases h1
    | ok x =>
      cases Verif.step c' with
      | error q' => intro h1; cases h1
      | ok y =>
        intro h1 h2
        cases x <;> cases y
        · exact ih (h2 _ _ rfl rfl)
        · injection h1 with h1; cases h1
        · injection h1 with h1; cases h1
        · injection h1 with h1
          injection h1 with h3 h4
          subst h3
          show Except.ok (some (_, eA _)) = Except.ok (some (_, eA _))
          rw [h4]

/-- More rounds do not matter. -/
theorem run_more (n m : Nat) (c : Cfg) (h : run n c ≠ .ok none) : run (n + m) c = run n c := by
  induction n generalizing c with
  | zero => exact absurd rfl h
  | succ n ih =>
    rw [Nat.succ_add]
    unfold run at h ⊢
    cases hs : step c with
    | error q => rfl
    | ok x =>
      rw [hs] at h
      cases x with
      | done k a => rfl
      | go d => exact ih d h

/-- The whole loop, on texts with the same tokens. -/
theorem run_same {code code' : List Char} (hc : code ≠ []) (hc' : code' ≠ []) {l l' : List (Nat × Tok)}
    (ht : TokensOf code l) (ht' : TokensOf code' l') (hk : kinds l = kinds l') :
    eR (run (fuel code.length) (initCfg (newAST code))) = eR (run (fuel code'.length) (initCfg (newAST code'))) := by
  have hp : Par (initCfg (newAST code)) (initCfg (newAST code')) := ⟨rfl, hc, hc', l, l', ht, ht', hk⟩
  have hn : ∀ {code : List Char}, code ≠ [] → run (fuel code.length) (initCfg (newAST code)) ≠ .ok none := by
    intro code hc h
    have := parse_final (newAST code) hc
    change Final _ _ (run (fuel code.length) (initCfg (newAST code))) at this
    rw [h] at this
    exact this
  have h := hp.run (fuel code.length + fuel code'.length)
  rw [run_more _ _ _ (hn hc), Nat.add_comm, run_more _ _ _ (hn hc')] at h
  exact h

end Verif.LR
