import Verif.Proofs.LR.Whole
import Verif.Proofs.LR.Good
import Verif.Proofs.OnlyTokens
import Verif.Spec.Rename
/-!
# Two runs of the parser on texts that differ by a renaming
-/
namespace Verif.LR
open Tables Spec Lexer

variable {ρ : Renaming}

theorem renameL_map (l : List Stm) : Stm.renameL ρ l = l.map (Stm.rename ρ) := by
  induction l with
  | nil => rfl
  | cons s l ih => rw [Stm.renameL, ih]; rfl

theorem isNil_rename (s : Stm) : (s.rename ρ).isNil = s.isNil := by cases s <;> rfl

theorem unaryMinus_rename (h : ρ.Ok) (s : Stm) : unaryMinus (s.rename ρ) = (unaryMinus s).rename ρ := by
  cases s <;> first | rfl | (simp only [unaryMinus, Stm.rename, h.negate])

theorem notStm_rename (s : Stm) : notStm (s.rename ρ) = (notStm s).rename ρ := by
  cases s <;> rfl

theorem toStm_rename (v : Val) : (ρ.val v).toStm = v.toStm.rename ρ := by
  cases v <;> rfl

theorem defaultValue_rename (p : Param) (s : Stm) : (p.rename ρ).defaultValue (s.rename ρ) = (p.defaultValue s).rename ρ := by
  cases s <;> rfl

/-- Related outcomes. -/
inductive Rel {α β : Type} (R : α → β → Prop) : Except Panic α → Except Panic β → Prop
  | error (q : Panic) : Rel R (.error q) (.error q)
  | ok {x : α} {y : β} : R x y → Rel R (.ok x) (.ok y)

theorem Rel.bind {α β γ δ : Type} {R : α → β → Prop} {S : γ → δ → Prop} {x : Except Panic α} {y : Except Panic β}
    {f : α → Except Panic γ} {g : β → Except Panic δ} (h : Rel R x y) (hf : ∀ a b, R a b → Rel S (f a) (g b)) :
    Rel S (x >>= f) (y >>= g) := by
  cases h with
  | error q => exact .error q
  | ok h => exact hf _ _ h

/-- The state of the AstNode in the two runs. -/
structure AstR (ρ : Renaming) (a a' : Ast) : Prop where
  mod : a'.mod = a.mod.rename ρ
  err : a'.err.map Renaming.none.fault = a.err.map ρ.fault
  cur : a'.cur.isSome = a.cur.isSome
  isLoop : a'.isLoop = a.isLoop
  isTry : a'.isTry = a.isTry
  isFunc : a'.isFunc = a.isFunc

/-- Messages that say the same. -/
def MsgR (ρ : Renaming) (m m' : Msg) : Prop :=
  ∀ l c x l' c' x', Renaming.none.fault (.at m' l' c' x') = ρ.fault (.at m l c x)

theorem error_r {a a' : Ast} {m m' : Msg} (h : AstR ρ a a') (hm : MsgR ρ m m') : Rel (AstR ρ) (a.error m) (a'.error m') := by
  have hc := h.cur
  unfold Ast.error
  cases ha : a.cur with
  | none =>
    cases ha' : a'.cur with
    | none => exact .error _
    | some t' => rw [ha, ha'] at hc; cases hc
  | some t =>
    cases ha' : a'.cur with
    | none => rw [ha, ha'] at hc; cases hc
    | some t' =>
      rw [ha, ha'] at hc
      exact .ok { h with err := congrArg some (hm ..), cur := rfl }

theorem appendGlobal_r (ho : ρ.Ok) {a a' : Ast} (g : GVar) (h : AstR ρ a a') :
    Rel (AstR ρ) (appendGlobal a g) (appendGlobal a' (g.rename ρ)) := by
  unfold appendGlobal
  have h1 : (a'.mod.body ≠ []) ↔ (a.mod.body ≠ []) := by
    rw [h.mod]
    show (a.mod.body.map _ ≠ []) ↔ _
    rw [ne_eq, List.map_eq_nil_iff]
  have h2 : a'.mod.globals.any (fun x => x.name == (g.rename ρ).name) = a.mod.globals.any (fun x => x.name == g.name) := by
    rw [h.mod]
    show (a.mod.globals.map _).any _ = _
    rw [List.any_map]
    congr 1
    funext x
    show (ρ.name x.name == ρ.name g.name) = (x.name == g.name)
    rw [Bool.eq_iff_iff, beq_iff_eq, beq_iff_eq]
    exact ⟨fun e => ho.inj e, fun e => by rw [e]⟩
  by_cases hb : a.mod.body ≠ []
  · rw [if_pos hb, if_pos (h1.2 hb)]
    exact error_r h (fun _ _ _ _ _ _ => rfl)
  · rw [if_neg hb, if_neg (fun x => hb (h1.1 x)), h2]
    split
    · exact error_r h (fun _ _ _ _ _ _ => rfl)
    · refine .ok { h with mod := ?_ }
      dsimp only
      rw [h.mod]
      simp only [Module.rename, List.map_append, List.map_cons, List.map_nil]

theorem appendGlobals_r (ho : ρ.Ok) (l : List GVar) {a a' : Ast} (h : AstR ρ a a') :
    Rel (AstR ρ) (appendGlobals a l) (appendGlobals a' (l.map (GVar.rename ρ))) := by
  induction l generalizing a a' with
  | nil => exact .ok h
  | cons g l ih => exact (appendGlobal_r ho g h).bind fun _ _ h => ih h

theorem appendFunc_r {a a' : Ast} (f : FuncDecl) (h : AstR ρ a a') :
    Rel (AstR ρ) (appendFunc a f) (appendFunc a' (f.rename ρ)) := by
  have hl : a'.mod.body.getLast? = a.mod.body.getLast?.map (Item.rename ρ) := by
    rw [h.mod]
    show (a.mod.body.map _).getLast? = _
    rw [List.getLast?_map]
  have ok : Rel (AstR ρ) (Except.ok { a with mod := { a.mod with body := a.mod.body ++ [Item.func f] } } : Except Panic Ast)
      (.ok { a' with mod := { a'.mod with body := a'.mod.body ++ [Item.func (f.rename ρ)] } }) := by
    refine .ok { h with mod := ?_ }
    dsimp only
    rw [h.mod]
    simp only [Module.rename, List.map_append, List.map_cons, List.map_nil, Item.rename]
  unfold appendFunc
  rw [hl]
  cases a.mod.body.getLast? with
  | none => exact ok
  | some x =>
    cases x with
    | func g => exact ok
    | stm s => exact error_r h (fun _ _ _ _ _ _ => rfl)

theorem appendStms_r {a a' : Ast} (l : List Stm) (h : AstR ρ a a') :
    AstR ρ (appendStms a l) (appendStms a' (l.map (Stm.rename ρ))) := by
  refine { h with mod := ?_ }
  dsimp only [appendStms]
  rw [h.mod]
  simp only [Module.rename, List.map_append, List.map_map]
  rfl

theorem checkLoop_r {a a' : Ast} (t t' : Tok) (h : AstR ρ a a') : Rel (AstR ρ) (checkLoop a t) (checkLoop a' t') := by
  unfold checkLoop
  rw [h.isLoop]
  split
  · exact error_r h (fun _ _ _ _ _ _ => rfl)
  · exact .ok h

theorem checkThrow_r {a a' : Ast} (t t' : Tok) (s : Stm) (h : AstR ρ a a') :
    Rel (AstR ρ) (checkThrow a t s) (checkThrow a' t' (s.rename ρ)) := by
  unfold checkThrow
  rw [h.isTry, isNil_rename]
  split
  · exact error_r h (fun _ _ _ _ _ _ => rfl)
  · exact .ok h

theorem checkReturn_r {a a' : Ast} (s : Stm) (h : AstR ρ a a') :
    Rel (AstR ρ) (checkReturn a s) (checkReturn a' (s.rename ρ)) := by
  unfold checkReturn
  rw [h.isFunc, isNil_rename]
  split
  · exact error_r h (fun _ _ _ _ _ _ => rfl)
  · exact .ok h

theorem checkColon_r {a a' : Ast} {t t' : Tok} (l : List Stm) (ht : t'.literal = t.literal) (h : AstR ρ a a') :
    Rel (AstR ρ) (checkColon a t l) (checkColon a' t' (l.map (Stm.rename ρ))) := by
  unfold checkColon
  rw [ht, List.getLast?_map]
  split
  · rcases l.getLast? with - | s
    · exact .ok h
    · cases s <;> first | exact .ok h | exact error_r h (fun _ _ _ _ _ _ => rfl)
  · exact .ok h

/-- Tables of variables in the two runs. -/
def VarsR (ρ : Renaming) (r r' : AppendVars) : Prop := r'.map = r.map.map (List.map ρ.name) ∧ r'.dup = r.dup.map ρ.name

theorem appendVars_r (ho : ρ.Ok) {l l' : List Tok} (h : l'.map Tok.literal = (l.map Tok.literal).map ρ.name)
    (m : Option (List Name)) : Rel (VarsR ρ) (appendVars m l) (appendVars (m.map (List.map ρ.name)) l') := by
  induction l generalizing m l' with
  | nil =>
    have : l' = [] := List.map_eq_nil_iff.1 h
    subst this
    exact .ok ⟨rfl, rfl⟩
  | cons t l ih =>
    cases l' with
    | nil => cases h
    | cons t' l' =>
      injection h with h1 h2
      cases m with
      | none => exact .error _
      | some ks =>
        have hc : (ks.map ρ.name).contains t'.literal = ks.contains t.literal := by
          rw [h1, Bool.eq_iff_iff, List.contains_iff_mem, List.contains_iff_mem, List.mem_map]
          exact ⟨fun ⟨x, hx, e⟩ => ho.inj e ▸ hx, fun hx => ⟨_, hx, rfl⟩⟩
        show Rel (VarsR ρ) (if ks.contains t.literal then .ok ⟨some ks, some t.literal⟩ else appendVars (some (ks ++ [t.literal])) l)
          (if (ks.map ρ.name).contains t'.literal then .ok ⟨some (ks.map ρ.name), some t'.literal⟩
            else appendVars (some (ks.map ρ.name ++ [t'.literal])) l')
        rw [hc]
        split
        · exact .ok ⟨rfl, by rw [h1]; rfl⟩
        · have := ih h2 (some (ks ++ [t.literal]))
          rw [Option.map_some, List.map_append] at this
          rw [h1]
          exact this

/-- Stack slots in the two runs, but for the token. -/
structure BuiltR (ρ : Renaming) (v v' : SV) : Prop where
  stmt_if : v'.stmt_if = v.stmt_if.rename ρ
  opt_elseif_list : v'.opt_elseif_list = v.opt_elseif_list.map (Stm.rename ρ)
  opt_else : v'.opt_else = v.opt_else.map (Stm.rename ρ)
  stmt : v'.stmt = v.stmt.rename ρ
  stmt_loop : v'.stmt_loop = v.stmt_loop.rename ρ
  funcProc : v'.funcProc = v.funcProc.map (FuncDecl.rename ρ)
  body : v'.body = v.body.map (Stm.rename ρ)
  opt_body : v'.opt_body = v.opt_body.map (Stm.rename ρ)
  dparams : v'.dparams = v.dparams.map (Param.rename ρ)
  dparam : v'.dparam = v.dparam.rename ρ
  exprs : v'.exprs = v.exprs.map (Stm.rename ρ)
  opt_export : v'.opt_export.isSome = v.opt_export.isSome
  opt_directive : v'.opt_directive.map Tok.literal = (v.opt_directive.map Tok.literal).map ρ.directive
  explicit_variables : v'.explicit_variables = v.explicit_variables.map (List.map ρ.name)
  global_variables : v'.global_variables = v.global_variables.map (GVar.rename ρ)
  opt_explicit_variables : v'.opt_explicit_variables = v.opt_explicit_variables.map (List.map ρ.name)
  identifiers : v'.identifiers.map Tok.literal = (v.identifiers.map Tok.literal).map ρ.name
  goToLabel : v'.goToLabel = v.goToLabel.rename ρ

theorem BuiltR.token (ho : ρ.Ok) (t t' : Tok) : BuiltR ρ { token := t } { token := t' } where
  stmt_if := rfl
  opt_elseif_list := rfl
  opt_else := rfl
  stmt := rfl
  stmt_loop := rfl
  funcProc := rfl
  body := rfl
  opt_body := rfl
  dparams := rfl
  dparam := by
    show Param.mk .nil [] false = Param.mk .nil (ρ.name []) false
    rw [ho.noName]
  exprs := rfl
  opt_export := rfl
  opt_directive := rfl
  explicit_variables := rfl
  global_variables := rfl
  opt_explicit_variables := rfl
  identifiers := rfl
  goToLabel := rfl

/-- The tokens of a terminal in the two runs. -/
structure TokR (ρ : Renaming) (a : Terminal) (t t' : Tok) : Prop where
  key : Spec.key (a.kind, t') = ρ.key (Spec.key (a.kind, t))
  good : Good (a.kind, t)
  good' : Good (a.kind, t')

theorem TokR.ident {t t' : Tok} (h : TokR ρ .ktoken_identifier t t') : t'.literal = ρ.name t.literal := by
  have := h.key
  injection this

theorem TokR.execute {t t' : Tok} (h : TokR ρ .kExecute t t') : t'.literal = ρ.name t.literal := by
  have := h.key
  injection this

theorem TokR.label {t t' : Tok} (h : TokR ρ .kGoToLabel t t') : t'.literal = ρ.label t.literal := by
  have := h.key
  injection this

theorem TokR.directive {t t' : Tok} (h : TokR ρ .kDirective t t') : t'.literal = ρ.directive t.literal := by
  have := h.key
  injection this

theorem TokR.value {a : Terminal} (ha : a ∈ [Terminal.kNumber, .kString, .kDate, .kTrue, .kFalse]) {t t' : Tok}
    (h : TokR ρ a t t') : t'.value = ρ.val t.value := by
  have := h.key
  simp only [List.mem_cons, List.not_mem_nil, or_false] at ha
  rcases ha with rfl | rfl | rfl | rfl | rfl <;> injection this

/-- The part of the slots that belongs to a grammar symbol. -/
def TypedR (ρ : Renaming) : Sym → SV → SV → Prop
  | .t a, v, v' => TokR ρ a v.token v'.token
  | .n .n_separator, v, v' | .n .n_semicolon, v, v' | .n .n_colon, v, v' => v'.token.literal = v.token.literal
  | .n _, _, _ => True

/-- Values of a semantic action in the two runs. -/
def ValuesR (ρ : Renaming) (A : NT) (x y : SV × Ast) : Prop :=
  BuiltR ρ x.1 y.1 ∧ TypedR ρ (.n A) x.1 y.1 ∧ AstR ρ x.2 y.2

theorem createFunc_r (ho : ρ.Ok) (b : Bool) {dir dir' : Option Tok} {n n' : Name} (ps : List Param) {ex ex' : Option Tok}
    (vars : Option (List Name)) (body : List Stm)
    (h1 : dir'.map Tok.literal = (dir.map Tok.literal).map ρ.directive) (h2 : n' = ρ.name n) (h3 : ex'.isSome = ex.isSome) :
    createFunc b dir' n' (ps.map (Param.rename ρ)) ex' (vars.map (List.map ρ.name)) (body.map (Stm.rename ρ)) =
      (createFunc b dir n ps ex vars body).rename ρ := by
  subst h2
  unfold createFunc FuncDecl.rename
  dsimp only
  congr 1
  cases dir with
  | none =>
    cases dir' with
    | none => exact ho.noDirective.symm
    | some t' => cases h1
  | some t =>
    cases dir' with
    | none => cases h1
    | some t' => injection h1

/-- The semantic actions in the two runs. -/
theorem act_r (ho : ρ.Ok) {N : Terminal → Name → Prop} {V : Val → Prop} {L : Nat → Tok → Prop} {p : Nat} {d d' : Nat → SV} {v v' : SV} {a a' : Ast}
    (h0 : 0 < p) (hp : p < nProds) (hd : ∀ i, BuiltR ρ (d i) (d' i)) (hv : BuiltR ρ v v')
    (hw : ∀ i X, (syms p)[i]? = some X → Typed L N V X (d (i + 1)))
    (ht : ∀ i X, (syms p)[i]? = some X → TypedR ρ X (d (i + 1)) (d' (i + 1)))
    (ha : AstR ρ a a') :
    Rel (ValuesR ρ (head p)) (act p d v a) (act p d' v' a') := by
  have e1 := fun i => (hd i).stmt_if
  have e2 := fun i => (hd i).opt_elseif_list
  have e3 := fun i => (hd i).opt_else
  have e4 := fun i => (hd i).stmt
  have e5 := fun i => (hd i).stmt_loop
  have e6 := fun i => (hd i).funcProc
  have e7 := fun i => (hd i).body
  have e8 := fun i => (hd i).opt_body
  have e9 := fun i => (hd i).dparams
  have e10 := fun i => (hd i).dparam
  have e11 := fun i => (hd i).exprs
  have e12 := fun i => (hd i).explicit_variables
  have e13 := fun i => (hd i).global_variables
  have e14 := fun i => (hd i).opt_explicit_variables
  have e15 := fun i => (hd i).goToLabel
  unfold act
  split
  -- 1
  · exact .ok ⟨hv, trivial, ha⟩
  -- 2
  · rw [e7]; exact .ok ⟨hv, trivial, appendStms_r _ ha⟩
  -- 3
  · rw [e8]; exact .ok ⟨hv, trivial, appendStms_r _ ha⟩
  -- 4
  · exact .ok ⟨hv, trivial, ha⟩
  -- 5
  · exact .ok ⟨hv, trivial, ha⟩
  -- 6
  · rw [e13]
    exact (appendGlobals_r ho _ ha).bind fun _ _ h => .ok ⟨hv, trivial, h⟩
  -- 7
  · rw [e6]
    cases (d 1).funcProc with
    | none => exact .ok ⟨hv, trivial, ha⟩
    | some f => exact (appendFunc_r f ha).bind fun _ _ h => .ok ⟨hv, trivial, h⟩
  -- 8
  · exact .ok ⟨{ hv with opt_directive := rfl }, trivial, ha⟩
  -- 9
  · have k := TokR.directive (ht 0 _ rfl)
    exact .ok ⟨{ hv with opt_directive := congrArg some k }, trivial, ha⟩
  -- 10
  · exact .ok ⟨{ hv with opt_export := rfl }, trivial, ha⟩
  -- 11
  · exact .ok ⟨{ hv with opt_export := rfl }, trivial, ha⟩
  -- 12
  · refine .ok ⟨{ hv with global_variables := ?_ }, trivial, ha⟩
    have k := (hd 3).identifiers
    have k1 := (hd 1).opt_directive
    have k2 := (hd 4).opt_export
    have hdir : (match (d' 1).opt_directive with | some dt => dt.literal | none => []) =
        ρ.directive (match (d 1).opt_directive with | some dt => dt.literal | none => []) := by
      revert k1
      cases (d 1).opt_directive <;> cases (d' 1).opt_directive <;> intro k1
      · exact ho.noDirective.symm
      · cases k1
      · cases k1
      · injection k1
    show (d' 3).identifiers.map (fun t => GVar.mk (match (d' 1).opt_directive with | some dt => dt.literal | none => []) t.literal
        (d' 4).opt_export.isSome) = ((d 3).identifiers.map (fun t => GVar.mk (match (d 1).opt_directive with | some dt => dt.literal | none => [])
        t.literal (d 4).opt_export.isSome)).map (GVar.rename ρ)
    rw [hdir, k2, List.map_map]
    have key : ∀ (D : Name) (b : Bool) (l l' : List Tok), l'.map Tok.literal = (l.map Tok.literal).map ρ.name →
        l'.map (fun t => GVar.mk (ρ.directive D) t.literal b) = l.map (GVar.rename ρ ∘ fun t => GVar.mk D t.literal b) := by
      intro D b l l' h
      have : l'.map (fun t => GVar.mk (ρ.directive D) t.literal b) = (l'.map Tok.literal).map (fun n => GVar.mk (ρ.directive D) n b) := by
        rw [List.map_map]; rfl
      rw [this, h, List.map_map, List.map_map]
      rfl
    exact key _ _ _ _ k
  -- 13
  · exact .ok ⟨hv, trivial, { ha with isFunc := rfl }⟩
  -- 14
  · refine .ok ⟨{ hv with funcProc := ?_ }, trivial, { ha with isFunc := rfl }⟩
    rw [e9, e14, e8]
    exact congrArg some (createFunc_r ho _ _ _ _ (hd 1).opt_directive (TokR.ident (ht 2 _ rfl)) (hd 7).opt_export)
  -- 15
  · refine .ok ⟨{ hv with funcProc := ?_ }, trivial, ha⟩
    rw [e9, e14, e8]
    exact congrArg some (createFunc_r ho _ _ _ _ (hd 1).opt_directive (TokR.ident (ht 2 _ rfl)) (hd 7).opt_export)
  -- 16
  · exact .ok ⟨{ hv with opt_body := rfl }, trivial, ha⟩
  -- 17
  · exact .ok ⟨{ hv with opt_body := e7 1 }, trivial, ha⟩
  -- 18
  · exact .ok ⟨{ hv with body := by rw [e4]; rfl }, trivial, ha⟩
  -- 19
  · have k : (d' 2).token.literal = (d 2).token.literal := ht 1 _ rfl
    rw [e8, e4, isNil_rename]
    refine (checkColon_r _ k ha).bind fun _ _ h => .ok ⟨?_, trivial, h⟩
    dsimp only
    split
    · exact hv
    · exact { hv with body := by rw [hv.body, List.map_append]; rfl }
  -- 20
  · exact .ok ⟨{ hv with stmt := rfl }, trivial, ha⟩
  -- 21
  · exact .ok ⟨{ hv with stmt := e4 1 }, trivial, ha⟩
  -- 22
  · exact .ok ⟨{ hv with }, ht 0 _ rfl, ha⟩
  -- 23
  · exact .ok ⟨{ hv with }, ht 0 _ rfl, ha⟩
  -- 24
  · exact .ok ⟨{ hv with opt_explicit_variables := rfl }, trivial, ha⟩
  -- 25
  · exact .ok ⟨{ hv with opt_explicit_variables := e12 1 }, trivial, ha⟩
  -- 26
  · refine (appendVars_r ho (hd 2).identifiers (some [])).bind fun r r' h => ?_
    obtain ⟨hm, hdup⟩ := h
    rcases r with ⟨m, - | n⟩ <;> rcases r' with ⟨m', - | n'⟩
    · exact .ok ⟨{ hv with explicit_variables := hm }, trivial, ha⟩
    · cases hdup
    · cases hdup
    · injection hdup with hdup
      refine (error_r ha ?_).bind fun _ _ h => .ok ⟨hv, trivial, h⟩
      intro _ _ _ _ _ _
      rw [hdup]
      rfl
  -- 27
  · rw [e12]
    refine (appendVars_r ho (hd 3).identifiers _).bind fun r r' h => ?_
    obtain ⟨hm, hdup⟩ := h
    rcases r with ⟨m, - | n⟩ <;> rcases r' with ⟨m', - | n'⟩
    · exact .ok ⟨{ hv with explicit_variables := hm }, trivial, ha⟩
    · cases hdup
    · cases hdup
    · injection hdup with hdup
      refine (error_r ha ?_).bind fun _ _ h => .ok ⟨{ hv with explicit_variables := hm }, trivial, h⟩
      intro _ _ _ _ _ _
      rw [hdup]
      rfl
  -- 28
  · exact .ok ⟨{ hv with stmt_if := by simp only [e4, e8, e2, e3, Stm.rename, renameL_map] }, trivial, ha⟩
  -- 29
  · exact .ok ⟨{ hv with opt_elseif_list := rfl }, trivial, ha⟩
  -- 30
  · exact .ok ⟨{ hv with opt_elseif_list := by simp only [e4, e8, e2, Stm.rename, renameL_map, List.map_append, List.map_cons, List.map_nil] }, trivial, ha⟩
  -- 31
  · exact .ok ⟨{ hv with opt_else := rfl }, trivial, ha⟩
  -- 32
  · exact .ok ⟨{ hv with opt_else := e8 2 }, trivial, ha⟩
  -- 33
  · exact .ok ⟨{ hv with stmt := by simp only [e4, Stm.rename] }, trivial, ha⟩
  -- 34
  · exact .ok ⟨hv, trivial, { ha with isLoop := by dsimp only [setLoop]; rw [ha.isLoop] }⟩
  -- 35
  · refine .ok ⟨{ hv with stmt_loop := ?_ }, trivial, { ha with isLoop := by dsimp only [setLoop]; rw [ha.isLoop] }⟩
    have k : Stm.whole N V (d 5).stmt := hw 4 _ rfl
    have k1 := TokR.ident (ht 2 _ rfl)
    dsimp only
    rw [e4, e8, k1, Stm.rename, renameL_map]
    congr 1
    revert k
    cases (d 5).stmt <;> first | exact fun k => k.elim | exact fun _ => rfl
  -- 36
  · exact .ok ⟨hv, trivial, { ha with isLoop := by dsimp only [setLoop]; rw [ha.isLoop] }⟩
  -- 37
  · refine .ok ⟨{ hv with stmt_loop := ?_ }, trivial, { ha with isLoop := by dsimp only [setLoop]; rw [ha.isLoop] }⟩
    dsimp only
    rw [e4, e4, e8, Stm.rename, renameL_map]
    congr 1
    cases (d 2).stmt <;> rfl
  -- 38
  · exact .ok ⟨hv, trivial, { ha with isLoop := by dsimp only [setLoop]; rw [ha.isLoop] }⟩
  -- 39
  · exact .ok ⟨{ hv with stmt_loop := by simp only [e4, e8, Stm.rename, renameL_map, Renaming.loopVar] }, trivial, ha⟩
  -- 40 … 43
  · exact .ok ⟨{ hv with stmt := e4 1 }, trivial, ha⟩
  · exact .ok ⟨{ hv with stmt := e4 1 }, trivial, ha⟩
  · exact .ok ⟨{ hv with stmt := e4 2 }, trivial, ha⟩
  · exact .ok ⟨{ hv with stmt := e4 1 }, trivial, ha⟩
  -- 44
  · exact .ok ⟨{ hv with stmt := by simp only [e4, Stm.rename, Stm.renameL] }, trivial, ha⟩
  -- 45 … 48
  · exact .ok ⟨{ hv with stmt := e4 1 }, trivial, ha⟩
  · exact .ok ⟨{ hv with stmt := e1 1 }, trivial, ha⟩
  · exact .ok ⟨{ hv with stmt := e5 1 }, trivial, ha⟩
  · exact .ok ⟨{ hv with stmt := e4 1 }, trivial, ha⟩
  -- 49, 50
  · exact (checkLoop_r _ _ ha).bind fun _ _ h => .ok ⟨{ hv with stmt := rfl }, trivial, h⟩
  · exact (checkLoop_r _ _ ha).bind fun _ _ h => .ok ⟨{ hv with stmt := rfl }, trivial, h⟩
  -- 51
  · rw [e4]
    exact (checkThrow_r _ _ _ ha).bind fun _ _ h => .ok ⟨{ hv with stmt := rfl }, trivial, h⟩
  -- 52
  · rw [e4]
    exact (checkReturn_r _ ha).bind fun _ _ h => .ok ⟨{ hv with stmt := rfl }, trivial, h⟩
  -- 53
  · exact .ok ⟨{ hv with stmt := e4 1 }, trivial, ha⟩
  -- 54
  · exact .ok ⟨{ hv with stmt := by simp only [e4, Stm.rename] }, trivial, ha⟩
  -- 55
  · have k := TokR.ident (ht 0 _ rfl)
    exact .ok ⟨{ hv with stmt := by simp only [k, Stm.rename] }, trivial, ha⟩
  -- 56
  · have k := TokR.ident (ht 0 _ rfl)
    exact .ok ⟨{ hv with stmt := by simp only [k, e11, Stm.rename, renameL_map] }, trivial, ha⟩
  -- 57
  · exact .ok ⟨{ hv with stmt := by simp only [e4, Stm.rename] }, trivial, ha⟩
  -- 58
  · have k := TokR.execute (ht 0 _ rfl)
    exact .ok ⟨{ hv with stmt := by simp only [k, e4, Stm.rename, Stm.renameL] }, trivial, ha⟩
  -- 59
  · have k := TokR.execute (ht 0 _ rfl)
    exact .ok ⟨{ hv with stmt := by simp only [k, e4, Stm.rename, Stm.renameL] }, trivial, ha⟩
  -- 60
  · have k := TokR.value (by decide) (ht 0 _ rfl)
    exact .ok ⟨{ hv with stmt := by simp only [k, toStm_rename] }, trivial, ha⟩
  -- 61
  · have k := TokR.ident (ht 0 _ rfl)
    exact .ok ⟨{ hv with stmt := by simp only [k, Stm.rename] }, trivial, ha⟩
  -- 62
  · exact .ok ⟨hv, trivial, { ha with isTry := by dsimp only [setTry]; rw [ha.isTry] }⟩
  -- 63
  · exact .ok ⟨{ hv with stmt := by simp only [e8, Stm.rename, renameL_map] }, trivial,
      { ha with isTry := by dsimp only [setTry]; rw [ha.isTry] }⟩
  -- 64
  · exact .ok ⟨{ hv with stmt := e4 1 }, trivial, ha⟩
  -- 65
  · exact .ok ⟨{ hv with stmt := by simp only [e11, Stm.rename, renameL_map] }, trivial, ha⟩
  -- 66 … 78
  iterate 13
    · exact .ok ⟨{ hv with stmt := by simp only [e4, mkBin, Stm.rename] }, trivial, ha⟩
  -- 79
  · exact .ok ⟨{ hv with stmt := by simp only [e4, notStm_rename] }, trivial, ha⟩
  -- 80
  · exact .ok ⟨{ hv with stmt := e4 1 }, trivial, ha⟩
  -- 81
  · obtain ⟨n, hn, -⟩ : ∃ n, (d 2).goToLabel = .label n ∧ N .kGoToLabel n := hw 1 _ rfl
    exact .ok ⟨{ hv with stmt := by simp only [e15, hn, Stm.rename, mkGoto] }, trivial, ha⟩
  -- 82, 83
  · exact .ok ⟨{ hv with stmt := e4 1 }, trivial, ha⟩
  · exact .ok ⟨{ hv with stmt := e4 1 }, trivial, ha⟩
  -- 84
  · exact .ok ⟨{ hv with stmt := rfl }, trivial, ha⟩
  -- 85
  · exact .ok ⟨{ hv with stmt := e4 1 }, trivial, ha⟩
  -- 86
  · exact .ok ⟨{ hv with exprs := by simp only [e4, List.map_cons, List.map_nil] }, trivial, ha⟩
  -- 87
  · exact .ok ⟨{ hv with exprs := by simp only [hv.exprs, e4, List.map_append, List.map_cons, List.map_nil] }, trivial, ha⟩
  -- 88, 89
  · have k := TokR.value (by decide) (ht 0 _ rfl)
    exact .ok ⟨{ hv with stmt := by simp only [k, toStm_rename] }, trivial, ha⟩
  · have k := TokR.value (by decide) (ht 0 _ rfl)
    exact .ok ⟨{ hv with stmt := by simp only [k, toStm_rename] }, trivial, ha⟩
  -- 90
  · exact .ok ⟨{ hv with stmt := by simp only [e4, unaryMinus_rename ho] }, trivial, ha⟩
  -- 91
  · exact .ok ⟨{ hv with stmt := e4 2 }, trivial, ha⟩
  -- 92 … 94
  · have k := TokR.value (by decide) (ht 0 _ rfl)
    exact .ok ⟨{ hv with stmt := by simp only [k, toStm_rename] }, trivial, ha⟩
  · have k := TokR.value (by decide) (ht 0 _ rfl)
    exact .ok ⟨{ hv with stmt := by simp only [k, toStm_rename] }, trivial, ha⟩
  · have k := TokR.value (by decide) (ht 0 _ rfl)
    exact .ok ⟨{ hv with stmt := by simp only [k, toStm_rename] }, trivial, ha⟩
  -- 95
  · exact .ok ⟨{ hv with stmt := rfl }, trivial, ha⟩
  -- 96
  · exact .ok ⟨{ hv with stmt := e15 1 }, trivial, ha⟩
  -- 97
  · have k := TokR.ident (ht 0 _ rfl)
    exact .ok ⟨{ hv with dparam := by simp only [k, fillParam, Param.rename, Stm.rename] }, trivial, ha⟩
  -- 98
  · have k := TokR.ident (ht 1 _ rfl)
    exact .ok ⟨{ hv with dparam := by simp only [k, fillParam, Param.rename, Stm.rename] }, trivial, ha⟩
  -- 99
  · exact .ok ⟨{ hv with dparam := by simp only [hv.dparam, e4, defaultValue_rename] }, trivial, ha⟩
  -- 100
  · exact .ok ⟨{ hv with dparams := rfl }, trivial, ha⟩
  -- 101
  · exact .ok ⟨{ hv with dparams := by simp only [e10, List.map_cons, List.map_nil] }, trivial, ha⟩
  -- 102
  · exact .ok ⟨{ hv with dparams := by simp only [e9, e10, List.map_append, List.map_cons, List.map_nil] }, trivial, ha⟩
  -- 103
  · have k := TokR.ident (ht 1 _ rfl)
    exact .ok ⟨{ hv with stmt := by simp only [k, Stm.rename, Stm.renameL] }, trivial, ha⟩
  -- 104
  · have k := TokR.ident (ht 1 _ rfl)
    exact .ok ⟨{ hv with stmt := by simp only [k, e11, Stm.rename, renameL_map] }, trivial, ha⟩
  -- 105
  · exact .ok ⟨{ hv with stmt := by simp only [e11, Stm.rename, renameL_map, ho.noName] }, trivial, ha⟩
  -- 106
  · have k := TokR.label (ht 0 _ rfl)
    exact .ok ⟨{ hv with goToLabel := by simp only [k, Stm.rename] }, trivial, ha⟩
  -- 107
  · have k := TokR.ident (ht 0 _ rfl)
    exact .ok ⟨{ hv with identifiers := by simp only [k, List.map_cons, List.map_nil] }, trivial, ha⟩
  -- 108
  · have k := TokR.ident (ht 2 _ rfl)
    exact .ok ⟨{ hv with identifiers := by simp only [k, List.map_append, hv.identifiers, List.map_cons, List.map_nil] }, trivial, ha⟩
  -- 109
  · have k : TokR ρ .semi _ _ := ht 0 _ rfl
    exact .ok ⟨{ hv with }, (k.good'.semi rfl).trans (k.good.semi rfl).symm, ha⟩
  -- 110
  · have k : TokR ρ .colon _ _ := ht 0 _ rfl
    exact .ok ⟨{ hv with }, (k.good'.colon rfl).trans (k.good.colon rfl).symm, ha⟩
  -- 111
  · exact .ok ⟨{ hv with }, trivial, ha⟩
  -- 112
  · have : p = 112 := by
      unfold nProds at hp
      simp only [imp_false] at *
      omega
    subst this
    exact .ok ⟨hv, trivial, ha⟩

end Verif.LR
