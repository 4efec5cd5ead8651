import Verif.Proofs.LR.KitStmt
/-! Completeness: actions of the productions for declarations and modules. -/
namespace Verif.LR
open Tables Spec Lexer

/-- Everything but the evaluation. -/
macro "kitd" : tactic => `(tactic|
  refine ⟨by decide, by decide, by simp only [List.map_cons, List.map_nil, root_word, root_named, root_ident, root_literal]; rfl, rfl,
    by simp [Syn.toks, catL, directiveToks, exportToks, Names.toks, varsToks, ParamD.toks, ParamsD.toks, VarsD.toks, FuncD.toks, Part.toks,
      Program.toks, Block.toks, Spec.ident], rfl, ?_⟩)

theorem kit_8 : Kit 8 [] (.dir none) := by
  kitd; pure0
  rfl

theorem kit_9 (n : Name) : Kit 9 [.tok (named .kDirective n)] (.dir (some n)) := by
  kitd; pure1
  replace h1 := (gives_named (σ := view a) (a := .kDirective) (by decide) ⟨rfl, h1⟩).2
  show some v1.token.literal = _
  rw [h1]

theorem kit_10 : Kit 10 [] (.exp false) := by
  kitd; pure0
  rfl

theorem kit_11 : Kit 11 [.tok (word .kExport)] (.exp true) := by
  kitd; pure1
  rfl

theorem kit_107 (n : Name) : Kit 107 [.tok (ident n)] (.names ⟨n, []⟩) := by
  kitd; pure1
  replace h1 := (gives_named (σ := view a) (a := .ktoken_identifier) (by decide) ⟨rfl, h1⟩).2
  show [v1.token.literal] = _
  rw [h1]; rfl

theorem kit_108 (x : Name) (l : List Name) (n : Name) : Kit 108 [.names ⟨x, l⟩, .comma, .tok (ident n)] (.names ⟨x, l ++ [n]⟩) := by
  kitd; pure3
  replace h3 := (gives_named (σ := view a) (a := .ktoken_identifier) (by decide) ⟨rfl, h3⟩).2
  show (v1.identifiers ++ [v3.token]).map Tok.literal = _
  rw [List.map_append, h1, List.map_singleton, h3]; rfl

theorem kit_12 (d : Option Name) (n : Names) (x : Bool) :
    Kit 12 [.dir d, .tok (word .kVar), .names n, .exp x, .semi] (.gvars ⟨d, n, x⟩) := by
  kitd; pure5
  show v3.identifiers.map (fun t => (⟨dirOf v1.opt_directive, t.literal, v4.opt_export.isSome⟩ : GVar)) = _
  rw [directive_eq h1, h4, VarsD.tree, ← h3, List.map_map]
  rfl

theorem kit_24 : Kit 24 [] (.optVars []) := by
  kitd; pure0
  rfl

theorem kit_25 (l : List Names) : Kit 25 [.varsL l] (.optVars l) := by
  kitd
  intro σ hw
  refine ⟨hw, fun v1 σ1 h1 => ?_⟩
  obtain ⟨rfl, h1⟩ := h1
  rintro junk a rfl
  exact ⟨_, _, rfl, rfl, rfl, h1⟩

theorem appendVars_ok {ts : List Tok} {ks : List Name} (h : (ks ++ ts.map Tok.literal).Nodup) :
    appendVars (some ks) ts = .ok ⟨some (ks ++ ts.map Tok.literal), none⟩ := by
  induction ts generalizing ks with
  | nil => rw [appendVars, List.map_nil, List.append_nil]
  | cons t ts ih =>
    rw [appendVars]
    have hn : ks.contains t.literal = false := by
      cases hc : ks.contains t.literal with
      | false => rfl
      | true =>
        rw [List.nodup_append] at h
        exact absurd rfl (h.2.2 t.literal (by simpa using hc) t.literal (by simp))
    simp only [hn, Bool.false_eq_true, if_false]
    rw [ih (by simpa using h)]
    simp

theorem kit_26 (n : Names) : Kit 26 [.tok (word .kVar), .names n, .semi] (.varsL [n]) := by
  kitd
  intro σ hw
  refine ⟨trivial, fun v1 σ1 h1 => ⟨trivial, fun v2 σ2 h2 => ⟨trivial, fun v3 σ3 h3 => ?_⟩⟩⟩
  obtain ⟨rfl, -⟩ := h1
  obtain ⟨rfl, h2⟩ := h2
  obtain ⟨rfl, -⟩ := h3
  rintro junk a rfl
  have hw : ([n].flatMap Names.list).Nodup := hw
  rw [List.flatMap_singleton] at hw
  have hap := appendVars_ok (ks := []) (ts := v2.identifiers) (by rw [h2, List.nil_append]; exact hw)
  refine ⟨{ v1 with explicit_variables := some n.list }, a, ?_, rfl, rfl, by simp⟩
  show (do let r ← appendVars (some []) v2.identifiers; match r.dup with
    | some n => do .ok (_, ← a.error (.dupVar n))
    | none => .ok ({ v1 with explicit_variables := r.map }, a)) = _
  rw [hap, h2]; rfl

theorem kit_27 (l : List Names) (n : Names) : Kit 27 [.varsL l, .tok (word .kVar), .names n, .semi] (.varsL (l ++ [n])) := by
  kitd
  intro σ hw
  replace hw : ((l ++ [n]).flatMap Names.list).Nodup := hw
  rw [List.flatMap_append, List.flatMap_singleton] at hw
  refine ⟨(List.nodup_append.1 hw).1, fun v0 σ0 h0 => ⟨trivial, fun v1 σ1 h1 => ⟨trivial, fun v2 σ2 h2 => ⟨trivial, fun v3 σ3 h3 => ?_⟩⟩⟩⟩
  obtain ⟨rfl, h0⟩ := h0
  obtain ⟨rfl, -⟩ := h1
  obtain ⟨rfl, h2⟩ := h2
  obtain ⟨rfl, -⟩ := h3
  rintro junk a rfl
  have hap := appendVars_ok (ks := l.flatMap Names.list) (ts := v2.identifiers) (by rw [h2]; exact hw)
  refine ⟨{ v0 with explicit_variables := some (l.flatMap Names.list ++ n.list) }, a, ?_, rfl, rfl, by simp⟩
  show (do let r ← appendVars v0.explicit_variables v2.identifiers; match r.dup with
    | some n => do .ok ({ v0 with explicit_variables := r.map }, ← a.error (.dupVar n))
    | none => .ok ({ v0 with explicit_variables := r.map }, a)) = _
  rw [h0, hap, h2]; rfl

theorem kit_97 (n : Name) : Kit 97 [.tok (ident n)] (.param ⟨false, n, []⟩) := by
  kitd; pure1
  replace h1 := (gives_named (σ := view a) (a := .ktoken_identifier) (by decide) ⟨rfl, h1⟩).2
  show (⟨.nil, v1.token.literal, false⟩ : Param) = _
  rw [h1]; rfl

theorem kit_98 (n : Name) : Kit 98 [.tok (word .kValueParam), .tok (ident n)] (.param ⟨true, n, []⟩) := by
  kitd; pure2
  replace h2 := (gives_named (σ := view a) (a := .ktoken_identifier) (by decide) ⟨rfl, h2⟩).2
  show (⟨.nil, v2.token.literal, true⟩ : Param) = _
  rw [h2]; rfl

theorem kit_99 (b : Bool) (n : Name) (l : List Simple) (s : Simple) :
    Kit 99 [.param ⟨b, n, l⟩, .tok (word .kEQUAL), .simple s] (.param ⟨b, n, l ++ [s]⟩) := by
  kitd; pure3
  show Param.defaultValue v1.dparam v3.stmt = _
  rw [h1, h3]
  unfold Param.defaultValue ParamD.tree
  have := Simple.tree_ne s
  simp only [List.getLast?_append, List.getLast?_singleton, Option.some_or]

theorem kit_100 : Kit 100 [] (.params ⟨none, []⟩) := by
  kitd; pure0
  rfl

theorem kit_101 (p : ParamD) : Kit 101 [.param p] (.params ⟨some p, []⟩) := by
  kitd; pure1
  show [v1.dparam] = _
  rw [h1]; rfl

theorem kit_102 (f : Option ParamD) (l : List ParamD) (p : ParamD) :
    Kit 102 [.params ⟨f, l⟩, .comma, .param p] (.params ⟨f, l ++ [p]⟩) := by
  kitd; pure3
  show v1.dparams ++ [v3.dparam] = _
  rw [h1, h3]; simp [ParamsD.list]

/-! ## Procedures and functions -/

theorem kit_13 : Kit 13 [] (.mid 137) := by
  kitd
  intro σ _ junk a hv
  refine ⟨_, _, rfl, rfl, ?_⟩
  intro M n m f h
  rw [h] at hv
  obtain ⟨h1, h2, h3, h4⟩ := view_eq hv
  show St.mk a.mod a.isLoop a.isTry true = _
  rw [h1, h2, h3]; rfl

theorem gives_func {f : FuncD} {M : Module} {n : Nat} {v : SV} {σ' : St} {d : FuncDecl} (h0 : f.shows d) (h1 : v.funcProc = some d)
    (h2 : σ' = St.at M (n + f.body.whiles) 0 false) : Gives (.func f) (St.at M n 0 false) v σ' := by
  refine ⟨d, h0, h1, fun M' n' h => ?_⟩
  exact Adds.of h2 M' n' 0 false h

theorem kit_14 (d : Option Name) (x : Name) (ps : ParamsD) (e : Bool) (vs : List Names) (b : Block) :
    Kit 14 [.dir d, .tok (word .kFunction), .tok (ident x), .tok (word .lpar), .params ps, .tok (word .rpar), .exp e, .mid 137,
      .optVars vs, .block b, .tok (word .kEndFunction)] (.func ⟨d, true, x, ps, e, vs, b⟩) := by
  kitd
  intro σ hw
  obtain ⟨⟨hc, hcol, ht, hr, hn⟩, M, n, rfl, hb⟩ := hw
  refine ⟨trivial, fun v1 σ1 h1 => ⟨trivial, fun v2 σ2 h2 => ⟨trivial, fun v3 σ3 h3 => ⟨trivial, fun v4 σ4 h4 =>
    ⟨trivial, fun v5 σ5 h5 => ⟨trivial, fun v6 σ6 h6 => ⟨trivial, fun v7 σ7 h7 => ⟨trivial, fun v8 σ8 h8 => ?_⟩⟩⟩⟩⟩⟩⟩⟩
  obtain ⟨rfl, h1⟩ := h1
  obtain ⟨rfl, -⟩ := h2
  replace h3 := gives_named (a := .ktoken_identifier) (by decide) h3
  obtain ⟨rfl, h3⟩ := h3
  obtain ⟨rfl, -⟩ := h4
  obtain ⟨rfl, h5⟩ := h5
  obtain ⟨rfl, -⟩ := h6
  obtain ⟨rfl, h7⟩ := h7
  have e8 : σ8 = St.at M n 0 true := h8 _ _ _ _ rfl
  subst e8
  refine ⟨hn, fun v9 σ9 h9 => ?_⟩
  obtain ⟨rfl, h9⟩ := h9
  refine ⟨⟨hc, hcol, M, n, 0, true, rfl, hb, ht, hr⟩, fun v10 σ10 h10 => ⟨trivial, fun v11 σ11 h11 => ?_⟩⟩
  obtain ⟨h10, -, h10'⟩ := h10
  have e10 := h10' _ _ _ _ rfl
  subst e10
  obtain ⟨rfl, -⟩ := h11
  intro junk a hv
  refine ⟨_, _, rfl, rfl, gives_func (d := ⟨v9.opt_explicit_variables, v3.token.literal, dirOf v1.opt_directive, v10.opt_body, v5.dparams, true,
    v7.opt_export.isSome⟩) ⟨h10, ?_⟩ rfl ?_⟩
  · rw [directive_eq h1, h3, h5, h7, h9]
    rfl
  · obtain ⟨q1, q2, q3, q4⟩ := view_eq hv
    show St.mk a.mod a.isLoop a.isTry false = _
    rw [q1, q2, q3]; rfl

theorem kit_15 (d : Option Name) (x : Name) (ps : ParamsD) (e : Bool) (vs : List Names) (b : Block) :
    Kit 15 [.dir d, .tok (word .kProcedure), .tok (ident x), .tok (word .lpar), .params ps, .tok (word .rpar), .exp e,
      .optVars vs, .block b, .tok (word .kEndProcedure)] (.func ⟨d, false, x, ps, e, vs, b⟩) := by
  kitd
  intro σ hw
  obtain ⟨⟨hc, hcol, ht, hr, hn⟩, M, n, rfl, hb⟩ := hw
  refine ⟨trivial, fun v1 σ1 h1 => ⟨trivial, fun v2 σ2 h2 => ⟨trivial, fun v3 σ3 h3 => ⟨trivial, fun v4 σ4 h4 =>
    ⟨trivial, fun v5 σ5 h5 => ⟨trivial, fun v6 σ6 h6 => ⟨trivial, fun v7 σ7 h7 => ?_⟩⟩⟩⟩⟩⟩⟩
  obtain ⟨rfl, h1⟩ := h1
  obtain ⟨rfl, -⟩ := h2
  replace h3 := gives_named (a := .ktoken_identifier) (by decide) h3
  obtain ⟨rfl, h3⟩ := h3
  obtain ⟨rfl, -⟩ := h4
  obtain ⟨rfl, h5⟩ := h5
  obtain ⟨rfl, -⟩ := h6
  obtain ⟨rfl, h7⟩ := h7
  refine ⟨hn, fun v9 σ9 h9 => ?_⟩
  obtain ⟨rfl, h9⟩ := h9
  refine ⟨⟨hc, hcol, M, n, 0, false, rfl, hb, ht, hr⟩, fun v10 σ10 h10 => ⟨trivial, fun v11 σ11 h11 => ?_⟩⟩
  obtain ⟨h10, -, h10'⟩ := h10
  have e10 := h10' _ _ _ _ rfl
  subst e10
  obtain ⟨rfl, -⟩ := h11
  intro junk a hv
  refine ⟨_, _, rfl, rfl, gives_func (d := ⟨v9.opt_explicit_variables, v3.token.literal, dirOf v1.opt_directive, v10.opt_body, v5.dparams, false,
    v7.opt_export.isSome⟩) ⟨h10, ?_⟩ rfl hv⟩
  rw [directive_eq h1, h3, h5, h7, h9]
  rfl

/-! ## Modules -/

theorem appendGlobals_ok {vs : List GVar} {a : Ast} (h : a.mod.body = []) (hn : ((a.mod.globals ++ vs).map GVar.name).Nodup) :
    appendGlobals a vs = .ok { a with mod := ⟨a.mod.globals ++ vs, a.mod.body⟩ } := by
  induction vs generalizing a with
  | nil => rw [appendGlobals, List.append_nil]
  | cons v vs ih =>
    have hv : a.mod.globals.any (fun g => g.name == v.name) = false := by
      rw [List.any_eq_false]
      intro g hg he
      rw [List.map_append, List.nodup_append] at hn
      exact hn.2.2 g.name (List.mem_map_of_mem hg) v.name (by simp) (by simpa using he)
    have h1 : appendGlobal a v = .ok { a with mod := ⟨a.mod.globals ++ [v], a.mod.body⟩ } := by
      unfold appendGlobal
      rw [if_neg (by rw [h]; exact fun h => h rfl), hv, if_neg (by decide)]
    rw [appendGlobals, h1]
    show appendGlobals _ vs = _
    rw [ih (a := { a with mod := ⟨a.mod.globals ++ [v], a.mod.body⟩ }) h (by simpa using hn)]
    simp

theorem kit_6 (d : VarsD) : Kit 6 [.gvars d] (.part (.vars d)) := by
  kitd
  intro σ hw
  obtain ⟨M, n, rfl, hb, hn⟩ := hw
  refine ⟨trivial, fun v1 σ1 h1 => ?_⟩
  obtain ⟨rfl, h1⟩ := h1
  intro junk a hv
  obtain ⟨q1, q2, q3, q4⟩ := view_eq hv
  refine ⟨v1, { a with mod := ⟨a.mod.globals ++ d.tree, a.mod.body⟩ }, ?_, rfl, ?_⟩
  · show (do .ok (v1, ← appendGlobals a v1.global_variables)) = _
    rw [h1, appendGlobals_ok (by rw [q1]; exact hb) (by rw [q1]; exact hn)]
    rfl
  · intro M' n' h
    unfold St.at at h
    injection h with e1 e2
    subst e1
    have e2 := Int.ofNat.inj e2
    subst e2
    show St.mk ⟨a.mod.globals ++ d.tree, a.mod.body⟩ a.isLoop a.isTry a.isFunc = _
    rw [q1, q2, q3, q4]; rfl

theorem kit_7 (f : FuncD) : Kit 7 [.func f] (.part (.func f)) := by
  kitd
  intro σ hw
  obtain ⟨hf, M, n, rfl, hb, hl⟩ := hw
  refine ⟨⟨hf, M, n, rfl, hb⟩, fun v1 σ1 h1 => ?_⟩
  obtain ⟨d, h0, h1, h2⟩ := h1
  have e1 := h2 _ _ rfl
  subst e1
  intro junk a hv
  obtain ⟨q1, q2, q3, q4⟩ := view_eq hv
  have hap : appendFunc a d = .ok { a with mod := { a.mod with body := a.mod.body ++ [.func d] } } := by
    unfold appendFunc
    rw [q1]
    cases hg : M.body.getLast? with
    | none => rfl
    | some x =>
      cases x with
      | stm s => exact absurd hg (hl s)
      | func g => rfl
  refine ⟨v1, { a with mod := { a.mod with body := a.mod.body ++ [.func d] } }, ?_, rfl, ?_⟩
  · have : ∀ o, o = some d → (match o with
      | some f => do .ok (v1, ← appendFunc a f)
      | none => .ok (v1, a)) = Except.ok (ε := Panic) (v1, { a with mod := { a.mod with body := a.mod.body ++ [.func d] } }) := by
      rintro o rfl
      simp only [hap]
      rfl
    exact this v1.funcProc h1
  · refine ⟨d, h0, fun M' n' h => ?_⟩
    unfold St.at at h
    injection h with e1 e2
    subst e1
    have e2 := Int.ofNat.inj e2
    subst e2
    show St.mk ⟨a.mod.globals, a.mod.body ++ [.func d]⟩ a.isLoop a.isTry a.isFunc = _
    rw [q1, q2, q3, q4]; rfl

theorem at_inj {M M' : Module} {n n' m m' : Nat} {f f' : Bool} (h : St.at M n m f = St.at M' n' m' f') : M = M' ∧ n = n' := by
  injection h with h1 h2
  exact ⟨h1, Int.ofNat.inj h2⟩

theorem items_last (M : List Item) (ds : List FuncDecl) (h : ds = [] → ∀ s, M.getLast? ≠ some (.stm s)) (s : Stm) :
    (M ++ ds.map Item.func).getLast? ≠ some (.stm s) := by
  rw [List.getLast?_append, List.getLast?_map]
  cases e : ds.getLast? with
  | none => simpa using h (List.getLast?_eq_none_iff.1 e) s
  | some x => exact nofun

theorem PartsOk.init {M : Module} {n : Nat} {l : List Part} {p : Part} (h : PartsOk M n (l ++ [p])) : PartsOk M n l := by
  obtain ⟨hn, ⟨vs, fs, ho⟩, hv, hs, hb, hf⟩ := h
  refine ⟨?_, ?_, ?_, ?_, ?_, ?_⟩
  · rw [List.flatMap_append, ← List.append_assoc, List.map_append, List.nodup_append] at hn
    exact hn.1
  · rcases List.eq_nil_or_concat fs with rfl | ⟨fs', f, rfl⟩
    · rcases List.eq_nil_or_concat vs with rfl | ⟨vs', v, rfl⟩
      · simp at ho
      · refine ⟨vs', [], ?_⟩
        rw [List.concat_eq_append, List.map_append, List.map_nil, List.append_nil] at ho
        rw [List.append_inj_left' ho rfl]; simp
    · refine ⟨vs, fs', ?_⟩
      rw [List.concat_eq_append, List.map_append, ← List.append_assoc] at ho
      exact List.append_inj_left' ho rfl
  · exact fun ⟨v, h⟩ => hv ⟨v, List.mem_append_left _ h⟩
  · exact fun ⟨v, h⟩ => hs ⟨v, List.mem_append_left _ h⟩
  · unfold bodies at hb ⊢
    rw [List.flatMap_append, List.map_append, breaks_append] at hb
    exact hb.1
  · intro f h
    exact hf f (by rw [List.flatMap_append]; exact List.mem_append_left _ h)

theorem bodies_snoc_vars (l : List Part) (v : VarsD) : bodies (l ++ [.vars v]) = bodies l := by simp [bodies, Part.funcs]
theorem bodies_snoc_func (l : List Part) (f : FuncD) : bodies (l ++ [.func f]) = bodies l ++ [f.body] := by simp [bodies, Part.funcs]

/-- The rules for the last declaration. -/
theorem PartsOk.wants {M : Module} {n : Nat} {l : List Part} {p : Part} (h : PartsOk M n (l ++ [p])) {ds : List FuncDecl}
    (hds : List.Forall₂ FuncD.shows (l.flatMap Part.funcs) ds) :
    Wants (.part p) (St.at ⟨M.globals ++ l.flatMap Part.globals, M.body ++ ds.map .func⟩
      (n + ((bodies l).map Block.whiles).sum) 0 false) := by
  obtain ⟨hn, ⟨vs, fs, ho⟩, hv, hs, hb, hf⟩ := h
  cases p with
  | vars v =>
    refine ⟨_, _, rfl, ?_, ?_⟩
    · rcases List.eq_nil_or_concat fs with rfl | ⟨fs', f, rfl⟩
      · rcases List.eq_nil_or_concat vs with rfl | ⟨vs', v', rfl⟩
        · simp at ho
        · rw [List.concat_eq_append, List.map_append, List.map_nil, List.append_nil] at ho
          rw [List.append_inj_left' ho rfl] at hds
          have : (vs'.map Part.vars).flatMap Part.funcs = [] := by
            rw [List.flatMap_eq_nil_iff]; intro x hx
            obtain ⟨w, -, rfl⟩ := List.mem_map.1 hx
            rfl
          rw [this] at hds
          cases hds
          show _ ++ [] = []
          rw [hv ⟨v, by simp⟩]; rfl
      · rw [List.concat_eq_append, List.map_append, ← List.append_assoc] at ho
        have := List.append_inj_right' ho rfl
        simp at this
    · simpa [Part.globals] using hn
  | func f =>
    refine ⟨hf f (by simp [Part.funcs]), _, _, rfl, ?_, items_last _ _ fun _ => hs ⟨f, by simp⟩⟩
    rw [bodies_snoc_func, breaks_append] at hb
    exact hb.2.1

theorem part_gives {M : Module} {n : Nat} {l : List Part} {p : Part} {v v' : SV} {σ' : St} {ds : List FuncDecl}
    (hds : List.Forall₂ FuncD.shows (l.flatMap Part.funcs) ds)
    (h : Gives (.part p) (St.at ⟨M.globals ++ l.flatMap Part.globals, M.body ++ ds.map .func⟩
      (n + ((bodies l).map Block.whiles).sum) 0 false) v σ') :
    Gives (.parts (l ++ [p])) (St.at M n 0 false) v' σ' := by
  cases p with
  | vars d =>
    refine ⟨ds, by simpa [Part.funcs] using hds, fun M' n' e => ?_⟩
    obtain ⟨rfl, e2⟩ := at_inj e
    subst e2
    have h := h _ _ rfl
    rw [h, bodies_snoc_vars]
    simp [Part.globals]
  | func f =>
    obtain ⟨d, h0, h⟩ := h
    refine ⟨ds ++ [d], ?_, fun M' n' e => ?_⟩
    · rw [List.flatMap_append]
      exact List.rel_append hds (by simpa [Part.funcs] using h0)
    · obtain ⟨rfl, e2⟩ := at_inj e
      subst e2
      have h := h _ _ rfl
      rw [h, bodies_snoc_func]
      simp [Part.globals, Nat.add_assoc]

theorem kit_4 (p : Part) : Kit 4 [.part p] (.parts [p]) := by
  kitd
  intro σ hw
  obtain ⟨M, n, rfl, hp⟩ := hw
  have hz : St.at ⟨M.globals ++ [].flatMap Part.globals, M.body ++ ([] : List FuncDecl).map .func⟩
      (n + ((bodies []).map Block.whiles).sum) 0 false = St.at M n 0 false := by simp [bodies]
  have hq := PartsOk.wants (l := []) hp (ds := []) .nil
  rw [hz] at hq
  refine ⟨hq, fun v1 σ1 h1 => ?_⟩
  rintro junk a rfl
  refine ⟨_, _, rfl, rfl, part_gives (l := []) (v := v1) (ds := []) .nil ?_⟩
  rw [hz]; exact h1

theorem kit_5 (l : List Part) (p : Part) : Kit 5 [.parts l, .part p] (.parts (l ++ [p])) := by
  kitd
  intro σ hw
  obtain ⟨M, n, rfl, hp⟩ := hw
  refine ⟨⟨M, n, rfl, hp.init⟩, fun v1 σ1 h1 => ?_⟩
  obtain ⟨ds, hds, h1⟩ := h1
  have e1 : σ1 = St.at _ _ _ _ := h1 _ _ rfl
  subst e1
  refine ⟨hp.wants hds, fun v2 σ2 h2 => ?_⟩
  rintro junk a rfl
  exact ⟨_, _, rfl, rfl, part_gives hds h2⟩

theorem kit_1 : Kit 1 [] (.prog ⟨[], .empty⟩) := by
  kitd
  intro σ hw
  obtain ⟨M, n, rfl, hp, -⟩ := hw
  intro junk a hv
  refine ⟨_, _, rfl, rfl, [], [], .nil, by rw [Block.shows], ?_⟩
  intro M' n' e
  obtain ⟨rfl, e2⟩ := at_inj e
  subst e2
  rw [show view _ = view a from rfl, hv]
  simp [Program.globals, Program.funcs, Program.whiles, Program.blocks, Block.whiles]

theorem kit_2 (b : Body) : Kit 2 [.body b] (.prog ⟨[], .body b⟩) := by
  kitd
  intro σ hw
  obtain ⟨M, n, rfl, hp, hfit⟩ := hw
  have hbl : Block.body b ∈ (⟨[], .body b⟩ : Program).blocks := by simp [Program.blocks]
  refine ⟨⟨?_, ?_, _, _, _, _, rfl, ?_, ?_, ?_⟩, fun v1 σ1 h1 => ?_⟩
  · have := hp.tidy.2; rwa [Block.tidy] at this
  · have := hp.colons _ hbl; rwa [Block.colonsOk] at this
  · have := hfit.breaks; simp only [Program.blocks, Program.funcs, List.flatMap_nil, List.map_nil, List.nil_append, blocksBreaksOk, Block.breaksOk] at this
    exact this.1
  · have := hp.throws _ hbl; rwa [Block.throwsOk] at this
  · have := hp.returns.2; rwa [Block.returnsOk] at this
  · obtain ⟨h1, h2⟩ := h1
    have e1 := h2 _ _ _ _ rfl
    subst e1
    intro junk a hv
    refine ⟨_, _, rfl, rfl, [], v1.body, .nil, h1, ?_⟩
    intro M' n' e
    obtain ⟨rfl, e2⟩ := at_inj e
    subst e2
    obtain ⟨q1, q2, q3, q4⟩ := view_eq hv
    show St.mk ⟨a.mod.globals, a.mod.body ++ v1.body.map .stm⟩ a.isLoop a.isTry a.isFunc = _
    rw [q1, q2, q3, q4]
    simp [Program.globals, Program.funcs, Program.whiles, Program.blocks, Block.whiles, St.at]

theorem kit_3 (l : List Part) (b : Block) : Kit 3 [.parts l, .block b] (.prog ⟨l, b⟩) := by
  kitd
  intro σ hw
  obtain ⟨M, n, rfl, hp, hfit⟩ := hw
  have hbl : b ∈ (⟨l, b⟩ : Program).blocks := by simp [Program.blocks]
  have hbr : blocksBreaksOk n (bodies l ++ [b]) := hfit.breaks
  rw [breaks_append] at hbr
  have hpo : PartsOk M n l := by
    refine ⟨hfit.names, hp.ordered, hfit.vars, hfit.last, hbr.1, fun f hf => ?_⟩
    have hfb : f.body ∈ (⟨l, b⟩ : Program).blocks := List.mem_append_left _ (List.mem_map_of_mem hf)
    exact ⟨hp.tidy.1 f hf, hp.colons _ hfb, hp.throws _ hfb, hp.returns.1 f hf, hp.distinct.2 f hf⟩
  refine ⟨⟨M, n, rfl, hpo⟩, fun v1 σ1 h1 => ?_⟩
  obtain ⟨ds, hds, h1⟩ := h1
  have e1 : σ1 = St.at _ _ _ _ := h1 _ _ rfl
  subst e1
  refine ⟨⟨hp.tidy.2, hp.colons _ hbl, _, _, _, _, rfl, hbr.2.1, hp.throws _ hbl, hp.returns.2⟩, fun v2 σ2 h2 => ?_⟩
  obtain ⟨h2, -, h3⟩ := h2
  have e2 := h3 _ _ _ _ rfl
  subst e2
  intro junk a hv
  refine ⟨_, _, rfl, rfl, ds, v2.opt_body, hds, h2, ?_⟩
  intro M' n' e
  obtain ⟨rfl, e2⟩ := at_inj e
  subst e2
  obtain ⟨q1, q2, q3, q4⟩ := view_eq hv
  show St.mk ⟨a.mod.globals, a.mod.body ++ v2.opt_body.map .stm⟩ a.isLoop a.isTry a.isFunc = _
  rw [q1, q2, q3, q4]
  simp [Program.globals, Program.funcs, Program.whiles, Program.blocks, St.at, bodies]
  omega

end Verif.LR
