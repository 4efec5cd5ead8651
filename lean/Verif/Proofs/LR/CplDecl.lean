import Verif.Proofs.LR.CplStmt
/-! Completeness for declarations and whole programs. -/
namespace Verif.LR
open Tables Spec Lexer

/-! ## First tokens -/

/-- The token list begins with one of the tokens. -/
def Begins (S : List Nat) (ks : List Key) : Prop := ∃ k r, ks = k :: r ∧ tokNum k.kind ∈ S

theorem Begins.append {S : List Nat} {ks : List Key} (h : Begins S ks) (l : List Key) : Begins S (ks ++ l) := by
  obtain ⟨k, r, rfl, hk⟩ := h; exact ⟨k, r ++ l, rfl, hk⟩

theorem Begins.next {S : List Nat} {ks : List Key} (h : Begins S ks) (la : Nat) : nextK ks la ∈ S := by
  obtain ⟨k, r, rfl, hk⟩ := h; exact hk

theorem Begins.mono {S S' : List Nat} {ks : List Key} (h : Begins S ks) (hs : ∀ x ∈ S, x ∈ S') : Begins S' ks := by
  obtain ⟨k, r, rfl, hk⟩ := h; exact ⟨k, r, rfl, hs _ hk⟩

theorem begins_cons {S : List Nat} {k : Key} {r : List Key} (n : Nat) (h : tokNum k.kind = n) (hn : n ∈ S) : Begins S (k :: r) :=
  ⟨k, r, rfl, h ▸ hn⟩

theorem Ident.begins : (i : Ident) → Begins [8, 51] i.toks
  | .name n => by rw [Ident.toks]; exact begins_cons 8 (root_named _ _) (by decide)
  | .call n es => by rw [Ident.toks]; exact begins_cons 8 (root_named _ _) (by decide)
  | .index i e => by rw [Ident.toks]; exact (Ident.begins i).append _
  | .execStr w s => by rw [Ident.toks]; exact begins_cons 51 (root_named _ _) (by decide)
  | .execVar w s => by rw [Ident.toks]; exact begins_cons 51 (root_named _ _) (by decide)
  | .exec w s => by rw [Ident.toks]; exact begins_cons 51 (root_named _ _) (by decide)

theorem Path.begins : (p : Path) → Begins [8, 51] p.toks
  | .one i => by rw [Path.toks]; exact (Ident.begins i)
  | .dot p i => by rw [Path.toks]; exact (Path.begins p).append _

theorem New.begins (n : New) : Begins [34] n.toks := by
  cases n <;> rw [New.toks] <;> exact begins_cons 34 rfl (by decide)

theorem Simple.begins (s : Simple) : Begins [27, 32, 33, 45, 46, 47, 49, 55, 56] s.toks := by
  cases s with
  | str => rw [Simple.toks]; exact begins_cons 33 (root_literal _ _) (by decide)
  | num => rw [Simple.toks]; exact begins_cons 32 (root_literal _ _) (by decide)
  | neg => rw [Simple.toks]; exact begins_cons 56 rfl (by decide)
  | pos => rw [Simple.toks]; exact begins_cons 55 rfl (by decide)
  | bool b => cases b <;> rw [Simple.toks]
              · exact begins_cons 46 rfl (by decide)
              · exact begins_cons 45 rfl (by decide)
  | date => rw [Simple.toks]; exact begins_cons 49 (root_literal _ _) (by decide)
  | undef => rw [Simple.toks]; exact begins_cons 47 rfl (by decide)
  | label => rw [Simple.toks]; exact begins_cons 27 (root_named _ _) (by decide)

theorem Expr.begins : (e : Expr) → Begins exprStarts e.toks
  | .simple s => by rw [Expr.toks]; exact (Simple.begins s).mono (by decide)
  | .paren es => by rw [Expr.toks]; exact begins_cons 62 rfl (by decide)
  | .bin op x y => by rw [Expr.toks]; exact (Expr.begins x).append _
  | .not e => by rw [Expr.toks]; exact begins_cons 24 rfl (by decide)
  | .new n => by rw [Expr.toks]; exact (New.begins n).mono (by decide)
  | .goto n => by rw [Expr.toks]; exact begins_cons 50 rfl (by decide)
  | .ternary c x y => by rw [Expr.toks]; exact begins_cons 64 rfl (by decide)
  | .path p => by rw [Expr.toks]; exact (Path.begins p).mono (by decide)

theorem Stmt.begins (s : Stmt) : Begins stmtStarts s.toks := by
  cases s with
  | assign p e => rw [Stmt.toks]; exact ((Path.begins p).mono (by decide)).append _
  | expr e => rw [Stmt.toks]; exact (Expr.begins e).mono (by decide)
  | ifS => rw [Stmt.toks]; exact begins_cons 12 rfl (by decide)
  | forEach => rw [Stmt.toks]; exact begins_cons 17 rfl (by decide)
  | forTo => rw [Stmt.toks]; exact begins_cons 17 rfl (by decide)
  | «while» => rw [Stmt.toks]; exact begins_cons 26 rfl (by decide)
  | tryS => rw [Stmt.toks]; exact begins_cons 29 rfl (by decide)
  | cont => rw [Stmt.toks]; exact begins_cons 28 rfl (by decide)
  | brk => rw [Stmt.toks]; exact begins_cons 23 rfl (by decide)
  | throw => rw [Stmt.toks]; exact begins_cons 38 rfl (by decide)
  | ret => rw [Stmt.toks]; exact begins_cons 37 rfl (by decide)

mutual
theorem Block.begins : (b : Block) → b.toks = [] ∨ Begins (4 :: 5 :: stmtStarts) b.toks
  | .empty => .inl (by rw [Block.toks])
  | .body b => by rw [Block.toks]; exact .inr (Body.begins b)
theorem Body.begins : (b : Body) → Begins (4 :: 5 :: stmtStarts) b.toks
  | .one s => by rw [Body.toks]; exact (Stmt.begins s).mono (by decide)
  | .sep b p o => by
    rw [Body.toks]
    obtain h | h := Block.begins b
    · rw [h, List.nil_append]
      cases p
      · exact begins_cons 5 rfl (by decide)
      · exact begins_cons 4 rfl (by decide)
    · exact h.append _
end

theorem Block.next (b : Block) (l : List Key) (la : Nat) {S : List Nat} (hs : ∀ x ∈ 4 :: 5 :: stmtStarts, x ∈ S) (hl : nextK l la ∈ S) :
    nextK (b.toks ++ l) la ∈ S := by
  obtain h | h := Block.begins b
  · rw [h]; exact hl
  · exact ((h.mono hs).append l).next la

/-! ## Declarations -/

theorem tab_8 : ∀ b, b < nStates → (gotoL b 113).isSome = true → ∀ la ∈ [9, 10, 35], action b la = .reduce 8 := by decide +kernel

theorem cx_dir (d : Option Name) (b la : Nat) (hla : la ∈ [9, 10, 35]) : Cx b la (.dir d) := by
  cases d with
  | none => exact fun hb hl ht => cx_node kit_8 (fun hg => ⟨b, rfl, tab_8 b hb hg la hla⟩) (cxk_nil _ _) (by eve) hb hl ht
  | some n => exact cx_red (kit_9 n) rfl List.not_mem_nil fun _ _ _ => cxk_one (cx_tok _ _ _)

theorem cx_exp (x : Bool) (b la : Nat) (hla : la ∉ [6, 48]) : Cx b la (.exp x) := by
  cases x with
  | false => exact cx_red kit_10 rfl hla fun _ _ _ => cxk_nil _ _
  | true => exact cx_red kit_11 rfl List.not_mem_nil fun _ _ _ => cxk_one (cx_tok _ _ _)

theorem cx_semi (b la : Nat) : Cx b la .semi := cx_red kit_109 rfl List.not_mem_nil fun _ _ _ => cxk_one (cx_tok _ _ _)

theorem cx_names (x : Name) (l : List Name) : ∀ b la, Cx b la (.names ⟨x, l⟩) := by
  induction l using List.reverseRecOn with
  | nil => exact fun b la => cx_red (kit_107 x) rfl List.not_mem_nil fun _ _ _ => cxk_one (cx_tok _ _ _)
  | append_singleton l n ih => exact fun b la => cx_red (kit_108 x l n) rfl List.not_mem_nil fun _ _ _ => cxk_cons (ih _ _) fun _ _ => cxk_cons (cx_comma _ _) fun _ _ => cxk_one (cx_tok _ _ _)

theorem cx_vars : ∀ (l : List Names), l ≠ [] → ∀ b la, Cx b la (.varsL l) := by
  intro l
  induction l using List.reverseRecOn with
  | nil => exact fun h => absurd rfl h
  | append_singleton l n ih =>
    intro _ b la
    by_cases hl : l = []
    · subst hl
      exact cx_red (kit_26 n) rfl List.not_mem_nil fun _ _ _ => cxk_tok fun _ _ => cxk_cons (cx_names _ _ _ _) fun _ _ => cxk_one (cx_semi _ _)
    · exact cx_red (kit_27 l n) rfl List.not_mem_nil fun _ _ _ => cxk_cons (ih hl _ _) fun _ _ => cxk_tok fun _ _ =>
        cxk_cons (cx_names _ _ _ _) fun _ _ => cxk_one (cx_semi _ _)

theorem cx_optVars (l : List Names) (b la : Nat) (hla : la ≠ 10) : Cx b la (.optVars l) := by
  by_cases hl : l = []
  · subst hl
    exact cx_red kit_24 rfl (show la ∉ [10] by simpa using hla) fun _ _ _ => cxk_nil _ _
  · exact cx_red (kit_25 l) rfl (show la ∉ [10] by simpa using hla) fun _ _ _ => cxk_one (cx_vars l hl _ _)

theorem cx_gvars (v : VarsD) (b la : Nat) : Cx b la (.gvars v) :=
  cx_red (kit_12 v.directive v.names v.export) rfl List.not_mem_nil fun _ _ _ => cxk_cons (cx_dir _ _ _ (show 10 ∈ _ by decide)) fun _ _ =>
    cxk_tok fun _ _ => cxk_cons (cx_names _ _ _ _) fun _ _ => cxk_cons (cx_exp _ _ _ (show 5 ∉ _ by decide)) fun _ _ => cxk_one (cx_semi _ _)

theorem opNum_eq {op : Op} (h : 40 = opNum op) : op = .eq := opNum_inj (op' := .eq) h.symm

theorem cx_param (x : Bool) (n : Name) (l : List Simple) : (⟨x, n, l⟩ : ParamD).grouped → ∀ b la, la ∈ [6, 40, 63] →
    (la = 40 → ∀ s, l.getLast? = some s → s.closes (level .eq)) → Cx b la (.param ⟨x, n, l⟩) := by
  induction l using List.reverseRecOn with
  | nil =>
    intro _ b la _ _
    cases x with
    | false => exact cx_red (kit_97 n) rfl List.not_mem_nil fun _ _ _ => cxk_one (cx_tok _ _ _)
    | true => exact cx_red (kit_98 n) rfl List.not_mem_nil fun _ _ _ => cxk_tok fun _ _ => cxk_one (cx_tok _ _ _)
  | append_singleton l s ih =>
    intro hg b la hla hcl
    obtain ⟨h1, h2⟩ := hg
    simp only [List.dropLast_concat] at h2
    refine cx_red (kit_99 x n l s) rfl List.not_mem_nil fun _ _ _ => cxk_cons (ih ⟨?_, ?_⟩ b 40 (by decide) ?_) fun _ _ => cxk_tok fun b2 _ => cxk_one ?_
    · exact fun s' hs => h1 s' (List.mem_append_left _ hs)
    · exact fun s' hs => h2 s' (List.mem_of_mem_dropLast hs)
    · exact fun _ s' hs => h2 s' (List.mem_of_getLast? hs)
    · refine Simple.cx s b2 la ⟨h1 s (by simp), ?_⟩ (by clear hcl; revert la; decide)
      intro op ho
      have h4 : la = 40 := by
        subst ho
        revert hla; cases op <;> decide
      rw [opNum_eq (h4.symm.trans ho)]
      exact hcl h4 s (by simp)

theorem cx_params (f : Option ParamD) (l : List ParamD) : (∀ p ∈ (⟨f, l⟩ : ParamsD).list, p.grouped) → ∀ b la, la ∈ [6, 63] → Cx b la (.params ⟨f, l⟩) := by
  induction l using List.reverseRecOn with
  | nil =>
    intro hg b la hla
    cases f with
    | none => exact cx_red kit_100 rfl (show la ∉ [8, 25] by revert la; decide) fun _ _ _ => cxk_nil _ _
    | some p => exact cx_red (kit_101 p) rfl (show la ∉ [40] by revert la; decide) fun _ _ _ => cxk_one (cx_param _ _ _ (hg p (by simp [ParamsD.list])) _ _ (by revert la; decide) (by rintro rfl; exact absurd hla (by decide)))
  | append_singleton l p ih =>
    intro hg b la hla
    refine cx_red (kit_102 f l p) rfl (show la ∉ [40] by revert la; decide) fun _ _ _ => cxk_cons (ih ?_ b 6 (by decide)) fun _ _ =>
      cxk_cons (cx_comma _ _) fun _ _ => cxk_one (cx_param _ _ _ (hg p (by simp [ParamsD.list])) _ _ (by revert la; decide) (by rintro rfl; exact absurd hla (by decide)))
    intro q hq
    apply hg q
    simp only [ParamsD.list, List.mem_append, List.mem_singleton] at hq ⊢
    tauto

/-- What can stand after the head of a procedure or function. -/
def bodyStarts : List Nat := 10 :: 11 :: 36 :: 4 :: 5 :: stmtStarts

theorem vars_next (vs : List Names) (l : List Key) (la : Nat) (h : nextK l la ∈ bodyStarts) : nextK (varsToks vs ++ l) la ∈ bodyStarts := by
  cases vs with
  | nil => exact h
  | cons n vs => exact (show 10 ∈ bodyStarts by decide)

theorem cx_func (f : FuncD) (hg : f.grouped) (b la : Nat) : Cx b la (.func f) := by
  obtain ⟨d, fn, x, ⟨pf, pl⟩, e, vs, bl⟩ := f
  obtain ⟨hp, hb'⟩ := hg
  replace hb' : bl.grouped := hb'
  cases fn with
  | true =>
    refine cx_red (kit_14 d x ⟨pf, pl⟩ e vs bl) rfl List.not_mem_nil fun hb _ _ => cxk_cons (cx_dir _ _ _ (show 35 ∈ _ by decide)) fun b1 h1 =>
      cxk_tok fun b2 h2 => cxk_tok fun b3 h3 => cxk_tok fun b4 h4 => cxk_cons (cx_params pf pl hp _ _ (show 63 ∈ _ by decide)) fun b5 h5 =>
      cxk_tok fun b6 h6 => cxk_cons (cx_exp _ _ _ ?_) fun b7 h7 => cxk_cons (cx_red kit_13 rfl List.not_mem_nil fun _ _ _ => cxk_nil _ _) fun b8 h8 =>
      cxk_cons (cx_optVars _ _ _ ?_) fun b9 h9 => cxk_cons (Block.cx bl b9 36 hb' (by decide) (ne0 ?_ h9)) fun b10 h10 => cxk_one (cx_tok _ _ _)
    · have : nextK (varsToks vs ++ (bl.toks ++ [word .kEndFunction])) la ∈ bodyStarts :=
        vars_next _ _ _ (Block.next bl _ _ (by decide) (show 36 ∈ bodyStarts by decide))
      intro h
      exact absurd this (by revert h; generalize hq : nextK (catL _) la = q; intro h; have : nextK (varsToks vs ++ (bl.toks ++ [word .kEndFunction])) la = q := hq
                            rw [this]; clear this hq; revert q; decide)
    · have : nextK (bl.toks ++ [word .kEndFunction]) la ∈ 36 :: 4 :: 5 :: stmtStarts := Block.next bl _ _ (by decide) (show 36 ∈ 36 :: 4 :: 5 :: stmtStarts by decide)
      intro h
      replace h : nextK (bl.toks ++ [word .kEndFunction]) la = 10 := h
      rw [h] at this; exact absurd this (by decide)
    · exact trans_lt (trans_lt (trans_lt (trans_lt (trans_lt (trans_lt (trans_lt (trans_lt hb h1) h2) h3) h4) h5) h6) h7) h8
  | false =>
    refine cx_red (kit_15 d x ⟨pf, pl⟩ e vs bl) rfl List.not_mem_nil fun hb _ _ => cxk_cons (cx_dir _ _ _ (show 9 ∈ _ by decide)) fun b1 h1 =>
      cxk_tok fun b2 h2 => cxk_tok fun b3 h3 => cxk_tok fun b4 h4 => cxk_cons (cx_params pf pl hp _ _ (show 63 ∈ _ by decide)) fun b5 h5 =>
      cxk_tok fun b6 h6 => cxk_cons (cx_exp _ _ _ ?_) fun b7 h7 =>
      cxk_cons (cx_optVars _ _ _ ?_) fun b9 h9 => cxk_cons (Block.cx bl b9 11 hb' (by decide) (ne0 ?_ h9)) fun b10 h10 => cxk_one (cx_tok _ _ _)
    · have : nextK (varsToks vs ++ (bl.toks ++ [word .kEndProcedure])) la ∈ bodyStarts :=
        vars_next _ _ _ (Block.next bl _ _ (by decide) (show 11 ∈ bodyStarts by decide))
      intro h
      exact absurd this (by revert h; generalize hq : nextK (catL _) la = q; intro h; have : nextK (varsToks vs ++ (bl.toks ++ [word .kEndProcedure])) la = q := hq
                            rw [this]; clear this hq; revert q; decide)
    · have : nextK (bl.toks ++ [word .kEndProcedure]) la ∈ 11 :: 4 :: 5 :: stmtStarts := Block.next bl _ _ (by decide) (show 11 ∈ 11 :: 4 :: 5 :: stmtStarts by decide)
      intro h
      replace h : nextK (bl.toks ++ [word .kEndProcedure]) la = 10 := h
      rw [h] at this; exact absurd this (by decide)
    · exact trans_lt (trans_lt (trans_lt (trans_lt (trans_lt (trans_lt (trans_lt hb h1) h2) h3) h4) h5) h6) h7

theorem cx_part (p : Part) (hg : ∀ f ∈ p.funcs, f.grouped) (b la : Nat) : Cx b la (.part p) := by
  cases p with
  | vars v => exact cx_red (kit_6 v) rfl List.not_mem_nil fun _ _ _ => cxk_one (cx_gvars _ _ _)
  | func f => exact cx_red (kit_7 f) rfl List.not_mem_nil fun _ _ _ => cxk_one (cx_func f (hg f (by simp [Part.funcs])) _ _)

theorem cx_parts : ∀ (l : List Part), l ≠ [] → (∀ f ∈ l.flatMap Part.funcs, f.grouped) → ∀ b la, Cx b la (.parts l) := by
  intro l
  induction l using List.reverseRecOn with
  | nil => exact fun h => absurd rfl h
  | append_singleton l p ih =>
    intro _ hg b la
    have hp : ∀ f ∈ p.funcs, f.grouped := fun f hf => hg f (by simp [hf])
    by_cases hl : l = []
    · subst hl
      exact cx_red (kit_4 p) rfl List.not_mem_nil fun _ _ _ => cxk_one (cx_part p hp _ _)
    · exact cx_red (kit_5 l p) rfl List.not_mem_nil fun _ _ _ => cxk_cons (ih hl (fun f hf => hg f (by
        rw [List.flatMap_append]; exact List.mem_append_left _ hf)) _ _) fun _ _ => cxk_one (cx_part p hp _ _)

theorem tab_1 : action 0 1 = .reduce 1 := by decide +kernel
theorem tab_2 : ((follow 0 [101]).map fun s => action s 1) = some (.reduce 2) := by decide +kernel
theorem tab_3 : ((follow 0 [135, 102]).map fun s => action s 1) = some (.reduce 3) := by decide +kernel

theorem cx_prog (P : Program) (hg : P.grouped) : Cx 0 1 (.prog P) := by
  obtain ⟨l, bl⟩ := P
  obtain ⟨h1, h2⟩ := hg
  by_cases hl : l = []
  · subst hl
    cases bl with
    | empty => exact cx_node kit_1 (fun _ => ⟨0, rfl, tab_1⟩) (cxk_nil _ _)
    | body b =>
      replace h2 : (Block.body b).grouped := h2
      rw [Block.grouped] at h2
      exact cx_node (kit_2 b) (fun _ => Option.map_eq_some_iff.1 tab_2) (cxk_one (Body.cx b 0 1 h2 (by decide)))
  · exact cx_node (kit_3 l bl) (fun _ => Option.map_eq_some_iff.1 tab_3) (cxk_cons (cx_parts l hl h1 _ _) fun b1 ht =>
      cxk_one (Block.cx bl b1 1 h2 (by decide) (ne0 (by decide) ht)))

/-- A list of tokens that spells a program has a derivation tree which the automaton builds and which reads back as
the program; if the program keeps the rules, the actions succeed and give a tree that shows it. -/
theorem prog_tree {P : Program} (hg : P.grouped) {l : List (Nat × Tok)} (hl : l.map key = P.toks) (hgood : ∀ x ∈ l, Good x) :
    ∃ T, T.yield = l ∧ LRF 0 [T] 1 1 ∧ T.read = .prog P ∧
      (ProgLaw P → ∀ M n, ProgFits M n P → T.Runs (St.at M n 0 false) fun _ σ =>
        ∃ ds ss, List.Forall₂ FuncD.shows P.funcs ds ∧ P.body.shows ss ∧
          σ = St.at ⟨M.globals ++ P.globals, M.body ++ (ds.map .func ++ ss.map .stm)⟩ (n + P.whiles) 0 false) ∧
      (P.tidy → T.RunsE P.doomed (St.at ⟨[], []⟩ 0 0 false) none fun _ _ m => m = P.faults.getLast? ∧ ¬ P.doomed) := by
  obtain ⟨T, g, h1, h2, h3, h4, h5, h8⟩ := cx_prog P hg (by decide) (by decide) (show (trans 0 134).isSome = true by decide +kernel) l hl hgood
  have h6 := h3.single_trans (by decide)
  rw [h1] at h6
  have h7 : trans 0 134 = some 1 := by decide +kernel
  replace h6 : trans 0 134 = some g := h6
  rw [h7] at h6
  injection h6 with h6
  subst h6
  exact ⟨T, h2, h3, h4, fun hok M n hf => (h5 _ ⟨M, n, rfl, hok, hf⟩).mono fun _ _ ⟨ds, ss, h1, h2, h⟩ => ⟨ds, ss, h1, h2, h _ _ rfl⟩,
    fun ht => (h8 _ _ _ ⟨ht, rfl⟩ id).mono fun _ _ m ⟨h, h'⟩ => ⟨(h rfl).trans (Option.or_none ..), h'⟩⟩

mutual
theorem Stmt.tidy_of : (s : Stmt) → s.clean → s.tidy
  | .assign _ _, _ => by simp only [Stmt.tidy]
  | .expr _, _ => by simp only [Stmt.tidy]
  | .ifS _ t es e, h => by
    simp only [Stmt.clean] at h; simp only [Stmt.tidy]
    exact ⟨Block.tidy_of t h.1, Elifs.tidy_of es h.2.1, Else.tidy_of e h.2.2⟩
  | .forEach _ _ b, h => by simp only [Stmt.clean] at h; simp only [Stmt.tidy]; exact Block.tidy_of b h
  | .forTo _ _ b, h => by simp only [Stmt.clean] at h; simp only [Stmt.tidy]; exact Block.tidy_of b h
  | .while _ b, h => by simp only [Stmt.clean] at h; simp only [Stmt.tidy]; exact Block.tidy_of b h
  | .tryS b c, h => by
    simp only [Stmt.clean] at h; simp only [Stmt.tidy]
    exact ⟨Block.tidy_of b h.1, Block.tidy_of c h.2⟩
  | .cont, _ => by simp only [Stmt.tidy]
  | .brk, _ => by simp only [Stmt.tidy]
  | .throw _, _ => by simp only [Stmt.tidy]
  | .ret _, _ => by simp only [Stmt.tidy]
theorem Elifs.tidy_of : (s : Elifs) → s.clean → s.tidy
  | .nil, _ => by simp only [Elifs.tidy]
  | .cons _ b r, h => by
    simp only [Elifs.clean] at h; simp only [Elifs.tidy]
    exact ⟨Block.tidy_of b h.1, Elifs.tidy_of r h.2⟩
theorem Else.tidy_of : (s : Else) → s.clean → s.tidy
  | .none, _ => by simp only [Else.tidy]
  | .some b, h => by simp only [Else.clean] at h; simp only [Else.tidy]; exact Block.tidy_of b h
theorem Block.tidy_of : (s : Block) → s.clean → s.tidy
  | .empty, _ => by simp only [Block.tidy]
  | .body b, h => by simp only [Block.clean] at h; simp only [Block.tidy]; exact (Body.tidy_of b h).1
theorem Body.tidy_of : (s : Body) → s.clean → s.tidy ∧ s.last ≠ none
  | .one s, h => by
    simp only [Body.clean] at h; simp only [Body.tidy, Body.last]
    exact ⟨Stmt.tidy_of s h, nofun⟩
  | .sep .empty _ _, h => by rw [Body.clean] at h; exact h.elim
  | .sep (.body b) p .none, h => by
    simp only [Body.clean] at h; simp only [Body.tidy, Body.last, Block.tidy, Block.last, OptStmt.tidy]
    have := Body.tidy_of b h.1
    exact ⟨⟨this.1, trivial, fun _ => .inr this.2⟩, this.2⟩
  | .sep (.body b) p (.some s), h => by
    simp only [Body.clean, OptStmt.clean] at h; simp only [Body.tidy, Body.last, Block.tidy, Block.last, OptStmt.tidy]
    have := Body.tidy_of b h.1
    exact ⟨⟨this.1, Stmt.tidy_of s h.2, fun _ => .inr this.2⟩, nofun⟩
end

theorem Program.tidy_of {P : Program} (h : P.clean) : P.tidy := ⟨fun f hf => Block.tidy_of _ (h.1 f hf), Block.tidy_of _ h.2⟩

theorem ProgOk.law {P : Program} (h : ProgOk P) : ProgLaw P :=
  ⟨Program.tidy_of h.clean, h.breaks, h.throws, h.returns, h.colons, h.distinct, h.ordered⟩

theorem forall_shows_exact : ∀ {fs : List FuncD} {ds : List FuncDecl}, (∀ f ∈ fs, f.clean) → List.Forall₂ FuncD.shows fs ds →
    ds = fs.map FuncD.tree
  | [], _, _, .nil => rfl
  | f :: fs, _ :: _, hc, .cons h1 h2 => by
    rw [FuncD.exact (hc f (by simp)) h1, forall_shows_exact (fun g hg => hc g (by simp [hg])) h2, List.map_cons]

end Verif.LR
