import Verif.Proofs.LR.KitDecl
/-! Actions of the productions for statements, with errors. -/
namespace Verif.LR
open Tables Spec Lexer

theorem addF_append (m : Option Fault) (a b : List Fault) : addF (addF m a) b = addF m (a ++ b) := by
  unfold addF
  rw [List.getLast?_append, Option.or_assoc]

theorem addF_nil (m : Option Fault) : addF m [] = m := rfl

theorem addF_one (m : Option Fault) (x : Fault) : addF m [x] = some x := rfl

theorem Says.of {fs : Nat → Nat → Bool → List Fault} {M n k f m m'} (h : m' = addF m (fs n k f)) : Says fs (St.at M n k f) m m' := by
  intro M' n' k' f' e
  unfold St.at at e
  injection e with _ a2 a3 a4
  have a2 := Int.ofNat.inj a2
  have a3 := Int.ofNat.inj a3
  subst a2; subst a3; subst a4
  exact h

/-- The message of an error. -/
theorem error_comp {a : Ast} {msg : Msg} {x : Fault} (hx : ∀ l c t, (Err.at msg l c t).fault = x) :
    (∃ a', a.error msg = .ok a' ∧ view a' = view a ∧ comp a' = some x) ∨ a.error msg = .error .nilToken := by
  unfold Ast.error
  cases a.cur with
  | none => exact .inr rfl
  | some t => exact .inl ⟨_, rfl, rfl, congrArg some (hx _ _ _)⟩

/-- A check followed by a value. -/
theorem ActWe.check {D : Prop} {p : Nat} {ws : List SV} {σ : St} {m : Option Fault} {Φ : SV → St → Option Fault → Prop}
    (h : ∀ junk a, view a = σ → comp a = m → ∃ (v : SV) (c : Except Panic Ast),
      act p (fun i => (ws ++ junk).getD (i - 1) {}) ((ws ++ junk).headD {}) a = (do .ok (v, ← c)) ∧
      ((∃ a', c = .ok a' ∧ Φ v (view a') (comp a')) ∨ c = .error .nilToken)) : ActWe D p ws σ m Φ := by
  intro junk a hv hm
  obtain ⟨v, c, h1, h2⟩ := h junk a hv hm
  rcases h2 with ⟨a', rfl, h2⟩ | rfl
  · exact .inl ⟨v, a', h1, h2⟩
  · exact .inr ⟨_, h1, nofun⟩

/-! ## Blocks -/

theorem eve_16 : EvE 16 [] (.block .empty) := by
  intro D σ m₀ hw _
  obtain ⟨hc, M, n, m, f, rfl⟩ := hw
  intro junk a hv hm
  refine .inl ⟨_, _, rfl, ⟨by rw [Block.shows], fun h => absurd rfl h, by rw [Block.whiles]; exact Adds.of hv⟩, Says.of ?_⟩
  show comp a = _
  rw [hm, Block.faults, addF_nil]

theorem eve_17 (b : Body) : EvE 17 [.body b] (.block (.body b)) := by
  intro D σ m₀ hw _
  obtain ⟨hc, M, n, m, f, rfl⟩ := hw
  simp only [Block.tidy] at hc
  refine ⟨⟨hc, M, n, m, f, rfl⟩, False.elim, fun v1 σ1 m1 h1 => ?_⟩
  obtain ⟨⟨h1, h2⟩, s1⟩ := h1
  have s1 := s1 _ _ _ _ rfl
  subst s1
  rintro junk a rfl hm
  refine .inl ⟨_, _, rfl, ⟨h1, fun _ => rfl, by rw [Block.whiles]; exact h2⟩, Says.of ?_⟩
  show comp a = _
  rw [hm, Block.faults]

theorem eve_18 (s : Stmt) : EvE 18 [.stmt s] (.body (.one s)) := by
  intro D σ m₀ hw _
  obtain ⟨hc, M, n, m, f, rfl⟩ := hw
  simp only [Body.tidy] at hc
  refine ⟨⟨hc, M, n, m, f, rfl⟩, False.elim, fun v1 σ1 m1 h1 => ?_⟩
  obtain ⟨⟨h1, h2⟩, s1⟩ := h1
  have s1 := s1 _ _ _ _ rfl
  subst s1
  rintro junk a rfl hm
  refine .inl ⟨_, _, rfl, ⟨?_, ?_⟩, Says.of ?_⟩
  · show (Block.body (.one s)).shows [v1.stmt]
    rw [Block.shows]
    refine ⟨[], _, rfl, ?_, fun _ => rfl⟩
    rw [Body.exactly]
    exact ⟨_, rfl, h1⟩
  · rw [Body.whiles]; exact h2
  · show comp a = _
    rw [hm, Body.faults]

theorem isLabel_expr (e : Expr) : (Stmt.expr e).isLabel = true ↔ ∃ n, e.tree = .label n := by
  unfold Stmt.isLabel
  dsimp only
  cases e.tree <;> simp

theorem isLabel_of_shows {s : Stmt} {x : Stm} (h : s.shows x) : s.isLabel = true ↔ ∃ n, x = .label n := by
  cases s <;> rw [Stmt.shows] at h
  case expr e => subst h; exact isLabel_expr e
  case ifS => obtain ⟨_, _, _, rfl, _⟩ := h; exact ⟨nofun, nofun⟩
  case forEach => obtain ⟨_, rfl, _⟩ := h; exact ⟨nofun, nofun⟩
  case forTo => obtain ⟨_, rfl, _⟩ := h; exact ⟨nofun, nofun⟩
  case «while» => obtain ⟨_, rfl, _⟩ := h; exact ⟨nofun, nofun⟩
  case tryS => obtain ⟨_, _, rfl, _⟩ := h; exact ⟨nofun, nofun⟩
  all_goals
    subst h
    exact ⟨nofun, nofun⟩

theorem checkColon_last {a : Ast} {t : Tok} {l : List Stm} {y : Stm} (ht : t.literal = [':']) (hl : l.getLast? = some y) :
    ((∃ n, y = .label n) → checkColon a t l = .ok a) ∧ ((¬ ∃ n, y = .label n) → checkColon a t l = a.error .semicolon) := by
  unfold checkColon
  rw [if_pos ht, hl]
  refine ⟨?_, fun h => ?_⟩
  · rintro ⟨n, rfl⟩; rfl
  · cases y <;> first | rfl | exact absurd ⟨_, rfl⟩ h

theorem badColon_some {b : Block} {s : Stmt} (h : b.last = some s) : b.badColon .colon = if s.isLabel then [] else [.colon] := by
  unfold Block.badColon
  dsimp only
  rw [h]

theorem checkColon_says {a : Ast} {t : Tok} {b : Block} {p : Sep} {l : List Stm} (h : b.shows l) (hp : t.literal = [':'] ↔ p = .colon)
    (ht : p = .colon → b = .empty ∨ b.last ≠ none) :
    (∃ a', checkColon a t l = .ok a' ∧ view a' = view a ∧ comp a' = addF (comp a) (b.badColon p)) ∨ checkColon a t l = .error .nilToken := by
  cases p with
  | semi =>
    have : t.literal ≠ [':'] := fun h => nomatch hp.1 h
    unfold checkColon
    rw [if_neg this]
    exact .inl ⟨a, rfl, rfl, rfl⟩
  | colon =>
    have ht := ht rfl
    have htl := hp.2 rfl
    cases b with
    | empty =>
      rw [Block.shows] at h; subst h
      unfold checkColon
      rw [if_pos htl]
      exact .inl ⟨a, rfl, rfl, by unfold Block.badColon; dsimp only; rw [Block.last]; rfl⟩
    | body b =>
      have ht := ht.resolve_left nofun
      obtain ⟨s, hs⟩ := Option.ne_none_iff_exists'.1 ht
      rw [badColon_some hs]
      rw [Block.last] at hs
      rw [Block.shows] at h
      obtain ⟨old, w, rfl, h1, -⟩ := h
      obtain ⟨y, hy, hsy⟩ := exactly_last_aux h1 s hs
      have hl := isLabel_of_shows hsy
      have hc := checkColon_last (a := a) (l := old ++ w) (y := y) htl (by rw [List.getLast?_append, hy]; rfl)
      by_cases hlab : s.isLabel = true
      · rw [if_pos hlab]
        exact .inl ⟨a, hc.1 (hl.1 hlab), rfl, rfl⟩
      · rw [if_neg hlab, hc.2 fun h => hlab (hl.2 h)]
        exact error_comp (a := a) (msg := .semicolon) (x := .colon) fun _ _ _ => rfl

theorem eve_19 (b : Block) (p : Sep) (o : OptStmt) : EvE 19 [.block b, .sep p, .optStmt o] (.body (.sep b p o)) := by
  intro D σ m₀ hw _
  obtain ⟨hc, M, n, m, f, rfl⟩ := hw
  simp only [Body.tidy] at hc
  refine ⟨⟨hc.1, M, n, m, f, rfl⟩, False.elim, fun v1 σ1 m1 h1 => ⟨trivial, False.elim, fun v2 σ2 m2 h2 => ?_⟩⟩
  obtain ⟨⟨q1, q2, q3⟩, s1⟩ := h1
  have h1 := q3 _ _ _ _ rfl
  subst h1
  have s1 := s1 _ _ _ _ rfl
  subst s1
  have h2' : σ2 = St.at M (n + b.whiles) m f ∧ (v2.token.literal = [':'] ↔ p = .colon) ∧ m2 = addF m₀ (b.faults n m f) := by
    obtain ⟨h2, h3⟩ := h2
    cases p with
    | semi => exact ⟨h2.1, ⟨fun h => by rw [h2.2] at h; exact absurd h (by decide), nofun⟩, h3⟩
    | colon => exact ⟨h2.1, ⟨fun _ => rfl, fun _ => h2.2⟩, h3⟩
  obtain ⟨rfl, hp, rfl⟩ := h2'
  refine ⟨⟨hc.2.1, M, _, m, f, rfl⟩, False.elim, fun v3 σ3 m3 h3 => ?_⟩
  obtain ⟨⟨h3, h4⟩, s3⟩ := h3
  have h5 := h4 _ _ _ _ rfl
  subst h5
  have s3 := s3 _ _ _ _ rfl
  subst s3
  refine ActWe.check fun junk a hv hm => ⟨if v3.stmt.isNil then v1 else { v1 with body := v1.body ++ [v3.stmt] },
    checkColon a v2.token v1.opt_body, rfl, ?_⟩
  rcases checkColon_says (a := a) q1 hp hc.2.2 with ⟨a', h1, h2, h6⟩ | h1
  · refine .inl ⟨a', h1, ⟨?_, ?_⟩, Says.of ?_⟩
    · rw [keep_body]; exact Block.shows_sep q1 q2 h3
    · refine Adds.of ?_
      rw [h2, hv, Body.whiles, Nat.add_assoc]
    · rw [h6, hm, Body.faults]; simp only [addF_append, List.append_assoc]
  · exact .inr h1

theorem eve_20 : EvE 20 [] (.optStmt .none) := by
  intro D σ m₀ hw _
  obtain ⟨hc, M, n, m, f, rfl⟩ := hw
  intro junk a hv hm
  refine .inl ⟨_, _, rfl, ⟨by rw [OptStmt.exactly]; rfl, by rw [OptStmt.whiles]; exact Adds.of hv⟩, Says.of ?_⟩
  show comp a = _
  rw [hm, OptStmt.faults, addF_nil]

theorem eve_21 (s : Stmt) : EvE 21 [.stmt s] (.optStmt (.some s)) := by
  intro D σ m₀ hw _
  obtain ⟨hc, M, n, m, f, rfl⟩ := hw
  simp only [OptStmt.tidy] at hc
  refine ⟨⟨hc, M, n, m, f, rfl⟩, False.elim, fun v1 σ1 m1 h1 => ?_⟩
  obtain ⟨⟨h1, h2⟩, s1⟩ := h1
  have s1 := s1 _ _ _ _ rfl
  subst s1
  rintro junk a rfl hm
  refine .inl ⟨_, _, rfl, ⟨?_, ?_⟩, Says.of ?_⟩
  · show (OptStmt.some s).exactly (if v1.stmt.isNil then [] else [v1.stmt])
    rw [isNil_false (Stmt.shows_ne h1), OptStmt.exactly]; exact ⟨_, rfl, h1⟩
  · rw [OptStmt.whiles]; exact h2
  · show comp a = _
    rw [hm, OptStmt.faults]

/-! ## Conditions -/

theorem eve_28 (c : Expr) (t : Block) (es : Elifs) (e : Else) :
    EvE 28 [.tok (word .kIf), .expr c, .tok (word .kThen), .block t, .elifs es, .els e, .tok (word .kEndIf)] (.ifS (.ifS c t es e)) := by
  intro D σ m₀ hw _
  obtain ⟨hc, M, n, m, f, rfl⟩ := hw
  simp only [Stmt.tidy] at hc
  refine ⟨trivial, False.elim, fun v1 σ1 m1 h1 => ⟨trivial, False.elim, fun v2 σ2 m2 h2 => ⟨trivial, False.elim, fun v3 σ3 m3 h3 => ?_⟩⟩⟩
  obtain ⟨⟨rfl, -⟩, rfl⟩ := h1
  obtain ⟨⟨rfl, h2⟩, rfl⟩ := h2
  obtain ⟨⟨rfl, -⟩, rfl⟩ := h3
  refine ⟨⟨hc.1, M, n, m, f, rfl⟩, False.elim, fun v4 σ4 m4 h4 => ?_⟩
  obtain ⟨⟨h4, -, h4'⟩, s4⟩ := h4
  have e4 := h4' _ _ _ _ rfl
  subst e4
  have s4 := s4 _ _ _ _ rfl
  subst s4
  refine ⟨⟨hc.2.1, M, _, m, f, rfl⟩, False.elim, fun v5 σ5 m5 h5 => ?_⟩
  obtain ⟨⟨h5, h5'⟩, s5⟩ := h5
  have e5 := h5' _ _ _ _ rfl
  subst e5
  have s5 := s5 _ _ _ _ rfl
  subst s5
  refine ⟨⟨hc.2.2, M, _, m, f, rfl⟩, False.elim, fun v6 σ6 m6 h6 => ?_⟩
  obtain ⟨⟨h6, h6'⟩, s6⟩ := h6
  have e6 := h6' _ _ _ _ rfl
  subst e6
  have s6 := s6 _ _ _ _ rfl
  subst s6
  refine ⟨trivial, False.elim, fun v7 σ7 m7 h7 => ?_⟩
  obtain ⟨⟨rfl, -⟩, rfl⟩ := h7
  intro junk a hv hm
  refine .inl ⟨_, _, rfl, ⟨?_, ?_⟩, Says.of ?_⟩
  · show (Stmt.ifS c t es e).shows (Stm.ifS v2.stmt v4.opt_body v5.opt_elseif_list v6.opt_else)
    obtain ⟨l, h5, h5''⟩ := h5
    rw [h2, h5, Stmt.shows]
    exact ⟨_, _, _, rfl, h4, h5'', h6⟩
  · refine Adds.of ?_
    rw [hv, Stmt.whiles]; simp only [Nat.add_assoc]
  · show comp a = _
    rw [hm, Stmt.faults]; simp only [addF_append, List.append_assoc]

theorem eve_29 : EvE 29 [] (.elifs .nil) := by
  intro D σ m₀ hw _
  obtain ⟨hc, M, n, m, f, rfl⟩ := hw
  intro junk a hv hm
  refine .inl ⟨_, _, rfl, ⟨⟨[], rfl, by rw [Elifs.shows]⟩, by rw [Elifs.whiles]; exact Adds.of hv⟩, Says.of ?_⟩
  show comp a = _
  rw [hm, Elifs.faults, addF_nil]

theorem eve_30 (c : Expr) (t : Block) (r : Elifs) :
    EvE 30 [.tok (word .kElseIf), .expr c, .tok (word .kThen), .block t, .elifs r] (.elifs (.cons c t r)) := by
  intro D σ m₀ hw _
  obtain ⟨hc, M, n, m, f, rfl⟩ := hw
  simp only [Elifs.tidy] at hc
  refine ⟨trivial, False.elim, fun v1 σ1 m1 h1 => ⟨trivial, False.elim, fun v2 σ2 m2 h2 => ⟨trivial, False.elim, fun v3 σ3 m3 h3 => ?_⟩⟩⟩
  obtain ⟨⟨rfl, -⟩, rfl⟩ := h1
  obtain ⟨⟨rfl, h2⟩, rfl⟩ := h2
  obtain ⟨⟨rfl, -⟩, rfl⟩ := h3
  refine ⟨⟨hc.1, M, n, m, f, rfl⟩, False.elim, fun v4 σ4 m4 h4 => ?_⟩
  obtain ⟨⟨h4, -, h4'⟩, s4⟩ := h4
  have e4 := h4' _ _ _ _ rfl
  subst e4
  have s4 := s4 _ _ _ _ rfl
  subst s4
  refine ⟨⟨hc.2, M, _, m, f, rfl⟩, False.elim, fun v5 σ5 m5 h5 => ?_⟩
  obtain ⟨⟨h5, h5'⟩, s5⟩ := h5
  have e5 := h5' _ _ _ _ rfl
  subst e5
  have s5 := s5 _ _ _ _ rfl
  subst s5
  intro junk a hv hm
  refine .inl ⟨_, _, rfl, ⟨?_, ?_⟩, Says.of ?_⟩
  · obtain ⟨l, h5, h5''⟩ := h5
    refine ⟨Stm.ifS c.tree v4.opt_body [] [] :: l, ?_, ?_⟩
    · show v5.opt_elseif_list ++ [Stm.ifS v2.stmt v4.opt_body [] []] = _
      rw [h2, h5, List.reverse_cons]
    · rw [Elifs.shows]; exact ⟨_, _, rfl, h4, h5''⟩
  · refine Adds.of ?_
    rw [hv, Elifs.whiles]; simp only [Nat.add_assoc]
  · show comp a = _
    rw [hm, Elifs.faults, addF_append]

theorem eve_31 : EvE 31 [] (.els .none) := by
  intro D σ m₀ hw _
  obtain ⟨hc, M, n, m, f, rfl⟩ := hw
  intro junk a hv hm
  refine .inl ⟨_, _, rfl, ⟨by rw [Else.shows], by rw [Else.whiles]; exact Adds.of hv⟩, Says.of ?_⟩
  show comp a = _
  rw [hm, Else.faults, addF_nil]

theorem eve_32 (b : Block) : EvE 32 [.tok (word .kElse), .block b] (.els (.some b)) := by
  intro D σ m₀ hw _
  obtain ⟨hc, M, n, m, f, rfl⟩ := hw
  simp only [Else.tidy] at hc
  refine ⟨trivial, False.elim, fun v1 σ1 m1 h1 => ?_⟩
  obtain ⟨⟨rfl, -⟩, rfl⟩ := h1
  refine ⟨⟨hc, M, n, m, f, rfl⟩, False.elim, fun v2 σ2 m2 h2 => ?_⟩
  obtain ⟨⟨h2, -, h2'⟩, s2⟩ := h2
  have s2 := s2 _ _ _ _ rfl
  subst s2
  rintro junk a rfl hm
  refine .inl ⟨_, _, rfl, ⟨?_, ?_⟩, Says.of ?_⟩
  · show (Else.some b).shows v2.opt_body
    rw [Else.shows]; exact h2
  · rw [Else.whiles]; exact h2'
  · show comp a = _
    rw [hm, Else.faults]

/-! ## Loops -/

theorem eve_35 (x : Name) (s : Source) (b : Block) :
    EvE 35 [.tok (word .kFor), .tok (word .kEach), .tok (ident x), .tok (word .kIn), .source s, .tok (word .kLoop), .mid 138, .block b,
      .tok (word .kEndLoop)] (.loop (.forEach x s b)) := by
  intro D σ m₀ hw _
  obtain ⟨hc, M, n, m, f, rfl⟩ := hw
  simp only [Stmt.tidy] at hc
  refine ⟨trivial, False.elim, fun v1 σ1 m1 h1 => ⟨trivial, False.elim, fun v2 σ2 m2 h2 => ⟨trivial, False.elim, fun v3 σ3 m3 h3 =>
    ⟨trivial, False.elim, fun v4 σ4 m4 h4 => ⟨trivial, False.elim, fun v5 σ5 m5 h5 => ⟨trivial, False.elim, fun v6 σ6 m6 h6 =>
    ⟨trivial, False.elim, fun v7 σ7 m7 h7 => ?_⟩⟩⟩⟩⟩⟩⟩
  obtain ⟨⟨rfl, -⟩, rfl⟩ := h1
  obtain ⟨⟨rfl, -⟩, rfl⟩ := h2
  obtain ⟨h3, rfl⟩ := h3
  replace h3 := gives_named (a := .ktoken_identifier) (by decide) h3
  obtain ⟨rfl, h3⟩ := h3
  obtain ⟨⟨rfl, -⟩, rfl⟩ := h4
  obtain ⟨⟨rfl, h5⟩, rfl⟩ := h5
  obtain ⟨⟨rfl, -⟩, rfl⟩ := h6
  obtain ⟨h7, rfl⟩ := h7
  have e7 : σ7 = St.at M (n + 1) m f := h7 _ _ _ _ rfl
  subst e7
  refine ⟨⟨hc, M, _, m, f, rfl⟩, False.elim, fun v8 σ8 m8 h8 => ⟨trivial, False.elim, fun v9 σ9 m9 h9 => ?_⟩⟩
  obtain ⟨⟨h8, -, h8'⟩, s8⟩ := h8
  have e8 := h8' _ _ _ _ rfl
  subst e8
  have s8 := s8 _ _ _ _ rfl
  subst s8
  obtain ⟨⟨rfl, -⟩, rfl⟩ := h9
  intro junk a hv hm
  refine .inl ⟨_, _, rfl, ⟨?_, ?_⟩, Says.of ?_⟩
  · show (Stmt.forEach x s b).shows (Stm.loop (.str v3.token.literal) .nil v5.stmt .nil v8.opt_body)
    rw [h3, h5, Stmt.shows]
    exact ⟨_, rfl, h8⟩
  · refine Adds.of ?_
    rw [Nat.add_right_comm] at hv
    rw [view_setLoop_false hv, Stmt.whiles]
  · show comp a = _
    rw [hm, Stmt.faults]

theorem eve_37 (x z : Expr) (b : Block) :
    EvE 37 [.tok (word .kFor), .expr x, .tok (word .kTo), .expr z, .tok (word .kLoop), .mid 139, .block b, .tok (word .kEndLoop)]
      (.loop (.forTo x z b)) := by
  intro D σ m₀ hw _
  obtain ⟨hc, M, n, m, f, rfl⟩ := hw
  simp only [Stmt.tidy] at hc
  refine ⟨trivial, False.elim, fun v1 σ1 m1 h1 => ⟨trivial, False.elim, fun v2 σ2 m2 h2 => ⟨trivial, False.elim, fun v3 σ3 m3 h3 =>
    ⟨trivial, False.elim, fun v4 σ4 m4 h4 => ⟨trivial, False.elim, fun v5 σ5 m5 h5 => ⟨trivial, False.elim, fun v6 σ6 m6 h6 => ?_⟩⟩⟩⟩⟩⟩
  obtain ⟨⟨rfl, -⟩, rfl⟩ := h1
  obtain ⟨⟨rfl, h2⟩, rfl⟩ := h2
  obtain ⟨⟨rfl, -⟩, rfl⟩ := h3
  obtain ⟨⟨rfl, h4⟩, rfl⟩ := h4
  obtain ⟨⟨rfl, -⟩, rfl⟩ := h5
  obtain ⟨h6, rfl⟩ := h6
  have e6 : σ6 = St.at M (n + 1) m f := h6 _ _ _ _ rfl
  subst e6
  refine ⟨⟨hc, M, _, m, f, rfl⟩, False.elim, fun v8 σ8 m8 h8 => ⟨trivial, False.elim, fun v9 σ9 m9 h9 => ?_⟩⟩
  obtain ⟨⟨h8, -, h8'⟩, s8⟩ := h8
  have e8 := h8' _ _ _ _ rfl
  subst e8
  have s8 := s8 _ _ _ _ rfl
  subst s8
  obtain ⟨⟨rfl, -⟩, rfl⟩ := h9
  intro junk a hv hm
  refine .inl ⟨_, _, rfl, ⟨?_, ?_⟩, Says.of ?_⟩
  · show (Stmt.forTo x z b).shows (Stm.loop v2.stmt v4.stmt .nil .nil v8.opt_body)
    rw [h2, h4, Stmt.shows]
    exact ⟨_, rfl, h8⟩
  · refine Adds.of ?_
    rw [Nat.add_right_comm] at hv
    rw [view_setLoop_false hv, Stmt.whiles]
  · show comp a = _
    rw [hm, Stmt.faults]

theorem eve_39 (c : Expr) (b : Block) :
    EvE 39 [.tok (word .kWhile), .expr c, .tok (word .kLoop), .mid 140, .block b, .tok (word .kEndLoop)] (.loop (.while c b)) := by
  intro D σ m₀ hw _
  obtain ⟨hc, M, n, m, f, rfl⟩ := hw
  simp only [Stmt.tidy] at hc
  refine ⟨trivial, False.elim, fun v1 σ1 m1 h1 => ⟨trivial, False.elim, fun v2 σ2 m2 h2 => ⟨trivial, False.elim, fun v3 σ3 m3 h3 =>
    ⟨trivial, False.elim, fun v4 σ4 m4 h4 => ?_⟩⟩⟩⟩
  obtain ⟨⟨rfl, -⟩, rfl⟩ := h1
  obtain ⟨⟨rfl, h2⟩, rfl⟩ := h2
  obtain ⟨⟨rfl, -⟩, rfl⟩ := h3
  obtain ⟨h4, rfl⟩ := h4
  have e4 : σ4 = St.at M (n + 1) m f := h4 _ _ _ _ rfl
  subst e4
  refine ⟨⟨hc, M, _, m, f, rfl⟩, False.elim, fun v8 σ8 m8 h8 => ⟨trivial, False.elim, fun v9 σ9 m9 h9 => ?_⟩⟩
  obtain ⟨⟨h8, -, h8'⟩, s8⟩ := h8
  have e8 := h8' _ _ _ _ rfl
  subst e8
  have s8 := s8 _ _ _ _ rfl
  subst s8
  obtain ⟨⟨rfl, -⟩, rfl⟩ := h9
  intro junk a hv hm
  refine .inl ⟨_, _, rfl, ⟨?_, ?_⟩, Says.of ?_⟩
  · show (Stmt.while c b).shows (Stm.loop .nil .nil .nil v2.stmt v8.opt_body)
    rw [h2, Stmt.shows]
    exact ⟨_, rfl, h8⟩
  · refine Adds.of ?_
    rw [hv, Stmt.whiles, Nat.add_assoc]
  · show comp a = _
    rw [hm, Stmt.faults]

/-! ## Statements -/

theorem eve_44 (p : Path) (e : Expr) : EvE 44 [.path p, .tok (word .kEQUAL), .expr e] (.stmt (.assign p e)) := by
  intro D σ m₀ hw _
  obtain ⟨-, M, n, m, f, rfl⟩ := hw
  refine ⟨trivial, False.elim, fun v1 σ1 m1 h1 => ⟨trivial, False.elim, fun v2 σ2 m2 h2 => ⟨trivial, False.elim, fun v3 σ3 m3 h3 => ?_⟩⟩⟩
  obtain ⟨⟨rfl, h1⟩, rfl⟩ := h1
  obtain ⟨⟨rfl, -⟩, rfl⟩ := h2
  obtain ⟨⟨rfl, h3⟩, rfl⟩ := h3
  intro junk a hv hm
  refine .inl ⟨_, _, rfl, ⟨?_, by rw [Stmt.whiles]; exact Adds.of hv; all_goals exact nofun⟩, Says.of ?_⟩
  · show (Stmt.assign p e).shows (Stm.assign v1.stmt [v3.stmt])
    rw [h1, h3, Stmt.shows]
  · show comp a = _
    simp [hm, Stmt.faults, addF_nil]

theorem eve_45 (e : Expr) : EvE 45 [.expr e] (.stmt (.expr e)) := by
  intro D σ m₀ hw _
  obtain ⟨-, M, n, m, f, rfl⟩ := hw
  refine ⟨trivial, False.elim, fun v1 σ1 m1 h1 => ?_⟩
  obtain ⟨⟨rfl, h1⟩, rfl⟩ := h1
  intro junk a hv hm
  refine .inl ⟨_, _, rfl, ⟨?_, by rw [Stmt.whiles]; exact Adds.of hv; all_goals exact nofun⟩, Says.of ?_⟩
  · show (Stmt.expr e).shows v1.stmt
    rw [h1, Stmt.shows]
  · show comp a = _
    simp [hm, Stmt.faults, addF_nil]

theorem eve_46 (s : Stmt) : EvE 46 [.ifS s] (.stmt s) := by
  intro D σ m₀ hw _
  refine ⟨hw, False.elim, fun v1 σ1 m1 h1 => ?_⟩
  rintro junk a rfl rfl
  exact .inl ⟨_, _, rfl, h1⟩

theorem eve_47 (s : Stmt) : EvE 47 [.loop s] (.stmt s) := by
  intro D σ m₀ hw _
  refine ⟨hw, False.elim, fun v1 σ1 m1 h1 => ?_⟩
  rintro junk a rfl rfl
  exact .inl ⟨_, _, rfl, h1⟩

theorem eve_48 (s : Stmt) : EvE 48 [.tryS s] (.stmt s) := by
  intro D σ m₀ hw _
  refine ⟨hw, False.elim, fun v1 σ1 m1 h1 => ?_⟩
  rintro junk a rfl rfl
  exact .inl ⟨_, _, rfl, h1⟩

theorem checkLoop_says {a : Ast} {t : Tok} {M n m f} (h : view a = St.at M n m f) :
    (∃ a', checkLoop a t = .ok a' ∧ view a' = view a ∧ comp a' = addF (comp a) (if n = 0 then [.loop] else [])) ∨
      checkLoop a t = .error .nilToken := by
  unfold checkLoop
  rw [(view_eq h).2.1]
  by_cases hn : n = 0
  · rw [if_pos (by omega), if_pos hn]
    exact error_comp (a := a) (msg := .loopOp t.literal) (x := .loop) fun _ _ _ => rfl
  · rw [if_neg (by omega), if_neg hn]
    exact .inl ⟨a, rfl, rfl, rfl⟩

theorem eve_49 : EvE 49 [.tok (word .kContinue)] (.stmt .cont) := by
  intro D σ m₀ hw _
  obtain ⟨-, M, n, m, f, rfl⟩ := hw
  refine ⟨trivial, False.elim, fun v1 σ1 m1 h1 => ?_⟩
  obtain ⟨⟨rfl, -⟩, rfl⟩ := h1
  refine ActWe.check fun junk a hv hm => ⟨{ v1 with stmt := .cont }, checkLoop a v1.token, rfl, ?_⟩
  rcases checkLoop_says (t := v1.token) hv with ⟨a', h1, h2, h3⟩ | h1
  · refine .inl ⟨a', h1, ⟨by rw [Stmt.shows], by rw [Stmt.whiles]; exact Adds.of (h2.trans hv); all_goals exact nofun⟩, Says.of ?_⟩
    rw [h3, hm, Stmt.faults]
  · exact .inr h1

theorem eve_50 : EvE 50 [.tok (word .kBreak)] (.stmt .brk) := by
  intro D σ m₀ hw _
  obtain ⟨-, M, n, m, f, rfl⟩ := hw
  refine ⟨trivial, False.elim, fun v1 σ1 m1 h1 => ?_⟩
  obtain ⟨⟨rfl, -⟩, rfl⟩ := h1
  refine ActWe.check fun junk a hv hm => ⟨{ v1 with stmt := .brk }, checkLoop a v1.token, rfl, ?_⟩
  rcases checkLoop_says (t := v1.token) hv with ⟨a', h1, h2, h3⟩ | h1
  · refine .inl ⟨a', h1, ⟨by rw [Stmt.shows], by rw [Stmt.whiles]; exact Adds.of (h2.trans hv); all_goals exact nofun⟩, Says.of ?_⟩
    rw [h3, hm, Stmt.faults]
  · exact .inr h1

theorem eve_51 (o : OptExpr) : EvE 51 [.tok (word .kThrow), .optExpr o] (.stmt (.throw o)) := by
  intro D σ m₀ hw _
  obtain ⟨-, M, n, m, f, rfl⟩ := hw
  refine ⟨trivial, False.elim, fun v1 σ1 m1 h1 => ⟨trivial, False.elim, fun v2 σ2 m2 h2 => ?_⟩⟩
  obtain ⟨⟨rfl, -⟩, rfl⟩ := h1
  obtain ⟨⟨rfl, h2⟩, rfl⟩ := h2
  refine ActWe.check fun junk a hv hm => ⟨{ v1 with stmt := .throw v2.stmt }, checkThrow a v1.token v2.stmt, rfl, ?_⟩
  have hck : (∃ a', checkThrow a v1.token v2.stmt = .ok a' ∧ view a' = view a ∧ comp a' = addF (comp a) ((Stmt.throw o).faults n m f)) ∨
      checkThrow a v1.token v2.stmt = .error .nilToken := by
    unfold checkThrow
    have hi : v2.stmt.isNil = true ↔ o = .none := by rw [h2, OptExpr.tree_isNil]
    rw [(view_eq hv).2.2.1]
    cases o with
    | some e =>
      rw [if_neg (by rintro ⟨-, h⟩; exact nomatch hi.1 h)]
      exact .inl ⟨a, rfl, rfl, by simp [Stmt.faults, addF_nil]⟩
    | none =>
      rw [Stmt.faults]
      by_cases hz : m = 0
      · rw [if_pos ⟨by omega, hi.2 rfl⟩, if_pos hz]
        exact error_comp (a := a) (msg := .throwOp v1.token.literal) (x := .throw) fun _ _ _ => rfl
      · rw [if_neg (by rintro ⟨h, -⟩; omega), if_neg hz]
        exact .inl ⟨a, rfl, rfl, rfl⟩
  rcases hck with ⟨a', h1, h3, h4⟩ | h1
  · refine .inl ⟨a', h1, ⟨?_, by rw [Stmt.whiles]; exact Adds.of (h3.trans hv); all_goals exact nofun⟩, Says.of ?_⟩
    · show (Stmt.throw o).shows (Stm.throw v2.stmt)
      rw [h2, Stmt.shows]
    · rw [h4, hm]
  · exact .inr h1

theorem eve_52 (o : OptExpr) : EvE 52 [.tok (word .kReturn), .optExpr o] (.stmt (.ret o)) := by
  intro D σ m₀ hw _
  obtain ⟨-, M, n, m, f, rfl⟩ := hw
  refine ⟨trivial, False.elim, fun v1 σ1 m1 h1 => ⟨trivial, False.elim, fun v2 σ2 m2 h2 => ?_⟩⟩
  obtain ⟨⟨rfl, -⟩, rfl⟩ := h1
  obtain ⟨⟨rfl, h2⟩, rfl⟩ := h2
  refine ActWe.check fun junk a hv hm => ⟨{ v1 with stmt := .ret v2.stmt }, checkReturn a v2.stmt, rfl, ?_⟩
  have hck : (∃ a', checkReturn a v2.stmt = .ok a' ∧ view a' = view a ∧ comp a' = addF (comp a) ((Stmt.ret o).faults n m f)) ∨
      checkReturn a v2.stmt = .error .nilToken := by
    unfold checkReturn
    have hi : v2.stmt.isNil = true ↔ o = .none := by rw [h2, OptExpr.tree_isNil]
    rw [(view_eq hv).2.2.2]
    cases o with
    | none =>
      rw [if_neg (by rw [hi.2 rfl]; rintro ⟨-, h⟩; cases h)]
      exact .inl ⟨a, rfl, rfl, by simp [Stmt.faults, addF_nil]⟩
    | some e =>
      have hi : v2.stmt.isNil = false := by
        cases h : v2.stmt.isNil with
        | false => rfl
        | true => exact nomatch hi.1 h
      rw [Stmt.faults, hi]
      cases f with
      | false =>
        rw [if_pos ⟨rfl, rfl⟩, if_neg (by decide)]
        exact error_comp (a := a) (msg := .procReturn) (x := .ret) fun _ _ _ => rfl
      | true =>
        rw [if_neg (by rintro ⟨h, -⟩; cases h), if_pos rfl]
        exact .inl ⟨a, rfl, rfl, rfl⟩
  rcases hck with ⟨a', h1, h3, h4⟩ | h1
  · refine .inl ⟨a', h1, ⟨?_, by rw [Stmt.whiles]; exact Adds.of (h3.trans hv); all_goals exact nofun⟩, Says.of ?_⟩
    · show (Stmt.ret o).shows (Stm.ret v2.stmt)
      rw [h2, Stmt.shows]
    · rw [h4, hm]
  · exact .inr h1

theorem eve_63 (b h : Block) : EvE 63 [.tok (word .kTry), .block b, .tok (word .kCatch), .mid 142, .block h, .tok (word .kEndTry)]
    (.tryS (.tryS b h)) := by
  intro D σ m₀ hw _
  obtain ⟨hc, M, n, m, f, rfl⟩ := hw
  simp only [Stmt.tidy] at hc
  refine ⟨trivial, False.elim, fun v1 σ1 m1 h1 => ?_⟩
  obtain ⟨⟨rfl, -⟩, rfl⟩ := h1
  refine ⟨⟨hc.1, M, _, m, f, rfl⟩, False.elim, fun v2 σ2 m2 h2 => ⟨trivial, False.elim, fun v3 σ3 m3 h3 =>
    ⟨trivial, False.elim, fun v4 σ4 m4 h4 => ?_⟩⟩⟩
  obtain ⟨⟨h2, -, h2'⟩, s2⟩ := h2
  have e2 := h2' _ _ _ _ rfl
  subst e2
  have s2 := s2 _ _ _ _ rfl
  subst s2
  obtain ⟨⟨rfl, -⟩, rfl⟩ := h3
  obtain ⟨h4, rfl⟩ := h4
  have e4 : σ4 = St.at M (n + b.whiles) (m + 1) f := h4 _ _ _ _ rfl
  subst e4
  refine ⟨⟨hc.2, M, _, _, f, rfl⟩, False.elim, fun v5 σ5 m5 h5 => ⟨trivial, False.elim, fun v6 σ6 m6 h6 => ?_⟩⟩
  obtain ⟨⟨h5, -, h5'⟩, s5⟩ := h5
  have e5 := h5' _ _ _ _ rfl
  subst e5
  have s5 := s5 _ _ _ _ rfl
  subst s5
  obtain ⟨⟨rfl, -⟩, rfl⟩ := h6
  intro junk a hv hm
  refine .inl ⟨_, _, rfl, ⟨?_, ?_⟩, Says.of ?_⟩
  · show (Stmt.tryS b h).shows (Stm.tryS v2.opt_body v5.opt_body)
    rw [Stmt.shows]
    exact ⟨_, _, rfl, h2, h5⟩
  · refine Adds.of ?_
    rw [view_setTry_false hv, Stmt.whiles, Nat.add_assoc]
  · show comp a = _
    rw [hm, Stmt.faults, addF_append]

macro_rules | `(tactic| eve) => `(tactic| first
  | exact .inr eve_16 | exact .inr (eve_17 _) | exact .inr (eve_18 _) | exact .inr (eve_19 _ _ _) | exact .inr eve_20 | exact .inr (eve_21 _)
  | exact .inr (eve_28 _ _ _ _) | exact .inr eve_29 | exact .inr (eve_30 _ _ _) | exact .inr eve_31 | exact .inr (eve_32 _)
  | exact .inr (eve_35 _ _ _) | exact .inr (eve_37 _ _ _) | exact .inr (eve_39 _ _) | exact .inr (eve_44 _ _) | exact .inr (eve_45 _)
  | exact .inr (eve_46 _) | exact .inr (eve_47 _) | exact .inr (eve_48 _) | exact .inr eve_49 | exact .inr eve_50 | exact .inr (eve_51 _)
  | exact .inr (eve_52 _) | exact .inr (eve_63 _ _) | fail)

end Verif.LR
