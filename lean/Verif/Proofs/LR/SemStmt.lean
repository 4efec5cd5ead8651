import Verif.Proofs.LR.SemExpr
/-! The productions for statements. -/
namespace Verif.LR
open Tables Spec Lexer

/-! ## Trees are not nil -/

theorem withMinus_ne {x : Stm} (h : x ≠ .nil) : withMinus x ≠ .nil := by cases x <;> first | exact h | (intro h0; cases h0)
theorem withNot_ne {x : Stm} (h : x ≠ .nil) : withNot x ≠ .nil := by cases x <;> first | exact h | (intro h0; cases h0)

theorem New.tree_ne (n : New) : n.tree ≠ .nil := by cases n <;> simp [New.tree]
theorem Ident.tree_ne (i : Ident) : i.tree ≠ .nil := by cases i <;> simp [Ident.tree]
theorem Path.tree_ne (p : Path) : p.tree ≠ .nil := by
  cases p with
  | one i => rw [Path.tree]; exact Ident.tree_ne i
  | dot _ _ => rw [Path.tree]; exact nofun

mutual
theorem Expr.tree_ne : (e : Expr) → e.tree ≠ .nil
  | .simple s => by rw [Expr.tree]; exact Simple.tree_ne s
  | .paren _ => by rw [Expr.tree]; exact nofun
  | .bin _ _ _ => by rw [Expr.tree]; exact nofun
  | .not e => by rw [Expr.tree]; exact withNot_ne (Expr.tree_ne e)
  | .new n => by rw [Expr.tree]; exact New.tree_ne n
  | .goto _ => by rw [Expr.tree]; exact nofun
  | .ternary _ _ _ => by rw [Expr.tree]; exact nofun
  | .path p => by rw [Expr.tree]; exact Path.tree_ne p
theorem Simple.tree_ne : (e : Simple) → e.tree ≠ .nil
  | .str _ => by rw [Simple.tree]; exact nofun
  | .num _ => by rw [Simple.tree]; exact nofun
  | .neg e => by rw [Simple.tree]; exact withMinus_ne (Expr.tree_ne e)
  | .pos e => by rw [Simple.tree]; exact Expr.tree_ne e
  | .bool _ => by rw [Simple.tree]; exact nofun
  | .date _ => by rw [Simple.tree]; exact nofun
  | .undef => by rw [Simple.tree]; exact nofun
  | .label _ => by rw [Simple.tree]; exact nofun
end

theorem isNil_false {x : Stm} (h : x ≠ .nil) : x.isNil = false := by
  cases x <;> first | rfl | exact absurd rfl h

theorem Stmt.shows_ne {s : Stmt} {x : Stm} (h : s.shows x) : x ≠ .nil := by
  cases s <;> rw [Stmt.shows] at h
  case expr e => rw [h]; exact Expr.tree_ne e
  case ifS => obtain ⟨_, _, _, rfl, -⟩ := h; exact nofun
  case forEach => obtain ⟨_, rfl, -⟩ := h; exact nofun
  case forTo => obtain ⟨_, rfl, -⟩ := h; exact nofun
  case «while» => obtain ⟨_, rfl, -⟩ := h; exact nofun
  case tryS => obtain ⟨_, _, rfl, -⟩ := h; exact nofun
  all_goals (rw [h]; exact nofun)

theorem OptExpr.tree_isNil (e : OptExpr) : e.tree.isNil = true ↔ e = .none := by
  cases e with
  | none => rw [OptExpr.tree]; exact ⟨fun _ => rfl, fun _ => rfl⟩
  | some e => rw [OptExpr.tree, isNil_false (Expr.tree_ne e)]; exact ⟨nofun, nofun⟩

/-- Opens `ActR`. -/
macro "acto" h:ident a:ident a':ident h1:ident h2:ident : tactic => `(tactic| (
  obtain ⟨junk, $a, $a', $h1, e1, e2, hok⟩ := $h
  subst e1; subst e2
  have $h2 := hok trivial))

/-! ## Blocks -/

theorem Eff.refl (σ : St) : Eff σ σ 0 (fun _ => True) (fun _ => True) (fun _ => True) :=
  fun _ _ _ _ h => ⟨h, trivial, trivial, trivial⟩

theorem view_eq {a : Ast} {M n m f} (h : view a = St.at M n m f) : a.mod = M ∧ a.isLoop = n ∧ a.isTry = m ∧ a.isFunc = f := by
  unfold view St.at at h; injection h with h1 h2 h3 h4; exact ⟨h1, h2, h3, h4⟩

theorem prod_16 : Prod 16 := by
  intro b ks la σ ws σ1 s v σ2 hb h hr hA ha
  replace h : SemF b [] ks la σ ws σ1 s := h
  obtain ⟨rfl, rfl, rfl, rfl⟩ := h.unnil
  actr ha
  exact ⟨.empty, by rw [Block.toks], by rw [Block.shows], nofun, by rw [Block.grouped]; trivial, by rw [Block.colonsOk]; trivial,
    fun M n m f h => ⟨by rw [h, Block.whiles]; rfl, by simp [Block.breaksOk], by simp [Block.throwsOk],
      by simp [Block.returnsOk]⟩⟩

theorem prod_17 : Prod 17 := by
  intro b ks la σ ws σ1 s v σ2 hb h hr hA ha
  replace h : SemF b [101] ks la σ ws σ1 s := h
  replace h := h.one
  obtain ⟨v1, rfl, ⟨t, rfl, q1, r1, c1, e1⟩, ht1⟩ := h
  actr ha
  refine ⟨.body t, by rw [Block.toks], q1, fun _ => rfl, by rw [Block.grouped]; exact r1, by rw [Block.colonsOk]; exact c1,
    fun M n m f h => ?_⟩
  beta_reduce; rw [Block.whiles, Block.breaksOk, Block.throwsOk, Block.returnsOk]
  exact e1 M n m f h

theorem prod_18 : Prod 18 := by
  intro b ks la σ ws σ1 s v σ2 hb h hr hA ha
  replace h : SemF b [103] ks la σ ws σ1 s := h
  replace h := h.one
  obtain ⟨v1, rfl, ⟨t, rfl, q1, r1, c1, e1⟩, ht1⟩ := h
  actr ha
  refine ⟨.one t, by rw [Body.toks], ?_, by rw [Body.grouped]; exact r1, by rw [Body.colonsOk]; exact c1,
    fun M n m f h => ?_⟩
  · rw [Block.shows]
    refine ⟨[], [v1.stmt], rfl, ?_, fun _ => rfl⟩
    rw [Body.exactly]
    exact ⟨_, rfl, q1⟩
  · beta_reduce; rw [Body.whiles, Body.breaksOk, Body.throwsOk, Body.returnsOk]
    exact e1 M n m f h


theorem checkColon_spec {a a' : Ast} {t : Tok} {l : List Stm} (h : checkColon a t l = .ok a') (he : a'.err = none) :
    a' = a ∧ (t.literal = [':'] → ∀ x, l.getLast? = some x → ∃ n, x = .label n) := by
  unfold checkColon at h
  split at h
  · split at h
    · rename_i h0; injection h with h; exact ⟨h.symm, fun _ x hx => by rw [h0] at hx; cases hx⟩
    · rename_i h0; injection h with h; exact ⟨h.symm, fun _ x hx => by rw [h0] at hx; injection hx with hx; exact ⟨_, hx.symm⟩⟩
    · exact absurd he (error_frame h).2
  · rename_i h0; injection h with h; exact ⟨h.symm, fun h1 => absurd h1 h0⟩

theorem exactly_last_aux : ∀ {b : Body} {l : List Stm}, b.exactly l → ∀ s, b.last = some s → ∃ x, l.getLast? = some x ∧ s.shows x
  | .one s, l, h, s', hs => by
    rw [Body.exactly] at h; rw [Body.last] at hs; injection hs with hs; subst hs
    obtain ⟨x, rfl, hx⟩ := h
    exact ⟨x, rfl, hx⟩
  | .sep b p (.some s), l, h, s', hs => by
    rw [Body.exactly] at h; rw [Body.last] at hs; injection hs with hs; subst hs
    obtain ⟨l1, l2, rfl, h1, h2⟩ := h
    rw [OptStmt.exactly] at h2
    obtain ⟨x, rfl, hx⟩ := h2
    exact ⟨x, by simp, hx⟩
  | .sep .empty p .none, l, h, s', hs => by
    rw [Body.last, Block.last] at hs; cases hs
  | .sep (.body b) p .none, l, h, s', hs => by
    rw [Body.exactly] at h; rw [Body.last, Block.last] at hs
    obtain ⟨l1, l2, rfl, h1, h2⟩ := h
    rw [OptStmt.exactly] at h2; subst h2
    rw [Block.exactly] at h1
    rw [List.append_nil]
    exact exactly_last_aux h1 s' hs

theorem label_shows {s : Stmt} {n : Name} (h : s.shows (.label n)) : s.IsLabel := by
  cases s <;> rw [Stmt.shows] at h
  case expr e => exact ⟨e, n, rfl, h.symm⟩
  case ifS => obtain ⟨_, _, _, h, -⟩ := h; cases h
  case forEach => obtain ⟨_, h, -⟩ := h; cases h
  case forTo => obtain ⟨_, h, -⟩ := h; cases h
  case «while» => obtain ⟨_, h, -⟩ := h; cases h
  case tryS => obtain ⟨_, _, h, -⟩ := h; cases h
  all_goals cases h

theorem block_colon {b : Block} {l : List Stm} (h : b.shows l) (hl : ∀ x, l.getLast? = some x → ∃ n, x = .label n) :
    ∀ s, b.last = some s → s.IsLabel := by
  intro s hs
  cases b with
  | empty => rw [Block.last] at hs; cases hs
  | body b =>
    rw [Block.last] at hs
    rw [Block.shows] at h
    obtain ⟨old, w, rfl, h1, -⟩ := h
    obtain ⟨x, hx, hsx⟩ := exactly_last_aux h1 s hs
    obtain ⟨n, rfl⟩ := hl x (by rw [List.getLast?_append, hx]; rfl)
    exact label_shows hsx

theorem prod_19 : Prod 19 := by
  intro b ks la σ ws σ1 s v σ2 hb h hr hA ha
  replace h : SemF b [102, 129, 109] ks la σ ws σ1 s := h
  replace h := h.uncons
  obtain ⟨k1, l1, v1, vs, τ1, b1, rfl, rfl, ⟨t, rfl, q1, j1, r1, c1, e1⟩, ht1, h⟩ := h
  replace h := h.uncons
  obtain ⟨k2, l2, v2, vs, τ2, b2, rfl, rfl, ⟨rfl, p, rfl, q2⟩, ht2, h⟩ := h
  replace h := h.one
  obtain ⟨v3, rfl, ⟨o, rfl, q3, r3, c3, e3⟩, ht3⟩ := h
  acto ha a a' ha he
  obtain ⟨x, h1, h2⟩ := bind_ok ha
  obtain ⟨hv, rfl⟩ := pair_ok h2
  obtain ⟨rfl, h3⟩ := checkColon_spec h1 he
  have h3 : v2.token.literal = [':'] → ∀ x, v1.opt_body.getLast? = some x → ∃ n, x = .label n := h3
  have hb : v.body = v1.body ++ (if v3.stmt.isNil = true then [] else [v3.stmt]) := by
    rw [hv]
    show SV.body (if v3.stmt.isNil = true then v1 else { v1 with body := v1.body ++ [v3.stmt] }) = _
    split <;> simp
  refine ⟨.sep t p o, by rw [Body.toks]; rfl, ?_, by rw [Body.grouped]; exact ⟨r1, r3⟩, ?_, fun M n m f h => ?_⟩
  · rw [hb, Block.shows]
    cases t with
    | empty =>
      refine ⟨v1.body, _, rfl, ?_, nofun⟩
      rw [Body.exactly]
      exact ⟨[], _, rfl, by rw [Block.exactly], q3⟩
    | body t =>
      rw [j1 nofun]
      rw [Block.shows] at q1
      obtain ⟨old, w, hw, q4, q5⟩ := q1
      refine ⟨old, w ++ (if v3.stmt.isNil = true then [] else [v3.stmt]), by rw [hw, List.append_assoc], ?_, ?_⟩
      · rw [Body.exactly]
        exact ⟨_, _, rfl, by rw [Block.exactly]; exact q4, q3⟩
      · rw [Body.starts]; exact q5
  · rw [Body.colonsOk]
    refine ⟨c1, c3, ?_⟩
    rintro rfl
    exact block_colon q1 (h3 q2)
  · obtain ⟨x1, x2, x3, x4⟩ := e1 M n m f h
    obtain ⟨y1, y2, y3, y4⟩ := e3 _ _ _ _ x1
    beta_reduce; rw [Body.whiles, Body.breaksOk, Body.throwsOk, Body.returnsOk]
    exact ⟨by rw [y1, Nat.add_assoc], ⟨x2, y2⟩, ⟨x3, y3⟩, ⟨x4, y4⟩⟩

theorem prod_20 : Prod 20 := by
  intro b ks la σ ws σ1 s v σ2 hb h hr hA ha
  replace h : SemF b [] ks la σ ws σ1 s := h
  obtain ⟨rfl, rfl, rfl, rfl⟩ := h.unnil
  actr ha
  exact ⟨.none, by rw [OptStmt.toks], by rw [OptStmt.exactly]; rfl, by rw [OptStmt.grouped]; trivial, by rw [OptStmt.colonsOk]; trivial,
    fun M n m f h => ⟨by rw [h, OptStmt.whiles]; rfl, by simp [OptStmt.breaksOk], by simp [OptStmt.throwsOk],
      by simp [OptStmt.returnsOk]⟩⟩

theorem prod_21 : Prod 21 := by
  intro b ks la σ ws σ1 s v σ2 hb h hr hA ha
  replace h : SemF b [103] ks la σ ws σ1 s := h
  replace h := h.one
  obtain ⟨v1, rfl, ⟨t, rfl, q1, r1, c1, e1⟩, ht1⟩ := h
  actr ha
  refine ⟨.some t, by rw [OptStmt.toks], ?_, by rw [OptStmt.grouped]; exact r1, by rw [OptStmt.colonsOk]; exact c1,
    fun M n m f h => ?_⟩
  · show OptStmt.exactly _ (if v1.stmt.isNil = true then [] else [v1.stmt])
    rw [isNil_false (Stmt.shows_ne q1), OptStmt.exactly]
    exact ⟨_, rfl, q1⟩
  · beta_reduce; rw [OptStmt.whiles, OptStmt.breaksOk, OptStmt.throwsOk, OptStmt.returnsOk]
    exact e1 M n m f h

/-! ## Conditions -/

theorem prod_28 : Prod 28 := by
  intro b ks la σ ws σ1 s v σ2 hb h hr hA ha
  replace h : SemF b [12, 111, 13, 102, 107, 108, 16] ks la σ ws σ1 s := h
  replace h := h.uncons
  obtain ⟨k1, l1, v1, vs, τ1, b1, rfl, rfl, g1, ht1, h⟩ := h
  obtain ⟨rfl, rfl, -⟩ := sem_word .kIf (by decide) rfl g1
  replace h := h.uncons
  obtain ⟨k2, l2, v2, vs, τ2, b2, rfl, rfl, ⟨rfl, c, rfl, q2, r2⟩, ht2, h⟩ := h
  replace h := h.uncons
  obtain ⟨k3, l3, v3, vs, τ3, b3, rfl, rfl, g3, ht3, h⟩ := h
  obtain ⟨rfl, rfl, -⟩ := sem_word .kThen (by decide) rfl g3
  replace h := h.uncons
  obtain ⟨k4, l4, v4, vs, τ4, b4, rfl, rfl, ⟨t, rfl, q4, -, r4, c4, e4⟩, ht4, h⟩ := h
  replace h := h.uncons
  obtain ⟨k5, l5, v5, vs, τ5, b5, rfl, rfl, ⟨es, rfl, q5, r5, c5, e5⟩, ht5, h⟩ := h
  replace h := h.uncons
  obtain ⟨k6, l6, v6, vs, τ6, b6, rfl, rfl, ⟨el, rfl, q6, r6, c6, e6⟩, ht6, h⟩ := h
  replace h := h.one
  obtain ⟨v7, rfl, g7, ht7⟩ := h
  obtain ⟨rfl, rfl, -⟩ := sem_word .kEndIf (by decide) rfl g7
  actr ha
  refine ⟨.ifS c t es el, by rw [Stmt.toks]; rfl, ?_, by rw [Stmt.grouped]; exact ⟨r2.grouped, r4, r5, r6⟩,
    by rw [Stmt.colonsOk]; exact ⟨c4, c5, c6⟩, fun M n m f h => ?_⟩
  · rw [Stmt.shows]
    refine ⟨v4.opt_body, v5.opt_elseif_list.reverse, v6.opt_else, ?_, q4, q5, q6⟩
    rw [List.reverse_reverse, ← q2]; rfl
  · obtain ⟨x1, x2, x3, x4⟩ := e4 M n m f h
    obtain ⟨y1, y2, y3, y4⟩ := e5 _ _ _ _ x1
    obtain ⟨z1, z2, z3, z4⟩ := e6 _ _ _ _ y1
    beta_reduce; rw [Stmt.whiles, Stmt.breaksOk, Stmt.throwsOk, Stmt.returnsOk]
    exact ⟨by rw [z1, Nat.add_assoc, Nat.add_assoc, Nat.add_assoc], ⟨x2, y2, z2⟩, ⟨x3, y3, z3⟩, ⟨x4, y4, z4⟩⟩

theorem prod_29 : Prod 29 := by
  intro b ks la σ ws σ1 s v σ2 hb h hr hA ha
  replace h : SemF b [] ks la σ ws σ1 s := h
  obtain ⟨rfl, rfl, rfl, rfl⟩ := h.unnil
  actr ha
  exact ⟨.nil, by rw [Elifs.toks], by rw [Elifs.shows]; rfl, by rw [Elifs.grouped]; trivial, by rw [Elifs.colonsOk]; trivial,
    fun M n m f h => ⟨by rw [h, Elifs.whiles]; rfl, by simp [Elifs.breaksOk], by simp [Elifs.throwsOk],
      by simp [Elifs.returnsOk]⟩⟩

theorem prod_30 : Prod 30 := by
  intro b ks la σ ws σ1 s v σ2 hb h hr hA ha
  replace h : SemF b [14, 111, 13, 102, 107] ks la σ ws σ1 s := h
  replace h := h.uncons
  obtain ⟨k1, l1, v1, vs, τ1, b1, rfl, rfl, g1, ht1, h⟩ := h
  obtain ⟨rfl, rfl, -⟩ := sem_word .kElseIf (by decide) rfl g1
  replace h := h.uncons
  obtain ⟨k2, l2, v2, vs, τ2, b2, rfl, rfl, ⟨rfl, c, rfl, q2, r2⟩, ht2, h⟩ := h
  replace h := h.uncons
  obtain ⟨k3, l3, v3, vs, τ3, b3, rfl, rfl, g3, ht3, h⟩ := h
  obtain ⟨rfl, rfl, -⟩ := sem_word .kThen (by decide) rfl g3
  replace h := h.uncons
  obtain ⟨k4, l4, v4, vs, τ4, b4, rfl, rfl, ⟨t, rfl, q4, -, r4, c4, e4⟩, ht4, h⟩ := h
  replace h := h.one
  obtain ⟨v5, rfl, ⟨es, rfl, q5, r5, c5, e5⟩, ht5⟩ := h
  actr ha
  refine ⟨.cons c t es, by rw [Elifs.toks]; rfl, ?_, by rw [Elifs.grouped]; exact ⟨r2.grouped, r4, r5⟩,
    by rw [Elifs.colonsOk]; exact ⟨c4, c5⟩, fun M n m f h => ?_⟩
  · rw [Elifs.shows]
    refine ⟨v4.opt_body, v5.opt_elseif_list.reverse, ?_, q4, q5⟩
    show (v5.opt_elseif_list ++ [Stm.ifS v2.stmt v4.opt_body [] []]).reverse = _
    rw [q2]; simp
  · obtain ⟨x1, x2, x3, x4⟩ := e4 M n m f h
    obtain ⟨y1, y2, y3, y4⟩ := e5 _ _ _ _ x1
    beta_reduce; rw [Elifs.whiles, Elifs.breaksOk, Elifs.throwsOk, Elifs.returnsOk]
    exact ⟨by rw [y1, Nat.add_assoc], ⟨x2, y2⟩, ⟨x3, y3⟩, ⟨x4, y4⟩⟩

theorem prod_31 : Prod 31 := by
  intro b ks la σ ws σ1 s v σ2 hb h hr hA ha
  replace h : SemF b [] ks la σ ws σ1 s := h
  obtain ⟨rfl, rfl, rfl, rfl⟩ := h.unnil
  actr ha
  exact ⟨.none, by rw [Else.toks], by rw [Else.shows], by rw [Else.grouped]; trivial, by rw [Else.colonsOk]; trivial,
    fun M n m f h => ⟨by rw [h, Else.whiles]; rfl, by simp [Else.breaksOk], by simp [Else.throwsOk],
      by simp [Else.returnsOk]⟩⟩

theorem prod_32 : Prod 32 := by
  intro b ks la σ ws σ1 s v σ2 hb h hr hA ha
  replace h : SemF b [15, 102] ks la σ ws σ1 s := h
  replace h := h.uncons
  obtain ⟨k1, l1, v1, vs, τ1, b1, rfl, rfl, g1, ht1, h⟩ := h
  obtain ⟨rfl, rfl, -⟩ := sem_word .kElse (by decide) rfl g1
  replace h := h.one
  obtain ⟨v2, rfl, ⟨t, rfl, q2, -, r2, c2, e2⟩, ht2⟩ := h
  actr ha
  refine ⟨.some t, by rw [Else.toks]; rfl, by rw [Else.shows]; exact q2, by rw [Else.grouped]; exact r2,
    by rw [Else.colonsOk]; exact c2, fun M n m f h => ?_⟩
  beta_reduce; rw [Else.whiles, Else.breaksOk, Else.throwsOk, Else.returnsOk]
  exact e2 M n m f h

/-! ## Loops and handlers -/

theorem prod_34 : Prod 34 := by
  intro b ks la σ ws σ1 s v σ2 hb h hr hA ha
  replace h : SemF b [] ks la σ ws σ1 s := h
  obtain ⟨rfl, rfl, rfl, rfl⟩ := h.unnil
  acto ha a a' ha he
  obtain ⟨rfl, rfl⟩ := pair_ok ha
  refine ⟨rfl, fun M n m f h => ?_⟩
  obtain ⟨h1, h2, h3, h4⟩ := view_eq h
  show St.mk a.mod (a.isLoop + 1) a.isTry a.isFunc = _
  rw [h1, h2, h3, h4]; rfl

theorem prod_36 : Prod 36 := by
  intro b ks la σ ws σ1 s v σ2 hb h hr hA ha
  replace h : SemF b [] ks la σ ws σ1 s := h
  obtain ⟨rfl, rfl, rfl, rfl⟩ := h.unnil
  acto ha a a' ha he
  obtain ⟨rfl, rfl⟩ := pair_ok ha
  refine ⟨rfl, fun M n m f h => ?_⟩
  obtain ⟨h1, h2, h3, h4⟩ := view_eq h
  show St.mk a.mod (a.isLoop + 1) a.isTry a.isFunc = _
  rw [h1, h2, h3, h4]; rfl

theorem prod_38 : Prod 38 := by
  intro b ks la σ ws σ1 s v σ2 hb h hr hA ha
  replace h : SemF b [] ks la σ ws σ1 s := h
  obtain ⟨rfl, rfl, rfl, rfl⟩ := h.unnil
  acto ha a a' ha he
  obtain ⟨rfl, rfl⟩ := pair_ok ha
  refine ⟨rfl, fun M n m f h => ?_⟩
  obtain ⟨h1, h2, h3, h4⟩ := view_eq h
  show St.mk a.mod (a.isLoop + 1) a.isTry a.isFunc = _
  rw [h1, h2, h3, h4]; rfl

theorem prod_62 : Prod 62 := by
  intro b ks la σ ws σ1 s v σ2 hb h hr hA ha
  replace h : SemF b [] ks la σ ws σ1 s := h
  obtain ⟨rfl, rfl, rfl, rfl⟩ := h.unnil
  acto ha a a' ha he
  obtain ⟨rfl, rfl⟩ := pair_ok ha
  refine ⟨rfl, fun M n m f h => ?_⟩
  obtain ⟨h1, h2, h3, h4⟩ := view_eq h
  show St.mk a.mod a.isLoop (a.isTry + 1) a.isFunc = _
  rw [h1, h2, h3, h4]; rfl

theorem St.dec {a : Ast} {M n k m f} (h : view a = St.at M (n + 1 + k) m f) : view (setLoop a false) = St.at M (n + k) m f := by
  obtain ⟨h1, h2, h3, h4⟩ := view_eq h
  show St.mk a.mod (a.isLoop + -1) a.isTry a.isFunc = _
  rw [h1, h2, h3, h4, St.at]
  congr 1
  push_cast
  omega

theorem St.decTry {a : Ast} {M n m f} (h : view a = St.at M n (m + 1) f) : view (setTry a false) = St.at M n m f := by
  obtain ⟨h1, h2, h3, h4⟩ := view_eq h
  show St.mk a.mod a.isLoop (a.isTry + -1) a.isFunc = _
  rw [h1, h2, h3, h4, St.at]
  congr 1
  push_cast
  omega

theorem prod_35 : Prod 35 := by
  intro b ks la σ ws σ1 s v σ2 hb h hr hA ha
  replace h : SemF b [17, 18, 8, 19, 120, 21, 138, 102, 22] ks la σ ws σ1 s := h
  replace h := h.uncons
  obtain ⟨k1, l1, v1, vs, τ1, b1, rfl, rfl, g1, ht1, h⟩ := h
  obtain ⟨rfl, rfl, -⟩ := sem_word .kFor (by decide) rfl g1
  replace h := h.uncons
  obtain ⟨k2, l2, v2, vs, τ2, b2, rfl, rfl, g2, ht2, h⟩ := h
  obtain ⟨rfl, rfl, -⟩ := sem_word .kEach (by decide) rfl g2
  replace h := h.uncons
  obtain ⟨k3, l3, v3, vs, τ3, b3, rfl, rfl, g3, ht3, h⟩ := h
  obtain ⟨rfl, rfl⟩ := sem_named .ktoken_identifier (by decide) rfl g3
  replace h := h.uncons
  obtain ⟨k4, l4, v4, vs, τ4, b4, rfl, rfl, g4, ht4, h⟩ := h
  obtain ⟨rfl, rfl, -⟩ := sem_word .kIn (by decide) rfl g4
  replace h := h.uncons
  obtain ⟨k5, l5, v5, vs, τ5, b5, rfl, rfl, ⟨rfl, c, rfl, q5, r5⟩, ht5, h⟩ := h
  replace h := h.uncons
  obtain ⟨k6, l6, v6, vs, τ6, b6, rfl, rfl, g6, ht6, h⟩ := h
  obtain ⟨rfl, rfl, -⟩ := sem_word .kLoop (by decide) rfl g6
  replace h := h.uncons
  obtain ⟨k7, l7, v7, vs, τ7, b7, rfl, rfl, ⟨rfl, m7⟩, ht7, h⟩ := h
  replace h := h.uncons
  obtain ⟨k8, l8, v8, vs, τ8, b8, rfl, rfl, ⟨t, rfl, q8, -, r8, c8, e8⟩, ht8, h⟩ := h
  replace h := h.one
  obtain ⟨v9, rfl, g9, ht9⟩ := h
  obtain ⟨rfl, rfl, -⟩ := sem_word .kEndLoop (by decide) rfl g9
  acto ha a a' ha he
  obtain ⟨rfl, rfl⟩ := pair_ok ha
  refine ⟨.forEach v3.token.literal c t, by rw [Stmt.toks]; rfl, ?_, by rw [Stmt.grouped]; exact ⟨r5, r8⟩,
    by rw [Stmt.colonsOk]; exact c8, fun M n m f h => ?_⟩
  · rw [Stmt.shows]
    refine ⟨v8.opt_body, ?_, q8⟩
    rw [← q5]; rfl

  · obtain ⟨x1, x2, x3, x4⟩ := e8 _ _ _ _ (m7 M n m f h)
    beta_reduce; rw [Stmt.whiles, Stmt.breaksOk, Stmt.throwsOk, Stmt.returnsOk]
    exact ⟨St.dec x1, x2, x3, x4⟩

theorem prod_37 : Prod 37 := by
  intro b ks la σ ws σ1 s v σ2 hb h hr hA ha
  replace h : SemF b [17, 111, 20, 111, 21, 139, 102, 22] ks la σ ws σ1 s := h
  replace h := h.uncons
  obtain ⟨k1, l1, v1, vs, τ1, b1, rfl, rfl, g1, ht1, h⟩ := h
  obtain ⟨rfl, rfl, -⟩ := sem_word .kFor (by decide) rfl g1
  replace h := h.uncons
  obtain ⟨k2, l2, v2, vs, τ2, b2, rfl, rfl, ⟨rfl, c, rfl, q2, r2⟩, ht2, h⟩ := h
  replace h := h.uncons
  obtain ⟨k3, l3, v3, vs, τ3, b3, rfl, rfl, g3, ht3, h⟩ := h
  obtain ⟨rfl, rfl, -⟩ := sem_word .kTo (by decide) rfl g3
  replace h := h.uncons
  obtain ⟨k4, l4, v4, vs, τ4, b4, rfl, rfl, ⟨rfl, d, rfl, q4, r4⟩, ht4, h⟩ := h
  replace h := h.uncons
  obtain ⟨k5, l5, v5, vs, τ5, b5, rfl, rfl, g5, ht5, h⟩ := h
  obtain ⟨rfl, rfl, -⟩ := sem_word .kLoop (by decide) rfl g5
  replace h := h.uncons
  obtain ⟨k6, l6, v6, vs, τ6, b6, rfl, rfl, ⟨rfl, m6⟩, ht6, h⟩ := h
  replace h := h.uncons
  obtain ⟨k7, l7, v7, vs, τ7, b7, rfl, rfl, ⟨t, rfl, q7, -, r7, c7, e7⟩, ht7, h⟩ := h
  replace h := h.one
  obtain ⟨v8, rfl, g8, ht8⟩ := h
  obtain ⟨rfl, rfl, -⟩ := sem_word .kEndLoop (by decide) rfl g8
  acto ha a a' ha he
  obtain ⟨rfl, rfl⟩ := pair_ok ha
  refine ⟨.forTo c d t, by rw [Stmt.toks]; rfl, ?_, by rw [Stmt.grouped]; exact ⟨r2.grouped, r4.grouped, r7⟩,
    by rw [Stmt.colonsOk]; exact c7, fun M n m f h => ?_⟩
  · rw [Stmt.shows]
    refine ⟨v7.opt_body, ?_, q7⟩
    rw [← q2, ← q4]; rfl

  · obtain ⟨x1, x2, x3, x4⟩ := e7 _ _ _ _ (m6 M n m f h)
    beta_reduce; rw [Stmt.whiles, Stmt.breaksOk, Stmt.throwsOk, Stmt.returnsOk]
    exact ⟨St.dec x1, x2, x3, x4⟩

theorem prod_39 : Prod 39 := by
  intro b ks la σ ws σ1 s v σ2 hb h hr hA ha
  replace h : SemF b [26, 111, 21, 140, 102, 22] ks la σ ws σ1 s := h
  replace h := h.uncons
  obtain ⟨k1, l1, v1, vs, τ1, b1, rfl, rfl, g1, ht1, h⟩ := h
  obtain ⟨rfl, rfl, -⟩ := sem_word .kWhile (by decide) rfl g1
  replace h := h.uncons
  obtain ⟨k2, l2, v2, vs, τ2, b2, rfl, rfl, ⟨rfl, c, rfl, q2, r2⟩, ht2, h⟩ := h
  replace h := h.uncons
  obtain ⟨k3, l3, v3, vs, τ3, b3, rfl, rfl, g3, ht3, h⟩ := h
  obtain ⟨rfl, rfl, -⟩ := sem_word .kLoop (by decide) rfl g3
  replace h := h.uncons
  obtain ⟨k4, l4, v4, vs, τ4, b4, rfl, rfl, ⟨rfl, m4⟩, ht4, h⟩ := h
  replace h := h.uncons
  obtain ⟨k5, l5, v5, vs, τ5, b5, rfl, rfl, ⟨t, rfl, q5, -, r5, c5, e5⟩, ht5, h⟩ := h
  replace h := h.one
  obtain ⟨v6, rfl, g6, ht6⟩ := h
  obtain ⟨rfl, rfl, -⟩ := sem_word .kEndLoop (by decide) rfl g6
  actr ha
  refine ⟨.while c t, by rw [Stmt.toks]; rfl, ?_, by rw [Stmt.grouped]; exact ⟨r2.grouped, r5⟩,
    by rw [Stmt.colonsOk]; exact c5, fun M n m f h => ?_⟩
  · rw [Stmt.shows]
    refine ⟨v5.opt_body, ?_, q5⟩
    rw [← q2]; rfl
  · obtain ⟨x1, x2, x3, x4⟩ := e5 _ _ _ _ (m4 M n m f h)
    beta_reduce; rw [Stmt.whiles, Stmt.breaksOk, Stmt.throwsOk, Stmt.returnsOk]
    exact ⟨by rw [x1, Nat.add_assoc], x2, x3, x4⟩

theorem prod_63 : Prod 63 := by
  intro b ks la σ ws σ1 s v σ2 hb h hr hA ha
  replace h : SemF b [29, 102, 30, 142, 102, 31] ks la σ ws σ1 s := h
  replace h := h.uncons
  obtain ⟨k1, l1, v1, vs, τ1, b1, rfl, rfl, g1, ht1, h⟩ := h
  obtain ⟨rfl, rfl, -⟩ := sem_word .kTry (by decide) rfl g1
  replace h := h.uncons
  obtain ⟨k2, l2, v2, vs, τ2, b2, rfl, rfl, ⟨t, rfl, q2, -, r2, c2, e2⟩, ht2, h⟩ := h
  replace h := h.uncons
  obtain ⟨k3, l3, v3, vs, τ3, b3, rfl, rfl, g3, ht3, h⟩ := h
  obtain ⟨rfl, rfl, -⟩ := sem_word .kCatch (by decide) rfl g3
  replace h := h.uncons
  obtain ⟨k4, l4, v4, vs, τ4, b4, rfl, rfl, ⟨rfl, m4⟩, ht4, h⟩ := h
  replace h := h.uncons
  obtain ⟨k5, l5, v5, vs, τ5, b5, rfl, rfl, ⟨u, rfl, q5, -, r5, c5, e5⟩, ht5, h⟩ := h
  replace h := h.one
  obtain ⟨v6, rfl, g6, ht6⟩ := h
  obtain ⟨rfl, rfl, -⟩ := sem_word .kEndTry (by decide) rfl g6
  acto ha a a' ha he
  obtain ⟨rfl, rfl⟩ := pair_ok ha
  refine ⟨.tryS t u, by rw [Stmt.toks]; rfl, ?_, by rw [Stmt.grouped]; exact ⟨r2, r5⟩,
    by rw [Stmt.colonsOk]; exact ⟨c2, c5⟩, fun M n m f h => ?_⟩
  · rw [Stmt.shows]
    exact ⟨v2.opt_body, v5.opt_body, rfl, q2, q5⟩
  · obtain ⟨x1, x2, x3, x4⟩ := e2 _ _ _ _ h
    obtain ⟨y1, y2, y3, y4⟩ := e5 _ _ _ _ (m4 _ _ _ _ x1)
    beta_reduce; rw [Stmt.whiles, Stmt.breaksOk, Stmt.throwsOk, Stmt.returnsOk]
    exact ⟨by rw [St.decTry y1, Nat.add_assoc], ⟨x2, y2⟩, ⟨x3, y3⟩, ⟨x4, y4⟩⟩

/-! ## Statements -/

theorem prod_44 : Prod 44 := by
  intro b ks la σ ws σ1 s v σ2 hb h hr hA ha
  replace h : SemF b [119, 40, 111] ks la σ ws σ1 s := h
  replace h := h.uncons
  obtain ⟨k1, l1, v1, vs, τ1, b1, rfl, rfl, ⟨rfl, p, rfl, q1, r1⟩, ht1, h⟩ := h
  replace h := h.uncons
  obtain ⟨k2, l2, v2, vs, τ2, b2, rfl, rfl, g2, ht2, h⟩ := h
  obtain ⟨rfl, rfl, -⟩ := sem_word .kEQUAL (by decide) rfl g2
  replace h := h.one
  obtain ⟨v3, rfl, ⟨rfl, c, rfl, q3, r3⟩, ht3⟩ := h
  actr ha
  refine ⟨.assign p c, by rw [Stmt.toks]; rfl, ?_, by rw [Stmt.grouped]; exact ⟨r1, r3.grouped⟩,
    by simp [Stmt.colonsOk], fun M n m f h => ⟨by rw [h]; simp [Stmt.whiles], by simp [Stmt.breaksOk], by simp [Stmt.throwsOk], by simp [Stmt.returnsOk]⟩⟩
  rw [Stmt.shows, ← q1, ← q3]; rfl


theorem tab_stmt_goto : ∀ b, b < nStates → ∀ s, trans b 111 = some s → 45 ∈ reds s → (follow b [119, 40]).isSome = true := by
  have h : ∀ b, b < nStates → (match trans b 111 with | some s => !(reds s).contains 45 || (follow b [119, 40]).isSome | none => true) = true := by
    decide +kernel
  intro b hb s hs hr
  have := h b hb
  rw [hs] at this
  simpa [hr] using this

theorem prod_45 : Prod 45 := by
  intro b ks la σ ws σ1 s v σ2 hb h hr hA ha
  replace h : SemF b [111] ks la σ ws σ1 s := h
  replace h := h.one
  obtain ⟨v1, rfl, ⟨rfl, c, rfl, q1, r1⟩, ht1⟩ := h
  actr ha
  refine ⟨.expr c, by rw [Stmt.toks], ?_, ?_, by simp [Stmt.colonsOk], fun M n m f h => ⟨by rw [h]; simp [Stmt.whiles], by simp [Stmt.breaksOk], by simp [Stmt.throwsOk], by simp [Stmt.returnsOk]⟩⟩
  · rw [Stmt.shows, ← q1]; rfl
  · rw [Stmt.grouped]
    refine ⟨r1.grouped, r1.noAssign ?_⟩
    have := tab_stmt_goto b hb s ht1 hr
    intro h0; rw [h0] at this; cases this

theorem prod_46 : Prod 46 := by
  intro b ks la σ ws σ1 s v σ2 hb h hr hA ha
  replace h : SemF b [106] ks la σ ws σ1 s := h
  replace h := h.one
  obtain ⟨v1, rfl, ⟨t, rfl, q1, r1, c1, e1⟩, ht1⟩ := h
  actr ha
  exact ⟨t, rfl, q1, r1, c1, e1⟩

theorem prod_47 : Prod 47 := by
  intro b ks la σ ws σ1 s v σ2 hb h hr hA ha
  replace h : SemF b [104] ks la σ ws σ1 s := h
  replace h := h.one
  obtain ⟨v1, rfl, ⟨t, rfl, q1, r1, c1, e1⟩, ht1⟩ := h
  actr ha
  exact ⟨t, rfl, q1, r1, c1, e1⟩

theorem prod_48 : Prod 48 := by
  intro b ks la σ ws σ1 s v σ2 hb h hr hA ha
  replace h : SemF b [126] ks la σ ws σ1 s := h
  replace h := h.one
  obtain ⟨v1, rfl, ⟨t, rfl, q1, r1, c1, e1⟩, ht1⟩ := h
  actr ha
  exact ⟨t, rfl, q1, r1, c1, e1⟩

theorem checkLoop_spec {a a' : Ast} {t : Tok} (h : checkLoop a t = .ok a') (he : a'.err = none) : a' = a ∧ a.isLoop ≠ 0 := by
  unfold checkLoop at h
  split at h
  · exact absurd he (error_frame h).2
  · injection h with h; exact ⟨h.symm, by assumption⟩

theorem checkThrow_spec {a a' : Ast} {t : Tok} {x : Stm} (h : checkThrow a t x = .ok a') (he : a'.err = none) :
    a' = a ∧ (x.isNil = true → a.isTry ≠ 0) := by
  unfold checkThrow at h
  split at h
  · exact absurd he (error_frame h).2
  · rename_i h0; injection h with h; exact ⟨h.symm, fun h1 h2 => h0 ⟨h2, h1⟩⟩

theorem checkReturn_spec {a a' : Ast} {x : Stm} (h : checkReturn a x = .ok a') (he : a'.err = none) :
    a' = a ∧ (x.isNil = false → a.isFunc = true) := by
  unfold checkReturn at h
  split at h
  · exact absurd he (error_frame h).2
  · rename_i h0; injection h with h
    refine ⟨h.symm, fun h1 => ?_⟩
    cases hf : a.isFunc with
    | true => rfl
    | false => exact absurd ⟨by rw [hf]; rfl, by rw [h1]; rfl⟩ h0

theorem prod_49 : Prod 49 := by
  intro b ks la σ ws σ1 s v σ2 hb h hr hA ha
  replace h : SemF b [28] ks la σ ws σ1 s := h
  replace h := h.one
  obtain ⟨v1, rfl, g1, ht1⟩ := h
  obtain ⟨rfl, rfl, -⟩ := sem_word .kContinue (by decide) rfl g1
  acto ha a a' ha he
  obtain ⟨x, h1, h2⟩ := bind_ok ha
  obtain ⟨rfl, rfl⟩ := pair_ok h2
  obtain ⟨rfl, h0⟩ := checkLoop_spec h1 he
  refine ⟨.cont, by rw [Stmt.toks], by rw [Stmt.shows], by rw [Stmt.grouped]; trivial, by simp [Stmt.colonsOk], fun M n m f h => ?_⟩
  refine ⟨by rw [h]; simp [Stmt.whiles], ?_, by simp [Stmt.throwsOk], by simp [Stmt.returnsOk]⟩
  beta_reduce; rw [Stmt.breaksOk]
  obtain ⟨-, h2, -⟩ := view_eq h
  omega

theorem prod_50 : Prod 50 := by
  intro b ks la σ ws σ1 s v σ2 hb h hr hA ha
  replace h : SemF b [23] ks la σ ws σ1 s := h
  replace h := h.one
  obtain ⟨v1, rfl, g1, ht1⟩ := h
  obtain ⟨rfl, rfl, -⟩ := sem_word .kBreak (by decide) rfl g1
  acto ha a a' ha he
  obtain ⟨x, h1, h2⟩ := bind_ok ha
  obtain ⟨rfl, rfl⟩ := pair_ok h2
  obtain ⟨rfl, h0⟩ := checkLoop_spec h1 he
  refine ⟨.brk, by rw [Stmt.toks], by rw [Stmt.shows], by rw [Stmt.grouped]; trivial, by simp [Stmt.colonsOk], fun M n m f h => ?_⟩
  refine ⟨by rw [h]; simp [Stmt.whiles], ?_, by simp [Stmt.throwsOk], by simp [Stmt.returnsOk]⟩
  beta_reduce; rw [Stmt.breaksOk]
  obtain ⟨-, h2, -⟩ := view_eq h
  omega

theorem prod_51 : Prod 51 := by
  intro b ks la σ ws σ1 s v σ2 hb h hr hA ha
  replace h : SemF b [38, 117] ks la σ ws σ1 s := h
  replace h := h.uncons
  obtain ⟨k1, l1, v1, vs, τ1, b1, rfl, rfl, g1, ht1, h⟩ := h
  obtain ⟨rfl, rfl, -⟩ := sem_word .kThrow (by decide) rfl g1
  replace h := h.one
  obtain ⟨v2, rfl, ⟨rfl, c, rfl, q2, r2⟩, ht2⟩ := h
  acto ha a a' ha he
  obtain ⟨x, h1, h2⟩ := bind_ok ha
  obtain ⟨rfl, rfl⟩ := pair_ok h2
  obtain ⟨rfl, h0⟩ := checkThrow_spec h1 he
  have h0 : v2.stmt.isNil = _ → _ := h0
  refine ⟨.throw c, by rw [Stmt.toks]; rfl, by rw [Stmt.shows, ← q2]; rfl, by rw [Stmt.grouped]; exact r2, by simp [Stmt.colonsOk], fun M n m f h => ?_⟩
  obtain ⟨-, -, h4, h5⟩ := view_eq h
  refine ⟨by rw [h]; simp [Stmt.whiles], by simp [Stmt.breaksOk], ?_, by simp [Stmt.returnsOk]⟩
  cases c with
  | none =>
    rw [Stmt.throwsOk]
    have := h0 (by rw [q2, OptExpr.tree]; rfl)
    omega
  | some _ => simp [Stmt.throwsOk]

theorem prod_52 : Prod 52 := by
  intro b ks la σ ws σ1 s v σ2 hb h hr hA ha
  replace h : SemF b [37, 117] ks la σ ws σ1 s := h
  replace h := h.uncons
  obtain ⟨k1, l1, v1, vs, τ1, b1, rfl, rfl, g1, ht1, h⟩ := h
  obtain ⟨rfl, rfl, -⟩ := sem_word .kReturn (by decide) rfl g1
  replace h := h.one
  obtain ⟨v2, rfl, ⟨rfl, c, rfl, q2, r2⟩, ht2⟩ := h
  acto ha a a' ha he
  obtain ⟨x, h1, h2⟩ := bind_ok ha
  obtain ⟨rfl, rfl⟩ := pair_ok h2
  obtain ⟨rfl, h0⟩ := checkReturn_spec h1 he
  have h0 : v2.stmt.isNil = _ → _ := h0
  refine ⟨.ret c, by rw [Stmt.toks]; rfl, by rw [Stmt.shows, ← q2]; rfl, by rw [Stmt.grouped]; exact r2, by simp [Stmt.colonsOk], fun M n m f h => ?_⟩
  obtain ⟨-, -, h4, h5⟩ := view_eq h
  refine ⟨by rw [h]; simp [Stmt.whiles], by simp [Stmt.breaksOk], by simp [Stmt.throwsOk], ?_⟩
  cases c with
  | none => simp [Stmt.returnsOk]
  | some c =>
    rw [Stmt.returnsOk, ← h5]
    exact h0 (by rw [q2, OptExpr.tree]; exact isNil_false (Expr.tree_ne c))

end Verif.LR
