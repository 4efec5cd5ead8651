import Verif.Proofs.LR.KitExpr
/-! Completeness: actions of the productions for statements. -/
namespace Verif.LR
open Tables Spec Lexer

theorem Adds.of {w : Nat} {M n m f} {σ' : St} (h : σ' = St.at M (n + w) m f) : Adds w (St.at M n m f) σ' := by
  intro M' n' m' f' h1
  unfold St.at at h1
  injection h1 with a1 a2 a3 a4
  have a2 := Int.ofNat.inj a2
  have a3 := Int.ofNat.inj a3
  subst a1; subst a2; subst a3; subst a4
  exact h

theorem Adds.zero (σ : St) : Adds 0 σ σ := fun _ _ _ _ h => h

theorem view_setLoop_true {a : Ast} {M n m f} (h : view a = St.at M n m f) : view (setLoop a true) = St.at M (n + 1) m f := by
  obtain ⟨h1, h2, h3, h4⟩ := view_eq h
  unfold view setLoop St.at
  simp [h1, h2, h3, h4]

theorem view_setLoop_false {a : Ast} {M} {n m : Nat} {f} (h : view a = St.at M (n + 1) m f) : view (setLoop a false) = St.at M n m f := by
  obtain ⟨h1, h2, h3, h4⟩ := view_eq h
  unfold view setLoop St.at
  simp [h1, h2, h3, h4]

theorem view_setTry_true {a : Ast} {M n m f} (h : view a = St.at M n m f) : view (setTry a true) = St.at M n (m + 1) f := by
  obtain ⟨h1, h2, h3, h4⟩ := view_eq h
  unfold view setTry St.at
  simp [h1, h2, h3, h4]

theorem view_setTry_false {a : Ast} {M} {n m : Nat} {f} (h : view a = St.at M n (m + 1) f) : view (setTry a false) = St.at M n m f := by
  obtain ⟨h1, h2, h3, h4⟩ := view_eq h
  unfold view setTry St.at
  simp [h1, h2, h3, h4]

/-- Everything but the evaluation. -/
macro "kits" : tactic => `(tactic|
  refine ⟨by decide, by decide, by simp only [List.map_cons, List.map_nil, root_word, root_named, root_ident, root_literal]; rfl, rfl,
    by simp [Syn.toks, catL, Expr.toks, Stmt.toks, Elifs.toks, Else.toks, Block.toks, Body.toks, OptStmt.toks, Spec.ident, Sep.tok], rfl, ?_⟩)

/-! ## Separators -/

theorem kit_109 : Kit 109 [.tok (word .semi)] .semi := by
  kits
  intro σ _
  refine ⟨trivial, fun v1 σ1 h1 => ?_⟩
  obtain ⟨rfl, x, h1, h2, h3⟩ := h1
  rintro junk a rfl
  exact ⟨_, _, rfl, rfl, rfl, by show v1.token.literal = _; rw [h3]; exact key_semi h1 h2⟩

theorem kit_110 : Kit 110 [.tok (word .colon)] .colon := by
  kits
  intro σ _
  refine ⟨trivial, fun v1 σ1 h1 => ?_⟩
  obtain ⟨rfl, x, h1, h2, h3⟩ := h1
  rintro junk a rfl
  exact ⟨_, _, rfl, rfl, rfl, by show v1.token.literal = _; rw [h3]; exact key_colon h1 h2⟩

theorem kit_22 : Kit 22 [.semi] (.sep .semi) := by
  kits; pure1
  exact h1

theorem kit_23 : Kit 23 [.colon] (.sep .colon) := by
  kits; pure1
  exact h1

/-! ## Blocks -/

theorem kit_16 : Kit 16 [] (.block .empty) := by
  kits
  intro σ _
  rintro junk a rfl
  exact ⟨_, _, rfl, rfl, by rw [Block.shows], fun h => absurd rfl h, by rw [Block.whiles]; exact Adds.zero _⟩

theorem kit_17 (b : Body) : Kit 17 [.body b] (.block (.body b)) := by
  kits
  intro σ hw
  obtain ⟨hc, hcol, M, n, m, f, rfl, hb, ht, hr⟩ := hw
  simp only [Block.tidy, Block.colonsOk, Block.breaksOk, Block.throwsOk, Block.returnsOk] at hc hcol hb ht hr
  refine ⟨⟨hc, hcol, M, n, m, f, rfl, hb, ht, hr⟩, fun v1 σ1 h1 => ?_⟩
  obtain ⟨h1, h2⟩ := h1
  rintro junk a rfl
  refine ⟨_, _, rfl, rfl, ?_, fun _ => ?_, ?_⟩
  · exact h1
  · rfl
  · rw [Block.whiles]; exact h2

theorem kit_18 (s : Stmt) : Kit 18 [.stmt s] (.body (.one s)) := by
  kits
  intro σ hw
  obtain ⟨hc, hcol, M, n, m, f, rfl, hb, ht, hr⟩ := hw
  simp only [Body.tidy, Body.colonsOk, Body.breaksOk, Body.throwsOk, Body.returnsOk] at hc hcol hb ht hr
  refine ⟨⟨hc, hcol, M, n, m, f, rfl, hb, ht, hr⟩, fun v1 σ1 h1 => ?_⟩
  obtain ⟨h1, h2⟩ := h1
  rintro junk a rfl
  refine ⟨_, _, rfl, rfl, ?_, ?_⟩
  · show (Block.body (.one s)).shows [v1.stmt]
    rw [Block.shows]
    refine ⟨[], _, rfl, ?_, fun _ => rfl⟩
    rw [Body.exactly]
    exact ⟨_, rfl, h1⟩
  · rw [Body.whiles]; exact h2

theorem checkColon_ok {a : Ast} {t : Tok} {l : List Stm} (h : t.literal = [':'] → ∀ x, l.getLast? = some x → ∃ n, x = .label n) :
    checkColon a t l = .ok a := by
  unfold checkColon
  split
  · rename_i h0
    cases hl : l.getLast? with
    | none => rfl
    | some x =>
      obtain ⟨n, rfl⟩ := h h0 x hl
      rfl
  · rfl

theorem keep_body (x : Stm) (w : SV) :
    (if x.isNil then w else { w with body := w.body ++ [x] }).body = w.body ++ (if x.isNil then [] else [x]) := by
  split <;> simp

/-- Appending to a block. -/
theorem Block.shows_sep {b : Block} {p : Sep} {o : OptStmt} {l l' k : List Stm} (h : b.shows l) (hk : b ≠ .empty → k = l) (ho : o.exactly l') :
    (Block.body (.sep b p o)).shows (k ++ l') := by
  rw [Block.shows]
  cases b with
  | empty =>
    refine ⟨k, l', rfl, ?_, fun h => by rw [Body.starts] at h; cases h⟩
    rw [Body.exactly]
    exact ⟨[], l', rfl, by rw [Block.exactly], ho⟩
  | body b =>
    rw [hk nofun]
    rw [Block.shows] at h
    obtain ⟨old, w, rfl, h1, h2⟩ := h
    refine ⟨old, w ++ l', List.append_assoc _ _ _, ?_, fun h => by rw [Body.starts] at h; exact h2 h⟩
    rw [Body.exactly]
    exact ⟨w, l', rfl, by rw [Block.exactly]; exact h1, ho⟩

theorem label_of_shows {s : Stmt} {x : Stm} (h : s.shows x) (hl : s.IsLabel) : ∃ n, x = .label n := by
  obtain ⟨e, n, rfl, hn⟩ := hl
  rw [Stmt.shows, hn] at h
  exact ⟨n, h⟩

theorem colon_ok {b : Block} {l : List Stm} (h : b.shows l) (ht : b = .empty ∨ b.last ≠ none) (hl : ∀ x, b.last = some x → x.IsLabel) :
    ∀ x, l.getLast? = some x → ∃ n, x = .label n := by
  intro x hx
  cases b with
  | empty => rw [Block.shows] at h; subst h; cases hx
  | body b =>
    have ht := ht.resolve_left nofun
    rw [Block.last] at ht hl
    obtain ⟨s, hs⟩ := Option.ne_none_iff_exists'.1 ht
    rw [Block.shows] at h
    obtain ⟨old, w, rfl, h1, -⟩ := h
    obtain ⟨y, hy, hsy⟩ := exactly_last_aux h1 s hs
    rw [List.getLast?_append, hy] at hx
    injection hx with hx
    subst hx
    exact label_of_shows hsy (hl s hs)

theorem kit_19 (b : Block) (p : Sep) (o : OptStmt) : Kit 19 [.block b, .sep p, .optStmt o] (.body (.sep b p o)) := by
  kits
  intro σ hw
  obtain ⟨hc, hcol, M, n, m, f, rfl, hb, ht, hr⟩ := hw
  simp only [Body.tidy, Body.colonsOk, Body.breaksOk, Body.throwsOk, Body.returnsOk] at hc hcol hb ht hr
  refine ⟨⟨hc.1, hcol.1, M, n, m, f, rfl, hb.1, ht.1, hr.1⟩, fun v1 σ1 h1 => ⟨trivial, fun v2 σ2 h2 => ?_⟩⟩
  obtain ⟨q1, q2, q3⟩ := h1
  have h1 := q3 _ _ _ _ rfl
  subst h1
  have h2' : σ2 = St.at M (n + b.whiles) m f ∧ (v2.token.literal = [':'] → p = .colon) := by
    cases p with
    | semi => exact ⟨h2.1, fun h => by rw [h2.2] at h; exact absurd h (by decide)⟩
    | colon => exact ⟨h2.1, fun _ => rfl⟩
  obtain ⟨rfl, hp⟩ := h2'
  refine ⟨⟨hc.2.1, hcol.2.1, M, _, m, f, rfl, hb.2, ht.2, hr.2⟩, fun v3 σ3 h3 => ?_⟩
  obtain ⟨h3, h4⟩ := h3
  have h5 := h4 _ _ _ _ rfl
  subst h5
  intro junk a hv
  have hcc : checkColon a v2.token v1.opt_body = .ok a :=
    checkColon_ok fun hl => colon_ok q1 (hc.2.2 (hp hl)) (hcol.2.2 (hp hl))
  refine ⟨if v3.stmt.isNil then v1 else { v1 with body := v1.body ++ [v3.stmt] }, a, ?_, rfl, ?_, ?_⟩
  · show (do .ok (_, ← checkColon a v2.token v1.opt_body)) = _
    rw [hcc]; rfl
  · rw [keep_body]; exact Block.shows_sep q1 q2 h3
  · refine Adds.of ?_
    rw [hv, Body.whiles, Nat.add_assoc]

theorem kit_20 : Kit 20 [] (.optStmt .none) := by
  kits
  intro σ _
  rintro junk a rfl
  exact ⟨_, _, rfl, rfl, by rw [OptStmt.exactly]; rfl, by rw [OptStmt.whiles]; exact Adds.zero _⟩

theorem kit_21 (s : Stmt) : Kit 21 [.stmt s] (.optStmt (.some s)) := by
  kits
  intro σ hw
  obtain ⟨hc, hcol, M, n, m, f, rfl, hb, ht, hr⟩ := hw
  simp only [OptStmt.tidy, OptStmt.colonsOk, OptStmt.breaksOk, OptStmt.throwsOk, OptStmt.returnsOk] at hc hcol hb ht hr
  refine ⟨⟨hc, hcol, M, n, m, f, rfl, hb, ht, hr⟩, fun v1 σ1 h1 => ?_⟩
  obtain ⟨h1, h2⟩ := h1
  rintro junk a rfl
  refine ⟨_, _, rfl, rfl, ?_, ?_⟩
  · show (OptStmt.some s).exactly (if v1.stmt.isNil then [] else [v1.stmt])
    rw [isNil_false (Stmt.shows_ne h1), OptStmt.exactly]; exact ⟨_, rfl, h1⟩
  · rw [OptStmt.whiles]; exact h2

/-! ## Conditions -/

theorem kit_28 (c : Expr) (t : Block) (es : Elifs) (e : Else) :
    Kit 28 [.tok (word .kIf), .expr c, .tok (word .kThen), .block t, .elifs es, .els e, .tok (word .kEndIf)] (.ifS (.ifS c t es e)) := by
  kits
  intro σ hw
  obtain ⟨hc, hcol, M, n, m, f, rfl, hb, ht, hr⟩ := hw
  simp only [Stmt.tidy, Stmt.colonsOk, Stmt.breaksOk, Stmt.throwsOk, Stmt.returnsOk] at hc hcol hb ht hr
  refine ⟨trivial, fun v1 σ1 h1 => ⟨trivial, fun v2 σ2 h2 => ⟨trivial, fun v3 σ3 h3 => ?_⟩⟩⟩
  obtain ⟨rfl, -⟩ := h1
  obtain ⟨rfl, h2⟩ := h2
  obtain ⟨rfl, -⟩ := h3
  refine ⟨⟨hc.1, hcol.1, M, n, m, f, rfl, hb.1, ht.1, hr.1⟩, fun v4 σ4 h4 => ?_⟩
  obtain ⟨h4, -, h4'⟩ := h4
  have e4 := h4' _ _ _ _ rfl
  subst e4
  refine ⟨⟨hc.2.1, hcol.2.1, M, _, m, f, rfl, hb.2.1, ht.2.1, hr.2.1⟩, fun v5 σ5 h5 => ?_⟩
  obtain ⟨h5, h5'⟩ := h5
  have e5 := h5' _ _ _ _ rfl
  subst e5
  refine ⟨⟨hc.2.2, hcol.2.2, M, _, m, f, rfl, hb.2.2, ht.2.2, hr.2.2⟩, fun v6 σ6 h6 => ?_⟩
  obtain ⟨h6, h6'⟩ := h6
  have e6 := h6' _ _ _ _ rfl
  subst e6
  refine ⟨trivial, fun v7 σ7 h7 => ?_⟩
  obtain ⟨rfl, -⟩ := h7
  intro junk a hv
  refine ⟨_, _, rfl, rfl, ?_, ?_⟩
  · show (Stmt.ifS c t es e).shows (Stm.ifS v2.stmt v4.opt_body v5.opt_elseif_list v6.opt_else)
    obtain ⟨l, h5, h5''⟩ := h5
    rw [h2, h5, Stmt.shows]
    exact ⟨_, _, _, rfl, h4, h5'', h6⟩
  · refine Adds.of ?_
    rw [hv, Stmt.whiles]; simp only [Nat.add_assoc]

theorem kit_29 : Kit 29 [] (.elifs .nil) := by
  kits
  intro σ _
  rintro junk a rfl
  exact ⟨_, _, rfl, rfl, ⟨[], rfl, by rw [Elifs.shows]⟩, by rw [Elifs.whiles]; exact Adds.zero _⟩

theorem kit_30 (c : Expr) (t : Block) (r : Elifs) :
    Kit 30 [.tok (word .kElseIf), .expr c, .tok (word .kThen), .block t, .elifs r] (.elifs (.cons c t r)) := by
  kits
  intro σ hw
  obtain ⟨hc, hcol, M, n, m, f, rfl, hb, ht, hr⟩ := hw
  simp only [Elifs.tidy, Elifs.colonsOk, Elifs.breaksOk, Elifs.throwsOk, Elifs.returnsOk] at hc hcol hb ht hr
  refine ⟨trivial, fun v1 σ1 h1 => ⟨trivial, fun v2 σ2 h2 => ⟨trivial, fun v3 σ3 h3 => ?_⟩⟩⟩
  obtain ⟨rfl, -⟩ := h1
  obtain ⟨rfl, h2⟩ := h2
  obtain ⟨rfl, -⟩ := h3
  refine ⟨⟨hc.1, hcol.1, M, n, m, f, rfl, hb.1, ht.1, hr.1⟩, fun v4 σ4 h4 => ?_⟩
  obtain ⟨h4, -, h4'⟩ := h4
  have e4 := h4' _ _ _ _ rfl
  subst e4
  refine ⟨⟨hc.2, hcol.2, M, _, m, f, rfl, hb.2, ht.2, hr.2⟩, fun v5 σ5 h5 => ?_⟩
  obtain ⟨h5, h5'⟩ := h5
  have e5 := h5' _ _ _ _ rfl
  subst e5
  intro junk a hv
  refine ⟨_, _, rfl, rfl, ?_, ?_⟩
  · obtain ⟨l, h5, h5''⟩ := h5
    refine ⟨Stm.ifS c.tree v4.opt_body [] [] :: l, ?_, ?_⟩
    · show v5.opt_elseif_list ++ [Stm.ifS v2.stmt v4.opt_body [] []] = _
      rw [h2, h5, List.reverse_cons]
    · rw [Elifs.shows]; exact ⟨_, _, rfl, h4, h5''⟩
  · refine Adds.of ?_
    rw [hv, Elifs.whiles]; simp only [Nat.add_assoc]

theorem kit_31 : Kit 31 [] (.els .none) := by
  kits
  intro σ _
  rintro junk a rfl
  exact ⟨_, _, rfl, rfl, by rw [Else.shows], by rw [Else.whiles]; exact Adds.zero _⟩

theorem kit_32 (b : Block) : Kit 32 [.tok (word .kElse), .block b] (.els (.some b)) := by
  kits
  intro σ hw
  obtain ⟨hc, hcol, M, n, m, f, rfl, hb, ht, hr⟩ := hw
  simp only [Else.tidy, Else.colonsOk, Else.breaksOk, Else.throwsOk, Else.returnsOk] at hc hcol hb ht hr
  refine ⟨trivial, fun v1 σ1 h1 => ?_⟩
  obtain ⟨rfl, -⟩ := h1
  refine ⟨⟨hc, hcol, M, n, m, f, rfl, hb, ht, hr⟩, fun v2 σ2 h2 => ?_⟩
  obtain ⟨h2, -, h2'⟩ := h2
  rintro junk a rfl
  refine ⟨_, _, rfl, rfl, ?_, ?_⟩
  · show (Else.some b).shows v2.opt_body
    rw [Else.shows]; exact h2
  · rw [Else.whiles]; exact h2'

/-! ## Loops -/

theorem kit_34 : Kit 34 [] (.mid 138) := by
  kits
  intro σ _ junk a hv
  refine ⟨_, _, rfl, rfl, ?_⟩
  intro M n m f h
  rw [h] at hv
  exact view_setLoop_true hv

theorem kit_36 : Kit 36 [] (.mid 139) := by
  kits
  intro σ _ junk a hv
  refine ⟨_, _, rfl, rfl, ?_⟩
  intro M n m f h
  rw [h] at hv
  exact view_setLoop_true hv

theorem kit_38 : Kit 38 [] (.mid 140) := by
  kits
  intro σ _ junk a hv
  refine ⟨_, _, rfl, rfl, ?_⟩
  intro M n m f h
  rw [h] at hv
  exact view_setLoop_true hv

theorem kit_35 (x : Name) (s : Source) (b : Block) :
    Kit 35 [.tok (word .kFor), .tok (word .kEach), .tok (ident x), .tok (word .kIn), .source s, .tok (word .kLoop), .mid 138, .block b,
      .tok (word .kEndLoop)] (.loop (.forEach x s b)) := by
  kits
  intro σ hw
  obtain ⟨hc, hcol, M, n, m, f, rfl, hb, ht, hr⟩ := hw
  simp only [Stmt.tidy, Stmt.colonsOk, Stmt.breaksOk, Stmt.throwsOk, Stmt.returnsOk] at hc hcol hb ht hr
  refine ⟨trivial, fun v1 σ1 h1 => ⟨trivial, fun v2 σ2 h2 => ⟨trivial, fun v3 σ3 h3 => ⟨trivial, fun v4 σ4 h4 =>
    ⟨trivial, fun v5 σ5 h5 => ⟨trivial, fun v6 σ6 h6 => ⟨trivial, fun v7 σ7 h7 => ?_⟩⟩⟩⟩⟩⟩⟩
  obtain ⟨rfl, -⟩ := h1
  obtain ⟨rfl, -⟩ := h2
  replace h3 := gives_named (a := .ktoken_identifier) (by decide) h3
  obtain ⟨rfl, h3⟩ := h3
  obtain ⟨rfl, -⟩ := h4
  obtain ⟨rfl, h5⟩ := h5
  obtain ⟨rfl, -⟩ := h6
  have e7 : σ7 = St.at M (n + 1) m f := h7 _ _ _ _ rfl
  subst e7
  refine ⟨⟨hc, hcol, M, _, m, f, rfl, hb, ht, hr⟩, fun v8 σ8 h8 => ⟨trivial, fun v9 σ9 h9 => ?_⟩⟩
  obtain ⟨h8, -, h8'⟩ := h8
  have e8 := h8' _ _ _ _ rfl
  subst e8
  obtain ⟨rfl, -⟩ := h9
  intro junk a hv
  refine ⟨_, _, rfl, rfl, ?_, ?_⟩
  · show (Stmt.forEach x s b).shows (Stm.loop (.str v3.token.literal) .nil v5.stmt .nil v8.opt_body)
    rw [h3, h5, Stmt.shows]
    exact ⟨_, rfl, h8⟩
  · refine Adds.of ?_
    rw [Nat.add_right_comm] at hv
    rw [view_setLoop_false hv, Stmt.whiles]

theorem kit_37 (x z : Expr) (b : Block) :
    Kit 37 [.tok (word .kFor), .expr x, .tok (word .kTo), .expr z, .tok (word .kLoop), .mid 139, .block b, .tok (word .kEndLoop)]
      (.loop (.forTo x z b)) := by
  kits
  intro σ hw
  obtain ⟨hc, hcol, M, n, m, f, rfl, hb, ht, hr⟩ := hw
  simp only [Stmt.tidy, Stmt.colonsOk, Stmt.breaksOk, Stmt.throwsOk, Stmt.returnsOk] at hc hcol hb ht hr
  refine ⟨trivial, fun v1 σ1 h1 => ⟨trivial, fun v2 σ2 h2 => ⟨trivial, fun v3 σ3 h3 => ⟨trivial, fun v4 σ4 h4 =>
    ⟨trivial, fun v5 σ5 h5 => ⟨trivial, fun v6 σ6 h6 => ?_⟩⟩⟩⟩⟩⟩
  obtain ⟨rfl, -⟩ := h1
  obtain ⟨rfl, h2⟩ := h2
  obtain ⟨rfl, -⟩ := h3
  obtain ⟨rfl, h4⟩ := h4
  obtain ⟨rfl, -⟩ := h5
  have e6 : σ6 = St.at M (n + 1) m f := h6 _ _ _ _ rfl
  subst e6
  refine ⟨⟨hc, hcol, M, _, m, f, rfl, hb, ht, hr⟩, fun v8 σ8 h8 => ⟨trivial, fun v9 σ9 h9 => ?_⟩⟩
  obtain ⟨h8, -, h8'⟩ := h8
  have e8 := h8' _ _ _ _ rfl
  subst e8
  obtain ⟨rfl, -⟩ := h9
  intro junk a hv
  refine ⟨_, _, rfl, rfl, ?_, ?_⟩
  · show (Stmt.forTo x z b).shows (Stm.loop v2.stmt v4.stmt .nil .nil v8.opt_body)
    rw [h2, h4, Stmt.shows]
    exact ⟨_, rfl, h8⟩
  · refine Adds.of ?_
    rw [Nat.add_right_comm] at hv
    rw [view_setLoop_false hv, Stmt.whiles]

theorem kit_39 (c : Expr) (b : Block) :
    Kit 39 [.tok (word .kWhile), .expr c, .tok (word .kLoop), .mid 140, .block b, .tok (word .kEndLoop)] (.loop (.while c b)) := by
  kits
  intro σ hw
  obtain ⟨hc, hcol, M, n, m, f, rfl, hb, ht, hr⟩ := hw
  simp only [Stmt.tidy, Stmt.colonsOk, Stmt.breaksOk, Stmt.throwsOk, Stmt.returnsOk] at hc hcol hb ht hr
  refine ⟨trivial, fun v1 σ1 h1 => ⟨trivial, fun v2 σ2 h2 => ⟨trivial, fun v3 σ3 h3 => ⟨trivial, fun v4 σ4 h4 => ?_⟩⟩⟩⟩
  obtain ⟨rfl, -⟩ := h1
  obtain ⟨rfl, h2⟩ := h2
  obtain ⟨rfl, -⟩ := h3
  have e4 : σ4 = St.at M (n + 1) m f := h4 _ _ _ _ rfl
  subst e4
  refine ⟨⟨hc, hcol, M, _, m, f, rfl, hb, ht, hr⟩, fun v8 σ8 h8 => ⟨trivial, fun v9 σ9 h9 => ?_⟩⟩
  obtain ⟨h8, -, h8'⟩ := h8
  have e8 := h8' _ _ _ _ rfl
  subst e8
  obtain ⟨rfl, -⟩ := h9
  intro junk a hv
  refine ⟨_, _, rfl, rfl, ?_, ?_⟩
  · show (Stmt.while c b).shows (Stm.loop .nil .nil .nil v2.stmt v8.opt_body)
    rw [h2, Stmt.shows]
    exact ⟨_, rfl, h8⟩
  · refine Adds.of ?_
    rw [hv, Stmt.whiles, Nat.add_assoc]

/-! ## Statements -/

theorem kit_44 (p : Path) (e : Expr) : Kit 44 [.path p, .tok (word .kEQUAL), .expr e] (.stmt (.assign p e)) := by
  kits
  intro σ _
  refine ⟨trivial, fun v1 σ1 h1 => ⟨trivial, fun v2 σ2 h2 => ⟨trivial, fun v3 σ3 h3 => ?_⟩⟩⟩
  obtain ⟨rfl, h1⟩ := h1
  obtain ⟨rfl, -⟩ := h2
  obtain ⟨rfl, h3⟩ := h3
  rintro junk a rfl
  refine ⟨_, _, rfl, rfl, ?_, by rw [Stmt.whiles]; exact Adds.zero _; all_goals exact nofun⟩
  show (Stmt.assign p e).shows (Stm.assign v1.stmt [v3.stmt])
  rw [h1, h3, Stmt.shows]

theorem kit_45 (e : Expr) : Kit 45 [.expr e] (.stmt (.expr e)) := by
  kits
  intro σ _
  refine ⟨trivial, fun v1 σ1 h1 => ?_⟩
  obtain ⟨rfl, h1⟩ := h1
  rintro junk a rfl
  refine ⟨_, _, rfl, rfl, ?_, by rw [Stmt.whiles]; exact Adds.zero _; all_goals exact nofun⟩
  show (Stmt.expr e).shows v1.stmt
  rw [h1, Stmt.shows]

theorem kit_46 (s : Stmt) : Kit 46 [.ifS s] (.stmt s) := by
  kits
  intro σ hw
  refine ⟨hw, fun v1 σ1 h1 => ?_⟩
  rintro junk a rfl
  exact ⟨_, _, rfl, rfl, h1⟩

theorem kit_47 (s : Stmt) : Kit 47 [.loop s] (.stmt s) := by
  kits
  intro σ hw
  refine ⟨hw, fun v1 σ1 h1 => ?_⟩
  rintro junk a rfl
  exact ⟨_, _, rfl, rfl, h1⟩

theorem kit_48 (s : Stmt) : Kit 48 [.tryS s] (.stmt s) := by
  kits
  intro σ hw
  refine ⟨hw, fun v1 σ1 h1 => ?_⟩
  rintro junk a rfl
  exact ⟨_, _, rfl, rfl, h1⟩

theorem checkLoop_ok {a : Ast} {t : Tok} {M n m f} (h : view a = St.at M n m f) (hn : 0 < n) : checkLoop a t = .ok a := by
  unfold checkLoop
  rw [(view_eq h).2.1, if_neg (by omega)]

theorem kit_49 : Kit 49 [.tok (word .kContinue)] (.stmt .cont) := by
  kits
  intro σ hw
  obtain ⟨hc, hcol, M, n, m, f, rfl, hb, ht, hr⟩ := hw
  simp only [Stmt.breaksOk] at hb
  refine ⟨trivial, fun v1 σ1 h1 => ?_⟩
  obtain ⟨rfl, -⟩ := h1
  intro junk a hv
  refine ⟨{ v1 with stmt := .cont }, a, ?_, rfl, by rw [Stmt.shows], ?_⟩
  · show (do .ok (_, ← checkLoop a v1.token)) = _
    rw [checkLoop_ok hv hb]; rfl
  · rw [hv, Stmt.whiles]; exact Adds.zero _
    all_goals exact nofun

theorem kit_50 : Kit 50 [.tok (word .kBreak)] (.stmt .brk) := by
  kits
  intro σ hw
  obtain ⟨hc, hcol, M, n, m, f, rfl, hb, ht, hr⟩ := hw
  simp only [Stmt.breaksOk] at hb
  refine ⟨trivial, fun v1 σ1 h1 => ?_⟩
  obtain ⟨rfl, -⟩ := h1
  intro junk a hv
  refine ⟨{ v1 with stmt := .brk }, a, ?_, rfl, by rw [Stmt.shows], ?_⟩
  · show (do .ok (_, ← checkLoop a v1.token)) = _
    rw [checkLoop_ok hv hb]; rfl
  · rw [hv, Stmt.whiles]; exact Adds.zero _
    all_goals exact nofun

theorem kit_51 (o : OptExpr) : Kit 51 [.tok (word .kThrow), .optExpr o] (.stmt (.throw o)) := by
  kits
  intro σ hw
  obtain ⟨hc, hcol, M, n, m, f, rfl, hb, ht, hr⟩ := hw
  refine ⟨trivial, fun v1 σ1 h1 => ⟨trivial, fun v2 σ2 h2 => ?_⟩⟩
  obtain ⟨rfl, -⟩ := h1
  obtain ⟨rfl, h2⟩ := h2
  intro junk a hv
  have hck : checkThrow a v1.token v2.stmt = .ok a := by
    unfold checkThrow
    rw [if_neg]
    rintro ⟨h3, h4⟩
    rw [h2, OptExpr.tree_isNil] at h4
    subst h4
    simp only [Stmt.throwsOk] at ht
    rw [(view_eq hv).2.2.1] at h3
    omega
  refine ⟨{ v1 with stmt := .throw v2.stmt }, a, ?_, rfl, ?_, ?_⟩
  · show (do .ok (_, ← checkThrow a v1.token v2.stmt)) = _
    rw [hck]; rfl
  · show (Stmt.throw o).shows (Stm.throw v2.stmt)
    rw [h2, Stmt.shows]
  · rw [hv, Stmt.whiles]; exact Adds.zero _
    all_goals exact nofun

theorem kit_52 (o : OptExpr) : Kit 52 [.tok (word .kReturn), .optExpr o] (.stmt (.ret o)) := by
  kits
  intro σ hw
  obtain ⟨hc, hcol, M, n, m, f, rfl, hb, ht, hr⟩ := hw
  refine ⟨trivial, fun v1 σ1 h1 => ⟨trivial, fun v2 σ2 h2 => ?_⟩⟩
  obtain ⟨rfl, -⟩ := h1
  obtain ⟨rfl, h2⟩ := h2
  intro junk a hv
  have hck : checkReturn a v2.stmt = .ok a := by
    unfold checkReturn
    rw [if_neg]
    rintro ⟨h3, h4⟩
    cases o with
    | none => rw [h2, OptExpr.tree] at h4; exact absurd h4 (by decide)
    | some e =>
      simp only [Stmt.returnsOk] at hr
      rw [(view_eq hv).2.2.2, hr] at h3
      exact absurd h3 (by decide)
  refine ⟨{ v1 with stmt := .ret v2.stmt }, a, ?_, rfl, ?_, ?_⟩
  · show (do .ok (_, ← checkReturn a v2.stmt)) = _
    rw [hck]; rfl
  · show (Stmt.ret o).shows (Stm.ret v2.stmt)
    rw [h2, Stmt.shows]
  · rw [hv, Stmt.whiles]; exact Adds.zero _
    all_goals exact nofun

theorem kit_62 : Kit 62 [] (.mid 142) := by
  kits
  intro σ _ junk a hv
  refine ⟨_, _, rfl, rfl, ?_⟩
  intro M n m f h
  rw [h] at hv
  exact view_setTry_true hv

theorem kit_63 (b h : Block) : Kit 63 [.tok (word .kTry), .block b, .tok (word .kCatch), .mid 142, .block h, .tok (word .kEndTry)]
    (.tryS (.tryS b h)) := by
  kits
  intro σ hw
  obtain ⟨hc, hcol, M, n, m, f, rfl, hb, ht, hr⟩ := hw
  simp only [Stmt.tidy, Stmt.colonsOk, Stmt.breaksOk, Stmt.throwsOk, Stmt.returnsOk] at hc hcol hb ht hr
  refine ⟨trivial, fun v1 σ1 h1 => ?_⟩
  obtain ⟨rfl, -⟩ := h1
  refine ⟨⟨hc.1, hcol.1, M, _, m, f, rfl, hb.1, ht.1, hr.1⟩, fun v2 σ2 h2 => ⟨trivial, fun v3 σ3 h3 => ⟨trivial, fun v4 σ4 h4 => ?_⟩⟩⟩
  obtain ⟨h2, -, h2'⟩ := h2
  have e2 := h2' _ _ _ _ rfl
  subst e2
  obtain ⟨rfl, -⟩ := h3
  have e4 : σ4 = St.at M (n + b.whiles) (m + 1) f := h4 _ _ _ _ rfl
  subst e4
  refine ⟨⟨hc.2, hcol.2, M, _, _, f, rfl, hb.2, ht.2, hr.2⟩, fun v5 σ5 h5 => ⟨trivial, fun v6 σ6 h6 => ?_⟩⟩
  obtain ⟨h5, -, h5'⟩ := h5
  have e5 := h5' _ _ _ _ rfl
  subst e5
  obtain ⟨rfl, -⟩ := h6
  intro junk a hv
  refine ⟨_, _, rfl, rfl, ?_, ?_⟩
  · show (Stmt.tryS b h).shows (Stm.tryS v2.opt_body v5.opt_body)
    rw [Stmt.shows]
    exact ⟨_, _, rfl, h2, h5⟩
  · refine Adds.of ?_
    rw [view_setTry_false hv, Stmt.whiles, Nat.add_assoc]

end Verif.LR
