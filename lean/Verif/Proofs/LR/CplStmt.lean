import Verif.Proofs.LR.CplExpr
/-! Completeness for statements. -/
namespace Verif.LR
open Tables Spec Lexer

/-- Tokens after a statement. -/
def stmtEnds : List Nat := [1, 4, 5, 11, 14, 15, 16, 22, 30, 31, 36]

theorem stmtEnds_ends : ∀ la ∈ stmtEnds, la ∈ ends := by decide
theorem stmtEnds_starts : ∀ la ∈ stmtEnds, la ∉ stmtStarts := by decide

theorem tab_16 : ∀ b, b < nStates → (gotoL b 102).isSome = true → ∀ la ∈ stmtEnds, (b = 0 → la ∈ [4, 5]) → action b la = .reduce 16 := by
  decide +kernel

theorem tab_17 : ∀ b, b < nStates → (gotoL b 102).isSome = true → ∀ la ∈ stmtEnds, (b = 0 → la ∈ [4, 5]) →
    ((follow b [101]).map fun s => action s la) = some (.reduce 17) := by
  decide +kernel

theorem tab_stmt_ops : ∀ b, b < nStates → (trans b 103).isSome = true → ∀ op ∈ allOps, (follow b [111, opNum op]).isSome = true := by
  decide +kernel

theorem cx_sep (p : Sep) (b la : Nat) : Cx b la (.sep p) := by
  cases p with
  | semi => exact cx_red kit_22 rfl List.not_mem_nil fun _ _ _ => cxk_one (cx_red kit_109 rfl List.not_mem_nil fun _ _ _ => cxk_one (cx_tok _ _ _))
  | colon => exact cx_red kit_23 rfl List.not_mem_nil fun _ _ _ => cxk_one (cx_red kit_110 rfl List.not_mem_nil fun _ _ _ => cxk_one (cx_tok _ _ _))

theorem Source.cx (s : Source) (b : Nat) (h : s.grouped) : Cx b 21 (.source s) := by
  cases s with
  | path p => exact cx_red (kit_40 p) rfl (show 21 ∉ [67] by decide) fun _ _ _ => cxk_one (Path.cx p b 21 h (by decide))
  | new n => exact cx_red (kit_41 n) rfl List.not_mem_nil fun _ _ _ => cxk_one (New.cx n b 21 h (by decide))
  | parenNew n => exact cx_red (kit_42 n) rfl List.not_mem_nil fun _ _ _ => cxk_tok fun b1 _ => cxk_cons (New.cx n b1 63 h (by decide)) fun _ _ => cxk_one (cx_tok _ _ _)
  | ternary c x y => exact cx_red (kit_43 c x y) rfl List.not_mem_nil fun _ _ _ => cxk_one (ternary_cx c x y b 21 (by rw [Expr.grouped]; exact h))

/-- An expression after a keyword. -/
theorem expr_after {e : Expr} {b X b1 la : Nat} (hb : b < nStates) (h1 : trans b X = some b1) (hX : X ∈ [12, 14, 17, 20, 26, 62, 65, 37, 38, 133])
    (hg : e.grouped) (hla : la ∈ ends) : Cx b1 la (.expr e) := fun hb' hl' ht' =>
  Expr.cx e b1 la (.plain (plain_acc hb h1 hX ht') hg (ends_ops la hla)) (ends_more la hla) hb' hl' ht'

theorem elifs_next (es : Elifs) (e : Else) (la : Nat) : nextK (catL [.elifs es, .els e, .tok (word .kEndIf)]) la ∈ stmtEnds := by
  cases es with
  | nil => cases e with
    | none => exact (show 16 ∈ stmtEnds by decide)
    | some b => show nextK ((Elifs.nil).toks ++ ((Else.some b).toks ++ _)) la ∈ _; rw [Elifs.toks, Else.toks]; exact (show 15 ∈ stmtEnds by decide)
  | cons c t r => show nextK ((Elifs.cons c t r).toks ++ _) la ∈ _; rw [Elifs.toks]; exact (show 14 ∈ stmtEnds by decide)

theorem els_next (e : Else) (la : Nat) : nextK (catL [.els e, .tok (word .kEndIf)]) la ∈ [15, 16] := by
  cases e with
  | none => exact (show 16 ∈ [15, 16] by decide)
  | some b => show nextK ((Else.some b).toks ++ _) la ∈ _; rw [Else.toks]; exact (show 15 ∈ [15, 16] by decide)

theorem elifs_next' (es : Elifs) (la : Nat) (h : la ∈ [15, 16]) : nextK (catL [.elifs es]) la ∈ stmtEnds := by
  cases es with
  | nil => show nextK ((Elifs.nil).toks ++ []) la ∈ _; rw [Elifs.toks]; revert la; decide
  | cons c t r => show nextK ((Elifs.cons c t r).toks ++ _) la ∈ _; rw [Elifs.toks]; exact (show 14 ∈ stmtEnds by decide)

/-- After a shift the state is not the first one. -/
theorem ne0 {b X b1 : Nat} (hb : b < nStates) (h : trans b X = some b1) {P : Prop} : b1 = 0 → P := fun h0 => absurd h0 (trans_ok hb h).ne0

mutual
theorem Stmt.cx : (s : Stmt) → ∀ b la, s.grouped → la ∈ stmtEnds → Cx b la (.stmt s)
  | .assign p e, b, la, h, hla => by
    rw [Stmt.grouped] at h
    refine cx_red (kit_44 p e) rfl (ends_ops la (stmtEnds_ends la hla)) fun hb _ _ => cxk_cons (Path.cx p b 40 h.1 (by decide)) fun b1 h1 => cxk_tok fun b2 h2 =>
      cxk_one ?_
    have hf : follow b [119, 40] = some b2 := by
      rw [follow_cons (show trans b 119 = some b1 from h1), follow_cons (show trans b1 40 = some b2 from h2)]; rfl
    exact Expr.cx e b2 la (.plain (plain_of (tab_plain_asg b hb b2 hf)) h.2 (ends_ops la (stmtEnds_ends la hla))) (ends_more la (stmtEnds_ends la hla))
  | .expr e, b, la, h, hla => by
    rw [Stmt.grouped] at h
    refine cx_red (kit_45 e) rfl (ends_ops la (stmtEnds_ends la hla)) fun hb _ ht => cxk_one ?_
    refine Expr.cx e b la ⟨h.1, ?_, ?_, fun _ => h.2, ?_⟩ (ends_more la (stmtEnds_ends la hla))
    · intro op ho; exact absurd (ho ▸ List.mem_map_of_mem (f := opNum) (mem_allOps op)) (ends_ops la (stmtEnds_ends la hla))
    · intro op _ _ _; exact ne_none (tab_stmt_ops b hb ht op (mem_allOps op))
    · intro p _ h0; rw [h0] at hla; exact absurd hla (by decide)
  | .ifS c t es e, b, la, h, hla => by
    rw [Stmt.grouped] at h
    refine cx_red (kit_46 _) rfl List.not_mem_nil fun _ _ _ => cxk_one ?_
    exact cx_red (kit_28 c t es e) rfl List.not_mem_nil fun hb _ _ => cxk_tok fun b1 h1 =>
      cxk_cons (expr_after hb h1 (by decide) h.1 (show 13 ∈ ends by decide)) fun b2 h2 => cxk_tok fun b3 h3 =>
      cxk_cons (Block.cx t b3 _ h.2.1 (elifs_next es e la) (ne0 (trans_lt (trans_lt hb h1) h2) h3)) fun b4 h4 =>
      cxk_cons (Elifs.cx es b4 _ h.2.2.1 (els_next e la)) fun b5 h5 =>
      cxk_cons (Else.cx e b5 h.2.2.2) fun _ _ => cxk_one (cx_tok _ _ _)
  | .forEach n s bl, b, la, h, hla => by
    rw [Stmt.grouped] at h
    refine cx_red (kit_47 _) rfl List.not_mem_nil fun _ _ _ => cxk_one ?_
    refine cx_red (kit_35 n s bl) rfl List.not_mem_nil fun hb _ _ => cxk_tok fun b1 h1 => cxk_tok fun b2 h2 => cxk_tok fun b3 h3 => cxk_tok fun b4 h4 =>
      cxk_cons (Source.cx s b4 h.1) fun b5 h5 => cxk_tok fun b6 h6 =>
      cxk_cons (cx_red kit_34 rfl List.not_mem_nil fun _ _ _ => cxk_nil _ _) fun b7 h7 =>
      cxk_cons (Block.cx bl b7 22 h.2 (by decide) (ne0 ?_ h7)) fun _ _ => cxk_one (cx_tok _ _ _)
    exact trans_lt (trans_lt (trans_lt (trans_lt (trans_lt (trans_lt hb h1) h2) h3) h4) h5) h6
  | .forTo x z bl, b, la, h, hla => by
    rw [Stmt.grouped] at h
    refine cx_red (kit_47 _) rfl List.not_mem_nil fun _ _ _ => cxk_one ?_
    refine cx_red (kit_37 x z bl) rfl List.not_mem_nil fun hb _ _ => cxk_tok fun b1 h1 =>
      cxk_cons (expr_after hb h1 (by decide) h.1 (show 20 ∈ ends by decide)) fun b2 h2 => cxk_tok fun b3 h3 =>
      cxk_cons (expr_after (trans_lt (trans_lt hb h1) h2) h3 (by decide) h.2.1 (show 21 ∈ ends by decide)) fun b4 h4 => cxk_tok fun b5 h5 =>
      cxk_cons (cx_red kit_36 rfl List.not_mem_nil fun _ _ _ => cxk_nil _ _) fun b7 h7 =>
      cxk_cons (Block.cx bl b7 22 h.2.2 (by decide) (ne0 ?_ h7)) fun _ _ => cxk_one (cx_tok _ _ _)
    exact trans_lt (trans_lt (trans_lt (trans_lt (trans_lt hb h1) h2) h3) h4) h5
  | .while c bl, b, la, h, hla => by
    rw [Stmt.grouped] at h
    refine cx_red (kit_47 _) rfl List.not_mem_nil fun _ _ _ => cxk_one ?_
    refine cx_red (kit_39 c bl) rfl List.not_mem_nil fun hb _ _ => cxk_tok fun b1 h1 =>
      cxk_cons (expr_after hb h1 (by decide) h.1 (show 21 ∈ ends by decide)) fun b2 h2 => cxk_tok fun b3 h3 =>
      cxk_cons (cx_red kit_38 rfl List.not_mem_nil fun _ _ _ => cxk_nil _ _) fun b7 h7 =>
      cxk_cons (Block.cx bl b7 22 h.2 (by decide) (ne0 ?_ h7)) fun _ _ => cxk_one (cx_tok _ _ _)
    exact trans_lt (trans_lt (trans_lt hb h1) h2) h3
  | .tryS bl hd, b, la, h, hla => by
    rw [Stmt.grouped] at h
    refine cx_red (kit_48 _) rfl List.not_mem_nil fun _ _ _ => cxk_one ?_
    refine cx_red (kit_63 bl hd) rfl List.not_mem_nil fun hb _ _ => cxk_tok fun b1 h1 =>
      cxk_cons (Block.cx bl b1 30 h.1 (by decide) (ne0 hb h1)) fun b2 h2 => cxk_tok fun b3 h3 =>
      cxk_cons (cx_red kit_62 rfl List.not_mem_nil fun _ _ _ => cxk_nil _ _) fun b7 h7 =>
      cxk_cons (Block.cx hd b7 31 h.2 (by decide) (ne0 ?_ h7)) fun _ _ => cxk_one (cx_tok _ _ _)
    exact trans_lt (trans_lt (trans_lt hb h1) h2) h3
  | .cont, b, la, _, _ => cx_red kit_49 rfl List.not_mem_nil fun _ _ _ => cxk_one (cx_tok _ _ _)
  | .brk, b, la, _, _ => cx_red kit_50 rfl List.not_mem_nil fun _ _ _ => cxk_one (cx_tok _ _ _)
  | .throw o, b, la, h, hla => by
    rw [Stmt.grouped] at h
    exact cx_red (kit_51 o) rfl List.not_mem_nil fun _ _ _ => cxk_tok fun b1 _ => cxk_one (OptExpr.cx o b1 la h (stmtEnds_ends la hla))
  | .ret o, b, la, h, hla => by
    rw [Stmt.grouped] at h
    exact cx_red (kit_52 o) rfl List.not_mem_nil fun _ _ _ => cxk_tok fun b1 _ => cxk_one (OptExpr.cx o b1 la h (stmtEnds_ends la hla))
theorem Elifs.cx : (es : Elifs) → ∀ b la, es.grouped → la ∈ [15, 16] → Cx b la (.elifs es)
  | .nil, b, la, _, hla => cx_red kit_29 rfl (show la ∉ [4, 5, 14] by revert la; decide) fun _ _ _ => cxk_nil _ _
  | .cons c t r, b, la, h, hla => by
    rw [Elifs.grouped] at h
    exact cx_red (kit_30 c t r) rfl List.not_mem_nil fun hb _ _ => cxk_tok fun b1 h1 =>
      cxk_cons (expr_after hb h1 (by decide) h.1 (show 13 ∈ ends by decide)) fun b2 h2 => cxk_tok fun b3 h3 =>
      cxk_cons (Block.cx t b3 _ h.2.1 (elifs_next' r la hla) (ne0 (trans_lt (trans_lt hb h1) h2) h3)) fun b4 h4 =>
      cxk_one (Elifs.cx r b4 la h.2.2 hla)
theorem Else.cx : (e : Else) → ∀ b, e.grouped → Cx b 16 (.els e)
  | .none, b, _ => cx_red kit_31 rfl (show 16 ∉ [15] by decide) fun _ _ _ => cxk_nil _ _
  | .some bl, b, h => by
    rw [Else.grouped] at h
    exact cx_red (kit_32 bl) rfl (show 16 ∉ [4, 5] by decide) fun hb _ _ => cxk_tok fun b1 h1 => cxk_one (Block.cx bl b1 16 h (by decide) (ne0 hb h1))
theorem Block.cx : (bl : Block) → ∀ b la, bl.grouped → la ∈ stmtEnds → (b = 0 → la ∈ [4, 5]) → Cx b la (.block bl)
  | .empty, b, la, _, hla, h0 => fun hb hl ht =>
    cx_node kit_16 (fun hg => ⟨b, rfl, tab_16 b hb hg la hla h0⟩) (cxk_nil _ _) (by eve) hb hl ht
  | .body bd, b, la, h, hla, h0 => by
    rw [Block.grouped] at h
    exact fun hb hl ht => cx_node (kit_17 bd) (fun hg => Option.map_eq_some_iff.1 (tab_17 b hb hg la hla h0)) (cxk_one (Body.cx bd b la h hla)) (by eve) hb hl ht
theorem Body.cx : (bd : Body) → ∀ b la, bd.grouped → la ∈ stmtEnds → Cx b la (.body bd)
  | .one s, b, la, h, hla => by
    rw [Body.grouped] at h
    exact cx_red (kit_18 s) rfl List.not_mem_nil fun _ _ _ => cxk_one (Stmt.cx s b la h hla)
  | .sep bl p o, b, la, h, hla => by
    rw [Body.grouped] at h
    refine cx_red (kit_19 bl p o) rfl List.not_mem_nil fun _ _ _ => cxk_cons (Block.cx bl b _ h.1 ?_ fun _ => ?_) fun b1 _ =>
      cxk_cons (cx_sep p _ _) fun b2 _ => cxk_one (OptStmt.cx o b2 la h.2 hla)
    · cases p
      · exact (show 5 ∈ stmtEnds by decide)
      · exact (show 4 ∈ stmtEnds by decide)
    · cases p
      · exact (show 5 ∈ [4, 5] by decide)
      · exact (show 4 ∈ [4, 5] by decide)
theorem OptStmt.cx : (o : OptStmt) → ∀ b la, o.grouped → la ∈ stmtEnds → Cx b la (.optStmt o)
  | .none, b, la, _, hla => cx_red kit_20 rfl (stmtEnds_starts la hla) fun _ _ _ => cxk_nil _ _
  | .some s, b, la, h, hla => by
    rw [OptStmt.grouped] at h
    exact cx_red (kit_21 s) rfl List.not_mem_nil fun _ _ _ => cxk_one (Stmt.cx s b la h hla)
end

end Verif.LR
