import Verif.Proofs.Reprint.StmtWrite
/-!
# Printed statements group as they stand, print the same again and keep the rules
-/
namespace Verif
open Spec Lexer

variable [Letters]

/-! ## Grouping -/

theorem ReE.inner_noAssign {lv op l r u n e} (h : ReE true lv (.bin op l r u n) e) (ho : op ≠ .eq ∨ n = true) : e.noAssign := by
  cases h with
  | path h => cases h with | one h => cases h
  | @bin _ _ _ _ a b _ _ hl hr hv hg =>
    obtain ⟨rfl, _⟩ := hg rfl
    have ha := (hl.grouped.2 rfl).1
    cases n with
    | true => simp [binE, signsE, Expr.noAssign]
    | false =>
      have ho : op ≠ .eq := by simpa using ho
      simp only [binE, Bool.or_false, Bool.false_eq_true, if_false]
      cases a with
      | path p => simpa [Expr.noAssign] using ho
      | bin o x y =>
        have := ha (level o)
        simp [Expr.opens] at this
      | _ => simp [Expr.noAssign]
  | inner => simp [parenE, Expr.noAssign]

theorem ReE.expr_noAssign {lv s e} (h : ReE true lv s e) (hs : ExprStm s) (hx : ¬ IsExprs s) : e.noAssign := by
  cases h with
  | var => 
    rename_i n u nt h1 h2
    cases u <;> cases nt <;> simp [signsE, Expr.noAssign]
  | elem => exact absurd trivial hx
  | notElem => exact absurd trivial hx
  | bin => exact absurd hs id
  | inner => exact absurd hs id
  | _ => simp [Expr.noAssign]

theorem ReSrc.grouped {s x} (h : ReSrc true s x) : x.grouped := by
  cases h with
  | path h => simpa [Source.grouped] using h.grouped
  | new h => simpa [Source.grouped] using h.grouped
  | ternary h1 h2 h3 => simpa [Source.grouped] using ⟨h1.grouped.1, h2.grouped.1, h3.grouped.1⟩

mutual
theorem ReS.grouped : ∀ {s s' p}, ReS true s s' p → s'.grouped
  | _, _, _, .assign hp he => by simpa [Stmt.grouped] using ⟨hp.grouped, he.grouped.1⟩
  | _, _, _, .chain hp => by simpa [Stmt.grouped, Expr.grouped, Expr.noAssign] using hp.grouped
  | _, _, _, .bin h ho => by simpa [Stmt.grouped] using ⟨h.grouped.1, h.inner_noAssign (ho rfl)⟩
  | _, _, _, .expr hs h hx => by simpa [Stmt.grouped] using ⟨h.grouped.1, h.expr_noAssign hs (hx rfl)⟩
  | _, _, _, .ifS hc ht hei hel => by simpa [Stmt.grouped] using ⟨hc.grouped.1, ht.grouped, hei.grouped, hel.grouped⟩
  | _, _, _, .forEach _ hs hb => by simpa [Stmt.grouped] using ⟨hs.grouped, hb.grouped⟩
  | _, _, _, .forTo h1 h2 hb => by simpa [Stmt.grouped] using ⟨h1.grouped.1, h2.grouped.1, hb.grouped⟩
  | _, _, _, .whileS h1 hb => by simpa [Stmt.grouped] using ⟨h1.grouped.1, hb.grouped⟩
  | _, _, _, .tryS h1 h2 => by simpa [Stmt.grouped] using ⟨h1.grouped, h2.grouped⟩
  | _, _, _, .cont => by simp [Stmt.grouped]
  | _, _, _, .brk => by simp [Stmt.grouped]
  | _, _, _, .rethrow => by simp [Stmt.grouped, OptExpr.grouped]
  | _, _, _, .throwList h => by simpa [Stmt.grouped, OptExpr.grouped, Expr.grouped] using h.grouped
  | _, _, _, .throw h _ => by simpa [Stmt.grouped, OptExpr.grouped, Expr.grouped, parenE, Args.grouped] using h.grouped.1
  | _, _, _, .ret => by simp [Stmt.grouped, OptExpr.grouped]
  | _, _, _, .retValue h => by simpa [Stmt.grouped, OptExpr.grouped] using h.grouped.1
  | _, _, _, .label _ => by simp [Stmt.grouped, Expr.grouped, Simple.grouped, Expr.noAssign]
  | _, _, _, .goto _ => by simp [Stmt.grouped, Expr.grouped, Expr.noAssign]
theorem ReEl.grouped : ∀ {l es}, ReEl true l es → es.grouped
  | _, _, .nil => by simp [Elifs.grouped]
  | _, _, .cons hc hb hr => by simpa [Elifs.grouped] using ⟨hc.grouped.1, hb.grouped, hr.grouped⟩
theorem ReElse.grouped : ∀ {l e}, ReElse true l e → e.grouped
  | _, _, .none => by simp [Else.grouped]
  | _, _, .some _ hb => by simpa [Else.grouped] using hb.grouped
theorem ReB.grouped : ∀ {l b}, ReB true l b → b.grouped
  | _, _, .empty => by simp [Block.grouped]
  | _, _, .body hb => by simpa [Block.grouped, Body.grouped, OptStmt.grouped] using hb.grouped
theorem ReBody.grouped : ∀ {l b p}, ReBody true l b p → b.grouped
  | _, _, _, .one h => by simpa [Body.grouped] using h.grouped
  | _, _, _, .snoc hb h => by simpa [Body.grouped, Block.grouped, OptStmt.grouped] using ⟨hb.grouped, h.grouped⟩
end

/-! ## No block begins with a separator, and colons follow labels -/

mutual
theorem ReS.clean {g} : ∀ {s s' p}, ReS g s s' p → s'.clean ∧ s'.colonsOk ∧ (p = .colon → s'.IsLabel)
  | _, _, _, .ifS _ ht hei hel => by
    simpa [Stmt.clean, Stmt.colonsOk] using ⟨⟨ht.clean.1, hei.clean.1, hel.clean.1⟩, ht.clean.2, hei.clean.2, hel.clean.2⟩
  | _, _, _, .forEach _ _ hb => by simpa [Stmt.clean, Stmt.colonsOk] using hb.clean
  | _, _, _, .forTo _ _ hb => by simpa [Stmt.clean, Stmt.colonsOk] using hb.clean
  | _, _, _, .whileS _ hb => by simpa [Stmt.clean, Stmt.colonsOk] using hb.clean
  | _, _, _, .tryS h1 h2 => by
    simpa [Stmt.clean, Stmt.colonsOk] using ⟨⟨h1.clean.1, h2.clean.1⟩, h1.clean.2, h2.clean.2⟩
  | _, _, _, .label (n := n) _ => by
    simp only [Stmt.clean, Stmt.colonsOk, true_and]
    exact fun _ => ⟨_, n, rfl, rfl⟩
  | _, _, _, .assign _ _ | _, _, _, .chain _ | _, _, _, .bin _ _ | _, _, _, .expr _ _ _ | _, _, _, .cont | _, _, _, .brk
  | _, _, _, .rethrow | _, _, _, .throwList _ | _, _, _, .throw _ _ | _, _, _, .ret | _, _, _, .retValue _ | _, _, _, .goto _ => by
    simp [Stmt.clean, Stmt.colonsOk]
theorem ReEl.clean {g} : ∀ {l es}, ReEl g l es → es.clean ∧ es.colonsOk
  | _, _, .nil => by simp [Elifs.clean, Elifs.colonsOk]
  | _, _, .cons _ hb hr => by simpa [Elifs.clean, Elifs.colonsOk] using ⟨⟨hb.clean.1, hr.clean.1⟩, hb.clean.2, hr.clean.2⟩
theorem ReElse.clean {g} : ∀ {l e}, ReElse g l e → e.clean ∧ e.colonsOk
  | _, _, .none => by simp [Else.clean, Else.colonsOk]
  | _, _, .some _ hb => by simpa [Else.clean, Else.colonsOk] using hb.clean
theorem ReB.clean {g} : ∀ {l b}, ReB g l b → b.clean ∧ b.colonsOk
  | _, _, .empty => by simp [Block.clean, Block.colonsOk]
  | _, _, .body (b := b) (p := p) hb => by
    obtain ⟨h1, h2, h3⟩ := hb.clean
    simp only [Block.clean, Block.colonsOk, Body.clean, Body.colonsOk, OptStmt.clean, OptStmt.colonsOk, Block.last, and_true, true_and]
    exact ⟨h1, h2, h3⟩
theorem ReBody.clean {g} : ∀ {l b p}, ReBody g l b p → b.clean ∧ b.colonsOk ∧ (p = .colon → ∀ x, b.last = some x → x.IsLabel)
  | _, _, _, .one h => by
    obtain ⟨h1, h2, h3⟩ := h.clean
    simp only [Body.clean, Body.colonsOk, Body.last]
    exact ⟨h1, h2, fun e x hx => by cases hx; exact h3 e⟩
  | _, _, _, .snoc hb h => by
    obtain ⟨h1, h2, h3⟩ := h.clean
    obtain ⟨h4, h5, h6⟩ := hb.clean
    simp only [Body.clean, Body.colonsOk, Body.last, Block.colonsOk, OptStmt.clean, OptStmt.colonsOk, Block.last]
    exact ⟨⟨h4, h1⟩, ⟨h5, h2, h6⟩, fun e x hx => by cases hx; exact h3 e⟩
end

/-! ## Printing again -/

theorem ReE.tree_expr {s e} (h : ReE true .arg s e) (hs : ExprStm s) (hx : ¬ IsExprs s) : ExprStm e.tree := by
  have path : ∀ {s p}, ReP true s p → ExprStm s → ExprStm p.tree := by
    intro s p h hs
    cases h with
    | one h =>
      cases h <;> trivial
    | dot => exact absurd hs id
  cases h with
  | @num _ x _ =>
    simp only [Expr.tree]
    unfold numE
    cases x.neg <;> trivial
  | str => trivial
  | bool => trivial
  | date => trivial
  | undef => trivial
  | path h => exact path h hs
  | minus h => exact absurd hs id
  | notChain h => exact absurd hs id
  | notCall h =>
    obtain ⟨f', ps', e⟩ := h.call_inv
    simp only [Expr.tree, e]
    trivial
  | var _ h => exact absurd rfl h
  | varArg => trivial
  | ternary => trivial
  | new h => cases h <;> trivial
  | elem => exact absurd trivial hx
  | notElem => exact absurd trivial hx
  | bin => exact absurd hs id

theorem ReSrc.again {s x} (h : ReSrc true s x) : prE x.tree = prE s := by
  cases h with
  | path h => exact (ReE.path (lv := .top) h).again
  | new h => exact (ReE.new (lv := .top) h).again
  | ternary h1 h2 h3 => exact (ReE.ternary (lv := .top) h1 h2 h3).again

section
omit [Letters]

theorem withMinus_nil {s : Stm} (h : s ≠ .nil) : withMinus s ≠ .nil := by
  cases s <;> first | exact absurd rfl h | (unfold withMinus; exact nofun)
theorem withNot_nil {s : Stm} (h : s ≠ .nil) : withNot s ≠ .nil := by
  cases s <;> first | exact absurd rfl h | (unfold withNot; exact nofun)

theorem Spec.New.tree_ne (n : New) : n.tree ≠ .nil := by cases n <;> simp [New.tree]

mutual
theorem Spec.Expr.tree_ne : ∀ e : Expr, e.tree ≠ .nil
  | .simple s => s.tree_ne
  | .paren _ => nofun
  | .bin _ _ _ => nofun
  | .not e => withNot_nil e.tree_ne
  | .new n => n.tree_ne
  | .goto _ => nofun
  | .ternary _ _ _ => nofun
  | .path p => p.tree_ne
theorem Spec.Simple.tree_ne : ∀ e : Simple, e.tree ≠ .nil
  | .neg e => withMinus_nil e.tree_ne
  | .pos e => e.tree_ne
  | .str _ | .num _ | .bool _ | .date _ | .undef | .label _ => nofun
end

theorem Spec.Source.tree_ne (s : Source) : s.tree ≠ .nil := by
  cases s with
  | path p => exact p.tree_ne
  | new n => exact n.tree_ne
  | parenNew n => exact n.tree_ne
  | ternary => exact nofun
end

section
omit [Letters]

theorem turn_expr {s : Stm} (h : ExprStm s) : turn s = s := by
  cases s <;> first | exact absurd h id | (unfold turn; rfl)

theorem turnL_append (l l' : List Stm) : turnL (l ++ l') = turnL l ++ turnL l' := by
  induction l with
  | nil => simp [turnL]
  | cons s l ih => simp [turnL, ih]

theorem turnL_map (l : List Stm) : turnL l = l.map turn := by
  induction l with
  | nil => simp [turnL]
  | cons s l ih => simp [turnL, ih]

theorem turnL_nil {l : List Stm} : turnL l = [] ↔ l = [] := by rw [turnL_map, List.map_eq_nil_iff]

/-- Branches `ИначеЕсли` of `Если`. -/
theorem elifs_append (cf : PrintConf) (d : Nat) (l l' : List Stm) : printElifs cf d (l ++ l') = printElifs cf d l ++ printElifs cf d l' := by
  induction l with
  | nil => rw [elifs_nil]; rfl
  | cons s l ih =>
    cases s with
    | ifS c b x y => rw [List.cons_append, elifs_cons, elifs_cons, ih]; simp only [List.append_assoc]
    | _ =>
      rw [List.cons_append]
      conv => lhs; unfold printElifs
      conv => rhs; arg 1; unfold printElifs
      exact ih
end

theorem ReBody.ne {g l b p} (h : ReBody g l b p) : l ≠ [] ∧ b.tree ≠ [] := by
  cases h with
  | one => simp [Body.tree]
  | snoc => simp [Body.tree, OptStmt.tree]

mutual
theorem ReS.again (cf : PrintConf) : ∀ {s s' p}, ReS true s s' p → ∀ d, printItem cf d s'.tree = printItem cf d (turn s)
  | _, _, _, .assign hp he, d => by
    simp only [Stmt.tree, turn]
    have := he.again
    simp only [Place.mode] at this
    rw [item_assign, item_assign, pr_assign, pr_assign, prCat_one, prCat_one, hp.mode .var .chain, Path.mode _ .var .chain, hp.again, this]
  | _, _, _, .chain (u := u) (c := c) (m := m) (n := n) hp, d => by
    have := hp.again
    obtain ⟨p', i, rfl, h1, _⟩ := hp.chain_inv
    have e : pr .chain (.chain u c m n) = pr .chain (.chain u c false false) := by
      rw [pr_chain _ _ _ _ _ h1.ne_nil, pr_chain _ _ _ _ _ h1.ne_nil]
      simp [PMode.isChain, onFlag]
    simp only [Stmt.tree, Expr.tree, Path.tree, turn] at this ⊢
    rw [item_chain, item_chain, e, this]
  | _, _, _, .bin (op := op) (u := u) (n := n) h _, d => by
    have h2 := h.again
    simp only [turn]
    cases h with
    | path h => cases h with | one h => cases h
    | @bin _ _ _ _ a b _ _ hl hr hv hg =>
      obtain ⟨rfl, _⟩ := hg rfl
      cases n with
      | false =>
        simp only [binE, Bool.or_false, Bool.false_eq_true, if_false, Stmt.tree, Expr.tree, Place.mode] at h2 ⊢
        rw [item_bin, item_bin]
        unfold prE
        rw [h2]
      | true =>
        simp only [binE, Bool.or_true, if_true, signsE, Bool.false_eq_true, if_false, Stmt.tree, parenE, Expr.tree, Args.tree, OptExpr.tree, withNot, Place.mode] at h2 ⊢
        rw [item_expr cf d (.exprs _ _) trivial, item_bin, pr_arg_exprs]
        unfold prE
        rw [h2]
  | _, _, _, .expr hs h hx, d => by
    have h2 := h.again
    simp only [Place.mode] at h2
    simp only [Stmt.tree]
    rw [turn_expr hs, item_expr _ _ _ hs, item_expr _ _ _ (h.tree_expr hs (hx rfl)), h2]
  | _, _, _, .ifS (ei := ei) (el := el) (es := es) (e := e) hc ht hei hel, d => by
    have h1 := hc.again
    simp only [Place.mode] at h1
    simp only [Stmt.tree, turn]
    rw [item_if, item_if, ht.again cf (d + 1), hei.again cf d]
    unfold prE
    rw [h1]
    have := hel.again cf d
    cases el with
    | nil =>
      rw [this.1 rfl]
      rfl
    | cons x l =>
      obtain ⟨h3, h4⟩ := this.2 (by simp)
      cases he : e.tree with
      | nil => exact absurd he h3
      | cons y l' =>
        rw [he] at h4
        simp only [turnL] at h4 ⊢
        simp only [h4]
  | _, _, _, .forEach (s := s) _ hi hb, d => by
    simp only [Stmt.tree, turn]
    rw [item_each _ _ _ _ _ hi.ne_nil, item_each _ _ _ _ _ s.tree_ne, hi.again, hb.again cf (d + 1)]
  | _, _, _, .forTo (f' := f') (z' := z') hf hz hb, d => by
    have h1 := hf.again
    have h2 := hz.again
    simp only [Place.mode] at h1 h2
    simp only [Stmt.tree, turn]
    rw [item_to _ _ _ _ _ hz.ne_nil, item_to _ _ _ _ _ z'.tree_ne, hb.again cf (d + 1)]
    unfold prE
    rw [h1, h2]
  | _, _, _, .whileS (c' := c') hc hb, d => by
    have h1 := hc.again
    simp only [Place.mode] at h1
    simp only [Stmt.tree, turn]
    rw [item_while _ _ _ _ hc.ne_nil, item_while _ _ _ _ c'.tree_ne, hb.again cf (d + 1)]
    unfold prE
    rw [h1]
  | _, _, _, .tryS h1 h2, d => by
    simp only [Stmt.tree, turn]
    rw [item_try, item_try, h1.again cf (d + 1), h2.again cf (d + 1)]
  | _, _, _, .cont, d => rfl
  | _, _, _, .brk, d => rfl
  | _, _, _, .rethrow, d => rfl
  | _, _, _, .throwList ha, d => by
    simp only [Stmt.tree, OptExpr.tree, Expr.tree, turn]
    rw [item_throwList, item_throwList, ha.again.2]
  | _, _, _, .throw (s := s) h hx, d => by
    have h1 := h.again
    simp only [Place.mode] at h1
    simp only [Stmt.tree, OptExpr.tree, Expr.tree, parenE, Args.tree, turn]
    rw [item_throwList, item_throw _ _ _ h.ne_nil hx, prList_eq]
    simp only [List.map_cons, List.map_nil, join, h1]
  | _, _, _, .ret, d => rfl
  | _, _, _, .retValue (e := e) h, d => by
    have h1 := h.again
    simp only [Place.mode] at h1
    simp only [Stmt.tree, OptExpr.tree, turn]
    rw [item_retValue _ _ _ h.ne_nil, item_retValue _ _ _ e.tree_ne]
    unfold prE
    rw [h1]
  | _, _, _, .label _, d => rfl
  | _, _, _, .goto _, d => rfl
theorem ReEl.again (cf : PrintConf) : ∀ {l es}, ReEl true l es → ∀ d, printElifs cf d es.tree.reverse = printElifs cf d (turnL l).reverse
  | _, _, .nil, d => rfl
  | _, _, .cons hc hb hr, d => by
    have h1 := hc.again
    simp only [Place.mode] at h1
    simp only [Elifs.tree, turnL, turn, List.reverse_cons]
    rw [elifs_append, elifs_append, elifs_cons, elifs_cons, elifs_nil, hb.again cf (d + 1), hr.again cf d]
    unfold prE
    rw [h1]
theorem ReElse.again (cf : PrintConf) : ∀ {l e}, ReElse true l e → ∀ d, (l = [] → e.tree = []) ∧
    (l ≠ [] → e.tree ≠ [] ∧ printBody cf (d + 1) e.tree = printBody cf (d + 1) (turnL l))
  | _, _, .none, d => ⟨fun _ => rfl, fun h => absurd rfl h⟩
  | _, _, .some (l := l) (b := b) hl hb, d => by
    refine ⟨fun e => absurd e hl, fun _ => ?_⟩
    simp only [Else.tree]
    refine ⟨?_, hb.again cf (d + 1)⟩
    cases hb with
    | empty => exact absurd rfl hl
    | body hb => simpa [Block.tree, Body.tree, OptStmt.tree] using hb.ne.2
theorem ReB.again (cf : PrintConf) : ∀ {l b}, ReB true l b → ∀ d, printBody cf d b.tree = printBody cf d (turnL l)
  | _, _, .empty, d => rfl
  | _, _, .body hb, d => by
    rw [printBody_eq, printBody_eq]
    simp only [Block.tree, Body.tree, OptStmt.tree, List.append_nil]
    rw [hb.again cf d]
theorem ReBody.again (cf : PrintConf) : ∀ {l b p}, ReBody true l b p → ∀ d, bodyText cf d b.tree = bodyText cf d (turnL l)
  | _, _, _, .one h, d => by
    simp only [bodyText, Body.tree, turnL, List.map_cons, List.map_nil]
    rw [h.again cf d]
  | _, _, _, .snoc hb h, d => by
    simp only [Body.tree, OptStmt.tree, Block.tree, turnL_append, turnL]
    rw [bodyText_snoc, bodyText_snoc, hb.again cf d, h.again cf d]
end

end Verif
