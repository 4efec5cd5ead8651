import Verif.Proofs.Reprint.Module
import Verif.Spec.Bare
/-!
# The program that printed code spells says the same
-/
namespace Verif
open Spec Lexer

theorem noArgs_ne (l : List Stm) : noArgs l ≠ [.nil] := by
  unfold noArgs
  split
  · exact nofun
  · next h => exact h

theorem unparen_nil (l : List Stm) (n : Bool) : unparen l n ≠ .nil := by
  unfold unparen
  have := noArgs_ne l
  split
  · next h => rw [h] at this; exact fun e => this (by rw [e])
  · exact nofun
  · exact nofun

theorem bare_nil {s : Stm} (hs : s ≠ .nil) : bare s ≠ .nil := by
  cases s <;> first
    | exact absurd rfl hs
    | (unfold bare; exact unparen_nil _ _)
    | (unfold bare; exact nofun)

theorem bareL_append (l l' : List Stm) : bareL (l ++ l') = bareL l ++ bareL l' := by
  induction l with
  | nil => rfl
  | cons s l ih => simp [bareL, ih]

theorem bareL_reverse (l : List Stm) : bareL l.reverse = (bareL l).reverse := by
  induction l with
  | nil => rfl
  | cons s l ih => simp [bareL, bareL_append, ih]

theorem noArgs_one {s : Stm} (h : s ≠ .nil) : noArgs [s] = [s] := by
  cases s <;> first | exact absurd rfl h | rfl

theorem bare_elem {s : Stm} (hs : s ≠ .nil) : bare (.exprs [s] false) = bare s := by
  simp only [bare, bareL, unparen, noArgs_one (bare_nil hs)]

theorem showsL_append (lv : Place) (l l' : List Stm) : showsL lv (l ++ l') ↔ showsL lv l ∧ showsL lv l' := by
  induction l with
  | nil => simp [showsL]
  | cons s l ih => simp [showsL, ih, and_assoc]

theorem showsB_append (l l' : List Stm) : showsB (l ++ l') ↔ showsB l ∧ showsB l' := by
  induction l with
  | nil => simp [showsB]
  | cons s l ih => simp [showsB, ih, and_assoc]

variable [Letters]

mutual
theorem ReI.bare : ∀ {lv dot s i}, ReI true dot s i → showsE lv s → bare i.tree = bare s
  | _, _, _, _, .name _, _ => rfl
  | _, _, _, _, .call _ ha, h => by simp only [showsE] at h; simp only [Ident.tree, Spec.bare]; rw [ha.bare h]
  | _, _, _, _, .exec _ he, h => by
    simp only [showsE, showsL, and_true] at h
    simp only [Ident.tree, Spec.bare, bareL]; rw [he.bare h]
  | _, _, _, _, .item hi he, h => by
    simp only [showsE] at h
    simp only [Ident.tree, Spec.bare]; rw [hi.bare h.2, he.bare h.1]
theorem ReP.bare : ∀ {lv s p}, ReP true s p → showsE lv s → bare p.tree = bare s
  | _, _, _, .one h, hs => by simp only [Path.tree]; exact h.bare hs
  | _, _, _, .dot (p := p) hp hi, hs => by
    simp only [showsE] at hs
    simp only [Path.tree, Spec.bare]; rw [hp.bare hs.2.2, hi.bare hs.2.1]
theorem ReA.bare : ∀ {l a}, ReA true l a → showsL .arg l → noArgs (bareL a.tree) = noArgs (bareL l)
  | _, _, .nil, _ => rfl
  | _, _, .one (s := s) (o := o) h, hs => by
    simp only [showsL, and_true] at hs
    simp only [Args.tree, bareL, h.bare hs]
  | _, _, .snoc (l := l) (s := s) (a := a) (o := o) hl ha ho, hs => by
    rw [showsL_append] at hs
    simp only [showsL, and_true] at hs
    simp only [Args.tree, bareL_append, bareL, ho.bare hs.2]
    rw [ha.bareL hl hs.1]
theorem ReA.bareL : ∀ {l a}, ReA true l a → l ≠ [] → showsL .arg l → bareL a.tree = bareL l
  | _, _, .nil, hl, _ => absurd rfl hl
  | _, _, .one (s := s) (o := o) h, _, hs => by
    simp only [showsL, and_true] at hs
    simp only [Args.tree, Spec.bareL, h.bare hs]
  | _, _, .snoc (l := l) (s := s) (a := a) (o := o) hl ha ho, _, hs => by
    rw [showsL_append] at hs
    simp only [showsL, and_true] at hs
    simp only [Args.tree, bareL_append, Spec.bareL, ho.bare hs.2]
    rw [ha.bareL hl hs.1]
theorem ReO.bare : ∀ {s o}, ReO true s o → showsE .arg s → bare o.tree = bare s
  | _, _, .none, _ => rfl
  | _, _, .some h, hs => h.bare hs
theorem ReN.bare : ∀ {c ps n}, ReN true c ps n → showsL .arg ps → bare n.tree = bare (.new c ps)
  | _, _, _, .call _ ha, h => by simp only [New.tree, Spec.bare]; rw [ha.bare h]
  | _, _, _, .args ha, h => by simp only [New.tree, Spec.bare]; rw [ha.bare h]
theorem ReE.bare : ∀ {lv s e}, ReE true lv s e → showsE lv s → bare e.tree = bare s
  | lv, _, _, .num (x := x) hx, _ => by
    obtain ⟨_, h2, h3⟩ := printed_spec hx
    have hn : (printed x).negate.roundInt = x.roundInt := by rw [← h3]; rfl
    have hm : (printed x).negate.neg = true := by simp [F64.negate, h2]
    simp only [Expr.tree]
    unfold numE
    cases hx' : x.neg with
    | true => simp [Simple.tree, Expr.tree, withMinus, Spec.bare, hn, hm, hx']
    | false => simp [Simple.tree, Spec.bare, h2, h3, hx']
  | lv, _, _, .str _, _ => rfl
  | lv, _, _, .bool, _ => rfl
  | lv, _, _, .date _, _ => rfl
  | lv, _, _, .undef, _ => rfl
  | lv, _, _, .path h, hs => by simp only [Expr.tree]; exact h.bare hs
  | lv, _, _, .minus (p := p) h, hs => by simp [showsE] at hs
  | lv, _, _, .notChain (u := u) (c := c) h, hs => by
    have hs' : showsE .arg (.chain u c false false) := by simp only [showsE] at hs ⊢; exact ⟨trivial, hs.2⟩
    have h1 := h.bare hs'
    obtain ⟨p', i, rfl, _, _⟩ := h.chain_inv
    simp only [showsE] at hs
    simp only [Expr.tree, Path.tree, withNot, Spec.bare] at h1 ⊢
    injection h1 with h1 h2
    rw [h1, h2, hs.1]
  | lv, _, _, .notCall (f := f) (ps := ps) h, hs => by
    have hs' : showsE .arg (.method f ps false) := by simpa only [showsE] using hs
    have h1 := h.bare hs'
    obtain ⟨f', ps', e⟩ := h.call_inv
    simp only [Expr.tree, e, withNot, Spec.bare] at h1 ⊢
    injection h1 with h1 h2
    rw [h1, h2]
  | lv, _, _, .var (n := n) (u := u) (nt := nt) _ _, _ => by
    have : (signsE u nt (Expr.path (.one (.name n)))).tree = .var n u nt := by
      cases u <;> cases nt <;> rfl
    rw [this]
  | _, _, _, .varArg _, hs => by
    simp only [showsE, true_implies] at hs
    obtain ⟨rfl, rfl⟩ := hs
    rfl
  | lv, _, _, .ternary hc ht he, hs => by
    simp only [showsE] at hs
    simp only [Expr.tree, Spec.bare]
    rw [hc.bare hs.1, ht.bare hs.2.1, he.bare hs.2.2]
  | lv, _, _, .new h, hs => by
    simp only [showsE] at hs
    simp only [Expr.tree]; exact h.bare hs
  | lv, _, _, .elem (s := s) h hg, hs => by
    simp only [showsE, showsL, and_true] at hs
    rw [bare_elem h.ne_nil]
    exact h.bare hs
  | lv, _, _, .notElem h, hs => by
    simp only [showsE, showsL, and_true] at hs
    simp only [parenE, Expr.tree, Args.tree, OptExpr.tree, withNot, Spec.bare, Spec.bareL]
    rw [h.bare hs]
  | lv, _, _, .bin (op := op) (a := a) (b := b) (u := u) (n := n) hl hr hv hg, hs => by
    obtain ⟨rfl, _⟩ := hg rfl
    simp only [showsE] at hs
    have h1 := hl.bare hs.1
    have h2 := hr.bare hs.2
    cases n with
    | false =>
      simp only [binE, Bool.or_false, Bool.false_eq_true, if_false, Expr.tree, Spec.bare]
      rw [h1, h2]
    | true =>
      simp only [binE, Bool.or_true, if_true, signsE, Bool.false_eq_true, if_false, parenE, Expr.tree, Args.tree, OptExpr.tree, withNot,
        Spec.bare, Spec.bareL]
      rw [h1, h2]
      rfl
  | _, _, _, .inner (op := op) (u := u) (n := n) hl hr hg, hs => by
    obtain ⟨rfl, rfl, _⟩ := hg rfl
    simp only [showsE] at hs
    have h1 := hl.bare hs.1
    have h2 := hr.bare hs.2
    simp only [binE, Bool.or_false, Bool.false_eq_true, if_false, parenE, Expr.tree, Args.tree, OptExpr.tree]
    rw [bare_elem (s := .bin op _ _ false false) (fun e => nomatch e)]
    simp only [Spec.bare]
    rw [h1, h2]
end

theorem ReSrc.bare {s x} (h : ReSrc true s x) (hs : showsE .top s) : bare x.tree = bare s := by
  cases h with
  | path h => exact h.bare hs
  | new h => simp only [showsE] at hs; exact h.bare hs
  | ternary h1 h2 h3 => exact (ReE.ternary (lv := .top) h1 h2 h3).bare hs

mutual
theorem ReS.bare : ∀ {s s' p}, ReS true s s' p → showsS s → bare s'.tree = bare (turn s)
  | _, _, _, .assign hp he, hs => by
    simp only [showsS, showsL, and_true] at hs
    simp only [Stmt.tree, turn, Spec.bare, bareL]
    rw [hp.bare hs.1, he.bare hs.2]
  | _, _, _, .chain (u := u) (c := c) (m := m) (n := n) hp, hs => by
    simp only [showsS] at hs
    obtain ⟨rfl, hs⟩ := hs
    have hm := hs
    simp only [showsE] at hm
    obtain ⟨rfl, _⟩ := hm
    exact hp.bare hs
  | _, _, _, .bin (op := op) (u := u) (n := n) h _, hs => by
    simp only [showsS] at hs
    exact h.bare hs
  | s, _, _, .expr he h hx, hs => by
    have : showsE .arg s := by
      cases s <;> first | exact absurd he id | (simpa only [showsS] using hs)
    rw [turn_expr he]
    exact h.bare this
  | _, _, _, .ifS (ei := ei) (el := el) (es := es) (e := e) hc ht hei hel, hs => by
    simp only [showsS] at hs
    simp only [Stmt.tree, turn, Spec.bare, bareL_reverse]
    rw [hc.bare hs.1, ht.bare hs.2.1, hei.bare hs.2.2.1, hel.bare hs.2.2.2]
  | _, _, _, .forEach (s := s) _ hi hb, hs => by
    simp only [showsS] at hs
    simp only [Stmt.tree, turn, Spec.bare]
    rw [hi.bare hs.2.2.1, hb.bare hs.2.2.2.2]
  | _, _, _, .forTo (f' := f') (z' := z') hf hz hb, hs => by
    simp only [showsS] at hs
    simp only [Stmt.tree, turn, Spec.bare]
    rw [hf.bare hs.1, hz.bare hs.2.1, hb.bare hs.2.2.2.2]
  | _, _, _, .whileS (c' := c') hc hb, hs => by
    simp only [showsS] at hs
    simp only [Stmt.tree, turn, Spec.bare]
    rw [hc.bare hs.2.2.2.1, hb.bare hs.2.2.2.2]
  | _, _, _, .tryS h1 h2, hs => by
    simp only [showsS] at hs
    simp only [Stmt.tree, turn, Spec.bare]
    rw [h1.bare hs.1, h2.bare hs.2]
  | _, _, _, .cont, _ => rfl
  | _, _, _, .brk, _ => rfl
  | _, _, _, .rethrow, _ => rfl
  | _, _, _, .throwList ha, hs => by
    simp only [showsS] at hs
    obtain ⟨rfl, hs⟩ := hs
    simp only [Stmt.tree, OptExpr.tree, Expr.tree, turn, Spec.bare, unparen]
    rw [ha.bare hs]
  | _, _, _, .throw (s := s) h hx, hs => by
    have : showsE .arg s := by
      cases s <;> first | exact absurd trivial hx | (simpa only [showsS] using hs)
    simp only [Stmt.tree, OptExpr.tree, Expr.tree, parenE, Args.tree, turn]
    simp only [Spec.bare.eq_def (.throw _)]
    rw [bare_elem (Expr.tree_ne _), h.bare this]
  | _, _, _, .ret, _ => rfl
  | _, _, _, .retValue (e := e) h, hs => by
    simp only [showsS] at hs
    simp only [Stmt.tree, OptExpr.tree, turn, Spec.bare]
    rw [h.bare hs]
  | _, _, _, .label _, _ => rfl
  | _, _, _, .goto _, _ => rfl
theorem ReEl.bare : ∀ {l es}, ReEl true l es → showsB l → bareL es.tree = bareL (turnL l)
  | _, _, .nil, _ => rfl
  | _, _, .cons hc hb hr, hs => by
    simp only [showsB, showsS] at hs
    simp only [Elifs.tree, turnL, turn, bareL, Spec.bare, List.reverse_nil]
    rw [hc.bare hs.1.1, hb.bare hs.1.2.1, hr.bare hs.2]
theorem ReElse.bare : ∀ {l e}, ReElse true l e → showsB l → bareL e.tree = bareL (turnL l)
  | _, _, .none, _ => rfl
  | _, _, .some _ hb, hs => hb.bare hs
theorem ReB.bare : ∀ {l b}, ReB true l b → showsB l → bareL b.tree = bareL (turnL l)
  | _, _, .empty, _ => rfl
  | _, _, .body hb, hs => by
    simp only [Block.tree, Body.tree, OptStmt.tree, List.append_nil]
    exact hb.bare hs
theorem ReBody.bare : ∀ {l b p}, ReBody true l b p → showsB l → bareL b.tree = bareL (turnL l)
  | _, _, _, .one h, hs => by
    simp only [showsB, and_true] at hs
    simp only [Body.tree, turnL, bareL]
    rw [h.bare hs]
  | _, _, _, .snoc hb h, hs => by
    rw [showsB_append] at hs
    simp only [showsB, and_true] at hs
    simp only [Body.tree, OptStmt.tree, Block.tree, turnL_append, turnL, bareL_append, bareL]
    rw [hb.bare hs.1, h.bare hs.2]
end

/-! ## Declarations -/

omit [Letters] in
theorem shows_lit {lv : Place} {s : Stm} (h : IsLit s) : showsE lv s := by
  cases s <;> first | exact absurd h id | trivial

/-- The parameter without what does not count in its default value. -/
abbrev bareParam (p : Param) : Param := { p with default := bare p.default }

theorem ReParam.bare {p d} (h : ReParam true p d) : bareParam d.tree = bareParam p := by
  cases h with
  | plain => rfl
  | default _ hl h =>
    have := h.bare (shows_lit hl)
    simp only [Expr.tree] at this
    simp only [bareParam, ParamD.tree, List.getLast?_singleton, this]

theorem ReFunc.bare {f d} (h : ReFunc true f d) (hs : showsB f.body) : bareFunc d.tree = bareFunc (turnFunc f) := by
  cases h with
  | @mk vars n dir body ps isF ex ds b hn hd hp hb =>
    have hd : (dirOf dir).getD [] = dir := by
      unfold dirOf
      split
      · rename_i h; rw [h]; rfl
      · rfl
    have hb := hb.bare hs
    clear hs
    have hl : ((paramsOf ds).list.map ParamD.tree).map bareParam = ps.map bareParam := by
      have e : (paramsOf ds).list = ds := by cases ds <;> simp [paramsOf, ParamsD.list]
      rw [e]
      clear e
      induction hp with
      | nil => rfl
      | cons h _ ih => simp only [List.map_cons, ih, h.bare]
    unfold bareFunc turnFunc FuncD.tree
    simp only [hd, hb]
    congr 1

omit [Letters] in
theorem bareL_items (l : List Stm) : (l.map Item.stm).map bareItem = (bareL l).map Item.stm := by
  induction l with
  | nil => rfl
  | cons s l ih => simp only [List.map_cons, ih, bareL, bareItem]

omit [Letters] in
theorem shows_items {l : List Stm} (h : ∀ s ∈ l, showsS s) : showsB l := by
  induction l with
  | nil => trivial
  | cons s l ih => exact ⟨h s (by simp), ih fun x hx => h x (by simp [hx])⟩

theorem ReM.bare {gs fs l ds b} (h : ReM true gs fs l ds b) (hf : ∀ f ∈ fs, showsB f.body) (hl : ∀ s ∈ l, showsS s) :
    (progOf gs ds b).tree.body.map bareItem = ((fs.map turnFunc).map Item.func ++ (turnL l).map Item.stm).map bareItem := by
  have e : (progOf gs ds b).tree.body = (ds.map FuncD.tree).map .func ++ b.tree.map .stm := by
    rw [Program.tree, funcs_progOf]
    simp [progOf]
  have hd : ((ds.map FuncD.tree).map Item.func).map bareItem = ((fs.map turnFunc).map Item.func).map bareItem := by
    have := h.funcs
    clear h hl e
    induction this with
    | nil => rfl
    | cons hx _ ih =>
      simp only [List.map_cons, bareItem, hx.bare (hf _ (by simp)), ih fun f h => hf f (by simp [h])]
  rw [e, List.map_append, List.map_append, hd, bareL_items, bareL_items, h.body.bare (shows_items hl)]

end Verif
