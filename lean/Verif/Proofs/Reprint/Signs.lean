import Verif.Proofs.Reprint.Turn
/-!
# Signs that are not printed are lost
-/
namespace Verif
open Spec Lexer

mutual
/-- The number of signs. -/
def signs : Stm → Nat
  | .chain u c m n => signs u + signs c + m.toNat + n.toNat
  | .method _ ps n => signsL ps + n.toNat
  | .var _ u n => u.toNat + n.toNat
  | .item i o => signs i + signs o
  | .ternary c t e => signs c + signs t + signs e
  | .new _ ps => signsL ps
  | .exprs l n => signsL l + n.toNat
  | .bin _ l r u n => signs l + signs r + u.toNat + n.toNat
  | .assign v l => signs v + signsL l
  | .ifS c t ei el => signs c + signsL t + signsL ei + signsL el
  | .loop f z i w b => signs f + signs z + signs i + signs w + signsL b
  | .tryS b h => signsL b + signsL h
  | .throw s => signs s
  | .ret s => signs s
  | _ => 0
def signsL : List Stm → Nat
  | [] => 0
  | s :: l => signs s + signsL l
end

theorem signsL_append (l l' : List Stm) : signsL (l ++ l') = signsL l + signsL l' := by
  induction l with
  | nil => simp [signsL]
  | cons s l ih => simp [signsL, ih, Nat.add_assoc]

theorem signsL_reverse (l : List Stm) : signsL l.reverse = signsL l := by
  induction l with
  | nil => rfl
  | cons s l ih => simp [signsL, signsL_append, ih, Nat.add_comm]

theorem signs_noArgs (l : List Stm) : signsL (noArgs l) = signsL l := by
  unfold noArgs
  split
  · simp [signsL, signs]
  · rfl

theorem signs_unparen (l : List Stm) (n : Bool) : signs (unparen l n) = signsL l + n.toNat := by
  rw [← signs_noArgs l]
  unfold unparen
  split
  · next h => rw [h]; simp [signsL]
  · next h => rw [h]; simp [signsL, signs]
  · simp only [signs]

mutual
theorem signs_bare : ∀ s, signs (bare s) = signs s
  | .chain u c m n => by simp only [bare, signs, signs_bare u, signs_bare c]
  | .method _ ps n => by simp only [bare, signs, signs_noArgs, signsL_bare ps]
  | .item i o => by simp only [bare, signs, signs_bare i, signs_bare o]
  | .ternary c t e => by simp only [bare, signs, signs_bare c, signs_bare t, signs_bare e]
  | .new _ ps => by simp only [bare, signs, signs_noArgs, signsL_bare ps]
  | .exprs l n => by simp only [bare, signs, signs_unparen, signsL_bare l]
  | .bin _ l r u n => by simp only [bare, signs, signs_bare l, signs_bare r]
  | .assign v l => by simp only [bare, signs, signs_bare v, signsL_bare l]
  | .ifS c t ei el => by simp only [bare, signs, signs_bare c, signsL_bare t, signsL_bare ei, signsL_bare el]
  | .loop f z i w b => by simp only [bare, signs, signs_bare f, signs_bare z, signs_bare i, signs_bare w, signsL_bare b]
  | .tryS b h => by simp only [bare, signs, signsL_bare b, signsL_bare h]
  | .throw s => by simp only [bare, signs, signs_bare s]
  | .ret s => by simp only [bare, signs, signs_bare s]
  | .num _ => by simp only [bare, signs]
  | .var _ _ _ | .str _ | .bool _ | .date _ | .undef | .nil | .brk | .cont | .label _ | .goto _ => by simp only [bare]
theorem signsL_bare : ∀ l, signsL (bareL l) = signsL l
  | [] => by simp only [bareL]
  | s :: l => by simp only [bareL, signsL, signs_bare s, signsL_bare l]
end

mutual
theorem signs_turn : ∀ s, signs (turn s) = signs s
  | .ifS c t ei el => by simp only [turn, signs, signsL_reverse, signsL_turn t, signsL_turn ei, signsL_turn el]
  | .loop f z i w b => by simp only [turn, signs, signsL_turn b]
  | .tryS b h => by simp only [turn, signs, signsL_turn b, signsL_turn h]
  | .num _ | .str _ | .bool _ | .date _ | .undef | .var _ _ _ | .method _ _ _ | .item _ _ | .ternary _ _ _ | .new _ _ | .exprs _ _
  | .chain _ _ _ _ | .bin _ _ _ _ _ | .assign _ _ | .nil | .brk | .cont | .throw _ | .ret _ | .label _ | .goto _ => by simp only [turn]
theorem signsL_turn : ∀ l, signsL (turnL l) = signsL l
  | [] => by simp only [turnL]
  | s :: l => by simp only [turnL, signsL, signs_turn s, signsL_turn l]
end

/-- Signs may get lost; if none is lost, `P` holds. -/
def Loses (a b : Nat) (P : Prop) : Prop := a ≤ b ∧ (a = b → P)

theorem Loses.refl {a : Nat} {P : Prop} (h : P) : Loses a a P := ⟨Nat.le_refl _, fun _ => h⟩
theorem Loses.imp {a b : Nat} {P Q : Prop} (h : Loses a b P) (hi : P → Q) : Loses a b Q := ⟨h.1, fun e => hi (h.2 e)⟩
theorem Loses.add {a b a' b' : Nat} {P Q : Prop} (h : Loses a b P) (h' : Loses a' b' Q) : Loses (a + a') (b + b') (P ∧ Q) :=
  ⟨Nat.add_le_add h.1 h'.1, fun e => ⟨h.2 (by have := h.1; have := h'.1; omega), h'.2 (by have := h.1; have := h'.1; omega)⟩⟩
theorem Loses.plus {a b : Nat} {P : Prop} (h : Loses a b P) (n : Nat) : Loses (a + n) (b + n) P :=
  ⟨by have := h.1; omega, fun e => h.2 (by omega)⟩
theorem Loses.flag {a b : Nat} {P : Prop} (h : Loses a b P) (n : Bool) : Loses a (b + n.toNat) (n = false ∧ P) := by
  cases n with
  | false => exact ⟨h.1, fun e => ⟨rfl, h.2 e⟩⟩
  | true =>
    refine ⟨by have := h.1; simp; omega, fun e => ?_⟩
    have := h.1
    simp at e
    omega

variable [Letters]

mutual
theorem ReI.signs : ∀ {lv dot s i}, ReI true dot s i → Loses (signs i.tree) (signs s) (showsE lv s)
  | _, _, _, _, .name _ => by simp only [Ident.tree]; exact .refl (by simp [showsE])
  | _, _, _, _, .call _ ha => by simp only [Ident.tree, Verif.signs, showsE]; exact ha.signs.plus _
  | _, _, _, _, .exec _ he => by
    simp only [Ident.tree, Verif.signs, signsL, showsE, showsL, and_true, Nat.add_zero]
    exact he.signs.plus _
  | _, _, _, _, .item hi he => by simp only [Ident.tree, Verif.signs, showsE]; exact he.signs.add hi.signs
theorem ReP.signs : ∀ {lv s p}, ReP true s p → Loses (signs p.tree) (signs s) (showsE lv s)
  | _, _, _, .one h => by simp only [Path.tree]; exact h.signs
  | _, _, _, .dot hp hi => by
    simp only [Path.tree, Verif.signs, showsE, true_and]
    exact ((hi.signs.add hp.signs).plus _).plus _
theorem ReA.signs : ∀ {l a}, ReA true l a → Loses (signsL a.tree) (signsL l) (showsL .arg l)
  | _, _, .nil => by simp only [Args.tree, OptExpr.tree, signsL, Verif.signs]; exact .refl trivial
  | _, _, .one h => by
    simp only [Args.tree, signsL, showsL, and_true, Nat.add_zero]
    exact h.signs
  | _, _, .snoc hl ha ho => by
    rw [showsL_append]
    simp only [Args.tree, signsL_append, signsL, showsL, and_true, Nat.add_zero]
    exact ha.signs.add ho.signs
theorem ReO.signs : ∀ {s o}, ReO true s o → Loses (signs o.tree) (signs s) (showsE .arg s)
  | _, _, .none => by simp only [OptExpr.tree]; exact .refl (by simp [showsE])
  | _, _, .some h => h.signs
theorem ReN.signs : ∀ {c ps n}, ReN true c ps n → Loses (signs n.tree) (signsL ps) (showsL .arg ps)
  | _, _, _, .call _ ha => by simp only [New.tree, Verif.signs]; exact ha.signs
  | _, _, _, .args ha => by simp only [New.tree, Verif.signs]; exact ha.signs
theorem ReE.signs : ∀ {lv s e}, ReE true lv s e → Loses (signs e.tree) (signs s) (showsE lv s)
  | lv, _, _, .num (x := x) hx => by
    simp only [Expr.tree]
    unfold numE
    have h : showsE lv (.num x) := by simp only [showsE]
    cases x.neg with
    | true => simp only [if_true, Simple.tree, Expr.tree, withMinus, Verif.signs]; exact .refl h
    | false => simp only [Bool.false_eq_true, if_false, Simple.tree, Verif.signs]; exact .refl h
  | lv, _, _, .str _ => .refl (by simp only [showsE])
  | lv, _, _, .bool => .refl (by simp only [showsE])
  | lv, _, _, .date _ => .refl (by simp only [showsE])
  | lv, _, _, .undef => .refl (by simp only [showsE])
  | lv, _, _, .path h => by simp only [Expr.tree]; exact h.signs
  | lv, _, _, .minus (u := u) (c := c) h => by
    have := (h.signs (lv := .arg)).1
    simp only [Expr.tree, Verif.signs, Bool.toNat_false, Bool.toNat_true] at this ⊢
    exact ⟨by omega, fun e => by omega⟩
  | lv, _, _, .notChain (u := u) (c := c) (m := m) h => by
    have h1 := h.signs (lv := .arg)
    obtain ⟨p', i, rfl, _, _⟩ := h.chain_inv
    simp only [Expr.tree, Path.tree, withNot, Verif.signs, showsE, Bool.toNat_false, Bool.toNat_true, Nat.add_zero, true_and] at h1 ⊢
    exact (h1.flag m).plus 1
  | lv, _, _, .notCall (f := f) (ps := ps) h => by
    have h1 := h.signs (lv := .arg)
    obtain ⟨f', ps', e⟩ := h.call_inv
    simp only [Expr.tree, e, withNot, Verif.signs, showsE, Bool.toNat_false, Bool.toNat_true, Nat.add_zero] at h1 ⊢
    exact h1.plus 1
  | lv, _, _, .var (n := n) (u := u) (nt := nt) _ hl => by
    have : (signsE u nt (Expr.path (.one (.name n)))).tree = .var n u nt := by
      cases u <;> cases nt <;> rfl
    rw [this]
    exact .refl (by simp only [showsE]; exact fun e => absurd e hl)
  | _, _, _, .varArg (n := n) (u := u) (nt := nt) _ => by
    simp only [Expr.tree, Path.tree, Ident.tree, Verif.signs, showsE, true_implies, Bool.toNat_false]
    have := ((Loses.refl (a := 0) trivial).flag u).flag nt
    simp only [Nat.zero_add, Nat.add_zero, and_true] at this ⊢
    exact this.imp fun h => ⟨h.2, h.1⟩
  | lv, _, _, .ternary hc ht he => by
    simp only [Expr.tree, Verif.signs, showsE]
    exact ((hc.signs.add ht.signs).add he.signs).imp fun h => ⟨h.1.1, h.1.2, h.2⟩
  | lv, _, _, .new h => by simp only [Expr.tree, Verif.signs, showsE]; exact h.signs
  | lv, _, _, .elem h hg => by
    simp only [Verif.signs, signsL, showsE, showsL, and_true, Bool.toNat_false, Nat.add_zero]
    exact h.signs
  | lv, _, _, .notElem h => by
    simp only [parenE, Expr.tree, Args.tree, OptExpr.tree, withNot, Verif.signs, signsL, showsE, showsL, and_true, Nat.add_zero]
    exact h.signs.plus _
  | lv, _, _, .bin (u := u) (n := n) hl hr hv hg => by
    obtain ⟨rfl, _⟩ := hg rfl
    have := hl.signs.add hr.signs
    cases n with
    | false =>
      simp only [binE, Bool.or_false, Bool.false_eq_true, if_false, Expr.tree, Verif.signs, showsE, Bool.toNat_false, Nat.add_zero]
      exact this
    | true =>
      simp only [binE, Bool.or_true, if_true, signsE, Bool.false_eq_true, if_false, parenE, Expr.tree, Args.tree, OptExpr.tree, withNot,
        Verif.signs, signsL, showsE, Bool.toNat_false, Bool.toNat_true, Nat.add_zero]
      exact this.plus 1
  | _, _, _, .inner (u := u) (n := n) hl hr hg => by
    obtain ⟨rfl, rfl, _⟩ := hg rfl
    simp only [binE, Bool.or_false, Bool.false_eq_true, if_false, parenE, Expr.tree, Args.tree, OptExpr.tree, Verif.signs, signsL, showsE,
      Bool.toNat_false, Nat.add_zero]
    exact hl.signs.add hr.signs
end

theorem ReSrc.signs {s x} (h : ReSrc true s x) : Loses (signs x.tree) (signs s) (showsE .top s) := by
  cases h with
  | path h => exact h.signs
  | new h => simp only [Source.tree, Verif.signs, showsE]; exact h.signs
  | ternary h1 h2 h3 => exact (ReE.ternary (lv := .top) h1 h2 h3).signs

mutual
theorem ReS.signs : ∀ {s s' p}, ReS true s s' p → Loses (signs s'.tree) (signs s) (showsS s)
  | _, _, _, .assign hp he => by
    simp only [Stmt.tree, Verif.signs, signsL, showsS, showsL, and_true, Nat.add_zero]
    exact hp.signs.add he.signs
  | _, _, _, .chain (m := m) (n := n) hp => by
    have := hp.signs (lv := .arg)
    simp only [Stmt.tree, Expr.tree, Verif.signs, showsS, showsE, Bool.toNat_false, Nat.add_zero, true_and] at this ⊢
    exact (this.flag m).flag n
  | _, _, _, .bin h _ => by
    have := h.signs
    simp only [Stmt.tree, showsS]
    exact this
  | s, _, _, .expr he h hx => by
    refine h.signs.imp fun this => ?_
    cases s <;> first | exact absurd he id | (simpa only [showsS] using this)
  | _, _, _, .ifS hc ht hei hel => by
    simp only [Stmt.tree, Verif.signs, showsS, signsL_reverse]
    exact (((hc.signs.add ht.signs).add hei.signs).add hel.signs).imp fun h => ⟨h.1.1.1, h.1.1.2, h.1.2, h.2⟩
  | _, _, _, .forEach _ hi hb => by
    simp only [Stmt.tree, Verif.signs, showsS, showsE, Nat.add_zero, Nat.zero_add, true_and]
    exact hi.signs.add hb.signs
  | _, _, _, .forTo hf hz hb => by
    simp only [Stmt.tree, Verif.signs, showsS, showsE, Nat.add_zero, true_and]
    exact ((hf.signs.add hz.signs).add hb.signs).imp fun h => ⟨h.1.1, h.1.2, h.2⟩
  | _, _, _, .whileS hc hb => by
    simp only [Stmt.tree, Verif.signs, showsS, showsE, Nat.zero_add, true_and]
    exact hc.signs.add hb.signs
  | _, _, _, .tryS h1 h2 => by
    simp only [Stmt.tree, Verif.signs, showsS]
    exact h1.signs.add h2.signs
  | _, _, _, .cont => .refl (by simp only [showsS, showsE])
  | _, _, _, .brk => .refl (by simp only [showsS, showsE])
  | _, _, _, .rethrow => .refl (by simp only [showsS, showsE])
  | _, _, _, .throwList (n := n) ha => by
    simp only [Stmt.tree, OptExpr.tree, Expr.tree, Verif.signs, showsS, Bool.toNat_false, Nat.add_zero]
    exact ha.signs.flag n
  | _, _, _, .throw (s := s) h hx => by
    simp only [Stmt.tree, OptExpr.tree, Expr.tree, parenE, Args.tree, Verif.signs, signsL, Bool.toNat_false, Nat.add_zero]
    refine h.signs.imp fun this => ?_
    cases s <;> first | exact absurd trivial hx | (simpa only [showsS] using this)
  | _, _, _, .ret => .refl (by simp only [showsS, showsE])
  | _, _, _, .retValue h => by
    simp only [Stmt.tree, OptExpr.tree, Verif.signs, showsS]
    exact h.signs
  | _, _, _, .label _ => .refl (by simp only [showsS, showsE])
  | _, _, _, .goto _ => .refl (by simp only [showsS, showsE])
theorem ReEl.signs : ∀ {l es}, ReEl true l es → Loses (signsL es.tree) (signsL l) (showsB l)
  | _, _, .nil => .refl trivial
  | _, _, .cons hc hb hr => by
    simp only [Elifs.tree, signsL, Verif.signs, showsB, showsS, Nat.add_zero, and_true]
    exact (hc.signs.add hb.signs).add hr.signs
theorem ReElse.signs : ∀ {l e}, ReElse true l e → Loses (signsL e.tree) (signsL l) (showsB l)
  | _, _, .none => .refl trivial
  | _, _, .some _ hb => hb.signs
theorem ReB.signs : ∀ {l b}, ReB true l b → Loses (signsL b.tree) (signsL l) (showsB l)
  | _, _, .empty => .refl trivial
  | _, _, .body hb => by
    simp only [Block.tree, Body.tree, OptStmt.tree, List.append_nil]
    exact hb.signs
theorem ReBody.signs : ∀ {l b p}, ReBody true l b p → Loses (signsL b.tree) (signsL l) (showsB l)
  | _, _, _, .one h => by
    simp only [Body.tree, signsL, showsB, and_true, Nat.add_zero]
    exact h.signs
  | _, _, _, .snoc hb h => by
    rw [showsB_append]
    simp only [Body.tree, OptStmt.tree, Block.tree, signsL_append, signsL, showsB, and_true, Nat.add_zero]
    exact hb.signs.add h.signs
end

omit [Letters] in
theorem showsB_all {l : List Stm} (h : showsB l) : ∀ s ∈ l, showsS s := by
  induction l with
  | nil => intro s hs; cases hs
  | cons a l ih =>
    intro s hs
    rcases List.mem_cons.1 hs with rfl | hs
    · exact h.1
    · exact ih h.2 s hs

/-- If what is read says the same as the turned module, all signs are printed. -/
theorem ReM.shows {gs fs l ds b} (h : ReM true gs fs l ds b)
    (he : (progOf gs ds b).tree.body.map bareItem = ((fs.map turnFunc).map Item.func ++ (turnL l).map Item.stm).map bareItem) :
    (∀ f ∈ fs, showsB f.body) ∧ ∀ s ∈ l, showsS s := by
  have e : (progOf gs ds b).tree.body = (ds.map FuncD.tree).map .func ++ b.tree.map .stm := by
    rw [Program.tree, funcs_progOf]
    simp [progOf]
  rw [e, List.map_append, List.map_append] at he
  obtain ⟨e1, e2⟩ := List.append_inj he (by simp [h.funcs.length_eq])
  refine ⟨?_, ?_⟩
  · have := h.funcs
    clear e2 he h e
    induction this with
    | nil => intro f hf; cases hf
    | @cons f d fs ds hx _ ih =>
      simp only [List.map_cons, List.cons.injEq] at e1
      intro g hg
      rcases List.mem_cons.1 hg with rfl | hg
      · have e3 := e1.1
        simp only [bareItem] at e3
        injection e3 with e3
        have e4 : bareL d.body.tree = bareL (turnL g.body) := congrArg FuncDecl.body e3
        have e5 := congrArg signsL e4
        rw [signsL_bare, signsL_bare, signsL_turn] at e5
        cases hx with
        | mk _ _ _ hb => exact hb.signs.2 e5
      · exact ih e1.2 g hg
  · rw [bareL_items, bareL_items] at e2
    have e3 : bareL b.tree = bareL (turnL l) := List.map_injective_iff.2 (fun x y h => by injection h) e2
    have e5 := congrArg signsL e3
    rw [signsL_bare, signsL_bare, signsL_turn] at e5
    exact showsB_all (h.body.signs.2 e5)

end Verif
