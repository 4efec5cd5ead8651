import Verif.Proofs.Reprint.StmtBack
/-!
# The rules on `Прервать`, `ВызватьИсключение` and `Возврат` can be read off the tree
-/
namespace Verif
open Spec

mutual
/-- Number of loops `Пока`. -/
def wh : Stm → Nat
  | .ifS _ t ei el => whL t + whL ei + whL el
  | .loop _ _ _ .nil b => whL b
  | .loop _ _ _ _ b => 1 + whL b
  | .tryS b h => whL b + whL h
  | _ => 0
def whL : List Stm → Nat
  | [] => 0
  | s :: l => wh s + whL l
end
mutual
/-- `Прервать` and `Продолжить` are allowed. -/
def tb (n : Nat) : Stm → Prop
  | .ifS _ t ei el => tbL n t ∧ tbR (n + whL t) ei ∧ tbL (n + whL t + whL ei) el
  | .loop _ _ _ _ b => tbL (n + 1) b
  | .tryS b h => tbL n b ∧ tbL (n + whL b) h
  | .brk => 0 < n
  | .cont => 0 < n
  | _ => True
def tbL (n : Nat) : List Stm → Prop
  | [] => True
  | s :: l => tb n s ∧ tbL (n + wh s) l
/-- The same for a list in reverse order. -/
def tbR (n : Nat) : List Stm → Prop
  | [] => True
  | s :: l => tbR n l ∧ tb (n + whL l) s
end
theorem wh_loop {f z i w b} (h : w ≠ .nil) : wh (.loop f z i w b) = 1 + whL b := by
  cases w <;> first | exact absurd rfl h | (unfold wh; rfl)
theorem th_throw {n p} (h : p ≠ .nil) : th n (.throw p) ↔ True := by
  cases p <;> first | exact absurd rfl h | (unfold th; rfl)
theorem rt_ret {f p} (h : p ≠ .nil) : rt f (.ret p) ↔ f = true := by
  cases p <;> first | exact absurd rfl h | (unfold rt; rfl)

theorem whL_append : ∀ l l', whL (l ++ l') = whL l + whL l'
  | [], l' => by simp [whL]
  | s :: l, l' => by simp [whL, whL_append l l', Nat.add_assoc]
theorem whL_reverse : ∀ l, whL l.reverse = whL l
  | [] => rfl
  | s :: l => by simp [whL, whL_append, whL_reverse l, Nat.add_comm]
theorem tbL_append {n} : ∀ {l l'}, tbL n (l ++ l') ↔ tbL n l ∧ tbL (n + whL l) l'
  | [], l' => by simp [tbL, whL]
  | s :: l, l' => by
    simp only [List.cons_append, tbL, whL, tbL_append (l := l) (l' := l'), and_assoc, Nat.add_assoc]
theorem tbR_append {n} : ∀ {l l'}, tbR n (l ++ l') ↔ tbR n l' ∧ tbR (n + whL l') l
  | [], l' => by simp [tbR]
  | s :: l, l' => by
    simp only [List.cons_append, tbR, tbR_append (l := l) (l' := l'), and_assoc, whL_append]
    rw [show n + (whL l + whL l') = n + whL l' + whL l by omega]
theorem tbR_reverse {n} : ∀ {l}, tbR n l.reverse ↔ tbL n l
  | [] => by simp [tbR, tbL]
  | s :: l => by
    rw [List.reverse_cons, tbR_append, tbR_reverse]
    simp [tbR, tbL, whL]
theorem thL_append {n} : ∀ {l l'}, thL n (l ++ l') ↔ thL n l ∧ thL n l'
  | [], l' => by simp [thL]
  | s :: l, l' => by simp only [List.cons_append, thL, thL_append (l := l) (l' := l'), and_assoc]
theorem thL_reverse {n} : ∀ {l}, thL n l.reverse ↔ thL n l
  | [] => by simp
  | s :: l => by rw [List.reverse_cons, thL_append, thL_reverse]; simp [thL, and_comm]
theorem rtL_append {f} : ∀ {l l'}, rtL f (l ++ l') ↔ rtL f l ∧ rtL f l'
  | [], l' => by simp [rtL]
  | s :: l, l' => by simp only [List.cons_append, rtL, rtL_append (l := l) (l' := l'), and_assoc]
theorem rtL_reverse {f} : ∀ {l}, rtL f l.reverse ↔ rtL f l
  | [] => by simp
  | s :: l => by rw [List.reverse_cons, rtL_append, rtL_reverse]; simp [rtL, and_comm]

/-- Trees of control statements. -/
def Ctl : Stm → Prop
  | .ifS _ _ _ _ | .loop _ _ _ _ _ | .tryS _ _ | .brk | .cont | .throw _ | .ret _ => True
  | _ => False

theorem ctl_minus {s : Stm} (h : ¬ Ctl s) : ¬ Ctl (withMinus s) := by
  cases s <;> first | exact absurd trivial h | exact id
theorem ctl_not {s : Stm} (h : ¬ Ctl s) : ¬ Ctl (withNot s) := by
  cases s <;> first | exact absurd trivial h | exact id

theorem Spec.Path.ctl (p : Path) : ¬ Ctl p.tree := by
  cases p with
  | one i => cases i <;> exact id
  | dot => exact id

mutual
theorem Spec.Expr.ctl : ∀ e : Expr, ¬ Ctl e.tree
  | .simple s => s.ctl
  | .paren _ => id
  | .bin _ _ _ => id
  | .not e => ctl_not e.ctl
  | .new n => by cases n <;> exact id
  | .goto _ => id
  | .ternary _ _ _ => id
  | .path p => p.ctl
theorem Spec.Simple.ctl : ∀ e : Simple, ¬ Ctl e.tree
  | .neg e => ctl_minus e.ctl
  | .pos e => e.ctl
  | .str _ | .num _ | .bool _ | .date _ | .undef | .label _ => id
end

/-- The same numbers and rules. -/
structure Same (w : Nat) (b t : Nat → Prop) (r : Bool → Prop) (w' : Nat) (b' t' : Nat → Prop) (r' : Bool → Prop) : Prop where
  w : w = w'
  b : ∀ n, b n ↔ b' n
  t : ∀ n, t n ↔ t' n
  r : ∀ f, r f ↔ r' f

def SameS (s : Stmt) (x : Stm) : Prop := Same s.whiles s.breaksOk s.throwsOk s.returnsOk (wh x) (tb · x) (th · x) (rt · x)
def SameL (w : Nat) (b t : Nat → Prop) (r : Bool → Prop) (l : List Stm) : Prop := Same w b t r (whL l) (tbL · l) (thL · l) (rtL · l)

theorem same_plain {s : Stmt} {x : Stm} (h : ¬ Ctl x) (hw : s.whiles = 0) (hb : ∀ n, s.breaksOk n) (ht : ∀ n, s.throwsOk n) (hr : ∀ f, s.returnsOk f) :
    SameS s x := by
  refine ⟨?_, fun n => ?_, fun n => ?_, fun f => ?_⟩
  · rw [hw]
    cases x <;> first | exact absurd trivial h | (unfold wh; rfl)
  · refine ⟨fun _ => ?_, fun _ => hb n⟩
    cases x <;> first | exact absurd trivial h | (unfold tb; trivial)
  · refine ⟨fun _ => ?_, fun _ => ht n⟩
    cases x <;> first | exact absurd trivial h | (unfold th; trivial)
  · refine ⟨fun _ => ?_, fun _ => hr f⟩
    cases x <;> first | exact absurd trivial h | (unfold rt; trivial)

theorem same_if {c t es e x tb' ei el} (h1 : SameL t.whiles t.breaksOk t.throwsOk t.returnsOk tb')
    (h2 : SameL es.whiles es.breaksOk es.throwsOk es.returnsOk ei) (h3 : SameL e.whiles e.breaksOk e.throwsOk e.returnsOk el) :
    SameS (.ifS c t es e) (.ifS x tb' ei.reverse el) := by
  refine ⟨?_, fun n => ?_, fun n => ?_, fun f => ?_⟩
  · simp only [Stmt.whiles, wh, whL_reverse, h1.w, h2.w, h3.w]
  · simp only [Stmt.breaksOk, tb, tbR_reverse, whL_reverse, h1.b, h2.b, h3.b, h1.w, h2.w]
  · simp only [Stmt.throwsOk, th, thL_reverse, h1.t, h2.t, h3.t]
  · simp only [Stmt.returnsOk, rt, rtL_reverse, h1.r, h2.r, h3.r]

theorem same_try {b h l l'} (h1 : SameL b.whiles b.breaksOk b.throwsOk b.returnsOk l)
    (h2 : SameL h.whiles h.breaksOk h.throwsOk h.returnsOk l') : SameS (.tryS b h) (.tryS l l') := by
  refine ⟨?_, fun n => ?_, fun n => ?_, fun f => ?_⟩
  · simp only [Stmt.whiles, wh, h1.w, h2.w]
  · simp only [Stmt.breaksOk, tb, h1.b, h2.b, h1.w]
  · simp only [Stmt.throwsOk, th, h1.t, h2.t]
  · simp only [Stmt.returnsOk, rt, h1.r, h2.r]

theorem same_each {n s b i l} (h1 : SameL b.whiles b.breaksOk b.throwsOk b.returnsOk l) : SameS (.forEach n s b) (.loop (.str n) .nil i .nil l) := by
  refine ⟨?_, fun n => ?_, fun n => ?_, fun f => ?_⟩
  · simp only [Stmt.whiles, wh, h1.w]
  · simp only [Stmt.breaksOk, tb, h1.b]
  · simp only [Stmt.throwsOk, th, h1.t]
  · simp only [Stmt.returnsOk, rt, h1.r]

theorem same_to {a z b x y l} (h1 : SameL b.whiles b.breaksOk b.throwsOk b.returnsOk l) : SameS (.forTo a z b) (.loop x y .nil .nil l) := by
  refine ⟨?_, fun n => ?_, fun n => ?_, fun f => ?_⟩
  · simp only [Stmt.whiles, wh, h1.w]
  · simp only [Stmt.breaksOk, tb, h1.b]
  · simp only [Stmt.throwsOk, th, h1.t]
  · simp only [Stmt.returnsOk, rt, h1.r]

theorem same_while {c b x l} (hx : x ≠ .nil) (h1 : SameL b.whiles b.breaksOk b.throwsOk b.returnsOk l) :
    SameS (.while c b) (.loop .nil .nil .nil x l) := by
  refine ⟨?_, fun n => ?_, fun n => ?_, fun f => ?_⟩
  · simp only [Stmt.whiles, wh_loop hx, h1.w]
  · simp only [Stmt.breaksOk, tb, h1.b]
  · simp only [Stmt.throwsOk, th, h1.t]
  · simp only [Stmt.returnsOk, rt, h1.r]

theorem same_cons {c b r x l k} {y z : List Stm} (hy : y = []) (hz : z = []) (h1 : SameL b.whiles b.breaksOk b.throwsOk b.returnsOk l)
    (h2 : SameL r.whiles r.breaksOk r.throwsOk r.returnsOk k) :
    SameL (Elifs.cons c b r).whiles (Elifs.cons c b r).breaksOk (Elifs.cons c b r).throwsOk (Elifs.cons c b r).returnsOk (.ifS x l y z :: k) := by
  subst hy; subst hz
  refine ⟨?_, fun n => ?_, fun n => ?_, fun f => ?_⟩
  · simp only [Elifs.whiles, whL, wh, h1.w, h2.w, Nat.add_zero]
  · simp only [Elifs.breaksOk, tbL, tb, tbR, whL, wh, h1.b, h2.b, h1.w, Nat.add_zero, and_true]
  · simp only [Elifs.throwsOk, thL, th, h1.t, h2.t, and_true]
  · simp only [Elifs.returnsOk, rtL, rt, h1.r, h2.r, and_true]

theorem same_nil {w b t r} (hw : w = 0) (hb : ∀ n, b n) (ht : ∀ n, t n) (hr : ∀ f, r f) : SameL w b t r [] := by
  refine ⟨hw, fun n => ?_, fun n => ?_, fun f => ?_⟩
  · simp [tbL, hb]
  · simp [thL, ht]
  · simp [rtL, hr]

theorem same_one {s x} (h : SameS s x) : SameL s.whiles s.breaksOk s.throwsOk s.returnsOk [x] := by
  refine ⟨?_, fun n => ?_, fun n => ?_, fun f => ?_⟩
  · simp [whL, h.w]
  · simp [tbL, h.b]
  · simp [thL, h.t]
  · simp [rtL, h.r]

theorem same_sep {b p s l k} (h1 : SameL b.whiles b.breaksOk b.throwsOk b.returnsOk l) (h2 : SameL s.whiles s.breaksOk s.throwsOk s.returnsOk k) :
    SameL (Body.sep b p s).whiles (Body.sep b p s).breaksOk (Body.sep b p s).throwsOk (Body.sep b p s).returnsOk (l ++ k) := by
  refine ⟨?_, fun n => ?_, fun n => ?_, fun f => ?_⟩
  · simp only [Body.whiles, whL_append, h1.w, h2.w]
  · simp only [Body.breaksOk, tbL_append, h1.b, h2.b, h1.w]
  · simp only [Body.throwsOk, thL_append, h1.t, h2.t]
  · simp only [Body.returnsOk, rtL_append, h1.r, h2.r]

theorem same_throw {e x} (h : x = .nil ↔ e = .none) : SameS (.throw e) (.throw x) := by
  refine ⟨?_, fun n => ?_, fun n => ?_, fun f => ?_⟩
  · simp [Stmt.whiles, wh]
  · simp [Stmt.breaksOk, tb]
  · cases e with
    | none => rw [h.2 rfl]; simp [Stmt.throwsOk, th]
    | some e =>
      rw [th_throw (fun e => nomatch h.1 e)]
      simp [Stmt.throwsOk]
  · simp [Stmt.returnsOk, rt]

theorem same_ret {e x} (h : x = .nil ↔ e = .none) : SameS (.ret e) (.ret x) := by
  refine ⟨?_, fun n => ?_, fun n => ?_, fun f => ?_⟩
  · simp [Stmt.whiles, wh]
  · simp [Stmt.breaksOk, tb]
  · simp [Stmt.throwsOk, th]
  · cases e with
    | none => rw [h.2 rfl]; simp [Stmt.returnsOk, rt]
    | some e =>
      rw [rt_ret (fun e => nomatch h.1 e)]
      simp [Stmt.returnsOk]

theorem same_brk : SameS .brk .brk := ⟨by simp [Stmt.whiles, wh], fun n => by simp [Stmt.breaksOk, tb], fun n => by simp [Stmt.throwsOk, th],
  fun f => by simp [Stmt.returnsOk, rt]⟩
theorem same_cont : SameS .cont .cont := ⟨by simp [Stmt.whiles, wh], fun n => by simp [Stmt.breaksOk, tb], fun n => by simp [Stmt.throwsOk, th],
  fun f => by simp [Stmt.returnsOk, rt]⟩

theorem same_expr {e : Expr} {x : Stm} (h : ¬ Ctl x) : SameS (.expr e) x :=
  same_plain h (by simp [Stmt.whiles]) (fun n => by simp [Stmt.breaksOk]) (fun n => by simp [Stmt.throwsOk]) (fun n => by simp [Stmt.returnsOk])
theorem same_assign {p : Path} {e : Expr} {x : Stm} (h : ¬ Ctl x) : SameS (.assign p e) x :=
  same_plain h (by simp [Stmt.whiles]) (fun n => by simp [Stmt.breaksOk]) (fun n => by simp [Stmt.throwsOk]) (fun n => by simp [Stmt.returnsOk])

theorem opt_nil (e : OptExpr) : e.tree = .nil ↔ e = .none := by
  cases e with
  | none => simp [OptExpr.tree]
  | some e => simp [OptExpr.tree, e.tree_ne]

mutual
theorem Spec.Stmt.same : ∀ s : Stmt, SameS s s.tree
  | .assign _ _ => same_assign id
  | .expr e => same_expr e.ctl
  | .ifS _ t es e => same_if t.same es.same e.same
  | .forEach _ _ b => same_each b.same
  | .forTo _ _ b => same_to b.same
  | .while c b => same_while c.tree_ne b.same
  | .tryS b h => same_try b.same h.same
  | .cont => same_cont
  | .brk => same_brk
  | .throw e => same_throw (opt_nil e)
  | .ret e => same_ret (opt_nil e)
theorem Spec.Elifs.same : ∀ s : Elifs, SameL s.whiles s.breaksOk s.throwsOk s.returnsOk s.tree
  | .nil => same_nil (by simp [Elifs.whiles]) (fun n => by simp [Elifs.breaksOk]) (fun n => by simp [Elifs.throwsOk]) (fun n => by simp [Elifs.returnsOk])
  | .cons _ b r => same_cons rfl rfl b.same r.same
theorem Spec.Else.same : ∀ s : Else, SameL s.whiles s.breaksOk s.throwsOk s.returnsOk s.tree
  | .none => same_nil (by simp [Else.whiles]) (fun n => by simp [Else.breaksOk]) (fun n => by simp [Else.throwsOk]) (fun n => by simp [Else.returnsOk])
  | .some b => b.same
theorem Spec.Block.same : ∀ s : Block, SameL s.whiles s.breaksOk s.throwsOk s.returnsOk s.tree
  | .empty => same_nil (by simp [Block.whiles]) (fun n => by simp [Block.breaksOk]) (fun n => by simp [Block.throwsOk]) (fun n => by simp [Block.returnsOk])
  | .body b => b.same
theorem Spec.Body.same : ∀ s : Body, SameL s.whiles s.breaksOk s.throwsOk s.returnsOk s.tree
  | .one s => same_one s.same
  | .sep b _ s => same_sep b.same s.same
theorem Spec.OptStmt.same : ∀ s : OptStmt, SameL s.whiles s.breaksOk s.throwsOk s.returnsOk s.tree
  | .none => same_nil (by simp [OptStmt.whiles]) (fun n => by simp [OptStmt.breaksOk]) (fun n => by simp [OptStmt.throwsOk]) (fun n => by simp [OptStmt.returnsOk])
  | .some s => same_one s.same
end

variable [Letters]

mutual
theorem ReS.same : ∀ {s s' p}, ReS true s s' p → SameS s' (turn s)
  | _, _, _, .assign _ _ => same_assign id
  | _, _, _, .chain _ => same_expr id
  | _, _, _, .bin _ _ => same_expr id
  | _, _, _, .expr (s := s) hs _ _ => by
    rw [turn_expr hs]
    exact same_expr (by cases s <;> first | exact absurd hs id | exact id)
  | _, _, _, .ifS _ ht hei hel => by
    simp only [turn]
    exact same_if ht.same hei.same hel.same
  | _, _, _, .forEach _ _ hb => by simp only [turn]; exact same_each hb.same
  | _, _, _, .forTo _ _ hb => by simp only [turn]; exact same_to hb.same
  | _, _, _, .whileS hc hb => by simp only [turn]; exact same_while hc.ne_nil hb.same
  | _, _, _, .tryS h1 h2 => by simp only [turn]; exact same_try h1.same h2.same
  | _, _, _, .cont => same_cont
  | _, _, _, .brk => same_brk
  | _, _, _, .rethrow => same_throw (by simp)
  | _, _, _, .throwList _ => same_throw (by simp)
  | _, _, _, .throw h _ => same_throw (by simp [h.ne_nil])
  | _, _, _, .ret => same_ret (by simp)
  | _, _, _, .retValue h => same_ret (by simp [h.ne_nil])
  | _, _, _, .label _ => same_expr id
  | _, _, _, .goto _ => same_expr id
theorem ReEl.same : ∀ {l es}, ReEl true l es → SameL es.whiles es.breaksOk es.throwsOk es.returnsOk (turnL l)
  | _, _, .nil => same_nil (by simp [Elifs.whiles]) (fun n => by simp [Elifs.breaksOk]) (fun n => by simp [Elifs.throwsOk]) (fun n => by simp [Elifs.returnsOk])
  | _, _, .cons _ hb hr => by simp only [turnL, turn]; exact same_cons rfl rfl hb.same hr.same
theorem ReElse.same : ∀ {l e}, ReElse true l e → SameL e.whiles e.breaksOk e.throwsOk e.returnsOk (turnL l)
  | _, _, .none => same_nil (by simp [Else.whiles]) (fun n => by simp [Else.breaksOk]) (fun n => by simp [Else.throwsOk]) (fun n => by simp [Else.returnsOk])
  | _, _, .some _ hb => hb.same
theorem ReB.same : ∀ {l b}, ReB true l b → SameL b.whiles b.breaksOk b.throwsOk b.returnsOk (turnL l)
  | _, _, .empty => same_nil (by simp [Block.whiles]) (fun n => by simp [Block.breaksOk]) (fun n => by simp [Block.throwsOk]) (fun n => by simp [Block.returnsOk])
  | l, _, .body (b := b) (p := p) hb => by
    have := same_sep (b := .body b) (p := p) (s := .none) hb.same
      (same_nil (by simp [OptStmt.whiles]) (fun n => by simp [OptStmt.breaksOk]) (fun n => by simp [OptStmt.throwsOk]) (fun n => by simp [OptStmt.returnsOk]))
    rw [List.append_nil] at this
    exact this
theorem ReBody.same : ∀ {l b p}, ReBody true l b p → SameL b.whiles b.breaksOk b.throwsOk b.returnsOk (turnL l)
  | _, _, _, .one h => by simp only [turnL]; exact same_one h.same
  | _, _, _, .snoc (b := b) hb h => by
    simp only [turnL_append, turnL]
    exact same_sep (b := .body b) hb.same (same_one h.same)
end

end Verif
