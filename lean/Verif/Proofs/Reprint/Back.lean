import Verif.Proofs.Reprint.Write
/-!
# Printed expressions group as they stand and print the same again
-/
namespace Verif
open Spec Lexer

theorem level_le (op : Op) : level op ≤ 10 := by cases op <;> decide

/-! ## Grouping -/

theorem signsE_opens (u n : Bool) {e : Expr} (h : ∀ k, e.opens k) : ∀ k, (signsE u n e).opens k := by
  cases u <;> cases n
  · exact h
  all_goals intro k; simp [signsE, Expr.opens]

theorem signsE_closes (u n : Bool) {e : Expr} (h : ∀ k, e.closes k) : ∀ k ≤ 10, (isNotE (signsE u n e) → k ≤ notLevel) → (signsE u n e).closes k := by
  intro k hk hn
  have h11 : k ≤ signLevel := Nat.le_trans hk (by decide)
  cases u <;> cases n <;> simp_all [signsE, Expr.closes, Simple.closes, isNotE]

theorem signsE_grouped (u n : Bool) {e : Expr} (h : ∀ k, e.opens k) (hg : e.grouped) : (signsE u n e).grouped := by
  cases u <;> cases n <;> simp_all [signsE, Expr.grouped, Simple.grouped, Expr.opens]

/-- What holds of an expression printed on a higher level. -/
def Inner (e : Expr) : Prop := (∀ k, e.opens k) ∧ ∀ k ≤ 10, (isNotE e → k ≤ notLevel) → e.closes k

theorem bin_grouped {op : Op} {a b : Expr} (ha : a.grouped) (hb : b.grouped) (ia : Inner a) (ib : Inner b)
    (h : isNotE a → level op ≤ notLevel) : (Expr.bin op a b).grouped := by
  simp only [Expr.grouped]
  exact ⟨ia.2 _ (level_le op) h, ib.1 _, ha, hb⟩

theorem binE_grouped {op : Op} {a b : Expr} (u n : Bool) (ha : a.grouped) (hb : b.grouped) (ia : Inner a) (ib : Inner b)
    (h : isNotE a → level op ≤ notLevel) : (binE op a b u n).grouped := by
  have := bin_grouped ha hb ia ib h
  unfold binE
  split
  · refine signsE_grouped u n (fun k => ?_) ?_
    · simp [parenE, Expr.opens]
    · simpa [parenE, Expr.grouped, Args.grouped, OptExpr.grouped] using this
  · exact this

variable [Letters]

mutual
theorem ReI.grouped : ∀ {dot s i}, ReI true dot s i → i.grouped
  | _, _, _, .name _ => by simp [Ident.grouped]
  | _, _, _, .call _ ha => by simpa [Ident.grouped] using ha.grouped
  | _, _, _, .exec _ he => by simpa [Ident.grouped] using he.grouped.1
  | _, _, _, .item hi he => by simpa [Ident.grouped] using ⟨hi.grouped, he.grouped.1⟩
theorem ReP.grouped : ∀ {s p}, ReP true s p → p.grouped
  | _, _, .one h => by simpa [Path.grouped] using h.grouped
  | _, _, .dot hp hi => by simpa [Path.grouped] using ⟨hp.grouped, hi.grouped⟩
theorem ReA.grouped : ∀ {l a}, ReA true l a → a.grouped
  | _, _, .nil => by simp [Args.grouped, OptExpr.grouped]
  | _, _, .one h => by simpa [Args.grouped] using h.grouped
  | _, _, .snoc _ ha ho => by simpa [Args.grouped] using ⟨ha.grouped, ho.grouped⟩
theorem ReO.grouped : ∀ {s o}, ReO true s o → o.grouped
  | _, _, .none => by simp [OptExpr.grouped]
  | _, _, .some h => by simpa [OptExpr.grouped] using h.grouped.1
theorem ReN.grouped : ∀ {c ps n}, ReN true c ps n → n.grouped
  | _, _, _, .call _ ha => by simpa [New.grouped] using ha.grouped
  | _, _, _, .args ha => by simpa [New.grouped] using ha.grouped
theorem ReE.grouped : ∀ {lv s e}, ReE true lv s e → e.grouped ∧ (lv = .inner → Inner e)
  | lv, _, _, .num (x := x) _ => by
    unfold numE Inner
    cases x.neg <;> simp [Expr.grouped, Simple.grouped, Expr.opens, Expr.closes, Simple.closes, signLevel]
    intros; omega
  | lv, _, _, .str _ => by simp [Inner, Expr.grouped, Simple.grouped, Expr.opens, Expr.closes, Simple.closes]
  | lv, _, _, .bool => by simp [Inner, Expr.grouped, Simple.grouped, Expr.opens, Expr.closes, Simple.closes]
  | lv, _, _, .date _ => by simp [Inner, Expr.grouped, Simple.grouped, Expr.opens, Expr.closes, Simple.closes]
  | lv, _, _, .undef => by simp [Inner, Expr.grouped, Simple.grouped, Expr.opens, Expr.closes, Simple.closes]
  | lv, _, _, .path h => by simp [Inner, Expr.grouped, h.grouped, Expr.opens, Expr.closes]
  | lv, _, _, .minus h => by simp [Inner, Expr.grouped, h.grouped, Expr.opens, Expr.closes]
  | lv, _, _, .notChain h => by simp [Inner, Expr.grouped, h.grouped, Expr.opens, Expr.closes, isNotE]
  | lv, _, _, .notCall h => by simp [Inner, Expr.grouped, h.grouped, Expr.opens, Expr.closes, isNotE]
  | lv, _, _, .var (n := n) (u := u) (nt := nt) _ _ => by
    refine ⟨signsE_grouped u nt (fun k => by simp [Expr.opens]) (by simp [Expr.grouped, Path.grouped, Ident.grouped]), fun _ => ⟨?_, ?_⟩⟩
    · exact signsE_opens u nt (fun k => by simp [Expr.opens])
    · exact signsE_closes u nt (fun k => by simp [Expr.closes])
  | _, _, _, .varArg _ => by simp [Inner, Expr.grouped, Path.grouped, Ident.grouped, Expr.opens, Expr.closes]
  | lv, _, _, .ternary hc ht he => by simp [Inner, Expr.grouped, hc.grouped.1, ht.grouped.1, he.grouped.1, Expr.opens, Expr.closes]
  | lv, _, _, .new h => by simp [Inner, Expr.grouped, h.grouped, Expr.opens, Expr.closes]
  | lv, _, _, .elem h _ => by
    have := h.grouped
    exact ⟨this.1, fun e => this.2 (by rw [e]; rfl)⟩
  | lv, _, _, .notElem h => by
    simp [Inner, Expr.grouped, parenE, Args.grouped, OptExpr.grouped, h.grouped.1, Expr.opens, Expr.closes, isNotE]
  | lv, _, _, .bin (op := op) (u := u) (n := n) hl hr hv hg => by
    refine ⟨binE_grouped u n hl.grouped.1 hr.grouped.1 (hl.grouped.2 rfl) (hr.grouped.2 rfl) (hg rfl).2, fun e => absurd e hv⟩
  | _, _, _, .inner (op := op) (u := u) (n := n) hl hr hg => by
    have := binE_grouped u n hl.grouped.1 hr.grouped.1 (hl.grouped.2 rfl) (hr.grouped.2 rfl) (hg rfl).2.2
    simp [Inner, Expr.grouped, parenE, Args.grouped, OptExpr.grouped, this, Expr.opens, Expr.closes]
end

/-! ## Printing again -/

section
omit [Letters]

theorem Spec.Path.tree_ne (p : Path) : p.tree ≠ .nil := by
  cases p with
  | one i => cases i <;> simp [Path.tree, Ident.tree]
  | dot => simp [Path.tree]

theorem Spec.Ident.mode (i : Ident) (m m' : PMode) : pr m i.tree = pr m' i.tree := by
  cases i <;> simp [Ident.tree, pr_var, pr_method, pr_item, onFlag]

theorem Spec.Path.mode (p : Path) (m m' : PMode) : pr m p.tree = pr m' p.tree := by
  cases p with
  | one i => exact i.mode m m'
  | dot p i => simp only [Path.tree]; rw [pr_chain _ _ _ _ _ p.tree_ne, pr_chain _ _ _ _ _ p.tree_ne]; simp [onFlag]

/-- Trees that are not variables print the same as argument and on level 0. -/
theorem pr_arg_top {s : Stm} (h : ¬ VarLike s) : pr .var s = pr (.expr 0) s := by
  cases s with
  | var => exact absurd trivial h
  | exprs => exact absurd trivial h
  | _ => unfold pr; rfl

theorem pr_arg_exprs (l n) : pr .var (.exprs l n) = pr (.expr 0) (.exprs l n) := by
  rw [pr_exprs, pr_exprs]; rfl
end

/-- The shape of the path of a chain. -/
theorem ReP.chain_inv {g u c a b p} (h : ReP g (.chain u c a b) p) : ∃ p' i, p = .dot p' i ∧ ReP g c p' ∧ ReI g true u i := by
  cases h with
  | one h => cases h
  | dot h1 h2 => exact ⟨_, _, rfl, h1, h2⟩

/-- The shape of the path of a call. -/
theorem ReP.call_inv {g f ps b p} (h : ReP g (.method f ps b) p) : ∃ f' ps', p.tree = .method f' ps' false := by
  cases h with
  | one h =>
    cases h with
    | call => exact ⟨_, _, rfl⟩
    | exec => exact ⟨_, _, rfl⟩

theorem ReE.top_again {g s e} (h : ReE g .top s e) (hs : ¬ VarLike s) : pr .var e.tree = pr (.expr 0) e.tree := by
  cases h with
  | @num _ x hx =>
    refine pr_arg_top ?_
    unfold numE
    cases x.neg <;> exact id
  | str => exact pr_arg_top id
  | bool => exact pr_arg_top id
  | date => exact pr_arg_top id
  | undef => exact pr_arg_top id
  | path h => exact Path.mode _ _ _
  | minus h => exact Path.mode _ _ _
  | notChain h =>
    obtain ⟨p', i, rfl, _, _⟩ := h.chain_inv
    exact pr_arg_top id
  | notCall h =>
    obtain ⟨f', ps', e⟩ := h.call_inv
    refine pr_arg_top ?_
    simp only [Expr.tree, e]
    exact id
  | var => exact absurd trivial hs
  | ternary => exact pr_arg_top id
  | new h =>
    refine pr_arg_top ?_
    cases h <;> exact id
  | elem => exact absurd trivial hs
  | notElem => exact absurd trivial hs
  | @bin _ op l r a b u n _ _ _ _ =>
    cases u <;> cases n
    · exact pr_arg_top id
    all_goals exact pr_arg_exprs _ _

mutual
theorem ReI.again : ∀ {dot s i}, ReI true dot s i → pr .var i.tree = pr .var s
  | _, _, _, .name _ => rfl
  | _, _, _, .call _ ha => by simp only [Ident.tree]; rw [pr_method, pr_method, ha.again.2]
  | _, _, _, .exec _ he => by
    simp only [Ident.tree]; rw [pr_method, pr_method, prList_eq, prList_eq]
    have := he.again
    simp only [Place.mode] at this
    simp [this]
  | _, _, _, .item hi he => by
    simp only [Ident.tree]; rw [pr_item, pr_item, hi.again]
    have := he.again
    simp only [Place.mode] at this
    rw [this]
theorem ReP.again : ∀ {s p}, ReP true s p → pr .chain p.tree = pr .chain s
  | _, _, .one h => by
    simp only [Path.tree]
    rw [h.mode .chain .var, Ident.mode _ .chain .var, h.again]
  | _, _, .dot (p := p) hp hi => by
    simp only [Path.tree]
    rw [pr_chain _ _ _ _ _ p.tree_ne, pr_chain _ _ _ _ _ hp.ne_nil, hp.again, hi.again]
theorem ReA.again : ∀ {l a}, ReA true l a → (l ≠ [] → prList a.tree = prList l) ∧ join [',', ' '] (prList a.tree) = join [',', ' '] (prList l)
  | _, _, .nil => ⟨fun h => absurd rfl h, by simp only [Args.tree, OptExpr.tree, prList_eq]; simp [join, pr]⟩
  | _, _, .one (s := s) (o := o) h => by
    have : prList (Args.one o).tree = prList [s] := by
      simp only [Args.tree, prList_eq, List.map_cons, List.map_nil]
      rw [h.again]
    exact ⟨fun _ => this, by rw [this]⟩
  | _, _, .snoc (l := l) (s := s) (a := a) (o := o) hl ha ho => by
    have : prList (Args.more a o).tree = prList (l ++ [s]) := by
      have := ha.again.1 hl
      rw [prList_eq, prList_eq] at this
      simp only [Args.tree, prList_eq, List.map_append, List.map_cons, List.map_nil]
      rw [this, ho.again]
    exact ⟨fun _ => this, by rw [this]⟩
theorem ReO.again : ∀ {s o}, ReO true s o → pr .var o.tree = pr .var s
  | _, _, .none => rfl
  | _, _, .some h => h.again
theorem ReN.again : ∀ {c ps n}, ReN true c ps n → ∀ m, pr m n.tree = pr m (.new c ps)
  | _, _, _, .call _ ha, m => by simp only [New.tree]; rw [pr_new, pr_new, ha.again.2]
  | _, _, _, .args ha, m => by simp only [New.tree]; rw [pr_new, pr_new, ha.again.2]
theorem ReE.again : ∀ {lv s e}, ReE true lv s e → pr lv.mode e.tree = pr lv.mode s
  | lv, _, _, .num (x := x) hx => by
    obtain ⟨_, h2, h3⟩ := printed_spec hx
    have : F64.fmt0 (printed x) = Nat.toDigits 10 x.roundInt := by simp [F64.fmt0, h2, h3]
    have hn : F64.fmt0 (printed x).negate = '-' :: Nat.toDigits 10 x.roundInt := by
      have : (printed x).negate.roundInt = x.roundInt := by rw [← h3]; rfl
      simp [F64.fmt0, F64.negate, h2]
      exact congrArg _ this
    simp only [Expr.tree]
    unfold numE
    cases hx' : x.neg with
    | true =>
      simp only [if_true, Simple.tree, Expr.tree, withMinus]
      rw [pr_num, pr_num, hn]
      simp [F64.fmt0, hx']
    | false =>
      simp only [Bool.false_eq_true, if_false, Simple.tree]
      rw [pr_num, pr_num, this]
      simp [F64.fmt0, hx']
  | lv, _, _, .str _ => rfl
  | lv, _, _, .bool => rfl
  | lv, _, _, .date _ => rfl
  | lv, _, _, .undef => rfl
  | lv, _, _, .path h => by
    simp only [Expr.tree]
    rw [h.mode _ .chain, Path.mode _ _ .chain, h.again]
  | lv, _, _, .minus (p := p) h => by
    simp only [Expr.tree]
    have := h.again
    obtain ⟨p', i, rfl, h1, _⟩ := h.chain_inv
    rw [pr_chain _ _ _ _ _ h1.ne_nil] at this ⊢
    rw [Path.mode _ _ .chain, this]
    simp [onFlag]
  | lv, _, _, .notChain h => by
    have := h.again
    obtain ⟨p', i, rfl, h1, _⟩ := h.chain_inv
    simp only [Expr.tree, Path.tree, withNot] at this ⊢
    rw [pr_chain _ _ _ _ _ h1.ne_nil, pr_chain _ _ _ _ _ p'.tree_ne] at this ⊢
    simp only [onFlag, Bool.false_and, Bool.false_eq_true, if_false, List.nil_append] at this
    rw [this]
  | lv, _, _, .notCall h => by
    have := h.again
    obtain ⟨f', ps', e⟩ := h.call_inv
    simp only [Expr.tree]
    rw [e] at this ⊢
    simp only [withNot]
    rw [pr_method, pr_method] at this ⊢
    simp only [onFlag, Bool.false_eq_true, if_false, List.nil_append] at this
    simp only [List.append_assoc] at this ⊢
    rw [this]
  | lv, _, _, .var (n := n) (u := u) (nt := nt) _ _ => by
    have : (signsE u nt (Expr.path (.one (.name n)))).tree = .var n u nt := by
      cases u <;> cases nt <;> rfl
    rw [this]
  | _, _, _, .varArg _ => by
    simp only [Expr.tree, Path.tree, Ident.tree]
    rw [pr_var, pr_var]; rfl
  | lv, _, _, .ternary hc ht he => by
    have h1 := hc.again
    have h2 := ht.again
    have h3 := he.again
    simp only [Place.mode] at h1 h2 h3
    simp only [Expr.tree]
    rw [pr_ternary, pr_ternary, h1, h2, h3]
  | lv, _, _, .new h => by simp only [Expr.tree]; exact h.again _
  | lv, _, _, .elem (s := s) h hg => by
    have := h.again
    rw [pr_exprs, prCat_sub]
    cases lv with
    | arg =>
      have h2 := h.top_again (hg rfl rfl)
      simp only [Place.mode, Place.sub] at this h2 ⊢
      rw [h2, this]
      simp [onFlag, PMode.isChain]
    | top =>
      simp only [Place.mode, Place.sub] at this ⊢
      rw [this]
      simp [onFlag, PMode.isChain]
    | inner =>
      simp only [Place.mode, Place.sub] at this ⊢
      rw [this]
      simp [onFlag, PMode.isChain]
  | lv, _, _, .notElem h => by
    have := h.again
    simp only [parenE, Expr.tree, Args.tree, OptExpr.tree, withNot]
    rw [pr_exprs, pr_exprs, prCat_sub, prCat_sub, this]
  | lv, _, _, .bin (op := op) (u := u) (n := n) hl hr hv hg => by
    obtain ⟨rfl, _⟩ := hg rfl
    have h1 := hl.again
    have h2 := hr.again
    cases n with
    | false =>
      simp only [binE, Bool.or_false, Bool.false_eq_true, if_false, Expr.tree]
      rw [pr_bin, pr_bin, pr_inner, pr_inner, pr_inner, pr_inner, h1, h2]
    | true =>
      simp only [binE, Bool.or_true, if_true, signsE, Bool.false_eq_true, if_false, parenE, Expr.tree, Args.tree, OptExpr.tree, withNot]
      rw [pr_exprs, prCat_sub]
      have : pr lv.sub.mode = pr (.expr 0) := by cases lv <;> first | rfl | exact absurd rfl hv
      rw [this, pr_bin, pr_bin, pr_inner, pr_inner, pr_inner, pr_inner, h1, h2]
      have e : "Не (".toList = "Не ".toList ++ ['('] := rfl
      rw [e]
      cases lv <;> first | exact absurd rfl hv | simp [onFlag, Place.mode, PMode.isChain, PMode.level]
  | _, _, _, .inner (op := op) (u := u) (n := n) hl hr hg => by
    obtain ⟨rfl, rfl, _⟩ := hg rfl
    have h1 := hl.again
    have h2 := hr.again
    simp only [binE, Bool.or_false, Bool.false_eq_true, if_false, parenE, Expr.tree, Args.tree, OptExpr.tree]
    rw [pr_exprs, prCat_sub]
    simp only [Place.sub]
    rw [pr_bin, pr_bin, pr_inner, pr_inner, pr_inner, pr_inner, h1, h2]
    simp [onFlag, Place.mode, PMode.isChain]
end

end Verif
