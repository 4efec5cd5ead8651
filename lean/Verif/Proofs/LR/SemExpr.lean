import Verif.Proofs.LR.Sem
/-! The productions for expressions. -/
namespace Verif.LR
open Tables Spec Lexer

theorem SemF.uncons {b X xs ks la σ ws σ' e} (h : SemF b (X :: xs) ks la σ ws σ' e) :
    ∃ k1 k2 v vs σ1 b1, ks = k1 ++ k2 ∧ ws = v :: vs ∧ Sem X b k1 (nextK k2 la) σ v σ1 ∧ trans b X = some b1 ∧
      SemF b1 xs k2 la σ1 vs σ' e := by
  cases h with
  | cons h1 h2 h3 => exact ⟨_, _, _, _, _, _, rfl, rfl, h1, h2, h3⟩

theorem SemF.unnil {b ks la σ ws σ' e} (h : SemF b [] ks la σ ws σ' e) : ks = [] ∧ ws = [] ∧ σ' = σ ∧ e = b := by
  cases h with
  | nil => exact ⟨rfl, rfl, rfl, rfl⟩

theorem SemF.one {b X ks la σ ws σ' e} (h : SemF b [X] ks la σ ws σ' e) :
    ∃ v, ws = [v] ∧ Sem X b ks la σ v σ' ∧ trans b X = some e := by
  replace h := h.uncons
  obtain ⟨k1, k2, v, vs, σ1, b1, rfl, rfl, h1, h2, h3⟩ := h
  obtain ⟨rfl, rfl, rfl, rfl⟩ := h3.unnil
  exact ⟨v, rfl, by rw [List.append_nil]; exact h1, h2⟩

/-- The statement about one production. -/
abbrev Prod (p : Nat) : Prop := ∀ {b ks la σ ws σ1 s v σ2}, b < nStates → SemF b (rhs p) ks la σ ws σ1 s →
  p ∈ reds s → action s la = .reduce p → ActR True p ws σ1 v σ2 → Sem (lhs p) b ks la σ v σ2

/-- Opens `ActR` for an action without effect on the AstNode. -/
macro "actr" h:ident : tactic => `(tactic| (
  obtain ⟨junk, a, a', ha, e1, e2, hok⟩ := $h
  subst e1; subst e2
  obtain ⟨e1, e2⟩ := pair_ok ha
  subst e1; subst e2))

/-! ## Facts about the tables -/

def allOps : List Op := [.plus, .minus, .mul, .div, .mod, .gt, .lt, .eq, .or, .and, .ne, .le, .ge]

theorem mem_allOps (op : Op) : op ∈ allOps := by cases op <;> decide

/-- The operator of a production `expr: expr op expr`. -/
def binProds : List (Nat × Op) := [(66, .plus), (67, .minus), (68, .mul), (69, .div), (70, .mod), (71, .gt), (72, .lt),
  (73, .eq), (74, .or), (75, .and), (76, .ne), (77, .le), (78, .ge)]

theorem tab_bin_reduce : ∀ x ∈ binProds, ∀ s, s < nStates → ∀ op ∈ allOps, action s (opNum op) = .reduce x.1 →
    level op ≤ level x.2 := by decide +kernel

theorem tab_bin_open : ∀ b, b < nStates → ∀ op ∈ allOps, ∀ op2 ∈ allOps,
    (follow b [111, opNum op, 111, opNum op2]).isSome = true → level op < level op2 := by decide +kernel

theorem tab_not_reduce : ∀ s, s < nStates → ∀ op ∈ allOps, action s (opNum op) = .reduce 79 → level op ≤ notLevel := by
  decide +kernel

theorem tab_not_open : ∀ b, b < nStates → ∀ op ∈ allOps, (follow b [24, 111, opNum op]).isSome = true → notLevel < level op := by
  decide +kernel

theorem tab_sign_open : ∀ s, s < nStates → (90 ∈ reds s ∨ 91 ∈ reds s) → ∀ op ∈ allOps, trans s (opNum op) = none := by
  decide +kernel

theorem tab_path : ∀ s, s < nStates → action s 40 = .reduce 83 → shiftL s 40 = none := by decide +kernel

theorem tab_stmt : ∀ b, b < nStates → (gotoL b 103).isSome = true → (follow b [119, 40]).isSome = true := by decide +kernel

theorem level_le (op : Op) : level op ≤ 10 := by cases op <;> decide

theorem isSome_of_ne {α : Type} {x : Option α} (h : x ≠ none) : x.isSome = true := by
  cases x with
  | none => exact absurd rfl h
  | some _ => rfl

theorem nextK_word (a : Terminal) (ks : List Key) (la : Nat) : nextK (word a :: ks) la = tnum a := tokNum_kind a

theorem trans_lt {b X b1 : Nat} (hb : b < nStates) (h : trans b X = some b1) : b1 < nStates := (trans_ok hb h).lt

theorem follow_cons {b X b1 : Nat} {xs : List Nat} (h : trans b X = some b1) : follow b (X :: xs) = follow b1 xs := by
  rw [follow, h]; rfl

/-- Expressions that neither begin nor end with an operand of an operator. -/
theorem ExprSem.closed {b la : Nat} {e : Expr} (hg : e.grouped) (hc : ∀ n, e.closes n) (hn : e.noAssign)
    (hb : ∀ op x y, e ≠ .bin op x y) (hp : ∀ p, e ≠ .path p) : ExprSem b la e :=
  ⟨hg, fun _ _ => hc _, fun op x y h => absurd h (hb op x y), fun _ => hn, fun p h => absurd h (hp p)⟩

theorem withMinus_eq (x : Stm) : unaryMinus x = withMinus x := by cases x <;> rfl
theorem withNot_eq (x : Stm) : notStm x = withNot x := by cases x <;> rfl

/-! ## expr -/

theorem prod_64 : Prod 64 := by
  intro b ks la σ ws σ1 s v σ2 hb h hr hA ha
  replace h : SemF b [114] ks la σ ws σ1 s := h
  replace h := h.one
  obtain ⟨v1, rfl, ⟨rfl, e, rfl, h1, h2⟩, ht⟩ := h
  actr ha
  exact ⟨rfl, .simple e, by rw [Expr.toks], by rw [Expr.tree]; exact h1,
    ⟨by rw [Expr.grouped]; exact h2.grouped, fun op ho => by rw [Expr.closes]; exact h2.closes op ho, nofun,
     fun _ => by simp [Expr.noAssign], nofun⟩⟩

theorem prod_65 : Prod 65 := by
  intro b ks la σ ws σ1 s v σ2 hb h hr hA ha
  replace h : SemF b [62, 110, 63] ks la σ ws σ1 s := h
  replace h := h.uncons
  obtain ⟨k1, k2, v1, vs, σ3, b1, rfl, rfl, h1, ht1, h⟩ := h
  obtain ⟨rfl, rfl, -⟩ := sem_word .lpar (by decide) rfl h1
  replace h := h.uncons
  obtain ⟨k2, k3, v2, vs, σ4, b2, rfl, rfl, ⟨rfl, e, rfl, h2, h3⟩, ht2, h⟩ := h
  replace h := h.one
  obtain ⟨v3, rfl, h4, ht⟩ := h
  obtain ⟨rfl, rfl, -⟩ := sem_word .rpar (by decide) rfl h4
  actr ha
  refine ⟨rfl, .paren e, by rw [Expr.toks]; rfl, ?_, .closed (by rw [Expr.grouped]; exact h3) (fun _ => by simp [Expr.closes])
    (by simp [Expr.noAssign]) nofun nofun⟩
  show Stm.exprs v2.exprs false = _
  rw [h2, Expr.tree]

theorem prod_bin {p : Nat} {op : Op} (hp : (p, op) ∈ binProds) {b ks la σ ws σ1 s v σ2} (hb : b < nStates)
    (h : SemF b [111, opNum op, 111] ks la σ ws σ1 s) (hA : action s la = .reduce p)
    (hact : ∀ v1 v2 v3, ActR True p [v1, v2, v3] σ1 v σ2 → σ2 = σ1 ∧ v.stmt = .bin op v1.stmt v3.stmt false false)
    (ha : ActR True p ws σ1 v σ2) : Sem 111 b ks la σ v σ2 := by
  replace h := h.uncons
  obtain ⟨k1, k2, v1, vs, σ3, b1, rfl, rfl, ⟨rfl, x, rfl, h1, h2⟩, ht1, h⟩ := h
  replace h := h.uncons
  obtain ⟨k2, k3, w2, vs, σ4, b2, rfl, rfl, h3, ht2, h⟩ := h
  obtain ⟨rfl, rfl, -⟩ := sem_word (opTerminal op) (by cases op <;> decide) rfl h3
  replace h := h.one
  obtain ⟨v3, rfl, ⟨rfl, y, rfl, h4, h5⟩, ht3⟩ := h
  obtain ⟨rfl, hv⟩ := hact _ _ _ ha
  have hb1 := trans_lt hb ht1
  have hb2 := trans_lt hb1 ht2
  have hla : nextK ([word (opTerminal op)] ++ y.toks) la = opNum op := nextK_word _ _ _
  rw [hla] at h2
  refine ⟨rfl, .bin op x y, by rw [Expr.toks]; rfl, by rw [hv, h1, h4, Expr.tree], ?_, ?_, ?_, ?_, nofun⟩
  · rw [Expr.grouped]
    refine ⟨h2.closes op rfl, ?_, h2.grouped, h5.grouped⟩
    unfold Expr.opens
    split
    · rename_i op2 x2 y2
      have := isSome_of_ne (h5.opens op2 x2 y2 rfl)
      refine tab_bin_open b hb op (mem_allOps op) op2 (mem_allOps op2) ?_
      rw [follow_cons ht1, follow_cons ht2]
      exact this
    · trivial
  · intro op' hop'
    rw [Expr.closes]
    refine ⟨?_, h5.closes op' hop'⟩
    rw [hop'] at hA
    exact tab_bin_reduce (p, op) hp s (trans_lt hb2 ht3) op' (mem_allOps op') hA
  · rintro op' x' y' ⟨⟩
    rw [follow_cons ht1]
    rw [follow, show trans b1 (opNum op) = some b2 from ht2]
    exact nofun
  · intro hf
    cases x with
    | path p =>
      rw [Expr.noAssign]
      rintro rfl
      exact hf (h2.path p rfl rfl)
    | simple _ => rw [Expr.noAssign]; exact h2.noAssign hf; exact nofun
    | paren _ => rw [Expr.noAssign]; exact h2.noAssign hf; exact nofun
    | bin _ _ _ => rw [Expr.noAssign]; exact h2.noAssign hf; exact nofun
    | not _ => rw [Expr.noAssign]; exact h2.noAssign hf; exact nofun
    | new _ => rw [Expr.noAssign]; exact h2.noAssign hf; exact nofun
    | goto _ => rw [Expr.noAssign]; exact h2.noAssign hf; exact nofun
    | ternary _ _ _ => rw [Expr.noAssign]; exact h2.noAssign hf; exact nofun

macro "binp" op:term : tactic => `(tactic| (
  intro b ks la σ ws σ1 s v σ2 hb h hr hA ha
  exact prod_bin (op := $op) (by decide) hb h hA (fun v1 v2 v3 ha => by actr ha; exact ⟨rfl, rfl⟩) ha))

theorem prod_66 : Prod 66 := by binp .plus
theorem prod_67 : Prod 67 := by binp .minus
theorem prod_68 : Prod 68 := by binp .mul
theorem prod_69 : Prod 69 := by binp .div
theorem prod_70 : Prod 70 := by binp .mod
theorem prod_71 : Prod 71 := by binp .gt
theorem prod_72 : Prod 72 := by binp .lt
theorem prod_73 : Prod 73 := by binp .eq
theorem prod_74 : Prod 74 := by binp .or
theorem prod_75 : Prod 75 := by binp .and
theorem prod_76 : Prod 76 := by binp .ne
theorem prod_77 : Prod 77 := by binp .le
theorem prod_78 : Prod 78 := by binp .ge

theorem prod_79 : Prod 79 := by
  intro b ks la σ ws σ1 s v σ2 hb h hr hA ha
  replace h : SemF b [24, 111] ks la σ ws σ1 s := h
  replace h := h.uncons
  obtain ⟨k1, k2, v1, vs, σ3, b1, rfl, rfl, h1, ht1, h⟩ := h
  obtain ⟨rfl, rfl, -⟩ := sem_word .kNot (by decide) rfl h1
  replace h := h.one
  obtain ⟨v2, rfl, ⟨rfl, e, rfl, h2, h3⟩, ht2⟩ := h
  have hb1 := trans_lt hb ht1
  actr ha
  refine ⟨rfl, .not e, by rw [Expr.toks]; rfl, ?_, ?_, ?_, nofun, fun _ => by simp [Expr.noAssign], nofun⟩
  · show notStm v2.stmt = _
    rw [withNot_eq, h2, Expr.tree]
  · rw [Expr.grouped]
    refine ⟨?_, h3.grouped⟩
    unfold Expr.opens
    split
    · rename_i op2 x2 y2
      refine tab_not_open b hb op2 (mem_allOps op2) ?_
      rw [follow_cons ht1]
      exact isSome_of_ne (h3.opens op2 x2 y2 rfl)
    · trivial
  · intro op' hop'
    rw [Expr.closes]
    refine ⟨?_, h3.closes op' hop'⟩
    rw [hop'] at hA
    exact tab_not_reduce s (trans_lt hb1 ht2) op' (mem_allOps op') hA

theorem prod_80 : Prod 80 := by
  intro b ks la σ ws σ1 s v σ2 hb h hr hA ha
  replace h : SemF b [121] ks la σ ws σ1 s := h
  replace h := h.one
  obtain ⟨v1, rfl, ⟨rfl, e, rfl, h1, h2⟩, ht⟩ := h
  actr ha
  exact ⟨rfl, .new e, by rw [Expr.toks], by rw [Expr.tree]; exact h1,
    .closed (by rw [Expr.grouped]; exact h2) (fun _ => by simp [Expr.closes]) (by simp [Expr.noAssign]) nofun nofun⟩

theorem prod_81 : Prod 81 := by
  intro b ks la σ ws σ1 s v σ2 hb h hr hA ha
  replace h : SemF b [50, 128] ks la σ ws σ1 s := h
  replace h := h.uncons
  obtain ⟨k1, k2, v1, vs, σ3, b1, rfl, rfl, h1, ht1, h⟩ := h
  obtain ⟨rfl, rfl, -⟩ := sem_word .kGoTo (by decide) rfl h1
  replace h := h.one
  obtain ⟨v2, rfl, ⟨rfl, n, rfl, h2⟩, ht2⟩ := h
  actr ha
  refine ⟨rfl, .goto n, by rw [Expr.toks]; rfl, ?_,
    .closed (by rw [Expr.grouped]; trivial) (fun _ => by simp [Expr.closes]) (by simp [Expr.noAssign]) nofun nofun⟩
  show mkGoto v2.goToLabel = _
  rw [h2, Expr.tree]; rfl

theorem prod_82 : Prod 82 := by
  intro b ks la σ ws σ1 s v σ2 hb h hr hA ha
  replace h : SemF b [122] ks la σ ws σ1 s := h
  replace h := h.one
  obtain ⟨v1, rfl, ⟨rfl, c, x, y, rfl, h1, h2⟩, ht⟩ := h
  actr ha
  exact ⟨rfl, .ternary c x y, rfl, h1,
    .closed h2 (fun _ => by simp [Expr.closes]) (by simp [Expr.noAssign]) nofun nofun⟩

theorem prod_83 : Prod 83 := by
  intro b ks la σ ws σ1 s v σ2 hb h hr hA ha
  replace h : SemF b [119] ks la σ ws σ1 s := h
  replace h := h.one
  obtain ⟨v1, rfl, ⟨rfl, e, rfl, h1, h2⟩, ht⟩ := h
  actr ha
  refine ⟨rfl, .path e, by rw [Expr.toks], by rw [Expr.tree]; exact h1, by rw [Expr.grouped]; exact h2,
    fun _ _ => by simp [Expr.closes], nofun, fun _ => by simp [Expr.noAssign], fun p _ hla => ?_⟩
  rw [hla] at hA
  rw [follow_cons ht, follow, show trans s 40 = shiftL s 40 from rfl, tab_path s (trans_lt hb ht) hA]
  rfl

/-! ## simple_expr -/

theorem prod_88 : Prod 88 := by
  intro b ks la σ ws σ1 s v σ2 hb h hr hA ha
  replace h : SemF b [33] ks la σ ws σ1 s := h
  replace h := h.one
  obtain ⟨v1, rfl, h1, ht⟩ := h
  obtain ⟨rfl, rfl, hg⟩ := sem_literal .kString (by decide) rfl h1
  actr ha
  obtain ⟨x, hx⟩ := hg.str rfl
  have hx : v1.token.value = _ := hx
  refine ⟨rfl, .str x, by rw [Simple.toks, hx], ?_, by simp [Simple.grouped], fun _ _ => by simp [Simple.closes]⟩
  show v1.token.value.toStm = _
  rw [hx, Simple.tree]; rfl

theorem prod_89 : Prod 89 := by
  intro b ks la σ ws σ1 s v σ2 hb h hr hA ha
  replace h : SemF b [32] ks la σ ws σ1 s := h
  replace h := h.one
  obtain ⟨v1, rfl, h1, ht⟩ := h
  obtain ⟨rfl, rfl, hg⟩ := sem_literal .kNumber (by decide) rfl h1
  actr ha
  obtain ⟨x, hx⟩ := hg.num rfl
  have hx : v1.token.value = _ := hx
  refine ⟨rfl, .num x, by rw [Simple.toks, hx], ?_, by simp [Simple.grouped], fun _ _ => by simp [Simple.closes]⟩
  show v1.token.value.toStm = _
  rw [hx, Simple.tree]; rfl

theorem prod_90 : Prod 90 := by
  intro b ks la σ ws σ1 s v σ2 hb h hr hA ha
  replace h : SemF b [56, 111] ks la σ ws σ1 s := h
  replace h := h.uncons
  obtain ⟨k1, k2, v1, vs, σ3, b1, rfl, rfl, h1, ht1, h⟩ := h
  obtain ⟨rfl, rfl, -⟩ := sem_word .minus (by decide) rfl h1
  replace h := h.one
  obtain ⟨v2, rfl, ⟨rfl, e, rfl, h2, h3⟩, ht2⟩ := h
  actr ha
  refine ⟨rfl, .neg e, by rw [Simple.toks]; rfl, ?_, ?_, ?_⟩
  · show unaryMinus v2.stmt = _
    rw [withMinus_eq, h2, Simple.tree]
  · rw [Simple.grouped]
    refine ⟨?_, h3.grouped⟩
    unfold Expr.opens
    split
    · rename_i op2 x2 y2
      refine absurd ?_ (h3.opens op2 x2 y2 rfl)
      rw [follow_cons ht2, follow, tab_sign_open s (trans_lt (trans_lt hb ht1) ht2) (.inl hr) op2 (mem_allOps op2)]
      rfl
    · trivial
  · intro op hop
    rw [Simple.closes]
    exact ⟨Nat.le_trans (level_le op) (by decide), h3.closes op hop⟩

theorem prod_91 : Prod 91 := by
  intro b ks la σ ws σ1 s v σ2 hb h hr hA ha
  replace h : SemF b [55, 111] ks la σ ws σ1 s := h
  replace h := h.uncons
  obtain ⟨k1, k2, v1, vs, σ3, b1, rfl, rfl, h1, ht1, h⟩ := h
  obtain ⟨rfl, rfl, -⟩ := sem_word .plus (by decide) rfl h1
  replace h := h.one
  obtain ⟨v2, rfl, ⟨rfl, e, rfl, h2, h3⟩, ht2⟩ := h
  actr ha
  refine ⟨rfl, .pos e, by rw [Simple.toks]; rfl, ?_, ?_, ?_⟩
  · show v2.stmt = _
    rw [h2, Simple.tree]
  · rw [Simple.grouped]
    refine ⟨?_, h3.grouped⟩
    unfold Expr.opens
    split
    · rename_i op2 x2 y2
      refine absurd ?_ (h3.opens op2 x2 y2 rfl)
      rw [follow_cons ht2, follow, tab_sign_open s (trans_lt (trans_lt hb ht1) ht2) (.inr hr) op2 (mem_allOps op2)]
      rfl
    · trivial
  · intro op hop
    rw [Simple.closes]
    exact ⟨Nat.le_trans (level_le op) (by decide), h3.closes op hop⟩

theorem prod_92 : Prod 92 := by
  intro b ks la σ ws σ1 s v σ2 hb h hr hA ha
  replace h : SemF b [45] ks la σ ws σ1 s := h
  replace h := h.one
  obtain ⟨v1, rfl, h1, ht⟩ := h
  obtain ⟨rfl, rfl, hg⟩ := sem_literal .kTrue (by decide) rfl h1
  actr ha
  have hx : v1.token.value = _ := hg.tru rfl
  refine ⟨rfl, .bool true, by rw [Simple.toks, hx], ?_, by simp [Simple.grouped], fun _ _ => by simp [Simple.closes]⟩
  show v1.token.value.toStm = _
  rw [hx, Simple.tree]; rfl

theorem prod_93 : Prod 93 := by
  intro b ks la σ ws σ1 s v σ2 hb h hr hA ha
  replace h : SemF b [46] ks la σ ws σ1 s := h
  replace h := h.one
  obtain ⟨v1, rfl, h1, ht⟩ := h
  obtain ⟨rfl, rfl, hg⟩ := sem_literal .kFalse (by decide) rfl h1
  actr ha
  have hx : v1.token.value = _ := hg.fls rfl
  refine ⟨rfl, .bool false, by rw [Simple.toks, hx], ?_, by simp [Simple.grouped], fun _ _ => by simp [Simple.closes]⟩
  show v1.token.value.toStm = _
  rw [hx, Simple.tree]; rfl

theorem prod_94 : Prod 94 := by
  intro b ks la σ ws σ1 s v σ2 hb h hr hA ha
  replace h : SemF b [49] ks la σ ws σ1 s := h
  replace h := h.one
  obtain ⟨v1, rfl, h1, ht⟩ := h
  obtain ⟨rfl, rfl, hg⟩ := sem_literal .kDate (by decide) rfl h1
  actr ha
  obtain ⟨x, hx⟩ := hg.date rfl
  have hx : v1.token.value = _ := hx
  refine ⟨rfl, .date x, by rw [Simple.toks, hx], ?_, by simp [Simple.grouped], fun _ _ => by simp [Simple.closes]⟩
  show v1.token.value.toStm = _
  rw [hx, Simple.tree]; rfl

theorem prod_95 : Prod 95 := by
  intro b ks la σ ws σ1 s v σ2 hb h hr hA ha
  replace h : SemF b [47] ks la σ ws σ1 s := h
  replace h := h.one
  obtain ⟨v1, rfl, h1, ht⟩ := h
  obtain ⟨rfl, rfl, -⟩ := sem_word .kUndefind (by decide) rfl h1
  actr ha
  exact ⟨rfl, .undef, by rw [Simple.toks], by rw [Simple.tree], by simp [Simple.grouped], fun _ _ => by simp [Simple.closes]⟩

theorem prod_96 : Prod 96 := by
  intro b ks la σ ws σ1 s v σ2 hb h hr hA ha
  replace h : SemF b [128] ks la σ ws σ1 s := h
  replace h := h.one
  obtain ⟨v1, rfl, ⟨rfl, n, rfl, h1⟩, ht⟩ := h
  actr ha
  exact ⟨rfl, .label n, by rw [Simple.toks], by rw [Simple.tree]; exact h1, by simp [Simple.grouped], fun _ _ => by simp [Simple.closes]⟩

theorem prod_106 : Prod 106 := by
  intro b ks la σ ws σ1 s v σ2 hb h hr hA ha
  replace h : SemF b [27] ks la σ ws σ1 s := h
  replace h := h.one
  obtain ⟨v1, rfl, h1, ht⟩ := h
  obtain ⟨rfl, rfl⟩ := sem_named .kGoToLabel (by decide) rfl h1
  actr ha
  exact ⟨rfl, _, rfl, rfl⟩

/-! ## opt_expr, exprs -/

theorem prod_84 : Prod 84 := by
  intro b ks la σ ws σ1 s v σ2 hb h hr hA ha
  replace h : SemF b [] ks la σ ws σ1 s := h
  obtain ⟨rfl, rfl, rfl, rfl⟩ := h.unnil
  actr ha
  exact ⟨rfl, .none, by rw [OptExpr.toks], by rw [OptExpr.tree], by rw [OptExpr.grouped]; trivial⟩

theorem prod_85 : Prod 85 := by
  intro b ks la σ ws σ1 s v σ2 hb h hr hA ha
  replace h : SemF b [111] ks la σ ws σ1 s := h
  replace h := h.one
  obtain ⟨v1, rfl, ⟨rfl, e, rfl, h1, h2⟩, ht⟩ := h
  actr ha
  exact ⟨rfl, .some e, by rw [OptExpr.toks], by rw [OptExpr.tree]; exact h1, by rw [OptExpr.grouped]; exact h2.grouped⟩

theorem prod_86 : Prod 86 := by
  intro b ks la σ ws σ1 s v σ2 hb h hr hA ha
  replace h : SemF b [117] ks la σ ws σ1 s := h
  replace h := h.one
  obtain ⟨v1, rfl, ⟨rfl, e, rfl, h1, h2⟩, ht⟩ := h
  actr ha
  refine ⟨rfl, .one e, by rw [Args.toks], ?_, by rw [Args.grouped]; exact h2⟩
  show [v1.stmt] = _
  rw [h1, Args.tree]

theorem prod_87 : Prod 87 := by
  intro b ks la σ ws σ1 s v σ2 hb h hr hA ha
  replace h : SemF b [110, 133, 117] ks la σ ws σ1 s := h
  replace h := h.uncons
  obtain ⟨k1, k2, v1, vs, σ3, b1, rfl, rfl, ⟨rfl, e, rfl, h1, h2⟩, ht1, h⟩ := h
  replace h := h.uncons
  obtain ⟨k2, k3, v2, vs, σ4, b2, rfl, rfl, ⟨rfl, rfl⟩, ht2, h⟩ := h
  replace h := h.one
  obtain ⟨v3, rfl, ⟨rfl, o, rfl, h3, h4⟩, ht⟩ := h
  actr ha
  refine ⟨rfl, .more e o, by rw [Args.toks]; rfl, ?_, by rw [Args.grouped]; exact ⟨h2, h4⟩⟩
  show v1.exprs ++ [v3.stmt] = _
  rw [h1, h3, Args.tree]

/-! ## through_dot, identifier, execute_param -/

theorem prod_53 : Prod 53 := by
  intro b ks la σ ws σ1 s v σ2 hb h hr hA ha
  replace h : SemF b [127] ks la σ ws σ1 s := h
  replace h := h.one
  obtain ⟨v1, rfl, ⟨rfl, e, rfl, h1, h2⟩, ht⟩ := h
  actr ha
  exact ⟨rfl, .one e, by rw [Path.toks], by rw [Path.tree]; exact h1, by rw [Path.grouped]; exact h2⟩

theorem prod_54 : Prod 54 := by
  intro b ks la σ ws σ1 s v σ2 hb h hr hA ha
  replace h : SemF b [119, 141, 127] ks la σ ws σ1 s := h
  replace h := h.uncons
  obtain ⟨k1, k2, v1, vs, σ3, b1, rfl, rfl, ⟨rfl, e, rfl, h1, h2⟩, ht1, h⟩ := h
  replace h := h.uncons
  obtain ⟨k2, k3, v2, vs, σ4, b2, rfl, rfl, ⟨rfl, rfl⟩, ht2, h⟩ := h
  replace h := h.one
  obtain ⟨v3, rfl, ⟨rfl, o, rfl, h3, h4⟩, ht⟩ := h
  actr ha
  refine ⟨rfl, .dot e o, by rw [Path.toks]; rfl, ?_, by rw [Path.grouped]; exact ⟨h2, h4⟩⟩
  show Stm.chain v3.stmt v1.stmt false false = _
  rw [h1, h3, Path.tree]

theorem prod_55 : Prod 55 := by
  intro b ks la σ ws σ1 s v σ2 hb h hr hA ha
  replace h : SemF b [8] ks la σ ws σ1 s := h
  replace h := h.one
  obtain ⟨v1, rfl, h1, ht⟩ := h
  obtain ⟨rfl, rfl⟩ := sem_named .ktoken_identifier (by decide) rfl h1
  actr ha
  exact ⟨rfl, .name v1.token.literal, by rw [Ident.toks]; rfl, by rw [Ident.tree]; rfl, by rw [Ident.grouped]; trivial⟩

theorem prod_56 : Prod 56 := by
  intro b ks la σ ws σ1 s v σ2 hb h hr hA ha
  replace h : SemF b [8, 62, 110, 63] ks la σ ws σ1 s := h
  replace h := h.uncons
  obtain ⟨k1, k2, v1, vs, σ3, b1, rfl, rfl, h1, ht1, h⟩ := h
  obtain ⟨rfl, rfl⟩ := sem_named .ktoken_identifier (by decide) rfl h1
  replace h := h.uncons
  obtain ⟨k1, k2, v2, vs, σ3, b1, rfl, rfl, h1, ht1, h⟩ := h
  obtain ⟨rfl, rfl, -⟩ := sem_word .lpar (by decide) rfl h1
  replace h := h.uncons
  obtain ⟨k2, k3, v3, vs, σ4, b2, rfl, rfl, ⟨rfl, e, rfl, h2, h3⟩, ht2, h⟩ := h
  replace h := h.one
  obtain ⟨v4, rfl, h4, ht⟩ := h
  obtain ⟨rfl, rfl, -⟩ := sem_word .rpar (by decide) rfl h4
  actr ha
  refine ⟨rfl, .call v1.token.literal e, by rw [Ident.toks]; rfl, ?_, by rw [Ident.grouped]; exact h3⟩
  show Stm.method _ v3.exprs false = _
  rw [h2, Ident.tree]; rfl

theorem prod_57 : Prod 57 := by
  intro b ks la σ ws σ1 s v σ2 hb h hr hA ha
  replace h : SemF b [127, 65, 111, 66] ks la σ ws σ1 s := h
  replace h := h.uncons
  obtain ⟨k1, k2, v1, vs, σ3, b1, rfl, rfl, ⟨rfl, i, rfl, h1, h2⟩, ht1, h⟩ := h
  replace h := h.uncons
  obtain ⟨k1, k2, v2, vs, σ3, b1, rfl, rfl, h3, ht1, h⟩ := h
  obtain ⟨rfl, rfl, -⟩ := sem_word .lbr (by decide) rfl h3
  replace h := h.uncons
  obtain ⟨k2, k3, v3, vs, σ4, b2, rfl, rfl, ⟨rfl, e, rfl, h4, h5⟩, ht2, h⟩ := h
  replace h := h.one
  obtain ⟨v4, rfl, h6, ht⟩ := h
  obtain ⟨rfl, rfl, -⟩ := sem_word .rbr (by decide) rfl h6
  actr ha
  refine ⟨rfl, .index i e, by rw [Ident.toks]; rfl, ?_, by rw [Ident.grouped]; exact ⟨h2, h5.grouped⟩⟩
  show Stm.item v3.stmt v1.stmt = _
  rw [h1, h4, Ident.tree]

theorem prod_58 : Prod 58 := by
  intro b ks la σ ws σ1 s v σ2 hb h hr hA ha
  replace h : SemF b [51, 118] ks la σ ws σ1 s := h
  replace h := h.uncons
  obtain ⟨k1, k2, v1, vs, σ3, b1, rfl, rfl, h1, ht1, h⟩ := h
  obtain ⟨rfl, rfl⟩ := sem_named .kExecute (by decide) rfl h1
  replace h := h.one
  obtain ⟨v2, rfl, ⟨rfl, h2⟩, ht⟩ := h
  actr ha
  rcases h2 with ⟨x, rfl, h2⟩ | ⟨x, rfl, h2⟩
  · refine ⟨rfl, .execStr v1.token.literal x, by rw [Ident.toks]; rfl, ?_, by rw [Ident.grouped]; trivial⟩
    show Stm.method _ [v2.stmt] false = _
    rw [h2, Ident.tree]; rfl
  · refine ⟨rfl, .execVar v1.token.literal x, by rw [Ident.toks]; rfl, ?_, by rw [Ident.grouped]; trivial⟩
    show Stm.method _ [v2.stmt] false = _
    rw [h2, Ident.tree]; rfl

theorem prod_59 : Prod 59 := by
  intro b ks la σ ws σ1 s v σ2 hb h hr hA ha
  replace h : SemF b [51, 62, 111, 63] ks la σ ws σ1 s := h
  replace h := h.uncons
  obtain ⟨k1, k2, v1, vs, σ3, b1, rfl, rfl, h1, ht1, h⟩ := h
  obtain ⟨rfl, rfl⟩ := sem_named .kExecute (by decide) rfl h1
  replace h := h.uncons
  obtain ⟨k1, k2, v2, vs, σ3, b1, rfl, rfl, h1, ht1, h⟩ := h
  obtain ⟨rfl, rfl, -⟩ := sem_word .lpar (by decide) rfl h1
  replace h := h.uncons
  obtain ⟨k2, k3, v3, vs, σ4, b2, rfl, rfl, ⟨rfl, e, rfl, h2, h3⟩, ht2, h⟩ := h
  replace h := h.one
  obtain ⟨v4, rfl, h4, ht⟩ := h
  obtain ⟨rfl, rfl, -⟩ := sem_word .rpar (by decide) rfl h4
  actr ha
  refine ⟨rfl, .exec v1.token.literal e, by rw [Ident.toks]; rfl, ?_, by rw [Ident.grouped]; exact h3.grouped⟩
  show Stm.method _ [v3.stmt] false = _
  rw [h2, Ident.tree]; rfl

theorem prod_60 : Prod 60 := by
  intro b ks la σ ws σ1 s v σ2 hb h hr hA ha
  replace h : SemF b [33] ks la σ ws σ1 s := h
  replace h := h.one
  obtain ⟨v1, rfl, h1, ht⟩ := h
  obtain ⟨rfl, rfl, hg⟩ := sem_literal .kString (by decide) rfl h1
  actr ha
  obtain ⟨x, hx⟩ := hg.str rfl
  have hx : v1.token.value = _ := hx
  refine ⟨rfl, .inl ⟨x, by rw [hx], ?_⟩⟩
  show v1.token.value.toStm = _
  rw [hx]; rfl

theorem prod_61 : Prod 61 := by
  intro b ks la σ ws σ1 s v σ2 hb h hr hA ha
  replace h : SemF b [8] ks la σ ws σ1 s := h
  replace h := h.one
  obtain ⟨v1, rfl, h1, ht⟩ := h
  obtain ⟨rfl, rfl⟩ := sem_named .ktoken_identifier (by decide) rfl h1
  actr ha
  exact ⟨rfl, .inr ⟨_, rfl, rfl⟩⟩

/-! ## new_object, ternary, loopExp -/

theorem prod_103 : Prod 103 := by
  intro b ks la σ ws σ1 s v σ2 hb h hr hA ha
  replace h : SemF b [34, 8] ks la σ ws σ1 s := h
  replace h := h.uncons
  obtain ⟨k1, k2, v1, vs, σ3, b1, rfl, rfl, h1, ht1, h⟩ := h
  obtain ⟨rfl, rfl, -⟩ := sem_word .kNew (by decide) rfl h1
  replace h := h.one
  obtain ⟨v2, rfl, h2, ht⟩ := h
  obtain ⟨rfl, rfl⟩ := sem_named .ktoken_identifier (by decide) rfl h2
  actr ha
  exact ⟨rfl, .name v2.token.literal, by rw [New.toks]; rfl, by rw [New.tree]; rfl, by rw [New.grouped]; trivial⟩

theorem prod_104 : Prod 104 := by
  intro b ks la σ ws σ1 s v σ2 hb h hr hA ha
  replace h : SemF b [34, 8, 62, 110, 63] ks la σ ws σ1 s := h
  replace h := h.uncons
  obtain ⟨k1, k2, v1, vs, σ3, b1, rfl, rfl, h1, ht1, h⟩ := h
  obtain ⟨rfl, rfl, -⟩ := sem_word .kNew (by decide) rfl h1
  replace h := h.uncons
  obtain ⟨k1, k2, v2, vs, σ3, b1, rfl, rfl, h1, ht1, h⟩ := h
  obtain ⟨rfl, rfl⟩ := sem_named .ktoken_identifier (by decide) rfl h1
  replace h := h.uncons
  obtain ⟨k1, k2, v3, vs, σ3, b1, rfl, rfl, h1, ht1, h⟩ := h
  obtain ⟨rfl, rfl, -⟩ := sem_word .lpar (by decide) rfl h1
  replace h := h.uncons
  obtain ⟨k2, k3, v4, vs, σ4, b2, rfl, rfl, ⟨rfl, e, rfl, h2, h3⟩, ht2, h⟩ := h
  replace h := h.one
  obtain ⟨v5, rfl, h4, ht⟩ := h
  obtain ⟨rfl, rfl, -⟩ := sem_word .rpar (by decide) rfl h4
  actr ha
  refine ⟨rfl, .call v2.token.literal e, by rw [New.toks]; rfl, ?_, by rw [New.grouped]; exact h3⟩
  show Stm.new _ v4.exprs = _
  rw [h2, New.tree]; rfl

theorem prod_105 : Prod 105 := by
  intro b ks la σ ws σ1 s v σ2 hb h hr hA ha
  replace h : SemF b [34, 62, 110, 63] ks la σ ws σ1 s := h
  replace h := h.uncons
  obtain ⟨k1, k2, v1, vs, σ3, b1, rfl, rfl, h1, ht1, h⟩ := h
  obtain ⟨rfl, rfl, -⟩ := sem_word .kNew (by decide) rfl h1
  replace h := h.uncons
  obtain ⟨k1, k2, v3, vs, σ3, b1, rfl, rfl, h1, ht1, h⟩ := h
  obtain ⟨rfl, rfl, -⟩ := sem_word .lpar (by decide) rfl h1
  replace h := h.uncons
  obtain ⟨k2, k3, v4, vs, σ4, b2, rfl, rfl, ⟨rfl, e, rfl, h2, h3⟩, ht2, h⟩ := h
  replace h := h.one
  obtain ⟨v5, rfl, h4, ht⟩ := h
  obtain ⟨rfl, rfl, -⟩ := sem_word .rpar (by decide) rfl h4
  actr ha
  refine ⟨rfl, .args e, by rw [New.toks]; rfl, ?_, by rw [New.grouped]; exact h3⟩
  show Stm.new _ v4.exprs = _
  rw [h2, New.tree]

theorem prod_33 : Prod 33 := by
  intro b ks la σ ws σ1 s v σ2 hb h hr hA ha
  replace h : SemF b [64, 62, 111, 133, 111, 133, 111, 63] ks la σ ws σ1 s := h
  replace h := h.uncons
  obtain ⟨k1, k2, v1, vs, σ3, b1, rfl, rfl, h1, ht1, h⟩ := h
  obtain ⟨rfl, rfl, -⟩ := sem_word .quest (by decide) rfl h1
  replace h := h.uncons
  obtain ⟨k1, k2, v2, vs, σ3, b1, rfl, rfl, h1, ht1, h⟩ := h
  obtain ⟨rfl, rfl, -⟩ := sem_word .lpar (by decide) rfl h1
  replace h := h.uncons
  obtain ⟨k2, k3, v3, vs, σ4, b2, rfl, rfl, ⟨rfl, c, rfl, h2, h3⟩, ht2, h⟩ := h
  replace h := h.uncons
  obtain ⟨k2, k3, v4, vs, σ4, b2, rfl, rfl, ⟨rfl, rfl⟩, ht2, h⟩ := h
  replace h := h.uncons
  obtain ⟨k2, k3, v5, vs, σ4, b2, rfl, rfl, ⟨rfl, x, rfl, h4, h5⟩, ht2, h⟩ := h
  replace h := h.uncons
  obtain ⟨k2, k3, v6, vs, σ4, b2, rfl, rfl, ⟨rfl, rfl⟩, ht2, h⟩ := h
  replace h := h.uncons
  obtain ⟨k2, k3, v7, vs, σ4, b2, rfl, rfl, ⟨rfl, y, rfl, h6, h7⟩, ht2, h⟩ := h
  replace h := h.one
  obtain ⟨v8, rfl, h8, ht⟩ := h
  obtain ⟨rfl, rfl, -⟩ := sem_word .rpar (by decide) rfl h8
  actr ha
  refine ⟨rfl, c, x, y, by rw [Expr.toks]; rfl, ?_, by rw [Expr.grouped]; exact ⟨h3.grouped, h5.grouped, h7.grouped⟩⟩
  show Stm.ternary v3.stmt v5.stmt v7.stmt = _
  rw [h2, h4, h6, Expr.tree]

theorem prod_40 : Prod 40 := by
  intro b ks la σ ws σ1 s v σ2 hb h hr hA ha
  replace h : SemF b [119] ks la σ ws σ1 s := h
  replace h := h.one
  obtain ⟨v1, rfl, ⟨rfl, e, rfl, h1, h2⟩, ht⟩ := h
  actr ha
  exact ⟨rfl, .path e, rfl, h1, h2⟩

theorem prod_41 : Prod 41 := by
  intro b ks la σ ws σ1 s v σ2 hb h hr hA ha
  replace h : SemF b [121] ks la σ ws σ1 s := h
  replace h := h.one
  obtain ⟨v1, rfl, ⟨rfl, e, rfl, h1, h2⟩, ht⟩ := h
  actr ha
  exact ⟨rfl, .new e, rfl, h1, h2⟩

theorem prod_42 : Prod 42 := by
  intro b ks la σ ws σ1 s v σ2 hb h hr hA ha
  replace h : SemF b [62, 121, 63] ks la σ ws σ1 s := h
  replace h := h.uncons
  obtain ⟨k1, k2, v1, vs, σ3, b1, rfl, rfl, h1, ht1, h⟩ := h
  obtain ⟨rfl, rfl, -⟩ := sem_word .lpar (by decide) rfl h1
  replace h := h.uncons
  obtain ⟨k2, k3, v2, vs, σ4, b2, rfl, rfl, ⟨rfl, e, rfl, h2, h3⟩, ht2, h⟩ := h
  replace h := h.one
  obtain ⟨v3, rfl, h4, ht⟩ := h
  obtain ⟨rfl, rfl, -⟩ := sem_word .rpar (by decide) rfl h4
  actr ha
  exact ⟨rfl, .parenNew e, rfl, h2, h3⟩

theorem prod_43 : Prod 43 := by
  intro b ks la σ ws σ1 s v σ2 hb h hr hA ha
  replace h : SemF b [122] ks la σ ws σ1 s := h
  replace h := h.one
  obtain ⟨v1, rfl, ⟨rfl, c, x, y, rfl, h1, h2⟩, ht⟩ := h
  actr ha
  refine ⟨rfl, .ternary c x y, rfl, ?_, by rw [Expr.grouped] at h2; exact h2⟩
  rw [Expr.tree] at h1
  exact h1

/-! ## punctuation -/

theorem prod_22 : Prod 22 := by
  intro b ks la σ ws σ1 s v σ2 hb h hr hA ha
  replace h : SemF b [130] ks la σ ws σ1 s := h
  replace h := h.one
  obtain ⟨v1, rfl, ⟨rfl, rfl, h1⟩, ht⟩ := h
  actr ha
  exact ⟨rfl, .semi, rfl, h1⟩

theorem prod_23 : Prod 23 := by
  intro b ks la σ ws σ1 s v σ2 hb h hr hA ha
  replace h : SemF b [131] ks la σ ws σ1 s := h
  replace h := h.one
  obtain ⟨v1, rfl, ⟨rfl, rfl, h1⟩, ht⟩ := h
  actr ha
  exact ⟨rfl, .colon, rfl, h1⟩

theorem prod_109 : Prod 109 := by
  intro b ks la σ ws σ1 s v σ2 hb h hr hA ha
  replace h : SemF b [5] ks la σ ws σ1 s := h
  replace h := h.one
  obtain ⟨v1, rfl, h1, ht⟩ := h
  obtain ⟨rfl, rfl, -, -, h2⟩ := sem_word .semi (by decide) rfl h1
  actr ha
  exact ⟨rfl, rfl, h2 rfl⟩

theorem prod_110 : Prod 110 := by
  intro b ks la σ ws σ1 s v σ2 hb h hr hA ha
  replace h : SemF b [4] ks la σ ws σ1 s := h
  replace h := h.one
  obtain ⟨v1, rfl, h1, ht⟩ := h
  obtain ⟨rfl, rfl, -, h2, -⟩ := sem_word .colon (by decide) rfl h1
  actr ha
  exact ⟨rfl, rfl, h2 rfl⟩

theorem prod_111 : Prod 111 := by
  intro b ks la σ ws σ1 s v σ2 hb h hr hA ha
  replace h : SemF b [6] ks la σ ws σ1 s := h
  replace h := h.one
  obtain ⟨v1, rfl, h1, ht⟩ := h
  obtain ⟨rfl, rfl, -⟩ := sem_word .comma (by decide) rfl h1
  actr ha
  exact ⟨rfl, rfl⟩

theorem prod_112 : Prod 112 := by
  intro b ks la σ ws σ1 s v σ2 hb h hr hA ha
  replace h : SemF b [67] ks la σ ws σ1 s := h
  replace h := h.one
  obtain ⟨v1, rfl, h1, ht⟩ := h
  obtain ⟨rfl, rfl, -⟩ := sem_word .dot (by decide) rfl h1
  actr ha
  exact ⟨rfl, rfl⟩

end Verif.LR
