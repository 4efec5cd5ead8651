import Verif.Proofs.LR.Meaning
/-!
# The syntax of a tree, whatever its actions do

`Sy X b ks la`: the keys `ks` form a construct of symbol `X`, read from state `b` before the token `la`.  This is `Sem`
without values and effects, so it holds for every tree the automaton builds, also if an action reports an error.
-/
namespace Verif.LR
open Tables Spec Lexer

def Sy (X b : Nat) (ks : List Key) (la : Nat) : Prop :=
  match X with
  -- expressions
  | 111 => ∃ e : Expr, ks = e.toks ∧ ExprSem b la e
  | 114 => ∃ s : Simple, ks = s.toks ∧ SimpleSem la s
  | 110 => ∃ e : Args, ks = e.toks ∧ e.grouped
  | 117 => ∃ e : OptExpr, ks = e.toks ∧ e.grouped
  | 118 => (∃ s, ks = [literal .kString (.str s)]) ∨ ∃ n, ks = [ident n]
  | 119 => ∃ p : Path, ks = p.toks ∧ p.grouped
  | 127 => ∃ i : Ident, ks = i.toks ∧ i.grouped
  | 121 => ∃ n : New, ks = n.toks ∧ n.grouped
  | 122 => ∃ c x y : Expr, ks = (Expr.ternary c x y).toks ∧ (Expr.ternary c x y).grouped
  | 120 => ∃ s : Source, ks = s.toks ∧ s.grouped
  | 128 => ∃ n, ks = [named .kGoToLabel n]
  -- statements
  | 103 => ∃ s : Stmt, ks = s.toks ∧ s.grouped
  | 106 => ∃ s : Stmt, ks = s.toks ∧ s.grouped
  | 104 => ∃ s : Stmt, ks = s.toks ∧ s.grouped
  | 126 => ∃ s : Stmt, ks = s.toks ∧ s.grouped
  | 107 => ∃ s : Elifs, ks = s.toks ∧ s.grouped
  | 108 => ∃ s : Else, ks = s.toks ∧ s.grouped
  | 101 => ∃ s : Body, ks = s.toks ∧ s.grouped
  | 102 => ∃ s : Block, ks = s.toks ∧ s.grouped
  | 109 => ∃ s : OptStmt, ks = s.toks ∧ s.grouped
  | 129 => ∃ p : Sep, ks = [p.tok]
  | 130 => ks = [word .semi]
  | 131 => ks = [word .colon]
  | 133 => ks = [word .comma]
  | 141 => ks = [word .dot]
  | 138 => ks = []
  | 139 => ks = []
  | 140 => ks = []
  | 142 => ks = []
  -- declarations
  | 112 => ∃ e, ks = exportToks e
  | 113 => ∃ d, ks = directiveToks d
  | 125 => ∃ n : Names, ks = n.toks
  | 124 => ∃ l : List Names, ks = varsToks l
  | 123 => ∃ l : List Names, ks = varsToks l
  | 116 => ∃ p : ParamD, ks = p.toks ∧ p.grouped ∧ (la = 40 → ∀ s, p.defaults.getLast? = some s → s.closes (level .eq))
  | 115 => ∃ p : ParamsD, ks = p.toks ∧ ∀ x ∈ p.list, x.grouped
  | 137 => ks = []
  | 132 => ∃ d : VarsD, ks = d.toks
  | 105 => ∃ f : FuncD, ks = f.toks ∧ f.grouped
  | 136 => ∃ p : Part, ks = p.toks ∧ ∀ f, p = .func f → f.grouped
  | 135 => ∃ ps : List Part, ks = ps.flatMap Part.toks ∧ ∀ p ∈ ps, ∀ f, p = .func f → f.grouped
  | 134 => ∃ P : Program, ks = P.toks ∧ P.grouped
  -- tokens
  | X => ∃ x : Nat × Tok, ks = [key x] ∧ tokNum x.1 = X ∧ Good x

inductive SyF : Nat → List Nat → List Key → Nat → Nat → Prop
  | nil (b la : Nat) : SyF b [] [] la b
  | cons {X xs b b1 k1 k2 la e} : Sy X b k1 (nextK k2 la) → trans b X = some b1 →
      SyF b1 xs k2 la e → SyF b (X :: xs) (k1 ++ k2) la e

theorem SyF.uncons {b X xs ks la e} (h : SyF b (X :: xs) ks la e) :
    ∃ k1 k2 b1, ks = k1 ++ k2 ∧ Sy X b k1 (nextK k2 la) ∧ trans b X = some b1 ∧ SyF b1 xs k2 la e := by
  cases h with
  | cons h1 h2 h3 => exact ⟨_, _, _, rfl, h1, h2, h3⟩

theorem SyF.unnil {b ks la e} (h : SyF b [] ks la e) : ks = [] ∧ e = b := by
  cases h with
  | nil => exact ⟨rfl, rfl⟩

theorem SyF.one {b X ks la e} (h : SyF b [X] ks la e) : Sy X b ks la ∧ trans b X = some e := by
  obtain ⟨k1, k2, b1, rfl, h1, h2, h3⟩ := h.uncons
  obtain ⟨rfl, rfl⟩ := h3.unnil
  exact ⟨by rw [List.append_nil]; exact h1, h2⟩

theorem sy_tok {X : Nat} (hX : X < 100) {b : Nat} {ks : List Key} {la : Nat} :
    Sy X b ks la ↔ ∃ x : Nat × Tok, ks = [key x] ∧ tokNum x.1 = X ∧ Good x := by
  unfold Sy
  split <;> first | omega | rfl

theorem sy_word (a : Terminal) (ha : a.kind ∉ [Terminal.ktoken_identifier, .kGoToLabel, .kDirective, .kExecute, .kNumber, .kString,
      .kDate, .kTrue, .kFalse].map Terminal.kind) {X b : Nat} (hX : X = tnum a) {ks : List Key} {la : Nat}
    (h : Sy X b ks la) : ks = [word a] := by
  subst hX
  obtain ⟨x, h2, h3, -⟩ := (sy_tok (by cases a <;> decide)).1 h
  have hk := tnum_tokNum h3
  rw [h2, key, hk, if_neg, if_neg]
  · rfl
  · intro hm; exact ha (by revert hm; simp only [List.map_cons, List.map_nil, List.mem_cons]; tauto)
  · intro hm; exact ha (by revert hm; simp only [List.map_cons, List.map_nil, List.mem_cons]; tauto)

theorem sy_named (a : Terminal) (ha : a ∈ [Terminal.ktoken_identifier, .kGoToLabel, .kDirective, .kExecute])
    {X b : Nat} (hX : X = tnum a) {ks : List Key} {la : Nat} (h : Sy X b ks la) : ∃ n, ks = [named a n] := by
  subst hX
  obtain ⟨x, h2, h3, -⟩ := (sy_tok (by cases a <;> decide)).1 h
  have hk := tnum_tokNum h3
  refine ⟨x.2.literal, ?_⟩
  rw [h2, key, hk, if_pos (List.mem_map_of_mem ha)]; rfl

/-- The value of a literal fits its kind. -/
structure GoodVal (a : Terminal) (v : Val) : Prop where
  num : a = .kNumber → ∃ x, v = .num x
  str : a = .kString → ∃ x, v = .str x
  date : a = .kDate → ∃ x, v = .date x
  tru : a = .kTrue → v = .bool true
  fls : a = .kFalse → v = .bool false

theorem sy_literal (a : Terminal) (ha : a ∈ [Terminal.kNumber, .kString, .kDate, .kTrue, .kFalse])
    {X b : Nat} (hX : X = tnum a) {ks : List Key} {la : Nat} (h : Sy X b ks la) :
    ∃ v : Val, ks = [literal a v] ∧ GoodVal a v := by
  subst hX
  obtain ⟨x, h2, h3, h4⟩ := (sy_tok (by cases a <;> decide)).1 h
  have hk := tnum_tokNum h3
  refine ⟨x.2.value, ?_, ?_⟩
  · rw [h2, key, hk, if_neg, if_pos (List.mem_map_of_mem ha)]; rfl
    simp only [List.mem_cons, List.not_mem_nil, or_false] at ha
    rcases ha with rfl | rfl | rfl | rfl | rfl <;> decide
  · exact ⟨fun e => h4.num (by rw [hk, e]), fun e => h4.str (by rw [hk, e]), fun e => h4.date (by rw [hk, e]),
      fun e => h4.tru (by rw [hk, e]), fun e => h4.fls (by rw [hk, e])⟩

/-- The statement about one production. -/
abbrev SyProd (p : Nat) : Prop := ∀ {b ks la s}, b < nStates → SyF b (rhs p) ks la s →
  p ∈ reds s → action s la = .reduce p → Sy (lhs p) b ks la

theorem sy_bin {p : Nat} {op : Op} (hp : (p, op) ∈ binProds) {b ks la s} (hb : b < nStates)
    (h : SyF b [111, opNum op, 111] ks la s) (hA : action s la = .reduce p) : Sy 111 b ks la := by
  replace h := h.uncons
  obtain ⟨k1, k2, b1, rfl, ⟨x, rfl, h2⟩, ht1, h⟩ := h
  replace h := h.uncons
  obtain ⟨k2, k3, b2, rfl, h3, ht2, h⟩ := h
  obtain rfl := sy_word (opTerminal op) (by cases op <;> decide) rfl h3
  replace h := h.one
  obtain ⟨⟨y, rfl, h5⟩, ht3⟩ := h
  have hb1 := trans_lt hb ht1
  have hb2 := trans_lt hb1 ht2
  have hla : nextK ([word (opTerminal op)] ++ y.toks) la = opNum op := nextK_word _ _ _
  rw [hla] at h2
  refine ⟨.bin op x y, by rw [Expr.toks]; rfl, ?_, ?_, ?_, ?_, nofun⟩
  · rw [Expr.grouped]
    refine ⟨h2.closes op rfl, ?_, h2.grouped, h5.grouped⟩
    unfold Expr.opens
    split
    · rename_i op2 x2 y2
      have := isSome_of_ne (h5.opens op2 x2 y2 rfl)
      refine tab_bin_open b hb op (mem_allOps op) op2 (mem_allOps op2) ?_
      rw [follow_cons ht1, follow_cons ht2]
      exact this
    · trivial
  · intro op' hop'
    rw [Expr.closes]
    refine ⟨?_, h5.closes op' hop'⟩
    rw [hop'] at hA
    exact tab_bin_reduce (p, op) hp s (trans_lt hb2 ht3) op' (mem_allOps op') hA
  · rintro op' x' y' ⟨⟩
    rw [follow_cons ht1]
    rw [follow, show trans b1 (opNum op) = some b2 from ht2]
    exact nofun
  · intro hf
    cases x with
    | path p =>
      rw [Expr.noAssign]
      rintro rfl
      exact hf (h2.path p rfl rfl)
    | simple _ => rw [Expr.noAssign]; exact h2.noAssign hf; exact nofun
    | paren _ => rw [Expr.noAssign]; exact h2.noAssign hf; exact nofun
    | bin _ _ _ => rw [Expr.noAssign]; exact h2.noAssign hf; exact nofun
    | not _ => rw [Expr.noAssign]; exact h2.noAssign hf; exact nofun
    | new _ => rw [Expr.noAssign]; exact h2.noAssign hf; exact nofun
    | goto _ => rw [Expr.noAssign]; exact h2.noAssign hf; exact nofun
    | ternary _ _ _ => rw [Expr.noAssign]; exact h2.noAssign hf; exact nofun

theorem sy_prog {ps : List Part} {b : Block} (h : ∀ p ∈ ps, ∀ f, p = .func f → f.grouped) (hb : b.grouped) :
    (Program.mk ps b).grouped := by
  refine ⟨fun f hf => ?_, hb⟩
  unfold Program.funcs at hf
  obtain ⟨p, hp, hpf⟩ := List.mem_flatMap.1 hf
  cases p with
  | vars v => cases hpf
  | func g => rw [List.mem_singleton.1 hpf]; exact h _ hp _ rfl

/-! ## The productions -/

theorem sy_1 : SyProd 1 := by
  intro b ks la s hb h hr hA
  replace h : SyF b [] ks la s := h
  replace h := h.unnil
  obtain ⟨rfl, rfl⟩ := h
  exact ⟨⟨[], .empty⟩, by simp [Program.toks, Block.toks], sy_prog nofun (by simp [Block.grouped])⟩

theorem sy_2 : SyProd 2 := by
  intro b ks la s hb h hr hA
  replace h : SyF b [101] ks la s := h
  replace h := h.one
  obtain ⟨⟨e1, rfl, r1⟩, t1⟩ := h
  exact ⟨⟨[], .body e1⟩, by simp [Program.toks, Block.toks], sy_prog nofun (by rw [Block.grouped]; exact r1)⟩

theorem sy_3 : SyProd 3 := by
  intro b ks la s hb h hr hA
  replace h : SyF b [135, 102] ks la s := h
  replace h := h.uncons
  obtain ⟨k1, l1, b1, rfl, ⟨e1, rfl, r1⟩, t1, h⟩ := h
  replace h := h.one
  obtain ⟨⟨e2, rfl, r2⟩, t2⟩ := h
  exact ⟨⟨e1, e2⟩, by simp [Program.toks], sy_prog r1 r2⟩

theorem sy_4 : SyProd 4 := by
  intro b ks la s hb h hr hA
  replace h : SyF b [136] ks la s := h
  replace h := h.one
  obtain ⟨⟨e1, rfl, r1⟩, t1⟩ := h
  exact ⟨[e1], by simp, fun x hx => by rw [List.mem_singleton.1 hx]; exact r1⟩

theorem sy_5 : SyProd 5 := by
  intro b ks la s hb h hr hA
  replace h : SyF b [135, 136] ks la s := h
  replace h := h.uncons
  obtain ⟨k1, l1, b1, rfl, ⟨e1, rfl, r1⟩, t1, h⟩ := h
  replace h := h.one
  obtain ⟨⟨e2, rfl, r2⟩, t2⟩ := h
  exact ⟨e1 ++ [e2], by simp, fun x hx => by
    rcases List.mem_append.1 hx with h | h
    · exact r1 x h
    · rw [List.mem_singleton.1 h]; exact r2⟩

theorem sy_6 : SyProd 6 := by
  intro b ks la s hb h hr hA
  replace h : SyF b [132] ks la s := h
  replace h := h.one
  obtain ⟨⟨e1, rfl⟩, t1⟩ := h
  exact ⟨.vars e1, rfl, nofun⟩

theorem sy_7 : SyProd 7 := by
  intro b ks la s hb h hr hA
  replace h : SyF b [105] ks la s := h
  replace h := h.one
  obtain ⟨⟨e1, rfl, r1⟩, t1⟩ := h
  exact ⟨.func e1, rfl, fun f h => by cases h; exact r1⟩

theorem sy_8 : SyProd 8 := by
  intro b ks la s hb h hr hA
  replace h : SyF b [] ks la s := h
  replace h := h.unnil
  obtain ⟨rfl, rfl⟩ := h
  exact ⟨none, rfl⟩

theorem sy_9 : SyProd 9 := by
  intro b ks la s hb h hr hA
  replace h : SyF b [7] ks la s := h
  replace h := h.one
  obtain ⟨h1, t1⟩ := h
  obtain ⟨n1, rfl⟩ := sy_named .kDirective (by decide) rfl h1
  exact ⟨some n1, rfl⟩

theorem sy_10 : SyProd 10 := by
  intro b ks la s hb h hr hA
  replace h : SyF b [] ks la s := h
  replace h := h.unnil
  obtain ⟨rfl, rfl⟩ := h
  exact ⟨false, rfl⟩

theorem sy_11 : SyProd 11 := by
  intro b ks la s hb h hr hA
  replace h : SyF b [48] ks la s := h
  replace h := h.one
  obtain ⟨h1, t1⟩ := h
  obtain rfl := sy_word .kExport (by decide) rfl h1
  exact ⟨true, rfl⟩

theorem sy_12 : SyProd 12 := by
  intro b ks la s hb h hr hA
  replace h : SyF b [113, 10, 125, 112, 130] ks la s := h
  replace h := h.uncons
  obtain ⟨k1, l1, b1, rfl, ⟨e1, rfl⟩, t1, h⟩ := h
  replace h := h.uncons
  obtain ⟨k2, l2, b2, rfl, h2, t2, h⟩ := h
  obtain rfl := sy_word .kVar (by decide) rfl h2
  replace h := h.uncons
  obtain ⟨k3, l3, b3, rfl, ⟨e3, rfl⟩, t3, h⟩ := h
  replace h := h.uncons
  obtain ⟨k4, l4, b4, rfl, ⟨e4, rfl⟩, t4, h⟩ := h
  replace h := h.one
  obtain ⟨rfl, t5⟩ := h
  exact ⟨⟨e1, e3, e4⟩, by simp [VarsD.toks]⟩

theorem sy_13 : SyProd 13 := by
  intro b ks la s hb h hr hA
  replace h : SyF b [] ks la s := h
  replace h := h.unnil
  obtain ⟨rfl, rfl⟩ := h
  rfl

theorem sy_14 : SyProd 14 := by
  intro b ks la s hb h hr hA
  replace h : SyF b [113, 35, 8, 62, 115, 63, 112, 137, 123, 102, 36] ks la s := h
  replace h := h.uncons
  obtain ⟨k1, l1, b1, rfl, ⟨e1, rfl⟩, t1, h⟩ := h
  replace h := h.uncons
  obtain ⟨k2, l2, b2, rfl, h2, t2, h⟩ := h
  obtain rfl := sy_word .kFunction (by decide) rfl h2
  replace h := h.uncons
  obtain ⟨k3, l3, b3, rfl, h3, t3, h⟩ := h
  obtain ⟨n3, rfl⟩ := sy_named .ktoken_identifier (by decide) rfl h3
  replace h := h.uncons
  obtain ⟨k4, l4, b4, rfl, h4, t4, h⟩ := h
  obtain rfl := sy_word .lpar (by decide) rfl h4
  replace h := h.uncons
  obtain ⟨k5, l5, b5, rfl, ⟨e5, rfl, r5⟩, t5, h⟩ := h
  replace h := h.uncons
  obtain ⟨k6, l6, b6, rfl, h6, t6, h⟩ := h
  obtain rfl := sy_word .rpar (by decide) rfl h6
  replace h := h.uncons
  obtain ⟨k7, l7, b7, rfl, ⟨e7, rfl⟩, t7, h⟩ := h
  replace h := h.uncons
  obtain ⟨k8, l8, b8, rfl, rfl, t8, h⟩ := h
  replace h := h.uncons
  obtain ⟨k9, l9, b9, rfl, ⟨e9, rfl⟩, t9, h⟩ := h
  replace h := h.uncons
  obtain ⟨k10, l10, b10, rfl, ⟨e10, rfl, r10⟩, t10, h⟩ := h
  replace h := h.one
  obtain ⟨h11, t11⟩ := h
  obtain rfl := sy_word .kEndFunction (by decide) rfl h11
  exact ⟨⟨e1, true, n3, e5, e7, e9, e10⟩, by simp [FuncD.toks, varsToks, ident], r5, r10⟩

theorem sy_15 : SyProd 15 := by
  intro b ks la s hb h hr hA
  replace h : SyF b [113, 9, 8, 62, 115, 63, 112, 123, 102, 11] ks la s := h
  replace h := h.uncons
  obtain ⟨k1, l1, b1, rfl, ⟨e1, rfl⟩, t1, h⟩ := h
  replace h := h.uncons
  obtain ⟨k2, l2, b2, rfl, h2, t2, h⟩ := h
  obtain rfl := sy_word .kProcedure (by decide) rfl h2
  replace h := h.uncons
  obtain ⟨k3, l3, b3, rfl, h3, t3, h⟩ := h
  obtain ⟨n3, rfl⟩ := sy_named .ktoken_identifier (by decide) rfl h3
  replace h := h.uncons
  obtain ⟨k4, l4, b4, rfl, h4, t4, h⟩ := h
  obtain rfl := sy_word .lpar (by decide) rfl h4
  replace h := h.uncons
  obtain ⟨k5, l5, b5, rfl, ⟨e5, rfl, r5⟩, t5, h⟩ := h
  replace h := h.uncons
  obtain ⟨k6, l6, b6, rfl, h6, t6, h⟩ := h
  obtain rfl := sy_word .rpar (by decide) rfl h6
  replace h := h.uncons
  obtain ⟨k7, l7, b7, rfl, ⟨e7, rfl⟩, t7, h⟩ := h
  replace h := h.uncons
  obtain ⟨k8, l8, b8, rfl, ⟨e8, rfl⟩, t8, h⟩ := h
  replace h := h.uncons
  obtain ⟨k9, l9, b9, rfl, ⟨e9, rfl, r9⟩, t9, h⟩ := h
  replace h := h.one
  obtain ⟨h10, t10⟩ := h
  obtain rfl := sy_word .kEndProcedure (by decide) rfl h10
  exact ⟨⟨e1, false, n3, e5, e7, e8, e9⟩, by simp [FuncD.toks, varsToks, ident], r5, r9⟩

theorem sy_16 : SyProd 16 := by
  intro b ks la s hb h hr hA
  replace h : SyF b [] ks la s := h
  replace h := h.unnil
  obtain ⟨rfl, rfl⟩ := h
  exact ⟨.empty, by simp [Block.toks], by simp [Block.grouped]⟩

theorem sy_17 : SyProd 17 := by
  intro b ks la s hb h hr hA
  replace h : SyF b [101] ks la s := h
  replace h := h.one
  obtain ⟨⟨e1, rfl, r1⟩, t1⟩ := h
  exact ⟨.body e1, by simp [Block.toks], by simp [Block.grouped, r1]⟩

theorem sy_18 : SyProd 18 := by
  intro b ks la s hb h hr hA
  replace h : SyF b [103] ks la s := h
  replace h := h.one
  obtain ⟨⟨e1, rfl, r1⟩, t1⟩ := h
  exact ⟨.one e1, by simp [Body.toks], by simp [Body.grouped, r1]⟩

theorem sy_19 : SyProd 19 := by
  intro b ks la s hb h hr hA
  replace h : SyF b [102, 129, 109] ks la s := h
  replace h := h.uncons
  obtain ⟨k1, l1, b1, rfl, ⟨e1, rfl, r1⟩, t1, h⟩ := h
  replace h := h.uncons
  obtain ⟨k2, l2, b2, rfl, ⟨e2, rfl⟩, t2, h⟩ := h
  replace h := h.one
  obtain ⟨⟨e3, rfl, r3⟩, t3⟩ := h
  exact ⟨.sep e1 e2 e3, by simp [Body.toks], by simp [Body.grouped, r1, r3]⟩

theorem sy_20 : SyProd 20 := by
  intro b ks la s hb h hr hA
  replace h : SyF b [] ks la s := h
  replace h := h.unnil
  obtain ⟨rfl, rfl⟩ := h
  exact ⟨.none, by simp [OptStmt.toks], by simp [OptStmt.grouped]⟩

theorem sy_21 : SyProd 21 := by
  intro b ks la s hb h hr hA
  replace h : SyF b [103] ks la s := h
  replace h := h.one
  obtain ⟨⟨e1, rfl, r1⟩, t1⟩ := h
  exact ⟨.some e1, by simp [OptStmt.toks], by simp [OptStmt.grouped, r1]⟩

theorem sy_22 : SyProd 22 := by
  intro b ks la s hb h hr hA
  replace h : SyF b [130] ks la s := h
  replace h := h.one
  obtain ⟨rfl, t1⟩ := h
  exact ⟨.semi, rfl⟩

theorem sy_23 : SyProd 23 := by
  intro b ks la s hb h hr hA
  replace h : SyF b [131] ks la s := h
  replace h := h.one
  obtain ⟨rfl, t1⟩ := h
  exact ⟨.colon, rfl⟩

theorem sy_24 : SyProd 24 := by
  intro b ks la s hb h hr hA
  replace h : SyF b [] ks la s := h
  replace h := h.unnil
  obtain ⟨rfl, rfl⟩ := h
  exact ⟨[], rfl⟩

theorem sy_25 : SyProd 25 := by
  intro b ks la s hb h hr hA
  replace h : SyF b [124] ks la s := h
  replace h := h.one
  obtain ⟨⟨e1, rfl⟩, t1⟩ := h
  exact ⟨e1, rfl⟩

theorem sy_26 : SyProd 26 := by
  intro b ks la s hb h hr hA
  replace h : SyF b [10, 125, 130] ks la s := h
  replace h := h.uncons
  obtain ⟨k1, l1, b1, rfl, h1, t1, h⟩ := h
  obtain rfl := sy_word .kVar (by decide) rfl h1
  replace h := h.uncons
  obtain ⟨k2, l2, b2, rfl, ⟨e2, rfl⟩, t2, h⟩ := h
  replace h := h.one
  obtain ⟨rfl, t3⟩ := h
  exact ⟨[e2], by simp [varsToks]⟩

theorem sy_27 : SyProd 27 := by
  intro b ks la s hb h hr hA
  replace h : SyF b [124, 10, 125, 130] ks la s := h
  replace h := h.uncons
  obtain ⟨k1, l1, b1, rfl, ⟨e1, rfl⟩, t1, h⟩ := h
  replace h := h.uncons
  obtain ⟨k2, l2, b2, rfl, h2, t2, h⟩ := h
  obtain rfl := sy_word .kVar (by decide) rfl h2
  replace h := h.uncons
  obtain ⟨k3, l3, b3, rfl, ⟨e3, rfl⟩, t3, h⟩ := h
  replace h := h.one
  obtain ⟨rfl, t4⟩ := h
  exact ⟨e1 ++ [e3], by simp [varsToks]⟩

theorem sy_28 : SyProd 28 := by
  intro b ks la s hb h hr hA
  replace h : SyF b [12, 111, 13, 102, 107, 108, 16] ks la s := h
  replace h := h.uncons
  obtain ⟨k1, l1, b1, rfl, h1, t1, h⟩ := h
  obtain rfl := sy_word .kIf (by decide) rfl h1
  replace h := h.uncons
  obtain ⟨k2, l2, b2, rfl, ⟨e2, rfl, r2⟩, t2, h⟩ := h
  replace h := h.uncons
  obtain ⟨k3, l3, b3, rfl, h3, t3, h⟩ := h
  obtain rfl := sy_word .kThen (by decide) rfl h3
  replace h := h.uncons
  obtain ⟨k4, l4, b4, rfl, ⟨e4, rfl, r4⟩, t4, h⟩ := h
  replace h := h.uncons
  obtain ⟨k5, l5, b5, rfl, ⟨e5, rfl, r5⟩, t5, h⟩ := h
  replace h := h.uncons
  obtain ⟨k6, l6, b6, rfl, ⟨e6, rfl, r6⟩, t6, h⟩ := h
  replace h := h.one
  obtain ⟨h7, t7⟩ := h
  obtain rfl := sy_word .kEndIf (by decide) rfl h7
  exact ⟨.ifS e2 e4 e5 e6, by simp [Stmt.toks], by simp [Stmt.grouped, r2.grouped, r4, r5, r6]⟩

theorem sy_29 : SyProd 29 := by
  intro b ks la s hb h hr hA
  replace h : SyF b [] ks la s := h
  replace h := h.unnil
  obtain ⟨rfl, rfl⟩ := h
  exact ⟨.nil, by simp [Elifs.toks], by simp [Elifs.grouped]⟩

theorem sy_30 : SyProd 30 := by
  intro b ks la s hb h hr hA
  replace h : SyF b [14, 111, 13, 102, 107] ks la s := h
  replace h := h.uncons
  obtain ⟨k1, l1, b1, rfl, h1, t1, h⟩ := h
  obtain rfl := sy_word .kElseIf (by decide) rfl h1
  replace h := h.uncons
  obtain ⟨k2, l2, b2, rfl, ⟨e2, rfl, r2⟩, t2, h⟩ := h
  replace h := h.uncons
  obtain ⟨k3, l3, b3, rfl, h3, t3, h⟩ := h
  obtain rfl := sy_word .kThen (by decide) rfl h3
  replace h := h.uncons
  obtain ⟨k4, l4, b4, rfl, ⟨e4, rfl, r4⟩, t4, h⟩ := h
  replace h := h.one
  obtain ⟨⟨e5, rfl, r5⟩, t5⟩ := h
  exact ⟨.cons e2 e4 e5, by simp [Elifs.toks], by simp [Elifs.grouped, r2.grouped, r4, r5]⟩

theorem sy_31 : SyProd 31 := by
  intro b ks la s hb h hr hA
  replace h : SyF b [] ks la s := h
  replace h := h.unnil
  obtain ⟨rfl, rfl⟩ := h
  exact ⟨.none, by simp [Else.toks], by simp [Else.grouped]⟩

theorem sy_32 : SyProd 32 := by
  intro b ks la s hb h hr hA
  replace h : SyF b [15, 102] ks la s := h
  replace h := h.uncons
  obtain ⟨k1, l1, b1, rfl, h1, t1, h⟩ := h
  obtain rfl := sy_word .kElse (by decide) rfl h1
  replace h := h.one
  obtain ⟨⟨e2, rfl, r2⟩, t2⟩ := h
  exact ⟨.some e2, by simp [Else.toks], by simp [Else.grouped, r2]⟩

theorem sy_33 : SyProd 33 := by
  intro b ks la s hb h hr hA
  replace h : SyF b [64, 62, 111, 133, 111, 133, 111, 63] ks la s := h
  replace h := h.uncons
  obtain ⟨k1, l1, b1, rfl, h1, t1, h⟩ := h
  obtain rfl := sy_word .quest (by decide) rfl h1
  replace h := h.uncons
  obtain ⟨k2, l2, b2, rfl, h2, t2, h⟩ := h
  obtain rfl := sy_word .lpar (by decide) rfl h2
  replace h := h.uncons
  obtain ⟨k3, l3, b3, rfl, ⟨e3, rfl, r3⟩, t3, h⟩ := h
  replace h := h.uncons
  obtain ⟨k4, l4, b4, rfl, rfl, t4, h⟩ := h
  replace h := h.uncons
  obtain ⟨k5, l5, b5, rfl, ⟨e5, rfl, r5⟩, t5, h⟩ := h
  replace h := h.uncons
  obtain ⟨k6, l6, b6, rfl, rfl, t6, h⟩ := h
  replace h := h.uncons
  obtain ⟨k7, l7, b7, rfl, ⟨e7, rfl, r7⟩, t7, h⟩ := h
  replace h := h.one
  obtain ⟨h8, t8⟩ := h
  obtain rfl := sy_word .rpar (by decide) rfl h8
  exact ⟨e3, e5, e7, by simp [Expr.toks], by rw [Expr.grouped]; exact ⟨r3.grouped, r5.grouped, r7.grouped⟩⟩

theorem sy_34 : SyProd 34 := by
  intro b ks la s hb h hr hA
  replace h : SyF b [] ks la s := h
  replace h := h.unnil
  obtain ⟨rfl, rfl⟩ := h
  rfl

theorem sy_35 : SyProd 35 := by
  intro b ks la s hb h hr hA
  replace h : SyF b [17, 18, 8, 19, 120, 21, 138, 102, 22] ks la s := h
  replace h := h.uncons
  obtain ⟨k1, l1, b1, rfl, h1, t1, h⟩ := h
  obtain rfl := sy_word .kFor (by decide) rfl h1
  replace h := h.uncons
  obtain ⟨k2, l2, b2, rfl, h2, t2, h⟩ := h
  obtain rfl := sy_word .kEach (by decide) rfl h2
  replace h := h.uncons
  obtain ⟨k3, l3, b3, rfl, h3, t3, h⟩ := h
  obtain ⟨n3, rfl⟩ := sy_named .ktoken_identifier (by decide) rfl h3
  replace h := h.uncons
  obtain ⟨k4, l4, b4, rfl, h4, t4, h⟩ := h
  obtain rfl := sy_word .kIn (by decide) rfl h4
  replace h := h.uncons
  obtain ⟨k5, l5, b5, rfl, ⟨e5, rfl, r5⟩, t5, h⟩ := h
  replace h := h.uncons
  obtain ⟨k6, l6, b6, rfl, h6, t6, h⟩ := h
  obtain rfl := sy_word .kLoop (by decide) rfl h6
  replace h := h.uncons
  obtain ⟨k7, l7, b7, rfl, rfl, t7, h⟩ := h
  replace h := h.uncons
  obtain ⟨k8, l8, b8, rfl, ⟨e8, rfl, r8⟩, t8, h⟩ := h
  replace h := h.one
  obtain ⟨h9, t9⟩ := h
  obtain rfl := sy_word .kEndLoop (by decide) rfl h9
  exact ⟨.forEach n3 e5 e8, by simp [Stmt.toks, ident], by simp [Stmt.grouped, r5, r8]⟩

theorem sy_36 : SyProd 36 := by
  intro b ks la s hb h hr hA
  replace h : SyF b [] ks la s := h
  replace h := h.unnil
  obtain ⟨rfl, rfl⟩ := h
  rfl

theorem sy_37 : SyProd 37 := by
  intro b ks la s hb h hr hA
  replace h : SyF b [17, 111, 20, 111, 21, 139, 102, 22] ks la s := h
  replace h := h.uncons
  obtain ⟨k1, l1, b1, rfl, h1, t1, h⟩ := h
  obtain rfl := sy_word .kFor (by decide) rfl h1
  replace h := h.uncons
  obtain ⟨k2, l2, b2, rfl, ⟨e2, rfl, r2⟩, t2, h⟩ := h
  replace h := h.uncons
  obtain ⟨k3, l3, b3, rfl, h3, t3, h⟩ := h
  obtain rfl := sy_word .kTo (by decide) rfl h3
  replace h := h.uncons
  obtain ⟨k4, l4, b4, rfl, ⟨e4, rfl, r4⟩, t4, h⟩ := h
  replace h := h.uncons
  obtain ⟨k5, l5, b5, rfl, h5, t5, h⟩ := h
  obtain rfl := sy_word .kLoop (by decide) rfl h5
  replace h := h.uncons
  obtain ⟨k6, l6, b6, rfl, rfl, t6, h⟩ := h
  replace h := h.uncons
  obtain ⟨k7, l7, b7, rfl, ⟨e7, rfl, r7⟩, t7, h⟩ := h
  replace h := h.one
  obtain ⟨h8, t8⟩ := h
  obtain rfl := sy_word .kEndLoop (by decide) rfl h8
  exact ⟨.forTo e2 e4 e7, by simp [Stmt.toks], by simp [Stmt.grouped, r2.grouped, r4.grouped, r7]⟩

theorem sy_38 : SyProd 38 := by
  intro b ks la s hb h hr hA
  replace h : SyF b [] ks la s := h
  replace h := h.unnil
  obtain ⟨rfl, rfl⟩ := h
  rfl

theorem sy_39 : SyProd 39 := by
  intro b ks la s hb h hr hA
  replace h : SyF b [26, 111, 21, 140, 102, 22] ks la s := h
  replace h := h.uncons
  obtain ⟨k1, l1, b1, rfl, h1, t1, h⟩ := h
  obtain rfl := sy_word .kWhile (by decide) rfl h1
  replace h := h.uncons
  obtain ⟨k2, l2, b2, rfl, ⟨e2, rfl, r2⟩, t2, h⟩ := h
  replace h := h.uncons
  obtain ⟨k3, l3, b3, rfl, h3, t3, h⟩ := h
  obtain rfl := sy_word .kLoop (by decide) rfl h3
  replace h := h.uncons
  obtain ⟨k4, l4, b4, rfl, rfl, t4, h⟩ := h
  replace h := h.uncons
  obtain ⟨k5, l5, b5, rfl, ⟨e5, rfl, r5⟩, t5, h⟩ := h
  replace h := h.one
  obtain ⟨h6, t6⟩ := h
  obtain rfl := sy_word .kEndLoop (by decide) rfl h6
  exact ⟨.while e2 e5, by simp [Stmt.toks], by simp [Stmt.grouped, r2.grouped, r5]⟩

theorem sy_40 : SyProd 40 := by
  intro b ks la s hb h hr hA
  replace h : SyF b [119] ks la s := h
  replace h := h.one
  obtain ⟨⟨e1, rfl, r1⟩, t1⟩ := h
  exact ⟨.path e1, by simp [Source.toks], by simp [Source.grouped, r1]⟩

theorem sy_41 : SyProd 41 := by
  intro b ks la s hb h hr hA
  replace h : SyF b [121] ks la s := h
  replace h := h.one
  obtain ⟨⟨e1, rfl, r1⟩, t1⟩ := h
  exact ⟨.new e1, by simp [Source.toks], by simp [Source.grouped, r1]⟩

theorem sy_42 : SyProd 42 := by
  intro b ks la s hb h hr hA
  replace h : SyF b [62, 121, 63] ks la s := h
  replace h := h.uncons
  obtain ⟨k1, l1, b1, rfl, h1, t1, h⟩ := h
  obtain rfl := sy_word .lpar (by decide) rfl h1
  replace h := h.uncons
  obtain ⟨k2, l2, b2, rfl, ⟨e2, rfl, r2⟩, t2, h⟩ := h
  replace h := h.one
  obtain ⟨h3, t3⟩ := h
  obtain rfl := sy_word .rpar (by decide) rfl h3
  exact ⟨.parenNew e2, by simp [Source.toks], by simp [Source.grouped, r2]⟩

theorem sy_43 : SyProd 43 := by
  intro b ks la s hb h hr hA
  replace h : SyF b [122] ks la s := h
  replace h := h.one
  obtain ⟨⟨c1, x1, y1, rfl, r1⟩, t1⟩ := h
  rw [Expr.grouped] at r1
  exact ⟨.ternary c1 x1 y1, rfl, r1⟩

theorem sy_44 : SyProd 44 := by
  intro b ks la s hb h hr hA
  replace h : SyF b [119, 40, 111] ks la s := h
  replace h := h.uncons
  obtain ⟨k1, l1, b1, rfl, ⟨e1, rfl, r1⟩, t1, h⟩ := h
  replace h := h.uncons
  obtain ⟨k2, l2, b2, rfl, h2, t2, h⟩ := h
  obtain rfl := sy_word .kEQUAL (by decide) rfl h2
  replace h := h.one
  obtain ⟨⟨e3, rfl, r3⟩, t3⟩ := h
  exact ⟨.assign e1 e3, by simp [Stmt.toks], by simp [Stmt.grouped, r1, r3.grouped]⟩

theorem sy_45 : SyProd 45 := by
  intro b ks la s hb h hr hA
  replace h : SyF b [111] ks la s := h
  replace h := h.one
  obtain ⟨⟨e1, rfl, r1⟩, t1⟩ := h
  refine ⟨.expr e1, by simp [Stmt.toks], ?_⟩
  rw [Stmt.grouped]
  refine ⟨r1.grouped, r1.noAssign ?_⟩
  have := tab_stmt_goto b hb s t1 hr
  intro h0; rw [h0] at this; cases this

theorem sy_46 : SyProd 46 := by
  intro b ks la s hb h hr hA
  replace h : SyF b [106] ks la s := h
  replace h := h.one
  obtain ⟨⟨e1, rfl, r1⟩, t1⟩ := h
  exact ⟨e1, rfl, r1⟩

theorem sy_47 : SyProd 47 := by
  intro b ks la s hb h hr hA
  replace h : SyF b [104] ks la s := h
  replace h := h.one
  obtain ⟨⟨e1, rfl, r1⟩, t1⟩ := h
  exact ⟨e1, rfl, r1⟩

theorem sy_48 : SyProd 48 := by
  intro b ks la s hb h hr hA
  replace h : SyF b [126] ks la s := h
  replace h := h.one
  obtain ⟨⟨e1, rfl, r1⟩, t1⟩ := h
  exact ⟨e1, rfl, r1⟩

theorem sy_49 : SyProd 49 := by
  intro b ks la s hb h hr hA
  replace h : SyF b [28] ks la s := h
  replace h := h.one
  obtain ⟨h1, t1⟩ := h
  obtain rfl := sy_word .kContinue (by decide) rfl h1
  exact ⟨.cont, by simp [Stmt.toks], by simp [Stmt.grouped]⟩

theorem sy_50 : SyProd 50 := by
  intro b ks la s hb h hr hA
  replace h : SyF b [23] ks la s := h
  replace h := h.one
  obtain ⟨h1, t1⟩ := h
  obtain rfl := sy_word .kBreak (by decide) rfl h1
  exact ⟨.brk, by simp [Stmt.toks], by simp [Stmt.grouped]⟩

theorem sy_51 : SyProd 51 := by
  intro b ks la s hb h hr hA
  replace h : SyF b [38, 117] ks la s := h
  replace h := h.uncons
  obtain ⟨k1, l1, b1, rfl, h1, t1, h⟩ := h
  obtain rfl := sy_word .kThrow (by decide) rfl h1
  replace h := h.one
  obtain ⟨⟨e2, rfl, r2⟩, t2⟩ := h
  exact ⟨.throw e2, by simp [Stmt.toks], by simp [Stmt.grouped, r2]⟩

theorem sy_52 : SyProd 52 := by
  intro b ks la s hb h hr hA
  replace h : SyF b [37, 117] ks la s := h
  replace h := h.uncons
  obtain ⟨k1, l1, b1, rfl, h1, t1, h⟩ := h
  obtain rfl := sy_word .kReturn (by decide) rfl h1
  replace h := h.one
  obtain ⟨⟨e2, rfl, r2⟩, t2⟩ := h
  exact ⟨.ret e2, by simp [Stmt.toks], by simp [Stmt.grouped, r2]⟩

theorem sy_53 : SyProd 53 := by
  intro b ks la s hb h hr hA
  replace h : SyF b [127] ks la s := h
  replace h := h.one
  obtain ⟨⟨e1, rfl, r1⟩, t1⟩ := h
  exact ⟨.one e1, by simp [Path.toks], by simp [Path.grouped, r1]⟩

theorem sy_54 : SyProd 54 := by
  intro b ks la s hb h hr hA
  replace h : SyF b [119, 141, 127] ks la s := h
  replace h := h.uncons
  obtain ⟨k1, l1, b1, rfl, ⟨e1, rfl, r1⟩, t1, h⟩ := h
  replace h := h.uncons
  obtain ⟨k2, l2, b2, rfl, rfl, t2, h⟩ := h
  replace h := h.one
  obtain ⟨⟨e3, rfl, r3⟩, t3⟩ := h
  exact ⟨.dot e1 e3, by simp [Path.toks], by simp [Path.grouped, r1, r3]⟩

theorem sy_55 : SyProd 55 := by
  intro b ks la s hb h hr hA
  replace h : SyF b [8] ks la s := h
  replace h := h.one
  obtain ⟨h1, t1⟩ := h
  obtain ⟨n1, rfl⟩ := sy_named .ktoken_identifier (by decide) rfl h1
  exact ⟨.name n1, by simp [Ident.toks, ident], by simp [Ident.grouped]⟩

theorem sy_56 : SyProd 56 := by
  intro b ks la s hb h hr hA
  replace h : SyF b [8, 62, 110, 63] ks la s := h
  replace h := h.uncons
  obtain ⟨k1, l1, b1, rfl, h1, t1, h⟩ := h
  obtain ⟨n1, rfl⟩ := sy_named .ktoken_identifier (by decide) rfl h1
  replace h := h.uncons
  obtain ⟨k2, l2, b2, rfl, h2, t2, h⟩ := h
  obtain rfl := sy_word .lpar (by decide) rfl h2
  replace h := h.uncons
  obtain ⟨k3, l3, b3, rfl, ⟨e3, rfl, r3⟩, t3, h⟩ := h
  replace h := h.one
  obtain ⟨h4, t4⟩ := h
  obtain rfl := sy_word .rpar (by decide) rfl h4
  exact ⟨.call n1 e3, by simp [Ident.toks, ident], by simp [Ident.grouped, r3]⟩

theorem sy_57 : SyProd 57 := by
  intro b ks la s hb h hr hA
  replace h : SyF b [127, 65, 111, 66] ks la s := h
  replace h := h.uncons
  obtain ⟨k1, l1, b1, rfl, ⟨e1, rfl, r1⟩, t1, h⟩ := h
  replace h := h.uncons
  obtain ⟨k2, l2, b2, rfl, h2, t2, h⟩ := h
  obtain rfl := sy_word .lbr (by decide) rfl h2
  replace h := h.uncons
  obtain ⟨k3, l3, b3, rfl, ⟨e3, rfl, r3⟩, t3, h⟩ := h
  replace h := h.one
  obtain ⟨h4, t4⟩ := h
  obtain rfl := sy_word .rbr (by decide) rfl h4
  exact ⟨.index e1 e3, by simp [Ident.toks], by simp [Ident.grouped, r1, r3.grouped]⟩

theorem sy_58 : SyProd 58 := by
  intro b ks la s hb h hr hA
  replace h : SyF b [51, 118] ks la s := h
  replace h := h.uncons
  obtain ⟨k1, l1, b1, rfl, h1, t1, h⟩ := h
  obtain ⟨n1, rfl⟩ := sy_named .kExecute (by decide) rfl h1
  replace h := h.one
  obtain ⟨h2, t2⟩ := h
  rcases h2 with ⟨x, rfl⟩ | ⟨x, rfl⟩
  · exact ⟨.execStr n1 x, by simp [Ident.toks], by simp [Ident.grouped]⟩
  · exact ⟨.execVar n1 x, by simp [Ident.toks], by simp [Ident.grouped]⟩

theorem sy_59 : SyProd 59 := by
  intro b ks la s hb h hr hA
  replace h : SyF b [51, 62, 111, 63] ks la s := h
  replace h := h.uncons
  obtain ⟨k1, l1, b1, rfl, h1, t1, h⟩ := h
  obtain ⟨n1, rfl⟩ := sy_named .kExecute (by decide) rfl h1
  replace h := h.uncons
  obtain ⟨k2, l2, b2, rfl, h2, t2, h⟩ := h
  obtain rfl := sy_word .lpar (by decide) rfl h2
  replace h := h.uncons
  obtain ⟨k3, l3, b3, rfl, ⟨e3, rfl, r3⟩, t3, h⟩ := h
  replace h := h.one
  obtain ⟨h4, t4⟩ := h
  obtain rfl := sy_word .rpar (by decide) rfl h4
  exact ⟨.exec n1 e3, by simp [Ident.toks], by simp [Ident.grouped, r3.grouped]⟩

theorem sy_60 : SyProd 60 := by
  intro b ks la s hb h hr hA
  replace h : SyF b [33] ks la s := h
  replace h := h.one
  obtain ⟨h1, t1⟩ := h
  obtain ⟨v1, rfl, g1⟩ := sy_literal .kString (by decide) rfl h1
  obtain ⟨x, rfl⟩ := g1.str rfl
  exact .inl ⟨x, rfl⟩

theorem sy_61 : SyProd 61 := by
  intro b ks la s hb h hr hA
  replace h : SyF b [8] ks la s := h
  replace h := h.one
  obtain ⟨h1, t1⟩ := h
  obtain ⟨n1, rfl⟩ := sy_named .ktoken_identifier (by decide) rfl h1
  exact .inr ⟨n1, rfl⟩

theorem sy_62 : SyProd 62 := by
  intro b ks la s hb h hr hA
  replace h : SyF b [] ks la s := h
  replace h := h.unnil
  obtain ⟨rfl, rfl⟩ := h
  rfl

theorem sy_63 : SyProd 63 := by
  intro b ks la s hb h hr hA
  replace h : SyF b [29, 102, 30, 142, 102, 31] ks la s := h
  replace h := h.uncons
  obtain ⟨k1, l1, b1, rfl, h1, t1, h⟩ := h
  obtain rfl := sy_word .kTry (by decide) rfl h1
  replace h := h.uncons
  obtain ⟨k2, l2, b2, rfl, ⟨e2, rfl, r2⟩, t2, h⟩ := h
  replace h := h.uncons
  obtain ⟨k3, l3, b3, rfl, h3, t3, h⟩ := h
  obtain rfl := sy_word .kCatch (by decide) rfl h3
  replace h := h.uncons
  obtain ⟨k4, l4, b4, rfl, rfl, t4, h⟩ := h
  replace h := h.uncons
  obtain ⟨k5, l5, b5, rfl, ⟨e5, rfl, r5⟩, t5, h⟩ := h
  replace h := h.one
  obtain ⟨h6, t6⟩ := h
  obtain rfl := sy_word .kEndTry (by decide) rfl h6
  exact ⟨.tryS e2 e5, by simp [Stmt.toks], by simp [Stmt.grouped, r2, r5]⟩

theorem sy_64 : SyProd 64 := by
  intro b ks la s hb h hr hA
  replace h : SyF b [114] ks la s := h
  replace h := h.one
  obtain ⟨⟨e1, rfl, r1⟩, t1⟩ := h
  exact ⟨.simple e1, by rw [Expr.toks], by rw [Expr.grouped]; exact r1.grouped,
    fun op ho => by rw [Expr.closes]; exact r1.closes op ho, nofun, fun _ => by simp [Expr.noAssign], nofun⟩

theorem sy_65 : SyProd 65 := by
  intro b ks la s hb h hr hA
  replace h : SyF b [62, 110, 63] ks la s := h
  replace h := h.uncons
  obtain ⟨k1, l1, b1, rfl, h1, t1, h⟩ := h
  obtain rfl := sy_word .lpar (by decide) rfl h1
  replace h := h.uncons
  obtain ⟨k2, l2, b2, rfl, ⟨e2, rfl, r2⟩, t2, h⟩ := h
  replace h := h.one
  obtain ⟨h3, t3⟩ := h
  obtain rfl := sy_word .rpar (by decide) rfl h3
  exact ⟨.paren e2, by rw [Expr.toks]; rfl, .closed (by rw [Expr.grouped]; exact r2) (fun _ => by simp [Expr.closes]) (by simp [Expr.noAssign]) nofun nofun⟩

theorem sy_66 : SyProd 66 := fun hb h _ hA => sy_bin (op := .plus) (by decide) hb h hA

theorem sy_67 : SyProd 67 := fun hb h _ hA => sy_bin (op := .minus) (by decide) hb h hA

theorem sy_68 : SyProd 68 := fun hb h _ hA => sy_bin (op := .mul) (by decide) hb h hA

theorem sy_69 : SyProd 69 := fun hb h _ hA => sy_bin (op := .div) (by decide) hb h hA

theorem sy_70 : SyProd 70 := fun hb h _ hA => sy_bin (op := .mod) (by decide) hb h hA

theorem sy_71 : SyProd 71 := fun hb h _ hA => sy_bin (op := .gt) (by decide) hb h hA

theorem sy_72 : SyProd 72 := fun hb h _ hA => sy_bin (op := .lt) (by decide) hb h hA

theorem sy_73 : SyProd 73 := fun hb h _ hA => sy_bin (op := .eq) (by decide) hb h hA

theorem sy_74 : SyProd 74 := fun hb h _ hA => sy_bin (op := .or) (by decide) hb h hA

theorem sy_75 : SyProd 75 := fun hb h _ hA => sy_bin (op := .and) (by decide) hb h hA

theorem sy_76 : SyProd 76 := fun hb h _ hA => sy_bin (op := .ne) (by decide) hb h hA

theorem sy_77 : SyProd 77 := fun hb h _ hA => sy_bin (op := .le) (by decide) hb h hA

theorem sy_78 : SyProd 78 := fun hb h _ hA => sy_bin (op := .ge) (by decide) hb h hA

theorem sy_79 : SyProd 79 := by
  intro b ks la s hb h hr hA
  replace h : SyF b [24, 111] ks la s := h
  replace h := h.uncons
  obtain ⟨k1, l1, b1, rfl, h1, t1, h⟩ := h
  obtain rfl := sy_word .kNot (by decide) rfl h1
  replace h := h.one
  obtain ⟨⟨e2, rfl, r2⟩, t2⟩ := h
  refine ⟨.not e2, by rw [Expr.toks]; rfl, ?_, ?_, nofun, fun _ => by simp [Expr.noAssign], nofun⟩
  · rw [Expr.grouped]
    refine ⟨?_, r2.grouped⟩
    unfold Expr.opens
    split
    · rename_i op2 x2 y2
      refine tab_not_open b hb op2 (mem_allOps op2) ?_
      rw [follow_cons t1]
      exact isSome_of_ne (r2.opens op2 x2 y2 rfl)
    · trivial
  · intro op' hop'
    rw [Expr.closes]
    refine ⟨?_, r2.closes op' hop'⟩
    rw [hop'] at hA
    exact tab_not_reduce s (trans_lt (trans_lt hb t1) t2) op' (mem_allOps op') hA

theorem sy_80 : SyProd 80 := by
  intro b ks la s hb h hr hA
  replace h : SyF b [121] ks la s := h
  replace h := h.one
  obtain ⟨⟨e1, rfl, r1⟩, t1⟩ := h
  exact ⟨.new e1, by rw [Expr.toks], .closed (by rw [Expr.grouped]; exact r1) (fun _ => by simp [Expr.closes]) (by simp [Expr.noAssign]) nofun nofun⟩

theorem sy_81 : SyProd 81 := by
  intro b ks la s hb h hr hA
  replace h : SyF b [50, 128] ks la s := h
  replace h := h.uncons
  obtain ⟨k1, l1, b1, rfl, h1, t1, h⟩ := h
  obtain rfl := sy_word .kGoTo (by decide) rfl h1
  replace h := h.one
  obtain ⟨⟨e2, rfl⟩, t2⟩ := h
  exact ⟨.goto e2, by rw [Expr.toks]; rfl, .closed (by rw [Expr.grouped]; exact trivial) (fun _ => by simp [Expr.closes]) (by simp [Expr.noAssign]) nofun nofun⟩

theorem sy_82 : SyProd 82 := by
  intro b ks la s hb h hr hA
  replace h : SyF b [122] ks la s := h
  replace h := h.one
  obtain ⟨⟨c1, x1, y1, rfl, r1⟩, t1⟩ := h
  exact ⟨.ternary c1 x1 y1, rfl, .closed r1 (fun _ => by simp [Expr.closes]) (by simp [Expr.noAssign]) nofun nofun⟩

theorem sy_83 : SyProd 83 := by
  intro b ks la s hb h hr hA
  replace h : SyF b [119] ks la s := h
  replace h := h.one
  obtain ⟨⟨e1, rfl, r1⟩, t1⟩ := h
  refine ⟨.path e1, by rw [Expr.toks], by rw [Expr.grouped]; exact r1,
    fun _ _ => by simp [Expr.closes], nofun, fun _ => by simp [Expr.noAssign], fun p _ hla => ?_⟩
  rw [hla] at hA
  rw [follow_cons t1, follow, show trans s 40 = shiftL s 40 from rfl, tab_path s (trans_lt hb t1) hA]
  rfl

theorem sy_84 : SyProd 84 := by
  intro b ks la s hb h hr hA
  replace h : SyF b [] ks la s := h
  replace h := h.unnil
  obtain ⟨rfl, rfl⟩ := h
  exact ⟨.none, by simp [OptExpr.toks], by simp [OptExpr.grouped]⟩

theorem sy_85 : SyProd 85 := by
  intro b ks la s hb h hr hA
  replace h : SyF b [111] ks la s := h
  replace h := h.one
  obtain ⟨⟨e1, rfl, r1⟩, t1⟩ := h
  exact ⟨.some e1, by simp [OptExpr.toks], by simp [OptExpr.grouped, r1.grouped]⟩

theorem sy_86 : SyProd 86 := by
  intro b ks la s hb h hr hA
  replace h : SyF b [117] ks la s := h
  replace h := h.one
  obtain ⟨⟨e1, rfl, r1⟩, t1⟩ := h
  exact ⟨.one e1, by simp [Args.toks], by simp [Args.grouped, r1]⟩

theorem sy_87 : SyProd 87 := by
  intro b ks la s hb h hr hA
  replace h : SyF b [110, 133, 117] ks la s := h
  replace h := h.uncons
  obtain ⟨k1, l1, b1, rfl, ⟨e1, rfl, r1⟩, t1, h⟩ := h
  replace h := h.uncons
  obtain ⟨k2, l2, b2, rfl, rfl, t2, h⟩ := h
  replace h := h.one
  obtain ⟨⟨e3, rfl, r3⟩, t3⟩ := h
  exact ⟨.more e1 e3, by simp [Args.toks], by simp [Args.grouped, r1, r3]⟩

theorem sy_88 : SyProd 88 := by
  intro b ks la s hb h hr hA
  replace h : SyF b [33] ks la s := h
  replace h := h.one
  obtain ⟨h1, t1⟩ := h
  obtain ⟨v1, rfl, g1⟩ := sy_literal .kString (by decide) rfl h1
  obtain ⟨x, rfl⟩ := g1.str rfl
  exact ⟨.str x, by rw [Simple.toks], by simp [Simple.grouped], fun _ _ => by simp [Simple.closes]⟩

theorem sy_89 : SyProd 89 := by
  intro b ks la s hb h hr hA
  replace h : SyF b [32] ks la s := h
  replace h := h.one
  obtain ⟨h1, t1⟩ := h
  obtain ⟨v1, rfl, g1⟩ := sy_literal .kNumber (by decide) rfl h1
  obtain ⟨x, rfl⟩ := g1.num rfl
  exact ⟨.num x, by rw [Simple.toks], by simp [Simple.grouped], fun _ _ => by simp [Simple.closes]⟩

theorem sy_90 : SyProd 90 := by
  intro b ks la s hb h hr hA
  replace h : SyF b [56, 111] ks la s := h
  replace h := h.uncons
  obtain ⟨k1, l1, b1, rfl, h1, t1, h⟩ := h
  obtain rfl := sy_word .minus (by decide) rfl h1
  replace h := h.one
  obtain ⟨⟨e2, rfl, r2⟩, t2⟩ := h
  refine ⟨.neg e2, by rw [Simple.toks]; rfl, ?_, ?_⟩
  · rw [Simple.grouped]
    refine ⟨?_, r2.grouped⟩
    unfold Expr.opens
    split
    · rename_i op2 x2 y2
      refine absurd ?_ (r2.opens op2 x2 y2 rfl)
      rw [follow_cons t2, follow, tab_sign_open s (trans_lt (trans_lt hb t1) t2) (.inl hr) op2 (mem_allOps op2)]
      rfl
    · trivial
  · intro op hop
    rw [Simple.closes]
    exact ⟨Nat.le_trans (level_le op) (by decide), r2.closes op hop⟩

theorem sy_91 : SyProd 91 := by
  intro b ks la s hb h hr hA
  replace h : SyF b [55, 111] ks la s := h
  replace h := h.uncons
  obtain ⟨k1, l1, b1, rfl, h1, t1, h⟩ := h
  obtain rfl := sy_word .plus (by decide) rfl h1
  replace h := h.one
  obtain ⟨⟨e2, rfl, r2⟩, t2⟩ := h
  refine ⟨.pos e2, by rw [Simple.toks]; rfl, ?_, ?_⟩
  · rw [Simple.grouped]
    refine ⟨?_, r2.grouped⟩
    unfold Expr.opens
    split
    · rename_i op2 x2 y2
      refine absurd ?_ (r2.opens op2 x2 y2 rfl)
      rw [follow_cons t2, follow, tab_sign_open s (trans_lt (trans_lt hb t1) t2) (.inr hr) op2 (mem_allOps op2)]
      rfl
    · trivial
  · intro op hop
    rw [Simple.closes]
    exact ⟨Nat.le_trans (level_le op) (by decide), r2.closes op hop⟩

theorem sy_92 : SyProd 92 := by
  intro b ks la s hb h hr hA
  replace h : SyF b [45] ks la s := h
  replace h := h.one
  obtain ⟨h1, t1⟩ := h
  obtain ⟨v1, rfl, g1⟩ := sy_literal .kTrue (by decide) rfl h1
  obtain rfl := g1.tru rfl
  exact ⟨.bool true, by rw [Simple.toks], by simp [Simple.grouped], fun _ _ => by simp [Simple.closes]⟩

theorem sy_93 : SyProd 93 := by
  intro b ks la s hb h hr hA
  replace h : SyF b [46] ks la s := h
  replace h := h.one
  obtain ⟨h1, t1⟩ := h
  obtain ⟨v1, rfl, g1⟩ := sy_literal .kFalse (by decide) rfl h1
  obtain rfl := g1.fls rfl
  exact ⟨.bool false, by rw [Simple.toks], by simp [Simple.grouped], fun _ _ => by simp [Simple.closes]⟩

theorem sy_94 : SyProd 94 := by
  intro b ks la s hb h hr hA
  replace h : SyF b [49] ks la s := h
  replace h := h.one
  obtain ⟨h1, t1⟩ := h
  obtain ⟨v1, rfl, g1⟩ := sy_literal .kDate (by decide) rfl h1
  obtain ⟨x, rfl⟩ := g1.date rfl
  exact ⟨.date x, by rw [Simple.toks], by simp [Simple.grouped], fun _ _ => by simp [Simple.closes]⟩

theorem sy_95 : SyProd 95 := by
  intro b ks la s hb h hr hA
  replace h : SyF b [47] ks la s := h
  replace h := h.one
  obtain ⟨h1, t1⟩ := h
  obtain rfl := sy_word .kUndefind (by decide) rfl h1
  exact ⟨.undef, by rw [Simple.toks], by simp [Simple.grouped], fun _ _ => by simp [Simple.closes]⟩

theorem sy_96 : SyProd 96 := by
  intro b ks la s hb h hr hA
  replace h : SyF b [128] ks la s := h
  replace h := h.one
  obtain ⟨⟨e1, rfl⟩, t1⟩ := h
  exact ⟨.label e1, by rw [Simple.toks], by simp [Simple.grouped], fun _ _ => by simp [Simple.closes]⟩

theorem sy_97 : SyProd 97 := by
  intro b ks la s hb h hr hA
  replace h : SyF b [8] ks la s := h
  replace h := h.one
  obtain ⟨h1, t1⟩ := h
  obtain ⟨n1, rfl⟩ := sy_named .ktoken_identifier (by decide) rfl h1
  exact ⟨⟨false, n1, []⟩, by simp [ParamD.toks, ident], ⟨nofun, nofun⟩, fun _ _ h => by cases h⟩

theorem sy_98 : SyProd 98 := by
  intro b ks la s hb h hr hA
  replace h : SyF b [25, 8] ks la s := h
  replace h := h.uncons
  obtain ⟨k1, l1, b1, rfl, h1, t1, h⟩ := h
  obtain rfl := sy_word .kValueParam (by decide) rfl h1
  replace h := h.one
  obtain ⟨h2, t2⟩ := h
  obtain ⟨n2, rfl⟩ := sy_named .ktoken_identifier (by decide) rfl h2
  exact ⟨⟨true, n2, []⟩, by simp [ParamD.toks, ident], ⟨nofun, nofun⟩, fun _ _ h => by cases h⟩

theorem sy_99 : SyProd 99 := by
  intro b ks la s hb h hr hA
  replace h : SyF b [116, 40, 114] ks la s := h
  replace h := h.uncons
  obtain ⟨k1, l1, b1, rfl, ⟨e1, rfl, r1, c1⟩, t1, h⟩ := h
  replace h := h.uncons
  obtain ⟨k2, l2, b2, rfl, h2, t2, h⟩ := h
  obtain rfl := sy_word .kEQUAL (by decide) rfl h2
  replace h := h.one
  obtain ⟨⟨e3, rfl, r3⟩, t3⟩ := h
  refine ⟨⟨e1.byVal, e1.name, e1.defaults ++ [e3]⟩, by simp [ParamD.toks], ⟨?_, ?_⟩, ?_⟩
  · intro s hs
    rcases List.mem_append.1 hs with h | h
    · exact r1.1 s h
    · rw [List.mem_singleton.1 h]; exact r3.grouped
  · intro s hs
    simp only [List.dropLast_concat] at hs
    rcases List.eq_nil_or_concat e1.defaults with h0 | ⟨l, y, h0⟩
    · rw [h0] at hs; cases hs
    · have h1 := r1.2
      have h2 := c1 (nextK_word _ _ _) y
      rw [h0, List.concat_eq_append] at h1 h2 hs
      rcases List.mem_append.1 hs with h | h
      · exact h1 s (by simpa using h)
      · rw [List.mem_singleton.1 h]; exact h2 (by simp)
  · intro hla s hs
    simp only [List.getLast?_append, List.getLast?_singleton, Option.some_or, Option.some.injEq] at hs
    rw [← hs]
    exact r3.closes .eq hla

theorem sy_100 : SyProd 100 := by
  intro b ks la s hb h hr hA
  replace h : SyF b [] ks la s := h
  replace h := h.unnil
  obtain ⟨rfl, rfl⟩ := h
  exact ⟨⟨none, []⟩, rfl, nofun⟩

theorem sy_101 : SyProd 101 := by
  intro b ks la s hb h hr hA
  replace h : SyF b [116] ks la s := h
  replace h := h.one
  obtain ⟨⟨e1, rfl, r1, c1⟩, t1⟩ := h
  refine ⟨⟨some e1, []⟩, by simp [ParamsD.toks], ?_⟩
  intro x hx
  rw [ParamsD.list] at hx
  simp only [Option.toList, List.append_nil, List.mem_singleton] at hx
  rw [hx]; exact r1

theorem sy_102 : SyProd 102 := by
  intro b ks la s hb h hr hA
  replace h : SyF b [115, 133, 116] ks la s := h
  replace h := h.uncons
  obtain ⟨k1, l1, b1, rfl, ⟨e1, rfl, r1⟩, t1, h⟩ := h
  replace h := h.uncons
  obtain ⟨k2, l2, b2, rfl, rfl, t2, h⟩ := h
  replace h := h.one
  obtain ⟨⟨e3, rfl, r3, c3⟩, t3⟩ := h
  refine ⟨⟨e1.first, e1.rest ++ [e3]⟩, by simp [ParamsD.toks], ?_⟩
  intro y hy
  have : y ∈ e1.list ∨ y = e3 := by
    rw [ParamsD.list] at hy ⊢
    simpa [or_assoc] using hy
  rcases this with h | rfl
  · exact r1 y h
  · exact r3

theorem sy_103 : SyProd 103 := by
  intro b ks la s hb h hr hA
  replace h : SyF b [34, 8] ks la s := h
  replace h := h.uncons
  obtain ⟨k1, l1, b1, rfl, h1, t1, h⟩ := h
  obtain rfl := sy_word .kNew (by decide) rfl h1
  replace h := h.one
  obtain ⟨h2, t2⟩ := h
  obtain ⟨n2, rfl⟩ := sy_named .ktoken_identifier (by decide) rfl h2
  exact ⟨.name n2, by simp [New.toks, ident], by simp [New.grouped]⟩

theorem sy_104 : SyProd 104 := by
  intro b ks la s hb h hr hA
  replace h : SyF b [34, 8, 62, 110, 63] ks la s := h
  replace h := h.uncons
  obtain ⟨k1, l1, b1, rfl, h1, t1, h⟩ := h
  obtain rfl := sy_word .kNew (by decide) rfl h1
  replace h := h.uncons
  obtain ⟨k2, l2, b2, rfl, h2, t2, h⟩ := h
  obtain ⟨n2, rfl⟩ := sy_named .ktoken_identifier (by decide) rfl h2
  replace h := h.uncons
  obtain ⟨k3, l3, b3, rfl, h3, t3, h⟩ := h
  obtain rfl := sy_word .lpar (by decide) rfl h3
  replace h := h.uncons
  obtain ⟨k4, l4, b4, rfl, ⟨e4, rfl, r4⟩, t4, h⟩ := h
  replace h := h.one
  obtain ⟨h5, t5⟩ := h
  obtain rfl := sy_word .rpar (by decide) rfl h5
  exact ⟨.call n2 e4, by simp [New.toks, ident], by simp [New.grouped, r4]⟩

theorem sy_105 : SyProd 105 := by
  intro b ks la s hb h hr hA
  replace h : SyF b [34, 62, 110, 63] ks la s := h
  replace h := h.uncons
  obtain ⟨k1, l1, b1, rfl, h1, t1, h⟩ := h
  obtain rfl := sy_word .kNew (by decide) rfl h1
  replace h := h.uncons
  obtain ⟨k2, l2, b2, rfl, h2, t2, h⟩ := h
  obtain rfl := sy_word .lpar (by decide) rfl h2
  replace h := h.uncons
  obtain ⟨k3, l3, b3, rfl, ⟨e3, rfl, r3⟩, t3, h⟩ := h
  replace h := h.one
  obtain ⟨h4, t4⟩ := h
  obtain rfl := sy_word .rpar (by decide) rfl h4
  exact ⟨.args e3, by simp [New.toks], by simp [New.grouped, r3]⟩

theorem sy_106 : SyProd 106 := by
  intro b ks la s hb h hr hA
  replace h : SyF b [27] ks la s := h
  replace h := h.one
  obtain ⟨h1, t1⟩ := h
  obtain ⟨n1, rfl⟩ := sy_named .kGoToLabel (by decide) rfl h1
  exact ⟨n1, rfl⟩

theorem sy_107 : SyProd 107 := by
  intro b ks la s hb h hr hA
  replace h : SyF b [8] ks la s := h
  replace h := h.one
  obtain ⟨h1, t1⟩ := h
  obtain ⟨n1, rfl⟩ := sy_named .ktoken_identifier (by decide) rfl h1
  exact ⟨⟨n1, []⟩, by simp [Names.toks, ident]⟩

theorem sy_108 : SyProd 108 := by
  intro b ks la s hb h hr hA
  replace h : SyF b [125, 133, 8] ks la s := h
  replace h := h.uncons
  obtain ⟨k1, l1, b1, rfl, ⟨e1, rfl⟩, t1, h⟩ := h
  replace h := h.uncons
  obtain ⟨k2, l2, b2, rfl, rfl, t2, h⟩ := h
  replace h := h.one
  obtain ⟨h3, t3⟩ := h
  obtain ⟨n3, rfl⟩ := sy_named .ktoken_identifier (by decide) rfl h3
  exact ⟨⟨e1.first, e1.rest ++ [n3]⟩, by simp [Names.toks, ident]⟩

theorem sy_109 : SyProd 109 := by
  intro b ks la s hb h hr hA
  replace h : SyF b [5] ks la s := h
  replace h := h.one
  obtain ⟨h1, t1⟩ := h
  obtain rfl := sy_word .semi (by decide) rfl h1
  rfl

theorem sy_110 : SyProd 110 := by
  intro b ks la s hb h hr hA
  replace h : SyF b [4] ks la s := h
  replace h := h.one
  obtain ⟨h1, t1⟩ := h
  obtain rfl := sy_word .colon (by decide) rfl h1
  rfl

theorem sy_111 : SyProd 111 := by
  intro b ks la s hb h hr hA
  replace h : SyF b [6] ks la s := h
  replace h := h.one
  obtain ⟨h1, t1⟩ := h
  obtain rfl := sy_word .comma (by decide) rfl h1
  rfl

theorem sy_112 : SyProd 112 := by
  intro b ks la s hb h hr hA
  replace h : SyF b [67] ks la s := h
  replace h := h.one
  obtain ⟨h1, t1⟩ := h
  obtain rfl := sy_word .dot (by decide) rfl h1
  rfl

theorem sy_prod : ∀ p, 0 < p → p < nProds → SyProd p
  | 0, h, _ => absurd h (by decide)
  | 1, _, _ => sy_1
  | 2, _, _ => sy_2
  | 3, _, _ => sy_3
  | 4, _, _ => sy_4
  | 5, _, _ => sy_5
  | 6, _, _ => sy_6
  | 7, _, _ => sy_7
  | 8, _, _ => sy_8
  | 9, _, _ => sy_9
  | 10, _, _ => sy_10
  | 11, _, _ => sy_11
  | 12, _, _ => sy_12
  | 13, _, _ => sy_13
  | 14, _, _ => sy_14
  | 15, _, _ => sy_15
  | 16, _, _ => sy_16
  | 17, _, _ => sy_17
  | 18, _, _ => sy_18
  | 19, _, _ => sy_19
  | 20, _, _ => sy_20
  | 21, _, _ => sy_21
  | 22, _, _ => sy_22
  | 23, _, _ => sy_23
  | 24, _, _ => sy_24
  | 25, _, _ => sy_25
  | 26, _, _ => sy_26
  | 27, _, _ => sy_27
  | 28, _, _ => sy_28
  | 29, _, _ => sy_29
  | 30, _, _ => sy_30
  | 31, _, _ => sy_31
  | 32, _, _ => sy_32
  | 33, _, _ => sy_33
  | 34, _, _ => sy_34
  | 35, _, _ => sy_35
  | 36, _, _ => sy_36
  | 37, _, _ => sy_37
  | 38, _, _ => sy_38
  | 39, _, _ => sy_39
  | 40, _, _ => sy_40
  | 41, _, _ => sy_41
  | 42, _, _ => sy_42
  | 43, _, _ => sy_43
  | 44, _, _ => sy_44
  | 45, _, _ => sy_45
  | 46, _, _ => sy_46
  | 47, _, _ => sy_47
  | 48, _, _ => sy_48
  | 49, _, _ => sy_49
  | 50, _, _ => sy_50
  | 51, _, _ => sy_51
  | 52, _, _ => sy_52
  | 53, _, _ => sy_53
  | 54, _, _ => sy_54
  | 55, _, _ => sy_55
  | 56, _, _ => sy_56
  | 57, _, _ => sy_57
  | 58, _, _ => sy_58
  | 59, _, _ => sy_59
  | 60, _, _ => sy_60
  | 61, _, _ => sy_61
  | 62, _, _ => sy_62
  | 63, _, _ => sy_63
  | 64, _, _ => sy_64
  | 65, _, _ => sy_65
  | 66, _, _ => sy_66
  | 67, _, _ => sy_67
  | 68, _, _ => sy_68
  | 69, _, _ => sy_69
  | 70, _, _ => sy_70
  | 71, _, _ => sy_71
  | 72, _, _ => sy_72
  | 73, _, _ => sy_73
  | 74, _, _ => sy_74
  | 75, _, _ => sy_75
  | 76, _, _ => sy_76
  | 77, _, _ => sy_77
  | 78, _, _ => sy_78
  | 79, _, _ => sy_79
  | 80, _, _ => sy_80
  | 81, _, _ => sy_81
  | 82, _, _ => sy_82
  | 83, _, _ => sy_83
  | 84, _, _ => sy_84
  | 85, _, _ => sy_85
  | 86, _, _ => sy_86
  | 87, _, _ => sy_87
  | 88, _, _ => sy_88
  | 89, _, _ => sy_89
  | 90, _, _ => sy_90
  | 91, _, _ => sy_91
  | 92, _, _ => sy_92
  | 93, _, _ => sy_93
  | 94, _, _ => sy_94
  | 95, _, _ => sy_95
  | 96, _, _ => sy_96
  | 97, _, _ => sy_97
  | 98, _, _ => sy_98
  | 99, _, _ => sy_99
  | 100, _, _ => sy_100
  | 101, _, _ => sy_101
  | 102, _, _ => sy_102
  | 103, _, _ => sy_103
  | 104, _, _ => sy_104
  | 105, _, _ => sy_105
  | 106, _, _ => sy_106
  | 107, _, _ => sy_107
  | 108, _, _ => sy_108
  | 109, _, _ => sy_109
  | 110, _, _ => sy_110
  | 111, _, _ => sy_111
  | 112, _, _ => sy_112
  | p + 113, _, h => absurd h (by unfold nProds; omega)

/-- A forest the automaton builds is a sequence of constructs. -/
theorem LRF.shape {b ts la e} (h : LRF b ts la e) : b < nStates → (∀ x ∈ yieldL ts, Good x) →
    SyF b (ts.map Tree.root) ((yieldL ts).map key) la e := by
  induction h with
  | nil b la => intro _ _; exact .nil _ _
  | @leaf k t b b1 ts la e hs _ ih =>
    intro hb hg
    have ht := trans_shift hb hs
    have hg' : ∀ x ∈ (k, t) :: yieldL ts, Good x := hg
    show SyF b (tokNum k :: _) ((key (k, t)) :: (yieldL ts).map key) la e
    refine SyF.cons (k1 := [key (k, t)]) ?_ ht (ih (trans_ok hb ht).lt fun x hx => hg' x (List.mem_cons_of_mem _ hx))
    exact (sy_tok (by have := (tokNum_lt k).1; unfold nToks at this; omega)).2 ⟨(k, t), rfl, rfl, hg' _ (List.mem_cons_self ..)⟩
  | @node p b kids ts la s g e h0 hp hk hkids hr ha hg hrest ih1 ih2 =>
    intro hb hgd
    have hgd' : ∀ x ∈ yieldL kids ++ yieldL ts, Good x := hgd
    have ht := trans_goto hp hg
    have h1 := ih1 hb fun x hx => hgd' x (List.mem_append_left _ hx)
    rw [hk] at h1
    show SyF b (lhs p :: _) (List.map key (yieldL kids ++ yieldL ts)) la e
    rw [List.map_append]
    refine .cons ?_ ht (ih2 (trans_ok hb ht).lt fun x hx => hgd' x (List.mem_append_right _ hx))
    have hn : nextK ((yieldL ts).map key) la = nextTok ts la := nextK_keys _ _
    rw [hn]
    exact sy_prod p h0 hp hb h1 hr ha

/-- A whole tree is a grouped program. -/
theorem LRF.program {T : Tree} (h : LRF 0 [T] 1 1) (hg : ∀ x ∈ T.yield, Good x) :
    ∃ P : Program, T.yield.map key = P.toks ∧ P.grouped := by
  have hs := h.shape (by decide) (by rw [yieldL_single]; exact hg)
  have hr : T.root = 134 := by
    have := h.follow (by decide)
    rw [List.map_singleton, LR.follow] at this
    cases ht : trans 0 T.root with
    | none => rw [ht] at this; cases this
    | some x =>
      rw [ht] at this
      injection this with this
      subst this
      rw [← (trans_ok (by decide) ht).acc]
      decide +kernel
  rw [yieldL_single, List.map_singleton, hr] at hs
  exact hs.one.1

end Verif.LR
