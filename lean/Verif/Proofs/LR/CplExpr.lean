import Verif.Proofs.LR.KitDeclE
/-! Completeness for expressions. -/
namespace Verif.LR
open Tables Spec Lexer

/-! ## Facts about the tables -/

def ops : List Nat := allOps.map opNum
/-- Tokens an expression can begin with. -/
def exprStarts : List Nat := [8, 24, 27, 32, 33, 34, 45, 46, 47, 49, 50, 51, 55, 56, 62, 64]
/-- Tokens a statement can begin with. -/
def stmtStarts : List Nat := exprStarts ++ [12, 17, 23, 26, 28, 29, 37, 38]

/-- Productions that need more than the token after them. -/
def special (p : Nat) : Bool := [0, 1, 2, 3, 8, 16, 17].contains p || (66 ≤ p && p ≤ 78)

/-- The tokens before which a production is not applied. -/
def bad (p b : Nat) : List Nat :=
  match p with
  | 10 => [6, 48]
  | 20 => stmtStarts
  | 84 => exprStarts
  | 100 => [8, 25]
  | 24 => [10]
  | 25 => [10]
  | 29 => [4, 5, 14]
  | 31 => [15]
  | 32 => [4, 5]
  | 40 => [67]
  | 44 => ops
  | 45 => ops
  | 85 => ops
  | 53 => [65]
  | 54 => [65]
  | 55 => [62]
  | 103 => [62]
  | 79 => (allOps.filter fun op => decide (notLevel < level op)).map opNum
  | 83 => if (follow b [119, 40]).isSome then [40, 67] else [67]
  | 101 => [40]
  | 102 => [40]
  | _ => []

def chkRed : Bool := (List.range nProds).all fun p => special p || (List.range nStates).all fun b =>
  !(gotoL b (lhs p)).isSome || match follow b (rhs p) with
    | none => false
    | some s => decide (get yyDef s = (p : Int)) && (at10 [] shiftTab s).all fun x => (bad p b).contains x.1

theorem chkRed_ok : chkRed = true := by decide +kernel

theorem lookup_none {β : Type} {l : List (Nat × β)} {a : Nat} (h : ∀ x ∈ l, x.1 ≠ a) : l.lookup a = none := by
  induction l with
  | nil => rfl
  | cons x l ih =>
    rw [List.lookup]
    have : (a == x.1) = false := by
      have := h x (List.mem_cons_self ..)
      simp only [beq_eq_false_iff_ne, ne_eq]
      exact fun h0 => this h0.symm
    rw [this]
    exact ih fun y hy => h y (List.mem_cons_of_mem _ hy)

theorem action_dfl {s la p : Nat} (h0 : 0 < p) (hs : s < nStates) (hla : la < nToks) (hd : get yyDef s = (p : Int))
    (hn : shiftL s la = none) : action s la = .reduce p := by
  have h1 : dflAct s la = .reduce p := by
    unfold dflAct
    rw [hd, if_neg (by omega), if_neg (by omega)]
    rfl
  unfold action
  split
  · exact h1
  · rw [shiftOf_eq hs hla, hn]; exact h1

theorem red_ok {p b la : Nat} (hp : p < nProds) (hsp : special p = false) (hb : b < nStates) (hla : la < nToks)
    (hbad : la ∉ bad p b) (hg : (gotoL b (lhs p)).isSome = true) : ∃ s, follow b (rhs p) = some s ∧ action s la = .reduce p := by
  have h1 := all_range chkRed_ok hp
  rw [hsp, Bool.false_or] at h1
  have h2 := all_range h1 hb
  rw [hg, Bool.not_true, Bool.false_or] at h2
  cases hf : follow b (rhs p) with
  | none => rw [hf] at h2; cases h2
  | some s =>
    rw [hf] at h2
    simp only [Bool.and_eq_true, decide_eq_true_eq, List.all_eq_true] at h2
    refine ⟨s, rfl, action_dfl ?_ (follow_lt hb hf) hla h2.1 ?_⟩
    · cases p with
      | zero => cases hsp
      | succ n => omega
    · refine lookup_none fun x hx h0 => hbad ?_
      have := h2.2 x hx
      rw [h0] at this
      simpa using this

def chkBin : Bool := binProds.all fun x => (List.range nStates).all fun b =>
  match follow b [111, opNum x.2] with
  | none => true
  | some b2 => decide (follow b2 [119, 40] = none) &&
    (allOps.all fun op => !decide (level x.2 < level op) || (follow b2 [111, opNum op]).isSome) &&
    match trans b2 111 with
    | none => false
    | some s => decide (get yyDef s = (x.1 : Int)) &&
      (at10 [] shiftTab s).all fun y => allOps.any fun op => y.1 == opNum op && decide (level x.2 < level op)

theorem chkBin_ok : chkBin = true := by decide +kernel

theorem opNum_inj {op op' : Op} (h : opNum op = opNum op') : op = op' := by
  cases op <;> cases op' <;> first | rfl | exact absurd h (by decide)

structure BinOk (p : Nat) (op : Op) (b b2 : Nat) : Prop where
  noPath : follow b2 [119, 40] = none
  opens : ∀ op', level op < level op' → follow b2 [111, opNum op'] ≠ none
  red : ∀ la, la < nToks → (∀ op', la = opNum op' → level op' ≤ level op) → ∃ s, follow b [111, opNum op, 111] = some s ∧ action s la = .reduce p

theorem bin_ok {p : Nat} {op : Op} (hp : (p, op) ∈ binProds) {b b1 b2 : Nat} (hb : b < nStates) (h1 : trans b 111 = some b1)
    (h2 : trans b1 (opNum op) = some b2) : BinOk p op b b2 := by
  have hc := chkBin_ok
  unfold chkBin at hc
  rw [List.all_eq_true] at hc
  have h3 := all_range (hc _ hp) hb
  have hf : follow b [111, opNum op] = some b2 := by rw [follow_cons h1, follow_cons h2]; rfl
  simp only [hf] at h3
  simp only [Bool.and_eq_true, decide_eq_true_eq, List.all_eq_true] at h3
  obtain ⟨⟨h4, h5⟩, h6⟩ := h3
  refine ⟨h4, ?_, ?_⟩
  · intro op' hl
    have := h5 op' (mem_allOps op')
    simp only [hl, decide_true, Bool.not_true, Bool.false_or] at this
    intro h0
    rw [h0] at this; cases this
  · intro la hla hlev
    cases ht : trans b2 111 with
    | none => rw [ht] at h6; cases h6
    | some s =>
      rw [ht] at h6
      simp only [Bool.and_eq_true, decide_eq_true_eq, List.all_eq_true, List.any_eq_true, beq_iff_eq] at h6
      have hb2 := trans_lt (trans_lt hb h1) h2
      refine ⟨s, by rw [follow_cons h1, follow_cons h2, follow_cons ht]; rfl, action_dfl ?_ (trans_lt hb2 ht) hla h6.1 ?_⟩
      · revert hp; rcases p with _ | p
        · intro h; exact absurd h (by cases op <;> decide)
        · intro _; omega
      · refine lookup_none fun x hx h0 => ?_
        obtain ⟨op', -, h7, h8⟩ := h6.2 x hx
        have := hlev op' (by rw [← h0]; exact h7)
        omega

theorem tab_mono : ∀ b, b < nStates → ∀ op ∈ allOps, (follow b [111, opNum op]).isSome = true → ∀ op' ∈ allOps, level op ≤ level op' →
    (follow b [111, opNum op']).isSome = true := by decide +kernel

theorem tab_not : ∀ b, b < nStates → acc b = 24 → follow b [119, 40] = none ∧ ∀ op ∈ allOps, notLevel < level op →
    (follow b [111, opNum op]).isSome = true := by decide +kernel

theorem tab_sign : ∀ b, b < nStates → acc b = 55 ∨ acc b = 56 → follow b [119, 40] = none := by decide +kernel

/-- An expression begins in state `b` and nothing restricts it. -/
structure Plain (b : Nat) : Prop where
  opens : ∀ op, follow b [111, opNum op] ≠ none
  noPath : follow b [119, 40] = none

theorem tab_plain : ∀ b, b < nStates → acc b ∈ [12, 14, 17, 20, 26, 62, 65, 37, 38, 133] → (trans b 111).isSome = true →
    follow b [119, 40] = none ∧ ∀ op ∈ allOps, (follow b [111, opNum op]).isSome = true := by decide +kernel

theorem tab_plain_opt : ∀ b, b < nStates → (trans b 117).isSome = true →
    follow b [119, 40] = none ∧ (∀ op ∈ allOps, (follow b [111, opNum op]).isSome = true) := by decide +kernel

theorem tab_plain_asg : ∀ b, b < nStates → ∀ s, follow b [119, 40] = some s →
    follow s [119, 40] = none ∧ (∀ op ∈ allOps, (follow s [111, opNum op]).isSome = true) := by
  have : ∀ b, b < nStates → ∀ s ∈ (follow b [119, 40]).toList,
      follow s [119, 40] = none ∧ (∀ op ∈ allOps, (follow s [111, opNum op]).isSome = true) := by decide +kernel
  intro b hb s hs
  exact this b hb s (by rw [hs]; exact List.mem_singleton.2 rfl)

theorem ne_none {α : Type} {x : Option α} (h : x.isSome = true) : x ≠ none := by rintro rfl; cases h

theorem plain_of {b : Nat} (h : follow b [119, 40] = none ∧ ∀ op ∈ allOps, (follow b [111, opNum op]).isSome = true) : Plain b :=
  ⟨fun op => ne_none (h.2 op (mem_allOps op)), h.1⟩

theorem plain_acc {b X b1 : Nat} (hb : b < nStates) (h : trans b X = some b1) (hX : X ∈ [12, 14, 17, 20, 26, 62, 65, 37, 38, 133])
    (ht : (trans b1 111).isSome = true) : Plain b1 := by
  have := trans_ok hb h
  exact plain_of (tab_plain b1 this.lt (by rw [this.acc]; exact hX) ht)

theorem ExprSem.plain {b la : Nat} {e : Expr} (hp : Plain b) (hg : e.grouped) (hla : la ∉ ops) : ExprSem b la e :=
  ⟨hg, fun op h => absurd (h ▸ List.mem_map_of_mem (f := opNum) (mem_allOps op)) hla, fun op _ _ _ => hp.opens op,
   fun h => absurd hp.noPath h, fun _ _ _ => hp.noPath⟩

/-! ## Right sides -/

theorem cxk_nil (b la : Nat) : CxK b la [] := trivial

theorem cxk_cons {b la : Nat} {y : Syn} {ys : List Syn} (h1 : Cx b (nextK (catL ys) la) y)
    (h2 : ∀ b1, trans b y.root = some b1 → CxK b1 la ys) : CxK b la (y :: ys) := ⟨h1, h2⟩

theorem cxk_tok {b la : Nat} {k : Key} {ys : List Syn} (h2 : ∀ b1, trans b (tokNum k.kind) = some b1 → CxK b1 la ys) :
    CxK b la (.tok k :: ys) := ⟨cx_tok _ _ _, h2⟩

theorem cxk_one {b la : Nat} {y : Syn} (h1 : Cx b la y) : CxK b la [y] := ⟨h1, fun _ _ => trivial⟩

/-- A node whose production is applied before all tokens but `bad`. -/
theorem cx_red {p b la : Nat} {ys : List Syn} {y : Syn} (hk : Kit p ys y) (hsp : special p = false) (hbad : la ∉ bad p b)
    (h : b < nStates → la < nToks → (trans b y.root).isSome = true → CxK b la ys)
    (hx : noFault y = true ∨ EvE p ys y := by eve) : Cx b la y :=
  fun hb hla ht => cx_node hk (fun hg => red_ok hk.lt hsp hb hla hbad hg) (h hb hla ht) hx hb hla ht

theorem cx_comma (b la : Nat) : Cx b la .comma := cx_red kit_111 rfl (List.not_mem_nil) fun _ _ _ => cxk_one (cx_tok _ _ _)
theorem cx_dot (b la : Nat) : Cx b la .dot := cx_red kit_112 rfl (List.not_mem_nil) fun _ _ _ => cxk_one (cx_tok _ _ _)
theorem cx_label (b la : Nat) (n : Name) : Cx b la (.label n) := cx_red (kit_106 n) rfl (List.not_mem_nil) fun _ _ _ => cxk_one (cx_tok _ _ _)

/-- Tokens after an expression that is not restricted. -/
def ends : List Nat := [1, 4, 5, 6, 11, 13, 14, 15, 16, 20, 21, 22, 30, 31, 36, 63, 66]

theorem ends_ops : ∀ la ∈ ends, la ∉ ops := by decide
theorem ends_more : ∀ la ∈ ends, la ∉ [62, 65, 67] := by decide
theorem ends_starts : ∀ la ∈ ends, la ∉ exprStarts := by decide

/-- Use of a successor state that exists because a node needs it. -/
theorem trans_some {b b1 X : Nat} (h : trans b X = some b1) : (trans b X).isSome = true := by rw [h]; rfl

mutual
theorem Expr.cx : (e : Expr) → ∀ b la, ExprSem b la e → la ∉ [62, 65, 67] → Cx b la (.expr e)
  | .simple s, b, la, h, hla => by
    refine cx_red (kit_64 s) rfl List.not_mem_nil fun hb _ ht => cxk_one ?_
    refine Simple.cx s b la ⟨?_, ?_⟩ hla
    · have := h.grouped; rwa [Expr.grouped] at this
    · intro op ho; have := h.closes op ho; rwa [Expr.closes] at this
  | .paren es, b, la, h, hla => by
    refine cx_red (kit_65 es) rfl List.not_mem_nil fun hb _ ht => cxk_tok fun b1 h1 => cxk_cons ?_ fun b2 _ => cxk_one (cx_tok _ _ _)
    refine Args.cx es b1 63 ?_ (by decide)
    have := h.grouped; rwa [Expr.grouped] at this
  | .bin op x y, b, la, h, hla => by
    intro hb hl ht
    obtain ⟨p, hp⟩ : ∃ p, (p, op) ∈ binProds := by cases op <;> simp [binProds]
    have hg := h.grouped
    rw [Expr.grouped] at hg
    obtain ⟨g1, g2, g3, g4⟩ := hg
    obtain ⟨b1, ht1⟩ := Option.isSome_iff_exists.1 ht
    have hop := h.opens op x y rfl
    replace ht1 : trans b 111 = some b1 := ht1
    have hb1 := trans_lt hb ht1
    obtain ⟨b2, ht2⟩ : ∃ b2, trans b1 (opNum op) = some b2 := by
      rw [follow_cons ht1, follow] at hop
      cases h0 : trans b1 (opNum op) with
      | none => rw [h0] at hop; exact absurd rfl hop
      | some b2 => exact ⟨b2, rfl⟩
    have hbin := bin_ok hp hb ht1 ht2
    refine cx_node (kit_bin hp x y) (fun _ => ?_) (cxk_cons ?_ fun b1' h1' => cxk_tok fun b2' h2' => cxk_one ?_) (.inl rfl) hb hl ht
    · have : rhs p = [111, opNum op, 111] := by
        rw [← (kit_bin hp x y).roots]
        simp only [List.map_cons, List.map_nil, root_word]; rfl
      rw [this]
      refine hbin.red la hl fun op' ho => ?_
      have := h.closes op' ho
      rw [Expr.closes] at this
      exact this.1
    · have hn : nextK (catL [.tok (word (opTerminal op)), .expr y]) la = opNum op := nextK_word _ _ _
      rw [hn]
      refine Expr.cx x b (opNum op) ⟨g3, ?_, ?_, ?_, ?_⟩ (by cases op <;> decide)
      · intro op' ho; rw [← opNum_inj ho]; exact g1
      · rintro op' x' y' rfl
        rw [Expr.closes] at g1
        exact ne_none (tab_mono b hb op (mem_allOps op) (isSome_of_ne hop) op' (mem_allOps op') g1.1)
      · intro hf
        have := h.noAssign hf
        cases x with
        | path p => simp [Expr.noAssign]
        | _ => rwa [Expr.noAssign] at this; exact nofun
      · rintro p rfl ho
        cases hf : follow b [119, 40] with
        | none => rfl
        | some s =>
          have := h.noAssign (by rw [hf]; exact nofun)
          rw [Expr.noAssign] at this
          exact absurd (opNum_inj (op' := .eq) ho) this
    · replace h1' : trans b 111 = some b1' := h1'
      rw [ht1] at h1'; injection h1' with h1'; subst h1'
      replace h2' : trans b1 (tokNum (opTerminal op).kind) = some b2' := h2'
      rw [tokNum_kind, show tnum (opTerminal op) = opNum op from rfl, ht2] at h2'; injection h2' with h2'; subst h2'
      refine Expr.cx y b2 la ⟨g4, ?_, ?_, fun hf => absurd hbin.noPath hf, fun _ _ _ => hbin.noPath⟩ hla
      · intro op' ho
        have := h.closes op' ho
        rw [Expr.closes] at this
        exact this.2
      · rintro op' x' y' rfl
        exact hbin.opens op' g2
  | .not e, b, la, h, hla => by
    have hg := h.grouped
    rw [Expr.grouped] at hg
    refine cx_red (kit_79 e) rfl ?_ fun hb _ ht => cxk_tok fun b1 h1 => cxk_one ?_
    · intro hm
      obtain ⟨op, h1, h2⟩ := List.mem_map.1 hm
      have h3 := of_decide_eq_true (List.mem_filter.1 h1).2
      have := h.closes op h2.symm
      rw [Expr.closes] at this
      omega
    · have hok := trans_ok hb h1
      have htab := tab_not b1 hok.lt (by rw [hok.acc]; rfl)
      refine Expr.cx e b1 la ⟨hg.2, ?_, ?_, fun hf => absurd htab.1 hf, fun _ _ _ => htab.1⟩ hla
      · intro op' ho
        have := h.closes op' ho
        rw [Expr.closes] at this
        exact this.2
      · rintro op' x' y' rfl
        exact ne_none (htab.2 op' (mem_allOps op') hg.1)
  | .new n, b, la, h, hla => by
    refine cx_red (kit_80 n) rfl List.not_mem_nil fun hb _ ht => cxk_one ?_
    refine New.cx n b la ?_ fun h0 => hla (by rw [h0]; decide)
    have := h.grouped; rwa [Expr.grouped] at this
  | .goto n, b, la, h, hla => by
    exact cx_red (kit_81 n) rfl List.not_mem_nil fun hb _ ht => cxk_tok fun b1 h1 => cxk_one (cx_label _ _ _)
  | .ternary c x y, b, la, h, hla => by
    have hg := h.grouped
    rw [Expr.grouped] at hg
    refine cx_red (kit_82 c x y) rfl List.not_mem_nil fun hb _ ht => cxk_one ?_
    refine cx_red (kit_33 c x y) rfl List.not_mem_nil fun hb _ ht => cxk_tok fun b1 h1 => cxk_tok fun b2 h2 => cxk_cons ?_ fun b3 h3 =>
      cxk_cons (cx_comma _ _) fun b4 h4 => cxk_cons ?_ fun b5 h5 => cxk_cons (cx_comma _ _) fun b6 h6 => cxk_cons ?_ fun b7 h7 =>
      cxk_one (cx_tok _ _ _)
    · intro hb' hl' ht'
      exact Expr.cx c b2 6 (.plain (plain_acc (trans_lt hb h1) h2 (by decide) ht') hg.1 (by decide)) (by decide) hb' hl' ht'
    · intro hb' hl' ht'
      exact Expr.cx x b4 6 (.plain (plain_acc (trans_lt (trans_lt (trans_lt hb h1) h2) h3) h4 (by decide) ht') hg.2.1 (by decide)) (by decide) hb' hl' ht'
    · intro hb' hl' ht'
      exact Expr.cx y b6 63 (.plain (plain_acc (trans_lt (trans_lt (trans_lt (trans_lt (trans_lt hb h1) h2) h3) h4) h5) h6 (by decide) ht')
        hg.2.2 (by decide)) (by decide) hb' hl' ht'
  | .path p, b, la, h, hla => by
    refine cx_red (kit_83 p) rfl ?_ fun hb _ ht => cxk_one ?_
    · show la ∉ if (follow b [119, 40]).isSome then [40, 67] else [67]
      split
      · rename_i hf
        simp only [List.mem_cons, List.not_mem_nil, or_false]
        rintro (h0 | h0)
        · have := h.path p rfl h0
          rw [this] at hf; cases hf
        · exact hla (by rw [h0]; decide)
      · simp only [List.mem_cons, List.not_mem_nil, or_false]
        intro h0; exact hla (by rw [h0]; decide)
    · refine Path.cx p b la ?_ fun h0 => hla ?_
      · have := h.grouped; rwa [Expr.grouped] at this
      · simp only [List.mem_cons, List.not_mem_nil, or_false] at h0 ⊢; tauto
theorem Simple.cx : (s : Simple) → ∀ b la, SimpleSem la s → la ∉ [62, 65, 67] → Cx b la (.simple s)
  | .str s, b, la, _, _ => cx_red (kit_88 s) rfl List.not_mem_nil fun _ _ _ => cxk_one (cx_tok _ _ _)
  | .num s, b, la, _, _ => cx_red (kit_89 s) rfl List.not_mem_nil fun _ _ _ => cxk_one (cx_tok _ _ _)
  | .neg e, b, la, h, hla => by
    have hg := h.grouped
    rw [Simple.grouped] at hg
    refine cx_red (kit_90 e) rfl List.not_mem_nil fun hb _ _ => cxk_tok fun b1 h1 => cxk_one ?_
    have hok := trans_ok hb h1
    have htab := tab_sign b1 hok.lt (by rw [hok.acc]; exact .inr rfl)
    refine Expr.cx e b1 la ⟨hg.2, ?_, ?_, fun hf => absurd htab hf, fun _ _ _ => htab⟩ hla
    · intro op' ho
      have := h.closes op' ho
      rw [Simple.closes] at this
      exact this.2
    · rintro op' x' y' rfl
      have h1 : signLevel < level op' := hg.1
      have h2 := level_le op'
      unfold signLevel at h1
      omega
  | .pos e, b, la, h, hla => by
    have hg := h.grouped
    rw [Simple.grouped] at hg
    refine cx_red (kit_91 e) rfl List.not_mem_nil fun hb _ _ => cxk_tok fun b1 h1 => cxk_one ?_
    have hok := trans_ok hb h1
    have htab := tab_sign b1 hok.lt (by rw [hok.acc]; exact .inl rfl)
    refine Expr.cx e b1 la ⟨hg.2, ?_, ?_, fun hf => absurd htab hf, fun _ _ _ => htab⟩ hla
    · intro op' ho
      have := h.closes op' ho
      rw [Simple.closes] at this
      exact this.2
    · rintro op' x' y' rfl
      have h1 : signLevel < level op' := hg.1
      have h2 := level_le op'
      unfold signLevel at h1
      omega
  | .bool true, b, la, _, _ => cx_red kit_92 rfl List.not_mem_nil fun _ _ _ => cxk_one (cx_tok _ _ _)
  | .bool false, b, la, _, _ => cx_red kit_93 rfl List.not_mem_nil fun _ _ _ => cxk_one (cx_tok _ _ _)
  | .date t, b, la, _, _ => cx_red (kit_94 t) rfl List.not_mem_nil fun _ _ _ => cxk_one (cx_tok _ _ _)
  | .undef, b, la, _, _ => cx_red kit_95 rfl List.not_mem_nil fun _ _ _ => cxk_one (cx_tok _ _ _)
  | .label n, b, la, _, _ => cx_red (kit_96 n) rfl List.not_mem_nil fun _ _ _ => cxk_one (cx_label _ _ _)
theorem New.cx : (n : New) → ∀ b la, n.grouped → la ≠ 62 → Cx b la (.new n)
  | .name n, b, la, _, hla => cx_red (kit_103 n) rfl (by show la ∉ [62]; simpa using hla)
      fun _ _ _ => cxk_tok fun _ _ => cxk_one (cx_tok _ _ _)
  | .call n es, b, la, h, _ => by
    rw [New.grouped] at h
    exact cx_red (kit_104 n es) rfl List.not_mem_nil fun _ _ _ => cxk_tok fun _ _ => cxk_tok fun _ _ => cxk_tok fun b3 h3 =>
      cxk_cons (Args.cx es b3 63 h (by decide)) fun _ _ => cxk_one (cx_tok _ _ _)
  | .args es, b, la, h, _ => by
    rw [New.grouped] at h
    exact cx_red (kit_105 es) rfl List.not_mem_nil fun _ _ _ => cxk_tok fun _ _ => cxk_tok fun b3 h3 =>
      cxk_cons (Args.cx es b3 63 h (by decide)) fun _ _ => cxk_one (cx_tok _ _ _)
theorem Path.cx : (p : Path) → ∀ b la, p.grouped → la ∉ [62, 65] → Cx b la (.path p)
  | .one i, b, la, h, hla => by
    rw [Path.grouped] at h
    refine cx_red (kit_53 i) rfl (fun h0 => hla ?_) fun _ _ _ => cxk_one (Ident.cx i b la h fun h0 => hla ?_)
    · rw [List.mem_singleton.1 h0]; decide
    · rw [h0]; decide
  | .dot p i, b, la, h, hla => by
    rw [Path.grouped] at h
    refine cx_red (kit_54 p i) rfl (fun h0 => hla ?_) fun _ _ _ => cxk_cons (Path.cx p b 67 h.1 (by decide)) fun b1 _ =>
      cxk_cons (cx_dot _ _) fun b2 _ => cxk_one (Ident.cx i b2 la h.2 fun h0 => hla ?_)
    · rw [List.mem_singleton.1 h0]; decide
    · rw [h0]; decide
theorem Ident.cx : (i : Ident) → ∀ b la, i.grouped → la ≠ 62 → Cx b la (.ident i)
  | .name n, b, la, _, hla => cx_red (kit_55 n) rfl (by show la ∉ [62]; simpa using hla) fun _ _ _ => cxk_one (cx_tok _ _ _)
  | .call n es, b, la, h, _ => by
    rw [Ident.grouped] at h
    exact cx_red (kit_56 n es) rfl List.not_mem_nil fun _ _ _ => cxk_tok fun _ _ => cxk_tok fun b3 h3 =>
      cxk_cons (Args.cx es b3 63 h (by decide)) fun _ _ => cxk_one (cx_tok _ _ _)
  | .index i e, b, la, h, _ => by
    rw [Ident.grouped] at h
    refine cx_red (kit_57 i e) rfl List.not_mem_nil fun hb _ _ => cxk_cons (Ident.cx i b 65 h.1 (by decide)) fun b1 h1 => cxk_tok fun b2 h2 =>
      cxk_cons (fun hb' hl' ht' => ?_) fun _ _ => cxk_one (cx_tok _ _ _)
    exact Expr.cx e b2 66 (.plain (plain_acc (trans_lt hb h1) h2 (by decide) ht') h.2 (by decide)) (by decide) hb' hl' ht'
  | .execStr w s, b, la, _, _ => cx_red (kit_58s w s) rfl List.not_mem_nil fun _ _ _ => cxk_tok fun _ _ => cxk_one
      (cx_red (kit_60 s) rfl List.not_mem_nil fun _ _ _ => cxk_one (cx_tok _ _ _))
  | .execVar w n, b, la, _, _ => cx_red (kit_58v w n) rfl List.not_mem_nil fun _ _ _ => cxk_tok fun _ _ => cxk_one
      (cx_red (kit_61 n) rfl List.not_mem_nil fun _ _ _ => cxk_one (cx_tok _ _ _))
  | .exec w e, b, la, h, _ => by
    rw [Ident.grouped] at h
    refine cx_red (kit_59 w e) rfl List.not_mem_nil fun hb _ _ => cxk_tok fun b1 h1 => cxk_tok fun b2 h2 =>
      cxk_cons (fun hb' hl' ht' => ?_) fun _ _ => cxk_one (cx_tok _ _ _)
    exact Expr.cx e b2 63 (.plain (plain_acc (trans_lt hb h1) h2 (by decide) ht') h (by decide)) (by decide) hb' hl' ht'
theorem Args.cx : (es : Args) → ∀ b la, es.grouped → la ∈ [6, 63] → Cx b la (.args es)
  | .one o, b, la, h, hla => by
    rw [Args.grouped] at h
    exact cx_red (kit_86 o) rfl List.not_mem_nil fun _ _ _ => cxk_one (OptExpr.cx o b la h (by revert la; decide))
  | .more es o, b, la, h, hla => by
    rw [Args.grouped] at h
    exact cx_red (kit_87 es o) rfl List.not_mem_nil fun _ _ _ => cxk_cons (Args.cx es b 6 h.1 (by decide)) fun b1 _ =>
      cxk_cons (cx_comma _ _) fun b2 _ => cxk_one (OptExpr.cx o b2 la h.2 (by revert la; decide))
theorem OptExpr.cx : (o : OptExpr) → ∀ b la, o.grouped → la ∈ ends → Cx b la (.optExpr o)
  | .none, b, la, _, hla => cx_red kit_84 rfl (ends_starts la hla) fun _ _ _ => cxk_nil _ _
  | .some e, b, la, h, hla => by
    rw [OptExpr.grouped] at h
    exact cx_red (kit_85 e) rfl (ends_ops la hla) fun hb _ ht =>
      cxk_one (Expr.cx e b la (.plain (plain_of (tab_plain_opt b hb ht)) h (ends_ops la hla)) (ends_more la hla))
end

/-- Ternary on its own. -/
theorem ternary_cx (c x y : Expr) (b la : Nat) (hg : (Expr.ternary c x y).grouped) : Cx b la (.ternary c x y) := by
  rw [Expr.grouped] at hg
  refine cx_red (kit_33 c x y) rfl List.not_mem_nil fun hb _ ht => cxk_tok fun b1 h1 => cxk_tok fun b2 h2 => cxk_cons ?_ fun b3 h3 =>
    cxk_cons (cx_comma _ _) fun b4 h4 => cxk_cons ?_ fun b5 h5 => cxk_cons (cx_comma _ _) fun b6 h6 => cxk_cons ?_ fun b7 h7 =>
    cxk_one (cx_tok _ _ _)
  · intro hb' hl' ht'
    exact Expr.cx c b2 6 (.plain (plain_acc (trans_lt hb h1) h2 (by decide) ht') hg.1 (by decide)) (by decide) hb' hl' ht'
  · intro hb' hl' ht'
    exact Expr.cx x b4 6 (.plain (plain_acc (trans_lt (trans_lt (trans_lt hb h1) h2) h3) h4 (by decide) ht') hg.2.1 (by decide)) (by decide) hb' hl' ht'
  · intro hb' hl' ht'
    exact Expr.cx y b6 63 (.plain (plain_acc (trans_lt (trans_lt (trans_lt (trans_lt (trans_lt hb h1) h2) h3) h4) h5) h6 (by decide) ht')
      hg.2.2 (by decide)) (by decide) hb' hl' ht'

end Verif.LR
