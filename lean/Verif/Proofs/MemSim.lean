import Verif.Proofs.MemShare
/-!
# The driver with memory builds derivation trees
-/
namespace Verif.Mem
open List LR Tables Lexer Spec

/-! ## Code is kept -/

theorem error_code {x y : HAst} {m : Msg} (e : x.errorH m = .ok y) : y.ctl.code = x.ctl.code := by
  unfold HAst.errorH at e
  cases h : x.ctl.error m with
  | error p => rw [h] at e; cases e
  | ok a =>
    rw [h] at e; cases e
    unfold Ast.error at h
    split at h
    · cases h
    · cases h; rfl

theorem appendGlobal_code {x y : HAst} {v : GVar} (e : appendGlobalH x v = .ok y) : y.ctl.code = x.ctl.code := by
  unfold appendGlobalH at e
  split at e
  · exact error_code e
  · split at e
    · exact error_code e
    · cases e; rfl

theorem appendGlobals_code (l : List GVar) : ∀ {x y : HAst}, appendGlobalsH x l = .ok y → y.ctl.code = x.ctl.code := by
  induction l with
  | nil => intro x y e; cases e; rfl
  | cons v l ih =>
    intro x y e
    unfold appendGlobalsH at e
    cases h : appendGlobalH x v with
    | error p => rw [h] at e; cases e
    | ok z => rw [h] at e; exact (ih e).trans (appendGlobal_code h)

theorem appendFunc_code {x y : HAst} {f : HFunc} (e : appendFuncH x f = .ok y) : y.ctl.code = x.ctl.code := by
  unfold appendFuncH at e
  split at e
  · exact error_code e
  · cases e; rfl

theorem checkLoop_code {x y : HAst} {t : Tok} (e : checkLoopH x t = .ok y) : y.ctl.code = x.ctl.code := by
  unfold checkLoopH at e
  split at e
  · exact error_code e
  · cases e; rfl

theorem checkThrow_code {x y : HAst} {t : Tok} {s : HStm} (e : checkThrowH x t s = .ok y) : y.ctl.code = x.ctl.code := by
  unfold checkThrowH at e
  split at e
  · exact error_code e
  · cases e; rfl

theorem checkReturn_code {x y : HAst} {s : HStm} (e : checkReturnH x s = .ok y) : y.ctl.code = x.ctl.code := by
  unfold checkReturnH at e
  split at e
  · exact error_code e
  · cases e; rfl

theorem checkColon_code {x y : HAst} {t : Tok} {l : List HStm} (e : checkColonH x t l = .ok y) : y.ctl.code = x.ctl.code := by
  unfold checkColonH at e
  split at e
  · split at e
    · cases e; rfl
    · cases e; rfl
    · exact error_code e
  · cases e; rfl

theorem actP_code {p : Nat} {d : Nat → HSV} {v v' : HSV} {x x' : HAst} (e : actP p d v x = .ok (v', x')) : x'.ctl.code = x.ctl.code := by
  unfold actP at e
  split at e <;> first
    | (cases e; rfl)
    | (obtain ⟨z, h1, h2⟩ := bind_ok e; cases h2; exact appendGlobals_code _ h1)
    | (obtain ⟨z, h1, h2⟩ := bind_ok e; cases h2; exact checkLoop_code h1)
    | (obtain ⟨z, h1, h2⟩ := bind_ok e; cases h2; exact checkThrow_code h1)
    | (obtain ⟨z, h1, h2⟩ := bind_ok e; cases h2; exact checkReturn_code h1)
    | (split at e
       · obtain ⟨z, h1, h2⟩ := bind_ok e; cases h2; exact appendFunc_code h1
       · cases e; rfl)
    | (obtain ⟨r, h1, h2⟩ := bind_ok e
       split at h2
       · obtain ⟨z, h3, h4⟩ := bind_ok h2
         cases h4; exact error_code h3
       · cases h2; rfl)

theorem actH_code (g : Nat → Nat → Nat) {p : Nat} {d : Nat → HSV} {v v' : HSV} {x x' : HAst} {h h' : Heap}
    (e : actH g p d v x h = .ok (v', x', h')) : x'.ctl.code = x.ctl.code := by
  unfold actH at e
  split at e
  · cases e; rfl
  · cases e; rfl
  · cases e; rfl
  · obtain ⟨z, e1, e2⟩ := bind_ok e
    split at e2 <;> (cases e2; exact checkColon_code e1)
  · obtain ⟨⟨v1, x1⟩, e1, e2⟩ := bind_ok e
    cases e2
    exact actP_code e1

/-! ## One step -/

section
variable (g : Nat → Nat → Nat)

/-- Carrying out an action, as `perform`. -/
def performH (c : HCfg) : Act → Except Panic HStep
  | .shift s' => .ok (.go (({ c with look := none } : HCfg).push s' { token := c.lval }))
  | .reduce p => reduceH g c p
  | .accept => .ok (.done 0 c.ast c.heap)
  | .error => syntaxErrorH c

variable [Letters]

theorem defaultActionH_eq {c : HCfg} {s : Nat} (h : get yyDef s ≠ -2) (t : Nat) :
    defaultActionH g c s = performH g c (dflAct s t) := by
  unfold defaultActionH dflAct
  dsimp only
  rw [if_neg h, if_neg h]
  split <;> rfl

theorem defaultActionH_exca {c : HCfg} {s : Nat} (h : get yyDef s = -2) :
    defaultActionH g c s = performH g (fetchH c).1 (dflAct s (fetchH c).2) := by
  unfold defaultActionH dflAct ofEntry
  dsimp only
  rw [if_pos h, if_pos h]
  split
  · rfl
  · split <;> rfl

theorem stepH_lazy {c : HCfg} {s : Nat} {v : HSV} {r : List (Nat × HSV)} (hl : c.live = (s, v) :: r)
    (h : isLazy s = true) (t : Nat) : stepH g c = performH g c (dflAct s t) := by
  unfold isLazy at h
  simp only [Bool.and_eq_true, decide_eq_true_eq] at h
  unfold stepH
  rw [hl]
  dsimp only
  rw [if_pos h.1]
  exact defaultActionH_eq g h.2 t

theorem stepH_fetch {c : HCfg} {s : Nat} {v : HSV} {r : List (Nat × HSV)} (hl : c.live = (s, v) :: r)
    (h : isLazy s = false) :
    stepH g c = performH g (fetchH c).1 (action s (fetchH c).2) ∨
    (shiftOf s (fetchH c).2 = none ∧ get yyDef s = -2 ∧
      stepH g c = performH g (fetchH (fetchH c).1).1 (dflAct s (fetchH (fetchH c).1).2)) := by
  unfold isLazy at h
  rw [Bool.and_eq_false_iff] at h
  simp only [decide_eq_false_iff_not] at h
  unfold stepH action
  rw [hl]
  dsimp only
  by_cases hp : get yyPact s ≤ yyFlag
  · rw [if_pos hp, if_pos hp]
    have : get yyDef s = -2 := by
      rcases h with h | h
      · exact absurd hp h
      · exact Decidable.not_not.1 h
    exact .inl (defaultActionH_exca g this)
  · rw [if_neg hp, if_neg hp]
    cases hsh : shiftOf s (fetchH c).2 with
    | some s' => exact .inl rfl
    | none =>
      dsimp only
      by_cases hd : get yyDef s = -2
      · exact .inr ⟨rfl, hd, defaultActionH_exca g hd⟩
      · exact .inl (defaultActionH_eq g hd _)

omit [Letters] in
theorem fetchH_look [Letters] {c : HCfg} {t : Nat} (h : c.look = some t) : fetchH c = (c, t) := by
  unfold fetchH; rw [h]

theorem fetchH_none {c : HCfg} (h : c.look = none) :
    fetchH c = match lexCall c.ast.ctl c.lval with
      | (a, t, none) => ({ c with ast := { c.ast with ctl := a }, lval := t }, tokEnd)
      | (a, t, some k) => ({ c with ast := { c.ast with ctl := a }, lval := t, look := some (tokNum k) }, tokNum k) := by
  unfold fetchH; rw [h]; rfl

/-- The tokens still to come are `l`. -/
structure AtH (c : HCfg) (l : List (Nat × Tok)) : Prop where
  code : c.ast.ctl.code ≠ []
  toks : (c.look = none ∧ Tokens c.lval l) ∨ ∃ k l', c.look = some (tokNum k) ∧ l = (k, c.lval) :: l' ∧ Tokens c.lval l'

/-- Only the lookahead changes. -/
structure SameStackH (c c' : HCfg) : Prop where
  live : c'.live = c.live
  stale : c'.stale = c.stale
  items : c'.ast.items = c.ast.items
  heap : c'.heap = c.heap

theorem AtH.fetch {c : HCfg} {l : List (Nat × Tok)} (h : AtH c l) :
    AtH (fetchH c).1 l ∧ SameStackH c (fetchH c).1 ∧ (fetchH c).2 = headTok l ∧ (l ≠ [] → (fetchH c).1.look ≠ none) := by
  rcases h.toks with ⟨hn, ht⟩ | ⟨k, l', hk, rfl, ht⟩
  · rw [fetchH_none hn, lexCall_eq h.code]
    cases ht with
    | eof hx =>
      rcases hl : lexNext c.lval with ⟨t', e | (_ | k)⟩
      · rw [hl] at hx; cases hx
      · have := lexNext_end hx
        rw [hl] at this
        exact ⟨⟨h.code, .inl ⟨hn, .eof this⟩⟩, ⟨rfl, rfl, rfl, rfl⟩, rfl, fun h => absurd rfl h⟩
      · rw [hl] at hx; cases hx
    | next hx ht =>
      rw [hx]
      exact ⟨⟨h.code, .inr ⟨_, _, rfl, rfl, ht⟩⟩, ⟨rfl, rfl, rfl, rfl⟩, rfl, fun _ => nofun⟩
  · rw [fetchH_look hk]
    exact ⟨h, ⟨rfl, rfl, rfl, rfl⟩, rfl, fun _ => by rw [hk]; exact nofun⟩

theorem AtH.step {c : HCfg} {l : List (Nat × Tok)} (h : AtH c l) {s v r} (hl : c.live = (s, v) :: r) :
    ∃ c', AtH c' l ∧ SameStackH c c' ∧ stepH g c = performH g c' (action s (headTok l)) ∧ (isLazy s = true ∨ (l ≠ [] → c'.look ≠ none)) := by
  by_cases hz : isLazy s = true
  · exact ⟨c, h, ⟨rfl, rfl, rfl, rfl⟩, by rw [stepH_lazy g hl hz 0, action_lazy hz], .inl hz⟩
  · obtain ⟨f1, f2, f3, f4⟩ := h.fetch
    rcases stepH_fetch g hl (Bool.not_eq_true _ ▸ hz) with he | ⟨hsh, -, he⟩
    · exact ⟨_, f1, f2, by rw [he, f3], .inr f4⟩
    · obtain ⟨g1, g2, g3, g4⟩ := f1.fetch
      refine ⟨_, g1, ⟨g2.live.trans f2.live, g2.stale.trans f2.stale, g2.items.trans f2.items, g2.heap.trans f2.heap⟩, ?_, .inr g4⟩
      rw [he, g3, action_none]
      rw [← f3]; exact hsh

/-- Steps of the driver. -/
inductive StepsH : HCfg → HCfg → Prop
  | refl (c : HCfg) : StepsH c c
  | step {c c' c'' : HCfg} : stepH g c = .ok (.go c') → StepsH c' c'' → StepsH c c''

theorem StepsH.trans {c d e : HCfg} (h : StepsH g c d) (k : StepsH g d e) : StepsH g c e := by
  induction h with
  | refl => exact k
  | step hs _ ih => exact .step hs (ih k)

omit [Letters] in
theorem popNH_append (q rest : List (Nat × HSV)) (st : List HSV) :
    popNH q.length (q ++ rest) st = (rest, (q.map Prod.snd).reverse ++ st) := by
  induction q generalizing st with
  | nil => cases rest <;> rfl
  | cons x q ih =>
    obtain ⟨s, v⟩ := x
    rw [List.length_cons, List.cons_append]
    show popNH q.length (q ++ rest) (v :: st) = _
    rw [ih]
    simp

/-- The driver shifts a token. -/
theorem AtH.shift {c : HCfg} {k : Nat} {t : Tok} {l : List (Nat × Tok)} (ha : AtH c ((k, t) :: l)) {b b1 : Nat} {v : HSV} {r : List (Nat × HSV)}
    (hb : b < nStates) (hl : c.live = (b, v) :: r) (hs : shiftL b (tokNum k) = some b1) :
    ∃ c1, stepH g c = .ok (.go c1) ∧ AtH c1 l ∧ c1.live = (b1, { token := t }) :: c.live ∧ c1.ast.items = c.ast.items ∧ c1.heap = c.heap := by
  obtain ⟨c1, h1, h2, h3, h4⟩ := ha.step g hl
  have hact : action b (tokNum k) = .shift b1 := by
    have h0 := shiftOf_eq hb (tokNum_lt k).1
    rw [hs] at h0
    unfold action
    rw [if_neg, h0]
    intro hp
    unfold shiftOf at h0
    have hp2 : get yyPact b + (tokNum k : Int) < 0 ∨ yyLast ≤ get yyPact b + (tokNum k : Int) := by
      have := (tokNum_lt k).1
      unfold nToks at this
      left
      have : yyFlag = -1000 := rfl
      omega
    dsimp only at h0
    rw [if_pos hp2] at h0
    cases h0
  have hlz : isLazy b = false := by
    cases hz : isLazy b with
    | false => rfl
    | true =>
      rw [action_lazy hz] at hact
      exact absurd hact (dflAct_shift hb (by decide))
  rcases h4 with h4 | h4
  · rw [hlz] at h4; cases h4
  · have hlook := h4 nofun
    rcases h1.toks with ⟨h5, -⟩ | ⟨k', l', h5, h6, h7⟩
    · exact absurd h5 hlook
    · injection h6 with h6 h6'
      injection h6 with h6 h8
      subst h6; subst h6'; subst h8
      rw [show headTok ((k, c1.lval) :: l) = tokNum k from rfl, hact] at h3
      refine ⟨({ c1 with look := none } : HCfg).push b1 { token := c1.lval }, h3, ⟨h1.code, .inl ⟨rfl, h7⟩⟩, ?_, h2.items, h2.heap⟩
      show _ :: c1.live = _
      rw [h2.live]

/-- The driver performs the action of a production. -/
theorem AtH.reduce {c1 : HCfg} {l : List (Nat × Tok)} (h : AtH c1 l) {b g' p s : Nat} {v w : HSV} {r live r1 q : List (Nat × HSV)}
    (hb : b < nStates) (h0 : 0 < p) (hp : p < nProds) (hq : q.length = (rhs p).length) (hl : live = (b, v) :: r) (hc : c1.live = q ++ live)
    (hs : c1.live = (s, w) :: r1) (ha : action s (headTok l) = .reduce p) (hg : gotoL b (lhs p) = some g') :
    ∃ c2, AtH c2 l ∧ SameStackH c1 c2 ∧ ∀ R, actH g p (fun i => ((q.map Prod.snd).reverse ++ c2.stale).getD (i - 1) {})
        (((q.map Prod.snd).reverse ++ c2.stale).headD {}) c2.ast c2.heap = R →
      match R with
      | .error e => stepH g c1 = .error e
      | .ok (x, a', h') => ∃ c3, stepH g c1 = .ok (.go c3) ∧ AtH c3 l ∧ c3.live = (g', x) :: live ∧ c3.ast = a' ∧ c3.heap = h' := by
  obtain ⟨c2, k1, k2, k3, -⟩ := h.step g hs
  rw [ha] at k3
  refine ⟨c2, k1, k2, fun R hR => ?_⟩
  have hred : stepH g c1 = (do
      let (v', a, h') ← R
      .ok (.go (({ c2 with ast := a, heap := h', live := live, stale := (q.map Prod.snd).reverse ++ c2.stale } : HCfg).push g' v'))) := by
    rw [k3]
    show reduceH g c2 p = _
    unfold reduceH
    have hlen : (get yyR2 p).toNat = q.length := by rw [yyR2_eq h0 hp, hq]
    rw [hlen, k2.live, hc]
    dsimp only
    rw [popNH_append]
    dsimp only
    rw [hl]
    dsimp only
    rw [hR]
    cases R with
    | error e => rfl
    | ok x =>
      obtain ⟨x, a', h'⟩ := x
      show Except.ok _ = Except.ok _
      rw [gotoOf_eq hb hp hg]
  cases R with
  | error e => exact hred
  | ok x =>
    obtain ⟨x, a', h'⟩ := x
    refine ⟨_, hred, ⟨?_, k1.toks⟩, rfl, rfl, rfl⟩
    show a'.ctl.code ≠ []
    rw [actH_code g hR]; exact k1.code

end

/-! ## Trees -/

mutual
/-- No block begins with a separator. -/
def _root_.Verif.LR.Tree.Neat : Tree → Prop
  | .leaf _ _ => True
  | .node p kids => (p = 19 → ∃ us, kids.head? = some (.node 17 us)) ∧ NeatL kids
/-- All trees. -/
def NeatL : List Tree → Prop
  | [] => True
  | T :: ts => T.Neat ∧ NeatL ts
end

/-- The fields of the values of trees. -/
def flds : List Nat → List HSV → List (Nat × Nat)
  | X :: Xs, v :: vs => fld X v ++ flds Xs vs
  | _, _ => []

/-- Where a block is made from a body, the slot still has the body. -/
def Side (T : Tree) (v : HSV) : Prop := ∀ us, T = .node 17 us → v.body = v.opt_body

theorem flds_eq {Xs : List Nat} : ∀ {vs st : List HSV} {d : Nat → HSV} {i : Nat}, vs.length = Xs.length →
    (∀ j, d (i + j) = (vs ++ st).getD j {}) → fldsD Xs d i = flds Xs vs := by
  induction Xs with
  | nil => intro vs st d i hl hd; cases vs <;> rfl
  | cons X Xs ih =>
    intro vs st d i hl hd
    rcases vs with _ | ⟨v, vs⟩
    · cases hl
    · rw [fldsD, flds, show d i = v from hd 0, ih (st := st) (Nat.succ.inj hl) (fun j => ?_)]
      rw [Nat.add_assoc, Nat.add_comm 1 j]
      exact hd (j + 1)

theorem fld_tok (k : Nat) (v : HSV) : fld (tokNum k) v = [] := by
  have h := (tokNum_lt k).1
  have : nToks < 101 := by decide
  unfold fld
  split <;> first | omega | rfl

theorem flatMap_blocks (A B : List HItem) : (A ++ B).flatMap HItem.blocks = A.flatMap HItem.blocks ++ B.flatMap HItem.blocks := flatMap_append

/-- The driver builds a forest in which no block begins with a separator, or panics; the blocks have arrays of their own. -/
theorem simH [Letters] (g : Nat → Nat → Nat) {b ts la e} (h : LRF b ts la e) : ∀ {c : HCfg} {l : List (Nat × Tok)} {v : HSV} {r : List (Nat × HSV)},
    b < nStates → la = headTok l → c.live = (b, v) :: r → AtH c (yieldL ts ++ l) → NeatL ts →
    (∃ c' q s w r' its, StepsH g c c' ∧ AtH c' l ∧ c'.live = q ++ c.live ∧ q.length = ts.length ∧ c'.live = (s, w) :: r' ∧ s = e ∧
      c'.ast.items = c.ast.items ++ its ∧
      Fresh c.heap c'.heap (its.flatMap HItem.blocks ++ flds (ts.map Tree.root) (q.map Prod.snd).reverse) ∧
      Forall₂ Side ts (q.map Prod.snd).reverse) ∨
    ∃ c' x, StepsH g c c' ∧ stepH g c' = .error x := by
  induction h with
  | nil b la =>
    intro c l v r hb hla hl ha hn
    exact .inl ⟨c, [], b, v, r, [], .refl c, ha, rfl, rfl, hl, rfl, (append_nil _).symm, Fresh.refl _, .nil⟩
  | @leaf k t b b1 ts la e hs h ih =>
    intro c l v r hb hla hl ha hn
    rw [yieldL, Tree.yield, List.singleton_append, List.cons_append] at ha
    rw [NeatL] at hn
    obtain ⟨c1, h1, h2, h3, h4, h5⟩ := ha.shift g hb hl hs
    rcases ih (trans_ok hb (trans_shift hb hs)).lt hla h3 h2 hn.2 with
      ⟨c2, q, s, w, r', its, g1, g2, g3, g4, g5, g6, g7, g8, g9⟩ | ⟨c2, x, g1, g2⟩
    · refine .inl ⟨c2, q ++ [(b1, { token := t })], s, w, r', its, .step h1 g1, g2, ?_, ?_, g5, g6, g7.trans (by rw [h4]), ?_, ?_⟩
      · rw [g3, h3]; simp
      · simp [g4]
      · rw [List.map_append, List.reverse_append]
        show Fresh c.heap c2.heap (_ ++ (fld (tokNum k) _ ++ flds (ts.map Tree.root) (q.map Prod.snd).reverse))
        rw [fld_tok, nil_append, ← h5]
        exact g8
      · rw [List.map_append, List.reverse_append]
        exact .cons nofun g9
    · exact .inr ⟨c2, x, .step h1 g1, g2⟩
  | @node p b kids ts la s g' e h0 hp hk hkids hr ha hg hrest ih1 ih2 =>
    intro c l v r hb hla hl hat hneat
    rw [yieldL, Tree.yield, List.append_assoc] at hat
    rw [NeatL, Tree.Neat] at hneat
    have hn : nextTok ts la = headTok (yieldL ts ++ l) := by rw [headTok_append, hla]
    rcases ih1 hb hn hl hat hneat.1.2 with ⟨c1, q, s1, w1, r1, its1, g1, g2, g3, g4, g5, rfl, g6, g7, g8⟩ | ⟨c1, x, g1, g2⟩
    · have hql : q.length = (rhs p).length := by rw [← hk, List.length_map, g4]
      obtain ⟨c2, k1, k2, k3⟩ := g2.reduce g hb h0 hp hql hl g3 g5 (hn ▸ ha) hg
      cases hR : actH g p (fun i => ((q.map Prod.snd).reverse ++ c2.stale).getD (i - 1) {})
        (((q.map Prod.snd).reverse ++ c2.stale).headD {}) c2.ast c2.heap with
      | error x => exact .inr ⟨c1, x, g1, k3 _ hR⟩
      | ok R =>
        obtain ⟨x, a', h'⟩ := R
        obtain ⟨c3, j1, j2, j3, rfl, rfl⟩ := k3 _ hR
        have hvl : ((q.map Prod.snd).reverse).length = (rhs p).length := by simp [hql]
        have hv1 : rhs p ≠ [] → ((q.map Prod.snd).reverse ++ c2.stale).headD {} = ((q.map Prod.snd).reverse ++ c2.stale).getD (1 - 1) {} := by
          intro _
          cases (q.map Prod.snd).reverse ++ c2.stale <;> rfl
        have hsd : p = 19 → (((q.map Prod.snd).reverse ++ c2.stale).headD {}).body = (((q.map Prod.snd).reverse ++ c2.stale).headD {}).opt_body := by
          intro h19
          obtain ⟨us, hus⟩ := hneat.1.1 h19
          cases kids with
          | nil => cases hus
          | cons T kids =>
            injection hus with hus
            revert g8
            generalize (q.map Prod.snd).reverse = vs
            intro g8
            cases g8 with
            | cons hT _ => exact hT us hus
        obtain ⟨its2, m1, m2⟩ := act_fresh (A := its1.flatMap HItem.blocks) g h0 hp hv1 hsd (by
          rw [k2.heap, flds_eq (st := c2.stale) hvl (fun j => by rw [Nat.add_sub_cancel_left]), ← hk]
          exact g7) hR
        have hside : Side (.node p kids) x := by
          intro us hus
          injection hus with hp17 _
          subst hp17
          have := hv1 nofun
          have hR' : Except.ok (({ (((q.map Prod.snd).reverse ++ c2.stale).headD {} : HSV) with
              opt_body := (((q.map Prod.snd).reverse ++ c2.stale).getD (1 - 1) {}).body } : HSV), c2.ast, c2.heap) =
              (Except.ok (x, c3.ast, c3.heap) : Except Panic _) := hR
          injection hR' with hR'
          injection hR' with hx _
          rw [← hx]
          show HSV.body _ = _
          rw [this]
        rcases ih2 (trans_ok hb (trans_goto hp hg)).lt hla j3 j2 hneat.2 with
          ⟨c4, q', s3, w3, r3, its3, n1, n2, n3, n4, n5, n6, n7, n8, n9⟩ | ⟨c4, y, n1, n2⟩
        · refine .inl ⟨c4, q' ++ [(g', x)], s3, w3, r3, its1 ++ (its2 ++ its3), StepsH.trans g g1 (.step j1 n1), n2, ?_, ?_, n5, n6, ?_, ?_, ?_⟩
          · rw [n3, j3]; simp
          · simp [n4]
          · rw [n7, m1, k2.items, g6]; simp
          · rw [List.map_append, List.reverse_append]
            refine (m2.seq n8).sub fun a => ?_
            show count a (_ ++ (fld (lhs p) x ++ flds (ts.map Tree.root) (q'.map Prod.snd).reverse)) ≤ _
            simp only [flatMap_blocks, count_append]
            omega
          · rw [List.map_append, List.reverse_append]
            exact .cons hside n9
        · exact .inr ⟨c4, y, StepsH.trans g g1 (.step j1 n1), n2⟩
    · exact .inr ⟨c1, x, g1, g2⟩

end Verif.Mem
