import Verif.Proofs.OnlyTokens
import Verif.Proofs.LR.Whole
import Verif.Spec.Errors
/-! What has been read stays: the module only grows, and what is read behind the first tokens changes nothing of what they gave. -/
namespace Verif.LR
open Lexer Spec

/-- The module after `a'` continues that after `a`; `stms`: by statements only. -/
structure Grows (stms : Prop) (a a' : Ast) : Prop where
  globals : ∃ gs, a'.mod.globals = a.mod.globals ++ gs ∧ (stms → gs = [])
  body : ∃ is, a'.mod.body = a.mod.body ++ is ∧ (stms → ∀ i ∈ is, ∃ s, i = Item.stm s)

theorem Grows.same {P : Prop} {a a' : Ast} (h : a'.mod = a.mod) : Grows P a a' :=
  ⟨⟨[], by rw [h, List.append_nil], fun _ => rfl⟩, ⟨[], by rw [h, List.append_nil], fun _ _ hi => by cases hi⟩⟩

theorem Grows.trans {P : Prop} {a b c : Ast} (h : Grows P a b) (g : Grows P b c) : Grows P a c := by
  obtain ⟨g1, e1, s1⟩ := h.globals
  obtain ⟨g2, e2, s2⟩ := g.globals
  obtain ⟨b1, f1, t1⟩ := h.body
  obtain ⟨b2, f2, t2⟩ := g.body
  refine ⟨⟨g1 ++ g2, by rw [e2, e1, List.append_assoc], fun p => by rw [s1 p, s2 p]; rfl⟩,
    ⟨b1 ++ b2, by rw [f2, f1, List.append_assoc], fun p i hi => ?_⟩⟩
  rcases List.mem_append.1 hi with hi | hi
  · exact t1 p i hi
  · exact t2 p i hi

theorem Grows.weaken {P Q : Prop} (hq : Q → P) {a b : Ast} (h : Grows P a b) : Grows Q a b := by
  obtain ⟨g1, e1, s1⟩ := h.globals
  obtain ⟨b1, f1, t1⟩ := h.body
  exact ⟨⟨g1, e1, fun q => s1 (hq q)⟩, ⟨b1, f1, fun q => t1 (hq q)⟩⟩

theorem appendGlobal_grows {a a' : Ast} {v : GVar} (h : appendGlobal a v = .ok a') : Grows False a a' := by
  unfold appendGlobal at h
  split at h
  · exact .same (error_mod h)
  · split at h
    · exact .same (error_mod h)
    · injection h with h; subst h
      exact ⟨⟨[v], rfl, nofun⟩, ⟨[], (List.append_nil _).symm, nofun⟩⟩

theorem appendGlobals_grows {vs : List GVar} {a a' : Ast} (h : appendGlobals a vs = .ok a') : Grows False a a' := by
  induction vs generalizing a with
  | nil => injection h with h; subst h; exact .same rfl
  | cons v vs ih =>
    rw [appendGlobals] at h
    obtain ⟨b, h1, h2⟩ := bind_ok h
    exact (appendGlobal_grows h1).trans (ih h2)

theorem appendStms_grows (a : Ast) (l : List Stm) : Grows True a (appendStms a l) := by
  refine ⟨⟨[], (List.append_nil _).symm, fun _ => rfl⟩, ⟨l.map .stm, rfl, fun _ i hi => ?_⟩⟩
  obtain ⟨s, -, rfl⟩ := List.mem_map.1 hi
  exact ⟨s, rfl⟩

/-- Every action lets the module grow; those of productions other than 6 and 7 by statements only. -/
theorem act_grows {p : Nat} {d : Nat → SV} {v v' : SV} {a a' : Ast} (h : act p d v a = .ok (v', a')) :
    Grows (p ≠ 6 ∧ p ≠ 7) a a' := by
  unfold act at h
  split at h <;> try (obtain ⟨rfl, rfl⟩ := pair_ok h; exact .same rfl)
  -- 2, 3
  · obtain ⟨rfl, rfl⟩ := pair_ok h; exact (appendStms_grows _ _).weaken fun _ => trivial
  · obtain ⟨rfl, rfl⟩ := pair_ok h; exact (appendStms_grows _ _).weaken fun _ => trivial
  -- 6
  · obtain ⟨b, h1, h2⟩ := bind_ok h
    obtain ⟨rfl, rfl⟩ := pair_ok h2
    exact (appendGlobals_grows h1).weaken fun h => h.1 rfl
  -- 7
  · split at h
    · obtain ⟨b, h1, h2⟩ := bind_ok h
      obtain ⟨rfl, rfl⟩ := pair_ok h2
      unfold appendFunc at h1
      split at h1
      · exact .same (error_mod h1)
      · injection h1 with h1; subst h1
        exact ⟨⟨[], (List.append_nil _).symm, fun _ => rfl⟩, ⟨[_], rfl, fun h => absurd rfl h.2⟩⟩
    · obtain ⟨rfl, rfl⟩ := pair_ok h; exact .same rfl
  -- 19
  · obtain ⟨b, h1, h2⟩ := bind_ok h
    obtain ⟨rfl, rfl⟩ := pair_ok h2
    unfold checkColon at h1
    split at h1
    · split at h1
      · injection h1 with h1; subst h1; exact .same rfl
      · injection h1 with h1; subst h1; exact .same rfl
      · exact .same (error_mod h1)
    · injection h1 with h1; subst h1; exact .same rfl
  -- 26
  · obtain ⟨b, h1, h2⟩ := bind_ok h
    split at h2
    · obtain ⟨c, h3, h4⟩ := bind_ok h2
      obtain ⟨rfl, rfl⟩ := pair_ok h4
      exact .same (error_mod h3)
    · obtain ⟨rfl, rfl⟩ := pair_ok h2; exact .same rfl
  -- 27
  · obtain ⟨b, h1, h2⟩ := bind_ok h
    split at h2
    · obtain ⟨c, h3, h4⟩ := bind_ok h2
      obtain ⟨rfl, rfl⟩ := pair_ok h4
      exact .same (error_mod h3)
    · obtain ⟨rfl, rfl⟩ := pair_ok h2; exact .same rfl
  all_goals
    obtain ⟨b, h1, h2⟩ := bind_ok h
    obtain ⟨rfl, rfl⟩ := pair_ok h2
    first
      | unfold checkLoop at h1
      | unfold checkThrow at h1
      | unfold checkReturn at h1
    split at h1
    · exact .same (error_mod h1)
    · injection h1 with h1; subst h1; exact .same rfl

/-- The AstNode after a round. -/
def _root_.Verif.Step.ast : Step → Ast
  | .go d => d.ast
  | .done _ a => a

section
variable [Letters]

theorem fetch_mod (c : Cfg) : (fetch c).1.ast.mod = c.ast.mod := by
  cases hl : c.look with
  | some t => rw [fetch_look hl]
  | none =>
    rw [fetch_none hl]
    by_cases hc : c.ast.code = []
    · unfold lexCall; rw [if_pos hc]
    · rw [lexCall_eq hc]
      rcases lexNext c.lval with ⟨t', e | (_ | k)⟩ <;> rfl

theorem fetch_live (c : Cfg) : (fetch c).1.live = c.live := by
  cases hl : c.look with
  | some t => rw [fetch_look hl]
  | none => rw [fetch_none hl]; split <;> rfl

omit [Letters] in
theorem reduce_grows {c : Cfg} {p : Nat} {x : Step} (h : reduce c p = .ok x) :
    Grows (p ≠ 6 ∧ p ≠ 7) c.ast x.ast := by
  unfold reduce at h
  dsimp only at h
  split at h
  · injection h with h; subst h; exact .same rfl
  · obtain ⟨⟨v, a⟩, h1, h2⟩ := bind_ok h
    injection h2 with h2
    subst h2
    exact act_grows h1

omit [Letters] in
theorem syntaxError_grows {c : Cfg} {x : Step} (h : syntaxError c = .ok x) :
    Grows True c.ast x.ast := by
  unfold syntaxError at h
  obtain ⟨a, h1, h2⟩ := bind_ok h
  split at h2 <;> (injection h2 with h2; subst h2; exact .same (error_mod h1))

omit [Letters] in
theorem perform_grows {c : Cfg} {A : Act} {x : Step} (h : perform c A = .ok x) :
    Grows False c.ast x.ast := by
  cases A with
  | shift s => injection h with h; subst h; exact .same rfl
  | accept => injection h with h; subst h; exact .same rfl
  | error => exact (syntaxError_grows h).weaken False.elim
  | reduce p => exact (reduce_grows h).weaken False.elim

theorem step_grows {c : Cfg} {x : Step} (h : step c = .ok x) :
    Grows False c.ast x.ast := by
  cases hl : c.live with
  | nil => unfold step at h; rw [hl] at h; injection h with h; subst h; exact .same rfl
  | cons y r =>
    obtain ⟨s, v⟩ := y
    by_cases hz : isLazy s = true
    · rw [step_lazy hl hz 0] at h
      exact perform_grows h
    · rcases step_fetch hl (Bool.not_eq_true _ ▸ hz) with he | ⟨-, -, he⟩
      · rw [he] at h
        exact (Grows.same (fetch_mod c)).trans (perform_grows h)
      · rw [he] at h
        exact (Grows.same ((fetch_mod _).trans (fetch_mod c))).trans (perform_grows h)

/-- The module only grows. -/
theorem run_grows (n : Nat) (c : Cfg) {k a} (h : run n c = .ok (some (k, a))) : Grows False c.ast a := by
  induction n generalizing c with
  | zero => cases h
  | succ n ih =>
    unfold run at h
    cases hs : step c with
    | error q => rw [hs] at h; cases h
    | ok x =>
      rw [hs] at h
      have := step_grows hs
      cases x with
      | go d => exact this.trans (ih d h)
      | done k' b =>
        injection h with h; injection h with h; injection h with h1 h2
        subst h2
        exact this

/-! ## The end of the text -/

/-- What stands on top of the stack while a declaration is being completed: `;`, `КонецПроцедуры`, `КонецФункции` and the nonterminals
for what they end. -/
def closing : List Nat := [tokNum 59, tokNum tEndProcedure, tokNum tEndFunction, lhs 109, lhs 12, lhs 14]

omit [Letters] in
theorem closing_lazy {s : Nat} (hs : s < nStates) (h : isLazy s = false) : acc s ∉ closing := by
  have : (List.range nStates).all (fun s => isLazy s || decide (acc s ∉ closing)) = true := by decide +kernel
  have := all_range this hs
  rw [h] at this
  simpa using this

omit [Letters] in
theorem closing_reds {s p : Nat} (hs : s < nStates) (h : acc s ∉ closing) (hp : p ∈ reds s) : (p ≠ 6 ∧ p ≠ 7) ∧ lhs p ∉ closing := by
  have : (List.range nStates).all (fun s => decide (acc s ∈ closing) || (reds s).all fun p => decide ((p ≠ 6 ∧ p ≠ 7) ∧ lhs p ∉ closing)) = true := by
    decide +kernel
  have := all_range this hs
  rw [decide_eq_false h, Bool.false_or, List.all_eq_true] at this
  exact of_decide_eq_true (this p hp)

/-- The driver at the end of the text, not in the middle of completing a declaration. -/
structure AtEof (c : Cfg) : Prop where
  code : c.ast.code ≠ []
  look : c.look = none
  eof : (lexNext c.lval).2 = .ok none
  stk : ∃ s v l ts vs, c.live = (s, v) :: l ∧ Stk c.live ts vs ∧ acc s ∉ closing

theorem AtEof.fetch {c : Cfg} (h : AtEof c) : AtEof (Verif.fetch c).1 ∧ (Verif.fetch c).2 = 1 := by
  have h1 := lexNext_end h.eof
  have h2 := h.eof
  rw [fetch_none h.look, lexCall_eq h.code]
  revert h1 h2
  rcases lexNext c.lval with ⟨t, r⟩
  intro h1 h2
  dsimp only at h1 h2
  subst h2
  exact ⟨⟨h.code, h.look, h1, h.stk⟩, rfl⟩

theorem perform_eof {c : Cfg} (h : AtEof c) {s v l} (hl : c.live = (s, v) :: l) {t : Nat} (ht : t < nToks) {x : Step}
    (hx : perform c (dflAct s t) = .ok x) :
    Grows True c.ast x.ast ∧ ∀ d, x = .go d → AtEof d := by
  obtain ⟨s', v', l', ts, vs, e, hst, ha⟩ := h.stk
  rw [hl] at e
  injection e with e1 e2
  injection e1 with e1 e3
  subst e1
  rw [hl] at hst
  have hlt := hst.lt
  cases hA : dflAct s t with
  | shift s' => exact absurd hA (dflAct_shift hlt ht)
  | accept => rw [hA] at hx; injection hx with hx; subst hx; exact ⟨.same rfl, fun _ e => Step.noConfusion e⟩
  | error =>
    rw [hA] at hx
    refine ⟨syntaxError_grows hx, ?_⟩
    rintro d rfl
    change syntaxError c = _ at hx
    rw [syntaxError_eq (hl ▸ hst)] at hx
    obtain ⟨a, -, h2⟩ := bind_ok hx
    injection h2 with h2
    cases h2
  | reduce p =>
    rw [hA] at hx
    have hp := dflAct_reduce hlt ht hA
    obtain ⟨hp1, hp2⟩ := closing_reds hlt ha hp
    refine ⟨(reduce_grows hx).weaken fun _ => hp1, ?_⟩
    rintro d rfl
    obtain ⟨k1, k2⟩ := reduce_keep hx
    obtain ⟨h0, hpn, -⟩ := reds_ok hlt hp
    obtain ⟨ts1, ts2, vs1, vs2, b, wb, l', g, rfl, rfl, e3, e4, e5, e6, e7, e8, e9⟩ := hst.popRed hp c.stale
    change reduce c p = _ at hx
    unfold reduce at hx
    rw [yyR2_eq h0 hpn, hl] at hx
    dsimp only at hx
    rw [e8] at hx
    dsimp only at hx
    rw [gotoOf_eq e5.lt hpn e6] at hx
    obtain ⟨⟨w, a⟩, -, h2⟩ := bind_ok hx
    injection h2 with h2
    injection h2 with h2
    have hg : trans b (lhs p) = some g := trans_goto hpn e6
    refine ⟨k2 ▸ h.code, ?_, by rw [k1]; exact h.eof, g, w, (b, wb) :: l', ts1 ++ [.node p ts2], vs1 ++ [w], ?_, ?_, ?_⟩
    · rw [← h2]; exact h.look
    · rw [← h2]; rfl
    · rw [← h2]; exact .push (T := .node p ts2) e5 hg
    · rw [(trans_ok e5.lt hg).acc]; exact hp2

theorem step_eof {c : Cfg} (h : AtEof c) {x : Step} (hx : step c = .ok x) :
    Grows True c.ast x.ast ∧ ∀ d, x = .go d → AtEof d := by
  obtain ⟨s, v, l, ts, vs, hl, hst, ha⟩ := h.stk
  have hlt : s < nStates := by rw [hl] at hst; exact hst.lt
  by_cases hz : isLazy s = true
  · rw [step_lazy hl hz 0] at hx
    exact perform_eof h hl (by decide) hx
  · obtain ⟨h1, h2⟩ := h.fetch
    have hl1 : (Verif.fetch c).1.live = (s, v) :: l := (fetch_live c).trans hl
    rcases step_fetch hl (Bool.not_eq_true _ ▸ hz) with he | ⟨-, -, he⟩
    · rw [he, h2, action_none (by rw [shiftOf_eq hlt (by decide)]; exact shiftL_end hlt)] at hx
      obtain ⟨g1, g2⟩ := perform_eof h1 hl1 (by decide) hx
      exact ⟨(Grows.same (fetch_mod c)).trans g1, g2⟩
    · obtain ⟨h3, h4⟩ := h1.fetch
      rw [he, h4] at hx
      obtain ⟨g1, g2⟩ := perform_eof h3 ((fetch_live _).trans hl1) (by decide) hx
      exact ⟨(Grows.same ((fetch_mod _).trans (fetch_mod c))).trans g1, g2⟩

/-- At the end of the text only statements are added. -/
theorem run_eof (n : Nat) (c : Cfg) (hc : AtEof c) {k a} (h : run n c = .ok (some (k, a))) : Grows True c.ast a := by
  induction n generalizing c with
  | zero => cases h
  | succ n ih =>
    unfold run at h
    cases hs : step c with
    | error q => rw [hs] at h; cases h
    | ok x =>
      rw [hs] at h
      obtain ⟨g1, g2⟩ := step_eof hc hs
      cases x with
      | go d => exact g1.trans (ih d (g2 d rfl) h)
      | done k' b =>
        injection h with h; injection h with h; injection h with h1 h2
        subst h2
        exact g1

/-! ## Two texts that begin with the same tokens -/

/-- Two runs; the first text has exactly the tokens `l`, the second one begins with them. -/
structure Ahead (c c' : Cfg) : Prop where
  like : Like c c'
  code : c.ast.code ≠ []
  code' : c'.ast.code ≠ []
  toks : ∃ l l', Tokens c.lval l ∧ FirstTokens c'.lval l' ∧ kinds l = kinds l'
  stk : ∃ ts vs, Stk c.live ts vs
  look : ∀ t, c.look = some t → ∃ k, t = tokNum k

omit [Letters] in
theorem Like.mod {c c' : Cfg} (h : Like c c') : c.ast.mod = c'.ast.mod := by
  have := h.parts.1
  unfold eA at this
  injection this

omit [Letters] in
theorem perform_like {c c' : Cfg} (h : Like c c') (A : Act) : (perform c A).map eStep = (perform c' A).map eStep := by
  obtain ⟨q1, q2, q3, q4, q5⟩ := h.parts
  cases A with
  | shift r =>
    refine congrArg Except.ok (congrArg Step.go (like_of q1 q2 rfl ?_ ?_))
    · show (r, eS { token := c.lval }) :: eL c.live = (r, eS { token := c'.lval }) :: eL c'.live
      rw [q4]
      congr 2
      unfold eS
      rw [q2]
    · show c.stale.tail.map eS = c'.stale.tail.map eS
      rw [List.map_tail, List.map_tail, q5]
  | accept => exact congrArg Except.ok (congrArg (Step.done 0) q1)
  | error => exact syntaxError_like h
  | reduce p => exact reduce_like h p

omit [Letters] in
theorem perform_keep {c d : Cfg} {A : Act} (h : perform c A = .ok (.go d)) :
    d.lval = c.lval ∧ d.ast.code = c.ast.code ∧ (d.look = c.look ∨ d.look = none) := by
  cases A with
  | shift r => injection h with h; injection h with h; subst h; exact ⟨rfl, rfl, .inr rfl⟩
  | accept => injection h with h; cases h
  | error =>
    obtain ⟨h1, h2⟩ := syntaxError_keep h
    refine ⟨h1, h2, .inl ?_⟩
    change syntaxError c = _ at h
    unfold syntaxError at h
    obtain ⟨a, -, h4⟩ := bind_ok h
    split at h4
    · cases h4
    · injection h4 with h4; injection h4 with h4; subst h4; rfl
  | reduce p =>
    obtain ⟨h1, h2⟩ := reduce_keep h
    refine ⟨h1, h2, .inl ?_⟩
    change reduce c p = _ at h
    unfold reduce at h
    dsimp only at h
    split at h
    · cases h
    · obtain ⟨⟨v, a⟩, -, h4⟩ := bind_ok h
      injection h4 with h4; injection h4 with h4; subst h4; rfl

/-- Both runs perform the same. -/
theorem Ahead.perform {c c' : Cfg} (h : Ahead c c') {A : Act} {x x' : Step} (hx : LR.perform c A = .ok x) (hx' : LR.perform c' A = .ok x')
    (hs : ∀ d, x = .go d → ∃ ts vs, Stk d.live ts vs) :
    eStep x = eStep x' ∧ ∀ d d', x = .go d → x' = .go d' → Ahead d d' := by
  have e := perform_like h.like A
  rw [hx, hx'] at e
  injection e with e
  refine ⟨e, ?_⟩
  rintro d d' rfl rfl
  injection e with e
  obtain ⟨a1, a2, a3⟩ := perform_keep hx
  obtain ⟨b1, b2, -⟩ := perform_keep hx'
  refine ⟨e, a2 ▸ h.code, b2 ▸ h.code', ?_, hs d rfl, ?_⟩
  · rw [a1, b1]; exact h.toks
  · intro t ht
    rcases a3 with a3 | a3
    · exact h.look t (a3 ▸ ht)
    · rw [a3] at ht; cases ht

omit [Letters] in
/-- The stack stays a path of the automaton. -/
theorem perform_stk {c d : Cfg} {s v r t A} {ts : List Tree} {vs : List SV} (hst : Stk c.live ts vs) (hl : c.live = (s, v) :: r)
    (ht : t < nToks) (hA : A = action s t ∨ A = dflAct s t) (hk : c.look = some t → ∃ k, t = tokNum k)
    (hn : t ≠ 1 → c.look = some t) (hd : LR.perform c A = .ok (.go d)) : ∃ ts vs, Stk d.live ts vs := by
  rw [hl] at hst
  have hlt := hst.lt
  have hshift : (∃ s', A = .shift s' ∧ shiftL s t = some s') ∨ A = dflAct s t := by
    rcases hA with hA | hA
    · unfold action at hA
      split at hA
      · exact .inr hA
      · rw [shiftOf_eq hlt ht] at hA
        split at hA
        · rename_i s' hs'; exact .inl ⟨s', hA, hs'⟩
        · exact .inr hA
    · exact .inr hA
  rcases hshift with ⟨s', rfl, hs'⟩ | hA
  · have h1 : t ≠ 1 := by rintro rfl; rw [shiftL_end hlt] at hs'; cases hs'
    obtain ⟨k, rfl⟩ := hk (hn h1)
    injection hd with hd; injection hd with hd; subst hd
    refine ⟨ts ++ [.leaf k c.lval], vs ++ [{ token := c.lval }], ?_⟩
    show Stk ((s', _) :: c.live) _ _
    rw [hl]
    exact .push hst (trans_shift hlt hs')
  · cases A with
    | shift s' => exact absurd hA.symm (dflAct_shift hlt ht)
    | accept => injection hd with hd; cases hd
    | error =>
      change syntaxError c = _ at hd
      rw [syntaxError_eq (hl ▸ hst)] at hd
      obtain ⟨a, -, h2⟩ := bind_ok hd
      injection h2 with h2
      cases h2
    | reduce p =>
      have hp := dflAct_reduce hlt ht hA.symm
      obtain ⟨h0, hpn, -⟩ := reds_ok hlt hp
      obtain ⟨ts1, ts2, vs1, vs2, b, wb, l', g, rfl, rfl, e3, e4, e5, e6, e7, e8, e9⟩ := hst.popRed hp c.stale
      change reduce c p = _ at hd
      unfold reduce at hd
      rw [yyR2_eq h0 hpn, hl] at hd
      dsimp only at hd
      rw [e8] at hd
      dsimp only at hd
      rw [gotoOf_eq e5.lt hpn e6] at hd
      obtain ⟨⟨w, a⟩, -, h2⟩ := bind_ok hd
      injection h2 with h2
      injection h2 with h2
      refine ⟨ts1 ++ [.node p ts2], vs1 ++ [w], ?_⟩
      rw [← h2]; exact .push (T := .node p ts2) e5 (trans_goto hpn e6)

/-- Both runs read the same token, unless the first text is at its end. -/
theorem Ahead.fetch {c c' : Cfg} (h : Ahead c c') (hn : c.look = none → (lexNext c.lval).2 ≠ .ok none) :
    Ahead (Verif.fetch c).1 (Verif.fetch c').1 ∧ (Verif.fetch c').2 = (Verif.fetch c).2 ∧ (Verif.fetch c).1.look = some (Verif.fetch c).2 := by
  obtain ⟨p1, p2, p3, p4, p5⟩ := h.like.parts
  cases hl : c.look with
  | some t =>
    have hl' : c'.look = some t := p3 ▸ hl
    rw [fetch_look hl, fetch_look hl']
    exact ⟨h, rfl, hl⟩
  | none =>
    have hl' : c'.look = none := p3 ▸ hl
    rw [fetch_none hl, fetch_none hl', lexCall_eq h.code, lexCall_eq h.code']
    obtain ⟨l, l', t1, t2, hk⟩ := h.toks
    obtain ⟨q1, q2⟩ := eT_eq.1 p2
    cases t1 with
    | eof hx => exact absurd hx (hn hl)
    | @next _ t k l hx tx =>
      cases t2 with
      | nil _ => cases hk
      | @next _ t' k' l' hy ty =>
        injection hk with hk1 hk2
        injection hk1 with hk1 hk3
        dsimp only at hk1 hk3
        subst hk1
        have hv := lexNext_val hx hy hk3 q2
        rw [hx, hy]
        have he := eT_eq.2 ⟨hk3, hv⟩
        exact ⟨⟨like_of (eA_cur p1 he) he rfl p4 p5, h.code, h.code', ⟨l, l', tx, ty, hk2⟩, h.stk,
          fun t ht => by injection ht with ht; exact ⟨k, ht.symm⟩⟩, rfl, rfl⟩

/-- The module of the first text, and what it has in common with that of the second. -/
def Keeps (a b : Ast) : Prop :=
  a.mod.globals <+: b.mod.globals ∧ ∃ B is, a.mod.body = B ++ is ∧ (∀ i ∈ is, ∃ s, i = Item.stm s) ∧ B <+: b.mod.body

omit [Letters] in
theorem keeps_of {m a b x : Ast} (hm : m.mod = x.mod) (h : Grows True m a) (g : Grows False x b) : Keeps a b := by
  obtain ⟨g1, e1, s1⟩ := h.globals
  obtain ⟨g2, e2, -⟩ := g.globals
  obtain ⟨b1, f1, t1⟩ := h.body
  obtain ⟨b2, f2, -⟩ := g.body
  refine ⟨⟨g2, ?_⟩, m.mod.body, b1, f1, t1 trivial, ⟨b2, ?_⟩⟩
  · rw [e1, s1 trivial, List.append_nil, e2, hm]
  · rw [f2, hm]

/-- The same round in both runs. -/
theorem Ahead.round {c c' : Cfg} (h : Ahead c c') {A : Act} (hs : ∀ d, LR.perform c A = .ok (.go d) → ∃ ts vs, Stk d.live ts vs)
    {n m : Nat} {k k' : Nat} {a b : Ast}
    (hr : (LR.perform c A >>= fun x => match x with | .done k a => .ok (some (k, a)) | .go d => run n d) =
      (.ok (some (k, a)) : Except Panic (Option (Nat × Ast))))
    (hr' : (LR.perform c' A >>= fun x => match x with | .done k a => .ok (some (k, a)) | .go d => run m d) =
      (.ok (some (k', b)) : Except Panic (Option (Nat × Ast))))
    (ih : ∀ d d', Ahead d d' → run n d = .ok (some (k, a)) → run m d' = .ok (some (k', b)) → Keeps a b) : Keeps a b := by
  cases hx : LR.perform c A with
  | error q => rw [hx] at hr; cases hr
  | ok x =>
    cases hx' : LR.perform c' A with
    | error q => rw [hx'] at hr'; cases hr'
    | ok x' =>
      rw [hx] at hr
      rw [hx'] at hr'
      obtain ⟨e1, e2⟩ := h.perform hx hx' (fun d hd => hs d (hd ▸ hx))
      cases x with
      | go d =>
        cases x' with
        | go d' => exact ih d d' (e2 d d' rfl rfl) hr hr'
        | done _ _ => cases e1
      | done j a1 =>
        cases x' with
        | go d' => cases e1
        | done j' b1 =>
          injection hr with hr; injection hr with hr; injection hr with r1 r2
          injection hr' with hr'; injection hr' with hr'; injection hr' with r3 r4
          subst r2; subst r4
          injection e1 with _ e1
          have : a1.mod = b1.mod := by unfold eA at e1; injection e1
          exact keeps_of this (.same rfl) (.same rfl)

theorem Ahead.run (n m : Nat) {c c' : Cfg} (h : Ahead c c') {k k' : Nat} {a b : Ast} (hr : Verif.run n c = .ok (some (k, a)))
    (hr' : Verif.run m c' = .ok (some (k', b))) : Keeps a b := by
  induction n generalizing c c' m with
  | zero => cases hr
  | succ n ih =>
    cases m with
    | zero => cases hr'
    | succ m =>
      obtain ⟨ts, vs, hst⟩ := h.stk
      cases hl : c.live with
      | nil => exact absurd hl hst.ne_nil
      | cons y r =>
        obtain ⟨s, v⟩ := y
        have hlt : s < nStates := by rw [hl] at hst; exact hst.lt
        obtain ⟨p1, p2, p3, p4, p5⟩ := h.like.parts
        obtain ⟨v', r', hl'⟩ : ∃ v' r', c'.live = (s, v') :: r' := by
          rw [hl] at p4
          cases hl' : c'.live with
          | nil => rw [hl'] at p4; cases p4
          | cons y' r' =>
            rw [hl'] at p4
            obtain ⟨s', v'⟩ := y'
            injection p4 with p4 _
            injection p4 with p4 _
            dsimp only at p4
            subst p4
            exact ⟨v', r', rfl⟩
        by_cases hz : isLazy s = true
        · unfold Verif.run at hr hr'
          rw [step_lazy hl hz 0] at hr
          rw [step_lazy hl' hz 0] at hr'
          refine h.round ?_ hr hr' fun d d' hd => ih m hd
          intro d hd
          have hd' : LR.perform c (dflAct s 1) = .ok (.go d) := by
            rw [← step_lazy hl hz 1, step_lazy hl hz 0]; exact hd
          exact perform_stk (t := 1) hst hl (by decide) (.inr rfl) (h.look _) (fun h => absurd rfl h) hd'
        · have hz : isLazy s = false := Bool.not_eq_true _ ▸ hz
          by_cases he : c.look = none ∧ (lexNext c.lval).2 = .ok none
          · have hE : AtEof c := ⟨h.code, he.1, he.2, s, v, r, ts, vs, hl, hst, closing_lazy hlt hz⟩
            exact keeps_of h.like.mod (run_eof _ _ hE hr) (run_grows _ _ hr')
          · obtain ⟨f1, f2, f3⟩ := h.fetch fun h1 h2 => he ⟨h1, h2⟩
            have f3' : (Verif.fetch c').1.look = some (Verif.fetch c).2 := f1.like.parts.2.2.1 ▸ f3
            have hl1 : (Verif.fetch c).1.live = (s, v) :: r := (fetch_live c).trans hl
            have hst1 : Stk (Verif.fetch c).1.live ts vs := by rw [fetch_live]; exact hst
            have ht : (Verif.fetch c).2 < nToks := by obtain ⟨k, hk⟩ := f1.look _ f3; rw [hk]; exact (tokNum_lt k).1
            have key : ∀ {c : Cfg} {v r t}, c.live = (s, v) :: r → (Verif.fetch c).1.look = some (Verif.fetch c).2 → (Verif.fetch c).2 = t →
                step c = LR.perform (Verif.fetch c).1 (action s t) := by
              intro c v r t hl h1 h2
              subst h2
              rcases step_fetch hl hz with he | ⟨e1, -, he⟩
              · exact he
              · rw [he, fetch_look h1, action_none e1]
            unfold Verif.run at hr hr'
            rw [key hl f3 rfl] at hr
            rw [key hl' (by rw [f3', f2]) f2] at hr'
            refine f1.round ?_ hr hr' fun d d' hd => ih m hd
            intro d hd
            exact perform_stk (t := (Verif.fetch c).2) hst1 hl1 ht (.inl rfl) (f1.look _) (fun _ => f3) hd

end
end Verif.LR
