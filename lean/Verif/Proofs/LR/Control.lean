import Verif.Proofs.LR.Viable
import Verif.Proofs.LR.Sim
import Verif.Proofs.LR.Says
/-!
# What the driver does, whatever the actions do

Actions may record errors but do not change how the driver goes on.
-/
namespace Verif.LR
open Tables Spec Lexer
variable [Letters]

/-- The tokeniser in state `t` gives the tokens `l`, and if `fin` then end-of-file. -/
inductive Src (fin : Bool) : Tok → List (Nat × Tok) → Prop
  | eof {t : Tok} : (fin = true → (lexNext t).2 = .ok none) → Src fin t []
  | next {t t' : Tok} {k : Nat} {l : List (Nat × Tok)} : lexNext t = (t', .ok (some k)) → Src fin t' l → Src fin t ((k, t') :: l)

theorem Src.ofTokens {t l} (h : Tokens t l) : Src true t l := by
  induction h with
  | eof h => exact .eof fun _ => h
  | next h _ ih => exact .next h ih

theorem Src.ne_zero {fin t l} (h : Src fin t l) : ∀ x ∈ l, x.1 ≠ 0 := by
  induction h with
  | eof => exact nofun
  | next h _ ih =>
    intro x hx
    rcases List.mem_cons.1 hx with rfl | hx
    · exact lexNext_kind_ne_zero h
    · exact ih x hx

/-- The forest `ts` has been read and the tokens `l` follow. -/
structure Ctl (code : List Char) (fin : Bool) (c : Cfg) (ts : List Tree) (l : List (Nat × Tok)) : Prop where
  codeEq : c.ast.code = code
  text : code ≠ []
  toks : (c.look = none ∧ Src fin c.lval l ∧ (∀ x, (yieldL ts).getLast? = some x → c.ast.cur = some x.2)) ∨
    ∃ k l', c.look = some (tokNum k) ∧ l = (k, c.lval) :: l' ∧ Src fin c.lval l' ∧ k ≠ 0 ∧ c.ast.cur = some c.lval
  stk : ∃ vs, Stk c.live ts vs
  path : ∃ s v r, c.live = (s, v) :: r ∧ ∀ la, (la = headTok l ∨ (l = [] ∧ fin = false)) → LRF 0 ts la s

theorem Ctl.ne_zero {code fin c ts l} (h : Ctl code fin c ts l) : ∀ x ∈ l, x.1 ≠ 0 := by
  rcases h.toks with ⟨-, h, -⟩ | ⟨k, l', -, rfl, h, hk, -⟩
  · exact h.ne_zero
  · intro x hx
    rcases List.mem_cons.1 hx with rfl | hx
    · exact hk
    · exact h.ne_zero x hx

theorem Ctl.fetch {code fin c ts l} (h : Ctl code fin c ts l) (hn : l ≠ [] ∨ fin = true) :
    Ctl code fin (fetch c).1 ts l ∧ (fetch c).1.live = c.live ∧ (fetch c).1.ast.err = c.ast.err ∧ (fetch c).2 = headTok l ∧
      (l ≠ [] → (fetch c).1.look ≠ none) := by
  have hcode : c.ast.code ≠ [] := by rw [h.codeEq]; exact h.text
  rcases h.toks with ⟨hk, ht, hcur⟩ | ⟨k, l', hk, rfl, ht, h0, hcur⟩
  · rw [fetch_none hk, lexCall_eq hcode]
    cases ht with
    | eof hx =>
      have hx := hx (hn.resolve_left (fun h => h rfl))
      rcases hl : lexNext c.lval with ⟨t', e | (_ | k)⟩
      · rw [hl] at hx; cases hx
      · have := lexNext_end hx
        rw [hl] at this
        exact ⟨⟨h.codeEq, h.text, .inl ⟨hk, .eof fun _ => this, hcur⟩, h.stk, h.path⟩, rfl, rfl, rfl, fun h => absurd rfl h⟩
      · rw [hl] at hx; cases hx
    | next hx ht =>
      rw [hx]
      exact ⟨⟨h.codeEq, h.text, .inr ⟨_, _, rfl, rfl, ht, lexNext_kind_ne_zero hx, rfl⟩, h.stk, h.path⟩, rfl, rfl, rfl, fun _ => nofun⟩
  · rw [fetch_look hk]
    exact ⟨h, rfl, rfl, rfl, fun _ => by rw [hk]; exact nofun⟩

theorem Ctl.step {code fin c ts l} (h : Ctl code fin c ts l) (hn : l ≠ [] ∨ fin = true) {s v r} (hl : c.live = (s, v) :: r) :
    ∃ c', Ctl code fin c' ts l ∧ c'.live = c.live ∧ c'.ast.err = c.ast.err ∧ step c = perform c' (action s (headTok l)) ∧
      (isLazy s = true ∨ (l ≠ [] → c'.look ≠ none)) := by
  by_cases hz : isLazy s = true
  · exact ⟨c, h, rfl, rfl, by rw [step_lazy hl hz 0, action_lazy hz], .inl hz⟩
  · obtain ⟨f1, f2, f2', f3, f4⟩ := h.fetch hn
    rcases step_fetch hl (Bool.not_eq_true _ ▸ hz) with he | ⟨hsh, -, he⟩
    · exact ⟨_, f1, f2, f2', by rw [he, f3], .inr f4⟩
    · obtain ⟨g1, g2, g2', g3, g4⟩ := f1.fetch hn
      refine ⟨_, g1, g2.trans f2, g2'.trans f2', ?_, .inr g4⟩
      rw [he, g3, action_none]
      rw [← f3]; exact hsh

omit [Letters] in
theorem lazy_error {s : Nat} (hs : s < nStates) (h : isLazy s = true) : dflAct s 0 ≠ .error := by
  have : ∀ s, s < nStates → isLazy s = true → dflAct s 0 ≠ .error := by decide +kernel
  exact this s hs h

omit [Letters] in
/-- On the way to a text that the automaton accepts there is no error. -/
theorem no_error {ts : List Tree} {s : Nat} {l m : List (Nat × Tok)} (h : LRF 0 ts (headTok l) s) {T : Tree} (hT : LRF 0 [T] 1 1)
    (hy : T.yield = yieldL ts ++ (l ++ m)) (hm : l = [] → m = []) : action s (headTok l) ≠ .error := by
  intro ha
  have hn : mnext 1 (l ++ m) = headTok l := by
    cases l with
    | nil => rw [hm rfl]; rfl
    | cons x l => rfl
  obtain ⟨n, es, q1, q2, q3⟩ := h.msteps 0 1 [] (l ++ m) (by decide) rfl hn
  obtain ⟨n', es', r1, r2, r3⟩ := hT.msteps 0 1 [] [] (by decide) rfl rfl
  rw [List.append_nil, yieldL_single, hy, List.append_nil] at r1
  rw [List.append_nil] at q1 q3 r3
  have h1 : mstep 0 1 (es, l ++ m) = none := by
    unfold mstep
    dsimp only
    rw [q3, hn, ha]
  have h2 : mstep 0 1 (es', []) = none := by
    unfold mstep
    dsimp only [mnext]
    rw [r3, action_11]
  have := msteps_halt q1 r1 h1 h2
  injection this with e1 e2
  have hl : l = [] := (List.append_eq_nil_iff.1 e2).1
  subst hl
  rw [e1, r3] at q3
  subst q3
  rw [show headTok [] = 1 from rfl, action_11] at ha
  cases ha

/-- The error of the parser at token `t`. -/
def synErr (code : List Char) (t : Tok) : Err :=
  .at .syntaxError (getPosition code t.rest).1 ((getPosition code t.rest).2 - (t.literal.length + 1)) t.literal

/-- What can happen in a step. -/
inductive Res (code : List Char) (fin : Bool) (c : Cfg) (ts : List Tree) (l : List (Nat × Tok)) : Except Panic Step → Prop
  | panic (q : Panic) : Res code fin c ts l (.error q)
  | reduce {c' : Cfg} {ts' : List Tree} : Ctl code fin c' ts' l → yieldL ts' = yieldL ts → NoSyn c.ast c'.ast → Res code fin c ts l (.ok (.go c'))
  | shift {c' : Cfg} {k t l' s'} : l = (k, t) :: l' → Ctl code fin c' (ts ++ [.leaf k t]) l' →
      (∀ la, LRF 0 (ts ++ [.leaf k t]) la s') → s' ≠ 0 → NoSyn c.ast c'.ast → Res code fin c ts l (.ok (.go c'))
  | accept {T : Tree} {a : Ast} : l = [] → ts = [T] → LRF 0 [T] 1 1 → a.err = c.ast.err → Res code fin c ts l (.ok (.done 0 a))
  | error {a : Ast} {x : Nat × Tok} : (∀ T m, LRF 0 [T] 1 1 → T.yield = yieldL ts ++ (l ++ m) → l = [] → m ≠ []) →
      (∀ T m y l', l = y :: l' → LRF 0 [T] 1 1 → T.yield ≠ yieldL ts ++ (y :: m)) →
      l.head?.or (yieldL ts).getLast? = some x → a.err = some (synErr code x.2) →
      Res code fin c ts l (.ok (.done 1 a))

omit [Letters] in
theorem emptyTree : LRF 0 [.node 1 []] 1 1 := lrfB_ok (n := 12) (by decide +kernel)

theorem Ctl.res {code fin c ts l} (h : Ctl code fin c ts l) (hn : l ≠ [] ∨ fin = true) : Res code fin c ts l (Verif.step c) := by
  obtain ⟨s, v, r, hl, -⟩ := h.path
  obtain ⟨c1, h1, h2, h3, h4, h5⟩ := h.step hn hl
  rw [h4]
  have hl1 := h2.trans hl
  obtain ⟨vs, hst⟩ := h1.stk
  have hlt := (hl1 ▸ hst).lt
  have hpath : LRF 0 ts (headTok l) s := by
    obtain ⟨s', v', r', e1, e2⟩ := h1.path
    rw [hl1] at e1; injection e1 with e1 _; injection e1 with e1 _; subst e1
    exact e2 _ (.inl rfl)
  have htok : headTok l < nToks := by
    cases l with
    | nil => decide
    | cons x l => exact (tokNum_lt x.1).1
  have hns : ∀ c', perform c1 (action s (headTok l)) = .ok (.go c') → NoSyn c.ast c'.ast := by
    intro c' hx l cc lit h6
    rw [← h3]
    exact perform_noSyn hst hx l cc lit h6
  have hlazy : (∀ p, action s (headTok l) ≠ .reduce p) → l ≠ [] → c1.look ≠ none := by
    intro hp
    rcases h5 with h5 | h5
    · exfalso
      rw [action_lazy h5] at hp
      cases hd : dflAct s 0 with
      | shift s' => exact dflAct_shift hlt (by decide) hd
      | reduce p => exact hp p hd
      | accept => exact (isLazy_ne h5).2 (dflAct_accept hlt (by decide) hd).1
      | error => exact lazy_error hlt h5 hd
    · exact h5
  have hcase : (∃ s', action s (headTok l) = .shift s' ∧ shiftL s (headTok l) = some s') ∨ action s (headTok l) = dflAct s (headTok l) := by
    unfold action
    split
    · exact .inr rfl
    · rw [shiftOf_eq hlt htok]
      split
      · rename_i s' hs'; exact .inl ⟨s', rfl, hs'⟩
      · exact .inr rfl
  rcases hcase with ⟨s', ha, hs⟩ | hd
  · have hlook := hlazy (by rw [ha]; exact nofun)
    rw [ha]
    cases l with
    | nil => rw [show headTok [] = 1 from rfl, shiftL_end hlt] at hs; cases hs
    | cons x l' =>
      rcases h1.toks with ⟨h6, -⟩ | ⟨k, l'', h6, h7, h8, h9, h10⟩
      · exact absurd h6 (hlook nofun)
      · injection h7 with h7 h7'
        subst h7; subst h7'
        have hp : ∀ la, LRF 0 (ts ++ [.leaf k c1.lval]) la s' := by
          intro la
          exact LRF.append (m := s) (by rw [nextTok_leaf]; exact hpath) (.leaf k _ hs (.nil _ _))
        refine .shift rfl ⟨h1.codeEq, h1.text, .inl ⟨rfl, h8, ?_⟩, ?_, s', _, _, rfl, fun la _ => hp la⟩ hp (trans_ok hlt (trans_shift hlt hs)).ne0 (hns _ (by rw [ha]; rfl))
        · intro y hy
          rw [yieldL_append, yieldL_single, Tree.yield, List.getLast?_append] at hy
          simp only [List.getLast?_singleton, Option.some_or] at hy
          injection hy with hy
          subst hy
          exact h10
        · refine ⟨vs ++ [{ token := c1.lval }], ?_⟩
          show Stk ((s', _) :: c1.live) _ _
          rw [hl1] at hst ⊢
          exact .push hst (trans_shift hlt hs)
  · cases hA : action s (headTok l) with
    | shift s' => rw [hA] at hd; exact absurd hd.symm (dflAct_shift hlt htok)
    | reduce p =>
      rw [hA] at hd
      have hp := dflAct_reduce hlt htok hd.symm
      obtain ⟨h0, hpn, -⟩ := reds_ok hlt hp
      rw [hl1] at hst
      obtain ⟨ts1, ts2, vs1, vs2, b, wb, l', g, rfl, rfl, e3, e4, e5, e6, e7, e8, e9⟩ := hst.popRed hp c1.stale
      have hb := e5.lt
      rw [hA] at hns
      revert hns
      show (∀ c', reduce c1 p = _ → _) → Res code fin c (ts1 ++ ts2) l (reduce c1 p)
      unfold Verif.reduce
      rw [yyR2_eq h0 hpn, hl1]
      dsimp only
      rw [e8]
      dsimp only
      rw [gotoOf_eq hb hpn e6]
      cases hact : act p (fun i => (vs2 ++ c1.stale).getD (i - 1) {}) ((vs2 ++ c1.stale).headD {}) c1.ast with
      | error q => exact fun _ => .panic q
      | ok x =>
        obtain ⟨w, a'⟩ := x
        intro hns
        have hf := act_frame hact
        have hy : yieldL (ts1 ++ [.node p ts2]) = yieldL (ts1 ++ ts2) := by
          rw [yieldL_append, yieldL_append, yieldL_single, Tree.yield]
        have hstk : Stk ((g, w) :: (b, wb) :: l') (ts1 ++ [.node p ts2]) (vs1 ++ [w]) := .push e5 (trans_goto hpn e6)
        refine .reduce (ts' := ts1 ++ [Tree.node p ts2]) ⟨hf.code.trans h1.codeEq, h1.text, ?_, ⟨_, hstk⟩, g, w, _, rfl, ?_⟩ hy
          (hns _ rfl)
        · rw [hy]
          show (c1.look = none ∧ Src fin c1.lval l ∧ (∀ x, _ → a'.cur = _)) ∨ ∃ k l', c1.look = _ ∧ l = (k, c1.lval) :: l' ∧ Src fin c1.lval l' ∧ k ≠ 0 ∧ a'.cur = _
          rw [hf.cur]
          exact h1.toks
        · intro la hla
          rcases hla with rfl | ⟨h6, h7⟩
          · exact hpath.reduce e5.follow h0 hpn e3 hp hA e6
          · rcases hn with hn | hn
            · exact absurd h6 hn
            · rw [h7] at hn; cases hn
    | accept =>
      rw [hA] at hd
      obtain ⟨rfl, h6⟩ := dflAct_accept hlt htok hd.symm
      cases l with
      | cons x l' => exact absurd h6 ((tokNum_lt x.1).2 (h1.ne_zero x (.head _)))
      | nil =>
        rw [hl1] at hst
        obtain ⟨T, rfl, -⟩ := hst.accept
        exact .accept rfl rfl hpath h3
    | error =>
      have hlook := hlazy (by rw [hA]; exact nofun)
      have hno : ∀ T m, LRF 0 [T] 1 1 → T.yield = yieldL ts ++ (l ++ m) → l = [] → m ≠ [] := by
        intro T m hT hy hl0 hm
        exact no_error hpath hT hy (fun _ => hm) hA
      have hno' : ∀ T m y l', l = y :: l' → LRF 0 [T] 1 1 → T.yield ≠ yieldL ts ++ (y :: m) := by
        intro T m y l' hl0 hT hy
        subst hl0
        exact no_error (l := [y]) hpath hT hy nofun hA
      have hcur : ∃ x : Nat × Tok, l.head?.or (yieldL ts).getLast? = some x ∧ c1.ast.cur = some x.2 := by
        rcases h1.toks with ⟨h6, h7, h8⟩ | ⟨k, l'', h6, h7, h8, h9, h10⟩
        · cases l with
          | cons x l' => exact absurd h6 (hlook nofun)
          | nil =>
            cases hg : (yieldL ts).getLast? with
            | some x => exact ⟨x, rfl, h8 x hg⟩
            | none =>
              exfalso
              rw [List.getLast?_eq_none_iff] at hg
              exact hno _ [] emptyTree (by rw [hg]; rfl) rfl rfl
        · subst h7; exact ⟨_, rfl, h10⟩
      obtain ⟨x, hx, hcur⟩ := hcur
      show Res code fin c ts l (syntaxError c1)
      rw [syntaxError_eq hst]
      unfold Ast.error
      rw [hcur, h1.codeEq]
      exact .error hno hno' hx rfl

end Verif.LR
