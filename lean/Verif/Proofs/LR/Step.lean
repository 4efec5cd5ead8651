import Verif.Proofs.LR.Inv
import Verif.Proofs.LR.Chain
/-!
# One step of the driver keeps the invariant
-/
namespace Verif.LR
open Tables Spec Lexer

/-! ## The map of local variables is never nil while there is no error -/

theorem appendVars_some {m : Option (List (List Char))} {l : List Tok} {r : AppendVars} (hm : m ≠ none)
    (h : appendVars m l = .ok r) : r.map ≠ none := by
  induction l generalizing m with
  | nil => unfold appendVars at h; injection h with h; subst h; exact hm
  | cons t ts ih =>
    unfold appendVars at h
    cases m with
    | none => exact absurd rfl hm
    | some ks =>
      dsimp only at h
      split at h
      · injection h with h; subst h; exact nofun
      · exact ih (m := some _) nofun h

/-- Values of `explicit_variables`. -/
def VarsSome (ok : Prop) (T : Tree) (_ : St) (v : SV) (_ : St) : Prop :=
  T.root = 124 → ok → v.explicit_variables ≠ none

theorem varsSome {ok : Prop} {ts σ vs σ'} (e : EvF ok ts σ vs σ') : Chain (VarsSome ok) ts σ vs σ' := by
  refine e.rule ?_ ?_
  · intro k t σ hr
    exact absurd hr (by show tokNum k ≠ 124; have := (tokNum_lt k).1; unfold nToks at this; omega)
  · rintro p kids σ ws σ1 v σ2 h0 hp hk hch ⟨junk, a, a', ha, -, -, he⟩ hr hok
    have hm := lhs_mem 124 [26, 27] (by decide +kernel) hp hr
    simp only [List.mem_cons, List.not_mem_nil, or_false] at hm
    rcases hm with rfl | rfl
    · unfold act at ha
      dsimp only at ha
      obtain ⟨r, h1, h2⟩ := bind_ok ha
      split at h2
      · rename_i n _
        obtain ⟨b, h3, h4⟩ := bind_ok h2
        injection h4 with h4; injection h4 with h4 h5
        subst h5
        exact absurd (he hok) (error_frame h3).2
      · injection h2 with h2; injection h2 with h2 h3
        subst h2
        exact appendVars_some (m := some []) nofun h1
    · have hk' : kids.map Tree.root = 124 :: (rhs 27).tail := hk
      obtain ⟨T, ts', w, ws', σ3, rfl, rfl, hT, -, hR, -⟩ := hch.uncons hk'
      have hw := hR hT hok
      unfold act at ha
      dsimp only at ha
      obtain ⟨r, h1, h2⟩ := bind_ok ha
      have := appendVars_some hw h1
      split at h2
      · obtain ⟨b, h3, h4⟩ := bind_ok h2
        injection h4 with h4; injection h4 with h4 h5
        subst h4
        exact this
      · injection h2 with h2; injection h2 with h2 h3
        subst h2
        exact this

theorem recover_none {live ts vs} (h : Stk live ts vs) : recover live = none := by
  induction h with
  | base v =>
    rw [recover, show yyErrCode.toNat = 2 from rfl, no_error_shift 0 (by decide)]
    rfl
  | push h ht ih =>
    rw [recover, show yyErrCode.toNat = 2 from rfl, no_error_shift _ (trans_ok h.lt ht).lt]
    exact ih

theorem syntaxError_eq {c : Cfg} {ts vs} (h : Stk c.live ts vs) :
    syntaxError c = (c.ast.error .syntaxError >>= fun a => .ok (.done 1 a)) := by
  unfold syntaxError; rw [recover_none h]

variable [Letters]

/-- What holds of the outcome of a step. -/
def Post (code : List Char) (σ0 : St) (c : Cfg) : Except Panic Step → Prop
  | .error q => q = .nilMap ∧ c.ast.err ≠ none
  | .ok (.go c') => (∃ ts', Inv code σ0 c' ts') ∧ measure c' < measure c ∧ (c.ast.err ≠ none → c'.ast.err ≠ none)
  | .ok (.done k a) => a.code = code ∧ (c.ast.err ≠ none → a.err ≠ none) ∧
    ((k = 1 ∧ a.err ≠ none) ∨
     (k = 0 ∧ (a.err = none → ∃ T v t u, Tree.root T = 134 ∧ EvF True [T] σ0 [v] (view a) ∧
       Lexed (startTok code) T.yield t ∧ AtEnd t u ∧ LRF 0 [T] 1 1)))

theorem shift_inv {code : List Char} {σ0 : St} {c : Cfg} {ts : List Tree} {s v r s' t}
    (h : Inv code σ0 c ts) (hl : c.live = (s, v) :: r) (hk : c.look = some t) (hs : shiftL s t = some s') :
    Post code σ0 c (perform c (.shift s')) := by
  obtain ⟨k, rfl, hk0, hk1⟩ := h.look t hk
  obtain ⟨vs, hst, hev⟩ := h.stk
  rw [hl] at hst
  have hlt := hst.lt
  refine ⟨⟨ts ++ [.leaf k c.lval], h.codeEq, h.suffix, ⟨vs ++ [{ token := c.lval }], ?_, ?_⟩, nofun, ?_, ?_, ?_⟩, ?_, id⟩
  · show Stk ((s', _) :: c.live) _ _
    rw [hl]
    exact .push hst (trans_shift hlt hs)
  · exact hev.append (.leaf k c.lval (.nil _))
  · intro _ he
    refine ⟨c.lval, ?_, .inl rfl⟩
    rw [yieldL_append, yieldL_single]
    exact hk1 he
  · intro he
    refine ⟨s', { token := c.lval }, c.live, rfl, fun la _ => ?_⟩
    obtain ⟨s1, v1, r1, hl1, hp⟩ := h.path he
    rw [hl] at hl1; injection hl1 with hl1 _; injection hl1 with hl1 _; subst hl1
    refine LRF.append (m := s) ?_ (.leaf k c.lval hs (.nil _ _))
    rw [nextTok_leaf]
    refine hp _ ?_
    obtain ⟨-, t1, h1, h2⟩ := (hk1 he).snoc_inv
    exact ⟨t1, h1, .inl ⟨_, _, h2, rfl⟩⟩
  · intro hcur
    have := (h.cur hcur).1
    rw [hk] at this; cases this
  · have hp := pot_le (trans_ok hlt (trans_shift hlt hs)).lt
    unfold measure
    show 15 * (c.lval.rest.length + (if (none : Option Nat).isSome then 1 else 0)) + 2 * (c.live.length + 1) + pot s' < _
    rw [hk, hl, if_neg (by decide), if_pos (by rfl)]
    dsimp only
    omega

theorem reduce_inv {code : List Char} {σ0 : St} {c : Cfg} {ts : List Tree} {s v r p}
    (h : Inv code σ0 c ts) (hl : c.live = (s, v) :: r) (hp : p ∈ reds s)
    (hcur : c.ast.cur = none → p = 1 ∧ ts = [])
    (hla : c.ast.err = none → ∀ la, Next code ts la → action s la = .reduce p) :
    Post code σ0 c (perform c (.reduce p)) := by
  obtain ⟨vs, hst, hev⟩ := h.stk
  rw [hl] at hst
  have hlt := hst.lt
  obtain ⟨h0, hpn, -⟩ := reds_ok hlt hp
  obtain ⟨ts1, ts2, vs1, vs2, b, wb, l', g, rfl, rfl, e3, e4, e5, e6, e7, e8, e9⟩ := hst.popRed hp c.stale
  have hb := e5.lt
  show Post code σ0 c (reduce c p)
  unfold reduce
  rw [yyR2_eq h0 hpn, hl]
  dsimp only
  rw [e8]
  dsimp only
  rw [gotoOf_eq hb hpn e6]
  obtain ⟨us, ws, σ1, hz, hev1, hev2⟩ := hev.split
  have hlen : us.length = vs1.length := by rw [hev1.length, e5.length]
  obtain ⟨rfl, rfl⟩ := List.append_inj hz hlen.symm
  cases hact : act p (fun i => (vs2 ++ c.stale).getD (i - 1) {}) ((vs2 ++ c.stale).headD {}) c.ast with
  | error q =>
    show q = .nilMap ∧ c.ast.err ≠ none
    rcases act_panic hact with ⟨-, h1, h2⟩ | ⟨h1, h2, h3⟩
    · exact absurd (hcur h1).1 h2
    · subst h2
      refine ⟨h1, fun he => ?_⟩
      have e3' : ts2.map Tree.root = 124 :: (rhs 27).tail := e3
      obtain ⟨T, ts', w, ws', σ3, rfl, rfl, hT, -, hR, -⟩ := (varsSome hev2).uncons e3'
      exact hR hT he h3
  | ok x =>
    obtain ⟨w, a'⟩ := x
    have hf := act_frame hact
    have hnew : EvF (a'.err = none) (ts1 ++ [.node p ts2]) σ0 (vs1 ++ [w]) (view a') := by
      have hm : a'.err = none → c.ast.err = none := by
        intro h1
        by_contra h2
        exact hf.err h2 h1
      exact (hev1.mono hm).append (.node p h0 hpn e3 (hev2.mono hm)
        ⟨c.stale, c.ast, a', hact, rfl, rfl, id⟩ (.nil _))
    have hy : yieldL (ts1 ++ [.node p ts2]) = yieldL (ts1 ++ ts2) := by
      rw [yieldL_append, yieldL_append, yieldL_single, Tree.yield]
    have hm : a'.err = none → c.ast.err = none := by
      intro h1
      by_contra h2
      exact hf.err h2 h1
    show (∃ ts', Inv code σ0 ⟨a', c.lval, c.look, (g, w) :: (b, wb) :: l', (vs2 ++ c.stale).tail⟩ ts') ∧
      measure ⟨a', c.lval, c.look, (g, w) :: (b, wb) :: l', (vs2 ++ c.stale).tail⟩ < measure c ∧
      (c.ast.err ≠ none → a'.err ≠ none)
    refine ⟨⟨ts1 ++ [.node p ts2], hf.code.trans h.codeEq, h.suffix, ⟨vs1 ++ [w], ?_, hnew⟩, ?_, ?_, ?_, ?_⟩, ?_, hf.err⟩
    · exact .push e5 (trans_goto hpn e6)
    · intro t ht
      obtain ⟨k, h1, h2, h3⟩ := h.look t ht
      refine ⟨k, h1, h2, fun he => ?_⟩
      rw [hy]
      exact h3 (hm he)
    · intro hk he
      rw [hy]
      exact h.nolook hk (hm he)
    · intro he
      refine ⟨g, w, _, rfl, fun la hn => ?_⟩
      have hn' : Next code (ts1 ++ ts2) la := by
        unfold Next at hn ⊢; rwa [hy] at hn
      obtain ⟨s1, v1, r1, hl1, hpath⟩ := h.path (hm he)
      rw [hl] at hl1; injection hl1 with hl1 _; injection hl1 with hl1 _; subst hl1
      exact (hpath la hn').reduce e5.follow h0 hpn e3 hp (hla (hm he) la hn') e6
    · intro hcn
      have hcn' : c.ast.cur = none := by rw [← hf.cur]; exact hcn
      obtain ⟨rfl, h2⟩ := hcur hcn'
      refine ⟨(h.cur hcn').1, .inr ⟨g, w, (b, wb) :: l', rfl, ?_⟩⟩
      have h3 : ts1 = [] := (List.append_eq_nil_iff.1 h2).1
      subst h3
      generalize he : (([] : List Tree)) = q at e5
      have hb0 : b = 0 := by
        generalize hlv : (b, wb) :: l' = lv at e5
        cases e5 with
        | base v => injection hlv with h1 _; injection h1
        | push _ _ => simp at he
      subst hb0
      have : gotoL 0 (lhs 1) = some 1 := by decide +kernel
      rw [this] at e6
      injection e6 with e6
      exact e6.symm
    · have hpot := pot_ok hb hpn e6 e7 hp
      unfold measure
      rw [hl]
      dsimp only
      rw [List.length_cons]
      omega

omit [Letters] in
theorem Stk.nil_state {s v r vs} (h : Stk ((s, v) :: r) [] vs) : s = 0 := by
  generalize he : (([] : List Tree)) = q at h
  generalize hlv : (s, v) :: r = lv at h
  cases h with
  | base v => injection hlv with h1 _; injection h1
  | push _ _ => simp at he

omit [Letters] in
theorem kern_one : kern 1 = [(0, 1)] := by decide +kernel

omit [Letters] in
/-- The stack in the accepting state. -/
theorem Stk.accept {v r ts vs} (h : Stk ((1, v) :: r) ts vs) : ∃ T, ts = [T] ∧ Tree.root T = 134 := by
  have hi : (0, 1) ∈ kern 1 := by rw [kern_one]; exact .head _
  obtain ⟨ts1, ts2, vs1, vs2, b, wb, l', e1, e2, e3, e4, e5, e6, e7, e8, e9⟩ := h.pop hi []
  have hr : (rhs 0).take 1 = [134] := by decide +kernel
  rw [hr] at e3
  have hb : b = 0 := by
    rcases e6 with e6 | e6
    · exfalso
      have : ∀ b, b < nStates → gotoL b (lhs 0) = none := by decide +kernel
      rw [this b e5.lt] at e6; cases e6
    · exact e6.2
  subst hb
  obtain ⟨-, rfl, -⟩ := e5.zero
  cases ts2 with
  | nil => cases e3
  | cons T ts2 =>
    rw [List.map_cons] at e3
    injection e3 with e3 e3'
    rw [List.map_eq_nil_iff] at e3'
    subst e3'
    exact ⟨T, by simpa using e1, e3⟩

omit [Letters] in
theorem dflAct_01 : dflAct 0 1 = .reduce 1 := by decide +kernel
omit [Letters] in
theorem dflAct_11 : dflAct 1 1 = .accept := by decide +kernel

theorem perform_inv {code : List Char} {σ0 : St} {c : Cfg} {ts : List Tree} {s v r t A}
    (h : Inv code σ0 c ts) (hl : c.live = (s, v) :: r) (ht : t < nToks) (hA : A = action s t ∨ A = dflAct s t)
    (hla : A = action s t ∨ (c.ast.err = none → A = action s t))
    (hk : c.look = some t ∨ (c.look = none ∧ t = 1 ∧
        (c.ast.err = none → ∃ t, Lexed (startTok code) (yieldL ts) t ∧ AtEnd t c.lval))) :
    Post code σ0 c (perform c A) := by
  obtain ⟨vs, hst, hev⟩ := h.stk
  rw [hl] at hst
  have hlt := hst.lt
  -- a shift needs a token
  have hshift : (∃ s', A = .shift s' ∧ shiftL s t = some s') ∨ A = dflAct s t := by
    rcases hA with hA | hA
    · unfold action at hA
      split at hA
      · exact .inr hA
      · rw [shiftOf_eq hlt ht] at hA
        split at hA
        · rename_i s' hs'; exact .inl ⟨s', hA, hs'⟩
        · exact .inr hA
    · exact .inr hA
  have hcur : c.ast.cur = none → t = 1 ∧ (s = 0 ∧ ts = [] ∨ s = 1) := by
    intro hc
    obtain ⟨h1, h2⟩ := h.cur hc
    refine ⟨?_, ?_⟩
    · rcases hk with hk | ⟨-, hk, -⟩
      · rw [h1] at hk; cases hk
      · exact hk
    · rcases h2 with h2 | ⟨s1, v1, l1, h2, h3⟩
      · subst h2
        exact .inl ⟨hst.nil_state, rfl⟩
      · rw [hl] at h2; injection h2 with h2 _; injection h2 with h2 _
        exact .inr (h2.trans h3)
  rcases hshift with ⟨s', rfl, hs'⟩ | hA
  · have hk' : c.look = some t := by
      rcases hk with hk | ⟨-, h1, -⟩
      · exact hk
      · subst h1; rw [shiftL_end hlt] at hs'; cases hs'
    exact shift_inv h hl hk' hs'
  · cases A with
    | shift s' => exact absurd hA.symm (dflAct_shift hlt ht)
    | reduce p =>
      refine reduce_inv h hl (dflAct_reduce hlt ht hA.symm) ?_ ?_
      case refine_2 =>
        intro he la hn
        rw [h.next_eq hk he hn]
        rcases hla with hla | hla
        · exact hla.symm
        · exact (hla he).symm
      intro hc
      obtain ⟨rfl, ⟨rfl, h2⟩ | rfl⟩ := hcur hc
      · rw [dflAct_01] at hA
        injection hA with hA
        exact ⟨hA, h2⟩
      · rw [dflAct_11] at hA; cases hA
    | accept =>
      obtain ⟨rfl, rfl⟩ := dflAct_accept hlt ht hA.symm
      clear hA
      refine ⟨h.codeEq, id, .inr ⟨rfl, fun he => ?_⟩⟩
      have he' : c.ast.err = none := he
      obtain ⟨T, rfl, hT⟩ := hst.accept
      have hend : ∃ t, Lexed (startTok code) (yieldL [T]) t ∧ AtEnd t c.lval := by
        rcases hk with hk | ⟨-, -, hk⟩
        · obtain ⟨k, h1, h2, -⟩ := h.look _ hk
          exact absurd h1.symm ((tokNum_lt k).2 h2)
        · exact hk he'
      obtain ⟨t, h1, h2⟩ := hend
      rw [yieldL_single] at h1
      have hlen := hev.length
      obtain ⟨w, rfl⟩ := List.length_eq_one_iff.1 (hlen.trans rfl)
      refine ⟨T, w, t, c.lval, hT, hev.mono (fun _ => he'), h1, h2, ?_⟩
      obtain ⟨s1, v1, r1, hl1, hpath⟩ := h.path he'
      rw [hl] at hl1; injection hl1 with hl1 _; injection hl1 with hl1 _; subst hl1
      exact hpath 1 ⟨t, by rw [yieldL_single]; exact h1, .inr ⟨h2.1, rfl⟩⟩
    | error =>
      show Post code σ0 c (syntaxError c)
      rw [syntaxError_eq (by rw [hl]; exact hst)]
      cases he : c.ast.error .syntaxError with
      | error q =>
        exfalso
        obtain ⟨-, hc⟩ := error_panic he
        obtain ⟨rfl, ⟨rfl, h2⟩ | rfl⟩ := hcur hc
        · rw [dflAct_01] at hA; cases hA
        · rw [dflAct_11] at hA; cases hA
      | ok a =>
        obtain ⟨hf, h1⟩ := error_frame he
        exact ⟨hf.code.trans h.codeEq, fun _ => h1, .inl ⟨rfl, h1⟩⟩

omit [Letters] in
theorem Stk.ne_nil {live ts vs} (h : Stk live ts vs) : live ≠ [] := by cases h <;> exact nofun

omit [Letters] in
theorem isLazy_ne {s : Nat} (h : isLazy s = true) : s ≠ 0 ∧ s ≠ 1 := by
  have h0 : isLazy 0 = false := by decide +kernel
  have h1 : isLazy 1 = false := by decide +kernel
  constructor <;> (rintro rfl; simp_all)

theorem Post.weaken {code : List Char} {σ0 : St} {c c' : Cfg} {x} (hm : measure c' ≤ measure c)
    (he : c.ast.err ≠ none → c'.ast.err ≠ none) (hq : ∀ q, x ≠ .error q)
    (h : Post code σ0 c' x) : Post code σ0 c x := by
  match x, h with
  | .error q, h => exact absurd rfl (hq q)
  | .ok (.go c''), h => exact ⟨h.1, Nat.lt_of_lt_of_le h.2.1 hm, fun x => h.2.2 (he x)⟩
  | .ok (.done k a), h => exact ⟨h.1, fun x => h.2.1 (he x), h.2.2⟩

omit [Letters] in
theorem lazy_27 {s : Nat} (hs : s < nStates) (h : 27 ∈ reds s) : isLazy s = true := by
  have : ∀ s, s < nStates → 27 ∈ reds s → isLazy s = true := by decide +kernel
  exact this s hs h

/-- Without a lazy state no step panics. -/
theorem perform_no_panic {code : List Char} {σ0 : St} {c : Cfg} {ts : List Tree} {s v r t A}
    (h : Inv code σ0 c ts) (hl : c.live = (s, v) :: r) (ht : t < nToks) (hA : A = action s t ∨ A = dflAct s t)
    (hz : isLazy s ≠ true) (hp : Post code σ0 c (perform c A)) (q : Panic) : perform c A ≠ .error q := by
  intro hx
  have hp' := hp
  rw [hx] at hp'
  obtain ⟨vs, hst, hev⟩ := h.stk
  rw [hl] at hst
  have hlt := hst.lt
  have hd : ∀ p, A = .reduce p → p ∈ reds s := by
    intro p he
    rcases hA with hA | hA
    · rw [he] at hA
      unfold action at hA
      split at hA
      · exact dflAct_reduce hlt ht hA.symm
      · split at hA
        · cases hA
        · exact dflAct_reduce hlt ht hA.symm
    · exact dflAct_reduce hlt ht (hA.symm.trans he)
  cases A with
  | shift => cases hx
  | accept => cases hx
  | error =>
    change syntaxError c = _ at hx
    rw [syntaxError_eq (by rw [hl]; exact hst)] at hx
    rcases bind_error hx with h1 | ⟨b, _, h2⟩
    · have := (error_panic h1).1
      rw [hp'.1] at this; cases this
    · cases h2
  | reduce p =>
    have hr := hd p rfl
    change reduce c p = _ at hx
    unfold reduce at hx
    dsimp only at hx
    split at hx
    · cases hx
    · rcases bind_error hx with h1 | ⟨b, _, h2⟩
      · rcases act_panic h1 with ⟨h2, -⟩ | ⟨-, h2, -⟩
        · rw [hp'.1] at h2; cases h2
        · subst h2
          exact hz (lazy_27 hlt hr)
      · cases h2

omit [Letters] in
theorem action_lazy {s : Nat} (h : isLazy s = true) (t : Nat) : action s t = dflAct s 0 := by
  unfold isLazy at h
  simp only [Bool.and_eq_true, decide_eq_true_eq] at h
  unfold action
  rw [if_pos h.1, dflAct_indep h.2]

omit [Letters] in
theorem action_none {s t : Nat} (h : shiftOf s t = none) : action s t = dflAct s t := by
  unfold action
  split
  · rfl
  · rw [h]

/-- A second reading of the lookahead gives the same token. -/
theorem fetch_same {code : List Char} {σ0 : St} {c : Cfg} {ts : List Tree} (hc : code ≠ []) (h : Inv code σ0 c ts)
    (he : (fetch (fetch c).1).1.ast.err = none) : (fetch (fetch c).1).2 = (fetch c).2 := by
  obtain ⟨f1, f2, -, f4, f5, f6, f7⟩ := h.fetch hc
  obtain ⟨g1, g2, -, g4, g5, g6, g7⟩ := f1.fetch hc
  have he1 : (fetch c).1.ast.err = none := by
    by_contra h1
    exact g6 h1 he
  rcases f7 with hk | ⟨hk, h1, h2⟩
  · rw [fetch_look hk]
  · obtain ⟨t, h3, h4⟩ := h2 he1
    have hn : Next code ts 1 := ⟨t, h3, .inr ⟨h4.1, rfl⟩⟩
    rw [h1]
    exact (g1.next_eq g7 he hn).symm

theorem step_inv {code : List Char} {σ0 : St} {c : Cfg} {ts : List Tree} (hc : code ≠ []) (h : Inv code σ0 c ts) :
    Post code σ0 c (step c) := by
  obtain ⟨vs, hst, hev⟩ := h.stk
  cases hl : c.live with
  | nil => exact absurd hl hst.ne_nil
  | cons x r =>
    obtain ⟨s, v⟩ := x
    rw [hl] at hst
    have hlt := hst.lt
    by_cases hz : isLazy s = true
    · rw [step_lazy hl hz 0]
      obtain ⟨n0, n1⟩ := isLazy_ne hz
      have hcur : c.ast.cur ≠ none := by
        intro hcn
        rcases (h.cur hcn).2 with rfl | ⟨s1, v1, l1, h2, h3⟩
        · exact n0 hst.nil_state
        · rw [hl] at h2; injection h2 with h2 _; injection h2 with h2 _
          exact n1 (h2.trans h3)
      cases hA : dflAct s 0 with
      | shift s' => exact absurd hA (dflAct_shift hlt (by decide))
      | reduce p =>
        exact reduce_inv h hl (dflAct_reduce hlt (by decide) hA) (fun hc => absurd hc hcur)
          (fun _ la _ => by rw [action_lazy hz, ← hA])
      | accept => exact absurd (dflAct_accept hlt (by decide) hA).1 n1
      | error =>
        show Post code σ0 c (syntaxError c)
        rw [syntaxError_eq (by rw [hl]; exact hst)]
        cases he : c.ast.error .syntaxError with
        | error q => exact absurd (error_panic he).2 hcur
        | ok a =>
          obtain ⟨hf, h1⟩ := error_frame he
          exact ⟨hf.code.trans h.codeEq, fun _ => h1, .inl ⟨rfl, h1⟩⟩
    · obtain ⟨f1, f2, -, f4, f5, f6, f7⟩ := h.fetch hc
      rcases step_fetch hl (Bool.not_eq_true _ ▸ hz) with he | ⟨hsh, -, he⟩
      · rw [he]
        have hp := perform_inv f1 (f2.trans hl) f4 (.inl rfl) (.inl rfl) f7
        exact hp.weaken f5 f6 (perform_no_panic f1 (f2.trans hl) f4 (.inl rfl) hz hp)
      · rw [he]
        obtain ⟨g1, g2, -, g4, g5, g6, g7⟩ := f1.fetch hc
        have hp := perform_inv g1 (g2.trans (f2.trans hl)) g4 (.inr rfl)
          (.inr fun he => by rw [fetch_same hc h he, action_none hsh]) g7
        exact hp.weaken (g5.trans f5) (fun x => g6 (f6 x))
          (perform_no_panic g1 (g2.trans (f2.trans hl)) g4 (.inr rfl) hz hp)

/-- What holds of the outcome of the driver loop. -/
def Final (code : List Char) (σ0 : St) : Except Panic (Option (Nat × Ast)) → Prop
  | .error q => q = .nilMap
  | .ok none => False
  | .ok (some (k, a)) => a.code = code ∧ ((k = 1 ∧ a.err ≠ none) ∨
     (k = 0 ∧ (a.err = none → ∃ T v t u, Tree.root T = 134 ∧ EvF True [T] σ0 [v] (view a) ∧
       Lexed (startTok code) T.yield t ∧ AtEnd t u ∧ LRF 0 [T] 1 1)))

theorem run_final {code : List Char} {σ0 : St} (hc : code ≠ []) (n : Nat) (c : Cfg) (ts : List Tree)
    (h : Inv code σ0 c ts) (hn : measure c < n) : Final code σ0 (run n c) := by
  induction n generalizing c ts with
  | zero => omega
  | succ n ih =>
    have hp := step_inv hc h
    unfold run
    cases hs : step c with
    | error q => rw [hs] at hp; exact hp.1
    | ok x =>
      rw [hs] at hp
      cases x with
      | go c' =>
        obtain ⟨⟨ts', h1⟩, h2, -⟩ := hp
        exact ih c' ts' h1 (by omega)
      | done k a => exact ⟨hp.1, hp.2.2⟩

/-- An error stays. -/
theorem run_err {code : List Char} {σ0 : St} (hc : code ≠ []) (n : Nat) (c : Cfg) (ts : List Tree)
    (h : Inv code σ0 c ts) (he : c.ast.err ≠ none) {k a} (hr : run n c = .ok (some (k, a))) : a.err ≠ none := by
  induction n generalizing c ts with
  | zero => cases hr
  | succ n ih =>
    have hp := step_inv hc h
    unfold run at hr
    cases hs : step c with
    | error q => rw [hs] at hr; cases hr
    | ok x =>
      rw [hs] at hp hr
      cases x with
      | go c' =>
        obtain ⟨⟨ts', h1⟩, -, h3⟩ := hp
        exact ih c' ts' h1 (h3 he) hr
      | done k a =>
        injection hr with hr; injection hr with hr; injection hr with hr1 hr2
        subst hr2
        exact hp.2.1 he

theorem inv_init {a : Ast} (σ0 : St) (hσ : view a = σ0) : Inv a.code σ0 (initCfg a) [] := by
  subst hσ
  exact ⟨rfl, List.suffix_refl _, ⟨[], .base _, .nil _⟩, nofun, fun _ _ => ⟨_, .nil _, .inl rfl⟩,
    fun _ => ⟨_, _, _, rfl, fun _ _ => .nil _ _⟩, fun _ => ⟨rfl, .inl rfl⟩⟩

omit [Letters] in
theorem measure_init (a : Ast) : measure (initCfg a) < fuel a.code.length := by
  have : pot 0 ≤ 12 := pot_le (by decide)
  show 15 * (a.code.length + 0) + 2 * 1 + pot 0 < 15 * a.code.length + 16
  omega

theorem parse_final (a : Ast) (hc : a.code ≠ []) :
    Final a.code (view a) (run (fuel a.code.length) (initCfg a)) :=
  run_final hc _ _ _ (inv_init _ rfl) (measure_init a)

end Verif.LR
