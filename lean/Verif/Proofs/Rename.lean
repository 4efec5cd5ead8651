import Verif.Proofs.LR.Rename
import Verif.Spec.Program
/-!
# The driver on texts that differ by a renaming
-/
namespace Verif.LR
open Tables Spec Lexer

variable {ρ : Renaming}

/-- Any name, any constant. -/
abbrev anyN : Terminal → Name → Prop := fun _ _ => True
abbrev anyV : Val → Prop := fun _ => True
abbrev goodL : Nat → Tok → Prop := fun k t => Good (k, t)

theorem sources_any : Sources goodL anyN anyV where
  name := fun _ _ _ _ => trivial
  value := by
    intro a ha t h
    refine ⟨?_, trivial⟩
    simp only [List.mem_cons, List.not_mem_nil, or_false] at ha
    rcases ha with rfl | rfl | rfl | rfl | rfl
    · obtain ⟨v, hv⟩ := h.num rfl; dsimp only at hv; rw [hv]; nofun
    · obtain ⟨v, hv⟩ := h.str rfl; dsimp only at hv; rw [hv]; nofun
    · obtain ⟨v, hv⟩ := h.date rfl; dsimp only at hv; rw [hv]; nofun
    · have hv := h.tru rfl; dsimp only at hv; rw [hv]; nofun
    · have hv := h.fls rfl; dsimp only at hv; rw [hv]; nofun
  negate := fun _ _ => trivial
  not := fun _ _ => trivial

/-- Three lists side by side. -/
inductive All3 (R : Tree → SV → SV → Prop) : List Tree → List SV → List SV → Prop
  | nil : All3 R [] [] []
  | cons {T v v' ts vs vs'} : R T v v' → All3 R ts vs vs' → All3 R (T :: ts) (v :: vs) (v' :: vs')

theorem All3.snoc {R : Tree → SV → SV → Prop} {ts vs vs' T v v'} (h : All3 R ts vs vs') (h1 : R T v v') :
    All3 R (ts ++ [T]) (vs ++ [v]) (vs' ++ [v']) := by
  induction h with
  | nil => exact .cons h1 .nil
  | cons h2 _ ih => exact .cons h2 ih

theorem All3.split {R : Tree → SV → SV → Prop} {ts1 ts2 vs1 vs2 vs1' vs2'} (h1 : vs1.length = ts1.length)
    (h2 : vs1'.length = ts1.length) (h : All3 R (ts1 ++ ts2) (vs1 ++ vs2) (vs1' ++ vs2')) :
    All3 R ts1 vs1 vs1' ∧ All3 R ts2 vs2 vs2' := by
  induction ts1 generalizing vs1 vs1' with
  | nil =>
    rw [List.length_eq_zero_iff.1 h1, List.length_eq_zero_iff.1 h2] at *
    exact ⟨.nil, h⟩
  | cons T ts1 ih =>
    cases vs1 with
    | nil => cases h1
    | cons v vs1 =>
      cases vs1' with
      | nil => cases h2
      | cons v' vs1' =>
        cases h with
        | cons h3 h4 =>
          obtain ⟨h5, h6⟩ := ih (by simpa using h1) (by simpa using h2) h4
          exact ⟨.cons h3 h5, h6⟩

theorem All3.getD {R : Tree → SV → SV → Prop} {ts vs vs'} (h : All3 R ts vs vs') {i X : Nat}
    (hi : (ts.map Tree.root)[i]? = some X) (st st' : List SV) :
    ∃ T, Tree.root T = X ∧ R T ((vs ++ st).getD i {}) ((vs' ++ st').getD i {}) := by
  induction h generalizing i with
  | nil => cases hi
  | @cons T v v' ts vs vs' h1 _ ih =>
    cases i with
    | zero => injection hi with hi; exact ⟨T, hi, h1⟩
    | succ i => exact ih hi

theorem All3.append {R : Tree → SV → SV → Prop} {P : SV → SV → Prop} (hR : ∀ T v v', R T v v' → P v v') {ts vs vs'}
    (h : All3 R ts vs vs') {st st'} (hs : List.Forall₂ P st st') : List.Forall₂ P (vs ++ st) (vs' ++ st') := by
  induction h with
  | nil => exact hs
  | cons h1 _ ih => exact .cons (hR _ _ _ h1) ih

theorem forall₂_getD' {P : SV → SV → Prop} (h0 : P {} {}) {st st' : List SV} (h : List.Forall₂ P st st') (i : Nat) :
    P (st.getD i {}) (st'.getD i {}) := by
  induction h generalizing i with
  | nil => exact h0
  | cons h1 _ ih =>
    cases i with
    | zero => exact h1
    | succ i => exact ih i

theorem forall₂_tail {P : SV → SV → Prop} {st st' : List SV} (h : List.Forall₂ P st st') : List.Forall₂ P st.tail st'.tail := by
  cases h with
  | nil => exact .nil
  | cons _ h => exact h

/-- Stacks with the same forest have the same states. -/
theorem Stk.states {l l' ts vs vs'} (h : Stk l ts vs) (h' : Stk l' ts vs') : l.map Prod.fst = l'.map Prod.fst := by
  induction h generalizing l' vs' with
  | base v =>
    generalize he : ([] : List Tree) = ts at h'
    cases h' with
    | base v' => rfl
    | push _ _ => exact absurd he (by simp)
  | @push s w l ts vs s' v T h1 h2 ih =>
    generalize he : ts ++ [T] = ts' at h'
    cases h' with
    | base v' => exact absurd he (by simp)
    | @push s1 w1 l1 ts1 vs1 s1' v1 T1 g1 g2 =>
      obtain ⟨rfl, hT⟩ := List.append_inj' he rfl
      injection hT with hT; subst hT
      have := ih g1
      injection this with hs hl
      dsimp only at hs
      subst hs
      rw [h2] at g2
      injection g2 with g2
      subst g2
      show s' :: s :: l.map Prod.fst = s' :: s :: l1.map Prod.fst
      rw [hl]

/-- Slots of the stacks in the two runs. -/
structure SlotR (ρ : Renaming) (T : Tree) (v v' : SV) : Prop where
  rel : BuiltR ρ v v'
  built : Built anyN anyV v
  typed : ∀ X, symNum X = Tree.root T → Typed goodL anyN anyV X v
  typedR : ∀ X, symNum X = Tree.root T → TypedR ρ X v v'

variable [Letters]

/-- The two runs side by side. -/
structure RenCfg (ρ : Renaming) (c c' : Cfg) : Prop where
  code : c.ast.code ≠ []
  code' : c'.ast.code ≠ []
  stk : ∃ ts vs vs', Stk c.live ts vs ∧ Stk c'.live ts vs' ∧ All3 (SlotR ρ) ts vs vs'
  stale : List.Forall₂ (fun v v' => BuiltR ρ v v' ∧ Built anyN anyV v) c.stale c'.stale
  whole : c.ast.mod.Whole anyN anyV
  ast : AstR ρ c.ast c'.ast
  look : c'.look = c.look
  tok : ∀ t, c.look = some t → ∃ k, t = tokNum k ∧ k ≠ 0 ∧ Good (k, c.lval) ∧ Good (k, c'.lval) ∧
    key (k, c'.lval) = ρ.key (key (k, c.lval))
  toks : ∃ l l', Tokens c.lval l ∧ Tokens c'.lval l' ∧ l'.map key = (l.map key).map ρ.key

omit [Letters] in
theorem AstR.setCur {a a' : Ast} (h : AstR ρ a a') (t t' : Tok) : AstR ρ { a with cur := some t } { a' with cur := some t' } :=
  { h with cur := rfl }

omit [Letters] in
theorem rename_kind (k : Key) : (ρ.key k).kind = k.kind := by
  unfold Renaming.key
  split
  · rfl
  · split
    · rfl
    · split <;> rfl

theorem RenCfg.fetch {c c' : Cfg} (h : RenCfg ρ c c') :
    RenCfg ρ (Verif.fetch c).1 (Verif.fetch c').1 ∧ (Verif.fetch c').2 = (Verif.fetch c).2 ∧ (Verif.fetch c).1.live = c.live ∧
      (Verif.fetch c).2 < nToks ∧ ((Verif.fetch c).1.look = some (Verif.fetch c).2 ∨ (Verif.fetch c).2 = 1) := by
  cases hl : c.look with
  | some t =>
    have hl' : c'.look = some t := h.look ▸ hl
    rw [fetch_look hl, fetch_look hl']
    obtain ⟨k, hk, -⟩ := h.tok t hl
    exact ⟨h, rfl, rfl, hk ▸ (tokNum_lt k).1, .inl hl⟩
  | none =>
    have hl' : c'.look = none := h.look ▸ hl
    rw [fetch_none hl, fetch_none hl', lexCall_eq h.code, lexCall_eq h.code']
    obtain ⟨l, l', t1, t2, hk⟩ := h.toks
    cases t1 with
    | eof hx =>
      cases t2 with
      | next _ _ => cases hk
      | eof hy =>
        have ex := lexNext_end hx
        have ey := lexNext_end hy
        revert hx hy ex ey
        rcases lexNext c.lval with ⟨t, r⟩
        rcases lexNext c'.lval with ⟨t', r'⟩
        intro hx hy ex ey
        dsimp only at hx hy ex ey
        subst hx; subst hy
        exact ⟨⟨h.code, h.code', h.stk, h.stale, h.whole, h.ast, h.look, fun t ht => (by dsimp only at ht; rw [hl] at ht; cases ht),
          [], [], .eof ex, .eof ey, rfl⟩, rfl, rfl, (by show tokEnd < nToks; decide), .inr rfl⟩
    | @next _ t k l hx tx =>
      cases t2 with
      | eof _ => cases hk
      | @next _ t' k' l' hy ty =>
        injection hk with hk1 hk2
        have hkk : k' = k := by
          have := congrArg Key.kind hk1
          rw [key_kind, rename_kind, key_kind] at this
          exact this
        subst hkk
        rw [hx, hy]
        refine ⟨⟨h.code, h.code', h.stk, h.stale, h.whole, h.ast.setCur _ _, rfl, ?_, l, l', tx, ty, hk2⟩, rfl, rfl, (tokNum_lt k').1, .inl rfl⟩
        rintro _ ⟨⟩
        exact ⟨k', rfl, lexNext_kind_ne_zero hx, lexNext_good hx, lexNext_good hy, hk1⟩

/-- Outcomes of a round in the two runs. -/
def StepR (ρ : Renaming) : Step → Step → Prop
  | .go c, .go c' => RenCfg ρ c c'
  | .done k a, .done k' a' => k' = k ∧ AstR ρ a a'
  | _, _ => False

theorem RenCfg.top {c c' : Cfg} {s v r} (h : RenCfg ρ c c') (hl : c.live = (s, v) :: r) :
    ∃ v' r', c'.live = (s, v') :: r' := by
  obtain ⟨ts, vs, vs', h1, h2, -⟩ := h.stk
  have := h1.states h2
  rw [hl] at this
  cases hl' : c'.live with
  | nil => rw [hl'] at this; cases this
  | cons x r' =>
    rw [hl'] at this
    injection this with this _
    obtain ⟨s', v'⟩ := x
    dsimp only at this
    subst this
    exact ⟨v', r', rfl⟩

theorem RenCfg.reduce (ho : ρ.Ok) {c c' : Cfg} {s v r p} (h : RenCfg ρ c c') (hl : c.live = (s, v) :: r) (hp : p ∈ reds s) :
    Rel (StepR ρ) (Verif.reduce c p) (Verif.reduce c' p) := by
  obtain ⟨v0', r', hl'⟩ := h.top hl
  obtain ⟨ts, vs, vs', hst, hst', hR⟩ := h.stk
  rw [hl] at hst
  rw [hl'] at hst'
  obtain ⟨h0, hpn, -⟩ := reds_ok hst.lt hp
  obtain ⟨ts1, ts2, vs1, vs2, b, wb, l1, g, e1, rfl, e3, e4, e5, e6, e7, e8, e9⟩ := hst.popRed hp c.stale
  obtain ⟨ts1', ts2', vs1', vs2', b', wb', l1', g', e1', rfl, e3', e4', e5', e6', e7', e8', e9'⟩ := hst'.popRed hp c'.stale
  subst e1
  have hlen : ts2.length = ts2'.length := by
    have := congrArg List.length (e3.trans e3'.symm)
    simpa using this
  obtain ⟨rfl, rfl⟩ := List.append_inj' e1' hlen
  have hbb : b' = b := by
    have := e5.states e5'
    injection this with this _
    exact this.symm
  subst hbb
  rw [e6] at e6'
  injection e6' with e6'
  subst e6'
  unfold Verif.reduce
  rw [yyR2_eq h0 hpn, hl, hl']
  dsimp only
  rw [e8, e8']
  dsimp only
  rw [gotoOf_eq e5.lt hpn e6]
  obtain ⟨hR1, hR2⟩ := hR.split e5.length e5'.length
  have hall := hR2.append (P := fun v v' => BuiltR ρ v v' ∧ Built anyN anyV v) (fun _ _ _ x => ⟨x.rel, x.built⟩) h.stale
  have hget := forall₂_getD' ⟨BuiltR.token ho zeroTok zeroTok, Built.token zeroTok⟩ hall
  have hhead : ∀ l : List SV, l.headD {} = l.getD 0 {} := by intro l; cases l <;> rfl
  obtain ⟨hsy, hhd⟩ := syms_rhs h0 hpn
  have hpos : ∀ i X, (syms p)[i]? = some X → ∃ T, Tree.root T = symNum X ∧
      SlotR ρ T ((vs2 ++ c.stale).getD i {}) ((vs2' ++ c'.stale).getD i {}) := by
    intro i X hX
    exact hR2.getD (by rw [e3, ← hsy, List.getElem?_map, hX]; rfl) _ _
  have hty : ∀ i X, (syms p)[i]? = some X → Typed goodL anyN anyV X ((vs2 ++ c.stale).getD i {}) := by
    intro i X hX
    obtain ⟨T, hT, hb⟩ := hpos i X hX
    exact hb.typed X hT.symm
  have hact := act_r ho (L := goodL) (N := anyN) (V := anyV) (p := p) (d := fun i => (vs2 ++ c.stale).getD (i - 1) {})
    (d' := fun i => (vs2' ++ c'.stale).getD (i - 1) {}) (v := (vs2 ++ c.stale).headD {}) (v' := (vs2' ++ c'.stale).headD {})
    h0 hpn (fun i => (hget (i - 1)).1) (by rw [hhead, hhead]; exact (hget 0).1) (fun i X hX => hty i X hX)
    (fun i X hX => by
      obtain ⟨T, hT, hb⟩ := hpos i X hX
      exact hb.typedR X hT.symm) h.ast
  have hcode := h.code
  have hcode' := h.code'
  revert hact
  cases hx : act p (fun i => (vs2 ++ c.stale).getD (i - 1) {}) ((vs2 ++ c.stale).headD {}) c.ast with
  | error q =>
    cases hy : act p (fun i => (vs2' ++ c'.stale).getD (i - 1) {}) ((vs2' ++ c'.stale).headD {}) c'.ast with
    | error q' => intro hact; cases hact; exact .error _
    | ok y => intro hact; cases hact
  | ok x =>
    cases hy : act p (fun i => (vs2' ++ c'.stale).getD (i - 1) {}) ((vs2' ++ c'.stale).headD {}) c'.ast with
    | error q' => intro hact; cases hact
    | ok y =>
      intro hact
      obtain ⟨w, a1⟩ := x
      obtain ⟨w', a1'⟩ := y
      cases hact with
      | ok hact =>
        obtain ⟨k1, k2, k3⟩ := hact
        obtain ⟨j1, j2, j3⟩ := act_whole sources_any hx h0 hpn (fun i => (hget (i - 1)).2)
          (by rw [hhead]; exact (hget 0).2) (fun _ => hhead _) (fun i X hX => hty i X hX) h.whole
        refine .ok (show RenCfg ρ ⟨a1, c.lval, c.look, (g, w) :: (b', wb) :: l1, (vs2 ++ c.stale).tail⟩
          ⟨a1', c'.lval, c'.look, (g, w') :: (b', wb') :: l1', (vs2' ++ c'.stale).tail⟩ from ?_)
        refine ⟨(by show a1.code ≠ []; rw [(act_frame hx).code]; exact hcode), (by show a1'.code ≠ []; rw [(act_frame hy).code]; exact hcode'),
          ⟨ts1 ++ [.node p ts2], vs1 ++ [w], vs1' ++ [w'], .push (T := .node p ts2) e5 (trans_goto hpn e6),
            .push (T := .node p ts2) e5' (trans_goto hpn e6), hR1.snoc ⟨k1, j1, ?_, ?_⟩⟩,
          forall₂_tail hall, j3, k3, h.look, h.tok, h.toks⟩
        · intro X hX
          have : X = .n (head p) := symNum_inj _ _ (hX.trans hhd.symm)
          subst this
          exact j2
        · intro X hX
          have : X = .n (head p) := symNum_inj _ _ (hX.trans hhd.symm)
          subst this
          exact k2

theorem RenCfg.syntaxError {c c' : Cfg} (h : RenCfg ρ c c') : Rel (StepR ρ) (Verif.syntaxError c) (Verif.syntaxError c') := by
  obtain ⟨ts, vs, vs', hst, hst', -⟩ := h.stk
  rw [syntaxError_eq hst, syntaxError_eq hst']
  exact (error_r h.ast (fun _ _ _ _ _ _ => rfl)).bind fun _ _ h => .ok ⟨rfl, h⟩

theorem RenCfg.perform (ho : ρ.Ok) {c c' : Cfg} {s v r t A} (h : RenCfg ρ c c') (hl : c.live = (s, v) :: r) (ht : t < nToks)
    (hshift : (∃ s', A = .shift s' ∧ shiftL s t = some s') ∨ A = dflAct s t) (hk : c.look = some t ∨ t = 1) :
    Rel (StepR ρ) (Verif.LR.perform c A) (Verif.LR.perform c' A) := by
  obtain ⟨v0', r', hl'⟩ := h.top hl
  obtain ⟨ts, vs, vs', hst, hst', hR⟩ := h.stk
  rw [hl] at hst
  rw [hl'] at hst'
  have hlt := hst.lt
  rcases hshift with ⟨s', rfl, hs'⟩ | hA
  · have hk' : c.look = some t := by
      rcases hk with hk | h1
      · exact hk
      · subst h1; rw [shiftL_end hlt] at hs'; cases hs'
    obtain ⟨k, rfl, hk0, hg, hg', hkey⟩ := h.tok t hk'
    refine .ok (show RenCfg ρ ⟨c.ast, c.lval, none, (s', { token := c.lval }) :: c.live, c.stale.tail⟩
      ⟨c'.ast, c'.lval, none, (s', { token := c'.lval }) :: c'.live, c'.stale.tail⟩ from ?_)
    refine ⟨h.code, h.code', ⟨ts ++ [.leaf k c.lval], vs ++ [{ token := c.lval }], vs' ++ [{ token := c'.lval }], ?_, ?_,
      hR.snoc ⟨BuiltR.token ho _ _, Built.token _, ?_, ?_⟩⟩, forall₂_tail h.stale, h.whole, h.ast, rfl, nofun, h.toks⟩
    · show Stk ((s', _) :: c.live) _ _
      rw [hl]
      exact .push hst (trans_shift hlt hs')
    · show Stk ((s', _) :: c'.live) _ _
      rw [hl']
      exact .push (T := .leaf k c.lval) hst' (trans_shift hlt hs')
    all_goals
      intro X hX
      have hX : symNum X = tokNum k := hX
      cases X with
      | t a =>
        have : k = a.kind := tnum_tokNum hX.symm
        subst this
        first | exact hg | exact ⟨hkey, hg, hg'⟩
      | n A =>
        exfalso
        have h1 := (tokNum_lt k).1
        have h2 : 100 ≤ nnum A := by cases A <;> decide
        have h3 : nnum A = tokNum k := hX
        unfold nToks at h1
        omega
  · cases A with
    | shift s' => exact absurd hA.symm (dflAct_shift hlt ht)
    | reduce p => exact h.reduce ho hl (dflAct_reduce hlt ht hA.symm)
    | accept => exact .ok ⟨rfl, h.ast⟩
    | error => exact h.syntaxError

theorem RenCfg.default (ho : ρ.Ok) {c c' : Cfg} {s v r t} (h : RenCfg ρ c c') (hl : c.live = (s, v) :: r) (ht : t < nToks)
    (hk : c.look = some t ∨ t = 1) : Rel (StepR ρ) (Verif.defaultAction c s) (Verif.defaultAction c' s) := by
  by_cases hd : get yyDef s = -2
  · obtain ⟨f1, f2, f3, f4, f5⟩ := h.fetch
    rw [defaultAction_exca hd, defaultAction_exca hd, f2]
    exact f1.perform ho (f3.trans hl) f4 (.inr rfl) f5
  · rw [defaultAction_eq hd t, defaultAction_eq hd t]
    exact h.perform ho hl ht (.inr rfl) hk

theorem RenCfg.step (ho : ρ.Ok) {c c' : Cfg} (h : RenCfg ρ c c') : Rel (StepR ρ) (Verif.step c) (Verif.step c') := by
  obtain ⟨ts, vs, vs', hst, hst', -⟩ := h.stk
  cases hl : c.live with
  | nil => exact absurd hl hst.ne_nil
  | cons x r =>
    obtain ⟨s, v⟩ := x
    obtain ⟨v', r', hl'⟩ := h.top hl
    rw [hl] at hst
    have hlt := hst.lt
    unfold Verif.step
    rw [hl, hl']
    dsimp only
    split
    · exact h.default ho hl (t := 1) (by decide) (.inr rfl)
    · obtain ⟨f1, f2, f3, f4, f5⟩ := h.fetch
      rw [f2]
      cases hs : shiftOf s (Verif.fetch c).2 with
      | none => exact f1.default ho (f3.trans hl) f4 f5
      | some s' =>
        rw [shiftOf_eq hlt f4] at hs
        exact f1.perform ho (f3.trans hl) f4 (.inl ⟨s', rfl, hs⟩) f5

/-- Outcomes of the loop in the two runs. -/
def RunR (ρ : Renaming) : Option (Nat × Ast) → Option (Nat × Ast) → Prop
  | none, none => True
  | some (k, a), some (k', a') => k' = k ∧ AstR ρ a a'
  | _, _ => False

theorem RenCfg.run (ho : ρ.Ok) (n : Nat) {c c' : Cfg} (h : RenCfg ρ c c') : Rel (RunR ρ) (Verif.run n c) (Verif.run n c') := by
  induction n generalizing c c' with
  | zero => exact .ok trivial
  | succ n ih =>
    unfold Verif.run
    refine (h.step ho).bind fun x y hxy => ?_
    cases x with
    | go d =>
      cases y with
      | go d' => exact ih hxy
      | done k a => exact hxy.elim
    | done k a =>
      cases y with
      | go d' => exact hxy.elim
      | done k' a' => exact .ok hxy

/-- The whole loop. -/
theorem run_renamed (ho : ρ.Ok) {code code' : List Char} (hc : code ≠ []) (hc' : code' ≠ []) {ks : List Key}
    (hk : HasKeys code ks) (hk' : HasKeys code' (ks.map ρ.key)) :
    Rel (RunR ρ) (run (fuel code.length) (initCfg (newAST code))) (run (fuel code'.length) (initCfg (newAST code'))) := by
  obtain ⟨l, ht, rfl⟩ := hk
  obtain ⟨l', ht', hl⟩ := hk'
  have hp : RenCfg ρ (initCfg (newAST code)) (initCfg (newAST code')) := by
    refine ⟨hc, hc', ⟨[], [], [], .base _, .base _, .nil⟩, .nil, ⟨nofun, nofun, nofun⟩, ⟨rfl, rfl, rfl, rfl, rfl, rfl⟩, rfl, nofun,
      l, l', ht, ht', hl⟩
  have hn : ∀ {code : List Char}, code ≠ [] → run (fuel code.length) (initCfg (newAST code)) ≠ .ok none := by
    intro code hc h
    have := parse_final (newAST code) hc
    change Final _ _ (run (fuel code.length) (initCfg (newAST code))) at this
    rw [h] at this
    exact this
  have h := hp.run ho (fuel code.length + fuel code'.length)
  rw [run_more _ _ _ (hn hc), Nat.add_comm, run_more _ _ _ (hn hc')] at h
  exact h

end Verif.LR
