import Verif.Proofs.LR.CplDecl
import Verif.Proofs.LR.Det
/-!
# The driver builds the trees
-/
namespace Verif.LR
open Tables Spec Lexer
variable [Letters]

/-- The tokens still to come are `l`. -/
structure At (c : Cfg) (l : List (Nat × Tok)) : Prop where
  code : c.ast.code ≠ []
  toks : (c.look = none ∧ Tokens c.lval l) ∨ ∃ k l', c.look = some (tokNum k) ∧ l = (k, c.lval) :: l' ∧ Tokens c.lval l'

def headTok (l : List (Nat × Tok)) : Nat :=
  match l with
  | [] => 1
  | (k, _) :: _ => tokNum k

theorem lexNext_end {t : Tok} (h : (lexNext t).2 = .ok none) : (lexNext (lexNext t).1).2 = .ok none := by
  have h1 := (lexNext_eof_iff t).1 h
  have h2 := lexNext_rest t
  rw [h1] at h2
  rw [lexNext_eof_iff]
  have h3 : (lexNext t).1.rest = [] := h2
  rw [h3]; rfl

/-- Only the lookahead changes. -/
structure SameStack (c c' : Cfg) : Prop where
  live : c'.live = c.live
  stale : c'.stale = c.stale
  view : view c'.ast = view c.ast
  err : c'.ast.err = c.ast.err

theorem At.fetch {c : Cfg} {l : List (Nat × Tok)} (h : At c l) :
    At (fetch c).1 l ∧ SameStack c (fetch c).1 ∧ (fetch c).2 = headTok l ∧ (l ≠ [] → (fetch c).1.look ≠ none) := by
  rcases h.toks with ⟨hn, ht⟩ | ⟨k, l', hk, rfl, ht⟩
  · rw [fetch_none hn, lexCall_eq h.code]
    cases ht with
    | eof hx =>
      rcases hl : lexNext c.lval with ⟨t', e | (_ | k)⟩
      · rw [hl] at hx; cases hx
      · have := lexNext_end hx
        rw [hl] at this
        exact ⟨⟨h.code, .inl ⟨hn, .eof this⟩⟩, ⟨rfl, rfl, rfl, rfl⟩, rfl, fun h => absurd rfl h⟩
      · rw [hl] at hx; cases hx
    | next hx ht =>
      rw [hx]
      exact ⟨⟨h.code, .inr ⟨_, _, rfl, rfl, ht⟩⟩, ⟨rfl, rfl, rfl, rfl⟩, rfl, fun _ => nofun⟩
  · rw [fetch_look hk]
    exact ⟨h, ⟨rfl, rfl, rfl, rfl⟩, rfl, fun _ => by rw [hk]; exact nofun⟩

theorem At.step {c : Cfg} {l : List (Nat × Tok)} (h : At c l) {s v r} (hl : c.live = (s, v) :: r) :
    ∃ c', At c' l ∧ SameStack c c' ∧ step c = perform c' (action s (headTok l)) ∧ (isLazy s = true ∨ (l ≠ [] → c'.look ≠ none)) := by
  by_cases hz : isLazy s = true
  · exact ⟨c, h, ⟨rfl, rfl, rfl, rfl⟩, by rw [step_lazy hl hz 0, action_lazy hz], .inl hz⟩
  · obtain ⟨f1, f2, f3, f4⟩ := h.fetch
    rcases step_fetch hl (Bool.not_eq_true _ ▸ hz) with he | ⟨hsh, -, he⟩
    · exact ⟨_, f1, f2, by rw [he, f3], .inr f4⟩
    · obtain ⟨g1, g2, g3, g4⟩ := f1.fetch
      refine ⟨_, g1, ⟨g2.live.trans f2.live, g2.stale.trans f2.stale, g2.view.trans f2.view, g2.err.trans f2.err⟩, ?_, .inr g4⟩
      rw [he, g3, action_none]
      rw [← f3]; exact hsh

/-- Steps of the driver. -/
inductive Steps : Cfg → Cfg → Prop
  | refl (c : Cfg) : Steps c c
  | step {c c' c'' : Cfg} : step c = .ok (.go c') → Steps c' c'' → Steps c c''

theorem Steps.trans {c d e : Cfg} (h : Steps c d) (g : Steps d e) : Steps c e := by
  induction h with
  | refl => exact g
  | step hs _ ih => exact .step hs (ih g)

omit [Letters] in
theorem popN_append (q rest : List (Nat × SV)) (st : List SV) :
    popN q.length (q ++ rest) st = (rest, (q.map Prod.snd).reverse ++ st) := by
  induction q generalizing st with
  | nil => cases rest <;> rfl
  | cons x q ih =>
    obtain ⟨s, v⟩ := x
    rw [List.length_cons, List.cons_append, popN_succ, ih]
    simp

omit [Letters] in
theorem headTok_append (ts : List Tree) (l : List (Nat × Tok)) : headTok (yieldL ts ++ l) = nextTok ts (headTok l) := by
  unfold nextTok
  cases yieldL ts with
  | nil => rfl
  | cons x r => rfl

/-- The driver shifts a token. -/
theorem At.shift {c : Cfg} {k : Nat} {t : Tok} {l : List (Nat × Tok)} (ha : At c ((k, t) :: l)) {b b1 : Nat} {v : SV} {r : List (Nat × SV)}
    (hb : b < nStates) (hl : c.live = (b, v) :: r) (hs : shiftL b (tokNum k) = some b1) :
    ∃ c1, Verif.step c = .ok (.go c1) ∧ At c1 l ∧ c1.live = (b1, { token := t }) :: c.live ∧ view c1.ast = view c.ast ∧ c1.ast.err = c.ast.err := by
  obtain ⟨c1, h1, h2, h3, h4⟩ := ha.step hl
  have hact : action b (tokNum k) = .shift b1 := by
    have h0 := shiftOf_eq hb (tokNum_lt k).1
    rw [hs] at h0
    unfold action
    rw [if_neg, h0]
    intro hp
    unfold shiftOf at h0
    have hp2 : get yyPact b + (tokNum k : Int) < 0 ∨ yyLast ≤ get yyPact b + (tokNum k : Int) := by
      have := (tokNum_lt k).1
      unfold nToks at this
      left
      have : yyFlag = -1000 := rfl
      omega
    dsimp only at h0
    rw [if_pos hp2] at h0
    cases h0
  have hlz : isLazy b = false := by
    cases hz : isLazy b with
    | false => rfl
    | true =>
      rw [action_lazy hz] at hact
      exact absurd hact (dflAct_shift hb (by decide))
  rcases h4 with h4 | h4
  · rw [hlz] at h4; cases h4
  · have hlook := h4 nofun
    rcases h1.toks with ⟨h5, -⟩ | ⟨k', l', h5, h6, h7⟩
    · exact absurd h5 hlook
    · injection h6 with h6 h6'
      injection h6 with h6 h8
      subst h6; subst h6'; subst h8
      rw [show headTok ((k, c1.lval) :: l) = tokNum k from rfl, hact] at h3
      refine ⟨({ c1 with look := none } : Cfg).push b1 { token := c1.lval }, h3, ⟨h1.code, .inl ⟨rfl, h7⟩⟩, ?_, h2.view, h2.err⟩
      show _ :: c1.live = _
      rw [h2.live]

/-- The driver performs the action of a production. -/
theorem At.reduce {c1 : Cfg} {l : List (Nat × Tok)} (h : At c1 l) {b g p s : Nat} {v w : SV} {r live r1 q : List (Nat × SV)}
    (hb : b < nStates) (h0 : 0 < p) (hp : p < nProds) (hq : q.length = (rhs p).length) (hl : live = (b, v) :: r) (hc : c1.live = q ++ live)
    (hs : c1.live = (s, w) :: r1) (ha : action s (headTok l) = .reduce p) (hg : gotoL b (lhs p) = some g) :
    ∃ c2, At c2 l ∧ SameStack c1 c2 ∧ ∀ R, act p (fun i => ((q.map Prod.snd).reverse ++ c2.stale).getD (i - 1) {})
        (((q.map Prod.snd).reverse ++ c2.stale).headD {}) c2.ast = R →
      match R with
      | .error e => Verif.step c1 = .error e
      | .ok (x, a') => ∃ c3, Verif.step c1 = .ok (.go c3) ∧ At c3 l ∧ c3.live = (g, x) :: live ∧ c3.ast = a' := by
  obtain ⟨c2, k1, k2, k3, -⟩ := h.step hs
  rw [ha] at k3
  refine ⟨c2, k1, k2, fun R hR => ?_⟩
  have hred : Verif.step c1 = (do
      let (v', a) ← R
      .ok (.go (({ c2 with ast := a, live := live, stale := (q.map Prod.snd).reverse ++ c2.stale } : Cfg).push g v'))) := by
    rw [k3]
    show Verif.reduce c2 p = _
    unfold Verif.reduce
    have hlen : (get yyR2 p).toNat = q.length := by rw [yyR2_eq h0 hp, hq]
    rw [hlen, k2.live, hc]
    dsimp only
    rw [popN_append]
    dsimp only
    rw [hl]
    dsimp only
    rw [hR]
    cases R with
    | error e => rfl
    | ok x =>
      obtain ⟨x, a'⟩ := x
      show Except.ok _ = Except.ok _
      rw [gotoOf_eq hb hp hg]
  cases R with
  | error e => exact hred
  | ok x =>
    obtain ⟨x, a'⟩ := x
    refine ⟨_, hred, ⟨?_, k1.toks⟩, rfl, rfl⟩
    show a'.code ≠ []
    rw [(act_frame hR).code]; exact k1.code

/-- The driver builds a forest. -/
theorem LRF.sim {b ts la e} (h : LRF b ts la e) : ∀ {c : Cfg} {l : List (Nat × Tok)} {v : SV} {r : List (Nat × SV)} {Ψ : List SV → St → Prop},
    b < nStates → la = headTok l → c.live = (b, v) :: r → At c (yieldL ts ++ l) → RunsL ts (view c.ast) Ψ →
    ∃ c' q s w r', Steps c c' ∧ At c' l ∧ c'.live = q ++ c.live ∧ q.length = ts.length ∧ Ψ (q.map Prod.snd).reverse (view c'.ast) ∧
      c'.live = (s, w) :: r' ∧ s = e ∧ c'.ast.err = c.ast.err := by
  induction h with
  | nil b la =>
    intro c l v r Ψ hb hla hl ha hr
    rw [RunsL] at hr
    exact ⟨c, [], b, v, r, .refl c, ha, rfl, rfl, hr, hl, rfl, rfl⟩
  | @leaf k t b b1 ts la e hs h ih =>
    intro c l v r Ψ hb hla hl ha hr
    rw [yieldL, Tree.yield, List.singleton_append, List.cons_append] at ha
    rw [RunsL, Tree.Runs] at hr
    obtain ⟨c1, h1, h2, h3, h4, h5⟩ := ha.shift hb hl hs
    obtain ⟨c2, q, s, w, r', g1, g2, g3, g4, g5, g6, g7, g8⟩ := ih (Ψ := fun vs => Ψ ({ token := t } :: vs))
      (trans_ok hb (trans_shift hb hs)).lt hla h3 h2 (by rw [h4]; exact hr)
    refine ⟨c2, q ++ [(b1, { token := t })], s, w, r', .step h1 g1, g2, ?_, ?_, ?_, g6, g7, g8.trans h5⟩
    · rw [g3, h3]; simp
    · simp [g4]
    · rw [List.map_append, List.reverse_append]; exact g5
  | @node p b kids ts la s g e h0 hp hk hkids hr ha hg hrest ih1 ih2 =>
    intro c l v r Ψ hb hla hl hat hrun
    rw [yieldL, Tree.yield, List.append_assoc] at hat
    rw [RunsL, Tree.Runs] at hrun
    have hn : nextTok ts la = headTok (yieldL ts ++ l) := by rw [headTok_append, hla]
    obtain ⟨c1, q, s1, w1, r1, g1, g2, g3, g4, g5, g6, rfl, g7⟩ := ih1 hb hn hl hat hrun
    obtain ⟨c2, k1, k2, k3⟩ := g2.reduce hb h0 hp (by rw [← hk, List.length_map, g4]) hl g3 g6 (hn ▸ ha) hg
    obtain ⟨x, a', m1, m2, m3⟩ := g5 c2.stale c2.ast k2.view
    obtain ⟨c3, j1, j2, j3, rfl⟩ := k3 _ m1
    obtain ⟨c4, q', s3, w3, r3, n1, n2, n3, n4, n5, n6, n7, n8⟩ := ih2 (Ψ := fun vs => Ψ (x :: vs))
      (trans_ok hb (trans_goto hp hg)).lt hla j3 j2 m3
    refine ⟨c4, q' ++ [(g, x)], s3, w3, r3, g1.trans (.step j1 n1), n2, ?_, ?_, ?_, n6, n7, n8.trans (m2.trans (k2.err.trans g7))⟩
    · rw [n3, j3]; simp
    · simp [n4]
    · rw [List.map_append, List.reverse_append]; exact n5

/-- The driver builds a forest, or panics. -/
theorem LRF.simE {D : Prop} {b ts la e} (h : LRF b ts la e) : ∀ {c : Cfg} {l : List (Nat × Tok)} {v : SV} {r : List (Nat × SV)}
    {Ψ : List SV → St → Option Fault → Prop},
    b < nStates → la = headTok l → c.live = (b, v) :: r → At c (yieldL ts ++ l) → RunsLE D ts (view c.ast) (comp c.ast) Ψ →
    (∃ c' q s w r', Steps c c' ∧ At c' l ∧ c'.live = q ++ c.live ∧ q.length = ts.length ∧
      Ψ (q.map Prod.snd).reverse (view c'.ast) (comp c'.ast) ∧ c'.live = (s, w) :: r' ∧ s = e) ∨
    ∃ c' x, Steps c c' ∧ Verif.step c' = .error x ∧ (x = .nilMap → D) := by
  induction h with
  | nil b la =>
    intro c l v r Ψ hb hla hl ha hr
    rw [RunsLE] at hr
    exact .inl ⟨c, [], b, v, r, .refl c, ha, rfl, rfl, hr, hl, rfl⟩
  | @leaf k t b b1 ts la e hs h ih =>
    intro c l v r Ψ hb hla hl ha hr
    rw [yieldL, Tree.yield, List.singleton_append, List.cons_append] at ha
    rw [RunsLE, Tree.RunsE] at hr
    obtain ⟨c1, h1, h2, h3, h4, h5⟩ := ha.shift hb hl hs
    have hc : comp c1.ast = comp c.ast := congrArg (Option.map Err.fault) h5
    rcases ih (Ψ := fun vs => Ψ ({ token := t } :: vs))
      (trans_ok hb (trans_shift hb hs)).lt hla h3 h2 (by rw [h4, hc]; exact hr) with ⟨c2, q, s, w, r', g1, g2, g3, g4, g5, g6, g7⟩ | ⟨c2, x, g1, g2⟩
    · refine .inl ⟨c2, q ++ [(b1, { token := t })], s, w, r', .step h1 g1, g2, ?_, ?_, ?_, g6, g7⟩
      · rw [g3, h3]; simp
      · simp [g4]
      · rw [List.map_append, List.reverse_append]; exact g5
    · exact .inr ⟨c2, x, .step h1 g1, g2⟩
  | @node p b kids ts la s g e h0 hp hk hkids hr ha hg hrest ih1 ih2 =>
    intro c l v r Ψ hb hla hl hat hrun
    rw [yieldL, Tree.yield, List.append_assoc] at hat
    rw [RunsLE, Tree.RunsE] at hrun
    have hn : nextTok ts la = headTok (yieldL ts ++ l) := by rw [headTok_append, hla]
    rcases ih1 hb hn hl hat hrun with ⟨c1, q, s1, w1, r1, g1, g2, g3, g4, g5, g6, rfl⟩ | ⟨c1, x, g1, g2⟩
    · obtain ⟨c2, k1, k2, k3⟩ := g2.reduce hb h0 hp (by rw [← hk, List.length_map, g4]) hl g3 g6 (hn ▸ ha) hg
      rcases g5 c2.stale c2.ast k2.view (congrArg (Option.map Err.fault) k2.err) with ⟨x, a', m1, m3⟩ | ⟨x, m1, m2⟩
      · obtain ⟨c3, j1, j2, j3, rfl⟩ := k3 _ m1
        rcases ih2 (Ψ := fun vs => Ψ (x :: vs)) (trans_ok hb (trans_goto hp hg)).lt hla j3 j2 m3 with
          ⟨c4, q', s3, w3, r3, n1, n2, n3, n4, n5, n6, n7⟩ | ⟨c4, y, n1, n2⟩
        · refine .inl ⟨c4, q' ++ [(g, x)], s3, w3, r3, g1.trans (.step j1 n1), n2, ?_, ?_, ?_, n6, n7⟩
          · rw [n3, j3]; simp
          · simp [n4]
          · rw [List.map_append, List.reverse_append]; exact n5
        · exact .inr ⟨c4, y, g1.trans (.step j1 n1), n2⟩
      · exact .inr ⟨c1, x, g1, k3 _ m1, m2⟩
    · exact .inr ⟨c1, x, g1, g2⟩

theorem Steps.run {c d : Cfg} (h : Steps c d) {a : Ast} {k : Nat} (hd : Verif.step d = .ok (.done k a)) (n : Nat) :
    Verif.run n c = .ok none ∨ Verif.run n c = .ok (some (k, a)) := by
  induction h generalizing n with
  | refl c =>
    cases n with
    | zero => exact .inl rfl
    | succ n => right; unfold Verif.run; rw [hd]; rfl
  | step hs _ ih =>
    cases n with
    | zero => exact .inl rfl
    | succ n =>
      have := ih hd n
      unfold Verif.run
      rw [hs]
      exact this

theorem Steps.fail {c d : Cfg} (h : Steps c d) {q : Panic} (hd : Verif.step d = .error q) (n : Nat) :
    Verif.run n c = .ok none ∨ Verif.run n c = .error q := by
  induction h generalizing n with
  | refl c =>
    cases n with
    | zero => exact .inl rfl
    | succ n => right; unfold Verif.run; rw [hd]; rfl
  | step hs _ ih =>
    cases n with
    | zero => exact .inl rfl
    | succ n =>
      have := ih hd n
      unfold Verif.run
      rw [hs]
      exact this

/-- A text that spells a program which keeps the rules is accepted, and a tree that shows the program is added to what the AstNode had
before. -/
theorem parse_shows {a : Ast} {M : Module} {n : Nat} (hv : view a = St.at M n 0 false) (he : a.err = none)
    (hb : a.code.all isUnicodeSpace = false) {l : List (Nat × Tok)} (ht : TokensOf a.code l)
    {P : Program} (hl : l.map key = P.toks) (hg : P.grouped) (hok : ProgLaw P) (hfit : ProgFits M n P) :
    ∃ a' ds ss, parse a = .ret a' ∧ a'.err = none ∧ a'.code = a.code ∧ List.Forall₂ FuncD.shows P.funcs ds ∧ P.body.shows ss ∧
      view a' = St.at ⟨M.globals ++ P.globals, M.body ++ (ds.map .func ++ ss.map .stm)⟩ (n + P.whiles) 0 false := by
  have hc : a.code ≠ [] := by intro h; rw [h] at hb; cases hb
  obtain ⟨T, h1, h2, h3, h4, -⟩ := prog_tree hg hl (tokens_good ht)
  have hat : At (initCfg a) (yieldL [T] ++ []) := by
    refine ⟨hc, .inl ⟨rfl, ?_⟩⟩
    rw [List.append_nil, yieldL_single, h1]; exact ht
  obtain ⟨c, q, s, w, r, g1, g2, g3, g4, g5, g6, rfl, g7⟩ := h2.sim (l := []) (Ψ := fun _ σ =>
      ∃ ds ss, List.Forall₂ FuncD.shows P.funcs ds ∧ P.body.shows ss ∧
        σ = St.at ⟨M.globals ++ P.globals, M.body ++ (ds.map .func ++ ss.map .stm)⟩ (n + P.whiles) 0 false) (by decide) rfl rfl hat (by
    rw [RunsL]
    refine Tree.Runs.mono (fun v σ hv => ?_) (show Tree.Runs T (view a) _ from hv ▸ h4 hok M n hfit)
    rw [RunsL]; exact hv)
  obtain ⟨ds, ss, hds, hss, g5⟩ := g5
  obtain ⟨c1, k1, k2, k3, -⟩ := g2.step g6
  rw [show headTok [] = 1 from rfl, action_11] at k3
  have hrun := g1.run k3 (fuel a.code.length)
  have hfin := parse_final a hc
  rcases hrun with hrun | hrun
  · rw [hrun] at hfin
    exact hfin.elim
  · refine ⟨c1.ast, ds, ss, ?_, k2.err.trans (g7.trans he), ?_, hds, hss, k2.view.trans g5⟩
    · unfold parse
      rw [hb, if_neg (by decide), hrun]
    · rw [hrun] at hfin; exact hfin.1

/-- A text that spells a program, given to a fresh AstNode: Parse panics or its error is about the last breach of the rules. -/
theorem parse_faults {code : List Char} (hb : code.all isUnicodeSpace = false) {l : List (Nat × Tok)} (ht : TokensOf code l)
    {P : Program} (hl : l.map key = P.toks) (hg : P.grouped) (htidy : P.tidy) :
    (¬ P.doomed ∧ ∃ a', parse (newAST code) = .ret a' ∧ a'.err.map Err.fault = P.faults.getLast?) ∨
      ∃ q, parse (newAST code) = .panic q ∧ (q = .nilMap → P.doomed) := by
  have hc : code ≠ [] := by intro h; rw [h] at hb; cases hb
  obtain ⟨T, h1, h2, h3, -, h4⟩ := prog_tree hg hl (tokens_good ht)
  have hat : At (initCfg (newAST code)) (yieldL [T] ++ []) := by
    refine ⟨hc, .inl ⟨rfl, ?_⟩⟩
    rw [List.append_nil, yieldL_single, h1]; exact ht
  have hfin := parse_final (newAST code) hc
  rcases h2.simE (D := P.doomed) (l := []) (Ψ := fun _ _ m => m = P.faults.getLast? ∧ ¬ P.doomed) (by decide) rfl rfl hat (by
    rw [RunsLE]
    refine Tree.RunsE.mono (fun v σ m hv => ?_) (h4 htidy)
    rw [RunsLE]; exact hv) with ⟨c, q, s, w, r, g1, g2, g3, g4, g5, g6, rfl⟩ | ⟨c, x, g1, g2, g3⟩
  · obtain ⟨c1, k1, k2, k3, -⟩ := g2.step g6
    rw [show headTok [] = 1 from rfl, action_11] at k3
    rcases g1.run k3 (fuel (newAST code).code.length) with hrun | hrun
    · rw [hrun] at hfin
      exact hfin.elim
    · refine .inl ⟨g5.2, c1.ast, ?_, ?_⟩
      · unfold parse
        rw [show (newAST code).code.all isUnicodeSpace = false from hb, if_neg (by decide), hrun]
      · rw [k2.err]; exact g5.1
  · rcases g1.fail g2 (fuel (newAST code).code.length) with hrun | hrun
    · rw [hrun] at hfin
      exact hfin.elim
    · refine .inr ⟨x, ?_, g3⟩
      unfold parse
      rw [show (newAST code).code.all isUnicodeSpace = false from hb, if_neg (by decide), hrun]

/-- A text that spells a program which keeps the rules, and no block of which begins with a separator, is accepted, and its tree is added to
what the AstNode had before. -/
theorem parse_adds {a : Ast} {M : Module} {n : Nat} (hv : view a = St.at M n 0 false) (he : a.err = none)
    (hb : a.code.all isUnicodeSpace = false) {l : List (Nat × Tok)} (ht : TokensOf a.code l)
    {P : Program} (hl : l.map key = P.toks) (hg : P.grouped) (hok : ProgOk P) (hfit : ProgFits M n P) :
    ∃ a', parse a = .ret a' ∧ a'.err = none ∧ a'.code = a.code ∧
      view a' = St.at ⟨M.globals ++ P.tree.globals, M.body ++ P.tree.body⟩ (n + P.whiles) 0 false := by
  obtain ⟨a', ds, ss, h1, h2, h3, h4, h5, h6⟩ := parse_shows hv he hb ht hl hg hok.law hfit
  refine ⟨a', h1, h2, h3, ?_⟩
  rw [forall_shows_exact hok.clean.1 h4, Block.exact _ hok.clean.2 h5] at h6
  rw [h6]
  simp [Program.tree, Function.comp_def]

/-- A text that spells a program which keeps the rules is accepted with a tree that shows the program. -/
theorem parse_complete_shows {code : List Char} (hb : code.all isUnicodeSpace = false) {l : List (Nat × Tok)} (ht : TokensOf code l)
    {P : Program} (hl : l.map key = P.toks) (hg : P.grouped) (hok : ProgLaw P) :
    ∃ a', parse (newAST code) = .ret a' ∧ a'.err = none ∧ P.shows a'.mod := by
  obtain ⟨a', ds, ss, h1, h2, -, h4, h5, h3⟩ := parse_shows (a := newAST code) (M := ⟨[], []⟩) (n := 0) rfl rfl hb ht hl hg hok
    ⟨hok.distinct.1, fun _ => rfl, fun _ _ => nofun, hok.breaks⟩
  refine ⟨a', h1, h2, ?_⟩
  rw [(view_eq h3).1]
  exact ⟨rfl, ds, ss, rfl, h4, h5⟩

/-- A text that spells a program which keeps the rules is accepted with the tree of the program. -/
theorem parse_complete {code : List Char} (hb : code.all isUnicodeSpace = false) {l : List (Nat × Tok)} (ht : TokensOf code l)
    {P : Program} (hl : l.map key = P.toks) (hg : P.grouped) (hok : ProgOk P) :
    ∃ a', parse (newAST code) = .ret a' ∧ a'.err = none ∧ a'.mod = P.tree := by
  obtain ⟨a', h1, h2, -, h3⟩ := parse_adds (a := newAST code) (M := ⟨[], []⟩) (n := 0) rfl rfl hb ht hl hg hok
    ⟨hok.distinct.1, fun _ => rfl, fun _ _ => nofun, hok.breaks⟩
  exact ⟨a', h1, h2, (view_eq h3).1⟩

/-- The program that a text spells is unique. -/
theorem program_unique {code : List Char} {l l' : List (Nat × Tok)} (ht : TokensOf code l) (ht' : TokensOf code l') {P P' : Program}
    (hl : l.map key = P.toks) (hl' : l'.map key = P'.toks) (hg : P.grouped) (hg' : P'.grouped) : P = P' := by
  have := tokens_unique ht ht'
  subst this
  obtain ⟨T, h1, h2, h3, -⟩ := prog_tree hg hl (tokens_good ht)
  obtain ⟨T', h1', h2', h3', -⟩ := prog_tree hg' hl' (tokens_good ht)
  have := h2.unique h2' (h1.trans h1'.symm)
  subst this
  rw [h3] at h3'
  injection h3'

end Verif.LR
