import Verif.Proofs.LR.SemDecl
/-! The meaning of accepted texts. -/
namespace Verif.LR
open Tables Spec Lexer

theorem key_kind (x : Nat × Tok) : (key x).kind = x.1 := by
  unfold key; split
  · rfl
  · split <;> rfl

theorem nextK_keys (ts : List Tree) (la : Nat) : nextK ((yieldL ts).map key) la = nextTok ts la := by
  unfold nextK nextTok
  cases yieldL ts with
  | nil => rfl
  | cons x l => show tokNum (key x).kind = tokNum x.1; rw [key_kind]

theorem meaning {ts σ vs σ'} (h : EvF True ts σ vs σ') : ∀ {b la e}, LRF b ts la e → b < nStates →
    (∀ x ∈ yieldL ts, Good x) → SemF b (ts.map Tree.root) ((yieldL ts).map key) la σ vs σ' e := by
  induction h with
  | nil σ => intro b la e g _ _; cases g; exact .nil _ _ _
  | leaf k t _ ih =>
    intro b la e g hb hg
    cases g with
    | leaf _ _ hs g =>
      have ht := trans_shift hb hs
      have h2 := ih g (trans_ok hb ht).lt (fun x hx => hg x (by rw [yieldL]; exact List.mem_append_right _ hx))
      rw [yieldL, List.map_append, Tree.yield]
      refine .cons ?_ ht h2
      refine (sem_tok (by have := (tokNum_lt k).1; unfold nToks at this; simp only [Tree.root]; omega)).2 ⟨rfl, (k, t), rfl, rfl, ?_, rfl⟩
      exact hg _ (by rw [yieldL, Tree.yield]; exact List.mem_append_left _ (List.mem_singleton_self _))
  | node p h0 hp hk _ ha _ ih1 ih2 =>
    intro b la e g hb hg
    cases g with
    | node _ _ _ _ hkids hr hact hgt g =>
      have ht := trans_goto hp hgt
      have h1 := ih1 hkids hb (fun x hx => hg x (by rw [yieldL, Tree.yield]; exact List.mem_append_left _ hx))
      have h2 := ih2 g (trans_ok hb ht).lt (fun x hx => hg x (by rw [yieldL]; exact List.mem_append_right _ hx))
      rw [yieldL, List.map_append, Tree.yield]
      refine .cons ?_ ht h2
      rw [hk] at h1
      rw [nextK_keys]
      exact prod_all p h0 hp hb h1 hr hact ha

/-- Invariants of the declarations. -/
structure PartsInfo (ps : List Part) (σ : St) : Prop where
  decls : ∃ ds : List FuncDecl, List.Forall₂ FuncD.shows (ps.flatMap Part.funcs) ds ∧
    σ = St.at ⟨ps.flatMap Part.globals, ds.map .func⟩ (((ps.flatMap Part.funcs).map FuncD.body).map Block.whiles).sum 0 false
  breaks : blocksBreaksOk 0 ((ps.flatMap Part.funcs).map FuncD.body)
  funcs : ∀ f ∈ ps.flatMap Part.funcs, f.body.throwsOk 0 ∧ f.body.returnsOk f.isFunc ∧ f.body.colonsOk ∧ f.grouped ∧ f.locals.Nodup
  names : ((ps.flatMap Part.globals).map GVar.name).Nodup
  ordered : ∃ (vs : List VarsD) (fs : List FuncD), ps = vs.map Part.vars ++ fs.map Part.func

theorem breaks_append {n : Nat} {l l' : List Block} : blocksBreaksOk n (l ++ l') ↔
    blocksBreaksOk n l ∧ blocksBreaksOk (n + (l.map Block.whiles).sum) l' := by
  induction l generalizing n with
  | nil => simp [blocksBreaksOk]
  | cons b l ih => simp only [List.cons_append, blocksBreaksOk, ih, List.map_cons, List.sum_cons, and_assoc, Nat.add_assoc]

theorem parts_info {ps σ σ'} (h : PartsEff ps σ σ') (hs : σ = St.at ⟨[], []⟩ 0 0 false) : PartsInfo ps σ' := by
  induction h with
  | nil σ => exact ⟨⟨[], .nil, hs⟩, trivial, nofun, List.nodup_nil, [], [], rfl⟩
  | snoc h1 h2 ih =>
    obtain ⟨⟨ds, hds, hst⟩, hb, hf, hn, vs, fs, ho⟩ := ih hs
    generalize hw : (((_ : List FuncD).map FuncD.body).map Block.whiles).sum = w at hst
    cases h2 with
    | vars v hbody hnd =>
      injection hst with hM hn' hm hg
      subst hM
      have hds0 : ds = [] := by
        cases ds with
        | nil => rfl
        | cons _ _ => cases hbody
      subst hds0
      have hfs : fs = [] := by
        cases fs with
        | nil => rfl
        | cons f fs =>
          rw [ho] at hds
          have hz := List.forall₂_nil_right_iff.1 hds
          rw [List.flatMap_append] at hz
          simp [Part.funcs] at hz
      subst hfs
      refine ⟨⟨[], ?_, ?_⟩, ?_, ?_, ?_, vs ++ [v], [], ?_⟩
      · simpa [Part.funcs] using hds
      · simp only [List.flatMap_append, List.flatMap_cons, List.flatMap_nil, List.append_nil, Part.funcs, hw, Part.globals]
        unfold St.at
        rw [hn', hm, hg]; rfl
      · simpa [Part.funcs] using hb
      · simpa [Part.funcs] using hf
      · simpa [Part.globals] using hnd hn
      · rw [ho]; simp
    | func f d he hshow hlast =>
      obtain ⟨x1, x2, x3, x4⟩ := he.eff _ _ _ _ rfl
      injection hst with hM hn' hm hg
      subst hM; subst hg
      have hn'' := Int.ofNat.inj hn'
      have hm'' := Int.ofNat.inj hm
      subst hn''; subst hm''
      rw [Bool.or_false] at x4
      refine ⟨⟨ds ++ [d], ?_, ?_⟩, ?_, ?_, ?_, vs, fs ++ [f], ?_⟩
      · rw [List.flatMap_append]
        exact List.rel_append hds (by simpa [Part.funcs] using hshow)
      · rw [x1]
        simp only [List.flatMap_append, List.flatMap_cons, List.flatMap_nil, List.append_nil, Part.funcs, List.map_append, List.sum_append, hw,
          Part.globals, List.map_cons, List.map_nil, List.sum_cons, List.sum_nil, Nat.add_zero]
        unfold St.at
        simp
      · simp only [List.flatMap_append, List.flatMap_cons, List.flatMap_nil, List.append_nil, Part.funcs, List.map_append, List.map_cons, List.map_nil]
        rw [breaks_append, hw, Nat.zero_add]
        exact ⟨hb, x2, trivial⟩
      · intro g hg
        rw [List.flatMap_append] at hg
        rcases List.mem_append.1 hg with hg | hg
        · exact hf g hg
        · simp only [List.flatMap_cons, List.flatMap_nil, List.append_nil, Part.funcs, List.mem_singleton] at hg
          subst hg
          exact ⟨x3, x4, he.colons, he.grouped, he.nodup⟩
      · simpa [Part.globals] using hn
      · rw [ho]; simp

/-- What holds of an accepted program. -/
structure Accepted (P : Program) (M : Module) : Prop where
  shows : P.shows M
  grouped : P.grouped
  breaks : P.breaksOk
  throws : P.throwsOk
  returns : P.returnsOk
  colons : P.colonsOk
  distinct : P.distinct
  ordered : P.ordered

/-- A text that `Parse` accepts is the text of a program that keeps the rules, and the tree shows that program. -/
theorem parse_program [Letters] {code : List Char} {a' : Ast} (hb : code.all isUnicodeSpace = false) (h : parse (newAST code) = .ret a')
    (he : a'.err = none) : ∃ (l : List (Nat × Tok)) (P : Program), TokensOf code l ∧ l.map key = P.toks ∧ Accepted P a'.mod := by
  obtain ⟨T, v, hroot, hev, htok, hlr, -⟩ := parse_ok (a := newAST code) hb h he
  have hm := meaning hev hlr (by decide) (by rw [yieldL_single]; exact tokens_good htok)
  rw [yieldL_single, List.map_singleton, hroot] at hm
  obtain ⟨v', -, hsem, -⟩ := hm.one
  obtain ⟨P, hk, hP⟩ : ∃ P : Program, T.yield.map key = P.toks ∧ ∀ M n m g, view (newAST code) = St.at M n m g → ProgEff P (view (newAST code)) (view a') := hsem
  have hP := hP ⟨[], []⟩ 0 0 false rfl
  obtain ⟨σ1, hp1, hp2⟩ := hP.parts
  obtain ⟨⟨ds, hds, hst⟩, hbr, hf, hn, ho⟩ := parts_info hp1 rfl
  obtain ⟨l, y1, y2, y3, y4, y5⟩ := hp2 _ _ _ _ hst
  refine ⟨_, P, htok, hk, ?_⟩
  have hmod : a'.mod = ⟨P.parts.flatMap Part.globals, ds.map .func ++ l.map .stm⟩ := (view_eq y5).1
  refine ⟨⟨by rw [hmod]; rfl, ds, l, by rw [hmod], hds, y1⟩, ⟨fun f hf' => (hf f hf').2.2.2.1, hP.grouped⟩, ?_, ?_, ?_, ?_, ?_, ho⟩
  · unfold Program.breaksOk Program.blocks
    rw [breaks_append, Nat.zero_add]
    exact ⟨hbr, y2, trivial⟩
  · intro b hb
    rcases List.mem_append.1 hb with hb | hb
    · obtain ⟨f, hf', rfl⟩ := List.mem_map.1 hb
      exact (hf f hf').1
    · rw [List.mem_singleton.1 hb]; exact y3
  · exact ⟨fun f hf' => (hf f hf').2.1, y4⟩
  · intro b hb
    rcases List.mem_append.1 hb with hb | hb
    · obtain ⟨f, hf', rfl⟩ := List.mem_map.1 hb
      exact (hf f hf').2.2.1
    · rw [List.mem_singleton.1 hb]; exact hP.colons
  · exact ⟨hn, fun f hf' => (hf f hf').2.2.2.2⟩

/-! ## Exactness -/

theorem Body.clean_starts : ∀ {b : Body}, b.clean → b.starts = true
  | .one _, _ => rfl
  | .sep .empty _ _, h => by rw [Body.clean] at h; exact h.elim
  | .sep (.body b) _ _, h => by
    rw [Body.clean] at h
    rw [Body.starts]
    exact Body.clean_starts h.1

mutual
theorem Stmt.exact : (s : Stmt) → s.clean → ∀ {x}, s.shows x → x = s.tree
  | .assign p e, _, x, h => by rw [Stmt.shows] at h; rw [h, Stmt.tree]
  | .expr e, _, x, h => by rw [Stmt.shows] at h; rw [h, Stmt.tree]
  | .ifS c t es e, hc, x, h => by
    rw [Stmt.shows] at h; rw [Stmt.clean] at hc
    obtain ⟨tb, eb, lb, rfl, h1, h2, h3⟩ := h
    rw [Stmt.tree, Block.exact t hc.1 h1, Elifs.exact es hc.2.1 h2, Else.exact e hc.2.2 h3]
  | .forEach n s b, hc, x, h => by
    rw [Stmt.shows] at h; rw [Stmt.clean] at hc
    obtain ⟨l, rfl, h1⟩ := h
    rw [Stmt.tree, Block.exact b hc h1]
  | .forTo n s b, hc, x, h => by
    rw [Stmt.shows] at h; rw [Stmt.clean] at hc
    obtain ⟨l, rfl, h1⟩ := h
    rw [Stmt.tree, Block.exact b hc h1]
  | .while c b, hc, x, h => by
    rw [Stmt.shows] at h; rw [Stmt.clean] at hc
    obtain ⟨l, rfl, h1⟩ := h
    rw [Stmt.tree, Block.exact b hc h1]
  | .tryS b b', hc, x, h => by
    rw [Stmt.shows] at h; rw [Stmt.clean] at hc
    obtain ⟨l, l', rfl, h1, h2⟩ := h
    rw [Stmt.tree, Block.exact b hc.1 h1, Block.exact b' hc.2 h2]
  | .cont, _, x, h => by rw [Stmt.shows] at h; rw [h, Stmt.tree]
  | .brk, _, x, h => by rw [Stmt.shows] at h; rw [h, Stmt.tree]
  | .throw e, _, x, h => by rw [Stmt.shows] at h; rw [h, Stmt.tree]
  | .ret e, _, x, h => by rw [Stmt.shows] at h; rw [h, Stmt.tree]
theorem Elifs.exact : (s : Elifs) → s.clean → ∀ {x}, s.shows x → x = s.tree
  | .nil, _, x, h => by rw [Elifs.shows] at h; rw [h, Elifs.tree]
  | .cons c b r, hc, x, h => by
    rw [Elifs.shows] at h; rw [Elifs.clean] at hc
    obtain ⟨tb, l, rfl, h1, h2⟩ := h
    rw [Elifs.tree, Block.exact b hc.1 h1, Elifs.exact r hc.2 h2]
theorem Else.exact : (s : Else) → s.clean → ∀ {x}, s.shows x → x = s.tree
  | .none, _, x, h => by rw [Else.shows] at h; rw [h, Else.tree]
  | .some b, hc, x, h => by
    rw [Else.shows] at h; rw [Else.clean] at hc
    rw [Else.tree, Block.exact b hc h]
theorem Block.exact : (s : Block) → s.clean → ∀ {x}, s.shows x → x = s.tree
  | .empty, _, x, h => by rw [Block.shows] at h; rw [h, Block.tree]
  | .body b, hc, x, h => by
    rw [Block.shows] at h; rw [Block.clean] at hc
    obtain ⟨old, w, rfl, h1, h2⟩ := h
    rw [h2 (Body.clean_starts hc), List.nil_append, Block.tree, Body.exact' b hc h1]
theorem Body.exact' : (s : Body) → s.clean → ∀ {x}, s.exactly x → x = s.tree
  | .one s, hc, x, h => by
    rw [Body.exactly] at h; rw [Body.clean] at hc
    obtain ⟨y, rfl, h1⟩ := h
    rw [Body.tree, Stmt.exact s hc h1]
  | .sep .empty p o, hc, x, h => by rw [Body.clean] at hc; exact hc.elim
  | .sep (.body b) p o, hc, x, h => by
    rw [Body.exactly] at h; rw [Body.clean] at hc
    obtain ⟨l1, l2, rfl, h1, h2⟩ := h
    rw [Block.exactly] at h1
    rw [Body.tree, Block.tree, Body.exact' b hc.1 h1, OptStmt.exact o hc.2 h2]
theorem OptStmt.exact : (s : OptStmt) → s.clean → ∀ {x}, s.exactly x → x = s.tree
  | .none, _, x, h => by rw [OptStmt.exactly] at h; rw [h, OptStmt.tree]
  | .some s, hc, x, h => by
    rw [OptStmt.exactly] at h; rw [OptStmt.clean] at hc
    obtain ⟨y, rfl, h1⟩ := h
    rw [OptStmt.tree, Stmt.exact s hc h1]
end

theorem FuncD.exact {f : FuncD} {d : FuncDecl} (hc : f.clean) (h : f.shows d) : d = f.tree := by
  have h1 := Block.exact f.body hc h.1
  rw [h.2, h1]
  rfl

/-- If no block begins with a separator, the tree is exactly the tree of the program. -/
theorem Program.exact {P : Program} {M : Module} (hc : P.clean) (h : P.shows M) : M = P.tree := by
  obtain ⟨h1, ds, l, h2, h3, h4⟩ := h
  have h5 := Block.exact P.body hc.2 h4
  have h6 : ds = P.funcs.map FuncD.tree := by
    have hcf := hc.1
    clear h2 h1 h4 h5
    revert hcf h3
    generalize P.funcs = fs
    intro h3
    induction h3 with
    | nil => intro _; rfl
    | cons hx _ ih =>
      intro hcf
      rw [List.map_cons, ← FuncD.exact (hcf _ (List.mem_cons_self ..)) hx, ← ih (fun f hf => hcf f (List.mem_cons_of_mem _ hf))]
  cases M
  simp only at h1 h2
  rw [h1, h2, h5, h6]
  unfold Program.tree
  simp

end Verif.LR
