import Verif.Proofs.Program
/-!
# `Parse` called again on the same AstNode
-/
namespace Verif.Spec

mutual
theorem Stmt.breaks_mono {n m : Nat} (hb : n ≤ m) : ∀ s : Stmt, s.breaksOk n → s.breaksOk m
  | .assign _ _, _ => by simp only [Stmt.breaksOk]
  | .expr _, _ => by simp only [Stmt.breaksOk]
  | .ifS _ t es e, h => by
    simp only [Stmt.breaksOk] at h ⊢
    exact ⟨Block.breaks_mono hb t h.1, Elifs.breaks_mono (by omega) es h.2.1, Else.breaks_mono (by omega) e h.2.2⟩
  | .forEach _ _ l, h => by simp only [Stmt.breaksOk] at h ⊢; exact Block.breaks_mono (by omega) l h
  | .forTo _ _ l, h => by simp only [Stmt.breaksOk] at h ⊢; exact Block.breaks_mono (by omega) l h
  | .while _ l, h => by simp only [Stmt.breaksOk] at h ⊢; exact Block.breaks_mono (by omega) l h
  | .tryS t h', h => by
    simp only [Stmt.breaksOk] at h ⊢
    exact ⟨Block.breaks_mono hb t h.1, Block.breaks_mono (by omega) h' h.2⟩
  | .cont, h => by simp only [Stmt.breaksOk] at h ⊢; omega
  | .brk, h => by simp only [Stmt.breaksOk] at h ⊢; omega
  | .throw _, _ => by simp only [Stmt.breaksOk]
  | .ret _, _ => by simp only [Stmt.breaksOk]
theorem Elifs.breaks_mono {n m : Nat} (hb : n ≤ m) : ∀ s : Elifs, s.breaksOk n → s.breaksOk m
  | .nil, _ => by simp only [Elifs.breaksOk]
  | .cons _ t r, h => by
    simp only [Elifs.breaksOk] at h ⊢
    exact ⟨Block.breaks_mono hb t h.1, Elifs.breaks_mono (by omega) r h.2⟩
theorem Else.breaks_mono {n m : Nat} (hb : n ≤ m) : ∀ s : Else, s.breaksOk n → s.breaksOk m
  | .none, _ => by simp only [Else.breaksOk]
  | .some t, h => by simp only [Else.breaksOk] at h ⊢; exact Block.breaks_mono hb t h
theorem Block.breaks_mono {n m : Nat} (hb : n ≤ m) : ∀ s : Block, s.breaksOk n → s.breaksOk m
  | .empty, _ => by simp only [Block.breaksOk]
  | .body t, h => by simp only [Block.breaksOk] at h ⊢; exact Body.breaks_mono hb t h
theorem Body.breaks_mono {n m : Nat} (hb : n ≤ m) : ∀ s : Body, s.breaksOk n → s.breaksOk m
  | .one s, h => by simp only [Body.breaksOk] at h ⊢; exact Stmt.breaks_mono hb s h
  | .sep t _ s, h => by
    simp only [Body.breaksOk] at h ⊢
    exact ⟨Block.breaks_mono hb t h.1, OptStmt.breaks_mono (by omega) s h.2⟩
theorem OptStmt.breaks_mono {n m : Nat} (hb : n ≤ m) : ∀ s : OptStmt, s.breaksOk n → s.breaksOk m
  | .none, _ => by simp only [OptStmt.breaksOk]
  | .some s, h => by simp only [OptStmt.breaksOk] at h ⊢; exact Stmt.breaks_mono hb s h
end

end Verif.Spec

namespace Verif.LR
open Spec Lexer

theorem blocks_breaks_mono : ∀ (bs : List Block) {n m : Nat}, n ≤ m → blocksBreaksOk n bs → blocksBreaksOk m bs
  | [], _, _, _, _ => trivial
  | b :: bs, _, _, h, g => ⟨b.breaks_mono h g.1, blocks_breaks_mono bs (by omega) g.2⟩

theorem parts_grouped {ps σ σ'} (h : PartsEff ps σ σ') : ∀ f ∈ ps.flatMap Part.funcs, f.grouped := by
  induction h with
  | nil σ => simp
  | snoc h1 h2 ih =>
    intro f hf
    rw [List.flatMap_append] at hf
    rcases List.mem_append.1 hf with hf | hf
    · exact ih f hf
    · cases h2 with
      | vars v _ _ => simp [Part.funcs] at hf
      | func g d he _ _ =>
        simp [Part.funcs] at hf
        subst hf
        exact he.grouped

/-- The effect of declarations on a module, and what was checked. -/
theorem parts_any {ps σ σ'} (h : PartsEff ps σ σ') {M : Module} {n : Nat} (hs : σ = St.at M n 0 false) :
    (∃ ds n', List.Forall₂ FuncD.shows (ps.flatMap Part.funcs) ds ∧
      σ' = St.at ⟨M.globals ++ ps.flatMap Part.globals, M.body ++ ds.map .func⟩ n' 0 false) ∧
    ((∃ v, Part.vars v ∈ ps) → M.body = []) ∧
    ((M.globals.map GVar.name).Nodup → ((M.globals ++ ps.flatMap Part.globals).map GVar.name).Nodup) ∧
    ((∃ f, Part.func f ∈ ps) → ∀ s, M.body.getLast? ≠ some (.stm s)) := by
  induction h with
  | nil σ => exact ⟨⟨[], n, .nil, by simpa using hs⟩, by simp, by simp, by simp⟩
  | @snoc ps p _ _ _ h1 h2 ih =>
    obtain ⟨⟨ds, n', hds, hst⟩, hv, hn, hl⟩ := ih hs
    cases h2 with
    | vars v hbody hnd =>
      injection hst with hM hn' hm hg
      subst hM
      obtain ⟨hb, hd⟩ := List.append_eq_nil_iff.1 hbody
      refine ⟨⟨ds, n', by simpa [Part.funcs] using hds, ?_⟩, fun _ => hb, ?_, ?_⟩
      · unfold St.at
        rw [hn', hm, hg]
        simp [hb, hd, Part.globals]
      · intro h; simpa [Part.globals] using hnd (hn h)
      · rintro ⟨f, hf⟩; simp at hf; exact hl ⟨f, hf⟩
    | func f d he hshow hlast =>
      obtain ⟨x1, -, -, -⟩ := he.eff _ _ _ _ rfl
      injection hst with hM hn' hm hg
      subst hM; subst hg
      have hm'' := Int.ofNat.inj hm
      subst hm''
      refine ⟨⟨ds ++ [d], n' + f.body.whiles, ?_, ?_⟩, ?_, ?_, ?_⟩
      · rw [List.flatMap_append]
        exact List.rel_append hds (by simpa [Part.funcs] using hshow)
      · rw [x1]
        unfold St.at
        simp [Part.globals]
        omega
      · rintro ⟨v, hv'⟩; simp at hv'; exact hv ⟨v, hv'⟩
      · simpa [Part.globals] using hn
      · intro _ s
        cases ds with
        | nil => simpa using hlast s
        | cons d' ds =>
          have : ps.flatMap Part.funcs ≠ [] := by
            intro h; rw [h] at hds; cases hds
          obtain ⟨g, hg⟩ := List.exists_mem_of_ne_nil _ this
          obtain ⟨q, hq, hg⟩ := List.mem_flatMap.1 hg
          cases q with
          | vars v => cases hg
          | func f' => exact hl ⟨f', hq⟩ s

variable [Letters]

/-- What a successful `Parse` adds to the module. -/
theorem parse_again {a a' : Ast} {M : Module} {n : Nat} (hv : view a = St.at M n 0 false) (hb : a.code.all isUnicodeSpace = false)
    (h : parse a = .ret a') (he : a'.err = none) :
    ∃ (l : List (Nat × Tok)) (P : Program) (ds : List FuncDecl) (ss : List Stm), TokensOf a.code l ∧ l.map key = P.toks ∧ P.grouped ∧
      List.Forall₂ FuncD.shows P.funcs ds ∧ P.body.shows ss ∧
      a'.mod = ⟨M.globals ++ P.globals, M.body ++ (ds.map .func ++ ss.map .stm)⟩ ∧
      ((∃ v, Part.vars v ∈ P.parts) → M.body = []) ∧
      ((M.globals.map GVar.name).Nodup → ((M.globals ++ P.globals).map GVar.name).Nodup) ∧
      ((∃ f, Part.func f ∈ P.parts) → ∀ s, M.body.getLast? ≠ some (.stm s)) := by
  obtain ⟨T, v, hroot, hev, htok, hlr, -⟩ := parse_ok hb h he
  have hm := meaning hev hlr (by decide) (by rw [yieldL_single]; exact tokens_good htok)
  rw [yieldL_single, List.map_singleton, hroot] at hm
  obtain ⟨v', -, hsem, -⟩ := hm.one
  obtain ⟨P, hk, hP⟩ : ∃ P : Program, T.yield.map key = P.toks ∧ ∀ M n m g, view a = St.at M n m g → ProgEff P (view a) (view a') := hsem
  have hP := hP _ _ _ _ hv
  obtain ⟨σ1, hp1, hp2⟩ := hP.parts
  obtain ⟨⟨ds, n', hds, hst⟩, q1, q2, q3⟩ := parts_any hp1 hv
  obtain ⟨ss, y1, y2, y3, y4, y5⟩ := hp2 _ _ _ _ hst
  have hmod := (view_eq y5).1
  rw [List.append_assoc] at hmod
  refine ⟨_, P, ds, ss, htok, hk, ⟨?_, hP.grouped⟩, hds, y1, hmod, q1, q2, q3⟩
  exact parts_grouped hp1

end Verif.LR
