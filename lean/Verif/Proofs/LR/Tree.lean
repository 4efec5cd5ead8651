import Verif.Proofs.LR.Basic
import Verif.Proofs.LR.Act
/-!
# Derivation trees, their evaluation, and the parser stack as a forest
-/
namespace Verif.LR
open Tables Spec Lexer

/-- A derivation tree: a token with its number, or a production with its subtrees. -/
inductive Tree
  | leaf (k : Nat) (t : Tok)
  | node (p : Nat) (kids : List Tree)

/-- The symbol at the root. -/
def Tree.root : Tree → Nat
  | .leaf k _ => tokNum k
  | .node p _ => lhs p

mutual
/-- The tokens at the leaves. -/
def Tree.yield : Tree → List (Nat × Tok)
  | .leaf k t => [(k, t)]
  | .node _ kids => yieldL kids
/-- The tokens of a forest. -/
def yieldL : List Tree → List (Nat × Tok)
  | [] => []
  | t :: ts => t.yield ++ yieldL ts
end

theorem yieldL_append (a b : List Tree) : yieldL (a ++ b) = yieldL a ++ yieldL b := by
  induction a with
  | nil => rfl
  | cons t a ih => rw [List.cons_append, yieldL, yieldL, ih, List.append_assoc]

theorem yieldL_single (t : Tree) : yieldL [t] = t.yield := by rw [yieldL, yieldL, List.append_nil]

/-- The part of the AstNode that actions read and write, apart from the error. -/
structure St where
  mod : Module
  isLoop : Int
  isTry : Int
  isFunc : Bool

def view (a : Ast) : St := ⟨a.mod, a.isLoop, a.isTry, a.isFunc⟩

/-- The action of production `p` on the values `vs` of the right side; `junk` are the stack slots above.
If `ok`, no error has been recorded. -/
def ActR (ok : Prop) (p : Nat) (vs : List SV) (σ : St) (v : SV) (σ' : St) : Prop :=
  ∃ junk a a', act p (fun i => (vs ++ junk).getD (i - 1) {}) ((vs ++ junk).headD {}) a = .ok (v, a') ∧
    view a = σ ∧ view a' = σ' ∧ (ok → a'.err = none)

/-- Evaluation of a forest from left to right.  Includes that every node is a production of the grammar. -/
inductive EvF (ok : Prop) : List Tree → St → List SV → St → Prop
  | nil (σ : St) : EvF ok [] σ [] σ
  | leaf (k : Nat) (t : Tok) {ts σ vs σ'} : EvF ok ts σ vs σ' → EvF ok (.leaf k t :: ts) σ ({ token := t } :: vs) σ'
  | node (p : Nat) {kids ts σ ws σ1 v σ2 vs σ3} : 0 < p → p < nProds → kids.map Tree.root = rhs p →
      EvF ok kids σ ws σ1 → ActR ok p ws σ1 v σ2 → EvF ok ts σ2 vs σ3 →
      EvF ok (.node p kids :: ts) σ (v :: vs) σ3

theorem EvF.mono {ok ok' : Prop} (h : ok' → ok) {ts σ vs σ'} (e : EvF ok ts σ vs σ') : EvF ok' ts σ vs σ' := by
  induction e with
  | nil σ => exact .nil σ
  | leaf k t _ ih => exact .leaf k t ih
  | node p h0 h1 h2 _ ha _ ih1 ih2 =>
    obtain ⟨j, a, a', q1, q2, q3, q4⟩ := ha
    exact .node p h0 h1 h2 ih1 ⟨j, a, a', q1, q2, q3, fun x => q4 (h x)⟩ ih2

theorem EvF.length {ok : Prop} {ts σ vs σ'} (e : EvF ok ts σ vs σ') : vs.length = ts.length := by
  induction e with
  | nil σ => rfl
  | leaf k t _ ih => simp [ih]
  | node p h0 h1 h2 _ ha _ ih1 ih2 => simp [ih2]

theorem EvF.append {ok : Prop} {ts us σ vs σ1 ws σ2} (e : EvF ok ts σ vs σ1) (f : EvF ok us σ1 ws σ2) :
    EvF ok (ts ++ us) σ (vs ++ ws) σ2 := by
  induction e with
  | nil σ => exact f
  | leaf k t _ ih => exact .leaf k t (ih f)
  | node p h0 h1 h2 h3 ha _ _ ih2 => exact .node p h0 h1 h2 h3 ha (ih2 f)

theorem EvF.split {ok : Prop} {ts us σ zs σ2} (e : EvF ok (ts ++ us) σ zs σ2) :
    ∃ vs ws σ1, zs = vs ++ ws ∧ EvF ok ts σ vs σ1 ∧ EvF ok us σ1 ws σ2 := by
  induction ts generalizing σ zs with
  | nil => exact ⟨[], zs, σ, rfl, .nil σ, e⟩
  | cons t ts ih =>
    rw [List.cons_append] at e
    cases e with
    | leaf k t e =>
      obtain ⟨vs, ws, σ1, rfl, h1, h2⟩ := ih e
      exact ⟨_ :: vs, ws, σ1, rfl, .leaf k t h1, h2⟩
    | node p h0 hp hk hkids ha e =>
      obtain ⟨vs, ws, σ1, rfl, h1, h2⟩ := ih e
      exact ⟨_ :: vs, ws, σ1, rfl, .node p h0 hp hk hkids ha h1, h2⟩

/-- The stack `live` holds the forest `ts` (left to right = bottom to top) with values `vs`. -/
inductive Stk : List (Nat × SV) → List Tree → List SV → Prop
  | base (v : SV) : Stk [(0, v)] [] []
  | push {s w l ts vs s' v T} : Stk ((s, w) :: l) ts vs → trans s (Tree.root T) = some s' →
      Stk ((s', v) :: (s, w) :: l) (ts ++ [T]) (vs ++ [v])

theorem Stk.lt {s w l ts vs} (h : Stk ((s, w) :: l) ts vs) : s < nStates := by
  generalize he : ((s, w) :: l) = live at h
  induction h generalizing s w l with
  | base v => injection he with h1 _; injection h1 with h1 _; subst h1; decide
  | push _ ht ih =>
    injection he with h1 _; injection h1 with h1 _; subst h1
    exact (trans_ok (ih rfl) ht).lt

theorem Stk.zero {w l ts vs} (h : Stk ((0, w) :: l) ts vs) : l = [] ∧ ts = [] ∧ vs = [] := by
  generalize he : ((0, w) :: l) = live at h
  cases h with
  | base v => injection he with _ h2; exact ⟨h2, rfl, rfl⟩
  | push h ht =>
    injection he with h1 _; injection h1 with h1 _
    exact absurd h1.symm (trans_ok h.lt ht).ne0

theorem Stk.length {live ts vs} (h : Stk live ts vs) : vs.length = ts.length := by
  induction h with
  | base v => rfl
  | push _ _ ih => simp [ih]

theorem popN_succ (n : Nat) (s : Nat) (v : SV) (l : List (Nat × SV)) (st : List SV) :
    popN (n + 1) ((s, v) :: l) st = popN n l (v :: st) := rfl

theorem follow_append (s : Nat) (a b : List Nat) : follow s (a ++ b) = (follow s a).bind fun s' => follow s' b := by
  induction a generalizing s with
  | nil => rfl
  | cons X a ih =>
    rw [List.cons_append, follow, follow]
    cases trans s X with
    | none => rfl
    | some s' => exact ih s'

/-- Popping the entries of an item. -/
theorem Stk.pop {s w l ts vs} (h : Stk ((s, w) :: l) ts vs) {p d : Nat} (hi : (p, d) ∈ kern s) (st : List SV) :
    ∃ ts1 ts2 vs1 vs2 b wb l', ts = ts1 ++ ts2 ∧ vs = vs1 ++ vs2 ∧ ts2.map Tree.root = (rhs p).take d ∧
      vs2.length = d ∧ Stk ((b, wb) :: l') ts1 vs1 ∧ ((gotoL b (lhs p)).isSome = true ∨ (p = 0 ∧ b = 0)) ∧
      follow b ((rhs p).take d) = some s ∧ popN d ((s, w) :: l) st = ((b, wb) :: l', vs2 ++ st) ∧
      ((b, wb) :: l').length + d = ((s, w) :: l).length := by
  induction d generalizing s w l ts vs st with
  | zero =>
    exfalso
    generalize he : ((s, w) :: l) = live at h
    cases h with
    | base v =>
      injection he with h1 _; injection h1 with h1 _; subst h1
      revert hi
      have : kern 0 = [] := by decide +kernel
      rw [this]; exact nofun
    | push h ht =>
      injection he with h1 _; injection h1 with h1 _; subst h1
      exact ((trans_ok h.lt ht).item _ _ hi).1 rfl
  | succ d ih =>
    generalize he : ((s, w) :: l) = live at h
    cases h with
    | base v =>
      injection he with h1 _; injection h1 with h1 _; subst h1
      exfalso
      revert hi
      have : kern 0 = [] := by decide +kernel
      rw [this]; exact nofun
    | @push s0 w0 l0 ts0 vs0 s1 v1 T h ht =>
      injection he with h1 h2; injection h1 with h1 h3; subst h1; subst h2; subst h3
      obtain ⟨-, hX, hn⟩ := (trans_ok h.lt ht).item _ _ hi
      rw [Nat.add_sub_cancel] at hX
      have htake : (rhs p).take (d + 1) = (rhs p).take d ++ [Tree.root T] := by
        rw [List.take_add_one, hX]; rfl
      by_cases hd : d = 0
      · subst hd
        rw [if_pos rfl] at hn
        refine ⟨ts0, [T], vs0, [w], s0, w0, l0, rfl, rfl, ?_, rfl, h, hn, ?_, rfl, by simp⟩
        · rw [htake]; rfl
        · rw [htake]
          show (trans s0 (Tree.root T)).bind _ = _
          rw [ht]; rfl
      · rw [if_neg (by omega), Nat.add_sub_cancel] at hn
        obtain ⟨ts1, ts2, vs1, vs2, b, wb, l', e1, e2, e3, e4, e5, e6, e7, e8, e9⟩ := ih h hn (w :: st)
        refine ⟨ts1, ts2 ++ [T], vs1, vs2 ++ [w], b, wb, l', ?_, ?_, ?_, by simp [e4], e5, e6, ?_, ?_, ?_⟩
        · rw [e1, List.append_assoc]
        · rw [e2, List.append_assoc]
        · rw [List.map_append, e3, htake]; rfl
        · rw [htake, follow_append, e7]
          show (trans s0 (Tree.root T)).bind _ = _
          rw [ht]; rfl
        · rw [popN_succ, e8, List.append_assoc]; rfl
        · simp only [List.length_cons] at e9 ⊢; omega

/-- Popping the right side of a production that can be reduced. -/
theorem Stk.popRed {s w l ts vs} (h : Stk ((s, w) :: l) ts vs) {p : Nat} (hr : p ∈ reds s) (st : List SV) :
    ∃ ts1 ts2 vs1 vs2 b wb l' g, ts = ts1 ++ ts2 ∧ vs = vs1 ++ vs2 ∧ ts2.map Tree.root = rhs p ∧
      vs2.length = (rhs p).length ∧ Stk ((b, wb) :: l') ts1 vs1 ∧ gotoL b (lhs p) = some g ∧
      follow b (rhs p) = some s ∧ popN (rhs p).length ((s, w) :: l) st = ((b, wb) :: l', vs2 ++ st) ∧
      ((b, wb) :: l').length + (rhs p).length = ((s, w) :: l).length := by
  obtain ⟨h0, hp, hi⟩ := reds_ok h.lt hr
  by_cases he : rhs p = []
  · rw [if_pos he] at hi
    obtain ⟨g, hg⟩ := Option.isSome_iff_exists.1 hi
    rw [he]
    exact ⟨ts, [], vs, [], s, w, l, g, by simp, by simp, rfl, rfl, h, hg, rfl, rfl, rfl⟩
  · rw [if_neg he] at hi
    obtain ⟨ts1, ts2, vs1, vs2, b, wb, l', e1, e2, e3, e4, e5, e6, e7, e8, e9⟩ := h.pop hi st
    rw [List.take_length] at e3 e7
    rcases e6 with e6 | ⟨e6, -⟩
    · obtain ⟨g, hg⟩ := Option.isSome_iff_exists.1 e6
      exact ⟨ts1, ts2, vs1, vs2, b, wb, l', g, e1, e2, e3, e4, e5, hg, e7, e8, e9⟩
    · omega

end Verif.LR
