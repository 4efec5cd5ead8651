import Verif.Proofs.LR.Tree
/-! Proving properties of all evaluated trees. -/
namespace Verif.LR
open Tables Spec Lexer

/-- `R` holds of the trees of a forest one after the other. -/
inductive Chain (R : Tree → St → SV → St → Prop) : List Tree → St → List SV → St → Prop
  | nil (σ : St) : Chain R [] σ [] σ
  | cons {T ts σ v σ1 vs σ2} : R T σ v σ1 → Chain R ts σ1 vs σ2 → Chain R (T :: ts) σ (v :: vs) σ2

/-- Induction over evaluated forests. -/
theorem EvF.rule {ok : Prop} {R : Tree → St → SV → St → Prop}
    (hleaf : ∀ k t σ, R (.leaf k t) σ { token := t } σ)
    (hnode : ∀ p kids σ ws σ1 v σ2, 0 < p → p < nProds → kids.map Tree.root = rhs p →
      Chain R kids σ ws σ1 → ActR ok p ws σ1 v σ2 → R (.node p kids) σ v σ2)
    {ts σ vs σ'} (e : EvF ok ts σ vs σ') : Chain R ts σ vs σ' := by
  induction e with
  | nil σ => exact .nil σ
  | leaf k t _ ih => exact .cons (hleaf k t _) ih
  | node p h0 h1 h2 _ ha _ ih1 ih2 => exact .cons (hnode p _ _ _ _ _ _ h0 h1 h2 ih1 ha) ih2

/-- A chain over a forest whose roots are known. -/
theorem Chain.uncons {R : Tree → St → SV → St → Prop} {ts σ vs σ'} {X : Nat} {xs : List Nat} (h : Chain R ts σ vs σ')
    (hr : ts.map Tree.root = X :: xs) :
    ∃ T ts' v vs' σ1, ts = T :: ts' ∧ vs = v :: vs' ∧ T.root = X ∧ ts'.map Tree.root = xs ∧ R T σ v σ1 ∧
      Chain R ts' σ1 vs' σ' := by
  cases h with
  | nil => cases hr
  | cons h1 h2 =>
    rw [List.map_cons] at hr
    injection hr with hr1 hr2
    exact ⟨_, _, _, _, _, rfl, rfl, hr1, hr2, h1, h2⟩

theorem Chain.unnil {R : Tree → St → SV → St → Prop} {ts σ vs σ'} (h : Chain R ts σ vs σ')
    (hr : ts.map Tree.root = []) : ts = [] ∧ vs = [] ∧ σ' = σ := by
  cases h with
  | nil => exact ⟨rfl, rfl, rfl⟩
  | cons h1 h2 => cases hr

theorem lhs_mem (X : Nat) (l : List Nat) (h : (List.range nProds).all (fun p => lhs p != X || l.contains p) = true)
    {p : Nat} (hp : p < nProds) (hl : lhs p = X) : p ∈ l := by
  have := all_range h hp
  rw [hl] at this
  simpa using this

end Verif.LR
