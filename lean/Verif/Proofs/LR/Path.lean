import Verif.Proofs.LR.Tree
/-!
# Trees as the automaton builds them

`LRF b ts la e`: reading the forest `ts` from state `b` leads to state `e` if the token after it is `la`; every
token is shifted and every node reduced as the tables say.
-/
namespace Verif.LR
open Tables Spec Lexer

/-- The number of the first token of a forest, `la` if there is none. -/
def nextTok (ts : List Tree) (la : Nat) : Nat :=
  match yieldL ts with
  | [] => la
  | (k, _) :: _ => tokNum k

theorem nextTok_nil (la : Nat) : nextTok [] la = la := rfl

theorem nextTok_yield {ts us : List Tree} (h : yieldL ts = yieldL us) (la : Nat) : nextTok ts la = nextTok us la := by
  unfold nextTok; rw [h]

theorem nextTok_append (ts us : List Tree) (la : Nat) : nextTok (ts ++ us) la = nextTok ts (nextTok us la) := by
  unfold nextTok
  rw [yieldL_append]
  cases yieldL ts with
  | nil => rfl
  | cons x l => rfl

theorem nextTok_leaf (k : Nat) (t : Tok) (ts : List Tree) (la : Nat) : nextTok (.leaf k t :: ts) la = tokNum k := rfl

theorem nextTok_node (p : Nat) (kids ts : List Tree) (la : Nat) :
    nextTok (.node p kids :: ts) la = nextTok (kids ++ ts) la := by
  unfold nextTok
  rw [yieldL, Tree.yield, yieldL_append]

inductive LRF : Nat → List Tree → Nat → Nat → Prop
  | nil (b la : Nat) : LRF b [] la b
  | leaf (k : Nat) (t : Tok) {b b1 ts la e} : shiftL b (tokNum k) = some b1 → LRF b1 ts la e → LRF b (.leaf k t :: ts) la e
  | node (p : Nat) {b kids ts la s g e} : 0 < p → p < nProds → kids.map Tree.root = rhs p →
      LRF b kids (nextTok ts la) s → p ∈ reds s → action s (nextTok ts la) = .reduce p →
      gotoL b (lhs p) = some g → LRF g ts la e → LRF b (.node p kids :: ts) la e

theorem LRF.append {b ts us la m e} (h : LRF b ts (nextTok us la) m) (g : LRF m us la e) : LRF b (ts ++ us) la e := by
  generalize hx : nextTok us la = x at h
  induction h with
  | nil b la => exact g
  | leaf k t hs _ ih => exact .leaf k t hs (ih g hx)
  | node p h0 hp hk hkids hr ha hg hrest _ ih =>
    subst hx
    rw [List.cons_append]
    refine .node p h0 hp hk ?_ hr ?_ hg (ih g rfl)
    · rw [nextTok_append]; exact hkids
    · rw [nextTok_append]; exact ha

theorem LRF.split {b ts us la e} (h : LRF b (ts ++ us) la e) : ∃ m, LRF b ts (nextTok us la) m ∧ LRF m us la e := by
  induction ts generalizing b with
  | nil => exact ⟨b, .nil _ _, h⟩
  | cons T ts ih =>
    rw [List.cons_append] at h
    cases h with
    | leaf k t hs h =>
      obtain ⟨m, h1, h2⟩ := ih h
      exact ⟨m, .leaf k t hs h1, h2⟩
    | node p h0 hp hk hkids hr ha hg h =>
      obtain ⟨m, h1, h2⟩ := ih h
      rw [nextTok_append] at hkids ha
      exact ⟨m, .node p h0 hp hk hkids hr ha hg h1, h2⟩

theorem LRF.lt {b ts la e} (h : LRF b ts la e) (hb : b < nStates) : e < nStates := by
  induction h with
  | nil b la => exact hb
  | leaf k t hs _ ih => exact ih (trans_ok hb (trans_shift hb hs)).lt
  | node p h0 hp hk hkids hr ha hg hrest _ ih => exact ih (trans_ok hb (trans_goto hp hg)).lt

theorem LRF.follow {b ts la e} (h : LRF b ts la e) (hb : b < nStates) : follow b (ts.map Tree.root) = some e := by
  induction h with
  | nil b la => rfl
  | leaf k t hs _ ih =>
    have h1 := trans_shift hb hs
    rw [List.map_cons, LR.follow, Tree.root, h1]
    exact ih (trans_ok hb h1).lt
  | node p h0 hp hk hkids hr ha hg hrest _ ih =>
    have h1 := trans_goto hp hg
    rw [List.map_cons, LR.follow, Tree.root, h1]
    exact ih (trans_ok hb h1).lt

theorem Stk.follow {s w l ts vs} (h : Stk ((s, w) :: l) ts vs) : follow 0 (ts.map Tree.root) = some s := by
  generalize he : ((s, w) :: l) = live at h
  induction h generalizing s w l with
  | base v => injection he with h1 _; injection h1 with h1 _; subst h1; rfl
  | push h ht ih =>
    injection he with h1 _; injection h1 with h1 _; subst h1
    rw [List.map_append, follow_append, ih rfl]
    show (LR.follow _ [_]) = _
    rw [LR.follow, ht]; rfl

/-- Reducing the end of a forest. -/
theorem LRF.reduce {ts1 ts2 la s b g p} (h : LRF 0 (ts1 ++ ts2) la s) (hb : LR.follow 0 (ts1.map Tree.root) = some b)
    (h0 : 0 < p) (hp : p < nProds) (hk : ts2.map Tree.root = rhs p) (hr : p ∈ reds s) (ha : action s la = .reduce p)
    (hg : gotoL b (lhs p) = some g) : LRF 0 (ts1 ++ [.node p ts2]) la g := by
  obtain ⟨m, h1, h2⟩ := h.split
  have := h1.follow (by decide)
  rw [hb] at this
  injection this with this
  subst this
  refine LRF.append (m := b) ?_ (.node p h0 hp hk h2 hr ha hg (.nil _ _))
  rw [nextTok_node, List.append_nil]
  exact h1

end Verif.LR
