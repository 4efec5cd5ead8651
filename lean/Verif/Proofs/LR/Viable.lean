import Verif.Proofs.LR.PlanData
import Verif.Proofs.LR.Step
import Verif.Proofs.LR.Good
/-!
# Whatever the automaton has read can be completed

If the automaton has reached a state, there is a continuation of the text with which it accepts.
-/
namespace Verif.LR
open Tables Spec Lexer

def plan (s : Nat) : Nat × Nat := at10 (0, 0) planTab s
def firsts (s : Nat) : List Nat := at10 [] firstTab s
def rank (s : Nat) : Nat := at10 0 rankTab s

/-- What completes the item of state `s`. -/
def restOf (s : Nat) : List Tree := ((rhs (plan s).1).drop (plan s).2).map minTree

/-- Executable form of `LRF`. -/
def lrfB : Nat → Nat → List Tree → Nat → Option Nat
  | 0, _, _, _ => none
  | _ + 1, b, [], _ => some b
  | n + 1, b, .leaf k _ :: ts, la =>
    match shiftL b (tokNum k) with
    | none => none
    | some b1 => lrfB n b1 ts la
  | n + 1, b, .node p kids :: ts, la =>
    match lrfB n b kids (nextTok ts la) with
    | none => none
    | some s =>
      if 0 < p ∧ p < nProds ∧ kids.map Tree.root = rhs p ∧ p ∈ reds s ∧ action s (nextTok ts la) = .reduce p then
        match gotoL b (lhs p) with
        | none => none
        | some g => lrfB n g ts la
      else none

theorem lrfB_ok {n b ts la e} (h : lrfB n b ts la = some e) : LRF b ts la e := by
  induction n generalizing b ts la e with
  | zero => cases h
  | succ n ih =>
    match ts with
    | [] => cases h; exact .nil _ _
    | .leaf k t :: ts =>
      unfold lrfB at h
      split at h
      · cases h
      · rename_i hs; exact .leaf k t hs (ih h)
    | .node p kids :: ts =>
      unfold lrfB at h
      split at h
      · cases h
      · rename_i hk
        split at h
        · rename_i hc
          split at h
          · cases h
          · rename_i hg
            exact .node p hc.1 hc.2.1 hc.2.2.1 (ih hk) hc.2.2.2.1 hc.2.2.2.2 hg (ih h)
        · cases h

/-- The plan for state `s`. -/
def chkPlanAt (s : Nat) : Bool :=
  let p := (plan s).1
  let d := (plan s).2
  decide (0 < p) && decide (0 < d) && decide (p < nProds) && (kern s).contains (p, d) && decide (rank s < 8) &&
  decide ((restOf s).map Tree.root = (rhs p).drop d) &&
  (List.range nStates).all fun b =>
    match gotoL b (lhs p) with
    | none => true
    | some g => if follow b ((rhs p).take d) = some s then
        (decide (2 ≤ d) || decide (rank g < rank s)) &&
        (firsts g).all fun la =>
          (firsts s).contains (nextTok (restOf s) la) &&
          match lrfB 12 s (restOf s) la with
          | none => false
          | some e => (reds e).contains p && decide (action e la = .reduce p)
      else true

def chkPlan : Bool := (List.range nStates).all fun s => decide (s < 2) || chkPlanAt s

theorem chkPlan_ok : chkPlan = true := by decide +kernel

structure PlanOk (s p d : Nat) : Prop where
  pos : 0 < p
  pos' : 0 < d
  lt : p < nProds
  item : (p, d) ∈ kern s
  small : rank s < 8
  roots : (restOf s).map Tree.root = (rhs p).drop d
  goes : ∀ b g, b < nStates → gotoL b (lhs p) = some g → follow b ((rhs p).take d) = some s →
    (2 ≤ d ∨ rank g < rank s) ∧ ∀ la ∈ firsts g, nextTok (restOf s) la ∈ firsts s ∧
      ∃ e, LRF s (restOf s) la e ∧ p ∈ reds e ∧ action e la = .reduce p

theorem plan_ok {s : Nat} (hs : s < nStates) (h2 : 2 ≤ s) : ∃ p d, PlanOk s p d := by
  have h := all_range chkPlan_ok hs
  rw [Bool.or_eq_true, decide_eq_true_eq] at h
  rcases h with h | h
  · omega
  · unfold chkPlanAt at h
    simp only [Bool.and_eq_true, decide_eq_true_eq, List.contains_iff_mem] at h
    obtain ⟨⟨⟨⟨⟨⟨h1, h1'⟩, h2⟩, h3⟩, h4⟩, h5⟩, h6⟩ := h
    refine ⟨_, _, h1, h1', h2, h3, h4, h5, ?_⟩
    intro b g hb hg hf
    have h7 := all_range h6 hb
    rw [hg] at h7
    dsimp only at h7
    rw [if_pos hf] at h7
    simp only [Bool.and_eq_true, Bool.or_eq_true, decide_eq_true_eq, List.all_eq_true, List.contains_iff_mem] at h7
    refine ⟨h7.1, fun la hla => ?_⟩
    obtain ⟨h8, h9⟩ := h7.2 la hla
    refine ⟨h8, ?_⟩
    split at h9
    · cases h9
    · rename_i e he
      simp only [Bool.and_eq_true, decide_eq_true_eq, List.contains_iff_mem] at h9
      exact ⟨e, lrfB_ok he, h9.1, h9.2⟩

theorem minLeaf_good {a : Terminal} (h : a ∈ minTerms) : ∀ x ∈ (minLeaf a).yield, Good x := by
  intro x hx
  rw [minLeaf, Tree.yield, List.mem_singleton] at hx
  subst hx
  refine ⟨fun hk => ?_, fun _ => ⟨_, rfl⟩, fun hk => ?_, fun hk => ?_, fun hk => ?_, fun hk => ?_, fun hk => if_pos ?_⟩
  all_goals first
    | (revert hk h; revert a; decide +kernel)
    | (exfalso; revert hk h; revert a; decide +kernel)

theorem minTree_good (X : Nat) : ∀ x ∈ (minTree X).yield, Good x := by
  unfold minTree
  split
  all_goals first
    | exact minLeaf_good (by decide)
    | skip
  all_goals
    simp only [Tree.yield, yieldL, List.append_nil, List.not_mem_nil, false_imp_iff, implies_true, List.mem_append, or_imp, forall_and]
  all_goals first
    | exact minLeaf_good (by decide)
    | exact ⟨minLeaf_good (by decide), minLeaf_good (by decide)⟩

theorem restOf_good (s : Nat) : ∀ x ∈ yieldL (restOf s), Good x := by
  unfold restOf
  generalize (rhs (plan s).1).drop (plan s).2 = l
  induction l with
  | nil => intro x hx; rw [List.map_nil, yieldL] at hx; cases hx
  | cons X l ih =>
    intro x hx
    rw [List.map_cons, yieldL, List.mem_append] at hx
    rcases hx with hx | hx
    · exact minTree_good X x hx
    · exact ih x hx

theorem stk_of_follow {ts : List Tree} : ∀ {s : Nat}, follow 0 (ts.map Tree.root) = some s → ∃ v l vs, Stk ((s, v) :: l) ts vs := by
  induction ts using List.reverseRecOn with
  | nil => intro s h; cases h; exact ⟨{}, [], [], .base _⟩
  | append_singleton ts T ih =>
    intro s h
    rw [List.map_append, follow_append] at h
    cases hm : follow 0 (ts.map Tree.root) with
    | none => rw [hm] at h; cases h
    | some m =>
      rw [hm] at h
      obtain ⟨v, l, vs, hk⟩ := ih hm
      have h : LR.follow m [Tree.root T] = some s := h
      rw [LR.follow] at h
      cases ht : trans m (Tree.root T) with
      | none => rw [ht] at h; cases h
      | some s' =>
        rw [ht] at h
        have h : some s' = some s := h
        injection h with h
        subst h
        exact ⟨{}, _, _, .push hk ht⟩

/-- What the automaton has read can be completed. -/
theorem complete (n : Nat) : ∀ {ts : List Tree} {s : Nat}, 8 * ts.length + rank s ≤ n → follow 0 (ts.map Tree.root) = some s → s ≠ 0 →
    (∀ la ∈ firsts s, LRF 0 ts la s) → ∃ w T, LRF 0 [T] 1 1 ∧ T.yield = yieldL ts ++ w ∧ ∀ x ∈ w, Good x := by
  induction n using Nat.strongRecOn with
  | _ n ih =>
    intro ts s hn hf h0 h
    obtain ⟨v, l, vs, hk⟩ := stk_of_follow hf
    by_cases h1 : s = 1
    · subst h1
      obtain ⟨T, rfl, -⟩ := hk.accept
      have := h 1 (by decide)
      exact ⟨[], T, this, by rw [yieldL_single, List.append_nil], nofun⟩
    · obtain ⟨p, d, ok⟩ := plan_ok hk.lt (by omega)
      obtain ⟨ts1, ts2, vs1, vs2, b, wb, l', rfl, rfl, e3, e4, e5, e6, e7, -, -⟩ := hk.pop ok.item []
      rcases e6 with e6 | ⟨rfl, -⟩
      · obtain ⟨g, hg⟩ := Option.isSome_iff_exists.1 e6
        obtain ⟨r1, r2⟩ := ok.goes b g e5.lt hg e7
        have hd : ts2.length = d := by
          have h3 := hk.length
          have h4 := e5.length
          rw [List.length_append, List.length_append] at h3
          omega
        have hd1 := ok.pos'
        have hnew : ∀ la ∈ firsts g, LRF 0 (ts1 ++ [.node p (ts2 ++ restOf s)]) la g := by
          intro la hla
          obtain ⟨q1, e, q2, q3, q4⟩ := r2 la hla
          refine LRF.reduce (s := e) (b := b) ?_ e5.follow ok.pos ok.lt ?_ q3 q4 hg
          · rw [← List.append_assoc]
            exact LRF.append (h _ q1) q2
          · rw [List.map_append, e3, ok.roots, List.take_append_drop]
        have hg0 : g ≠ 0 := (trans_ok e5.lt (trans_goto ok.lt hg)).ne0
        have hfg : follow 0 ((ts1 ++ [Tree.node p (ts2 ++ restOf s)]).map Tree.root) = some g := by
          rw [List.map_append, follow_append, e5.follow]
          show follow b [lhs p] = _
          rw [follow, trans_goto ok.lt hg]; rfl
        have hrank : rank g < 8 := by
          have hglt := (trans_ok e5.lt (trans_goto ok.lt hg)).lt
          by_cases hg1 : g = 1
          · subst hg1; decide
          · obtain ⟨p', d', ok'⟩ := plan_ok hglt (by omega)
            exact ok'.small
        obtain ⟨w, T, t1, t2, t3⟩ := ih (8 * (ts1 ++ [Tree.node p (ts2 ++ restOf s)]).length + rank g) (by
          simp only [List.length_append, List.length_singleton] at hn ⊢
          rcases r1 with r1 | r1
          · omega
          · omega) (Nat.le_refl _) hfg hg0 hnew
        refine ⟨yieldL (restOf s) ++ w, T, t1, ?_, ?_⟩
        · rw [t2, yieldL_append, yieldL_single, Tree.yield, yieldL_append, yieldL_append]
          simp only [List.append_assoc]
        · intro x hx
          rw [List.mem_append] at hx
          rcases hx with hx | hx
          · exact restOf_good s x hx
          · exact t3 x hx
      · exact absurd ok.pos (by decide)

end Verif.LR
