import Verif.Proofs.LR.Check
/-! Consequences of the table checks, and the shape of one driver step. -/
namespace Verif.LR
open Tables Spec

theorem all_range {n : Nat} {p : Nat → Bool} (h : (List.range n).all p = true) {i : Nat} (hi : i < n) : p i = true := by
  rw [List.all_eq_true] at h
  exact h i (List.mem_range.2 hi)

theorem shiftOf_eq {s t : Nat} (hs : s < nStates) (ht : t < nToks) : shiftOf s t = shiftL s t :=
  of_decide_eq_true (all_range (all_range chkShift_ok hs) ht)

theorem gotoOf_eq {s p s' : Nat} (hs : s < nStates) (hp : p < nProds) (h : gotoL s (lhs p) = some s') : gotoOf s p = s' := by
  have := all_range (all_range chkGoto_ok hs) hp
  rw [h] at this
  exact of_decide_eq_true this

theorem lookup_mem {α β : Type} [BEq α] [LawfulBEq α] {l : List (α × β)} {a : α} {b : β} (h : l.lookup a = some b) : (a, b) ∈ l := by
  induction l with
  | nil => cases h
  | cons x l ih =>
    obtain ⟨x1, x2⟩ := x
    rw [List.lookup_cons] at h
    split at h
    · rename_i he
      have := eq_of_beq he
      subst this
      injection h with h
      subst h
      exact .head _
    · exact .tail _ (ih h)

/-- All that is known about a transition. -/
structure TransOk (s X s' : Nat) : Prop where
  lt : s' < nStates
  ne0 : s' ≠ 0
  acc : acc s' = X
  item : ∀ p d, (p, d) ∈ kern s' → d ≠ 0 ∧ (rhs p)[d - 1]? = some X ∧
    (if d = 1 then (gotoL s (lhs p)).isSome = true ∨ (p = 0 ∧ s = 0) else (p, d - 1) ∈ kern s)

theorem trans_ok {s X s' : Nat} (hs : s < nStates) (h : trans s X = some s') : TransOk s X s' := by
  have hc := all_range chkTrans_ok hs
  rw [Bool.and_eq_true, Bool.and_eq_true] at hc
  obtain ⟨-, hc⟩ := hc
  rw [List.all_eq_true] at hc
  have hm : (X, s') ∈ at10 [] shiftTab s ++ at10 [] gotoTab s := by
    unfold trans at h
    rw [List.mem_append]
    split at h
    · exact .inl (lookup_mem h)
    · exact .inr (lookup_mem h)
  have h1 := hc _ hm
  simp only [Bool.and_eq_true, decide_eq_true_eq] at h1
  obtain ⟨⟨⟨h1, h2⟩, h3⟩, h4⟩ := h1
  refine ⟨h1, h2, h3, ?_⟩
  intro p d hpd
  rw [List.all_eq_true] at h4
  have h5 := h4 _ hpd
  simp only [Bool.and_eq_true, decide_eq_true_eq] at h5
  obtain ⟨⟨h5, h6⟩, h7⟩ := h5
  refine ⟨h5, h6, ?_⟩
  split at h7
  · rename_i hd; rw [if_pos hd]; simpa using h7
  · rename_i hd; rw [if_neg hd]; simpa using h7

theorem shiftL_lt {s t s' : Nat} (hs : s < nStates) (h : shiftL s t = some s') : t < 100 := by
  have hc := all_range chkTrans_ok hs
  rw [Bool.and_eq_true, Bool.and_eq_true] at hc
  obtain ⟨⟨hc, -⟩, -⟩ := hc
  rw [List.all_eq_true] at hc
  exact of_decide_eq_true (hc _ (lookup_mem h))

theorem trans_shift {s t s' : Nat} (hs : s < nStates) (h : shiftL s t = some s') : trans s t = some s' := by
  unfold trans
  rw [if_pos (shiftL_lt hs h), h]

theorem lhs_ge {p : Nat} (hp : p < nProds) : 100 ≤ lhs p := by
  have := all_range chkProds_ok hp
  simp only [Bool.and_eq_true, decide_eq_true_eq] at this
  exact this.2

theorem yyR2_eq {p : Nat} (h0 : 0 < p) (hp : p < nProds) : (get yyR2 p).toNat = (rhs p).length := by
  have := all_range chkProds_ok hp
  simp only [Bool.and_eq_true, decide_eq_true_eq] at this
  rcases this.1 with h | h
  · omega
  · rw [h]; rfl

theorem trans_goto {s p s' : Nat} (hp : p < nProds) (h : gotoL s (lhs p) = some s') : trans s (lhs p) = some s' := by
  unfold trans
  rw [if_neg (by have := lhs_ge hp; omega), h]

theorem reds_ok {s p : Nat} (hs : s < nStates) (h : p ∈ reds s) : 0 < p ∧ p < nProds ∧
    (if rhs p = [] then (gotoL s (lhs p)).isSome = true else (p, (rhs p).length) ∈ kern s) := by
  have hc := all_range chkReds_ok hs
  rw [List.all_eq_true] at hc
  have := hc p h
  simp only [Bool.and_eq_true, decide_eq_true_eq] at this
  refine ⟨this.1.1, this.1.2, ?_⟩
  have h2 := this.2
  split at h2
  · rename_i he; rw [if_pos he]; exact h2
  · rename_i he; rw [if_neg he]; simpa using h2

theorem pot_ok {b p g t : Nat} (hb : b < nStates) (hp : p < nProds) (hg : gotoL b (lhs p) = some g)
    (hf : follow b (rhs p) = some t) (hr : p ∈ reds t) : pot g + 3 ≤ pot t + 2 * (rhs p).length := by
  have hc := all_range (all_range chkPot_ok hb) hp
  rw [hg] at hc
  dsimp only at hc
  rw [hf] at hc
  simp only [Bool.or_eq_true, Bool.not_eq_true', decide_eq_true_eq] at hc
  rcases hc with hc | hc
  · rw [List.contains_eq_mem] at hc
    exact absurd hr (of_decide_eq_false hc)
  · exact hc

theorem pot_le {s : Nat} (hs : s < nStates) : pot s ≤ 12 := by
  have : (List.range nStates).all (fun s => decide (pot s ≤ 12)) = true := by decide +kernel
  exact of_decide_eq_true (all_range this hs)

theorem dflAct_reduce {s t p : Nat} (hs : s < nStates) (ht : t < nToks) (h : dflAct s t = .reduce p) : p ∈ reds s := by
  have := all_range (all_range chkDfl_ok hs) ht
  rw [h] at this
  simpa using this

theorem dflAct_accept {s t : Nat} (hs : s < nStates) (ht : t < nToks) (h : dflAct s t = .accept) : s = 1 ∧ t = 1 := by
  have := all_range (all_range chkDfl_ok hs) ht
  rw [h] at this
  simpa using this

theorem dflAct_shift {s t s' : Nat} (hs : s < nStates) (ht : t < nToks) : dflAct s t ≠ .shift s' := by
  intro h
  have := all_range (all_range chkDfl_ok hs) ht
  rw [h] at this
  cases this

/-- `$end` and `error` are never shifted. -/
theorem shiftL_end {s : Nat} (hs : s < nStates) : shiftL s 1 = none := by
  have : ∀ s, s < nStates → shiftL s 1 = none := by decide +kernel
  exact this s hs

theorem tokNum_lt (k : Nat) : tokNum k < nToks ∧ (k ≠ 0 → tokNum k ≠ 1) := by
  have h1 : ∀ k, k < 94 → (tokNum k < nToks ∧ (k ≠ 0 → tokNum k ≠ 1)) := by decide +kernel
  have h2 : ∀ k, k < 50 → (tokNum (yyPrivate + k) < nToks ∧ (yyPrivate + k ≠ 0 → tokNum (yyPrivate + k) ≠ 1)) := by decide +kernel
  by_cases ha : k < 94
  · exact h1 k ha
  by_cases hb : yyPrivate ≤ k ∧ k < yyPrivate + 50
  · have := h2 (k - yyPrivate) (by omega)
    rwa [show yyPrivate + (k - yyPrivate) = k by omega] at this
  · have : tokNum k = 3 := by
      unfold tokNum
      rw [if_neg (by omega), if_neg (by omega), if_neg hb]
      decide +kernel
    rw [this]
    exact ⟨by decide, fun _ => by decide⟩

/-! ## One step -/

/-- Carrying out an action. -/
def perform (c : Cfg) : Act → Except Panic Step
  | .shift s' => .ok (.go (({ c with look := none } : Cfg).push s' { token := c.lval }))
  | .reduce p => reduce c p
  | .accept => .ok (.done 0 c.ast)
  | .error => syntaxError c

theorem dflAct_indep {s t : Nat} (h : get yyDef s ≠ -2) : dflAct s t = dflAct s 0 := by
  unfold dflAct; rw [if_neg h, if_neg h]

variable [Letters]

theorem defaultAction_eq {c : Cfg} {s : Nat} (h : get yyDef s ≠ -2) (t : Nat) :
    defaultAction c s = perform c (dflAct s t) := by
  unfold defaultAction dflAct
  dsimp only
  rw [if_neg h, if_neg h]
  split <;> rfl

theorem defaultAction_exca {c : Cfg} {s : Nat} (h : get yyDef s = -2) :
    defaultAction c s = perform (fetch c).1 (dflAct s (fetch c).2) := by
  unfold defaultAction dflAct ofEntry
  dsimp only
  rw [if_pos h, if_pos h]
  split
  · rfl
  · split <;> rfl

theorem step_lazy {c : Cfg} {s : Nat} {v : SV} {r : List (Nat × SV)} (hl : c.live = (s, v) :: r)
    (h : isLazy s = true) (t : Nat) : step c = perform c (dflAct s t) := by
  unfold isLazy at h
  simp only [Bool.and_eq_true, decide_eq_true_eq] at h
  unfold step
  rw [hl]
  dsimp only
  rw [if_pos h.1]
  exact defaultAction_eq h.2 t

theorem step_fetch {c : Cfg} {s : Nat} {v : SV} {r : List (Nat × SV)} (hl : c.live = (s, v) :: r)
    (h : isLazy s = false) :
    step c = perform (fetch c).1 (action s (fetch c).2) ∨
    (shiftOf s (fetch c).2 = none ∧ get yyDef s = -2 ∧
      step c = perform (fetch (fetch c).1).1 (dflAct s (fetch (fetch c).1).2)) := by
  unfold isLazy at h
  rw [Bool.and_eq_false_iff] at h
  simp only [decide_eq_false_iff_not] at h
  unfold step action
  rw [hl]
  dsimp only
  by_cases hp : get yyPact s ≤ yyFlag
  · rw [if_pos hp, if_pos hp]
    have : get yyDef s = -2 := by
      rcases h with h | h
      · exact absurd hp h
      · exact Decidable.not_not.1 h
    exact .inl (defaultAction_exca this)
  · rw [if_neg hp, if_neg hp]
    cases hsh : shiftOf s (fetch c).2 with
    | some s' => exact .inl rfl
    | none =>
      dsimp only
      by_cases hd : get yyDef s = -2
      · exact .inr ⟨rfl, hd, defaultAction_exca hd⟩
      · exact .inl (defaultAction_eq hd _)

theorem fetch_look {c : Cfg} {t : Nat} (h : c.look = some t) : fetch c = (c, t) := by
  unfold fetch; rw [h]

theorem fetch_none {c : Cfg} (h : c.look = none) :
    fetch c = match lexCall c.ast c.lval with
      | (a, t, none) => ({ c with ast := a, lval := t }, tokEnd)
      | (a, t, some k) => ({ c with ast := a, lval := t, look := some (tokNum k) }, tokNum k) := by
  unfold fetch; rw [h]; rfl

end Verif.LR
