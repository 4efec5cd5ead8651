import Verif.Proofs.ErrorWork
import Verif.Proofs.LR.Whole
/-! No more errors than rounds: an upper bound for the counts of `Verif/ErrorWork.lean`. -/
namespace Verif.ErrorWork
open Lexer Tables LR

/-- Errors that a value on the stack may still cause: one for each variable of a list. -/
def credit (X : Nat) (v : SV) : Nat := if X = 125 then v.identifiers.length else if X = 132 then v.global_variables.length else 0

/-- The credit of a stack. -/
def credits : List Tree → List SV → Nat
  | T :: ts, v :: vs => credit T.root v + credits ts vs
  | _, _ => 0

theorem credits_append {ts1 ts2 : List Tree} {vs1 vs2 : List SV} (h : vs1.length = ts1.length) :
    credits (ts1 ++ ts2) (vs1 ++ vs2) = credits ts1 vs1 + credits ts2 vs2 := by
  induction ts1 generalizing vs1 with
  | nil =>
    rw [List.length_eq_zero_iff.1 h]
    simp [credits]
  | cons T ts1 ih =>
    cases vs1 with
    | nil => cases h
    | cons v vs1 =>
      rw [List.cons_append, List.cons_append, credits, credits, ih (by simpa using h), Nat.add_assoc]

theorem credits_get {ts : List Tree} {vs : List SV} (h : vs.length = ts.length) {i X : Nat} (hi : (ts.map Tree.root)[i]? = some X)
    (st : List SV) : credit X ((vs ++ st).getD i {}) ≤ credits ts vs := by
  induction ts generalizing vs i with
  | nil => cases hi
  | cons T ts ih =>
    cases vs with
    | nil => cases h
    | cons v vs =>
      rw [credits]
      cases i with
      | zero =>
        injection hi with hi
        subst hi
        exact Nat.le_add_right _ _
      | succ i => exact Nat.le_trans (ih (vs := vs) (i := i) (by simpa using h) hi) (Nat.le_add_left _ _)

theorem globals_le (vs : List GVar) : ∀ a, globalsErrors a vs ≤ vs.length := by
  induction vs with
  | nil => exact fun _ => Nat.le_refl _
  | cons v vs ih =>
    intro a
    rw [globalsErrors, List.length_cons]
    have h1 : (if a.mod.body ≠ [] then 1 else if a.mod.globals.any (fun g => g.name == v.name) then 1 else 0) ≤ 1 := by
      split
      · exact Nat.le_refl _
      · split <;> omega
    cases appendGlobal a v with
    | ok a' =>
      have := ih a'
      dsimp only
      omega
    | error _ =>
      dsimp only
      omega

theorem act_le {p : Nat} (hp : p ≠ 6) (d : Nat → SV) (a : Ast) : actErrors p d a ≤ 1 := by
  unfold actErrors
  split
  · exact absurd rfl hp
  all_goals (repeat' split) <;> omega

theorem lhs_lists {p : Nat} (h0 : 0 < p) (hp : p < nProds) : (lhs p = 125 → p = 107 ∨ p = 108) ∧ (lhs p = 132 → p = 12) := by
  have h : ∀ p, p < nProds → 0 < p → (lhs p = 125 → p = 107 ∨ p = 108) ∧ (lhs p = 132 → p = 12) := by decide +kernel
  exact h p hp h0

/-- An action takes from the credit of the right side what it has of errors and of credit on the left side, but for one. -/
theorem act_credit {p : Nat} (h0 : 0 < p) (hp : p < nProds) {ts : List Tree} {vs st : List SV} (hl : vs.length = ts.length)
    (hr : ts.map Tree.root = rhs p) (a : Ast) :
    actErrors p (fun i => (vs ++ st).getD (i - 1) {}) a ≤ 1 + credits ts vs ∧
    ∀ w a', act p (fun i => (vs ++ st).getD (i - 1) {}) ((vs ++ st).headD {}) a = .ok (w, a') →
      actErrors p (fun i => (vs ++ st).getD (i - 1) {}) a + credit (lhs p) w ≤ 1 + credits ts vs := by
  have hget : ∀ i X, (rhs p)[i]? = some X → credit X ((vs ++ st).getD i {}) ≤ credits ts vs :=
    fun i X h => credits_get hl (by rw [hr]; exact h) st
  by_cases h6 : p = 6
  · subst h6
    have h1 := hget 0 132 (by decide +kernel)
    have h2 := globals_le ((vs ++ st).getD 0 {}).global_variables a
    have h3 : credit 132 ((vs ++ st).getD 0 {}) = ((vs ++ st).getD 0 {}).global_variables.length := rfl
    have h4 : actErrors 6 (fun i => (vs ++ st).getD (i - 1) {}) a = globalsErrors a ((vs ++ st).getD 0 {}).global_variables := rfl
    have h5 : ∀ w, credit (lhs 6) w = 0 := by
      intro w
      unfold credit
      rw [if_neg (by decide +kernel), if_neg (by decide +kernel)]
    rw [h4]
    refine ⟨by omega, fun w a' _ => ?_⟩
    rw [h5]
    omega
  · have h1 := act_le h6 (fun i => (vs ++ st).getD (i - 1) {}) a
    refine ⟨by omega, fun w a' h => ?_⟩
    obtain ⟨k1, k2⟩ := lhs_lists h0 hp
    by_cases e1 : lhs p = 125
    · rcases k1 e1 with rfl | rfl
      · injection h with h
        injection h with h _
        subst h
        rw [e1]
        show 0 + 1 ≤ _
        omega
      · have h3 := hget 0 125 (by decide +kernel)
        have h4 : credit 125 ((vs ++ st).getD 0 {}) = ((vs ++ st).headD {}).identifiers.length := by
          cases vs ++ st <;> rfl
        injection h with h
        injection h with h _
        subst h
        rw [e1]
        show 0 + (((vs ++ st).headD {}).identifiers ++ [_]).length ≤ _
        rw [List.length_append, List.length_singleton]
        omega
    · by_cases e2 : lhs p = 132
      · obtain rfl := k2 e2
        have h3 := hget 2 125 (by decide +kernel)
        have h4 : credit 125 ((vs ++ st).getD 2 {}) = ((vs ++ st).getD 2 {}).identifiers.length := rfl
        injection h with h
        injection h with h _
        subst h
        rw [e2]
        show 0 + (List.map _ ((vs ++ st).getD 2 {}).identifiers).length ≤ _
        rw [List.length_map]
        omega
      · have : credit (lhs p) w = 0 := by
          unfold credit
          rw [if_neg e1, if_neg e2]
        omega

theorem front_le (a : Ast) : a.front ≤ a.code.length := by
  unfold Ast.front
  split
  · exact Nat.zero_le _
  · exact Nat.sub_le _ _

/-- A stack with a credit. -/
structure Credit (code : List Char) (z : Nat) (c : Cfg) : Prop where
  codeEq : c.ast.code = code
  stk : ∃ ts vs, Stk c.live ts vs ∧ credits ts vs = z
  look : ∀ t, c.look = some t → ∃ k, t = tokNum k ∧ k ≠ 0

/-- What a round reads is paid for by the credit and by one more error. -/
def CreditPost (code : List Char) (z : Nat) (k : Nat) : Except Panic Step → Prop
  | .ok (.go c') => ∃ z', Credit code z' c' ∧ k + code.length * z' ≤ code.length * (z + 1)
  | _ => k ≤ code.length * (z + 1)

/-- The characters read for errors in an action (see `perform`). -/
def performFront (c : Cfg) : Act → Nat
  | .shift _ => 0
  | .reduce p => reduceFront c p
  | .accept => 0
  | .error => c.ast.front

theorem defaultFront_eq [Letters] {c : Cfg} {s : Nat} (h : get yyDef s ≠ -2) (t : Nat) :
    defaultFront c s = performFront c (dflAct s t) := by
  unfold defaultFront dflAct
  dsimp only
  rw [if_neg h, if_neg h]
  split <;> rfl

theorem defaultFront_exca [Letters] {c : Cfg} {s : Nat} (h : get yyDef s = -2) :
    defaultFront c s = performFront (fetch c).1 (dflAct s (fetch c).2) := by
  unfold defaultFront dflAct ofEntry
  dsimp only
  rw [if_pos h, if_pos h]
  split
  · rfl
  · split <;> rfl

theorem stepFront_lazy [Letters] {c : Cfg} {s : Nat} {v : SV} {r : List (Nat × SV)} (hl : c.live = (s, v) :: r)
    (h : isLazy s = true) (t : Nat) : stepFront c = performFront c (dflAct s t) := by
  unfold isLazy at h
  simp only [Bool.and_eq_true, decide_eq_true_eq] at h
  unfold stepFront
  rw [hl]
  dsimp only
  rw [if_pos h.1]
  exact defaultFront_eq h.2 t

theorem stepFront_fetch [Letters] {c : Cfg} {s : Nat} {v : SV} {r : List (Nat × SV)} (hl : c.live = (s, v) :: r) (h : isLazy s = false) :
    (step c = perform (fetch c).1 (action s (fetch c).2) ∧ stepFront c = performFront (fetch c).1 (action s (fetch c).2)) ∨
    (step c = perform (fetch (fetch c).1).1 (dflAct s (fetch (fetch c).1).2) ∧
      stepFront c = performFront (fetch (fetch c).1).1 (dflAct s (fetch (fetch c).1).2)) := by
  unfold isLazy at h
  rw [Bool.and_eq_false_iff] at h
  simp only [decide_eq_false_iff_not] at h
  unfold step stepFront action
  rw [hl]
  dsimp only
  by_cases hp : get yyPact s ≤ yyFlag
  · rw [if_pos hp, if_pos hp, if_pos hp]
    have : get yyDef s = -2 := by
      rcases h with h | h
      · exact absurd hp h
      · exact Decidable.not_not.1 h
    exact .inl ⟨defaultAction_exca this, defaultFront_exca this⟩
  · rw [if_neg hp, if_neg hp, if_neg hp]
    cases hsh : shiftOf s (fetch c).2 with
    | some s' => exact .inl ⟨rfl, rfl⟩
    | none =>
      dsimp only
      by_cases hd : get yyDef s = -2
      · exact .inr ⟨defaultAction_exca hd, defaultFront_exca hd⟩
      · exact .inl ⟨defaultAction_eq hd _, defaultFront_eq hd _⟩

theorem reduce_credit {code : List Char} {z : Nat} {c : Cfg} {s v r p} (h : Credit code z c) (hl : c.live = (s, v) :: r) (hp : p ∈ reds s) :
    CreditPost code z (reduceFront c p) (reduce c p) := by
  obtain ⟨ts, vs, hst, hz⟩ := h.stk
  rw [hl] at hst
  obtain ⟨h0, hpn, -⟩ := reds_ok hst.lt hp
  obtain ⟨ts1, ts2, vs1, vs2, b, wb, l', g, rfl, rfl, e3, e4, e5, e6, e7, e8, e9⟩ := hst.popRed hp c.stale
  have hl2 : vs2.length = ts2.length := by
    have := congrArg List.length e3
    rw [List.length_map] at this
    omega
  rw [credits_append e5.length] at hz
  obtain ⟨k1, k2⟩ := act_credit h0 hpn (st := c.stale) hl2 e3 c.ast
  have hf := front_le c.ast
  rw [h.codeEq] at hf
  unfold reduce reduceFront
  rw [yyR2_eq h0 hpn, hl]
  dsimp only
  rw [e8]
  dsimp only
  rw [gotoOf_eq e5.lt hpn e6]
  revert k1 k2
  generalize actErrors p (fun i => (vs2 ++ c.stale).getD (i - 1) {}) c.ast = q
  intro k1 k2
  cases hact : act p (fun i => (vs2 ++ c.stale).getD (i - 1) {}) ((vs2 ++ c.stale).headD {}) c.ast with
  | error _ =>
    show q * c.ast.front ≤ code.length * (z + 1)
    rw [Nat.mul_comm]
    exact Nat.mul_le_mul hf (by omega)
  | ok x =>
    obtain ⟨w, a'⟩ := x
    have k3 := k2 w a' hact
    show ∃ z', Credit code z' ⟨a', c.lval, c.look, (g, w) :: (b, wb) :: l', (vs2 ++ c.stale).tail⟩ ∧ _
    refine ⟨credits ts1 vs1 + credit (lhs p) w, ⟨(act_frame hact).code.trans h.codeEq,
      ⟨ts1 ++ [.node p ts2], vs1 ++ [w], .push (T := .node p ts2) e5 (trans_goto hpn e6), ?_⟩, h.look⟩, ?_⟩
    · rw [credits_append e5.length]
      simp [credits, Tree.root]
    · have h1 : q * c.ast.front ≤ code.length * q := by rw [Nat.mul_comm]; exact Nat.mul_le_mul_right _ hf
      have h2 : code.length * q + code.length * (credits ts1 vs1 + credit (lhs p) w) ≤ code.length * (z + 1) := by
        rw [← Nat.mul_add]
        exact Nat.mul_le_mul_left _ (by omega)
      omega

theorem syntaxError_credit {code : List Char} {z : Nat} {c : Cfg} (h : Credit code z c) : CreditPost code z c.ast.front (syntaxError c) := by
  obtain ⟨ts, vs, hst, -⟩ := h.stk
  have hf := front_le c.ast
  rw [h.codeEq] at hf
  have : c.ast.front ≤ code.length * (z + 1) := by rw [Nat.mul_add]; omega
  rw [syntaxError_eq hst]
  cases he : c.ast.error .syntaxError with
  | error q => exact this
  | ok a => exact this

variable [Letters]

theorem Credit.fetch {code : List Char} {z : Nat} {c : Cfg} (hc : code ≠ []) (h : Credit code z c) :
    Credit code z (fetch c).1 ∧ (fetch c).1.live = c.live ∧ (fetch c).2 < nToks ∧ ((fetch c).1.look = some (fetch c).2 ∨ (fetch c).2 = 1) := by
  cases hl : c.look with
  | some t =>
    rw [fetch_look hl]
    obtain ⟨k, hk, -⟩ := h.look t hl
    exact ⟨h, rfl, hk ▸ (tokNum_lt k).1, .inl hl⟩
  | none =>
    have hcode : c.ast.code ≠ [] := by rw [h.codeEq]; exact hc
    rw [fetch_none hl, lexCall_eq hcode]
    rcases hx : lexNext c.lval with ⟨t', e | (_ | k)⟩
    · exact ⟨⟨h.codeEq, h.stk, fun t ht => by dsimp only at ht; rw [hl] at ht; cases ht⟩, rfl, (by show tokEnd < nToks; decide), .inr rfl⟩
    · exact ⟨⟨h.codeEq, h.stk, fun t ht => by dsimp only at ht; rw [hl] at ht; cases ht⟩, rfl, (by show tokEnd < nToks; decide), .inr rfl⟩
    · refine ⟨⟨h.codeEq, h.stk, ?_⟩, rfl, (tokNum_lt k).1, .inl rfl⟩
      rintro t ⟨⟩
      exact ⟨k, rfl, lexNext_kind_ne_zero hx⟩

omit [Letters] in
theorem perform_credit {code : List Char} {z : Nat} {c : Cfg} {s v r t A} (h : Credit code z c) (hl : c.live = (s, v) :: r) (ht : t < nToks)
    (hA : A = action s t ∨ A = dflAct s t) (hk : c.look = some t ∨ t = 1) : CreditPost code z (performFront c A) (perform c A) := by
  obtain ⟨ts, vs, hst, hz⟩ := h.stk
  rw [hl] at hst
  have hlt := hst.lt
  have hshift : (∃ s', A = .shift s' ∧ shiftL s t = some s') ∨ A = dflAct s t := by
    rcases hA with hA | hA
    · unfold action at hA
      split at hA
      · exact .inr hA
      · rw [shiftOf_eq hlt ht] at hA
        split at hA
        · rename_i s' hs'; exact .inl ⟨s', hA, hs'⟩
        · exact .inr hA
    · exact .inr hA
  rcases hshift with ⟨s', rfl, hs'⟩ | hA
  · have hk' : c.look = some t := by
      rcases hk with hk | h1
      · exact hk
      · subst h1; rw [shiftL_end hlt] at hs'; cases hs'
    obtain ⟨k, rfl, hk0⟩ := h.look t hk'
    refine ⟨z, ⟨h.codeEq, ⟨ts ++ [.leaf k c.lval], vs ++ [{ token := c.lval }], ?_, ?_⟩, nofun⟩, ?_⟩
    · show Stk ((s', _) :: c.live) _ _
      rw [hl]
      exact .push hst (trans_shift hlt hs')
    · rw [credits_append hst.length, hz]
      have h1 := (tokNum_lt k).1
      unfold nToks at h1
      have h2 : credit (tokNum k) { token := c.lval } = 0 := by
        unfold credit
        rw [if_neg (by omega), if_neg (by omega)]
      show z + (credit (tokNum k) { token := c.lval } + 0) = z
      rw [h2, Nat.zero_add, Nat.add_zero]
    · show 0 + _ ≤ _
      rw [Nat.zero_add]
      exact Nat.mul_le_mul_left _ (by omega)
  · cases A with
    | shift s' => exact absurd hA.symm (dflAct_shift hlt ht)
    | reduce p => exact reduce_credit h hl (dflAct_reduce hlt ht hA.symm)
    | accept => exact Nat.zero_le _
    | error => exact syntaxError_credit h

theorem step_credit {code : List Char} {z : Nat} (hc : code ≠ []) {c : Cfg} (h : Credit code z c) :
    CreditPost code z (stepFront c) (step c) := by
  obtain ⟨ts, vs, hst, -⟩ := h.stk
  cases hl : c.live with
  | nil => exact absurd hl hst.ne_nil
  | cons x r =>
    obtain ⟨s, v⟩ := x
    rw [hl] at hst
    have hlt := hst.lt
    by_cases hz : isLazy s = true
    · rw [step_lazy hl hz 0, stepFront_lazy hl hz 0]
      cases hA : dflAct s 0 with
      | shift s' => exact absurd hA (dflAct_shift hlt (by decide))
      | reduce p => exact reduce_credit h hl (dflAct_reduce hlt (by decide) hA)
      | accept => exact Nat.zero_le _
      | error => exact syntaxError_credit h
    · obtain ⟨f1, f2, f3, f4⟩ := h.fetch hc
      rcases stepFront_fetch hl (Bool.not_eq_true _ ▸ hz) with ⟨he, he'⟩ | ⟨he, he'⟩
      · rw [he, he']; exact perform_credit f1 (f2.trans hl) f3 (.inl rfl) f4
      · rw [he, he']
        obtain ⟨g1, g2, g3, g4⟩ := f1.fetch hc
        exact perform_credit g1 (g2.trans (f2.trans hl)) g3 (.inr rfl) g4

theorem run_credit {code : List Char} (hc : code ≠ []) (n : Nat) (z : Nat) (c : Cfg) (h : Credit code z c) :
    runFront n c ≤ code.length * (z + n) := by
  induction n generalizing c z with
  | zero => exact Nat.zero_le _
  | succ n ih =>
    have hp := step_credit hc h
    rw [runFront]
    revert hp
    generalize stepFront c = k
    generalize step c = y
    intro hp
    match y, hp with
    | .ok (.go c'), ⟨z', h1, h2⟩ =>
      have h3 := ih z' c' h1
      dsimp only
      rw [Nat.mul_add] at *
      rw [Nat.mul_add] at *
      omega
    | .ok (.done j a), hp =>
      have hp : k ≤ code.length * (z + 1) := hp
      exact Nat.le_trans hp (Nat.mul_le_mul_left _ (by omega))
    | .error q, hp =>
      have hp : k ≤ code.length * (z + 1) := hp
      exact Nat.le_trans hp (Nat.mul_le_mul_left _ (by omega))

theorem parse_credit (a : Ast) : parseFront a ≤ a.code.length * (15 * a.code.length + 16) := by
  unfold parseFront
  split
  · exact Nat.zero_le _
  · rename_i hb
    have hc : a.code ≠ [] := by rintro h; rw [h] at hb; exact hb rfl
    have := run_credit hc (fuel a.code.length) 0 (initCfg a) ⟨rfl, ⟨[], [], .base _, rfl⟩, nofun⟩
    rw [Nat.zero_add] at this
    exact this

end Verif.ErrorWork
