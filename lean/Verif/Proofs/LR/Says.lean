import Verif.Proofs.LR.Step
import Verif.Spec.Tokens
/-! Which errors are recorded, and where they point. -/
namespace Verif
open Lexer Spec

section
variable {R : Ast → Ast → Prop}
  (hu : ∀ a a' : Ast, a'.code = a.code → a'.cur = a.cur → a'.err = a.err → R a a')
  (he : ∀ (a a' : Ast) (m : Msg), a.error m = .ok a' → m ≠ .syntaxError → R a a')
  (ht : ∀ a b c : Ast, R a b → R b c → R a c)
include hu he

theorem appendGlobal_rel {a a' : Ast} {v : GVar} (h : appendGlobal a v = .ok a') : R a a' := by
  unfold appendGlobal at h
  split at h
  · exact he _ _ _ h nofun
  · split at h
    · exact he _ _ _ h nofun
    · injection h with h; subst h; exact hu _ _ rfl rfl rfl

include ht in
theorem appendGlobals_rel {vs : List GVar} {a a' : Ast} (h : appendGlobals a vs = .ok a') : R a a' := by
  induction vs generalizing a with
  | nil => injection h with h; subst h; exact hu _ _ rfl rfl rfl
  | cons v vs ih =>
    rw [appendGlobals] at h
    obtain ⟨b, h1, h2⟩ := bind_ok h
    exact ht _ _ _ (appendGlobal_rel hu he h1) (ih h2)

include ht in
/-- Every action is made of `AstNode.Error` calls and of updates that leave text, token and error alone. -/
theorem act_rel {p : Nat} {d : Nat → SV} {v v' : SV} {a a' : Ast} (h : act p d v a = .ok (v', a')) : R a a' := by
  unfold act at h
  split at h <;> try (obtain ⟨rfl, rfl⟩ := pair_ok h; exact hu _ _ rfl rfl rfl)
  -- 6
  · obtain ⟨b, h1, h2⟩ := bind_ok h
    obtain ⟨rfl, rfl⟩ := pair_ok h2
    exact appendGlobals_rel hu he ht h1
  -- 7
  · split at h
    · obtain ⟨b, h1, h2⟩ := bind_ok h
      obtain ⟨rfl, rfl⟩ := pair_ok h2
      unfold appendFunc at h1
      split at h1
      · exact he _ _ _ h1 nofun
      · injection h1 with h1; subst h1; exact hu _ _ rfl rfl rfl
    · obtain ⟨rfl, rfl⟩ := pair_ok h; exact hu _ _ rfl rfl rfl
  -- 19
  · obtain ⟨b, h1, h2⟩ := bind_ok h
    obtain ⟨rfl, rfl⟩ := pair_ok h2
    unfold checkColon at h1
    split at h1
    · split at h1
      · injection h1 with h1; subst h1; exact hu _ _ rfl rfl rfl
      · injection h1 with h1; subst h1; exact hu _ _ rfl rfl rfl
      · exact he _ _ _ h1 nofun
    · injection h1 with h1; subst h1; exact hu _ _ rfl rfl rfl
  -- 26
  · obtain ⟨b, h1, h2⟩ := bind_ok h
    split at h2
    · obtain ⟨c, h3, h4⟩ := bind_ok h2
      obtain ⟨rfl, rfl⟩ := pair_ok h4
      exact he _ _ _ h3 nofun
    · obtain ⟨rfl, rfl⟩ := pair_ok h2; exact hu _ _ rfl rfl rfl
  -- 27
  · obtain ⟨b, h1, h2⟩ := bind_ok h
    split at h2
    · obtain ⟨c, h3, h4⟩ := bind_ok h2
      obtain ⟨rfl, rfl⟩ := pair_ok h4
      exact he _ _ _ h3 nofun
    · obtain ⟨rfl, rfl⟩ := pair_ok h2; exact hu _ _ rfl rfl rfl
  all_goals
    obtain ⟨b, h1, h2⟩ := bind_ok h
    obtain ⟨rfl, rfl⟩ := pair_ok h2
    first
      | unfold checkLoop at h1
      | unfold checkThrow at h1
      | unfold checkReturn at h1
    split at h1
    · exact he _ _ _ h1 nofun
    · injection h1 with h1; subst h1; exact hu _ _ rfl rfl rfl

end

namespace LR
variable [Letters]

/-- The token `t` was read from the text `code`. -/
def FromText (code : List Char) (t : Tok) (k : Nat) : Prop :=
  ∃ n, lexNext (afterCalls n (startTok code)) = (t, .ok (some k))

theorem afterCalls_succ (n : Nat) (t : Tok) : afterCalls (n + 1) t = (lexNext (afterCalls n t)).1 := by
  induction n generalizing t with
  | zero => rfl
  | succ n ih => rw [afterCalls, ih]; rfl

theorem fetch_lval {code : List Char} {c : Cfg} (hc : c.ast.code ≠ []) (h : ∃ n, c.lval = afterCalls n (startTok code)) :
    ∃ n, (fetch c).1.lval = afterCalls n (startTok code) := by
  cases hl : c.look with
  | some t => rw [fetch_look hl]; exact h
  | none =>
    rw [fetch_none hl, lexCall_eq hc]
    obtain ⟨n, h⟩ := h
    refine ⟨n + 1, ?_⟩
    rw [afterCalls_succ, ← h]
    rcases hx : lexNext c.lval with ⟨t', e | (_ | k)⟩ <;> rfl

/-- Current token and error belong to the text. -/
structure PosOk (code : List Char) (a : Ast) : Prop where
  codeEq : a.code = code
  cur : ∀ t, a.cur = some t → ∃ k, FromText code t k
  err : ∀ m l c lit, a.err = some (.at m l c lit) → ∃ t k, FromText code t k ∧ lit = t.literal ∧
    l = (getPosition code t.rest).1 ∧ c = (getPosition code t.rest).2 - (t.literal.length + 1)

theorem PosOk.error {code : List Char} {a a' : Ast} {m : Msg} (h : PosOk code a) (he : a.error m = .ok a') :
    PosOk code a' := by
  unfold Ast.error at he
  split at he
  · cases he
  · rename_i t ht
    injection he with he
    subst he
    refine ⟨h.codeEq, h.cur, ?_⟩
    intro m l c lit hx
    dsimp only at hx
    injection hx with hx
    injection hx with _ h1 h2 h3
    obtain ⟨k, hk⟩ := h.cur t ht
    rw [h.codeEq] at h1 h2
    exact ⟨t, k, hk, h3.symm, h1.symm, h2.symm⟩

theorem PosOk.act {code : List Char} {p d v v'} {a a' : Ast} (h : PosOk code a) (hx : act p d v a = .ok (v', a')) :
    PosOk code a' := by
  refine act_rel (R := fun a a' => PosOk code a → PosOk code a') ?_ ?_ ?_ hx h
  · intro a a' h1 h2 h3 h
    exact ⟨h1.trans h.codeEq, by rw [h2]; exact h.cur, by rw [h3]; exact h.err⟩
  · intro a a' m h1 _ h
    exact h.error h1
  · intro a b c h1 h2 h3
    exact h2 (h1 h3)

theorem PosOk.fetch {code : List Char} {c : Cfg} (hc : code ≠ []) (hs : ∃ n, c.lval = afterCalls n (startTok code))
    (h : PosOk code c.ast) : PosOk code (fetch c).1.ast := by
  cases hl : c.look with
  | some t => rw [fetch_look hl]; exact h
  | none =>
    have hcode : c.ast.code ≠ [] := by rw [h.codeEq]; exact hc
    rw [fetch_none hl, lexCall_eq hcode]
    rcases hx : lexNext c.lval with ⟨t', e | (_ | k)⟩
    · exact ⟨h.codeEq, h.cur, nofun⟩
    · exact h
    · refine ⟨h.codeEq, ?_, h.err⟩
      rintro t ⟨⟩
      obtain ⟨n, hs⟩ := hs
      exact ⟨k, n, by rw [← hs]; exact hx⟩

/-- `PosOk` for the configuration after a step. -/
def PosPost (code : List Char) : Except Panic Step → Prop
  | .error _ => True
  | .ok (.go c') => PosOk code c'.ast ∧ ∃ n, c'.lval = afterCalls n (startTok code)
  | .ok (.done _ a) => PosOk code a

theorem perform_pos {code : List Char} {c : Cfg} (h : PosOk code c.ast) (hs : ∃ n, c.lval = afterCalls n (startTok code))
    (A : Act) : PosPost code (perform c A) := by
  cases A with
  | shift s => exact ⟨h, hs⟩
  | accept => exact h
  | error =>
    show PosPost code (syntaxError c)
    unfold syntaxError
    cases he : c.ast.error .syntaxError with
    | error q => trivial
    | ok a =>
      cases recover c.live
      · exact h.error he
      · exact ⟨h.error he, hs⟩
  | reduce p =>
    show PosPost code (reduce c p)
    unfold reduce
    dsimp only
    split
    · exact h
    · rename_i b wb l hx
      cases ha : act p (fun i => (popN (Tables.get Tables.yyR2 p).toNat c.live c.stale).2.getD (i - 1) {})
          ((popN (Tables.get Tables.yyR2 p).toNat c.live c.stale).2.headD {}) c.ast with
      | error q => trivial
      | ok x => exact ⟨h.act ha, hs⟩

theorem step_pos {code : List Char} {c : Cfg} (hc : code ≠ []) (h : PosOk code c.ast)
    (hs : ∃ n, c.lval = afterCalls n (startTok code)) : PosPost code (step c) := by
  cases hl : c.live with
  | nil => unfold step; rw [hl]; exact h
  | cons x r =>
    obtain ⟨s, v⟩ := x
    by_cases hz : isLazy s = true
    · rw [step_lazy hl hz 0]
      exact perform_pos h hs _
    · have hcode : c.ast.code ≠ [] := by rw [h.codeEq]; exact hc
      have h1 := h.fetch hc hs
      have h2 := fetch_lval hcode hs
      have hcode1 : (Verif.fetch c).1.ast.code ≠ [] := by rw [h1.codeEq]; exact hc
      rcases step_fetch hl (Bool.not_eq_true _ ▸ hz) with he | ⟨-, -, he⟩
      · rw [he]; exact perform_pos h1 h2 _
      · rw [he]; exact perform_pos (h1.fetch hc h2) (fetch_lval hcode1 h2) _

theorem run_pos {code : List Char} (hc : code ≠ []) (n : Nat) (c : Cfg) (hp : PosOk code c.ast)
    (hl : ∃ n, c.lval = afterCalls n (startTok code)) {k a} (hr : run n c = .ok (some (k, a))) : PosOk code a := by
  induction n generalizing c with
  | zero => cases hr
  | succ n ih =>
    have hp' := step_pos hc hp hl
    unfold run at hr
    cases hs : step c with
    | error q => rw [hs] at hr; cases hr
    | ok x =>
      rw [hs] at hr hp'
      cases x with
      | go c' => exact ih c' hp'.1 hp'.2 hr
      | done k a =>
        injection hr with hr; injection hr with hr; injection hr with hr1 hr2
        subst hr2
        exact hp'

/-- A syntax error is never recorded by a step after which the driver goes on. -/
def NoSyn (a a' : Ast) : Prop := ∀ l c lit, a'.err = some (.at .syntaxError l c lit) → a.err = a'.err

omit [Letters] in
theorem act_noSyn {p d v v'} {a a' : Ast} (hx : act p d v a = .ok (v', a')) : NoSyn a a' := by
  refine act_rel (R := NoSyn) ?_ ?_ ?_ hx
  · intro a a' _ _ h3 l c lit _; exact h3.symm
  · intro a a' m h1 hm l c lit h2
    unfold Ast.error at h1
    split at h1
    · cases h1
    · injection h1 with h1
      subst h1
      dsimp only at h2
      injection h2 with h2
      injection h2 with h2
      exact absurd h2 hm
  · intro a b c h1 h2 l cc lit h3
    have h4 := h2 l cc lit h3
    exact (h1 l cc lit (h4.trans h3)).trans h4

theorem fetch_noSyn {c : Cfg} : NoSyn c.ast (fetch c).1.ast := by
  intro l cc lit
  cases hl : c.look with
  | some t => rw [fetch_look hl]; exact fun _ => rfl
  | none =>
    rw [fetch_none hl]
    unfold lexCall
    split
    · rename_i a t hx
      split at hx
      · injection hx with hx _; subst hx; exact fun _ => rfl
      · split at hx
        · injection hx with hx _; subst hx; exact nofun
        · injection hx with hx _; subst hx; exact fun _ => rfl
        · cases hx
    · rename_i a t k hx
      split at hx
      · cases hx
      · split at hx
        · cases hx
        · cases hx
        · injection hx with hx _; subst hx; exact fun _ => rfl

omit [Letters] in
theorem perform_noSyn {c c' : Cfg} {ts vs} (hst : Stk c.live ts vs) {A : Act} (h : perform c A = .ok (.go c')) : NoSyn c.ast c'.ast := by
  cases A with
  | shift s => injection h with h; injection h with h; subst h; exact fun _ _ _ _ => rfl
  | accept => cases h
  | error =>
    change syntaxError c = _ at h
    rw [syntaxError_eq hst] at h
    obtain ⟨a, _, h2⟩ := bind_ok h
    cases h2
  | reduce p =>
    change reduce c p = _ at h
    unfold reduce at h
    dsimp only at h
    split at h
    · cases h
    · obtain ⟨x, h1, h2⟩ := bind_ok h
      injection h2 with h2; injection h2 with h2
      subst h2
      exact act_noSyn h1

theorem step_noSyn {code : List Char} {σ0 : St} {c c' : Cfg} {ts : List Tree} (hc : code ≠ []) (hi : Inv code σ0 c ts) (h : step c = .ok (.go c')) : NoSyn c.ast c'.ast := by
  cases hl : c.live with
  | nil => unfold step at h; rw [hl] at h; cases h
  | cons x r =>
    obtain ⟨s, v⟩ := x
    have tr : ∀ {a b c : Ast}, NoSyn a b → NoSyn b c → NoSyn a c := by
      intro a b c h1 h2 l cc lit h3
      have h4 := h2 l cc lit h3
      exact (h1 l cc lit (h4.trans h3)).trans h4
    obtain ⟨vs, hst, hev⟩ := hi.stk
    obtain ⟨f1, f2, -⟩ := hi.fetch hc
    obtain ⟨-, g2, -⟩ := f1.fetch hc
    by_cases hz : isLazy s = true
    · rw [step_lazy hl hz 0] at h
      exact perform_noSyn hst h
    · rcases step_fetch hl (Bool.not_eq_true _ ▸ hz) with he | ⟨-, -, he⟩
      · rw [he] at h
        exact tr fetch_noSyn (perform_noSyn (by rw [f2]; exact hst) h)
      · rw [he] at h
        exact tr fetch_noSyn (tr fetch_noSyn (perform_noSyn (by rw [g2, f2]; exact hst) h))

end LR
end Verif
