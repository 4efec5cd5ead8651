import Verif.Proofs.Size
import Verif.Parser
/-!
In one round of the driver the largest part of a tree on the stack grows at most fivefold, and the module by at most that part.
-/
namespace Verif.SizeBound
open Lexer Tables

/-- No part of a tree in this stack slot has more than `m` nodes. -/
structure Small (m : Nat) (v : SV) : Prop where
  stmt : v.stmt.nodes ≤ m
  ifs : v.stmt_if.nodes ≤ m
  loop : v.stmt_loop.nodes ≤ m
  goto : v.goToLabel.nodes ≤ m
  elseif : Stm.nodesL v.opt_elseif_list ≤ m
  els : Stm.nodesL v.opt_else ≤ m
  body : Stm.nodesL v.body ≤ m
  obody : Stm.nodesL v.opt_body ≤ m
  exprs : Stm.nodesL v.exprs ≤ m
  func : ∀ f, v.funcProc = some f → f.nodes ≤ m
  params : (v.dparams.map Param.nodes).sum ≤ m
  param : v.dparam.nodes ≤ m
  vars : (v.explicit_variables.getD []).length ≤ m
  ovars : (v.opt_explicit_variables.getD []).length ≤ m
  globals : v.global_variables.length ≤ m
  idents : v.identifiers.length ≤ m

theorem Small.up {m m' : Nat} {v : SV} (h : Small m v) (k : m ≤ m') : Small m' v where
  stmt := Nat.le_trans h.stmt k
  ifs := Nat.le_trans h.ifs k
  loop := Nat.le_trans h.loop k
  goto := Nat.le_trans h.goto k
  elseif := Nat.le_trans h.elseif k
  els := Nat.le_trans h.els k
  body := Nat.le_trans h.body k
  obody := Nat.le_trans h.obody k
  exprs := Nat.le_trans h.exprs k
  func f e := Nat.le_trans (h.func f e) k
  params := Nat.le_trans h.params k
  param := Nat.le_trans h.param k
  vars := Nat.le_trans h.vars k
  ovars := Nat.le_trans h.ovars k
  globals := Nat.le_trans h.globals k
  idents := Nat.le_trans h.idents k

theorem small_tok (t : Tok) {m : Nat} (h : 1 ≤ m) : Small m { token := t } where
  stmt := Nat.zero_le _
  ifs := Nat.zero_le _
  loop := Nat.zero_le _
  goto := Nat.zero_le _
  elseif := Nat.zero_le _
  els := Nat.zero_le _
  body := Nat.zero_le _
  obody := Nat.zero_le _
  exprs := Nat.zero_le _
  func _ e := nomatch e
  params := Nat.zero_le _
  param := h
  vars := Nat.zero_le _
  ovars := Nat.zero_le _
  globals := Nat.zero_le _
  idents := Nat.zero_le _

variable {m : Nat} {v : SV}

theorem set_stmt (h : Small m v) {s : Stm} (k : s.nodes ≤ m) : Small m { v with stmt := s } := { h with stmt := k }
theorem set_if (h : Small m v) {s : Stm} (k : s.nodes ≤ m) : Small m { v with stmt_if := s } := { h with ifs := k }
theorem set_loop (h : Small m v) {s : Stm} (k : s.nodes ≤ m) : Small m { v with stmt_loop := s } := { h with loop := k }
theorem set_goto (h : Small m v) {s : Stm} (k : s.nodes ≤ m) : Small m { v with goToLabel := s } := { h with goto := k }
theorem set_elseif (h : Small m v) {l : List Stm} (k : Stm.nodesL l ≤ m) : Small m { v with opt_elseif_list := l } := { h with elseif := k }
theorem set_else (h : Small m v) {l : List Stm} (k : Stm.nodesL l ≤ m) : Small m { v with opt_else := l } := { h with els := k }
theorem set_body (h : Small m v) {l : List Stm} (k : Stm.nodesL l ≤ m) : Small m { v with body := l } := { h with body := k }
theorem set_obody (h : Small m v) {l : List Stm} (k : Stm.nodesL l ≤ m) : Small m { v with opt_body := l } := { h with obody := k }
theorem set_exprs (h : Small m v) {l : List Stm} (k : Stm.nodesL l ≤ m) : Small m { v with exprs := l } := { h with exprs := k }
theorem set_func (h : Small m v) {f : FuncDecl} (k : f.nodes ≤ m) : Small m { v with funcProc := some f } :=
  { h with func := fun _ e => by injection e with e; subst e; exact k }
theorem set_params (h : Small m v) {l : List Param} (k : (l.map Param.nodes).sum ≤ m) : Small m { v with dparams := l } :=
  { h with params := k }
theorem set_param (h : Small m v) {p : Param} (k : p.nodes ≤ m) : Small m { v with dparam := p } := { h with param := k }
theorem set_vars (h : Small m v) {l : Option (List (List Char))} (k : (l.getD []).length ≤ m) : Small m { v with explicit_variables := l } :=
  { h with vars := k }
theorem set_ovars (h : Small m v) {l : Option (List (List Char))} (k : (l.getD []).length ≤ m) :
    Small m { v with opt_explicit_variables := l } := { h with ovars := k }
theorem set_globals (h : Small m v) {l : List GVar} (k : l.length ≤ m) : Small m { v with global_variables := l } := { h with globals := k }
theorem set_idents (h : Small m v) {l : List Tok} (k : l.length ≤ m) : Small m { v with identifiers := l } := { h with idents := k }
theorem set_token (h : Small m v) (t : Tok) : Small m { v with token := t } := { h with }
theorem set_directive (h : Small m v) (t : Option Tok) : Small m { v with opt_directive := t } := { h with }
theorem set_export (h : Small m v) (t : Option Tok) : Small m { v with opt_export := t } := { h with }

theorem nodes_minus (s : Stm) : (unaryMinus s).nodes = s.nodes := by
  cases s <;> rfl
theorem nodes_not (s : Stm) : (notStm s).nodes = s.nodes := by
  cases s <;> rfl
theorem nodes_val (x : Val) : x.toStm.nodes ≤ 1 := by
  cases x <;> first | exact Nat.le_refl 1 | exact Nat.zero_le _
theorem nodes_goto (s : Stm) : (mkGoto s).nodes = 1 := by
  cases s <;> rfl
theorem nodes_default (p : Param) (s : Stm) : (p.defaultValue s).nodes ≤ 2 + s.nodes := by
  cases s <;> simp only [Param.defaultValue, Param.nodes, Stm.nodes] <;> omega

theorem bind_ok {α β : Type} {x : Except Panic α} {f : α → Except Panic β} {y : β} (h : (x >>= f) = .ok y) :
    ∃ a, x = .ok a ∧ f a = .ok y := by
  cases x with
  | error => cases h
  | ok a => exact ⟨a, rfl, h⟩

theorem error_mod {a a' : Ast} {e : Msg} (h : a.error e = .ok a') : a'.mod = a.mod := by
  unfold Ast.error at h
  split at h
  · cases h
  · injection h with h; subst h; rfl

theorem check_mod {a a' : Ast} :
    (∀ t, checkLoop a t = .ok a' → a'.mod = a.mod) ∧ (∀ t s, checkThrow a t s = .ok a' → a'.mod = a.mod) ∧
    (∀ s, checkReturn a s = .ok a' → a'.mod = a.mod) ∧ (∀ t l, checkColon a t l = .ok a' → a'.mod = a.mod) := by
  refine ⟨fun t h => ?_, fun t s h => ?_, fun s h => ?_, fun t l h => ?_⟩
  · unfold checkLoop at h
    split at h
    · exact error_mod h
    · injection h with h; subst h; rfl
  · unfold checkThrow at h
    split at h
    · exact error_mod h
    · injection h with h; subst h; rfl
  · unfold checkReturn at h
    split at h
    · exact error_mod h
    · injection h with h; subst h; rfl
  · unfold checkColon at h
    split at h
    · split at h
      · injection h with h; subst h; rfl
      · injection h with h; subst h; rfl
      · exact error_mod h
    · injection h with h; subst h; rfl

theorem stms_mod (a : Ast) (l : List Stm) : (appendStms a l).mod.nodes = a.mod.nodes + Stm.nodesL l := by
  have : ((l.map Item.stm).map Item.nodes).sum = Stm.nodesL l := by
    induction l with
    | nil => rfl
    | cons s l ih => rw [List.map_cons, List.map_cons, List.sum_cons, ih]; rfl
  simp only [appendStms, Module.nodes, List.map_append, List.sum_append, this]
  omega

theorem func_mod {a a' : Ast} {f : FuncDecl} (h : appendFunc a f = .ok a') : a'.mod.nodes ≤ a.mod.nodes + f.nodes := by
  unfold appendFunc at h
  split at h
  · rw [error_mod h]; exact Nat.le_add_right _ _
  · injection h with h
    subst h
    simp only [Module.nodes, List.map_append, List.sum_append, List.map_cons, List.map_nil, List.sum_cons, List.sum_nil, Item.nodes]
    omega

theorem globals_mod {a a' : Ast} {l : List GVar} (h : appendGlobals a l = .ok a') : a'.mod.nodes ≤ a.mod.nodes + l.length := by
  induction l generalizing a with
  | nil => injection h with h; subst h; exact Nat.le_refl _
  | cons x l ih =>
    unfold appendGlobals at h
    obtain ⟨b, h1, h2⟩ := bind_ok h
    have h3 := ih h2
    have h4 : b.mod.nodes ≤ a.mod.nodes + 1 := by
      unfold appendGlobal at h1
      split at h1
      · rw [error_mod h1]; exact Nat.le_succ _
      · split at h1
        · rw [error_mod h1]; exact Nat.le_succ _
        · injection h1 with h1
          subst h1
          simp only [Module.nodes, List.length_append, List.length_singleton]
          omega
    rw [List.length_cons]
    omega

theorem vars_le {o : Option (List (List Char))} {l : List Tok} {r : AppendVars} (h : appendVars o l = .ok r) :
    (r.map.getD []).length ≤ (o.getD []).length + l.length := by
  induction l generalizing o with
  | nil => injection h with h; subst h; exact Nat.le_refl _
  | cons t l ih =>
    cases o with
    | none => cases h
    | some ks =>
      unfold appendVars at h
      dsimp only at h
      split at h
      · injection h with h; subst h; exact Nat.le_add_right _ _
      · have := ih h
        simp only [Option.getD_some, List.length_append, List.length_cons, List.length_nil] at this ⊢
        omega

theorem act_small {p : Nat} {d : Nat → SV} {v v' : SV} {a a' : Ast} {m : Nat} (hm : 1 ≤ m) (H : ∀ i, Small m (d i)) (hv : Small m v)
    (e : act p d v a = .ok (v', a')) : Small (5 * m) v' ∧ a'.mod.nodes ≤ a.mod.nodes + m := by
  have hu : Small (5 * m) v := hv.up (by omega)
  have s1 := (H 1).stmt
  have s2 := (H 2).stmt
  have s3 := (H 3).stmt
  have s4 := (H 4).stmt
  have s5 := (H 5).stmt
  have s7 := (H 7).stmt
  unfold act at e
  split at e
  all_goals try (first
    | (injection e with e; injection e with e1 e2; subst e1 e2
       refine ⟨?_, Nat.le_add_right _ _⟩
       first
       | exact hu
       | exact set_token hu _
       | exact set_directive hu _
       | exact set_export hu _
       | exact set_stmt hu (by first
          | omega
          | exact Nat.zero_le _
          | (simp only [mkBin, Stm.nodes, Stm.nodesL]; omega)
          | (rw [nodes_minus]; omega)
          | (rw [nodes_not]; omega)
          | (rw [nodes_goto]; omega)
          | exact Nat.le_trans (nodes_val _) (by omega)
          | exact Nat.le_trans (H 1).ifs (by omega)
          | exact Nat.le_trans (H 1).loop (by omega)
          | exact Nat.le_trans (H 1).goto (by omega)
          | (have := (H 2).exprs; have := (H 3).exprs; have := (H 4).exprs; simp only [Stm.nodes]; omega)
          | (have := (H 2).obody; have := (H 5).obody; simp only [Stm.nodes]; omega))
       | exact set_obody hu (by first | exact Nat.zero_le _ | exact Nat.le_trans (H 1).body (by omega))
       | exact set_else hu (by first | exact Nat.zero_le _ | exact Nat.le_trans (H 2).obody (by omega))
       | exact set_body hu (by simp only [Stm.nodesL]; omega)
       | exact set_exprs hu (by simp only [Stm.nodesL]; omega)
       | exact set_exprs hu (by have := hv.exprs; simp only [Size.nodesL_append, Stm.nodesL]; omega)
       | exact set_goto hu (by simp only [Stm.nodes]; omega)
       | exact set_elseif hu (Nat.zero_le _)
       | exact set_elseif hu (by
          have := (H 5).elseif; have := (H 4).obody
          simp only [Size.nodesL_append, Stm.nodesL, Stm.nodes]; omega)
       | exact set_if hu (by
          have := (H 4).obody; have := (H 5).elseif; have := (H 6).els
          simp only [Stm.nodes]; omega)
       | exact set_loop hu (by
          have := (H 8).obody; have := (H 7).obody; have := (H 5).obody
          simp only [Stm.nodes]; omega)
       | exact set_ovars hu (by first | exact Nat.zero_le _ | exact Nat.le_trans (H 1).vars (by omega))
       | exact set_idents hu (by simp only [List.length_singleton]; omega)
       | exact set_idents hu (by have := hv.idents; simp only [List.length_append, List.length_singleton]; omega)
       | exact set_params hu (Nat.zero_le _)
       | exact set_params hu (by
          have := (H 1).param; simp only [List.map_cons, List.map_nil, List.sum_cons, List.sum_nil]; omega)
       | exact set_params hu (by
          have := (H 1).params; have := (H 3).param
          simp only [List.map_append, List.sum_append, List.map_cons, List.map_nil, List.sum_cons, List.sum_nil]; omega)
       | exact set_param hu (by simp only [fillParam, Param.nodes, Stm.nodes]; omega)
       | exact set_param hu (Nat.le_trans (nodes_default _ _) (by omega))
       | exact set_globals hu (by have := (H 3).idents; simp only [List.length_map]; omega)
       | exact set_func hu (by
          have := (H 5).params; have := (H 9).ovars; have := (H 8).ovars; have := (H 10).obody; have := (H 9).obody
          simp only [createFunc, FuncDecl.nodes]; omega)))
  · injection e with e; injection e with e1 e2; subst e1 e2
    rw [stms_mod]
    exact ⟨hu, Nat.add_le_add_left (H 1).body _⟩
  · injection e with e; injection e with e1 e2; subst e1 e2
    rw [stms_mod]
    exact ⟨hu, Nat.add_le_add_left (H 2).obody _⟩
  · obtain ⟨b, h1, h2⟩ := bind_ok e
    injection h2 with e; injection e with e1 e2; subst e1 e2
    exact ⟨hu, Nat.le_trans (globals_mod h1) (Nat.add_le_add_left (H 1).globals _)⟩
  · split at e
    · rename_i f hf
      obtain ⟨b, h1, h2⟩ := bind_ok e
      injection h2 with e; injection e with e1 e2; subst e1 e2
      exact ⟨hu, Nat.le_trans (func_mod h1) (Nat.add_le_add_left ((H 1).func f hf) _)⟩
    · injection e with e; injection e with e1 e2; subst e1 e2
      exact ⟨hu, Nat.le_add_right _ _⟩
  · obtain ⟨b, h1, h2⟩ := bind_ok e
    injection h2 with e; injection e with e1 e2; subst e1 e2
    rw [check_mod.2.2.2 _ _ h1]
    refine ⟨?_, Nat.le_add_right _ _⟩
    split
    · exact hu
    · exact set_body hu (by have := hv.body; simp only [Size.nodesL_append, Stm.nodesL]; omega)
  · obtain ⟨r, h1, h2⟩ := bind_ok e
    have hr := vars_le h1
    have := (H 2).idents
    rw [Option.getD_some, List.length_nil] at hr
    split at h2
    · obtain ⟨b, h3, h4⟩ := bind_ok h2
      injection h4 with e; injection e with e1 e2; subst e1 e2
      rw [error_mod h3]
      exact ⟨hu, Nat.le_add_right _ _⟩
    · injection h2 with e; injection e with e1 e2; subst e1 e2
      exact ⟨set_vars hu (by omega), Nat.le_add_right _ _⟩
  · obtain ⟨r, h1, h2⟩ := bind_ok e
    have hr := vars_le h1
    have := (H 3).idents
    have := (H 1).vars
    split at h2
    · obtain ⟨b, h3, h4⟩ := bind_ok h2
      injection h4 with e; injection e with e1 e2; subst e1 e2
      rw [error_mod h3]
      exact ⟨set_vars hu (by omega), Nat.le_add_right _ _⟩
    · injection h2 with e; injection e with e1 e2; subst e1 e2
      exact ⟨set_vars hu (by omega), Nat.le_add_right _ _⟩
  · obtain ⟨b, h1, h2⟩ := bind_ok e
    injection h2 with e; injection e with e1 e2; subst e1 e2
    rw [check_mod.1 _ h1]
    exact ⟨set_stmt hu (by simp only [Stm.nodes]; omega), Nat.le_add_right _ _⟩
  · obtain ⟨b, h1, h2⟩ := bind_ok e
    injection h2 with e; injection e with e1 e2; subst e1 e2
    rw [check_mod.1 _ h1]
    exact ⟨set_stmt hu (by simp only [Stm.nodes]; omega), Nat.le_add_right _ _⟩
  · obtain ⟨b, h1, h2⟩ := bind_ok e
    injection h2 with e; injection e with e1 e2; subst e1 e2
    rw [check_mod.2.1 _ _ h1]
    exact ⟨set_stmt hu (by simp only [Stm.nodes]; omega), Nat.le_add_right _ _⟩
  · obtain ⟨b, h1, h2⟩ := bind_ok e
    injection h2 with e; injection e with e1 e2; subst e1 e2
    rw [check_mod.2.2.1 _ h1]
    exact ⟨set_stmt hu (by simp only [Stm.nodes]; omega), Nat.le_add_right _ _⟩

/-- All stack slots, live or stale, and the module. -/
structure Inv (m N : Nat) (c : Cfg) : Prop where
  one : 1 ≤ m
  live : ∀ x ∈ c.live, Small m x.2
  stale : ∀ x ∈ c.stale, Small m x
  mod : c.ast.mod.nodes ≤ N

/-- What a round leaves. -/
def After (m N : Nat) : Step → Prop
  | .go c => Inv m N c
  | .done _ a => a.mod.nodes ≤ N

theorem Inv.push {m N : Nat} {c : Cfg} (h : Inv m N c) {v : SV} (k : Small m v) (s : Nat) : Inv m N (c.push s v) where
  one := h.one
  live x hx := by
    rcases List.mem_cons.1 hx with rfl | hx
    · exact k
    · exact h.live x hx
  stale x hx := h.stale x (List.mem_of_mem_tail hx)
  mod := h.mod

theorem Inv.up {m m' N N' : Nat} {c : Cfg} (h : Inv m N c) (k : m ≤ m') (k' : N ≤ N') : Inv m' N' c where
  one := Nat.le_trans h.one k
  live x hx := (h.live x hx).up k
  stale x hx := (h.stale x hx).up k
  mod := Nat.le_trans h.mod k'

theorem pop_small {m : Nat} {n : Nat} {l : List (Nat × SV)} {st : List SV} (h : ∀ x ∈ l, Small m x.2) (k : ∀ x ∈ st, Small m x) :
    (∀ x ∈ (popN n l st).1, Small m x.2) ∧ ∀ x ∈ (popN n l st).2, Small m x := by
  induction n generalizing l st with
  | zero => cases l <;> exact ⟨h, k⟩
  | succ n ih =>
    cases l with
    | nil => exact ⟨h, k⟩
    | cons x l =>
      refine ih (fun y hy => h y (List.mem_cons_of_mem _ hy)) fun y hy => ?_
      rcases List.mem_cons.1 hy with rfl | hy
      · exact h x List.mem_cons_self
      · exact k y hy

theorem reduce_small {m N : Nat} {c : Cfg} {p : Nat} {r : Step} (h : Inv m N c) (e : reduce c p = .ok r) : After (5 * m) (N + m) r := by
  unfold reduce at e
  have hp := pop_small (n := (Tables.get Tables.yyR2 p).toNat) h.live h.stale
  dsimp only at e
  generalize popN (Tables.get Tables.yyR2 p).toNat c.live c.stale = q at e hp
  have h1 := h.one
  split at e
  · injection e with e; subst e; exact Nat.le_trans h.mod (Nat.le_add_right _ _)
  · obtain ⟨⟨v, a⟩, h2, h3⟩ := bind_ok e
    injection h3 with h3
    subst h3
    have hd : ∀ i, Small m (q.2.getD i {}) := fun i => by
      rw [List.getD_eq_getElem?_getD]
      rcases hq : q.2[i]? with _ | x
      · exact small_tok _ h1
      · exact hp.2 x (List.mem_of_getElem? hq)
    have hv : Small m (q.2.headD {}) := by
      cases hq : q.2 with
      | nil => exact small_tok _ h1
      | cons x l => exact hp.2 x (hq ▸ List.mem_cons_self)
    obtain ⟨k1, k2⟩ := act_small h1 (fun i => hd (i - 1)) hv h2
    refine Inv.push ⟨by omega, fun x hx => ?_, fun x hx => ?_, ?_⟩ k1 _
    · exact (hp.1 x hx).up (by omega)
    · exact (hp.2 x hx).up (by omega)
    · exact Nat.le_trans k2 (Nat.add_le_add_right h.mod _)

theorem fetch_small [Letters] {m N : Nat} {c : Cfg} (h : Inv m N c) : Inv m N (fetch c).1 := by
  have hl : (lexCall c.ast c.lval).1.mod = c.ast.mod := by
    unfold lexCall
    split
    · rfl
    · split <;> rfl
  unfold fetch
  split
  · exact h
  · split
    · rename_i hc
      rw [hc] at hl
      exact ⟨h.one, h.live, h.stale, hl ▸ h.mod⟩
    · rename_i hc
      rw [hc] at hl
      exact ⟨h.one, h.live, h.stale, hl ▸ h.mod⟩

theorem recover_mem {l l' : List (Nat × SV)} {s : Nat} (h : recover l = some (s, l')) : ∀ x ∈ l', x ∈ l := by
  induction l with
  | nil => cases h
  | cons y l ih =>
    obtain ⟨s', v⟩ := y
    unfold recover at h
    split at h
    · injection h with h; injection h with _ h; subst h; exact fun _ hx => hx
    · exact fun x hx => List.mem_cons_of_mem _ (ih h x hx)

theorem syntax_small {m N : Nat} {c : Cfg} {r : Step} (h : Inv m N c) (e : syntaxError c = .ok r) : After (5 * m) (N + m) r := by
  unfold syntaxError at e
  obtain ⟨a, h1, h2⟩ := bind_ok e
  have ha := error_mod h1
  have h0 := h.one
  split at h2
  · injection h2 with h2; subst h2
    show a.mod.nodes ≤ _
    rw [ha]; exact Nat.le_trans h.mod (Nat.le_add_right _ _)
  · rename_i hr
    injection h2 with h2; subst h2
    refine Inv.push (c := { c with ast := a, live := _ })
      ⟨by omega, fun x hx => (h.live x (recover_mem hr x hx)).up (by omega), fun x hx => (h.stale x hx).up (by omega), ?_⟩
      (small_tok _ (by omega)) _
    show a.mod.nodes ≤ _
    rw [ha]; exact Nat.le_trans h.mod (Nat.le_add_right _ _)

theorem default_small [Letters] {m N : Nat} {c : Cfg} {s : Nat} {r : Step} (h : Inv m N c) (e : defaultAction c s = .ok r) :
    After (5 * m) (N + m) r := by
  unfold defaultAction at e
  dsimp only at e
  split at e
  · have hf := fetch_small h
    generalize fetch c = q at e hf
    split at e
    · injection e with e; subst e; exact Nat.le_trans hf.mod (Nat.le_add_right _ _)
    · split at e
      · exact syntax_small hf e
      · exact reduce_small hf e
  · split at e
    · exact syntax_small h e
    · exact reduce_small h e

theorem step_small [Letters] {m N : Nat} {c : Cfg} {r : Step} (h : Inv m N c) (e : step c = .ok r) : After (5 * m) (N + m) r := by
  unfold step at e
  have h0 := h.one
  split at e
  · injection e with e; subst e; exact Nat.le_trans h.mod (Nat.le_add_right _ _)
  · split at e
    · exact default_small h e
    · have hf := fetch_small h
      dsimp only at e
      generalize fetch c = q at e hf
      split at e
      · injection e with e; subst e
        have hf' := hf.up (m' := 5 * m) (N' := N + m) (by omega) (by omega)
        exact Inv.push (c := { q.1 with look := none }) ⟨hf'.one, hf'.live, hf'.stale, hf'.mod⟩ (small_tok _ (by omega)) _
      · exact default_small hf e

theorem run_small [Letters] {m N n k : Nat} {c : Cfg} {a : Ast} (h : Inv m N c) (e : run n c = .ok (some (k, a))) :
    a.mod.nodes + m ≤ N + m * 5 ^ n := by
  induction n generalizing c m N with
  | zero => cases e
  | succ n ih =>
    unfold run at e
    obtain ⟨r, h1, h2⟩ := bind_ok e
    have h3 := step_small h h1
    cases r with
    | done k' a' =>
      injection h2 with h2; injection h2 with h2; injection h2 with _ h2
      subst h2
      have h3 : a'.mod.nodes ≤ N + m := h3
      have : m * 5 ≤ m * 5 ^ (n + 1) := Nat.mul_le_mul_left _ (by
        rw [Nat.pow_succ]
        have : 0 < 5 ^ n := Nat.pow_pos (by decide)
        omega)
      omega
    | go c' =>
      have h4 := ih h3 h2
      rw [Nat.pow_succ, ← Nat.mul_assoc, Nat.mul_right_comm, Nat.mul_comm m 5]
      omega

/-- The module grows by at most `5 ^ fuel` nodes. -/
theorem parse_small [Letters] {a a' : Ast} (e : parse a = .ret a') : a'.mod.nodes ≤ a.mod.nodes + 5 ^ fuel a.code.length := by
  unfold parse at e
  split at e
  · injection e with e; subst e; exact Nat.le_add_right _ _
  · split at e
    · cases e
    · cases e
    · rename_i he
      injection e with e
      subst e
      have hi : Inv 1 a.mod.nodes (initCfg a) := by
        refine ⟨Nat.le_refl 1, fun x hx => ?_, fun x hx => ?_, Nat.le_refl _⟩
        · rw [List.mem_singleton.1 hx]
          exact small_tok _ (Nat.le_refl 1)
        · cases hx
      have := run_small hi he
      omega

end Verif.SizeBound
