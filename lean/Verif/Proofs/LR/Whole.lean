import Verif.Proofs.LR.Says
import Verif.Proofs.LR.Derive
import Verif.Spec.Whole
/-!
# Everything on the parser stack is whole

Every slot, live or stale, holds whole statements; a slot that holds the value of a grammar symbol has the part
that belongs to this symbol.
-/
namespace Verif.LR
open Tables Spec Lexer

variable {N : Terminal → Name → Prop} {V : Val → Prop}

theorem wholeL_append {l m : List Stm} (h : Stm.wholeL N V l) (g : Stm.wholeL N V m) : Stm.wholeL N V (l ++ m) := by
  induction l with
  | nil => exact g
  | cons s l ih => exact ⟨h.1, ih h.2⟩

theorem wholeO_append {l m : List Stm} (h : Stm.wholeO N V l) (g : Stm.wholeO N V m) : Stm.wholeO N V (l ++ m) := by
  induction l with
  | nil => exact g
  | cons s l ih => exact ⟨h.1, ih h.2⟩

theorem wholeE_append {l m : List Stm} (h : Stm.wholeE N V l) (g : Stm.wholeE N V m) : Stm.wholeE N V (l ++ m) := by
  induction l with
  | nil => exact g
  | cons s l ih =>
    cases s with
    | ifS c t ei e => exact ⟨h.1, ih h.2⟩
    | _ => exact h.elim

theorem wholeL_mem {l : List Stm} (h : Stm.wholeL N V l) {s : Stm} (hs : s ∈ l) : s.whole N V := by
  induction l with
  | nil => cases hs
  | cons x l ih =>
    cases hs with
    | head => exact h.1
    | tail _ hs => exact ih h.2 hs

/-- Nothing, or whole. -/
def Opt (N : Terminal → Name → Prop) (V : Val → Prop) (s : Stm) : Prop := s = .nil ∨ s.whole N V

/-- A stack slot without broken parts. -/
structure Built (N : Terminal → Name → Prop) (V : Val → Prop) (v : SV) : Prop where
  stmt_if : Opt N V v.stmt_if
  opt_elseif_list : Stm.wholeE N V v.opt_elseif_list
  opt_else : Stm.wholeL N V v.opt_else
  stmt : Opt N V v.stmt
  stmt_loop : Opt N V v.stmt_loop
  funcProc : ∀ f, v.funcProc = some f → f.Whole N V
  body : Stm.wholeL N V v.body
  opt_body : Stm.wholeL N V v.opt_body
  dparams : ∀ p ∈ v.dparams, N .ktoken_identifier p.name ∧ Opt N V p.default
  dparam : Opt N V v.dparam.default
  exprs : Stm.wholeO N V v.exprs
  opt_directive : ∀ t, v.opt_directive = some t → N .kDirective t.literal
  explicit_variables : ∀ l, v.explicit_variables = some l → ∀ n ∈ l, N .ktoken_identifier n
  global_variables : ∀ g ∈ v.global_variables, N .ktoken_identifier g.name ∧ (g.directive = [] ∨ N .kDirective g.directive)
  opt_explicit_variables : ∀ l, v.opt_explicit_variables = some l → ∀ n ∈ l, N .ktoken_identifier n
  identifiers : ∀ t ∈ v.identifiers, N .ktoken_identifier t.literal
  goToLabel : Opt N V v.goToLabel

theorem Built.token (t : Tok) : Built N V { token := t } where
  stmt_if := .inl rfl
  opt_elseif_list := trivial
  opt_else := trivial
  stmt := .inl rfl
  stmt_loop := .inl rfl
  funcProc := nofun
  body := trivial
  opt_body := trivial
  dparams := nofun
  dparam := .inl rfl
  exprs := trivial
  opt_directive := nofun
  explicit_variables := nofun
  global_variables := nofun
  opt_explicit_variables := nofun
  identifiers := nofun
  goToLabel := .inl rfl

/-- The part of the slot that belongs to a grammar symbol. -/
def Typed (L : Nat → Tok → Prop) (N : Terminal → Name → Prop) (V : Val → Prop) : Sym → SV → Prop
  | .t a, v => L a.kind v.token
  | .n .n_stmt, v | .n .n_expr, v | .n .n_simple_expr, v | .n .n_execute_param, v | .n .n_through_dot, v
  | .n .n_loopExp, v | .n .n_new_object, v | .n .n_ternary, v | .n .n_stmt_tryCatch, v | .n .n_identifier, v =>
    v.stmt.whole N V
  | .n .n_stmt_if, v => v.stmt_if.whole N V
  | .n .n_stmt_loop, v => v.stmt_loop.whole N V
  | .n .n_declarations_method_param, v => N .ktoken_identifier v.dparam.name
  | .n .n_goToLabel, v => ∃ n, v.goToLabel = .label n ∧ N .kGoToLabel n
  | .n _, _ => True

/-- Symbols of the right side of a production. -/
def syms (p : Nat) : List Sym := (productions.getD (p - 1) (.n_module, [])).2
/-- Left side of a production. -/
def head (p : Nat) : NT := (productions.getD (p - 1) (.n_module, [])).1

theorem syms_rhs {p : Nat} (h0 : 0 < p) (hp : p < nProds) : (syms p).map symNum = rhs p ∧ nnum (head p) = lhs p := by
  have h : ∀ p, p < nProds → 0 < p → (syms p).map symNum = rhs p ∧ nnum (head p) = lhs p := by decide +kernel
  exact h p hp h0

/-- What the tokens of the text, `L`, allow as names and constants. -/
structure Sources (L : Nat → Tok → Prop) (N : Terminal → Name → Prop) (V : Val → Prop) : Prop where
  name : ∀ a ∈ [Terminal.ktoken_identifier, .kGoToLabel, .kDirective, .kExecute], ∀ t, L a.kind t → N a t.literal
  value : ∀ a ∈ [Terminal.kNumber, .kString, .kDate, .kTrue, .kFalse], ∀ t, L a.kind t → t.value ≠ .nil ∧ V t.value
  negate : ∀ x, V (.num x) → V (.num x.negate)
  not : ∀ b, V (.bool b) → V (.bool !b)

theorem toStm_whole {v : Val} (h : v ≠ .nil ∧ V v) : v.toStm.whole N V := by
  cases v with
  | nil => exact absurd rfl h.1
  | num x => exact h.2
  | str s => exact h.2
  | bool b => exact h.2
  | date t => exact h.2

theorem unaryMinus_whole {L : Nat → Tok → Prop} (hs : Sources L N V) {s : Stm} (h : s.whole N V) : (unaryMinus s).whole N V := by
  cases s <;> first | exact h | exact hs.negate _ h

theorem notStm_whole {L : Nat → Tok → Prop} (hs : Sources L N V) {s : Stm} (h : s.whole N V) : (notStm s).whole N V := by
  cases s <;> first | exact h | exact hs.not _ h

theorem wholeO_one {s : Stm} (h : Opt N V s) : Stm.wholeO N V [s] := ⟨h, trivial⟩

theorem whole_of_notNil {s : Stm} (h : ¬ s.isNil = true) (g : Opt N V s) : s.whole N V := by
  rcases g with rfl | g
  · exact absurd rfl h
  · exact g

theorem appendVars_names {m : Option (List (List Char))} {ts : List Tok} {r : AppendVars}
    (h : appendVars m ts = .ok r) (hm : ∀ l, m = some l → ∀ n ∈ l, N .ktoken_identifier n)
    (ht : ∀ t ∈ ts, N .ktoken_identifier t.literal) : ∀ l, r.map = some l → ∀ n ∈ l, N .ktoken_identifier n := by
  induction ts generalizing m with
  | nil => injection h with h; subst h; exact hm
  | cons t ts ih =>
    cases m with
    | none => cases h
    | some ks =>
      unfold appendVars at h
      dsimp only at h
      split at h
      · injection h with h; subst h; exact hm
      · refine ih h ?_ (fun u hu => ht u (.tail _ hu))
        rintro l ⟨⟩ n hn
        rw [List.mem_append, List.mem_singleton] at hn
        rcases hn with hn | rfl
        · exact hm ks rfl n hn
        · exact ht t (.head _)

theorem error_mod {a a' : Ast} {m : Msg} (h : a.error m = .ok a') : a'.mod = a.mod := by
  unfold Ast.error at h
  split at h
  · cases h
  · injection h with h; subst h; rfl

theorem appendGlobal_whole {a a' : Ast} {g : GVar} (h : appendGlobal a g = .ok a') (hm : a.mod.Whole N V)
    (hg : N .ktoken_identifier g.name ∧ (g.directive = [] ∨ N .kDirective g.directive)) : a'.mod.Whole N V := by
  unfold appendGlobal at h
  split at h
  · rw [error_mod h]; exact hm
  · split at h
    · rw [error_mod h]; exact hm
    · injection h with h; subst h
      refine ⟨?_, hm.funcs, hm.stms⟩
      intro x hx
      rw [List.mem_append, List.mem_singleton] at hx
      rcases hx with hx | rfl
      · exact hm.globals x hx
      · exact hg

theorem appendGlobals_whole {gs : List GVar} {a a' : Ast} (h : appendGlobals a gs = .ok a') (hm : a.mod.Whole N V)
    (hg : ∀ g ∈ gs, N .ktoken_identifier g.name ∧ (g.directive = [] ∨ N .kDirective g.directive)) : a'.mod.Whole N V := by
  induction gs generalizing a with
  | nil => injection h with h; subst h; exact hm
  | cons v vs ih =>
    rw [appendGlobals] at h
    obtain ⟨b, h1, h2⟩ := bind_ok h
    exact ih h2 (appendGlobal_whole h1 hm (hg v (.head _))) (fun g hx => hg g (.tail _ hx))

theorem appendFunc_whole {a a' : Ast} {f : FuncDecl} (h : appendFunc a f = .ok a') (hm : a.mod.Whole N V)
    (hf : f.Whole N V) : a'.mod.Whole N V := by
  unfold appendFunc at h
  split at h
  · rw [error_mod h]; exact hm
  · injection h with h; subst h
    refine ⟨hm.globals, ?_, ?_⟩
    · intro x hx
      rw [List.mem_append, List.mem_singleton] at hx
      rcases hx with hx | hx
      · exact hm.funcs x hx
      · injection hx with hx; subst hx; exact hf
    · intro x hx
      rw [List.mem_append, List.mem_singleton] at hx
      rcases hx with hx | hx
      · exact hm.stms x hx
      · cases hx

theorem appendStms_whole {a : Ast} {l : List Stm} (hm : a.mod.Whole N V) (hl : Stm.wholeL N V l) :
    (appendStms a l).mod.Whole N V := by
  refine ⟨hm.globals, ?_, ?_⟩
  · intro x hx
    dsimp only [appendStms] at hx
    rw [List.mem_append, List.mem_map] at hx
    rcases hx with hx | ⟨y, _, hx⟩
    · exact hm.funcs x hx
    · cases hx
  · intro x hx
    dsimp only [appendStms] at hx
    rw [List.mem_append, List.mem_map] at hx
    rcases hx with hx | ⟨y, hy, hx⟩
    · exact hm.stms x hx
    · injection hx with hx; subst hx; exact wholeL_mem hl hy

theorem checkColon_mod {a a' : Ast} {t : Tok} {l : List Stm} (h : checkColon a t l = .ok a') : a'.mod = a.mod := by
  unfold checkColon at h
  split at h
  · split at h
    · injection h with h; subst h; rfl
    · injection h with h; subst h; rfl
    · exact error_mod h
  · injection h with h; subst h; rfl

theorem createFunc_whole {b : Bool} {dir : Option Tok} {name : List Char} {ps : List Param} {ex : Option Tok}
    {vars : Option (List (List Char))} {body : List Stm} (h1 : ∀ t, dir = some t → N .kDirective t.literal)
    (h2 : N .ktoken_identifier name) (h3 : ∀ p ∈ ps, N .ktoken_identifier p.name ∧ Opt N V p.default)
    (h4 : ∀ l, vars = some l → ∀ n ∈ l, N .ktoken_identifier n) (h5 : Stm.wholeL N V body) :
    (createFunc b dir name ps ex vars body).Whole N V := by
  refine ⟨h2, ?_, h4, h3, h5⟩
  cases dir with
  | none => exact .inl rfl
  | some t => exact .inr (h1 t rfl)

/-- Every semantic action keeps the stack slots and the module whole, and gives the left side its part. -/
theorem act_whole {L : Nat → Tok → Prop} (hs : Sources L N V) {p : Nat} {d : Nat → SV} {v v' : SV} {a a' : Ast}
    (h : act p d v a = .ok (v', a')) (h0 : 0 < p) (hp : p < nProds) (hd : ∀ i, Built N V (d i)) (hv : Built N V v)
    (hv1 : syms p ≠ [] → v = d 1)
    (ht : ∀ i X, (syms p)[i]? = some X → Typed L N V X (d (i + 1))) (hm : a.mod.Whole N V) :
    Built N V v' ∧ Typed L N V (.n (head p)) v' ∧ a'.mod.Whole N V := by
  have ident : ∀ t, L Terminal.ktoken_identifier.kind t → N .ktoken_identifier t.literal :=
    hs.name .ktoken_identifier (by decide)
  unfold act at h
  split at h
  -- 1
  · obtain ⟨rfl, rfl⟩ := pair_ok h; exact ⟨hv, trivial, hm⟩
  -- 2
  · obtain ⟨rfl, rfl⟩ := pair_ok h; exact ⟨hv, trivial, appendStms_whole hm (hd 1).body⟩
  -- 3
  · obtain ⟨rfl, rfl⟩ := pair_ok h; exact ⟨hv, trivial, appendStms_whole hm (hd 2).opt_body⟩
  -- 4
  · obtain ⟨rfl, rfl⟩ := pair_ok h; exact ⟨hv, trivial, hm⟩
  -- 5
  · obtain ⟨rfl, rfl⟩ := pair_ok h; exact ⟨hv, trivial, hm⟩
  -- 6
  · obtain ⟨b, h1, h2⟩ := bind_ok h
    obtain ⟨rfl, rfl⟩ := pair_ok h2
    exact ⟨hv, trivial, appendGlobals_whole h1 hm (hd 1).global_variables⟩
  -- 7
  · split at h
    · rename_i f hf
      obtain ⟨b, h1, h2⟩ := bind_ok h
      obtain ⟨rfl, rfl⟩ := pair_ok h2
      exact ⟨hv, trivial, appendFunc_whole h1 hm ((hd 1).funcProc f hf)⟩
    · obtain ⟨rfl, rfl⟩ := pair_ok h; exact ⟨hv, trivial, hm⟩
  -- 8
  · obtain ⟨rfl, rfl⟩ := pair_ok h
    exact ⟨{ hv with opt_directive := nofun }, trivial, hm⟩
  -- 9
  · obtain ⟨rfl, rfl⟩ := pair_ok h
    have k := hs.name .kDirective (by decide) _ (ht 0 _ rfl)
    refine ⟨{ hv with opt_directive := ?_ }, trivial, hm⟩
    rintro t ⟨⟩
    exact k
  -- 10
  · obtain ⟨rfl, rfl⟩ := pair_ok h; exact ⟨{ hv with }, trivial, hm⟩
  -- 11
  · obtain ⟨rfl, rfl⟩ := pair_ok h; exact ⟨{ hv with }, trivial, hm⟩
  -- 12
  · obtain ⟨rfl, rfl⟩ := pair_ok h
    refine ⟨{ hv with global_variables := ?_ }, trivial, hm⟩
    intro g hg
    rw [List.mem_map] at hg
    obtain ⟨t, ht', rfl⟩ := hg
    refine ⟨(hd 3).identifiers t ht', ?_⟩
    have k := (hd 1).opt_directive
    dsimp only
    split
    · rename_i dt he; exact .inr (k dt he)
    · exact .inl rfl
  -- 13
  · obtain ⟨rfl, rfl⟩ := pair_ok h; exact ⟨hv, trivial, hm⟩
  -- 14
  · obtain ⟨rfl, rfl⟩ := pair_ok h
    refine ⟨{ hv with funcProc := ?_ }, trivial, hm⟩
    rintro f ⟨⟩
    exact createFunc_whole (hd 1).opt_directive (ident _ (ht 2 _ rfl)) (hd 5).dparams (hd 9).opt_explicit_variables
      (hd 10).opt_body
  -- 15
  · obtain ⟨rfl, rfl⟩ := pair_ok h
    refine ⟨{ hv with funcProc := ?_ }, trivial, hm⟩
    rintro f ⟨⟩
    exact createFunc_whole (hd 1).opt_directive (ident _ (ht 2 _ rfl)) (hd 5).dparams (hd 8).opt_explicit_variables
      (hd 9).opt_body
  -- 16
  · obtain ⟨rfl, rfl⟩ := pair_ok h
    exact ⟨{ hv with opt_body := trivial }, trivial, hm⟩
  -- 17
  · obtain ⟨rfl, rfl⟩ := pair_ok h
    exact ⟨{ hv with opt_body := (hd 1).body }, trivial, hm⟩
  -- 18
  · obtain ⟨rfl, rfl⟩ := pair_ok h
    exact ⟨{ hv with body := ⟨ht 0 _ rfl, trivial⟩ }, trivial, hm⟩
  -- 19
  · obtain ⟨b, h1, h2⟩ := bind_ok h
    obtain ⟨rfl, rfl⟩ := pair_ok h2
    rw [checkColon_mod h1]
    split
    · exact ⟨hv, trivial, hm⟩
    · rename_i hn
      exact ⟨{ hv with body := wholeL_append hv.body ⟨whole_of_notNil hn (hd 3).stmt, trivial⟩ }, trivial, hm⟩
  -- 20
  · obtain ⟨rfl, rfl⟩ := pair_ok h
    exact ⟨{ hv with stmt := .inl rfl }, trivial, hm⟩
  -- 21
  · obtain ⟨rfl, rfl⟩ := pair_ok h
    exact ⟨{ hv with stmt := (hd 1).stmt }, trivial, hm⟩
  -- 22
  · obtain ⟨rfl, rfl⟩ := pair_ok h; exact ⟨{ hv with }, trivial, hm⟩
  -- 23
  · obtain ⟨rfl, rfl⟩ := pair_ok h; exact ⟨{ hv with }, trivial, hm⟩
  -- 24
  · obtain ⟨rfl, rfl⟩ := pair_ok h
    refine ⟨{ hv with opt_explicit_variables := ?_ }, trivial, hm⟩
    rintro l ⟨⟩ n hn; cases hn
  -- 25
  · obtain ⟨rfl, rfl⟩ := pair_ok h
    exact ⟨{ hv with opt_explicit_variables := (hd 1).explicit_variables }, trivial, hm⟩
  -- 26
  · obtain ⟨b, h1, h2⟩ := bind_ok h
    have k := appendVars_names h1 (by rintro l ⟨⟩ n hn; cases hn) (hd 2).identifiers
    split at h2
    · obtain ⟨c, h3, h4⟩ := bind_ok h2
      obtain ⟨rfl, rfl⟩ := pair_ok h4
      rw [error_mod h3]; exact ⟨hv, trivial, hm⟩
    · obtain ⟨rfl, rfl⟩ := pair_ok h2
      exact ⟨{ hv with explicit_variables := k }, trivial, hm⟩
  -- 27
  · obtain ⟨b, h1, h2⟩ := bind_ok h
    have k := appendVars_names h1 (hd 1).explicit_variables (hd 3).identifiers
    split at h2
    · obtain ⟨c, h3, h4⟩ := bind_ok h2
      obtain ⟨rfl, rfl⟩ := pair_ok h4
      rw [error_mod h3]; exact ⟨{ hv with explicit_variables := k }, trivial, hm⟩
    · obtain ⟨rfl, rfl⟩ := pair_ok h2
      exact ⟨{ hv with explicit_variables := k }, trivial, hm⟩
  -- 28
  · obtain ⟨rfl, rfl⟩ := pair_ok h
    have k : Stm.whole N V (.ifS (d 2).stmt (d 4).opt_body (d 5).opt_elseif_list (d 6).opt_else) :=
      ⟨ht 1 _ rfl, (hd 4).opt_body, (hd 5).opt_elseif_list, (hd 6).opt_else⟩
    exact ⟨{ hv with stmt_if := .inr k }, k, hm⟩
  -- 29
  · obtain ⟨rfl, rfl⟩ := pair_ok h
    exact ⟨{ hv with opt_elseif_list := trivial }, trivial, hm⟩
  -- 30
  · obtain ⟨rfl, rfl⟩ := pair_ok h
    exact ⟨{ hv with opt_elseif_list := wholeE_append (hd 5).opt_elseif_list ⟨⟨ht 1 _ rfl, (hd 4).opt_body, rfl, rfl⟩, trivial⟩ }, trivial, hm⟩
  -- 31
  · obtain ⟨rfl, rfl⟩ := pair_ok h
    exact ⟨{ hv with opt_else := trivial }, trivial, hm⟩
  -- 32
  · obtain ⟨rfl, rfl⟩ := pair_ok h
    exact ⟨{ hv with opt_else := (hd 2).opt_body }, trivial, hm⟩
  -- 33
  · obtain ⟨rfl, rfl⟩ := pair_ok h
    have k : Stm.whole N V (.ternary (d 3).stmt (d 5).stmt (d 7).stmt) := ⟨ht 2 _ rfl, ht 4 _ rfl, ht 6 _ rfl⟩
    exact ⟨{ hv with stmt := .inr k }, k, hm⟩
  -- 34
  · obtain ⟨rfl, rfl⟩ := pair_ok h; exact ⟨hv, trivial, hm⟩
  -- 35
  · obtain ⟨rfl, rfl⟩ := pair_ok h
    have k : Stm.whole N V (.loop (.str (d 3).token.literal) .nil (d 5).stmt .nil (d 8).opt_body) := 
      ⟨(hd 8).opt_body, .inl ⟨⟨_, rfl, ident _ (ht 2 _ rfl)⟩, rfl, ht 4 _ rfl, rfl⟩⟩
    exact ⟨{ hv with stmt_loop := .inr k }, k, hm⟩
  -- 36
  · obtain ⟨rfl, rfl⟩ := pair_ok h; exact ⟨hv, trivial, hm⟩
  -- 37
  · obtain ⟨rfl, rfl⟩ := pair_ok h
    have k : Stm.whole N V (.loop (d 2).stmt (d 4).stmt .nil .nil (d 7).opt_body) := 
      ⟨(hd 7).opt_body, .inr (.inl ⟨ht 1 _ rfl, ht 3 _ rfl, rfl, rfl⟩)⟩
    exact ⟨{ hv with stmt_loop := .inr k }, k, hm⟩
  -- 38
  · obtain ⟨rfl, rfl⟩ := pair_ok h; exact ⟨hv, trivial, hm⟩
  -- 39
  · obtain ⟨rfl, rfl⟩ := pair_ok h
    have k : Stm.whole N V (.loop .nil .nil .nil (d 2).stmt (d 5).opt_body) := 
      ⟨(hd 5).opt_body, .inr (.inr ⟨rfl, rfl, rfl, ht 1 _ rfl⟩)⟩
    exact ⟨{ hv with stmt_loop := .inr k }, k, hm⟩
  -- 40
  · obtain ⟨rfl, rfl⟩ := pair_ok h
    have k : Stm.whole N V ((d 1).stmt) := ht 0 _ rfl
    exact ⟨{ hv with stmt := .inr k }, k, hm⟩
  -- 41
  · obtain ⟨rfl, rfl⟩ := pair_ok h
    have k : Stm.whole N V ((d 1).stmt) := ht 0 _ rfl
    exact ⟨{ hv with stmt := .inr k }, k, hm⟩
  -- 42
  · obtain ⟨rfl, rfl⟩ := pair_ok h
    have k : Stm.whole N V ((d 2).stmt) := ht 1 _ rfl
    exact ⟨{ hv with stmt := .inr k }, k, hm⟩
  -- 43
  · obtain ⟨rfl, rfl⟩ := pair_ok h
    have k : Stm.whole N V ((d 1).stmt) := ht 0 _ rfl
    exact ⟨{ hv with stmt := .inr k }, k, hm⟩
  -- 44
  · obtain ⟨rfl, rfl⟩ := pair_ok h
    have k : Stm.whole N V (.assign (d 1).stmt [(d 3).stmt]) := ⟨ht 0 _ rfl, rfl, ht 2 _ rfl, trivial⟩
    exact ⟨{ hv with stmt := .inr k }, k, hm⟩
  -- 45
  · obtain ⟨rfl, rfl⟩ := pair_ok h
    have k : Stm.whole N V ((d 1).stmt) := ht 0 _ rfl
    exact ⟨{ hv with stmt := .inr k }, k, hm⟩
  -- 46
  · obtain ⟨rfl, rfl⟩ := pair_ok h
    have k : Stm.whole N V ((d 1).stmt_if) := ht 0 _ rfl
    exact ⟨{ hv with stmt := .inr k }, k, hm⟩
  -- 47
  · obtain ⟨rfl, rfl⟩ := pair_ok h
    have k : Stm.whole N V ((d 1).stmt_loop) := ht 0 _ rfl
    exact ⟨{ hv with stmt := .inr k }, k, hm⟩
  -- 48
  · obtain ⟨rfl, rfl⟩ := pair_ok h
    have k : Stm.whole N V ((d 1).stmt) := ht 0 _ rfl
    exact ⟨{ hv with stmt := .inr k }, k, hm⟩
  -- 49
  · obtain ⟨b, h1, h2⟩ := bind_ok h
    have hb : b.mod = a.mod := by
      unfold checkLoop at h1
      split at h1
      · exact error_mod h1
      · injection h1 with h1; subst h1; rfl
    obtain ⟨rfl, rfl⟩ := pair_ok h2
    have k : Stm.whole N V (.cont) := trivial
    rw [hb]
    exact ⟨{ hv with stmt := .inr k }, k, hm⟩
  -- 50
  · obtain ⟨b, h1, h2⟩ := bind_ok h
    have hb : b.mod = a.mod := by
      unfold checkLoop at h1
      split at h1
      · exact error_mod h1
      · injection h1 with h1; subst h1; rfl
    obtain ⟨rfl, rfl⟩ := pair_ok h2
    have k : Stm.whole N V (.brk) := trivial
    rw [hb]
    exact ⟨{ hv with stmt := .inr k }, k, hm⟩
  -- 51
  · obtain ⟨b, h1, h2⟩ := bind_ok h
    have hb : b.mod = a.mod := by
      unfold checkThrow at h1
      split at h1
      · exact error_mod h1
      · injection h1 with h1; subst h1; rfl
    obtain ⟨rfl, rfl⟩ := pair_ok h2
    have k : Stm.whole N V (.throw (d 2).stmt) := (hd 2).stmt
    rw [hb]
    exact ⟨{ hv with stmt := .inr k }, k, hm⟩
  -- 52
  · obtain ⟨b, h1, h2⟩ := bind_ok h
    have hb : b.mod = a.mod := by
      unfold checkReturn at h1
      split at h1
      · exact error_mod h1
      · injection h1 with h1; subst h1; rfl
    obtain ⟨rfl, rfl⟩ := pair_ok h2
    have k : Stm.whole N V (.ret (d 2).stmt) := (hd 2).stmt
    rw [hb]
    exact ⟨{ hv with stmt := .inr k }, k, hm⟩
  -- 53
  · obtain ⟨rfl, rfl⟩ := pair_ok h
    have k : Stm.whole N V ((d 1).stmt) := ht 0 _ rfl
    exact ⟨{ hv with stmt := .inr k }, k, hm⟩
  -- 54
  · obtain ⟨rfl, rfl⟩ := pair_ok h
    have k : Stm.whole N V (.chain (d 3).stmt (d 1).stmt false false) := ⟨ht 2 _ rfl, ht 0 _ rfl⟩
    exact ⟨{ hv with stmt := .inr k }, k, hm⟩
  -- 55
  · obtain ⟨rfl, rfl⟩ := pair_ok h
    have k : Stm.whole N V (.var (d 1).token.literal false false) := ident _ (ht 0 _ rfl)
    exact ⟨{ hv with stmt := .inr k }, k, hm⟩
  -- 56
  · obtain ⟨rfl, rfl⟩ := pair_ok h
    have k : Stm.whole N V (.method (d 1).token.literal (d 3).exprs false) := ⟨.inl (ident _ (ht 0 _ rfl)), (hd 3).exprs⟩
    exact ⟨{ hv with stmt := .inr k }, k, hm⟩
  -- 57
  · obtain ⟨rfl, rfl⟩ := pair_ok h
    have k : Stm.whole N V (.item (d 3).stmt (d 1).stmt) := ⟨ht 2 _ rfl, ht 0 _ rfl⟩
    exact ⟨{ hv with stmt := .inr k }, k, hm⟩
  -- 58
  · obtain ⟨rfl, rfl⟩ := pair_ok h
    have k : Stm.whole N V (.method (d 1).token.literal [(d 2).stmt] false) := 
      ⟨.inr (hs.name .kExecute (by decide) _ (ht 0 _ rfl)), wholeO_one (hd 2).stmt⟩
    exact ⟨{ hv with stmt := .inr k }, k, hm⟩
  -- 59
  · obtain ⟨rfl, rfl⟩ := pair_ok h
    have k : Stm.whole N V (.method (d 1).token.literal [(d 3).stmt] false) := 
      ⟨.inr (hs.name .kExecute (by decide) _ (ht 0 _ rfl)), wholeO_one (hd 3).stmt⟩
    exact ⟨{ hv with stmt := .inr k }, k, hm⟩
  -- 60
  · obtain ⟨rfl, rfl⟩ := pair_ok h
    have k : Stm.whole N V ((d 1).token.value.toStm) := toStm_whole (hs.value .kString (by decide) _ (ht 0 _ rfl))
    exact ⟨{ hv with stmt := .inr k }, k, hm⟩
  -- 61
  · obtain ⟨rfl, rfl⟩ := pair_ok h
    have k : Stm.whole N V (.var (d 1).token.literal false false) := ident _ (ht 0 _ rfl)
    exact ⟨{ hv with stmt := .inr k }, k, hm⟩
  -- 62
  · obtain ⟨rfl, rfl⟩ := pair_ok h; exact ⟨hv, trivial, hm⟩
  -- 63
  · obtain ⟨rfl, rfl⟩ := pair_ok h
    have k : Stm.whole N V (.tryS (d 2).opt_body (d 5).opt_body) := ⟨(hd 2).opt_body, (hd 5).opt_body⟩
    exact ⟨{ hv with stmt := .inr k }, k, hm⟩
  -- 64
  · obtain ⟨rfl, rfl⟩ := pair_ok h
    have k : Stm.whole N V ((d 1).stmt) := ht 0 _ rfl
    exact ⟨{ hv with stmt := .inr k }, k, hm⟩
  -- 65
  · obtain ⟨rfl, rfl⟩ := pair_ok h
    have k : Stm.whole N V (.exprs (d 2).exprs false) := (hd 2).exprs
    exact ⟨{ hv with stmt := .inr k }, k, hm⟩
  -- 66
  · obtain ⟨rfl, rfl⟩ := pair_ok h
    have k : Stm.whole N V (mkBin .plus (d 1).stmt (d 3).stmt) := ⟨ht 0 _ rfl, ht 2 _ rfl⟩
    exact ⟨{ hv with stmt := .inr k }, k, hm⟩
  -- 67
  · obtain ⟨rfl, rfl⟩ := pair_ok h
    have k : Stm.whole N V (mkBin .minus (d 1).stmt (d 3).stmt) := ⟨ht 0 _ rfl, ht 2 _ rfl⟩
    exact ⟨{ hv with stmt := .inr k }, k, hm⟩
  -- 68
  · obtain ⟨rfl, rfl⟩ := pair_ok h
    have k : Stm.whole N V (mkBin .mul (d 1).stmt (d 3).stmt) := ⟨ht 0 _ rfl, ht 2 _ rfl⟩
    exact ⟨{ hv with stmt := .inr k }, k, hm⟩
  -- 69
  · obtain ⟨rfl, rfl⟩ := pair_ok h
    have k : Stm.whole N V (mkBin .div (d 1).stmt (d 3).stmt) := ⟨ht 0 _ rfl, ht 2 _ rfl⟩
    exact ⟨{ hv with stmt := .inr k }, k, hm⟩
  -- 70
  · obtain ⟨rfl, rfl⟩ := pair_ok h
    have k : Stm.whole N V (mkBin .mod (d 1).stmt (d 3).stmt) := ⟨ht 0 _ rfl, ht 2 _ rfl⟩
    exact ⟨{ hv with stmt := .inr k }, k, hm⟩
  -- 71
  · obtain ⟨rfl, rfl⟩ := pair_ok h
    have k : Stm.whole N V (mkBin .gt (d 1).stmt (d 3).stmt) := ⟨ht 0 _ rfl, ht 2 _ rfl⟩
    exact ⟨{ hv with stmt := .inr k }, k, hm⟩
  -- 72
  · obtain ⟨rfl, rfl⟩ := pair_ok h
    have k : Stm.whole N V (mkBin .lt (d 1).stmt (d 3).stmt) := ⟨ht 0 _ rfl, ht 2 _ rfl⟩
    exact ⟨{ hv with stmt := .inr k }, k, hm⟩
  -- 73
  · obtain ⟨rfl, rfl⟩ := pair_ok h
    have k : Stm.whole N V (mkBin .eq (d 1).stmt (d 3).stmt) := ⟨ht 0 _ rfl, ht 2 _ rfl⟩
    exact ⟨{ hv with stmt := .inr k }, k, hm⟩
  -- 74
  · obtain ⟨rfl, rfl⟩ := pair_ok h
    have k : Stm.whole N V (mkBin .or (d 1).stmt (d 3).stmt) := ⟨ht 0 _ rfl, ht 2 _ rfl⟩
    exact ⟨{ hv with stmt := .inr k }, k, hm⟩
  -- 75
  · obtain ⟨rfl, rfl⟩ := pair_ok h
    have k : Stm.whole N V (mkBin .and (d 1).stmt (d 3).stmt) := ⟨ht 0 _ rfl, ht 2 _ rfl⟩
    exact ⟨{ hv with stmt := .inr k }, k, hm⟩
  -- 76
  · obtain ⟨rfl, rfl⟩ := pair_ok h
    have k : Stm.whole N V (mkBin .ne (d 1).stmt (d 3).stmt) := ⟨ht 0 _ rfl, ht 2 _ rfl⟩
    exact ⟨{ hv with stmt := .inr k }, k, hm⟩
  -- 77
  · obtain ⟨rfl, rfl⟩ := pair_ok h
    have k : Stm.whole N V (mkBin .le (d 1).stmt (d 3).stmt) := ⟨ht 0 _ rfl, ht 2 _ rfl⟩
    exact ⟨{ hv with stmt := .inr k }, k, hm⟩
  -- 78
  · obtain ⟨rfl, rfl⟩ := pair_ok h
    have k : Stm.whole N V (mkBin .ge (d 1).stmt (d 3).stmt) := ⟨ht 0 _ rfl, ht 2 _ rfl⟩
    exact ⟨{ hv with stmt := .inr k }, k, hm⟩
  -- 79
  · obtain ⟨rfl, rfl⟩ := pair_ok h
    have k : Stm.whole N V (notStm (d 2).stmt) := notStm_whole hs (ht 1 _ rfl)
    exact ⟨{ hv with stmt := .inr k }, k, hm⟩
  -- 80
  · obtain ⟨rfl, rfl⟩ := pair_ok h
    have k : Stm.whole N V ((d 1).stmt) := ht 0 _ rfl
    exact ⟨{ hv with stmt := .inr k }, k, hm⟩
  -- 81
  · obtain ⟨rfl, rfl⟩ := pair_ok h
    obtain ⟨n, hn, hg⟩ : ∃ n, (d 2).goToLabel = .label n ∧ N .kGoToLabel n := ht 1 _ rfl
    have k : Stm.whole N V (mkGoto (d 2).goToLabel) := by rw [hn]; exact hg
    exact ⟨{ hv with stmt := .inr k }, k, hm⟩
  -- 82
  · obtain ⟨rfl, rfl⟩ := pair_ok h
    have k : Stm.whole N V ((d 1).stmt) := ht 0 _ rfl
    exact ⟨{ hv with stmt := .inr k }, k, hm⟩
  -- 83
  · obtain ⟨rfl, rfl⟩ := pair_ok h
    have k : Stm.whole N V ((d 1).stmt) := ht 0 _ rfl
    exact ⟨{ hv with stmt := .inr k }, k, hm⟩
  -- 84
  · obtain ⟨rfl, rfl⟩ := pair_ok h
    exact ⟨{ hv with stmt := .inl rfl }, trivial, hm⟩
  -- 85
  · obtain ⟨rfl, rfl⟩ := pair_ok h
    exact ⟨{ hv with stmt := (hd 1).stmt }, trivial, hm⟩
  -- 86
  · obtain ⟨rfl, rfl⟩ := pair_ok h
    exact ⟨{ hv with exprs := wholeO_one (hd 1).stmt }, trivial, hm⟩
  -- 87
  · obtain ⟨rfl, rfl⟩ := pair_ok h
    exact ⟨{ hv with exprs := wholeO_append hv.exprs (wholeO_one (hd 3).stmt) }, trivial, hm⟩
  -- 88
  · obtain ⟨rfl, rfl⟩ := pair_ok h
    have k : Stm.whole N V ((d 1).token.value.toStm) := toStm_whole (hs.value .kString (by decide) _ (ht 0 _ rfl))
    exact ⟨{ hv with stmt := .inr k }, k, hm⟩
  -- 89
  · obtain ⟨rfl, rfl⟩ := pair_ok h
    have k : Stm.whole N V ((d 1).token.value.toStm) := toStm_whole (hs.value .kNumber (by decide) _ (ht 0 _ rfl))
    exact ⟨{ hv with stmt := .inr k }, k, hm⟩
  -- 90
  · obtain ⟨rfl, rfl⟩ := pair_ok h
    have k : Stm.whole N V (unaryMinus (d 2).stmt) := unaryMinus_whole hs (ht 1 _ rfl)
    exact ⟨{ hv with stmt := .inr k }, k, hm⟩
  -- 91
  · obtain ⟨rfl, rfl⟩ := pair_ok h
    have k : Stm.whole N V ((d 2).stmt) := ht 1 _ rfl
    exact ⟨{ hv with stmt := .inr k }, k, hm⟩
  -- 92
  · obtain ⟨rfl, rfl⟩ := pair_ok h
    have k : Stm.whole N V ((d 1).token.value.toStm) := toStm_whole (hs.value .kTrue (by decide) _ (ht 0 _ rfl))
    exact ⟨{ hv with stmt := .inr k }, k, hm⟩
  -- 93
  · obtain ⟨rfl, rfl⟩ := pair_ok h
    have k : Stm.whole N V ((d 1).token.value.toStm) := toStm_whole (hs.value .kFalse (by decide) _ (ht 0 _ rfl))
    exact ⟨{ hv with stmt := .inr k }, k, hm⟩
  -- 94
  · obtain ⟨rfl, rfl⟩ := pair_ok h
    have k : Stm.whole N V ((d 1).token.value.toStm) := toStm_whole (hs.value .kDate (by decide) _ (ht 0 _ rfl))
    exact ⟨{ hv with stmt := .inr k }, k, hm⟩
  -- 95
  · obtain ⟨rfl, rfl⟩ := pair_ok h
    have k : Stm.whole N V (.undef) := trivial
    exact ⟨{ hv with stmt := .inr k }, k, hm⟩
  -- 96
  · obtain ⟨rfl, rfl⟩ := pair_ok h
    obtain ⟨n, hn, hg⟩ : ∃ n, (d 1).goToLabel = .label n ∧ N .kGoToLabel n := ht 0 _ rfl
    have k : Stm.whole N V (d 1).goToLabel := by rw [hn]; exact hg
    exact ⟨{ hv with stmt := .inr k }, k, hm⟩
  -- 97
  · obtain ⟨rfl, rfl⟩ := pair_ok h
    have k := ident _ (ht 0 _ rfl)
    exact ⟨{ hv with dparam := .inl rfl }, k, hm⟩
  -- 98
  · obtain ⟨rfl, rfl⟩ := pair_ok h
    have k := ident _ (ht 1 _ rfl)
    exact ⟨{ hv with dparam := .inl rfl }, k, hm⟩
  -- 99
  · obtain ⟨rfl, rfl⟩ := pair_ok h
    have k : N .ktoken_identifier (d 1).dparam.name := ht 0 _ rfl
    have e := hv1 nofun
    subst e
    refine ⟨{ hv with dparam := ?_ }, k, hm⟩
    have k3 : Stm.whole N V (d 3).stmt := ht 2 _ rfl
    refine .inr ?_
    show Stm.whole N V (match (d 3).stmt with | .nil => .undef | v => v)
    split
    · trivial
    · exact k3
  -- 100
  · obtain ⟨rfl, rfl⟩ := pair_ok h
    exact ⟨{ hv with dparams := nofun }, trivial, hm⟩
  -- 101
  · obtain ⟨rfl, rfl⟩ := pair_ok h
    refine ⟨{ hv with dparams := ?_ }, trivial, hm⟩
    intro q hq
    rw [List.mem_singleton] at hq; subst hq
    exact ⟨ht 0 _ rfl, (hd 1).dparam⟩
  -- 102
  · obtain ⟨rfl, rfl⟩ := pair_ok h
    refine ⟨{ hv with dparams := ?_ }, trivial, hm⟩
    intro q hq
    rw [List.mem_append, List.mem_singleton] at hq
    rcases hq with hq | rfl
    · exact (hd 1).dparams q hq
    · exact ⟨ht 2 _ rfl, (hd 3).dparam⟩
  -- 103
  · obtain ⟨rfl, rfl⟩ := pair_ok h
    have k : Stm.whole N V (.new (d 2).token.literal []) := ⟨.inr (ident _ (ht 1 _ rfl)), trivial⟩
    exact ⟨{ hv with stmt := .inr k }, k, hm⟩
  -- 104
  · obtain ⟨rfl, rfl⟩ := pair_ok h
    have k : Stm.whole N V (.new (d 2).token.literal (d 4).exprs) := ⟨.inr (ident _ (ht 1 _ rfl)), (hd 4).exprs⟩
    exact ⟨{ hv with stmt := .inr k }, k, hm⟩
  -- 105
  · obtain ⟨rfl, rfl⟩ := pair_ok h
    have k : Stm.whole N V (.new [] (d 3).exprs) := ⟨.inl rfl, (hd 3).exprs⟩
    exact ⟨{ hv with stmt := .inr k }, k, hm⟩
  -- 106
  · obtain ⟨rfl, rfl⟩ := pair_ok h
    have k := hs.name .kGoToLabel (by decide) _ (ht 0 _ rfl)
    exact ⟨{ hv with goToLabel := .inr k }, ⟨_, rfl, k⟩, hm⟩
  -- 107
  · obtain ⟨rfl, rfl⟩ := pair_ok h
    refine ⟨{ hv with identifiers := ?_ }, trivial, hm⟩
    intro q hq
    rw [List.mem_singleton] at hq; subst hq
    exact ident _ (ht 0 _ rfl)
  -- 108
  · obtain ⟨rfl, rfl⟩ := pair_ok h
    refine ⟨{ hv with identifiers := ?_ }, trivial, hm⟩
    intro q hq
    rw [List.mem_append, List.mem_singleton] at hq
    rcases hq with hq | rfl
    · exact hv.identifiers q hq
    · exact ident _ (ht 2 _ rfl)
  -- 109
  · obtain ⟨rfl, rfl⟩ := pair_ok h; exact ⟨{ hv with }, trivial, hm⟩
  -- 110
  · obtain ⟨rfl, rfl⟩ := pair_ok h; exact ⟨{ hv with }, trivial, hm⟩
  -- 111
  · obtain ⟨rfl, rfl⟩ := pair_ok h; exact ⟨{ hv with }, trivial, hm⟩
  -- 112
  · have hp' : p = 112 := by
      have : nProds = 113 := rfl
      simp only [imp_false] at *
      omega
    subst hp'
    obtain ⟨rfl, rfl⟩ := pair_ok h
    exact ⟨hv, trivial, hm⟩

/-! ## The driver -/

section
variable [Letters]

/-- The slots of the stack hold whole values of their symbols. -/
structure WholeCfg (code : List Char) (N : Terminal → Name → Prop) (V : Val → Prop) (c : Cfg) : Prop where
  codeEq : c.ast.code = code
  stk : ∃ ts vs, Stk c.live ts vs ∧
    List.Forall₂ (fun T v => Built N V v ∧ ∀ X, symNum X = Tree.root T → Typed (fun k t => FromText code t k) N V X v) ts vs
  stale : ∀ v ∈ c.stale, Built N V v
  mod : c.ast.mod.Whole N V
  lval : ∃ n, c.lval = afterCalls n (startTok code)
  look : ∀ t, c.look = some t → ∃ k, t = tokNum k ∧ k ≠ 0 ∧ FromText code c.lval k

theorem WholeCfg.fetch {code : List Char} {c : Cfg} (hc : code ≠ []) (h : WholeCfg code N V c) :
    WholeCfg code N V (fetch c).1 ∧ (fetch c).1.live = c.live ∧ (fetch c).2 < nToks ∧
      ((fetch c).1.look = some (fetch c).2 ∨ (fetch c).2 = 1) := by
  cases hl : c.look with
  | some t =>
    rw [fetch_look hl]
    obtain ⟨k, hk, -⟩ := h.look t hl
    exact ⟨h, rfl, hk ▸ (tokNum_lt k).1, .inl hl⟩
  | none =>
    have hcode : c.ast.code ≠ [] := by rw [h.codeEq]; exact hc
    obtain ⟨n, hn⟩ := h.lval
    have hs : (lexNext c.lval).1 = afterCalls (n + 1) (startTok code) := by rw [afterCalls_succ, hn]
    rw [fetch_none hl, lexCall_eq hcode]
    rcases hx : lexNext c.lval with ⟨t', e | (_ | k)⟩ <;> rw [hx] at hs
    · exact ⟨⟨h.codeEq, h.stk, h.stale, h.mod, ⟨_, hs⟩, fun t ht => by dsimp only at ht; rw [hl] at ht; cases ht⟩,
        rfl, (by show tokEnd < nToks; decide), .inr rfl⟩
    · exact ⟨⟨h.codeEq, h.stk, h.stale, h.mod, ⟨_, hs⟩, fun t ht => by dsimp only at ht; rw [hl] at ht; cases ht⟩,
        rfl, (by show tokEnd < nToks; decide), .inr rfl⟩
    · refine ⟨⟨h.codeEq, h.stk, h.stale, h.mod, ⟨_, hs⟩, ?_⟩, rfl, (tokNum_lt k).1, .inl rfl⟩
      rintro t ⟨⟩
      exact ⟨k, rfl, lexNext_kind_ne_zero hx, n, by rw [← hn]; exact hx⟩

/-- `WholeCfg` after a step. -/
def WholePost (code : List Char) (N : Terminal → Name → Prop) (V : Val → Prop) : Except Panic Step → Prop
  | .error _ => True
  | .ok (.go c') => WholeCfg code N V c'
  | .ok (.done _ a) => a.code = code ∧ a.mod.Whole N V

omit [Letters] in
theorem forall₂_getD {R : Tree → SV → Prop} {ts : List Tree} {vs : List SV} (h : List.Forall₂ R ts vs) {i : Nat} {X : Nat}
    (hi : (ts.map Tree.root)[i]? = some X) (st : List SV) : ∃ T, Tree.root T = X ∧ R T ((vs ++ st).getD i {}) := by
  induction h generalizing i with
  | nil => cases hi
  | @cons T v ts vs h1 _ ih =>
    cases i with
    | zero => injection hi with hi; exact ⟨T, hi, h1⟩
    | succ i => exact ih hi

omit [Letters] in
theorem whole_right {R : Tree → SV → Prop} {P : SV → Prop} (hR : ∀ T v, R T v → P v) {ts : List Tree} {vs : List SV}
    (h : List.Forall₂ R ts vs) : ∀ v ∈ vs, P v := by
  induction h with
  | nil => intro v hv; cases hv
  | cons h1 _ ih =>
    intro v hv
    cases hv with
    | head => exact hR _ _ h1
    | tail _ hv => exact ih v hv

omit [Letters] in
theorem forall₂_split {R : Tree → SV → Prop} {ts1 ts2 : List Tree} {vs1 vs2 : List SV} (hl : vs1.length = ts1.length)
    (h : List.Forall₂ R (ts1 ++ ts2) (vs1 ++ vs2)) : List.Forall₂ R ts1 vs1 ∧ List.Forall₂ R ts2 vs2 := by
  induction ts1 generalizing vs1 with
  | nil =>
    rw [List.length_eq_zero_iff.1 hl] at h ⊢
    exact ⟨.nil, h⟩
  | cons T ts1 ih =>
    cases vs1 with
    | nil => cases hl
    | cons v vs1 =>
      cases h with
      | cons h1 h2 =>
        obtain ⟨h3, h4⟩ := ih (by simpa using hl) h2
        exact ⟨.cons h1 h3, h4⟩

omit [Letters] in
theorem forall₂_snoc {R : Tree → SV → Prop} {ts : List Tree} {vs : List SV} {T : Tree} {v : SV}
    (h : List.Forall₂ R ts vs) (h1 : R T v) : List.Forall₂ R (ts ++ [T]) (vs ++ [v]) := by
  induction h with
  | nil => exact .cons h1 .nil
  | cons h2 _ ih => exact .cons h2 ih

theorem reduce_whole {code : List Char} (hs : Sources (fun k t => FromText code t k) N V) {c : Cfg} {s v r p}
    (h : WholeCfg code N V c) (hl : c.live = (s, v) :: r) (hp : p ∈ reds s) : WholePost code N V (reduce c p) := by
  obtain ⟨ts, vs, hst, hR⟩ := h.stk
  rw [hl] at hst
  obtain ⟨h0, hpn, -⟩ := reds_ok hst.lt hp
  obtain ⟨ts1, ts2, vs1, vs2, b, wb, l', g, rfl, rfl, e3, e4, e5, e6, e7, e8, e9⟩ := hst.popRed hp c.stale
  unfold reduce
  rw [yyR2_eq h0 hpn, hl]
  dsimp only
  rw [e8]
  dsimp only
  rw [gotoOf_eq e5.lt hpn e6]
  obtain ⟨hR1, hR2⟩ := forall₂_split e5.length hR
  have hall : ∀ w ∈ vs2 ++ c.stale, Built N V w := by
    intro w hw
    rw [List.mem_append] at hw
    rcases hw with hw | hw
    · exact whole_right (fun _ _ x => x.1) hR2 w hw
    · exact h.stale w hw
  have hget : ∀ i, Built N V ((vs2 ++ c.stale).getD i {}) := by
    intro i
    rw [List.getD_eq_getElem?_getD]
    cases hi : (vs2 ++ c.stale)[i]? with
    | none => exact Built.token zeroTok
    | some w => exact hall w (List.mem_of_getElem? hi)
  have hhead : (vs2 ++ c.stale).headD {} = (vs2 ++ c.stale).getD 0 {} := by cases vs2 ++ c.stale <;> rfl
  obtain ⟨hsy, hhd⟩ := syms_rhs h0 hpn
  cases hact : act p (fun i => (vs2 ++ c.stale).getD (i - 1) {}) ((vs2 ++ c.stale).headD {}) c.ast with
  | error q => trivial
  | ok x =>
    obtain ⟨w, a'⟩ := x
    obtain ⟨k1, k2, k3⟩ := act_whole hs hact h0 hpn (fun i => hget (i - 1)) (by rw [hhead]; exact hget 0)
      (fun _ => hhead) (fun i X hX => by
        have hX' : (ts2.map Tree.root)[i]? = some (symNum X) := by
          rw [e3, ← hsy, List.getElem?_map, hX]; rfl
        obtain ⟨T, hT, hb⟩ := forall₂_getD hR2 hX' c.stale
        exact hb.2 X hT.symm) h.mod
    show WholeCfg code N V ⟨a', c.lval, c.look, (g, w) :: (b, wb) :: l', (vs2 ++ c.stale).tail⟩
    refine ⟨(act_frame hact).code.trans h.codeEq, ⟨ts1 ++ [.node p ts2], vs1 ++ [w], .push (T := .node p ts2) e5 (trans_goto hpn e6), ?_⟩,
      fun x hx => hall x (List.mem_of_mem_tail hx), k3, h.lval, h.look⟩
    refine forall₂_snoc hR1 ⟨k1, ?_⟩
    intro X hX
    have : X = .n (head p) := symNum_inj _ _ (hX.trans hhd.symm)
    subst this
    exact k2

theorem syntaxError_whole {code : List Char} {c : Cfg} (h : WholeCfg code N V c) : WholePost code N V (syntaxError c) := by
  obtain ⟨ts, vs, hst, -⟩ := h.stk
  rw [syntaxError_eq hst]
  cases he : c.ast.error .syntaxError with
  | error q => trivial
  | ok a => exact ⟨(error_frame he).1.code.trans h.codeEq, by rw [error_mod he]; exact h.mod⟩

theorem perform_whole {code : List Char} (hs : Sources (fun k t => FromText code t k) N V) {c : Cfg} {s v r t A}
    (h : WholeCfg code N V c) (hl : c.live = (s, v) :: r) (ht : t < nToks) (hA : A = action s t ∨ A = dflAct s t)
    (hk : c.look = some t ∨ t = 1) : WholePost code N V (perform c A) := by
  obtain ⟨ts, vs, hst, hR⟩ := h.stk
  rw [hl] at hst
  have hlt := hst.lt
  have hshift : (∃ s', A = .shift s' ∧ shiftL s t = some s') ∨ A = dflAct s t := by
    rcases hA with hA | hA
    · unfold action at hA
      split at hA
      · exact .inr hA
      · rw [shiftOf_eq hlt ht] at hA
        split at hA
        · rename_i s' hs'; exact .inl ⟨s', hA, hs'⟩
        · exact .inr hA
    · exact .inr hA
  rcases hshift with ⟨s', rfl, hs'⟩ | hA
  · have hk' : c.look = some t := by
      rcases hk with hk | h1
      · exact hk
      · subst h1; rw [shiftL_end hlt] at hs'; cases hs'
    obtain ⟨k, rfl, hk0, hk1⟩ := h.look t hk'
    refine ⟨h.codeEq, ⟨ts ++ [.leaf k c.lval], vs ++ [{ token := c.lval }], ?_, ?_⟩,
      fun x hx => h.stale x (List.mem_of_mem_tail hx), h.mod, h.lval, nofun⟩
    · show Stk ((s', _) :: c.live) _ _
      rw [hl]
      exact .push hst (trans_shift hlt hs')
    · refine forall₂_snoc hR ⟨Built.token _, ?_⟩
      intro X hX
      have hX : symNum X = tokNum k := hX
      cases X with
      | t a =>
        have : k = a.kind := tnum_tokNum hX.symm
        subst this
        exact hk1
      | n A =>
        exfalso
        have h1 := (tokNum_lt k).1
        have h2 : 100 ≤ nnum A := by cases A <;> decide
        have h3 : nnum A = tokNum k := hX
        unfold nToks at h1
        omega
  · cases A with
    | shift s' => exact absurd hA.symm (dflAct_shift hlt ht)
    | reduce p => exact reduce_whole hs h hl (dflAct_reduce hlt ht hA.symm)
    | accept => exact ⟨h.codeEq, h.mod⟩
    | error => exact syntaxError_whole h

theorem step_whole {code : List Char} (hc : code ≠ []) (hs : Sources (fun k t => FromText code t k) N V) {c : Cfg}
    (h : WholeCfg code N V c) : WholePost code N V (step c) := by
  obtain ⟨ts, vs, hst, hR⟩ := h.stk
  cases hl : c.live with
  | nil => exact absurd hl hst.ne_nil
  | cons x r =>
    obtain ⟨s, v⟩ := x
    rw [hl] at hst
    have hlt := hst.lt
    by_cases hz : isLazy s = true
    · rw [step_lazy hl hz 0]
      cases hA : dflAct s 0 with
      | shift s' => exact absurd hA (dflAct_shift hlt (by decide))
      | reduce p => exact reduce_whole hs h hl (dflAct_reduce hlt (by decide) hA)
      | accept => exact ⟨h.codeEq, h.mod⟩
      | error => exact syntaxError_whole h
    · obtain ⟨f1, f2, f3, f4⟩ := h.fetch hc
      rcases step_fetch hl (Bool.not_eq_true _ ▸ hz) with he | ⟨-, -, he⟩
      · rw [he]; exact perform_whole hs f1 (f2.trans hl) f3 (.inl rfl) f4
      · rw [he]
        obtain ⟨g1, g2, g3, g4⟩ := f1.fetch hc
        exact perform_whole hs g1 (g2.trans (f2.trans hl)) g3 (.inr rfl) g4

theorem run_wholeCfg {code : List Char} (hc : code ≠ []) (hs : Sources (fun k t => FromText code t k) N V) (n : Nat) (c : Cfg)
    (h : WholeCfg code N V c) {k a} (hr : run n c = .ok (some (k, a))) : a.code = code ∧ a.mod.Whole N V := by
  induction n generalizing c with
  | zero => cases hr
  | succ n ih =>
    have hp := step_whole hc hs h
    unfold run at hr
    cases hx : step c with
    | error q => rw [hx] at hr; cases hr
    | ok x =>
      rw [hx] at hr hp
      cases x with
      | go c' => exact ih c' hp hr
      | done k a =>
        injection hr with hr; injection hr with hr; injection hr with hr1 hr2
        subst hr2
        exact hp

/-- `Parse` leaves a whole module if it finds one. -/
theorem parse_wholeMod {a a' : Ast} (hs : Sources (fun k t => FromText a.code t k) N V) (hm : a.mod.Whole N V)
    (h : parse a = .ret a') : a'.code = a.code ∧ a'.mod.Whole N V := by
  unfold parse at h
  split at h
  · injection h with h; subst h; exact ⟨rfl, hm⟩
  · rename_i hb
    have hc : a.code ≠ [] := by
      intro e
      rw [e] at hb
      exact hb rfl
    split at h
    · cases h
    · cases h
    · rename_i k b hr
      injection h with h
      subst h
      refine run_wholeCfg hc hs _ _ ?_ hr
      exact ⟨rfl, ⟨[], [], .base _, .nil⟩, (fun v hv => by cases hv), hm, ⟨0, rfl⟩, (fun t ht => by cases ht)⟩

end

end Verif.LR
