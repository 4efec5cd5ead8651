import Verif.Proofs.LR.SemStmt
/-! The productions for declarations and modules. -/
namespace Verif.LR
open Tables Spec Lexer

/-! ## Names, parameters -/

theorem prod_8 : Prod 8 := by
  intro b ks la σ ws σ1 s v σ2 hb h hr hA ha
  replace h : SemF b [] ks la σ ws σ1 s := h
  obtain ⟨rfl, rfl, rfl, rfl⟩ := h.unnil
  actr ha
  exact ⟨rfl, none, rfl, rfl⟩

theorem prod_9 : Prod 9 := by
  intro b ks la σ ws σ1 s v σ2 hb h hr hA ha
  replace h : SemF b [7] ks la σ ws σ1 s := h
  replace h := h.one
  obtain ⟨v1, rfl, g1, ht1⟩ := h
  obtain ⟨rfl, rfl⟩ := sem_named .kDirective (by decide) rfl g1
  actr ha
  exact ⟨rfl, some v1.token.literal, rfl, rfl⟩

theorem prod_10 : Prod 10 := by
  intro b ks la σ ws σ1 s v σ2 hb h hr hA ha
  replace h : SemF b [] ks la σ ws σ1 s := h
  obtain ⟨rfl, rfl, rfl, rfl⟩ := h.unnil
  actr ha
  exact ⟨rfl, false, rfl, rfl⟩

theorem prod_11 : Prod 11 := by
  intro b ks la σ ws σ1 s v σ2 hb h hr hA ha
  replace h : SemF b [48] ks la σ ws σ1 s := h
  replace h := h.one
  obtain ⟨v1, rfl, g1, ht1⟩ := h
  obtain ⟨rfl, rfl, -⟩ := sem_word .kExport (by decide) rfl g1
  actr ha
  exact ⟨rfl, true, rfl, rfl⟩

theorem prod_107 : Prod 107 := by
  intro b ks la σ ws σ1 s v σ2 hb h hr hA ha
  replace h : SemF b [8] ks la σ ws σ1 s := h
  replace h := h.one
  obtain ⟨v1, rfl, g1, ht1⟩ := h
  obtain ⟨rfl, rfl⟩ := sem_named .ktoken_identifier (by decide) rfl g1
  actr ha
  exact ⟨rfl, ⟨v1.token.literal, []⟩, rfl, rfl⟩

theorem prod_108 : Prod 108 := by
  intro b ks la σ ws σ1 s v σ2 hb h hr hA ha
  replace h : SemF b [125, 133, 8] ks la σ ws σ1 s := h
  replace h := h.uncons
  obtain ⟨k1, l1, v1, vs, τ1, b1, rfl, rfl, ⟨rfl, n, rfl, q1⟩, ht1, h⟩ := h
  replace h := h.uncons
  obtain ⟨k2, l2, v2, vs, τ2, b2, rfl, rfl, ⟨rfl, rfl⟩, ht2, h⟩ := h
  replace h := h.one
  obtain ⟨v3, rfl, g3, ht3⟩ := h
  obtain ⟨rfl, rfl⟩ := sem_named .ktoken_identifier (by decide) rfl g3
  actr ha
  refine ⟨rfl, ⟨n.first, n.rest ++ [v3.token.literal]⟩, ?_, ?_⟩
  · simp [Names.toks, ident]
  · show (v1.identifiers ++ [v3.token]).map Tok.literal = _
    rw [List.map_append, q1]; rfl

theorem appendVars_spec {ts : List Tok} {ks : List Name} {r : AppendVars} (h : appendVars (some ks) ts = .ok r) (hd : r.dup = none) :
    r.map = some (ks ++ ts.map Tok.literal) ∧ (ks.Nodup → (ks ++ ts.map Tok.literal).Nodup) := by
  induction ts generalizing ks with
  | nil => injection h with h; subst h; simp
  | cons t ts ih =>
    rw [appendVars] at h
    split at h
    · injection h with h; subst h; cases hd
    · rename_i hn
      obtain ⟨h1, h2⟩ := ih h
      rw [List.append_assoc] at h1 h2
      refine ⟨h1, fun hk => h2 ?_⟩
      rw [List.nodup_append]
      refine ⟨hk, by simp, ?_⟩
      rintro x hx y hy rfl
      rw [List.mem_singleton] at hy
      subst hy
      exact hn (by simpa using hx)

theorem prod_24 : Prod 24 := by
  intro b ks la σ ws σ1 s v σ2 hb h hr hA ha
  replace h : SemF b [] ks la σ ws σ1 s := h
  obtain ⟨rfl, rfl, rfl, rfl⟩ := h.unnil
  actr ha
  exact ⟨rfl, [], rfl, rfl, List.nodup_nil⟩

theorem prod_25 : Prod 25 := by
  intro b ks la σ ws σ1 s v σ2 hb h hr hA ha
  replace h : SemF b [124] ks la σ ws σ1 s := h
  replace h := h.one
  obtain ⟨v1, rfl, ⟨rfl, l, rfl, q1, r1⟩, ht1⟩ := h
  actr ha
  exact ⟨rfl, l, rfl, q1, r1⟩

theorem prod_26 : Prod 26 := by
  intro b ks la σ ws σ1 s v σ2 hb h hr hA ha
  replace h : SemF b [10, 125, 130] ks la σ ws σ1 s := h
  replace h := h.uncons
  obtain ⟨k1, l1, v1, vs, τ1, b1, rfl, rfl, g1, ht1, h⟩ := h
  obtain ⟨rfl, rfl, -⟩ := sem_word .kVar (by decide) rfl g1
  replace h := h.uncons
  obtain ⟨k2, l2, v2, vs, τ2, b2, rfl, rfl, ⟨rfl, n, rfl, q2⟩, ht2, h⟩ := h
  replace h := h.one
  obtain ⟨v3, rfl, ⟨rfl, rfl, -⟩, ht3⟩ := h
  acto ha a a' ha he
  obtain ⟨r, h1, h2⟩ := bind_ok ha
  split at h2
  · obtain ⟨x, h3, h4⟩ := bind_ok h2
    obtain ⟨rfl, rfl⟩ := pair_ok h4
    exact absurd he (error_frame h3).2
  · rename_i hd
    obtain ⟨rfl, rfl⟩ := pair_ok h2
    have h1 : appendVars (some []) v2.identifiers = .ok r := h1
    obtain ⟨h5, h6⟩ := appendVars_spec h1 hd
    rw [q2, List.nil_append] at h5 h6
    refine ⟨rfl, [n], by simp [varsToks], ?_, by simpa using h6⟩
    show r.map = _
    rw [h5]; simp

theorem prod_27 : Prod 27 := by
  intro b ks la σ ws σ1 s v σ2 hb h hr hA ha
  replace h : SemF b [124, 10, 125, 130] ks la σ ws σ1 s := h
  replace h := h.uncons
  obtain ⟨k1, l1, v1, vs, τ1, b1, rfl, rfl, ⟨rfl, l, rfl, q1, r1⟩, ht1, h⟩ := h
  replace h := h.uncons
  obtain ⟨k2, l2, v2, vs, τ2, b2, rfl, rfl, g2, ht2, h⟩ := h
  obtain ⟨rfl, rfl, -⟩ := sem_word .kVar (by decide) rfl g2
  replace h := h.uncons
  obtain ⟨k3, l3, v3, vs, τ3, b3, rfl, rfl, ⟨rfl, n, rfl, q3⟩, ht3, h⟩ := h
  replace h := h.one
  obtain ⟨v4, rfl, ⟨rfl, rfl, -⟩, ht4⟩ := h
  acto ha a a' ha he
  obtain ⟨r, h1, h2⟩ := bind_ok ha
  split at h2
  · obtain ⟨x, h3, h4⟩ := bind_ok h2
    obtain ⟨rfl, rfl⟩ := pair_ok h4
    exact absurd he (error_frame h3).2
  · rename_i hd
    obtain ⟨rfl, rfl⟩ := pair_ok h2
    have h1 : appendVars v1.explicit_variables v3.identifiers = .ok r := h1
    rw [q1] at h1
    obtain ⟨h5, h6⟩ := appendVars_spec h1 hd
    rw [q3] at h5 h6
    refine ⟨rfl, l ++ [n], by simp [varsToks], ?_, by simpa using h6 r1⟩
    show r.map = _
    rw [h5]; simp

theorem prod_97 : Prod 97 := by
  intro b ks la σ ws σ1 s v σ2 hb h hr hA ha
  replace h : SemF b [8] ks la σ ws σ1 s := h
  replace h := h.one
  obtain ⟨v1, rfl, g1, ht1⟩ := h
  obtain ⟨rfl, rfl⟩ := sem_named .ktoken_identifier (by decide) rfl g1
  actr ha
  exact ⟨rfl, ⟨false, v1.token.literal, []⟩, rfl, rfl, ⟨nofun, nofun⟩, nofun⟩

theorem prod_98 : Prod 98 := by
  intro b ks la σ ws σ1 s v σ2 hb h hr hA ha
  replace h : SemF b [25, 8] ks la σ ws σ1 s := h
  replace h := h.uncons
  obtain ⟨k1, l1, v1, vs, τ1, b1, rfl, rfl, g1, ht1, h⟩ := h
  obtain ⟨rfl, rfl, -⟩ := sem_word .kValueParam (by decide) rfl g1
  replace h := h.one
  obtain ⟨v2, rfl, g2, ht2⟩ := h
  obtain ⟨rfl, rfl⟩ := sem_named .ktoken_identifier (by decide) rfl g2
  actr ha
  exact ⟨rfl, ⟨true, v2.token.literal, []⟩, rfl, rfl, ⟨nofun, nofun⟩, nofun⟩

theorem prod_99 : Prod 99 := by
  intro b ks la σ ws σ1 s v σ2 hb h hr hA ha
  replace h : SemF b [116, 40, 114] ks la σ ws σ1 s := h
  replace h := h.uncons
  obtain ⟨k1, l1, v1, vs, τ1, b1, rfl, rfl, ⟨rfl, p, rfl, q1, r1, c1⟩, ht1, h⟩ := h
  replace h := h.uncons
  obtain ⟨k2, l2, v2, vs, τ2, b2, rfl, rfl, g2, ht2, h⟩ := h
  obtain ⟨rfl, rfl, -⟩ := sem_word .kEQUAL (by decide) rfl g2
  replace h := h.one
  obtain ⟨v3, rfl, ⟨rfl, e, rfl, q3, r3⟩, ht3⟩ := h
  actr ha
  refine ⟨rfl, ⟨p.byVal, p.name, p.defaults ++ [e]⟩, ?_, ?_, ⟨?_, ?_⟩, ?_⟩
  · simp [ParamD.toks]
  · show Param.defaultValue v1.dparam v3.stmt = _
    rw [q1, q3]
    unfold Param.defaultValue ParamD.tree
    have := Simple.tree_ne e
    simp only [List.getLast?_append, List.getLast?_singleton, Option.some_or]
  · intro s hs
    rcases List.mem_append.1 hs with h | h
    · exact r1.1 s h
    · rw [List.mem_singleton.1 h]; exact r3.grouped
  · intro s hs
    simp only [List.dropLast_concat] at hs
    rcases List.eq_nil_or_concat p.defaults with h0 | ⟨l, y, h0⟩
    · rw [h0] at hs; cases hs
    · have h1 := r1.2
      have h2 := c1 (nextK_word _ _ _) y
      rw [h0, List.concat_eq_append] at h1 h2 hs
      rcases List.mem_append.1 hs with h | h
      · exact h1 s (by simpa using h)
      · rw [List.mem_singleton.1 h]; exact h2 (by simp)
  · intro hla s hs
    simp only [List.getLast?_append, List.getLast?_singleton, Option.some_or, Option.some.injEq] at hs
    rw [← hs]
    exact r3.closes .eq hla

theorem prod_100 : Prod 100 := by
  intro b ks la σ ws σ1 s v σ2 hb h hr hA ha
  replace h : SemF b [] ks la σ ws σ1 s := h
  obtain ⟨rfl, rfl, rfl, rfl⟩ := h.unnil
  actr ha
  exact ⟨rfl, ⟨none, []⟩, rfl, rfl, nofun⟩

theorem prod_101 : Prod 101 := by
  intro b ks la σ ws σ1 s v σ2 hb h hr hA ha
  replace h : SemF b [116] ks la σ ws σ1 s := h
  replace h := h.one
  obtain ⟨v1, rfl, ⟨rfl, p, rfl, q1, r1, -⟩, ht1⟩ := h
  actr ha
  refine ⟨rfl, ⟨some p, []⟩, by simp [ParamsD.toks], ?_, ?_⟩
  · show [v1.dparam] = _
    rw [q1]; rfl
  · intro x hx
    rw [ParamsD.list] at hx
    simp only [Option.toList, List.append_nil, List.mem_singleton] at hx
    rw [hx]; exact r1

theorem prod_102 : Prod 102 := by
  intro b ks la σ ws σ1 s v σ2 hb h hr hA ha
  replace h : SemF b [115, 133, 116] ks la σ ws σ1 s := h
  replace h := h.uncons
  obtain ⟨k1, l1, v1, vs, τ1, b1, rfl, rfl, ⟨rfl, p, rfl, q1, r1⟩, ht1, h⟩ := h
  replace h := h.uncons
  obtain ⟨k2, l2, v2, vs, τ2, b2, rfl, rfl, ⟨rfl, rfl⟩, ht2, h⟩ := h
  replace h := h.one
  obtain ⟨v3, rfl, ⟨rfl, x, rfl, q3, r3, -⟩, ht3⟩ := h
  actr ha
  refine ⟨rfl, ⟨p.first, p.rest ++ [x]⟩, by simp [ParamsD.toks], ?_, ?_⟩
  · show v1.dparams ++ [v3.dparam] = _
    rw [q1, q3]; simp [ParamsD.list]
  · intro y hy
    have : y ∈ p.list ∨ y = x := by
      rw [ParamsD.list] at hy ⊢
      simpa [or_assoc] using hy
    rcases this with h | rfl
    · exact r1 y h
    · exact r3

/-! ## Variables, procedures and functions -/

def dirOf : Option Tok → Name
  | some t => t.literal
  | none => []

theorem directive_eq {o : Option Tok} {d : Option Name} (h : o.map Tok.literal = d) : dirOf o = d.getD [] := by
  subst h; cases o <;> rfl

theorem prod_12 : Prod 12 := by
  intro b ks la σ ws σ1 s v σ2 hb h hr hA ha
  replace h : SemF b [113, 10, 125, 112, 130] ks la σ ws σ1 s := h
  replace h := h.uncons
  obtain ⟨k1, l1, v1, vs, τ1, b1, rfl, rfl, ⟨rfl, d, rfl, q1⟩, ht1, h⟩ := h
  replace h := h.uncons
  obtain ⟨k2, l2, v2, vs, τ2, b2, rfl, rfl, g2, ht2, h⟩ := h
  obtain ⟨rfl, rfl, -⟩ := sem_word .kVar (by decide) rfl g2
  replace h := h.uncons
  obtain ⟨k3, l3, v3, vs, τ3, b3, rfl, rfl, ⟨rfl, n, rfl, q3⟩, ht3, h⟩ := h
  replace h := h.uncons
  obtain ⟨k4, l4, v4, vs, τ4, b4, rfl, rfl, ⟨rfl, x, rfl, q4⟩, ht4, h⟩ := h
  replace h := h.one
  obtain ⟨v5, rfl, ⟨rfl, rfl, -⟩, ht5⟩ := h
  actr ha
  refine ⟨rfl, ⟨d, n, x⟩, by simp [VarsD.toks], ?_⟩
  show v3.identifiers.map (fun t => (⟨dirOf v1.opt_directive, t.literal, v4.opt_export.isSome⟩ : GVar)) = _
  rw [directive_eq q1, q4, VarsD.tree, ← q3, List.map_map]
  rfl

theorem prod_13 : Prod 13 := by
  intro b ks la σ ws σ1 s v σ2 hb h hr hA ha
  replace h : SemF b [] ks la σ ws σ1 s := h
  obtain ⟨rfl, rfl, rfl, rfl⟩ := h.unnil
  acto ha a a' ha he
  obtain ⟨rfl, rfl⟩ := pair_ok ha
  refine ⟨rfl, fun M n m f h => ?_⟩
  obtain ⟨h1, h2, h3, h4⟩ := view_eq h
  show St.mk a.mod a.isLoop a.isTry true = _
  rw [h1, h2, h3]; rfl

theorem prod_14 : Prod 14 := by
  intro b ks la σ ws σ1 s v σ2 hb h hr hA ha
  replace h : SemF b [113, 35, 8, 62, 115, 63, 112, 137, 123, 102, 36] ks la σ ws σ1 s := h
  replace h := h.uncons
  obtain ⟨k1, l1, v1, vs, τ1, b1, rfl, rfl, ⟨rfl, d, rfl, q1⟩, ht1, h⟩ := h
  replace h := h.uncons
  obtain ⟨k2, l2, v2, vs, τ2, b2, rfl, rfl, g2, ht2, h⟩ := h
  obtain ⟨rfl, rfl, -⟩ := sem_word .kFunction (by decide) rfl g2
  replace h := h.uncons
  obtain ⟨k3, l3, v3, vs, τ3, b3, rfl, rfl, g3, ht3, h⟩ := h
  obtain ⟨rfl, rfl⟩ := sem_named .ktoken_identifier (by decide) rfl g3
  replace h := h.uncons
  obtain ⟨k4, l4, v4, vs, τ4, b4, rfl, rfl, g4, ht4, h⟩ := h
  obtain ⟨rfl, rfl, -⟩ := sem_word .lpar (by decide) rfl g4
  replace h := h.uncons
  obtain ⟨k5, l5, v5, vs, τ5, b5, rfl, rfl, ⟨rfl, ps, rfl, q5, r5⟩, ht5, h⟩ := h
  replace h := h.uncons
  obtain ⟨k6, l6, v6, vs, τ6, b6, rfl, rfl, g6, ht6, h⟩ := h
  obtain ⟨rfl, rfl, -⟩ := sem_word .rpar (by decide) rfl g6
  replace h := h.uncons
  obtain ⟨k7, l7, v7, vs, τ7, b7, rfl, rfl, ⟨rfl, x, rfl, q7⟩, ht7, h⟩ := h
  replace h := h.uncons
  obtain ⟨k8, l8, v8, vs, τ8, b8, rfl, rfl, ⟨rfl, m8⟩, ht8, h⟩ := h
  replace h := h.uncons
  obtain ⟨k9, l9, v9, vs, τ9, b9, rfl, rfl, ⟨rfl, vars, rfl, q9, r9⟩, ht9, h⟩ := h
  replace h := h.uncons
  obtain ⟨k10, l10, v10, vs, τ10, b10, rfl, rfl, ⟨t, rfl, q10, -, r10, c10, e10⟩, ht10, h⟩ := h
  replace h := h.one
  obtain ⟨v11, rfl, g11, ht11⟩ := h
  obtain ⟨rfl, rfl, -⟩ := sem_word .kEndFunction (by decide) rfl g11
  acto ha a a' ha he
  obtain ⟨rfl, rfl⟩ := pair_ok ha
  refine ⟨⟨d, true, v3.token.literal, ps, x, vars, t⟩, _, ?_, rfl, ⟨q10, ?_⟩, ⟨fun M n m g h => ?_, c10, ⟨r5, r10⟩, r9⟩⟩
  · simp [FuncD.toks, varsToks, ident]
  · show (⟨v9.opt_explicit_variables, v3.token.literal, dirOf v1.opt_directive, v10.opt_body, v5.dparams, true, v7.opt_export.isSome⟩ : FuncDecl) = _
    rw [directive_eq q1, q5, q7, q9]
    rfl
  · obtain ⟨x1, x2, x3, x4⟩ := e10 _ _ _ _ (m8 M n m g h)
    obtain ⟨h1, h2, h3, h4⟩ := view_eq x1
    refine ⟨?_, x2, x3, x4⟩
    show St.mk a.mod a.isLoop a.isTry false = _
    rw [h1, h2, h3]; rfl

theorem prod_15 : Prod 15 := by
  intro b ks la σ ws σ1 s v σ2 hb h hr hA ha
  replace h : SemF b [113, 9, 8, 62, 115, 63, 112, 123, 102, 11] ks la σ ws σ1 s := h
  replace h := h.uncons
  obtain ⟨k1, l1, v1, vs, τ1, b1, rfl, rfl, ⟨rfl, d, rfl, q1⟩, ht1, h⟩ := h
  replace h := h.uncons
  obtain ⟨k2, l2, v2, vs, τ2, b2, rfl, rfl, g2, ht2, h⟩ := h
  obtain ⟨rfl, rfl, -⟩ := sem_word .kProcedure (by decide) rfl g2
  replace h := h.uncons
  obtain ⟨k3, l3, v3, vs, τ3, b3, rfl, rfl, g3, ht3, h⟩ := h
  obtain ⟨rfl, rfl⟩ := sem_named .ktoken_identifier (by decide) rfl g3
  replace h := h.uncons
  obtain ⟨k4, l4, v4, vs, τ4, b4, rfl, rfl, g4, ht4, h⟩ := h
  obtain ⟨rfl, rfl, -⟩ := sem_word .lpar (by decide) rfl g4
  replace h := h.uncons
  obtain ⟨k5, l5, v5, vs, τ5, b5, rfl, rfl, ⟨rfl, ps, rfl, q5, r5⟩, ht5, h⟩ := h
  replace h := h.uncons
  obtain ⟨k6, l6, v6, vs, τ6, b6, rfl, rfl, g6, ht6, h⟩ := h
  obtain ⟨rfl, rfl, -⟩ := sem_word .rpar (by decide) rfl g6
  replace h := h.uncons
  obtain ⟨k7, l7, v7, vs, τ7, b7, rfl, rfl, ⟨rfl, x, rfl, q7⟩, ht7, h⟩ := h
  replace h := h.uncons
  obtain ⟨k8, l8, v8, vs, τ8, b8, rfl, rfl, ⟨rfl, vars, rfl, q8, r8⟩, ht8, h⟩ := h
  replace h := h.uncons
  obtain ⟨k9, l9, v9, vs, τ9, b9, rfl, rfl, ⟨t, rfl, q9, -, r9, c9, e9⟩, ht9, h⟩ := h
  replace h := h.one
  obtain ⟨v10, rfl, g10, ht10⟩ := h
  obtain ⟨rfl, rfl, -⟩ := sem_word .kEndProcedure (by decide) rfl g10
  actr ha
  refine ⟨⟨d, false, v3.token.literal, ps, x, vars, t⟩, _, ?_, rfl, ⟨q9, ?_⟩, ⟨fun M n m g h => ?_, c9, ⟨r5, r9⟩, r8⟩⟩
  · simp [FuncD.toks, varsToks, ident]
  · show (⟨v8.opt_explicit_variables, v3.token.literal, dirOf v1.opt_directive, v9.opt_body, v5.dparams, false, v7.opt_export.isSome⟩ : FuncDecl) = _
    rw [directive_eq q1, q5, q7, q8]
    rfl
  · obtain ⟨x1, x2, x3, x4⟩ := e9 _ _ _ _ h
    exact ⟨x1, x2, x3, x4⟩

/-! ## Modules -/

theorem appendGlobals_spec {vs : List GVar} {a a' : Ast} (h : appendGlobals a vs = .ok a') (he : a'.err = none) :
    a' = { a with mod := { a.mod with globals := a.mod.globals ++ vs } } ∧ (vs ≠ [] → a.mod.body = []) ∧
      ((a.mod.globals.map GVar.name).Nodup → ((a.mod.globals ++ vs).map GVar.name).Nodup) := by
  induction vs generalizing a with
  | nil => injection h with h; subst h; simp
  | cons v vs ih =>
    rw [appendGlobals] at h
    obtain ⟨b, h1, h2⟩ := bind_ok h
    have hb : b.err = none := by
      by_contra hne
      exact (appendGlobals_frame h2).err hne he
    unfold appendGlobal at h1
    split at h1
    · exact absurd hb (error_frame h1).2
    · rename_i hbody
      split at h1
      · exact absurd hb (error_frame h1).2
      · rename_i hany
        injection h1 with h1
        subst h1
        obtain ⟨h3, h4, h5⟩ := ih h2
        refine ⟨by rw [h3]; simp, fun _ => by simpa using hbody, fun hn => ?_⟩
        have := h5 (by
          rw [List.map_append, List.nodup_append]
          refine ⟨hn, by simp, ?_⟩
          rintro x hx y hy rfl
          simp only [List.map_cons, List.map_nil, List.mem_singleton] at hy
          subst hy
          obtain ⟨g, hg, hg2⟩ := List.mem_map.1 hx
          exact hany (List.any_eq_true.2 ⟨g, hg, by simp [hg2]⟩))
        simpa using this

theorem appendFunc_spec {a a' : Ast} {f : FuncDecl} (h : appendFunc a f = .ok a') (he : a'.err = none) :
    a' = { a with mod := { a.mod with body := a.mod.body ++ [.func f] } } ∧ ∀ s, a.mod.body.getLast? ≠ some (.stm s) := by
  unfold appendFunc at h
  split at h
  · exact absurd he (error_frame h).2
  · rename_i h0; injection h with h; exact ⟨h.symm, fun s hs => h0 s hs⟩

theorem act_7 {d : Nat → SV} {v v' : SV} {a a' : Ast} {f : FuncDecl} (h : act 7 d v a = .ok (v', a')) (hf : (d 1).funcProc = some f) :
    v' = v ∧ appendFunc a f = .ok a' := by
  have h : (match (d 1).funcProc with
    | some f => (appendFunc a f >>= fun x => .ok (v, x) : Except Panic (SV × Ast))
    | none => .ok (v, a)) = .ok (v', a') := h
  rw [hf] at h
  obtain ⟨x, h1, h2⟩ := bind_ok h
  obtain ⟨rfl, rfl⟩ := pair_ok h2
  exact ⟨rfl, h1⟩

theorem VarsD.tree_ne (v : VarsD) : v.tree ≠ [] := by simp [VarsD.tree, Names.list]

theorem prod_6 : Prod 6 := by
  intro b ks la σ ws σ1 s v σ2 hb h hr hA ha
  replace h : SemF b [132] ks la σ ws σ1 s := h
  replace h := h.one
  obtain ⟨v1, rfl, ⟨rfl, d, rfl, q1⟩, ht1⟩ := h
  acto ha a a' ha he
  obtain ⟨x, h1, h2⟩ := bind_ok ha
  obtain ⟨hv, rfl⟩ := pair_ok h2
  have h1 : appendGlobals a v1.global_variables = .ok _ := h1
  rw [q1] at h1
  obtain ⟨h3, h4, h5⟩ := appendGlobals_spec h1 he
  refine ⟨.vars d, rfl, fun M n m g h => ?_⟩
  obtain ⟨rfl, h7, h8, h9⟩ := view_eq h
  rw [h]
  have hb := h4 (VarsD.tree_ne d)
  have : view a' = St.at ⟨a.mod.globals ++ d.tree, []⟩ n m g := by
    rw [h3]
    show St.mk ⟨a.mod.globals ++ d.tree, a.mod.body⟩ a.isLoop a.isTry a.isFunc = _
    rw [hb, h7, h8, h9]; rfl
  rw [this]
  exact .vars d hb h5

theorem prod_7 : Prod 7 := by
  intro b ks la σ ws σ1 s v σ2 hb h hr hA ha
  replace h : SemF b [105] ks la σ ws σ1 s := h
  replace h := h.one
  obtain ⟨v1, rfl, ⟨f, d, rfl, q1, r1, e1⟩, ht1⟩ := h
  acto ha a a' ha he
  obtain ⟨rfl, h1⟩ := act_7 ha q1
  · obtain ⟨h3, h4⟩ := appendFunc_spec h1 he
    refine ⟨.func f, rfl, fun M n m g h => ?_⟩
    subst h
    obtain ⟨x1, -⟩ := e1.eff _ _ _ _ rfl
    obtain ⟨h5, h6, h7, h8⟩ := view_eq x1
    have : view a' = { view a with mod := ⟨M.globals, M.body ++ [.func d]⟩ } := by
      rw [h3]
      show St.mk ⟨a.mod.globals, a.mod.body ++ [.func d]⟩ a.isLoop a.isTry a.isFunc = _
      rw [h5]; rfl
    rw [this]
    exact .func f d e1 r1 (by rw [← h5]; exact h4)

theorem prod_4 : Prod 4 := by
  intro b ks la σ ws σ1 s v σ2 hb h hr hA ha
  replace h : SemF b [136] ks la σ ws σ1 s := h
  replace h := h.one
  obtain ⟨v1, rfl, ⟨p, rfl, q1⟩, ht1⟩ := h
  actr ha
  refine ⟨[p], by simp, fun M n m g h => ?_⟩
  exact .snoc (.nil _) (q1 M n m g h)

theorem PartEff.at' {p : Part} {σ σ' : St} (h : PartEff p σ σ') : ∃ M n m g, σ' = St.at M n m g := by
  cases h with
  | vars v _ _ => exact ⟨_, _, _, _, rfl⟩
  | func f d h1 _ _ =>
    obtain ⟨h2, -⟩ := h1.eff _ _ _ _ rfl
    rw [h2]
    exact ⟨_, _, _, _, rfl⟩

theorem PartsEff.at' {ps : List Part} {σ σ' : St} (h : PartsEff ps σ σ') (hs : ∃ M n m g, σ = St.at M n m g) :
    ∃ M n m g, σ' = St.at M n m g := by
  cases h with
  | nil => exact hs
  | snoc _ h => exact h.at'

theorem prod_5 : Prod 5 := by
  intro b ks la σ ws σ1 s v σ2 hb h hr hA ha
  replace h : SemF b [135, 136] ks la σ ws σ1 s := h
  replace h := h.uncons
  obtain ⟨k1, l1, v1, vs, τ1, b1, rfl, rfl, ⟨ps, rfl, q1⟩, ht1, h⟩ := h
  replace h := h.one
  obtain ⟨v2, rfl, ⟨p, rfl, q2⟩, ht2⟩ := h
  actr ha
  refine ⟨ps ++ [p], by simp, fun M n m g h => ?_⟩
  have h1 := q1 M n m g h
  obtain ⟨M', n', m', g', h2⟩ := h1.at' ⟨_, _, _, _, h⟩
  exact .snoc h1 (q2 _ _ _ _ h2)

theorem prod_1 : Prod 1 := by
  intro b ks la σ ws σ1 s v σ2 hb h hr hA ha
  replace h : SemF b [] ks la σ ws σ1 s := h
  obtain ⟨rfl, rfl, rfl, rfl⟩ := h.unnil
  actr ha
  refine ⟨⟨[], .empty⟩, by simp [Program.toks, Block.toks], fun M n m g h => ⟨⟨_, .nil _, fun M' n' m' g' h' => ?_⟩, by simp [Block.colonsOk], by simp [Block.grouped]⟩⟩
  refine ⟨[], by simp [Block.shows], by simp [Block.breaksOk], by simp [Block.throwsOk], by simp [Block.returnsOk], ?_⟩
  rw [h']; simp [Block.whiles]

theorem prod_2 : Prod 2 := by
  intro b ks la σ ws σ1 s v σ2 hb h hr hA ha
  replace h : SemF b [101] ks la σ ws σ1 s := h
  replace h := h.one
  obtain ⟨v1, rfl, ⟨t, rfl, q1, r1, c1, e1⟩, ht1⟩ := h
  acto ha a a' ha he
  obtain ⟨hv, rfl⟩ := pair_ok ha
  refine ⟨⟨[], .body t⟩, by simp [Program.toks, Block.toks], fun M n m g h => ⟨⟨_, .nil _, fun M' n' m' g' h' => ?_⟩,
    by rw [Block.colonsOk]; exact c1, by rw [Block.grouped]; exact r1⟩⟩
  obtain ⟨x1, x2, x3, x4⟩ := e1 _ _ _ _ h'
  obtain ⟨h1, h2, h3, h4⟩ := view_eq x1
  refine ⟨v1.body, q1, by rw [Block.breaksOk]; exact x2, by rw [Block.throwsOk]; exact x3, by rw [Block.returnsOk]; exact x4, ?_⟩
  show St.mk ⟨a.mod.globals, a.mod.body ++ v1.body.map .stm⟩ a.isLoop a.isTry a.isFunc = _
  rw [h1, h2, h3, h4, Block.whiles]; rfl

theorem prod_3 : Prod 3 := by
  intro b ks la σ ws σ1 s v σ2 hb h hr hA ha
  replace h : SemF b [135, 102] ks la σ ws σ1 s := h
  replace h := h.uncons
  obtain ⟨k1, l1, v1, vs, τ1, b1, rfl, rfl, ⟨ps, rfl, p1⟩, ht1, h⟩ := h
  replace h := h.one
  obtain ⟨v2, rfl, ⟨t, rfl, q1, -, r1, c1, e1⟩, ht2⟩ := h
  acto ha a a' ha he
  obtain ⟨rfl, rfl⟩ := pair_ok ha
  refine ⟨⟨ps, t⟩, rfl, fun M n m g h => ⟨⟨_, p1 _ _ _ _ h, fun M' n' m' g' h' => ?_⟩, c1, r1⟩⟩
  obtain ⟨x1, x2, x3, x4⟩ := e1 _ _ _ _ h'
  obtain ⟨h1, h2, h3, h4⟩ := view_eq x1
  refine ⟨v2.opt_body, q1, x2, x3, x4, ?_⟩
  show St.mk ⟨a.mod.globals, a.mod.body ++ v2.opt_body.map .stm⟩ a.isLoop a.isTry a.isFunc = _
  rw [h1, h2, h3, h4]; rfl

/-- Every production. -/
theorem prod_all (p : Nat) (h0 : 0 < p) (h1 : p < nProds) : Prod p := by
  have h1 : p < 113 := h1
  match p, h0, h1 with
  | 1, _, _ => exact @prod_1
  | 2, _, _ => exact @prod_2
  | 3, _, _ => exact @prod_3
  | 4, _, _ => exact @prod_4
  | 5, _, _ => exact @prod_5
  | 6, _, _ => exact @prod_6
  | 7, _, _ => exact @prod_7
  | 8, _, _ => exact @prod_8
  | 9, _, _ => exact @prod_9
  | 10, _, _ => exact @prod_10
  | 11, _, _ => exact @prod_11
  | 12, _, _ => exact @prod_12
  | 13, _, _ => exact @prod_13
  | 14, _, _ => exact @prod_14
  | 15, _, _ => exact @prod_15
  | 16, _, _ => exact @prod_16
  | 17, _, _ => exact @prod_17
  | 18, _, _ => exact @prod_18
  | 19, _, _ => exact @prod_19
  | 20, _, _ => exact @prod_20
  | 21, _, _ => exact @prod_21
  | 22, _, _ => exact @prod_22
  | 23, _, _ => exact @prod_23
  | 24, _, _ => exact @prod_24
  | 25, _, _ => exact @prod_25
  | 26, _, _ => exact @prod_26
  | 27, _, _ => exact @prod_27
  | 28, _, _ => exact @prod_28
  | 29, _, _ => exact @prod_29
  | 30, _, _ => exact @prod_30
  | 31, _, _ => exact @prod_31
  | 32, _, _ => exact @prod_32
  | 33, _, _ => exact @prod_33
  | 34, _, _ => exact @prod_34
  | 35, _, _ => exact @prod_35
  | 36, _, _ => exact @prod_36
  | 37, _, _ => exact @prod_37
  | 38, _, _ => exact @prod_38
  | 39, _, _ => exact @prod_39
  | 40, _, _ => exact @prod_40
  | 41, _, _ => exact @prod_41
  | 42, _, _ => exact @prod_42
  | 43, _, _ => exact @prod_43
  | 44, _, _ => exact @prod_44
  | 45, _, _ => exact @prod_45
  | 46, _, _ => exact @prod_46
  | 47, _, _ => exact @prod_47
  | 48, _, _ => exact @prod_48
  | 49, _, _ => exact @prod_49
  | 50, _, _ => exact @prod_50
  | 51, _, _ => exact @prod_51
  | 52, _, _ => exact @prod_52
  | 53, _, _ => exact @prod_53
  | 54, _, _ => exact @prod_54
  | 55, _, _ => exact @prod_55
  | 56, _, _ => exact @prod_56
  | 57, _, _ => exact @prod_57
  | 58, _, _ => exact @prod_58
  | 59, _, _ => exact @prod_59
  | 60, _, _ => exact @prod_60
  | 61, _, _ => exact @prod_61
  | 62, _, _ => exact @prod_62
  | 63, _, _ => exact @prod_63
  | 64, _, _ => exact @prod_64
  | 65, _, _ => exact @prod_65
  | 66, _, _ => exact @prod_66
  | 67, _, _ => exact @prod_67
  | 68, _, _ => exact @prod_68
  | 69, _, _ => exact @prod_69
  | 70, _, _ => exact @prod_70
  | 71, _, _ => exact @prod_71
  | 72, _, _ => exact @prod_72
  | 73, _, _ => exact @prod_73
  | 74, _, _ => exact @prod_74
  | 75, _, _ => exact @prod_75
  | 76, _, _ => exact @prod_76
  | 77, _, _ => exact @prod_77
  | 78, _, _ => exact @prod_78
  | 79, _, _ => exact @prod_79
  | 80, _, _ => exact @prod_80
  | 81, _, _ => exact @prod_81
  | 82, _, _ => exact @prod_82
  | 83, _, _ => exact @prod_83
  | 84, _, _ => exact @prod_84
  | 85, _, _ => exact @prod_85
  | 86, _, _ => exact @prod_86
  | 87, _, _ => exact @prod_87
  | 88, _, _ => exact @prod_88
  | 89, _, _ => exact @prod_89
  | 90, _, _ => exact @prod_90
  | 91, _, _ => exact @prod_91
  | 92, _, _ => exact @prod_92
  | 93, _, _ => exact @prod_93
  | 94, _, _ => exact @prod_94
  | 95, _, _ => exact @prod_95
  | 96, _, _ => exact @prod_96
  | 97, _, _ => exact @prod_97
  | 98, _, _ => exact @prod_98
  | 99, _, _ => exact @prod_99
  | 100, _, _ => exact @prod_100
  | 101, _, _ => exact @prod_101
  | 102, _, _ => exact @prod_102
  | 103, _, _ => exact @prod_103
  | 104, _, _ => exact @prod_104
  | 105, _, _ => exact @prod_105
  | 106, _, _ => exact @prod_106
  | 107, _, _ => exact @prod_107
  | 108, _, _ => exact @prod_108
  | 109, _, _ => exact @prod_109
  | 110, _, _ => exact @prod_110
  | 111, _, _ => exact @prod_111
  | 112, _, _ => exact @prod_112
  | n + 113, _, h => exfalso; omega

end Verif.LR
