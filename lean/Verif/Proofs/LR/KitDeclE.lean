import Verif.Proofs.LR.KitStmtE
/-! Actions of the productions for declarations and modules, with errors. -/
namespace Verif.LR
open Tables Spec Lexer

/-! ## Local variables -/

theorem eve_24 : EvE 24 [] (.optVars []) := by
  intro D σ m₀ _ _
  rintro junk a rfl rfl
  exact .inl ⟨_, _, rfl, rfl, rfl, by rintro ⟨_, _, _, h, -⟩; cases h⟩

theorem eve_25 (l : List Names) : EvE 25 [.varsL l] (.optVars l) := by
  intro D σ m₀ _ hd
  refine ⟨trivial, hd, fun v1 σ1 m1 h1 => ?_⟩
  obtain ⟨rfl, rfl, -, h1⟩ := h1
  rintro junk a rfl hm
  exact .inl ⟨_, _, rfl, rfl, hm, h1⟩

theorem appendVars_says (ts : List Tok) (ks : List Name) :
    appendVars (some ks) ts = .ok ⟨some (seenAfter ks (ts.map Tok.literal)), firstTwice ks (ts.map Tok.literal)⟩ := by
  induction ts generalizing ks with
  | nil => rfl
  | cons t ts ih =>
    rw [appendVars, List.map_cons, seenAfter, firstTwice]
    by_cases h : t.literal ∈ ks
    · have : ks.contains t.literal = true := by simpa using h
      simp only [this, if_true, if_pos h]
    · have : ks.contains t.literal = false := by simpa using h
      simp only [this, if_neg h]
      exact ih _

theorem firstTwice_none {seen xs : List Name} : firstTwice seen xs = none ↔ (∀ x ∈ xs, x ∉ seen) ∧ xs.Nodup := by
  induction xs generalizing seen with
  | nil => simp [firstTwice]
  | cons x xs ih =>
    rw [firstTwice]
    by_cases h : x ∈ seen
    · rw [if_pos h]
      exact ⟨nofun, fun h' => absurd h (h'.1 x (by simp))⟩
    · rw [if_neg h, ih]
      constructor
      · rintro ⟨h1, h2⟩
        refine ⟨?_, ?_⟩
        · intro y hy
          rcases List.mem_cons.1 hy with rfl | hy
          · exact h
          · exact fun hs => h1 y hy (List.mem_append_left _ hs)
        · rw [List.nodup_cons]
          exact ⟨fun hx => h1 x hx (by simp), h2⟩
      · rintro ⟨h1, h2⟩
        rw [List.nodup_cons] at h2
        refine ⟨?_, h2.2⟩
        intro y hy hs
        rcases List.mem_append.1 hs with hs | hs
        · exact h1 y (List.mem_cons_of_mem _ hy) hs
        · rw [List.mem_singleton] at hs
          subst hs
          exact h2.1 hy

theorem firstTwice_nil {xs : List Name} : firstTwice [] xs = none ↔ xs.Nodup := by
  rw [firstTwice_none]
  exact ⟨fun h => h.2, fun h => ⟨fun _ _ => List.not_mem_nil, h⟩⟩

def seenL (seen : List Name) (l : List Names) : List Name := l.foldl (fun s n => seenAfter s n.list) seen

theorem localFaults_append (seen : List Name) (l l' : List Names) :
    localFaults seen (l ++ l') = localFaults seen l ++ localFaults (seenL seen l) l' := by
  induction l generalizing seen with
  | nil => rfl
  | cons n l ih =>
    rw [List.cons_append, localFaults, ih, localFaults, List.append_assoc]
    rfl

/-- Storing the names of a list `Перем`. -/
theorem store_says {a : Ast} {o : Option Name} {v w : SV} {ks : Option (List Name)} :
    (∃ u a', (match (⟨ks, o⟩ : AppendVars).dup with
      | some n => do .ok (v, ← a.error (.dupVar n))
      | none => Except.ok (w, a)) = .ok (u, a') ∧ u = (if o = none then w else v) ∧ view a' = view a ∧
        comp a' = addF (comp a) (o.map Fault.twice).toList) ∨
    (match (⟨ks, o⟩ : AppendVars).dup with
      | some n => do .ok (v, ← a.error (.dupVar n))
      | none => Except.ok (w, a)) = .error .nilToken := by
  cases o with
  | none => exact .inl ⟨_, _, rfl, rfl, rfl, rfl⟩
  | some n =>
    rcases error_comp (a := a) (msg := .dupVar n) (x := .twice n) fun _ _ _ => rfl with ⟨a', h1, h2, h3⟩ | h1
    · refine .inl ⟨v, a', ?_, rfl, h2, h3⟩
      show (do .ok (v, ← a.error (.dupVar n))) = _
      rw [h1]; rfl
    · right
      show (do .ok (v, ← a.error (.dupVar n))) = _
      rw [h1]; rfl

theorem eve_26 (n : Names) : EvE 26 [.tok (word .kVar), .names n, .semi] (.varsL [n]) := by
  intro D σ m₀ _ _
  refine ⟨trivial, False.elim, fun v1 σ1 m1 h1 => ⟨trivial, False.elim, fun v2 σ2 m2 h2 => ⟨trivial, False.elim, fun v3 σ3 m3 h3 => ?_⟩⟩⟩
  obtain ⟨⟨rfl, x, -, -, rfl⟩, rfl⟩ := h1
  obtain ⟨⟨rfl, h2⟩, rfl⟩ := h2
  obtain ⟨⟨rfl, -⟩, rfl⟩ := h3
  rintro junk a rfl rfl
  have hap := appendVars_says v2.identifiers []
  rw [h2] at hap
  have hact : act 26 (fun i => ([{ token := x.2 }, v2, v3] ++ junk).getD (i - 1) {}) (([{ token := x.2 }, v2, v3] ++ junk).headD {}) a =
      (match (⟨some (seenAfter [] n.list), firstTwice [] n.list⟩ : AppendVars).dup with
      | some n => do .ok ({ token := x.2 }, ← a.error (.dupVar n))
      | none => Except.ok ({ ({ token := x.2 } : SV) with explicit_variables := some (seenAfter [] n.list) }, a)) := by
    show (do let r ← appendVars (some []) v2.identifiers; match r.dup with
      | some n => do .ok (_, ← a.error (.dupVar n))
      | none => .ok ({ ({ token := x.2 } : SV) with explicit_variables := r.map }, a)) = _
    rw [hap]; rfl
  rcases store_says (a := a) (o := firstTwice [] n.list) (v := { token := x.2 }) (ks := some (seenAfter [] n.list))
    (w := { ({ token := x.2 } : SV) with explicit_variables := some (seenAfter [] n.list) }) with ⟨u, a', h3, h4, h5, h6⟩ | h3
  · refine .inl ⟨u, a', hact.trans h3, h5, ?_, ?_, ?_⟩
    · rw [h6, localFaults, localFaults, List.append_nil]
    · rw [h4, varsVal]
      split <;> rfl
    · rintro ⟨_, _, _, h, -⟩; cases h
  · exact .inr ⟨_, hact.trans h3, nofun⟩

theorem varsVal_append {l : List Names} (hl : l ≠ []) (n : Names) : (varsVal l = none ∧ doomedL (l ++ [n])) ∨
    varsVal l = some (seenL [] l) ∧ varsVal (l ++ [n]) = some (seenAfter (seenL [] l) n.list) ∧ ¬ doomedL (l ++ [n]) := by
  cases l with
  | nil => exact absurd rfl hl
  | cons x l =>
    rw [List.cons_append, varsVal, varsVal]
    by_cases h : firstTwice [] x.list = none
    · right
      rw [if_pos h, if_pos h]
      refine ⟨rfl, ?_, ?_⟩
      · rw [← List.cons_append, List.foldl_append]; rfl
      · rintro ⟨y, z, l', e, hn⟩
        injection e with e _
        subst e
        exact hn (firstTwice_nil.1 h)
    · left
      rw [if_neg h]
      refine ⟨rfl, ?_⟩
      cases hc : l ++ [n] with
      | nil => exact absurd hc (by simp)
      | cons z l' => exact ⟨x, z, l', rfl, fun hn => h (firstTwice_nil.2 hn)⟩

theorem doomedL.append {l : List Names} (h : doomedL l) (n : Names) : doomedL (l ++ [n]) := by
  obtain ⟨x, y, l', rfl, h⟩ := h
  exact ⟨x, y, l' ++ [n], rfl, h⟩

theorem eve_27 (l : List Names) (n : Names) (hl : l ≠ []) : EvE 27 [.varsL l, .tok (word .kVar), .names n, .semi] (.varsL (l ++ [n])) := by
  intro D σ m₀ _ hd
  replace hd : doomedL (l ++ [n]) → D := hd
  refine ⟨trivial, fun h => hd (doomedL.append h n), fun v0 σ0 m0 h0 => ⟨trivial, False.elim, fun v1 σ1 m1 h1 => ⟨trivial, False.elim, fun v2 σ2 m2 h2 =>
    ⟨trivial, False.elim, fun v3 σ3 m3 h3 => ?_⟩⟩⟩⟩
  obtain ⟨rfl, rfl, h0, -⟩ := h0
  obtain ⟨⟨rfl, -⟩, rfl⟩ := h1
  obtain ⟨⟨rfl, h2⟩, rfl⟩ := h2
  obtain ⟨⟨rfl, -⟩, rfl⟩ := h3
  rintro junk a rfl hm
  have hact : act 27 (fun i => ([v0, v1, v2, v3] ++ junk).getD (i - 1) {}) (([v0, v1, v2, v3] ++ junk).headD {}) a =
      (do let r ← appendVars v0.explicit_variables v2.identifiers; match r.dup with
      | some n => do .ok ({ v0 with explicit_variables := r.map }, ← a.error (.dupVar n))
      | none => .ok ({ v0 with explicit_variables := r.map }, a)) := rfl
  rcases varsVal_append hl n with ⟨h4, h5⟩ | ⟨h4, h5, h6⟩
  · right
    refine ⟨.nilMap, ?_, fun _ => hd h5⟩
    rw [hact, h0, h4]
    cases hi : v2.identifiers with
    | nil => rw [hi] at h2; cases h2
    | cons t ts => rfl
  · have hap := appendVars_says v2.identifiers (seenL [] l)
    rw [h2] at hap
    rw [h0, h4, hap] at hact
    replace hact : act 27 (fun i => ([v0, v1, v2, v3] ++ junk).getD (i - 1) {}) (([v0, v1, v2, v3] ++ junk).headD {}) a =
      (match (⟨some (seenAfter (seenL [] l) n.list), firstTwice (seenL [] l) n.list⟩ : AppendVars).dup with
      | some k => do .ok ({ v0 with explicit_variables := some (seenAfter (seenL [] l) n.list) }, ← a.error (.dupVar k))
      | none => Except.ok ({ v0 with explicit_variables := some (seenAfter (seenL [] l) n.list) }, a)) := hact
    rcases store_says (a := a) (o := firstTwice (seenL [] l) n.list) (ks := some (seenAfter (seenL [] l) n.list))
      (v := { v0 with explicit_variables := some (seenAfter (seenL [] l) n.list) })
      (w := { v0 with explicit_variables := some (seenAfter (seenL [] l) n.list) }) with ⟨u, a', g3, g4, g5, g6⟩ | h3
    · refine .inl ⟨u, a', hact.trans g3, g5, ?_, ?_, h6⟩
      · rw [g6, hm, localFaults_append, localFaults, localFaults, List.append_nil, addF_append]
      · rw [g4, h5, ite_self]
    · exact .inr ⟨_, hact.trans h3, nofun⟩

/-! ## Procedures and functions -/

theorem at_inj' {M M' : Module} {n n' m m' : Nat} {f f' : Bool} (h : St.at M n m f = St.at M' n' m' f') : M = M' ∧ n = n' := at_inj h

theorem eve_14 (d : Option Name) (x : Name) (ps : ParamsD) (e : Bool) (vs : List Names) (b : Block) :
    EvE 14 [.dir d, .tok (word .kFunction), .tok (ident x), .tok (word .lpar), .params ps, .tok (word .rpar), .exp e, .mid 137,
      .optVars vs, .block b, .tok (word .kEndFunction)] (.func ⟨d, true, x, ps, e, vs, b⟩) := by
  intro D σ m₀ hw hd
  obtain ⟨hc, M, n, rfl⟩ := hw
  refine ⟨trivial, False.elim, fun v1 σ1 m1 h1 => ⟨trivial, False.elim, fun v2 σ2 m2 h2 => ⟨trivial, False.elim, fun v3 σ3 m3 h3 =>
    ⟨trivial, False.elim, fun v4 σ4 m4 h4 => ⟨trivial, False.elim, fun v5 σ5 m5 h5 => ⟨trivial, False.elim, fun v6 σ6 m6 h6 =>
    ⟨trivial, False.elim, fun v7 σ7 m7 h7 => ⟨trivial, False.elim, fun v8 σ8 m8 h8 => ?_⟩⟩⟩⟩⟩⟩⟩⟩
  obtain ⟨⟨rfl, -⟩, rfl⟩ := h1
  obtain ⟨⟨rfl, -⟩, rfl⟩ := h2
  obtain ⟨⟨rfl, -⟩, rfl⟩ := h3
  obtain ⟨⟨rfl, -⟩, rfl⟩ := h4
  obtain ⟨⟨rfl, -⟩, rfl⟩ := h5
  obtain ⟨⟨rfl, -⟩, rfl⟩ := h6
  obtain ⟨⟨rfl, -⟩, rfl⟩ := h7
  obtain ⟨h8, rfl⟩ := h8
  have e8 : σ8 = St.at M n 0 true := h8 _ _ _ _ rfl
  subst e8
  refine ⟨trivial, hd, fun v9 σ9 m9 h9 => ?_⟩
  obtain ⟨rfl, rfl, hnd⟩ := h9
  refine ⟨⟨hc, M, n, 0, true, rfl⟩, False.elim, fun v10 σ10 m10 h10 => ⟨trivial, False.elim, fun v11 σ11 m11 h11 => ?_⟩⟩
  obtain ⟨⟨h10, -, h10'⟩, s10⟩ := h10
  have e10 := h10' _ _ _ _ rfl
  subst e10
  have s10 := s10 _ _ _ _ rfl
  subst s10
  obtain ⟨⟨rfl, -⟩, rfl⟩ := h11
  intro junk a hv hm
  refine .inl ⟨_, _, rfl, ⟨_, rfl⟩, ?_, hnd⟩
  intro M' n' e
  obtain ⟨rfl, e2⟩ := at_inj e
  subst e2
  refine ⟨?_, ?_⟩
  · obtain ⟨q1, q2, q3, q4⟩ := view_eq hv
    show St.mk a.mod a.isLoop a.isTry false = _
    rw [q1, q2, q3]; rfl
  · show comp a = _
    rw [hm, FuncD.faults, addF_append]

theorem eve_15 (d : Option Name) (x : Name) (ps : ParamsD) (e : Bool) (vs : List Names) (b : Block) :
    EvE 15 [.dir d, .tok (word .kProcedure), .tok (ident x), .tok (word .lpar), .params ps, .tok (word .rpar), .exp e,
      .optVars vs, .block b, .tok (word .kEndProcedure)] (.func ⟨d, false, x, ps, e, vs, b⟩) := by
  intro D σ m₀ hw hd
  obtain ⟨hc, M, n, rfl⟩ := hw
  refine ⟨trivial, False.elim, fun v1 σ1 m1 h1 => ⟨trivial, False.elim, fun v2 σ2 m2 h2 => ⟨trivial, False.elim, fun v3 σ3 m3 h3 =>
    ⟨trivial, False.elim, fun v4 σ4 m4 h4 => ⟨trivial, False.elim, fun v5 σ5 m5 h5 => ⟨trivial, False.elim, fun v6 σ6 m6 h6 =>
    ⟨trivial, False.elim, fun v7 σ7 m7 h7 => ?_⟩⟩⟩⟩⟩⟩⟩
  obtain ⟨⟨rfl, -⟩, rfl⟩ := h1
  obtain ⟨⟨rfl, -⟩, rfl⟩ := h2
  obtain ⟨⟨rfl, -⟩, rfl⟩ := h3
  obtain ⟨⟨rfl, -⟩, rfl⟩ := h4
  obtain ⟨⟨rfl, -⟩, rfl⟩ := h5
  obtain ⟨⟨rfl, -⟩, rfl⟩ := h6
  obtain ⟨⟨rfl, -⟩, rfl⟩ := h7
  refine ⟨trivial, hd, fun v9 σ9 m9 h9 => ?_⟩
  obtain ⟨rfl, rfl, hnd⟩ := h9
  refine ⟨⟨hc, M, n, 0, false, rfl⟩, False.elim, fun v10 σ10 m10 h10 => ⟨trivial, False.elim, fun v11 σ11 m11 h11 => ?_⟩⟩
  obtain ⟨⟨h10, -, h10'⟩, s10⟩ := h10
  have e10 := h10' _ _ _ _ rfl
  subst e10
  have s10 := s10 _ _ _ _ rfl
  subst s10
  obtain ⟨⟨rfl, -⟩, rfl⟩ := h11
  intro junk a hv hm
  refine .inl ⟨_, _, rfl, ⟨_, rfl⟩, ?_, hnd⟩
  intro M' n' e
  obtain ⟨rfl, e2⟩ := at_inj e
  subst e2
  refine ⟨hv, ?_⟩
  show comp a = _
  rw [hm, FuncD.faults, addF_append]

/-! ## Modules -/

theorem view_parts {a b : Ast} (h : view a = view b) : a.mod = b.mod ∧ a.isLoop = b.isLoop ∧ a.isTry = b.isTry ∧ a.isFunc = b.isFunc :=
  ⟨congrArg St.mod h, congrArg St.isLoop h, congrArg St.isTry h, congrArg St.isFunc h⟩

theorem appendGlobals_says (vs : List GVar) : ∀ (a : Ast) (seen : List Name) (procs : Bool), Known a.mod seen procs →
    (∃ a', appendGlobals a vs = .ok a' ∧ a'.isLoop = a.isLoop ∧ a'.isTry = a.isTry ∧ a'.isFunc = a.isFunc ∧
      Known a'.mod (if procs then seen else seen ++ vs.map GVar.name) procs ∧
      comp a' = addF (comp a) (if procs then vs.map (fun _ => Fault.late) else globalFaults seen (vs.map GVar.name))) ∨
    appendGlobals a vs = .error .nilToken := by
  induction vs with
  | nil =>
    intro a seen procs h
    refine .inl ⟨a, rfl, rfl, rfl, rfl, ?_, ?_⟩
    · cases procs
      · simpa using h
      · exact h
    · cases procs <;> rfl
  | cons v vs ih =>
    intro a seen procs h
    rw [appendGlobals]
    cases procs with
    | true =>
      have hb : a.mod.body ≠ [] := fun e => by have := h.procs.1 e; cases this
      have h1 : appendGlobal a v = a.error .varOrder := by unfold appendGlobal; rw [if_pos hb]
      rw [h1]
      rcases error_comp (a := a) (msg := .varOrder) (x := .late) fun _ _ _ => rfl with ⟨a', h2, h3, h4⟩ | h2
      · rw [h2]
        have q := view_parts h3
        rcases ih a' seen true (q.1 ▸ h) with ⟨a2, g1, g2, g3, g4, g5, g6⟩ | g1
        · refine .inl ⟨a2, g1, g2.trans q.2.1, g3.trans q.2.2.1, g4.trans q.2.2.2, g5, ?_⟩
          rw [g6, h4, ← addF_one (comp a) .late, addF_append]
          rfl
        · exact .inr g1
      · rw [h2]; exact .inr rfl
    | false =>
      have hb : a.mod.body = [] := h.procs.2 rfl
      have hany : a.mod.globals.any (fun g => g.name == v.name) = true ↔ v.name ∈ seen := by
        rw [← h.names, List.any_eq_true, List.mem_map]
        simp
      by_cases hv : v.name ∈ seen
      · have h1 : appendGlobal a v = a.error (.dupVar v.name) := by
          unfold appendGlobal; rw [if_neg (fun h => h hb), if_pos (hany.2 hv)]
        rw [h1]
        rcases error_comp (a := a) (msg := .dupVar v.name) (x := .twice v.name) fun _ _ _ => rfl with ⟨a', h2, h3, h4⟩ | h2
        · rw [h2]
          have q := view_parts h3
          have hk : Known a'.mod (seen ++ [v.name]) false := by
            rw [q.1]
            refine ⟨fun x => ?_, h.procs, h.last⟩
            rw [h.names, List.mem_append, List.mem_singleton]
            exact ⟨.inl, fun hx => hx.elim id fun e => e ▸ hv⟩
          rcases ih a' _ false hk with ⟨a2, g1, g2, g3, g4, g5, g6⟩ | g1
          · refine .inl ⟨a2, g1, g2.trans q.2.1, g3.trans q.2.2.1, g4.trans q.2.2.2, ?_, ?_⟩
            · simpa using g5
            · rw [g6, h4, ← addF_one (comp a) (.twice v.name), addF_append]
              simp [globalFaults, hv]
          · exact .inr g1
        · rw [h2]; exact .inr rfl
      · have h1 : appendGlobal a v = .ok { a with mod := { a.mod with globals := a.mod.globals ++ [v] } } := by
          unfold appendGlobal; rw [if_neg (fun h => h hb), if_neg (fun h => hv (hany.1 h))]
        rw [h1]
        have hk : Known { a.mod with globals := a.mod.globals ++ [v] } (seen ++ [v.name]) false := by
          refine ⟨fun x => ?_, h.procs, h.last⟩
          rw [List.map_append, List.mem_append, List.mem_append, h.names]
          rfl
        rcases ih { a with mod := { a.mod with globals := a.mod.globals ++ [v] } } _ false hk with ⟨a2, g1, g2, g3, g4, g5, g6⟩ | g1
        · refine .inl ⟨a2, g1, g2, g3, g4, ?_, ?_⟩
          · simpa using g5
          · rw [g6]
            simp [globalFaults, hv, comp]
        · exact .inr g1

theorem tree_names (d : VarsD) : d.tree.map GVar.name = d.names.list := by
  unfold VarsD.tree
  rw [List.map_map]
  exact List.map_id'' (fun _ => rfl) _

theorem eve_6 (d : VarsD) : EvE 6 [.gvars d] (.part (.vars d)) := by
  intro D σ m₀ hw _
  obtain ⟨-, M, n, seen, procs, rfl, hk⟩ := hw
  refine ⟨trivial, False.elim, fun v1 σ1 m1 h1 => ?_⟩
  obtain ⟨⟨rfl, h1⟩, rfl⟩ := h1
  refine ActWe.check fun junk a hv hm => ⟨v1, appendGlobals a v1.global_variables, rfl, ?_⟩
  obtain ⟨q1, q2, q3, q4⟩ := view_eq hv
  by_cases hp : appendGlobals a v1.global_variables = .error .nilToken
  · exact .inr hp
  · left
    have key : ∀ seen procs, Known M seen procs → ∃ a', appendGlobals a v1.global_variables = .ok a' ∧
        view a' = St.at a'.mod n 0 false ∧ Known a'.mod (if procs then seen else seen ++ d.names.list) procs ∧
        comp a' = addF m1 (if procs then d.names.list.map (fun _ => Fault.late) else globalFaults seen d.names.list) := by
      intro seen procs hk
      rcases appendGlobals_says v1.global_variables a seen procs (q1 ▸ hk) with ⟨a', g1, g2, g3, g4, g5, g6⟩ | g1
      · rw [h1, tree_names] at g5 g6
        refine ⟨a', g1, ?_, g5, ?_⟩
        · show St.mk a'.mod a'.isLoop a'.isTry a'.isFunc = _
          rw [g2, g3, g4, q2, q3, q4]; rfl
        · rw [g6, hm, ← tree_names d, List.map_map]; rfl
      · exact absurd g1 hp
    obtain ⟨a', g1, g2, -, -⟩ := key seen procs hk
    refine ⟨a', g1, ?_, by rintro ⟨f, hf, -⟩; cases hf⟩
    intro M' n' seen' procs' e hk'
    obtain ⟨rfl, e2⟩ := at_inj e
    subst e2
    obtain ⟨a2, k1, k2, k3, k4⟩ := key seen' procs' hk'
    rw [g1] at k1
    injection k1 with k1
    subst k1
    refine ⟨a'.mod, ?_, k3, ?_⟩
    · rw [g2]; rfl
    · rw [k4, partsFaults, partsFaults, List.append_nil]

theorem eve_7 (f : FuncD) : EvE 7 [.func f] (.part (.func f)) := by
  intro D σ m₀ hw hd
  obtain ⟨hf, M, n, seen, procs, rfl, hk⟩ := hw
  refine ⟨⟨hf f (by simp [Part.funcs]), M, n, rfl⟩, fun h => hd ⟨f, by simp [Part.funcs], h⟩, fun v1 σ1 m1 h1 => ?_⟩
  obtain ⟨⟨d, h0⟩, h1, h2⟩ := h1
  obtain ⟨rfl, rfl⟩ := h1 _ _ rfl
  intro junk a hv hm
  obtain ⟨q1, q2, q3, q4⟩ := view_eq hv
  have hap : appendFunc a d = .ok { a with mod := { a.mod with body := a.mod.body ++ [.func d] } } := by
    unfold appendFunc
    rw [q1]
    cases hg : M.body.getLast? with
    | none => rfl
    | some x =>
      cases x with
      | stm s => exact absurd hg (hk.last s)
      | func g => rfl
  refine .inl ⟨v1, { a with mod := { a.mod with body := a.mod.body ++ [.func d] } }, ?_, ?_, ?_⟩
  · have : ∀ o, o = some d → (match o with
      | some f => do .ok (v1, ← appendFunc a f)
      | none => .ok (v1, a)) = Except.ok (ε := Panic) (v1, { a with mod := { a.mod with body := a.mod.body ++ [.func d] } }) := by
      rintro o rfl
      simp only [hap]
      rfl
    exact this v1.funcProc h0
  · intro M' n' seen' procs' e hk'
    obtain ⟨rfl, e2⟩ := at_inj e
    subst e2
    refine ⟨⟨M.globals, M.body ++ [.func d]⟩, ?_, ⟨hk'.names, ?_, ?_⟩, ?_⟩
    · show St.mk ⟨a.mod.globals, a.mod.body ++ [.func d]⟩ a.isLoop a.isTry a.isFunc = _
      rw [q1, q2, q3, q4]
      simp [bodies, Part.funcs, St.at]
    · simp [partsProcs, partProcs]
    · intro s; simp
    · show comp a = _
      rw [hm, partsFaults, partsFaults, List.append_nil]
  · rintro ⟨g, hg, h⟩
    simp only [Part.funcs, List.mem_singleton] at hg
    subst hg
    exact h2 h

theorem bodies_append (l l' : List Part) : bodies (l ++ l') = bodies l ++ bodies l' := by simp [bodies]

theorem parts_append (l l' : List Part) : ∀ (n : Nat) (seen : List Name) (procs : Bool),
    partsFaults n seen procs (l ++ l') = partsFaults n seen procs l ++
      partsFaults (n + ((bodies l).map Block.whiles).sum) (partsSeen seen procs l) (partsProcs procs l) l' ∧
    partsSeen seen procs (l ++ l') = partsSeen (partsSeen seen procs l) (partsProcs procs l) l' ∧
    partsProcs procs (l ++ l') = partsProcs (partsProcs procs l) l' := by
  induction l with
  | nil => intro n seen procs; exact ⟨rfl, rfl, rfl⟩
  | cons p l ih =>
    intro n seen procs
    cases p with
    | vars v =>
      obtain ⟨h1, -, -⟩ := ih n (partSeen seen procs (.vars v)) (partProcs procs (.vars v))
      obtain ⟨-, h2, h3⟩ := ih n (partSeen seen procs (.vars v)) (partProcs procs (.vars v))
      refine ⟨?_, h2, h3⟩
      rw [List.cons_append, partsFaults, partsFaults, List.append_assoc]
      exact congrArg _ h1
    | func f =>
      obtain ⟨h1, -, -⟩ := ih (n + f.body.whiles) (partSeen seen procs (.func f)) (partProcs procs (.func f))
      obtain ⟨-, h2, h3⟩ := ih n (partSeen seen procs (.func f)) (partProcs procs (.func f))
      refine ⟨?_, h2, h3⟩
      rw [List.cons_append, partsFaults, partsFaults, List.append_assoc]
      refine congrArg _ (h1.trans ?_)
      have : n + f.body.whiles + ((bodies l).map Block.whiles).sum = n + ((bodies (.func f :: l)).map Block.whiles).sum := by
        simp [bodies, Part.funcs, Nat.add_assoc]
      rw [this]
      rfl

theorem PartsSay.append {l l' : List Part} {σ σ1 σ2 : St} {m m1 m2 : Option Fault} (h : PartsSay l σ m σ1 m1) (h' : PartsSay l' σ1 m1 σ2 m2) :
    PartsSay (l ++ l') σ m σ2 m2 := by
  intro M n seen procs e hk
  obtain ⟨M1, e1, k1, g1⟩ := h M n seen procs e hk
  obtain ⟨M2, e2, k2, g2⟩ := h' M1 _ _ _ e1 k1
  obtain ⟨p1, p2, p3⟩ := parts_append l l' n seen procs
  refine ⟨M2, ?_, ?_, ?_⟩
  · rw [e2, bodies_append, List.map_append, List.sum_append, Nat.add_assoc]
  · rw [p2, p3]; exact k2
  · rw [g2, g1, p1, addF_append]

theorem eve_4 (p : Part) : EvE 4 [.part p] (.parts [p]) := by
  intro D σ m₀ hw hd
  have hf : ([p] : List Part).flatMap Part.funcs = p.funcs := by simp
  replace hd : (∃ f ∈ ([p] : List Part).flatMap Part.funcs, f.doomed) → D := hd
  rw [hf] at hd
  refine ⟨⟨fun f hf' => hw.1 f (hf ▸ hf'), hw.2⟩, hd, fun v1 σ1 m1 h1 => ?_⟩
  rintro junk a rfl rfl
  refine .inl ⟨_, _, rfl, h1.1, ?_⟩
  rw [hf]; exact h1.2

theorem eve_5 (l : List Part) (p : Part) : EvE 5 [.parts l, .part p] (.parts (l ++ [p])) := by
  intro D σ m₀ hw hd
  have hf : (l ++ [p] : List Part).flatMap Part.funcs = l.flatMap Part.funcs ++ p.funcs := by simp
  obtain ⟨h1, M, n, seen, procs, rfl, hk⟩ := hw
  replace hd : (∃ f ∈ (l ++ [p] : List Part).flatMap Part.funcs, f.doomed) → D := hd
  rw [hf] at hd h1
  refine ⟨⟨fun f hf' => h1 f (List.mem_append_left _ hf'), M, n, seen, procs, rfl, hk⟩,
    fun ⟨f, h2, h3⟩ => hd ⟨f, List.mem_append_left _ h2, h3⟩, fun v1 σ1 m1 g1 => ?_⟩
  obtain ⟨g1, g2⟩ := g1
  obtain ⟨M1, e1, k1, -⟩ := g1 M n seen procs rfl hk
  refine ⟨⟨fun f hf' => h1 f (List.mem_append_right _ hf'), M1, _, _, _, e1, k1⟩,
    fun ⟨f, h2, h3⟩ => hd ⟨f, List.mem_append_right _ h2, h3⟩, fun v2 σ2 m2 j1 => ?_⟩
  obtain ⟨j1, j2⟩ := j1
  rintro junk a rfl rfl
  refine .inl ⟨_, _, rfl, g1.append j1, ?_⟩
  rw [hf]
  rintro ⟨f, h2, h3⟩
  rcases List.mem_append.1 h2 with h2 | h2
  · exact g2 ⟨f, h2, h3⟩
  · exact j2 ⟨f, h2, h3⟩

theorem known_init : Known ⟨[], []⟩ [] false := ⟨fun _ => Iff.rfl, ⟨fun _ => rfl, fun _ => rfl⟩, nofun⟩

theorem eve_1 : EvE 1 [] (.prog ⟨[], .empty⟩) := by
  intro D σ m₀ hw hd junk a hv hm
  refine .inl ⟨_, _, rfl, fun _ => ?_, ?_⟩
  · show comp a = _
    rw [hm]
    simp [Program.faults, partsFaults, Block.faults, addF_nil]
  · rintro ⟨f, hf, -⟩; cases hf

theorem eve_2 (b : Body) : EvE 2 [.body b] (.prog ⟨[], .body b⟩) := by
  intro D σ m₀ hw hd
  obtain ⟨hc, rfl⟩ := hw
  have hb := hc.2
  rw [Block.tidy] at hb
  refine ⟨⟨hb, _, 0, 0, false, rfl⟩, False.elim, fun v1 σ1 m1 h1 => ?_⟩
  obtain ⟨-, s1⟩ := h1
  have s1 := s1 _ _ _ _ rfl
  subst s1
  intro junk a hv hm
  refine .inl ⟨_, _, rfl, fun _ => ?_, ?_⟩
  · show comp a = _
    rw [hm]
    simp [Program.faults, partsFaults, Block.faults, Program.funcs]
  · rintro ⟨f, hf, -⟩; cases hf

theorem eve_3 (l : List Part) (b : Block) : EvE 3 [.parts l, .block b] (.prog ⟨l, b⟩) := by
  intro D σ m₀ hw hd
  obtain ⟨hc, rfl⟩ := hw
  refine ⟨⟨hc.1, _, 0, [], false, rfl, known_init⟩, hd, fun v1 σ1 m1 h1 => ?_⟩
  obtain ⟨h1, h2⟩ := h1
  obtain ⟨M1, e1, k1, rfl⟩ := h1 _ _ _ _ rfl known_init
  subst e1
  refine ⟨⟨hc.2, M1, _, 0, false, rfl⟩, False.elim, fun v2 σ2 m2 j1 => ?_⟩
  obtain ⟨-, s1⟩ := j1
  have s1 := s1 _ _ _ _ rfl
  subst s1
  intro junk a hv hm
  refine .inl ⟨_, _, rfl, fun _ => ?_, h2⟩
  show comp a = _
  rw [hm, Program.faults, addF_append, Nat.zero_add]
  simp [Program.funcs, bodies, Function.comp_def]

macro_rules | `(tactic| eve) => `(tactic| first
  | exact .inr eve_24 | exact .inr (eve_25 _) | exact .inr (eve_26 _) | exact .inr (eve_27 _ _ (by assumption))
  | exact .inr (eve_14 _ _ _ _ _ _) | exact .inr (eve_15 _ _ _ _ _ _)
  | exact .inr (eve_6 _) | exact .inr (eve_7 _) | exact .inr (eve_4 _) | exact .inr (eve_5 _ _)
  | exact .inr eve_1 | exact .inr (eve_2 _) | exact .inr (eve_3 _ _) | fail)

end Verif.LR
