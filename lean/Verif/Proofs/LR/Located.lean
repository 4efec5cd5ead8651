import Verif.Proofs.LR.Control
import Verif.Proofs.LR.Realise
import Verif.Proofs.LR.Shape
import Verif.Spec.Errors
/-!
# Where the driver finds a syntax error
-/
namespace Verif.LR
open Tables Spec Lexer

/-- The tokens can be continued so that the automaton accepts. -/
def VT (u : List (Nat × Tok)) : Prop := ∃ T m, LRF 0 [T] 1 1 ∧ T.yield = u ++ m ∧ ∀ x ∈ m, Good x

theorem VT.nil : VT [] := ⟨_, [], emptyTree, rfl, nofun⟩

theorem viable_iff {u : List (Nat × Tok)} (hu : ∀ x ∈ u, Good x) : Viable (u.map key) ↔ VT u := by
  constructor
  · rintro ⟨P, hg, ks, hk⟩
    have hr := Program.real P
    rw [← hk, allReal_append] at hr
    obtain ⟨m, h1, h2⟩ := hr.2.tokens
    obtain ⟨T, h3, h4, -⟩ := prog_tree (l := u ++ m) hg (by rw [List.map_append, h1, hk]) (by
      intro x hx
      rcases List.mem_append.1 hx with hx | hx
      · exact hu x hx
      · exact h2 x hx)
    exact ⟨T, m, h4, h3, h2⟩
  · rintro ⟨T, m, h1, h2, h3⟩
    obtain ⟨P, h4, h5⟩ := h1.program (by
      intro x hx
      rw [h2] at hx
      rcases List.mem_append.1 hx with hx | hx
      · exact hu x hx
      · exact h3 x hx)
    refine ⟨P, h5, m.map key, ?_⟩
    rw [← h4, h2, List.map_append]

theorem program_iff {u : List (Nat × Tok)} (hu : ∀ x ∈ u, Good x) : (∃ P : Program, P.grouped ∧ u.map key = P.toks) ↔
    ∃ T, LRF 0 [T] 1 1 ∧ T.yield = u := by
  constructor
  · rintro ⟨P, hg, hk⟩
    obtain ⟨T, h3, h4, -⟩ := prog_tree hg hk hu
    exact ⟨T, h4, h3⟩
  · rintro ⟨T, h1, rfl⟩
    obtain ⟨P, h4, h5⟩ := h1.program hu
    exact ⟨P, h5, h4⟩

variable [Letters]

omit [Letters] in
/-- The tokens that have been shifted can be continued. -/
theorem Res.viable {ts : List Tree} {k : Nat} {t : Tok} {s' : Nat} (h : ∀ la, LRF 0 (ts ++ [.leaf k t]) la s') (h0 : s' ≠ 0) :
    VT (yieldL ts ++ [(k, t)]) := by
  obtain ⟨w, T, h1, h2, h3⟩ := complete _ (Nat.le_refl _) ((h 1).follow (by decide)) h0 (fun la _ => h la)
  rw [yieldL_append, yieldL_single, Tree.yield] at h2
  exact ⟨T, w, h1, h2, h3⟩

/-- The driver stops at the first token that cannot follow. -/
theorem run_bad {code : List Char} {x : Nat × Tok} (n : Nat) : ∀ {c : Cfg} {ts : List Tree} {pre : List (Nat × Tok)},
    Ctl code false c ts (pre ++ [x]) → VT (yieldL ts ++ pre) → ¬ VT (yieldL ts ++ (pre ++ [x])) →
    match run n c with
    | .ok (some (_, a)) => a.err = some (synErr code x.2)
    | _ => True := by
  induction n with
  | zero => intro c ts pre _ _ _; trivial
  | succ n ih =>
    intro c ts pre hc hv hnv
    have hr := hc.res (.inl (by simp))
    unfold run
    generalize hs : step c = st at hr
    cases hr with
    | panic q => trivial
    | reduce h1 h2 _ =>
      show match run n _ with | .ok (some (_, a)) => _ | _ => True
      exact ih h1 (by rw [h2]; exact hv) (by rw [h2]; exact hnv)
    | @shift c' k t l' s' h1 h2 h3 h4 _ =>
      show match run n _ with | .ok (some (_, a)) => _ | _ => True
      cases pre with
      | nil =>
        exfalso
        rw [List.nil_append] at h1 hnv
        rw [h1] at hnv
        injection h1 with h1 h5
        subst h5
        exact hnv (Res.viable h3 h4)
      | cons y pre =>
        rw [List.cons_append] at h1
        injection h1 with h1 h5
        subst h1; subst h5
        refine ih h2 ?_ ?_
        · rw [yieldL_append, yieldL_single, Tree.yield, List.append_assoc]; exact hv
        · rw [yieldL_append, yieldL_single, Tree.yield, List.append_assoc]; exact hnv
    | accept h1 _ _ _ => simp at h1
    | @error a y h1 h2 h3 h4 =>
      show a.err = _
      cases pre with
      | nil =>
        rw [List.nil_append, List.head?_cons, Option.some_or] at h3
        injection h3 with h3
        rw [h3]; exact h4
      | cons z pre =>
        exfalso
        obtain ⟨T, m, h5, h6, -⟩ := hv
        exact h2 T (pre ++ m) z _ rfl h5 (by rw [h6]; simp)

/-- What the driver says about a whole text. -/
theorem run_whole {code : List Char} (n : Nat) : ∀ {c : Cfg} {ts : List Tree} {l : List (Nat × Tok)},
    Ctl code true c ts l → VT (yieldL ts) → (¬ ∃ line col lit, c.ast.err = some (.at .syntaxError line col lit)) →
    ∀ k a, run n c = .ok (some (k, a)) →
      ((¬ ∃ line col lit, a.err = some (.at .syntaxError line col lit)) ∧ ∃ T, LRF 0 [T] 1 1 ∧ T.yield = yieldL ts ++ l) ∨
      ((¬ ∃ T, LRF 0 [T] 1 1 ∧ T.yield = yieldL ts ++ l) ∧ ∃ x, a.err = some (synErr code x.2) ∧
        ((VT (yieldL ts ++ l) ∧ (yieldL ts ++ l).getLast? = some x) ∨
          ∃ u w, yieldL ts ++ l = u ++ x :: w ∧ VT u ∧ ¬ VT (u ++ [x]))) := by
  induction n with
  | zero => intro c ts l _ _ _ k a h; cases h
  | succ n ih =>
    intro c ts l hc hv hsyn k a hrun
    have hr := hc.res (.inr rfl)
    unfold run at hrun
    have hsyn' : ∀ a', NoSyn c.ast a' → ¬ ∃ line col lit, a'.err = some (.at .syntaxError line col lit) := by
      rintro a' hn ⟨line, col, lit, h⟩
      exact hsyn ⟨line, col, lit, (hn line col lit h).trans h⟩
    generalize hs : step c = st at hr
    rw [hs] at hrun
    cases hr with
    | panic q => cases hrun
    | reduce h1 h2 h3 =>
      have := ih h1 (by rw [h2]; exact hv) (hsyn' _ h3) k a hrun
      rwa [h2] at this
    | @shift c' k t l' s' h1 h2 h3 h4 h5 =>
      subst h1
      have hvt := Res.viable h3 h4
      have := ih h2 (by rw [yieldL_append, yieldL_single, Tree.yield]; exact hvt) (hsyn' _ h5) _ a hrun
      rwa [yieldL_append, yieldL_single, Tree.yield, List.append_assoc] at this
    | @accept T a' h1 h2 h3 h4 =>
      injection hrun with hrun; injection hrun with hrun; injection hrun with _ hrun
      subst hrun; subst h1; subst h2
      left
      rw [h4]
      exact ⟨hsyn, T, h3, by rw [yieldL_single, List.append_nil]⟩
    | @error a' y h1 h2 h3 h4 =>
      injection hrun with hrun; injection hrun with hrun; injection hrun with _ hrun
      subst hrun
      right
      cases l with
      | nil =>
        rw [List.append_nil]
        refine ⟨?_, y, h4, .inl ⟨hv, by simpa using h3⟩⟩
        rintro ⟨T, h5, h6⟩
        exact h1 T [] h5 (by rw [h6, List.append_nil, List.append_nil]) rfl rfl
      | cons z l =>
        rw [List.head?_cons, Option.some_or] at h3
        injection h3 with h3
        subst h3
        refine ⟨?_, z, h4, .inr ⟨yieldL ts, l, rfl, hv, ?_⟩⟩
        · rintro ⟨T, h5, h6⟩
          exact h2 T l z l rfl h5 h6
        · rintro ⟨T, m, h5, h6, -⟩
          exact h2 T m z l rfl h5 (by rw [h6]; simp)

theorem ctl_init {a : Ast} {fin : Bool} {l : List (Nat × Tok)} (hc : a.code ≠ []) (h : Src fin (startTok a.code) l) :
    Ctl a.code fin (initCfg a) [] l :=
  ⟨rfl, hc, .inl ⟨rfl, h, fun x hx => by rw [yieldL] at hx; cases hx⟩, ⟨[], .base _⟩, 0, {}, [], rfl, fun la _ => .nil _ _⟩

theorem Src.ofFirst {t l} (h : FirstTokens t l) : Src false t l := by
  induction h with
  | nil t => exact .eof nofun
  | next h _ ih => exact .next h ih

theorem first_good {t : Tok} {l : List (Nat × Tok)} (h : FirstTokens t l) : ∀ x ∈ l, Good x := by
  induction h with
  | nil => exact nofun
  | next hx _ ih =>
    intro x hm
    rcases List.mem_cons.1 hm with rfl | hm
    · exact lexNext_good hx
    · exact ih x hm

end Verif.LR
