import Verif.Concurrent
import Verif.Props.Parse
import Verif.StdLetters
/-!
# C45: parsers in several goroutines
-/
namespace Verif
open Spec Lexer LR
variable [Letters]

/-- `n` moves of one goroutine alone. -/
private def moves : Nat → Proc → Except Panic Proc
  | 0, p => .ok p
  | n + 1, p => p.move >>= moves n

private theorem moves_snoc (n : Nat) (p : Proc) : moves (n + 1) p = moves n p >>= Proc.move := by
  induction n generalizing p with
  | zero =>
    show p.move >>= moves 0 = Proc.move p
    cases p.move <;> rfl
  | succ n ih =>
    show p.move >>= moves (n + 1) = (p.move >>= moves n) >>= Proc.move
    cases p.move with
    | error q => rfl
    | ok q => exact ih q

/-- Other goroutines do not matter. -/
private theorem exec_alone (l : List Nat) : ∀ (ps qs : Nat → Proc), Sys.exec l (.running ps) = .running qs →
    ∀ i, moves (l.count i) (ps i) = .ok (qs i) := by
  induction l with
  | nil =>
    intro ps qs h i
    injection h with h
    subst h
    rfl
  | cons j l ih =>
    intro ps qs h i
    unfold Sys.exec Sys.sched at h
    dsimp only at h
    cases hm : (ps j).move with
    | error p =>
      rw [hm] at h
      exfalso
      clear ih hm
      change Sys.exec l (.crashed p) = _ at h
      induction l with
      | nil => cases h
      | cons k l ih => exact ih h
    | ok q =>
      rw [hm] at h
      have := ih _ _ h i
      by_cases hij : i = j
      · subst hij
        rw [if_pos rfl] at this
        rw [List.count_cons_self]
        show (ps i).move >>= moves _ = _
        rw [hm]
        exact this
      · rw [if_neg hij] at this
        rw [List.count_cons_of_ne (Ne.symm hij)]
        exact this

private theorem moves_done (n : Nat) (a : Ast) : moves n (.done a) = .ok (.done a) := by
  induction n with
  | zero => rfl
  | succ n ih => exact ih

private theorem moves_loop (n : Nat) : ∀ c : Cfg, match moves n (.loop c) with
    | .error p => run n c = .error p
    | .ok (.done a) => ∃ k, run n c = .ok (some (k, a))
    | .ok _ => run n c = .ok none := by
  induction n with
  | zero => intro c; rfl
  | succ n ih =>
    intro c
    have hm : moves (n + 1) (.loop c) = (step c >>= fun x => match x with
        | .done _ a => .ok (.done a)
        | .go c' => .ok (.loop c')) >>= moves n := rfl
    rw [hm]
    unfold run
    cases step c with
    | error p => exact rfl
    | ok x =>
      cases x with
      | go d => exact ih d
      | done k a =>
        have h2 : ((Except.ok (Step.done k a) >>= fun x => match x with
          | .done _ a => .ok (.done a)
          | .go c' => .ok (.loop c')) >>= moves n) = moves n (.done a) := rfl
        rw [h2, moves_done]
        exact ⟨k, rfl⟩

private theorem moves_parse (n : Nat) (a b : Ast) (h : moves n (.start a) = .ok (.done b)) : parse a = .ret b := by
  cases n with
  | zero => cases h
  | succ n =>
    unfold moves Proc.move at h
    dsimp only at h
    unfold parse
    split at h
    · rename_i hb
      rw [if_pos hb]
      change moves n (.done a) = _ at h
      rw [moves_done] at h
      injection h with h
      injection h with h
      rw [h]
    · rename_i hb
      rw [if_neg hb]
      change moves n (.loop (initCfg a)) = _ at h
      have hm := moves_loop n (initCfg a)
      rw [h] at hm
      obtain ⟨k, hk⟩ := hm
      have hc : a.code ≠ [] := by intro h1; rw [h1] at hb; exact hb rfl
      have e := (C14_linear a hc (max n (15 * a.code.length + 16)) (le_max_right ..))
      have more : ∀ m, n ≤ m → run m (initCfg a) = .ok (some (k, b)) := by
        intro m hm
        obtain ⟨d, rfl⟩ := Nat.exists_eq_add_of_le hm
        clear hm e h
        generalize initCfg a = c at hk
        induction n generalizing c with
        | zero => cases hk
        | succ n ih =>
          rw [Nat.succ_add]
          unfold run at hk ⊢
          cases hs : step c with
          | error q => rw [hs] at hk; cases hk
          | ok x =>
            rw [hs] at hk
            cases x with
            | done k' a' => exact hk
            | go c' => exact ih c' hk
      have e2 := more _ (le_max_left n (15 * a.code.length + 16))
      rw [e.2] at e2
      change run (fuel a.code.length) (initCfg a) = _ at e2
      rw [e2]

private theorem moves_returns (n : Nat) (a : Ast) (hn : 15 * a.code.length + 17 ≤ n) (q : Proc) (h : moves n (.start a) = .ok q) :
    ∃ b, q = .done b := by
  obtain ⟨m, rfl⟩ : ∃ m, n = m + 1 := ⟨n - 1, by omega⟩
  unfold moves Proc.move at h
  dsimp only at h
  split at h
  · change moves m (.done a) = _ at h
    rw [moves_done] at h
    injection h with h
    exact ⟨a, h.symm⟩
  · rename_i hb
    change moves m (.loop (initCfg a)) = _ at h
    have hm := moves_loop m (initCfg a)
    have hc : a.code ≠ [] := by intro h1; rw [h1] at hb; exact hb rfl
    have e := (C14_linear a hc m (by omega)).1
    rw [h] at hm
    cases q with
    | done b => exact ⟨b, rfl⟩
    | start _ => exact absurd hm e
    | loop _ => exact absurd hm e

/-- **C45**, for every number of goroutines, all texts and every schedule `l`: as long as no goroutine has panicked, each goroutine
whose `Parse` has returned has exactly the result that `Parse` gives alone, and every goroutine that has been scheduled often
enough has returned.  (`as` gives the AstNode of each goroutine.)  Switches are between rounds of the driver here; for switches between
any two accesses to memory see `C45_accesses` (Props/SharedMemory.lean).  A panic of one goroutine ends all of them: `C45_panic`. -/
theorem C45_rounds (as : Nat → Ast) (l : List Nat) (ps : Nat → Proc)
    (h : Sys.exec l (.running fun i => .start (as i)) = .running ps) (i : Nat) :
    (∀ b, ps i = .done b → parse (as i) = .ret b) ∧ (15 * (as i).code.length + 17 ≤ l.count i → ∃ b, ps i = .done b) := by
  have hm := exec_alone l _ _ h i
  constructor
  · intro b hb
    rw [hb] at hm
    exact moves_parse _ _ _ hm
  · intro hn
    exact moves_returns _ _ hn _ hm

/-- The process ends by a panic only if the text of one of the goroutines makes `Parse` panic when called alone. -/
theorem C45_panic (as : Nat → Ast) (l : List Nat) (p : Panic) (h : Sys.exec l (.running fun i => .start (as i)) = .crashed p) :
    ∃ i ∈ l, parse (as i) = .panic p := by
  have gen : ∀ (l : List Nat) (ps : Nat → Proc), Sys.exec l (.running ps) = .crashed p →
      ∃ i ∈ l, ∃ n, moves n (ps i) = .error p := by
    intro l
    induction l with
    | nil => intro ps h; cases h
    | cons j l ih =>
      intro ps h
      unfold Sys.exec Sys.sched at h
      dsimp only at h
      cases hm : (ps j).move with
      | error q =>
        rw [hm] at h
        have hq : q = p := by
          change Sys.exec l (.crashed q) = _ at h
          clear ih hm
          induction l with
          | nil => injection h
          | cons k l ih => exact ih h
        subst hq
        exact ⟨j, List.mem_cons_self .., 1, by show (ps j).move >>= moves 0 = _; rw [hm]; rfl⟩
      | ok q =>
        rw [hm] at h
        obtain ⟨i, hi, n, hn⟩ := ih _ h
        by_cases hij : i = j
        · subst hij
          rw [if_pos rfl] at hn
          exact ⟨i, List.mem_cons_self .., n + 1, by show (ps i).move >>= moves n = _; rw [hm]; exact hn⟩
        · rw [if_neg hij] at hn
          exact ⟨i, List.mem_cons_of_mem _ hi, n, hn⟩
  obtain ⟨i, hi, n, hn⟩ := gen l _ h
  refine ⟨i, hi, ?_⟩
  cases n with
  | zero => cases hn
  | succ n =>
    unfold moves Proc.move at hn
    dsimp only at hn
    unfold parse
    split at hn
    · change moves n (.done _) = _ at hn
      rw [moves_done] at hn
      cases hn
    · rename_i hb
      rw [if_neg hb]
      change moves n (.loop (initCfg (as i))) = _ at hn
      have hm := moves_loop n (initCfg (as i))
      rw [hn] at hm
      have hc : (as i).code ≠ [] := by intro h1; rw [h1] at hb; exact hb rfl
      have more : ∀ d, run (n + d) (initCfg (as i)) = .error p := by
        intro d
        have hk : run n (initCfg (as i)) = .error p := hm
        clear hm hn
        generalize initCfg (as i) = c at hk
        induction n generalizing c with
        | zero => cases hk
        | succ n ih =>
          rw [Nat.succ_add]
          unfold run at hk ⊢
          cases hs : step c with
          | error q => rw [hs] at hk; exact hk
          | ok x =>
            rw [hs] at hk
            cases x with
            | done k' a' => cases hk
            | go c' => exact ih c' hk
      have e := (C14_linear (as i) hc (n + (15 * (as i).code.length + 16)) (by omega)).2
      rw [more] at e
      change _ = run (fuel (as i).code.length) (initCfg (as i)) at e
      rw [← e]

/-- Two goroutines taking turns: both return, each with the tree of its own text. -/
example : (match @Sys.exec stdLetters ((List.replicate 60 [0, 1]).flatten) (.running fun i => .start
      (newAST (if i = 0 then "А = 1;" else "Процедура П() Возврат; КонецПроцедуры").toList)) with
    | .running ps => match ps 0, ps 1 with
      | .done a, .done b => decide (a.mod.body.length = 1 ∧ b.mod.body.length = 1 ∧ a.err = none ∧ b.err = none ∧ a.mod ≠ b.mod)
      | _, _ => false
    | .crashed _ => false) = true := by
  decide +kernel

/-- A panic of one of them ends the process. -/
example : (match @Sys.exec stdLetters ((List.replicate 60 [0, 1]).flatten) (.running fun i => .start
      (newAST (if i = 0 then "А = 1;" else "Процедура П() Перем а, а; Перем б; КонецПроцедуры").toList)) with
    | .running _ => false
    | .crashed p => decide (p = .nilMap)) = true := by
  decide +kernel

end Verif
