import Verif.Memory
/-!
Every round allocates at most one array of blocks and makes no array longer by more than one element.
-/
namespace Verif.MemorySize
open Lexer

/-- At most one more array, and none is longer than the longest before by more than one element. -/
def Grow (k : Nat) (h h' : Heap) : Prop :=
  h'.length ≤ h.length + k ∧ ∀ m, (∀ c ∈ h, c.2.length ≤ m) → ∀ c ∈ h', c.2.length ≤ m + k

theorem Grow.refl (h : Heap) (k : Nat) : Grow k h h :=
  ⟨Nat.le_add_right _ _, fun _ hm c hc => Nat.le_trans (hm c hc) (Nat.le_add_right _ _)⟩

theorem Grow.trans {k k' : Nat} {h h' h'' : Heap} (a : Grow k h h') (b : Grow k' h' h'') : Grow (k + k') h h'' := by
  refine ⟨Nat.le_trans b.1 ?_, fun m hm c hc => ?_⟩
  · have := a.1; omega
  · have := b.2 (m + k) (a.2 m hm) c hc; omega

theorem grow_one (h : Heap) (cap : Nat) (x : HStm) : Grow 1 h (h.alloc cap [x]).2 := by
  refine ⟨by simp [Heap.alloc], fun m hm c hc => ?_⟩
  rcases List.mem_append.1 hc with hc | hc
  · exact Nat.le_trans (hm c hc) (Nat.le_succ _)
  · rw [List.mem_singleton.1 hc]
    exact Nat.le_add_left _ _

theorem arr_le {h : Heap} {m : Nat} (hm : ∀ c ∈ h, c.2.length ≤ m) (i : Nat) : (h.arr i).2.length ≤ m := by
  unfold Heap.arr
  rw [List.getD_eq_getElem?_getD]
  rcases he : h[i]? with _ | c
  · exact Nat.zero_le _
  · exact hm c (List.mem_of_getElem? he)

theorem grow_append (g : Nat → Nat → Nat) (h : Heap) (s : Slice) (x : HStm) : Grow 1 h (h.append g s x).2 := by
  unfold Heap.append
  split
  · exact grow_one _ _ _
  · rename_i i n
    refine ⟨?_, fun m hm => ?_⟩
    · dsimp only
      split <;> simp [Heap.alloc]
    · have ha := arr_le hm i
      generalize h.arr i = q at ha
      obtain ⟨cap, cells⟩ := q
      dsimp only at ha ⊢
      split
      · intro c hc
        rcases List.mem_or_eq_of_mem_set hc with hc | rfl
        · exact Nat.le_trans (hm c hc) (Nat.le_succ _)
        · show (cells.take n ++ x :: cells.drop (n + 1)).length ≤ _
          rw [List.length_append, List.length_cons, List.length_take, List.length_drop]
          omega
      · intro c hc
        rcases List.mem_append.1 hc with hc | hc
        · exact Nat.le_trans (hm c hc) (Nat.le_succ _)
        · rw [List.mem_singleton.1 hc]
          show (cells.take n ++ [x]).length ≤ _
          rw [List.length_append, List.length_take, List.length_singleton]
          omega

theorem act_grow {g : Nat → Nat → Nat} {p : Nat} {d : Nat → HSV} {v v' : HSV} {a a' : HAst} {h h' : Heap}
    (e : actH g p d v a h = .ok (v', a', h')) : Grow 1 h h' := by
  unfold actH at e
  split at e
  · injection e with e; injection e with _ e; injection e with _ e; subst e; exact .refl _ _
  · injection e with e; injection e with _ e; injection e with _ e; subst e; exact .refl _ _
  · injection e with e; injection e with _ e; injection e with _ e; subst e; exact grow_one _ _ _
  · generalize checkColonH a (d 2).token (h.elems (d 1).opt_body) = r at e
    cases r with
    | error => cases e
    | ok r =>
      dsimp only [bind, Except.bind] at e
      split at e
      · injection e with e; injection e with _ e; injection e with _ e; subst e; exact .refl _ _
      · injection e with e; injection e with _ e; injection e with _ e; subst e; exact grow_append _ _ _ _
  · generalize actP _ d v a = r at e
    cases r with
    | error => cases e
    | ok r => injection e with e; injection e with _ e; injection e with _ e; subst e; exact .refl _ _

/-- The memory after a round. -/
def heapOf : HStep → Heap
  | .go c => c.heap
  | .done _ _ h => h

theorem reduce_grow {g : Nat → Nat → Nat} {c : HCfg} {p : Nat} {r : HStep} (e : reduceH g c p = .ok r) : Grow 1 c.heap (heapOf r) := by
  unfold reduceH at e
  dsimp only at e
  generalize popNH (Tables.get Tables.yyR2 p).toNat c.live c.stale = q at e
  split at e
  · injection e with e; subst e; exact .refl _ _
  · generalize he : actH g p _ _ c.ast c.heap = r' at e
    cases r' with
    | error => cases e
    | ok r' =>
      injection e with e
      subst e
      exact act_grow he

theorem fetch_heap [Letters] (c : HCfg) : (fetchH c).1.heap = c.heap := by
  unfold fetchH
  split
  · rfl
  · split <;> rfl

theorem syntax_grow {c : HCfg} {r : HStep} (e : syntaxErrorH c = .ok r) : Grow 1 c.heap (heapOf r) := by
  unfold syntaxErrorH at e
  generalize c.ast.errorH .syntaxError = q at e
  cases q with
  | error => cases e
  | ok q =>
    dsimp only [bind, Except.bind] at e
    split at e <;> (injection e with e; subst e; exact .refl _ _)

theorem default_grow [Letters] {g : Nat → Nat → Nat} {c : HCfg} {s : Nat} {r : HStep} (e : defaultActionH g c s = .ok r) :
    Grow 1 c.heap (heapOf r) := by
  unfold defaultActionH at e
  dsimp only at e
  split at e
  · have hf := fetch_heap c
    generalize fetchH c = q at e hf
    obtain ⟨c', t⟩ := q
    dsimp only at e hf
    rw [← hf]
    split at e
    · injection e with e; subst e; exact .refl _ _
    · split at e
      · exact syntax_grow e
      · exact reduce_grow e
  · split at e
    · exact syntax_grow e
    · exact reduce_grow e

theorem step_grow [Letters] {g : Nat → Nat → Nat} {c : HCfg} {r : HStep} (e : stepH g c = .ok r) : Grow 1 c.heap (heapOf r) := by
  unfold stepH at e
  split at e
  · injection e with e; subst e; exact .refl _ _
  · split at e
    · exact default_grow e
    · have hf := fetch_heap c
      generalize fetchH c = q at e hf
      obtain ⟨c', t⟩ := q
      dsimp only at e hf
      rw [← hf]
      split at e
      · injection e with e; subst e; exact .refl _ _
      · exact default_grow e

theorem run_grow [Letters] {g : Nat → Nat → Nat} {n : Nat} {c : HCfg} {a : HAst} {h : Heap} (e : runH g n c = .ok (some (a, h))) :
    Grow n c.heap h := by
  induction n generalizing c with
  | zero => cases e
  | succ n ih =>
    unfold runH at e
    generalize hs : stepH g c = r at e
    cases r with
    | error => cases e
    | ok r =>
      have h1 := step_grow hs
      cases r with
      | done k a' h' =>
        injection e with e; injection e with e; injection e with _ e
        subst e
        rw [Nat.add_comm]
        exact h1.trans (.refl _ _)
      | go c' =>
        rw [Nat.add_comm]
        exact h1.trans (ih e)

theorem parse_grow [Letters] {g : Nat → Nat → Nat} {x x' : HAst} {h h' : Heap} (e : parseH g x h = .ret x' h') :
    Grow (fuel x.ctl.code.length) h h' := by
  unfold parseH at e
  split at e
  · injection e with _ e; subst e; exact .refl _ _
  · split at e
    · cases e
    · cases e
    · rename_i he
      injection e with _ e
      subst e
      exact run_grow he

end Verif.MemorySize
