import Verif.Proofs.Walk
import Verif.Proofs.Program
import Verif.AstEq
/-!
# Walking a tree: C40, C41, C42, C56

`walk f st m`: `Walk` of the module `m` with the callback `f`, whose variables have the value `st` before; result: their value after,
and the module after.
-/
namespace Verif
open Spec Lexer LR

/-! ## C40 -/

/-- The callback sees: every statement of the module body, of every procedure and of all blocks in them, exactly once and in the
order of `insideItem` (in order, inner statements before the statement that contains them); and besides (marked `false`) only parts
of what it sees: conditions, arguments, operands. -/
theorem C40_walk_visits (m : Module) : ∃ l : List (Bool × Seen), (walk recorder [] m).1 = l.map Prod.snd ∧
    (l.filter Prod.fst).map (fun x => x.2.elem) = m.body.flatMap insideItem ∧
    ∀ x, (false, x) ∈ l → ∃ s p, x.elem = .inl s ∧ PartOf s p ∧ ∃ z ∈ l, stmOf z.2.elem = some p :=
  ⟨_, by rw [walk_rec], itemsSeen_inside _ _ _, itemsSeen_parts _ _ _⟩

/-- Which elements are visited does not depend on the callback or on what it stores: the number of calls and their first arguments are
those of the recorder. -/
theorem C40_any_callback {σ : Type} (f : Callback σ) (st : σ) (m : Module) :
    walk (rooted f) (st, []) m = (((walk f st m).1, (walk recorder [] m).1.map Seen.root), (walk f st m).2) :=
  walk_rooted f st m

private def nv (s : String) : Stm := .var s.toList false false

/-- `Если а Тогда б; Иначе в; КонецЕсли` inside a loop inside a procedure. -/
example : ((walk recorder [] ⟨[], [.func ⟨none, [], [], [.loop .nil .nil .nil (nv "у") [.ifS (nv "а") [nv "б"] [] [nv "в"], .brk]], [], false, false⟩]⟩).1.map
      fun x => (x.root, stmOf x.elem)) =
    [(some 0, some (nv "а")), (some 0, some (nv "б")), (some 0, some (nv "в")), (some 0, some (.ifS (nv "а") [nv "б"] [] [nv "в"])),
     (some 0, some .brk), (some 0, some (.loop .nil .nil .nil (nv "у") [.ifS (nv "а") [nv "б"] [] [nv "в"], .brk])), (some 0, none)] := by
  decide +kernel

/-! ## C41 -/

/-- The property does not hold: after a procedure the code of the module is reported as belonging to it. -/
theorem C41_violated : ∃ code M s, @Accepts stdLetters code M ∧ M.body[1]? = some (.stm s) ∧
    ∃ x ∈ (walk recorder [] M).1, x.elem = .inr (.stm s) ∧ x.root = some 0 := by
  refine ⟨"Процедура А() КонецПроцедуры б = 1".toList,
    ⟨[], [.func ⟨some [], "А".toList, [], [], [], false, false⟩, .stm (.assign (nv "б") [.num ⟨false, 4503599627370496, -52⟩])]⟩, _,
    @accepts_eq stdLetters _ _ (by decide +kernel) (by decide +kernel), rfl, ⟨some 0, _⟩, ?_, rfl, rfl⟩
  rw [walk_rec]
  simp [itemsSeen, belowItem, belowL, below, rootAfter]

/-- What holds: `l` splits what is seen by elements of the module body; for a procedure the first argument is that procedure, and for
statements of the module before the first procedure it is nil.  Missing: module code after a procedure (where it is false,
`C41_violated`). -/
theorem C41_root_partial (m : Module) : ∃ l : List (List Seen), (walk recorder [] m).1 = l.flatten ∧ l.length = m.body.length ∧
    ∀ (k : Nat) (x : Item) (t : List Seen), m.body[k]? = some x → l[k]? = some t →
      t.getLast?.map Seen.elem = some (.inr x) ∧
      (∀ d, x = .func d → ∀ y ∈ t, y.root = some k) ∧
      ((∀ j ≤ k, ∀ d, m.body[j]? ≠ some (.func d)) → ∀ y ∈ t, y.root = none) := by
  refine ⟨(itemsSeen none 0 m.body).map (List.map Prod.snd), ?_, ?_, ?_⟩
  · rw [walk_rec, List.map_flatten]
  · simp [itemsSeen_length]
  · intro k x t hx ht
    obtain ⟨r', h1, h2, h3⟩ := itemsSeen_get none 0 m.body k x hx
    rw [List.getElem?_map, h1] at ht
    simp only [Option.map_some, List.map_map, Option.some.injEq] at ht
    subst ht
    refine ⟨?_, ?_, ?_⟩
    · cases x <;> simp [belowItem]
    · intro d e y hy
      obtain ⟨z, -, rfl⟩ := List.mem_map.1 hy
      simpa using h2 d e
    · intro h y hy
      obtain ⟨z, -, rfl⟩ := List.mem_map.1 hy
      exact h3 h

/-- What is reported exactly: `l` splits what the callback is told by elements of the module body; for a procedure and everything in
it the first argument is that procedure, and for a statement of the module and everything in it the last procedure before it, nil if
there is none. -/
theorem C41_reported (m : Module) : ∃ l : List (List (Visit Stm ⊕ Visit Item)), (walk recordAll [] m).1 = l.flatten ∧
    l.length = m.body.length ∧ ∀ (k : Nat) (x : Item) (t : List (Visit Stm ⊕ Visit Item)), m.body[k]? = some x → l[k]? = some t →
      (∃ v, t.getLast? = some (.inr v) ∧ v.elem = x) ∧
      ∀ v ∈ t, rootOf v = match x with
        | .func _ => some k
        | .stm _ => procBefore m.body k := by
  refine ⟨m.body.zipIdx.map fun x => itemVisits (procBefore m.body x.2) x.2 x.1, ?_, by simp, ?_⟩
  · rw [walk_recordAll, moduleVisits, List.flatMap_def]
  · intro k x t hx ht
    rw [List.getElem?_map, List.getElem?_zipIdx, hx] at ht
    simp only [Option.map_some, Nat.zero_add, Option.some.injEq] at ht
    subst ht
    refine ⟨?_, fun v hv => ?_⟩
    · cases x <;> simp [itemVisits]
    · rw [(itemVisits_right hx _ v hv).2]
      cases x <;> rfl

/-- Two procedures and a statement behind them. -/
example : ((walk recordAll [] ⟨[], [.func ⟨none, [], [], [.brk], [], false, false⟩, .func ⟨none, [], [], [], [], false, false⟩,
    .stm (.ret .undef)]⟩).1.map rootOf) = [some 0, some 0, some 1, some 1, some 1] := by decide +kernel

/-! ## C42 -/

/-- A callback that stores nothing leaves the tree as it is. -/
theorem C42_unchanged {σ : Type} (f : Callback σ) (hf : Callback.Silent f) (st : σ) (m : Module) : (walk f st m).2 = m :=
  walk_silent hf st m

/-- Statements stored by the callback replace the statements of the module body, of procedures and of blocks, and the arguments of
calls; everything else stays (`substModule`).  Missing: conditions, operands, values of `Возврат` (where stores are lost,
`C42_violated`). -/
theorem C42_replaced_partial (g : Stm → Stm) (m : Module) : (walk (replacer g) () m).2 = substModule g m :=
  walk_subst g m

/-- The property does not hold: what is stored for the condition of `Если` is lost. -/
theorem C42_violated : ∃ code M, @Accepts stdLetters code M ∧ ∃ g : Stm → Stm,
    (∃ x ∈ (walk recorder [] M).1, stmOf x.elem = some (nv "а") ∧ g (nv "а") = nv "б") ∧
    (walk (replacer g) () M).2 = M := by
  refine ⟨"Если а Тогда КонецЕсли".toList, ⟨[], [.stm (.ifS (nv "а") [] [] [])]⟩,
    @accepts_eq stdLetters _ _ (by decide +kernel) (by decide +kernel),
    fun s => if s = nv "а" then nv "б" else s, ⟨⟨none, .inl (nv "а")⟩, ?_, rfl, by simp⟩, ?_⟩
  · rw [walk_rec]
    simp [itemsSeen, belowItem, belowL, below, rootAfter]
  · rw [walk_subst]
    simp [substModule, substItem, subst, substL, nv]

/-- What is stored in blocks is not lost. -/
example : (walk (replacer fun s => if s = nv "б" then nv "в" else s) ()
      ⟨[], [.stm (.ifS (nv "б") [nv "б"] [.ifS (nv "а") [nv "а", nv "б"] [] []] [nv "б"])]⟩).2 =
    ⟨[], [.stm (.ifS (nv "б") [nv "в"] [.ifS (nv "а") [nv "а", nv "в"] [] []] [nv "в"])]⟩ := by decide +kernel

/-- Callbacks that store nothing: the recorder. -/
example : Callback.Silent recorder := ⟨fun _ _ => rfl, fun _ _ => rfl⟩

/-! ## C56 -/

/-- A callback that stores nothing is called exactly for `moduleVisits m` (`Spec/Walk.lean`), in this order: for every statement after
the calls for the parts it directly consists of, which have it as parent. -/
theorem C56_calls {σ : Type} (f : Callback σ) (hf : Callback.Silent f) (st : σ) (m : Module) :
    walk f st m = ((moduleVisits m).foldl (called f) st, m) :=
  walk_calls hf st m

/-- The second argument is what the visited element directly belongs to: for an element of the module body the body, for a statement of
a procedure the procedure, for anything else the statement it is a part of. -/
theorem C56_parent (m : Module) : ∀ v ∈ (walk recordAll [] m).1, RightParent m v := by
  intro v hv
  rw [walk_recordAll, mem_moduleVisits] at hv
  obtain ⟨i, x, hx, hv⟩ := hv
  exact (itemVisits_right hx _ v hv).1

/-- `Если а Тогда б` in a procedure: the condition and the branch have the statement as parent, the statement has the procedure. -/
example : moduleVisits ⟨[], [.func ⟨none, [], [], [.ifS (nv "а") [nv "б"] [] []], [], false, false⟩]⟩ =
    [.inl ⟨some 0, .stm (.ifS (nv "а") [nv "б"] [] []), nv "а"⟩, .inl ⟨some 0, .stm (.ifS (nv "а") [nv "б"] [] []), nv "б"⟩,
     .inl ⟨some 0, .func 0, .ifS (nv "а") [nv "б"] [] []⟩,
     .inr ⟨some 0, .body, .func ⟨none, [], [], [.ifS (nv "а") [nv "б"] [] []], [], false, false⟩⟩] := by
  simp [moduleVisits, itemVisits, visits_eq, kids, nv]

end Verif
