import Verif.Proofs.SharedMemory
import Verif.Props.Concurrent
import Verif.Props.Memory
/-!
# C45, C66: parsers in several goroutines, in one memory

`HSys.exec g l (.running ps h)` (SharedMemory.lean): the goroutines `ps` get the processor in the order `l`, each time for at most one access
to memory; the blocks of all their trees are slices in one memory, which is `h` before.  `ReadsA`: Spec/Memory.lean.  `SameAt`, `OnlyOwn`:
Spec/SharedMemory.lean.
-/
namespace Verif
open Spec Lexer

section
variable [Letters]

/-- The process at the start: goroutine `i` is about to parse `codes i`. -/
abbrev atStart (codes : Nat → List Char) (h : Heap) : HSys := .running (fun i => .start (newASTH (codes i))) h

/-- **C45**, for every number of goroutines, all texts, every schedule, every growth policy and every memory before: as long as no goroutine
has panicked, the tree of a goroutine whose `Parse` has returned, read from the common memory, is the one that `Parse` gives alone; a goroutine
that has been scheduled often enough has returned; and what was in memory before is still there. -/
theorem C45_accesses (g : Nat → Nat → Nat) (codes : Nat → List Char) (h h' : Heap) (l : List Nat) (ps : Nat → HProc)
    (e : HSys.exec g l (atStart codes h) = .running ps h') (i : Nat) :
    (∀ x, ps i = .done x → ∃ a, parse (newAST (codes i)) = .ret a ∧ ReadsA h' x a) ∧
    (5 * (15 * (codes i).length + 17) ≤ l.count i → ∃ x, ps i = .done x) ∧
    ∀ n < h.length, h'.arr n = h.arr n := by
  rcases Shared.exec_follows g l (fun i => .start (newASTH (codes i))) (fun i => .start (newAST (codes i))) h (fun _ => none) (fun _ => 1)
      (fun i => .start fun _ _ => ⟨rfl, .nil⟩) nofun with ⟨p, m, h1, _⟩ | ⟨ps', vs, h₂, own, rk, m, h1, h2, h3, h4, _, _, h6, _⟩
  · rw [e] at h1; cases h1
  · rw [e] at h1
    injection h1 with h1 h1'
    subst h1 h1'
    have hi := h3 i
    obtain ⟨c1, c2⟩ := C45_rounds (fun i => newAST (codes i)) m vs h2 i
    refine ⟨fun x hx => ?_, fun hn => ?_, fun n hn => h6 n hn rfl⟩
    · rw [hx] at hi
      generalize hv : vs i = v at hi
      generalize rk i = r at hi
      cases hi with
      | done H => exact ⟨_, c1 _ hv, H _ (.refl _ _)⟩
    · have h5 := h4 i
      obtain ⟨b, hb⟩ := c2 (by show 15 * (codes i).length + 17 ≤ _; omega)
      rw [hb] at hi
      generalize ps i = p at hi
      generalize rk i = r at hi
      cases hi with
      | done H => exact ⟨_, rfl⟩

/-- The process ends by a panic only if the text of one of the goroutines makes `Parse` panic when called alone. -/
theorem C45_accesses_panic (g : Nat → Nat → Nat) (codes : Nat → List Char) (h : Heap) (l : List Nat) (p : Panic)
    (e : HSys.exec g l (atStart codes h) = .crashed p) : ∃ i ∈ l, parse (newAST (codes i)) = .panic p := by
  rcases Shared.exec_follows g l (fun i => .start (newASTH (codes i))) (fun i => .start (newAST (codes i))) h (fun _ => none) (fun _ => 1)
      (fun i => .start fun _ _ => ⟨rfl, .nil⟩) nofun with ⟨p, m, h1, h2, hm⟩ | ⟨ps', vs, h₂, own, rk, m, h1, _⟩
  · rw [e] at h1
    injection h1 with h1
    subst h1
    obtain ⟨i, hi, hp⟩ := C45_panic (fun i => newAST (codes i)) m _ h2
    exact ⟨i, hm hi, hp⟩
  · rw [e] at h1; cases h1

/-- The order in which goroutines get the processor, how slices grow and what was in memory before do not matter: the tree of a goroutine
that has returned is the same. -/
theorem C45_any_schedule (g g' : Nat → Nat → Nat) (codes : Nat → List Char) (h k h' k' : Heap) (l m : List Nat) (ps qs : Nat → HProc)
    (e : HSys.exec g l (atStart codes h) = .running ps h') (e' : HSys.exec g' m (atStart codes k) = .running qs k')
    (i : Nat) (x y : HAst) (hx : ps i = .done x) (hy : qs i = .done y) (a b : Ast) (ha : ReadsA h' x a) (hb : ReadsA k' y b) : a = b := by
  obtain ⟨a', h1, h2⟩ := (C45_accesses g codes h h' l ps e i).1 x hx
  obtain ⟨b', h3, h4⟩ := (C45_accesses g' codes k k' m qs e' i).1 y hy
  rw [h1] at h3
  injection h3 with h3
  subst h3
  exact (C58_one _ _ _ _ ha h2).trans (C58_one _ _ _ _ hb h4).symm

/-- **C66**: no goroutine reads or writes memory of another one.  Every array that is made has an owner (arrays from before have none), and
whenever a goroutine is scheduled, it reads and writes only arrays that it owns, and owns those that it makes.  And the tree of a goroutine
that has returned is in its own arrays: it is read the same whatever all the others contain. -/
theorem C66_apart (g : Nat → Nat → Nat) (codes : Nat → List Char) (h h' : Heap) (l : List Nat) (ps : Nat → HProc)
    (e : HSys.exec g l (atStart codes h) = .running ps h') :
    ∃ owner : Nat → Option Nat, (∀ n < h.length, owner n = none) ∧
      (∀ l₁ i l₂, l = l₁ ++ i :: l₂ → ∀ qs k, HSys.exec g l₁ (atStart codes h) = .running qs k →
        OnlyOwn g (fun n => owner n = some i) (qs i) k) ∧
      ∀ i x, ps i = .done x → ∃ a, ∀ k, SameAt (fun n => owner n = some i) h' k → ReadsA k x a := by
  rcases Shared.exec_follows g l (fun i => .start (newASTH (codes i))) (fun i => .start (newAST (codes i))) h (fun _ => none) (fun _ => 1)
      (fun i => .start fun _ _ => ⟨rfl, .nil⟩) nofun with ⟨p, m, h1, _⟩ | ⟨ps', vs, h₂, own, rk, m, h1, h2, h3, _, h4, _, _, h7⟩
  · rw [e] at h1; cases h1
  · rw [e] at h1
    injection h1 with h1 h1'
    subst h1 h1'
    refine ⟨own, h4, h7, fun i x hx => ?_⟩
    have hi := h3 i
    rw [hx] at hi
    generalize vs i = v at hi
    generalize rk i = r at hi
    cases hi with
    | done H => exact ⟨_, fun k hk => H k ⟨hk.1.le, fun n hn => (hk.2 n hn).symm⟩⟩

end

/-- The blocks of the procedures of two goroutines, and the capacities and lengths of all arrays, for the examples. -/
def memOf2 (l : List Nat) (s t : String) : List Slice × List Slice × List (Nat × Nat) :=
  match @HSys.exec stdLetters goGrow l (atStart (fun i => (if i = 0 then s else t).toList) []) with
  | .running ps h => match ps 0, ps 1 with
    | .done x, .done y => (x.items.map HItem.block, y.items.map HItem.block, h.map fun c => (c.1, c.2.length))
    | _, _ => ([], [], [])
  | .crashed _ => ([], [], [])

/-- Two goroutines taking turns, and one after the other: the arrays have other numbers, the trees have the same lengths. -/
example : memOf2 (List.replicate 250 [0, 1]).flatten "Процедура А() б(); в(); г(); КонецПроцедуры" "Процедура Б() г(); в(); КонецПроцедуры" =
    ([some (4, 3)], [some (3, 2)], [(1, 1), (1, 1), (2, 2), (2, 2), (4, 3)]) := by decide +kernel
example : memOf2 (List.replicate 250 0 ++ List.replicate 250 1) "Процедура А() б(); в(); г(); КонецПроцедуры"
      "Процедура Б() г(); в(); КонецПроцедуры" =
    ([some (2, 3)], [some (4, 2)], [(1, 1), (2, 2), (4, 3), (1, 1), (2, 2)]) := by decide +kernel

/-- A panic of one of them ends the process. -/
example : (match @HSys.exec stdLetters goGrow (List.replicate 250 [0, 1]).flatten
      (atStart (fun i => (if i = 0 then "А = 1;" else "Процедура П() Перем а, а; Перем б; КонецПроцедуры").toList) []) with
    | .running _ _ => false
    | .crashed p => decide (p = .nilMap)) = true := by
  decide +kernel

end Verif
