import Verif.Proofs.Memory
import Verif.Props.Parse
/-!
# C58: the tree in memory

`parseH g x h` (Memory.lean): Parse where blocks are Go slices in the memory `h` and `g` says how much room `append` leaves in a new array.
`ReadsA h x a` (Spec/Memory.lean): what is read at `x` when memory is `h` is the AstNode `a`.
-/
namespace Verif
open Spec Lexer

section
variable [Letters]

/-- Whatever the growth policy and the memory before: Parse returns if it does so on values, and the AstNode read from memory then is the
one of `parse`; and it panics if it does so on values. -/
theorem C58_reads (g : Nat → Nat → Nat) (h : Heap) (x : HAst) (a : Ast) (H : ReadsA h x a) :
    (∀ a', parse a = .ret a' → ∃ x' h', parseH g x h = .ret x' h' ∧ ReadsA h' x' a') ∧
    (∀ p, parse a = .panic p → parseH g x h = .panic p) := by
  have hr := Mem.parse_reads g H
  constructor
  · intro a' e
    rw [e] at hr
    generalize parseH g x h = r at hr
    cases hr with
    | ret h1 h2 => exact ⟨_, _, rfl, h1⟩
  · intro p e
    rw [e] at hr
    generalize parseH g x h = r at hr
    cases hr with
    | panic => rfl

omit [Letters] in
/-- Only one AstNode is read. -/
theorem C58_one (h : Heap) (x : HAst) (a b : Ast) (H : ReadsA h x a) (K : ReadsA h x b) : a = b := Mem.ReadsA.inj H K

/-- The AstNode of a text depends neither on how slices grow nor on the memory before: any two calls that return give the same. -/
theorem C58_growth (g g' : Nat → Nat → Nat) (h h' : Heap) (code : List Char) (x x' : HAst) (k k' : Heap) (a a' : Ast)
    (e : parseH g (newASTH code) h = .ret x k) (e' : parseH g' (newASTH code) h' = .ret x' k')
    (H : ReadsA k x a) (H' : ReadsA k' x' a') : a = a' := by
  have h1 := Mem.parse_reads g (h := h) (x := newASTH code) (a := newAST code) ⟨rfl, .nil⟩
  have h2 := Mem.parse_reads g' (h := h') (x := newASTH code) (a := newAST code) ⟨rfl, .nil⟩
  rw [e] at h1
  rw [e'] at h2
  generalize parse (newAST code) = r at h1 h2
  cases h1 with
  | ret h1 _ =>
    cases h2 with
    | ret h2 _ => exact (Mem.ReadsA.inj H h1).trans (Mem.ReadsA.inj H' h2).symm

/-- Arrays that were there before are not touched, and every tree read before is read afterwards. -/
theorem C58_old (g : Nat → Nat → Nat) (h h' : Heap) (x x' : HAst) (a : Ast) (H : ReadsA h x a) (e : parseH g x h = .ret x' h') :
    (∀ i < h.length, h'.arr i = h.arr i) ∧ ∀ y b, ReadsA h y b → ReadsA h' y b := by
  have hr := Mem.parse_reads g H
  rw [e] at hr
  generalize parse a = r at hr
  cases hr with
  | ret h1 h2 =>
    refine ⟨fun i hi => ?_, fun y b hy => Mem.ReadsA.mono (Mem.le_of_prefix h2) hy⟩
    obtain ⟨r, rfl⟩ := h2
    exact List.getD_append _ _ _ _ hi
end

/-- Slices as numbers of arrays and lengths, for the examples. -/
def HItem.block : HItem → Slice
  | .func f => f.body
  | _ => none

/-- The blocks of the procedures of a text, and the capacities and lengths of all arrays. -/
def memOf (g : Nat → Nat → Nat) (s : String) : List Slice × List (Nat × Nat) :=
  match @parseH stdLetters g (newASTH s.toList) [] with
  | .ret x h => (x.items.map HItem.block, h.map fun c => (c.1, c.2.length))
  | _ => ([], [])

/-- Examples: memory with spare room and without. -/
example : memOf goGrow "Процедура А() б(); в(); г(); КонецПроцедуры Процедура Б() в(); КонецПроцедуры" =
    ([some (2, 3), some (3, 1)], [(1, 1), (2, 2), (4, 3), (1, 1)]) := by decide +kernel
example : memOf (fun _ _ => 0) "Процедура А() б(); в(); г(); КонецПроцедуры Процедура Б() в(); КонецПроцедуры" =
    ([some (2, 3), some (3, 1)], [(1, 1), (2, 2), (3, 3), (1, 1)]) := by decide +kernel
example : ReadsA [] (newASTH "а();".toList) (newAST "а();".toList) := ⟨rfl, .nil⟩

end Verif
