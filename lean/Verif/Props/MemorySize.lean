import Verif.Proofs.MemorySize
import Verif.Props.Memory
import Verif.Props.Size
/-!
# C84: how many statements Parse stores

`parseH g x h` (Memory.lean): Parse where blocks are Go slices in the memory `h`, a list of arrays, each with its capacity and the statements
in it; `g` says how much room `append` leaves in a new array.
-/
namespace Verif
open Spec Lexer

section
variable [Letters]

/-- Parse makes at most `15 n + 16` arrays for a text of `n` characters, whatever is in memory before. -/
theorem C84_arrays (g : Nat → Nat → Nat) (h h' : Heap) (code : List Char) (x : HAst) (e : parseH g (newASTH code) h = .ret x h') :
    h'.length ≤ h.length + (15 * code.length + 16) := (MemorySize.parse_grow e).1

/-- No array holds more than `15 n + 16` statements. -/
theorem C84_longest (g : Nat → Nat → Nat) (h' : Heap) (code : List Char) (x : HAst) (e : parseH g (newASTH code) [] = .ret x h') :
    ∀ c ∈ h', c.2.length ≤ 15 * code.length + 16 := by
  intro c hc
  have := (MemorySize.parse_grow e).2 0 (fun _ h => nomatch h) c hc
  exact Nat.le_trans this (Nat.le_of_eq (Nat.zero_add _))

/-- So all arrays together hold at most `(15 n + 16) ^ 2` statements, in use or left over from growing. -/
theorem C84_statements (g : Nat → Nat → Nat) (h' : Heap) (code : List Char) (x : HAst) (e : parseH g (newASTH code) [] = .ret x h') :
    (h'.map fun c => c.2.length).sum ≤ (15 * code.length + 16) ^ 2 := by
  have h1 := C84_arrays g [] h' code x e
  have h2 := C84_longest g h' code x e
  generalize 15 * code.length + 16 = k at h1 h2
  have h3 : ∀ l : Heap, (∀ c ∈ l, c.2.length ≤ k) → (l.map fun c => c.2.length).sum ≤ l.length * k := by
    intro l
    induction l with
    | nil => intro _; exact Nat.zero_le _
    | cons c l ih =>
      intro h
      rw [List.map_cons, List.sum_cons, List.length_cons, Nat.succ_mul]
      have := h c List.mem_cons_self
      have := ih fun c hc => h c (List.mem_cons_of_mem _ hc)
      omega
  refine Nat.le_trans (h3 h' h2) ?_
  rw [Nat.pow_two]
  exact Nat.mul_le_mul_right _ (Nat.le_trans h1 (by simp))
end

/-- Although trees can be exponentially larger than the text: the arrays from which a tree of at least `2 ^ m` nodes is read hold at most
`(15 n + 16) ^ 2` statements, where `n = 31 + 32 (m + 1) ^ 2`. -/
theorem C84_shared (g : Nat → Nat → Nat) (m : Nat) : ∃ code x h a, @parseH stdLetters g (newASTH code) [] = .ret x h ∧ a.err = none ∧
    ReadsA h x a ∧ 2 ^ m ≤ a.mod.nodes ∧ code.length = 31 + 32 * (m + 1) ^ 2 ∧
    (h.map fun c => c.2.length).sum ≤ (15 * (31 + 32 * (m + 1) ^ 2) + 16) ^ 2 := by
  obtain ⟨code, M, ⟨a, h1, h2, rfl⟩, h3, h4⟩ := C68_exponential m
  obtain ⟨x, h, e, r⟩ := (@C58_reads stdLetters g [] (newASTH code) (newAST code) ⟨rfl, .nil⟩).1 a h1
  exact ⟨code, x, h, a, e, h2, r, h4, h3, h3 ▸ @C84_statements stdLetters g h code x e⟩

/-- Examples: a text of 40 statements; arrays of 1, 2, 4, …, 64 places, of which 40 hold all statements and the others are left over. -/
example : (memOf goGrow ("Процедура А() " ++ String.join (List.replicate 40 "б();") ++ "КонецПроцедуры")).2 =
    [(1, 1), (2, 2), (4, 4), (8, 8), (16, 16), (32, 32), (64, 40)] := by decide +kernel
/-- Without spare room every statement takes a new array. -/
example : (memOf (fun _ _ => 0) ("Процедура А() " ++ String.join (List.replicate 12 "б();") ++ "КонецПроцедуры")).2 =
    [(1, 1), (2, 2), (3, 3), (4, 4), (5, 5), (6, 6), (7, 7), (8, 8), (9, 9), (10, 10), (11, 11), (12, 12)] := by decide +kernel

end Verif
