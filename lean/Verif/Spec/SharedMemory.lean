import Verif.SharedMemory
/-!
# Specification: what a goroutine reads and writes
-/
namespace Verif

/-- Two memories with the same arrays, the contents of which may differ except where `P` holds. -/
def SameAt (P : Nat → Prop) (h k : Heap) : Prop := h.length = k.length ∧ ∀ i, P i → h.arr i = k.arr i

/-- When goroutine `p` is scheduled in memory `h`, it neither reads nor writes any array but those of `mine`: with other contents of all
other arrays it does the same, and it leaves all other arrays as they are.  Arrays that it allocates belong to `mine`. -/
def OnlyOwn [Letters] (g : Nat → Nat → Nat) (mine : Nat → Prop) (p : HProc) (h : Heap) : Prop :=
  ∀ k, SameAt mine h k →
    (∃ e, p.move g h = .error e ∧ p.move g k = .error e) ∨
    ∃ q h' k', p.move g h = .ok (q, h') ∧ p.move g k = .ok (q, k') ∧ SameAt mine h' k' ∧
      (∀ n < h.length, ¬ mine n → h'.arr n = h.arr n ∧ k'.arr n = k.arr n) ∧
      h.length ≤ h'.length ∧ ∀ n < h'.length, h.length ≤ n → mine n

end Verif
