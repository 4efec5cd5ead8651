import Verif.Ast
/-! Decidable equality of syntax trees (no counterpart in /repo; used to check concrete examples). -/
namespace Verif


mutual
/-- Equality test of statements. -/
def Stm.beq : Stm → Stm → Bool
  | .nil, .nil => true
  | .num x, .num y => decide (x = y)
  | .str x, .str y => decide (x = y)
  | .bool x, .bool y => decide (x = y)
  | .date x, .date y => decide (x = y)
  | .undef, .undef => true
  | .var a b c, .var a' b' c' => decide (a = a') && decide (b = b') && decide (c = c')
  | .chain a b c d, .chain a' b' c' d' => a.beq a' && b.beq b' && decide (c = c') && decide (d = d')
  | .method a b c, .method a' b' c' => decide (a = a') && Stm.beqL b b' && decide (c = c')
  | .item a b, .item a' b' => a.beq a' && b.beq b'
  | .ternary a b c, .ternary a' b' c' => a.beq a' && b.beq b' && c.beq c'
  | .new a b, .new a' b' => decide (a = a') && Stm.beqL b b'
  | .assign a b, .assign a' b' => a.beq a' && Stm.beqL b b'
  | .bin o a b c d, .bin o' a' b' c' d' =>
    decide (o = o') && a.beq a' && b.beq b' && decide (c = c') && decide (d = d')
  | .exprs a b, .exprs a' b' => Stm.beqL a a' && decide (b = b')
  | .ifS a b c d, .ifS a' b' c' d' => a.beq a' && Stm.beqL b b' && Stm.beqL c c' && Stm.beqL d d'
  | .tryS a b, .tryS a' b' => Stm.beqL a a' && Stm.beqL b b'
  | .throw a, .throw a' => a.beq a'
  | .ret a, .ret a' => a.beq a'
  | .brk, .brk => true
  | .cont, .cont => true
  | .loop a b c d e, .loop a' b' c' d' e' =>
    a.beq a' && b.beq b' && c.beq c' && d.beq d' && Stm.beqL e e'
  | .goto a, .goto a' => decide (a = a')
  | .label a, .label a' => decide (a = a')
  | _, _ => false
/-- Equality test of lists of statements. -/
def Stm.beqL : List Stm → List Stm → Bool
  | [], [] => true
  | a :: l, a' :: l' => a.beq a' && Stm.beqL l l'
  | _, _ => false
end

mutual
theorem Stm.beq_iff : ∀ a b : Stm, a.beq b = true ↔ a = b := by
  intro a b
  cases a <;> cases b <;>
    simp [Stm.beq, Stm.beq_iff, Stm.beqL_iff, and_assoc]
theorem Stm.beqL_iff : ∀ a b : List Stm, Stm.beqL a b = true ↔ a = b := by
  intro a b
  cases a <;> cases b <;> simp [Stm.beqL, Stm.beq_iff, Stm.beqL_iff]
end

instance : DecidableEq Stm := fun a b => decidable_of_iff _ (Stm.beq_iff a b)
deriving instance DecidableEq for Param
deriving instance DecidableEq for FuncDecl
deriving instance DecidableEq for Item
deriving instance DecidableEq for Module

end Verif
