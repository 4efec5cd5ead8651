import Verif.Spec.Lines
/-!
# Specification: single statements of a module
-/
namespace Verif.Spec

/-- `InBlock s k l`: `s` is a statement of the block `l`, or of a block inside it, `k` levels deeper. -/
inductive InBlock (s : Stm) : Nat → List Stm → Prop
  | here {l} : s ∈ l → InBlock s 0 l
  | then_ {k l c t ei el} : .ifS c t ei el ∈ l → InBlock s k t → InBlock s (k + 1) l
  | elif {k l c t ei el c' t' x y} : .ifS c t ei el ∈ l → .ifS c' t' x y ∈ ei → InBlock s k t' → InBlock s (k + 1) l
  | else_ {k l c t ei el} : .ifS c t ei el ∈ l → InBlock s k el → InBlock s (k + 1) l
  | loop {k l f z i w b} : .loop f z i w b ∈ l → InBlock s k b → InBlock s (k + 1) l
  | tryB {k l b h} : .tryS b h ∈ l → InBlock s k b → InBlock s (k + 1) l
  | handler {k l b h} : .tryS b h ∈ l → InBlock s k h → InBlock s (k + 1) l

/-- `StatementOf M s d`: `s` is a statement of the module `M` with `d` blocks around it (the body of a procedure is one). -/
inductive StatementOf (M : Module) (s : Stm) : Nat → Prop
  | code {k x} : .stm x ∈ M.body → InBlock s k [x] → StatementOf M s k
  | func {k f} : .func f ∈ M.body → InBlock s k f.body → StatementOf M s (k + 1)

/-- The line `d` levels deeper. -/
def Line.deeper (d : Nat) (l : Line) : Line := ⟨d + l.depth, l.text⟩

mutual
/-- The statement needs nothing around it: `Прервать` and `Продолжить` are in loops of the statement, `ВызватьИсключение` without value
in its handlers, and there is no `Возврат` with a value. -/
def alone (inLoop inHandler : Bool) : Stm → Prop
  | .ifS _ t ei el => aloneL inLoop inHandler t ∧ aloneL inLoop inHandler ei ∧ aloneL inLoop inHandler el
  | .loop _ _ _ _ b => aloneL true inHandler b
  | .tryS b h => aloneL inLoop inHandler b ∧ aloneL inLoop true h
  | .brk => inLoop = true
  | .cont => inLoop = true
  | .throw p => p = .nil → inHandler = true
  | .ret p => p = .nil
  | _ => True
def aloneL (inLoop inHandler : Bool) : List Stm → Prop
  | [] => True
  | s :: l => alone inLoop inHandler s ∧ aloneL inLoop inHandler l
end

end Verif.Spec
