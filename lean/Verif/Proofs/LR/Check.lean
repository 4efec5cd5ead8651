import Verif.Parser
import Verif.Proofs.LR.Grammar
import Verif.Proofs.LR.Data
/-!
# The tables of y.go are an LR automaton of the grammar

Finite checks over all states, tokens and productions, evaluated by the kernel.
-/
namespace Verif.LR
open Tables Spec

def shiftL (s t : Nat) : Option Nat := (at10 [] shiftTab s).lookup t
def gotoL (s X : Nat) : Option Nat := (at10 [] gotoTab s).lookup X
def kern (s : Nat) : List (Nat × Nat) := at10 [] kernTab s
def acc (s : Nat) : Nat := at10 0 accTab s
def pot (s : Nat) : Nat := at10 0 potTab s

/-- Transition of the automaton. -/
def trans (s X : Nat) : Option Nat := if X < 100 then shiftL s X else gotoL s X

def follow (s : Nat) : List Nat → Option Nat
  | [] => some s
  | X :: r => (trans s X).bind fun s' => follow s' r

/-- What the driver does in a state on a lookahead. -/
inductive Act
  | shift (s : Nat)
  | reduce (p : Nat)
  | accept
  | error
deriving DecidableEq

def ofEntry (n : Int) : Act := if n < 0 then .accept else if n = 0 then .error else .reduce n.toNat

/-- Action without shifting. -/
def dflAct (s t : Nat) : Act :=
  if get yyDef s = -2 then ofEntry (excaFind t (excaFrom s excaPairs))
  else if get yyDef s = 0 then .error else .reduce (get yyDef s).toNat

def action (s t : Nat) : Act :=
  if get yyPact s ≤ yyFlag then dflAct s t
  else match shiftOf s t with
    | some s' => .shift s'
    | none => dflAct s t

/-- In these states the driver reduces without looking at the next token. -/
def isLazy (s : Nat) : Bool := decide (get yyPact s ≤ yyFlag) && decide (get yyDef s ≠ -2)

/-- Possible reductions in a state. -/
def reds (s : Nat) : List Nat :=
  if get yyDef s = -2 then ((List.range 68).map fun t => (excaFind t (excaFrom s excaPairs)).toNat).filter (· ≠ 0)
  else [(get yyDef s).toNat].filter (· ≠ 0)

def nStates : Nat := 212
def nToks : Nat := 68
def nProds : Nat := 113

def chkShift : Bool := (List.range nStates).all fun s => (List.range nToks).all fun t =>
  decide (shiftOf s t = shiftL s t)

def chkGoto : Bool := (List.range nStates).all fun s => (List.range nProds).all fun p =>
  match gotoL s (lhs p) with
  | none => true
  | some s' => decide (gotoOf s p = s')

def chkTrans : Bool := (List.range nStates).all fun s =>
  (at10 [] shiftTab s).all (fun x => decide (x.1 < 100)) &&
  (at10 [] gotoTab s).all (fun x => decide (100 ≤ x.1)) &&
  (at10 [] shiftTab s ++ at10 [] gotoTab s).all fun x =>
    decide (x.2 < nStates) && decide (x.2 ≠ 0) && decide (acc x.2 = x.1) &&
    (kern x.2).all fun i => decide (i.2 ≠ 0) && decide ((rhs i.1)[i.2 - 1]? = some x.1) &&
      (if i.2 = 1 then (gotoL s (lhs i.1)).isSome || decide (i.1 = 0 ∧ s = 0) else (kern s).contains (i.1, i.2 - 1))

def chkReds : Bool := (List.range nStates).all fun s => (reds s).all fun p =>
  decide (0 < p) && decide (p < nProds) &&
  (if rhs p = [] then (gotoL s (lhs p)).isSome else (kern s).contains (p, (rhs p).length))

def chkProds : Bool := (List.range nProds).all fun p =>
  decide (p = 0 ∨ get yyR2 p = ((rhs p).length : Int)) && decide (100 ≤ lhs p)

def chkPot : Bool := (List.range nStates).all fun b => (List.range nProds).all fun p =>
  match gotoL b (lhs p) with
  | none => true
  | some g =>
    match follow b (rhs p) with
    | none => true
    | some t => !(reds t).contains p || decide (pot g + 3 ≤ pot t + 2 * (rhs p).length)

def chkDfl : Bool := (List.range nStates).all fun s =>
  (List.range nToks).all (fun t =>
    match dflAct s t with
    | .shift _ => false
    | .reduce p => (reds s).contains p
    | .accept => decide (s = 1) && decide (t = 1)
    | .error => true)

theorem chkShift_ok : chkShift = true := by decide +kernel
theorem chkGoto_ok : chkGoto = true := by decide +kernel
theorem chkTrans_ok : chkTrans = true := by decide +kernel
theorem chkReds_ok : chkReds = true := by decide +kernel
theorem chkProds_ok : chkProds = true := by decide +kernel
theorem chkPot_ok : chkPot = true := by decide +kernel
theorem chkDfl_ok : chkDfl = true := by decide +kernel

/-- The productions of the specification, in numbers. -/
theorem prods_ok : (productions.map fun x => (nnum x.1, x.2.map symNum)) =
    (List.range 112).map fun i => (lhs (i + 1), rhs (i + 1)) := by decide +kernel

/-- No state shifts the token `error`: there is no error recovery. -/
theorem no_error_shift (s : Nat) (hs : s < nStates) : shiftOf s 2 = none := by
  have h := chkShift_ok
  unfold chkShift at h
  rw [List.all_eq_true] at h
  have h1 := h s (List.mem_range.2 hs)
  rw [List.all_eq_true] at h1
  have h2 := of_decide_eq_true (h1 2 (by decide))
  rw [h2]
  have : ∀ s, s < nStates → shiftL s 2 = none := by decide +kernel
  exact this s hs

end Verif.LR
