import Verif.Proofs.Memory
import Verif.Spec.Memory
import Verif.Proofs.LR.Grammar
import Mathlib.Data.List.Perm.Subperm
/-!
# Blocks do not share arrays: the actions
-/
namespace Verif.Mem
open List LR

/-- The blocks in the field of a value that belongs to its symbol. -/
def fld (X : Nat) (v : HSV) : List (Nat × Nat) :=
  match X with
  | 101 => v.body.toList
  | 102 => v.opt_body.toList
  | 103 => v.stmt.blocks
  | 104 => v.stmt_loop.blocks
  | 105 => match v.funcProc with | some f => f.blocks | none => []
  | 106 => v.stmt_if.blocks
  | 107 => blocksL v.opt_elseif_list
  | 108 => v.opt_else.toList
  | 109 => v.stmt.blocks
  | 110 => blocksL v.exprs
  | 111 => v.stmt.blocks
  | 114 => v.stmt.blocks
  | 115 => v.dparams.flatMap fun p => p.default.blocks
  | 116 => v.dparam.default.blocks
  | 117 => v.stmt.blocks
  | 118 => v.stmt.blocks
  | 119 => v.stmt.blocks
  | 120 => v.stmt.blocks
  | 121 => v.stmt.blocks
  | 122 => v.stmt.blocks
  | 126 => v.stmt.blocks
  | 127 => v.stmt.blocks
  | 128 => v.goToLabel.blocks
  | _ => []

/-- The same for the values of symbols that follow one another. -/
def fldsD : List Nat → (Nat → HSV) → Nat → List (Nat × Nat)
  | [], _, _ => []
  | X :: Xs, d, i => fld X (d i) ++ fldsD Xs d (i + 1)

theorem blocksL_append (l m : List HStm) : blocksL (l ++ m) = blocksL l ++ blocksL m := by
  induction l with
  | nil => rfl
  | cons x l ih => rw [cons_append, blocksL, blocksL, ih, append_assoc]

theorem blocksL_flatMap (l : List HStm) : blocksL l = l.flatMap HStm.blocks := by
  induction l with
  | nil => rfl
  | cons x l ih => rw [blocksL, flatMap_cons, ih]

theorem unaryMinus_blocks (x : HStm) : (unaryMinusH x).blocks = x.blocks := by
  cases x <;> simp only [unaryMinusH, HStm.blocks]

theorem not_blocks (x : HStm) : (notStmH x).blocks = x.blocks := by
  cases x <;> simp only [notStmH, HStm.blocks]

theorem goto_blocks (x : HStm) : (mkGotoH x).blocks = [] := by
  cases x <;> simp only [mkGotoH, HStm.blocks]

theorem value_blocks (v : Val) : v.toHStm.blocks = [] := by
  cases v <;> simp only [Val.toHStm, HStm.blocks]

theorem default_blocks (p : HParam) (x : HStm) : (p.defaultValue x).default.blocks = x.blocks := by
  cases x <;> simp only [HParam.defaultValue, HStm.blocks]

theorem error_items {x y : HAst} {m : Msg} (e : x.errorH m = .ok y) : y.items = x.items := by
  unfold HAst.errorH at e
  cases h : x.ctl.error m with
  | error p => rw [h] at e; cases e
  | ok a => rw [h] at e; cases e; rfl

theorem appendGlobal_items {x y : HAst} {v : GVar} (e : appendGlobalH x v = .ok y) : y.items = x.items := by
  unfold appendGlobalH at e
  split at e
  · exact error_items e
  · split at e
    · exact error_items e
    · cases e; rfl

theorem appendGlobals_items (l : List GVar) : ∀ {x y : HAst}, appendGlobalsH x l = .ok y → y.items = x.items := by
  induction l with
  | nil => intro x y e; cases e; rfl
  | cons v l ih =>
    intro x y e
    unfold appendGlobalsH at e
    cases h : appendGlobalH x v with
    | error p => rw [h] at e; cases e
    | ok z => rw [h] at e; exact (ih e).trans (appendGlobal_items h)

theorem appendFunc_items {x y : HAst} {f : HFunc} (e : appendFuncH x f = .ok y) :
    y.items = x.items ∨ y.items = x.items ++ [.func f] := by
  unfold appendFuncH at e
  split at e
  · exact .inl (error_items e)
  · cases e; exact .inr rfl

theorem checkLoop_items {x y : HAst} {t : Tok} (e : checkLoopH x t = .ok y) : y.items = x.items := by
  unfold checkLoopH at e
  split at e
  · exact error_items e
  · cases e; rfl

theorem checkThrow_items {x y : HAst} {t : Tok} {s : HStm} (e : checkThrowH x t s = .ok y) : y.items = x.items := by
  unfold checkThrowH at e
  split at e
  · exact error_items e
  · cases e; rfl

theorem checkReturn_items {x y : HAst} {s : HStm} (e : checkReturnH x s = .ok y) : y.items = x.items := by
  unfold checkReturnH at e
  split at e
  · exact error_items e
  · cases e; rfl

theorem checkColon_items {x y : HAst} {t : Tok} {l : List HStm} (e : checkColonH x t l = .ok y) : y.items = x.items := by
  unfold checkColonH at e
  split at e
  · split at e
    · cases e; rfl
    · cases e; rfl
    · exact error_items e
  · cases e; rfl

theorem bind_ok {α β : Type} {x : Except Panic α} {f : α → Except Panic β} {y : β} (e : (do f (← x)) = .ok y) :
    ∃ z, x = .ok z ∧ f z = .ok y := by
  cases x with
  | error p => cases e
  | ok z => exact ⟨z, rfl, e⟩

/-- No blocks are made up or used twice. -/
structure Uses (bs : List (Nat × Nat)) (X : Nat) (x : HAst) (v' : HSV) (x' : HAst) : Prop where
  uses : ∃ its, x'.items = x.items ++ its ∧ ∀ a, count a (its.flatMap HItem.blocks ++ fld X v') ≤ count a bs

theorem Uses.none {bs X x v' x'} (hi : x'.items = x.items) (h : ∀ a, count a (fld X v') ≤ count a bs) : Uses bs X x v' x' :=
  ⟨[], by rw [hi, append_nil], h⟩

macro "prod" : tactic => `(tactic| first
  | exact Nat.zero_le _
  | (simp [HStm.blocks, blocksL, blocksL_append, HFunc.blocks, createFuncH, unaryMinus_blocks, not_blocks, goto_blocks, value_blocks,
      default_blocks, mkBinH, fillParamH, count_append]; done)
  | (simp [HStm.blocks, blocksL, blocksL_append, HFunc.blocks, createFuncH, unaryMinus_blocks, not_blocks, goto_blocks, value_blocks,
      default_blocks, mkBinH, fillParamH, count_append]; omega)
  | fail "prod")

theorem actP_uses {p : Nat} {d : Nat → HSV} {v v' : HSV} {x x' : HAst} (h0 : 0 < p) (hp : p < 113)
    (hn : p ≠ 2 ∧ p ≠ 3 ∧ p ≠ 18 ∧ p ≠ 19) (hv : rhs p ≠ [] → v = d 1) (e : actP p d v x = .ok (v', x')) :
    Uses (fldsD (rhs p) d 1) (lhs p) x v' x' := by
  revert hn hv e
  interval_cases p <;> intro hn hv e
  · cases e
    exact .none rfl fun a => Nat.zero_le _
  · exact absurd rfl hn.1
  · exact absurd rfl hn.2.1
  · cases e
    exact .none rfl fun a => Nat.zero_le _
  · cases e
    exact .none rfl fun a => Nat.zero_le _
  · obtain ⟨z, h1, h2⟩ := bind_ok e
    cases h2
    exact .none (appendGlobals_items _ h1) fun a => Nat.zero_le _
  · have e' : (match (d 1).funcProc with | some f => do .ok (v, ← appendFuncH x f) | none => .ok (v, x)) = Except.ok (v', x') := e
    constructor
    show ∃ its, _ ∧ ∀ a, count a (_ ++ []) ≤ count a ((match (d 1).funcProc with | some f => f.blocks | none => []) ++ [])
    split at e'
    · obtain ⟨z, h1, h2⟩ := bind_ok e'
      cases h2
      rcases appendFunc_items h1 with hi | hi
      · exact ⟨[], by rw [hi, append_nil], fun a => Nat.zero_le _⟩
      · refine ⟨_, hi, fun a => ?_⟩
        simp [HItem.blocks, *]
    · cases e'
      exact ⟨[], by rw [append_nil], fun a => Nat.zero_le _⟩
  · cases e
    exact .none rfl fun a => Nat.zero_le _
  · cases e
    exact .none rfl fun a => Nat.zero_le _
  · cases e
    exact .none rfl fun a => Nat.zero_le _
  · cases e
    exact .none rfl fun a => Nat.zero_le _
  · cases e
    exact .none rfl fun a => Nat.zero_le _
  · cases e
    exact .none rfl fun a => Nat.zero_le _
  · cases e
    refine .none rfl fun a => ?_
    show count a ((match (some (createFuncH true (d 1).opt_directive (d 3).token.literal (d 5).dparams (d 7).opt_export (d 9).opt_explicit_variables (d 10).opt_body) : Option HFunc) with | some f => f.blocks | none => [])) ≤ count a ((d 5).dparams.flatMap (fun p => p.default.blocks) ++ ((d 10).opt_body.toList ++ []))
    prod
  · cases e
    refine .none rfl fun a => ?_
    show count a ((match (some (createFuncH false (d 1).opt_directive (d 3).token.literal (d 5).dparams (d 7).opt_export (d 8).opt_explicit_variables (d 9).opt_body) : Option HFunc) with | some f => f.blocks | none => [])) ≤ count a ((d 5).dparams.flatMap (fun p => p.default.blocks) ++ ((d 9).opt_body.toList ++ []))
    prod
  · cases e
    refine .none rfl fun a => ?_
    show count a (Option.toList (none : Slice)) ≤ count a ([])
    prod
  · cases e
    refine .none rfl fun a => ?_
    show count a (Option.toList ((d 1).body : Slice)) ≤ count a ((d 1).body.toList ++ [])
    prod
  · exact absurd rfl hn.2.2.1
  · exact absurd rfl hn.2.2.2
  · cases e
    refine .none rfl fun a => ?_
    show count a (HStm.blocks (.nil)) ≤ count a ([])
    prod
  · cases e
    refine .none rfl fun a => ?_
    show count a (HStm.blocks ((d 1).stmt)) ≤ count a ((d 1).stmt.blocks ++ [])
    prod
  · cases e
    exact .none rfl fun a => Nat.zero_le _
  · cases e
    exact .none rfl fun a => Nat.zero_le _
  · cases e
    exact .none rfl fun a => Nat.zero_le _
  · cases e
    exact .none rfl fun a => Nat.zero_le _
  · obtain ⟨r, h1, h2⟩ := bind_ok e
    split at h2
    · obtain ⟨z, h3, h4⟩ := bind_ok h2
      cases h4
      exact .none (error_items h3) fun a => Nat.zero_le _
    · cases h2
      exact .none rfl fun a => Nat.zero_le _
  · obtain ⟨r, h1, h2⟩ := bind_ok e
    split at h2
    · obtain ⟨z, h3, h4⟩ := bind_ok h2
      cases h4
      exact .none (error_items h3) fun a => Nat.zero_le _
    · cases h2
      exact .none rfl fun a => Nat.zero_le _
  · cases e
    refine .none rfl fun a => ?_
    show count a (HStm.blocks (.ifS (d 2).stmt (d 4).opt_body (d 5).opt_elseif_list (d 6).opt_else)) ≤ count a ((d 2).stmt.blocks ++ ((d 4).opt_body.toList ++ (blocksL (d 5).opt_elseif_list ++ ((d 6).opt_else.toList ++ []))))
    prod
  · cases e
    refine .none rfl fun a => ?_
    show count a (blocksL ([])) ≤ count a ([])
    prod
  · cases e
    refine .none rfl fun a => ?_
    show count a (blocksL ((d 5).opt_elseif_list ++ [.ifS (d 2).stmt (d 4).opt_body [] none])) ≤ count a ((d 2).stmt.blocks ++ ((d 4).opt_body.toList ++ (blocksL (d 5).opt_elseif_list ++ [])))
    prod
  · cases e
    refine .none rfl fun a => ?_
    show count a (Option.toList (none : Slice)) ≤ count a ([])
    prod
  · cases e
    refine .none rfl fun a => ?_
    show count a (Option.toList ((d 2).opt_body : Slice)) ≤ count a ((d 2).opt_body.toList ++ [])
    prod
  · cases e
    refine .none rfl fun a => ?_
    show count a (HStm.blocks (.ternary (d 3).stmt (d 5).stmt (d 7).stmt)) ≤ count a ((d 3).stmt.blocks ++ ((d 5).stmt.blocks ++ ((d 7).stmt.blocks ++ [])))
    prod
  · cases e
    exact .none rfl fun a => Nat.zero_le _
  · cases e
    refine .none rfl fun a => ?_
    show count a (HStm.blocks (.loop (.str (d 3).token.literal) .nil (d 5).stmt .nil (d 8).opt_body)) ≤ count a ((d 5).stmt.blocks ++ ((d 8).opt_body.toList ++ []))
    prod
  · cases e
    exact .none rfl fun a => Nat.zero_le _
  · cases e
    refine .none rfl fun a => ?_
    show count a (HStm.blocks (.loop (d 2).stmt (d 4).stmt .nil .nil (d 7).opt_body)) ≤ count a ((d 2).stmt.blocks ++ ((d 4).stmt.blocks ++ ((d 7).opt_body.toList ++ [])))
    prod
  · cases e
    exact .none rfl fun a => Nat.zero_le _
  · cases e
    refine .none rfl fun a => ?_
    show count a (HStm.blocks (.loop .nil .nil .nil (d 2).stmt (d 5).opt_body)) ≤ count a ((d 2).stmt.blocks ++ ((d 5).opt_body.toList ++ []))
    prod
  · cases e
    refine .none rfl fun a => ?_
    show count a (HStm.blocks ((d 1).stmt)) ≤ count a ((d 1).stmt.blocks ++ [])
    prod
  · cases e
    refine .none rfl fun a => ?_
    show count a (HStm.blocks ((d 1).stmt)) ≤ count a ((d 1).stmt.blocks ++ [])
    prod
  · cases e
    refine .none rfl fun a => ?_
    show count a (HStm.blocks ((d 2).stmt)) ≤ count a ((d 2).stmt.blocks ++ [])
    prod
  · cases e
    refine .none rfl fun a => ?_
    show count a (HStm.blocks ((d 1).stmt)) ≤ count a ((d 1).stmt.blocks ++ [])
    prod
  · cases e
    refine .none rfl fun a => ?_
    show count a (HStm.blocks (.assign (d 1).stmt [(d 3).stmt])) ≤ count a ((d 1).stmt.blocks ++ ((d 3).stmt.blocks ++ []))
    prod
  · cases e
    refine .none rfl fun a => ?_
    show count a (HStm.blocks ((d 1).stmt)) ≤ count a ((d 1).stmt.blocks ++ [])
    prod
  · cases e
    refine .none rfl fun a => ?_
    show count a (HStm.blocks ((d 1).stmt_if)) ≤ count a ((d 1).stmt_if.blocks ++ [])
    prod
  · cases e
    refine .none rfl fun a => ?_
    show count a (HStm.blocks ((d 1).stmt_loop)) ≤ count a ((d 1).stmt_loop.blocks ++ [])
    prod
  · cases e
    refine .none rfl fun a => ?_
    show count a (HStm.blocks ((d 1).stmt)) ≤ count a ((d 1).stmt.blocks ++ [])
    prod
  · obtain ⟨z, h1, h2⟩ := bind_ok e
    cases h2
    refine .none (checkLoop_items h1) fun a => ?_
    show count a (HStm.blocks (.cont)) ≤ count a ([])
    prod
  · obtain ⟨z, h1, h2⟩ := bind_ok e
    cases h2
    refine .none (checkLoop_items h1) fun a => ?_
    show count a (HStm.blocks (.brk)) ≤ count a ([])
    prod
  · obtain ⟨z, h1, h2⟩ := bind_ok e
    cases h2
    refine .none (checkThrow_items h1) fun a => ?_
    show count a (HStm.blocks (.throw (d 2).stmt)) ≤ count a ((d 2).stmt.blocks ++ [])
    prod
  · obtain ⟨z, h1, h2⟩ := bind_ok e
    cases h2
    refine .none (checkReturn_items h1) fun a => ?_
    show count a (HStm.blocks (.ret (d 2).stmt)) ≤ count a ((d 2).stmt.blocks ++ [])
    prod
  · cases e
    refine .none rfl fun a => ?_
    show count a (HStm.blocks ((d 1).stmt)) ≤ count a ((d 1).stmt.blocks ++ [])
    prod
  · cases e
    refine .none rfl fun a => ?_
    show count a (HStm.blocks (.chain (d 3).stmt (d 1).stmt false false)) ≤ count a ((d 1).stmt.blocks ++ ((d 3).stmt.blocks ++ []))
    prod
  · cases e
    refine .none rfl fun a => ?_
    show count a (HStm.blocks (.var (d 1).token.literal false false)) ≤ count a ([])
    prod
  · cases e
    refine .none rfl fun a => ?_
    show count a (HStm.blocks (.method (d 1).token.literal (d 3).exprs false)) ≤ count a (blocksL (d 3).exprs ++ [])
    prod
  · cases e
    refine .none rfl fun a => ?_
    show count a (HStm.blocks (.item (d 3).stmt (d 1).stmt)) ≤ count a ((d 1).stmt.blocks ++ ((d 3).stmt.blocks ++ []))
    prod
  · cases e
    refine .none rfl fun a => ?_
    show count a (HStm.blocks (.method (d 1).token.literal [(d 2).stmt] false)) ≤ count a ((d 2).stmt.blocks ++ [])
    prod
  · cases e
    refine .none rfl fun a => ?_
    show count a (HStm.blocks (.method (d 1).token.literal [(d 3).stmt] false)) ≤ count a ((d 3).stmt.blocks ++ [])
    prod
  · cases e
    refine .none rfl fun a => ?_
    show count a (HStm.blocks ((d 1).token.value.toHStm)) ≤ count a ([])
    prod
  · cases e
    refine .none rfl fun a => ?_
    show count a (HStm.blocks (.var (d 1).token.literal false false)) ≤ count a ([])
    prod
  · cases e
    exact .none rfl fun a => Nat.zero_le _
  · cases e
    refine .none rfl fun a => ?_
    show count a (HStm.blocks (.tryS (d 2).opt_body (d 5).opt_body)) ≤ count a ((d 2).opt_body.toList ++ ((d 5).opt_body.toList ++ []))
    prod
  · cases e
    refine .none rfl fun a => ?_
    show count a (HStm.blocks ((d 1).stmt)) ≤ count a ((d 1).stmt.blocks ++ [])
    prod
  · cases e
    refine .none rfl fun a => ?_
    show count a (HStm.blocks (.exprs (d 2).exprs false)) ≤ count a (blocksL (d 2).exprs ++ [])
    prod
  · cases e
    refine .none rfl fun a => ?_
    show count a (HStm.blocks (mkBinH .plus (d 1).stmt (d 3).stmt)) ≤ count a ((d 1).stmt.blocks ++ ((d 3).stmt.blocks ++ []))
    prod
  · cases e
    refine .none rfl fun a => ?_
    show count a (HStm.blocks (mkBinH .minus (d 1).stmt (d 3).stmt)) ≤ count a ((d 1).stmt.blocks ++ ((d 3).stmt.blocks ++ []))
    prod
  · cases e
    refine .none rfl fun a => ?_
    show count a (HStm.blocks (mkBinH .mul (d 1).stmt (d 3).stmt)) ≤ count a ((d 1).stmt.blocks ++ ((d 3).stmt.blocks ++ []))
    prod
  · cases e
    refine .none rfl fun a => ?_
    show count a (HStm.blocks (mkBinH .div (d 1).stmt (d 3).stmt)) ≤ count a ((d 1).stmt.blocks ++ ((d 3).stmt.blocks ++ []))
    prod
  · cases e
    refine .none rfl fun a => ?_
    show count a (HStm.blocks (mkBinH .mod (d 1).stmt (d 3).stmt)) ≤ count a ((d 1).stmt.blocks ++ ((d 3).stmt.blocks ++ []))
    prod
  · cases e
    refine .none rfl fun a => ?_
    show count a (HStm.blocks (mkBinH .gt (d 1).stmt (d 3).stmt)) ≤ count a ((d 1).stmt.blocks ++ ((d 3).stmt.blocks ++ []))
    prod
  · cases e
    refine .none rfl fun a => ?_
    show count a (HStm.blocks (mkBinH .lt (d 1).stmt (d 3).stmt)) ≤ count a ((d 1).stmt.blocks ++ ((d 3).stmt.blocks ++ []))
    prod
  · cases e
    refine .none rfl fun a => ?_
    show count a (HStm.blocks (mkBinH .eq (d 1).stmt (d 3).stmt)) ≤ count a ((d 1).stmt.blocks ++ ((d 3).stmt.blocks ++ []))
    prod
  · cases e
    refine .none rfl fun a => ?_
    show count a (HStm.blocks (mkBinH .or (d 1).stmt (d 3).stmt)) ≤ count a ((d 1).stmt.blocks ++ ((d 3).stmt.blocks ++ []))
    prod
  · cases e
    refine .none rfl fun a => ?_
    show count a (HStm.blocks (mkBinH .and (d 1).stmt (d 3).stmt)) ≤ count a ((d 1).stmt.blocks ++ ((d 3).stmt.blocks ++ []))
    prod
  · cases e
    refine .none rfl fun a => ?_
    show count a (HStm.blocks (mkBinH .ne (d 1).stmt (d 3).stmt)) ≤ count a ((d 1).stmt.blocks ++ ((d 3).stmt.blocks ++ []))
    prod
  · cases e
    refine .none rfl fun a => ?_
    show count a (HStm.blocks (mkBinH .le (d 1).stmt (d 3).stmt)) ≤ count a ((d 1).stmt.blocks ++ ((d 3).stmt.blocks ++ []))
    prod
  · cases e
    refine .none rfl fun a => ?_
    show count a (HStm.blocks (mkBinH .ge (d 1).stmt (d 3).stmt)) ≤ count a ((d 1).stmt.blocks ++ ((d 3).stmt.blocks ++ []))
    prod
  · cases e
    refine .none rfl fun a => ?_
    show count a (HStm.blocks (notStmH (d 2).stmt)) ≤ count a ((d 2).stmt.blocks ++ [])
    prod
  · cases e
    refine .none rfl fun a => ?_
    show count a (HStm.blocks ((d 1).stmt)) ≤ count a ((d 1).stmt.blocks ++ [])
    prod
  · cases e
    refine .none rfl fun a => ?_
    show count a (HStm.blocks (mkGotoH (d 2).goToLabel)) ≤ count a ((d 2).goToLabel.blocks ++ [])
    prod
  · cases e
    refine .none rfl fun a => ?_
    show count a (HStm.blocks ((d 1).stmt)) ≤ count a ((d 1).stmt.blocks ++ [])
    prod
  · cases e
    refine .none rfl fun a => ?_
    show count a (HStm.blocks ((d 1).stmt)) ≤ count a ((d 1).stmt.blocks ++ [])
    prod
  · cases e
    refine .none rfl fun a => ?_
    show count a (HStm.blocks (.nil)) ≤ count a ([])
    prod
  · cases e
    refine .none rfl fun a => ?_
    show count a (HStm.blocks ((d 1).stmt)) ≤ count a ((d 1).stmt.blocks ++ [])
    prod
  · cases e
    refine .none rfl fun a => ?_
    show count a (blocksL ([(d 1).stmt])) ≤ count a ((d 1).stmt.blocks ++ [])
    prod
  · cases e
    rw [hv nofun]
    refine .none rfl fun a => ?_
    show count a (blocksL ((d 1).exprs ++ [(d 3).stmt])) ≤ count a (blocksL (d 1).exprs ++ ((d 3).stmt.blocks ++ []))
    prod
  · cases e
    refine .none rfl fun a => ?_
    show count a (HStm.blocks ((d 1).token.value.toHStm)) ≤ count a ([])
    prod
  · cases e
    refine .none rfl fun a => ?_
    show count a (HStm.blocks ((d 1).token.value.toHStm)) ≤ count a ([])
    prod
  · cases e
    refine .none rfl fun a => ?_
    show count a (HStm.blocks (unaryMinusH (d 2).stmt)) ≤ count a ((d 2).stmt.blocks ++ [])
    prod
  · cases e
    refine .none rfl fun a => ?_
    show count a (HStm.blocks ((d 2).stmt)) ≤ count a ((d 2).stmt.blocks ++ [])
    prod
  · cases e
    refine .none rfl fun a => ?_
    show count a (HStm.blocks ((d 1).token.value.toHStm)) ≤ count a ([])
    prod
  · cases e
    refine .none rfl fun a => ?_
    show count a (HStm.blocks ((d 1).token.value.toHStm)) ≤ count a ([])
    prod
  · cases e
    refine .none rfl fun a => ?_
    show count a (HStm.blocks ((d 1).token.value.toHStm)) ≤ count a ([])
    prod
  · cases e
    refine .none rfl fun a => ?_
    show count a (HStm.blocks (.undef)) ≤ count a ([])
    prod
  · cases e
    refine .none rfl fun a => ?_
    show count a (HStm.blocks ((d 1).goToLabel)) ≤ count a ((d 1).goToLabel.blocks ++ [])
    prod
  · cases e
    refine .none rfl fun a => ?_
    show count a (HStm.blocks (HParam.default (fillParamH false (d 1).token))) ≤ count a ([])
    prod
  · cases e
    refine .none rfl fun a => ?_
    show count a (HStm.blocks (HParam.default (fillParamH true (d 2).token))) ≤ count a ([])
    prod
  · cases e
    rw [hv nofun]
    refine .none rfl fun a => ?_
    show count a (HStm.blocks (HParam.default ((d 1).dparam.defaultValue (d 3).stmt))) ≤ count a ((d 1).dparam.default.blocks ++ ((d 3).stmt.blocks ++ []))
    prod
  · cases e
    refine .none rfl fun a => ?_
    show count a (List.flatMap (fun p : HParam => p.default.blocks) ([])) ≤ count a ([])
    prod
  · cases e
    refine .none rfl fun a => ?_
    show count a (List.flatMap (fun p : HParam => p.default.blocks) ([(d 1).dparam])) ≤ count a ((d 1).dparam.default.blocks ++ [])
    prod
  · cases e
    refine .none rfl fun a => ?_
    show count a (List.flatMap (fun p : HParam => p.default.blocks) ((d 1).dparams ++ [(d 3).dparam])) ≤ count a ((d 1).dparams.flatMap (fun p => p.default.blocks) ++ ((d 3).dparam.default.blocks ++ []))
    prod
  · cases e
    refine .none rfl fun a => ?_
    show count a (HStm.blocks (.new (d 2).token.literal [])) ≤ count a ([])
    prod
  · cases e
    refine .none rfl fun a => ?_
    show count a (HStm.blocks (.new (d 2).token.literal (d 4).exprs)) ≤ count a (blocksL (d 4).exprs ++ [])
    prod
  · cases e
    refine .none rfl fun a => ?_
    show count a (HStm.blocks (.new [] (d 3).exprs)) ≤ count a (blocksL (d 3).exprs ++ [])
    prod
  · cases e
    refine .none rfl fun a => ?_
    show count a (HStm.blocks (.label (d 1).token.literal)) ≤ count a ([])
    prod
  · cases e
    exact .none rfl fun a => Nat.zero_le _
  · cases e
    exact .none rfl fun a => Nat.zero_le _
  · cases e
    exact .none rfl fun a => Nat.zero_le _
  · cases e
    exact .none rfl fun a => Nat.zero_le _
  · cases e
    exact .none rfl fun a => Nat.zero_le _
  · cases e
    exact .none rfl fun a => Nat.zero_le _

end Verif.Mem
