import Verif.Proofs.LR.Path
import Verif.Proofs.LR.Step
/-!
# The automaton is deterministic

A machine that builds trees; a tree built by the automaton is what the machine ends with, so there is at most one.
-/
namespace Verif.LR
open Tables Spec Lexer

/-- Stack of states and trees, top first, and the tokens to be read. -/
abbrev MCfg := List (Nat × Tree) × List (Nat × Tok)

def mtop (b0 : Nat) : List (Nat × Tree) → Nat
  | [] => b0
  | (s, _) :: _ => s

def mnext (la : Nat) : List (Nat × Tok) → Nat
  | [] => la
  | (k, _) :: _ => tokNum k

/-- One step. -/
def mstep (b0 la : Nat) (c : MCfg) : Option MCfg :=
  match action (mtop b0 c.1) (mnext la c.2) with
  | .shift s' => match c.2 with
    | (k, t) :: l => some ((s', .leaf k t) :: c.1, l)
    | [] => none
  | .reduce p =>
    let n := (rhs p).length
    match gotoL (mtop b0 (c.1.drop n)) (lhs p) with
    | some g => some ((g, .node p ((c.1.take n).reverse.map Prod.snd)) :: c.1.drop n, c.2)
    | none => none
  | _ => none

def msteps (b0 la : Nat) : Nat → MCfg → Option MCfg
  | 0, c => some c
  | n + 1, c => (mstep b0 la c).bind (msteps b0 la n)

theorem msteps_add {b0 la n m : Nat} {c d e : MCfg} (h : msteps b0 la n c = some d) (g : msteps b0 la m d = some e) :
    msteps b0 la (n + m) c = some e := by
  induction n generalizing c with
  | zero => cases h; simpa using g
  | succ n ih =>
    rw [Nat.succ_add]
    rw [msteps] at h ⊢
    cases hc : mstep b0 la c with
    | none => rw [hc] at h; cases h
    | some c1 => rw [hc] at h; exact ih h

theorem action_shift {s t s' : Nat} (hs : s < nStates) (ht : t < nToks) (h : shiftL s t = some s') : action s t = .shift s' := by
  rw [← shiftOf_eq hs ht] at h
  unfold action
  split
  · rename_i hp
    exfalso
    unfold shiftOf at h
    dsimp only at h
    rw [if_pos] at h
    · cases h
    · left
      unfold yyFlag at hp
      unfold nToks at ht
      omega
  · rw [h]

theorem LRF.msteps {b ts la e} (h : LRF b ts la e) : ∀ (b0 la0 : Nat) (st : List (Nat × Tree)) (rest : List (Nat × Tok)),
    b < nStates → mtop b0 st = b → mnext la0 rest = la →
    ∃ n es, LR.msteps b0 la0 n (st, yieldL ts ++ rest) = some (es ++ st, rest) ∧ es.map Prod.snd = ts.reverse ∧ mtop b0 (es ++ st) = e := by
  induction h with
  | nil b la => intro b0 la0 st rest _ h1 _; exact ⟨0, [], rfl, rfl, h1⟩
  | @leaf k t b b1 ts la e hs _ ih =>
    intro b0 la0 st rest hb h1 h2
    have hb1 := trans_lt' hb (trans_shift hb hs)
    obtain ⟨n, es, q1, q2, q3⟩ := ih b0 la0 ((b1, .leaf k t) :: st) rest hb1 rfl h2
    refine ⟨n + 1, es ++ [(b1, .leaf k t)], ?_, ?_, ?_⟩
    · rw [LR.msteps, yieldL, Tree.yield]
      have : mstep b0 la0 (st, [(k, t)] ++ yieldL ts ++ rest) = some ((b1, .leaf k t) :: st, yieldL ts ++ rest) := by
        unfold mstep
        dsimp only [List.singleton_append, List.cons_append, mnext]
        rw [h1, action_shift hb (tokNum_lt k).1 hs]
        rfl
      rw [this]
      simpa using q1
    · simp [q2]
    · simpa using q3
  | @node p b kids ts la s g e h0 hp hk hkids hr ha hg hrest ih1 ih2 =>
    intro b0 la0 st rest hb h1 h2
    have hn : mnext la0 (yieldL ts ++ rest) = nextTok ts la := by
      unfold nextTok
      cases yieldL ts with
      | nil => exact h2
      | cons x l => rfl
    obtain ⟨n, es, q1, q2, q3⟩ := ih1 b0 la0 st (yieldL ts ++ rest) hb h1 hn
    have hb1 := trans_lt' hb (trans_goto hp hg)
    obtain ⟨m, fs, r1, r2, r3⟩ := ih2 b0 la0 ((g, .node p kids) :: st) rest hb1 rfl h2
    have hlen : es.length = (rhs p).length := by
      have := congrArg List.length q2
      rw [List.length_map, List.length_reverse] at this
      rw [this, ← hk, List.length_map]
    refine ⟨n + (1 + m), fs ++ [(g, .node p kids)], ?_, ?_, ?_⟩
    · rw [yieldL, Tree.yield, List.append_assoc]
      refine msteps_add q1 ?_
      rw [Nat.add_comm, LR.msteps]
      have : mstep b0 la0 (es ++ st, yieldL ts ++ rest) = some ((g, .node p kids) :: st, yieldL ts ++ rest) := by
        unfold mstep
        dsimp only
        rw [q3, hn, ha]
        dsimp only
        rw [← hlen, List.drop_left, List.take_left, h1, hg]
        dsimp only
        rw [List.map_reverse, q2, List.reverse_reverse]
      rw [this]
      simpa using r1
    · simp [r2]
    · simpa using r3
where
  trans_lt' {b X b1 : Nat} (hb : b < nStates) (h : trans b X = some b1) : b1 < nStates := (trans_ok hb h).lt

theorem msteps_halt {b0 la n m : Nat} {c d e : MCfg} (h : msteps b0 la n c = some d) (g : msteps b0 la m c = some e)
    (hd : mstep b0 la d = none) (he : mstep b0 la e = none) : d = e := by
  induction n generalizing c m with
  | zero =>
    cases h
    cases m with
    | zero => cases g; rfl
    | succ m => rw [msteps, hd] at g; cases g
  | succ n ih =>
    rw [msteps] at h
    cases m with
    | zero => cases g; rw [he] at h; cases h
    | succ m =>
      rw [msteps] at g
      cases hc : mstep b0 la c with
      | none => rw [hc] at h; cases h
      | some c1 => rw [hc] at h g; exact ih h g

theorem action_11 : action 1 1 = .accept := by decide +kernel

/-- There is only one tree for a token list. -/
theorem LRF.unique {T T' : Tree} (h : LRF 0 [T] 1 1) (h' : LRF 0 [T'] 1 1) (hy : T.yield = T'.yield) : T = T' := by
  have key : ∀ T, LRF 0 [T] 1 1 → ∃ n s, LR.msteps 0 1 n ([], T.yield) = some ([(s, T)], []) ∧ s = 1 := by
    intro T h
    obtain ⟨n, es, q1, q2, q3⟩ := h.msteps 0 1 [] [] (by decide) rfl rfl
    rw [List.append_nil, List.append_nil, yieldL_single] at q1
    match es, q2, q3, q1 with
    | [(s, T1)], q2, q3, q1 =>
      have : T1 = T := by simpa using q2
      subst this
      exact ⟨n, s, q1, q3⟩
    | [], q2, _, _ => cases q2
    | _ :: _ :: _, q2, _, _ => cases q2
  obtain ⟨n, s, h1, rfl⟩ := key T h
  obtain ⟨m, s', h2, rfl⟩ := key T' h'
  rw [← hy] at h2
  have hh : ∀ T : Tree, mstep 0 1 ([(1, T)], []) = none := by
    intro T
    unfold mstep
    dsimp only [mtop, mnext]
    rw [action_11]
  have := msteps_halt h1 h2 (hh T) (hh T')
  injection this with this _
  injection this with this _
  injection this

end Verif.LR
