import Verif.Proofs.MemClean
import Verif.Props.Memory
import Verif.Props.Program
/-!
# C59: blocks and storage

`HItem.blocks`, `Arrays h bs L`, `Heap.store` (Spec/Memory.lean): the blocks in an element of a module; the arrays of blocks and of the
blocks inside them; and storing a statement in a cell, which is what a callback of `Walk` does when it assigns to the statement it is given.

The claim: a store in one block of a tree is not seen in another.  It fails for texts with blocks that begin with a separator
(`C59_violated`); missing in the partial theorems are exactly these texts (`Program.clean`).
-/
namespace Verif
open Spec Lexer

section
variable [Letters]

/-- Text that spells a program in which no block begins with a separator, whether it keeps the rules or not, and an AstNode in any state:
if Parse returns, the elements it added have blocks that all have an array of their own, allocated in this call. -/
theorem C59_apart_partial (g : Nat → Nat → Nat) {a x : HAst} {h₀ h : Heap} {P : Program} (hs : Spells a.ctl.code P) (hc : P.clean)
    (e : parseH g a h₀ = .ret x h) :
    ∃ its L, x.items = a.items ++ its ∧ Arrays h (its.flatMap HItem.blocks) L ∧ L.Nodup ∧ ∀ i ∈ L, h₀.length ≤ i := by
  obtain ⟨⟨l, ht, hl⟩, hg⟩ := hs
  obtain ⟨its, h1, h2⟩ := Mem.parse_fresh g ht hl hg hc e
  obtain ⟨L, h3, h4, h5⟩ := h2.arrays
  exact ⟨its, L, h1, h3, h4, fun i hi => (h5 i hi).1⟩

/-- After any store in a block of one element of the module, or in a block inside that block, every other element reads as before. -/
theorem C59_store_partial (g : Nat → Nat → Nat) {code : List Char} {x : HAst} {h₀ h : Heap} {P : Program} (hs : Spells code P) (hc : P.clean)
    (e : parseH g (newASTH code) h₀ = .ret x h) {A B : List HItem} {it : HItem} (hx : x.items = A ++ it :: B)
    {L : List Nat} {i : Nat} (hL : Arrays h it.blocks L) (hi : i ∈ L) (k : Nat) (y : HStm) {jt : HItem} (hj : jt ∈ A ++ B) {f : Item} :
    ReadsI h jt f → ReadsI (h.store i k y) jt f := by
  obtain ⟨its, M, h1, h2, h3, -⟩ := C59_apart_partial g (a := newASTH code) hs hc e
  have h1 : x.items = its := h1
  subst h1
  rw [hx] at h2
  intro H
  have h4 : ∃ N, Arrays h jt.blocks N ∧ i ∉ N := by
    rw [List.flatMap_append, List.flatMap_cons] at h2
    obtain ⟨M1, M2, rfl, k1, k2⟩ := Mem.Arrays.split h2
    obtain ⟨M3, M4, rfl, k3, k4⟩ := Mem.Arrays.split k2
    obtain rfl : L = M3 := Mem.Arrays.inj hL k3
    have hd : ∀ j ∈ M1 ++ M4, j ≠ i := by
      intro j hj e
      subst e
      rcases List.mem_append.1 hj with hj | hj
      · exact (List.nodup_append.1 h3).2.2 j hj j (List.mem_append_left _ hi) rfl
      · exact (List.nodup_append.1 (List.nodup_append.1 h3).2.1).2.2 j hi j hj rfl
    have k5 : Arrays h ((A ++ B).flatMap HItem.blocks) (M1 ++ M4) := by
      rw [List.flatMap_append]; exact Mem.Arrays.append k1 k4
    obtain ⟨C, D, hCD⟩ := List.append_of_mem hj
    rw [hCD, List.flatMap_append, List.flatMap_cons] at k5
    obtain ⟨N1, N2, e1, k6, k7⟩ := Mem.Arrays.split k5
    obtain ⟨N3, N4, rfl, k8, k9⟩ := Mem.Arrays.split k7
    refine ⟨N3, k8, fun hin => hd i ?_ rfl⟩
    rw [e1]
    exact List.mem_append_right _ (List.mem_append_left _ hin)
  obtain ⟨N, k1, k2⟩ := h4
  exact Mem.ReadsI.keep H ⟨N, k1, fun j hj => Mem.store_arr fun e => k2 (e ▸ hj)⟩

omit [Letters] in
/-- In general: a store in an array is not seen at a node whose blocks, and the blocks inside them, are not in this array. -/
theorem C59_local {h : Heap} {x : HStm} {s : Stm} {L : List Nat} {i : Nat} (H : Reads h x s) (hL : Arrays h x.blocks L) (hi : i ∉ L) (k : Nat)
    (y : HStm) : Reads (h.store i k y) x s :=
  Mem.Reads.keep H ⟨L, hL, fun _ hj => Mem.store_arr fun e => hi (e ▸ hj)⟩
end

/-- A module with three procedures; the block of the last one begins with a separator. -/
def shareText : String := "Процедура А() КонецПроцедуры Процедура Б() д() КонецПроцедуры Процедура В() ; КонецПроцедуры"

theorem newAST_reads (h : Heap) (code : List Char) : ReadsA h (newASTH code) (newAST code) := ⟨rfl, .nil⟩

/-- The text is accepted; the second and the third procedure have one and the same array, so that a store in the block of the second
changes what is read of the third. -/
theorem C59_violated : ∃ (x : HAst) (h : Heap) (f₁ f₂ : HFunc) (A B C : List HItem) (i n k : Nat) (y : HStm) (F : Item),
    @parseH stdLetters goGrow (newASTH shareText.toList) [] = .ret x h ∧ x.ctl.err = none ∧
    x.items = A ++ .func f₁ :: (B ++ .func f₂ :: C) ∧ f₁.body = some (i, n) ∧ k < n ∧
    ReadsI h (.func f₂) F ∧ ¬ ReadsI (h.store i k y) (.func f₂) F := by
  let good : HOutcome → Bool := fun
    | .ret x h => x.ctl.err.isNone && (match x.items with
      | [_, .func f₁, .func f₂] => decide (f₁.body = some (0, 1)) && decide (f₂.body = some (0, 1))
      | _ => false) && (match (h.arr 0).2 with | [.method _ _ _] => true | _ => false) && decide (0 < h.length)
    | _ => false
  have hk : good (@parseH stdLetters goGrow (newASTH shareText.toList) []) = true := by decide +kernel
  have hr := @Mem.parse_reads stdLetters goGrow [] _ _ (newAST_reads [] shareText.toList)
  generalize @parseH stdLetters goGrow (newASTH shareText.toList) [] = r at hk hr
  generalize @parse stdLetters (newAST shareText.toList) = r' at hr
  cases hr with
  | panic => cases hk
  | loops => cases hk
  | @ret x h a h1 h2 =>
    simp only [good, Bool.and_eq_true, decide_eq_true_eq] at hk
    obtain ⟨⟨⟨he, hi⟩, hc⟩, hlt⟩ := hk
    split at hi
    swap
    · cases hi
    rename_i it f₁ f₂ hit
    simp only [Bool.and_eq_true, decide_eq_true_eq] at hi
    split at hc
    swap
    · cases hc
    rename_i nm ps u hcell
    have hf := h1.items
    rw [hit] at hf
    generalize a.mod.body = m at hf
    obtain ⟨F, hF⟩ : ∃ F, ReadsI h (.func f₂) F := by
      cases hf with
      | cons _ hf =>
        cases hf with
        | cons _ hf =>
          cases hf with
          | cons h3 _ => exact ⟨_, h3⟩
    refine ⟨x, h, f₁, f₂, [it], [], [], 0, 1, 0, .brk, F, rfl, ?_, hit, hi.1, Nat.one_pos, hF, fun hG => ?_⟩
    · cases hx : x.ctl.err with
      | none => rfl
      | some e => rw [hx] at he; cases he
    · cases hF with
      | func hF =>
        cases hG with
        | func hG =>
          have b1 := hF.body
          have b2 := hG.body
          rw [hi.2] at b1 b2
          have ha : ((h.store 0 0 .brk).arr 0).2 = [.brk] := by
            unfold Heap.store
            rw [Mem.arr_set_eq hlt, hcell]
            rfl
          generalize FuncDecl.body _ = l at b1 b2
          cases b1 with
          | arr _ b1 =>
            cases b2 with
            | arr _ b2 =>
              rw [hcell] at b1
              rw [ha] at b2
              cases b1 with
              | cons b1 _ =>
                cases b2 with
                | cons b2 _ => cases b1; cases b2

/-- Blocks in the elements, and in all cells of all arrays. -/
def blocksOf (r : HOutcome) : List (List (Nat × Nat)) × List (List (Nat × Nat)) :=
  match r with
  | .ret x h => (x.items.map HItem.blocks, h.map fun (_, l) => blocksL l)
  | _ => ([], [])

theorem newASTH_code (code : List Char) : (newASTH code).ctl.code = code := rfl

/-- The hypotheses hold of `sampleText`: Parse returns, with two elements that have blocks. -/
theorem sample_spellsH : @Spells stdLetters (newASTH sampleText).ctl.code sampleProgram := by
  rw [newASTH_code]
  exact sample_spells
example : sampleProgram.clean := sample_clean
example : blocksOf (@parseH stdLetters goGrow (newASTH sampleText) []) =
    ([[(3, 2)], [(4, 1), (5, 1)]], [[], [(0, 1)], [(1, 1)], [(1, 1)], [], [], [(4, 1), (5, 1)]]) := by decide +kernel

/-- The text above. -/
example : memOf goGrow shareText = ([none, some (0, 1), some (0, 1)], [(1, 1)]) := by decide +kernel

end Verif
