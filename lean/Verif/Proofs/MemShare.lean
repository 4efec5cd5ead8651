import Verif.Proofs.MemUses
import Verif.Proofs.LR.Sim
/-!
# Blocks do not share arrays
-/
namespace Verif.Mem
open List LR

/-! ## Arrays of blocks -/

theorem Arrays.append {h : Heap} {bs cs L M} (H : Arrays h bs L) (K : Arrays h cs M) : Arrays h (bs ++ cs) (L ++ M) := by
  induction H with
  | nil => exact K
  | cons hn h1 _ _ ih =>
    rw [cons_append, cons_append, append_assoc]
    exact .cons hn h1 ih

theorem Arrays.split {h : Heap} {bs cs L} (H : Arrays h (bs ++ cs) L) : ∃ M N, L = M ++ N ∧ Arrays h bs M ∧ Arrays h cs N := by
  induction bs generalizing L with
  | nil => exact ⟨[], L, rfl, .nil, H⟩
  | cons b bs ih =>
    cases H with
    | cons hn h1 h2 =>
      obtain ⟨M, N, rfl, h3, h4⟩ := ih h2
      exact ⟨_, N, by rw [cons_append, append_assoc], .cons hn h1 h3, h4⟩

theorem Arrays.subperm {h : Heap} {bs cs L} (H : Arrays h bs L) (hs : cs <+~ bs) : ∃ M, M <+~ L ∧ Arrays h cs M := by
  obtain ⟨ds, hp, hs⟩ := hs
  have h1 : ∃ M, M <+~ L ∧ Arrays h ds M := by
    clear hp
    induction hs generalizing L with
    | slnil => cases H; exact ⟨[], .refl _, .nil⟩
    | cons a _ ih =>
      cases H with
      | @cons i n _ L1 M1 hn h1 h2 =>
        obtain ⟨M, h3, h4⟩ := ih h2
        exact ⟨M, h3.trans (Sublist.subperm ((sublist_append_right _ _).cons _)), h4⟩
    | cons_cons a _ ih =>
      cases H with
      | @cons i n _ L1 M1 hn h1 h2 =>
        obtain ⟨M, h3, h4⟩ := ih h2
        exact ⟨_, (subperm_cons _).2 ((subperm_append_left _).2 h3), .cons hn h1 h4⟩
  obtain ⟨M, h2, h3⟩ := h1
  suffices h4 : ∃ M', M' ~ M ∧ Arrays h cs M' by
    obtain ⟨M', h4, h5⟩ := h4
    exact ⟨M', h4.subperm.trans h2, h5⟩
  clear h2 hs
  induction hp generalizing M with
  | nil => exact ⟨M, .refl _, h3⟩
  | cons a _ ih =>
    cases h3 with
    | cons hn h1 h2 =>
      obtain ⟨M', h4, h5⟩ := ih _ h2
      exact ⟨_, (h4.append_left _).cons _, .cons hn h1 h5⟩
  | swap a b l =>
    cases h3 with
    | cons hn h1 h2 =>
      cases h2 with
      | cons hm h3 h4 =>
        refine ⟨_, ?_, .cons hm h3 (.cons hn h1 h4)⟩
        rw [perm_iff_count]
        intro a
        simp only [count_cons, count_append]
        omega
  | trans _ _ ih1 ih2 =>
    obtain ⟨M', h4, h5⟩ := ih1 _ h3
    obtain ⟨M'', h6, h7⟩ := ih2 _ h5
    exact ⟨M'', h6.trans h4, h7⟩

theorem Arrays.mono {h h' : Heap} {bs L} (H : Arrays h bs L) (hs : ∀ i ∈ L, h'.arr i = h.arr i) : Arrays h' bs L := by
  induction H with
  | nil => exact .nil
  | @cons i n bs L M hn _ _ ih1 ih2 =>
    have hi := hs i mem_cons_self
    refine .cons (by rw [hi]; exact hn) ?_ (ih2 fun j hj => hs j (mem_cons_of_mem _ (mem_append_right _ hj)))
    rw [hi]
    exact ih1 fun j hj => hs j (mem_cons_of_mem _ (mem_append_left _ hj))

/-- Memory went from `h₀` to `h`; the blocks `bs` and the blocks in them have an array each, allocated since. -/
structure Fresh (h₀ h : Heap) (bs : List (Nat × Nat)) : Prop where
  arrays : ∃ L, Arrays h bs L ∧ L.Nodup ∧ ∀ i ∈ L, h₀.length ≤ i ∧ i < h.length
  grows : h₀.length ≤ h.length
  keeps : ∀ i < h₀.length, h.arr i = h₀.arr i

theorem Fresh.refl (h : Heap) : Fresh h h [] := ⟨⟨[], .nil, nodup_nil, nofun⟩, Nat.le_refl _, fun _ _ => rfl⟩

theorem Fresh.sub {h₀ h : Heap} {bs cs} (H : Fresh h₀ h bs) (hc : ∀ a, count a cs ≤ count a bs) : Fresh h₀ h cs := by
  obtain ⟨L, h1, h2, h3⟩ := H.arrays
  obtain ⟨M, h4, h5⟩ := Arrays.subperm h1 (subperm_iff_count.2 fun a => by convert hc a)
  refine ⟨⟨M, h5, ?_, fun i hi => h3 i (h4.subset hi)⟩, H.grows, H.keeps⟩
  obtain ⟨N, h6, h7⟩ := h4
  exact h6.nodup_iff.1 (h7.nodup h2)

theorem Fresh.seq {h₀ h₁ h₂ : Heap} {bs cs} (H : Fresh h₀ h₁ bs) (K : Fresh h₁ h₂ cs) : Fresh h₀ h₂ (bs ++ cs) := by
  obtain ⟨L, h1, h2, h3⟩ := H.arrays
  obtain ⟨M, h4, h5, h6⟩ := K.arrays
  refine ⟨⟨L ++ M, Arrays.append (Arrays.mono h1 fun i hi => K.keeps i (h3 i hi).2) h4, ?_, ?_⟩, H.grows.trans K.grows, fun i hi => ?_⟩
  · rw [nodup_append]
    refine ⟨h2, h5, fun i hi j hj e => ?_⟩
    subst e
    exact absurd (h3 i hi).2 (Nat.not_lt.2 (h6 i hj).1)
  · intro i hi
    rcases mem_append.1 hi with hi | hi
    · exact ⟨(h3 i hi).1, Nat.lt_of_lt_of_le (h3 i hi).2 K.grows⟩
    · exact ⟨H.grows.trans (h6 i hi).1, (h6 i hi).2⟩
  · rw [K.keeps i (Nat.lt_of_lt_of_le hi H.grows), H.keeps i hi]

/-- A block is replaced by the blocks of its statements. -/
theorem Fresh.elems {h₀ h : Heap} {s : Slice} {bs} (H : Fresh h₀ h (s.toList ++ bs)) : Fresh h₀ h (blocksL (h.elems s) ++ bs) := by
  rcases s with _ | ⟨i, n⟩
  · exact H
  · obtain ⟨L, h1, h2, h3⟩ := H.arrays
    cases h1 with
    | cons hn h4 h5 =>
      exact ⟨⟨_, Arrays.append h4 h5, (nodup_cons.1 h2).2, fun i hi => h3 i (mem_cons_of_mem _ hi)⟩, H.grows, H.keeps⟩

/-- A new array. -/
theorem Fresh.alloc {h₀ h : Heap} {l : List HStm} {bs} (cap : Nat) (H : Fresh h₀ h (blocksL l ++ bs)) :
    Fresh h₀ (h.alloc cap l).2 ((h.alloc cap l).1.toList ++ bs) := by
  obtain ⟨L, h1, h2, h3⟩ := H.arrays
  have hk : ∀ i < h.length, Heap.arr (h ++ [(cap, l)]) i = h.arr i := fun i hi => arr_append_lt hi
  have ha : Heap.arr (h ++ [(cap, l)]) h.length = (cap, l) := arr_append_eq
  obtain ⟨M, N, rfl, h4, h5⟩ := Arrays.split (Arrays.mono h1 (h' := h ++ [(cap, l)]) fun i hi => hk i (h3 i hi).2)
  refine ⟨⟨h.length :: (M ++ N), ?_, ?_, ?_⟩, ?_, ?_⟩
  · show Arrays (h ++ [(cap, l)]) ((h.length, l.length) :: bs) _
    refine .cons ?_ ?_ h5
    · rw [ha]
    · rw [ha, take_length]; exact h4
  · exact nodup_cons.2 ⟨fun hi => Nat.lt_irrefl _ (h3 _ hi).2, h2⟩
  · intro i hi
    show _ ∧ i < (h ++ [_]).length
    rw [length_append]
    rcases mem_cons.1 hi with rfl | hi
    · exact ⟨H.grows, Nat.lt_succ_self _⟩
    · exact ⟨(h3 i hi).1, Nat.lt_succ_of_lt (h3 i hi).2⟩
  · show _ ≤ (h ++ [_]).length
    rw [length_append]
    exact Nat.le_succ_of_le H.grows
  · intro i hi
    exact (hk i (Nat.lt_of_lt_of_le hi H.grows)).trans (H.keeps i hi)

/-- A statement is appended to a block. -/
theorem Fresh.append (g : Nat → Nat → Nat) {h₀ h : Heap} {s : Slice} {x : HStm} {bs} (H : Fresh h₀ h (s.toList ++ (x.blocks ++ bs))) :
    Fresh h₀ (h.append g s x).2 ((h.append g s x).1.toList ++ bs) := by
  rcases s with _ | ⟨i, n⟩
  · exact Fresh.alloc _ (by rw [blocksL, blocksL, append_nil]; exact H)
  · have hen := H.elems
    obtain ⟨L, h1, h2, h3⟩ := H.arrays
    cases h1 with
    | @cons _ _ _ L M hn h4 h5 =>
      show Fresh h₀ (Heap.append g h (some (i, n)) x).2 ((Heap.append g h (some (i, n)) x).1.toList ++ bs)
      unfold Heap.append
      dsimp only
      split
      · have hi := h3 i mem_cons_self
        have ha : Heap.arr (h.set i ((h.arr i).1, (h.arr i).2.take n ++ x :: (h.arr i).2.drop (n + 1))) i = _ := arr_set_eq hi.2
        have hne : ∀ j, i ≠ j → Heap.arr (h.set i ((h.arr i).1, (h.arr i).2.take n ++ x :: (h.arr i).2.drop (n + 1))) j = h.arr j :=
          fun j hj => arr_set_ne hj
        rw [nodup_cons] at h2
        obtain ⟨N, O, rfl, h6, h7⟩ := Arrays.split (bs := x.blocks) (cs := bs) h5
        rw [mem_append, mem_append] at h2
        refine ⟨⟨i :: ((L ++ N) ++ O), ?_, ?_, ?_⟩, ?_, ?_⟩
        · refine .cons ?_ ?_ (Arrays.mono h7 fun j hj => hne j fun e => h2.1 (.inr (.inr (e ▸ hj))))
          · rw [ha]
            simp only [length_append, length_take, length_cons]
            omega
          · rw [ha]
            have ht : take (n + 1) ((h.arr i).2.take n ++ x :: (h.arr i).2.drop (n + 1)) = (h.arr i).2.take n ++ [x] := by
              have hl : ((h.arr i).2.take n).length = n := by rw [length_take]; omega
              rw [take_append, hl, Nat.add_sub_cancel_left, take_of_length_le (by omega)]
              rfl
            rw [show ((h.arr i).1, (h.arr i).2.take n ++ x :: (h.arr i).2.drop (n + 1)).2 = (h.arr i).2.take n ++ x :: (h.arr i).2.drop (n + 1) from rfl,
              ht, blocksL_append, blocksL, blocksL, append_nil]
            refine Arrays.append (Arrays.mono h4 fun j hj => ?_) (Arrays.mono h6 fun j hj => ?_)
            · exact hne j fun e => h2.1 (.inl (e ▸ hj))
            · exact hne j fun e => h2.1 (.inr (.inl (e ▸ hj)))
        · rw [append_assoc, nodup_cons, mem_append, mem_append]
          exact h2
        · intro j hj
          show _ ∧ j < (h.set i _).length
          rw [length_set]
          rw [append_assoc] at hj
          exact h3 j hj
        · show _ ≤ (h.set i _).length
          rw [length_set]
          exact H.grows
        · intro j hj
          have hji : i ≠ j := fun e => by subst e; exact absurd hi.1 (Nat.not_le.2 hj)
          exact (hne j hji).trans (H.keeps j hj)
      · refine Fresh.alloc _ ?_
        rw [blocksL_append, blocksL, blocksL, append_nil, append_assoc]
        exact hen

/-! ## The actions -/

theorem fresh_uses {h₀ h : Heap} {A bs : List (Nat × Nat)} {X x v' x'} (H : Fresh h₀ h (A ++ bs)) (U : Uses bs X x v' x') :
    ∃ its, x'.items = x.items ++ its ∧ Fresh h₀ h (A ++ (its.flatMap HItem.blocks ++ fld X v')) := by
  obtain ⟨its, h1, h2⟩ := U.uses
  refine ⟨its, h1, H.sub fun a => ?_⟩
  have := h2 a
  rw [count_append (l₁ := A), count_append (l₁ := A)]
  exact Nat.add_le_add_left this _

theorem items_blocks (l : List HStm) : (l.map HItem.stm).flatMap HItem.blocks = blocksL l := by
  rw [blocksL_flatMap, flatMap_map]
  rfl

theorem act_fresh (g : Nat → Nat → Nat) {p : Nat} {d : Nat → HSV} {v v' : HSV} {x x' : HAst} {h₀ h h' : Heap} {A : List (Nat × Nat)}
    (h0 : 0 < p) (hp : p < 113) (hv : rhs p ≠ [] → v = d 1) (hs : p = 19 → v.body = v.opt_body)
    (H : Fresh h₀ h (A ++ fldsD (rhs p) d 1)) (e : actH g p d v x h = .ok (v', x', h')) :
    ∃ its, x'.items = x.items ++ its ∧ Fresh h₀ h' (A ++ (its.flatMap HItem.blocks ++ fld (lhs p) v')) := by
  by_cases h2 : p = 2
  · subst h2
    cases e
    refine ⟨_, rfl, ?_⟩
    rw [items_blocks]
    have H' : Fresh h₀ h (A ++ ((d 1).body.toList ++ [])) := H
    refine (Fresh.elems (H'.sub (cs := (d 1).body.toList ++ A) fun a => ?_)).sub fun a => ?_
    · simp only [count_append, count_nil]; omega
    · show count a (A ++ (_ ++ [])) ≤ _
      simp only [count_append, count_nil]; omega
  by_cases h3 : p = 3
  · subst h3
    cases e
    refine ⟨_, rfl, ?_⟩
    rw [items_blocks]
    have H' : Fresh h₀ h (A ++ ((d 2).opt_body.toList ++ [])) := H
    refine (Fresh.elems (H'.sub (cs := (d 2).opt_body.toList ++ A) fun a => ?_)).sub fun a => ?_
    · simp only [count_append, count_nil]; omega
    · show count a (A ++ (_ ++ [])) ≤ _
      simp only [count_append, count_nil]; omega
  by_cases h18 : p = 18
  · subst h18
    cases e
    refine ⟨[], (append_nil _).symm, ?_⟩
    have H' : Fresh h₀ h (A ++ ((d 1).stmt.blocks ++ [])) := H
    refine (Fresh.alloc 1 (H'.sub (cs := blocksL [(d 1).stmt] ++ A) fun a => ?_)).sub fun a => ?_
    · simp only [blocksL, count_append, count_nil]; omega
    · show count a (A ++ ([] ++ (h.alloc 1 [(d 1).stmt]).1.toList)) ≤ _
      simp only [count_append, count_nil]; omega
  by_cases h19 : p = 19
  · subst h19
    obtain ⟨z, e1, e2⟩ := bind_ok e
    have hd : v = d 1 := hv nofun
    have H' : Fresh h₀ h (A ++ ((d 1).opt_body.toList ++ ((d 3).stmt.blocks ++ []))) := H
    rw [← hd, ← hs rfl] at H'
    split at e2
    · cases e2
      refine ⟨[], by rw [append_nil, checkColon_items e1], H'.sub fun a => ?_⟩
      show count a (A ++ ([] ++ v.body.toList)) ≤ _
      simp only [count_append, count_nil]; omega
    · cases e2
      refine ⟨[], by rw [append_nil, checkColon_items e1], ?_⟩
      refine (Fresh.append g (H'.sub (cs := v.body.toList ++ ((d 3).stmt.blocks ++ A)) fun a => ?_)).sub fun a => ?_
      · simp only [count_append, count_nil]; omega
      · show count a (A ++ ([] ++ (h.append g v.body (d 3).stmt).1.toList)) ≤ _
        simp only [count_append, count_nil]; omega
  · have e' : (do let r ← actP p d v x; .ok (r.1, r.2, h)) = Except.ok (v', x', h') := by
      rw [← e]
      unfold actH
      split <;> first | contradiction | rfl
    obtain ⟨⟨v1, x1⟩, e1, e2⟩ := bind_ok e'
    cases e2
    exact fresh_uses H (actP_uses h0 hp ⟨h2, h3, h18, h19⟩ hv e1)

end Verif.Mem
