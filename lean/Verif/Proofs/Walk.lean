import Verif.Spec.Walk
/-!
# What a walk sees and does
-/
namespace Verif
open Spec

mutual
/-- Everything seen below a statement; `true` marks the statements of blocks. -/
def below : Stm → List (Bool × Stm)
  | .ifS c b elifs els => below c ++ (false, c) :: (belowL b ++ belowL els ++ belowL elifs)
  | .tryS b c => belowL b ++ belowL c
  | .loop _ _ _ _ b => belowL b
  | .method _ ps _ => belowP ps
  | .bin _ l r _ _ => below r ++ (false, r) :: (below l ++ [(false, l)])
  | .ternary c t e => below c ++ (false, c) :: (below t ++ (false, t) :: (below e ++ [(false, e)]))
  | .ret p => below p ++ [(false, p)]
  | _ => []
def belowL : List Stm → List (Bool × Stm)
  | [] => []
  | s :: l => below s ++ (true, s) :: belowL l
def belowP : List Stm → List (Bool × Stm)
  | [] => []
  | s :: l => below s ++ (false, s) :: belowP l
end

theorem recorder_stm (st : List Seen) (v : Visit Stm) : recorder.stm st v = (st ++ [⟨v.root, .inl v.elem⟩], v.elem) := rfl
theorem recorder_item (st : List Seen) (v : Visit Item) : recorder.item st v = (st ++ [⟨v.root, .inr v.elem⟩], v.elem) := rfl

theorem rooted_stm {σ : Type} (f : Callback σ) (st : σ × List (Option Nat)) (v : Visit Stm) :
    (rooted f).stm st v = (((f.stm st.1 v).1, st.2 ++ [v.root]), (f.stm st.1 v).2) := rfl
theorem rooted_item {σ : Type} (f : Callback σ) (st : σ × List (Option Nat)) (v : Visit Item) :
    (rooted f).item st v = (((f.item st.1 v).1, st.2 ++ [v.root]), (f.item st.1 v).2) := rfl

theorem below_lengths : ∀ l, (belowP l).length = (belowL l).length
  | [] => rfl
  | s :: l => by simp [belowP, belowL, below_lengths l]

def seen (r : Option Nat) (x : Bool × Stm) : Seen := ⟨r, .inl x.2⟩

theorem seen_belowP_L (r : Option Nat) : ∀ l, (belowP l).map (seen r) = (belowL l).map (seen r)
  | [] => rfl
  | s :: l => by simp [belowP, belowL, seen, seen_belowP_L r l]

mutual
theorem walkKids_rec (r : Option Nat) : ∀ (st : List Seen) (s : Stm), walkKids recorder r st s = (st ++ (below s).map (seen r), s)
  | st, .ifS c b elifs els => by
    simp [walkKids, walkKids_rec r, walkL_rec r, recorder_stm, below, seen]
  | st, .tryS b c => by simp [walkKids, walkL_rec r, below]
  | st, .loop _ _ _ _ b => by simp [walkKids, walkL_rec r, below]
  | st, .method _ ps _ => by simp [walkKids, walkL_rec r, below, seen_belowP_L]
  | st, .bin _ a b _ _ => by simp [walkKids, walkKids_rec r, recorder_stm, below, seen]
  | st, .ternary a b c => by simp [walkKids, walkKids_rec r, recorder_stm, below, seen]
  | st, .ret p => by simp [walkKids, walkKids_rec r, recorder_stm, below, seen]
  | st, .nil => by simp [walkKids, below]
  | st, .num _ => by simp [walkKids, below]
  | st, .str _ => by simp [walkKids, below]
  | st, .bool _ => by simp [walkKids, below]
  | st, .date _ => by simp [walkKids, below]
  | st, .undef => by simp [walkKids, below]
  | st, .var _ _ _ => by simp [walkKids, below]
  | st, .chain _ _ _ _ => by simp [walkKids, below]
  | st, .item _ _ => by simp [walkKids, below]
  | st, .new _ _ => by simp [walkKids, below]
  | st, .assign _ _ => by simp [walkKids, below]
  | st, .exprs _ _ => by simp [walkKids, below]
  | st, .throw _ => by simp [walkKids, below]
  | st, .brk => by simp [walkKids, below]
  | st, .cont => by simp [walkKids, below]
  | st, .goto _ => by simp [walkKids, below]
  | st, .label _ => by simp [walkKids, below]
theorem walkL_rec (r : Option Nat) : ∀ (p : Parent) (st : List Seen) (l : List Stm),
    walkL recorder r p st l = (st ++ (belowL l).map (seen r), l)
  | _, st, [] => by simp [walkL, belowL]
  | p, st, s :: l => by
    simp [walkL, walkKids_rec r, walkL_rec r p, recorder_stm, belowL, seen]
end

/-- Everything seen of one element of the module body. -/
def belowItem : Item → List (Bool × (Stm ⊕ Item))
  | .func d => (belowL d.body).map (fun x => (x.1, .inl x.2)) ++ [(true, .inr (.func d))]
  | .stm s => (below s).map (fun x => (x.1, .inl x.2)) ++ [(true, .inr (.stm s))]

/-- The procedure reported for the element after `l`; `r` before. -/
def rootAfter (r : Option Nat) (i : Nat) : Item → Option Nat
  | .func _ => some i
  | .stm _ => r

/-- Everything seen of the module body, by element. -/
def itemsSeen : Option Nat → Nat → List Item → List (List (Bool × Seen))
  | _, _, [] => []
  | r, i, x :: l => (belowItem x).map (fun y => (y.1, ⟨rootAfter r i x, y.2⟩)) :: itemsSeen (rootAfter r i x) (i + 1) l

theorem walkItems_rec : ∀ (r : Option Nat) (i : Nat) (st : List Seen) (l : List Item),
    walkItems recorder r i st l = (st ++ (itemsSeen r i l).flatten.map Prod.snd, l)
  | _, _, st, [] => by simp [walkItems, itemsSeen]
  | r, i, st, .func d :: l => by
    simp only [walkItems, walkL_rec]
    simp only [recorder_item]
    rw [walkItems_rec]
    simp [itemsSeen, belowItem, rootAfter, seen, Function.comp_def]
  | r, i, st, .stm s :: l => by
    simp only [walkItems, walkKids_rec]
    simp only [recorder_item]
    rw [walkItems_rec]
    simp [itemsSeen, belowItem, rootAfter, seen, Function.comp_def]

theorem walk_rec (m : Module) : walk recorder [] m = ((itemsSeen none 0 m.body).flatten.map Prod.snd, m) := by
  simp [walk, walkItems_rec]

/-! ## The marked entries -/

mutual
theorem below_inside : ∀ s, ((below s).filter Prod.fst).map Prod.snd = inside s
  | .ifS c b elifs els => by simp [below, inside, below_inside c, belowL_inside]
  | .tryS b c => by simp [below, inside, belowL_inside]
  | .loop _ _ _ _ b => by simp [below, inside, belowL_inside]
  | .method _ ps _ => by simp [below, inside, belowP_inside]
  | .bin _ a b _ _ => by simp [below, inside, below_inside a, below_inside b]
  | .ternary a b c => by simp [below, inside, below_inside a, below_inside b, below_inside c]
  | .ret p => by simp [below, inside, below_inside p]
  | .nil | .num _ | .str _ | .bool _ | .date _ | .undef | .var _ _ _ | .chain _ _ _ _ | .item _ _ | .new _ _ | .assign _ _
  | .exprs _ _ | .throw _ | .brk | .cont | .goto _ | .label _ => by simp [below, inside]
theorem belowL_inside : ∀ l, ((belowL l).filter Prod.fst).map Prod.snd = insideL l
  | [] => by simp [belowL, insideL]
  | s :: l => by simp [belowL, insideL, below_inside s, belowL_inside l]
theorem belowP_inside : ∀ l, ((belowP l).filter Prod.fst).map Prod.snd = insideParts l
  | [] => by simp [belowP, insideParts]
  | s :: l => by simp [belowP, insideParts, below_inside s, belowP_inside l]
end

theorem filter_map_fst {α β γ : Type} (f : α → β) (l : List (Bool × α)) (g : β → γ) :
    ((l.map fun x => (x.1, f x.2)).filter Prod.fst).map (fun x => g x.2) = ((l.filter Prod.fst).map Prod.snd).map (g ∘ f) := by
  induction l with
  | nil => rfl
  | cons a l ih =>
    obtain ⟨b, a⟩ := a
    cases b <;> simp [ih]

theorem belowItem_inside (x : Item) : ((belowItem x).filter Prod.fst).map Prod.snd = insideItem x := by
  cases x with
  | func d =>
    simp only [belowItem, insideItem, List.filter_append, List.map_append]
    rw [← belowL_inside]
    congr 1
    exact filter_map_fst _ _ id
  | stm s =>
    simp only [belowItem, insideItem, List.filter_append, List.map_append]
    rw [← below_inside]
    congr 1
    exact filter_map_fst _ _ id

theorem itemsSeen_inside : ∀ r i l, ((itemsSeen r i l).flatten.filter Prod.fst).map (fun x => x.2.elem) = l.flatMap insideItem
  | _, _, [] => rfl
  | r, i, x :: l => by
    simp only [itemsSeen, List.flatten_cons, List.filter_append, List.map_append, List.flatMap_cons]
    rw [itemsSeen_inside, ← belowItem_inside]
    congr 1
    have := filter_map_fst (fun y => (⟨rootAfter r i x, y⟩ : Seen)) (belowItem x) Seen.elem
    rw [this]
    exact congrArg (fun f => List.map f _) rfl |>.trans (List.map_id _)

/-! ## The other entries -/

/-- Every entry that is not a statement of a block is a part of `s` or of another entry. -/
def PartsOf (s : Stm) (l : List (Bool × Stm)) : Prop := ∀ x, (false, x) ∈ l → ∃ p, PartOf x p ∧ (p = s ∨ ∃ b, (b, p) ∈ l)

mutual
theorem below_parts : ∀ s x, (false, x) ∈ below s → ∃ p, PartOf x p ∧ (p = s ∨ ∃ b, (b, p) ∈ below s)
  | .ifS c b elifs els, x, h => by
    simp only [below, List.mem_append, List.mem_cons, Prod.mk.injEq] at h ⊢
    rcases h with h | ⟨-, rfl⟩ | (h | h) | h
    · obtain ⟨p, h1, h2⟩ := below_parts c x h
      exact ⟨p, h1, .inr (h2.elim (fun e => ⟨false, by simp [e]⟩) (fun ⟨b, h2⟩ => ⟨b, by simp [h2]⟩))⟩
    · exact ⟨_, .cond, .inl rfl⟩
    · obtain ⟨p, h1, b, h2⟩ := belowL_parts b x h
      exact ⟨p, h1, .inr ⟨b, by simp [h2]⟩⟩
    · obtain ⟨p, h1, b, h2⟩ := belowL_parts els x h
      exact ⟨p, h1, .inr ⟨b, by simp [h2]⟩⟩
    · obtain ⟨p, h1, b, h2⟩ := belowL_parts elifs x h
      exact ⟨p, h1, .inr ⟨b, by simp [h2]⟩⟩
  | .tryS b c, x, h => by
    simp only [below, List.mem_append] at h ⊢
    rcases h with h | h
    · obtain ⟨p, h1, b, h2⟩ := belowL_parts b x h
      exact ⟨p, h1, .inr ⟨b, by simp [h2]⟩⟩
    · obtain ⟨p, h1, b, h2⟩ := belowL_parts c x h
      exact ⟨p, h1, .inr ⟨b, by simp [h2]⟩⟩
  | .loop _ _ _ _ b, x, h => by
    simp only [below] at h ⊢
    obtain ⟨p, h1, b, h2⟩ := belowL_parts b x h
    exact ⟨p, h1, .inr ⟨b, h2⟩⟩
  | .method n ps k, x, h => by
    simp only [below] at h ⊢
    rcases belowP_parts ps x h with h1 | ⟨p, h1, b, h2⟩
    · exact ⟨_, .arg h1, .inl rfl⟩
    · exact ⟨p, h1, .inr ⟨b, h2⟩⟩
  | .bin op a b u n, x, h => by
    simp only [below, List.mem_append, List.mem_cons, Prod.mk.injEq, List.not_mem_nil, or_false] at h ⊢
    rcases h with h | ⟨-, rfl⟩ | h | ⟨-, rfl⟩
    · obtain ⟨p, h1, h2⟩ := below_parts b x h
      exact ⟨p, h1, .inr (h2.elim (fun e => ⟨false, by simp [e]⟩) (fun ⟨b, h2⟩ => ⟨b, by simp [h2]⟩))⟩
    · exact ⟨_, .right, .inl rfl⟩
    · obtain ⟨p, h1, h2⟩ := below_parts a x h
      exact ⟨p, h1, .inr (h2.elim (fun e => ⟨false, by simp [e]⟩) (fun ⟨b, h2⟩ => ⟨b, by simp [h2]⟩))⟩
    · exact ⟨_, .left, .inl rfl⟩
  | .ternary a b c, x, h => by
    simp only [below, List.mem_append, List.mem_cons, Prod.mk.injEq, List.not_mem_nil, or_false] at h ⊢
    rcases h with h | ⟨-, rfl⟩ | h | ⟨-, rfl⟩ | h | ⟨-, rfl⟩
    · obtain ⟨p, h1, h2⟩ := below_parts a x h
      exact ⟨p, h1, .inr (h2.elim (fun e => ⟨false, by simp [e]⟩) (fun ⟨b, h2⟩ => ⟨b, by simp [h2]⟩))⟩
    · exact ⟨_, .test, .inl rfl⟩
    · obtain ⟨p, h1, h2⟩ := below_parts b x h
      exact ⟨p, h1, .inr (h2.elim (fun e => ⟨false, by simp [e]⟩) (fun ⟨b, h2⟩ => ⟨b, by simp [h2]⟩))⟩
    · exact ⟨_, .yes, .inl rfl⟩
    · obtain ⟨p, h1, h2⟩ := below_parts c x h
      exact ⟨p, h1, .inr (h2.elim (fun e => ⟨false, by simp [e]⟩) (fun ⟨b, h2⟩ => ⟨b, by simp [h2]⟩))⟩
    · exact ⟨_, .no, .inl rfl⟩
  | .ret q, x, h => by
    simp only [below, List.mem_append, List.mem_cons, Prod.mk.injEq, List.not_mem_nil, or_false] at h ⊢
    rcases h with h | ⟨-, rfl⟩
    · obtain ⟨p, h1, h2⟩ := below_parts q x h
      exact ⟨p, h1, .inr (h2.elim (fun e => ⟨false, by simp [e]⟩) (fun ⟨b, h2⟩ => ⟨b, by simp [h2]⟩))⟩
    · exact ⟨_, .ret, .inl rfl⟩
  | .nil, _, h | .num _, _, h | .str _, _, h | .bool _, _, h | .date _, _, h | .undef, _, h | .var _ _ _, _, h | .chain _ _ _ _, _, h
  | .item _ _, _, h | .new _ _, _, h | .assign _ _, _, h | .exprs _ _, _, h | .throw _, _, h | .brk, _, h | .cont, _, h | .goto _, _, h
  | .label _, _, h => by simp [below] at h
theorem belowL_parts : ∀ l x, (false, x) ∈ belowL l → ∃ p, PartOf x p ∧ ∃ b, (b, p) ∈ belowL l
  | [], _, h => by simp [belowL] at h
  | s :: l, x, h => by
    simp only [belowL, List.mem_append, List.mem_cons, Prod.mk.injEq, Bool.false_eq_true, false_and, false_or] at h ⊢
    rcases h with h | h
    · obtain ⟨p, h1, h2⟩ := below_parts s x h
      exact ⟨p, h1, h2.elim (fun e => ⟨true, by simp [e]⟩) (fun ⟨b, h2⟩ => ⟨b, by simp [h2]⟩)⟩
    · obtain ⟨p, h1, b, h2⟩ := belowL_parts l x h
      exact ⟨p, h1, b, by simp [h2]⟩
theorem belowP_parts : ∀ l x, (false, x) ∈ belowP l → x ∈ l ∨ ∃ p, PartOf x p ∧ ∃ b, (b, p) ∈ belowP l
  | [], _, h => by simp [belowP] at h
  | s :: l, x, h => by
    simp only [belowP, List.mem_append, List.mem_cons, Prod.mk.injEq, true_and] at h ⊢
    rcases h with h | rfl | h
    · obtain ⟨p, h1, h2⟩ := below_parts s x h
      exact .inr ⟨p, h1, h2.elim (fun e => ⟨false, by simp [e]⟩) (fun ⟨b, h2⟩ => ⟨b, by simp [h2]⟩)⟩
    · exact .inl (.inl rfl)
    · rcases belowP_parts l x h with h1 | ⟨p, h1, b, h2⟩
      · exact .inl (.inr h1)
      · exact .inr ⟨p, h1, b, by simp [h2]⟩
end

theorem belowItem_parts (x : Item) (y : Stm ⊕ Item) (h : (false, y) ∈ belowItem x) :
    ∃ s p, y = .inl s ∧ PartOf s p ∧ ∃ z ∈ belowItem x, stmOf z.2 = some p := by
  cases x with
  | func d =>
    simp only [belowItem, List.mem_append, List.mem_map, List.mem_singleton, Prod.mk.injEq, Bool.false_eq_true, false_and, or_false] at h
    obtain ⟨⟨b, s⟩, h1, rfl, rfl⟩ := h
    obtain ⟨p, h2, b, h3⟩ := belowL_parts _ _ h1
    exact ⟨s, p, rfl, h2, (b, .inl p), by simp only [belowItem, List.mem_append, List.mem_map]; exact .inl ⟨_, h3, rfl⟩, rfl⟩
  | stm s =>
    simp only [belowItem, List.mem_append, List.mem_map, List.mem_singleton, Prod.mk.injEq, Bool.false_eq_true, false_and, or_false] at h
    obtain ⟨⟨b, s'⟩, h1, rfl, rfl⟩ := h
    obtain ⟨p, h2, h3⟩ := below_parts _ _ h1
    rcases h3 with rfl | ⟨b, h3⟩
    · exact ⟨s', p, rfl, h2, (true, .inr (.stm p)), by simp [belowItem], rfl⟩
    · exact ⟨s', p, rfl, h2, (b, .inl p), by simp only [belowItem, List.mem_append, List.mem_map]; exact .inl ⟨_, h3, rfl⟩, rfl⟩

theorem itemsSeen_parts : ∀ r i l x, (false, x) ∈ (itemsSeen r i l).flatten →
    ∃ s p, x.elem = .inl s ∧ PartOf s p ∧ ∃ z ∈ (itemsSeen r i l).flatten, stmOf z.2.elem = some p
  | _, _, [], _, h => by simp [itemsSeen] at h
  | r, i, y :: l, x, h => by
    simp only [itemsSeen, List.flatten_cons, List.mem_append] at h ⊢
    rcases h with h | h
    · obtain ⟨⟨b, q⟩, h1, h2⟩ := List.mem_map.1 h
      simp only [Prod.mk.injEq] at h2
      obtain ⟨rfl, rfl⟩ := h2
      obtain ⟨s, p, rfl, h3, z, h4, h5⟩ := belowItem_parts _ _ h1
      exact ⟨s, p, rfl, h3, _, .inl (List.mem_map_of_mem h4), h5⟩
    · obtain ⟨s, p, h2, h3, z, h4, h5⟩ := itemsSeen_parts _ _ _ _ h
      exact ⟨s, p, h2, h3, z, .inr h4, h5⟩

/-! ## Stores -/

variable {σ : Type}

mutual
theorem walkKids_silent {f : Callback σ} (hf : Callback.Silent f) (r : Option Nat) : ∀ (st : σ) (s : Stm), (walkKids f r st s).2 = s
  | st, .ifS c b elifs els => by simp [walkKids, walkKids_silent hf r, walkL_silent hf r]
  | st, .tryS b c => by simp [walkKids, walkL_silent hf r]
  | st, .loop _ _ _ _ b => by simp [walkKids, walkL_silent hf r]
  | st, .method _ ps _ => by simp [walkKids, walkL_silent hf r]
  | st, .bin _ a b _ _ => by simp [walkKids, walkKids_silent hf r]
  | st, .ternary a b c => by simp [walkKids, walkKids_silent hf r]
  | st, .ret p => by simp [walkKids, walkKids_silent hf r]
  | st, .nil | st, .num _ | st, .str _ | st, .bool _ | st, .date _ | st, .undef | st, .var _ _ _ | st, .chain _ _ _ _ | st, .item _ _
  | st, .new _ _ | st, .assign _ _ | st, .exprs _ _ | st, .throw _ | st, .brk | st, .cont | st, .goto _ | st, .label _ => by simp [walkKids]
theorem walkL_silent {f : Callback σ} (hf : Callback.Silent f) (r : Option Nat) : ∀ (p : Parent) (st : σ) (l : List Stm), (walkL f r p st l).2 = l
  | _, st, [] => by simp [walkL]
  | p, st, s :: l => by simp [walkL, hf.1, walkKids_silent hf r, walkL_silent hf r p]
end

theorem walkItems_silent {f : Callback σ} (hf : Callback.Silent f) : ∀ (r : Option Nat) (i : Nat) (st : σ) (l : List Item),
    (walkItems f r i st l).2 = l
  | _, _, st, [] => by simp [walkItems]
  | r, i, st, .func d :: l => by simp [walkItems, hf.2, walkL_silent hf, walkItems_silent hf]
  | r, i, st, .stm s :: l => by simp [walkItems, hf.2, walkKids_silent hf, walkItems_silent hf]

theorem walk_silent {f : Callback σ} (hf : Callback.Silent f) (st : σ) (m : Module) : (walk f st m).2 = m := by
  simp [walk, walkItems_silent hf]

mutual
theorem walkKids_subst (g : Stm → Stm) (r : Option Nat) : ∀ (st : Unit) (s : Stm), (walkKids (replacer g) r st s).2 = subst g s
  | st, .ifS c b elifs els => by simp [walkKids, walkKids_subst g r, walkL_subst g r, subst]
  | st, .tryS b c => by simp [walkKids, walkL_subst g r, subst]
  | st, .loop _ _ _ _ b => by simp [walkKids, walkL_subst g r, subst]
  | st, .method _ ps _ => by simp [walkKids, walkL_subst g r, subst]
  | st, .bin _ a b _ _ => by simp [walkKids, walkKids_subst g r, subst]
  | st, .ternary a b c => by simp [walkKids, walkKids_subst g r, subst]
  | st, .ret p => by simp [walkKids, walkKids_subst g r, subst]
  | st, .nil | st, .num _ | st, .str _ | st, .bool _ | st, .date _ | st, .undef | st, .var _ _ _ | st, .chain _ _ _ _ | st, .item _ _
  | st, .new _ _ | st, .assign _ _ | st, .exprs _ _ | st, .throw _ | st, .brk | st, .cont | st, .goto _ | st, .label _ => by
    simp [walkKids, subst]
theorem walkL_subst (g : Stm → Stm) (r : Option Nat) : ∀ (p : Parent) (st : Unit) (l : List Stm), (walkL (replacer g) r p st l).2 = substL g l
  | _, st, [] => by simp [walkL, substL]
  | p, st, s :: l => by
    simp only [walkL, substL]
    rw [walkL_subst g r p, ← walkKids_subst g r st s]
    rfl
end

theorem walkItems_subst (g : Stm → Stm) : ∀ (r : Option Nat) (i : Nat) (st : Unit) (l : List Item),
    (walkItems (replacer g) r i st l).2 = l.map (substItem g)
  | _, _, st, [] => by simp [walkItems]
  | r, i, st, .func d :: l => by
    simp only [walkItems, List.map_cons, walkItems_subst g, substItem]
    rw [← walkL_subst g (some i) (.func i) st d.body]
    rfl
  | r, i, st, .stm s :: l => by
    simp only [walkItems, List.map_cons, walkItems_subst g, substItem]
    rw [← walkKids_subst g r st s]
    rfl

theorem walk_subst (g : Stm → Stm) (m : Module) : (walk (replacer g) () m).2 = substModule g m := by
  simp [walk, walkItems_subst, substModule]

/-! ## Any callback -/

mutual
theorem walkKids_rooted (f : Callback σ) (r : Option Nat) : ∀ (st : σ) (t : List (Option Nat)) (s : Stm),
    walkKids (rooted f) r (st, t) s = (((walkKids f r st s).1, t ++ (below s).map fun _ => r), (walkKids f r st s).2)
  | st, t, .ifS c b elifs els => by
    simp [walkKids, walkKids_rooted f r, walkL_rooted f r, rooted_stm, below]
  | st, t, .tryS b c => by simp [walkKids, walkL_rooted f r, below]
  | st, t, .loop _ _ _ _ b => by simp [walkKids, walkL_rooted f r, below]
  | st, t, .method _ ps _ => by simp [walkKids, walkL_rooted f r, below, List.map_const', below_lengths]
  | st, t, .bin _ a b _ _ => by simp [walkKids, walkKids_rooted f r, rooted_stm, below]
  | st, t, .ternary a b c => by simp [walkKids, walkKids_rooted f r, rooted_stm, below]
  | st, t, .ret p => by simp [walkKids, walkKids_rooted f r, rooted_stm, below]
  | st, t, .nil | st, t, .num _ | st, t, .str _ | st, t, .bool _ | st, t, .date _ | st, t, .undef | st, t, .var _ _ _
  | st, t, .chain _ _ _ _ | st, t, .item _ _ | st, t, .new _ _ | st, t, .assign _ _ | st, t, .exprs _ _ | st, t, .throw _
  | st, t, .brk | st, t, .cont | st, t, .goto _ | st, t, .label _ => by simp [walkKids, below]
theorem walkL_rooted (f : Callback σ) (r : Option Nat) : ∀ (p : Parent) (st : σ) (t : List (Option Nat)) (l : List Stm),
    walkL (rooted f) r p (st, t) l = (((walkL f r p st l).1, t ++ (belowL l).map fun _ => r), (walkL f r p st l).2)
  | _, st, t, [] => by simp [walkL, belowL]
  | p, st, t, s :: l => by
    simp [walkL, walkKids_rooted f r, walkL_rooted f r p, rooted_stm, belowL]
end

theorem walkItems_rooted (f : Callback σ) : ∀ (r : Option Nat) (i : Nat) (st : σ) (t : List (Option Nat)) (l : List Item),
    walkItems (rooted f) r i (st, t) l =
      (((walkItems f r i st l).1, t ++ (itemsSeen r i l).flatten.map fun x => x.2.root), (walkItems f r i st l).2)
  | _, _, st, t, [] => by simp [walkItems, itemsSeen]
  | r, i, st, t, .func d :: l => by
    simp only [walkItems, walkL_rooted]
    simp only [rooted_item]
    rw [walkItems_rooted]
    simp [itemsSeen, belowItem, rootAfter, Function.comp_def]
  | r, i, st, t, .stm s :: l => by
    simp only [walkItems, walkKids_rooted]
    simp only [rooted_item]
    rw [walkItems_rooted]
    simp [itemsSeen, belowItem, rootAfter, Function.comp_def]

/-- What is called for does not depend on the callback. -/
theorem walk_rooted (f : Callback σ) (st : σ) (m : Module) :
    walk (rooted f) (st, []) m = (((walk f st m).1, (walk recorder [] m).1.map Seen.root), (walk f st m).2) := by
  rw [walk_rec]
  simp [walk, walkItems_rooted, Function.comp_def]

/-! ## Procedures -/

theorem itemsSeen_length : ∀ r i l, (itemsSeen r i l).length = l.length
  | _, _, [] => rfl
  | r, i, x :: l => by simp [itemsSeen, itemsSeen_length]

/-- The procedure reported for the element `x` at `k`. -/
theorem itemsSeen_get : ∀ (r : Option Nat) (i : Nat) (l : List Item) (k : Nat) (x : Item), l[k]? = some x →
    ∃ r', (itemsSeen r i l)[k]? = some ((belowItem x).map fun y => (y.1, ⟨r', y.2⟩)) ∧
      (∀ d, x = .func d → r' = some (i + k)) ∧ ((∀ j ≤ k, ∀ d, l[j]? ≠ some (.func d)) → r' = r)
  | _, _, [], _, _, h => by simp at h
  | r, i, y :: l, 0, x, h => by
    simp only [List.length_cons, Nat.zero_lt_succ, getElem?_pos, List.getElem_cons_zero, Option.some.injEq] at h
    subst h
    refine ⟨rootAfter r i y, by simp [itemsSeen], ?_, ?_⟩
    · rintro d rfl; rfl
    · intro h
      cases y with
      | func d => exact absurd rfl (h 0 (Nat.le_refl 0) d)
      | stm s => rfl
  | r, i, y :: l, k + 1, x, h => by
    obtain ⟨r', h1, h2, h3⟩ := itemsSeen_get (rootAfter r i y) (i + 1) l k x (by simpa using h)
    refine ⟨r', by simpa [itemsSeen] using h1, ?_, ?_⟩
    · intro d e; rw [h2 d e]; congr 1; omega
    · intro h
      rw [h3 fun j hj d => by simpa using h (j + 1) (by omega) d]
      cases y with
      | func d => exact absurd rfl (h 0 (Nat.zero_le _) d)
      | stm s => rfl

/-! ## All calls -/

theorem visits_eq (r : Option Nat) (p : Parent) (s : Stm) :
    visits r p s = (kids s).flatMap (visits r (.stm s)) ++ [⟨r, p, s⟩] := by
  rw [visits]
  congr 1
  rw [List.flatMap_subtype (g := visits r (.stm s))]
  · rw [List.unattach_attach]
  · intro x h; rfl

/-- What is left of the callback's variables after some calls. -/
def calledStm {σ : Type} (f : Callback σ) (st : σ) (l : List (Visit Stm)) : σ := l.foldl (fun st v => (f.stm st v).1) st

theorem calledStm_append {σ : Type} (f : Callback σ) (st : σ) (l l' : List (Visit Stm)) :
    calledStm f st (l ++ l') = calledStm f (calledStm f st l) l' := List.foldl_append ..

theorem calledStm_nil {σ : Type} (f : Callback σ) (st : σ) : calledStm f st [] = st := rfl

theorem calledStm_visits {σ : Type} (f : Callback σ) (st : σ) (r : Option Nat) (p : Parent) (s : Stm) :
    calledStm f st (visits r p s) = (f.stm (calledStm f st ((kids s).flatMap (visits r (.stm s)))) ⟨r, p, s⟩).1 := by
  rw [visits_eq, calledStm_append]
  rfl

mutual
theorem walkKids_calls {σ : Type} {f : Callback σ} (hf : Callback.Silent f) (r : Option Nat) : ∀ (st : σ) (s : Stm),
    walkKids f r st s = (calledStm f st ((kids s).flatMap (visits r (.stm s))), s)
  | st, .ifS c b elifs els => by
    simp only [walkKids, walkKids_calls hf r, walkL_calls hf r, kids, List.flatMap_cons, List.flatMap_append, calledStm_append,
      calledStm_visits]
  | st, .tryS b c => by simp only [walkKids, walkL_calls hf r, kids, List.flatMap_append, calledStm_append]
  | st, .loop _ _ _ _ b => by simp only [walkKids, walkL_calls hf r, kids]
  | st, .method _ ps _ => by simp only [walkKids, walkL_calls hf r, kids]
  | st, .bin _ a b _ _ => by
    simp only [walkKids, walkKids_calls hf r, kids, List.flatMap_cons, List.flatMap_nil, calledStm_append, calledStm_visits, calledStm_nil]
  | st, .ternary a b c => by
    simp only [walkKids, walkKids_calls hf r, kids, List.flatMap_cons, List.flatMap_nil, calledStm_append, calledStm_visits, calledStm_nil]
  | st, .ret p => by
    simp only [walkKids, walkKids_calls hf r, kids, List.flatMap_cons, List.flatMap_nil, calledStm_append, calledStm_visits, calledStm_nil]
  | st, .nil | st, .num _ | st, .str _ | st, .bool _ | st, .date _ | st, .undef | st, .var _ _ _ | st, .chain _ _ _ _ | st, .item _ _
  | st, .new _ _ | st, .assign _ _ | st, .exprs _ _ | st, .throw _ | st, .brk | st, .cont | st, .goto _ | st, .label _ => by
    simp [walkKids, kids, calledStm]
theorem walkL_calls {σ : Type} {f : Callback σ} (hf : Callback.Silent f) (r : Option Nat) : ∀ (p : Parent) (st : σ) (l : List Stm),
    walkL f r p st l = (calledStm f st (l.flatMap (visits r p)), l)
  | _, st, [] => by simp [walkL, calledStm]
  | p, st, s :: l => by
    simp only [walkL, walkKids_calls hf r, walkL_calls hf r p, hf.1, List.flatMap_cons, calledStm_append, calledStm_visits]
end

theorem called_inl {σ : Type} (f : Callback σ) (st : σ) (l : List (Visit Stm)) :
    (l.map Sum.inl).foldl (called f) st = calledStm f st l := by
  rw [List.foldl_map]; rfl

theorem procBefore_succ (l : List Item) (i : Nat) : procBefore l (i + 1) = match l[i]? with
    | some (.func _) => some i
    | _ => procBefore l i := by
  unfold procBefore
  rw [List.range_succ, List.reverse_append, List.reverse_singleton, List.singleton_append, List.find?_cons]
  cases h : l[i]? with
  | none => rfl
  | some x => cases x <;> rfl

theorem walkItems_calls {σ : Type} {f : Callback σ} (hf : Callback.Silent f) (b : List Item) : ∀ (l : List Item) (i : Nat) (st : σ),
    (∀ k, b[i + k]? = l[k]?) →
    walkItems f (procBefore b i) i st l =
      (((l.zipIdx i).flatMap fun x => itemVisits (procBefore b x.2) x.2 x.1).foldl (called f) st, l)
  | [], i, st, _ => by simp [walkItems]
  | .func d :: l, i, st, h => by
    have h0 : b[i]? = some (.func d) := h 0
    have h1 : procBefore b (i + 1) = some i := by rw [procBefore_succ, h0]
    have ih := walkItems_calls hf b l (i + 1) (f.item (calledStm f st (d.body.flatMap (visits (some i) (.func i)))) ⟨some i, .body, .func d⟩).1
      (fun k => by rw [show i + 1 + k = i + (k + 1) by omega, h]; rfl)
    rw [h1] at ih
    simp only [walkItems, walkL_calls hf, hf.2, ih, List.zipIdx_cons, List.flatMap_cons, List.foldl_append, itemVisits, called_inl,
      List.foldl_cons, List.foldl_nil, called]
  | .stm s :: l, i, st, h => by
    have h0 : b[i]? = some (.stm s) := h 0
    have h1 : procBefore b (i + 1) = procBefore b i := by rw [procBefore_succ, h0]
    have ih := walkItems_calls hf b l (i + 1)
      (f.item (calledStm f st ((kids s).flatMap (visits (procBefore b i) (.stm s)))) ⟨procBefore b i, .body, .stm s⟩).1
      (fun k => by rw [show i + 1 + k = i + (k + 1) by omega, h]; rfl)
    rw [h1] at ih
    simp only [walkItems, walkKids_calls hf, hf.2, ih, List.zipIdx_cons, List.flatMap_cons, List.foldl_append, itemVisits, called_inl,
      List.foldl_cons, List.foldl_nil, called]

theorem walk_calls {σ : Type} {f : Callback σ} (hf : Callback.Silent f) (st : σ) (m : Module) :
    walk f st m = ((moduleVisits m).foldl (called f) st, m) := by
  have h := walkItems_calls hf m.body m.body 0 st (fun k => by rw [Nat.zero_add])
  rw [show procBefore m.body 0 = none from rfl] at h
  simp only [walk, h, moduleVisits]

theorem recordAll_silent : Callback.Silent recordAll := ⟨fun _ _ => rfl, fun _ _ => rfl⟩

theorem foldl_recordAll (l : List (Visit Stm ⊕ Visit Item)) : ∀ st, l.foldl (called recordAll) st = st ++ l := by
  induction l with
  | nil => simp
  | cons v l ih =>
    intro st
    rw [List.foldl_cons, ih]
    cases v <;> simp [called, recordAll]

theorem walk_recordAll (m : Module) : (walk recordAll [] m).1 = moduleVisits m := by
  rw [walk_calls recordAll_silent, foldl_recordAll, List.nil_append]

/-- Calls for a statement: its own, or the parent is a statement. -/
theorem visits_parent (r : Option Nat) : ∀ (n : Nat) (p : Parent) (s : Stm), sizeOf s < n → ∀ v ∈ visits r p s,
    v.root = r ∧ (v = ⟨r, p, s⟩ ∨ ∃ q, v.parent = .stm q ∧ v.elem ∈ kids q)
  | 0, _, _, h => by omega
  | n + 1, p, s, h => by
    intro v hv
    rw [visits_eq, List.mem_append, List.mem_flatMap, List.mem_singleton] at hv
    rcases hv with ⟨t, ht, hv⟩ | rfl
    · obtain ⟨h1, h2⟩ := visits_parent r n (.stm s) t (by have := kids_lt ht; omega) v hv
      refine ⟨h1, .inr ?_⟩
      rcases h2 with rfl | h2
      · exact ⟨s, rfl, ht⟩
      · exact h2
    · exact ⟨rfl, .inl rfl⟩

theorem kids_parent (r : Option Nat) (s : Stm) : ∀ v ∈ (kids s).flatMap (visits r (.stm s)),
    v.root = r ∧ ∃ q, v.parent = .stm q ∧ v.elem ∈ kids q := by
  intro v hv
  obtain ⟨t, ht, hv⟩ := List.mem_flatMap.1 hv
  obtain ⟨h1, h2⟩ := visits_parent r _ _ t (Nat.lt_succ_self _) v hv
  refine ⟨h1, ?_⟩
  rcases h2 with rfl | h2
  · exact ⟨s, rfl, ht⟩
  · exact h2

theorem itemVisits_right {m : Module} {i : Nat} {x : Item} (hx : m.body[i]? = some x) (r : Option Nat) :
    ∀ v ∈ itemVisits r i x, RightParent m v ∧ rootOf v = rootAfter r i x := by
  intro v hv
  cases x with
  | func d =>
    simp only [itemVisits, List.mem_append, List.mem_map, List.mem_singleton] at hv
    rcases hv with ⟨w, hw, rfl⟩ | rfl
    · obtain ⟨t, ht, hw⟩ := List.mem_flatMap.1 hw
      obtain ⟨h1, h2⟩ := visits_parent (some i) _ _ t (Nat.lt_succ_self _) w hw
      refine ⟨?_, h1⟩
      rcases h2 with rfl | ⟨q, h2, h3⟩
      · exact ⟨d, hx, ht⟩
      · simp only [RightParent, h2]; exact h3
    · exact ⟨⟨rfl, List.mem_of_getElem? hx⟩, rfl⟩
  | stm s =>
    simp only [itemVisits, List.mem_append, List.mem_map, List.mem_singleton] at hv
    rcases hv with ⟨w, hw, rfl⟩ | rfl
    · obtain ⟨h1, q, h2, h3⟩ := kids_parent r s w hw
      refine ⟨?_, h1⟩
      simp only [RightParent, h2]; exact h3
    · exact ⟨⟨rfl, List.mem_of_getElem? hx⟩, rfl⟩

theorem mem_moduleVisits {m : Module} {v : Visit Stm ⊕ Visit Item} : v ∈ moduleVisits m ↔
    ∃ i x, m.body[i]? = some x ∧ v ∈ itemVisits (procBefore m.body i) i x := by
  simp only [moduleVisits, List.mem_flatMap, Prod.exists, List.mem_zipIdx_iff_getElem?]
  constructor
  · rintro ⟨x, i, h1, h2⟩; exact ⟨i, x, h1, h2⟩
  · rintro ⟨i, x, h1, h2⟩; exact ⟨x, i, h1, h2⟩

end Verif
