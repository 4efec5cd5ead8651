import Verif.Props.Walk
/-!
# Walking a list of statements: C85

`statementWalk f p st l`: `StatementWalk(p, l, f)` where the variables of the callback `f` have the value `st` before; result: their value
after, and the list after.
-/
namespace Verif
open Spec Lexer LR

/-- The callback sees every statement of the list and of all blocks in it exactly once, in the order of `insideL` (in order, inner
statements before the statement that contains them); and besides (marked `false`) only parts of what it sees: conditions, arguments,
operands. -/
theorem C85_visits (p : Parent) (l : List Stm) : ∃ t : List (Bool × Seen), (statementWalk recorder p [] l).1 = t.map Prod.snd ∧
    (t.filter Prod.fst).map (fun x => x.2.elem) = (insideL l).map .inl ∧
    ∀ x, (false, x) ∈ t → ∃ s q, x.elem = .inl s ∧ PartOf s q ∧ ∃ z ∈ t, z.2.elem = .inl q := by
  refine ⟨(belowL l).map fun x => (x.1, seen none x), ?_, ?_, ?_⟩
  · unfold statementWalk
    rw [walkL_rec, List.map_map]
    rfl
  · rw [← belowL_inside, List.map_map]
    induction belowL l with
    | nil => rfl
    | cons x t ih =>
      obtain ⟨b, s⟩ := x
      cases b
      · simpa using ih
      · simpa [seen] using ih
  · intro x hx
    obtain ⟨⟨b, s⟩, hs, he⟩ := List.mem_map.1 hx
    simp only [Prod.mk.injEq] at he
    obtain ⟨rfl, rfl⟩ := he
    obtain ⟨q, h1, b, h2⟩ := belowL_parts l s hs
    exact ⟨s, q, rfl, h1, _, List.mem_map_of_mem h2, rfl⟩

/-- A callback that stores nothing is called for the statements one after the other, for each after the calls for its parts, which have it
as parent; the parent of the statements of the list is the one given.  The list stays as it is. -/
theorem C85_calls {σ : Type} (f : Callback σ) (hf : Callback.Silent f) (p : Parent) (st : σ) (l : List Stm) :
    statementWalk f p st l = ((l.flatMap (visits none p)).foldl (fun st v => (f.stm st v).1) st, l) :=
  walkL_calls hf none p st l

/-- The first argument is always nil; the second is the one given, for the statements of the list, or the statement that the visited one
is a part of. -/
theorem C85_told (p : Parent) (l : List Stm) : ∀ v ∈ (statementWalk recordAll p [] l).1, ∃ w, v = .inl w ∧ w.root = none ∧
    (w.parent = p ∧ w.elem ∈ l ∨ ∃ q, w.parent = .stm q ∧ w.elem ∈ kids q) := by
  have h : (statementWalk recordAll p [] l).1 = (l.flatMap (visits none p)).map .inl := by
    rw [C85_calls _ recordAll_silent]
    show calledStm recordAll [] (l.flatMap (visits none p)) = _
    rw [← called_inl, foldl_recordAll, List.nil_append]
  intro v hv
  rw [h] at hv
  obtain ⟨w, hw, rfl⟩ := List.mem_map.1 hv
  obtain ⟨s, hs, hw⟩ := List.mem_flatMap.1 hw
  obtain ⟨h1, h2⟩ := visits_parent none _ p s (Nat.lt_succ_self _) w hw
  refine ⟨w, rfl, h1, ?_⟩
  rcases h2 with rfl | h2
  · exact .inl ⟨rfl, hs⟩
  · exact .inr h2

/-- Statements stored by the callback replace the statements of the list and of blocks, and the arguments of calls; everything else
stays. -/
theorem C85_replaced (g : Stm → Stm) (p : Parent) (l : List Stm) : (statementWalk (replacer g) p () l).2 = substL g l :=
  walkL_subst g none p () l

/-- Two lists in a row are walked like one, whatever the callback stores. -/
theorem C85_append {σ : Type} (f : Callback σ) (p : Parent) (st : σ) (l l' : List Stm) :
    statementWalk f p st (l ++ l') = ((statementWalk f p (statementWalk f p st l).1 l').1,
      (statementWalk f p st l).2 ++ (statementWalk f p (statementWalk f p st l).1 l').2) := by
  unfold statementWalk
  induction l generalizing st with
  | nil => simp [walkL]
  | cons s l ih => simp [walkL, ih]

theorem visits_root (r : Option Nat) : ∀ (n : Nat) (p : Parent) (s : Stm), sizeOf s < n →
    visits r p s = (visits none p s).map fun v => ⟨r, v.parent, v.elem⟩
  | 0, _, _, h => by omega
  | n + 1, p, s, h => by
    rw [visits_eq, visits_eq none, List.map_append, List.map_flatMap]
    congr 1
    refine List.flatMap_congr fun t ht => ?_
    have := kids_lt ht
    exact visits_root r n _ t (by omega)

/-- `StatementWalk` on the body of a procedure of a module, with the procedure as parent, makes the same calls in the same order as `Walk`
makes for the statements of this procedure, except that their first argument is nil. -/
theorem C85_procedure (m : Module) (i : Nat) (d : FuncDecl) (h : m.body[i]? = some (.func d)) :
    ∃ t : List (Visit Stm), (statementWalk recordAll (.func i) [] d.body).1 = t.map .inl ∧ ∃ a b, (walk recordAll [] m).1 =
      a ++ (t.map fun v => .inl ⟨some i, v.parent, v.elem⟩) ++ .inr ⟨some i, .body, .func d⟩ :: b := by
  refine ⟨d.body.flatMap (visits none (.func i)), ?_, ?_⟩
  · rw [C85_calls _ recordAll_silent]
    show calledStm recordAll [] _ = _
    rw [← called_inl, foldl_recordAll, List.nil_append]
  · rw [walk_recordAll, moduleVisits]
    obtain ⟨a, b, e⟩ : ∃ a b, m.body.zipIdx = a ++ (.func d, i) :: b :=
      List.append_of_mem (List.mem_zipIdx_iff_getElem?.2 h)
    rw [e, List.flatMap_append, List.flatMap_cons, itemVisits]
    refine ⟨a.flatMap fun x => itemVisits (procBefore m.body x.2) x.2 x.1, b.flatMap fun x => itemVisits (procBefore m.body x.2) x.2 x.1, ?_⟩
    have hr : d.body.flatMap (visits (some i) (.func i)) =
        (d.body.flatMap (visits none (.func i))).map fun v => ⟨some i, v.parent, v.elem⟩ := by
      rw [List.map_flatMap]
      exact List.flatMap_congr fun s _ => visits_root (some i) _ _ s (Nat.lt_succ_self _)
    simp [hr]

private def nv (s : String) : Stm := .var s.toList false false

/-- `Если а Тогда б КонецЕсли; Прервать` walked with the parent `п`. -/
example : statementWalk recorder (.stm (nv "п")) [] [.ifS (nv "а") [nv "б"] [] [], .brk] =
    ([⟨none, .inl (nv "а")⟩, ⟨none, .inl (nv "б")⟩, ⟨none, .inl (.ifS (nv "а") [nv "б"] [] [])⟩, ⟨none, .inl .brk⟩],
     [.ifS (nv "а") [nv "б"] [] [], .brk]) := by
  simp [statementWalk, walkL, walkKids, recorder, nv]
example : (statementWalk (replacer fun s => if s = nv "б" then nv "в" else s) .body () [nv "б", .tryS [nv "б"] []]).2 =
    [nv "в", .tryS [nv "в"] []] := by decide +kernel

end Verif
