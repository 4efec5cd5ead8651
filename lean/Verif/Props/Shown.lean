import Verif.Spec.Shown
import Verif.Props.Walk
/-!
# What Walk shows: C86
-/
namespace Verif
open Spec Lexer LR

theorem allParts_kids {s t : Stm} (h : t ∈ allParts s) : t ∈ kids s ∨ Covered s t := by
  cases s <;> simp only [allParts, List.mem_cons, List.mem_append, List.not_mem_nil, or_false] at h
  case chain => rcases h with rfl | rfl; exacts [.inr .unit, .inr .call]
  case method => exact .inl h
  case item => rcases h with rfl | rfl; exacts [.inr .index, .inr .object]
  case ternary => left; simp [kids, h]
  case new => exact .inr (.new h)
  case assign => rcases h with rfl | h; exacts [.inr .var, .inr (.value h)]
  case bin => left; simp [kids, or_comm, h]
  case exprs => exact .inr (.exprs h)
  case ifS => left; simp only [kids, List.mem_cons, List.mem_append]; tauto
  case tryS => left; simpa [kids] using h
  case throw => subst h; exact .inr .throw
  case ret => left; simpa [kids] using h
  case loop =>
    rcases h with (rfl | rfl | rfl | rfl) | h
    exacts [.inr .for_, .inr .to, .inr .in_, .inr .while_, .inl h]

theorem open_kid {s t u : Stm} (h : t ∈ kids s) (h' : Open t u) : Open s u := by
  cases s <;> simp only [kids, List.mem_cons, List.mem_append, List.not_mem_nil, or_false] at h
  case method => exact .arg h h'
  case ternary => rcases h with rfl | rfl | rfl; exacts [.test h', .first h', .second h']
  case bin => rcases h with rfl | rfl; exacts [.right h', .left h']
  case ifS => rcases h with rfl | (h | h) | h; exacts [.cond h', .yes h h', .no h h', .elif h h']
  case tryS => rcases h with h | h; exacts [.body h h', .handler h h']
  case ret => subst h; exact .ret h'
  case loop => exact .loop h h'

theorem open_cases {s u : Stm} (h : Open s u) : u = s ∨ ∃ t ∈ kids s, Open t u := by
  cases h with
  | self => exact .inl rfl
  | cond h => exact .inr ⟨_, by simp [kids], h⟩
  | yes m h | elif m h | no m h | body m h | handler m h | loop m h | arg m h => exact .inr ⟨_, by simp [kids, m], h⟩
  | left h | right h | test h | first h | second h | ret h => exact .inr ⟨_, by simp [kids], h⟩

theorem mem_visits (r : Option Nat) (u : Stm) : ∀ (n : Nat) (p : Parent) (s : Stm), sizeOf s < n →
    ((∃ v ∈ visits r p s, v.elem = u) ↔ Open s u)
  | 0, _, _, h => by omega
  | n + 1, p, s, h => by
    rw [visits_eq]
    constructor
    · rintro ⟨v, hv, rfl⟩
      rw [List.mem_append, List.mem_flatMap, List.mem_singleton] at hv
      rcases hv with ⟨t, ht, hv⟩ | rfl
      · exact open_kid ht ((mem_visits r _ n _ t (by have := kids_lt ht; omega)).1 ⟨v, hv, rfl⟩)
      · exact .self
    · intro h'
      rcases open_cases h' with rfl | ⟨t, ht, ho⟩
      · exact ⟨⟨r, p, u⟩, by simp, rfl⟩
      · obtain ⟨v, hv, e⟩ := (mem_visits r u n (.stm s) t (by have := kids_lt ht; omega)).2 ho
        exact ⟨v, List.mem_append.2 (.inl (List.mem_flatMap.2 ⟨t, ht, hv⟩)), e⟩

/-- The element of a call. -/
def elemStm : Visit Stm ⊕ Visit Item → Stm ⊕ Item
  | .inl v => .inl v.elem
  | .inr v => .inr v.elem

theorem seen_elems (m : Module) : (walk recorder [] m).1.map Seen.elem = (walk recordAll [] m).1.map elemStm := by
  have key : ∀ (l : List (Visit Stm ⊕ Visit Item)) (st : List Seen),
      (l.foldl (called recorder) st).map Seen.elem = st.map Seen.elem ++ l.map elemStm := by
    intro l
    induction l with
    | nil => simp
    | cons v l ih =>
      intro st
      rw [List.foldl_cons, ih]
      rcases v with v | v <;> simp [called, recorder, elemStm]
  rw [C56_calls recorder ⟨fun _ _ => rfl, fun _ _ => rfl⟩, walk_recordAll]
  simpa using key (moduleVisits m) []

/-- `Walk` shows exactly the statements of the module and of procedures and what can be reached from them without looking into chains,
indices, `Новый`, assignments, lists in parentheses, `ВызватьИсключение` and what stands before `Цикл`.  Missing: what is in these
places (there the property is false, `C86_violated`). -/
theorem C86_shown_partial (m : Module) (t : Stm) : Shown m t ↔ ∃ s, Top m s ∧ Open s t := by
  have h1 : Shown m t ↔ ∃ v ∈ moduleVisits m, stmOf (elemStm v) = some t := by
    have e : ∀ y, y ∈ (walk recorder [] m).1.map Seen.elem ↔ y ∈ (moduleVisits m).map elemStm := by
      intro y; rw [seen_elems, walk_recordAll]
    constructor
    · rintro ⟨x, hx, hs⟩
      obtain ⟨v, hv, h⟩ := List.mem_map.1 ((e x.elem).1 (List.mem_map_of_mem hx))
      exact ⟨v, hv, h ▸ hs⟩
    · rintro ⟨v, hv, hs⟩
      obtain ⟨x, hx, h⟩ := List.mem_map.1 ((e (elemStm v)).2 (List.mem_map_of_mem hv))
      exact ⟨x, hx, h ▸ hs⟩
  rw [h1]
  constructor
  · rintro ⟨v, hv, hs⟩
    obtain ⟨i, x, hx, hv⟩ := mem_moduleVisits.1 hv
    have hx := List.mem_of_getElem? hx
    cases x with
    | func d =>
      rw [itemVisits, List.mem_append, List.mem_map, List.mem_singleton] at hv
      rcases hv with ⟨w, hw, rfl⟩ | rfl
      · obtain ⟨s, hs', hw⟩ := List.mem_flatMap.1 hw
        exact ⟨s, .inr ⟨d, hx, hs'⟩, (mem_visits _ t _ _ s (Nat.lt_succ_self _)).1 ⟨w, hw, Option.some.inj hs⟩⟩
      · simp [elemStm, stmOf] at hs
    | stm s =>
      refine ⟨s, .inl hx, ?_⟩
      rw [itemVisits, List.mem_append, List.mem_map, List.mem_singleton] at hv
      rcases hv with ⟨w, hw, rfl⟩ | rfl
      · obtain ⟨k, hk, hw⟩ := List.mem_flatMap.1 hw
        exact open_kid hk ((mem_visits _ t _ _ k (Nat.lt_succ_self _)).1 ⟨w, hw, Option.some.inj hs⟩)
      · obtain rfl : s = t := Option.some.inj hs
        exact .self
  · rintro ⟨s, hs | ⟨d, hd, hs⟩, ho⟩
    · obtain ⟨i, hi⟩ := List.mem_iff_getElem?.1 hs
      rcases open_cases ho with rfl | ⟨k, hk, ho⟩
      · exact ⟨.inr ⟨_, .body, .stm t⟩, mem_moduleVisits.2 ⟨i, _, hi, by rw [itemVisits]; simp; rfl⟩, rfl⟩
      · obtain ⟨v, hv, rfl⟩ := (mem_visits (procBefore m.body i) t _ (.stm s) k (Nat.lt_succ_self _)).2 ho
        exact ⟨.inl v, mem_moduleVisits.2 ⟨i, _, hi, by
          rw [itemVisits]
          exact List.mem_append.2 (.inl (List.mem_map_of_mem (List.mem_flatMap.2 ⟨k, hk, hv⟩)))⟩, rfl⟩
    · obtain ⟨i, hi⟩ := List.mem_iff_getElem?.1 hd
      obtain ⟨v, hv, rfl⟩ := (mem_visits (some i) t _ (.func i) s (Nat.lt_succ_self _)).2 ho
      exact ⟨.inl v, mem_moduleVisits.2 ⟨i, _, hi, by
        rw [itemVisits]
        exact List.mem_append.2 (.inl (List.mem_map_of_mem (List.mem_flatMap.2 ⟨s, hs, hv⟩)))⟩, rfl⟩

/-- Nothing is out of reach: whatever is in the tree is shown, or is in one of these places of something that is shown. -/
theorem C86_rest (m : Module) (s t : Stm) (hs : Top m s) (h : Within s t) :
    Shown m t ∨ ∃ p q, Shown m p ∧ Covered p q ∧ Within q t := by
  have key : ∀ {a b : Stm}, Within a b → Open s a → Shown m b ∨ ∃ p q, Shown m p ∧ Covered p q ∧ Within q b := by
    intro a b hw
    induction hw with
    | self => intro ho; exact .inl ((C86_shown_partial m _).2 ⟨s, hs, ho⟩)
    | part hp hq ih =>
      intro ho
      rcases allParts_kids hp with hk | hc
      · exact ih (open_trans ho (open_kid hk .self))
      · exact .inr ⟨_, _, (C86_shown_partial m _).2 ⟨s, hs, ho⟩, hc, hq⟩
  exact key h .self
where
  open_trans {a b c : Stm} (h : Open a b) (h' : Open b c) : Open a c := by
    induction h with
    | self => exact h'
    | cond _ ih => exact .cond (ih h')
    | yes hm _ ih => exact .yes hm (ih h')
    | elif hm _ ih => exact .elif hm (ih h')
    | no hm _ ih => exact .no hm (ih h')
    | body hm _ ih => exact .body hm (ih h')
    | handler hm _ ih => exact .handler hm (ih h')
    | loop hm _ ih => exact .loop hm (ih h')
    | arg hm _ ih => exact .arg hm (ih h')
    | left _ ih => exact .left (ih h')
    | right _ ih => exact .right (ih h')
    | test _ ih => exact .test (ih h')
    | first _ ih => exact .first (ih h')
    | second _ ih => exact .second (ih h')
    | ret _ ih => exact .ret (ih h')

private def nv (s : String) : Stm := .var s.toList false false
private def call (s : String) : Stm := .method s.toList [.nil] false

/-- A call in the tree of an accepted program that the callback does not see. -/
def Overlooked (code : List Char) : Prop := ∃ M s t, @Accepts stdLetters code M ∧ Top M s ∧ Within s t ∧ IsCall t ∧ ¬ Shown M t

theorem overlooked {code : List Char} {s t : Stm} (h : @Accepts stdLetters code ⟨[], [.stm s]⟩) (hw : Within s t) (hc : IsCall t)
    (hn : ∀ x ∈ (walk recorder [] ⟨[], [.stm s]⟩).1, stmOf x.elem ≠ some t) : Overlooked code :=
  ⟨_, s, t, h, .inl (by simp), hw, hc, fun ⟨x, hx, e⟩ => hn x hx e⟩

/-- The property does not hold: calls in assignments, in arguments of methods, before `Цикл`, behind `ВызватьИсключение` and
`Новый` are not shown. -/
theorem C86_violated : Overlooked "а = Б()".toList ∧ Overlooked "а.в(Б())".toList ∧ Overlooked "Пока Б() Цикл КонецЦикла".toList ∧
    Overlooked "ВызватьИсключение Б()".toList ∧ Overlooked "Новый А(Б())".toList := by
  refine ⟨?_, ?_, ?_, ?_, ?_⟩
  · exact overlooked (s := .assign (nv "а") [call "Б"]) (t := call "Б")
      (@accepts_eq stdLetters _ _ (by decide +kernel) (by decide +kernel)) (.part (by simp [allParts]) .self) trivial (by decide +kernel)
  · exact overlooked (s := .chain (.method "в".toList [call "Б"] false) (nv "а") false false) (t := call "Б")
      (@accepts_eq stdLetters _ _ (by decide +kernel) (by decide +kernel))
      (.part (t := .method "в".toList [call "Б"] false) (by simp [allParts]) (.part (by simp [allParts]) .self)) trivial (by decide +kernel)
  · exact overlooked (s := .loop .nil .nil .nil (call "Б") []) (t := call "Б")
      (@accepts_eq stdLetters _ _ (by decide +kernel) (by decide +kernel)) (.part (by simp [allParts]) .self) trivial (by decide +kernel)
  · exact overlooked (s := .throw (call "Б")) (t := call "Б")
      (@accepts_eq stdLetters _ _ (by decide +kernel) (by decide +kernel)) (.part (by simp [allParts]) .self) trivial (by decide +kernel)
  · exact overlooked (s := .new "А".toList [call "Б"]) (t := call "Б")
      (@accepts_eq stdLetters _ _ (by decide +kernel) (by decide +kernel)) (.part (by simp [allParts]) .self) trivial (by decide +kernel)

/-- The call in `а = Б()` is found in what is shown. -/
example : ∃ p q, Shown ⟨[], [.stm (.assign (nv "а") [call "Б"])]⟩ p ∧ Covered p q ∧ Within q (call "Б") := by
  have hn : ¬ Shown ⟨[], [.stm (.assign (nv "а") [call "Б"])]⟩ (call "Б") := fun ⟨x, hx, e⟩ =>
    (by decide +kernel : ∀ x ∈ (walk recorder [] ⟨[], [.stm (.assign (nv "а") [call "Б"])]⟩).1, stmOf x.elem ≠ some (call "Б")) x hx e
  exact (C86_rest _ (.assign (nv "а") [call "Б"]) (call "Б") (.inl (List.mem_singleton.2 rfl))
    (.part (by simp [allParts]) .self)).resolve_left hn

/-- A call that is shown: `Б` in `Если А(Б()) Тогда КонецЕсли`. -/
example : Shown ⟨[], [.stm (.ifS (.method "А".toList [call "Б"] false) [] [] [])]⟩ (call "Б") :=
  (C86_shown_partial _ _).2 ⟨.ifS (.method "А".toList [call "Б"] false) [] [] [], .inl (List.mem_singleton.2 rfl),
    .cond (.arg (List.mem_singleton.2 rfl) .self)⟩

end Verif
