import Verif.Walk
/-!
# Specification: walking a tree

Callbacks of the walk and what they should see.
-/
namespace Verif.Spec

/-! ## The statements of a module -/

mutual
/-- All statements in the blocks of a statement, at any depth; inner statements first, the blocks in the order: branch,
`Иначе`, `ИначеЕсли`.  (Conditions, arguments and operands have no blocks in programs; the trees of the model could have.) -/
def inside : Stm → List Stm
  | .ifS c b elifs els => inside c ++ insideL b ++ insideL els ++ insideL elifs
  | .tryS b c => insideL b ++ insideL c
  | .loop _ _ _ _ b => insideL b
  | .method _ ps _ => insideParts ps
  | .bin _ l r _ _ => inside r ++ inside l
  | .ternary c t e => inside c ++ inside t ++ inside e
  | .ret p => inside p
  | _ => []
/-- All statements of a block and of the blocks in it: in order, inner statements before the statement that contains them. -/
def insideL : List Stm → List Stm
  | [] => []
  | s :: l => inside s ++ s :: insideL l
/-- All statements in blocks of expressions. -/
def insideParts : List Stm → List Stm
  | [] => []
  | s :: l => inside s ++ insideParts l
end

/-- The same for an element of the module body, and the element itself. -/
def insideItem : Item → List (Stm ⊕ Item)
  | .func d => (insideL d.body).map .inl ++ [.inr (.func d)]
  | .stm s => (inside s).map .inl ++ [.inr (.stm s)]

/-- Parts of a statement or expression that are not statements of a block: conditions, arguments, operands. -/
inductive PartOf : Stm → Stm → Prop
  | cond {c b e f} : PartOf c (.ifS c b e f)
  | arg {n l k s} : s ∈ l → PartOf s (.method n l k)
  | left {op a b u n} : PartOf a (.bin op a b u n)
  | right {op a b u n} : PartOf b (.bin op a b u n)
  | test {a b c} : PartOf a (.ternary a b c)
  | yes {a b c} : PartOf b (.ternary a b c)
  | no {a b c} : PartOf c (.ternary a b c)
  | ret {p} : PartOf p (.ret p)

/-! ## Callbacks -/

/-- What a callback has seen: the first argument (procedure or nil) and the element. -/
structure Seen where
  root : Option Nat
  elem : Stm ⊕ Item

/-- The callback that writes down what it sees and stores nothing. -/
def recorder : Callback (List Seen) where
  stm st v := (st ++ [⟨v.root, .inl v.elem⟩], v.elem)
  item st v := (st ++ [⟨v.root, .inr v.elem⟩], v.elem)

/-- The callback stores nothing. -/
def Callback.Silent {σ : Type} (f : Callback σ) : Prop := (∀ st v, (f.stm st v).2 = v.elem) ∧ ∀ st v, (f.item st v).2 = v.elem

/-- The callback that replaces statements by `g` and leaves procedures alone. -/
def replacer (g : Stm → Stm) : Callback Unit where
  stm st v := (st, g v.elem)
  item st v := (st, match v.elem with
    | .stm s => .stm (g s)
    | .func d => .func d)

mutual
/-- Every statement in the blocks of a statement, and every argument of a call, replaced; from the inside to the outside. -/
def subst (g : Stm → Stm) : Stm → Stm
  | .ifS c b elifs els => .ifS (subst g c) (substL g b) (substL g elifs) (substL g els)
  | .tryS b c => .tryS (substL g b) (substL g c)
  | .loop a b c d body => .loop a b c d (substL g body)
  | .method n ps k => .method n (substL g ps) k
  | .bin op l r u n => .bin op (subst g l) (subst g r) u n
  | .ternary c t e => .ternary (subst g c) (subst g t) (subst g e)
  | .ret p => .ret (subst g p)
  | s => s
def substL (g : Stm → Stm) : List Stm → List Stm
  | [] => []
  | s :: l => g (subst g s) :: substL g l
end

/-- The same for an element of the module body, and the element itself. -/
def substItem (g : Stm → Stm) : Item → Item
  | .stm s => .stm (g (subst g s))
  | .func d => .func { d with body := substL g d.body }

/-- The same for a module. -/
def substModule (g : Stm → Stm) (m : Module) : Module := { m with body := m.body.map (substItem g) }

/-- The statement an entry is about. -/
def stmOf : Stm ⊕ Item → Option Stm
  | .inl s => some s
  | .inr (.stm s) => some s
  | .inr (.func _) => none

/-- Any callback, and a list of the first arguments it was called with. -/
def rooted {σ : Type} (f : Callback σ) : Callback (σ × List (Option Nat)) where
  stm st v := (((f.stm st.1 v).1, st.2 ++ [v.root]), (f.stm st.1 v).2)
  item st v := (((f.item st.1 v).1, st.2 ++ [v.root]), (f.item st.1 v).2)

/-! ## All calls -/

/-- What a statement directly consists of, as far as a walk goes into it, in the order of the walk. -/
def kids : Stm → List Stm
  | .ifS c b elifs els => c :: (b ++ els ++ elifs)
  | .tryS b c => b ++ c
  | .loop _ _ _ _ b => b
  | .method _ ps _ => ps
  | .bin _ l r _ _ => [r, l]
  | .ternary c t e => [c, t, e]
  | .ret p => [p]
  | _ => []

theorem kids_lt {s t : Stm} (h : t ∈ kids s) : sizeOf t < sizeOf s := by
  cases s <;> simp only [kids, List.mem_cons, List.mem_append, List.not_mem_nil, or_false] at h
  all_goals first
    | exact h.elim
    | (rcases h with rfl | (h | h) | h <;> first | (simp; omega) | (have := List.sizeOf_lt_of_mem h; simp; omega))
    | (rcases h with h | h <;> (have := List.sizeOf_lt_of_mem h; simp; omega))
    | (have := List.sizeOf_lt_of_mem h; simp; omega)
    | (rcases h with rfl | rfl | rfl <;> simp <;> omega)
    | (rcases h with rfl | rfl <;> simp <;> omega)
    | (subst h; simp; omega)

/-- The calls for a statement with the parent `p`: first those for its parts, whose parent is the statement, then its own. -/
def visits (root : Option Nat) (p : Parent) (s : Stm) : List (Visit Stm) :=
  ((kids s).attach.flatMap fun ⟨t, _⟩ => visits root (.stm s) t) ++ [⟨root, p, s⟩]
termination_by sizeOf s
decreasing_by exact kids_lt ‹_›

/-- The last procedure before position `i` of a module body. -/
def procBefore (l : List Item) (i : Nat) : Option Nat :=
  (List.range i).reverse.find? fun j => match l[j]? with
    | some (.func _) => true
    | _ => false

/-- The calls for an element of the module body: statements of a procedure have the procedure as parent and first argument; the
parent of the element itself is the module body. -/
def itemVisits (root : Option Nat) (i : Nat) : Item → List (Visit Stm ⊕ Visit Item)
  | .func d => (d.body.flatMap (visits (some i) (.func i))).map .inl ++ [.inr ⟨some i, .body, .func d⟩]
  | .stm s => ((kids s).flatMap (visits root (.stm s))).map .inl ++ [.inr ⟨root, .body, .stm s⟩]

/-- The calls for a module. -/
def moduleVisits (m : Module) : List (Visit Stm ⊕ Visit Item) :=
  m.body.zipIdx.flatMap fun x => itemVisits (procBefore m.body x.2) x.2 x.1

/-- One call; what the callback stores is left out. -/
def called {σ : Type} (f : Callback σ) (st : σ) : Visit Stm ⊕ Visit Item → σ
  | .inl v => (f.stm st v).1
  | .inr v => (f.item st v).1

/-- The callback that writes down all it is told and stores nothing. -/
def recordAll : Callback (List (Visit Stm ⊕ Visit Item)) where
  stm st v := (st ++ [.inl v], v.elem)
  item st v := (st ++ [.inr v], v.elem)

/-- The first argument of a call. -/
def rootOf : Visit Stm ⊕ Visit Item → Option Nat
  | .inl v => v.root
  | .inr v => v.root

/-- The element of a call directly belongs to its parent in the module `m`. -/
def RightParent (m : Module) : Visit Stm ⊕ Visit Item → Prop
  | .inr v => v.parent = .body ∧ v.elem ∈ m.body
  | .inl v => match v.parent with
    | .body => False
    | .func i => ∃ d, m.body[i]? = some (.func d) ∧ v.elem ∈ d.body
    | .stm p => v.elem ∈ kids p

end Verif.Spec
