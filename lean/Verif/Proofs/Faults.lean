import Verif.Proofs.Program
import Verif.Spec.Faults
import Mathlib.Data.List.Count
/-! The list of faults and the rules. -/
namespace Verif.LR
open Spec

/-- The list has a fault of each kind iff the rule of that kind is broken. -/
structure FaultsAre (l : List Fault) (b t r c : Prop) : Prop where
  loop : .loop ∈ l ↔ ¬ b
  throw : .throw ∈ l ↔ ¬ t
  ret : .ret ∈ l ↔ ¬ r
  colon : .colon ∈ l ↔ ¬ c
  only : ∀ x ∈ l, x = .loop ∨ x = .throw ∨ x = .ret ∨ x = .colon

theorem FaultsAre.append {l l' : List Fault} {b t r c b' t' r' c' : Prop} (h : FaultsAre l b t r c) (h' : FaultsAre l' b' t' r' c') :
    FaultsAre (l ++ l') (b ∧ b') (t ∧ t') (r ∧ r') (c ∧ c') := by
  refine ⟨?_, ?_, ?_, ?_, ?_⟩
  · rw [List.mem_append, h.loop, h'.loop, Classical.not_and_iff_not_or_not]
  · rw [List.mem_append, h.throw, h'.throw, Classical.not_and_iff_not_or_not]
  · rw [List.mem_append, h.ret, h'.ret, Classical.not_and_iff_not_or_not]
  · rw [List.mem_append, h.colon, h'.colon, Classical.not_and_iff_not_or_not]
  · intro x hx
    rcases List.mem_append.1 hx with hx | hx
    · exact h.only x hx
    · exact h'.only x hx

theorem FaultsAre.nil {b t r c : Prop} (h1 : b) (h2 : t) (h3 : r) (h4 : c) : FaultsAre [] b t r c :=
  ⟨⟨nofun, (absurd h1 ·)⟩, ⟨nofun, (absurd h2 ·)⟩, ⟨nofun, (absurd h3 ·)⟩, ⟨nofun, (absurd h4 ·)⟩, nofun⟩

theorem FaultsAre.iff {l : List Fault} {b t r c b' t' r' c' : Prop} (h : FaultsAre l b t r c) (h1 : b ↔ b') (h2 : t ↔ t') (h3 : r ↔ r')
    (h4 : c ↔ c') : FaultsAre l b' t' r' c' := by
  rw [← propext h1, ← propext h2, ← propext h3, ← propext h4]; exact h

theorem isLabel_iff (s : Stmt) : s.isLabel = true ↔ s.IsLabel := by
  unfold Stmt.IsLabel
  cases s with
  | expr e =>
    rw [Stmt.isLabel]
    constructor
    · intro h
      cases he : e.tree <;> rw [he] at h <;> first | exact ⟨e, _, rfl, he⟩ | cases h
    · rintro ⟨e', n, h, h'⟩
      injection h with h
      subst h
      rw [h']
  | _ => exact ⟨nofun, fun ⟨_, _, h, _⟩ => nomatch h⟩

theorem badColon_are (b : Block) (p : Sep) :
    FaultsAre (b.badColon p) True True True (p = .colon → ∀ x, b.last = some x → x.IsLabel) := by
  cases p with
  | semi => exact .nil trivial trivial trivial nofun
  | colon =>
    unfold Block.badColon
    cases hl : b.last with
    | none => exact .nil trivial trivial trivial fun _ _ h => nomatch h
    | some s =>
      by_cases h : s.isLabel = true
      · dsimp only; rw [if_pos h]
        exact .nil trivial trivial trivial fun _ x hx => by injection hx with hx; exact hx ▸ (isLabel_iff s).1 h
      · dsimp only; rw [if_neg h]
        refine ⟨by simp, by simp, by simp, ?_, by simp⟩
        simp only [List.mem_singleton, true_iff]
        exact fun hx => h ((isLabel_iff s).2 (hx trivial s rfl))

mutual
theorem Stmt.faults_are : ∀ (s : Stmt) (n k : Nat) (f : Bool), FaultsAre (s.faults n k f) (s.breaksOk n) (s.throwsOk k) (s.returnsOk f) s.colonsOk
  | .assign _ _, n, k, f => by
    simp only [Stmt.faults, Stmt.breaksOk, Stmt.throwsOk, Stmt.returnsOk, Stmt.colonsOk]; exact .nil trivial trivial trivial trivial
  | .expr _, n, k, f => by
    simp only [Stmt.faults, Stmt.breaksOk, Stmt.throwsOk, Stmt.returnsOk, Stmt.colonsOk]; exact .nil trivial trivial trivial trivial
  | .ifS _ t es e, n, k, f => by
    simp only [Stmt.faults, Stmt.breaksOk, Stmt.throwsOk, Stmt.returnsOk, Stmt.colonsOk]
    exact (((Block.faults_are t n k f).append (Elifs.faults_are es _ k f)).append (Else.faults_are e _ k f)).iff and_assoc and_assoc and_assoc and_assoc
  | .forEach _ _ b, n, k, f => by
    simp only [Stmt.faults, Stmt.breaksOk, Stmt.throwsOk, Stmt.returnsOk, Stmt.colonsOk]; exact Block.faults_are b _ k f
  | .forTo _ _ b, n, k, f => by
    simp only [Stmt.faults, Stmt.breaksOk, Stmt.throwsOk, Stmt.returnsOk, Stmt.colonsOk]; exact Block.faults_are b _ k f
  | .while _ b, n, k, f => by
    simp only [Stmt.faults, Stmt.breaksOk, Stmt.throwsOk, Stmt.returnsOk, Stmt.colonsOk]; exact Block.faults_are b _ k f
  | .tryS b h, n, k, f => by
    simp only [Stmt.faults, Stmt.breaksOk, Stmt.throwsOk, Stmt.returnsOk, Stmt.colonsOk]
    exact (Block.faults_are b n k f).append (Block.faults_are h _ _ f)
  | .cont, n, k, f => by
    simp only [Stmt.faults, Stmt.breaksOk, Stmt.throwsOk, Stmt.returnsOk, Stmt.colonsOk]
    by_cases h : n = 0
    · subst h; exact ⟨by simp, by simp, by simp, by simp, by simp⟩
    · rw [if_neg h]; exact .nil (Nat.pos_of_ne_zero h) trivial trivial trivial
  | .brk, n, k, f => by
    simp only [Stmt.faults, Stmt.breaksOk, Stmt.throwsOk, Stmt.returnsOk, Stmt.colonsOk]
    by_cases h : n = 0
    · subst h; exact ⟨by simp, by simp, by simp, by simp, by simp⟩
    · rw [if_neg h]; exact .nil (Nat.pos_of_ne_zero h) trivial trivial trivial
  | .throw .none, n, k, f => by
    simp only [Stmt.faults, Stmt.breaksOk, Stmt.throwsOk, Stmt.returnsOk, Stmt.colonsOk]
    by_cases h : k = 0
    · subst h; exact ⟨by simp, by simp, by simp, by simp, by simp⟩
    · rw [if_neg h]; exact .nil trivial (Nat.pos_of_ne_zero h) trivial trivial
  | .throw (.some _), n, k, f => by
    simp only [Stmt.faults, Stmt.breaksOk, Stmt.throwsOk, Stmt.returnsOk, Stmt.colonsOk]; exact .nil trivial trivial trivial trivial
  | .ret (.some _), n, k, f => by
    simp only [Stmt.faults, Stmt.breaksOk, Stmt.throwsOk, Stmt.returnsOk, Stmt.colonsOk]
    cases f
    · exact ⟨by simp, by simp, by simp, by simp, by simp⟩
    · exact .nil trivial trivial rfl trivial
  | .ret .none, n, k, f => by
    simp only [Stmt.faults, Stmt.breaksOk, Stmt.throwsOk, Stmt.returnsOk, Stmt.colonsOk]; exact .nil trivial trivial trivial trivial
theorem Elifs.faults_are : ∀ (s : Elifs) (n k : Nat) (f : Bool), FaultsAre (s.faults n k f) (s.breaksOk n) (s.throwsOk k) (s.returnsOk f) s.colonsOk
  | .nil, n, k, f => by
    simp only [Elifs.faults, Elifs.breaksOk, Elifs.throwsOk, Elifs.returnsOk, Elifs.colonsOk]; exact .nil trivial trivial trivial trivial
  | .cons _ b r, n, k, f => by
    simp only [Elifs.faults, Elifs.breaksOk, Elifs.throwsOk, Elifs.returnsOk, Elifs.colonsOk]
    exact (Block.faults_are b n k f).append (Elifs.faults_are r _ k f)
theorem Else.faults_are : ∀ (s : Else) (n k : Nat) (f : Bool), FaultsAre (s.faults n k f) (s.breaksOk n) (s.throwsOk k) (s.returnsOk f) s.colonsOk
  | .none, n, k, f => by
    simp only [Else.faults, Else.breaksOk, Else.throwsOk, Else.returnsOk, Else.colonsOk]; exact .nil trivial trivial trivial trivial
  | .some b, n, k, f => by
    simp only [Else.faults, Else.breaksOk, Else.throwsOk, Else.returnsOk, Else.colonsOk]; exact Block.faults_are b n k f
theorem Block.faults_are : ∀ (s : Block) (n k : Nat) (f : Bool), FaultsAre (s.faults n k f) (s.breaksOk n) (s.throwsOk k) (s.returnsOk f) s.colonsOk
  | .empty, n, k, f => by
    simp only [Block.faults, Block.breaksOk, Block.throwsOk, Block.returnsOk, Block.colonsOk]; exact .nil trivial trivial trivial trivial
  | .body b, n, k, f => by
    simp only [Block.faults, Block.breaksOk, Block.throwsOk, Block.returnsOk, Block.colonsOk]; exact Body.faults_are b n k f
theorem Body.faults_are : ∀ (s : Body) (n k : Nat) (f : Bool), FaultsAre (s.faults n k f) (s.breaksOk n) (s.throwsOk k) (s.returnsOk f) s.colonsOk
  | .one s, n, k, f => by
    simp only [Body.faults, Body.breaksOk, Body.throwsOk, Body.returnsOk, Body.colonsOk]; exact Stmt.faults_are s n k f
  | .sep b p s, n, k, f => by
    simp only [Body.faults, Body.breaksOk, Body.throwsOk, Body.returnsOk, Body.colonsOk]
    exact (((Block.faults_are b n k f).append (OptStmt.faults_are s _ k f)).append (badColon_are b p)).iff (iff_of_eq (and_true _)) (iff_of_eq (and_true _))
      (iff_of_eq (and_true _)) and_assoc
theorem OptStmt.faults_are : ∀ (s : OptStmt) (n k : Nat) (f : Bool), FaultsAre (s.faults n k f) (s.breaksOk n) (s.throwsOk k) (s.returnsOk f) s.colonsOk
  | .none, n, k, f => by
    simp only [OptStmt.faults, OptStmt.breaksOk, OptStmt.throwsOk, OptStmt.returnsOk, OptStmt.colonsOk]; exact .nil trivial trivial trivial trivial
  | .some s, n, k, f => by
    simp only [OptStmt.faults, OptStmt.breaksOk, OptStmt.throwsOk, OptStmt.returnsOk, OptStmt.colonsOk]; exact Stmt.faults_are s n k f
end

/-! ## Names -/

theorem firstTwice_count {x : Name} : ∀ {xs seen : List Name}, firstTwice seen xs = some x → 2 ≤ (seen ++ xs).count x
  | [], _, h => nomatch h
  | y :: xs, seen, h => by
    rw [firstTwice] at h
    by_cases hy : y ∈ seen
    · rw [if_pos hy] at h
      injection h with h
      subst h
      have := List.count_pos_iff.2 hy
      rw [List.count_append, List.count_cons_self]
      omega
    · rw [if_neg hy] at h
      have := firstTwice_count h
      rwa [List.append_assoc] at this

theorem seenAfter_sub : ∀ (xs seen : List Name), (seenAfter seen xs).Sublist (seen ++ xs)
  | [], seen => by rw [seenAfter, List.append_nil]
  | y :: xs, seen => by
    rw [seenAfter]
    by_cases hy : y ∈ seen
    · rw [if_pos hy]; exact List.sublist_append_left ..
    · rw [if_neg hy]
      have := seenAfter_sub xs (seen ++ [y])
      rwa [List.append_assoc] at this

theorem seenAfter_all : ∀ {xs seen : List Name}, firstTwice seen xs = none → seenAfter seen xs = seen ++ xs
  | [], seen, _ => by rw [seenAfter, List.append_nil]
  | y :: xs, seen, h => by
    rw [firstTwice] at h
    rw [seenAfter]
    by_cases hy : y ∈ seen
    · rw [if_pos hy] at h; cases h
    · rw [if_neg hy] at h ⊢
      rw [seenAfter_all h, List.append_assoc]; rfl

theorem localFaults_only {y : Fault} : ∀ {ns : List Names} {seen : List Name}, y ∈ localFaults seen ns →
    ∃ x, y = .twice x ∧ 2 ≤ (seen ++ ns.flatMap Names.list).count x
  | [], _, h => nomatch h
  | n :: ns, seen, h => by
    rw [localFaults] at h
    rcases List.mem_append.1 h with h | h
    · cases hf : firstTwice seen n.list with
      | none => rw [hf] at h; cases h
      | some x =>
        rw [hf] at h
        refine ⟨x, List.mem_singleton.1 h, ?_⟩
        have := firstTwice_count hf
        rw [List.flatMap_cons, ← List.append_assoc, List.count_append]
        omega
    · obtain ⟨x, h1, h2⟩ := localFaults_only h
      refine ⟨x, h1, h2.trans ?_⟩
      rw [List.flatMap_cons, ← List.append_assoc, List.count_append, List.count_append]
      have := (seenAfter_sub n.list seen).count_le x
      omega

theorem localFaults_none : ∀ {ns : List Names} {seen : List Name}, localFaults seen ns = [] → seen.Nodup → (seen ++ ns.flatMap Names.list).Nodup
  | [], seen, _, h => by rw [List.flatMap_nil, List.append_nil]; exact h
  | n :: ns, seen, h, hs => by
    rw [localFaults] at h
    obtain ⟨h1, h2⟩ := List.append_eq_nil_iff.1 h
    have h3 : firstTwice seen n.list = none := by
      cases hf : firstTwice seen n.list with
      | none => rfl
      | some x => rw [hf] at h1; cases h1
    rw [seenAfter_all h3] at h2
    have h4 := firstTwice_none.1 h3
    have := localFaults_none h2 (List.nodup_append'.2 ⟨hs, h4.2, fun a ha hb => h4.1 a hb ha⟩)
    rwa [List.append_assoc, ← List.flatMap_cons] at this

theorem globalFaults_only {y : Fault} : ∀ {xs seen : List Name}, y ∈ globalFaults seen xs → ∃ x, y = .twice x ∧ 2 ≤ (seen ++ xs).count x
  | [], _, h => nomatch h
  | z :: xs, seen, h => by
    rw [globalFaults] at h
    rcases List.mem_append.1 h with h | h
    · by_cases hz : z ∈ seen
      · rw [if_pos hz] at h
        refine ⟨z, List.mem_singleton.1 h, ?_⟩
        have := List.count_pos_iff.2 hz
        rw [List.count_append, List.count_cons_self]
        omega
      · rw [if_neg hz] at h; cases h
    · obtain ⟨x, h1, h2⟩ := globalFaults_only h
      refine ⟨x, h1, ?_⟩
      rwa [List.append_assoc] at h2

theorem globalFaults_none : ∀ {xs seen : List Name}, (∀ x, Fault.twice x ∉ globalFaults seen xs) → seen.Nodup → (seen ++ xs).Nodup
  | [], seen, _, h => by rw [List.append_nil]; exact h
  | z :: xs, seen, h, hs => by
    rw [globalFaults] at h
    have hz : z ∉ seen := by
      intro hz
      refine h z (List.mem_append_left _ ?_)
      rw [if_pos hz]; exact List.mem_singleton.2 rfl
    have := globalFaults_none (xs := xs) (seen := seen ++ [z]) (fun x hx => h x (List.mem_append_right _ hx))
      (List.nodup_append'.2 ⟨hs, List.nodup_singleton z, fun a ha hb => hz (List.mem_singleton.1 hb ▸ ha)⟩)
    rwa [List.append_assoc] at this

/-! ## Programs -/

/-- Module variables come first. -/
def Ordered (procs : Bool) (l : List Part) : Prop :=
  if procs then ∃ fs : List FuncD, l = fs.map Part.func else ∃ (vs : List VarsD) (fs : List FuncD), l = vs.map Part.vars ++ fs.map Part.func

theorem ordered_func (procs : Bool) (f : FuncD) (l : List Part) : Ordered procs (.func f :: l) ↔ Ordered true l := by
  cases procs with
  | true =>
    constructor
    · rintro ⟨fs, h⟩
      cases fs with
      | nil => cases h
      | cons g fs => injection h with h1 h2; exact ⟨fs, h2⟩
    · rintro ⟨fs, rfl⟩; exact ⟨f :: fs, rfl⟩
  | false =>
    constructor
    · rintro ⟨vs, fs, h⟩
      cases vs with
      | cons v vs => cases h
      | nil =>
        cases fs with
        | nil => cases h
        | cons g fs => injection h with h1 h2; exact ⟨fs, h2⟩
    · rintro ⟨fs, rfl⟩; exact ⟨[], f :: fs, rfl⟩

theorem ordered_vars (v : VarsD) (l : List Part) : Ordered false (.vars v :: l) ↔ Ordered false l := by
  constructor
  · rintro ⟨vs, fs, h⟩
    cases vs with
    | cons v vs => injection h with h1 h2; exact ⟨vs, fs, h2⟩
    | nil =>
      cases fs with
      | nil => cases h
      | cons g fs => cases h
  · rintro ⟨vs, fs, rfl⟩; exact ⟨v :: vs, fs, rfl⟩

theorem not_ordered_vars (v : VarsD) (l : List Part) : ¬ Ordered true (.vars v :: l) := by
  rintro ⟨fs, h⟩
  cases fs with
  | nil => cases h
  | cons g fs => cases h

theorem names_pos (n : Names) : n.list ≠ [] := nofun

/-- The names of module variables. -/
def partsNames (l : List Part) : List Name := (l.flatMap Part.globals).map GVar.name

theorem partsNames_vars (v : VarsD) (l : List Part) : partsNames (.vars v :: l) = v.names.list ++ partsNames l := by
  unfold partsNames
  rw [List.flatMap_cons, List.map_append, ← tree_names]; rfl

theorem partsNames_func (f : FuncD) (l : List Part) : partsNames (.func f :: l) = partsNames l := rfl

structure PartsAre (n : Nat) (seen : List Name) (procs : Bool) (l : List Part) (r : List Fault) : Prop where
  loop : .loop ∈ r ↔ ¬ blocksBreaksOk n (bodies l)
  throw : .throw ∈ r ↔ ¬ ∀ f ∈ l.flatMap Part.funcs, f.body.throwsOk 0
  ret : .ret ∈ r ↔ ¬ ∀ f ∈ l.flatMap Part.funcs, f.body.returnsOk f.isFunc
  colon : .colon ∈ r ↔ ¬ ∀ f ∈ l.flatMap Part.funcs, f.body.colonsOk
  late : .late ∈ r ↔ ¬ Ordered procs l
  twice : ∀ x, .twice x ∈ r → 2 ≤ (seen ++ partsNames l).count x ∨ ∃ f ∈ l.flatMap Part.funcs, 2 ≤ f.locals.count x
  names : seen.Nodup → (∀ x, .twice x ∉ r) → Ordered procs l → (seen ++ partsNames l).Nodup
  locals : (∀ x, .twice x ∉ r) → ∀ f ∈ l.flatMap Part.funcs, f.locals.Nodup
  other : .other ∉ r

theorem parts_are : ∀ (l : List Part) (n : Nat) (seen : List Name) (procs : Bool), PartsAre n seen procs l (partsFaults n seen procs l)
  | [], n, seen, procs => by
    have ho : Ordered procs [] := by cases procs; exacts [⟨[], [], rfl⟩, ⟨[], rfl⟩]
    refine ⟨?_, ?_, ?_, ?_, ?_, ?_, ?_, ?_, ?_⟩ <;> simp [partsFaults, bodies, blocksBreaksOk, ho, partsNames]
  | .vars v :: l, n, seen, procs => by
    have ih := parts_are l n (if procs then seen else seen ++ v.names.list) procs
    rw [partsFaults]
    have hb : bodies (.vars v :: l) = bodies l := rfl
    have hf : (Part.vars v :: l).flatMap Part.funcs = l.flatMap Part.funcs := rfl
    have h0 : ∀ y ∈ (if procs then v.names.list.map fun _ => Fault.late else globalFaults seen v.names.list), y = .late ∨ ∃ x, y = .twice x := by
      intro y hy
      cases procs with
      | true =>
        obtain ⟨_, -, rfl⟩ := List.mem_map.1 hy
        exact .inl rfl
      | false =>
        obtain ⟨x, h, -⟩ := globalFaults_only hy
        exact .inr ⟨x, h⟩
    have hout : ∀ y, y ≠ .late → (∀ x, y ≠ .twice x) → (y ∈ (if procs then v.names.list.map fun _ => Fault.late else globalFaults seen v.names.list) ++
        partsFaults n (if procs then seen else seen ++ v.names.list) procs l ↔ y ∈ partsFaults n (if procs then seen else seen ++ v.names.list) procs l) := by
      intro y h1 h2
      rw [List.mem_append]
      exact ⟨fun h => h.elim (fun h => ((h0 y h).elim h1 fun ⟨x, hx⟩ => h2 x hx).elim) id, .inr⟩
    refine ⟨?_, ?_, ?_, ?_, ?_, ?_, ?_, ?_, ?_⟩
    · rw [hout Fault.loop nofun nofun, hb]; exact ih.loop
    · rw [hout Fault.throw nofun nofun, hf]; exact ih.throw
    · rw [hout Fault.ret nofun nofun, hf]; exact ih.ret
    · rw [hout Fault.colon nofun nofun, hf]; exact ih.colon
    · cases procs with
      | true =>
        refine iff_of_true (List.mem_append_left _ ?_) (not_ordered_vars v l)
        exact List.mem_map.2 ⟨v.names.first, List.mem_cons_self, rfl⟩
      | false =>
        rw [ordered_vars, ← ih.late, List.mem_append]
        refine ⟨fun h => h.elim (fun h => ?_) id, .inr⟩
        obtain ⟨x, h, -⟩ := globalFaults_only h
        cases h
    · intro x hx
      rw [partsNames_vars, hf]
      rcases List.mem_append.1 hx with hx | hx
      · left
        cases procs with
        | true =>
          obtain ⟨_, -, h⟩ := List.mem_map.1 hx
          cases h
        | false =>
          obtain ⟨x', h, h2⟩ := globalFaults_only hx
          injection h with h
          subst h
          rw [← List.append_assoc, List.count_append]
          omega
      · refine (ih.twice x hx).imp_left fun h => h.trans ?_
        cases procs with
        | true =>
          simp only [if_true, List.count_append]
          omega
        | false => simp [List.append_assoc]
    · intro hs ht ho
      cases procs with
      | true => exact (not_ordered_vars v l ho).elim
      | false =>
        rw [partsNames_vars, ← List.append_assoc]
        refine ih.names (globalFaults_none (fun x hx => ht x (List.mem_append_left _ hx)) hs)
          (fun x hx => ht x (List.mem_append_right _ hx)) ((ordered_vars v l).1 ho)
    · intro ht
      rw [hf]
      exact ih.locals fun x hx => ht x (List.mem_append_right _ hx)
    · rw [hout Fault.other nofun nofun]; exact ih.other
  | .func f :: l, n, seen, procs => by
    have ih := parts_are l (n + f.body.whiles) seen true
    have hB := Block.faults_are f.body n 0 f.isFunc
    rw [partsFaults, FuncD.faults, List.append_assoc]
    have hb : bodies (.func f :: l) = f.body :: bodies l := rfl
    have hf : (Part.func f :: l).flatMap Part.funcs = f :: l.flatMap Part.funcs := rfl
    have hout : ∀ y, (∀ x, y ≠ .twice x) → (y ∈ localFaults [] f.vars ++ (f.body.faults n 0 f.isFunc ++ partsFaults (n + f.body.whiles) seen true l) ↔
        y ∈ f.body.faults n 0 f.isFunc ∨ y ∈ partsFaults (n + f.body.whiles) seen true l) := by
      intro y h1
      rw [List.mem_append, List.mem_append]
      exact ⟨fun h => h.elim (fun h => (let ⟨x, hx, _⟩ := localFaults_only h; h1 x hx).elim) id, .inr⟩
    refine ⟨?_, ?_, ?_, ?_, ?_, ?_, ?_, ?_, ?_⟩
    · rw [hout Fault.loop nofun, hb, hB.loop, ih.loop, blocksBreaksOk, Classical.not_and_iff_not_or_not]
    · rw [hout Fault.throw nofun, hf, hB.throw, ih.throw, List.forall_mem_cons, Classical.not_and_iff_not_or_not]
    · rw [hout Fault.ret nofun, hf, hB.ret, ih.ret, List.forall_mem_cons, Classical.not_and_iff_not_or_not]
    · rw [hout Fault.colon nofun, hf, hB.colon, ih.colon, List.forall_mem_cons, Classical.not_and_iff_not_or_not]
    · rw [hout Fault.late nofun, ordered_func, ih.late]
      refine ⟨fun h => h.elim (fun h => ?_) id, .inr⟩
      rcases hB.only _ h with h | h | h | h <;> cases h
    · intro x hx
      rw [partsNames_func, hf]
      rcases List.mem_append.1 hx with hx | hx
      · obtain ⟨x', h, h2⟩ := localFaults_only hx
        injection h with h
        subst h
        exact .inr ⟨f, List.mem_cons_self, h2⟩
      · rcases List.mem_append.1 hx with hx | hx
        · rcases hB.only _ hx with h | h | h | h <;> cases h
        · exact (ih.twice x hx).imp_right fun ⟨g, hg, h⟩ => ⟨g, List.mem_cons_of_mem _ hg, h⟩
    · intro hs ht ho
      exact ih.names hs (fun x hx => ht x (List.mem_append_right _ (List.mem_append_right _ hx))) ((ordered_func procs f l).1 ho)
    · intro ht
      rw [hf, List.forall_mem_cons]
      refine ⟨?_, ih.locals fun x hx => ht x (List.mem_append_right _ (List.mem_append_right _ hx))⟩
      refine localFaults_none (seen := []) ?_ List.nodup_nil
      refine List.eq_nil_iff_forall_not_mem.2 fun y hy => ?_
      obtain ⟨x, rfl, -⟩ := localFaults_only hy
      exact ht x (List.mem_append_left _ hy)
    · rw [hout Fault.other nofun]
      rintro (h | h)
      · rcases hB.only _ h with h | h | h | h <;> cases h
      · exact ih.other h

theorem blocksBreaksOk_append : ∀ (l : List Block) (n : Nat) (b : Block), blocksBreaksOk n (l ++ [b]) ↔
    blocksBreaksOk n l ∧ b.breaksOk (n + (l.map Block.whiles).sum)
  | [], n, b => by simp [blocksBreaksOk]
  | c :: l, n, b => by
    rw [List.cons_append, blocksBreaksOk, blocksBreaksOk_append l, blocksBreaksOk, List.map_cons, List.sum_cons, and_assoc, Nat.add_assoc]

theorem blocks_forall (P : Program) (p : Block → Prop) : (∀ b ∈ P.blocks, p b) ↔ (∀ f ∈ P.funcs, p f.body) ∧ p P.body := by
  rw [Program.blocks, List.forall_mem_append, List.forall_mem_map, List.forall_mem_singleton]

structure ProgramAre (P : Program) : Prop where
  loop : .loop ∈ P.faults ↔ ¬ P.breaksOk
  throw : .throw ∈ P.faults ↔ ¬ P.throwsOk
  ret : .ret ∈ P.faults ↔ ¬ P.returnsOk
  colon : .colon ∈ P.faults ↔ ¬ P.colonsOk
  late : .late ∈ P.faults ↔ ¬ P.ordered
  twice : ∀ x, .twice x ∈ P.faults → 2 ≤ (P.globals.map GVar.name).count x ∨ ∃ f ∈ P.funcs, 2 ≤ f.locals.count x
  distinct : (∀ x, .twice x ∉ P.faults) → P.ordered → P.distinct
  other : .other ∉ P.faults

theorem program_are (P : Program) : ProgramAre P := by
  have h1 := parts_are P.parts 0 [] false
  have h2 := Block.faults_are P.body (P.funcs.map fun f => f.body.whiles).sum 0 false
  have hx : ∀ y, y ∈ P.faults ↔ y ∈ partsFaults 0 [] false P.parts ∨ y ∈ P.body.faults (P.funcs.map fun f => f.body.whiles).sum 0 false :=
    fun y => List.mem_append
  refine ⟨?_, ?_, ?_, ?_, ?_, ?_, ?_, ?_⟩
  · rw [hx, h1.loop, h2.loop, ← Classical.not_and_iff_not_or_not]
    show _ ↔ ¬ blocksBreaksOk 0 (bodies P.parts ++ [P.body])
    rw [blocksBreaksOk_append, Nat.zero_add]
    simp [bodies, Program.funcs, Function.comp_def]
  · rw [hx, h1.throw, h2.throw, ← Classical.not_and_iff_not_or_not]
    rw [Program.throwsOk, blocks_forall]; rfl
  · rw [hx, h1.ret, h2.ret, ← Classical.not_and_iff_not_or_not]
    simp [Program.returnsOk, Program.funcs]
  · rw [hx, h1.colon, h2.colon, ← Classical.not_and_iff_not_or_not]
    rw [Program.colonsOk, blocks_forall]; rfl
  · rw [hx, h1.late]
    refine ⟨fun h => h.elim id fun h => ?_, .inl⟩
    rcases h2.only _ h with h | h | h | h <;> cases h
  · intro x h
    rcases (hx _).1 h with h | h
    · exact h1.twice x h
    · rcases h2.only _ h with h | h | h | h <;> cases h
  · intro ht ho
    exact ⟨h1.names List.nodup_nil (fun x h => ht x ((hx _).2 (.inl h))) ho, h1.locals fun x h => ht x ((hx _).2 (.inl h))⟩
  · intro h
    rcases (hx _).1 h with h | h
    · exact h1.other h
    · rcases h2.only _ h with h | h | h | h <;> cases h

end Verif.LR
