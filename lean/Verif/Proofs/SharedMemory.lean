import Verif.Proofs.Memory
import Verif.Spec.SharedMemory
import Verif.Concurrent
/-!
# Goroutines in one memory do what they do alone
-/
namespace Verif.Shared
open Lexer Tables List Mem

/-! ## Programs and what they do without interruption -/

/-- A program run to its end. -/
def run {α : Type} : Prog α → Heap → α × Heap
  | .ret a, h => (a, h)
  | .read i k, h => run (k (h.arr i)) h
  | .write i c k, h => run k (h.set i c)
  | .new c k, h => run (k h.length) (h ++ [c h.length])

theorem run_bind {α β : Type} (p : Prog α) (f : α → Prog β) : ∀ h, run (p.bind f) h = run (f (run p h).1) (run p h).2 := by
  induction p with
  | ret a => exact fun _ => rfl
  | read i k ih => exact fun h => ih _ h
  | write i c k ih => exact fun h => ih _
  | new c k ih => exact fun h => ih _ _

theorem elems_run (s : Slice) (h : Heap) : run (elemsM s) h = (h.elems s, h) := by
  rcases s with _ | ⟨i, _ | n⟩ <;> rfl

theorem append_run (g : Nat → Nat → Nat) (s : Slice) (x : HStm) (h : Heap) : run (appendM g s x) h = h.append g s x := by
  rcases s with _ | ⟨i, n⟩
  · rfl
  · unfold appendM Heap.append
    dsimp only [run]
    split <;> rfl

/-- The outcome of a round, with the memory. -/
def at_ (k : Heap) : HRes → HStep
  | .go c => .go { c with heap := k }
  | .done n a => .done n a k

theorem act_run (g : Nat → Nat → Nat) (p : Nat) (d : Nat → HSV) (v : HSV) (a : HAst) (h : Heap) :
    ((run (actM g p d v a) h).1.map fun r => (r.1, r.2, (run (actM g p d v a) h).2)) = actH g p d v a h := by
  unfold actM actH
  split
  · rw [run_bind, elems_run]; rfl
  · rw [run_bind, elems_run]; rfl
  · rfl
  · rw [run_bind, elems_run]
    dsimp only
    cases checkColonH a (d 2).token (h.elems (d 1).opt_body) with
    | error p => rfl
    | ok a =>
      dsimp only
      show _ = if (d 3).stmt.isNil then Except.ok (v, a, h) else _
      split
      · rfl
      · rw [run_bind, append_run]
        rfl
  · rename_i n2 n3 n18 n19
    split
    · exact absurd rfl n2
    · exact absurd rfl n3
    · exact absurd rfl n18
    · exact absurd rfl n19
    · show (actP _ d v a).map _ = actP _ d v a >>= _
      cases actP _ d v a <;> rfl

theorem reduce_run (g : Nat → Nat → Nat) (C : HCfg) (p : Nat) (h : Heap) :
    (run (reduceM g C p) h).1.map (at_ (run (reduceM g C p) h).2) = reduceH g { C with heap := h } p := by
  unfold reduceM reduceH
  dsimp only
  generalize popNH (get yyR2 p).toNat C.live C.stale = q
  obtain ⟨l, st⟩ := q
  cases l with
  | nil => rfl
  | cons x l =>
    dsimp only
    rw [run_bind, ← act_run]
    rcases run (actM g p (fun i => st.getD (i - 1) {}) (st.headD {}) C.ast) h with ⟨_ | r, h'⟩ <;> rfl

theorem syntaxError_run (C : HCfg) (h : Heap) :
    (run (syntaxErrorM C) h).1.map (at_ (run (syntaxErrorM C) h).2) = syntaxErrorH { C with heap := h } := by
  unfold syntaxErrorM syntaxErrorH
  dsimp only [run]
  cases C.ast.errorH .syntaxError with
  | error p => rfl
  | ok a =>
    show Except.ok (at_ h _) = (match recoverH C.live with
      | none => Except.ok (HStep.done 1 a h)
      | some (s', live) => Except.ok (HStep.go (({ C with ast := a, heap := h, live := live } : HCfg).push s' {})))
    cases recoverH C.live <;> rfl

section
variable [Letters]

theorem fetch_heap (C : HCfg) (h : Heap) : fetchH { C with heap := h } = ({ (fetchH C).1 with heap := h }, (fetchH C).2) := by
  obtain ⟨x, t, look, live, stale, k⟩ := C
  unfold fetchH
  cases look with
  | some t => rfl
  | none =>
    dsimp only
    rcases lexCall x.ctl t with ⟨a, t, _ | k⟩ <;> rfl

theorem default_run (g : Nat → Nat → Nat) (C : HCfg) (s : Nat) (h : Heap) :
    (run (defaultM g C s) h).1.map (at_ (run (defaultM g C s) h).2) = defaultActionH g { C with heap := h } s := by
  unfold defaultM defaultActionH
  dsimp only
  rw [fetch_heap C h]
  split
  · split
    · rfl
    · split
      · exact syntaxError_run _ h
      · exact reduce_run g _ _ h
  · split
    · exact syntaxError_run C h
    · exact reduce_run g C _ h

/-- Without interruption, a round does what `stepH` does. -/
theorem step_run (g : Nat → Nat → Nat) (C : HCfg) (h : Heap) :
    (run (stepM g C) h).1.map (at_ (run (stepM g C) h).2) = stepH g { C with heap := h } := by
  obtain ⟨x, t, look, live, stale, k₀⟩ := C
  unfold stepM stepH
  cases live with
  | nil => rfl
  | cons y l =>
    obtain ⟨s, w⟩ := y
    have e1 := fetch_heap ⟨x, t, look, (s, w) :: l, stale, k₀⟩ h
    dsimp only at e1 ⊢
    rw [e1]
    split
    · exact default_run g _ s h
    · generalize fetchH ⟨x, t, look, (s, w) :: l, stale, k₀⟩ = q
      dsimp only
      cases shiftOf s q.2 with
      | none => exact default_run g _ s h
      | some s' => rfl

end

/-! ## What a round accesses -/

/-- The memory `k` has at least the arrays of `h`, with the same contents where `P` holds. -/
def Ext (P : Nat → Prop) (h k : Heap) : Prop := h.length ≤ k.length ∧ ∀ i, P i → k.arr i = h.arr i

theorem Ext.refl (P : Nat → Prop) (h : Heap) : Ext P h h := ⟨Nat.le_refl _, fun _ _ => rfl⟩

theorem Ext.trans {P : Nat → Prop} {h k m : Heap} (H : Ext P h k) (K : Ext P k m) : Ext P h m :=
  ⟨H.1.trans K.1, fun i hi => (K.2 i hi).trans (H.2 i hi)⟩

/-- The program makes at most `n` accesses, reads and writes only arrays of `P`, and allocates only at its end. -/
inductive Safe {α : Type} (P : Nat → Prop) : Nat → Prog α → Prop
  | ret {n a} : Safe P n (.ret a)
  | read {n i k} : P i → (∀ c, Safe P n (k c)) → Safe P (n + 1) (.read i k)
  | write {n i c k} : P i → Safe P n k → Safe P (n + 1) (.write i c k)
  | new {n c k} : (∀ j, ∃ r, k j = .ret r) → Safe P (n + 1) (.new c k)

theorem Safe.bind {α β : Type} {P : Nat → Prop} {n : Nat} {p : Prog α} {f : α → Prog β} (H : Safe P n p) (hf : ∀ a, ∃ b, f a = .ret b) :
    Safe P n (p.bind f) := by
  induction H with
  | @ret n a =>
    obtain ⟨b, e⟩ := hf a
    show Safe P n (f a)
    rw [e]
    exact .ret
  | read h _ ih => exact .read h ih
  | write h _ ih => exact .write h ih
  | @new n c k h =>
    refine .new fun j => ?_
    obtain ⟨r, e⟩ := h j
    obtain ⟨b, e'⟩ := hf r
    exact ⟨b, by rw [e]; exact e'⟩

/-- The slice is in an array of `P`, or empty. -/
def Seen (P : Nat → Prop) (s : Slice) : Prop := ∀ i n, s = some (i, n) → P i ∨ n = 0

theorem elems_safe {β : Type} {P : Nat → Prop} {s : Slice} {n : Nat} {f : List HStm → Prog β} (hs : Seen P s) (hf : ∀ l, Safe P n (f l))
    (hf' : ∀ l, Safe P (n + 1) (f l)) : Safe P (n + 1) ((elemsM s).bind f) := by
  rcases s with _ | ⟨i, _ | m⟩
  · exact hf' _
  · exact hf' _
  · rcases hs i (m + 1) rfl with h | h
    · exact .read h fun c => hf _
    · omega

theorem append_safe (g : Nat → Nat → Nat) {P : Nat → Prop} {s : Slice} (x : HStm) {n : Nat} (hs : ∀ i n, s = some (i, n) → P i) :
    Safe P (n + 2) (appendM g s x) := by
  rcases s with _ | ⟨i, m⟩
  · exact .new fun j => ⟨_, rfl⟩
  · refine .read (hs i m rfl) fun c => ?_
    split
    · exact .write (hs i m rfl) .ret
    · exact .new fun j => ⟨_, rfl⟩

theorem act_safe (g : Nat → Nat → Nat) {P : Nat → Prop} (p : Nat) {d : Nat → HSV} {v : HSV} (x : HAst)
    (hd : ∀ i, Seen P (d i).body ∧ Seen P (d i).opt_body) (hv : ∀ i n, v.body = some (i, n) → P i) : Safe P 3 (actM g p d v x) := by
  unfold actM
  split
  · exact elems_safe (hd 1).1 (fun l => .ret) fun l => .ret
  · exact elems_safe (hd 2).2 (fun l => .ret) fun l => .ret
  · exact .new fun j => ⟨_, rfl⟩
  · have all : ∀ n l, Safe (α := Except Panic (HSV × HAst)) P (n + 2) (match checkColonH x (d 2).token l with
        | .error p => .ret (.error p)
        | .ok a =>
          if (d 3).stmt.isNil then .ret (.ok (v, a))
          else (appendM g v.body (d 3).stmt).bind fun s => .ret (.ok ({ v with body := s }, a))) := by
      intro n l
      split
      · exact .ret
      · split
        · exact .ret
        · exact (append_safe g _ hv).bind fun _ => ⟨_, rfl⟩
    exact elems_safe (hd 1).2 (all 0) (all 1)
  · exact .ret

/-- Whatever the arrays outside `P` contain, the configuration of the driver on values is read from the one in memory. -/
def Keeps (P : Nat → Prop) (h : Heap) (C : HCfg) (c : Cfg) : Prop := ∀ k, Ext P h k → ReadsC [] { C with heap := k } c

theorem ext_set {P : Nat → Prop} {h : Heap} {i : Nat} (hi : ¬ P i) (p : Nat × List HStm) : Ext P h (h.set i p) :=
  ⟨by rw [length_set], fun j hj => by rw [arr_set_ne (by rintro rfl; exact hi hj)]⟩

theorem seen_of {P : Nat → Prop} {h : Heap} {s : Slice} {l : List Stm} (H : ∀ k, Ext P h k → ReadsB k s l) : Seen P s := by
  rintro i n rfl
  by_cases hi : P i
  · exact .inl hi
  · have := H _ (ext_set hi (0, []))
    cases this with
    | arr hn _ =>
      refine .inr ?_
      by_cases hl : i < h.length
      · rw [arr_set_eq hl] at hn
        simpa using hn
      · rw [arr_ge (by rw [length_set]; omega)] at hn
        simpa using hn

theorem Keeps.slot {P : Nat → Prop} {h : Heap} {C : HCfg} {c : Cfg} (H : Keeps P h C c) {s : Slice}
    (hs : s ∈ (C.live.reverse.map fun x => x.2.body) ++ C.stale.map HSV.body) : ∀ i n, s = some (i, n) → P i := by
  rintro i n rfl
  by_contra hi
  have h1 := (H _ (ext_set hi (0, replicate (n + 1) .nil))).own.tip _ hs i n rfl
  obtain ⟨h2, h3⟩ := h1
  have hl : i < h.length := by simpa using h2
  change (Heap.arr (h.set i _) i).2.length = n at h3
  rw [arr_set_eq hl, length_replicate] at h3
  omega

theorem reduce_safe (g : Nat → Nat → Nat) {P : Nat → Prop} {h : Heap} {C : HCfg} {c : Cfg} (H : Keeps P h C c) (p : Nat) :
    Safe P 3 (reduceM g C p) := by
  unfold reduceM
  have hp := fun k hk => pop_reads (get yyR2 p).toNat (H k hk).live (H k hk).stale
  have hslot := fun s hs => H.slot (s := s) hs
  rw [← (hp h (.refl _ _)).2.2] at hslot
  have hp2 : ∀ k, Ext P h k → Forall₂ (ReadsV k) (popNH (get yyR2 p).toNat C.live C.stale).2
      (popN (get yyR2 p).toNat c.live c.stale).2 := fun k hk => (hp k hk).2.1
  clear hp
  revert hslot hp2
  dsimp only
  generalize popNH (get yyR2 p).toNat C.live C.stale = q
  generalize popN (get yyR2 p).toNat c.live c.stale = q'
  obtain ⟨l, st⟩ := q
  obtain ⟨l', st'⟩ := q'
  intro hslot hp2
  dsimp only at hslot hp2 ⊢
  cases l with
  | nil => exact .ret
  | cons x l =>
    refine (act_safe g p C.ast (fun i =>
      ⟨seen_of fun k hk => (getD_reads (hp2 k hk) (i - 1)).body, seen_of fun k hk => (getD_reads (hp2 k hk) (i - 1)).opt_body⟩) ?_).bind
      fun _ => ⟨_, rfl⟩
    cases st with
    | nil => exact nofun
    | cons z st => exact hslot _ (by simp)

section
variable [Letters]

theorem Keeps.fetch {P : Nat → Prop} {h : Heap} {C : HCfg} {c : Cfg} (H : Keeps P h C c) : Keeps P h (fetchH C).1 (fetch c).1 := by
  intro k hk
  have := (fetch_reads (H k hk)).1
  rwa [fetch_heap] at this

theorem default_safe (g : Nat → Nat → Nat) {P : Nat → Prop} {h : Heap} {C : HCfg} {c : Cfg} (H : Keeps P h C c) (s : Nat) :
    Safe P 3 (defaultM g C s) := by
  unfold defaultM
  dsimp only
  split
  · split
    · exact .ret
    · split
      · exact .ret
      · exact reduce_safe g H.fetch _
  · split
    · exact .ret
    · exact reduce_safe g H _

theorem step_safe (g : Nat → Nat → Nat) {P : Nat → Prop} {h : Heap} {C : HCfg} {c : Cfg} (H : Keeps P h C c) : Safe P 3 (stepM g C) := by
  unfold stepM
  split
  · exact .ret
  · split
    · exact default_safe g H _
    · split
      · exact .ret
      · exact default_safe g H.fetch _

end

/-! ## A round that is interrupted -/

theorem _root_.Verif.Mem.ReadsC.grow {C : HCfg} {c : Cfg} {k k' : Heap} (H : ReadsC [] { C with heap := k } c) (hk : k <+: k') :
    ReadsC [] { C with heap := k' } c := by
  have hl := le_of_prefix hk
  refine ⟨ReadsA.mono hl H.ast, H.lval, H.look, H.live.imp fun _ _ x => ⟨x.1, ReadsV.mono hl x.2⟩, H.stale.imp fun _ _ => ReadsV.mono hl,
    nil_prefix, H.own.new, fun s hs i n e => ?_, H.own.apart⟩
  obtain ⟨h1, h2⟩ := H.own.tip s hs i n e
  obtain ⟨r, rfl⟩ := hk
  dsimp only at h1 h2 ⊢
  refine ⟨by rw [length_append]; omega, ?_⟩
  rw [← h2]
  unfold Heap.arr
  rw [getD_append _ _ _ _ h1]

theorem grow {r : Except Panic HRes} {S : Except Panic Step} {k k' : Heap} (H : Both (ReadsStep []) (r.map (at_ k)) S) (hk : k <+: k') :
    Both (ReadsStep []) (r.map (at_ k')) S := by
  rcases r with p | C | ⟨n, x⟩
  · exact H
  · cases H with
    | ok H => cases H with | go H => exact .ok (.go (H.grow hk))
  · cases H with
    | ok H => cases H with | done H _ => exact .ok (.done (ReadsA.mono (le_of_prefix hk) H) nil_prefix)

/-- What is left of a round, in memory `h`, has the outcome `S` on values, whatever the arrays outside `P` contain and whatever is allocated
in the meantime; it makes at most `n` accesses. -/
inductive Good (S : Except Panic Step) : Nat → (Nat → Prop) → Heap → Prog (Except Panic HRes) → Prop
  | ret {n P h r} : (∀ k, Ext P h k → Both (ReadsStep []) (r.map (at_ k)) S) → Good S n P h (.ret r)
  | read {n P h i f} : P i → Good S n P h (f (h.arr i)) → Good S (n + 1) P h (.read i f)
  | write {n P h i c f} : P i → Good S n P (h.set i c) f → Good S (n + 1) P h (.write i c f)
  | new {n P h c f} : (∀ h', Ext P h h' → Good S n (fun i => P i ∨ i = h'.length) (h' ++ [c h'.length]) (f h'.length)) →
      Good S (n + 1) P h (.new c f)

theorem ext_sets {P : Nat → Prop} {h h' : Heap} {i : Nat} {c : Nat × List HStm} (hi : i < h.length) (H : Ext P h h') :
    Ext P (h.set i c) (h'.set i c) := by
  refine ⟨by rw [length_set, length_set]; exact H.1, fun j hj => ?_⟩
  by_cases e : i = j
  · subst e
    rw [arr_set_eq hi, arr_set_eq (Nat.lt_of_lt_of_le hi H.1)]
  · rw [arr_set_ne e, arr_set_ne e, H.2 j hj]

/-- What others do does not matter. -/
theorem Good.ext {S : Except Panic Step} {n : Nat} {P : Nat → Prop} {h : Heap} {p : Prog (Except Panic HRes)} (H : Good S n P h p) :
    (∀ i, P i → i < h.length) → ∀ h', Ext P h h' → Good S n P h' p := by
  induction H with
  | ret H => exact fun _ h' hh => .ret fun k hk => H k (hh.trans hk)
  | read hi _ ih => exact fun hP h' hh => .read hi (by rw [hh.2 _ hi]; exact ih hP h' hh)
  | write hi _ ih =>
    exact fun hP h' hh => .write hi (ih (fun i h => by rw [length_set]; exact hP i h) _ (ext_sets (hP _ hi) hh))
  | new H _ => exact fun _ h' hh => .new fun k hk => H k (hh.trans hk)

theorem set_back {k : Heap} {i : Nat} {c d : Nat × List HStm} (hi : i < k.length) (hc : k.arr i = c) : (k.set i d).set i c = k := by
  rw [set_set]
  unfold Heap.arr at hc
  rw [getD_eq_getElem _ _ hi] at hc
  rw [← hc]
  exact set_getElem_self hi

theorem take_snoc {k : Heap} {n : Nat} {c : Nat × List HStm} (hn : n < k.length) (hc : k.arr n = c) : k.take n ++ [c] <+: k := by
  unfold Heap.arr at hc
  rw [getD_eq_getElem _ _ hn] at hc
  subst hc
  rw [take_append_getElem]
  exact take_prefix _ _

theorem arr_take {k : Heap} {n i : Nat} (hi : i < n) (hn : n ≤ k.length) : Heap.arr (k.take n) i = k.arr i := by
  unfold Heap.arr
  rw [getD_eq_getElem _ _ (by rw [length_take]; omega), getD_eq_getElem _ _ (by omega), getElem_take]

/-- A round that is right without interruption is right with interruptions. -/
theorem good_of {S : Except Panic Step} {n : Nat} {P : Nat → Prop} {p : Prog (Except Panic HRes)} (H : Safe P n p) :
    ∀ {h : Heap}, (∀ i, P i → i < h.length) → (∀ k, Ext P h k → Both (ReadsStep []) ((run p k).1.map (at_ (run p k).2)) S) →
      Good S n P h p := by
  induction H with
  | ret => exact fun _ hr => .ret hr
  | read hi _ ih =>
    refine fun hP hr => .read hi (ih _ hP fun k hk => ?_)
    have := hr k hk
    unfold run at this
    rwa [hk.2 _ hi] at this
  | @write n i c f hi _ ih =>
    intro h hP hr
    refine .write hi (ih (fun i hi => by rw [length_set]; exact hP i hi) fun k hk => ?_)
    have hl := hP i hi
    have hl' : i < k.length := by have := hk.1; rw [length_set] at this; omega
    have hc : k.arr i = c := by rw [hk.2 i hi, arr_set_eq hl]
    have := hr (k.set i (h.arr i)) ⟨by have := hk.1; rw [length_set] at this ⊢; exact this, fun j hj => ?_⟩
    · unfold run at this
      rwa [set_back hl' hc] at this
    · by_cases e : i = j
      · subst e; rw [arr_set_eq hl']
      · rw [arr_set_ne e, hk.2 j hj, arr_set_ne e]
  | @new n c f hf =>
    intro h hP hr
    refine .new fun h' hh => ?_
    obtain ⟨r, e⟩ := hf h'.length
    rw [e]
    refine .ret fun k hk => ?_
    have hl : h'.length < k.length := by have := hk.1; rw [length_append, length_singleton] at this; omega
    have hc : k.arr h'.length = c h'.length := by rw [hk.2 _ (.inr rfl), arr_append_eq]
    have ht : length (k.take h'.length) = h'.length := by rw [length_take]; omega
    have := hr (k.take h'.length) ⟨by rw [ht]; exact hh.1, fun i hi => ?_⟩
    · unfold run at this
      rw [ht, e] at this
      exact grow this (take_snoc hl hc)
    · have hi' := Nat.lt_of_lt_of_le (hP i hi) hh.1
      rw [arr_take hi' (by omega), hk.2 i (.inl hi), arr_append_lt hi', hh.2 i hi]

/-! ## One goroutine -/

section
variable [Letters]

/-- The goroutine on values is read from the one in memory, whatever the arrays outside `P` contain; the number bounds how often it has to be
scheduled until it has ended the present round. -/
inductive Follows (P : Nat → Prop) (h : Heap) : Nat → HProc → Proc → Prop
  | start {x a} : (∀ k, Ext P h k → ReadsA k x a) → Follows P h 1 (.start x) (.start a)
  | loop {C c} : Keeps P h C c → Follows P h 5 (.loop C) (.loop c)
  | mid {n p c} : n ≤ 3 → Good (step c) n P h p → Follows P h (n + 1) (.mid p) (.loop c)
  | done {x a} : (∀ k, Ext P h k → ReadsA k x a) → Follows P h 1 (.done x) (.done a)

/-- Nothing but arrays of `P` and new ones has changed. -/
def Frame (P : Nat → Prop) (h h' : Heap) : Prop := h.length ≤ h'.length ∧ ∀ i < h.length, ¬ P i → h'.arr i = h.arr i

/-- The arrays of a goroutine after it was scheduled. -/
def Mine (P : Nat → Prop) (h h' : Heap) (i : Nat) : Prop := P i ∨ (h.length ≤ i ∧ i < h'.length)

/-- What a goroutine does, in memory and on values: both panic, or the one in memory goes on within the round, or both end it. -/
inductive Next (P : Nat → Prop) (h : Heap) (q : Proc) : Nat → Except Panic (HProc × Heap) → Except Panic Proc → Prop
  | error {r} (e) : Next P h q r (.error e) (.error e)
  | still {r p h' y} : Frame P h h' → Follows (Mine P h h') h' r p q → Next P h q (r + 1) (.ok (p, h')) y
  | round {r r' p h' q'} : Frame P h h' → 1 ≤ r → r' ≤ 5 → Follows (Mine P h h') h' r' p q' → Next P h q r (.ok (p, h')) (.ok q')

omit [Letters] in
theorem Frame.refl (P : Nat → Prop) (h : Heap) : Frame P h h := ⟨Nat.le_refl _, fun _ _ _ => rfl⟩

theorem Follows.imp {P Q : Nat → Prop} {h : Heap} {r : Nat} {p : HProc} {q : Proc} (H : Follows P h r p q) (hPQ : ∀ i, P i ↔ Q i) :
    Follows Q h r p q := by
  have : P = Q := funext fun i => propext (hPQ i)
  subst this
  exact H

theorem Follows.same {P : Nat → Prop} {h : Heap} {r : Nat} {p : HProc} {q : Proc} (H : Follows P h r p q) : Follows (Mine P h h) h r p q :=
  H.imp fun i => ⟨.inl, fun h => h.elim id fun h => by omega⟩

theorem move_next (g : Nat → Nat → Nat) {P : Nat → Prop} {h : Heap} {r : Nat} {p : HProc} {q : Proc} (hP : ∀ i, P i → i < h.length)
    (H : Follows P h r p q) : Next P h q r (p.move g h) q.move := by
  cases H with
  | @start x a H =>
    unfold HProc.move Proc.move
    dsimp only
    rw [show x.ctl.code = a.code by rw [(H h (.refl _ _)).ctl]]
    split
    · exact .round (.refl _ _) (by omega) (by omega) (Follows.done H).same
    · refine .round (.refl _ _) (by omega) (by omega) (Follows.loop fun k hk => ?_).same
      have hr := H k hk
      exact ⟨hr, by show startTok x.ctl.code = _; rw [hr.ctl]; rfl, rfl, .cons ⟨rfl, ReadsV.zero _⟩ .nil, .nil,
        ⟨nil_prefix, by simp [initCfgH], by simp [initCfgH, Tip], by simp [initCfgH]⟩⟩
  | @done x a H => exact .round (.refl _ _) (by omega) (by omega) (Follows.done H).same
  | @loop C c H =>
    refine .still (.refl _ _) (Follows.mid (Nat.le_refl _) (good_of (step_safe g H) hP fun k hk => ?_)).same
    rw [step_run]
    exact step_reads g (H k hk)
  | @mid n p c hn H =>
    cases H with
    | @ret n P h r H =>
      have h0 := H h (.refl _ _)
      unfold HProc.move Proc.move
      rcases r with e | C | ⟨m, x⟩
      · dsimp only
        revert h0
        generalize step c = S
        intro h0
        cases h0
        exact .error e
      · dsimp only
        revert h0 H
        generalize step c = S
        intro H h0
        cases h0 with
        | ok h0 =>
          cases h0 with
          | @go _ c' h0 =>
            refine .round (.refl _ _) (by omega) (by omega) (Follows.loop (c := c') fun k hk => ?_).same
            have := H k hk
            cases this with
            | ok this => cases this with | go this => exact this
      · dsimp only
        revert h0 H
        generalize step c = S
        intro H h0
        cases h0 with
        | ok h0 =>
          cases h0 with
          | @done _ _ _ a h0 =>
            refine .round (.refl _ _) (by omega) (by omega) (Follows.done (a := a) fun k hk => ?_).same
            have := H k hk
            cases this with
            | ok this => cases this with | done this => exact this
    | @read n P h i f hi H => exact .still (.refl _ _) (Follows.mid (by omega) H).same
    | @write n P h i v f hi H =>
      refine .still ⟨by simp [Prog.one], fun j _ hj => arr_set_ne (by rintro rfl; exact hj hi)⟩ ((Follows.mid (by omega) H).imp fun j => ?_)
      exact ⟨.inl, fun h => h.elim id fun h => by have := h.2; simp only [Prog.one, length_set] at this; omega⟩
    | @new n P h v f H =>
      refine .still ⟨by simp [Prog.one], fun j hj _ => arr_append_lt hj⟩ ((Follows.mid (by omega) (H h (.refl _ _))).imp fun j => ?_)
      unfold Mine
      simp only [Prog.one, length_append, length_singleton]
      constructor
      · rintro (h | rfl)
        · exact .inl h
        · exact .inr (by omega)
      · rintro (h | h)
        · exact .inl h
        · exact .inr (by omega)

/-- What it does depends only on its own arrays. -/
theorem move_same (g : Nat → Nat → Nat) {P : Nat → Prop} {h k : Heap} {r : Nat} {p : HProc} {q : Proc} (hP : ∀ i, P i → i < h.length)
    (H : Follows P h r p q) (S : SameAt P h k) : (∃ e, p.move g h = .error e ∧ p.move g k = .error e) ∨
      ∃ p' h' k', p.move g h = .ok (p', h') ∧ p.move g k = .ok (p', k') ∧ SameAt (Mine P h h') h' k' ∧ Frame P h h' ∧ Frame P k k' := by
  have stay : SameAt (Mine P h h) h k := ⟨S.1, fun i hi => hi.elim (S.2 i) fun hi => by omega⟩
  cases H with
  | @start x a H =>
    refine .inr ?_
    unfold HProc.move
    dsimp only
    split
    · exact ⟨_, _, _, rfl, rfl, stay, .refl _ _, .refl _ _⟩
    · exact ⟨_, _, _, rfl, rfl, stay, .refl _ _, .refl _ _⟩
  | done => exact .inr ⟨_, _, _, rfl, rfl, stay, .refl _ _, .refl _ _⟩
  | loop => exact .inr ⟨_, _, _, rfl, rfl, stay, .refl _ _, .refl _ _⟩
  | @mid n p c hn H =>
    cases H with
    | @ret n P h r H =>
      rcases r with e | C | ⟨m, x⟩
      · exact .inl ⟨e, rfl, rfl⟩
      · exact .inr ⟨_, _, _, rfl, rfl, stay, .refl _ _, .refl _ _⟩
      · exact .inr ⟨_, _, _, rfl, rfl, stay, .refl _ _, .refl _ _⟩
    | @read n P h i f hi H =>
      refine .inr ⟨_, _, k, rfl, ?_, stay, .refl _ _, .refl _ _⟩
      show Except.ok (HProc.mid (f (k.arr i)), k) = _
      rw [← S.2 i hi]
      rfl
    | @write n P h i v f hi H =>
      have hl := hP i hi
      have hl' : i < k.length := by rw [← S.1]; exact hl
      refine .inr ⟨_, _, _, rfl, rfl, ⟨by simp [Prog.one, S.1], fun j hj => ?_⟩, ⟨by simp [Prog.one], fun j _ hj => arr_set_ne (by rintro rfl; exact hj hi)⟩,
        ⟨by simp [Prog.one], fun j _ hj => arr_set_ne (by rintro rfl; exact hj hi)⟩⟩
      show Heap.arr (h.set i v) j = Heap.arr (k.set i v) j
      by_cases e : i = j
      · subst e; rw [arr_set_eq hl, arr_set_eq hl']
      · rw [arr_set_ne e, arr_set_ne e]
        refine stay.2 j (hj.elim .inl fun hj => ?_)
        have := hj.2
        simp only [Prog.one, length_set] at this
        omega
    | @new n P h v f H =>
      refine .inr ⟨_, _, k ++ [v k.length], rfl, ?_, ⟨by simp [Prog.one, S.1], fun j hj => ?_⟩, ⟨by simp [Prog.one], fun j hj _ => arr_append_lt hj⟩,
        ⟨by simp, fun j hj _ => arr_append_lt hj⟩⟩
      · show Except.ok (HProc.mid (f k.length), k ++ [v k.length]) = Except.ok (HProc.mid (f h.length), k ++ [v k.length])
        rw [S.1]
      · show Heap.arr (h ++ [v h.length]) j = Heap.arr (k ++ [v k.length]) j
        rcases hj with hj | ⟨h1, h2⟩
        · rw [arr_append_lt (hP j hj), arr_append_lt (by rw [← S.1]; exact hP j hj), S.2 j hj]
        · simp only [Prog.one, length_append, length_singleton] at h2
          have : j = h.length := by omega
          subst this
          rw [arr_append_eq, S.1, arr_append_eq]

/-! ## All goroutines -/

/-- What another goroutine does changes nothing here. -/
theorem Follows.other {P : Nat → Prop} {h h' : Heap} {r : Nat} {p : HProc} {q : Proc} (H : Follows P h r p q) (hP : ∀ i, P i → i < h.length)
    (F : Ext P h h') : Follows P h' r p q := by
  cases H with
  | start H => exact .start fun k hk => H k (F.trans hk)
  | done H => exact .done fun k hk => H k (F.trans hk)
  | loop H => exact .loop fun k hk => H k (F.trans hk)
  | mid hn H => exact .mid hn (H.ext hP h' F)

theorem crashed_exec (g : Nat → Nat → Nat) (l : List Nat) (p : Panic) : HSys.exec g l (.crashed p) = .crashed p := by
  induction l with
  | nil => rfl
  | cons i l ih => exact ih

/-- Every schedule of accesses has the outcome of a schedule of rounds on values. -/
theorem exec_follows (g : Nat → Nat → Nat) (l : List Nat) : ∀ (ps : Nat → HProc) (vs : Nat → Proc) (h : Heap) (own : Nat → Option Nat)
    (rk : Nat → Nat), (∀ i, Follows (fun n => own n = some i) h (rk i) (ps i) (vs i)) → (∀ n i, own n = some i → n < h.length) →
    (∃ p m, HSys.exec g l (.running ps h) = .crashed p ∧ Sys.exec m (.running vs) = .crashed p ∧ m ⊆ l) ∨
    ∃ (ps' : Nat → HProc) (vs' : Nat → Proc) (h' : Heap) (own' : Nat → Option Nat) (rk' : Nat → Nat) (m : List Nat),
      HSys.exec g l (.running ps h) = .running ps' h' ∧ Sys.exec m (.running vs) = .running vs' ∧
      (∀ i, Follows (fun n => own' n = some i) h' (rk' i) (ps' i) (vs' i)) ∧ (∀ i, l.count i + rk' i ≤ 5 * m.count i + rk i) ∧
      (∀ n < h.length, own' n = own n) ∧ h.length ≤ h'.length ∧ (∀ n < h.length, own n = none → h'.arr n = h.arr n) ∧
      ∀ l₁ i l₂, l = l₁ ++ i :: l₂ → ∀ qs k, HSys.exec g l₁ (.running ps h) = .running qs k →
        OnlyOwn g (fun n => own' n = some i) (qs i) k := by
  induction l with
  | nil =>
    intro ps vs h own rk H _
    refine .inr ⟨ps, vs, h, own, rk, [], rfl, rfl, H, fun i => by simp, fun _ _ => rfl, Nat.le_refl _, fun _ _ _ => rfl, fun l₁ i l₂ e => ?_⟩
    cases l₁ <;> cases e
  | cons i l ih =>
    intro ps vs h own rk H hown
    have hP : ∀ j n, own n = some j → n < h.length := fun j n => hown n j
    have hm := move_next g (hP i) (H i)
    have hs := fun k hk => move_same g (k := k) (hP i) (H i) hk
    -- the invariant after a move of goroutine `i`
    have after : ∀ {p h' q r'}, (ps i).move g h = .ok (p, h') → Frame (fun n => own n = some i) h h' →
        Follows (Mine (fun n => own n = some i) h h') h' r' p q →
        (∃ e m, HSys.exec g l (.running (fun j => if j = i then p else ps j) h') = .crashed e ∧
          Sys.exec m (.running fun j => if j = i then q else vs j) = .crashed e ∧ m ⊆ l) ∨
        ∃ (ps' : Nat → HProc) (vs' : Nat → Proc) (h₂ : Heap) (own' : Nat → Option Nat) (rk' : Nat → Nat) (m : List Nat),
          HSys.exec g l (.running (fun j => if j = i then p else ps j) h') = .running ps' h₂ ∧
          Sys.exec m (.running fun j => if j = i then q else vs j) = .running vs' ∧
          (∀ i, Follows (fun n => own' n = some i) h₂ (rk' i) (ps' i) (vs' i)) ∧
          (∀ j, l.count j + rk' j ≤ 5 * m.count j + (if j = i then r' else rk j)) ∧
          (∀ n < h.length, own' n = own n) ∧ h.length ≤ h₂.length ∧ (∀ n < h.length, own n = none → h₂.arr n = h.arr n) ∧
          ∀ l₁ j l₂, i :: l = l₁ ++ j :: l₂ → ∀ qs k, HSys.exec g l₁ (.running ps h) = .running qs k →
            OnlyOwn g (fun n => own' n = some j) (qs j) k := by
      intro p h' q r' hx F Fo
      have next := ih (fun j => if j = i then p else ps j) (fun j => if j = i then q else vs j) h'
        (fun n => if n < h.length then own n else if n < h'.length then some i else none) (fun j => if j = i then r' else rk j) ?_ ?_
      · rcases next with ⟨e, m, h1, h2, h3⟩ | ⟨ps', vs', h₂, own', rk', m, h1, h2, h3, h3', h4, h5, h6, h7⟩
        · exact .inl ⟨e, m, h1, h2, h3⟩
        · have old : ∀ n < h.length, own' n = own n := fun n hn => by
            rw [h4 n (Nat.lt_of_lt_of_le hn F.1), if_pos hn]
          refine .inr ⟨ps', vs', h₂, own', rk', m, h1, h2, h3, h3', old, F.1.trans h5, fun n hn e => ?_, ?_⟩
          · rw [h6 n (Nat.lt_of_lt_of_le hn F.1) (by rw [if_pos hn]; exact e), F.2 n hn (by show ¬ own n = some i; rw [e]; simp)]
          · intro l₁ j l₂ e qs k hk
            cases l₁ with
            | nil =>
              injection e with e1 e2
              subst e1
              injection hk with hk1 hk2
              subst hk1 hk2
              intro k hk
              have hk' : SameAt (fun n => own n = some i) h k := ⟨hk.1, fun n hn => hk.2 n ((old n (hP i n hn)).trans hn)⟩
              rcases hs k hk' with ⟨e, h1, _⟩ | ⟨p', h'', k', h1, h2, S, F1, F2⟩
              · rw [hx] at h1; cases h1
              · rw [hx] at h1
                injection h1 with h1
                injection h1 with h1 h1'
                subst h1 h1'
                refine .inr ⟨_, _, k', hx, h2, ⟨S.1, fun n hn => ?_⟩, fun n hn hq => ?_, F.1, fun n hn hl => ?_⟩
                · by_cases hl : n < h.length
                  · exact S.2 n (.inl ((old n hl).symm.trans hn))
                  · by_cases hl' : n < h'.length
                    · exact S.2 n (.inr ⟨by omega, hl'⟩)
                    · rw [arr_ge (by omega), arr_ge (by have := S.1; omega)]
                · have : ¬ own n = some i := fun e => hq ((old n hn).trans e)
                  exact ⟨F1.2 n hn this, F2.2 n (by rw [← hk.1]; exact hn) this⟩
                · show own' n = some i
                  rw [h4 n hn, if_neg (by omega), if_pos hn]
            | cons j' l₁ =>
              injection e with e1 e2
              subst e1
              refine h7 l₁ j l₂ e2 qs k ?_
              rw [← hk]
              show _ = HSys.exec g l₁ (HSys.sched g i (.running ps h))
              unfold HSys.sched
              dsimp only
              rw [hx]
      · intro j
        by_cases hj : j = i
        · subst hj
          rw [if_pos rfl, if_pos rfl, if_pos rfl]
          refine Fo.imp fun n => ?_
          unfold Mine
          by_cases h1 : n < h.length
          · rw [if_pos h1]
            exact ⟨fun h => h.elim id fun h => by omega, .inl⟩
          · rw [if_neg h1]
            by_cases h2 : n < h'.length
            · rw [if_pos h2]
              exact ⟨fun _ => rfl, fun _ => .inr ⟨by omega, h2⟩⟩
            · rw [if_neg h2]
              exact ⟨fun h => h.elim (fun h => absurd (hP j n h) h1) fun h => by omega, nofun⟩
        · rw [if_neg hj, if_neg hj, if_neg hj]
          refine ((H j).other (hP j) ⟨F.1, fun n hn => F.2 n (hP j n hn) ?_⟩).imp fun n => ?_
          · intro e
            rw [show own n = some j from hn] at e
            injection e with e
            exact hj e
          · by_cases h1 : n < h.length
            · rw [if_pos h1]
            · rw [if_neg h1]
              refine ⟨fun h => absurd (hP j n h) h1, fun h => ?_⟩
              split at h
              · injection h with h
                exact absurd h.symm hj
              · cases h
      · intro n j hn
        split at hn
        · rename_i hl
          exact Nat.lt_of_lt_of_le hl F.1
        · split at hn
          · assumption
          · cases hn
    have ex : HSys.exec g (i :: l) (.running ps h) = HSys.exec g l (HSys.sched g i (.running ps h)) := rfl
    have ex' : ∀ m, Sys.exec (i :: m) (.running vs) = Sys.exec m (Sys.sched i (.running vs)) := fun _ => rfl
    unfold HSys.sched at ex
    unfold Sys.sched at ex'
    dsimp only at ex ex'
    rw [ex]
    revert hm after ex'
    generalize (ps i).move g h = x
    generalize (vs i).move = y
    intro hm after ex'
    generalize hrk : rk i = ρ at hm
    cases hm with
    | error e => exact .inl ⟨e, [i], crashed_exec g l e, ex' [], by simp⟩
    | @still r p h' _ F Fo =>
      rcases after rfl F Fo with ⟨e, m, h1, h2, h3⟩ | ⟨ps', vs', h₂, own', rk', m, h1, h2, h3, h3', h4⟩
      · refine .inl ⟨e, m, h1, ?_, fun x hx => mem_cons_of_mem _ (h3 hx)⟩
        rw [← h2]
        congr 2
        funext j
        split
        · rename_i e; rw [e]
        · rfl
      · refine .inr ⟨ps', vs', h₂, own', rk', m, h1, ?_, h3, fun j => ?_, h4⟩
        · rw [← h2]
          congr 2
          funext j
          split
          · rename_i e; rw [e]
          · rfl
        · have := h3' j
          rw [count_cons]
          by_cases e : j = i
          · subst e
            rw [if_pos rfl] at this
            simp only [beq_self_eq_true, if_true]
            omega
          · rw [if_neg e] at this
            rw [if_neg (by simpa using Ne.symm e)]
            omega
    | @round r r' p h' q' F hr hr' Fo =>
      rcases after rfl F Fo with ⟨e, m, h1, h2, h3⟩ | ⟨ps', vs', h₂, own', rk', m, h1, h2, h3, h3', h4⟩
      · exact .inl ⟨e, i :: m, h1, (ex' m).trans h2, cons_subset_cons _ h3⟩
      · refine .inr ⟨ps', vs', h₂, own', rk', i :: m, h1, (ex' m).trans h2, h3, fun j => ?_, h4⟩
        have := h3' j
        rw [count_cons, count_cons]
        by_cases e : j = i
        · subst e
          rw [if_pos rfl] at this
          simp only [beq_self_eq_true, if_true]
          omega
        · rw [if_neg e] at this
          rw [if_neg (by simpa using Ne.symm e)]
          omega

end
end Verif.Shared
