import Verif.Proofs.Reprint.Sane
/-!
# Printable trees spell programs
-/
namespace Verif
open Spec Lexer LR

variable [Letters]

theorem ReE.startsNot {g} : ∀ {lv s e}, ReE g lv s e → lv = .inner → isNotE e → startsNot s
  | _, _, _, .num (x := x) _, _, he => by
    unfold numE at he
    split at he <;> exact absurd he id
  | _, _, _, .str _, _, he => absurd he id
  | _, _, _, .bool, _, he => absurd he id
  | _, _, _, .date _, _, he => absurd he id
  | _, _, _, .undef, _, he => absurd he id
  | _, _, _, .path _, _, he => absurd he id
  | _, _, _, .minus _, _, he => absurd he id
  | _, _, _, .notChain _, _, _ => rfl
  | _, _, _, .notCall _, _, _ => rfl
  | _, _, _, .var (u := u) (nt := nt) _ _, _, he => by
    cases nt with
    | true => exact (rfl : true = true)
    | false => cases u <;> exact absurd he id
  | _, _, _, .varArg _, hv, _ => by cases hv
  | _, _, _, .ternary _ _ _, _, he => absurd he id
  | _, _, _, .new _, _, he => absurd he id
  | _, _, _, .elem h _, hv, he => .inr (h.startsNot (by rw [hv]; rfl) he)
  | _, _, _, .notElem _, _, _ => .inl rfl
  | _, _, _, .bin _ _ hv _, hv', _ => absurd hv' hv
  | _, _, _, .inner _ _ _, _, he => absurd he id

theorem reA_of {g l} (h : ∀ s ∈ l, ∃ o, ReO g s o) : ∃ a, ReA g l a := by
  induction l using List.reverseRecOn with
  | nil => exact ⟨_, .nil⟩
  | append_singleton l s ih =>
    obtain ⟨o, ho⟩ := h s (by simp)
    by_cases hl : l = []
    · subst hl
      exact ⟨_, .one ho⟩
    · obtain ⟨a, ha⟩ := ih fun x hx => h x (by simp [hx])
      exact ⟨_, .snoc hl ha ho⟩

omit [Letters] in
theorem plainL_mem {l : List Stm} (h : plainEs l) {s} (hs : s ∈ l) : plainE s := by
  induction l with
  | nil => cases hs
  | cons a l ih =>
    unfold plainEs at h
    rcases List.mem_cons.1 hs with rfl | hs
    · exact h.1
    · exact ih h.2 hs

omit [Letters] in
theorem stableL_mem {lv} {l : List Stm} (h : stableL lv l) {s} (hs : s ∈ l) : stableE lv s := by
  induction l with
  | nil => cases hs
  | cons a l ih =>
    unfold stableL at h
    rcases List.mem_cons.1 hs with rfl | hs
    · exact h.1
    · exact ih h.2 hs

omit [Letters] in
theorem plain_exprs {l n} (h : plainE (.exprs l n)) : ∃ s, l = [s] ∧ s ≠ .nil ∧ plainE s := by
  unfold plainE at h
  match l with
  | [] => exact h.elim
  | [s] => exact ⟨s, rfl, h⟩
  | _ :: _ :: _ => exact h.elim

mutual
theorem SaneI.re {g} : ∀ {dot s}, SaneI dot s → plainE s → (g = true → stableE .arg s) → ∃ i, ReI g dot s i
  | _, _, .name h, _, _ => ⟨_, .name h⟩
  | _, _, .call h hs, hp, hg => by
    unfold plainE at hp
    unfold stableE at hg
    obtain ⟨a, ha⟩ := reA_of fun s hm => (hs s hm).re (plainL_mem hp hm) fun e => stableL_mem (hg e) hm
    exact ⟨_, .call h ha⟩
  | _, _, .exec hw hs, hp, hg => by
    unfold plainE at hp
    unfold stableE at hg
    obtain ⟨e, he⟩ := hs.re (g := g) .arg (plainL_mem hp (by simp)) fun e => stableL_mem (hg e) (by simp)
    exact ⟨_, .exec hw he⟩
  | _, _, .item ho hs, hp, hg => by
    unfold plainE at hp
    unfold stableE at hg
    obtain ⟨i, hi⟩ := ho.re (g := g) hp.2 fun e => (hg e).2
    obtain ⟨e, he⟩ := hs.re (g := g) .top hp.1 fun e => (hg e).1
    exact ⟨_, .item hi he⟩
theorem SaneP.re {g} : ∀ {s}, SaneP s → plainE s → (g = true → stableE .arg s) → ∃ p, ReP g s p
  | _, .one h, hp, hg => by
    obtain ⟨i, hi⟩ := h.re (g := g) hp hg
    exact ⟨_, .one hi⟩
  | _, .dot hc hu, hp, hg => by
    unfold plainE at hp
    unfold stableE at hg
    obtain ⟨i, hi⟩ := hu.re (g := g) hp.1 fun e => (hg e).1
    obtain ⟨p, hp⟩ := hc.re (g := g) hp.2 fun e => (hg e).2
    exact ⟨_, .dot hp hi⟩
theorem SaneO.re {g} : ∀ {s}, SaneO s → plainE s → (g = true → stableE .arg s) → ∃ o, ReO g s o
  | _, .none, _, _ => ⟨_, .none⟩
  | _, .some h, hp, hg => by
    obtain ⟨e, he⟩ := h.re (g := g) .arg hp hg
    exact ⟨_, .some he⟩
theorem SaneO.reE {g} : ∀ {s}, SaneO s → s ≠ .nil → ∀ lv, plainE s → (g = true → stableE lv s) → ∃ e, ReE g lv s e
  | _, .none, hn, _, _, _ => absurd rfl hn
  | _, .some h, _, lv, hp, hg => h.re lv hp hg
theorem SaneE.re {g} : ∀ {s}, SaneE s → ∀ lv, plainE s → (g = true → stableE lv s) → ∃ e, ReE g lv s e
  | _, .num h, _, _, _ => ⟨_, .num h⟩
  | _, .str h, _, _, _ => ⟨_, .str h⟩
  | _, .bool, _, _, _ => ⟨_, .bool⟩
  | _, .date h, _, _, _ => ⟨_, .date h⟩
  | _, .undef, _, _, _ => ⟨_, .undef⟩
  | _, .var h, lv, _, _ => by
    by_cases hl : lv = .arg
    · subst hl; exact ⟨_, .varArg h⟩
    · exact ⟨_, .var h hl⟩
  | _, .call (n := n) h, lv, hp, hg => by
    obtain ⟨i, hi⟩ := h.re (g := g) (by unfold plainE at hp ⊢; exact hp) (by unfold stableE at hg ⊢; exact hg)
    cases n with
    | false => exact ⟨_, .path (.one hi)⟩
    | true => exact ⟨_, .notCall (.one hi)⟩
  | _, .item h, lv, hp, hg => by
    obtain ⟨i, hi⟩ := h.re (g := g) hp (by unfold stableE at hg ⊢; exact hg)
    exact ⟨_, .path (.one hi)⟩
  | _, .chain (m := m) (n := n) h, lv, hp, hg => by
    obtain ⟨p, hP⟩ := h.re (g := g) (by unfold plainE at hp ⊢; exact hp) (by unfold stableE at hg ⊢; exact hg)
    cases n with
    | true => exact ⟨_, .notChain hP⟩
    | false =>
      cases m with
      | false => exact ⟨_, .path hP⟩
      | true => exact ⟨_, .minus hP⟩
  | _, .ternary h1 h2 h3, lv, hp, hg => by
    unfold plainE at hp
    unfold stableE at hg
    obtain ⟨a, ha⟩ := h1.re (g := g) .top hp.1 fun e => (hg e).1
    obtain ⟨b, hb⟩ := h2.re (g := g) .top hp.2.1 fun e => (hg e).2.1
    obtain ⟨c, hc⟩ := h3.re (g := g) .top hp.2.2 fun e => (hg e).2.2
    exact ⟨_, .ternary ha hb hc⟩
  | _, .new hc hs, lv, hp, hg => by
    unfold plainE at hp
    unfold stableE at hg
    obtain ⟨a, ha⟩ := reA_of fun s hm => (hs s hm).re (plainL_mem hp hm) fun e => stableL_mem (hg e) hm
    rcases hc with rfl | hc
    · exact ⟨_, .new (.args ha)⟩
    · exact ⟨_, .new (.call hc ha)⟩
  | _, .exprs (n := n) hs, lv, hp, hg => by
    obtain ⟨s, rfl, hn, hp⟩ := plain_exprs hp
    unfold stableE at hg
    obtain ⟨e, he⟩ := (hs s (by simp)).reE (g := g) hn lv.sub hp fun e => (hg e).2
    cases n with
    | true => exact ⟨_, .notElem he⟩
    | false => exact ⟨_, .elem he fun e hl => (hg e).1 hl rfl⟩
  | _, .bin (u := u) (n := n) h1 h2, lv, hp, hg => by
    unfold plainE at hp
    unfold stableE at hg
    obtain ⟨a, ha⟩ := h1.re (g := g) .inner hp.1 fun e => (hg e).2.2.2.1
    obtain ⟨b, hb⟩ := h2.re (g := g) .inner hp.2 fun e => (hg e).2.2.2.2
    by_cases hl : lv = .inner
    · subst hl
      exact ⟨_, .inner ha hb fun e => ⟨(hg e).1, (hg e).2.1 rfl, fun hn => (hg e).2.2.1 (ha.startsNot rfl hn)⟩⟩
    · exact ⟨_, .bin ha hb hl fun e => ⟨(hg e).1, fun hn => (hg e).2.2.1 (ha.startsNot rfl hn)⟩⟩
  | _, .label _, _, hp, _ => by unfold plainE at hp; exact hp.elim
  | _, .goto _, _, hp, _ => by unfold plainE at hp; exact hp.elim
end

theorem SaneSrc.re {g s} (h : SaneSrc s) (hp : plainE s) (hg : g = true → stableE .top s) : ∃ x, ReSrc g s x := by
  cases h with
  | path h =>
    have : g = true → stableE .arg s := by
      intro e
      have := hg e
      cases h with
      | one h => cases h <;> (unfold stableE at this ⊢; exact this)
      | dot => unfold stableE at this ⊢; exact this
    obtain ⟨p, hp⟩ := h.re hp this
    exact ⟨_, .path hp⟩
  | new hc hs =>
    unfold plainE at hp
    unfold stableE at hg
    obtain ⟨a, ha⟩ := reA_of fun s hm => (hs s hm).re (plainL_mem hp hm) fun e => stableL_mem (hg e) hm
    rcases hc with rfl | hc
    · exact ⟨_, .new (.args ha)⟩
    · exact ⟨_, .new (.call hc ha)⟩
  | ternary h1 h2 h3 =>
    unfold plainE at hp
    unfold stableE at hg
    obtain ⟨a, ha⟩ := h1.re (g := g) .top hp.1 fun e => (hg e).1
    obtain ⟨b, hb⟩ := h2.re (g := g) .top hp.2.1 fun e => (hg e).2.1
    obtain ⟨c, hc⟩ := h3.re (g := g) .top hp.2.2 fun e => (hg e).2.2
    exact ⟨_, .ternary ha hb hc⟩

/-! ## Statements -/

omit [Letters] in
theorem plainB_mem {l : List Stm} (h : plainB l) {s} (hs : s ∈ l) : plainS s := by
  induction l with
  | nil => cases hs
  | cons a l ih =>
    unfold plainB at h
    rcases List.mem_cons.1 hs with rfl | hs
    · exact h.1
    · exact ih h.2 hs

omit [Letters] in
theorem steadyB_mem {l : List Stm} (h : steadyB l) {s} (hs : s ∈ l) : steadyS s := by
  induction l with
  | nil => cases hs
  | cons a l ih =>
    unfold steadyB at h
    rcases List.mem_cons.1 hs with rfl | hs
    · exact h.1
    · exact ih h.2 hs

theorem reB_of {g l} (h : ∀ s ∈ l, ∃ x p, ReS g s x p) : ∃ b, ReB g l b := by
  have key : l = [] ∨ ∃ b p, ReBody g l b p := by
    induction l using List.reverseRecOn with
    | nil => exact .inl rfl
    | append_singleton l s ih =>
      obtain ⟨x, q, hx⟩ := h s (by simp)
      right
      rcases ih fun x hx => h x (by simp [hx]) with rfl | ⟨b, p, hb⟩
      · exact ⟨_, _, .one hx⟩
      · exact ⟨_, _, .snoc hb hx⟩
  rcases key with rfl | ⟨b, p, hb⟩
  · exact ⟨_, .empty⟩
  · exact ⟨_, .body hb⟩

theorem reEl_of {g l} (h : ∀ s ∈ l, ∃ c b c' bl, s = .ifS c b [] [] ∧ ReE g .top c c' ∧ ReB g b bl) : ∃ es, ReEl g l es := by
  induction l with
  | nil => exact ⟨_, .nil⟩
  | cons s l ih =>
    obtain ⟨c, b, c', bl, rfl, h1, h2⟩ := h s (by simp)
    obtain ⟨es, hes⟩ := ih fun x hx => h x (by simp [hx])
    exact ⟨_, .cons h1 h2 hes⟩

theorem SaneE.reS {g s} (h0 : SaneE s) (hp : plainS s) (hg : g = true → steadyS s) : ∃ x p, ReS g s x p := by
  have simple : ExprStm s → ¬ IsExprs s → (plainS s → plainE s) → (steadyS s → stableE .arg s) → ∃ x p, ReS g s x p := by
    intro hs hn h1 h2
    obtain ⟨e, he⟩ := h0.re .arg (h1 hp) fun e => h2 (hg e)
    exact ⟨_, _, .expr hs he fun _ => hn⟩
  cases h0 with
  | chain h' =>
    unfold plainS plainE at hp
    unfold steadyS stableE at hg
    obtain ⟨p, hp⟩ := h'.re (g := g) (by unfold plainE; exact hp) (by unfold stableE; exact hg)
    exact ⟨_, _, .chain hp⟩
  | @bin op _ _ _ _ h1 h2 =>
    unfold plainS at hp
    unfold steadyS at hg
    obtain ⟨e, he⟩ := (SaneE.bin h1 h2).re .top hp fun e => (hg e).2
    refine ⟨_, _, .bin he fun e => ?_⟩
    by_cases ho : op = Op.eq
    · exact .inr ((hg e).1 ho)
    · exact .inl ho
  | label h => exact ⟨_, _, .label h⟩
  | goto h => exact ⟨_, _, .goto h⟩
  | exprs h' =>
    obtain ⟨e, he⟩ := (SaneE.exprs h').re (g := g) .arg (by unfold plainS at hp; exact hp) fun e => by have := hg e; unfold steadyS at this; exact this.elim
    exact ⟨_, _, .expr trivial he fun e => by have := hg e; unfold steadyS at this; exact this.elim⟩
  | num h' => exact simple trivial id (by unfold plainS; exact id) (by unfold steadyS; exact id)
  | str h' => exact simple trivial id (by unfold plainS; exact id) (by unfold steadyS; exact id)
  | bool => exact simple trivial id (by unfold plainS; exact id) (by unfold steadyS; exact id)
  | date h' => exact simple trivial id (by unfold plainS; exact id) (by unfold steadyS; exact id)
  | undef => exact simple trivial id (by unfold plainS; exact id) (by unfold steadyS; exact id)
  | var h' => exact simple trivial id (by unfold plainS; exact id) (by unfold steadyS; exact id)
  | call h' => exact simple trivial id (by unfold plainS; exact id) (by unfold steadyS; exact id)
  | item h' => exact simple trivial id (by unfold plainS; exact id) (by unfold steadyS; exact id)
  | ternary h1 h2 h3 => exact simple trivial id (by unfold plainS; exact id) (by unfold steadyS; exact id)
  | new h1 h2 => exact simple trivial id (by unfold plainS; exact id) (by unfold steadyS; exact id)

mutual
theorem SaneS.re {g} : ∀ {s}, SaneS s → plainS s → (g = true → steadyS s) → ∃ x p, ReS g s x p
  | _, .assign hv hs, hp, hg => by
    unfold plainS at hp
    unfold steadyS at hg
    obtain ⟨p, hP⟩ := hv.re (g := g) hp.1 fun e => (hg e).1
    obtain ⟨e, he⟩ := hs.re (g := g) .top (plainL_mem hp.2 (by simp)) fun e => stableL_mem (hg e).2 (by simp)
    exact ⟨_, _, .assign hP he⟩
  | _, .expr h, hp, hg => h.reS hp hg
  | _, .ifS (el := el) hc ht hi he, hp, hg => by
    unfold plainS at hp
    unfold steadyS at hg
    obtain ⟨c, hC⟩ := hc.re (g := g) .top hp.1 fun e => (hg e).1
    obtain ⟨t, hT⟩ := reB_of fun s hs => (ht s hs).re (g := g) (plainB_mem hp.2.1 hs) fun e => steadyB_mem (hg e).2.1 hs
    obtain ⟨es, hE⟩ := reEl_of fun s hs => (hi s hs).re (g := g) (plainB_mem hp.2.2.1 hs) fun e => steadyB_mem (hg e).2.2.1 hs
    obtain ⟨el', hL⟩ := reB_of fun s hs => (he s hs).re (g := g) (plainB_mem hp.2.2.2 hs) fun e => steadyB_mem (hg e).2.2.2 hs
    by_cases h0 : el = []
    · subst h0
      exact ⟨_, _, .ifS hC hT hE .none⟩
    · exact ⟨_, _, .ifS hC hT hE (.some h0 hL)⟩
  | _, .forEach hn hi hb, hp, hg => by
    unfold plainS at hp
    unfold steadyS at hg
    obtain ⟨i, hI⟩ := hi.re (g := g) hp.2.2.1 fun e => (hg e).2.2.1
    obtain ⟨b, hB⟩ := reB_of fun s hs => (hb s hs).re (g := g) (plainB_mem hp.2.2.2.2 hs) fun e => steadyB_mem (hg e).2.2.2.2 hs
    exact ⟨_, _, .forEach hn hI hB⟩
  | _, .forTo hf hz hb, hp, hg => by
    unfold plainS at hp
    unfold steadyS at hg
    obtain ⟨i, hI⟩ := hf.re (g := g) .top hp.1 fun e => (hg e).1
    obtain ⟨z, hZ⟩ := hz.re (g := g) .top hp.2.1 fun e => (hg e).2.1
    obtain ⟨b, hB⟩ := reB_of fun s hs => (hb s hs).re (g := g) (plainB_mem hp.2.2.2.2 hs) fun e => steadyB_mem (hg e).2.2.2.2 hs
    exact ⟨_, _, .forTo hI hZ hB⟩
  | _, .whileS hc hb, hp, hg => by
    unfold plainS at hp
    unfold steadyS at hg
    obtain ⟨i, hI⟩ := hc.re (g := g) .top hp.2.2.2.1 fun e => (hg e).2.2.2.1
    obtain ⟨b, hB⟩ := reB_of fun s hs => (hb s hs).re (g := g) (plainB_mem hp.2.2.2.2 hs) fun e => steadyB_mem (hg e).2.2.2.2 hs
    exact ⟨_, _, .whileS hI hB⟩
  | _, .tryS hb hh, hp, hg => by
    unfold plainS at hp
    unfold steadyS at hg
    obtain ⟨b, hB⟩ := reB_of fun s hs => (hb s hs).re (g := g) (plainB_mem hp.1 hs) fun e => steadyB_mem (hg e).1 hs
    obtain ⟨h, hH⟩ := reB_of fun s hs => (hh s hs).re (g := g) (plainB_mem hp.2 hs) fun e => steadyB_mem (hg e).2 hs
    exact ⟨_, _, .tryS hB hH⟩
  | _, .cont, _, _ => ⟨_, _, .cont⟩
  | _, .brk, _, _ => ⟨_, _, .brk⟩
  | _, .throw (s := s) h, hp, hg => by
    by_cases hn : s = .nil
    · subst hn; exact ⟨_, _, .rethrow⟩
    by_cases hx : IsExprs s
    · cases s <;> first | exact absurd hx id | skip
      unfold plainS at hp
      unfold steadyS at hg
      cases h with
      | some h =>
        cases h with
        | exprs hs =>
          obtain ⟨a, ha⟩ := reA_of fun s hm => (hs s hm).re (plainL_mem hp hm) fun e => stableL_mem (hg e) hm
          exact ⟨_, _, .throwList ha⟩
    · have h1 : plainE s := by
        cases s <;> first | exact absurd trivial hx | (unfold plainS at hp; exact hp)
      have h2 : g = true → stableE .arg s := by
        cases s <;> first | exact absurd trivial hx | (unfold steadyS at hg; exact hg)
      obtain ⟨e, he⟩ := h.reE (g := g) hn .arg h1 h2
      exact ⟨_, _, .throw he hx⟩
  | _, .ret (s := s) h, hp, hg => by
    by_cases hn : s = .nil
    · subst hn; exact ⟨_, _, .ret⟩
    unfold plainS at hp
    unfold steadyS at hg
    obtain ⟨e, he⟩ := h.reE (g := g) hn .top hp hg
    exact ⟨_, _, .retValue he⟩
theorem SaneElif.re {g} : ∀ {s}, SaneElif s → plainS s → (g = true → steadyS s) →
    ∃ c b c' bl, s = .ifS c b [] [] ∧ ReE g .top c c' ∧ ReB g b bl
  | _, .mk hc hb, hp, hg => by
    unfold plainS at hp
    unfold steadyS at hg
    obtain ⟨c, hC⟩ := hc.re (g := g) .top hp.1 fun e => (hg e).1
    obtain ⟨t, hT⟩ := reB_of fun s hs => (hb s hs).re (g := g) (plainB_mem hp.2.1 hs) fun e => steadyB_mem (hg e).2.1 hs
    exact ⟨_, _, _, _, rfl, hC, hT⟩
end

/-! ## Modules -/

theorem SaneParam.re {g p} (h : SaneParam p) (hp : p.default = .nil ∨ IsLit p.default) : ∃ d, ReParam g p d := by
  obtain ⟨s, n, v⟩ := p
  rcases hp with hp | hp
  · dsimp only at hp
    subst hp
    exact ⟨_, .plain h.name⟩
  · dsimp only at hp
    have hn : NameOk false n := h.name
    cases h.default with
    | none => exact absurd hp id
    | some h =>
      cases h with
      | num hq => exact ⟨_, .default hn hp (.num hq)⟩
      | str hq => exact ⟨_, .default hn hp (.str hq)⟩
      | bool => exact ⟨_, .default hn hp .bool⟩
      | date hq => exact ⟨_, .default hn hp (.date hq)⟩
      | undef => exact ⟨_, .default hn hp .undef⟩
      | _ => exact absurd hp id

omit [Letters] in
theorem forall₂_of {α β : Type} {R : α → β → Prop} {l : List α} (h : ∀ x ∈ l, ∃ y, R x y) : ∃ l', List.Forall₂ R l l' := by
  induction l with
  | nil => exact ⟨_, .nil⟩
  | cons a l ih =>
    obtain ⟨y, hy⟩ := h a (by simp)
    obtain ⟨l', hl⟩ := ih fun x hx => h x (by simp [hx])
    exact ⟨_, .cons hy hl⟩

theorem SaneFunc.re {g f} (h : SaneFunc f) (hq : ∀ p ∈ f.params, p.default = .nil ∨ IsLit p.default) (hp : plainB f.body)
    (hg : g = true → steadyB f.body) : ∃ d, ReFunc g f d := by
  obtain ⟨ds, hds⟩ := forall₂_of fun p hp => (h.params p hp).re (g := g) (hq p hp)
  obtain ⟨b, hb⟩ := reB_of fun s hs => (h.body s hs).re (g := g) (plainB_mem hp hs) fun e => steadyB_mem (hg e) hs
  exact ⟨_, .mk h.name h.dir hds hb⟩

/-- A printable module spells a program. -/
theorem SaneM.re {g gs gs' fs l} (h : SaneM gs fs l) (hgs : gs'.Perm gs)
    (hf : ∀ f ∈ fs, (∀ p ∈ f.params, p.default = .nil ∨ IsLit p.default) ∧ plainB f.body) (hl : ∀ s ∈ l, plainS s)
    (hg : g = true → (∀ f ∈ fs, steadyB f.body) ∧ ∀ s ∈ l, steadyS s) : ∃ ds b, ReM g gs' fs l ds b := by
  obtain ⟨ds, hds⟩ := forall₂_of fun f hm => (h.funcs f hm).re (g := g) (hf f hm).1 (hf f hm).2 fun e => (hg e).1 f hm
  obtain ⟨b, hb⟩ := reB_of fun s hs => (h.body s hs).re (g := g) (hl s hs) fun e => (hg e).2 s hs
  exact ⟨ds, b, fun v hv => h.vars v (hgs.subset hv), hds, hb⟩

end Verif
