import Verif.Proofs.LR.Step
import Verif.Spec.Tokens
/-! From derivation trees to the grammar of the specification. -/
namespace Verif.LR
open Tables Spec Lexer

theorem symNum_inj : ∀ (a b : Sym), symNum a = symNum b → a = b := by
  have ht' : ∀ a ∈ allTerminals, allTerminals.find? (fun b => tnum b == tnum a) = some a := by decide +kernel
  have hn' : ∀ a ∈ allNTs, allNTs.find? (fun b => nnum b == nnum a) = some a := by decide +kernel
  have mt : ∀ a : Terminal, a ∈ allTerminals := by intro a; cases a <;> decide
  have mn : ∀ a : NT, a ∈ allNTs := by intro a; cases a <;> decide
  have ht : ∀ a b : Terminal, tnum a = tnum b → a = b := by
    intro a b h
    have h1 := ht' a (mt a)
    rw [h, ht' b (mt b)] at h1
    injection h1 with h1
    exact h1.symm
  have hn : ∀ a b : NT, nnum a = nnum b → a = b := by
    intro a b h
    have h1 := hn' a (mn a)
    rw [h, hn' b (mn b)] at h1
    injection h1 with h1
    exact h1.symm
  have htl : ∀ a : Terminal, tnum a < 100 := by intro a; cases a <;> decide
  have hnl : ∀ a : NT, 100 ≤ nnum a := by intro a; cases a <;> decide
  intro a b h
  cases a with
  | t a => cases b with
    | t b => exact congrArg _ (ht a b h)
    | n b => have h' : tnum a = nnum b := h; have := htl a; have := hnl b; omega
  | n a => cases b with
    | t b => have h' : nnum a = tnum b := h; have := htl b; have := hnl a; omega
    | n b => exact congrArg _ (hn a b h)

theorem tnum_tokNum {k : Nat} {a : Terminal} (h : tokNum k = tnum a) : k = a.kind := by
  have h1 : ∀ k, k < 94 → ∀ a ∈ allTerminals, tokNum k = tnum a → k = a.kind := by decide +kernel
  have h2 : ∀ k, k < 50 → ∀ a ∈ allTerminals, tokNum (yyPrivate + k) = tnum a → yyPrivate + k = a.kind := by
    decide +kernel
  have ha : a ∈ allTerminals := by cases a <;> decide
  by_cases hk : k < 94
  · exact h1 k hk a ha h
  by_cases hb : yyPrivate ≤ k ∧ k < yyPrivate + 50
  · have := h2 (k - yyPrivate) (by omega) a ha
    rw [show yyPrivate + (k - yyPrivate) = k by omega] at this
    exact this h
  · exfalso
    have h3 : tokNum k = 3 := by
      unfold tokNum
      rw [if_neg (by omega), if_neg (by omega), if_neg hb]
      decide +kernel
    rw [h3] at h
    revert h
    cases a <;> decide

/-- The token number of every terminal. -/
theorem tokNum_kind (a : Terminal) : tokNum a.kind = tnum a := by
  cases a <;> decide +kernel

theorem prod_mem {p : Nat} (h0 : 0 < p) (hp : p < nProds) :
    ∃ A β, (A, β) ∈ productions ∧ nnum A = lhs p ∧ β.map symNum = rhs p := by
  have h := prods_ok
  have hm : (lhs p, rhs p) ∈ (List.range 112).map fun i => (lhs (i + 1), rhs (i + 1)) := by
    rw [List.mem_map]
    refine ⟨p - 1, List.mem_range.2 (by unfold nProds at hp; omega), ?_⟩
    rw [show p - 1 + 1 = p by omega]
  rw [← h, List.mem_map] at hm
  obtain ⟨⟨A, β⟩, h1, h2⟩ := hm
  injection h2 with h2 h3
  exact ⟨A, β, h1, h2, h3⟩

theorem derives_append {α β : List Sym} {u w : List Terminal} (h : Derives α u) (g : Derives β w) :
    Derives (α ++ β) (u ++ w) := by
  induction h with
  | nil => exact g
  | t a _ ih => exact .t a ih
  | n A hp h1 _ _ ih2 => rw [List.append_assoc]; exact .n A hp h1 ih2

/-- The yield of an evaluated forest is derived from its roots. -/
theorem EvF.derives {ok : Prop} {ts σ vs σ'} (e : EvF ok ts σ vs σ') : ∀ α : List Sym, ts.map Tree.root = α.map symNum →
    ∃ w, Derives α w ∧ w.map Terminal.kind = (yieldL ts).map Prod.fst := by
  induction e with
  | nil σ =>
    intro α h
    have : α = [] := by cases α with
      | nil => rfl
      | cons _ _ => cases h
    subst this
    exact ⟨[], .nil, rfl⟩
  | leaf k t _ ih =>
    intro α h
    cases α with
    | nil => cases h
    | cons x α =>
      rw [List.map_cons, List.map_cons] at h
      injection h with h1 h2
      obtain ⟨w, h3, h4⟩ := ih α h2
      cases x with
      | t a =>
        have := tnum_tokNum (a := a) (k := k) h1
        subst this
        refine ⟨a :: w, .t a h3, ?_⟩
        rw [List.map_cons, h4]; rfl
      | n A =>
        exfalso
        have h5 : tokNum k = nnum A := h1
        have h6 : 100 ≤ nnum A := by cases A <;> decide
        have h7 := (tokNum_lt k).1
        unfold nToks at h7
        omega
  | node p h0 hp hk _ ha _ ih1 ih2 =>
    intro α h
    cases α with
    | nil => cases h
    | cons x α =>
      rw [List.map_cons, List.map_cons] at h
      injection h with h1 h2
      obtain ⟨w, h3, h4⟩ := ih2 α h2
      obtain ⟨A, β, q1, q2, q3⟩ := prod_mem h0 hp
      have hx : x = .n A := symNum_inj _ _ (h1.symm.trans q2.symm)
      subst hx
      obtain ⟨u, h5, h6⟩ := ih1 β (hk.trans q3.symm)
      refine ⟨u ++ w, .n A q1 h5 h3, ?_⟩
      rw [List.map_append, h4, h6, yieldL, Tree.yield, List.map_append]

variable [Letters]

theorem Lexed.tokens {t l t' l'} (h : Lexed t l t') (g : Tokens t' l') : Tokens t (l ++ l') := by
  induction h generalizing l' with
  | nil => exact g
  | snoc _ hx ih => rw [List.append_assoc]; exact ih (.next hx g)

theorem Lexed.of_tokens {t l} (h : Tokens t l) : ∃ t', Lexed t l t' ∧ (lexNext t').2 = .ok none := by
  have key : ∀ {t l}, Tokens t l → ∀ {s m}, Lexed s m t → ∃ t', Lexed s (m ++ l) t' ∧ (lexNext t').2 = .ok none := by
    intro t l h
    induction h with
    | eof h => intro s m g; exact ⟨_, by simpa using g, h⟩
    | next hx _ ih =>
      intro s m g
      obtain ⟨t', h1, h2⟩ := ih (.snoc g hx)
      exact ⟨t', by simpa using h1, h2⟩
  simpa using key h (.nil t)

theorem tokens_unique {t l l'} (h : Tokens t l) (g : Tokens t l') : l = l' := by
  induction h generalizing l' with
  | eof h =>
    cases g with
    | eof => rfl
    | next hx _ => rw [hx] at h; cases h
  | next hx _ ih =>
    cases g with
    | eof h => rw [hx] at h; cases h
    | next hx' g =>
      rw [hx] at hx'
      injection hx' with h1 h2
      injection h2 with h2
      injection h2 with h2
      subst h1; subst h2
      rw [ih g]

/-- What a successful run of Parse on a text that is not blank means. -/
theorem parse_ok {a a' : Ast} (hb : a.code.all isUnicodeSpace = false) (h : parse a = .ret a') (he : a'.err = none) :
    ∃ T v, Tree.root T = 134 ∧ EvF True [T] (view a) [v] (view a') ∧ TokensOf a.code T.yield ∧ LRF 0 [T] 1 1 ∧
      (∃ w, Sentence w ∧ w.map Terminal.kind = T.yield.map Prod.fst) := by
  have hc : a.code ≠ [] := by intro h; rw [h] at hb; cases hb
  have hf := parse_final a hc
  unfold parse at h
  rw [hb, if_neg (by decide)] at h
  revert h hf
  generalize run (fuel a.code.length) (initCfg a) = x
  intro h hf
  match x, h, hf with
  | .error _, h, _ => cases h
  | .ok none, h, _ => cases h
  | .ok (some (k, b)), h, hf =>
    injection h with h
    subst h
    rcases hf.2 with ⟨-, h⟩ | ⟨-, h⟩
    · exact absurd he h
    · obtain ⟨T, v, t, u, h1, h2, h3, h4, h8⟩ := h he
      have h5 := h3.tokens (.eof h4.1)
      rw [List.append_nil] at h5
      refine ⟨T, v, h1, h2, h5, h8, ?_⟩
      obtain ⟨w, h6, h7⟩ := h2.derives [.n .n_module] (by rw [List.map_singleton, h1]; rfl)
      rw [yieldL_single] at h7
      exact ⟨w, h6, h7⟩

end Verif.LR
