import Verif.Proofs.LR.Path
import Verif.Proofs.LexNum
/-!
# The invariant of the driver
-/
namespace Verif.LR
open Tables Spec Lexer
variable [Letters]

/-- `Lexed t l t'`: successful calls of the tokeniser from `t` give the tokens `l`; the last state is `t'`. -/
inductive Lexed : Tok → List (Nat × Tok) → Tok → Prop
  | nil (t : Tok) : Lexed t [] t
  | snoc {t l t1 k t2} : Lexed t l t1 → lexNext t1 = (t2, .ok (some k)) → Lexed t (l ++ [(k, t2)]) t2

/-- The tokeniser state `t` is at the end of the text. -/
def AtEnd (t u : Tok) : Prop := (lexNext t).2 = .ok none ∧ u.rest = []

/-- `la` is the number of the token that follows the forest `ts` in the text. -/
def Next (code : List Char) (ts : List Tree) (la : Nat) : Prop :=
  ∃ t, Lexed (startTok code) (yieldL ts) t ∧
    ((∃ t2 k, lexNext t = (t2, .ok (some k)) ∧ la = tokNum k) ∨ ((lexNext t).2 = .ok none ∧ la = 1))

theorem Lexed.snoc_inv {t l k t2 t'} (h : Lexed t (l ++ [(k, t2)]) t') :
    t' = t2 ∧ ∃ t1, Lexed t l t1 ∧ lexNext t1 = (t2, .ok (some k)) := by
  generalize he : l ++ [(k, t2)] = m at h
  cases h with
  | nil => simp at he
  | snoc h hx =>
    obtain ⟨rfl, h2⟩ := List.append_inj' he rfl
    injection h2 with h2 _
    injection h2 with h2 h3
    subst h2; subst h3
    exact ⟨rfl, _, h, hx⟩

theorem Lexed.det {t l u u'} (h : Lexed t l u) (h' : Lexed t l u') : u = u' := by
  generalize he : l = m at h'
  cases h with
  | nil =>
    cases h' with
    | nil => rfl
    | snoc => simp at he
  | snoc h hx =>
    subst he
    exact (h'.snoc_inv).1.symm

structure Inv (code : List Char) (σ0 : St) (c : Cfg) (ts : List Tree) : Prop where
  codeEq : c.ast.code = code
  suffix : c.lval.rest <:+ code
  stk : ∃ vs, Stk c.live ts vs ∧ EvF (c.ast.err = none) ts σ0 vs (view c.ast)
  look : ∀ t, c.look = some t → ∃ k, t = tokNum k ∧ k ≠ 0 ∧
    (c.ast.err = none → Lexed (startTok code) (yieldL ts ++ [(k, c.lval)]) c.lval)
  nolook : c.look = none → c.ast.err = none →
    ∃ t, Lexed (startTok code) (yieldL ts) t ∧ (c.lval = t ∨ AtEnd t c.lval)
  path : c.ast.err = none → ∃ s v r, c.live = (s, v) :: r ∧ ∀ la, Next code ts la → LRF 0 ts la s
  cur : c.ast.cur = none → c.look = none ∧ (ts = [] ∨ ∃ s v l, c.live = (s, v) :: l ∧ s = 1)

/-- Potential of a configuration. -/
def measure (c : Cfg) : Nat :=
  15 * (c.lval.rest.length + (if c.look.isSome then 1 else 0)) + 2 * c.live.length +
    (match c.live with | (s, _) :: _ => pot s | [] => 0)

theorem lexCall_eq {a : Ast} (h : a.code ≠ []) (t : Tok) : lexCall a t = match lexNext t with
    | (t', .error e) => ({ a with err := some (.lex e) }, t', none)
    | (t', .ok none) => (a, t', none)
    | (t', .ok (some k)) => ({ a with cur := some t' }, t', some k) := by
  unfold lexCall; rw [if_neg h]; rfl

theorem lexNext_kind_ne_zero {t t' : Tok} {k : Nat} (h : lexNext t = (t', .ok (some k))) : k ≠ 0 := by
  have h1 := lexNext_res_ok (t := t) (k := k) (by rw [h])
  cases hs : skipTrivia t.rest with
  | nil =>
    have := (lexNext_eof_iff t).2 hs
    rw [h] at this; cases this
  | cons c r =>
    rw [hs] at h1
    rcases nextRaw_cases h1 with ⟨_, h⟩ | ⟨_, h⟩ | ⟨_, h⟩ | ⟨_, h⟩ | ⟨h1, h⟩ | ⟨_, h⟩ | ⟨_, h⟩ | ⟨_, h⟩ | ⟨_, h⟩ |
      ⟨_, h⟩ | ⟨_, h⟩
    · rcases h with h | ⟨w, h⟩
      · rw [h]; decide
      · intro e; subst e; revert h
        have : ∀ x ∈ keywordTable, x.2 ≠ 0 := by decide
        exact fun h => this _ h rfl
    · rw [h]; decide
    · rw [h]; decide
    · rw [h]; decide
    · rw [h]; intro e
      have : c = Char.ofNat 0 := by rw [← Char.ofNat_toNat c, e]
      subst this
      revert h1; decide
    · rw [h]; decide
    · rw [h]; decide
    · rcases h with h | h | h <;> rw [h] <;> decide
    · rcases h with h | h <;> rw [h] <;> decide
    · rw [h]; decide
    · rw [h]; decide

theorem lexNext_len {t t' : Tok} {k : Nat} (h : lexNext t = (t', .ok (some k))) : t'.rest.length < t.rest.length := by
  cases hs : skipTrivia t.rest with
  | nil =>
    have := (lexNext_eof_iff t).2 hs
    rw [h] at this; cases this
  | cons c r =>
    have h0 : t'.rest = (nextRaw t.prevDot (skipTrivia t.rest)).rest := by
      rw [← lexNext_rest, h]
    rw [h0, hs]
    have h1 := (nextRaw_suffix t.prevDot c r).length_le
    have h2 := (skipTrivia_suffix t.rest).length_le
    rw [hs, List.length_cons] at h2
    omega

/-- What one `fetch` does. -/
theorem Inv.fetch {code : List Char} {σ0 : St} {c : Cfg} {ts : List Tree} (hc : code ≠ []) (h : Inv code σ0 c ts) :
    Inv code σ0 (fetch c).1 ts ∧ (fetch c).1.live = c.live ∧ (fetch c).1.stale = c.stale ∧
    (fetch c).2 < nToks ∧ measure (fetch c).1 ≤ measure c ∧
    (c.ast.err ≠ none → (fetch c).1.ast.err ≠ none) ∧
    ((fetch c).1.look = some (fetch c).2 ∨
      ((fetch c).1.look = none ∧ (fetch c).2 = 1 ∧
        ((fetch c).1.ast.err = none → ∃ t, Lexed (startTok code) (yieldL ts) t ∧ AtEnd t (fetch c).1.lval))) := by
  cases hl : c.look with
  | some t =>
    rw [fetch_look hl]
    obtain ⟨k, hk, -⟩ := h.look t hl
    exact ⟨h, rfl, rfl, hk ▸ (tokNum_lt k).1, Nat.le_refl _, id, .inl hl⟩
  | none =>
    have hcode : c.ast.code ≠ [] := by rw [h.codeEq]; exact hc
    rw [fetch_none hl, lexCall_eq hcode]
    have hsuf : (lexNext c.lval).1.rest <:+ c.lval.rest := lexNext_suffix c.lval
    rcases hx : lexNext c.lval with ⟨t', e | (_ | k)⟩
    · -- error
      rw [hx] at hsuf
      dsimp only at hsuf ⊢
      refine ⟨⟨h.codeEq, hsuf.trans h.suffix, ?_, (fun t ht => by rw [hl] at ht; cases ht), (fun _ h => nomatch h), (fun h => nomatch h), h.cur⟩, rfl, rfl, by decide, ?_, (fun _ => nofun),
        .inr ⟨hl, rfl, fun h => nomatch h⟩⟩
      · obtain ⟨vs, h1, h2⟩ := h.stk
        exact ⟨vs, h1, h2.mono (fun h => nomatch h)⟩
      · unfold measure
        have := hsuf.length_le
        dsimp only; omega
    · rw [hx] at hsuf
      dsimp only at hsuf ⊢
      have hend : c.ast.err = none → ∃ t, Lexed (startTok code) (yieldL ts) t ∧ AtEnd t t' := by
        intro he
        obtain ⟨t, h1, h2⟩ := h.nolook hl he
        refine ⟨t, h1, ?_⟩
        rcases h2 with h2 | ⟨h2, h3⟩
        · subst h2
          refine ⟨by rw [hx], ?_⟩
          have := (lexNext_eof_iff c.lval).1 (by rw [hx])
          have h4 := lexNext_rest c.lval
          rw [hx, this] at h4
          exact h4
        · refine ⟨h2, ?_⟩
          rw [h3] at hsuf
          exact List.eq_nil_of_length_eq_zero (by simpa using hsuf.length_le)
      refine ⟨⟨h.codeEq, hsuf.trans h.suffix, h.stk, (fun t ht => by rw [hl] at ht; cases ht), ?_, h.path, h.cur⟩, rfl, rfl, by decide, ?_, id, .inr ⟨hl, rfl, hend⟩⟩
      · intro _ he
        obtain ⟨t, h1, h2⟩ := hend he
        exact ⟨t, h1, .inr h2⟩
      · unfold measure
        have := hsuf.length_le
        dsimp only; omega
    · have hlen := lexNext_len hx
      rw [hx] at hsuf
      dsimp only at hsuf ⊢
      refine ⟨⟨h.codeEq, hsuf.trans h.suffix, h.stk, ?_, nofun, h.path, nofun⟩, rfl, rfl, (tokNum_lt k).1, ?_, id, .inl rfl⟩
      · rintro t ⟨⟩
        refine ⟨k, rfl, lexNext_kind_ne_zero hx, ?_⟩
        intro he
        obtain ⟨t, h1, h2⟩ := h.nolook hl he
        rcases h2 with h2 | ⟨h2, h3⟩
        · subst h2; exact .snoc h1 hx
        · exfalso
          rw [h3] at hlen
          exact Nat.not_lt_zero _ hlen
      · unfold measure
        rw [hl]
        simp only [Option.isSome_some, Option.isSome_none]
        rw [if_pos trivial, if_neg (by decide)]
        omega

/-- The lookahead of a configuration is the next token. -/
theorem Inv.next_eq {code : List Char} {σ0 : St} {c : Cfg} {ts : List Tree} {t la : Nat} (h : Inv code σ0 c ts)
    (hk : c.look = some t ∨ (c.look = none ∧ t = 1 ∧
        (c.ast.err = none → ∃ t, Lexed (startTok code) (yieldL ts) t ∧ AtEnd t c.lval)))
    (he : c.ast.err = none) (hn : Next code ts la) : la = t := by
  obtain ⟨u, h1, h2⟩ := hn
  rcases hk with hk | ⟨-, rfl, hk⟩
  · obtain ⟨k, rfl, -, h3⟩ := h.look t hk
    obtain ⟨-, u', h4, h5⟩ := (h3 he).snoc_inv
    have := h1.det h4
    subst this
    rcases h2 with ⟨t2, k', h2, rfl⟩ | ⟨h2, -⟩
    · rw [h2] at h5
      injection h5 with _ h5; injection h5 with h5; injection h5 with h5
      rw [h5]
    · rw [h5] at h2; cases h2
  · obtain ⟨u', h4, h5⟩ := hk he
    have := h1.det h4
    subst this
    rcases h2 with ⟨t2, k', h2, rfl⟩ | ⟨h2, rfl⟩
    · have := h5.1
      rw [h2] at this; cases this
    · rfl

end Verif.LR
