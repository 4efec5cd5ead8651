import Verif.StdLetters
import Verif.AstEq
import Verif.Spec.Program
import Verif.Proofs.LR.Sim
/-!
# Lemmas for the theorems on programs
-/
namespace Verif
open Spec Lexer LR

/-! ## Tokens of concrete texts -/

/-- The keys of all tokens, if there are fewer than `n`. -/
def keysOf [Letters] : Nat → Tok → Option (List Key)
  | 0, _ => none
  | n + 1, t => match lexNext t with
    | (_, .ok none) => some []
    | (t', .ok (some k)) => (keysOf n t').map (key (k, t') :: ·)
    | _ => none

theorem keysOf_tokens [Letters] : ∀ {n t ks}, keysOf n t = some ks → ∃ l, Tokens t l ∧ l.map key = ks
  | 0, _, _, h => by simp [keysOf] at h
  | n + 1, t, ks, h => by
    unfold keysOf at h
    split at h
    · next e => injection h with h; subst h; exact ⟨[], .eof (by rw [e]), rfl⟩
    · next t' k e =>
      obtain ⟨ks', h1, h2⟩ := Option.map_eq_some_iff.1 h
      obtain ⟨l, h3, h4⟩ := keysOf_tokens h1
      exact ⟨(k, t') :: l, .next e h3, by rw [List.map_cons, h4, h2]⟩
    · cases h

theorem keysOf_sound [Letters] (n : Nat) {code ks} (h : keysOf n (startTok code) = some ks) : HasKeys code ks :=
  keysOf_tokens h

/-! ## Results on concrete texts -/

/-- The module that `Parse` leaves. -/
def modOf [Letters] (code : List Char) : Module :=
  match parse (newAST code) with
  | .ret a => a.mod
  | _ => ⟨[], []⟩

/-- `Parse` returns nil. -/
def okB [Letters] (code : List Char) : Bool :=
  match parse (newAST code) with
  | .ret a => a.err.isNone
  | _ => false

theorem accepts_modOf [Letters] {code : List Char} (h : okB code = true) : Accepts code (modOf code) := by
  unfold okB at h
  unfold modOf
  cases e : parse (newAST code) with
  | ret a => rw [e] at h; exact ⟨a, e, Option.isNone_iff_eq_none.1 h, rfl⟩
  | panic => rw [e] at h; cases h
  | loops => rw [e] at h; cases h

theorem accepts_eq [Letters] {code : List Char} {M : Module} (h : okB code = true) (hM : modOf code = M) : Accepts code M :=
  hM ▸ accepts_modOf h

theorem rejects_eq [Letters] {code : List Char} (h : okB code = false) (M : Module) : ¬ Accepts code M := by
  rintro ⟨a, h1, h2, -⟩
  unfold okB at h
  rw [h1] at h
  simp only [h2, Option.isNone_none, Bool.true_eq_false] at h

/-! ## Blank texts -/

theorem isUnicodeSpace_iff' (c : Char) : isUnicodeSpace c = true ↔ c.toNat ∈ whiteSpace := by
  unfold isUnicodeSpace whiteSpace
  simp only [Bool.or_eq_true, Bool.and_eq_true, decide_eq_true_eq, beq_iff_eq, List.mem_cons, List.not_mem_nil, or_false]
  omega

theorem notBlank_iff (code : List Char) : NotBlank code ↔ code.all isUnicodeSpace = false := by
  rw [List.all_eq_false]
  unfold NotBlank
  simp only [isUnicodeSpace_iff']

/-! ## Loops -/

mutual
theorem _root_.Verif.Spec.Stmt.breaks_of_loops {b : Bool} {n : Nat} (hb : b = true → 0 < n) : ∀ s : Stmt, s.loopsOk b → s.breaksOk n
  | .assign _ _, _ => by simp only [Stmt.breaksOk]
  | .expr _, _ => by simp only [Stmt.breaksOk]
  | .ifS _ t es e, h => by
    simp only [Stmt.loopsOk] at h; simp only [Stmt.breaksOk]
    exact ⟨Block.breaks_of_loops hb t h.1, Elifs.breaks_of_loops (fun x => by have := hb x; omega) es h.2.1,
      Else.breaks_of_loops (fun x => by have := hb x; omega) e h.2.2⟩
  | .forEach _ _ l, h => by
    simp only [Stmt.loopsOk] at h; simp only [Stmt.breaksOk]
    exact Block.breaks_of_loops (fun _ => Nat.succ_pos _) l h
  | .forTo _ _ l, h => by
    simp only [Stmt.loopsOk] at h; simp only [Stmt.breaksOk]
    exact Block.breaks_of_loops (fun _ => Nat.succ_pos _) l h
  | .while _ l, h => by
    simp only [Stmt.loopsOk] at h; simp only [Stmt.breaksOk]
    exact Block.breaks_of_loops (fun _ => Nat.succ_pos _) l h
  | .tryS t h', h => by
    simp only [Stmt.loopsOk] at h; simp only [Stmt.breaksOk]
    exact ⟨Block.breaks_of_loops hb t h.1, Block.breaks_of_loops (fun x => by have := hb x; omega) h' h.2⟩
  | .cont, h => by simp only [Stmt.loopsOk] at h; simp only [Stmt.breaksOk]; exact hb h
  | .brk, h => by simp only [Stmt.loopsOk] at h; simp only [Stmt.breaksOk]; exact hb h
  | .throw _, _ => by simp only [Stmt.breaksOk]
  | .ret _, _ => by simp only [Stmt.breaksOk]
theorem _root_.Verif.Spec.Elifs.breaks_of_loops {b : Bool} {n : Nat} (hb : b = true → 0 < n) : ∀ s : Elifs, s.loopsOk b → s.breaksOk n
  | .nil, _ => by simp only [Elifs.breaksOk]
  | .cons _ t r, h => by
    simp only [Elifs.loopsOk] at h; simp only [Elifs.breaksOk]
    exact ⟨Block.breaks_of_loops hb t h.1, Elifs.breaks_of_loops (fun x => by have := hb x; omega) r h.2⟩
theorem _root_.Verif.Spec.Else.breaks_of_loops {b : Bool} {n : Nat} (hb : b = true → 0 < n) : ∀ s : Else, s.loopsOk b → s.breaksOk n
  | .none, _ => by simp only [Else.breaksOk]
  | .some t, h => by
    simp only [Else.loopsOk] at h; simp only [Else.breaksOk]
    exact Block.breaks_of_loops hb t h
theorem _root_.Verif.Spec.Block.breaks_of_loops {b : Bool} {n : Nat} (hb : b = true → 0 < n) : ∀ s : Block, s.loopsOk b → s.breaksOk n
  | .empty, _ => by simp only [Block.breaksOk]
  | .body t, h => by
    simp only [Block.loopsOk] at h; simp only [Block.breaksOk]
    exact Body.breaks_of_loops hb t h
theorem _root_.Verif.Spec.Body.breaks_of_loops {b : Bool} {n : Nat} (hb : b = true → 0 < n) : ∀ s : Body, s.loopsOk b → s.breaksOk n
  | .one s, h => by
    simp only [Body.loopsOk] at h; simp only [Body.breaksOk]
    exact Stmt.breaks_of_loops hb s h
  | .sep t _ s, h => by
    simp only [Body.loopsOk] at h; simp only [Body.breaksOk]
    exact ⟨Block.breaks_of_loops hb t h.1, OptStmt.breaks_of_loops (fun x => by have := hb x; omega) s h.2⟩
theorem _root_.Verif.Spec.OptStmt.breaks_of_loops {b : Bool} {n : Nat} (hb : b = true → 0 < n) : ∀ s : OptStmt, s.loopsOk b → s.breaksOk n
  | .none, _ => by simp only [OptStmt.breaksOk]
  | .some s, h => by
    simp only [OptStmt.loopsOk] at h; simp only [OptStmt.breaksOk]
    exact Stmt.breaks_of_loops hb s h
end

mutual
theorem _root_.Verif.Spec.Stmt.loops_of_breaks {b : Bool} {n : Nat} (hb : 0 < n → b = true) :
    ∀ s : Stmt, s.whiles = 0 → s.breaksOk n → s.loopsOk b
  | .assign _ _, _, _ => by simp only [Stmt.loopsOk]
  | .expr _, _, _ => by simp only [Stmt.loopsOk]
  | .ifS _ t es e, w, h => by
    simp only [Stmt.breaksOk] at h; simp only [Stmt.loopsOk]; simp only [Stmt.whiles] at w
    exact ⟨Block.loops_of_breaks hb t (by omega) h.1, Elifs.loops_of_breaks (fun x => hb (by omega)) es (by omega) h.2.1,
      Else.loops_of_breaks (fun x => hb (by omega)) e (by omega) h.2.2⟩
  | .forEach _ _ l, w, h => by
    simp only [Stmt.breaksOk] at h; simp only [Stmt.loopsOk]; simp only [Stmt.whiles] at w
    exact Block.loops_of_breaks (fun _ => rfl) l w h
  | .forTo _ _ l, w, h => by
    simp only [Stmt.breaksOk] at h; simp only [Stmt.loopsOk]; simp only [Stmt.whiles] at w
    exact Block.loops_of_breaks (fun _ => rfl) l w h
  | .while _ l, w, h => by simp only [Stmt.whiles] at w; omega
  | .tryS t h', w, h => by
    simp only [Stmt.breaksOk] at h; simp only [Stmt.loopsOk]; simp only [Stmt.whiles] at w
    exact ⟨Block.loops_of_breaks hb t (by omega) h.1, Block.loops_of_breaks (fun x => hb (by omega)) h' (by omega) h.2⟩
  | .cont, _, h => by simp only [Stmt.breaksOk] at h; simp only [Stmt.loopsOk]; exact hb h
  | .brk, _, h => by simp only [Stmt.breaksOk] at h; simp only [Stmt.loopsOk]; exact hb h
  | .throw _, _, _ => by simp only [Stmt.loopsOk]
  | .ret _, _, _ => by simp only [Stmt.loopsOk]
theorem _root_.Verif.Spec.Elifs.loops_of_breaks {b : Bool} {n : Nat} (hb : 0 < n → b = true) :
    ∀ s : Elifs, s.whiles = 0 → s.breaksOk n → s.loopsOk b
  | .nil, _, _ => by simp only [Elifs.loopsOk]
  | .cons _ t r, w, h => by
    simp only [Elifs.breaksOk] at h; simp only [Elifs.loopsOk]; simp only [Elifs.whiles] at w
    exact ⟨Block.loops_of_breaks hb t (by omega) h.1, Elifs.loops_of_breaks (fun x => hb (by omega)) r (by omega) h.2⟩
theorem _root_.Verif.Spec.Else.loops_of_breaks {b : Bool} {n : Nat} (hb : 0 < n → b = true) :
    ∀ s : Else, s.whiles = 0 → s.breaksOk n → s.loopsOk b
  | .none, _, _ => by simp only [Else.loopsOk]
  | .some t, w, h => by
    simp only [Else.breaksOk] at h; simp only [Else.loopsOk]; simp only [Else.whiles] at w
    exact Block.loops_of_breaks hb t w h
theorem _root_.Verif.Spec.Block.loops_of_breaks {b : Bool} {n : Nat} (hb : 0 < n → b = true) :
    ∀ s : Block, s.whiles = 0 → s.breaksOk n → s.loopsOk b
  | .empty, _, _ => by simp only [Block.loopsOk]
  | .body t, w, h => by
    simp only [Block.breaksOk] at h; simp only [Block.loopsOk]; simp only [Block.whiles] at w
    exact Body.loops_of_breaks hb t w h
theorem _root_.Verif.Spec.Body.loops_of_breaks {b : Bool} {n : Nat} (hb : 0 < n → b = true) :
    ∀ s : Body, s.whiles = 0 → s.breaksOk n → s.loopsOk b
  | .one s, w, h => by
    simp only [Body.breaksOk] at h; simp only [Body.loopsOk]; simp only [Body.whiles] at w
    exact Stmt.loops_of_breaks hb s w h
  | .sep t _ s, w, h => by
    simp only [Body.breaksOk] at h; simp only [Body.loopsOk]; simp only [Body.whiles] at w
    exact ⟨Block.loops_of_breaks hb t (by omega) h.1, OptStmt.loops_of_breaks (fun x => hb (by omega)) s (by omega) h.2⟩
theorem _root_.Verif.Spec.OptStmt.loops_of_breaks {b : Bool} {n : Nat} (hb : 0 < n → b = true) :
    ∀ s : OptStmt, s.whiles = 0 → s.breaksOk n → s.loopsOk b
  | .none, _, _ => by simp only [OptStmt.loopsOk]
  | .some s, w, h => by
    simp only [OptStmt.breaksOk] at h; simp only [OptStmt.loopsOk]; simp only [OptStmt.whiles] at w
    exact Stmt.loops_of_breaks hb s w h
end

theorem blocks_breaks_of_loops : ∀ (bs : List Block) (n : Nat), (∀ b ∈ bs, b.loopsOk false) → blocksBreaksOk n bs
  | [], _, _ => trivial
  | b :: bs, n, h => ⟨b.breaks_of_loops (fun h => by cases h) (h b (by simp)), blocks_breaks_of_loops bs _ fun x hx => h x (by simp [hx])⟩

theorem blocks_loops_of_breaks : ∀ (bs : List Block), (bs.map Block.whiles).sum = 0 → blocksBreaksOk 0 bs → ∀ b ∈ bs, b.loopsOk false
  | [], _, _ => by simp
  | b :: bs, w, h => by
    simp only [List.map_cons, List.sum_cons] at w
    have w1 : b.whiles = 0 := by omega
    have h2 := h.2
    rw [w1] at h2
    intro x hx
    rcases List.mem_cons.1 hx with rfl | hx
    · exact x.loops_of_breaks (by omega) w1 h.1
    · exact blocks_loops_of_breaks bs (by omega) h2 x hx

theorem Lawful.ok {P : Program} (h : P.Lawful) (hc : P.clean) : ProgOk P :=
  ⟨hc, blocks_breaks_of_loops _ _ h.loops, h.throws, h.returns, h.colons, h.distinct, h.ordered⟩

theorem Lawful.law {P : Program} (h : P.Lawful) (hc : P.tidy) : ProgLaw P :=
  ⟨hc, blocks_breaks_of_loops _ _ h.loops, h.throws, h.returns, h.colons, h.distinct, h.ordered⟩

/-! ## Accepted texts -/

variable [Letters]

theorem accepted {code : List Char} {P : Program} {M : Module} (hb : NotBlank code) (hs : Spells code P) (ha : Accepts code M) :
    Accepted P M := by
  obtain ⟨a, h1, h2, rfl⟩ := ha
  obtain ⟨⟨l, ht, hl⟩, hg⟩ := hs
  obtain ⟨l', P', ht', hl', hA⟩ := parse_program ((notBlank_iff code).1 hb) h1 h2
  rwa [program_unique ht ht' hl hl' hg hA.grouped]

theorem accepts_of {code : List Char} {P : Program} (hb : NotBlank code) (hs : Spells code P) (h : ProgOk P) : Accepts code P.tree := by
  obtain ⟨⟨l, ht, hl⟩, hg⟩ := hs
  exact parse_complete ((notBlank_iff code).1 hb) ht hl hg h

theorem accepts_shows {code : List Char} {P : Program} (hb : NotBlank code) (hs : Spells code P) (h : ProgLaw P) :
    ∃ M, Accepts code M ∧ P.shows M := by
  obtain ⟨⟨l, ht, hl⟩, hg⟩ := hs
  obtain ⟨a, h1, h2, h3⟩ := parse_complete_shows ((notBlank_iff code).1 hb) ht hl hg h
  exact ⟨a.mod, ⟨a, h1, h2, rfl⟩, h3⟩

omit [Letters] in
theorem single_ok {s : Stmt} (hc : s.clean) (h1 : s.breaksOk 0) (h2 : s.throwsOk 0) (h3 : s.returnsOk false) (h4 : s.colonsOk) :
    ProgOk (single s) where
  clean := ⟨by simp [single, Program.funcs], by simpa only [single, Block.clean, Body.clean] using hc⟩
  breaks := ⟨by simpa only [single, Block.breaksOk, Body.breaksOk] using h1, trivial⟩
  throws := by
    intro b hb
    simp only [Program.blocks, single, Program.funcs, List.flatMap_nil, List.map_nil, List.nil_append, List.mem_singleton] at hb
    subst hb
    simpa only [Block.throwsOk, Body.throwsOk] using h2
  returns := ⟨by simp [single, Program.funcs], by simpa only [single, Block.returnsOk, Body.returnsOk] using h3⟩
  colons := by
    intro b hb
    simp only [Program.blocks, single, Program.funcs, List.flatMap_nil, List.map_nil, List.nil_append, List.mem_singleton] at hb
    subst hb
    simpa only [Block.colonsOk, Body.colonsOk] using h4
  distinct := ⟨by simp [single, Program.globals], by simp [single, Program.funcs]⟩
  ordered := ⟨[], [], rfl⟩

omit [Letters] in
theorem assign_ok (v : Path) (e : Expr) : ProgOk (single (.assign v e)) :=
  single_ok (by simp only [Stmt.clean]) (by simp only [Stmt.breaksOk]) (by simp only [Stmt.throwsOk]) (by simp only [Stmt.returnsOk])
    (by simp only [Stmt.colonsOk])

theorem accepts_assign {code : List Char} {v : Path} {e : Expr} (hb : NotBlank code) (hk : HasKeys code (v.toks ++ word .kEQUAL :: e.toks))
    (hv : v.grouped) (he : e.grouped) : Accepts code ⟨[], [.stm (.assign v.tree [e.tree])]⟩ := by
  have h : Spells code (single (.assign v e)) := by
    refine ⟨?_, by simp [single, Program.funcs], ?_⟩
    · simpa only [HasKeys, Program.toks, single, List.flatMap_nil, List.nil_append, Block.toks, Body.toks, Stmt.toks] using hk
    · simp only [single, Block.grouped, Body.grouped, Stmt.grouped]; exact ⟨hv, he⟩
  have := accepts_of hb h (assign_ok v e)
  simpa only [Program.tree, single, Program.globals, Program.funcs, List.flatMap_nil, List.map_nil, List.nil_append, Block.tree, Body.tree,
    Stmt.tree, List.map_cons] using this

omit [Letters] in
theorem withMinus_ne (x : Stm) : withMinus x ≠ x ↔ ShowsMinus x := by
  constructor
  · intro h
    cases x <;> try exact absurd rfl h
    · exact .num _
    · rename_i s u n; cases u
      · exact .var _ _
      · exact absurd rfl h
    · rename_i a c u n; cases u
      · exact .chain _ _ _
      · exact absurd rfl h
    · rename_i op l r u n; cases u
      · exact .bin _ _ _ _
      · exact absurd rfl h
  · intro h
    cases h <;> simp [withMinus]
    rename_i x
    intro e
    have := congrArg F64.neg e
    simp [F64.negate] at this

omit [Letters] in
theorem withNot_ne (x : Stm) : withNot x ≠ x ↔ ShowsNot x := by
  constructor
  · intro h
    cases x <;> try exact absurd rfl h
    · exact .bool _
    · rename_i s u n; cases n
      · exact .var _ _
      · exact absurd rfl h
    · rename_i a c u n; cases n
      · exact .chain _ _ _
      · exact absurd rfl h
    · rename_i s p n; cases n
      · exact .method _ _
      · exact absurd rfl h
    · rename_i op l r u n; cases n
      · exact .bin _ _ _ _
      · exact absurd rfl h
    · rename_i l n; cases n
      · exact .exprs _
      · exact absurd rfl h
  · intro h
    cases h <;> simp [withNot]

end Verif
