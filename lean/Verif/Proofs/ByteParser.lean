import Verif.ByteParser
import Verif.Proofs.ByteLexer
import Verif.Proofs.LR.Says
/-! The driver on bytes does what the driver on characters does. -/
namespace Verif.ByteParser
open Utf8 Lexer Tables ByteLexer Spec LR

variable {code : List UInt8}

theorem chars_eq {a : TokB} {b : Tok} (h : Rel code a b) : chars code a = b := by
  unfold chars
  rw [h.literal, decodeAll_encode, h.value, h.prevDot, h.at_.dec]

/-- The token is one the tokeniser can be in. -/
abbrev Sound (code : List UInt8) (a : TokB) : Prop := Rel code a (chars code a)

theorem Sound.of {a : TokB} {b : Tok} (h : Rel code a b) : Sound code a := by
  unfold Sound
  rw [chars_eq h]
  exact h

/-- The outcomes of a round on bytes and on characters. -/
def Match (code : List UInt8) (x : Except PanicB StepB) : Except Panic Step → Prop
  | .error p => x = .error (.of p)
  | .ok (.done k a) => x = .ok (.done k a)
  | .ok (.go c') => ∃ c, x = .ok (.go c) ∧ c.cfg code = c' ∧ Sound code c.lval

variable [Letters]

theorem fetch_match (hne : code ≠ []) {c : CfgB} (hs : Sound code c.lval) (hc : c.ast.code ≠ []) :
    ∃ c', fetchB code c = .ok (c', (fetch (c.cfg code)).2) ∧ c'.cfg code = (fetch (c.cfg code)).1 ∧ Sound code c'.lval := by
  obtain ⟨ast, lval, look, live, stale⟩ := c
  cases look with
  | some t => exact ⟨⟨ast, lval, some t, live, stale⟩, rfl, rfl, hs⟩
  | none =>
    let c : CfgB := ⟨ast, lval, none, live, stale⟩
    obtain ⟨a', k, e, h1, h2, h3⟩ := next_rel hs
    rw [fetch_none (c := c.cfg code) rfl, lexCall_eq (a := (c.cfg code).ast) hc]
    unfold fetchB lexCallB
    dsimp only at h1 h2 h3 ⊢
    rw [if_neg hne, h1]
    dsimp only [CfgB.cfg, c]
    revert h2 h3
    generalize lexNext (chars code lval) = r
    obtain ⟨t', r⟩ := r
    intro h2 h3
    have ht := chars_eq h2
    dsimp only at ht
    subst ht
    match r with
    | .error e' =>
      dsimp only at h3
      subst h3
      exact ⟨{ c with ast := { c.ast with err := some (.lex e') }, lval := a' }, rfl, rfl, h2⟩
    | .ok none =>
      obtain ⟨rfl, rfl⟩ := h3
      exact ⟨{ c with lval := a' }, rfl, rfl, h2⟩
    | .ok (some k') =>
      obtain ⟨rfl, rfl⟩ := h3
      exact ⟨{ c with ast := { c.ast with cur := some (chars code a') }, lval := a', look := some (tokNum k') }, rfl, rfl, h2⟩

omit [Letters] in
theorem keep_match {c : CfgB} (hs : Sound code c.lval) {x : Except Panic Step}
    (hx : ∀ c', x = .ok (.go c') → c'.lval = (c.cfg code).lval) : Match code (keepTok c.lval x) x := by
  match x with
  | .error p => rfl
  | .ok (.done k a) => rfl
  | .ok (.go c') =>
    refine ⟨_, rfl, ?_, hs⟩
    have := hx c' rfl
    obtain ⟨x1, x2, x3, x4, x5⟩ := c'
    dsimp only at this
    subst this
    rfl

omit [Letters] in
theorem reduce_lval {c c' : Cfg} {p : Nat} (h : reduce c p = .ok (.go c')) : c'.lval = c.lval := by
  unfold reduce at h
  dsimp only at h
  split at h
  · cases h
  · obtain ⟨x, -, h2⟩ := bind_ok h
    injection h2 with h2
    injection h2 with h2
    subst h2
    rfl

omit [Letters] in
theorem syntaxError_lval {c c' : Cfg} (h : syntaxError c = .ok (.go c')) : c'.lval = c.lval := by
  unfold syntaxError at h
  obtain ⟨x, -, h2⟩ := bind_ok h
  split at h2
  · cases h2
  · injection h2 with h2
    injection h2 with h2
    subst h2
    rfl

theorem default_match (hne : code ≠ []) {c : CfgB} (hs : Sound code c.lval) (hc : c.ast.code ≠ []) (s : Nat) :
    Match code (defaultActionB code c s) (defaultAction (c.cfg code) s) := by
  unfold defaultActionB defaultAction
  dsimp only
  split
  · obtain ⟨c', h1, h2, h3⟩ := fetch_match hne hs hc
    rw [h1]
    revert h2
    generalize fetch (c.cfg code) = r
    obtain ⟨d, t⟩ := r
    intro h2
    dsimp only at h2 ⊢
    subst h2
    show Match code (if excaFind t (excaFrom s excaPairs) < 0 then _ else _) _
    split
    · rfl
    · split
      · exact keep_match h3 fun _ h => syntaxError_lval h
      · exact keep_match h3 fun _ h => reduce_lval h
  · split
    · exact keep_match hs fun _ h => syntaxError_lval h
    · exact keep_match hs fun _ h => reduce_lval h

theorem fetch_code' {c : Cfg} (h : c.ast.code ≠ []) : (fetch c).1.ast.code = c.ast.code := by
  cases hl : c.look with
  | some t => rw [fetch_look hl]
  | none =>
    rw [fetch_none hl, lexCall_eq h]
    rcases lexNext c.lval with ⟨t', e | (_ | k)⟩ <;> rfl

theorem step_match (hne : code ≠ []) {c : CfgB} (hs : Sound code c.lval) (hc : c.ast.code ≠ []) :
    Match code (stepB code c) (step (c.cfg code)) := by
  unfold stepB step
  have hl : (c.cfg code).live = c.live := rfl
  rw [hl]
  match c.live with
  | [] => rfl
  | (s, v) :: l =>
    dsimp only
    split
    · exact default_match hne hs hc s
    · obtain ⟨c', h1, h2, h3⟩ := fetch_match hne hs hc
      have hcode := fetch_code' (c := c.cfg code) hc
      rw [h1]
      revert h2 hcode
      generalize fetch (c.cfg code) = r
      obtain ⟨d, t⟩ := r
      intro h2 hcode
      dsimp only at h2 hcode ⊢
      subst h2
      show Match code (match shiftOf s t with | some _ => _ | none => _) _
      cases shiftOf s t with
      | some s' => exact ⟨_, rfl, rfl, h3⟩
      | none => exact default_match hne h3 (by rw [show c'.ast.code = _ from hcode]; exact hc) s

/-- The outcomes of a run. -/
def embR : Except Panic (Option (Nat × Ast)) → Except PanicB (Option (Nat × Ast))
  | .error p => .error (.of p)
  | .ok x => .ok x

theorem run_match (hne : code ≠ []) {cs : List Char} (hcs : cs ≠ []) (n : Nat) (c : CfgB) (hs : Sound code c.lval)
    (hp : PosOk cs c.ast) (hn : ∃ n, (c.cfg code).lval = afterCalls n (startTok cs)) :
    runB code n c = embR (run n (c.cfg code)) := by
  induction n generalizing c with
  | zero => rfl
  | succ n ih =>
    have h := step_match hne hs (by rw [hp.codeEq]; exact hcs)
    have hpos := step_pos (c := c.cfg code) hcs hp hn
    rw [runB, run]
    revert h hpos
    generalize step (c.cfg code) = y
    intro h hpos
    match y with
    | .error p => rw [show stepB code c = _ from h]; rfl
    | .ok (.done k a) => rw [show stepB code c = _ from h]; rfl
    | .ok (.go c') =>
      obtain ⟨d, h1, h2, h3⟩ := h
      subst h2
      rw [h1]
      exact ih d h3 hpos.1 hpos.2

/-- The outcomes of `Parse`. -/
def emb : Outcome → OutcomeB
  | .ret a => .ret a
  | .panic p => .panic (.of p)
  | .loops => .loops

theorem parse_match (code : List UInt8) : parseB code = emb (parse (newAST (decodeAll code))) := by
  unfold parseB parse
  have hcode : (newAST (decodeAll code)).code = decodeAll code := rfl
  rw [hcode]
  dsimp only
  split
  · rfl
  · rename_i hb
    have hcs : decodeAll code ≠ [] := by rintro h; rw [h] at hb; exact hb rfl
    have hne : code ≠ [] := by rintro rfl; exact hcs rfl
    have hr : Rel code ⟨[], .nil, 0, false⟩ (startTok (decodeAll code)) := ⟨rfl, rfl, rfl, 0, rfl, rfl⟩
    have := run_match hne hcs (fuel (decodeAll code).length)
      ⟨newAST (decodeAll code), ⟨[], .nil, 0, false⟩, none, [(0, {})], []⟩ (Sound.of hr)
      ⟨rfl, nofun, nofun⟩ ⟨0, chars_eq hr⟩
    rw [this]
    have hi : (⟨newAST (decodeAll code), ⟨[], .nil, 0, false⟩, none, [(0, {})], []⟩ : CfgB).cfg code = initCfg (newAST (decodeAll code)) := by
      unfold CfgB.cfg initCfg
      rw [hcode]
      rw [chars_eq hr]
    rw [hi]
    rcases run _ _ with p | (_ | ⟨k, a⟩) <;> rfl

end Verif.ByteParser
