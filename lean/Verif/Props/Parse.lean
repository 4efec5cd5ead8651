import Verif.Proofs.LR.Derive
import Verif.Proofs.LR.Says
import Verif.Proofs.LexTok
import Verif.Spec.Space
import Verif.Props.Tokens
/-!
# C10, C14, C15, C17–C20: runs of Parse

`parse a` models one call of `Parse` on the AstNode `a`; `newAST code` is the node of `NewAST(code)`.  The error that
`Parse` returns is the field `err` of the resulting node.
-/
namespace Verif
open Lexer Spec LR
variable [Letters]

/-- `Runs c c'`: the driver gets from configuration `c` to `c'` in some number of rounds. -/
inductive Runs : Cfg → Cfg → Prop
  | refl (c : Cfg) : Runs c c
  | step {c c' c'' : Cfg} : step c = .ok (.go c') → Runs c' c'' → Runs c c''

theorem Runs.inv {code : List Char} {σ0 : St} (hc : code ≠ []) {c c' : Cfg} (h : Runs c c') :
    ∀ {ts}, Inv code σ0 c ts → ∃ ts', Inv code σ0 c' ts' := by
  induction h with
  | refl c => exact fun h => ⟨_, h⟩
  | step hs _ ih =>
    intro ts hi
    have hp := step_inv hc hi
    rw [hs] at hp
    obtain ⟨⟨ts', h1⟩, -⟩ := hp
    exact ih h1

theorem Runs.run {c c' : Cfg} (h : Runs c c') : ∀ {n r}, run n c = .ok (some r) → ∃ m, run m c' = .ok (some r) := by
  induction h with
  | refl c => exact fun h => ⟨_, h⟩
  | step hs _ ih =>
    intro n r hr
    cases n with
    | zero => cases hr
    | succ n =>
      unfold Verif.run at hr
      rw [hs] at hr
      exact ih hr

omit [Letters] in
theorem not_blank {code : List Char} (h : code.all isUnicodeSpace = false) : code ≠ [] := by
  intro h1; rw [h1] at h; cases h

/-- The outcome of `Parse` on a text that is not blank. -/
theorem parse_run {a a' : Ast} (hb : a.code.all isUnicodeSpace = false) (h : parse a = .ret a') :
    ∃ k, run (fuel a.code.length) (initCfg a) = .ok (some (k, a')) := by
  unfold parse at h
  rw [hb, if_neg (by decide)] at h
  revert h
  generalize run (fuel a.code.length) (initCfg a) = x
  intro h
  match x, h with
  | .error _, h => cases h
  | .ok none, h => cases h
  | .ok (some (k, b)), h => injection h with h; subst h; exact ⟨k, rfl⟩

/-! ## C14 -/

/-- Parse returns (or panics) on every text, from every state of the AstNode. -/
theorem C14_terminates (a : Ast) : parse a ≠ .loops := by
  intro h
  unfold parse at h
  split at h
  · cases h
  · rename_i hb
    have hc : a.code ≠ [] := by intro h1; rw [h1] at hb; exact hb rfl
    have hf := parse_final a hc
    revert h hf
    generalize run (fuel a.code.length) (initCfg a) = x
    intro h hf
    match x, h, hf with
    | .ok none, _, hf => exact hf
    | .error _, h, _ => cases h
    | .ok (some (k, b)), h, _ => cases h

/-- The number of rounds of the driver is at most 15 times the number of characters plus 16; each round reads at
most two tokens (`step`).  With more rounds allowed the result is the same. -/
theorem C14_linear (a : Ast) (hc : a.code ≠ []) (m : Nat) (hm : 15 * a.code.length + 16 ≤ m) :
    run m (initCfg a) ≠ .ok none ∧ run m (initCfg a) = run (15 * a.code.length + 16) (initCfg a) := by
  have mono : ∀ n (c : Cfg) k, run n c ≠ .ok none → run (n + k) c = run n c := by
    intro n
    induction n with
    | zero => intro c k h; exact absurd rfl h
    | succ n ih =>
      intro c k h
      rw [show n + 1 + k = (n + k) + 1 by omega]
      unfold run at h ⊢
      cases hs : step c with
      | error q => rfl
      | ok x =>
        cases x with
        | done k a => rfl
        | go c' =>
          rw [hs] at h
          exact ih c' k h
  have h0 : run (15 * a.code.length + 16) (initCfg a) ≠ .ok none := by
    intro h
    have hf := parse_final a hc
    unfold fuel at hf
    rw [h] at hf
    exact hf
  have h1 := mono _ (initCfg a) (m - (15 * a.code.length + 16)) h0
  rw [show 15 * a.code.length + 16 + (m - (15 * a.code.length + 16)) = m by omega] at h1
  exact ⟨h1 ▸ h0, h1⟩

example : (newAST "а = 1".toList).code ≠ [] := by decide

/-! ## C15 -/

/-- If Parse returns nil on a text that is not blank, `Token.Next` reads the whole text without an error, and the
sequence of the token numbers it returns is derivable from the start symbol of the grammar. -/
theorem C15_sound (a a' : Ast) (hb : a.code.all isUnicodeSpace = false) (h : parse a = .ret a') (he : a'.err = none) :
    ∃ (l : List (Nat × Tok)) (w : List Terminal), TokensOf a.code l ∧ Sentence w ∧ w.map Terminal.kind = l.map Prod.fst := by
  obtain ⟨T, v, -, -, h1, -, w, h2, h3⟩ := parse_ok hb h he
  exact ⟨_, w, h1, h2, h3⟩

omit [Letters] in
/-- Different token classes have different numbers, so the sentence is determined by the numbers. -/
theorem C15_numbers_unique (a b : Terminal) (h : a.kind = b.kind) : a = b := by
  have h1 : Sym.t a = Sym.t b := symNum_inj _ _ (by
    show tnum a = tnum b
    rw [← tokNum_kind a, ← tokNum_kind b, h])
  injection h1

/-- An accepted text. -/
example : ∃ a', @parse stdLetters (newAST "а = 1;".toList) = .ret a' ∧ a'.err = none := by
  refine ⟨_, rfl, ?_⟩
  decide +kernel

/-! ## C17 -/

omit [Letters] in
theorem isUnicodeSpace_iff (c : Char) : isUnicodeSpace c = true ↔ c.toNat ∈ whiteSpace := by
  unfold isUnicodeSpace whiteSpace
  simp only [Bool.or_eq_true, Bool.and_eq_true, decide_eq_true_eq, beq_iff_eq, List.mem_cons, List.not_mem_nil, or_false]
  omega

/-- A text of white space is accepted; the module stays empty. -/
theorem C17_blank (code : List Char) (h : ∀ c ∈ code, c.toNat ∈ whiteSpace) :
    ∃ a', parse (newAST code) = .ret a' ∧ a'.err = none ∧ a'.mod = ⟨[], []⟩ := by
  refine ⟨newAST code, ?_, rfl, rfl⟩
  unfold parse
  rw [if_pos]
  show code.all isUnicodeSpace = true
  rw [List.all_eq_true]
  exact fun c hc => (isUnicodeSpace_iff c).2 (h c hc)

example : ∀ c ∈ "　 \n \t".toList, c.toNat ∈ whiteSpace := by decide

/-! ## C18 -/

/-- If, reading the text token by token, `Token.Next` reports an error after any number of good tokens,
then Parse does not return nil. -/
theorem C18_lexical_errors (a a' : Ast) (hb : a.code.all isUnicodeSpace = false) (h : parse a = .ret a')
    (n : Nat) (e : LexErr) (hn : ∀ i < n, ∃ k, (lexNext (afterCalls i (startTok a.code))).2 = .ok (some k))
    (he : (lexNext (afterCalls n (startTok a.code))).2 = .error e) : a'.err ≠ none := by
  intro h0
  obtain ⟨l, w, h1, -⟩ := C15_sound a a' hb h h0
  have key : ∀ n t l, Tokens t l → (∀ i < n, ∃ k, (lexNext (afterCalls i t)).2 = .ok (some k)) →
      (lexNext (afterCalls n t)).2 ≠ .error e := by
    intro n
    induction n with
    | zero =>
      intro t l ht _ hx
      cases ht with
      | eof h => rw [afterCalls] at hx; rw [h] at hx; cases hx
      | next h _ => rw [afterCalls, h] at hx; cases hx
    | succ n ih =>
      intro t l ht hi hx
      cases ht with
      | eof h =>
        obtain ⟨k, hk⟩ := hi 0 (by omega)
        rw [afterCalls, h] at hk; cases hk
      | next h ht =>
        refine ih _ _ ht (fun i hlt => ?_) ?_
        · obtain ⟨k, hk⟩ := hi (i + 1) (by omega)
          rw [afterCalls, h] at hk
          exact ⟨k, hk⟩
        · rw [afterCalls, h] at hx
          exact hx
  exact key n _ l h1 hn he

/-- At whatever moment of the run a lexical error is recorded, Parse returns an error. -/
theorem C18_recorded (a a' : Ast) (hb : a.code.all isUnicodeSpace = false) (h : parse a = .ret a') (c : Cfg)
    (hr : Runs (initCfg a) c) (e : LexErr) (he : c.ast.err = some (.lex e)) : a'.err ≠ none := by
  obtain ⟨k, h1⟩ := parse_run hb h
  obtain ⟨ts, hi⟩ := hr.inv (not_blank hb) (inv_init _ rfl)
  obtain ⟨m, h2⟩ := hr.run h1
  exact run_err (not_blank hb) m c ts hi (by rw [he]; exact nofun) h2

/-! ## C19 -/

/-- Once an error is recorded, at whatever moment of the run, Parse returns an error. -/
theorem C19_final (a a' : Ast) (hb : a.code.all isUnicodeSpace = false) (h : parse a = .ret a') (c : Cfg)
    (hr : Runs (initCfg a) c) (he : c.ast.err ≠ none) : a'.err ≠ none := by
  obtain ⟨k, h1⟩ := parse_run hb h
  obtain ⟨ts, hi⟩ := hr.inv (not_blank hb) (inv_init _ rfl)
  obtain ⟨m, h2⟩ := hr.run h1
  exact run_err (not_blank hb) m c ts hi he h2

/-- No round that goes on records a syntax error: a syntax error ends the run. -/
theorem C19_syntax_error_stops (a : Ast) (hb : a.code ≠ []) (c c' : Cfg) (hr : Runs (initCfg a) c)
    (hs : step c = .ok (.go c')) (line column : Int) (lit : List Char)
    (he : c'.ast.err = some (.at .syntaxError line column lit)) : c.ast.err = c'.ast.err := by
  obtain ⟨ts, hi⟩ := hr.inv hb (inv_init _ rfl)
  exact step_noSyn hb hi hs line column lit he

/-- The recovery loop of the driver never finds a state that accepts the token `error`. -/
theorem C19_no_recovery (a : Ast) (hb : a.code ≠ []) (c : Cfg) (hr : Runs (initCfg a) c) : recover c.live = none := by
  obtain ⟨ts, hi⟩ := hr.inv hb (inv_init _ rfl)
  obtain ⟨vs, h1, -⟩ := hi.stk
  exact recover_none h1

example : ∃ a', @parse stdLetters (newAST "а = = ; б = 1;".toList) = .ret a' ∧
    a'.err = some (.at .syntaxError 1 4 "=".toList) := by
  refine ⟨_, rfl, ?_⟩
  decide +kernel

/-! ## C20 -/

omit [Letters] in
/-- Parse panics on this text: the error about the variable declared twice leaves a nil map behind. -/
theorem C20_violated : @parse stdLetters
    (newAST "Процедура А() Перем а, а; Перем б; КонецПроцедуры".toList) = .panic .nilMap := by
  decide +kernel

/-- The only panic is the write into a nil map, and only after an error has been recorded: in particular the
position of an error is always computed from a token that was read. -/
theorem C20_only_after_error_partial (a : Ast) (p : Panic) (h : parse a = .panic p) :
    p = .nilMap ∧ ∃ c, Runs (initCfg a) c ∧ c.ast.err ≠ none := by
  have key : ∀ n (c : Cfg) ts, a.code ≠ [] → Inv a.code (view a) c ts → run n c = .error p →
      p = .nilMap ∧ ∃ c', Runs c c' ∧ c'.ast.err ≠ none := by
    intro n
    induction n with
    | zero => intro c ts _ _ h; cases h
    | succ n ih =>
      intro c ts hc hi hr
      have hp := step_inv hc hi
      unfold run at hr
      cases hs : step c with
      | error q =>
        rw [hs] at hp hr
        injection hr with hr
        subst hr
        exact ⟨hp.1, c, .refl c, hp.2⟩
      | ok x =>
        rw [hs] at hp hr
        cases x with
        | done k b => cases hr
        | go c' =>
          obtain ⟨⟨ts', h1⟩, -⟩ := hp
          obtain ⟨h2, c'', h3, h4⟩ := ih c' ts' hc h1 hr
          exact ⟨h2, c'', .step hs h3, h4⟩
  unfold parse at h
  split at h
  · cases h
  · rename_i hb
    have hc : a.code ≠ [] := by intro h1; rw [h1] at hb; exact hb rfl
    refine key (fuel a.code.length) _ [] hc (inv_init _ rfl) ?_
    revert h
    generalize run (fuel a.code.length) (initCfg a) = x
    intro h
    match x, h with
    | .ok none, h => cases h
    | .error _, h => injection h with h; subst h; rfl
    | .ok (some (k, b)), h => cases h

/-- Index `i` exists in the table. -/
def InTable (t : List (List Int)) (i : Int) : Prop := 0 ≤ i ∧ i < (t.flatten.length : Int)

instance (t : List (List Int)) (i : Int) : Decidable (InTable t i) := inferInstanceAs (Decidable (_ ∧ _))

open Tables in
omit [Letters] in
/-- `get` is indexing in the tables of y.go, which the model keeps in rows of ten. -/
theorem C20_get (t : List (List Int)) (ht : t ∈ [yyExca, yyAct, yyPact, yyPgo, yyR1, yyR2, yyChk, yyDef, yyTok1, yyTok2])
    (i : Nat) (hi : i < t.flatten.length) : t.flatten[i]? = some (Tables.get t i) := by
  have : ∀ t ∈ [yyExca, yyAct, yyPact, yyPgo, yyR1, yyR2, yyChk, yyDef, yyTok1, yyTok2],
      ∀ i, i < t.flatten.length → t.flatten[i]? = some (Tables.get t i) := by decide +kernel
  exact this t ht i hi

open Tables in
/-- In every state the driver reaches, all indices it uses are inside the tables: those of the shift of any token, of
the default action, and of the reduction by any production (in any state `b` below it on the stack). -/
theorem C20_indices_partial (a : Ast) (hc : a.code ≠ []) (c : Cfg) (hr : Runs (initCfg a) c) (s : Nat) (v : SV)
    (hs : (s, v) ∈ c.live) :
    InTable yyPact s ∧ InTable yyDef s ∧
    (∀ t : Nat, t < 68 → 0 ≤ Tables.get yyPact s + t → Tables.get yyPact s + t < yyLast →
      InTable yyAct (Tables.get yyPact s + t) ∧ InTable yyChk (Tables.get yyAct (Tables.get yyPact s + t).toNat)) ∧
    (∀ p : Nat, 1 ≤ p → p ≤ 112 → InTable yyR2 p ∧ InTable yyR1 p ∧ InTable yyPgo (Tables.get yyR1 p) ∧
      InTable yyAct (Tables.get yyPgo (Tables.get yyR1 p).toNat) ∧
      (Tables.get yyPgo (Tables.get yyR1 p).toNat + s + 1 < yyLast →
        InTable yyAct (Tables.get yyPgo (Tables.get yyR1 p).toNat + s + 1) ∧
        InTable yyChk (Tables.get yyAct (Tables.get yyPgo (Tables.get yyR1 p).toNat + s + 1).toNat))) := by
  obtain ⟨ts, hi⟩ := hr.inv hc (inv_init _ rfl)
  obtain ⟨vs, h1, -⟩ := hi.stk
  have hlt : s < nStates := by
    clear hi
    revert hs
    generalize c.live = l at h1
    intro hs
    induction h1 with
    | base v => rw [List.mem_singleton] at hs; injection hs with h _; subst h; decide
    | push h ht ih =>
      rcases List.mem_cons.1 hs with hs | hs
      · injection hs with h1 _; subst h1; exact (trans_ok h.lt ht).lt
      · exact ih hs
  have e1 : yyPact.flatten.length = 212 := by decide +kernel
  have e2 : yyDef.flatten.length = 212 := by decide +kernel
  have e3 : yyAct.flatten.length = 618 := by decide +kernel
  have e4 : yyChk.flatten.length = 212 := by decide +kernel
  have e5 : yyR1.flatten.length = 113 := by decide +kernel
  have e6 : yyR2.flatten.length = 113 := by decide +kernel
  have e7 : yyPgo.flatten.length = 43 := by decide +kernel
  have c1 : ∀ n, n < 618 → 0 ≤ Tables.get yyAct n ∧ Tables.get yyAct n < 212 := by decide +kernel
  have c2 : ∀ n, n < 113 → 0 ≤ Tables.get yyR1 n ∧ Tables.get yyR1 n < 43 := by decide +kernel
  have c3 : ∀ n, n < 43 → 0 ≤ Tables.get yyPgo n ∧ Tables.get yyPgo n < 618 := by decide +kernel
  unfold InTable
  rw [e1, e2, e3, e4, e5, e6, e7]
  unfold nStates at hlt
  unfold yyLast
  refine ⟨by omega, by omega, ?_, ?_⟩
  · intro t _ h2 h3
    have := c1 (Tables.get yyPact s + t).toNat (by omega)
    omega
  · intro p h2 h3
    have q1 := c2 p (by omega)
    have q2 := c3 (Tables.get yyR1 p).toNat (by omega)
    refine ⟨by omega, by omega, by omega, by omega, fun h4 => ⟨by omega, ?_⟩⟩
    exact c1 _ (by omega)

/-! ## C10 -/

omit [Letters] in
theorem at_position {code pre w r : List Char} (h : code = pre ++ w ++ r) (hw : '\n' ∉ w) :
    At pre (getPosition code r).1 ((getPosition code r).2 - (w.length + 1)) := by
  have hp : code.take (code.length - r.length) = pre ++ w := by
    subst h
    rw [show (pre ++ w ++ r).length - r.length = (pre ++ w).length by
      rw [List.length_append (as := pre ++ w)]; omega]
    exact List.take_left
  have hl : ∀ q : List Char, ∃ l, LastLine q.reverse l ∧ (q.takeWhile (· ≠ '\n')).length = l.length := by
    intro q
    induction q with
    | nil => exact ⟨[], .only rfl nofun, rfl⟩
    | cons c q ih =>
      by_cases hc : c = '\n'
      · subst hc
        exact ⟨[], .after q.reverse (by simp) nofun, rfl⟩
      · obtain ⟨l, h1, h2⟩ := ih
        have hn : '\n' ∉ l → '\n' ∉ l ++ [c] := by
          intro h3 h4
          rw [List.mem_append, List.mem_singleton] at h4
          exact h4.elim h3 (fun h => hc h.symm)
        refine ⟨l ++ [c], ?_, ?_⟩
        · rw [List.reverse_cons]
          cases h1 with
          | only h1 h3 => exact .only (by rw [h1]) (hn h3)
          | after b h1 h3 => exact .after b (by rw [h1]; simp) (hn h3)
        · rw [List.takeWhile_cons, if_pos (by simpa using hc)]
          simp only [List.length_cons, List.length_append, h2]; rfl
  have htw : ∀ (x y : List Char), '\n' ∉ x → (x ++ y).takeWhile (· ≠ '\n') = x ++ y.takeWhile (· ≠ '\n') := by
    intro x y hx
    induction x with
    | nil => rfl
    | cons c x ih =>
      rw [List.mem_cons, not_or] at hx
      rw [List.cons_append, List.takeWhile_cons, if_pos (by simpa using fun h => hx.1 h.symm), ih hx.2]
      rfl
  unfold getPosition
  dsimp only
  rw [hp]
  obtain ⟨l, h1, h2⟩ := hl pre.reverse
  rw [List.reverse_reverse] at h1
  refine ⟨?_, l, h1, ?_⟩
  · rw [List.count_append, List.count_eq_zero.2 hw]; simp; omega
  · rw [List.reverse_append, htw _ _ (by rwa [List.mem_reverse]), List.length_append, h2, List.length_reverse]
    push_cast
    omega

/-- A word has no line feed. -/
theorem word_no_newline {w : List Char} (h : Word w) : '\n' ∉ w := by
  have hs : ¬ WordStart '\n' := by
    rintro (h | h)
    · rw [Letters.ascii _ (by decide)] at h
      exact absurd h (by decide)
    · exact absurd h (by decide)
  have hp : ¬ WordPart '\n' := by
    rintro (h | h)
    · exact hs h
    · revert h; unfold Digit; decide
  cases h with
  | mk h1 h2 =>
    intro hm
    rcases List.mem_cons.1 hm with rfl | hm
    · exact hs h1
    · exact hp (h2 _ hm)

/-- An error of Parse that is not an error of the tokeniser names a token of the text.  If this token is an
identifier or keyword, the word stands in the text at the reported line and column: `line` is 1 plus the number of line
feeds in front of it, `column` the number of characters in front of it in its line. -/
theorem C10_position (code : List Char) (a' : Ast) (h : parse (newAST code) = .ret a') (m : Msg) (line column : Int)
    (lit : List Char) (he : a'.err = some (.at m line column lit)) :
    ∃ (n : Nat) (t : Tok) (k : Nat), lexNext (afterCalls n (startTok code)) = (t, .ok (some k)) ∧ lit = t.literal ∧
      (WordNumber k → ∃ pre, code = pre ++ lit ++ t.rest ∧ At pre line column) := by
  have hb : code.all isUnicodeSpace = false := by
    by_contra hb
    rw [Bool.not_eq_false] at hb
    unfold parse at h
    rw [if_pos (show (newAST code).code.all isUnicodeSpace = true from hb)] at h
    injection h with h
    subst h
    cases he
  obtain ⟨k, hr⟩ := parse_run (a := newAST code) hb h
  have hp0 : PosOk code (newAST code) := ⟨rfl, (fun t h => nomatch h), (fun _ _ _ _ h => nomatch h)⟩
  have hp := run_pos (code := code) (not_blank hb) _ _ hp0 ⟨0, rfl⟩ hr
  obtain ⟨t, k, ⟨n, h1⟩, h2, h3, h4⟩ := hp.err m line column lit he
  refine ⟨n, t, k, h1, h2, fun hw => ?_⟩
  obtain ⟨l, w, r, q1, -, q3, -, q5, q6⟩ := C02_whole_words _ k (by rw [h1]) hw
  rw [h1] at q5 q6
  have hsuf : (afterCalls n (startTok code)).rest <:+ code := by
    clear h1 q1
    induction n with
    | zero => exact List.suffix_refl _
    | succ n ih => rw [afterCalls_succ]; exact (lexNext_suffix _).trans ih
  obtain ⟨p0, hp0⟩ := hsuf
  dsimp only at q5 q6
  have hcode : code = (p0 ++ l) ++ w ++ r := by rw [← hp0, q1]; simp
  refine ⟨p0 ++ l, by rw [h2, q5, q6]; exact hcode, ?_⟩
  have := at_position hcode (word_no_newline q3)
  rw [h3, h4, q6, q5]
  exact this

/-- An error at a keyword in the second line. -/
example : ∃ a', @parse stdLetters (newAST "а = 1;\n б Если".toList) = .ret a' ∧
    a'.err = some (.at .syntaxError 2 3 "Если".toList) := by
  refine ⟨_, rfl, ?_⟩
  decide +kernel

end Verif
