import Verif.ByteLexer
import Verif.Ast
import Verif.Proofs.Bytes
import Verif.Proofs.LexNum
/-! The tokeniser on bytes does what the tokeniser on characters does. -/
namespace Verif.ByteLexer
open List Utf8 Lexer ToLower Spec

theorem bnd_succ (n : Nat) (code : List UInt8) :
    bnd (n + 1) code = bnd n code + (decodeRune (code.drop (bnd n code))).2 := by
  induction n generalizing code with
  | zero => simp [bnd]
  | succ n ih => rw [bnd, ih, bnd, drop_drop]; omega

theorem decodeAll_len (bs : List UInt8) : (decodeAll bs).length ≤ bs.length := by
  have : ∀ k, (decodeFrom k bs).length ≤ bs.length := by
    induction bs with
    | nil => intro k; cases k <;> simp [decodeFrom]
    | cons b r ih =>
      intro k
      cases k with
      | zero =>
        have := ih ((decodeRune (b :: r)).2 - 1)
        simp only [decodeFrom, length_cons]; omega
      | succ k =>
        have := ih k
        simp only [decodeFrom, length_cons]; omega
  exact this 0

/-- The offset `o` is a character boundary, and `s` are the characters from there on. -/
def AtB (code : List UInt8) (o : Nat) (s : List Char) : Prop :=
  ∃ n, o = bnd n code ∧ s = (decodeAll code).drop n

/-- Run at `s`, the code returns `v` and stops at `s'`. -/
def Runs (code : List UInt8) {α : Type} (m : BM α) (s : List Char) (v : α) (s' : List Char) : Prop :=
  ∀ o, AtB code o s → ∃ o', m o = some (v, o') ∧ AtB code o' s'

theorem AtB.le {code o s} (h : AtB code o s) : o ≤ code.length := by
  obtain ⟨n, rfl, -⟩ := h; exact bnd_le n code

theorem AtB.dec {code o s} (h : AtB code o s) : decodeAll (code.drop o) = s := by
  obtain ⟨n, rfl, rfl⟩ := h; exact bnd_drop n code

theorem AtB.len {code o s} (h : AtB code o s) : s.length ≤ code.length := by
  obtain ⟨n, -, rfl⟩ := h
  have := decodeAll_len code
  simp only [length_drop]; omega

variable {code : List UInt8} {α β : Type}

theorem Runs.pure (v : α) (s : List Char) : Runs code (Pure.pure v) s v s := fun o h => ⟨o, rfl, h⟩

theorem Runs.bind {m : BM α} {f : α → BM β} {s s1 s2 v w} (h1 : Runs code m s v s1) (h2 : Runs code (f v) s1 w s2) :
    Runs code (m >>= f) s w s2 := by
  intro o h
  obtain ⟨o1, e1, a1⟩ := h1 o h
  obtain ⟨o2, e2, a2⟩ := h2 o1 a1
  refine ⟨o2, ?_, a2⟩
  show Option.bind (m o) _ = _
  rw [e1]
  exact e2

theorem Runs.cur (s : List Char) : Runs code (cur code) s s.head? s := by
  intro o h
  refine ⟨o, ?_, h⟩
  rw [ByteLexer.cur, currentLetB_eq, h.dec]

theorem Runs.nxt (s : List Char) : Runs code (nxt code) s s.tail.head? s := by
  intro o h
  refine ⟨o, ?_, h⟩
  rw [ByteLexer.nxt, nextLetB_eq _ _ h.le, h.dec]
  rfl

theorem Runs.adv (s : List Char) : Runs code (adv code) s () s.tail := by
  rintro o ⟨n, rfl, rfl⟩
  refine ⟨bnd (n + 1) code, ?_, n + 1, rfl, by rw [tail_drop]⟩
  rw [ByteLexer.adv, nextPosB, if_neg (by have := bnd_le n code; omega), bnd_succ]
  rfl

theorem runs_skipSpace (n : Nat) : ∀ s : List Char, s.length < n → Runs code (skipSpaceB code n) s () (skipSpace s) := by
  induction n with
  | zero => intro s h; omega
  | succ n ih =>
    intro s h
    unfold skipSpaceB
    refine (Runs.cur s).bind ?_
    cases s with
    | nil => exact Runs.pure _ _
    | cons c r =>
      rw [skipSpace]
      by_cases hc : isSpace c = true
      · rw [if_pos (show (c :: r).head?.any isSpace = true from hc), if_pos hc]
        exact (Runs.adv _).bind (ih r (by simp only [length_cons] at h; omega))
      · rw [if_neg (show ¬ (c :: r).head?.any isSpace = true from hc), if_neg hc]
        exact Runs.pure _ _

theorem runs_skipLine (n : Nat) : ∀ s : List Char, s.length < n → Runs code (skipLineB code n) s () (skipLine s) := by
  induction n with
  | zero => intro s h; omega
  | succ n ih =>
    intro s h
    unfold skipLineB
    refine (Runs.cur s).bind ?_
    cases s with
    | nil => exact Runs.pure _ _
    | cons c r =>
      rw [skipLine]
      by_cases hc : c = '\n'
      · rw [if_neg (by simp [hc]), if_pos hc]
        exact Runs.pure _ _
      · rw [if_pos (by simp [hc]), if_neg hc]
        exact (Runs.adv _).bind (ih r (by simp only [length_cons] at h; omega))

theorem Runs.atLen {m : BM α} {s v s'} (h : s.length ≤ code.length → Runs code m s v s') : Runs code m s v s' :=
  fun o ho => h ho.len o ho

theorem runs_spaces (s : List Char) : Runs code (skipSpaceB code (code.length + 1)) s () (skipSpace s) :=
  Runs.atLen fun h => runs_skipSpace _ s (by omega)

theorem runs_line (s : List Char) : Runs code (skipLineB code (code.length + 1)) s () (skipLine s) :=
  Runs.atLen fun h => runs_skipLine _ s (by omega)

theorem head_some {s : List Char} {c : Char} (h : s.head? = some c) : ∃ r, s = c :: r := by
  cases s with
  | nil => simp at h
  | cons a b => simp at h; exact ⟨b, by rw [h]⟩

/-- The end of the two skipping functions (`/repo/ast/tokens.go:321-325`, `338-342`). -/
def dispatchB (code : List UInt8) (n : Nat) : BM Unit := do
  let cl ← cur code
  if cl = some '/' then skipCommentB code n else if cl = some '#' then skipRegionsB code n else pure ()

theorem dispatch_other {n : Nat} {s : List Char} (h1 : s.head? ≠ some '/') (h2 : s.head? ≠ some '#') :
    dispatchF n s = s := by
  unfold dispatchF
  split
  · simp at h1
  · simp at h2
  · rfl

theorem runs_skips (n : Nat) : ∀ s : List Char,
    (2 * s.length + 1 ≤ n → Runs code (skipCommentB code n) s () (skipCommentF n s)) ∧
    (2 * s.length + 2 ≤ n → Runs code (skipRegionsB code n) s () (skipRegionsF n s)) := by
  induction n with
  | zero => intro s; constructor <;> intro h <;> omega
  | succ n ih =>
    have hd : ∀ s : List Char, (s.head? = some '#' → 2 * s.length + 2 ≤ n) → 2 * s.length + 1 ≤ n →
        Runs code (dispatchB code n) s () (dispatchF n s) := by
      intro s h h0
      refine (Runs.cur s).bind ?_
      by_cases h1 : s.head? = some '/'
      · rw [if_pos h1]
        obtain ⟨r, rfl⟩ := head_some h1
        exact (ih _).1 h0
      rw [if_neg h1]
      by_cases h2 : s.head? = some '#'
      · rw [if_pos h2]
        obtain ⟨r, rfl⟩ := head_some h2
        exact (ih _).2 (h rfl)
      rw [if_neg h2, dispatch_other h1 h2]
      exact Runs.pure _ _
    have hs : ∀ c : Char, c ≠ '\n' → ∀ r, (skipSpace (skipLine (c :: r))).length ≤ r.length := by
      intro c hc r
      exact Nat.le_trans (skipSpace_len _) (skipLine_cons_len hc r)
    intro s
    constructor
    · intro h
      unfold skipCommentB
      refine (Runs.cur s).bind ?_
      by_cases h1 : s.head? = some '/'
      · obtain ⟨r, rfl⟩ := head_some h1
        rw [if_pos h1]
        refine (Runs.nxt _).bind ?_
        by_cases h2 : r.head? = some '/'
        · obtain ⟨r, rfl⟩ := head_some h2
          rw [if_pos (by exact h2)]
          have := hs '/' (by decide) ('/' :: r)
          simp only [length_cons] at this h
          exact (runs_line _).bind ((runs_spaces _).bind (hd _ (by omega) (by omega)))
        · rw [if_neg (by exact h2)]
          have : skipCommentF (n + 1) ('/' :: r) = '/' :: r := by
            unfold skipCommentF
            split
            · rename_i e; injection e with _ e; subst e; simp at h2
            · rfl
          rw [this]
          exact Runs.pure _ _
      · rw [if_neg h1]
        have : skipCommentF (n + 1) s = s := by
          unfold skipCommentF
          split
          · simp at h1
          · rfl
        rw [this]
        exact Runs.pure _ _
    · intro h
      unfold skipRegionsB
      refine (Runs.cur s).bind ?_
      by_cases h1 : s.head? = some '#'
      · obtain ⟨r, rfl⟩ := head_some h1
        rw [if_pos h1]
        have := hs '#' (by decide) r
        simp only [length_cons] at h
        exact (runs_line _).bind ((runs_spaces _).bind (hd _ (by omega) (by omega)))
      · rw [if_neg h1]
        have : skipRegionsF (n + 1) s = dispatchF n s := by
          unfold skipRegionsF
          split
          · simp at h1
          · rfl
        rw [this]
        exact hd s (fun e => absurd e h1) (by omega)

theorem runs_comment (s : List Char) : Runs code (skipCommentB code (2 * code.length + 3)) s () (skipComment s) :=
  Runs.atLen fun h => by
    rw [skipComment, (skipF_fuel (2 * s.length + 2) s).1 (2 * code.length + 3) (by omega) (by omega)]
    exact (runs_skips _ s).1 (by omega)

theorem runs_regions (s : List Char) : Runs code (skipRegionsB code (2 * code.length + 3)) s () (skipRegions s) :=
  Runs.atLen fun h => by
    rw [skipRegions, (skipF_fuel (2 * s.length + 2) s).2 (2 * code.length + 3) (by omega) (by omega)]
    exact (runs_skips _ s).2 (by omega)

theorem runs_scanIdent [Letters] (n : Nat) : ∀ (s ret : List Char), s.length < n →
    Runs code (scanIdentB code n ret) s (ret ++ s.takeWhile isWordChar) (s.dropWhile isWordChar) := by
  induction n with
  | zero => intro s ret h; omega
  | succ n ih =>
    intro s ret h
    unfold scanIdentB
    refine (Runs.cur s).bind ?_
    cases s with
    | nil => simpa using Runs.pure (code := code) ret []
    | cons c r =>
      dsimp only [head?_cons]
      by_cases hc : isWordChar c = true
      · rw [if_neg (by simp only [isWordChar, Bool.or_eq_true] at hc; rcases hc with hc | hc <;> simp [hc]),
          takeWhile_cons_of_pos hc, dropWhile_cons_of_pos hc]
        refine (Runs.adv _).bind ?_
        have := ih r (ret ++ [c]) (by simp only [length_cons] at h; omega)
        rwa [append_assoc, singleton_append] at this
      · rw [if_pos (by simp only [isWordChar, Bool.or_eq_true, not_or, Bool.not_eq_true] at hc; simp [hc]),
          takeWhile_cons_of_neg hc, dropWhile_cons_of_neg hc, append_nil]
        exact Runs.pure _ _

theorem runs_ident [Letters] (s : List Char) :
    Runs code (scanIdentB code (code.length + 1) []) s (scanIdentifier s).1 (scanIdentifier s).2 :=
  Runs.atLen fun h => runs_scanIdent _ s [] (by omega)

theorem runs_scanNum (n : Nat) : ∀ (s ret : List Char), s.length < n →
    Runs code (scanNumB code n ret) s
      (ret ++ s.takeWhile (fun c => isDigit c || c == '.'), (s.dropWhile (fun c => isDigit c || c == '.')).head?)
      (s.dropWhile (fun c => isDigit c || c == '.')) := by
  induction n with
  | zero => intro s ret h; omega
  | succ n ih =>
    intro s ret h
    unfold scanNumB
    refine (Runs.cur s).bind ?_
    cases s with
    | nil => simpa using Runs.pure (code := code) (ret, (none : Option Char)) []
    | cons c r =>
      dsimp only [head?_cons]
      by_cases hc : (isDigit c || c == '.') = true
      · rw [if_pos hc, takeWhile_cons_of_pos (p := fun c => isDigit c || c == '.') hc,
          dropWhile_cons_of_pos (p := fun c => isDigit c || c == '.') hc]
        refine (Runs.adv _).bind ?_
        have := ih r (ret ++ [c]) (by simp only [length_cons] at h; omega)
        rwa [append_assoc, singleton_append] at this
      · rw [if_neg hc, takeWhile_cons_of_neg (p := fun c => isDigit c || c == '.') hc,
          dropWhile_cons_of_neg (p := fun c => isDigit c || c == '.') hc, append_nil]
        exact Runs.pure _ _

/-- What `scanStrB` returns when the rest of the scan gives `x`. -/
def after (ret : List Char) : Except LexErr (List Char) → Except LexErr (List Char)
  | .ok l => .ok (ret ++ l)
  | .error e => .error e

theorem after_add (ret p : List Char) (x : Except LexErr (List Char) × List Char) :
    after ret (addLit p x).1 = after (ret ++ p) x.1 ∧ (addLit p x).2 = x.2 := by
  obtain ⟨x, r⟩ := x
  cases x <;> simp [addLit, after]

theorem runs_scanStr (close : Char) (n : Nat) : ∀ (s ret : List Char), s.length + 1 ≤ n →
    Runs code (scanStrB code close n ret) s (after ret (scanStringF close n s).1) (scanStringF close n s).2 := by
  induction n with
  | zero => intro s ret h; omega
  | succ n ih =>
    intro s ret h
    unfold scanStrB scanStringF
    refine (Runs.adv s).bind ((Runs.cur _).bind ?_)
    match hs : s.tail with
    | [] =>
      rw [if_neg (show ¬ ([] : List Char).head? = some '\n' by simp)]
      exact Runs.pure _ _
    | c :: r =>
      have hl : s.length = r.length + 2 := by
        cases s with
        | nil => simp at hs
        | cons a b => simp only [tail_cons] at hs; simp [hs]
      dsimp only
      by_cases h1 : c = '\n'
      · rw [if_pos (show (c :: r).head? = some '\n' by rw [h1]; rfl), if_pos h1]
        refine (Runs.adv _).bind ((runs_spaces _).bind ((runs_comment _).bind ((Runs.cur _).bind ?_)))
        rw [tail_cons]
        have hlen : (skipComment (skipSpace r)).length ≤ r.length :=
          Nat.le_trans (skipComment_suffix _).length_le (skipSpace_len _)
        match hq : skipComment (skipSpace r) with
        | [] => exact Runs.pure _ _
        | d :: r' =>
          dsimp only [head?_cons]
          split
          · exact Runs.pure _ _
          · obtain ⟨e1, e2⟩ := after_add ret ['\n', d] (scanStringF close n (d :: r'))
            rw [e1, e2]
            rw [hq] at hlen
            exact ih _ _ (by omega)
      · rw [if_neg (show ¬ (c :: r).head? = some '\n' by simpa using h1), if_neg h1]
        dsimp only [head?_cons]
        by_cases h2 : c = close
        · rw [if_pos h2, if_pos h2]
          refine (Runs.nxt _).bind ?_
          rw [tail_cons]
          by_cases h3 : r.head? = some '"'
          · rw [if_pos h3, if_pos h3]
            refine (Runs.adv _).bind ?_
            rw [tail_cons]
            obtain ⟨e1, e2⟩ := after_add ret ['"', '"'] (scanStringF close n r)
            rw [e1, e2]
            exact ih _ _ (by omega)
          · rw [if_neg h3, if_neg h3]
            refine (Runs.adv _).bind ((runs_spaces _).bind ((Runs.cur _).bind ?_))
            rw [tail_cons]
            have := skipSpace_len r
            split
            · exact ih _ _ (by omega)
            · simpa [after] using Runs.pure (code := code) (Except.ok ret : Except LexErr (List Char)) (skipSpace r)
        · rw [if_neg h2, if_neg h2]
          obtain ⟨e1, e2⟩ := after_add ret [c] (scanStringF close n (c :: r))
          rw [e1, e2]
          exact ih _ _ (by simp only [length_cons]; omega)

theorem runs_string (close : Char) (s : List Char) :
    Runs code (scanStrB code close (code.length + 1) []) s (scanString close s).1 (scanString close s).2 :=
  Runs.atLen fun h => by
    have := runs_scanStr (code := code) close (code.length + 1) s [] (by omega)
    rw [scanString, scanStringF_fuel close (s.length + 1) s (code.length + 1) (by omega) (by omega)]
    have e : ∀ x, after [] x = x := fun x => by cases x <;> simp [after]
    rwa [e] at this

theorem encode_inj {a b : List Char} (h : encode a = encode b) : a = b := by
  rw [← decodeAll_encode a, h, decodeAll_encode]

theorem lookupB_encode (m : List (List Char × Nat)) (w : List Char) : lookupB m (encode w) = m.lookup w := by
  unfold lookupB
  induction m with
  | nil => rfl
  | cons p m ih =>
    obtain ⟨k, v⟩ := p
    simp only [map_cons, lookup_cons]
    rw [ih]
    by_cases h : w = k
    · subst h; simp
    · have : ¬ encode w = encode k := fun e => h (encode_inj e)
      simp [beq_eq_false_iff_ne.2 h, beq_eq_false_iff_ne.2 this]

/-- The results of `next` on bytes and on characters are the same. -/
def SameRaw (a : RawB) (b : Raw) : Prop :=
  a.literal = encode b.literal ∧
  match b.res with
  | .ok k => a.tok = k ∧ a.err = none
  | .error e => a.err = some e ∧
    (a.tok = none ∧ (∀ c, e ≠ .badChar c) ∨ ∃ c : Char, a.tok = some c.toNat ∧ b.literal = [c] ∧ e = .badChar c)

/-- A string or date that does not end is not a bad character. -/
theorem scanString_not_bad {q : Char} {s : List Char} {e : LexErr} (h : (scanString q s).1 = .error e) (c : Char) :
    e ≠ .badChar c := by
  unfold scanString at h
  revert h
  generalize s.length + 1 = n
  intro h
  induction n generalizing s e with
  | zero => injection h with h; subst h; nofun
  | succ n ih =>
    have hadd : ∀ {l : List Char} {x : Except LexErr (List Char) × List Char}, (addLit l x).1 = .error e → x.1 = .error e := by
      intro l x hx
      unfold addLit at hx
      obtain ⟨x1, x2⟩ := x
      cases x1 with
      | error _ => exact hx
      | ok _ => cases hx
    rw [scanStringF] at h
    split at h
    · injection h with h; subst h; nofun
    · split at h
      · split at h
        · injection h with h; subst h; nofun
        · split at h
          · injection h with h; subst h; nofun
          · exact ih (hadd h)
      · split at h
        · split at h
          · exact ih (hadd h)
          · dsimp only at h
            split at h
            · exact ih h
            · cases h
        · exact ih (hadd h)

/-- Run at `s`, the code returns what `next` returns. -/
def Gives (code : List UInt8) (m : BM RawB) (s : List Char) (r : Raw) : Prop :=
  ∃ a, SameRaw a r ∧ Runs code m s a r.rest

theorem Gives.pure {a : RawB} {r : Raw} (h : SameRaw a r) : Gives code (Pure.pure a) r.rest r := ⟨a, h, Runs.pure _ _⟩

theorem Gives.bind {m : BM α} {f : α → BM RawB} {s s1 v r} (h1 : Runs code m s v s1) (h2 : Gives code (f v) s1 r) :
    Gives code (m >>= f) s r := by
  obtain ⟨a, h, hr⟩ := h2
  exact ⟨a, h, h1.bind hr⟩

theorem gives_scan [Letters] (d : Bool) (s : List Char) : Gives code (scanB code d) s (nextRaw d s) := by
  unfold scanB nextRaw
  refine Gives.bind (Runs.cur s) ?_
  cases s with
  | nil => exact Gives.bind (Runs.adv _) (Gives.pure ⟨rfl, rfl, rfl⟩)
  | cons c r =>
    dsimp only [head?_cons]
    by_cases h : isLetter c = true
    · rw [if_pos h, if_pos h]
      refine Gives.bind (runs_ident _) ?_
      rw [fastToLower_encode, lookupB_encode]
      unfold lexWord lower
      dsimp only
      match lookup (map lowerRune (scanIdentifier (c :: r)).1) keywords with
      | some k =>
        cases d
        · exact Gives.pure (r := ⟨.ok (some k), _, _⟩) ⟨rfl, rfl, rfl⟩
        · exact Gives.pure (r := ⟨.ok (some tIdent), _, _⟩) ⟨rfl, rfl, rfl⟩
      | none => exact Gives.pure (r := ⟨.ok (some tIdent), _, _⟩) ⟨rfl, rfl, rfl⟩
    rw [if_neg h, if_neg h]; clear h
    by_cases h : c = '.'
    · rw [if_pos h, if_pos h]; subst h
      exact Gives.bind (Runs.adv _) (Gives.pure ⟨rfl, rfl, rfl⟩)
    rw [if_neg h, if_neg h]; clear h
    by_cases h : isDigit c = true
    · rw [if_pos h, if_pos h]
      refine Gives.bind (Runs.atLen fun hl => runs_scanNum _ (c :: r) [] (by omega)) ?_
      dsimp only
      unfold lexNumber scanNumber
      dsimp only
      rw [nil_append]
      generalize dropWhile (fun c => isDigit c || c == '.') (c :: r) = q
      generalize takeWhile (fun c => isDigit c || c == '.') (c :: r) = l
      match q with
      | [] => exact Gives.pure (r := ⟨.ok (some tNumber), l, []⟩) ⟨rfl, rfl, rfl⟩
      | a :: b =>
        dsimp only
        by_cases ha : isLetter a = true
        · rw [if_pos (show (a :: b).head?.any isLetter = true from ha), if_pos ha]
          exact Gives.pure (r := ⟨.error .identAfterNumber, [], a :: b⟩) ⟨rfl, rfl, .inl ⟨rfl, nofun⟩⟩
        · rw [if_neg (show ¬ (a :: b).head?.any isLetter = true from ha), if_neg ha]
          exact Gives.pure (r := ⟨.ok (some tNumber), l, a :: b⟩) ⟨rfl, rfl, rfl⟩
    rw [if_neg h, if_neg h]; clear h
    by_cases h : c = '\''
    · rw [if_pos h, if_pos h]; subst h
      refine Gives.bind (runs_string _ _) ?_
      unfold lexDate
      match hs : scanString '\'' ('\'' :: r) with
      | (.error e, r') => exact Gives.pure (r := ⟨.error e, [], r'⟩) ⟨rfl, rfl, .inl ⟨rfl, scanString_not_bad (by rw [hs])⟩⟩
      | (.ok l, r') =>
        dsimp only
        rw [decodeAll_encode]
        by_cases hl : extractDigits l = []
        · rw [if_pos (by rw [hl]; rfl), if_pos hl]
          exact Gives.pure (r := ⟨.error .emptyDate, [], r'⟩) ⟨rfl, rfl, .inl ⟨rfl, nofun⟩⟩
        · rw [if_neg (show ¬ encode (extractDigits l) = [] from fun e => hl (encode_inj (b := []) e)), if_neg hl]
          exact Gives.pure (r := ⟨.ok (some tDate), extractDigits l, r'⟩) ⟨rfl, rfl, rfl⟩
    rw [if_neg h, if_neg h]; clear h
    by_cases h : isPunct c = true
    · rw [if_pos h, if_pos h]
      exact Gives.bind (Runs.adv _) (Gives.pure ⟨rfl, rfl, rfl⟩)
    rw [if_neg h, if_neg h]; clear h
    by_cases h : c = '='
    · rw [if_pos h, if_pos h]
      exact Gives.bind (Runs.adv _) (Gives.pure ⟨rfl, rfl, rfl⟩)
    rw [if_neg h, if_neg h]; clear h
    by_cases h : c = '"'
    · rw [if_pos h, if_pos h]; subst h
      refine Gives.bind (runs_string _ _) ?_
      unfold lexString
      match hs : scanString '"' ('"' :: r) with
      | (.error e, r') => exact Gives.pure (r := ⟨.error e, [], r'⟩) ⟨rfl, rfl, .inl ⟨rfl, scanString_not_bad (by rw [hs])⟩⟩
      | (.ok l, r') => exact Gives.pure (r := ⟨.ok (some tString), l, r'⟩) ⟨rfl, rfl, rfl⟩
    rw [if_neg h, if_neg h]; clear h
    by_cases h : c = '<'
    · rw [if_pos h, if_pos h]; subst h
      refine Gives.bind (Runs.nxt _) ?_
      rw [tail_cons]
      by_cases h1 : r.head? = some '>'
      · obtain ⟨r, rfl⟩ := head_some h1
        rw [if_pos h1]
        exact Gives.bind (Runs.adv _) (Gives.bind (Runs.adv _) (Gives.pure (r := lexLess ('>' :: r)) ⟨rfl, rfl, rfl⟩))
      rw [if_neg h1]
      refine Gives.bind (Runs.nxt _) ?_
      rw [tail_cons]
      by_cases h2 : r.head? = some '='
      · obtain ⟨r, rfl⟩ := head_some h2
        rw [if_pos h2]
        exact Gives.bind (Runs.adv _) (Gives.bind (Runs.adv _) (Gives.pure (r := lexLess ('=' :: r)) ⟨rfl, rfl, rfl⟩))
      rw [if_neg h2]
      have : lexLess r = ⟨.ok (some '<'.toNat), ['<'], r⟩ := by
        unfold lexLess
        split
        · simp at h1
        · simp at h2
        · rfl
      rw [this]
      exact Gives.bind (Runs.adv _) (Gives.pure (r := ⟨.ok (some '<'.toNat), ['<'], r⟩) ⟨rfl, rfl, rfl⟩)
    rw [if_neg h, if_neg h]; clear h
    by_cases h : c = '>'
    · rw [if_pos h, if_pos h]; subst h
      refine Gives.bind (Runs.nxt _) ?_
      rw [tail_cons]
      by_cases h2 : r.head? = some '='
      · obtain ⟨r, rfl⟩ := head_some h2
        rw [if_pos h2]
        exact Gives.bind (Runs.adv _) (Gives.bind (Runs.adv _) (Gives.pure (r := lexGreater ('=' :: r)) ⟨rfl, rfl, rfl⟩))
      rw [if_neg h2]
      have : lexGreater r = ⟨.ok (some '>'.toNat), ['>'], r⟩ := by
        unfold lexGreater
        split
        · simp at h2
        · rfl
      rw [this]
      exact Gives.bind (Runs.adv _) (Gives.pure (r := ⟨.ok (some '>'.toNat), ['>'], r⟩) ⟨rfl, rfl, rfl⟩)
    rw [if_neg h, if_neg h]; clear h
    by_cases h : c = '&'
    · rw [if_pos h, if_pos h]; subst h
      refine Gives.bind (Runs.adv _) ?_
      rw [tail_cons]
      have henc : encode ['&'] ++ encode (scanIdentifier r).1 = encode ('&' :: (scanIdentifier r).1) := by
        simp [encode]
      unfold lexDirective
      dsimp only
      match hk : directives.lookup (lower ('&' :: (scanIdentifier r).1)) with
      | some k =>
        refine ⟨⟨some k, encode ('&' :: (scanIdentifier r).1), none⟩, ⟨rfl, rfl, rfl⟩, ?_⟩
        intro o ho
        obtain ⟨o1, e1, a1⟩ := runs_ident r o ho
        refine ⟨o1, ?_, a1⟩
        simp only [bind, StateT.bind, getOff, Option.bind, e1]
        rw [henc, fastToLower_encode, lookupB_encode]
        unfold lower at hk
        rw [hk]
        rfl
      | none =>
        refine ⟨⟨some '&'.toNat, encode ['&'], some (.badChar '&')⟩, ⟨rfl, rfl, .inr ⟨_, rfl, rfl, rfl⟩⟩, ?_⟩
        intro o ho
        obtain ⟨o1, e1, a1⟩ := runs_ident r o ho
        refine ⟨o, ?_, ho⟩
        simp only [bind, StateT.bind, getOff, Option.bind, e1]
        rw [henc, fastToLower_encode, lookupB_encode]
        unfold lower at hk
        rw [hk]
        rfl
    rw [if_neg h, if_neg h]; clear h
    by_cases h : c = '~'
    · rw [if_pos h, if_pos h]; subst h
      exact Gives.bind (Runs.adv _) (Gives.bind (runs_ident _) (Gives.pure (r := lexLabel r) ⟨rfl, rfl, rfl⟩))
    rw [if_neg h, if_neg h]
    exact Gives.bind (Runs.adv _) (Gives.pure ⟨rfl, rfl, .inr ⟨_, rfl, rfl, rfl⟩⟩)

theorem number_literal [Letters] {d : Bool} {s : List Char} (h : (nextRaw d s).res = .ok (some tNumber)) :
    (nextRaw d s).literal.all (fun c => isDigit c || c == '.') = true := by
  cases s with
  | nil => cases h
  | cons c r =>
    obtain ⟨h1, h2⟩ := nextRaw_number_kind h
    have h3 : c ≠ '.' := by rintro rfl; revert h1; decide
    have e : nextRaw d (c :: r) = lexNumber (c :: r) := by
      unfold nextRaw
      dsimp only
      rw [if_neg (by simp [h2]), if_neg h3, if_pos h1]
    rw [e]
    unfold lexNumber scanNumber
    dsimp only
    have ht : (takeWhile (fun c => isDigit c || c == '.') (c :: r)).all (fun c => isDigit c || c == '.') = true :=
      all_takeWhile
    split
    · rfl
    · rename_i l r' he
      split at he
      · split at he
        · simp at he
        · injection he with he _; injection he with he; rw [← he]; exact ht
      · injection he with he _; injection he with he; rw [← he]; exact ht

theorem runs_trivia (s : List Char) : Runs code (do
    skipSpaceB code (code.length + 1)
    skipCommentB code (2 * code.length + 3)
    skipRegionsB code (2 * code.length + 3)) s () (skipTrivia s) :=
  (runs_spaces _).bind ((runs_comment _).bind (runs_regions _))

/-- The state of the tokeniser on bytes and on characters is the same. -/
structure Rel (code : List UInt8) (a : TokB) (b : Tok) : Prop where
  literal : a.literal = encode b.literal
  value : a.value = b.value
  prevDot : a.prevDot = b.prevDot
  at_ : AtB code a.offset b.rest

theorem next_rel [Letters] {a : TokB} {b : Tok} (h : Rel code a b) :
    ∃ a' k e, lexNextB code a = some (a', k, e) ∧ Rel code a' (lexNext b).1 ∧
      match (lexNext b).2 with
      | .ok k' => e = none ∧ k = k'
      | .error e' => e = some e' := by
  obtain ⟨o1, e1, a1⟩ := runs_trivia b.rest a.offset h.at_
  obtain ⟨r, hr, hrun⟩ := gives_scan (code := code) b.prevDot (skipTrivia b.rest)
  obtain ⟨o2, e2, a2⟩ := hrun o1 a1
  have hdot : currentLetB code o1 = (skipTrivia b.rest).head? := by rw [currentLetB_eq, a1.dec]
  unfold lexNextB
  rw [e1]
  simp only [Option.bind_eq_bind, Option.bind_some]
  rw [h.prevDot, e2]
  simp only [Option.bind_some]
  refine ⟨_, _, _, rfl, ?_⟩
  rw [hdot, h.value]
  unfold lexNext
  dsimp only
  obtain ⟨hlit, hres⟩ := hr
  have hb : (!b.prevDot && decide ((skipTrivia b.rest).head? = some '.')) =
      (!b.prevDot && (skipTrivia b.rest).head? == some '.') := by
    congr 1
    by_cases hc : (skipTrivia b.rest).head? = some '.' <;> simp [hc]
  rw [hb]
  generalize (!b.prevDot && (skipTrivia b.rest).head? == some '.') = dot
  have hnum := number_literal (d := b.prevDot) (s := skipTrivia b.rest)
  revert hlit hres a2 hnum
  generalize nextRaw b.prevDot (skipTrivia b.rest) = raw
  obtain ⟨res, lit, rest⟩ := raw
  obtain ⟨tok, l, err⟩ := r
  intro a2 hlit hres hnum
  dsimp only at a2 hlit hres hnum
  subst hlit
  unfold finish valueB
  match res with
  | .error e =>
    dsimp only at hres ⊢
    obtain ⟨rfl, htok⟩ := hres
    rcases htok with ⟨rfl, hne⟩ | ⟨c, rfl, rfl, rfl⟩
    · have hf : failed b.value e = (b.value, e) := by
        cases e with
        | badChar c => exact absurd rfl (hne c)
        | _ => rfl
      rw [hf]
      exact ⟨⟨rfl, rfl, rfl, a2⟩, rfl⟩
    · dsimp only
      rw [decodeAll_encode]
      unfold failed
      dsimp only
      by_cases hn : c.toNat = tNumber
      · have hc : c = Char.ofNat tNumber := by rw [← hn, Char.ofNat_toNat]
        rw [if_pos ⟨hn, by rw [hc]; decide +kernel⟩, if_pos hn]
        exact ⟨⟨rfl, rfl, rfl, a2⟩, rfl⟩
      rw [if_neg (fun h => hn h.1), if_neg hn]
      by_cases hd : c.toNat = tDate
      · have hc : c = Char.ofNat tDate := by rw [← hd, Char.ofNat_toNat]
        have : valueOf c.toNat [c] b.value = .error .badDate := by
          rw [hd, hc]
          unfold valueOf
          have h8 : Time.parse 8 [Char.ofNat tDate] = none := by decide +kernel
          have h12 : Time.parse 12 [Char.ofNat tDate] = none := by decide +kernel
          have h14 : Time.parse 14 [Char.ofNat tDate] = none := by decide +kernel
          rw [if_neg (by decide), if_neg (by decide), if_pos rfl, if_neg (by decide +kernel), h8, h12, h14]
        rw [this]
        exact ⟨⟨rfl, rfl, rfl, a2⟩, rfl⟩
      match valueOf c.toNat [c] b.value with
      | .ok v => exact ⟨⟨rfl, rfl, rfl, a2⟩, by simp [hn, hd]⟩
      | .error e => exact ⟨⟨rfl, rfl, rfl, a2⟩, rfl⟩
  | .ok none =>
    obtain ⟨h1, h2⟩ := hres
    subst h1 h2
    exact ⟨⟨rfl, rfl, rfl, a2⟩, rfl, rfl⟩
  | .ok (some k) =>
    obtain ⟨h1, h2⟩ := hres
    subst h1 h2
    dsimp only
    rw [decodeAll_encode, if_neg (fun hn => hn.2 (hnum (by rw [hn.1])))]
    match valueOf k lit b.value with
    | .ok v => exact ⟨⟨rfl, rfl, rfl, a2⟩, by simp, rfl⟩
    | .error e => exact ⟨⟨rfl, rfl, rfl, a2⟩, rfl⟩

theorem encodeChar_count (c : Char) : (encodeChar c).count 10 = if c = '\n' then 1 else 0 := by
  by_cases hc : c = '\n'
  · subst hc; decide
  · rw [if_neg hc]
    have hn : c.toNat ≠ 10 := fun h => hc (by rw [← Char.ofNat_toNat (c := c), h])
    have hlt : c.toNat < 0x110000 := c.valid.elim (fun h => by show c.val.toNat < _; omega) (fun h => h.2)
    rw [count_eq_zero]
    unfold encodeChar
    have key : ∀ n : Nat, 10 = UInt8.ofNat n → n % 256 = 10 := by
      intro n h
      have := congrArg UInt8.toNat h
      simp at this
      omega
    dsimp only
    split
    · simp only [mem_singleton]; intro h; have := key _ h; omega
    · split
      · simp only [mem_cons, not_mem_nil, or_false]
        rintro (h | h) <;> (have := key _ h; omega)
      · split
        · simp only [mem_cons, not_mem_nil, or_false]
          rintro (h | h | h) <;> (have := key _ h; omega)
        · simp only [mem_cons, not_mem_nil, or_false]
          rintro (h | h | h | h) <;> (have := key _ h; omega)

theorem decodes_count {bs : List UInt8} {cs : List Char} (h : Decodes bs cs) : bs.count 10 = cs.count '\n' := by
  induction h with
  | nil => rfl
  | @char c bs cs _ ih =>
    rw [count_append, ← encodeChar_eq, encodeChar_count, ih, count_cons]
    by_cases hc : c = '\n' <;> simp [hc]; omega
  | @invalid b bs cs hno _ ih =>
    rw [count_cons, count_cons, ih]
    have hb : (b == 10) = false := by
      rw [beq_eq_false_iff_ne]
      rintro rfl
      exact hno '\n' bs rfl
    rw [hb]
    rfl

theorem decodeRune_append (b0 : UInt8) (a r : List UInt8) : decodeRune (b0 :: a ++ 10 :: r) = decodeRune (b0 :: a) := by
  have h1 : isCont 10 = false := by decide
  have h2 : ∀ b, accept2 b 10 = false := by
    intro b
    unfold accept2
    dsimp only
    have : ¬ (if b.toNat = 0xE0 then 0xA0 else if b.toNat = 0xF0 then 0x90 else 0x80) ≤ UInt8.toNat 10 := by
      have : UInt8.toNat 10 = 10 := rfl
      split
      · omega
      · split <;> omega
    have h10 : UInt8.toNat 10 = 10 := rfl
    rw [h10] at this
    simp only [h10, Bool.and_eq_false_iff, decide_eq_false_iff_not]
    exact .inl this
  match a with
  | [] => simp [decodeRune, h1, h2]; cases r with
    | nil => simp
    | cons x r => cases r with
      | nil => simp [h2]
      | cons y r => simp [h2]
  | [x] => simp [decodeRune, h1]; cases r with
    | nil => simp
    | cons z r => simp [h1]
  | [x, y] => simp [decodeRune, h1]
  | x :: y :: z :: a => simp [decodeRune]

theorem decodeAll_split (a r : List UInt8) : decodeAll (a ++ 10 :: r) = decodeAll a ++ '\n' :: decodeAll r := by
  induction hn : a.length using Nat.strongRecOn generalizing a with
  | _ n ih =>
    subst hn
    cases a with
    | nil =>
      rw [nil_append, decodeAll_cons]
      rfl
    | cons b a =>
      obtain ⟨c, h1, h2, h3, h4⟩ := decodeRune_step (b :: a) (by simp)
      obtain ⟨c', g1, g2, -, -⟩ := decodeRune_step (b :: a ++ 10 :: r) (by simp)
      rw [g1, h1]
      rw [decodeRune_append] at g2 ⊢
      rw [h2] at g2
      subst g2
      rw [drop_append_of_le_length h4, ih _ (by rw [length_drop]; omega) _ rfl]
      rfl

theorem first_part {α : Type} [DecidableEq α] (x : α) (m : List α) :
    x ∉ m ∧ m.takeWhile (· ≠ x) = m ∨ ∃ b a, m = b ++ x :: a ∧ x ∉ b ∧ m.takeWhile (· ≠ x) = b := by
  induction m with
  | nil => left; simp
  | cons y m ih =>
    by_cases hy : y = x
    · subst hy
      exact .inr ⟨[], m, rfl, by simp, by simp⟩
    · rw [takeWhile_cons_of_pos (by simpa using hy)]
      rcases ih with ⟨h1, h2⟩ | ⟨b, a, h1, h2, h3⟩
      · exact .inl ⟨by simp [h1, Ne.symm hy], by rw [h2]⟩
      · refine .inr ⟨y :: b, a, by rw [h1]; rfl, by simp [h2, Ne.symm hy], by rw [h3]⟩

theorem last_line {α : Type} [DecidableEq α] (x : α) (l : List α) :
    x ∉ l ∧ (l.reverse.takeWhile (· ≠ x)).reverse = l ∨
    ∃ a b, l = a ++ x :: b ∧ x ∉ b ∧ (l.reverse.takeWhile (· ≠ x)).reverse = b := by
  rcases first_part x l.reverse with ⟨h1, h2⟩ | ⟨b, a, h1, h2, h3⟩
  · exact .inl ⟨by simpa using h1, by rw [h2, reverse_reverse]⟩
  · refine .inr ⟨a.reverse, b.reverse, ?_, by simpa using h2, by rw [h3]⟩
    rw [← reverse_reverse l, h1]
    simp

theorem position {code : List UInt8} {o : Nat} {s : List Char} (h : AtB code o s) :
    getPositionB code o = some (getPosition (decodeAll code) s) := by
  obtain ⟨n, rfl, rfl⟩ := h
  unfold getPositionB getPosition
  rw [if_neg (by have := bnd_le n code; omega)]
  have hpre : (decodeAll code).take ((decodeAll code).length - ((decodeAll code).drop n).length) = (decodeAll code).take n := by
    rw [length_drop]
    by_cases hn : n ≤ (decodeAll code).length
    · congr 1; omega
    · rw [take_of_length_le (by omega), take_of_length_le (by omega)]
  have ht := bnd_take n code
  dsimp only
  rw [hpre, ← ht]
  generalize code.take (bnd n code) = pre
  congr 2
  · rw [decodes_count (decodes_all pre)]
  · congr 2
    have hc := decodes_count (decodes_all pre)
    rcases last_line 10 pre with ⟨h1, h2⟩ | ⟨a, b, h1, h2, h3⟩
    · rw [h2]
      rw [count_eq_zero.2 h1] at hc
      rcases last_line '\n' (decodeAll pre) with ⟨g1, g2⟩ | ⟨_, _, g1, -, -⟩
      · rw [← length_reverse (as := takeWhile _ _), g2]
      · rw [g1] at hc; simp at hc
    · rw [h3]
      have hd : decodeAll pre = decodeAll a ++ '\n' :: decodeAll b := by rw [h1, decodeAll_split]
      have hb := decodes_count (decodes_all b)
      rw [count_eq_zero.2 h2] at hb
      have hb' : '\n' ∉ decodeAll b := count_eq_zero.1 hb.symm
      rw [hd]
      rw [reverse_append, reverse_cons, append_assoc, takeWhile_append_of_pos, singleton_append, takeWhile_cons_of_neg (by simp),
        append_nil, length_reverse]
      intro y hy
      have : y ∈ decodeAll b := by simpa using hy
      simpa using fun e : y = '\n' => hb' (e ▸ this)

theorem encode_utf8 (cs : List Char) : encode cs = utf8 cs := by
  unfold utf8 encode
  congr 1
  funext c
  exact encodeChar_eq c

end Verif.ByteLexer
