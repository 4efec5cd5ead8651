import Verif.Work
import Verif.Proofs.ByteParser
/-! Proofs for `Verif/Work.lean`: what the counting tokeniser returns and how much it reads. -/
namespace Verif.Work
open List Spec Utf8 Lexer ByteLexer ToLower

/-- Run at `s`, the code returns `v` and stops at `s'`; a character that is left behind pays for ten reads, and `b` more are needed.
It writes no more lines than it reads characters, and none if there is no U+FFFD. -/
def Runs (code : List UInt8) {α : Type} (m : WM α) (s : List Char) (v : α) (s' : List Char) (b : Int) : Prop :=
  ∀ st, AtB code st.off s → ∃ st', m st = some (v, st') ∧ AtB code st'.off s' ∧
    (st'.reads : Int) + 10 * s'.length ≤ st.reads + 10 * s.length + b ∧
    st'.prints + st.reads ≤ st.prints + st'.reads ∧ (runeError ∉ decodeAll code → st'.prints = st.prints)

variable {code : List UInt8} {α β : Type}

theorem Runs.mono {m : WM α} {s v s'} {b c : Int} (h : Runs code m s v s' b) (hb : b ≤ c) : Runs code m s v s' c := by
  intro st hs
  obtain ⟨st', h1, h2, h3, h4⟩ := h st hs
  exact ⟨st', h1, h2, by omega, h4⟩

theorem Runs.pure (v : α) (s : List Char) : Runs code (Pure.pure v) s v s 0 :=
  fun st h => ⟨st, rfl, h, by omega, by omega, fun _ => rfl⟩

theorem Runs.bind {m : WM α} {f : α → WM β} {s s1 s2 v w} {b c d : Int} (h1 : Runs code m s v s1 b) (h2 : Runs code (f v) s1 w s2 c)
    (hd : b + c ≤ d) : Runs code (m >>= f) s w s2 d := by
  intro st h
  obtain ⟨t1, e1, a1, r1, p1, q1⟩ := h1 st h
  obtain ⟨t2, e2, a2, r2, p2, q2⟩ := h2 t1 a1
  refine ⟨t2, ?_, a2, by omega, by omega, fun hq => (q2 hq).trans (q1 hq)⟩
  show Option.bind (m st) _ = _
  rw [e1]
  exact e2

theorem lines_none {o : Nat} {s : List Char} (h : AtB code o s) {c : Option Char} (hc : ∀ x, c = some x → x ∈ s)
    (hq : runeError ∉ decodeAll code) : lines c = 0 := by
  unfold lines
  rw [if_neg]
  intro e
  obtain ⟨n, -, rfl⟩ := h
  exact hq (List.mem_of_mem_drop (hc _ e))

theorem lines_le (c : Option Char) : lines c ≤ 1 := by
  unfold lines
  split <;> omega

theorem Runs.cur (s : List Char) : Runs code (cur code) s s.head? s 1 := by
  intro st h
  refine ⟨⟨st.off, st.reads + 1, st.prints + lines s.head?⟩, ?_, h, ?_, ?_, fun hq => ?_⟩
  · rw [Work.cur, currentLetB_eq, h.dec]
  · simp only; omega
  · have := lines_le s.head?
    simp only; omega
  · show st.prints + lines s.head? = st.prints
    rw [lines_none h (fun x hx => List.mem_of_mem_head? hx) hq, Nat.add_zero]

theorem Runs.nxt (s : List Char) : Runs code (nxt code) s s.tail.head? s 2 := by
  intro st h
  refine ⟨⟨st.off, st.reads + 2, st.prints + lines s.tail.head?⟩, ?_, h, ?_, ?_, fun hq => ?_⟩
  · rw [Work.nxt, nextLetB_eq _ _ h.le, h.dec]
    rfl
  · simp only; omega
  · have := lines_le s.tail.head?
    simp only; omega
  · show st.prints + lines s.tail.head? = st.prints
    rw [lines_none h (fun x hx => List.mem_of_mem_tail (List.mem_of_mem_head? hx)) hq, Nat.add_zero]

theorem adv_runs (s : List Char) {b : Int} (hb : 1 + 10 * (s.tail.length : Int) ≤ 10 * s.length + b) : Runs code (adv code) s () s.tail b := by
  rintro ⟨o, k, p⟩ ⟨n, hn, rfl⟩
  obtain rfl : o = bnd n code := hn
  refine ⟨⟨bnd (n + 1) code, k + 1, p⟩, ?_, ⟨n + 1, rfl, by rw [tail_drop]⟩, ?_, ?_, fun _ => rfl⟩
  · show Option.map _ (nextPosB code (bnd n code)) = _
    rw [nextPosB, if_neg (by have := bnd_le n code; omega), bnd_succ]
    rfl
  · simp only; omega
  · simp only; omega

/-- At the end of the text. -/
theorem Runs.advEnd (s : List Char) : Runs code (adv code) s () s.tail 1 := adv_runs s (by simp only [length_tail]; omega)

theorem Runs.adv (c : Char) (r : List Char) : Runs code (adv code) (c :: r) () r (-9) := adv_runs _ (by simp only [tail_cons, length_cons]; omega)

theorem runs_skipSpace (n : Nat) : ∀ s : List Char, s.length < n → Runs code (skipSpaceW code n) s () (skipSpace s) 1 := by
  induction n with
  | zero => intro s h; omega
  | succ n ih =>
    intro s h
    unfold skipSpaceW
    refine (Runs.cur s).bind (c := 0) ?_ (by omega)
    cases s with
    | nil => exact Runs.pure _ _
    | cons c r =>
      rw [skipSpace]
      by_cases hc : isSpace c = true
      · rw [if_pos (show (c :: r).head?.any isSpace = true from hc), if_pos hc]
        exact (Runs.adv _ _).bind (ih r (by simp only [length_cons] at h; omega)) (by omega)
      · rw [if_neg (show ¬ (c :: r).head?.any isSpace = true from hc), if_neg hc]
        exact Runs.pure _ _

theorem runs_skipLine (n : Nat) : ∀ s : List Char, s.length < n → Runs code (skipLineW code n) s () (skipLine s) 1 := by
  induction n with
  | zero => intro s h; omega
  | succ n ih =>
    intro s h
    unfold skipLineW
    refine (Runs.cur s).bind (c := 0) ?_ (by omega)
    cases s with
    | nil => exact Runs.pure _ _
    | cons c r =>
      rw [skipLine]
      by_cases hc : c = '\n'
      · rw [if_neg (by simp [hc]), if_pos hc]
        exact Runs.pure _ _
      · rw [if_pos (by simp [hc]), if_neg hc]
        exact (Runs.adv _ _).bind (ih r (by simp only [length_cons] at h; omega)) (by omega)

theorem Runs.atLen {m : WM α} {s v s'} {b : Int} (h : s.length ≤ code.length → Runs code m s v s' b) : Runs code m s v s' b :=
  fun o ho => h ho.len o ho

theorem runs_spaces (s : List Char) : Runs code (skipSpaceW code (code.length + 1)) s () (skipSpace s) 1 :=
  Runs.atLen fun h => runs_skipSpace _ s (by omega)

/-- A line with at least one character. -/
theorem runs_line {c : Char} (hc : c ≠ '\n') (r : List Char) : Runs code (skipLineW code (code.length + 1)) (c :: r) () (skipLine (c :: r)) (-7) :=
  Runs.atLen fun h => by
    unfold skipLineW
    refine (Runs.cur _).bind (c := -8) ?_ (by omega)
    rw [skipLine, if_neg hc, if_pos (by simp [hc])]
    exact (Runs.adv _ _).bind (runs_skipLine _ r (by simp only [length_cons] at h; omega)) (by omega)

/-- A line with at least two characters. -/
theorem runs_line2 {c d : Char} (hc : c ≠ '\n') (hd : d ≠ '\n') (r : List Char) :
    Runs code (skipLineW code (code.length + 1)) (c :: d :: r) () (skipLine (c :: d :: r)) (-15) :=
  Runs.atLen fun h => by
    simp only [length_cons] at h
    unfold skipLineW
    refine (Runs.cur _).bind (c := -16) ?_ (by omega)
    rw [skipLine, if_neg hc, if_pos (by simp [hc])]
    refine (Runs.adv _ _).bind (c := -7) ?_ (by omega)
    obtain ⟨m, hm⟩ : ∃ m, code.length = m + 1 := ⟨code.length - 1, by omega⟩
    rw [hm]
    unfold skipLineW
    refine (Runs.cur _).bind (c := -8) ?_ (by omega)
    rw [skipLine, if_neg hd, if_pos (by simp [hd])]
    exact (Runs.adv _ _).bind (runs_skipLine _ r (by omega)) (by omega)

/-- The end of the two skipping functions (`/repo/ast/tokens.go:321-325`, `338-342`). -/
def dispatchW (code : List UInt8) (n : Nat) : WM Unit := do
  if (← cur code) = some '/' then skipCommentW code n else if (← cur code) = some '#' then skipRegionsW code n else pure ()

theorem runs_skips (n : Nat) : ∀ s : List Char,
    (2 * s.length + 1 ≤ n → Runs code (skipCommentW code n) s () (skipCommentF n s) 3) ∧
    (2 * s.length + 2 ≤ n → Runs code (skipRegionsW code n) s () (skipRegionsF n s) 5) := by
  induction n with
  | zero => intro s; constructor <;> intro h <;> omega
  | succ n ih =>
    have hd : ∀ s : List Char, (s.head? = some '#' → 2 * s.length + 2 ≤ n) → 2 * s.length + 1 ≤ n →
        Runs code (dispatchW code n) s () (dispatchF n s) (if s.head? = some '#' then 7 else 4) := by
      intro s h h0
      by_cases h1 : s.head? = some '/'
      · refine (Runs.cur s).bind (c := 3) ?_ (by split <;> omega)
        rw [if_pos h1]
        obtain ⟨r, rfl⟩ := head_some h1
        exact (ih _).1 h0
      refine (Runs.cur s).bind (c := if s.head? = some '#' then 6 else 1) ?_ (by split <;> omega)
      rw [if_neg h1]
      by_cases h2 : s.head? = some '#'
      · refine (Runs.cur s).bind (c := 5) ?_ (by rw [if_pos h2]; omega)
        rw [if_pos h2]
        obtain ⟨r, rfl⟩ := head_some h2
        exact (ih _).2 (h rfl)
      refine (Runs.cur s).bind (c := 0) ?_ (by split <;> omega)
      rw [if_neg h2, dispatch_other h1 h2]
      exact Runs.pure _ _
    have hd' : ∀ s : List Char, (s.head? = some '#' → 2 * s.length + 2 ≤ n) → 2 * s.length + 1 ≤ n →
        Runs code (dispatchW code n) s () (dispatchF n s) 7 := fun s h h0 => (hd s h h0).mono (by split <;> omega)
    have hs : ∀ c : Char, c ≠ '\n' → ∀ r, (skipSpace (skipLine (c :: r))).length ≤ r.length := by
      intro c hc r
      exact Nat.le_trans (skipSpace_len _) (skipLine_cons_len hc r)
    intro s
    constructor
    · intro h
      unfold skipCommentW
      refine (Runs.cur s).bind (c := 2) ?_ (by omega)
      by_cases h1 : s.head? = some '/'
      · obtain ⟨r, rfl⟩ := head_some h1
        rw [if_pos h1]
        refine (Runs.nxt _).bind (c := 0) ?_ (by omega)
        by_cases h2 : r.head? = some '/'
        · obtain ⟨r, rfl⟩ := head_some h2
          rw [if_pos (by exact h2)]
          have := hs '/' (by decide) ('/' :: r)
          simp only [length_cons] at this h
          exact (runs_line2 (by decide) (by decide) _).bind (c := 8) ((runs_spaces _).bind (hd' _ (by omega) (by omega)) (by omega)) (by omega)
        · rw [if_neg (by exact h2)]
          have : skipCommentF (n + 1) ('/' :: r) = '/' :: r := by
            unfold skipCommentF
            split
            · rename_i e; injection e with _ e; subst e; simp at h2
            · rfl
          rw [this]
          exact Runs.pure _ _
      · rw [if_neg h1]
        have : skipCommentF (n + 1) s = s := by
          unfold skipCommentF
          split
          · simp at h1
          · rfl
        rw [this]
        exact (Runs.pure _ _).mono (by omega)
    · intro h
      unfold skipRegionsW
      refine (Runs.cur s).bind (c := 4) ?_ (by omega)
      by_cases h1 : s.head? = some '#'
      · obtain ⟨r, rfl⟩ := head_some h1
        rw [if_pos h1]
        have := hs '#' (by decide) r
        simp only [length_cons] at h
        exact (runs_line (by decide) _).bind (c := 8) ((runs_spaces _).bind (hd' _ (by omega) (by omega)) (by omega)) (by omega)
      · rw [if_neg h1]
        have : skipRegionsF (n + 1) s = dispatchF n s := by
          unfold skipRegionsF
          split
          · simp at h1
          · rfl
        rw [this]
        refine (hd s (fun e => absurd e h1) (by omega)).mono ?_
        rw [if_neg h1]

theorem runs_comment (s : List Char) : Runs code (skipCommentW code (2 * code.length + 3)) s () (skipComment s) 3 :=
  Runs.atLen fun h => by
    rw [skipComment, (skipF_fuel (2 * s.length + 2) s).1 (2 * code.length + 3) (by omega) (by omega)]
    exact (runs_skips _ s).1 (by omega)

theorem runs_regions (s : List Char) : Runs code (skipRegionsW code (2 * code.length + 3)) s () (skipRegions s) 5 :=
  Runs.atLen fun h => by
    rw [skipRegions, (skipF_fuel (2 * s.length + 2) s).2 (2 * code.length + 3) (by omega) (by omega)]
    exact (runs_skips _ s).2 (by omega)

theorem runs_scanIdent [Letters] (n : Nat) : ∀ (s ret : List Char), s.length < n →
    Runs code (scanIdentW code n ret) s (ret ++ s.takeWhile isWordChar) (s.dropWhile isWordChar) 1 := by
  induction n with
  | zero => intro s ret h; omega
  | succ n ih =>
    intro s ret h
    unfold scanIdentW
    refine (Runs.cur s).bind (c := 0) ?_ (by omega)
    cases s with
    | nil => simpa using Runs.pure (code := code) ret []
    | cons c r =>
      dsimp only [head?_cons]
      by_cases hc : isWordChar c = true
      · rw [if_neg (by simp only [isWordChar, Bool.or_eq_true] at hc; rcases hc with hc | hc <;> simp [hc]),
          takeWhile_cons_of_pos hc, dropWhile_cons_of_pos hc]
        refine (Runs.adv _ _).bind (c := 1) ?_ (by omega)
        have := ih r (ret ++ [c]) (by simp only [length_cons] at h; omega)
        rwa [append_assoc, singleton_append] at this
      · rw [if_pos (by simp only [isWordChar, Bool.or_eq_true, not_or, Bool.not_eq_true] at hc; simp [hc]),
          takeWhile_cons_of_neg hc, dropWhile_cons_of_neg hc, append_nil]
        exact Runs.pure _ _

theorem runs_ident [Letters] (s : List Char) :
    Runs code (scanIdentW code (code.length + 1) []) s (scanIdentifier s).1 (scanIdentifier s).2 1 :=
  Runs.atLen fun h => runs_scanIdent _ s [] (by omega)

theorem runs_scanNum (n : Nat) : ∀ (s ret : List Char), s.length < n →
    Runs code (scanNumW code n ret) s
      (ret ++ s.takeWhile (fun c => isDigit c || c == '.'), (s.dropWhile (fun c => isDigit c || c == '.')).head?)
      (s.dropWhile (fun c => isDigit c || c == '.')) 1 := by
  induction n with
  | zero => intro s ret h; omega
  | succ n ih =>
    intro s ret h
    unfold scanNumW
    refine (Runs.cur s).bind (c := 0) ?_ (by omega)
    cases s with
    | nil => simpa using Runs.pure (code := code) (ret, (none : Option Char)) []
    | cons c r =>
      dsimp only [head?_cons]
      by_cases hc : (isDigit c || c == '.') = true
      · rw [if_pos hc, takeWhile_cons_of_pos (p := fun c => isDigit c || c == '.') hc,
          dropWhile_cons_of_pos (p := fun c => isDigit c || c == '.') hc]
        refine (Runs.adv _ _).bind (c := 1) ?_ (by omega)
        have := ih r (ret ++ [c]) (by simp only [length_cons] at h; omega)
        rwa [append_assoc, singleton_append] at this
      · rw [if_neg hc, takeWhile_cons_of_neg (p := fun c => isDigit c || c == '.') hc,
          dropWhile_cons_of_neg (p := fun c => isDigit c || c == '.') hc, append_nil]
        exact Runs.pure _ _

theorem runs_scanStr (close : Char) (n : Nat) : ∀ (s ret : List Char), s.length + 1 ≤ n →
    Runs code (scanStrW code close n ret) s (ByteLexer.after ret (scanStringF close n s).1) (scanStringF close n s).2 2 := by
  induction n with
  | zero => intro s ret h; omega
  | succ n ih =>
    intro s ret h
    unfold scanStrW scanStringF
    match s with
    | [] =>
      refine (Runs.advEnd _).bind (c := 1) ((Runs.cur _).bind (c := 0) ?_ (by omega)) (by omega)
      rw [if_neg (show ¬ ([] : List Char).tail.head? = some '\n' by simp)]
      exact Runs.pure _ _
    | [x] =>
      refine (Runs.adv _ _).bind (c := 1) ((Runs.cur _).bind (c := 0) ?_ (by omega)) (by omega)
      rw [if_neg (show ¬ ([] : List Char).head? = some '\n' by simp)]
      exact Runs.pure _ _
    | x :: c :: r =>
      simp only [length_cons] at h
      refine (Runs.adv _ _).bind (c := 11) ((Runs.cur _).bind (c := 10) ?_ (by omega)) (by omega)
      dsimp only [tail_cons]
      by_cases h1 : c = '\n'
      · rw [if_pos (show (c :: r).head? = some '\n' by rw [h1]; rfl), if_pos h1]
        refine (Runs.adv _ _).bind (c := 7) ((runs_spaces _).bind (c := 6) ((runs_comment _).bind (c := 3) ((Runs.cur _).bind (c := 2) ?_
          (by omega)) (by omega)) (by omega)) (by omega)
        have hlen : (skipComment (skipSpace r)).length ≤ r.length :=
          Nat.le_trans (skipComment_suffix _).length_le (skipSpace_len _)
        match hq : skipComment (skipSpace r) with
        | [] => exact (Runs.pure _ _).mono (by omega)
        | d :: r' =>
          dsimp only [head?_cons]
          split
          · exact (Runs.pure _ _).mono (by omega)
          · obtain ⟨e1, e2⟩ := after_add ret ['\n', d] (scanStringF close n (d :: r'))
            rw [e1, e2]
            rw [hq] at hlen
            exact ih _ _ (by omega)
      · rw [if_neg (show ¬ (c :: r).head? = some '\n' by simpa using h1), if_neg h1]
        dsimp only [head?_cons]
        by_cases h2 : c = close
        · rw [if_pos h2, if_pos h2]
          refine (Runs.nxt _).bind (c := 8) ?_ (by omega)
          rw [tail_cons]
          by_cases h3 : r.head? = some '"'
          · rw [if_pos h3, if_pos h3]
            refine (Runs.adv _ _).bind (c := 2) ?_ (by omega)
            obtain ⟨e1, e2⟩ := after_add ret ['"', '"'] (scanStringF close n r)
            rw [e1, e2]
            exact ih _ _ (by omega)
          · rw [if_neg h3, if_neg h3]
            refine (Runs.adv _ _).bind (c := 4) ((runs_spaces _).bind (c := 3) ((Runs.cur _).bind (c := 2) ?_ (by omega)) (by omega)) (by omega)
            have := skipSpace_len r
            split
            · exact ih _ _ (by omega)
            · exact Runs.mono (by simpa [ByteLexer.after] using Runs.pure (code := code) (Except.ok ret : Except LexErr (List Char)) (skipSpace r)) (by omega)
        · rw [if_neg h2, if_neg h2]
          obtain ⟨e1, e2⟩ := after_add ret [c] (scanStringF close n (c :: r))
          rw [e1, e2]
          exact (ih _ _ (by simp only [length_cons]; omega)).mono (by omega)

theorem runs_string (close : Char) (s : List Char) :
    Runs code (scanStrW code close (code.length + 1) []) s (scanString close s).1 (scanString close s).2 2 :=
  Runs.atLen fun h => by
    have := runs_scanStr (code := code) close (code.length + 1) s [] (by omega)
    rw [scanString, scanStringF_fuel close (s.length + 1) s (code.length + 1) (by omega) (by omega)]
    have e : ∀ x, ByteLexer.after [] x = x := fun x => by cases x <;> simp [ByteLexer.after]
    rwa [e] at this

/-- Run at `s`, the code returns what `next` returns. -/
def Gives (code : List UInt8) (m : WM RawB) (s : List Char) (r : Raw) (b : Int) : Prop :=
  ∃ a, SameRaw a r ∧ Runs code m s a r.rest b

theorem Gives.pure {a : RawB} {r : Raw} (h : SameRaw a r) {b : Int} (hb : 0 ≤ b) : Gives code (Pure.pure a) r.rest r b :=
  ⟨a, h, (Runs.pure _ _).mono hb⟩

theorem Gives.bind {m : WM α} {f : α → WM RawB} {s s1 v r} {b c d : Int} (h1 : Runs code m s v s1 b) (h2 : Gives code (f v) s1 r c)
    (hd : b + c ≤ d) : Gives code (m >>= f) s r d := by
  obtain ⟨a, h, hr⟩ := h2
  exact ⟨a, h, h1.bind hr hd⟩

theorem Gives.mono {m : WM RawB} {s r} {b c : Int} (h : Gives code m s r b) (hb : b ≤ c) : Gives code m s r c := by
  obtain ⟨a, h, hr⟩ := h
  exact ⟨a, h, hr.mono hb⟩

/-- The characters behind the word at which the text begins. -/
def beyond [Letters] (s : List Char) : Nat := (s.dropWhile isWordChar).length

theorem beyond_suffix [Letters] {s' s : List Char} (h : s' <:+ s) : beyond s' ≤ beyond s := by
  obtain ⟨p, rfl⟩ := h
  induction p with
  | nil => exact Nat.le_refl _
  | cons c p ih =>
    refine Nat.le_trans ih ?_
    unfold beyond
    rw [cons_append, dropWhile_cons]
    split
    · exact Nat.le_refl _
    · exact Nat.le_trans (List.dropWhile_suffix _).length_le (Nat.le_succ _)

theorem scan_cost [Letters] (d : Bool) (s : List Char) (B : Int) (hB8 : 8 ≤ B)
    (hfail : ∀ r, s = '&' :: r → directives.lookup (lower ('&' :: (scanIdentifier r).1)) = none →
      10 * ((r.takeWhile isWordChar).length : Int) ≤ B) :
    Gives code (scanW code d) s (nextRaw d s) B := by
  unfold scanW nextRaw
  refine Gives.bind (c := B - 1) (Runs.cur s) ?_ (by omega)
  cases s with
  | nil => exact Gives.bind (c := 0) (Runs.advEnd _) (by refine Gives.pure ?_ (by omega); exact ⟨rfl, rfl, rfl⟩) (by omega)
  | cons c r =>
    dsimp only [head?_cons]
    by_cases h : isLetter c = true
    · rw [if_pos h, if_pos h]
      refine Gives.bind (c := 0) (runs_ident _) ?_ (by omega)
      rw [fastToLower_encode, lookupB_encode]
      unfold lexWord lower
      dsimp only
      match lookup (map lowerRune (scanIdentifier (c :: r)).1) keywords with
      | some k =>
        cases d
        · exact Gives.pure (r := ⟨.ok (some k), _, _⟩) ⟨rfl, rfl, rfl⟩ (by omega)
        · exact Gives.pure (r := ⟨.ok (some tIdent), _, _⟩) ⟨rfl, rfl, rfl⟩ (by omega)
      | none => exact Gives.pure (r := ⟨.ok (some tIdent), _, _⟩) ⟨rfl, rfl, rfl⟩ (by omega)
    rw [if_neg h, if_neg h]; clear h
    by_cases h : c = '.'
    · rw [if_pos h, if_pos h]; subst h
      exact Gives.bind (c := 0) (Runs.adv _ _) (by refine Gives.pure ?_ (by omega); exact ⟨rfl, rfl, rfl⟩) (by omega)
    rw [if_neg h, if_neg h]; clear h
    by_cases h : isDigit c = true
    · rw [if_pos h, if_pos h]
      refine Gives.bind (c := 0) (Runs.atLen fun hl => runs_scanNum _ (c :: r) [] (by omega)) ?_ (by omega)
      dsimp only
      unfold lexNumber scanNumber
      dsimp only
      rw [nil_append]
      generalize dropWhile (fun c => isDigit c || c == '.') (c :: r) = q
      generalize takeWhile (fun c => isDigit c || c == '.') (c :: r) = l
      match q with
      | [] => exact Gives.pure (r := ⟨.ok (some tNumber), l, []⟩) ⟨rfl, rfl, rfl⟩ (by omega)
      | a :: b =>
        dsimp only
        by_cases ha : isLetter a = true
        · rw [if_pos (show (a :: b).head?.any isLetter = true from ha), if_pos ha]
          exact Gives.pure (r := ⟨.error .identAfterNumber, [], a :: b⟩) ⟨rfl, rfl, .inl ⟨rfl, nofun⟩⟩ (by omega)
        · rw [if_neg (show ¬ (a :: b).head?.any isLetter = true from ha), if_neg ha]
          exact Gives.pure (r := ⟨.ok (some tNumber), l, a :: b⟩) ⟨rfl, rfl, rfl⟩ (by omega)
    rw [if_neg h, if_neg h]; clear h
    by_cases h : c = '\''
    · rw [if_pos h, if_pos h]; subst h
      refine Gives.bind (c := 0) (runs_string _ _) ?_ (by omega)
      unfold lexDate
      match hs : scanString '\'' ('\'' :: r) with
      | (.error e, r') => exact Gives.pure (r := ⟨.error e, [], r'⟩) ⟨rfl, rfl, .inl ⟨rfl, scanString_not_bad (by rw [hs])⟩⟩ (by omega)
      | (.ok l, r') =>
        dsimp only
        rw [decodeAll_encode]
        by_cases hl : extractDigits l = []
        · rw [if_pos (by rw [hl]; rfl), if_pos hl]
          exact Gives.pure (r := ⟨.error .emptyDate, [], r'⟩) ⟨rfl, rfl, .inl ⟨rfl, nofun⟩⟩ (by omega)
        · rw [if_neg (show ¬ encode (extractDigits l) = [] from fun e => hl (encode_inj (b := []) e)), if_neg hl]
          exact Gives.pure (r := ⟨.ok (some tDate), extractDigits l, r'⟩) ⟨rfl, rfl, rfl⟩ (by omega)
    rw [if_neg h, if_neg h]; clear h
    by_cases h : isPunct c = true
    · rw [if_pos h, if_pos h]
      exact Gives.bind (c := 0) (Runs.adv _ _) (by refine Gives.pure ?_ (by omega); exact ⟨rfl, rfl, rfl⟩) (by omega)
    rw [if_neg h, if_neg h]; clear h
    by_cases h : c = '='
    · rw [if_pos h, if_pos h]
      exact Gives.bind (c := 0) (Runs.adv _ _) (by refine Gives.pure ?_ (by omega); exact ⟨rfl, rfl, rfl⟩) (by omega)
    rw [if_neg h, if_neg h]; clear h
    by_cases h : c = '"'
    · rw [if_pos h, if_pos h]; subst h
      refine Gives.bind (c := 0) (runs_string _ _) ?_ (by omega)
      unfold lexString
      match hs : scanString '"' ('"' :: r) with
      | (.error e, r') => exact Gives.pure (r := ⟨.error e, [], r'⟩) ⟨rfl, rfl, .inl ⟨rfl, scanString_not_bad (by rw [hs])⟩⟩ (by omega)
      | (.ok l, r') => exact Gives.pure (r := ⟨.ok (some tString), l, r'⟩) ⟨rfl, rfl, rfl⟩ (by omega)
    rw [if_neg h, if_neg h]; clear h
    by_cases h : c = '<'
    · rw [if_pos h, if_pos h]; subst h
      refine Gives.bind (c := 4) (Runs.nxt _) ?_ (by omega)
      rw [tail_cons]
      by_cases h1 : r.head? = some '>'
      · obtain ⟨r, rfl⟩ := head_some h1
        rw [if_pos h1]
        exact Gives.bind (c := 0) (Runs.adv _ _) (Gives.bind (c := 0) (Runs.adv _ _) (Gives.pure (r := lexLess ('>' :: r)) ⟨rfl, rfl, rfl⟩ (by omega)) (by omega)) (by omega)
      rw [if_neg h1]
      refine Gives.bind (c := 2) (Runs.nxt _) ?_ (by omega)
      rw [tail_cons]
      by_cases h2 : r.head? = some '='
      · obtain ⟨r, rfl⟩ := head_some h2
        rw [if_pos h2]
        exact Gives.bind (c := 0) (Runs.adv _ _) (Gives.bind (c := 0) (Runs.adv _ _) (Gives.pure (r := lexLess ('=' :: r)) ⟨rfl, rfl, rfl⟩ (by omega)) (by omega)) (by omega)
      rw [if_neg h2]
      have : lexLess r = ⟨.ok (some '<'.toNat), ['<'], r⟩ := by
        unfold lexLess
        split
        · simp at h1
        · simp at h2
        · rfl
      rw [this]
      exact Gives.bind (c := 0) (Runs.adv _ _) (Gives.pure (r := ⟨.ok (some '<'.toNat), ['<'], r⟩) ⟨rfl, rfl, rfl⟩ (by omega)) (by omega)
    rw [if_neg h, if_neg h]; clear h
    by_cases h : c = '>'
    · rw [if_pos h, if_pos h]; subst h
      refine Gives.bind (c := 2) (Runs.nxt _) ?_ (by omega)
      rw [tail_cons]
      by_cases h2 : r.head? = some '='
      · obtain ⟨r, rfl⟩ := head_some h2
        rw [if_pos h2]
        exact Gives.bind (c := 0) (Runs.adv _ _) (Gives.bind (c := 0) (Runs.adv _ _) (Gives.pure (r := lexGreater ('=' :: r)) ⟨rfl, rfl, rfl⟩ (by omega)) (by omega)) (by omega)
      rw [if_neg h2]
      have : lexGreater r = ⟨.ok (some '>'.toNat), ['>'], r⟩ := by
        unfold lexGreater
        split
        · simp at h2
        · rfl
      rw [this]
      exact Gives.bind (c := 0) (Runs.adv _ _) (Gives.pure (r := ⟨.ok (some '>'.toNat), ['>'], r⟩) ⟨rfl, rfl, rfl⟩ (by omega)) (by omega)
    rw [if_neg h, if_neg h]; clear h
    by_cases h : c = '&'
    · rw [if_pos h, if_pos h]; subst h
      refine Gives.bind (c := B + 8) (Runs.adv _ _) ?_ (by omega)
      have henc : encode ['&'] ++ encode (scanIdentifier r).1 = encode ('&' :: (scanIdentifier r).1) := by
        simp [encode]
      unfold lexDirective
      dsimp only
      match hk : directives.lookup (lower ('&' :: (scanIdentifier r).1)) with
      | some k =>
        refine ⟨⟨some k, encode ('&' :: (scanIdentifier r).1), none⟩, ⟨rfl, rfl, rfl⟩, ?_⟩
        intro o ho
        obtain ⟨o1, e1, a1, r1, p1⟩ := runs_ident r o ho
        refine ⟨o1, ?_, a1, by dsimp only; omega, p1⟩
        simp only [bind, StateT.bind, getOff, Option.bind, e1]
        rw [henc, fastToLower_encode, lookupB_encode]
        unfold lower at hk
        rw [hk]
        rfl
      | none =>
        refine ⟨⟨some '&'.toNat, encode ['&'], some (.badChar '&')⟩, ⟨rfl, rfl, .inr ⟨_, rfl, rfl, rfl⟩⟩, ?_⟩
        intro o ho
        obtain ⟨o1, e1, a1, r1, p1, q1⟩ := runs_ident r o ho
        have hw : ((scanIdentifier r).2.length : Int) + (r.takeWhile isWordChar).length = r.length := by
          have := congrArg List.length (List.takeWhile_append_dropWhile (p := isWordChar) (l := r))
          rw [List.length_append] at this
          unfold scanIdentifier
          dsimp only
          omega
        have := hfail r rfl hk
        refine ⟨{ o1 with off := o.off }, ?_, ho, by dsimp only; omega, p1, q1⟩
        simp only [bind, StateT.bind, getOff, Option.bind, e1]
        rw [henc, fastToLower_encode, lookupB_encode]
        unfold lower at hk
        rw [hk]
        rfl
    rw [if_neg h, if_neg h]; clear h
    by_cases h : c = '~'
    · rw [if_pos h, if_pos h]; subst h
      exact Gives.bind (c := 1) (Runs.adv _ _) (Gives.bind (c := 0) (runs_ident _) (Gives.pure (r := lexLabel r) ⟨rfl, rfl, rfl⟩ (by omega)) (by omega)) (by omega)
    rw [if_neg h, if_neg h]
    exact Gives.bind (c := 0) (Runs.adv _ _) (by refine Gives.pure ?_ (by omega); exact ⟨rfl, rfl, .inr ⟨_, rfl, rfl, rfl⟩⟩) (by omega)


theorem nextRaw_amp [Letters] {d : Bool} {r : List Char} (h : directives.lookup (lower ('&' :: (scanIdentifier r).1)) = none) :
    (nextRaw d ('&' :: r)).rest = r := by
  unfold nextRaw
  dsimp only
  rw [if_neg (by rw [isLetter_ascii_false (by decide) (by decide) (by decide)]; decide), if_neg (by decide), if_neg (by decide), if_neg (by decide),
    if_neg (by decide), if_neg (by decide), if_neg (by decide), if_neg (by decide), if_neg (by decide), if_pos rfl]
  unfold lexDirective
  dsimp only
  rw [h]

/-- What is left to pay for: each character at most ten times, and once more behind each `&`. -/
def potential [Letters] (s : List Char) : Int := 10 * s.length + 10 * beyond s

theorem beyond_le [Letters] (s : List Char) : beyond s ≤ s.length := (List.dropWhile_suffix _).length_le

theorem gives_scan [Letters] (d : Bool) (s : List Char) :
    Gives code (scanW code d) s (nextRaw d s) (8 + 10 * beyond s - 10 * beyond (nextRaw d s).rest) := by
  refine scan_cost d s _ ?_ ?_
  · have : beyond (nextRaw d s).rest ≤ beyond s := by
      cases s with
      | nil => exact Nat.le_refl _
      | cons c r => exact beyond_suffix ((nextRaw_suffix d c r).trans (suffix_cons _ _))
    omega
  · rintro r rfl h
    rw [nextRaw_amp h]
    have h1 : beyond ('&' :: r) = r.length + 1 := by
      unfold beyond
      rw [dropWhile_cons, if_neg (by unfold isWordChar; rw [isLetter_ascii_false (by decide) (by decide) (by decide)]; decide)]
      rfl
    have h2 : beyond r + (r.takeWhile isWordChar).length = r.length := by
      have := congrArg List.length (List.takeWhile_append_dropWhile (p := isWordChar) (l := r))
      rw [List.length_append] at this
      unfold beyond
      omega
    omega

/-- A call of `Token.Next`. -/
theorem gives_next [Letters] (t : TokB) (s : List Char) :
    Gives code (nextW code t) s (nextRaw t.prevDot (skipTrivia s))
      (17 + 10 * beyond s - 10 * beyond (nextRaw t.prevDot (skipTrivia s)).rest) := by
  have h := beyond_suffix (skipTrivia_suffix s)
  unfold nextW
  refine Gives.bind (runs_spaces s) (Gives.bind (runs_comment _) (Gives.bind (runs_regions _) (gives_scan _ _) (Int.le_refl _))
    (Int.le_refl _)) ?_
  have e : skipRegions (skipComment (skipSpace s)) = skipTrivia s := rfl
  rw [e]
  omega

open Tables ByteParser LR

/-- The count `x` is paid for by the text between `s` and `s'` and by `b`. -/
def Pays [Letters] (code : List UInt8) (x : Count) (s s' : List Char) (b : Int) : Prop :=
  (x.reads : Int) + potential s' ≤ potential s + b ∧ x.prints ≤ x.reads ∧ (runeError ∉ decodeAll code → x.prints = 0)

variable [Letters]

theorem Pays.zero (s : List Char) {b : Int} (hb : 0 ≤ b) : Pays code 0 s s b :=
  ⟨by show (0 : Int) + _ ≤ _; omega, Nat.le_refl _, fun _ => rfl⟩

theorem Pays.add {x y : Count} {s s1 s2 : List Char} {b c : Int} (h : Pays code x s s1 b) (h' : Pays code y s1 s2 c) :
    Pays code (x + y) s s2 (b + c) := by
  obtain ⟨h1, h2, h3⟩ := h
  obtain ⟨k1, k2, k3⟩ := h'
  refine ⟨?_, ?_, fun hn => ?_⟩
  · show ((x.reads + y.reads : Nat) : Int) + _ ≤ _
    omega
  · show x.prints + y.prints ≤ x.reads + y.reads
    omega
  · show x.prints + y.prints = 0
    rw [h3 hn, k3 hn]

theorem Pays.mono {x : Count} {s s' : List Char} {b c : Int} (h : Pays code x s s' b) (hb : b ≤ c) : Pays code x s s' c :=
  ⟨by have := h.1; omega, h.2⟩

theorem lex_pays {a : TokB} (h : Sound code a) :
    Pays code (lexCount code a) (chars code a).rest (lexNext (chars code a)).1.rest 17 := by
  have hs := beyond_suffix (lexNext_suffix (chars code a))
  have hl := (lexNext_suffix (chars code a)).length_le
  unfold lexCount
  split
  · refine ⟨?_, Nat.le_refl _, fun _ => rfl⟩
    show (0 : Int) + _ ≤ _
    unfold potential
    omega
  · obtain ⟨r, -, hr⟩ := gives_next (code := code) a (chars code a).rest
    obtain ⟨st, e, -, h1, h2, h3⟩ := hr ⟨a.offset, 0, 0⟩ h.at_
    rw [e]
    rw [lexNext_rest, h.prevDot.symm]
    dsimp only at h1 h2 h3 ⊢
    refine ⟨?_, by simpa using h2, h3⟩
    unfold potential
    dsimp only
    omega

theorem fetch_pays {c : CfgB} (hs : Sound code c.lval) (hc : c.ast.code ≠ []) :
    Pays code (fetchCount code c) (c.cfg code).lval.rest (fetch (c.cfg code)).1.lval.rest 17 := by
  obtain ⟨ast, lval, look, live, stale⟩ := c
  cases look with
  | some t => exact Pays.zero _ (by decide)
  | none =>
    let c : CfgB := ⟨ast, lval, none, live, stale⟩
    have hp := lex_pays hs
    have e : (fetch (c.cfg code)).1.lval = (lexNext (c.cfg code).lval).1 := by
      rw [fetch_none (c := c.cfg code) rfl, lexCall_eq (a := (c.cfg code).ast) hc]
      rcases lexNext (c.cfg code).lval with ⟨t', e | (_ | k)⟩ <;> rfl
    show Pays code (lexCount code lval) (c.cfg code).lval.rest (fetch (c.cfg code)).1.lval.rest 17
    rw [e]
    exact hp

theorem default_pays {c : CfgB} (hs : Sound code c.lval) (hc : c.ast.code ≠ []) (s : Nat) :
    ∃ s', Pays code (defaultCount code c s) (c.cfg code).lval.rest s' 17 ∧
      ∀ c', defaultAction (c.cfg code) s = .ok (.go c') → c'.lval.rest = s' := by
  unfold defaultCount defaultAction
  dsimp only
  split
  · refine ⟨_, fetch_pays hs hc, ?_⟩
    generalize fetch (c.cfg code) = r
    obtain ⟨d, t⟩ := r
    dsimp only
    intro c' h
    split at h
    · cases h
    · split at h
      · rw [syntaxError_lval h]
      · rw [reduce_lval h]
  · refine ⟨_, Pays.zero _ (by decide), ?_⟩
    intro c' h
    split at h
    · rw [syntaxError_lval h]
    · rw [reduce_lval h]

theorem step_pays (hne : code ≠ []) {c : CfgB} (hs : Sound code c.lval) (hc : c.ast.code ≠ []) :
    ∃ s', Pays code (stepCount code c) (c.cfg code).lval.rest s' 34 ∧
      ∀ c', step (c.cfg code) = .ok (.go c') → c'.lval.rest = s' := by
  unfold stepCount step
  have hl : (c.cfg code).live = c.live := rfl
  rw [hl]
  match c.live with
  | [] =>
    refine ⟨_, Pays.zero _ (by decide), fun c' h => ?_⟩
    dsimp only at h
    injection h with h
    injection h
  | (s, v) :: l =>
    dsimp only
    split
    · obtain ⟨s', h1, h2⟩ := default_pays hs hc s
      exact ⟨s', h1.mono (by decide), h2⟩
    · obtain ⟨c', h1, h2, h3⟩ := fetch_match hne hs hc
      have hcode := fetch_code' (c := c.cfg code) hc
      have hp := fetch_pays hs hc
      rw [h1]
      revert h2 hcode hp
      generalize fetch (c.cfg code) = r
      obtain ⟨d, t⟩ := r
      intro h2 hcode hp
      dsimp only at h2 hcode hp ⊢
      subst h2
      cases shiftOf s t with
      | some s' =>
        refine ⟨_, (hp.add (Pays.zero _ (Int.le_refl 0))).mono (by decide), ?_⟩
        intro c'' h
        injection h with h
        injection h with h
        subst h
        rfl
      | none =>
        obtain ⟨s', k1, k2⟩ := default_pays h3 (by rw [show c'.ast.code = _ from hcode]; exact hc) s
        exact ⟨s', hp.add k1, k2⟩

theorem run_pays (hne : code ≠ []) {cs : List Char} (hcs : cs ≠ []) (n : Nat) (c : CfgB) (hs : Sound code c.lval)
    (hp : PosOk cs c.ast) (hn : ∃ n, (c.cfg code).lval = afterCalls n (startTok cs)) :
    ∃ s', Pays code (runCount code n c) (c.cfg code).lval.rest s' (34 * n) := by
  induction n generalizing c with
  | zero => exact ⟨_, Pays.zero _ (by decide)⟩
  | succ n ih =>
    have hc : c.ast.code ≠ [] := by rw [hp.codeEq]; exact hcs
    have h := step_match hne hs hc
    have hpos := step_pos (c := c.cfg code) hcs hp hn
    obtain ⟨s', h1, h2⟩ := step_pays hne hs hc
    rw [runCount]
    revert h hpos h2
    generalize step (c.cfg code) = y
    intro h hpos h2
    match y with
    | .error p =>
      rw [show stepB code c = _ from h]
      exact ⟨s', (h1.add (Pays.zero _ (Int.le_refl 0))).mono (by omega)⟩
    | .ok (.done k a) =>
      rw [show stepB code c = _ from h]
      exact ⟨s', (h1.add (Pays.zero _ (Int.le_refl 0))).mono (by omega)⟩
    | .ok (.go c') =>
      obtain ⟨d, e, k2, k3⟩ := h
      subst k2
      rw [e]
      obtain ⟨s'', h3⟩ := ih d k3 hpos.1 hpos.2
      rw [h2 _ rfl] at h3
      exact ⟨s'', (h1.add h3).mono (by omega)⟩

theorem parse_pays (code : List UInt8) :
    (parseCount code).reads ≤ 530 * (decodeAll code).length + 544 ∧ (parseCount code).prints ≤ (parseCount code).reads ∧
      (runeError ∉ decodeAll code → (parseCount code).prints = 0) := by
  unfold parseCount
  split
  · exact ⟨Nat.zero_le _, Nat.le_refl _, fun _ => rfl⟩
  · rename_i hb
    have hcs : decodeAll code ≠ [] := by rintro h; rw [h] at hb; exact hb rfl
    have hne : code ≠ [] := by rintro rfl; exact hcs rfl
    have hr : Rel code ⟨[], .nil, 0, false⟩ (startTok (decodeAll code)) := ⟨rfl, rfl, rfl, 0, rfl, rfl⟩
    obtain ⟨s', h1, h2⟩ := run_pays hne hcs (fuel (decodeAll code).length)
      ⟨newAST (decodeAll code), ⟨[], .nil, 0, false⟩, none, [(0, {})], []⟩ (Sound.of hr)
      ⟨rfl, nofun, nofun⟩ ⟨0, chars_eq hr⟩
    refine ⟨?_, h2⟩
    have e : (⟨newAST (decodeAll code), ⟨[], .nil, 0, false⟩, none, [(0, {})], []⟩ : CfgB).cfg code = initCfg (newAST (decodeAll code)) := by
      unfold CfgB.cfg initCfg
      rw [chars_eq hr]
      rfl
    have hb := beyond_le (decodeAll code)
    have hlv : (initCfg (newAST (decodeAll code))).lval.rest = decodeAll code := rfl
    rw [e, hlv] at h1
    revert h1
    unfold potential fuel
    generalize (runCount _ _ _).reads = k
    intro h1
    omega

end Verif.Work
