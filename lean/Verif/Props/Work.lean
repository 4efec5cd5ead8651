import Verif.Proofs.WorkShown
import Verif.Props.ByteParser
/-!
# C71 and C72: what Parse reads and what it writes

`parseCount` (`Verif/Work.lean`) runs the driver on the bytes as `parseB` does, with a tokeniser that counts how often it decodes a
character of the text, and how many lines it writes to standard output.  Not counted are the passes over the text outside the tokeniser:
the test for a blank text in front (`/repo/ast/ast.go:38`), and those of `GetPosition` for the place of an error
(`/repo/ast/tokens.go:370-379`), each of which reads the text up to the error once (C73).
-/
namespace Verif
open Spec Utf8 Lexer ByteLexer ByteParser Work LR
variable [Letters]

/-- The token that call `n` of `Next` starts from. -/
def beforeB (code : List UInt8) : Nat → Option TokB
  | 0 => some ⟨[], .nil, 0, false⟩
  | n + 1 => (callsB code n).map (·.1)

theorem calls_before {code : List UInt8} {n : Nat} {t : TokB} (h : beforeB code n = some t) : callsB code n = lexNextB code t := by
  cases n with
  | zero => injection h with h; subst h; rfl
  | succ n =>
    rw [callsB]
    rw [beforeB] at h
    revert h
    cases callsB code n with
    | none => nofun
    | some p => intro h; injection h with h; subst h; rfl

theorem before_rel (code : List UInt8) (n : Nat) : ∃ t, beforeB code n = some t ∧ Sound code t := by
  induction n with
  | zero => exact ⟨_, rfl, Sound.of (b := startTok (decodeAll code)) ⟨rfl, rfl, rfl, 0, rfl, rfl⟩⟩
  | succ n ih =>
    obtain ⟨t, h1, h2⟩ := ih
    obtain ⟨t', k, e, h3, h4, -⟩ := next_rel h2
    exact ⟨t', by rw [beforeB, calls_before h1, h3]; rfl, Sound.of h4⟩

omit [Letters] in
theorem same_raw {a b : RawB} {r : Raw} (h : SameRaw a r) (h' : SameRaw b r) : a = b := by
  obtain ⟨a1, a2, a3⟩ := a
  obtain ⟨b1, b2, b3⟩ := b
  obtain ⟨h1, h2⟩ := h
  obtain ⟨k1, k2⟩ := h'
  dsimp only at h1 h2 k1 k2
  revert h2 k2
  cases r.res with
  | ok k =>
    rintro ⟨rfl, rfl⟩ ⟨rfl, rfl⟩
    rw [h1, k1]
  | error e =>
    rintro ⟨rfl, h2⟩ ⟨rfl, k2⟩
    rw [h1, k1]
    rcases h2 with ⟨rfl, h2⟩ | ⟨c, rfl, -, rfl⟩
    · rcases k2 with ⟨rfl, -⟩ | ⟨c, -, -, rfl⟩
      · rfl
      · exact absurd rfl (h2 c)
    · rcases k2 with ⟨-, k2⟩ | ⟨c', rfl, -, e⟩
      · exact absurd rfl (k2 c)
      · injection e with e
        rw [e]

/-- **C71**.  The counting tokeniser is the tokeniser: started where call `n` of `Next` starts, whatever the calls before it returned, it
does not panic, and finds the token, the literal and the rest of the text that the call returns. -/
theorem C71_same (code : List UInt8) (n : Nat) :
    ∃ t t' k e, beforeB code n = some t ∧ callsB code n = some (t', k, e) ∧
      ∃ r s, nextW code t ⟨t.offset, 0, 0⟩ = some (r, s) ∧ r.tok = k ∧ r.literal = t'.literal ∧
        ∀ cs, Decodes (code.drop s.off) cs ↔ Decodes (code.drop t'.offset) cs := by
  obtain ⟨t, ht, hs⟩ := before_rel code n
  obtain ⟨o1, e1, a1⟩ := ByteLexer.runs_trivia (code := code) (chars code t).rest t.offset hs.at_
  obtain ⟨r, hr, hrun⟩ := ByteLexer.gives_scan (code := code) t.prevDot (skipTrivia (chars code t).rest)
  obtain ⟨o2, e2, a2⟩ := hrun o1 a1
  obtain ⟨r', hr', hw⟩ := gives_next (code := code) t (chars code t).rest
  obtain ⟨st, e3, a3, -⟩ := hw ⟨t.offset, 0, 0⟩ hs.at_
  obtain rfl := same_raw hr hr'
  have hn : lexNextB code t = some (⟨r.literal, (valueB r t.value).1, o2, !t.prevDot && decide (currentLetB code o1 = some '.')⟩,
      r.tok, (valueB r t.value).2) := by
    unfold lexNextB
    rw [e1]
    simp only [Option.bind_eq_bind, Option.bind_some]
    rw [e2]
    rfl
  refine ⟨t, _, _, _, ht, (calls_before ht).trans hn, r, st, e3, rfl, rfl, fun cs => ?_⟩
  rw [decodes_iff, decodes_iff, a3.dec, a2.dec]

/-- **C71**.  Reading is linear: whatever the bytes, `Parse` decodes no more characters than 530 times their number, and 544. -/
theorem C71_linear (code : List UInt8) : (parseCount code).reads ≤ 530 * code.length + 544 := by
  have h := (parse_pays code).1
  have := decodeAll_len code
  omega

/-- **C71**.  A single call of `Next` may read what it has not got past, behind a `&`, but the calls together do not: the first `n`
calls read no more than twenty times the text and seventeen characters each. -/
theorem C71_calls (code : List UInt8) (n : Nat) :
    ((List.range n).map fun i => match beforeB code i with | some t => (lexCount code t).reads | none => 0).sum ≤
      20 * code.length + 17 * n := by
  have key : ∃ t, beforeB code n = some t ∧ Sound code t ∧
      ((((List.range n).map fun i => match beforeB code i with | some t => (lexCount code t).reads | none => 0).sum : Nat) : Int) +
        potential (chars code t).rest ≤ potential (decodeAll code) + 17 * n := by
    induction n with
    | zero => exact ⟨_, rfl, Sound.of (b := startTok (decodeAll code)) ⟨rfl, rfl, rfl, 0, rfl, rfl⟩, by simp [chars]⟩
    | succ n ih =>
      obtain ⟨t, h1, h2, h3⟩ := ih
      obtain ⟨t', k, e, g1, g2, -⟩ := next_rel h2
      have hp := (lex_pays h2).1
      refine ⟨t', by rw [beforeB, calls_before h1, g1]; rfl, Sound.of g2, ?_⟩
      rw [List.range_succ, List.map_append, List.sum_append, chars_eq g2]
      simp only [List.map_cons, List.map_nil, List.sum_cons, List.sum_nil, h1]
      omega
  obtain ⟨t, -, -, h⟩ := key
  have h1 := beyond_le (decodeAll code)
  have h2 := decodeAll_len code
  unfold potential at h
  omega

/-- Non-vacuity: sixty-six characters are decoded for the seven of `Ф("�");`. -/
example : (@parseCount stdLetters (utf8 ['Ф', '(', '"', '�', '"', ')', ';'])).reads = 66 := by decide +kernel

omit [Letters] in
/-- **C72** does not hold: `Parse` accepts these bytes and writes a line to standard output.  The first text is a comment with a byte that
is not UTF-8; the second one is UTF-8, with the character U+FFFD in a string. -/
theorem C72_violated :
    (@errB stdLetters [0x2F, 0x2F, 0xFF] = some none ∧ (@parseCount stdLetters [0x2F, 0x2F, 0xFF]).prints = 1) ∧
    (@errB stdLetters (utf8 ['Ф', '(', '"', '�', '"', ')']) = some none ∧
      (@parseCount stdLetters (utf8 ['Ф', '(', '"', '�', '"', ')'])).prints = 1) := by
  refine ⟨⟨?_, by decide +kernel⟩, ?_, by decide +kernel⟩
  · rw [@errB_eq stdLetters _ (cs := ['/', '/', '�']) (by decide +kernel)]; decide +kernel
  · rw [@errB_eq stdLetters _ (cs := ['Ф', '(', '"', '�', '"', ')']) (by decide +kernel)]; decide +kernel

/-- **C72**, what is true.  `Parse` writes nothing to standard output if no character of the text is U+FFFD, so if the text is UTF-8
without this character.  In any case it writes no more than one line for each character it decodes.

Missing: nothing is written for the other texts; see `C72_violated`. -/
theorem C72_quiet_partial {code : List UInt8} {cs : List Char} (h : Decodes code cs) :
    ('�' ∉ cs → (parseCount code).prints = 0) ∧ (parseCount code).prints ≤ 530 * code.length + 544 := by
  obtain rfl := (decodes_iff _ _).1 h
  obtain ⟨-, h2, h3⟩ := parse_pays code
  exact ⟨h3, Nat.le_trans h2 (C71_linear code)⟩

/-- **C72**, exactly.  When `Parse` accepts a text it has written a line at least for every character U+FFFD in it, comments and all that
stands behind the last token included; so it has written nothing just if there is none. -/
theorem C72_lines {code : List UInt8} {cs : List Char} (h : Decodes code cs) {a : Ast} (ha : parseB code = .ret a) (he : a.err = none) :
    cs.count '�' ≤ (parseCount code).prints ∧ ((parseCount code).prints = 0 ↔ '�' ∉ cs) := by
  have hq := (C72_quiet_partial h).1
  have hp := ((C60_parse h).1 a).1 ha
  obtain rfl := (decodes_iff _ _).1 h
  have hs : (decodeAll code).count '�' ≤ (parseCount code).prints := Shown.parse_shows hp he
  refine ⟨hs, fun h0 hm => ?_, hq⟩
  have := List.count_pos_iff.2 hm
  omega

/-- Non-vacuity: U+FFFD twice in a comment behind the last token, in an accepted text. -/
example : @errB stdLetters [0xD0, 0xA4, 0x28, 0x29, 0x2F, 0x2F, 0xFF, 0x20, 0xFE] = some none ∧
    (@parseCount stdLetters [0xD0, 0xA4, 0x28, 0x29, 0x2F, 0x2F, 0xFF, 0x20, 0xFE]).prints = 2 := by
  refine ⟨?_, by decide +kernel⟩
  rw [@errB_eq stdLetters _ (cs := ['Ф', '(', ')', '/', '/', '�', ' ', '�']) (by decide +kernel)]; decide +kernel

/-- Non-vacuity: a text that is UTF-8, with characters of two bytes. -/
example : Decodes (utf8 ['Ф', '(', ')']) ['Ф', '(', ')'] ∧ '�' ∉ ['Ф', '(', ')'] ∧
    (@parseCount stdLetters (utf8 ['Ф', '(', ')'])).prints = 0 ∧ 0 < (@parseCount stdLetters (utf8 ['Ф', '(', ')'])).reads :=
  ⟨(C13_decodes_unique _).2 _ rfl, by decide, by decide +kernel, by decide +kernel⟩

end Verif
