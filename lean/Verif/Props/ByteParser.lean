import Verif.Proofs.ByteParser
import Verif.Props.ByteLexer
import Verif.Props.Bytes
import Verif.Props.Parse
/-!
# C60: Parse on arbitrary bytes

`Decodes` is in `Spec/Utf8.lean`: the characters of a byte string, U+FFFD for each byte that is not part of a UTF-8 sequence.
-/
namespace Verif
open Spec Utf8 Lexer ByteLexer ByteParser LR
variable [Letters]

/-- **C60**.  Whatever bytes `Parse` is called on, UTF-8 or not, it does what the model on their characters does: it returns with the same
tree and the same error, or panics in the same way; it always comes to an end. -/
theorem C60_parse {code : List UInt8} {cs : List Char} (h : Decodes code cs) :
    (∀ a, parseB code = .ret a ↔ parse (newAST cs) = .ret a) ∧
    (∀ p, parseB code = .panic p ↔ ∃ q, p = .of q ∧ parse (newAST cs) = .panic q) ∧ parseB code ≠ .loops := by
  obtain rfl := (decodes_iff _ _).1 h
  rw [parse_match]
  have hl := C14_terminates (newAST (decodeAll code))
  generalize parse (newAST (decodeAll code)) = o at hl
  cases o with
  | ret a =>
    refine ⟨fun b => ⟨?_, ?_⟩, fun p => ⟨nofun, ?_⟩, nofun⟩
    · intro h; injection h with h; rw [h]
    · intro h; injection h with h; rw [h]; rfl
    · rintro ⟨q, -, h⟩; cases h
  | panic q =>
    refine ⟨fun b => ⟨nofun, nofun⟩, fun p => ⟨?_, ?_⟩, nofun⟩
    · intro h; injection h with h; exact ⟨q, h.symm, rfl⟩
    · rintro ⟨q', rfl, h⟩; injection h with h; rw [h]; rfl
  | loops => exact absurd rfl hl

/-- **C60**.  No slice expression of the tokeniser is out of range during `Parse`. -/
theorem C60_no_slice (code : List UInt8) : parseB code ≠ .panic .slice := by
  intro h
  obtain ⟨q, h, -⟩ := ((C60_parse ((decodes_iff _ _).2 (rfl : decodeAll code = _))).2.1 _).1 h
  cases h

/-- **C60**.  Bytes that are not UTF-8 are read as U+FFFD: byte strings with the same characters have the same outcome.  In particular
the outcome does not change when the source is replaced by its characters written out in UTF-8. -/
theorem C60_same {code : List UInt8} {cs : List Char} (h : Decodes code cs) :
    (∀ code', Decodes code' cs → parseB code' = parseB code) ∧ parseB (utf8 cs) = parseB code := by
  have key : ∀ code', Decodes code' cs → parseB code' = parseB code := by
    intro code' h'
    rw [parse_match, parse_match, (decodes_iff _ _).1 h, (decodes_iff _ _).1 h']
  exact ⟨key, key _ ((C13_decodes_unique (utf8 cs)).2 cs rfl)⟩

theorem calls_eq (cs : List Char) (n : Nat) : calls cs n = lexNext (afterCalls n (startTok cs)) := by
  induction n with
  | zero => rfl
  | succ n ih => rw [calls, ih, afterCalls_succ]

/-- **C60**.  The place an error names is one `GetPosition` computes from the bytes: some call of `Next` returned a token with the
literal named, and the line is that of its end, the column that of its end less the characters of the literal and one. -/
theorem C60_position {code : List UInt8} {a : Ast} (h : parseB code = .ret a) {m : Msg} {line col : Int} {lit : List Char}
    (he : a.err = some (.at m line col lit)) :
    ∃ n t k, callsB code n = some (t, some k, none) ∧ t.literal = utf8 lit ∧
      getPositionB code t.offset = some (line, col + (lit.length + 1)) := by
  have hd : Decodes code (decodeAll code) := (decodes_iff _ _).2 rfl
  have hp := ((C60_parse hd).1 a).1 h
  have hb : (newAST (decodeAll code)).code.all isUnicodeSpace = false := by
    cases hb : (newAST (decodeAll code)).code.all isUnicodeSpace with
    | false => rfl
    | true =>
      unfold parse at hp
      rw [if_pos hb] at hp
      injection hp with hp
      subst hp
      cases he
  obtain ⟨k', hr⟩ := parse_run hb hp
  have hpos := run_pos (code := decodeAll code) (not_blank hb) _ (initCfg (newAST (decodeAll code)))
    ⟨rfl, (by intro t h; cases h), (by intro m l c lit h; cases h)⟩ ⟨0, rfl⟩ hr
  obtain ⟨t, k, ⟨n, hn⟩, rfl, rfl, rfl⟩ := hpos.err _ _ _ _ he
  obtain ⟨b, j, e, h1, h2, -, h3, -, -, -, h4⟩ := C13_next hd n
  rw [calls_eq, hn] at h2 h3 h4
  obtain ⟨rfl, rfl⟩ := h2
  refine ⟨n, b, k, h1, h3, ?_⟩
  rw [h4, sub_add_cancel]

/-- The error `Parse` returns, `none` if it panics. -/
def errB (code : List UInt8) : Option (Option Err) :=
  match parseB code with
  | .ret a => some a.err
  | _ => none

theorem errB_eq {code : List UInt8} {cs : List Char} (h : decodeAll code = cs) :
    errB code = match parse (newAST cs) with
      | .ret a => some a.err
      | _ => none := by
  subst h
  unfold errB
  rw [parse_match]
  cases parse (newAST (decodeAll code)) <;> rfl

/-- Non-vacuity: `я=1` with a stray byte behind it; `я= =` ; the empty string. -/
example : @errB stdLetters [0xD1, 0x8F, 0x3D, 0x31, 0x80] = some (some (.lex (.badChar '�'))) ∧
    @errB stdLetters [0xD1, 0x8F, 0x3D, 0x20, 0x3D] = some (some (.at .syntaxError 1 3 ['='])) ∧ @errB stdLetters [] = some none := by
  refine ⟨?_, ?_, ?_⟩
  · rw [@errB_eq stdLetters _ (cs := ['я', '=', '1', '�']) (by decide +kernel)]; decide +kernel
  · rw [@errB_eq stdLetters _ (cs := ['я', '=', ' ', '=']) (by decide +kernel)]; decide +kernel
  · rw [@errB_eq stdLetters _ (cs := []) rfl]; decide +kernel

/-- A character whose code is the number of the token `Number` is refused with the error of `strconv.ParseFloat`. -/
example : @errB stdLetters (utf8 ['я', '=', '1', Char.ofNat 0xE01B]) = some (some (.lex .badNumber)) := by
  rw [@errB_eq stdLetters _ (cs := ['я', '=', '1', Char.ofNat 0xE01B]) (by decide +kernel)]; decide +kernel

end Verif
