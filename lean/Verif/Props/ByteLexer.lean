import Verif.Proofs.ByteLexer
import Verif.StdLetters
/-!
# C13: the tokeniser on bytes returns the tokens of the characters
-/
namespace Verif
open List Spec Utf8 Lexer ByteLexer

/-- The results of calls `0..n` of `Next` on the bytes `code`, from a fresh token; `none` if a call panics. -/
def callsB [Letters] (code : List UInt8) : Nat → Option (TokB × Option Nat × Option LexErr)
  | 0 => lexNextB code ⟨[], .nil, 0, false⟩
  | n + 1 => (callsB code n).bind fun p => lexNextB code p.1

/-- The same on characters. -/
def calls [Letters] (cs : List Char) : Nat → Tok × Except LexErr (Option Nat)
  | 0 => lexNext (startTok cs)
  | n + 1 => lexNext (calls cs n).1

/-- **C13** (`/repo/ast/tokens.go:90-401`).  Let `code` be any byte string, `cs` its characters.  Call `n` of `Next` on the bytes,
whatever the calls before it returned, does not panic, and returns what the model on characters returns: the same token number (`none`
is EOF) or the same error; the value is the same; the literal is the UTF-8 form of its literal; the offset lies between two characters,
behind it are exactly the characters the model has not read yet; and `GetPosition` is the line and column the model computes. -/
theorem C13_next [Letters] {code : List UInt8} {cs : List Char} (h : Decodes code cs) (n : Nat) :
    ∃ a k e, callsB code n = some (a, k, e) ∧
      (match (calls cs n).2 with
        | .ok k' => e = none ∧ k = k'
        | .error e' => e = some e') ∧
      a.value = (calls cs n).1.value ∧ a.literal = utf8 (calls cs n).1.literal ∧ a.offset ≤ code.length ∧
      (∃ pre, cs = pre ++ (calls cs n).1.rest ∧ Decodes (code.take a.offset) pre) ∧
      Decodes (code.drop a.offset) (calls cs n).1.rest ∧
      getPositionB code a.offset = some (getPosition cs (calls cs n).1.rest) := by
  obtain rfl := (decodes_iff _ _).1 h
  clear h
  have key : ∃ a k e, callsB code n = some (a, k, e) ∧ Rel code a (calls (decodeAll code) n).1 ∧
      match (calls (decodeAll code) n).2 with
        | .ok k' => e = none ∧ k = k'
        | .error e' => e = some e' := by
    induction n with
    | zero =>
      exact next_rel (code := code) (a := ⟨[], .nil, 0, false⟩) (b := startTok (decodeAll code)) ⟨rfl, rfl, rfl, 0, rfl, rfl⟩
    | succ n ih =>
      obtain ⟨a, k, e, h1, h2, -⟩ := ih
      obtain ⟨a', k', e', g1, g2⟩ := next_rel h2
      exact ⟨a', k', e', by rw [callsB, h1]; exact g1, g2⟩
  obtain ⟨a, k, e, h1, ⟨h3, h4, -, h5⟩, h2⟩ := key
  refine ⟨a, k, e, h1, h2, h4, by rw [h3, encode_utf8], h5.le, ?_, (decodes_iff _ _).2 h5.dec, position h5⟩
  obtain ⟨i, hi, hr⟩ := h5
  exact ⟨(decodeAll code).take i, by rw [hr, take_append_drop], (decodes_iff _ _).2 (by rw [hi, bnd_take])⟩

/-- Non-vacuity: the second call on the bytes of `Если⏎ x1` reads `x1`, ends at offset 12, in line 2, behind column 3. -/
example : @callsB stdLetters (utf8 "Если\n x1".toList) 1 = some (⟨[0x78, 0x31], .nil, 12, false⟩, some tIdent, none) ∧
    getPositionB (utf8 "Если\n x1".toList) 12 = some (2, 4) ∧
    (@calls stdLetters "Если\n x1".toList 0).2 = .ok (some tIf) := by
  refine ⟨by decide +kernel, by decide +kernel, by decide +kernel⟩

/-- Non-vacuity: a stray continuation byte is an error, not a panic. -/
example : @callsB stdLetters [0x61, 0x80] 1 = some (⟨utf8 ['�'], .nil, 2, false⟩, some 0xFFFD, some (.badChar '�')) := by
  decide +kernel

/-- A private-use character whose number is that of `Истина`: an error, although the value is set. -/
example : @callsB stdLetters (utf8 [Char.ofNat 57384]) 0 =
    some (⟨utf8 [Char.ofNat 57384], .bool true, 3, false⟩, some tTrue, some (.badChar (Char.ofNat 57384))) := by
  decide +kernel

end Verif
