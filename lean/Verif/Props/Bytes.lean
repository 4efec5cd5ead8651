import Verif.Proofs.Bytes
/-!
# C13: bytes and characters agree
-/
namespace Verif
open List Spec Utf8

/-- The byte offset after `n` calls of `nextPos`, starting at offset 0; `none` if one of them panics. -/
def offsetAfter (code : List UInt8) : Nat → Option Nat
  | 0 => some 0
  | n + 1 => (offsetAfter code n).bind (nextPosB code)

/-- **C13** (`/repo/ast/tokens.go:345-385`).  Let `cs` be the characters of an arbitrary byte string
`code`.  However often the tokeniser has stepped forward, no slice expression has panicked; the offset `o`
lies inside the string and between two characters: the bytes before it are the characters read so far and
the bytes from it on are the remaining ones.  The current and the next letter are the next two of them
(`none` is EOF), and reading them does not panic either. -/
theorem C13_bytes_and_characters {code : List UInt8} {cs : List Char} (h : Decodes code cs) (n : Nat) :
    ∃ o, offsetAfter code n = some o ∧ o ≤ code.length ∧
      Decodes (code.take o) (cs.take n) ∧ Decodes (code.drop o) (cs.drop n) ∧
      currentLetB code o = cs[n]? ∧ nextLetB code o = some cs[n + 1]? := by
  rw [decodes_iff] at h
  have key : offsetAfter code n = some (bnd n code) := by
    clear h
    have aux : ∀ n, bnd (n + 1) code = bnd n code + (decodeRune (code.drop (bnd n code))).2 := by
      intro n
      induction n generalizing code with
      | zero => simp [bnd]
      | succ n ih => rw [bnd, ih, bnd, drop_drop]; omega
    induction n with
    | zero => rfl
    | succ n ih =>
      rw [offsetAfter, ih]
      show nextPosB code (bnd n code) = _
      unfold nextPosB
      rw [if_neg (by have := bnd_le n code; omega), aux]
  have hd := bnd_drop n code
  have ht := bnd_take n code
  rw [h] at hd ht
  refine ⟨_, key, bnd_le n code, ?_, ?_, ?_, ?_⟩
  · rw [decodes_iff]; exact ht
  · rw [decodes_iff]; exact hd
  · rw [currentLetB_eq, hd, head?_drop]
  · rw [nextLetB_eq _ _ (bnd_le n code), hd, tail_drop, head?_drop]

/-- **C13**: every byte string has exactly one sequence of characters, the one the model's
`for _, r := range s` computes; for the bytes of a text it is that text. -/
theorem C13_decodes_unique (code : List UInt8) :
    (∀ cs, Decodes code cs ↔ cs = decodeAll code) ∧ ∀ cs, code = utf8 cs → Decodes code cs := by
  refine ⟨fun cs => by rw [decodes_iff]; exact eq_comm, ?_⟩
  rintro cs rfl
  rw [decodes_iff, ← decodeAll_encode cs]
  congr 1
  rw [decodeAll_encode]
  unfold utf8 encode
  congr 1
  funext c
  exact (encodeChar_eq c).symm

/-- Non-vacuity: "я", a stray continuation byte, a truncated three-byte character, "a". -/
example : Decodes [0xD1, 0x8F, 0x80, 0xE2, 0x82, 0x61] ['я', '�', '�', '�', 'a'] := by
  rw [decodes_iff]; decide +kernel

end Verif
