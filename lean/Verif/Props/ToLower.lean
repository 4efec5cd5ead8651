import Verif.Proofs.CLower
import Verif.Spec.Bytes
/-!
# C11, C12: lower-casing
-/
namespace Verif
open List Spec ToLower

theorem utf8_eq (cs : List Char) : utf8 cs = Utf8.encode cs := by
  unfold utf8 Utf8.encode
  congr 1
  funext c
  exact (Utf8.encodeChar_eq c).symm

/-- **C11** (`/repo/ast/tokens.go:457-475`): on the bytes of any text the lower-casing gives the bytes of
the text with every character folded by the table A–Z, А–Я, Ё, and every other character unchanged. -/
theorem C11_lower (cs : List Char) : fastToLower (utf8 cs) = utf8 (cs.map lowerChar) := by
  rw [utf8_eq, utf8_eq, fastToLower_encode]
  congr 2
  funext c
  exact Lexer.lowerRune_eq c

/-- **C11**: it keeps the byte length, and position by position a character keeps its byte length. -/
theorem C11_length (cs : List Char) :
    (fastToLower (utf8 cs)).length = (utf8 cs).length ∧
    ∀ c : Char, (String.utf8EncodeChar (lowerChar c)).length = (String.utf8EncodeChar c).length := by
  have h : ∀ c : Char, (String.utf8EncodeChar (lowerChar c)).length = (String.utf8EncodeChar c).length := by
    intro c
    rw [← Utf8.encodeChar_eq, ← Utf8.encodeChar_eq, ← Lexer.lowerRune_eq]
    exact encodeChar_lower_len c
  refine ⟨?_, h⟩
  rw [C11_lower]
  unfold utf8
  induction cs with
  | nil => rfl
  | cons c cs ih => rw [map_cons, flatMap_cons, flatMap_cons, length_append, length_append, ih, h]

/-- **C11**: lower-casing twice is lower-casing once. -/
theorem C11_idempotent (cs : List Char) : fastToLower (fastToLower (utf8 cs)) = fastToLower (utf8 cs) := by
  rw [C11_lower, C11_lower, map_map]
  congr 2
  funext c
  simp only [Function.comp]
  rw [← Lexer.lowerRune_eq, ← Lexer.lowerRune_eq]
  exact lowerRune_idem c

/-- **C11**: the older implementation kept in the source (`fastToLower_old`) gives the same bytes. -/
theorem C11_old_agrees (cs : List Char) : fastToLowerOld (utf8 cs) = fastToLower (utf8 cs) := by
  rw [utf8_eq, fastToLower_encode, fastToLowerOld, Utf8.decodeAll_encode]

/-- Non-vacuity: bytes of `АЯЁZяё€` really change, and as expected. -/
example : fastToLower (utf8 "АЯЁZяё€".toList) = utf8 "аяёzяё€".toList ∧
    fastToLower (utf8 "АЯЁZяё€".toList) ≠ utf8 "АЯЁZяё€".toList := by decide +kernel

/-- On bytes that are not UTF-8 the two Go versions differ: the new one keeps an invalid byte, the old one
writes the three bytes of U+FFFD.  (The property only speaks about valid UTF-8.) -/
theorem C11_invalid_differs : ∃ bs, fastToLowerOld bs ≠ fastToLower bs := ⟨[0x80], by decide +kernel⟩

/-- **C12 is violated**: for the two-letter text `AB` the C function returns `b`, the Go function `ab`. -/
theorem C12_violated : CReturns (utf8 ['A', 'B']) (utf8 ['b']) ∧
    fastToLower (utf8 ['A', 'B']) = utf8 ['a', 'b'] ∧
    ¬ CReturns (utf8 ['A', 'B']) (fastToLower (utf8 ['A', 'B'])) := by
  refine ⟨⟨3, _, rfl, by decide +kernel⟩, by decide +kernel, ?_⟩
  rintro ⟨n, b, h, e⟩
  have h3 : cRun 3 ⟨(utf8 ['A', 'B']).takeWhile (· ≠ 0), 0⟩ = some [98, 0] := by decide +kernel
  have := cRun_fun h h3
  subst this
  revert e
  decide +kernel

/-- **C12, partial**: on every text without the capitals A–Z (and without the character NUL, where a C
string ends) the C function returns, and what it returns is exactly what the Go function returns.
Missing: texts with capitals A–Z, where the claim is false. -/
theorem C12_agrees_partial (cs : List Char) (h0 : ∀ c ∈ cs, c ≠ Char.ofNat 0)
    (hA : ∀ c ∈ cs, ¬ ('A' ≤ c ∧ c ≤ 'Z')) (out : List UInt8) :
    CReturns (utf8 cs) out ↔ out = fastToLower (utf8 cs) := by
  have h0' : ∀ c ∈ cs, c.toNat ≠ 0 := by
    intro c hc e
    exact h0 c hc (by rw [← Char.ofNat_toNat c, e])
  have hA' : ∀ c ∈ cs, ¬ (0x41 ≤ c.toNat ∧ c.toNat ≤ 0x5A) := fun c hc h => hA c hc h
  have hrun := cRun_encode [] cs h0'
  rw [nil_append, nil_append, cOut_noCaps cs hA'] at hrun
  have hout : (Utf8.encode (cs.map lowerRune)).takeWhile (· ≠ 0) = Utf8.encode (cs.map lowerRune) := by
    apply takeWhile_ne_zero
    intro c hc
    obtain ⟨d, hd, rfl⟩ := mem_map.1 hc
    exact lowerRune_ne_zero d (h0' d hd)
  rw [utf8_eq, fastToLower_encode]
  unfold CReturns
  rw [takeWhile_ne_zero cs h0']
  constructor
  · rintro ⟨n, b, h, rfl⟩
    have := cRun_fun h hrun
    rw [this, hout]
  · rintro rfl
    exact ⟨_, _, hrun, hout.symm⟩

/-- Non-vacuity of `C12_agrees_partial`. -/
example : (∀ c ∈ "ПриветЁ, abc".toList, c ≠ Char.ofNat 0) ∧
    (∀ c ∈ "ПриветЁ, abc".toList, ¬ ('A' ≤ c ∧ c ≤ 'Z')) := by decide +kernel

/-- **C12, partial**: the C function returns on the bytes of every text. -/
theorem C12_returns_partial (cs : List Char) : ∃ out, CReturns (utf8 cs) out := by
  have key : ∀ cs : List Char, ∃ ds : List Char, (∀ c ∈ ds, c.toNat ≠ 0) ∧
      (Utf8.encode cs).takeWhile (· ≠ 0) = Utf8.encode ds := by
    intro cs
    induction cs with
    | nil => exact ⟨[], by simp, rfl⟩
    | cons c cs ih =>
      obtain ⟨ds, hds, e⟩ := ih
      by_cases hc : c.toNat = 0
      · refine ⟨[], by simp, ?_⟩
        have : c = Char.ofNat 0 := by rw [← Char.ofNat_toNat c, hc]
        subst this
        rfl
      · refine ⟨c :: ds, ?_, ?_⟩
        · intro d hd
          rcases mem_cons.1 hd with rfl | hd
          · exact hc
          · exact hds d hd
        · unfold Utf8.encode at *
          rw [flatMap_cons, flatMap_cons, ← e, takeWhile_append_of_pos]
          intro b hb
          exact decide_eq_true (encodeChar_ne_zero c hc b hb)
  obtain ⟨ds, hds, e⟩ := key cs
  have hrun := cRun_encode [] ds hds
  rw [nil_append, nil_append] at hrun
  refine ⟨(cOut ds).takeWhile (· ≠ 0), ds.length + 1, cOut ds, ?_, rfl⟩
  rw [utf8_eq, e]
  exact hrun

/-- On a byte string that is not UTF-8 the C loop need not end: a continuation byte without a first byte
is never stepped over. -/
theorem C12_hangs (b : UInt8) (hb : 0x80 ≤ b.toNat ∧ b.toNat ≤ 0xBF) (rest out : List UInt8) :
    ¬ CReturns (b :: rest) out := by
  rintro ⟨n, o, h, -⟩
  have hne : b ≠ 0 := by rintro rfl; exact absurd hb.1 (by decide)
  rw [takeWhile_cons_of_pos (by simpa using hne)] at h
  have hs : ∀ r, cStep ⟨b :: r, 0⟩ = some ⟨b :: r, 0⟩ := by
    intro r
    unfold cStep
    have : cget (b :: r) 0 = b := rfl
    dsimp only
    rw [this, if_neg hne, if_neg (show ¬ b.toNat ≤ 0x7F by omega),
      if_neg (show ¬ (0xC0 ≤ b.toNat ∧ b.toNat ≤ 0xDF) by omega),
      if_neg (show ¬ (0xE0 ≤ b.toNat ∧ b.toNat ≤ 0xEF) by omega),
      if_neg (show ¬ (0xF0 ≤ b.toNat ∧ b.toNat ≤ 0xF7) by omega)]
    rfl
  induction n with
  | zero => cases h
  | succ n ih =>
    rw [cRun, hs] at h
    exact ih h

end Verif
