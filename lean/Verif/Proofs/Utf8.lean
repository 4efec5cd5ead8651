import Verif.ToLower
import Verif.Proofs.LexWord
/-! UTF-8 decoding and encoding are inverse. -/
namespace Verif.Utf8
open List

theorem char_valid (c : Char) : c.toNat < 0xD800 ∨ (0xDFFF < c.toNat ∧ c.toNat < 0x110000) := c.valid

theorem encodeChar_eq (c : Char) : encodeChar c = String.utf8EncodeChar c := by
  have hv := char_valid c
  have hn : c.val.toNat = c.toNat := rfl
  unfold encodeChar String.utf8EncodeChar
  dsimp only
  rw [hn]
  generalize c.toNat = n at *
  by_cases h1 : n < 0x80
  · rw [if_pos h1, if_pos (show n ≤ 127 by omega)]
  rw [if_neg h1, if_neg (show ¬ n ≤ 127 by omega)]
  by_cases h2 : n < 0x800
  · rw [if_pos h2, if_pos (show n ≤ 2047 by omega), show 192 + n / 64 = n / 64 % 32 + 192 by omega,
      show 128 + n % 64 = n % 64 + 128 by omega]
  rw [if_neg h2, if_neg (show ¬ n ≤ 2047 by omega)]
  by_cases h3 : n < 0x10000
  · rw [if_pos h3, if_pos (show n ≤ 65535 by omega), show 224 + n / 4096 = n / 4096 % 16 + 224 by omega,
      show 128 + n / 64 % 64 = n / 64 % 64 + 128 by omega, show 128 + n % 64 = n % 64 + 128 by omega]
  · rw [if_neg h3, if_neg (show ¬ n ≤ 65535 by omega), show 240 + n / 262144 = n / 262144 % 8 + 240 by omega,
      show 128 + n / 4096 % 64 = n / 4096 % 64 + 128 by omega,
      show 128 + n / 64 % 64 = n / 64 % 64 + 128 by omega, show 128 + n % 64 = n % 64 + 128 by omega]

theorem ofNat_of {n : Nat} {c : Char} (h : n = c.toNat) : Char.ofNat n = c := by
  rw [h, Char.ofNat_toNat]

/-- Decoding an encoded character. -/
theorem decodeRune_encode (c : Char) (r : List UInt8) :
    decodeRune (encodeChar c ++ r) = (c, (encodeChar c).length) := by
  have hv := char_valid c
  unfold encodeChar
  dsimp only
  by_cases h1 : c.toNat < 0x80
  · rw [if_pos h1]
    unfold decodeRune
    simp only [cons_append, nil_append, UInt8.toNat_ofNat', length_cons, length_nil]
    rw [if_pos (by omega), ofNat_of (c := c) (by omega)]
  rw [if_neg h1]
  by_cases h2 : c.toNat < 0x800
  · rw [if_pos h2]
    unfold decodeRune isCont
    simp only [cons_append, nil_append, UInt8.toNat_ofNat', length_cons, length_nil]
    rw [if_neg (by omega), if_neg (by omega), if_pos (by omega), if_pos, ofNat_of (c := c) (by omega)]
    simp only [Bool.and_eq_true, decide_eq_true_eq]; omega
  rw [if_neg h2]
  by_cases h3 : c.toNat < 0x10000
  · rw [if_pos h3]
    unfold decodeRune isCont accept2
    simp only [cons_append, nil_append, UInt8.toNat_ofNat', length_cons, length_nil]
    rw [if_neg (by omega), if_neg (by omega), if_neg (by omega), if_pos (by omega), if_pos, ofNat_of (c := c) (by omega)]
    simp only [Bool.and_eq_true, decide_eq_true_eq]
    refine ⟨⟨?_, ?_⟩, ?_, ?_⟩
    · split
      · omega
      · split <;> omega
    · split
      · omega
      · split <;> omega
    · omega
    · omega
  · rw [if_neg h3]
    unfold decodeRune isCont accept2
    simp only [cons_append, nil_append, UInt8.toNat_ofNat', length_cons, length_nil]
    rw [if_neg (by omega), if_neg (by omega), if_neg (by omega), if_neg (by omega), if_pos (by omega), if_pos,
      ofNat_of (c := c) (by omega)]
    simp only [Bool.and_eq_true, decide_eq_true_eq]
    refine ⟨⟨⟨?_, ?_⟩, ?_, ?_⟩, ?_, ?_⟩
    · split
      · omega
      · split <;> omega
    · split
      · omega
      · split <;> omega
    · omega
    · omega
    · omega
    · omega

theorem encodeChar_ne_nil (c : Char) : encodeChar c ≠ [] := by
  unfold encodeChar
  dsimp only
  split
  · simp
  · split
    · simp
    · split <;> simp

theorem decodeFrom_drop (k : Nat) (bs : List UInt8) : decodeFrom k bs = decodeFrom 0 (bs.drop k) := by
  induction k generalizing bs with
  | zero => rfl
  | succ k ih =>
    cases bs with
    | nil => simp [decodeFrom]
    | cons b r => rw [decodeFrom, ih, drop_succ_cons]

theorem decodeAll_cons (b : UInt8) (r : List UInt8) :
    decodeAll (b :: r) = (decodeRune (b :: r)).1 :: decodeAll (r.drop ((decodeRune (b :: r)).2 - 1)) := by
  unfold decodeAll
  rw [decodeFrom, decodeFrom_drop]

theorem decodeAll_encodeChar (c : Char) (r : List UInt8) : decodeAll (encodeChar c ++ r) = c :: decodeAll r := by
  have h := decodeRune_encode c r
  cases he : encodeChar c with
  | nil => exact absurd he (encodeChar_ne_nil c)
  | cons b e =>
    rw [he] at h
    rw [cons_append] at h ⊢
    rw [decodeAll_cons, h]
    simp

theorem decodeAll_encode (cs : List Char) : decodeAll (encode cs) = cs := by
  induction cs with
  | nil => rfl
  | cons c cs ih =>
    unfold encode at *
    rw [flatMap_cons, decodeAll_encodeChar, ih]

theorem isCont_iff (b : UInt8) : isCont b = true ↔ 0x80 ≤ b.toNat ∧ b.toNat ≤ 0xBF := by
  simp [isCont]

theorem uint8_of {b : UInt8} {n : Nat} (h : n = b.toNat) : UInt8.ofNat n = b := by
  rw [h]; exact UInt8.ofNat_toNat

theorem toNat_ofNat_valid {n : Nat} (h : n < 0xD800 ∨ (0xDFFF < n ∧ n < 0x110000)) : (Char.ofNat n).toNat = n := by
  unfold Char.ofNat
  rw [dif_pos h]
  rfl

/-- What `decodeRune` returns on a non-empty string: either a whole encoded character, or U+FFFD for one
undecodable byte. -/
theorem decodeRune_cases (b : UInt8) (r : List UInt8) :
    (∃ c r', b :: r = encodeChar c ++ r' ∧ decodeRune (b :: r) = (c, (encodeChar c).length)) ∨
    decodeRune (b :: r) = (runeError, 1) := by
  have hb := b.toNat_lt
  unfold decodeRune
  dsimp only
  by_cases h1 : b.toNat < 0x80
  · rw [if_pos h1]
    refine .inl ⟨Char.ofNat b.toNat, r, ?_⟩
    have e : (Char.ofNat b.toNat).toNat = b.toNat := toNat_ofNat_valid (by omega)
    unfold encodeChar
    dsimp only
    rw [e, if_pos h1]
    simp
  rw [if_neg h1]
  by_cases h2 : b.toNat < 0xC2
  · rw [if_pos h2]; exact .inr rfl
  rw [if_neg h2]
  by_cases h3 : b.toNat < 0xE0
  · rw [if_pos h3]
    cases r with
    | nil => exact .inr rfl
    | cons b1 r =>
      dsimp only
      by_cases hc : isCont b1 = true
      · rw [if_pos hc]
        rw [isCont_iff] at hc
        refine .inl ⟨Char.ofNat (b.toNat % 0x20 * 0x40 + b1.toNat % 0x40), r, ?_⟩
        have e : (Char.ofNat (b.toNat % 0x20 * 0x40 + b1.toNat % 0x40)).toNat = b.toNat % 0x20 * 0x40 + b1.toNat % 0x40 :=
          toNat_ofNat_valid (by omega)
        unfold encodeChar
        dsimp only
        rw [e, if_neg (by omega), if_pos (by omega)]
        refine ⟨?_, rfl⟩
        rw [uint8_of (b := b) (by omega), uint8_of (b := b1) (by omega)]
        rfl
      · rw [if_neg hc]; exact .inr rfl
  rw [if_neg h3]
  by_cases h4 : b.toNat < 0xF0
  · rw [if_pos h4]
    rcases r with _ | ⟨b1, _ | ⟨b2, r⟩⟩
    · exact .inr rfl
    · exact .inr rfl
    · dsimp only
      by_cases hc : (accept2 b b1 && isCont b2) = true
      · rw [if_pos hc]
        rw [Bool.and_eq_true, isCont_iff] at hc
        obtain ⟨ha, hc⟩ := hc
        unfold accept2 at ha
        simp only [Bool.and_eq_true, decide_eq_true_eq] at ha
        obtain ⟨ha1, ha2⟩ := ha
        have ha1' : 0x80 ≤ b1.toNat ∧ (b.toNat = 0xE0 → 0xA0 ≤ b1.toNat) := by
          split at ha1
          · omega
          · split at ha1 <;> omega
        have ha2' : b1.toNat ≤ 0xBF ∧ (b.toNat = 0xED → b1.toNat ≤ 0x9F) := by
          split at ha2
          · omega
          · split at ha2 <;> omega
        refine .inl ⟨Char.ofNat (b.toNat % 0x10 * 0x1000 + b1.toNat % 0x40 * 0x40 + b2.toNat % 0x40), r, ?_⟩
        have e : (Char.ofNat (b.toNat % 0x10 * 0x1000 + b1.toNat % 0x40 * 0x40 + b2.toNat % 0x40)).toNat =
            b.toNat % 0x10 * 0x1000 + b1.toNat % 0x40 * 0x40 + b2.toNat % 0x40 :=
          toNat_ofNat_valid (by omega)
        unfold encodeChar
        dsimp only
        rw [e, if_neg (by omega), if_neg (by omega), if_pos (by omega)]
        refine ⟨?_, rfl⟩
        rw [uint8_of (b := b) (by omega), uint8_of (b := b1) (by omega), uint8_of (b := b2) (by omega)]
        rfl
      · rw [if_neg hc]; exact .inr rfl
  rw [if_neg h4]
  by_cases h5 : b.toNat < 0xF5
  · rw [if_pos h5]
    rcases r with _ | ⟨b1, _ | ⟨b2, _ | ⟨b3, r⟩⟩⟩
    · exact .inr rfl
    · exact .inr rfl
    · exact .inr rfl
    · dsimp only
      by_cases hc : (accept2 b b1 && isCont b2 && isCont b3) = true
      · rw [if_pos hc]
        rw [Bool.and_eq_true, Bool.and_eq_true, isCont_iff, isCont_iff] at hc
        obtain ⟨⟨ha, hc⟩, hc'⟩ := hc
        unfold accept2 at ha
        simp only [Bool.and_eq_true, decide_eq_true_eq] at ha
        obtain ⟨ha1, ha2⟩ := ha
        have ha1' : 0x80 ≤ b1.toNat ∧ (b.toNat = 0xF0 → 0x90 ≤ b1.toNat) := by
          split at ha1
          · omega
          · split at ha1 <;> omega
        have ha2' : b1.toNat ≤ 0xBF ∧ (b.toNat = 0xF4 → b1.toNat ≤ 0x8F) := by
          split at ha2
          · omega
          · split at ha2 <;> omega
        refine .inl ⟨Char.ofNat (b.toNat % 0x08 * 0x40000 + b1.toNat % 0x40 * 0x1000 + b2.toNat % 0x40 * 0x40 + b3.toNat % 0x40), r, ?_⟩
        have e : (Char.ofNat (b.toNat % 0x08 * 0x40000 + b1.toNat % 0x40 * 0x1000 + b2.toNat % 0x40 * 0x40 + b3.toNat % 0x40)).toNat =
            b.toNat % 0x08 * 0x40000 + b1.toNat % 0x40 * 0x1000 + b2.toNat % 0x40 * 0x40 + b3.toNat % 0x40 :=
          toNat_ofNat_valid (by omega)
        unfold encodeChar
        dsimp only
        rw [e, if_neg (by omega), if_neg (by omega), if_neg (by omega)]
        refine ⟨?_, rfl⟩
        rw [uint8_of (b := b) (by omega), uint8_of (b := b1) (by omega), uint8_of (b := b2) (by omega),
          uint8_of (b := b3) (by omega)]
        rfl
      · rw [if_neg hc]; exact .inr rfl
  · rw [if_neg h5]; exact .inr rfl

theorem encodeChar_len (c : Char) : 1 ≤ (encodeChar c).length := by
  cases h : encodeChar c with
  | nil => exact absurd h (encodeChar_ne_nil c)
  | cons _ _ => simp

end Verif.Utf8

namespace Verif.ToLower
open Utf8 List Spec

theorem fastToLowerFrom_skip (e r : List UInt8) : fastToLowerFrom e.length (e ++ r) = e ++ fastToLowerFrom 0 r := by
  induction e with
  | nil => rfl
  | cons b e ih => rw [length_cons, cons_append, fastToLowerFrom, ih, cons_append]

theorem fastToLowerFrom_copy (b : UInt8) (r : List UInt8) (n : Nat) (hn : (decodeRune (b :: r)).1.toNat = n)
    (hA : ¬ (0x41 ≤ n ∧ n ≤ 0x5A)) (hR : ¬ (0x410 ≤ n ∧ n ≤ 0x42F)) (hE : n ≠ 0x401) :
    fastToLowerFrom 0 (b :: r) = b :: fastToLowerFrom ((decodeRune (b :: r)).2 - 1) r := by
  subst hn
  rw [fastToLowerFrom.eq_def]
  dsimp only
  rw [if_neg hA, if_neg hR, if_neg hE]

theorem rus_bytes : ∀ n : Nat, n < 32 →
    encodeChar (Char.ofNat (0x410 + n)) = [208, UInt8.ofNat (0x90 + n)] ∧
    encodeChar (Char.ofNat (0x430 + n)) =
      (if 0x41F < 0x410 + n then [209, UInt8.ofNat (0x90 + n) - 32] else [208, UInt8.ofNat (0x90 + n) + 32]) := by
  decide +kernel

theorem ascii_bytes : ∀ n : Nat, n < 26 →
    encodeChar (Char.ofNat (0x41 + n)) = [UInt8.ofNat (0x41 + n)] ∧
    encodeChar (Char.ofNat (0x61 + n)) = [UInt8.ofNat (0x41 + n) + 32] := by
  decide +kernel

theorem fastToLower_char (c : Char) (r : List UInt8) :
    fastToLowerFrom 0 (encodeChar c ++ r) = encodeChar (lowerRune c) ++ fastToLowerFrom 0 r := by
  have hdec := decodeRune_encode c r
  by_cases hA : 0x41 ≤ c.toNat ∧ c.toNat ≤ 0x5A
  · obtain ⟨h1, h2⟩ := ascii_bytes (c.toNat - 0x41) (by omega)
    rw [show 0x41 + (c.toNat - 0x41) = c.toNat by omega, Char.ofNat_toNat] at h1
    rw [show 0x61 + (c.toNat - 0x41) = c.toNat + 0x20 by omega, show 0x41 + (c.toNat - 0x41) = c.toNat by omega] at h2
    have hl : lowerRune c = Char.ofNat (c.toNat + 0x20) := by
      unfold lowerRune; dsimp only; rw [if_pos (.inr hA)]
    rw [hl, h2]
    rw [h1] at hdec ⊢
    rw [cons_append, nil_append] at hdec ⊢
    rw [fastToLowerFrom.eq_def]
    dsimp only
    rw [hdec]
    dsimp only
    rw [if_pos hA]
    rfl
  by_cases hR : 0x410 ≤ c.toNat ∧ c.toNat ≤ 0x42F
  · obtain ⟨h1, h2⟩ := rus_bytes (c.toNat - 0x410) (by omega)
    rw [show 0x410 + (c.toNat - 0x410) = c.toNat by omega, Char.ofNat_toNat] at h1
    rw [show 0x430 + (c.toNat - 0x410) = c.toNat + 0x20 by omega, show 0x410 + (c.toNat - 0x410) = c.toNat by omega] at h2
    have hl : lowerRune c = Char.ofNat (c.toNat + 0x20) := by
      unfold lowerRune; dsimp only; rw [if_pos (.inl hR)]
    rw [hl, h2]
    rw [h1] at hdec ⊢
    simp only [cons_append, nil_append] at hdec ⊢
    rw [fastToLowerFrom, hdec]
    dsimp only
    rw [if_neg hA, if_pos hR]
    by_cases hp : 0x41F < c.toNat
    · rw [if_pos ⟨rfl, hp⟩, if_pos hp]; rfl
    · rw [if_neg (fun h => hp h.2), if_neg hp]; rfl
  have hnl : ¬ ((0x410 ≤ c.toNat ∧ c.toNat ≤ 0x42F) ∨ (0x41 ≤ c.toNat ∧ c.toNat ≤ 0x5A)) := by omega
  by_cases hE : c.toNat = 0x401
  · have hc : c = 'Ё' := by rw [← Char.ofNat_toNat c, hE]
    subst hc
    have e1 : encodeChar 'Ё' = [208, 129] := by decide +kernel
    have e2 : encodeChar (lowerRune 'Ё') = [209, 145] := by decide +kernel
    rw [e2]
    rw [e1] at hdec ⊢
    simp only [cons_append, nil_append] at hdec ⊢
    rw [fastToLowerFrom, hdec]
    rfl
  · have hl : lowerRune c = c := by
      unfold lowerRune; dsimp only; rw [if_neg hnl, if_neg hE]
    rw [hl]
    cases he : encodeChar c with
    | nil => exact absurd he (encodeChar_ne_nil c)
    | cons b e =>
      rw [he] at hdec
      rw [cons_append] at hdec ⊢
      rw [fastToLowerFrom_copy b (e ++ r) c.toNat (by rw [hdec]) hA hR hE, hdec]
      dsimp only
      rw [length_cons, Nat.add_sub_cancel, fastToLowerFrom_skip]
      rfl

theorem fastToLower_encode (cs : List Char) : fastToLower (encode cs) = encode (cs.map lowerRune) := by
  unfold fastToLower encode
  induction cs with
  | nil => rfl
  | cons c cs ih => rw [flatMap_cons, fastToLower_char, ih, map_cons, flatMap_cons]

theorem encodeChar_lower_len (c : Char) : (encodeChar (lowerRune c)).length = (encodeChar c).length := by
  by_cases h : c.toNat < 0x460
  · exact Lexer.forall_char_lt (p := fun c => (encodeChar (lowerRune c)).length = (encodeChar c).length) 0x460
      (by decide +kernel) c h
  · have : lowerRune c = c := by
      unfold lowerRune; dsimp only; rw [if_neg (by omega), if_neg (by omega)]
    rw [this]

theorem lowerRune_idem (c : Char) : lowerRune (lowerRune c) = lowerRune c := by
  by_cases h : c.toNat < 0x460
  · exact Lexer.forall_char_lt (p := fun c => lowerRune (lowerRune c) = lowerRune c) 0x460
      (by decide +kernel) c h
  · have : lowerRune c = c := by
      unfold lowerRune; dsimp only; rw [if_neg (by omega), if_neg (by omega)]
    rw [this, this]

end Verif.ToLower
