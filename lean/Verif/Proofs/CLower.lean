import Verif.Proofs.Utf8
/-! The C loop on the bytes of a text. -/
namespace Verif.ToLower
open Utf8 List Spec

/-- The bytes the C loop writes for one character, when the bytes `next` follow. -/
def cWrites (c : Char) (next : List UInt8) : List UInt8 :=
  if 0x41 ≤ c.toNat ∧ c.toNat ≤ 0x5A then [cTolower (next.headD 0)] else encodeChar (lowerRune c)

theorem cget_append (d e : List UInt8) (k : Nat) : cget (d ++ e) (d.length + k) = e.getD k 0 := by
  unfold cget
  rw [getD_eq_getElem?_getD, getElem?_append_right (by omega), getD_eq_getElem?_getD]
  congr 2; omega

theorem set_append_len (d : List UInt8) (b x : UInt8) (r : List UInt8) (k : Nat) (hk : k = d.length) :
    (d ++ b :: r).set k x = d ++ x :: r := by
  subst hk
  rw [set_append]; simp

theorem cStep_char (d : List UInt8) (c : Char) (r : List UInt8) (h0 : c.toNat ≠ 0) :
    cStep ⟨d ++ (encodeChar c ++ r), d.length⟩ =
      some ⟨d ++ (cWrites c r ++ r), (d ++ cWrites c r).length⟩ := by
  have hv := char_valid c
  have g0 := cget_append d (encodeChar c ++ r) 0
  have g1 := cget_append d (encodeChar c ++ r) 1
  have g2 := cget_append d (encodeChar c ++ r) 2
  have g3 := cget_append d (encodeChar c ++ r) 3
  rw [Nat.add_zero] at g0
  unfold cStep
  dsimp only
  rw [g0, g1, g2, g3]
  clear g0 g1 g2 g3
  have hw : ¬ (0x41 ≤ c.toNat ∧ c.toNat ≤ 0x5A) → ¬ (1040 ≤ c.toNat ∧ c.toNat ≤ 1071) → c.toNat ≠ 1025 →
      cWrites c r = encodeChar c := by
    intro h1 h2 h3
    unfold cWrites
    rw [if_neg h1]
    have : lowerRune c = c := by
      unfold lowerRune; dsimp only; rw [if_neg (by omega), if_neg (by omega)]
    rw [this]
  by_cases h1 : c.toNat < 0x80
  · have he : encodeChar c = [UInt8.ofNat c.toNat] := by unfold encodeChar; dsimp only; rw [if_pos h1]
    have hb : (UInt8.ofNat c.toNat).toNat = c.toNat := by rw [UInt8.toNat_ofNat']; omega
    simp only [he, cons_append, nil_append, getD_cons_zero]
    rw [if_neg (by
      intro e; have := congrArg UInt8.toNat e; rw [hb] at this; exact h0 this)]
    rw [hb, if_pos (show c.toNat ≤ 0x7F by omega)]
    dsimp only
    by_cases hA : 0x41 ≤ c.toNat ∧ c.toNat ≤ 0x5A
    · rw [if_pos hA]
      have g := cget_append d (UInt8.ofNat c.toNat :: r) 1
      rw [g]
      rw [set_append_len d _ _ r _ (by omega)]
      unfold cWrites
      rw [if_pos hA]
      cases r <;> simp
    · rw [if_neg hA, if_neg (by omega), if_neg (by omega), hw hA (by omega) (by omega), he]
      simp
  by_cases h2 : c.toNat < 0x800
  · have he : encodeChar c = [UInt8.ofNat (0xC0 + c.toNat / 0x40), UInt8.ofNat (0x80 + c.toNat % 0x40)] := by
      unfold encodeChar; dsimp only; rw [if_neg h1, if_pos h2]
    have hb : (UInt8.ofNat (0xC0 + c.toNat / 0x40)).toNat = 0xC0 + c.toNat / 0x40 := by
      rw [UInt8.toNat_ofNat']; omega
    have hb1 : (UInt8.ofNat (0x80 + c.toNat % 0x40)).toNat = 0x80 + c.toNat % 0x40 := by
      rw [UInt8.toNat_ofNat']; omega
    simp only [he, cons_append, nil_append, getD_cons_zero, getD_cons_succ]
    rw [if_neg (by
      intro e; have := congrArg UInt8.toNat e; rw [hb] at this
      have h00 : (0 : UInt8).toNat = 0 := rfl
      rw [h00] at this; omega)]
    rw [hb, hb1, if_neg (show ¬ 0xC0 + c.toNat / 0x40 ≤ 0x7F by omega), if_pos (show 0xC0 ≤ 0xC0 + c.toNat / 0x40 ∧ 0xC0 + c.toNat / 0x40 ≤ 0xDF by omega)]
    dsimp only
    rw [show (0xC0 + c.toNat / 0x40) % 0x20 * 0x40 + (0x80 + c.toNat % 0x40) % 0x40 = c.toNat by omega]
    rw [if_neg (show ¬ (0x41 ≤ c.toNat ∧ c.toNat ≤ 0x5A) by omega)]
    have hset : ∀ x y : UInt8, ((d ++ UInt8.ofNat (0xC0 + c.toNat / 0x40) :: UInt8.ofNat (0x80 + c.toNat % 0x40) :: r).set
        (d.length + 2 - 2) x).set (d.length + 2 - 1) y = d ++ x :: y :: r := by
      intro x y
      rw [set_append_len d _ _ _ _ (by omega)]
      simp
    by_cases hR : 1040 ≤ c.toNat ∧ c.toNat ≤ 1071
    · rw [if_pos hR, hset]
      have hl : lowerRune c = Char.ofNat (c.toNat + 0x20) := by
        unfold lowerRune; dsimp only; rw [if_pos (.inl hR)]
      have hln : (lowerRune c).toNat = c.toNat + 0x20 := by rw [hl, toNat_ofNat_valid (by omega)]
      have hwr : cWrites c r = [UInt8.ofNat (0xC0 + (c.toNat + 32) / 0x40), UInt8.ofNat (0x80 + (c.toNat + 32) % 0x40)] := by
        unfold cWrites
        rw [if_neg (by omega)]
        unfold encodeChar
        dsimp only
        rw [hln, if_neg (by omega), if_pos (by omega)]
      rw [hwr]
      simp
    · rw [if_neg hR]
      by_cases hE : c.toNat = 1025
      · rw [if_pos hE, hset]
        have hc : c = 'Ё' := by rw [← Char.ofNat_toNat c, hE]
        have hwr : cWrites c r = [209, 145] := by
          subst hc
          unfold cWrites
          rw [if_neg (by decide)]
          decide +kernel
        rw [hwr]
        simp
      · rw [if_neg hE, hw (by omega) hR hE, he]
        simp
  by_cases h3 : c.toNat < 0x10000
  · have he : encodeChar c = [UInt8.ofNat (0xE0 + c.toNat / 0x1000), UInt8.ofNat (0x80 + c.toNat / 0x40 % 0x40),
        UInt8.ofNat (0x80 + c.toNat % 0x40)] := by
      unfold encodeChar; dsimp only; rw [if_neg h1, if_neg h2, if_pos h3]
    have hb : (UInt8.ofNat (0xE0 + c.toNat / 0x1000)).toNat = 0xE0 + c.toNat / 0x1000 := by
      rw [UInt8.toNat_ofNat']; omega
    have hb1 : (UInt8.ofNat (0x80 + c.toNat / 0x40 % 0x40)).toNat = 0x80 + c.toNat / 0x40 % 0x40 := by
      rw [UInt8.toNat_ofNat']; omega
    have hb2 : (UInt8.ofNat (0x80 + c.toNat % 0x40)).toNat = 0x80 + c.toNat % 0x40 := by
      rw [UInt8.toNat_ofNat']; omega
    simp only [he, cons_append, nil_append, getD_cons_zero, getD_cons_succ]
    rw [if_neg (by
      intro e; have := congrArg UInt8.toNat e; rw [hb] at this
      have h00 : (0 : UInt8).toNat = 0 := rfl
      rw [h00] at this; omega)]
    rw [hb, hb1, hb2, if_neg (show ¬ 0xE0 + c.toNat / 0x1000 ≤ 0x7F by omega),
      if_neg (show ¬ (0xC0 ≤ 0xE0 + c.toNat / 0x1000 ∧ 0xE0 + c.toNat / 0x1000 ≤ 0xDF) by omega),
      if_pos (show 0xE0 ≤ 0xE0 + c.toNat / 0x1000 ∧ 0xE0 + c.toNat / 0x1000 ≤ 0xEF by omega)]
    dsimp only
    rw [show (0xE0 + c.toNat / 0x1000) % 0x10 * 0x1000 + (0x80 + c.toNat / 0x40 % 0x40) % 0x40 * 0x40
      + (0x80 + c.toNat % 0x40) % 0x40 = c.toNat by omega]
    rw [if_neg (by omega), if_neg (by omega), if_neg (by omega), hw (by omega) (by omega) (by omega), he]
    simp
  · have he : encodeChar c = [UInt8.ofNat (0xF0 + c.toNat / 0x40000), UInt8.ofNat (0x80 + c.toNat / 0x1000 % 0x40),
        UInt8.ofNat (0x80 + c.toNat / 0x40 % 0x40), UInt8.ofNat (0x80 + c.toNat % 0x40)] := by
      unfold encodeChar; dsimp only; rw [if_neg h1, if_neg h2, if_neg h3]
    have hb : (UInt8.ofNat (0xF0 + c.toNat / 0x40000)).toNat = 0xF0 + c.toNat / 0x40000 := by
      rw [UInt8.toNat_ofNat']; omega
    have hb1 : (UInt8.ofNat (0x80 + c.toNat / 0x1000 % 0x40)).toNat = 0x80 + c.toNat / 0x1000 % 0x40 := by
      rw [UInt8.toNat_ofNat']; omega
    have hb2 : (UInt8.ofNat (0x80 + c.toNat / 0x40 % 0x40)).toNat = 0x80 + c.toNat / 0x40 % 0x40 := by
      rw [UInt8.toNat_ofNat']; omega
    have hb3 : (UInt8.ofNat (0x80 + c.toNat % 0x40)).toNat = 0x80 + c.toNat % 0x40 := by
      rw [UInt8.toNat_ofNat']; omega
    simp only [he, cons_append, nil_append, getD_cons_zero, getD_cons_succ]
    rw [if_neg (by
      intro e; have := congrArg UInt8.toNat e; rw [hb] at this
      have h00 : (0 : UInt8).toNat = 0 := rfl
      rw [h00] at this; omega)]
    rw [hb, hb1, hb2, hb3, if_neg (show ¬ 0xF0 + c.toNat / 0x40000 ≤ 0x7F by omega),
      if_neg (show ¬ (0xC0 ≤ 0xF0 + c.toNat / 0x40000 ∧ 0xF0 + c.toNat / 0x40000 ≤ 0xDF) by omega),
      if_neg (show ¬ (0xE0 ≤ 0xF0 + c.toNat / 0x40000 ∧ 0xF0 + c.toNat / 0x40000 ≤ 0xEF) by omega),
      if_pos (show 0xF0 ≤ 0xF0 + c.toNat / 0x40000 ∧ 0xF0 + c.toNat / 0x40000 ≤ 0xF7 by omega)]
    dsimp only
    rw [show (0xF0 + c.toNat / 0x40000) % 8 * 0x40000 + (0x80 + c.toNat / 0x1000 % 0x40) % 0x40 * 0x1000
      + (0x80 + c.toNat / 0x40 % 0x40) % 0x40 * 0x40 + (0x80 + c.toNat % 0x40) % 0x40 = c.toNat by omega]
    rw [if_neg (by omega), if_neg (by omega), if_neg (by omega), hw (by omega) (by omega) (by omega), he]
    simp

/-- What the C loop leaves in the buffer. -/
def cOut : List Char → List UInt8
  | [] => []
  | c :: cs => cWrites c (encode cs) ++ cOut cs

theorem cRun_encode (d : List UInt8) (cs : List Char) (h0 : ∀ c ∈ cs, c.toNat ≠ 0) :
    cRun (cs.length + 1) ⟨d ++ encode cs, d.length⟩ = some (d ++ cOut cs) := by
  induction cs generalizing d with
  | nil =>
    rw [cRun]
    have : cStep ⟨d ++ encode [], d.length⟩ = none := by
      unfold cStep
      have := cget_append d (encode []) 0
      rw [Nat.add_zero] at this
      dsimp only
      rw [this]
      rfl
    rw [this]
    rfl
  | cons c cs ih =>
    rw [length_cons, cRun]
    have he : encode (c :: cs) = encodeChar c ++ encode cs := by unfold encode; rw [flatMap_cons]
    rw [he, cStep_char d c _ (h0 c (by simp))]
    dsimp only
    rw [← append_assoc, ih _ (fun c hc => h0 c (by simp [hc])), cOut, append_assoc]

theorem cRun_mono {n : Nat} {s : CState} {b : List UInt8} (h : cRun n s = some b) (m : Nat) :
    cRun (n + m) s = some b := by
  induction n generalizing s with
  | zero => cases h
  | succ n ih =>
    rw [show n + 1 + m = (n + m) + 1 by omega]
    rw [cRun] at h ⊢
    cases hs : cStep s with
    | none => rw [hs] at h; exact h
    | some s' => rw [hs] at h; exact ih h

theorem cRun_fun {n m : Nat} {s : CState} {b b' : List UInt8} (h : cRun n s = some b) (h' : cRun m s = some b') :
    b = b' := by
  have h1 := cRun_mono h m
  have h2 := cRun_mono h' n
  rw [Nat.add_comm m n, h1] at h2
  exact Option.some.inj h2

theorem encodeChar_ne_zero (c : Char) (h0 : c.toNat ≠ 0) : ∀ b ∈ encodeChar c, b ≠ 0 := by
  have hv := char_valid c
  have key : ∀ n, n % 256 ≠ 0 → UInt8.ofNat n ≠ 0 := by
    intro n hn e
    have := congrArg UInt8.toNat e
    rw [UInt8.toNat_ofNat'] at this
    exact hn this
  unfold encodeChar
  dsimp only
  split
  · intro b hb
    simp only [mem_cons, not_mem_nil, or_false] at hb
    subst hb; exact key _ (by omega)
  · split
    · intro b hb
      simp only [mem_cons, not_mem_nil, or_false] at hb
      rcases hb with rfl | rfl <;> exact key _ (by omega)
    · split
      · intro b hb
        simp only [mem_cons, not_mem_nil, or_false] at hb
        rcases hb with rfl | rfl | rfl <;> exact key _ (by omega)
      · intro b hb
        simp only [mem_cons, not_mem_nil, or_false] at hb
        rcases hb with rfl | rfl | rfl | rfl <;> exact key _ (by omega)

theorem takeWhile_all {p : UInt8 → Bool} {l : List UInt8} (h : ∀ b ∈ l, p b = true) : l.takeWhile p = l := by
  induction l with
  | nil => rfl
  | cons b l ih => rw [takeWhile_cons_of_pos (h b (by simp)), ih (fun b hb => h b (by simp [hb]))]

theorem takeWhile_ne_zero (cs : List Char) (h0 : ∀ c ∈ cs, c.toNat ≠ 0) :
    (encode cs).takeWhile (· ≠ 0) = encode cs := by
  apply takeWhile_all
  intro b hb
  unfold encode at hb
  rw [mem_flatMap] at hb
  obtain ⟨c, hc, hb⟩ := hb
  exact decide_eq_true (encodeChar_ne_zero c (h0 c hc) b hb)

theorem cOut_noCaps (cs : List Char) (h : ∀ c ∈ cs, ¬ (0x41 ≤ c.toNat ∧ c.toNat ≤ 0x5A)) :
    cOut cs = encode (cs.map lowerRune) := by
  induction cs with
  | nil => rfl
  | cons c cs ih =>
    rw [cOut, ih (fun c hc => h c (by simp [hc])), cWrites, if_neg (h c (by simp))]
    rfl

theorem lowerRune_ne_zero (c : Char) (h : c.toNat ≠ 0) : (lowerRune c).toNat ≠ 0 := by
  unfold lowerRune
  dsimp only
  split
  · rw [toNat_ofNat_valid (by omega)]; omega
  · split
    · rw [toNat_ofNat_valid (by omega)]; omega
    · exact h

end Verif.ToLower
