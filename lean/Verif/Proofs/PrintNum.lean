import Verif.Proofs.LexNum
/-! Printing numbers. -/
set_option exponentiation.threshold 2000
namespace Verif.F64
open Spec Lexer

theorem digit_of_isDigit {c : Char} (h : c.isDigit = true) : Digit c := by
  rw [Char.isDigit_iff_toNat] at h
  obtain ⟨h1, h2⟩ := h
  have e : Char.ofNat c.toNat = c := Char.ofNat_toNat c
  rw [← e]
  generalize c.toNat = n at *
  have : ∀ n < 58, 48 ≤ n → Digit (Char.ofNat n) := by unfold Digit; decide +kernel
  exact this n (by simpa using Nat.lt_succ_of_le h2) h1

/-- The decimal digits of a natural number are a literal of that value. -/
theorem digits_lit (n : Nat) : NumLit (Nat.toDigits 10 n) n := by
  have hd : ∀ c ∈ Nat.toDigits 10 n, Digit c := fun c hc =>
    digit_of_isDigit (Nat.isDigit_of_mem_toDigits (by decide) (by decide) hc)
  have hv : digitsVal (Nat.toDigits 10 n) = n := Nat.ofDigitChars_ten_toDigits
  have : intVal (Nat.toDigits 10 n) = n := by rw [← digitsVal_eq hd, hv]
  conv => rhs; rw [← this]
  exact .int Nat.toDigits_ne_nil hd

/-- An integer that is a binary64 number converts to itself. -/
theorem parse_digits {n : Nat} {z : F64} (hz : Finite64 z) (hn : toRat z = n) :
    ∃ y, parseFloat (Nat.toDigits 10 n) = some y ∧ y.neg = false ∧ Finite64 y ∧ toRat y = n := by
  have hlit := digits_lit n
  have hov : ¬ overflow64 ≤ (n : ℚ) := by
    rw [← hn, not_le]
    have h1 : toRat z ≤ (z.mant : ℚ) * 2 ^ z.exp := by
      unfold toRat
      split
      · have : (0 : ℚ) ≤ (z.mant : ℚ) * 2 ^ z.exp := by positivity
        linarith
      · simp
    have h2 : (z.mant : ℚ) * 2 ^ z.exp ≤ (2 ^ 53 - 1) * 2 ^ (971 : ℤ) := by
      apply mul_le_mul
      · have : z.mant + 1 ≤ 2 ^ 53 := hz.1
        have : ((z.mant + 1 : ℕ) : ℚ) ≤ ((2 ^ 53 : ℕ) : ℚ) := by exact_mod_cast this
        push_cast at this
        linarith
      · exact zpow_le_zpow_right₀ (by norm_num) hz.2.2
      · positivity
      · norm_num
    have h3 : ((2 : ℚ) ^ 53 - 1) * 2 ^ (971 : ℤ) < overflow64 := by unfold overflow64; norm_num
    linarith
  cases e : parseFloat (Nat.toDigits 10 n) with
  | none => exact absurd ((parseFloat_none_iff hlit).1 e) hov
  | some y =>
    have hnear := parseFloat_nearest hlit e
    refine ⟨y, rfl, ?_, hnear.1, ?_⟩
    · obtain ⟨a, b, -, h1, -⟩ := parseFloat_lit hlit
      exact ofRat_neg (h1 ▸ e)
    · have := hnear.2 z hz
      rw [hn, sub_self, abs_zero, abs_nonpos_iff, sub_eq_zero] at this
      exact this

theorem roundHalfEven_exact (n k : Nat) (hk : 0 < k) : roundHalfEven (n * k) k = n := by
  unfold roundHalfEven
  simp [hk]

/-- A number with an integer value rounds to it. -/
theorem roundInt_exact {x : F64} {n : Nat} (h : (x.mant : ℚ) * 2 ^ x.exp = n) : x.roundInt = n := by
  unfold roundInt
  split
  · rename_i he
    have : ((x.mant * 2 ^ x.exp.toNat : ℕ) : ℚ) = n := by
      rw [← h]; push_cast
      rw [← zpow_natCast, Int.toNat_of_nonneg he]
    exact_mod_cast this
  · rename_i he
    have hm : x.mant = n * 2 ^ (-x.exp).toNat := by
      have : (x.mant : ℚ) = ((n * 2 ^ (-x.exp).toNat : ℕ) : ℚ) := by
        push_cast
        rw [← h, ← zpow_natCast, Int.toNat_of_nonneg (by omega), mul_assoc, ← zpow_add₀ (by norm_num)]
        simp
      exact_mod_cast this
    rw [hm]
    exact roundHalfEven_exact _ _ (by positivity)

/-- What is printed is a binary64 number. -/
theorem roundInt_finite {x : F64} (hx : Finite64 x) : ∃ z, Finite64 z ∧ toRat z = x.roundInt := by
  by_cases he : 0 ≤ x.exp
  · refine ⟨⟨false, x.mant, x.exp⟩, hx, ?_⟩
    unfold roundInt
    rw [if_pos he]
    simp only [toRat]
    push_cast
    rw [← zpow_natCast, Int.toNat_of_nonneg he]
    simp
  · refine ⟨⟨false, x.roundInt, 0⟩, ⟨?_, by norm_num, by norm_num⟩, by simp [toRat]⟩
    unfold roundInt
    rw [if_neg he]
    refine lt_of_le_of_lt (roundHalfEven_le _ _ (by positivity) x.mant ?_) hx.1
    exact div_le_self (by positivity) (by exact_mod_cast Nat.one_le_two_pow)

/-- Printing the number that was read back gives the same digits. -/
theorem reprint {x : F64} (hx : Finite64 x) :
    ∃ y, parseFloat (Nat.toDigits 10 x.roundInt) = some y ∧ y.neg = false ∧ Finite64 y ∧ toRat y = x.roundInt ∧ y.roundInt = x.roundInt := by
  obtain ⟨z, h1, h2⟩ := roundInt_finite hx
  obtain ⟨y, g1, g2, g3, g4⟩ := parse_digits h1 h2
  refine ⟨y, g1, g2, g3, g4, roundInt_exact ?_⟩
  rw [← g4]; simp [toRat, g2]

theorem abs_toRat (x : F64) : |toRat x| = (x.mant : ℚ) * 2 ^ x.exp := by
  have : (0 : ℚ) ≤ (x.mant : ℚ) * 2 ^ x.exp := by positivity
  unfold toRat
  split
  · rw [mul_assoc, abs_mul, abs_of_nonneg this]; simp
  · rw [mul_assoc, abs_mul, abs_of_nonneg this]; simp

end Verif.F64
