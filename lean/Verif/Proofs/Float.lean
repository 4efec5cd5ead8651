import Verif.Spec.Num
import Mathlib.Tactic.Linarith
import Mathlib.Tactic.Positivity
import Mathlib.Tactic.FieldSimp
import Mathlib.Tactic.Ring
import Mathlib.Tactic.NormNum
import Mathlib.Tactic.Zify
import Mathlib.Tactic.Push
import Mathlib.Algebra.Order.Field.Power
/-! Correctness of the decimal to binary64 conversion. -/
set_option exponentiation.threshold 2000
namespace Verif.F64
open Spec

/-- Rounding is to a nearest integer. -/
theorem roundHalfEven_near (n d : Nat) (hd : 0 < d) (k : ℤ) :
    |(roundHalfEven n d : ℚ) - n / d| ≤ |(k : ℚ) - n / d| := by
  have hdm := Nat.div_add_mod n d
  have hlt := Nat.mod_lt n hd
  set q := n / d with hq
  set r := n % d with hr
  have hdq : (0 : ℚ) < d := by exact_mod_cast hd
  have hv : (n : ℚ) / d = q + r / d := by
    rw [← hdm]; push_cast; field_simp
  have hr0 : (0 : ℚ) ≤ (r : ℚ) / d := by positivity
  have hr1 : (r : ℚ) / d < 1 := by rw [div_lt_one hdq]; exact_mod_cast hlt
  have hk : |(k : ℚ) - (q + r / d)| ≥ min ((r : ℚ) / d) (1 - r / d) := by
    rcases le_or_gt k q with h | h
    · have : (k : ℚ) ≤ q := by exact_mod_cast h
      rw [abs_of_nonpos (by linarith)]
      exact le_trans (min_le_left _ _) (by linarith)
    · have : (q : ℚ) + 1 ≤ k := by exact_mod_cast h
      rw [abs_of_nonneg (by linarith)]
      exact le_trans (min_le_right _ _) (by linarith)
  rw [hv]
  refine le_trans ?_ hk
  unfold roundHalfEven
  rw [← hq, ← hr]
  dsimp only
  have lo : 2 * r ≤ d → |(q : ℚ) - (q + r / d)| ≤ min ((r : ℚ) / d) (1 - r / d) := by
    intro h
    have h2 : (r : ℚ) / d ≤ 1 / 2 := by
      rw [div_le_div_iff₀ hdq (by norm_num)]
      have : (2 * r : ℚ) ≤ d := by exact_mod_cast h
      linarith
    rw [abs_of_nonpos (by linarith)]
    rw [le_min_iff]; constructor <;> linarith
  have hi : d ≤ 2 * r → |((q + 1 : ℕ) : ℚ) - (q + r / d)| ≤ min ((r : ℚ) / d) (1 - r / d) := by
    intro h
    have h2 : (1 : ℚ) / 2 ≤ (r : ℚ) / d := by
      rw [div_le_div_iff₀ (by norm_num) hdq]
      have : (d : ℚ) ≤ 2 * r := by exact_mod_cast h
      linarith
    push_cast
    rw [abs_of_nonneg (by linarith)]
    rw [le_min_iff]; constructor <;> linarith
  split
  · exact lo (by omega)
  · split
    · exact hi (by omega)
    · split
      · exact lo (by omega)
      · exact hi (by omega)

theorem log2_bounds {n : Nat} (h : n ≠ 0) : 2 ^ Nat.log2 n ≤ n ∧ n < 2 ^ (Nat.log2 n + 1) :=
  ⟨Nat.log2_self_le h, Nat.lt_log2_self⟩

/-- `floorLog2` is the floor of the binary logarithm. -/
theorem floorLog2_spec {n d : Nat} (hn : n ≠ 0) (hd : d ≠ 0) :
    (2 : ℚ) ^ floorLog2 n d ≤ (n : ℚ) / d ∧ (n : ℚ) / d < (2 : ℚ) ^ (floorLog2 n d + 1) := by
  obtain ⟨n1, n2⟩ := log2_bounds hn
  obtain ⟨d1, d2⟩ := log2_bounds hd
  have hdq : (0 : ℚ) < d := by exact_mod_cast Nat.pos_of_ne_zero hd
  have hnq : (0 : ℚ) < n := by exact_mod_cast Nat.pos_of_ne_zero hn
  have n1' : (2 : ℚ) ^ (Nat.log2 n : ℤ) ≤ n := by rw [zpow_natCast]; exact_mod_cast n1
  have n2' : (n : ℚ) < (2 : ℚ) ^ ((Nat.log2 n : ℤ) + 1) := by
    rw [show (Nat.log2 n : ℤ) + 1 = ((Nat.log2 n + 1 : ℕ) : ℤ) by push_cast; rfl, zpow_natCast]
    exact_mod_cast n2
  have d1' : (2 : ℚ) ^ (Nat.log2 d : ℤ) ≤ d := by rw [zpow_natCast]; exact_mod_cast d1
  have d2' : (d : ℚ) < (2 : ℚ) ^ ((Nat.log2 d : ℤ) + 1) := by
    rw [show (Nat.log2 d : ℤ) + 1 = ((Nat.log2 d + 1 : ℕ) : ℤ) by push_cast; rfl, zpow_natCast]
    exact_mod_cast d2
  unfold floorLog2
  dsimp only
  generalize hl : (Nat.log2 n : ℤ) - (Nat.log2 d : ℤ) = l
  have hln : (Nat.log2 n : ℤ) = l + Nat.log2 d := by omega
  rw [hln] at n1' n2'
  generalize (Nat.log2 d : ℤ) = e at *
  have two : (2 : ℚ) ≠ 0 := by norm_num
  have hup : (n : ℚ) / d < (2 : ℚ) ^ (l + 1) := by
    rw [div_lt_iff₀ hdq]
    calc (n : ℚ) < (2 : ℚ) ^ (l + e + 1) := n2'
      _ = (2 : ℚ) ^ (l + 1) * 2 ^ e := by rw [← zpow_add₀ two]; congr 1; ring
      _ ≤ (2 : ℚ) ^ (l + 1) * d := by
        apply mul_le_mul_of_nonneg_left d1' (by positivity)
  have hlow : (2 : ℚ) ^ (l - 1) ≤ (n : ℚ) / d := by
    rw [le_div_iff₀ hdq]
    calc (2 : ℚ) ^ (l - 1) * d ≤ (2 : ℚ) ^ (l - 1) * 2 ^ (e + 1) :=
          mul_le_mul_of_nonneg_left d2'.le (by positivity)
      _ = (2 : ℚ) ^ (l + e) := by rw [← zpow_add₀ two]; congr 1; ring
      _ ≤ n := n1'
  have key : ∀ b : Prop, [Decidable b] → (b ↔ (2 : ℚ) ^ l ≤ (n : ℚ) / d) →
      (2 : ℚ) ^ (if b then l else l - 1) ≤ (n : ℚ) / d ∧ (n : ℚ) / d < (2 : ℚ) ^ ((if b then l else l - 1) + 1) := by
    intro b _ hb
    split
    · rename_i h; exact ⟨hb.1 h, hup⟩
    · rename_i h
      refine ⟨hlow, ?_⟩
      rw [sub_add_cancel]
      exact lt_of_not_ge (fun h' => h (hb.2 h'))
  split
  · rename_i h
    apply key
    rw [le_div_iff₀ hdq]
    conv => rhs; rw [← Int.toNat_of_nonneg h, zpow_natCast]
    constructor
    · intro h; rw [mul_comm]; exact_mod_cast h
    · intro h; rw [mul_comm] at h; exact_mod_cast h
  · rename_i h
    apply key
    rw [le_div_iff₀ hdq]
    have h0 : l = -(((-l).toNat : ℕ) : ℤ) := by omega
    conv => rhs; rw [h0, zpow_neg, zpow_natCast]
    rw [inv_mul_le_iff₀ (by positivity)]
    constructor
    · intro h; rw [mul_comm (2 ^ _)]; exact_mod_cast h
    · intro h; rw [mul_comm (2 ^ _)] at h; exact_mod_cast h

/-- The scaled rounding inside `ofRat`. -/
theorem scaled (n d : Nat) (hd : d ≠ 0) (q : ℤ) :
    ∃ n' d' : Nat, 0 < d' ∧
      (if 0 ≤ q then roundHalfEven n (d * 2 ^ q.toNat) else roundHalfEven (n * 2 ^ (-q).toNat) d) = roundHalfEven n' d' ∧
      (n' : ℚ) / d' = (n : ℚ) / d / 2 ^ q := by
  have hdq : (d : ℚ) ≠ 0 := by exact_mod_cast hd
  split
  · rename_i h
    refine ⟨n, d * 2 ^ q.toNat, by positivity, rfl, ?_⟩
    conv => rhs; rw [← Int.toNat_of_nonneg h, zpow_natCast]
    push_cast
    rw [div_div]
  · rename_i h
    refine ⟨n * 2 ^ (-q).toNat, d, by positivity, rfl, ?_⟩
    have h0 : q = -(((-q).toNat : ℕ) : ℤ) := by omega
    conv => rhs; rw [h0, zpow_neg, zpow_natCast]
    push_cast
    rw [div_inv_eq_mul]; ring

/-- Where rounding goes up to at least an odd `k + 1`. -/
theorem roundHalfEven_ge (n d : Nat) (hd : 0 < d) (k : Nat) (hk : k % 2 = 1) :
    k + 1 ≤ roundHalfEven n d ↔ (k : ℚ) + 1 / 2 ≤ (n : ℚ) / d := by
  have hdm := Nat.div_add_mod n d
  have hlt := Nat.mod_lt n hd
  have hdq : (0 : ℚ) < d := by exact_mod_cast hd
  have h1 : (k : ℚ) + 1 / 2 ≤ (n : ℚ) / d ↔ (2 * k + 1) * d ≤ 2 * n := by
    rw [le_div_iff₀ hdq]
    constructor
    · intro h
      have : ((2 * k + 1 : ℕ) : ℚ) * d ≤ 2 * n := by push_cast; linarith
      exact_mod_cast this
    · intro h
      have : ((2 * k + 1 : ℕ) : ℚ) * d ≤ 2 * n := by exact_mod_cast h
      push_cast at this; linarith
  rw [h1]
  unfold roundHalfEven
  dsimp only
  generalize n / d = q at *
  generalize n % d = r at *
  subst hdm
  have e1 : 2 * (d * q + r) = 2 * q * d + 2 * r := by ring
  rw [e1]
  constructor
  · intro h
    rcases Nat.lt_or_ge q k with hq | hq
    · exfalso; split at h; omega; split at h; omega; split at h <;> omega
    · rcases Nat.eq_or_lt_of_le hq with hq | hq
      · subst hq
        have : d ≤ 2 * r := by
          split at h
          · omega
          · omega
        have : (2 * k + 1) * d = 2 * k * d + d := by ring
        omega
      · have : (2 * k + 1) * d ≤ 2 * q * d := Nat.mul_le_mul_right _ (by omega)
        omega
  · intro h
    have hkq : k ≤ q := by
      by_contra hc
      have : 2 * q * d + 2 * d ≤ 2 * k * d := by
        have := Nat.mul_le_mul_right d (show 2 * q + 2 ≤ 2 * k by omega)
        calc 2 * q * d + 2 * d = (2 * q + 2) * d := by ring
          _ ≤ _ := this
      have e2 : (2 * k + 1) * d = 2 * k * d + d := by ring
      omega
    rcases Nat.eq_or_lt_of_le hkq with hq | hq
    · subst hq
      have e2 : (2 * k + 1) * d = 2 * k * d + d := by ring
      split
      · omega
      · split
        · omega
        · split <;> omega
    · split
      · omega
      · split
        · omega
        · split <;> omega

theorem roundHalfEven_le (n d : Nat) (hd : 0 < d) (k : Nat) (h : (n : ℚ) / d ≤ k) : roundHalfEven n d ≤ k := by
  have hdq : (0 : ℚ) < d := by exact_mod_cast hd
  rw [div_le_iff₀ hdq] at h
  have h' : n ≤ k * d := by exact_mod_cast h
  have hdm := Nat.div_add_mod n d
  have hlt := Nat.mod_lt n hd
  unfold roundHalfEven
  dsimp only
  generalize n / d = q at *
  generalize n % d = r at *
  subst hdm
  rcases Nat.lt_or_ge q k with hq | hq
  · split
    · omega
    · split
      · omega
      · split <;> omega
  · have h2 : k * d ≤ q * d := Nat.mul_le_mul_right _ hq
    have e : d * q = q * d := by ring
    have hr : r = 0 := by omega
    subst hr
    have hqk : q ≤ k := by
      rw [e, Nat.add_zero] at h'
      exact Nat.le_of_mul_le_mul_right h' hd
    rw [if_pos (by omega)]
    exact hqk

/-- Scaling a nearest-integer statement. -/
theorem near_scaled {m : Nat} {v : ℚ} {q : ℤ} (h : ∀ k : ℤ, |(m : ℚ) - v / 2 ^ q| ≤ |(k : ℚ) - v / 2 ^ q|) (k : ℤ) :
    |(m : ℚ) * 2 ^ q - v| ≤ |(k : ℚ) * 2 ^ q - v| := by
  have hp : (0 : ℚ) < 2 ^ q := by positivity
  have e : ∀ x : ℚ, |x * 2 ^ q - v| = |x - v / 2 ^ q| * 2 ^ q := by
    intro x
    rw [← abs_of_pos hp, ← abs_mul, abs_of_pos hp, sub_mul, div_mul_cancel₀ _ hp.ne']
  rw [e, e]
  exact mul_le_mul_of_nonneg_right (h k) hp.le

/-- The unnormalised result of `ofRat`. -/
theorem ofRat_core {n d : Nat} (hn : n ≠ 0) (hd : d ≠ 0) :
    ∃ (m : Nat) (q : ℤ), q = max (floorLog2 n d - 52) (-1074) ∧ m ≤ 2 ^ 53 ∧
      (∀ k : ℤ, |(m : ℚ) * 2 ^ q - n / d| ≤ |(k : ℚ) * 2 ^ q - n / d|) ∧
      (2 ^ 53 ≤ m ↔ ((2 ^ 53 - 1 : ℕ) : ℚ) + 1 / 2 ≤ (n : ℚ) / d / 2 ^ q) ∧
      ofRat n d = (let p := if m = 2 ^ 53 then (2 ^ 52, q + 1) else if m = 0 then (0, 0) else (m, q)
        if 971 < p.2 then none else some ⟨false, p.1, p.2⟩) := by
  obtain ⟨n', d', hd', h1, h2⟩ := scaled n d hd (max (floorLog2 n d - 52) (-1074))
  obtain ⟨hlo, hup⟩ := floorLog2_spec hn hd
  generalize hq : max (floorLog2 n d - 52) (-1074) = q at *
  refine ⟨roundHalfEven n' d', q, rfl, ?_, ?_, ?_, ?_⟩
  · apply roundHalfEven_le _ _ hd'
    rw [h2, div_le_iff₀ (by positivity)]
    have : ((2 ^ 53 : ℕ) : ℚ) * 2 ^ q = 2 ^ (q + 53) := by
      rw [zpow_add₀ (by norm_num : (2 : ℚ) ≠ 0), mul_comm]; norm_num
    rw [this]
    refine le_trans hup.le (zpow_le_zpow_right₀ (by norm_num) (by omega))
  · apply near_scaled
    intro k
    have := roundHalfEven_near n' d' hd' k
    rwa [h2] at this
  · rw [← h2]
    exact roundHalfEven_ge n' d' hd' (2 ^ 53 - 1) (by norm_num)
  · unfold ofRat
    rw [if_neg hn]
    dsimp only
    rw [hq, h1]

/-- No number of a finer grid below `2^e` is nearer. -/
theorem nearest_of_grid {m : Nat} {q : ℤ} {v : ℚ} (hv : 0 < v)
    (hq : q = -1074 ∨ (2 : ℚ) ^ (q + 52) ≤ v)
    (h : ∀ k : ℤ, |(m : ℚ) * 2 ^ q - v| ≤ |(k : ℚ) * 2 ^ q - v|) (y : F64) (hy : Finite64 y) :
    |(m : ℚ) * 2 ^ q - v| ≤ |toRat y - v| := by
  have two : (2 : ℚ) ≠ 0 := by norm_num
  have h0 : |(m : ℚ) * 2 ^ q - v| ≤ v := by
    have := h 0
    simp only [Int.cast_zero, zero_mul, zero_sub, abs_neg] at this
    rwa [abs_of_pos hv] at this
  obtain ⟨hm, he1, he2⟩ := hy
  have hpos : (0 : ℚ) ≤ (y.mant : ℚ) * 2 ^ y.exp := by positivity
  by_cases hneg : y.neg = true
  · have : toRat y = -((y.mant : ℚ) * 2 ^ y.exp) := by simp [toRat, hneg]
    rw [this, abs_of_nonpos (a := -((y.mant : ℚ) * 2 ^ y.exp) - v) (by linarith)]
    linarith
  · have hy' : toRat y = (y.mant : ℚ) * 2 ^ y.exp := by simp [toRat, hneg]
    rw [hy']
    rcases le_or_gt q y.exp with hle | hlt
    · have : (y.mant : ℚ) * 2 ^ y.exp = ((y.mant * 2 ^ (y.exp - q).toNat : ℤ) : ℚ) * 2 ^ q := by
        push_cast
        rw [mul_assoc, ← zpow_natCast, ← zpow_add₀ two, Int.toNat_of_nonneg (by omega)]
        congr 2; ring
      rw [this]
      exact h _
    · rcases hq with hq | hq
      · omega
      · have hy2 : (y.mant : ℚ) * 2 ^ y.exp ≤ 2 ^ (q + 52) := by
          calc (y.mant : ℚ) * 2 ^ y.exp ≤ 2 ^ 53 * 2 ^ y.exp := by
                apply mul_le_mul_of_nonneg_right _ (by positivity)
                exact_mod_cast hm.le
            _ = 2 ^ (y.exp + 53) := by rw [zpow_add₀ two, mul_comm]; norm_num
            _ ≤ 2 ^ (q + 52) := zpow_le_zpow_right₀ (by norm_num) (by omega)
        have h3 := h (2 ^ 52)
        have e : (((2 ^ 52 : ℤ)) : ℚ) * 2 ^ q = 2 ^ (q + 52) := by
          rw [zpow_add₀ two, mul_comm]; norm_num
        rw [e] at h3
        rw [abs_of_nonpos (show (y.mant : ℚ) * 2 ^ y.exp - v ≤ 0 by linarith)]
        rw [abs_of_nonpos (show (2 : ℚ) ^ (q + 52) - v ≤ 0 by linarith)] at h3
        linarith

theorem ofRat_nearest {n d : Nat} (hd : d ≠ 0) {x : F64} (h : ofRat n d = some x) : Nearest x ((n : ℚ) / d) := by
  by_cases hn : n = 0
  · subst hn
    simp only [ofRat, if_true, Option.some.injEq] at h
    subst h
    refine ⟨⟨by norm_num, by norm_num, by norm_num⟩, fun y _ => ?_⟩
    simp [toRat]
  obtain ⟨m, q, hq, hm, hnear, _, hof⟩ := ofRat_core hn hd
  obtain ⟨hlo, hup⟩ := floorLog2_spec hn hd
  have hv : (0 : ℚ) < (n : ℚ) / d := by
    have : (0 : ℚ) < n := by exact_mod_cast Nat.pos_of_ne_zero hn
    have : (0 : ℚ) < d := by exact_mod_cast Nat.pos_of_ne_zero hd
    positivity
  have hq' : q = -1074 ∨ (2 : ℚ) ^ (q + 52) ≤ (n : ℚ) / d := by
    rcases le_or_gt (-1074) (floorLog2 n d - 52) with h' | h'
    · right
      rw [max_eq_left h'] at hq
      rw [hq, sub_add_cancel]; exact hlo
    · left; rw [hq, max_eq_right h'.le]
  have hgrid := nearest_of_grid hv hq' hnear
  rw [hof] at h
  have hqge : -1074 ≤ q := by rw [hq]; exact le_max_right _ _
  by_cases hm53 : m = 2 ^ 53
  · rw [if_pos hm53] at h
    dsimp only at h
    split at h
    · cases h
    rename_i h971
    injection h with h
    subst h
    refine ⟨⟨by norm_num, by show -1074 ≤ q + 1; omega, by show q + 1 ≤ 971; omega⟩, fun y hy => ?_⟩
    have e : toRat ⟨false, 2 ^ 52, q + 1⟩ = (m : ℚ) * 2 ^ q := by
      rw [hm53]
      simp only [toRat]
      rw [zpow_add₀ (by norm_num : (2 : ℚ) ≠ 0)]
      push_cast
      norm_num; ring
    rw [e]
    exact hgrid y hy
  · rw [if_neg hm53] at h
    by_cases hm0 : m = 0
    · rw [if_pos hm0] at h
      dsimp only at h
      rw [if_neg (by norm_num)] at h
      injection h with h
      subst h
      refine ⟨⟨by norm_num, by norm_num, by norm_num⟩, fun y hy => ?_⟩
      have e : toRat ⟨false, 0, 0⟩ = (m : ℚ) * 2 ^ q := by rw [hm0]; simp [toRat]
      rw [e]
      exact hgrid y hy
    rw [if_neg hm0] at h
    dsimp only at h
    split at h
    · cases h
    rename_i h971
    injection h with h
    subst h
    refine ⟨⟨by show m < 2 ^ 53; omega, hqge, by show q ≤ 971; omega⟩, fun y hy => ?_⟩
    have e : toRat ⟨false, m, q⟩ = (m : ℚ) * 2 ^ q := by simp [toRat]
    rw [e]
    exact hgrid y hy

theorem ofRat_none_iff {n d : Nat} (hd : d ≠ 0) : ofRat n d = none ↔ overflow64 ≤ (n : ℚ) / d := by
  have two : (2 : ℚ) ≠ 0 := by norm_num
  by_cases hn : n = 0
  · subst hn
    simp only [ofRat, if_true, Nat.cast_zero, zero_div]
    constructor
    · intro h; cases h
    · intro h
      exfalso
      have : (0 : ℚ) < overflow64 := by unfold overflow64; norm_num
      linarith
  obtain ⟨m, q, hq, hm, hnear, h53, hof⟩ := ofRat_core hn hd
  obtain ⟨hlo, hup⟩ := floorLog2_spec hn hd
  have e970 : overflow64 = (((2 ^ 53 - 1 : ℕ) : ℚ) + 1 / 2) * 2 ^ (971 : ℤ) := by
    unfold overflow64; norm_num
  have hq0 : m = 0 → q ≤ 971 := by
    intro hm0
    by_contra hc
    have he : q = floorLog2 n d - 52 := by
      rcases le_or_gt (-1074) (floorLog2 n d - 52) with h' | h'
      · rw [max_eq_left h'] at hq; exact hq
      · rw [max_eq_right h'.le] at hq; omega
    have h1 := hnear (2 ^ 52)
    have e : (((2 ^ 52 : ℤ)) : ℚ) * 2 ^ q = 2 ^ (q + 52) := by rw [zpow_add₀ two, mul_comm]; norm_num
    have h2 : (2 : ℚ) ^ (q + 52) ≤ (n : ℚ) / d := by rw [he, sub_add_cancel]; exact hlo
    have h3 : (0 : ℚ) < 2 ^ (q + 52) := by positivity
    rw [e, hm0, Nat.cast_zero, zero_mul, zero_sub, abs_neg, abs_of_nonneg (le_trans h3.le h2), abs_of_nonpos (by linarith)] at h1
    linarith
  have hof' : ofRat n d = none ↔ 971 < (if m = 2 ^ 53 then q + 1 else q) := by
    rw [hof]
    by_cases hm53 : m = 2 ^ 53
    · rw [if_pos hm53, if_pos hm53]; dsimp only; split <;> simp only [reduceCtorEq, false_iff, true_iff] <;> assumption
    · rw [if_neg hm53, if_neg hm53]
      by_cases hm0 : m = 0
      · rw [if_pos hm0]
        have := hq0 hm0
        simp only [show ¬ (971 : ℤ) < 0 by norm_num, if_false, reduceCtorEq, false_iff]
        omega
      · rw [if_neg hm0]; dsimp only; split <;> simp only [reduceCtorEq, false_iff, true_iff] <;> assumption
  rw [hof']
  clear hof hof' hq0
  generalize (n : ℚ) / d = v at *
  generalize floorLog2 n d = e at *
  constructor
  · intro hlt
    rcases lt_trichotomy q 971 with hq1 | hq1 | hq1
    · exfalso; split at hlt <;> omega
    · split at hlt
      · rename_i hm53
        have := h53.1 (by omega)
        rw [hq1, le_div_iff₀ (by positivity)] at this
        rw [e970]; exact this
      · omega
    · have he : 1024 ≤ e := by
        rcases le_or_gt (-1074) (e - 52) with h' | h'
        · rw [max_eq_left h'] at hq; omega
        · rw [max_eq_right h'.le] at hq; omega
      have h1 : (2 : ℚ) ^ (1024 : ℤ) ≤ 2 ^ e := zpow_le_zpow_right₀ (by norm_num) he
      have h2 : overflow64 ≤ (2 : ℚ) ^ (1024 : ℤ) := by unfold overflow64; norm_num
      linarith
  · intro h
    have he : 1023 ≤ e := by
      by_contra hc
      have h1 : (2 : ℚ) ^ (e + 1) ≤ 2 ^ (1023 : ℤ) := zpow_le_zpow_right₀ (by norm_num) (by omega)
      have h2 : (2 : ℚ) ^ (1023 : ℤ) ≤ overflow64 := by unfold overflow64; norm_num
      linarith
    have hq2 : q = e - 52 := by rw [hq, max_eq_left (by omega)]
    rcases lt_or_ge 1023 e with he' | he'
    · split <;> omega
    · have hq3 : q = 971 := by omega
      have : 2 ^ 53 ≤ m := by
        rw [h53, hq3, le_div_iff₀ (by positivity), ← e970]; exact h
      have hm' : m = 2 ^ 53 := by omega
      rw [if_pos hm']
      omega

theorem ofRat_neg {n d : Nat} {x : F64} (h : ofRat n d = some x) : x.neg = false := by
  have key : ∀ p : Nat × Int, (if 971 < p.2 then none else some (⟨false, p.1, p.2⟩ : F64)) = some x → x.neg = false := by
    intro p h
    split at h
    · cases h
    · injection h with h; rw [← h]
  unfold ofRat at h
  split at h
  · injection h with h; rw [← h]
  · exact key _ h

/-- Normalised numbers: leading bit set unless the exponent is the least one, zero with exponent 0. -/
def Canon (x : F64) : Prop :=
  (x.mant = 0 ∧ x.exp = 0) ∨
    (0 < x.mant ∧ x.mant < 2 ^ 53 ∧ -1074 ≤ x.exp ∧ x.exp ≤ 971 ∧ (2 ^ 52 ≤ x.mant ∨ x.exp = -1074))

/-- `ofRat` gives normalised numbers. -/
theorem ofRat_canon {n d : Nat} (hd : d ≠ 0) {x : F64} (h : ofRat n d = some x) : Canon x := by
  have two : (2 : ℚ) ≠ 0 := by norm_num
  by_cases hn : n = 0
  · subst hn
    simp only [ofRat, if_true, Option.some.injEq] at h
    subst h
    exact .inl ⟨rfl, rfl⟩
  obtain ⟨m, q, hq, hm, hnear, _, hof⟩ := ofRat_core hn hd
  obtain ⟨hlo, hup⟩ := floorLog2_spec hn hd
  have hqge : -1074 ≤ q := by rw [hq]; exact le_max_right _ _
  rw [hof] at h
  by_cases hm53 : m = 2 ^ 53
  · rw [if_pos hm53] at h
    dsimp only at h
    split at h
    · cases h
    injection h with h
    subst h
    exact .inr ⟨by norm_num, by norm_num, by show -1074 ≤ q + 1; omega, by show q + 1 ≤ 971; omega, .inl le_rfl⟩
  rw [if_neg hm53] at h
  by_cases hm0 : m = 0
  · rw [if_pos hm0] at h
    dsimp only at h
    rw [if_neg (by norm_num)] at h
    injection h with h
    subst h
    exact .inl ⟨rfl, rfl⟩
  rw [if_neg hm0] at h
  dsimp only at h
  split at h
  · cases h
  injection h with h
  subst h
  refine .inr ⟨by show 0 < m; omega, by show m < 2 ^ 53; omega, hqge, by show q ≤ 971; omega, ?_⟩
  show 2 ^ 52 ≤ m ∨ q = -1074
  rcases le_or_gt (-1074) (floorLog2 n d - 52) with h' | h'
  · left
    rw [max_eq_left h'] at hq
    have h1 := hnear (2 ^ 52)
    have e : (((2 ^ 52 : ℤ)) : ℚ) * 2 ^ q = 2 ^ (q + 52) := by rw [zpow_add₀ two, mul_comm]; norm_num
    have h2 : (2 : ℚ) ^ (q + 52) ≤ (n : ℚ) / d := by rw [hq, sub_add_cancel]; exact hlo
    rw [abs_of_nonpos (a := ((2 ^ 52 : ℤ) : ℚ) * 2 ^ q - n / d) (by rw [e]; linarith)] at h1
    have h3 := (abs_le.1 h1).1
    rw [neg_neg] at h3
    have h4 : ((2 ^ 52 : ℤ) : ℚ) * 2 ^ q ≤ ((m : ℤ) : ℚ) * 2 ^ q := (sub_le_sub_iff_right _).1 (by exact_mod_cast h3)
    have h5 : (0 : ℚ) < 2 ^ q := by positivity
    have h6 := le_of_mul_le_mul_right h4 h5
    have h7 : ((2 ^ 52 : ℤ)) ≤ (m : ℤ) := by exact_mod_cast h6
    exact_mod_cast h7
  · right; rw [hq, max_eq_right h'.le]

/-- Normalised numbers with the same magnitude are the same. -/
theorem canon_unique {x y : F64} (hx : Canon x) (hy : Canon y) (h : (x.mant : ℚ) * 2 ^ x.exp = (y.mant : ℚ) * 2 ^ y.exp) :
    x.mant = y.mant ∧ x.exp = y.exp := by
  have two : (2 : ℚ) ≠ 0 := by norm_num
  have pos : ∀ e : ℤ, (0 : ℚ) < 2 ^ e := fun e => by positivity
  -- a larger exponent means a larger number
  have key : ∀ {x y : F64}, Canon x → 0 < x.mant → 0 < y.mant → Canon y → (x.mant : ℚ) * 2 ^ x.exp = (y.mant : ℚ) * 2 ^ y.exp →
      ¬ x.exp < y.exp := by
    intro x y hx h1 h2 hy h hlt
    rcases hx with hx | ⟨_, x1, x2, _, _⟩
    · omega
    rcases hy with hy | ⟨_, _, _, _, y1⟩
    · omega
    have h3 : 2 ^ 52 ≤ y.mant := by rcases y1 with y1 | y1 <;> omega
    have h4 : (y.mant : ℚ) * 2 ^ y.exp = (y.mant * 2 ^ (y.exp - x.exp).toNat : ℕ) * 2 ^ x.exp := by
      push_cast
      rw [mul_assoc, ← zpow_natCast, ← zpow_add₀ two, Int.toNat_of_nonneg (by omega)]
      congr 2; ring
    rw [h4] at h
    have h5 := mul_right_cancel₀ (pos x.exp).ne' h
    have h6 : x.mant = y.mant * 2 ^ (y.exp - x.exp).toNat := by exact_mod_cast h5
    obtain ⟨k, hk⟩ : ∃ k, (y.exp - x.exp).toNat = k + 1 := ⟨(y.exp - x.exp).toNat - 1, by omega⟩
    rw [hk, pow_succ] at h6
    have h7 : 1 ≤ 2 ^ k := Nat.one_le_two_pow
    have : y.mant * 2 ≤ y.mant * (2 ^ k * 2) := Nat.mul_le_mul_left _ (by omega)
    omega
  by_cases zx : x.mant = 0
  · rw [zx, Nat.cast_zero, zero_mul] at h
    have zy : y.mant = 0 := by
      rcases mul_eq_zero.1 h.symm with h | h
      · exact_mod_cast h
      · exact absurd h (pos _).ne'
    refine ⟨zx.trans zy.symm, ?_⟩
    rcases hx with hx | hx
    · rcases hy with hy | hy
      · rw [hx.2, hy.2]
      · omega
    · omega
  · have zy : y.mant ≠ 0 := by
      intro zy
      rw [zy, Nat.cast_zero, zero_mul] at h
      rcases mul_eq_zero.1 h with h | h
      · exact zx (by exact_mod_cast h)
      · exact absurd h (pos _).ne'
    have e : x.exp = y.exp := by
      have h1 := key hx (Nat.pos_of_ne_zero zx) (Nat.pos_of_ne_zero zy) hy h
      have h2 := key hy (Nat.pos_of_ne_zero zy) (Nat.pos_of_ne_zero zx) hx h.symm
      omega
    refine ⟨?_, e⟩
    rw [e] at h
    exact_mod_cast mul_right_cancel₀ (pos y.exp).ne' h

end Verif.F64
