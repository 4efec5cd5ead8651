import Verif.JsonText
import Verif.Spec.JsonText
import Verif.Proofs.LexNum
import Verif.Proofs.PrintNum
/-!
# Numbers in JSON texts read back
-/
namespace Verif
open Spec

theorem intVal_append (a b : List Char) : intVal (a ++ b) = intVal a * 10 ^ b.length + intVal b := by
  induction a with
  | nil => simp [intVal]
  | cons c a ih =>
    rw [List.cons_append, intVal, intVal, ih, List.length_append, pow_add]
    ring

theorem intVal_zeros (n : Nat) : intVal (List.replicate n '0') = 0 := by
  induction n with
  | zero => rfl
  | succ n ih => rw [List.replicate_succ, intVal, ih]; simp [digitVal]

theorem fracVal_eq (f : List Char) : fracVal f = intVal f / 10 ^ f.length := by
  rw [Lexer.intVal_frac f]
  field_simp

theorem toDigits_digit {n : Nat} : ∀ c ∈ Nat.toDigits 10 n, Digit c := by
  intro c hc
  exact F64.digit_of_isDigit (Nat.isDigit_of_mem_toDigits (by norm_num) (by norm_num) hc)

theorem toDigits_ne_nil (n : Nat) : Nat.toDigits 10 n ≠ [] := by
  intro h
  have := Nat.length_toDigits_pos (b := 10) (n := n)
  rw [h] at this
  simp at this

theorem intVal_toDigits (n : Nat) : intVal (Nat.toDigits 10 n) = n := by
  have h := F64.digits_lit n
  generalize hs : Nat.toDigits 10 n = s at h
  generalize hq : (n : ℚ) = q at h
  cases h with
  | int => rfl
  | @frac s f h1 h2 h3 =>
    have := toDigits_digit (n := n) '.' (by rw [hs]; simp)
    exact absurd this (by unfold Digit; decide)

/-- No leading zero. -/
theorem toDigits_head {n : Nat} (hn : 0 < n) : ∃ c s, Nat.toDigits 10 n = c :: s ∧ c ≠ '0' := by
  induction n using Nat.strongRecOn with
  | _ n ih =>
    by_cases h : n < 10
    · rw [Nat.toDigits_of_lt_base h]
      refine ⟨_, _, rfl, ?_⟩
      exact (by decide : ∀ n < 10, 0 < n → Nat.digitChar n ≠ '0') n h hn
    · obtain ⟨c, s, h1, h2⟩ := ih (n / 10) (by omega) (by omega)
      rw [Nat.toDigits_of_base_le (by norm_num) (by omega), h1]
      exact ⟨c, _, rfl, h2⟩

theorem jInt_toDigits (n : Nat) : JInt (Nat.toDigits 10 n) := by
  rcases Nat.eq_zero_or_pos n with rfl | hn
  · exact .zero
  · obtain ⟨c, s, h1, h2⟩ := toDigits_head hn
    have := toDigits_digit (n := n)
    rw [h1] at this ⊢
    simp only [List.mem_cons, forall_eq_or_imp] at this
    exact .digits this.1 h2 this.2

theorem jNum_congr {neg : Bool} {q q' : ℚ} {s s' : List Char} (h : JNum neg q s) (hq : q = q') (hs : s = s') : JNum neg q' s' :=
  hq ▸ hs ▸ h

theorem jNum_nat (n : Nat) : JNum false n (Nat.toDigits 10 n) := by
  have := JNum.mk (neg := false) (jInt_toDigits n) .none .none
  simpa [intVal_toDigits] using this

namespace F64

/-- Digits and the position of the decimal point as a number. -/
def decVal (ds : List Char) (dp : ℤ) : ℚ := intVal ds * 10 ^ (dp - ds.length)

/-- Digits that do not begin with a zero. -/
inductive Led : List Char → Prop
  | mk {c s} : Digit c → c ≠ '0' → (∀ d ∈ s, Digit d) → Led (c :: s)

theorem Led.digit {ds : List Char} (h : Led ds) : ∀ d ∈ ds, Digit d := by
  cases h with
  | mk h1 _ h2 => simp only [List.mem_cons, forall_eq_or_imp]; exact ⟨h1, h2⟩

theorem digit_zero : Digit '0' := by unfold Digit; decide

theorem fmtF_num {ds : List Char} (h : Led ds) (dp : ℤ) (neg : Bool) :
    JNum neg (decVal ds dp) ((if neg then ['-'] else []) ++ fmtF ds dp) := by
  have ten : (10 : ℚ) ≠ 0 := by norm_num
  have hd := h.digit
  unfold fmtF decVal
  by_cases h0 : 0 < dp
  · rw [if_pos h0]
    obtain ⟨k, rfl⟩ : ∃ k : ℕ, dp = k := ⟨dp.toNat, by omega⟩
    simp only [Int.toNat_natCast]
    by_cases h1 : (k : ℤ) < ds.length
    · rw [if_pos h1, show k - ds.length = 0 by omega, show (-(k : ℤ)).toNat = 0 by omega]
      simp only [List.replicate_zero, List.append_nil, List.nil_append]
      have hi : JInt (ds.take k) := by
        obtain ⟨j, rfl⟩ : ∃ j, k = j + 1 := ⟨k - 1, by omega⟩
        cases h with
        | mk a b c => exact .digits a b fun d hd => c d (List.mem_of_mem_take hd)
      have hf : JFrac ('.' :: ds.drop k) (fracVal (ds.drop k)) :=
        .some (by intro e; have := congrArg List.length e; simp at this; omega) fun d hx => hd d (List.mem_of_mem_drop hx)
      have := JNum.mk (neg := neg) hi hf .none
      rw [List.append_nil, List.append_assoc] at this
      refine (Eq.subst (motive := fun q => JNum neg q _) ?_ this)
      have e := intVal_append (ds.take k) (ds.drop k)
      rw [List.take_append_drop] at e
      rw [e, fracVal_eq, zpow_zero, mul_one, List.length_drop, show ((k : ℤ) - ds.length) = -((ds.length - k : ℕ) : ℤ) by omega, zpow_neg,
        zpow_natCast]
      field_simp
    · rw [if_neg h1, List.append_nil, List.take_of_length_le (by omega)]
      have hi : JInt (ds ++ List.replicate (k - ds.length) '0') := by
        cases h with
        | mk a b c =>
          refine .digits a b fun d hd => ?_
          rcases List.mem_append.1 hd with hd | hd
          · exact c d hd
          · rw [List.eq_of_mem_replicate hd]; exact digit_zero
      have := JNum.mk (neg := neg) hi .none .none
      rw [List.append_nil, List.append_nil] at this
      refine (Eq.subst (motive := fun q => JNum neg q _) ?_ this)
      rw [intVal_append, intVal_zeros, List.length_replicate, show ((k : ℤ) - ds.length) = ((k - ds.length : ℕ) : ℤ) by omega, zpow_natCast]
      simp
  · rw [if_neg h0]
    have hl : 0 < ds.length := by cases h; simp
    rw [if_pos (show dp < (ds.length : ℤ) by omega), show dp.toNat = 0 by omega, List.drop_zero]
    obtain ⟨k, rfl⟩ : ∃ k : ℕ, dp = -(k : ℤ) := ⟨(-dp).toNat, by omega⟩
    have hf : JFrac ('.' :: (List.replicate (- -(k : ℤ)).toNat '0' ++ ds)) (fracVal (List.replicate (- -(k : ℤ)).toNat '0' ++ ds)) := by
      refine .some (by intro e; rw [(List.append_eq_nil_iff.1 e).2] at hl; simp at hl) fun d hx => ?_
      rcases List.mem_append.1 hx with hx | hx
      · rw [List.eq_of_mem_replicate hx]; exact digit_zero
      · exact hd d hx
    have := JNum.mk (neg := neg) .zero hf .none
    rw [List.append_nil, List.append_assoc] at this
    refine (Eq.subst (motive := fun q => JNum neg q _) ?_ this)
    rw [fracVal_eq, intVal_append, intVal_zeros, List.length_append, List.length_replicate, show (- -(k : ℤ)).toNat = k by omega,
      show (-(k : ℤ) - ds.length) = -((k + ds.length : ℕ) : ℤ) by push_cast; ring, zpow_neg, zpow_natCast]
    have : intVal ['0'] = 0 := intVal_zeros 1
    rw [this]
    field_simp
    simp

theorem fmtF_zero (neg : Bool) : JNum neg 0 ((if neg then ['-'] else []) ++ fmtF [] 0) := by
  have := JNum.mk (neg := neg) .zero .none .none
  rw [List.append_nil, List.append_nil] at this
  refine (Eq.subst (motive := fun q => JNum neg q _) ?_ this)
  have : intVal ['0'] = 0 := intVal_zeros 1
  rw [this]; simp

theorem fmtE_num {ds : List Char} (h : Led ds) (dp : ℤ) (neg : Bool) :
    JNum neg (decVal ds dp) ((if neg then ['-'] else []) ++ fmtE ds dp) := by
  have ten : (10 : ℚ) ≠ 0 := by norm_num
  have hE : JExp (['e', if dp - 1 < 0 then '-' else '+'] ++ Nat.toDigits 10 (dp - 1).natAbs) (dp - 1) := by
    have h1 := toDigits_ne_nil (dp - 1).natAbs
    have h2 := toDigits_digit (n := (dp - 1).natAbs)
    have h3 := intVal_toDigits (dp - 1).natAbs
    by_cases hs : dp - 1 < 0
    · rw [if_pos hs]
      have := JExp.minus (c := 'e') (.inl rfl) h1 h2 h3
      rwa [show -(((dp - 1).natAbs : ℕ) : ℤ) = dp - 1 by omega] at this
    · rw [if_neg hs]
      have := JExp.plus (c := 'e') (.inl rfl) h1 h2 h3
      rwa [show (((dp - 1).natAbs : ℕ) : ℤ) = dp - 1 by omega] at this
  unfold fmtE decVal
  cases h with
  | @mk c s a b e =>
    have hi : JInt [c] := .digits a b (by simp)
    cases s with
    | nil =>
      have := JNum.mk (neg := neg) hi .none hE
      refine jNum_congr this ?_ (by simp)
      simp
    | cons d s =>
      have := JNum.mk (neg := neg) hi (.some (by simp) e) hE
      refine jNum_congr this ?_ (by simp)
      rw [fracVal_eq]
      have e := intVal_append [c] (d :: s)
      rw [List.singleton_append] at e
      rw [e, show dp - ((c :: d :: s).length : ℤ) = (dp - 1) - ((d :: s).length : ℕ) by simp; ring, zpow_sub₀ ten (dp - 1), zpow_natCast]
      field_simp

/-! ## The shortest decimal -/

theorem top_bot (x : F64) : (x.top : ℚ) / x.bot = (x.mant : ℚ) * 2 ^ x.exp := by
  have two : (2 : ℚ) ≠ 0 := by norm_num
  unfold top bot
  rcases le_or_gt 0 x.exp with h | h
  · rw [show (-x.exp).toNat = 0 by omega]
    push_cast
    rw [div_one, ← zpow_natCast, Int.toNat_of_nonneg h]
  · rw [show x.exp.toNat = 0 by omega]
    push_cast
    rw [mul_one, ← zpow_natCast, Int.toNat_of_nonneg (by omega), zpow_neg, div_eq_mul_inv, inv_inv]

/-- A normalised number reads back from a fraction that is exact. -/
theorem ofRat_exact {x : F64} (hx : Canon x) {n d : Nat} (hd : d ≠ 0) (h : (n : ℚ) / d = (x.mant : ℚ) * 2 ^ x.exp) :
    ofRat n d = some { x with neg := false } := by
  have hf : Finite64 { x with neg := false } := by
    rcases hx with ⟨h1, h2⟩ | ⟨_, h1, h2, h3, _⟩
    · exact ⟨by show x.mant < 2 ^ 53; rw [h1]; norm_num, by show -1074 ≤ x.exp; omega, by show x.exp ≤ 971; omega⟩
    · exact ⟨h1, h2, h3⟩
  have hr : toRat { x with neg := false } = (n : ℚ) / d := by rw [h]; simp [toRat]
  cases ho : ofRat n d with
  | none =>
    exfalso
    have h1 := (ofRat_none_iff hd).1 ho
    rw [h] at h1
    have h2 : (x.mant : ℚ) ≤ 2 ^ 53 - 1 := by
      have : x.mant + 1 ≤ 2 ^ 53 := hf.1
      have : ((x.mant + 1 : ℕ) : ℚ) ≤ (2 ^ 53 : ℕ) := by exact_mod_cast this
      push_cast at this
      linarith
    have h3 : (2 : ℚ) ^ x.exp ≤ 2 ^ (971 : ℤ) := zpow_le_zpow_right₀ (by norm_num) hf.2.2
    have h4 : (x.mant : ℚ) * 2 ^ x.exp ≤ (2 ^ 53 - 1) * 2 ^ (971 : ℤ) := by
      apply mul_le_mul h2 h3 (by positivity) (by norm_num)
    have h5 : ((2 : ℚ) ^ 53 - 1) * 2 ^ (971 : ℤ) < overflow64 := by
      unfold overflow64
      rw [show (971 : ℤ) = ((1 + 970 : ℕ) : ℤ) by norm_num, zpow_natCast, show 1024 = 54 + 970 by norm_num, pow_add, pow_add]
      have h6 : (0 : ℚ) < 2 ^ 970 := by positivity
      generalize (2 : ℚ) ^ 970 = t at h6
      norm_num
      linarith
    linarith
  | some y =>
    have h1 := ofRat_nearest hd ho
    have h2 := h1.2 _ hf
    rw [hr, sub_self, abs_zero] at h2
    have h3 : toRat y = (n : ℚ) / d := by
      have := abs_nonpos_iff.1 h2
      linarith
    have hn := ofRat_neg ho
    rw [h] at h3
    have h4 : (y.mant : ℚ) * 2 ^ y.exp = (x.mant : ℚ) * 2 ^ x.exp := by
      rw [← h3]; simp [toRat, hn]
    obtain ⟨e1, e2⟩ := canon_unique (ofRat_canon hd ho) hx h4
    cases y
    simp only at e1 e2 hn
    subst e1; subst e2; subst hn
    rfl

theorem scale_val (m : Nat) (e : ℤ) : ((m * 10 ^ e.toNat : ℕ) : ℚ) / (10 ^ (-e).toNat : ℕ) = m * 10 ^ e := by
  rcases le_or_gt 0 e with h | h
  · rw [show (-e).toNat = 0 by omega]
    push_cast
    rw [div_one, ← zpow_natCast, Int.toNat_of_nonneg h]
  · rw [show e.toNat = 0 by omega]
    push_cast
    rw [mul_one, ← zpow_natCast, Int.toNat_of_nonneg (by omega), zpow_neg, div_eq_mul_inv, inv_inv]

theorem exactly_val (x : F64) : ((exactly x).1 : ℚ) * 10 ^ (exactly x).2 = (x.mant : ℚ) * 2 ^ x.exp := by
  unfold exactly
  split
  · next h =>
    push_cast
    rw [mul_one, ← zpow_natCast, Int.toNat_of_nonneg h]
  · next h =>
    push_cast
    rw [← zpow_natCast, Int.toNat_of_nonneg (by omega), mul_assoc, zpow_neg, show (10 : ℚ) = 5 * 2 by norm_num, mul_zpow, ← mul_assoc (_⁻¹),
      inv_mul_cancel₀ (zpow_ne_zero _ (by norm_num)), one_mul]

/-- The shortest decimal reads back. -/
theorem shortest_reads {x : F64} (hx : Canon x) : readsBack x (shortest x) = true := by
  unfold shortest
  split
  · next h =>
    rcases hx with ⟨h1, h2⟩ | ⟨h1, _⟩
    · simp [readsBack, ofRat, h1, h2]
    · omega
  · next h =>
    cases hf : ((List.range' 1 17).flatMap (around x)).find? (readsBack x) with
    | none =>
      rw [Option.getD_none, readsBack, decide_eq_true_eq]
      exact ofRat_exact hx (by positivity) ((scale_val _ _).trans (exactly_val x))
    | some c => exact List.find?_some hf

theorem shortest_zero {x : F64} (hx : Canon x) : (shortest x).1 = 0 ↔ x.mant = 0 := by
  constructor
  · intro h
    have := shortest_reads hx
    rw [readsBack, decide_eq_true_eq, h, zero_mul, ofRat, if_pos rfl] at this
    injection this with this
    exact (congrArg F64.mant this).symm
  · intro h
    rw [shortest, if_pos h]

/-- What the decimal is worth. -/
theorem decimal_spec {x : F64} (h0 : (shortest x).1 ≠ 0) :
    Led (decimal x).1 ∧ decVal (decimal x).1 (decimal x).2 = (shortest x).1 * 10 ^ (shortest x).2 := by
  unfold decimal
  generalize hs : shortest x = c at h0
  obtain ⟨m, e⟩ := c
  dsimp only at h0 ⊢
  rw [if_neg h0]
  dsimp only
  obtain ⟨c, s, h1, h2⟩ := toDigits_head (n := m) (by omega)
  have h3 := toDigits_digit (n := m)
  have h4 := intVal_toDigits m
  -- the zeros at the end
  have hz : ∃ k, Nat.toDigits 10 m = ((Nat.toDigits 10 m).reverse.dropWhile (· == '0')).reverse ++ List.replicate k '0' := by
    have := (List.takeWhile_append_dropWhile (p := (· == '0')) (l := (Nat.toDigits 10 m).reverse)).symm
    have h5 : (Nat.toDigits 10 m).reverse.takeWhile (· == '0') = List.replicate ((Nat.toDigits 10 m).reverse.takeWhile (· == '0')).length '0' :=
      List.eq_replicate_of_mem fun d hd => by
        have := List.all_eq_true.1 (List.all_takeWhile (p := (· == '0')) (l := (Nat.toDigits 10 m).reverse)) d hd
        simpa using this
    refine ⟨((Nat.toDigits 10 m).reverse.takeWhile (· == '0')).length, ?_⟩
    have h6 := congrArg List.reverse this
    rw [List.reverse_reverse, List.reverse_append, h5, List.reverse_replicate] at h6
    exact h6
  obtain ⟨k, hk⟩ := hz
  generalize ((Nat.toDigits 10 m).reverse.dropWhile (· == '0')).reverse = ds at hk
  have hne : ds ≠ [] := by
    rintro rfl
    rw [List.nil_append] at hk
    rw [hk, intVal_zeros] at h4
    exact h0 (by exact_mod_cast h4.symm)
  refine ⟨?_, ?_⟩
  · cases ds with
    | nil => exact absurd rfl hne
    | cons d ds =>
      rw [hk, List.cons_append] at h1 h3
      injection h1 with e1 e2
      subst e1
      exact .mk (h3 _ (by simp)) h2 fun y hy => h3 y (by simp [hy])
  · rw [hk, intVal_append, intVal_zeros, List.length_replicate] at h4
    rw [decVal, ← h4, hk, List.length_append, List.length_replicate, add_zero,
      show ((ds.length + k : ℕ) : ℤ) + e - ds.length = (k : ℕ) + e by push_cast; ring, zpow_add₀ (by norm_num), zpow_natCast]
    ring

/-- The decimal a number is written as. -/
def shown (x : F64) : ℚ := (shortest x).1 * 10 ^ (shortest x).2

theorem numText_num {x : F64} (hx : Canon x) : JNum x.neg (shown x) (numText x) := by
  unfold numText
  by_cases h0 : x.mant = 0
  · have h : shortest x = (0, 0) := by rw [shortest, if_pos h0]
    have hd : decimal x = ([], 0) := by unfold decimal; rw [h]; rfl
    rw [hd]
    dsimp only
    have hc : ¬ (x.mant ≠ 0 ∧ (x.below millionth = true ∨ ¬ x.below sextillion = true)) := fun hc => hc.1 h0
    rw [if_neg hc, shown, h]
    simpa using fmtF_zero x.neg
  · obtain ⟨h1, h2⟩ := decimal_spec (x := x) (fun h => h0 ((shortest_zero hx).1 h))
    rw [shown, ← h2]
    dsimp only
    by_cases hc : x.mant ≠ 0 ∧ (x.below millionth = true ∨ ¬ x.below sextillion = true)
    · rw [if_pos hc]; exact fmtE_num h1 _ _
    · rw [if_neg hc]; exact fmtF_num h1 _ _

theorem shown_readAs {x : F64} (hx : Canon x) : ReadAs (shown x) { x with neg := false } := by
  have h := shortest_reads hx
  rw [readsBack, decide_eq_true_eq] at h
  have hv := scale_val (shortest x).1 (shortest x).2
  refine ⟨?_, _, _, ?_, hv.symm, h⟩
  · rw [shown, ← hv]
    exact ofRat_nearest (by positivity) h
  · positivity

end F64
end Verif
