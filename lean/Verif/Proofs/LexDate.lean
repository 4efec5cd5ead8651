import Verif.Proofs.LexNum
/-! Dates. -/
namespace Verif.Lexer
open List Spec

theorem digitChar_digit {n : Nat} (h : n < 10) : Digit (digitChar n) ∧ (digitChar n).toNat - 48 = n := by
  have : ∀ n < 10, Digit (digitChar n) ∧ (digitChar n).toNat - 48 = n := by unfold Digit; decide +kernel
  exact this n h

theorem digit_digitChar {c : Char} (h : Digit c) : ∃ n < 10, c = digitChar n := by
  have : ∀ c ∈ ['0', '1', '2', '3', '4', '5', '6', '7', '8', '9'], ∃ n < 10, c = digitChar n := by
    decide +kernel
  exact this c h

theorem digits_cons {n : Nat} {s : List Char} (hs : ∀ c ∈ s, Digit c) (hl : s.length = n + 1) :
    ∃ a < 10, ∃ s', s = digitChar a :: s' ∧ (∀ c ∈ s', Digit c) ∧ s'.length = n := by
  cases s with
  | nil => simp at hl
  | cons c s =>
    simp only [mem_cons, forall_eq_or_imp] at hs
    obtain ⟨a, ha, rfl⟩ := digit_digitChar hs.1
    exact ⟨a, ha, s, rfl, hs.2, by simpa using hl⟩

theorem leap_iff (y : Nat) : Time.isLeap y = true ↔ LeapYear y := by
  unfold Time.isLeap LeapYear
  simp only [Bool.and_eq_true, Bool.or_eq_true, decide_eq_true_eq, Nat.dvd_iff_mod_eq_zero]
  omega

theorem daysIn_eq {m : Nat} (y : Nat) (h : 1 ≤ m) (h' : m ≤ 12) : Time.daysIn m y = monthLength y m := by
  have hm : m = 1 ∨ m = 2 ∨ m = 3 ∨ m = 4 ∨ m = 5 ∨ m = 6 ∨ m = 7 ∨ m = 8 ∨ m = 9 ∨ m = 10 ∨ m = 11 ∨ m = 12 := by
    omega
  rcases hm with rfl | rfl | rfl | rfl | rfl | rfl | rfl | rfl | rfl | rfl | rfl | rfl
  case inr.inl => simp [Time.daysIn, monthLength, leap_iff]
  all_goals rfl

theorem monthLength_pos {y m : Nat} (h : 1 ≤ monthLength y m) : 1 ≤ m ∧ m ≤ 12 := by
  unfold monthLength at h
  split at h <;> omega

theorem valid_iff {t : Time} (hy : t.year ≤ 9999) : t.valid = true ↔ CalendarDate t := by
  unfold Time.valid CalendarDate
  simp only [Bool.and_eq_true, decide_eq_true_eq]
  constructor
  · rintro ⟨⟨⟨⟨⟨⟨h1, h2⟩, h3⟩, h4⟩, h5⟩, h6⟩, h7⟩
    rw [daysIn_eq _ h1 h2] at h4
    exact ⟨hy, h3, h4, h5, h6, h7⟩
  · rintro ⟨_, h3, h4, h5, h6, h7⟩
    obtain ⟨h1, h2⟩ := monthLength_pos (le_trans h3 h4)
    rw [← daysIn_eq _ h1 h2] at h4
    exact ⟨⟨⟨⟨⟨⟨h1, h2⟩, h3⟩, h4⟩, h5⟩, h6⟩, h7⟩

theorem two_eq {a b : Nat} (_ha : a < 10) (hb : b < 10) : two (10 * a + b) = [digitChar a, digitChar b] := by
  unfold two
  rw [show (10 * a + b) / 10 = a by omega, show (10 * a + b) % 10 = b by omega]

theorem four_eq {a b c d : Nat} (ha : a < 10) (hb : b < 10) (hc : c < 10) (hd : d < 10) :
    four (10 * (10 * (10 * a + b) + c) + d) = [digitChar a, digitChar b, digitChar c, digitChar d] := by
  unfold four
  rw [show (10 * (10 * (10 * a + b) + c) + d) / 100 = 10 * a + b by omega,
    show (10 * (10 * (10 * a + b) + c) + d) % 100 = 10 * c + d by omega, two_eq ha hb, two_eq hc hd]
  rfl

theorem monthLength_le (y m : Nat) : monthLength y m ≤ 31 := by
  unfold monthLength
  split <;> first | omega | (split <;> omega)

/-- Two digits of a number below 100. -/
theorem two_split {n : Nat} (h : n < 100) : ∃ a < 10, ∃ b < 10, n = 10 * a + b :=
  ⟨n / 10, by omega, n % 10, by omega, by omega⟩

theorem four_split {n : Nat} (h : n ≤ 9999) :
    ∃ a < 10, ∃ b < 10, ∃ c < 10, ∃ d < 10, n = 10 * (10 * (10 * a + b) + c) + d :=
  ⟨n / 1000, by omega, n / 100 % 10, by omega, n / 10 % 10, by omega, n % 10, by omega, by omega⟩

theorem field2 {a b : Nat} (ha : a < 10) (hb : b < 10) :
    [digitChar a, digitChar b].foldl (fun a c => 10 * a + (c.toNat - 48)) 0 = 10 * a + b := by
  simp only [foldl_cons, foldl_nil, (digitChar_digit ha).2, (digitChar_digit hb).2]; omega

theorem field4 {a b c d : Nat} (ha : a < 10) (hb : b < 10) (hc : c < 10) (hd : d < 10) :
    [digitChar a, digitChar b, digitChar c, digitChar d].foldl (fun a c => 10 * a + (c.toNat - 48)) 0 =
      10 * (10 * (10 * a + b) + c) + d := by
  simp only [foldl_cons, foldl_nil, (digitChar_digit ha).2, (digitChar_digit hb).2, (digitChar_digit hc).2,
    (digitChar_digit hd).2]; omega

theorem parse8 {s : List Char} (hs : ∀ c ∈ s, Digit c) (t : Time) :
    Time.parse 8 s = some t ↔ CalendarDate t ∧ t.hour = 0 ∧ t.min = 0 ∧ t.sec = 0 ∧
      s = four t.year ++ two t.month ++ two t.day := by
  constructor
  · intro h
    unfold Time.parse at h
    split at h
    swap
    · cases h
    rename_i hl
    obtain ⟨a, ha, s, rfl, hs, hl⟩ := digits_cons hs hl
    obtain ⟨b, hb, s, rfl, hs, hl⟩ := digits_cons hs hl
    obtain ⟨c, hc, s, rfl, hs, hl⟩ := digits_cons hs hl
    obtain ⟨d, hd, s, rfl, hs, hl⟩ := digits_cons hs hl
    obtain ⟨e, he, s, rfl, hs, hl⟩ := digits_cons hs hl
    obtain ⟨f, hf, s, rfl, hs, hl⟩ := digits_cons hs hl
    obtain ⟨g, hg, s, rfl, hs, hl⟩ := digits_cons hs hl
    obtain ⟨i, hi, s, rfl, hs, hl⟩ := digits_cons hs hl
    obtain rfl := eq_nil_of_length_eq_zero hl
    simp only [Time.field, drop_zero, drop_succ_cons, drop_nil, take_succ_cons, take_zero, take_nil,
      Nat.reduceSub, foldl_nil] at h
    rw [field4 ha hb hc hd, field2 he hf, field2 hg hi] at h
    split at h
    swap
    · cases h
    rename_i hv
    injection h with h
    subst h
    refine ⟨(valid_iff (by dsimp only; omega)).1 hv, rfl, rfl, rfl, ?_⟩
    dsimp only
    rw [four_eq ha hb hc hd, two_eq he hf, two_eq hg hi]
    rfl
  · rintro ⟨hcal, h1, h2, h3, rfl⟩
    have hv := (valid_iff hcal.1).2 hcal
    obtain ⟨y, mo, da, ho, mi, se⟩ := t
    dsimp only at h1 h2 h3 ⊢
    subst h1 h2 h3
    obtain ⟨hy, hd1, hd2, _⟩ := hcal
    dsimp only at hy hd1 hd2
    have := monthLength_le y mo
    have hmo := monthLength_pos (le_trans hd1 hd2)
    obtain ⟨a, ha, b, hb, c, hc, d, hd, rfl⟩ := four_split hy
    obtain ⟨e, he, f, hf, rfl⟩ := two_split (n := mo) (by omega)
    obtain ⟨g, hg, i, hi, rfl⟩ := two_split (n := da) (by omega)
    rw [four_eq ha hb hc hd, two_eq he hf, two_eq hg hi]
    unfold Time.parse
    simp only [Time.field, drop_zero, drop_succ_cons, drop_nil, take_succ_cons, take_zero, take_nil,
      Nat.reduceSub, foldl_nil, cons_append, nil_append, length_cons, length_nil]
    rw [field4 ha hb hc hd, field2 he hf, field2 hg hi]
    rw [if_pos trivial, if_pos hv]

theorem parse12 {s : List Char} (hs : ∀ c ∈ s, Digit c) (t : Time) :
    Time.parse 12 s = some t ↔ CalendarDate t ∧ t.sec = 0 ∧
      s = four t.year ++ two t.month ++ two t.day ++ two t.hour ++ two t.min := by
  constructor
  · intro h
    unfold Time.parse at h
    split at h
    swap
    · cases h
    rename_i hl
    obtain ⟨a, ha, s, rfl, hs, hl⟩ := digits_cons hs hl
    obtain ⟨b, hb, s, rfl, hs, hl⟩ := digits_cons hs hl
    obtain ⟨c, hc, s, rfl, hs, hl⟩ := digits_cons hs hl
    obtain ⟨d, hd, s, rfl, hs, hl⟩ := digits_cons hs hl
    obtain ⟨e, he, s, rfl, hs, hl⟩ := digits_cons hs hl
    obtain ⟨f, hf, s, rfl, hs, hl⟩ := digits_cons hs hl
    obtain ⟨g, hg, s, rfl, hs, hl⟩ := digits_cons hs hl
    obtain ⟨i, hi, s, rfl, hs, hl⟩ := digits_cons hs hl
    obtain ⟨j, hj, s, rfl, hs, hl⟩ := digits_cons hs hl
    obtain ⟨k, hk, s, rfl, hs, hl⟩ := digits_cons hs hl
    obtain ⟨l, hll, s, rfl, hs, hl⟩ := digits_cons hs hl
    obtain ⟨m, hm, s, rfl, hs, hl⟩ := digits_cons hs hl
    obtain rfl := eq_nil_of_length_eq_zero hl
    simp only [Time.field, drop_zero, drop_succ_cons, drop_nil, take_succ_cons, take_zero, take_nil,
      Nat.reduceSub, foldl_nil] at h
    rw [field4 ha hb hc hd, field2 he hf, field2 hg hi, field2 hj hk, field2 hll hm] at h
    split at h
    swap
    · cases h
    rename_i hv
    injection h with h
    subst h
    refine ⟨(valid_iff (by dsimp only; omega)).1 hv, rfl, ?_⟩
    dsimp only
    rw [four_eq ha hb hc hd, two_eq he hf, two_eq hg hi, two_eq hj hk, two_eq hll hm]
    rfl
  · rintro ⟨hcal, h3, rfl⟩
    have hv := (valid_iff hcal.1).2 hcal
    obtain ⟨y, mo, da, ho, mi, se⟩ := t
    dsimp only at h3 ⊢
    subst h3
    obtain ⟨hy, hd1, hd2, hh, hmi, _⟩ := hcal
    dsimp only at hy hd1 hd2 hh hmi
    have := monthLength_le y mo
    have hmo := monthLength_pos (le_trans hd1 hd2)
    obtain ⟨a, ha, b, hb, c, hc, d, hd, rfl⟩ := four_split hy
    obtain ⟨e, he, f, hf, rfl⟩ := two_split (n := mo) (by omega)
    obtain ⟨g, hg, i, hi, rfl⟩ := two_split (n := da) (by omega)
    obtain ⟨j, hj, k, hk, rfl⟩ := two_split (n := ho) (by omega)
    obtain ⟨l, hl, m, hm, rfl⟩ := two_split (n := mi) (by omega)
    rw [four_eq ha hb hc hd, two_eq he hf, two_eq hg hi, two_eq hj hk, two_eq hl hm]
    unfold Time.parse
    simp only [Time.field, drop_zero, drop_succ_cons, drop_nil, take_succ_cons, take_zero, take_nil,
      Nat.reduceSub, foldl_nil, cons_append, nil_append, length_cons, length_nil]
    rw [field4 ha hb hc hd, field2 he hf, field2 hg hi, field2 hj hk, field2 hl hm]
    rw [if_pos trivial, if_pos hv]

theorem parse14 {s : List Char} (hs : ∀ c ∈ s, Digit c) (t : Time) :
    Time.parse 14 s = some t ↔ CalendarDate t ∧
      s = four t.year ++ two t.month ++ two t.day ++ two t.hour ++ two t.min ++ two t.sec := by
  constructor
  · intro h
    unfold Time.parse at h
    split at h
    swap
    · cases h
    rename_i hl
    obtain ⟨a, ha, s, rfl, hs, hl⟩ := digits_cons hs hl
    obtain ⟨b, hb, s, rfl, hs, hl⟩ := digits_cons hs hl
    obtain ⟨c, hc, s, rfl, hs, hl⟩ := digits_cons hs hl
    obtain ⟨d, hd, s, rfl, hs, hl⟩ := digits_cons hs hl
    obtain ⟨e, he, s, rfl, hs, hl⟩ := digits_cons hs hl
    obtain ⟨f, hf, s, rfl, hs, hl⟩ := digits_cons hs hl
    obtain ⟨g, hg, s, rfl, hs, hl⟩ := digits_cons hs hl
    obtain ⟨i, hi, s, rfl, hs, hl⟩ := digits_cons hs hl
    obtain ⟨j, hj, s, rfl, hs, hl⟩ := digits_cons hs hl
    obtain ⟨k, hk, s, rfl, hs, hl⟩ := digits_cons hs hl
    obtain ⟨l, hll, s, rfl, hs, hl⟩ := digits_cons hs hl
    obtain ⟨m, hm, s, rfl, hs, hl⟩ := digits_cons hs hl
    obtain ⟨n, hn, s, rfl, hs, hl⟩ := digits_cons hs hl
    obtain ⟨o, ho, s, rfl, hs, hl⟩ := digits_cons hs hl
    obtain rfl := eq_nil_of_length_eq_zero hl
    simp only [Time.field, drop_zero, drop_succ_cons, drop_nil, take_succ_cons, take_zero, take_nil,
      Nat.reduceSub] at h
    rw [field4 ha hb hc hd, field2 he hf, field2 hg hi, field2 hj hk, field2 hll hm, field2 hn ho] at h
    split at h
    swap
    · cases h
    rename_i hv
    injection h with h
    subst h
    refine ⟨(valid_iff (by dsimp only; omega)).1 hv, ?_⟩
    dsimp only
    rw [four_eq ha hb hc hd, two_eq he hf, two_eq hg hi, two_eq hj hk, two_eq hll hm, two_eq hn ho]
    rfl
  · rintro ⟨hcal, rfl⟩
    have hv := (valid_iff hcal.1).2 hcal
    obtain ⟨y, mo, da, ho, mi, se⟩ := t
    dsimp only
    obtain ⟨hy, hd1, hd2, hh, hmi, hse⟩ := hcal
    dsimp only at hy hd1 hd2 hh hmi hse
    have := monthLength_le y mo
    have hmo := monthLength_pos (le_trans hd1 hd2)
    obtain ⟨a, ha, b, hb, c, hc, d, hd, rfl⟩ := four_split hy
    obtain ⟨e, he, f, hf, rfl⟩ := two_split (n := mo) (by omega)
    obtain ⟨g, hg, i, hi, rfl⟩ := two_split (n := da) (by omega)
    obtain ⟨j, hj, k, hk, rfl⟩ := two_split (n := ho) (by omega)
    obtain ⟨l, hl, m, hm, rfl⟩ := two_split (n := mi) (by omega)
    obtain ⟨n, hn, o, ho, rfl⟩ := two_split (n := se) (by omega)
    rw [four_eq ha hb hc hd, two_eq he hf, two_eq hg hi, two_eq hj hk, two_eq hl hm, two_eq hn ho]
    unfold Time.parse
    simp only [Time.field, drop_zero, drop_succ_cons, drop_nil, take_succ_cons, take_zero, take_nil,
      Nat.reduceSub, foldl_nil, cons_append, nil_append, length_cons, length_nil]
    rw [field4 ha hb hc hd, field2 he hf, field2 hg hi, field2 hj hk, field2 hl hm, field2 hn ho]
    rw [if_pos trivial, if_pos hv]

theorem dateDigits_iff (t : Time) (s : List Char) : DateDigits t s ↔
    (t.hour = 0 ∧ t.min = 0 ∧ t.sec = 0 ∧ s = four t.year ++ two t.month ++ two t.day) ∨
    (t.sec = 0 ∧ s = four t.year ++ two t.month ++ two t.day ++ two t.hour ++ two t.min) ∨
    s = four t.year ++ two t.month ++ two t.day ++ two t.hour ++ two t.min ++ two t.sec := by
  constructor
  · intro h
    cases h with
    | day a b c => exact .inl ⟨a, b, c, rfl⟩
    | minute a => exact .inr (.inl ⟨a, rfl⟩)
    | second => exact .inr (.inr rfl)
  · rintro (⟨a, b, c, rfl⟩ | ⟨a, rfl⟩ | rfl)
    · exact .day a b c
    · exact .minute a
    · exact .second

theorem two_len (n : Nat) : (two n).length = 2 := rfl
theorem four_len (n : Nat) : (four n).length = 4 := rfl

theorem parse_len {n : Nat} {s : List Char} (h : s.length ≠ n) : Time.parse n s = none := by
  unfold Time.parse
  rw [if_neg h]

theorem valueOf_date {ds : List Char} (hd : ∀ c ∈ ds, Digit c) (hne : ds ≠ []) (old : Val) :
    (∃ t, DateValue ds t ∧ valueOf tDate ds old = .ok (.date t)) ∨
    ((¬ ∃ t, DateValue ds t) ∧ valueOf tDate ds old = .error .badDate) := by
  unfold valueOf
  rw [if_neg (by decide), if_neg (by decide), if_pos rfl]
  split
  · rename_i h0
    refine .inl ⟨_, .zero hne ?_, rfl⟩
    simpa using h0
  · rename_i h0
    have hnz : ∃ c ∈ ds, c ≠ '0' := by simpa using h0
    have key : ∀ t, DateValue ds t ↔ Time.parse 8 ds = some t ∨ Time.parse 12 ds = some t ∨ Time.parse 14 ds = some t := by
      intro t
      rw [parse8 hd, parse12 hd, parse14 hd]
      constructor
      · intro h
        cases h with
        | zero _ h => obtain ⟨c, hc, hc'⟩ := hnz; exact absurd (h c hc) hc'
        | date _ hc h =>
          rcases (dateDigits_iff _ _).1 h with ⟨h1, h2, h3, h4⟩ | ⟨h1, h2⟩ | h1
          · exact .inl ⟨hc, h1, h2, h3, h4⟩
          · exact .inr (.inl ⟨hc, h1, h2⟩)
          · exact .inr (.inr ⟨hc, h1⟩)
      · rintro (⟨hc, h1, h2, h3, h4⟩ | ⟨hc, h1, h2⟩ | ⟨hc, h1⟩)
        · exact .date hnz hc ((dateDigits_iff _ _).2 (.inl ⟨h1, h2, h3, h4⟩))
        · exact .date hnz hc ((dateDigits_iff _ _).2 (.inr (.inl ⟨h1, h2⟩)))
        · exact .date hnz hc ((dateDigits_iff _ _).2 (.inr (.inr h1)))
    cases h8 : Time.parse 8 ds with
    | some t => exact .inl ⟨t, (key t).2 (.inl h8), rfl⟩
    | none =>
      cases h12 : Time.parse 12 ds with
      | some t => exact .inl ⟨t, (key t).2 (.inr (.inl h12)), rfl⟩
      | none =>
        cases h14 : Time.parse 14 ds with
        | some t => exact .inl ⟨t, (key t).2 (.inr (.inr h14)), rfl⟩
        | none =>
          refine .inr ⟨?_, rfl⟩
          rintro ⟨t, ht⟩
          rcases (key t).1 ht with h | h | h <;> simp_all

theorem extract_digit {c : Char} (h : Digit c) (v : List Char) : extractDigits (c :: v) = c :: extractDigits v := by
  unfold extractDigits
  rw [filter_cons, if_pos ((isDigit_iff c).2 h)]

theorem extract_other {c : Char} (h : ¬ Digit c) (v : List Char) : extractDigits (c :: v) = extractDigits v := by
  unfold extractDigits
  rw [filter_cons, if_neg (fun e => h ((isDigit_iff c).1 e))]

theorem not_digit_newline : ¬ Digit '\n' := by unfold Digit; decide
theorem not_digit_bar : ¬ Digit '|' := by unfold Digit; decide
theorem not_digit_quote : ¬ Digit '"' := by unfold Digit; decide
theorem digit_plain {c : Char} (h : Digit c) : c ≠ '\'' ∧ c ≠ '\n' := by
  have : ∀ c ∈ ['0', '1', '2', '3', '4', '5', '6', '7', '8', '9'], c ≠ '\'' ∧ c ≠ '\n' := by decide
  exact this c h

/-- The scanner reads what the specification says. -/
theorem scanString_date {s ds : List Char} (h : DateSrc s ds) (a : Char) {r : List Char} (hr : NoQuoteNext r) :
    ∃ v, scanString '\'' (a :: (s ++ '\'' :: r)) = (.ok v, skipSpace r) ∧ extractDigits v = ds := by
  induction h generalizing a with
  | nil =>
    have h1 : r.head? ≠ some '"' := by
      intro e
      cases r with
      | nil => cases e
      | cons c r =>
        simp only [head?_cons, Option.some.injEq] at e
        subst e
        exact hr [] _ rfl (by simp) _ rfl
    refine ⟨[], ?_, rfl⟩
    rw [scanString_eq]
    simp only [nil_append, tail_cons]
    rw [if_neg (by decide), if_pos trivial, if_neg h1, if_neg ((noQuoteNext_iff r).1 hr)]
  | @digit c s ds h1 _ ih =>
    obtain ⟨v, hv, e⟩ := ih c
    refine ⟨c :: v, ?_, by rw [extract_digit h1, e]⟩
    rw [scanString_eq]
    simp only [cons_append, tail_cons]
    rw [if_neg (digit_plain h1).2, if_neg (digit_plain h1).1, hv]
    rfl
  | @other c s ds h1 h2 h3 _ ih =>
    obtain ⟨v, hv, e⟩ := ih c
    refine ⟨c :: v, ?_, by rw [extract_other h1, e]⟩
    rw [scanString_eq]
    simp only [cons_append, tail_cons]
    rw [if_neg h3, if_neg h2, hv]
    rfl
  | @line l s ds hl _ ih =>
    obtain ⟨v, hv, e⟩ := ih '|'
    refine ⟨'\n' :: '|' :: v, ?_, by rw [extract_other not_digit_newline, extract_other not_digit_bar, e]⟩
    rw [scanString_eq]
    simp only [cons_append, tail_cons, append_assoc]
    rw [if_pos trivial, skip_lineLayout hl]
    dsimp only
    rw [if_neg (by simp), hv]
    rfl
  | @resume b s ds hb _ ih =>
    obtain ⟨v, hv, e⟩ := ih '"'
    cases b with
    | nil =>
      refine ⟨'"' :: '"' :: v, ?_, by rw [extract_other not_digit_quote, extract_other not_digit_quote, e]⟩
      rw [scanString_eq]
      simp only [cons_append, tail_cons, nil_append]
      rw [if_neg (by decide), if_pos trivial, head?_cons, if_pos rfl, hv]
      rfl
    | cons c b' =>
      have hc : c ≠ '"' := by
        rintro rfl
        have := hb _ mem_cons_self
        simp [Blank] at this
      refine ⟨v, ?_, e⟩
      rw [scanString_eq]
      simp only [cons_append, tail_cons, append_assoc]
      have hq : skipSpace (c :: (b' ++ '"' :: (s ++ '\'' :: r))) = '"' :: (s ++ '\'' :: r) := by
        rw [← cons_append, skipSpace_blanks hb, skipSpace, if_neg (by decide)]
      rw [if_neg (by decide), if_pos trivial, if_neg (by simpa using hc), hq, head?_cons, if_pos rfl, hv]

/-- Whatever the scanner accepts is described by the specification. -/
theorem scanString_date_inv (n : Nat) : ∀ (s v rest : List Char), s.length ≤ n → s ≠ [] →
    scanString '\'' s = (.ok v, rest) →
    ∃ src r, s.tail = src ++ '\'' :: r ∧ DateSrc src (extractDigits v) ∧ NoQuoteNext r ∧ rest = skipSpace r := by
  induction n with
  | zero => intro s v rest hs hne; cases s; exact absurd rfl hne; simp at hs
  | succ n ih =>
    intro s v rest hs _ h
    rw [scanString_eq] at h
    cases s with
    | nil => simp at h
    | cons a s =>
      rw [tail_cons] at h ⊢
      simp only [length_cons] at hs
      cases s with
      | nil => simp at h
      | cons c s =>
        simp only [length_cons] at hs
        dsimp only at h
        split at h
        · rename_i hc
          subst hc
          have hns := skipComment_notSpace (skipSpace_clean s)
          have hlen := ((skipComment_suffix (skipSpace s)).trans (skipSpace_suffix s)).length_le
          split at h
          · simp at h
          · rename_i d r' hd
            rw [hd] at hlen
            split at h
            · simp at h
            · rename_i hbar
              obtain ⟨v', h', rfl⟩ := addLit_ok h
              have hd' : d = '|' := by
                have hsp := hns d r' hd
                apply Classical.byContradiction
                intro h0
                exact hbar ⟨h0, by simp [hsp]⟩
              subst hd'
              obtain ⟨src, r, h1, h2, h3, h4⟩ := ih _ _ _ (by omega) (by simp) h'
              obtain ⟨l, hl, hs'⟩ := lineLayout_of_skip hd
              refine ⟨'\n' :: (l ++ '|' :: src), r, ?_, ?_, h3, h4⟩
              · rw [hs']
                rw [tail_cons] at h1
                rw [h1]; simp
              · rw [cons_append, cons_append, nil_append, extract_other not_digit_newline, extract_other not_digit_bar]
                exact .line hl h2
        · rename_i hc
          split at h
          · rename_i hq
            subst hq
            split at h
            · rename_i hh
              obtain ⟨v', h', rfl⟩ := addLit_ok h
              cases s with
              | nil => cases hh
              | cons e s =>
                simp only [head?_cons, Option.some.injEq] at hh
                subst hh
                obtain ⟨src, r, h1, h2, h3, h4⟩ := ih _ _ _ (by simp only [length_cons] at hs ⊢; omega) (by simp) h'
                rw [tail_cons] at h1
                refine ⟨'\'' :: '"' :: src, r, by rw [h1]; rfl, ?_, h3, h4⟩
                rw [cons_append, cons_append, nil_append, extract_other not_digit_quote, extract_other not_digit_quote]
                exact .resume (b := []) (by simp) h2
            · rename_i hh
              split at h
              · rename_i hh2
                obtain ⟨b, hb, hbe⟩ := skipSpace_split s
                cases hs2 : skipSpace s with
                | nil => rw [hs2] at hh2; cases hh2
                | cons e s2 =>
                  rw [hs2] at hh2
                  simp only [head?_cons, Option.some.injEq] at hh2
                  subst hh2
                  rw [hs2] at h
                  have hl2 := skipSpace_len s
                  rw [hs2] at hl2
                  obtain ⟨src, r, h1, h2, h3, h4⟩ := ih _ _ _ (by omega) (by simp) h
                  rw [tail_cons] at h1
                  refine ⟨'\'' :: (b ++ '"' :: src), r, ?_, .resume (fun c hc => (isSpace_iff c).1 (hb c hc)) h2, h3, h4⟩
                  conv => lhs; rw [hbe, hs2, h1]
                  simp
              · rename_i hh2
                simp only [Prod.mk.injEq, Except.ok.injEq] at h
                exact ⟨[], s, rfl, by rw [← h.1]; exact .nil, (noQuoteNext_iff s).2 hh2, h.2.symm⟩
          · rename_i hq
            obtain ⟨v', h', rfl⟩ := addLit_ok h
            obtain ⟨src, r, h1, h2, h3, h4⟩ := ih _ _ _ (by simp only [length_cons]; omega) (by simp) h'
            rw [tail_cons] at h1
            refine ⟨c :: src, r, by rw [h1]; rfl, ?_, h3, h4⟩
            rw [cons_append, nil_append]
            by_cases hd : Digit c
            · rw [extract_digit hd]; exact .digit hd h2
            · rw [extract_other hd]; exact .other hd hq hc h2

/-- A literal on one line without further apostrophes. -/
theorem dateSrc_plain {s : List Char} (h : ∀ c ∈ s, c ≠ '\'' ∧ c ≠ '\n') : DateSrc s (extractDigits s) := by
  induction s with
  | nil => exact .nil
  | cons c s ih =>
    simp only [mem_cons, forall_eq_or_imp] at h
    by_cases hd : Digit c
    · rw [extract_digit hd]; exact .digit hd (ih h.2)
    · rw [extract_other hd]; exact .other hd h.1.1 h.1.2 (ih h.2)

theorem dateSrc_digits {s ds : List Char} (h : DateSrc s ds) : ∀ c ∈ ds, Digit c := by
  induction h with
  | nil => exact nofun
  | digit h _ ih => simpa using ⟨h, ih⟩
  | other _ _ _ _ ih => exact ih
  | line _ _ ih => exact ih
  | resume _ _ ih => exact ih

variable [Letters]

theorem nextRaw_apostrophe (b : Bool) (s : List Char) : nextRaw b ('\'' :: s) = lexDate ('\'' :: s) := by
  unfold nextRaw
  dsimp only
  rw [isLetter_ascii_false (by decide) (by decide) (by decide)]
  rfl

omit [Letters] in
theorem extractDigits_digits (s : List Char) : ∀ c ∈ extractDigits s, Digit c := by
  intro c hc
  unfold extractDigits at hc
  rw [mem_filter] at hc
  exact (isDigit_iff c).1 hc.2

/-- A date literal, completely. -/
theorem lexNext_date (t : Tok) {l s ds r : List Char} (hl : Layout l) (hs : DateSrc s ds)
    (hr : NoQuoteNext r) (ht : t.rest = l ++ '\'' :: (s ++ '\'' :: r)) :
    (∃ d, DateValue ds d ∧ lexNext t = (⟨ds, .date d, skipSpace r, false⟩, .ok (some tDate))) ∨
    ((¬ ∃ d, DateValue ds d) ∧ ∃ e, (lexNext t).2 = .error e) := by
  have h1 : skipTrivia t.rest = '\'' :: (s ++ '\'' :: r) := by
    rw [ht, skipTrivia_layout hl, skipTrivia_of_clean]
    exact ⟨by intro c r e; cases e; decide, by simp, by simp⟩
  have hdot : (!t.prevDot && ('\'' :: (s ++ '\'' :: r)).head? == some '.') = false := by simp
  obtain ⟨v, hv, e⟩ := scanString_date hs '\'' hr
  unfold lexNext
  dsimp only
  rw [h1, nextRaw_apostrophe, hdot]
  unfold lexDate
  rw [hv]
  dsimp only
  rw [e]
  by_cases hne : ds = []
  · rw [if_pos hne]
    refine .inr ⟨?_, _, rfl⟩
    rw [hne]
    rintro ⟨d, hd⟩
    cases hd with
    | zero h _ => exact h rfl
    | date h _ _ => obtain ⟨c, hc, _⟩ := h; simp at hc
  · rw [if_neg hne]
    unfold finish
    dsimp only
    rcases valueOf_date (dateSrc_digits hs) hne t.value with ⟨d, hd, hv⟩ | ⟨hd, hv⟩
    · rw [hv]
      exact .inl ⟨d, hd, rfl⟩
    · rw [hv]
      exact .inr ⟨hd, _, rfl⟩

/-- Any date token at all. -/
theorem lexNext_date_inv {t : Tok} (h : (lexNext t).2 = .ok (some tDate)) :
    ∃ l s ds d r, t.rest = l ++ '\'' :: (s ++ '\'' :: r) ∧ Layout l ∧ DateSrc s ds ∧ NoQuoteNext r ∧ DateValue ds d ∧
      (lexNext t).1 = ⟨ds, .date d, skipSpace r, false⟩ := by
  have hres := lexNext_res_ok h
  obtain ⟨l, hl, hl'⟩ := skipTrivia_split t.rest
  cases hs : skipTrivia t.rest with
  | nil => rw [hs] at hres; simp [nextRaw] at hres
  | cons c s =>
    rw [hs] at hres hl hl'
    have hc := nextRaw_date_kind hres
    subst hc
    rw [nextRaw_apostrophe] at hres
    unfold lexDate at hres
    split at hres
    · simp at hres
    · rename_i v rest hscan
      obtain ⟨src, r, h1, h2, h3, _⟩ := scanString_date_inv _ _ _ _ (Nat.le_refl _) (by simp) hscan
      rw [tail_cons] at h1
      rw [h1] at hl
      have hlay : Layout l := by
        rcases hl' with h | ⟨h, _⟩
        · exact h
        · cases h
      rcases lexNext_date t hlay h2 h3 hl with ⟨d, hd, e⟩ | ⟨_, e, he⟩
      · exact ⟨l, src, _, d, r, hl, hlay, h2, h3, hd, by rw [e]⟩
      · rw [h] at he; cases he

end Verif.Lexer
