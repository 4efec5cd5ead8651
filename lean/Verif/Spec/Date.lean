import Verif.Spec.Lex
import Verif.Spec.Str
import Verif.Time
/-! # Specification of date literals -/
namespace Verif.Spec

/-- Decimal digits of a two-digit / four-digit field. -/
def digitChar (n : Nat) : Char := ['0', '1', '2', '3', '4', '5', '6', '7', '8', '9'].getD n '0'

/-- `n` written with exactly two digits. -/
def two (n : Nat) : List Char := [digitChar (n / 10), digitChar (n % 10)]

/-- `n` written with exactly four digits. -/
def four (n : Nat) : List Char := two (n / 100) ++ two (n % 100)

/-- Leap years of the Gregorian calendar. -/
def LeapYear (y : Nat) : Prop := (4 ∣ y ∧ ¬ 100 ∣ y) ∨ 400 ∣ y

instance (y : Nat) : Decidable (LeapYear y) := by unfold LeapYear; infer_instance

/-- Lengths of the months. -/
def monthLength (y : Nat) : Nat → Nat
  | 1 => 31 | 2 => if LeapYear y then 29 else 28 | 3 => 31 | 4 => 30 | 5 => 31 | 6 => 30
  | 7 => 31 | 8 => 31 | 9 => 30 | 10 => 31 | 11 => 30 | 12 => 31 | _ => 0

/-- Moments of the calendar (years 0 to 9999). -/
def CalendarDate (t : Time) : Prop :=
  t.year ≤ 9999 ∧ 1 ≤ t.day ∧ t.day ≤ monthLength t.year t.month ∧ t.hour < 24 ∧ t.min < 60 ∧ t.sec < 60

/-- The three ways to write a moment. -/
inductive DateDigits (t : Time) : List Char → Prop
  | day : t.hour = 0 → t.min = 0 → t.sec = 0 →
      DateDigits t (four t.year ++ two t.month ++ two t.day)
  | minute : t.sec = 0 →
      DateDigits t (four t.year ++ two t.month ++ two t.day ++ two t.hour ++ two t.min)
  | second :
      DateDigits t (four t.year ++ two t.month ++ two t.day ++ two t.hour ++ two t.min ++ two t.sec)

/-- `ds` (digits of a literal) denotes the moment `t`. -/
inductive DateValue : List Char → Time → Prop
  | zero {ds} : ds ≠ [] → (∀ c ∈ ds, c = '0') → DateValue ds ⟨1, 1, 1, 0, 0, 0⟩
  | date {ds t} : (∃ c ∈ ds, c ≠ '0') → CalendarDate t → DateDigits t ds → DateValue ds t

/-- `DateSrc s ds`: the text `s` between the outer apostrophes of a literal has the digits `ds`.  Other characters are ignored, a line break
must be followed by a vertical bar, and an apostrophe with a quote behind it (blanks between them do not count) does not end the literal. -/
inductive DateSrc : List Char → List Char → Prop
  | nil : DateSrc [] []
  | digit {c s ds} : Digit c → DateSrc s ds → DateSrc (c :: s) (c :: ds)
  | other {c s ds} : ¬ Digit c → c ≠ '\'' → c ≠ '\n' → DateSrc s ds → DateSrc (c :: s) ds
  | line {l s ds} : LineLayout l → DateSrc s ds → DateSrc ('\n' :: (l ++ '|' :: s)) ds
  | resume {b s ds} : (∀ c ∈ b, Blank c) → DateSrc s ds → DateSrc ('\'' :: (b ++ '"' :: s)) ds

end Verif.Spec
