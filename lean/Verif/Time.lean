/-!
# Dates

Models `time.Parse` for the three layouts used at `/repo/ast/tokens.go:100-111` and
`Time.Format("20060102150405")` (`/repo/ast/ast_print.go:162`).
-/
namespace Verif

/-- `time.Time` in UTC with second precision: the calendar fields. -/
structure Time where
  year : Nat
  month : Nat
  day : Nat
  hour : Nat
  min : Nat
  sec : Nat
deriving DecidableEq, Repr

namespace Time

/-- `time.Time{}`: January 1, year 1, 00:00:00 UTC. -/
def zero : Time := ⟨1, 1, 1, 0, 0, 0⟩

/-- `isLeap` of package time. -/
def isLeap (y : Nat) : Bool := y % 4 = 0 && (y % 100 ≠ 0 || y % 400 = 0)

/-- `daysIn` of package time. -/
def daysIn (m y : Nat) : Nat :=
  if m = 2 then (if isLeap y then 29 else 28)
  else if m = 4 ∨ m = 6 ∨ m = 9 ∨ m = 11 then 30 else 31

/-- Value of the digits `s[i:j]`. -/
def field (s : List Char) (i j : Nat) : Nat :=
  ((s.drop i).take (j - i)).foldl (fun a c => 10 * a + (c.toNat - 48)) 0

/-- Range checks of `time.Parse` (month, day of month, hour, minute, second). -/
def valid (t : Time) : Bool :=
  1 ≤ t.month && t.month ≤ 12 && 1 ≤ t.day && t.day ≤ daysIn t.month t.year &&
  t.hour < 24 && t.min < 60 && t.sec < 60

/-- `time.Parse(layout, s)` for a string of digits `s`; `n` is the length of the layout (8, 12, 14).
All elements of the layouts have fixed width on digit strings, so the length must agree. -/
def parse (n : Nat) (s : List Char) : Option Time :=
  if s.length = n then
    let t : Time := ⟨field s 0 4, field s 4 6, field s 6 8,
      field s 8 10, field s 10 12, field s 12 14⟩
    if t.valid then some t else none
  else none

/-- `n` in decimal with at least `w` digits. -/
def pad (w n : Nat) : List Char :=
  let ds := Nat.toDigits 10 n
  List.replicate (w - ds.length) '0' ++ ds

/-- `t.Format("20060102150405")`. -/
def format (t : Time) : List Char :=
  pad 4 t.year ++ pad 2 t.month ++ pad 2 t.day ++ pad 2 t.hour ++ pad 2 t.min ++ pad 2 t.sec

end Time
end Verif
