/-!
# Specification: the Gregorian calendar, counted day by day
-/
namespace Fpm.Calendar.Spec

/-- Dates. -/
structure Date where
  year : Nat
  month : Nat
  day : Nat
deriving DecidableEq, Repr

/-- Leap years. -/
def leap (y : Nat) : Bool := y % 4 = 0 && (y % 100 ≠ 0 || y % 400 = 0)

/-- Days of a month. -/
def monthDays (y m : Nat) : Nat :=
  if m = 2 then (if leap y then 29 else 28) else if m = 4 ∨ m = 6 ∨ m = 9 ∨ m = 11 then 30 else 31

/-- Dates that exist. -/
def Date.Valid (d : Date) : Prop := 1 ≤ d.year ∧ 1 ≤ d.month ∧ d.month ≤ 12 ∧ 1 ≤ d.day ∧ d.day ≤ monthDays d.year d.month

/-- The next day. -/
def Date.next (d : Date) : Date :=
  if d.day < monthDays d.year d.month then ⟨d.year, d.month, d.day + 1⟩
  else if d.month < 12 then ⟨d.year, d.month + 1, 1⟩
  else ⟨d.year + 1, 1, 1⟩

/-- The date `n` days after 1 January of year 1. -/
def dayAfter : Nat → Date
  | 0 => ⟨1, 1, 1⟩
  | n + 1 => (dayAfter n).next

/-- Order of dates. -/
def Date.before (a b : Date) : Prop := a.year < b.year ∨ (a.year = b.year ∧ (a.month < b.month ∨ (a.month = b.month ∧ a.day < b.day)))

/-- Hour of the day shown by a 12-hour clock: 12 AM is midnight, 12 PM noon. -/
def hour24 (h : Nat) (pm : Bool) : Nat := h % 12 + (if pm then 12 else 0)

end Fpm.Calendar.Spec
