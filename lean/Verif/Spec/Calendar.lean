import Verif.Model.Calendar
/-
Specification for properties C01, C02, C03: the civil calendar.
-/
namespace Verif.Calendar

/-! ### Specification: the civil calendar (Julian until 1582-10-04, Gregorian afterwards) -/

/-- Leap years of the civil calendar. -/
def civilLeap (y : Int) : Bool :=
  if y ≤ 1582 then y % 4 == 0
  else y % 4 == 0 && (y % 100 != 0 || y % 400 == 0)

/-- Number of the last day of a month. -/
def monthLength (y m : Int) : Int :=
  if m = 2 then (if civilLeap y then 29 else 28)
  else if m = 4 ∨ m = 6 ∨ m = 9 ∨ m = 11 then 30
  else 31

/-- Dates that exist in the civil calendar, year 1 or later.  5 to 14 October 1582 do not exist. -/
def Valid (d : Date) : Prop :=
  1 ≤ d.year ∧ 1 ≤ d.month ∧ d.month ≤ 12 ∧ 1 ≤ d.day ∧ d.day ≤ monthLength d.year d.month ∧
  ¬ (d.year = 1582 ∧ d.month = 10 ∧ 5 ≤ d.day ∧ d.day ≤ 14)

instance (d : Date) : Decidable (Valid d) := by unfold Valid; infer_instance

/-- The following civil day. -/
def next (d : Date) : Date :=
  if d.year = 1582 ∧ d.month = 10 ∧ d.day = 4 then ⟨1582, 10, 15⟩
  else if d.day < monthLength d.year d.month then ⟨d.year, d.month, d.day + 1⟩
  else if d.month < 12 then ⟨d.year, d.month + 1, 1⟩
  else ⟨d.year + 1, 1, 1⟩

/-- Chronological (lexicographic) order of dates. -/
def Before (a b : Date) : Prop :=
  a.year < b.year ∨ (a.year = b.year ∧ (a.month < b.month ∨ (a.month = b.month ∧ a.day < b.day)))

/-- First day of each kind of year: 1 Jan, 22 Dec, 21 Mar, 1 Oct. -/
def isFirstDay (k : YearKind) (d : Date) : Prop :=
  match k with
  | .calendar => d.month = 1 ∧ d.day = 1
  | .solar => d.month = 12 ∧ d.day = 22
  | .spring => d.month = 3 ∧ d.day = 21
  | .water => d.month = 10 ∧ d.day = 1

end Verif.Calendar
