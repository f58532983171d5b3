import Verif.Model.TspDate
/-
Vocabulary for C124: the Gregorian calendar.
-/
namespace Verif.Tsp

/-- Leap years of the Gregorian calendar. -/
def IsLeap (y : Int) : Prop := 4 ∣ y ∧ (¬ 100 ∣ y ∨ 400 ∣ y)

instance (y : Int) : Decidable (IsLeap y) := by unfold IsLeap; infer_instance

/-- The number of days of a month. -/
def monthDays (y m : Int) : Int :=
  if m = 2 then (if IsLeap y then 29 else 28) else if m = 4 ∨ m = 6 ∨ m = 9 ∨ m = 11 then 30 else 31

/-- The dates of the Gregorian calendar (extended backwards) from the year -4712 on. -/
structure Valid (d : Day) : Prop where
  year : -4712 ≤ d.year
  month : 1 ≤ d.month ∧ d.month ≤ 12
  day : 1 ≤ d.day ∧ d.day ≤ monthDays d.year d.month

instance (d : Day) : Decidable (Valid d) :=
  decidable_of_iff (-4712 ≤ d.year ∧ (1 ≤ d.month ∧ d.month ≤ 12) ∧ (1 ≤ d.day ∧ d.day ≤ monthDays d.year d.month))
    ⟨fun h => ⟨h.1, h.2.1, h.2.2⟩, fun h => ⟨h.1, h.2, h.3⟩⟩

/-- The following day. -/
def next (d : Day) : Day :=
  if d.day < monthDays d.year d.month then ⟨d.year, d.month, d.day + 1⟩
  else if d.month < 12 then ⟨d.year, d.month + 1, 1⟩
  else ⟨d.year + 1, 1, 1⟩

/-- The days before a month in a year from 1 October to 30 September that has a 29 February. -/
def beforeMonth (m : Int) : Int := [92, 123, 152, 183, 213, 244, 274, 305, 336, 0, 31, 61].getD (m - 1).toNat 0

end Verif.Tsp
