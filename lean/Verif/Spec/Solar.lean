import Verif.Spec.Calendar
import Mathlib.Algebra.Order.Field.Rat
/-
Vocabulary for the solar table.
-/
namespace Verif.Solar
open Verif.Calendar

/-- The civil year to which the greater part of the solar year of a date belongs. -/
def solarYear (d : Date) : Int := if d.month = 12 ∧ d.day > 21 then d.year + 1 else d.year

/-- One in solar years with a leap day. -/
def leapDay (d : Date) : Int := if civilLeap (solarYear d) then 1 else 0

/-- Days of the solar year (22 December is 1) at which a table entry is used, and the calendar day of the entry.  From 22 June on
the entries are used in reverse. -/
def nodes (l : Int) : List (Int × Nat) :=
  [(1, 356), (20, 10), (33, 23), (48, 38), (61, 51), (76 + l, 66), (90 + l, 80), (104 + l, 94), (119 + l, 109), (133 + l, 123),
    (148 + l, 138), (162 + l, 152), (183 + l, 173), (203 + l, 152), (218 + l, 138), (232 + l, 123), (247 + l, 109), (262 + l, 94),
    (276 + l, 80), (291 + l, 66), (305 + l, 51), (319 + l, 38), (333 + l, 23), (347 + l, 10), (365 + l, 356)]

/-- `v` lies on the straight line between the entries before and after day `j`. -/
def OnTable (tab : Nat → Rat) (l j : Int) (v : Rat) : Prop :=
  ∃ a c b e, [(a, c), (b, e)] <:+: nodes l ∧ a ≤ j ∧ j ≤ b ∧
    v = tab c + (j - a : Int) / (b - a : Int) * (tab e - tab c)

/-- Time steps without a missing day: each date is that of the step before or the next day. -/
def Daily : Date → List Date → Prop
  | _, [] => True
  | d, e :: r => (e = d ∨ e = next d) ∧ Daily e r

end Verif.Solar
