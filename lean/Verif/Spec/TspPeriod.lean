import Verif.Spec.TspStat
import Verif.Spec.TspDate
import Verif.Model.TspPeriod
import Mathlib.Algebra.BigOperators.Group.List.Basic
import Mathlib.Data.List.Chain
/-
Vocabulary for C138.
-/
namespace Verif.Tsp

/-- The last month of a year that is named after the calendar year in which it ends. -/
def lastMonth : YearType → Int
  | .waterHigh => 9
  | .waterLow => 3
  | .calendar => 12

/-- The number of the year, month or day in which a day is: periods are numbered in order of time. -/
def periodNo (u : PUnit) (yt : YearType) (n : Int) : Int :=
  let d := gregorianDate n 0
  match u with
  | .year => if d.month ≤ lastMonth yt then d.year else d.year + 1
  | .monthMany => 12 * d.year + d.month
  | .monthOne => d.month
  | .daily => n

/-- `v` is the statistic of the values. -/
def IsStat (sqrt : Rat → Rat) (st : PStat) (l : List Rat) (v : Rat) : Prop :=
  match st with
  | .sum => v = l.sum
  | .mean => v = l.sum / l.length
  | .stdDev => (l.length = 1 → v = 0) ∧ (l.length ≠ 1 → v = sqrt ((l.map fun x => (x - l.sum / l.length) ^ 2).sum / (l.length - 1)))
  | .maximum => v ∈ l ∧ ∀ x ∈ l, x ≤ v
  | .minimum => v ∈ l ∧ ∀ x ∈ l, v ≤ x
  | .median => False
  | .range => ∃ a ∈ l, ∃ b ∈ l, (∀ x ∈ l, b ≤ x ∧ x ≤ a) ∧ v = a - b

/-- The month that begins in the middle of a year. -/
def middleMonth : YearType → Int
  | .waterHigh => 4
  | .waterLow => 10
  | .calendar => 7

/-- `c` is the start, centre or end of the period with number `n`: for years and months their first day, the first day of the second half
of a year, the fifteenth of a month, or their last day; for days their first second, noon or last second. -/
def IsLabel (u : PUnit) (yt : YearType) (ab : Abscissa) (n : Int) (c : Clock) : Prop :=
  periodNo u yt c.days = n ∧
  match u with
  | .daily => c.secs = (match ab with | .start => 0 | .centre => 43200 | .end_ => 86399)
  | .year => c.secs = 0 ∧
    (match ab with
    | .start => periodNo u yt (c.days - 1) ≠ n
    | .centre => (gregorianDate c.days 0).month = middleMonth yt ∧ (gregorianDate c.days 0).day = 1
    | .end_ => periodNo u yt (c.days + 1) ≠ n)
  | _ => c.secs = 0 ∧
    (match ab with
    | .start => periodNo u yt (c.days - 1) ≠ n
    | .centre => (gregorianDate c.days 0).day = 15
    | .end_ => periodNo u yt (c.days + 1) ≠ n)

/-- Neighbouring terms in months (days) of equal number are in the same month (on the same day). -/
def Gapless (u : PUnit) (s : List Term) : Prop :=
  s.IsChain fun p q =>
    let c := gregorianDate p.at_.days 0
    let d := gregorianDate q.at_.days 0
    match u with
    | .monthMany => c.month = d.month → c.year = d.year
    | .daily => c.day = d.day → p.at_.days = q.at_.days
    | _ => True

/-- The first day of the year 1. -/
def firstDay : Int := 1721426

end Verif.Tsp
