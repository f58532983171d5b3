import Verif.Spec.TspInterp
import Verif.Spec.TspDate
import Verif.Model.TspUniform
/-
Vocabulary for C134.
-/
namespace Verif.Tsp

/-- The same day of the month `k` months later. -/
def monthsLater (d : Day) (k : Int) : Day := ⟨(12 * d.year + d.month - 1 + k) / 12, (12 * d.year + d.month - 1 + k) % 12 + 1, d.day⟩


/-- A time in seconds: the number of the day and the seconds after midnight. -/
def timeOf (d : Day) (t : Int) : Int := julianDay d 0 * 86400 + t

/-- The time `k` units after another one, which is given by date and time: so many seconds, or the same day of a later month or year. -/
def later_by (u : TimeUnit) (d : Day) (t k : Int) : Int :=
  match u with
  | .secs => timeOf d t + k
  | .mins => timeOf d t + 60 * k
  | .hrs => timeOf d t + 3600 * k
  | .days => timeOf d t + 86400 * k
  | .mths => timeOf (monthsLater d k) t
  | .yrs => timeOf (monthsLater d (12 * k)) t

end Verif.Tsp
