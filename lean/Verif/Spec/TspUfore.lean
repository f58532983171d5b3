import Verif.Model.TspUfore
import Verif.Spec.TspStat
/-
Vocabulary for C146: values at equal steps of time.
-/
namespace Verif.TspUfore
open Verif.Tsp

/-- A time in seconds as day and second of the day. -/
def split (t : Int) : Clock := ⟨t / 86400, t % 86400⟩

/-- The terms that values at steps of `d` seconds after `t` denote. -/
def steps (d : Int) : Int → List Rat → List Term
  | _, [] => []
  | t, v :: vs => ⟨split (t + d), v⟩ :: steps d (t + d) vs

/-- A time is not before the beginning and not after the end of the period, where there are such. -/
def wanted (b e : Option Clock) (t : Int) : Bool := b.all (fun c => c.time ≤ t) && e.all fun c => t ≤ c.time

end Verif.TspUfore
