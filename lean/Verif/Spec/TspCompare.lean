import Verif.Spec.TspStat
import Verif.Model.TspCompare
/-
Vocabulary for C135.
-/
namespace Verif.Tsp

/-- The simulated values are the observed ones. -/
def Perfect (l : List Row) : Prop := ∀ r ∈ l, r.sim = r.obs

/-- All observed values are the same. -/
def Uniform (l : List Row) : Prop := ∃ c, ∀ r ∈ l, r.obs = c

/-- The mean of some values. -/
def mean (v : List Rat) : Rat := v.sum / v.length

/-- With each pair of values what they are compared with: the mean of the observed values, or the value of the base series. -/
def withBase (base : Option (List Rat)) (l : List Row) : List (Row × Rat) :=
  match base with
  | none => l.map fun r => (r, mean (l.map Row.obs))
  | some b => l.zip b

end Verif.Tsp
