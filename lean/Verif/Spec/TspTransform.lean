import Verif.Spec.TspInterp
import Verif.Model.TspTransform
/-
Vocabulary for C133.
-/
namespace Verif.Tsp

/-- At most `h` places apart. -/
def Close (h i j : Nat) : Prop := i ≤ j + h ∧ j ≤ i + h

/-- All times of the series are `step` seconds apart. -/
def Spaced (step : Int) (s : List Term) : Prop :=
  ∀ i p q, s[i]? = some p → s[i + 1]? = some q → q.at_.time - p.at_.time = step

/-- The value is not below the lower boundary and not above the upper one, where given. -/
def Inside (lo up : Option Rat) (x : Rat) : Prop := (∀ l ∈ lo, l ≤ x) ∧ ∀ u ∈ up, x ≤ u

/-- The times of two series are the same. -/
def SameTimes (s g : List Term) : Prop := g.map Term.at_ = s.map Term.at_

end Verif.Tsp
