import Verif.Spec.TspStat
import Verif.Model.TspPeak
import Mathlib.Data.List.Chain
/-
Vocabulary for C139.
-/
namespace Verif.Tsp

/-- One term a day at most, in order of time. -/
def Days (l : List Pt) : Prop := l.Pairwise fun a b => a.d < b.d

/-- The term with place `i`, which is neither the first one nor one of the last two, is higher than the one before and not lower than the
one after it. -/
def TopAt (l : List Pt) (i : Nat) (p : Pt) : Prop :=
  0 < i ∧ i + 2 < l.length ∧ l[i]? = some p ∧ (∃ a, l[i - 1]? = some a ∧ a.v < p.v) ∧ ∃ c, l[i + 1]? = some c ∧ c.v ≤ p.v

/-- A term every day. -/
def EveryDay (l : List Pt) : Prop := l.IsChain fun a b => b.d = a.d + 1

end Verif.Tsp
