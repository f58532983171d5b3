import Verif.Spec.TspStat
import Verif.Model.TspInterp
/-
Vocabulary for C128 to C130: the broken line through the terms of a series.
-/
namespace Verif.Tsp

/-- The time of a term. -/
def Term.t (p : Term) : Rat := p.at_.time

/-- The straight line through two terms. -/
def line (p q : Term) (x : Rat) : Rat := p.val + (q.val - p.val) * (x - p.t) / (q.t - p.t)

/-- The area under the line from `p` to `q` between the times `b` and `f`: a trapezoid. -/
def piece (b f : Rat) (p q : Term) : Rat :=
  if max b p.t < min f q.t then
    (min f q.t - max b p.t) * ((line p q (max b p.t) + line p q (min f q.t)) / 2)
  else 0

/-- The area under the broken line between the times `b` and `f`. -/
def area (b f : Rat) : List Term → Rat
  | p :: q :: r => piece b f p q + area b f (q :: r)
  | _ => 0

/-- `v` is the value of the broken line at the time `x`. -/
def IsAt (s : List Term) (x v : Rat) : Prop :=
  (∃ p ∈ s, x = p.t ∧ v = p.val) ∨ (∃ A p q B, s = A ++ p :: q :: B ∧ p.t < x ∧ x < q.t ∧ v = line p q x)

/-- A value that stands for no value. -/
def NoValue (v : Rat) : Prop := v < -10 ^ 38

/-- `v` is the value of the broken line at the time `x`; there is none at a term that has no value, and none between terms of which one
has no value. -/
def IsAtOrNone (s : List Term) (x v : Rat) : Prop :=
  (∃ p ∈ s, x = p.t ∧ (v = p.val ∨ NoValue p.val ∧ NoValue v)) ∨
  (∃ A p q B, s = A ++ p :: q :: B ∧ p.t < x ∧ x < q.t ∧
    ((¬ NoValue p.val ∧ ¬ NoValue q.val ∧ v = line p q x) ∨ ((NoValue p.val ∨ NoValue q.val) ∧ NoValue v)))

/-- The flow `v` is over (or under) the threshold. -/
def Meets (over : Bool) (flow v : Rat) : Prop := if over then flow ≤ v else v ≤ flow

/-- `E` are the periods in which the flow is over (or under) the threshold: intervals from one time to another, in order of time and apart
from each other, within the time of the series; and the flow meets the threshold in the intervals and at no other time. -/
def Excursions (over : Bool) (flow : Rat) (s : List Term) (E : List (Rat × Rat)) : Prop :=
  (∀ e ∈ E, e.1 ≤ e.2) ∧ E.Pairwise (fun e e' => e.2 < e'.1) ∧
  (∀ e ∈ E, (∀ p ∈ s.head?, p.t ≤ e.1) ∧ ∀ p ∈ s.getLast?, e.2 ≤ p.t) ∧
  ∀ x v, IsAt s x v → (Meets over flow v ↔ ∃ e ∈ E, e.1 ≤ x ∧ x ≤ e.2)

/-- The seconds of a unit of time: a year of 365.25 days, a month that is a twelfth of it. -/
def TimeUnit.seconds : TimeUnit → Rat
  | .secs => 1
  | .mins => 60
  | .hrs => 3600
  | .days => 86400
  | .mths => 86400 * (365 + 1 / 4) / 12
  | .yrs => 86400 * (365 + 1 / 4)

end Verif.Tsp
