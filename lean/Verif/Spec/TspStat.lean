import Verif.Model.TspStat
/-
Vocabulary for C126 and C127.
-/
namespace Verif.Tsp

/-- `s` is the data in increasing order. -/
def SortOf (l s : List Rat) : Prop := s.Perm l ∧ s.Pairwise (· ≤ ·)

/-- A time in seconds. -/
def Clock.time (c : Clock) : Int := c.days * 86400 + c.secs

/-- The seconds are those of a day. -/
def Clock.Proper (c : Clock) : Prop := 0 ≤ c.secs ∧ c.secs < 86400

/-- A time series: its times increase. -/
def Ordered (s : List Term) : Prop := (s.Pairwise fun a b => a.at_.time < b.at_.time) ∧ ∀ t ∈ s, t.at_.Proper

/-- The terms of the period from `b` to `e`, both included. -/
def within (b e : Clock) (s : List Term) : List Term := s.filter fun t => b.time ≤ t.at_.time ∧ t.at_.time ≤ e.time

/-- The mean of the `k` values from number `i` on. -/
def meanOf (v : List Rat) (k i : Nat) : Rat := ((v.drop i).take k).sum / k

end Verif.Tsp
