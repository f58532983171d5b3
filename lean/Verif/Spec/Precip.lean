import Verif.Model.Precip
/-
Specification for C41 (form of precipitation) and C54 (diverted irrigation water).
-/
namespace Verif.Precip

/-- The share of a deposition that falls as rain: none at or below the snow threshold, all when even the
minimum temperature is above it or the maximum reaches the rain threshold, otherwise the adjusted share
of the temperature range above the threshold, at most all. -/
def rainShare (p : Params) (tmax tmin : Rat) : Rat :=
  if tmax ≤ p.allsnow then 0
  else if p.allsnow < tmin ∨ p.allrain ≤ tmax then 1
  else min 1 ((tmax - p.allsnow) / (tmax - tmin) * p.adjmix)

/-- Adjustment factors as documented for the parameters. -/
structure Params.Ok (p : Params) : Prop where
  mix : 0 ≤ p.adjmix
  rain : 0 < p.rainAdj
  snow : 0 < p.snowAdj

/-- Irrigation water taken from segment `k` for one MRU, m³. -/
def taken (k : Nat) (m : Irr) (st : IrrState) : Rat :=
  if m.sched > 0 ∧ m.src = (k : Int) + 1 then st.hyd * m.vol else 0

/-- Irrigation water taken from segment `k` (counted from 0) for all MRUs. -/
def takenAll (k : Nat) : List Irr → List IrrState → Rat
  | m :: ms, st :: sts => taken k m st + takenAll k ms sts
  | _, _ => 0

end Verif.Precip
