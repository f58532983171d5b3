import Verif.Model.Intcp
/-
Specification for C36.
-/
namespace Verif.Intcp

/-- Canopy cover of the season (`transp` is 1 in the transpiration period). -/
def cover (v : Veg) (transp : Int) : Rat := if transp = 1 then v.covSum else v.covWin

/-- Depth of water held by the canopy, averaged over the MRU. -/
def held (v : Veg) (st : St) : Rat := cover v st.transpOn * st.stor

/-- Cover densities between 0 and 1, capacities not negative. -/
structure Veg.Ok (v : Veg) : Prop where
  sum : 0 ≤ v.covSum ∧ v.covSum ≤ 1
  win : 0 ≤ v.covWin ∧ v.covWin ≤ 1
  srain : 0 ≤ v.srain
  wrain : 0 ≤ v.wrain
  snow : 0 ≤ v.snowCap

/-- Inputs as the other modules produce them; snow on the MRU means deposition on the basin. -/
structure In.Ok (i : In) : Prop where
  rain : 0 ≤ i.rain
  snow : 0 ≤ i.snow
  potet : 0 ≤ i.potet
  transp : i.transp = 0 ∨ i.transp = 1
  basin : 0 < i.snow → 0 < i.basinDep

/-- States of a run. -/
structure St.Ok (st : St) : Prop where
  stor : 0 ≤ st.stor
  on : st.on = 0 ∨ st.on = 1
  off : st.on = 0 → st.stor = 0
  transp : st.transpOn = 0 ∨ st.transpOn = 1

/-- The canopy takes part: rain falls on vegetation that is not under snow, snow on shrubs or trees. -/
def Canopy (v : Veg) (i : In) : Prop :=
  (0 < i.rain → 1 < v.covType ∨ (v.covType = 1 ∧ i.pack = 0)) ∧ (0 < i.snow → 1 < v.covType)

/-- The season does not end at this step; when it begins, there is summer cover. -/
def Season (v : Veg) (i : In) (st : St) : Prop :=
  i.transp = st.transpOn ∨ (i.transp = 1 ∧ v.covSum ≠ 0)

/-- The capacity for the last kind of precipitation of the step. -/
def capacity (v : Veg) (i : In) : Rat :=
  if 0 < i.snow then v.snowCap else if i.transp = 1 then v.srain else v.wrain

/-- A run: the states and results of the steps. -/
def run (v : Veg) : St → List In → List (St × Out)
  | _, [] => []
  | st, i :: rest => step v false i st :: run v (step v false i st).1 rest

/-- Each step of a run starts in the season of its predecessor or at the start of summer. -/
def Seasons (v : Veg) : St → List In → Prop
  | _, [] => True
  | st, i :: rest => Season v i st ∧ Seasons v (step v false i st).1 rest

end Verif.Intcp
