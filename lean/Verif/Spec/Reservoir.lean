import Verif.Model.Reservoir
import Verif.Spec.Intcp
import Verif.Spec.Snow
import Verif.Spec.Topmod
/-
Specification for C103 to C108.
-/
namespace Verif.Reservoir

/-- The final volume is the initial volume plus inputs less outputs and evaporation. -/
def Vol.Balanced (v : Vol) : Prop := v.fin = v.init + v.inp - v.out - v.et

/-- The sum of the columns for the sources of water: all columns from the fifth on except evapotranspiration. -/
def Vol.sources (v : Vol) : Rat :=
  v.ppt + v.imp + v.can + v.melt + v.ohoriz + v.uz + v.qdf + v.sat + v.exf + v.satpref + v.hill + v.well + v.div + v.ext +
    v.gw1 + v.gw2

/-- The input column is the sum of the columns for the sources. -/
def Vol.Summed (v : Vol) : Prop := v.inp = v.sources

/-- The reservoirs of a unit. -/
inductive Res
  | can | snow | ohoriz | uz (j : Nat) | uzgen | uzrip | uzup | qdf | sat | satpref | hill | mru
deriving DecidableEq, Repr

/-- The row of a reservoir. -/
def Rows.row (r : Rows) : Res → Option Vol
  | .can => some r.can
  | .snow => some r.snow
  | .ohoriz => some r.ohoriz
  | .uz j => r.uz[j]?
  | .uzgen => some r.uzgen
  | .uzrip => some r.uzrip
  | .uzup => some r.uzup
  | .qdf => some r.qdf
  | .sat => some r.sat
  | .satpref => some r.satpref
  | .hill => some r.hill
  | .mru => some r.mru

/-- The volume of a reservoir at the start of a step. -/
def Start.vol (s : Start) : Res → Option Rat
  | .can => some s.can
  | .snow => some s.snow
  | .ohoriz => some s.ohoriz
  | .uz j => s.uz[j]?
  | .uzgen => some s.uzgen
  | .uzrip => some s.uzrip
  | .uzup => some s.uzup
  | .qdf => some s.qdf
  | .sat => some s.sat
  | .satpref => some s.satpref
  | .hill => some s.hill
  | .mru => some s.mru

/-- The composite volumes agree with the bins. -/
structure Start.Composite (p : Par) (s : Start) : Prop where
  bins : s.uz.length = p.ac.length
  gen : s.uzgen = s.uz.sum
  parts : s.uzrip + s.uzup = s.uzgen
  rip : s.uzrip = ((List.zip p.rip s.uz).map fun x => if x.1 then x.2 else 0).sum

/-- The water of a unit.  The path of deep preferential flow is part of the saturated zone. -/
def Start.stored (s : Start) : Rat := s.can + s.snow + s.ohoriz + s.uz.sum + s.qdf + s.sat

/-- Volume in m³ of a depth in inches, and in metres. -/
def inches (p : Par) (x : Rat) : Rat := x * (254 / 10000) * (p.area * 1000000)
def metres (p : Par) (x : Rat) : Rat := x * (p.area * 1000000)

/-- The cover of the season. -/
def cover (p : Par) (transp : Bool) : Rat := if transp then p.covSum else p.covWin

/-- A unit with an area, covers between 0 and 1; what the canopy loses with its leaves is nothing or at least a litre. -/
structure Par.Ok (p : Par) : Prop where
  area : 0 < p.area
  sum : 0 ≤ p.covSum ∧ p.covSum ≤ 1
  win : 0 ≤ p.covWin ∧ p.covWin ≤ 1
  ac : ∀ a ∈ p.ac, 0 ≤ a
  rip : p.rip.length = p.ac.length
  leaf : metres p (p.canDepth * (p.covSum - p.covWin)) = 0 ∨
    1 / 1000 ≤ metres p (p.canDepth * (p.covSum - p.covWin))

/-- A sum over the bins, each weighted with the part of the unit it covers. -/
def overBins (p : Par) (i : In) (f : BinIn → Rat) : Rat := (List.zipWith (fun a b => a * f b) (Topmod.acfs p.ac) i.bins).sum

/-- Fluxes that agree with each other: deposition is precipitation and irrigation; the water let through by the canopy is
nothing or at least a litre; the water reaching the soil is overland flow, infiltration and bypass; evapotranspiration
is that of the bins; nothing is negative. -/
structure In.Ok (p : Par) (i : In) : Prop where
  bins : i.bins.length = p.ac.length
  dep : i.dep = i.ppt + (if p.internal then i.irrSat + i.irrHyd else 0) + if p.external then i.irrExt else 0
  litre : inches p (i.netDep - i.dep * (1 - cover p i.transp)) = 0 ∨
    1 / 1000 ≤ inches p (i.netDep - i.dep * (1 - cover p i.transp))
  falling : 0 ≤ i.ppt ∧ 0 ≤ i.irrSat ∧ 0 ≤ i.irrHyd ∧ 0 ≤ i.irrExt
  net : 0 ≤ i.netDep ∧ 0 ≤ i.psoil ∧ 0 ≤ i.snowmelt
  soil : (i.snowmelt + i.psoil) * (254 / 10000) = i.qof + overBins p i (·.infil) + i.qvpref
  flows : 0 ≤ i.qof ∧ 0 ≤ i.qvpref ∧ ∀ b ∈ i.bins, 0 ≤ b.infil
  evap : i.sae = overBins p i (·.sae) ∧ 0 ≤ i.sae ∧ ∀ b ∈ i.bins, 0 ≤ b.sae

/-- The snow module conserves water (C37): `s.snow` is the pack before the step. -/
structure In.Pack (p : Par) (s : Start) (i : In) : Prop where
  balance : inches p i.pkwater = s.snow + inches p (i.netDep - i.psoil - i.snowmelt - i.snowEvap)
  nonneg : 0 ≤ i.pkwater ∧ 0 ≤ i.snowEvap
  bare : i.netDep = 0 → i.psoil = 0

/-- A unit whose modules agree about its bins, which cover it. -/
structure MUnit.Ok (u : MUnit) : Prop where
  p : u.p.Ok
  veg : u.veg.Ok
  snowFn : u.snowFn.Ok
  snow : u.snow.Ok
  soilFn : u.soilFn.Ok
  soil : u.soil.Ok
  bins : u.p.ac = u.soil.bins.map (·.1)
  covered : Topmod.covered u.soil = 1

/-- Inputs of a step: what falls is precipitation and irrigation; what drips from the canopy is nothing or at least a
litre. -/
structure Day.Ok (u : MUnit) (x : Now) (d : Day) : Prop where
  dt : 0 ≤ d.dt
  can : d.can.Ok
  falling : 0 ≤ d.ppt ∧ 0 ≤ d.irrSat ∧ 0 ≤ d.irrHyd ∧ 0 ≤ d.irrExt
  dep : d.can.rain + d.can.snow = d.ppt + d.irrSat + d.irrHyd + d.irrExt
  internal : u.p.internal = false → d.irrSat = 0 ∧ d.irrHyd = 0
  external : u.p.external = false → d.irrExt = 0
  litre : ∀ drip, drip = (Intcp.step u.veg false d.can x.can).2.netDep -
      (d.can.rain + d.can.snow) * (1 - cover u.p (d.can.transp = 1)) →
    inches u.p drip = 0 ∨ 1 / 1000 ≤ inches u.p drip

/-- States of the modules as they occur, with the volumes of the bins. -/
structure Now.Ok (u : MUnit) (x : Now) : Prop where
  uz : x.vol.uz.length = u.p.ac.length
  can : x.can.Ok
  pack : x.pack.pack.Ok
  soil : x.soil.Ok u.soil
  snow : x.vol.snow = inches u.p (x.pack.pack.stored / (254 / 10))

/-- The volume of the canopy is that of its leaves and of the water the interception module holds on them. -/
def CanopyLinked (u : MUnit) (x : Now) : Prop :=
  x.vol.can = metres u.p (u.p.canDepth * cover u.p x.vol.transp) + inches u.p (Intcp.held u.veg x.can)

/-- The volumes are those of the other modules: snow (`ok`); each bin of the unsaturated zone, up to 1e-7 m for each of
`n` steps; and the soil as a whole, with `k` the volume that belongs to storage 0. -/
structure Linked (u : MUnit) (k : Rat) (n : Nat) (x : Now) : Prop where
  ok : x.Ok u
  bins : ∀ (j : Nat) a b y, (Topmod.acfs u.p.ac)[j]? = some a → a ≠ 0 → x.soil.bins[j]? = some b → x.vol.uz[j]? = some y →
    Topmod.Published u.soil x.soil j ∧ ∃ e : Rat, 0 ≤ e ∧ e ≤ n / 10000000 ∧ y = metres u.p (a * (b.depth + e))
  soil : ∃ e : Rat, 0 ≤ e ∧ e ≤ n / 10000000 ∧ x.vol.uz.sum + x.vol.sat = k + metres u.p (Topmod.storage u.soil x.soil + e)

/-- Every step of a run has proper inputs `P`. -/
def Good (u : MUnit) (P : Now → Day → Prop) : Now → List Day → Prop
  | _, [] => True
  | x, d :: ds => P x d ∧ ∀ y, advance u x d = some y → Good u P y.1 ds

/-- The sum of a column over the bins. -/
def column (f : Vol → Rat) (vs : List Vol) : Rat := (vs.map f).sum

/-- What leaves one reservoir enters another, column by column.  `loss` is the loss to deep groundwater. -/
structure Rows.Closed (r : Rows) (loss : Rat) : Prop where
  ppt : r.can.ppt + r.snow.ppt + r.ohoriz.ppt + column (·.ppt) r.uz + r.sat.ppt = r.mru.ppt
  well : r.can.well + r.snow.well + r.ohoriz.well + column (·.well) r.uz + r.sat.well = r.mru.well
  div : r.can.div + r.snow.div + r.ohoriz.div + column (·.div) r.uz + r.sat.div = r.mru.div
  ext : r.can.ext + r.snow.ext + r.ohoriz.ext + column (·.ext) r.uz + r.sat.ext = r.mru.ext
  can : r.snow.can + r.ohoriz.can + column (·.can) r.uz + r.sat.can = r.can.out
  melt : r.ohoriz.melt + column (·.melt) r.uz + r.sat.melt = r.snow.out
  ohoriz : r.hill.ohoriz + r.can.ohoriz = r.ohoriz.out
  uz : r.can.uz + r.qdf.uz + r.sat.uz = column (·.out) r.uz
  qdf : r.hill.qdf = r.qdf.out
  satpref : r.hill.satpref = r.satpref.out
  sat : column (·.sat) r.uz + r.satpref.sat + r.hill.sat + loss + r.mru.well = r.sat.out
  gw : r.sat.gw1 = r.mru.gw1 ∧ r.sat.gw2 = r.mru.gw2
  hill : loss + r.mru.well + r.hill.out = r.mru.out
  et : r.can.et + r.snow.et + column (·.et) r.uz = r.mru.et

/-- A property of the fluxes of every unit in every step of a run. -/
def Always (b : Basin) (ps : List Par) (P : Par → Start → In → Prop) : St → List (List In × StreamIn) → Prop
  | _, [] => True
  | st, (is, si) :: r =>
    (∀ (k : Nat) p s i, ps[k]? = some p → st.units[k]? = some s → is[k]? = some i → P p s i) ∧
      ∀ st' o, webrrun b ps st is si = some (st', o) → Always b ps P st' r

/-- The rows of one reservoir of one unit during a run. -/
def rows (rs : List (St × Out)) (k : Nat) (r : Res) : List Vol :=
  rs.filterMap fun x => (x.2.units[k]?).bind fun u => u.1.row r

/-- Each row starts with the final volume of the row before it. -/
def Chain : Rat → List Vol → Prop
  | _, [] => True
  | x, v :: vs => v.init = x ∧ Chain v.fin vs

/-- What is lost from the streams and taken from them in the steps of a run. -/
def lostAndTaken (rs : List (St × Out)) : Rat := (rs.map fun x => x.2.basin.loss.sum + x.2.basin.taken.sum).sum

/-- A channel whose ordinates distribute all its water (C40): `n` segments. -/
structure Chan.Ok (area : Rat) (n : Nat) (c : Chan) : Prop where
  len : c.ar.length = n
  sum : c.ar.sum = c.area / area
  pos : c.area ≠ 0

/-- A basin with `n` segments. -/
structure Basin.Ok (b : Basin) (n : Nat) : Prop where
  pos : 0 < n
  area : b.area ≠ 0
  chans : ∀ c ∈ b.chans, c.Ok b.area n

/-- The depth in cm over the basin of a volume in m³. -/
def depth (b : Basin) (v : Rat) : Rat := v / (b.area * 1000000) * 100

end Verif.Reservoir
