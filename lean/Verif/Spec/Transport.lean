import Verif.Model.Transport
import Verif.Spec.Reservoir
/-
Specification for C113 to C117.
-/
namespace Verif.Transport
open Verif.Reservoir (Vol Rows Extra BinOut Par In overBins)

/-- Every solution holds a kilogram of water; pure water holds nothing else. -/
structure Full (sol : Key → Sol) : Prop where
  water : ∀ k, (sol k).water = 1
  pure : (sol .pure).mol = 0

/-- Reactions do not change the water of a solution. -/
def Dry (rx : Ent → Sol → Sol) : Prop := ∀ e s, (rx e s).water = s.water

/-- There are no reactions that produce or consume the solute. -/
def Inert (rx : Ent → Sol → Sol) : Prop := Dry rx ∧ ∀ e s, (rx e s).mol = s.mol

/-- The columns of a row. -/
def Vol.entries (v : Vol) : List Rat :=
  [v.init, v.inp, v.out, v.fin, v.ppt, v.et, v.imp, v.can, v.melt, v.ohoriz, v.uz, v.qdf, v.sat, v.exf, v.satpref, v.hill,
    v.well, v.div, v.ext, v.gw1, v.gw2]

/-- No volume is negative. -/
structure Flow.Nonneg (f : Flow) : Prop where
  rows : ∀ v ∈ [f.r.can, f.r.snow, f.r.ohoriz, f.r.qdf, f.r.sat, f.r.satpref, f.r.hill], ∀ x ∈ Vol.entries v, 0 ≤ x
  bins : ∀ b ∈ f.bins, (∀ x ∈ Vol.entries b.vol, 0 ≤ x) ∧ 0 ≤ b.toCan ∧ 0 ≤ b.toSat ∧ 0 ≤ b.toQdf
  loss : 0 ≤ f.i.gwLoss

/-- The volumes are those `webmod_res` makes of consistent fluxes, and none is negative. -/
structure Flow.Ok (f : Flow) : Prop where
  par : f.p.Ok
  fluxes : f.i.Ok f.p
  made : ∃ s e, Reservoir.step f.p s f.i = some (f.r, e) ∧ e.bins = f.bins ∧ f.i.Pack f.p s ∧ s.uz.length = f.p.ac.length
  nonneg : f.Nonneg

/-- What the mixing sequence does not provide for.
* A canopy that receives water only from the O-horizon or by irrigation and holds it back, without evaporation.
* Leaves that come while there is overland flow and transpiration.
* An empty bin that receives water.
* A bin that gives water to preferential flow, but none to the saturated zone; recharge without percolation (`quz`).
* Irrigation water that bypasses the unsaturated zone.
* A pulse of ions with sublimation.
* Flow on a path of deep preferential flow that is not there; groundwater inputs although there are no sources.
* A reservoir that gives away more at the start than it has. -/
structure Flow.Regular (f : Flow) : Prop where
  canopy : f.r.can.uz = 0 → f.r.can.out = 0 → f.r.can.ppt = 0 → f.r.can.et = 0 → f.r.can.inp = 0
  leaves : 0 < f.r.can.uz → 0 < f.r.can.ohoriz → f.r.ohoriz.inp = 0
  empty : ∀ b ∈ f.bins, b.vol.init = 0 → b.vol.inp = 0 ∧ b.vol.out = 0
  toQdf : ∀ b ∈ f.bins, b.toSat = 0 → b.toQdf = 0
  quz : 0 < f.quz ∨ f.r.qdf.uz + f.r.sat.uz = 0
  bypass : f.r.sat.well = 0 ∧ f.r.sat.div = 0 ∧ f.r.sat.ext = 0
  pulse : f.ion ≤ 1 ∨ f.r.snow.et = 0
  pref : 0 < f.prefMax ∨ f.r.satpref.inp = 0
  gw : f.gwExt = true ∨ f.r.sat.gw1 = 0 ∧ f.r.sat.gw2 = 0
  oh : f.r.can.ohoriz ≤ f.r.ohoriz.init
  sat : f.sat2uz + f.well ≤ f.r.sat.init
  defined : f.zero = false

/-- The concentration of a solution. -/
def at_ (s : St) (k : Key) : Rat := (s.sol k).conc

/-- A sum over the bins with their numbers. -/
def overOuts (g : Nat → BinOut → Rat) : Nat → List BinOut → Rat
  | _, [] => 0
  | j, b :: bs => g j b + overOuts g (j + 1) bs

/-- The concentration after the reactions of a reservoir. -/
def reacted (rx : Ent → Sol → Sol) (e : Ent) (m : Rat) : Rat := (rx e ⟨1, m⟩).conc

/-- The amount `src` is found in the volume `vol`: with concentration `m` before, `c` after reactions. -/
def Taken (rx : Ent → Sol → Sol) (e : Ent) (vol c src : Rat) : Prop :=
  ∃ m, (vol ≠ 0 → c = reacted rx e m) ∧ vol * m = src

/-- The amount of solute that falls on a unit.  (Concentration of diverted water: that of the segment at the start.) -/
def fallenMol (f : Flow) (s : St) : Rat :=
  f.r.mru.ppt * at_ s (.data 1) + f.r.mru.ext * at_ s (.data (f.srcExt + 1)) + f.r.mru.well * at_ s (f.key false 8) +
    f.r.mru.div * at_ s (.seg false f.srcInt)

/-- Amounts that a row takes from rain and irrigation, from throughfall and from melt water. -/
def above (f : Flow) (v : Vol) (s' : St) : Rat :=
  fallen v * at_ s' (f.key false 11) + v.can * at_ s' (f.key true 1) + v.melt * at_ s' (meltKey f s')

/-- Solutes move with the water: in each reservoir of the unit, the amount in what remains and in what leaves after
mixing is the amount that was there, less what left before mixing, plus the volume from each source times its
concentration.  `s` is the state before, with initial solutions, `s'` the state after. -/
structure Moved (rx : Ent → Sol → Sol) (f : Flow) (s s' : St) : Prop where
  dep : Taken rx .atm f.dep (at_ s' (f.key false 11)) (fallenMol f s)
  can : Taken rx (.res (f.key true 1)) (f.r.can.fin + f.r.can.out) (at_ s' (f.key true 1))
    (f.r.can.init * at_ s (f.key false 1) + fallen f.r.can * at_ s' (f.key false 11) +
      f.r.can.ohoriz * at_ s (f.key false 4) + overOuts (fun j b => b.toCan * at_ s' (.bin true f.unit j)) 1 f.bins)
  snow : ∃ m, (f.r.snow.fin + f.r.snow.out ≠ 0 → at_ s' (f.key true 2) =
      if 0 < f.r.snow.inp ∨ 0 < f.r.snow.et ∨ 0 < f.r.snow.out then m else reacted rx (.res (f.key true 2)) m) ∧
    (f.r.snow.out ≠ 0 → at_ s' (meltKey f s') = m) ∧
    (f.r.snow.fin + f.r.snow.out) * m = f.r.snow.init * at_ s (f.key false 2) + above f f.r.snow s'
  ohoriz : Taken rx (.res (f.key true 4)) (f.r.ohoriz.fin + f.r.ohoriz.out - f.r.can.ohoriz) (at_ s' (f.key true 4))
    ((f.r.ohoriz.init - f.r.can.ohoriz) * at_ s (f.key false 4) + above f f.r.ohoriz s')
  uz : ∀ j b, f.bins[j]? = some b →
    Taken rx (.res (.bin true f.unit (j + 1))) (b.vol.fin + b.vol.out) (at_ s' (.bin true f.unit (j + 1)))
      (b.vol.init * at_ s (.bin false f.unit (j + 1)) + above f b.vol s' + b.vol.sat * at_ s (f.key false 8))
  recharge : (f.r.qdf.uz + f.r.sat.uz) * at_ s' (f.key true 13) =
    overOuts (fun j b => (b.toSat + b.toQdf) * at_ s' (.bin true f.unit j)) 1 f.bins
  qdf : Taken rx (.res (f.key true 7)) (f.r.qdf.fin + f.r.qdf.out) (at_ s' (f.key true 7))
    (f.r.qdf.init * at_ s (f.key false 7) + f.r.qdf.uz * at_ s' (f.key true 13))
  sat : Taken rx (.res (f.key true 8)) (f.r.sat.fin + f.r.sat.out - f.sat2uz - f.well) (at_ s' (f.key true 8))
    ((f.r.sat.init - f.sat2uz - f.well) * at_ s (f.key false 8) + above f f.r.sat s' +
      f.r.sat.uz * at_ s' (f.key true 13) + f.r.sat.gw1 * at_ s (.data (f.srcGw1 + 1)) +
      f.r.sat.gw2 * at_ s (.data (f.srcGw2 + 1)))
  satpref : 0 < f.prefMax → Taken rx (.res (f.key true 9)) (f.r.satpref.fin + f.r.satpref.out) (at_ s' (f.key true 9))
    (f.r.satpref.init * at_ s (f.key false 9) + f.r.satpref.sat * at_ s' (f.key true 8))
  still : ¬ 0 < f.prefMax → at_ s' (f.key true 9) = at_ s (f.key true 9)
  hill : f.r.hill.out * at_ s' (f.key true 10) = f.r.hill.ohoriz * at_ s' (f.key true 4) +
    f.r.hill.qdf * at_ s' (f.key true 7) + f.r.hill.sat * at_ s' (f.key true 8) + f.r.hill.satpref * at_ s' (f.key true 9)

/-- A solution of the unit. -/
def Key.of (u : Nat) : Key → Prop
  | .hill _ _ v => v = u
  | .bin _ v _ => v = u
  | _ => False

/-- The solute in a unit: `vol` a volume of a row, `t` the time of the solutions.  Deep preferential flow is a reservoir
of its own here. -/
def held (f : Flow) (vol : Vol → Rat) (t : Bool) (s : St) : Rat :=
  vol f.r.can * at_ s (f.key t 1) + vol f.r.snow * at_ s (f.key t 2) + vol f.r.ohoriz * at_ s (f.key t 4) +
    overOuts (fun j b => vol b.vol * at_ s (.bin t f.unit j)) 1 f.bins + vol f.r.qdf * at_ s (f.key t 7) +
    vol f.r.sat * at_ s (f.key t 8) + vol f.r.satpref * at_ s (f.key t 9)

/-- The solute of a unit is conserved: what it holds at the end and what has left with flow to the stream, from wells and
to deep groundwater is what it held at the start and what fell on it or came from other groundwater.  Water that
evaporates takes nothing with it. -/
def Kept (f : Flow) (s s' : St) : Prop :=
  held f (·.fin) true s' + f.r.hill.out * at_ s' (f.key true 10) + f.r.mru.well * at_ s (f.key false 8) +
      f.p.vol f.i.gwLoss * at_ s' (f.key true 8) =
    held f (·.init) false s + fallenMol f s + f.r.mru.gw1 * at_ s (.data (f.srcGw1 + 1)) +
      f.r.mru.gw2 * at_ s (.data (f.srcGw2 + 1))

/-! ### Streams -/

/-- Water in a segment before it moves on; water that came from the hillslopes. -/
def Seg.whole (g : Seg) : Rat := g.down + g.taken + g.loss
def Seg.fresh (g : Seg) : Rat := (g.hill.map (·.2)).sum

/-- Volumes of a segment are not negative, and water from the hillslopes is part of the water in the segment. -/
structure Seg.Ok (g : Seg) : Prop where
  own : 0 ≤ g.own
  down : 0 ≤ g.down
  taken : 0 ≤ g.taken
  loss : 0 ≤ g.loss
  hill : ∀ u ∈ g.hill, 0 ≤ u.2
  fresh : g.fresh ≤ g.whole

/-- Solute from the hillslopes. -/
def Seg.freshMol (g : Seg) (s : St) : Rat := (g.hill.map fun u => u.2 * at_ s (.hill true 10 u.1)).sum

/-- Solutes move with the water in the streams: what leaves segment `j+1`, the solution at its lower end, is what was in the
segment and what came from the hillslopes. -/
def Routed (rx : Ent → Sol → Sol) (gs : List Seg) (s s' : St) : Prop :=
  ∀ j g, gs[j]? = some g → Taken rx (.res (.seg false (j + 1))) g.whole (at_ s' (.seg true j))
    ((g.whole - g.fresh) * at_ s (.seg false (j + 1)) + g.freshMol s)

/-- A sum over the segments, numbered from the outlet. -/
def overSegs (x : Nat → Seg → Rat) : Nat → List Seg → Rat
  | _, [] => 0
  | j, g :: gs => x j g + overSegs x (j + 1) gs

/-- The solute in the streams: volumes of the segments from number `j` on, `t` the time of the solutions. -/
def inStream (t : Bool) : Nat → List Rat → St → Rat
  | _, [], _ => 0
  | j, x :: xs, s => x * at_ s (.seg t j) + inStream t (j + 1) xs s

/-- A solution of the streams, or the one used for mixing. -/
def Key.stream : Key → Prop
  | .seg _ _ => True
  | .hill false 14 1 => True
  | _ => False

/-! ### The basin -/

/-- The solute in the bins from number `j` on of unit `u`. -/
def inBins (t : Bool) (u : Nat) : Nat → List Rat → St → Rat
  | _, [], _ => 0
  | j, x :: xs, s => x * at_ s (.bin t u j) + inBins t u (j + 1) xs s

/-- The solute in unit `u`, given the volumes of its reservoirs. -/
def inUnit (t : Bool) (u : Nat) (v : Reservoir.Start) (s : St) : Rat :=
  v.can * at_ s (.hill t 1 u) + v.snow * at_ s (.hill t 2 u) + v.ohoriz * at_ s (.hill t 4 u) + inBins t u 1 v.uz s +
    v.qdf * at_ s (.hill t 7 u) + v.sat * at_ s (.hill t 8 u) + v.satpref * at_ s (.hill t 9 u)

/-- The units from number `u` on. -/
def inUnits (t : Bool) : Nat → List Reservoir.Start → St → Rat
  | _, [], _ => 0
  | u, v :: vs, s => inUnit t u v s + inUnits t (u + 1) vs s

/-- The solute in the basin, given the volumes of units and streams; `t` is the time of the solutions. -/
def inBasin (t : Bool) (v : Reservoir.St) (s : St) : Rat := inUnits t 1 v.units s + inStream t 1 v.stream s

/-- Solute that a unit receives in a step less what leaves it other than to the stream: `s` has the solutions at the start
of the step, `s'` those at its end. -/
def received (f : Flow) (s s' : St) : Rat :=
  fallenMol f s + f.r.mru.gw1 * at_ s (.data (f.srcGw1 + 1)) + f.r.mru.gw2 * at_ s (.data (f.srcGw2 + 1)) -
    f.r.mru.well * at_ s (f.key false 8) - f.p.vol f.i.gwLoss * at_ s' (f.key true 8)

/-- Solute by which the streams exceed what they had and received, when water is taken and lost: `t` is the time of the
solutions in `s`. -/
def excess (t : Bool) (gs : List Seg) (s s' : St) : Rat :=
  overSegs (fun j g => (g.taken + g.loss) * (at_ s (.seg t (j + 1)) - at_ s' (.seg true j))) 0 gs

/-- Lists of the same length for the units of a basin, and as many bins as the unit has topographic classes. -/
structure Sized (ps : List (Par × Site)) (n : Nat) (v : Reservoir.St) : Prop where
  units : v.units.length = ps.length
  bins : ∀ (k : Nat) (p : Par × Site) (w : Reservoir.Start), ps[k]? = some p → v.units[k]? = some w → w.uz.length = p.1.ac.length
  stream : v.stream.length = n

/-- Fluxes of a step, for each unit. -/
structure Fits (ps : List (Par × Site)) (x : List In × Reservoir.StreamIn × List Rat) : Prop where
  units : x.1.length = ps.length
  quz : x.2.2.length = ps.length
  bins : ∀ (k : Nat) (p : Par × Site) (i : In), ps[k]? = some p → x.1[k]? = some i → i.bins.length = p.1.ac.length

/-- Solute that the basin receives in the steps of a run, less what leaves it: `s` has the solutions before the first of
them, `begin` those at the start of a step; `n` is the number of segments. -/
def net (n : Nat) : Bool → St → List (Reservoir.St × St × Reservoir.Out × List Flow) → Rat
  | _, _, [] => 0
  | first, s, (_, s', o, fs) :: rs =>
    (fs.map fun f => received f (begin first fs n s) s').sum - o.basin.discharge * at_ s' (.seg true 0) +
      excess (!first) (segs (fs.map (·.unit)) o.basin) s s' + net n false s' rs

/-- A step in which volumes are consistent and the mixing sequence provides for the flows. -/
def Smooth (r : Reservoir.St × St × Reservoir.Out × List Flow) : Prop :=
  (∀ f ∈ r.2.2.2, f.Ok ∧ f.Regular) ∧ ∀ g ∈ segs (r.2.2.2.map (·.unit)) r.2.2.1.basin, g.Ok

end Verif.Transport
