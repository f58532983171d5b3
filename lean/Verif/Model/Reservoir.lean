import Verif.Model.Topmod
import Verif.Model.Intcp
import Verif.Model.Snow
/-
The volumes of all reservoirs, made from the fluxes of the other modules for the chemistry: `webrinit`, `webrrun`
(`webmod.d/src/webmod_res.F:1264-2033, 2046-3593`), and the table of output files of `io.F:292-306`.

Simplifications: reals are exact rationals, and so are the decimal constants; sums are written as sums over lists.
A division by zero ends the model (`none`); the program goes on with infinities.  `transp_on` is a Boolean.  Observed
discharge is not modelled.
-/
namespace Verif.Reservoir
open Verif.Topmod (acfs)
open Verif.Route (at?)

/-- A row of a mixing matrix, columns 1 to 21 (`webmod_res.F:59-90`, header 1999-2007). -/
structure Vol where
  init : Rat := 0
  inp : Rat := 0
  out : Rat := 0
  fin : Rat := 0
  ppt : Rat := 0
  et : Rat := 0
  imp : Rat := 0
  can : Rat := 0
  melt : Rat := 0
  ohoriz : Rat := 0
  uz : Rat := 0
  qdf : Rat := 0
  sat : Rat := 0
  exf : Rat := 0
  satpref : Rat := 0
  hill : Rat := 0
  well : Rat := 0
  div : Rat := 0
  ext : Rat := 0
  gw1 : Rat := 0
  gw2 : Rat := 0
deriving DecidableEq, Repr

/-- `webmod_res.F:271-272`. -/
def million : Rat := 1000000

/-- `webmod_res.F:271-273`. -/
def inch2m : Rat := 254 / 10000

/-- Parameters of a unit: `mru_area` in km², `covden_sum`, `covden_win`, `c_can_depth`, `AC`, `riparian`, `mru2chan`;
`nirrig_int.ne.0` and `nirrig_ext.ne.0`.  `webmod_res.F:1302-1406, 2140-2290`. -/
structure Par where
  area : Rat
  covSum : Rat
  covWin : Rat
  canDepth : Rat
  ac : List Rat
  rip : List Bool
  chan : Int
  internal : Bool
  external : Bool
deriving DecidableEq, Repr

/-- Fluxes of a bin: `sae_local`, `uz_infil`, `quz_local`, `qdf_local`, `srzwet`, `uz2sat`.  `webmod_res.F:2140-2290`. -/
structure BinIn where
  sae : Rat
  infil : Rat
  quz : Rat
  qdf : Rat
  wet : Rat
  uz2sat : Rat
deriving DecidableEq, Repr

/-- Fluxes of a unit in a step.  In inches: `mru_dep`, `mru_ppt`, `irrig_sat_mru`, `irrig_hyd_mru`, `irrig_ext_mru`,
`net_dep`, `intcp_evap`, `pkwater_equiv`, `snowmelt`, `psoilmru`, `snow_evap`; in metres: `sae`, `qof`, `rex`, `qofs`,
`qvpref`, `qb`, `qpref`, `gw_loss`, `gw_in1`, `gw_in2`; and `transp_on`.  `webmod_res.F:2140-2294`. -/
structure In where
  dep : Rat
  ppt : Rat
  irrSat : Rat
  irrHyd : Rat
  irrExt : Rat
  transp : Bool
  netDep : Rat
  intcpEvap : Rat
  pkwater : Rat
  snowmelt : Rat
  psoil : Rat
  snowEvap : Rat
  sae : Rat
  qof : Rat
  rex : Rat
  qofs : Rat
  qvpref : Rat
  qb : Rat
  qpref : Rat
  gwLoss : Rat
  gwIn1 : Rat
  gwIn2 : Rat
  bins : List BinIn
deriving DecidableEq, Repr

/-- The volume of a depth in metres. -/
def Par.vol (p : Par) (depth : Rat) : Rat := depth * p.area * million

/-- `can_ohoriz_vol`, `webmod_res.F:1451-1453`. -/
def Par.leaf (p : Par) : Rat := p.vol (p.canDepth * (p.covSum - p.covWin))

/-- Volumes of what falls: `v_ppt`, `v_irrsat`, `v_irrhyd`, `v_irrext`. -/
structure Fall where
  ppt : Rat
  well : Rat
  div : Rat
  ext : Rat
deriving DecidableEq, Repr

/-- `webmod_res.F:2542-2554`. -/
def fall (p : Par) (i : In) : Fall :=
  ⟨p.vol (i.ppt * inch2m), if p.internal then p.vol (i.irrSat * inch2m) else 0,
    if p.internal then p.vol (i.irrHyd * inch2m) else 0, if p.external then p.vol (i.irrExt * inch2m) else 0⟩

/-- `v_dep`, `webmod_res.F:2555`. -/
def Fall.total (f : Fall) : Rat := f.ppt + f.well + f.div + f.ext

/-- `covden`, `webmod_res.F:2528-2534`. -/
def covden (p : Par) (i : In) : Rat := if i.transp then p.covSum else p.covWin

/-- Leaves fall, leaves come: `webmod_res.F:2596, 2609`; `was` is `web_transp_on`. -/
def leavesOff (was : Bool) (i : In) : Bool := !i.transp && was
def leavesOn (was : Bool) (i : In) : Bool := i.transp && !was

/-- `transp_rate`, `webmod_res.F:2528-2534, 2598`. -/
def rate (was : Bool) (i : In) : Rat := if i.transp then 7 / 10 else if leavesOff was i then 0 else 1 / 10

/-- Volumes below a litre are set to zero, `webmod_res.F:2627-2628`. -/
def litre (x : Rat) : Rat := if |x| < 1 / 1000 then 0 else x

/-- What leaves the canopy before rounding, without the leaves: `webmod_res.F:2622-2625`. -/
def through (p : Par) (i : In) : Rat := p.vol ((i.netDep - i.dep * (1 - covden p i)) * inch2m)

/-- `v_thruf`, `webmod_res.F:2625-2627`. -/
def thruf (p : Par) (i : In) : Rat := litre (through p i)

/-- The canopy, `webmod_res.F:2575-2678`. -/
def canopy (p : Par) (was : Bool) (i : In) (init : Rat) : Vol :=
  let f := fall p i
  let c := covden p i
  let out1 := litre (through p i + if leavesOff was i then p.leaf else 0)
  let uz := if thruf p i = 0 then p.vol (i.sae * rate was i * c) else 0
  let et := p.vol (i.intcpEvap * inch2m) + uz
  let ohoriz := if leavesOn was i then p.leaf else 0
  let inp := f.ppt * c + f.well * c + f.div * c + f.ext * c + ohoriz + uz
  let out := if out1 < 0 then 0 else out1
  { init := init, inp := inp, out := out, fin := init + inp - out - et, ppt := f.ppt * c, et := et, ohoriz := ohoriz,
    uz := uz, well := f.well * c, div := f.div * c, ext := f.ext * c }

/-- `snowfrac`, `webmod_res.F:2723-2735`. -/
def snowfrac (i : In) (init : Rat) : Rat :=
  if init = 0 ∧ i.netDep = 0 then 0 else if i.netDep > 0 then 1 - i.psoil / i.netDep else 0

/-- The snowpack, `webmod_res.F:2723-2771`. -/
def snow (p : Par) (i : In) (init : Rat) : Vol :=
  if init = 0 ∧ i.netDep = 0 then { init := init, fin := 0 }
  else
    let f := fall p i
    let g := 1 - covden p i
    let s := snowfrac i init
    { init := init, inp := f.ppt * g * s + f.well * g * s + f.div * g * s + f.ext * g * s + thruf p i * s,
      out := p.vol (i.snowmelt * inch2m), fin := p.vol (i.pkwater * inch2m), ppt := f.ppt * g * s,
      et := p.vol (i.snowEvap * inch2m), can := thruf p i * s, well := f.well * g * s, div := f.div * g * s,
      ext := f.ext * g * s }

/-- What reaches the ground: `ppt2hill`, `irrsat2hill`, `irrhyd2hill`, `irrext2hill`, `can2hill`, `melt2hill`.
`webmod_res.F:2802-2807`. -/
structure Ground where
  ppt : Rat
  well : Rat
  div : Rat
  ext : Rat
  can : Rat
  melt : Rat
deriving DecidableEq, Repr

/-- `webmod_res.F:2802-2807`; `s` is `snowfrac`. -/
def ground (p : Par) (i : In) (s : Rat) : Ground :=
  let f := fall p i
  let g := 1 - covden p i
  ⟨f.ppt * g * (1 - s), f.well * g * (1 - s), f.div * g * (1 - s), f.ext * g * (1 - s), thruf p i * (1 - s),
    p.vol (i.snowmelt * inch2m)⟩

/-- `v_surfdep`, `webmod_res.F:2812-2813`. -/
def Ground.total (g : Ground) : Rat := g.ppt + g.ext + g.well + g.div + g.can + g.melt

/-- The O-horizon, `webmod_res.F:2821-2857`. -/
def ohorizon (p : Par) (was : Bool) (i : In) (g : Ground) (init : Rat) : Option Vol :=
  let leaf := if leavesOff was i then p.leaf else 0
  let toCan := if leavesOn was i then p.leaf else 0
  if i.qof > 0 then
    if i.snowmelt + i.psoil = 0 then none
    else
      let o := i.qof / (i.snowmelt + i.psoil) / inch2m
      let inp := g.ppt * o + g.ext * o + g.well * o + g.div * o + (leaf + g.can * o) + g.melt * o
      let out := toCan + g.ppt * o + g.ext * o + g.well * o + g.div * o + g.melt * o + g.can * o
      some { init := init, inp := inp, out := out, fin := init + inp - out, ppt := g.ppt * o, can := leaf + g.can * o,
             melt := g.melt * o, well := g.well * o, div := g.div * o, ext := g.ext * o }
  else some { init := init, inp := leaf, out := toCan, fin := init + leaf - toCan, can := leaf }

/-- `dep_ratio*bypass_frac`, `webmod_res.F:2894-2903, 3212-3217`: the part of the water at the ground that goes straight to the saturated
zone. -/
def bypass (p : Par) (i : In) (g : Ground) : Option Rat :=
  if i.qvpref > 0 then
    let s2 := g.total - p.vol i.rex
    if g.total = 0 ∨ s2 = 0 then none else some (s2 / g.total * (p.vol i.qvpref / s2))
  else some 0

/-- Results for a bin: the row of `vmix_uz`, `vmix_uz2can`, `vmix_uz2sat`, `vmix_uz2qdf`, `v_qwet_loc`, `v_rech_loc`, `v_infil_loc`,
`uz2sat_vol`.  `webmod_res.F:2911-3183`. -/
structure BinOut where
  vol : Vol
  toCan : Rat
  toSat : Rat
  toQdf : Rat
  wet : Rat
  rech : Rat
  infil : Rat
  up : Rat
deriving DecidableEq, Repr

/-- The body of the loop 150, `webmod_res.F:2916-3147`; `transp` is column 11 of the canopy. -/
def bin (p : Par) (was : Bool) (i : In) (g : Ground) (transp acf : Rat) (b : BinIn) (init : Rat) : BinOut :=
  let a := acf * p.area * million
  let toCan := if transp > 0 then rate was i * b.sae * covden p i * a else 0
  let wet := b.wet * a
  let rech := b.quz * a
  let qdf := b.qdf * a
  let up := b.uz2sat * a
  let infil := b.infil * a
  let share (x : Rat) : Rat := if infil > 0 ∧ g.total > 0 then infil * x / g.total else 0
  let et := b.sae * a - toCan
  let sat := if b.uz2sat < 0 then wet - up else wet
  let inp := share g.ppt + share g.can + share g.well + share g.div + share g.ext + share g.melt + sat
  let out := toCan + rech + qdf + if b.uz2sat > 0 then up else 0
  { vol := { init := init, inp := inp, out := out, fin := init + inp - out - et, ppt := share g.ppt, et := et,
             can := share g.can, melt := share g.melt, sat := sat, well := share g.well, div := share g.div,
             ext := share g.ext }
    toCan := toCan, toSat := rech + if b.uz2sat > 0 then up else 0, toQdf := qdf, wet := wet, rech := rech,
    infil := infil, up := up }

/-- The sum of a column. -/
def sumOf {α : Type} (f : α → Rat) (l : List α) : Rat := (l.map f).sum

/-- A composite of bins: `vmix_uzgen`, `vmix_uzrip`, `vmix_uzup`.  `webmod_res.F:2995-3123, 3186-3191`. -/
def composite (init : Rat) (vs : List Vol) : Vol :=
  let inp := sumOf (·.inp) vs
  let out := sumOf (·.out) vs
  let et := sumOf (·.et) vs
  { init := init, inp := inp, out := out, fin := init + inp - out - et, ppt := sumOf (·.ppt) vs, et := et,
    can := sumOf (·.can) vs, melt := sumOf (·.melt) vs, sat := sumOf (·.sat) vs, well := sumOf (·.well) vs,
    div := sumOf (·.div) vs, ext := sumOf (·.ext) vs }

/-- The rows of all mixing matrices of a unit, and `web_transp_on`.  `webmod_res.F:300-323`. -/
structure Rows where
  transp : Bool
  can : Vol
  snow : Vol
  ohoriz : Vol
  uz : List Vol
  uzgen : Vol
  uzrip : Vol
  uzup : Vol
  qdf : Vol
  sat : Vol
  satpref : Vol
  hill : Vol
  mru : Vol
deriving DecidableEq, Repr

/-- Other results of a unit: the bins, `v_surfdep`, `uz_bypass`.  `webmod_res.F:2812, 2897, 2911-3183`. -/
structure Extra where
  bins : List BinOut
  surfdep : Rat
  bypass : Rat
deriving DecidableEq, Repr

/-- Shallow preferential flow, `webmod_res.F:3129, 3198-3206`. -/
def qdfRow (x init : Rat) : Vol := { init := init, inp := x, out := x, fin := init + x - x, uz := x }

/-- The saturated zone, `webmod_res.F:3131-3139, 3212-3282`; `b` is the part bypassing the unsaturated zone. -/
def satRow (p : Par) (i : In) (g : Ground) (b : Rat) (bins : List BinOut) (init : Rat) : Vol :=
  let gw1 := p.vol i.gwIn1
  let gw2 := p.vol i.gwIn2
  let uz := sumOf (·.toSat) bins
  let inp := g.ppt * b + g.well * b + g.div * b + g.ext * b + g.can * b + g.melt * b + uz + gw1 + gw2
  let out := sumOf (·.vol.sat) bins + p.vol i.qpref + p.vol i.qb + p.vol i.gwLoss + (fall p i).well
  { init := init, inp := inp, out := out, fin := init + inp - out, ppt := g.ppt * b, can := g.can * b, melt := g.melt * b,
    uz := uz, well := g.well * b, div := g.div * b, ext := g.ext * b, gw1 := gw1, gw2 := gw2 }

/-- Deep preferential flow, `webmod_res.F:3287-3297`. -/
def satprefRow (x init : Rat) : Vol := { init := init, inp := x, out := x, fin := init + x - x, sat := x }

/-- The hillslope, `webmod_res.F:3309-3340`. -/
def hillRow (of qdf qb pref init : Rat) : Vol :=
  let inp := of + qdf + qb + 0 + pref
  { init := init, inp := inp, out := inp, fin := init + inp - inp, ohoriz := of, qdf := qdf, sat := qb, exf := 0,
    satpref := pref }

/-- The whole unit, `webmod_res.F:2559-2571, 2682, 2793, 3036, 3233-3240, 3264, 3331-3334`. -/
def mruRow (p : Par) (i : In) (can snow sat hill : Vol) (uz : List Vol) (init : Rat) : Vol :=
  let f := fall p i
  let inp := f.total + (sat.gw1 + sat.gw2)
  let out := p.vol i.gwLoss + f.well + hill.out
  let et := can.et + snow.et + sumOf (·.et) uz
  { init := init, inp := inp, out := out, fin := init + inp - out - et, ppt := f.ppt, et := et, well := f.well,
    div := f.div, ext := f.ext, gw1 := sat.gw1, gw2 := sat.gw2 }

/-- Initial volumes of a step: `web_transp_on` and column 1 of each matrix.  `webmod_res.F:2334-2349`. -/
structure Start where
  transp : Bool
  can : Rat
  snow : Rat
  ohoriz : Rat
  uz : List Rat
  uzgen : Rat
  uzrip : Rat
  uzup : Rat
  qdf : Rat
  sat : Rat
  satpref : Rat
  hill : Rat
  mru : Rat
deriving DecidableEq, Repr

/-- Column 4 becomes column 1 of the next step, `webmod_res.F:2334-2349`. -/
def Rows.next (r : Rows) : Start :=
  ⟨r.transp, r.can.fin, r.snow.fin, r.ohoriz.fin, r.uz.map (·.fin), r.uzgen.fin, r.uzrip.fin, r.uzup.fin, r.qdf.fin,
    r.sat.fin, r.satpref.fin, r.hill.fin, r.mru.fin⟩

/-- The bins of a step.  `webmod_res.F:2911-3183`. -/
def bins (p : Par) (was : Bool) (i : In) (g : Ground) (transp : Rat) (init : List Rat) : List BinOut :=
  List.zipWith (fun (a : Rat × BinIn) x => bin p was i g transp a.1 a.2 x) (List.zip (acfs p.ac) i.bins) init

/-- The rows of bins of one kind (`riparian`), `webmod_res.F:3001-3015, 3031-3035`. -/
def only (k : Bool) (rip : List Bool) (vs : List Vol) : List Vol :=
  ((List.zip rip vs).filter (·.1 = k)).map (·.2)

/-- The body of the loop over units, `webmod_res.F:2434-3413`. -/
def step (p : Par) (s : Start) (i : In) : Option (Rows × Extra) :=
  let can := canopy p s.transp i s.can
  let sn := snow p i s.snow
  let g := ground p i (snowfrac i s.snow)
  match ohorizon p s.transp i g s.ohoriz, bypass p i g with
  | some oh, some b =>
    let bs := bins p s.transp i g can.uz s.uz
    let uz := bs.map (·.vol)
    let qdf := qdfRow (sumOf (·.toQdf) bs) s.qdf
    let sat := satRow p i g b bs s.sat
    let satpref := satprefRow (p.vol i.qpref) s.satpref
    let hill := hillRow (oh.out - can.ohoriz) qdf.out (p.vol i.qb) satpref.out s.hill
    some
      ({ transp := i.transp, can := can, snow := sn, ohoriz := oh, uz := uz, uzgen := composite s.uzgen uz,
         uzrip := composite s.uzrip (only true p.rip uz), uzup := composite s.uzup (only false p.rip uz), qdf := qdf,
         sat := sat, satpref := satpref, hill := hill, mru := mruRow p i can sn sat hill uz s.mru },
       { bins := bs, surfdep := g.total, bypass := if i.qvpref > 0 then p.vol i.qvpref else 0 })
  | _, _ => none

/-- The fluxes of a step as the other modules hand them over: `webmod_res.F:2140-2294`.  `topmod_chem.F` publishes
`(1-qdffrac)*UZ` and `qdffrac*UZ` of each bin. -/
def fluxes (dep ppt irrSat irrHyd irrExt : Rat) (transp : Bool) (c : Intcp.St × Intcp.Out) (sn : Snow.St × Snow.Out)
    (qdffrac : Rat) (t : Topmod.Out) : In :=
  { dep := dep, ppt := ppt, irrSat := irrSat, irrHyd := irrHyd, irrExt := irrExt, transp := transp, netDep := c.2.netDep,
    intcpEvap := c.1.evap, pkwater := sn.1.pkwater, snowmelt := sn.2.day.melt, psoil := sn.2.day.soil,
    snowEvap := sn.2.day.evap, sae := t.sae, qof := t.qof, rex := t.rex, qofs := t.qofs, qvpref := t.qvpref, qb := t.qb,
    qpref := t.qpref, gwLoss := t.gwLoss, gwIn1 := t.gwIn1, gwIn2 := t.gwIn2,
    bins := List.zipWith (fun (f : Topmod.Flux) u => ⟨f.ea, f.infil, (1 - qdffrac) * f.uz, qdffrac * f.uz, f.wet, u⟩)
      t.flux t.uz2sat }

/-! ### One unit through the modules -/

/-- A unit as the modules see it.  Their parameters are those of `Intcp`, `Snow`, `Topmod`. -/
structure MUnit where
  p : Par
  veg : Intcp.Veg
  snowFn : Snow.Fn
  snow : Snow.Mru
  soilFn : Topmod.Fn
  soil : Topmod.Mru
  infex : Bool

/-- What the modules keep about a unit. -/
structure Now where
  vol : Start
  can : Intcp.St
  pack : Snow.St
  soil : Topmod.St
deriving DecidableEq, Repr

/-- What a step brings: inputs of the interception, of the snow module (`net_dep` comes from interception), of TOPMODEL
(`snowmelt`, `psoilmru`, `intcp_evap`, `snow_evap`, `transp_on`, `irrig_sat_mru` come from other modules), and the amounts
of water by source. -/
structure Day where
  nstep : Nat
  dt : Rat
  can : Intcp.In
  pack : Snow.In
  soil : Topmod.In
  ppt : Rat
  irrSat : Rat
  irrHyd : Rat
  irrExt : Rat
deriving DecidableEq, Repr

/-- Interception, snow, TOPMODEL and reservoirs in the order of `call_modules_webmod.F:201-231`; `mru_dep` is rain and snow
(`irrig_web.F:576`). -/
def advance (u : MUnit) (x : Now) (d : Day) : Option (Now × In × Rows) :=
  let c := Intcp.step u.veg false d.can x.can
  let transp := d.can.transp = 1
  match Snow.nwsmrun u.snowFn u.snow d.nstep { d.pack with dep := c.2.netDep } x.pack with
  | none => none
  | some sn =>
    match Topmod.topmrun u.soilFn u.soil u.infex u.p.internal d.nstep d.dt
        { d.soil with intcp := c.1.evap, snowEvap := sn.2.day.evap, snowmelt := sn.2.day.melt, psoil := sn.2.day.soil,
                      transp := transp, irrSat := d.irrSat } x.soil with
    | some (some t) =>
      let i := fluxes (d.can.rain + d.can.snow) d.ppt d.irrSat d.irrHyd d.irrExt transp c sn u.soil.qdffrac t.2
      (step u.p x.vol i).map fun r => (⟨r.1.next, c.1, sn.1, t.1⟩, i, r.1)
    | _ => none

/-- The steps of a run of one unit. -/
def course (u : MUnit) : Now → List Day → Option (List (Now × In × Rows))
  | _, [] => some []
  | x, d :: ds =>
    match advance u x d with
    | none => none
    | some y => (course u y.1 ds).map (y :: ·)

/-! ### Initial volumes -/

/-- Parameters used only at the start: `transp_on`, `WEI`, `s_ohoriz_depth`, `uz_depth`, `s_theta_wp`, `s_theta_fc`,
`s_theta_0`, `s_root_depth`, `qdffrac`, `s_rock_depth`, `s_porosity`, `sbar0`, `s_satpref_zmax`, `s_satpref_zmin`.
`webmod_res.F:1302-1406`. -/
structure First where
  transp : Bool
  wei : Rat
  ohDepth : Rat
  uzDepth : List Rat
  wp : Rat
  fc : Rat
  theta0 : Rat
  root : Rat
  qdffrac : Rat
  rock : Rat
  porosity : Rat
  sbar0 : Rat
  zmax : Rat
  zmin : Rat
deriving DecidableEq, Repr

/-- The loop over units of `webrinit`, `webmod_res.F:1427-1611`. -/
def initUnit (p : Par) (f : First) : Start :=
  let can := p.vol (p.canDepth * if f.transp then p.covSum else p.covWin)
  let snow := p.vol (f.wei * inch2m)
  let ohoriz := p.vol f.ohDepth + if f.transp then 0 else p.leaf
  let uz := List.zipWith (fun a d => p.vol (d * a)) (acfs p.ac) f.uzDepth
  let rows := uz.map fun x => ({ fin := x } : Vol)
  let qdf := p.vol (f.wp * f.root * f.qdffrac)
  let sat := p.vol (f.rock * f.porosity - f.sbar0 - (f.fc - f.theta0) * f.root)
  { transp := f.transp, can := can, snow := snow, ohoriz := ohoriz, uz := uz, uzgen := uz.sum,
    uzrip := sumOf (·.fin) (only true p.rip rows), uzup := sumOf (·.fin) (only false p.rip rows), qdf := qdf, sat := sat,
    satpref := p.vol (f.porosity * (f.zmax - f.zmin)), hill := 0, mru := can + snow + ohoriz + uz.sum + qdf + sat }

/-! ### Streams and basin -/

/-- A channel: `ar_fill`, `chan_area`.  `webmod_res.F:1302-1406`. -/
structure Chan where
  ar : List Rat
  area : Rat
deriving DecidableEq, Repr

/-- `vmix_hillexp` of a unit, for all segments: `webmod_res.F:3429-3431`. -/
def hillexp (area : Rat) (chans : List Chan) (p : Par) (hill : Vol) : Option (List Rat) :=
  match if p.chan < 1 then none else chans[p.chan.toNat - 1]? with
  | none => none
  | some c => if c.area = 0 ∨ area = 0 then none else some (c.ar.map fun a => hill.out * a / (c.area / area))

/-- All units. -/
def exports (area : Rat) (chans : List Chan) : List (Par × Vol) → Option (List (List Rat))
  | [] => some []
  | (p, h) :: r =>
    match hillexp area chans p h, exports area chans r with
    | some x, some xs => some (x :: xs)
    | _, _ => none

/-- Contributions are added to the segments, `webmod_res.F:3427-3437`. -/
def addAll (stream : List Rat) : List (List Rat) → List Rat
  | [] => stream
  | x :: xs => addAll (List.zipWith (· + ·) stream x) xs

/-- Basin: `basin_area`, channels.  `webmod_res.F:1302-1406`. -/
structure Basin where
  area : Rat
  chans : List Chan
deriving DecidableEq, Repr

/-- Inputs of the streams: `irrig_hyd_seg`, `chan_loss`.  `webmod_res.F:3438-3439`. -/
structure StreamIn where
  taken : List Rat
  loss : List Rat
deriving DecidableEq, Repr

/-- Results for the basin: `vmix_basin`, `vmix_stream` (after the shift), the discharge, `vmix_diversion`,
`vmix_chan_loss`, `vmix_hillexp`. -/
structure BasinOut where
  vol : Vol
  stream : List Rat
  discharge : Rat
  taken : List Rat
  loss : List Rat
  hillexp : List (List Rat)
deriving DecidableEq, Repr

/-- `webmod_res.F:2560-2572, 2683, 2794, 3037, 3234-3242, 3265, 3427-3465`. -/
def basin (b : Basin) (units : List (Par × In × Rows)) (si : StreamIn) (init : Rat) (stream : List Rat) : Option BasinOut :=
  match exports b.area b.chans (units.map fun u => (u.1, u.2.2.hill)) with
  | none => none
  | some ex =>
    let st := addAll stream ex
    let loss := si.loss.map fun x => x * b.area * million
    let inp := sumOf (fun u : Par × In × Rows => (fall u.1 u.2.1).total + (u.2.2.sat.gw1 + u.2.2.sat.gw2)) units
    let out := sumOf (fun u : Par × In × Rows => u.1.vol u.2.1.gwLoss + (fall u.1 u.2.1).well) units +
      (loss.sum + si.taken.sum) + st.headD 0
    let et := sumOf (fun u : Par × In × Rows => u.2.2.can.et + u.2.2.snow.et + sumOf (·.et) u.2.2.uz) units
    some
      { vol :=
          { init := init, inp := inp, out := out, fin := init + inp - out - et
            ppt := sumOf (fun u : Par × In × Rows => (fall u.1 u.2.1).ppt) units, et := et
            well := sumOf (fun u : Par × In × Rows => (fall u.1 u.2.1).well) units
            div := sumOf (fun u : Par × In × Rows => (fall u.1 u.2.1).div) units
            ext := sumOf (fun u : Par × In × Rows => (fall u.1 u.2.1).ext) units
            gw1 := sumOf (fun u : Par × In × Rows => u.2.2.sat.gw1) units
            gw2 := sumOf (fun u : Par × In × Rows => u.2.2.sat.gw2) units }
        stream := st.tail ++ [0], discharge := st.headD 0, taken := si.taken, loss := loss, hillexp := ex }

/-- Initial volumes of the stream segments, `webmod_res.F:1619-1631`: `q` has one list per channel, with `chan_area`. -/
def initStream (b : Basin) (q : List (List Rat)) (maxloss : List Rat) : List Rat :=
  List.zipWith (fun ih m => sumOf (fun c : Chan × List Rat => c.2.getD ih 0 * c.1.area * million) (List.zip b.chans q) +
    m * b.area * million) (List.range maxloss.length) maxloss

/-! ### A step of the whole module -/

/-- What is kept between steps. -/
structure St where
  units : List Start
  basin : Rat
  stream : List Rat
deriving DecidableEq, Repr

/-- All units of a step. -/
def stepUnits : List (Par × Start × In) → Option (List (Rows × Extra))
  | [] => some []
  | (p, s, i) :: r =>
    match step p s i, stepUnits r with
    | some x, some xs => some (x :: xs)
    | _, _ => none

/-- Results of a step. -/
structure Out where
  units : List (Rows × Extra)
  basin : BasinOut
deriving DecidableEq, Repr

/-- `webrrun`, `webmod_res.F:2334-3465`, without output. -/
def webrrun (b : Basin) (ps : List Par) (st : St) (is : List In) (si : StreamIn) : Option (St × Out) :=
  match stepUnits (List.zip ps (List.zip st.units is)) with
  | none => none
  | some rs =>
    match basin b (List.zip ps (List.zip is (rs.map (·.1)))) si st.basin st.stream with
    | none => none
    | some o => some (⟨rs.map (·.1.next), o.vol.fin, o.stream⟩, ⟨rs, o⟩)

/-- `webrinit`, `webmod_res.F:1427-1633`, without output. -/
def webrinit (b : Basin) (ps : List (Par × First)) (q : List (List Rat)) (maxloss : List Rat) : St :=
  let us := ps.map fun x => initUnit x.1 x.2
  let st := initStream b q maxloss
  ⟨us, sumOf (·.mru) us + st.sum, st⟩

/-- The steps of a run. -/
def runSteps (b : Basin) (ps : List Par) : St → List (List In × StreamIn) → Option (List (St × Out))
  | _, [] => some []
  | st, (is, si) :: r =>
    match webrrun b ps st is si with
    | none => none
    | some (st', o) => (runSteps b ps st' r).map ((st', o) :: ·)

/-! ### Depths reported -/

/-- Some of the variables `basin_*_cm`, in cm over the basin: `webmod_res.F:3370-3411, 3447-3460, 3469-3514`.  (The others are sums
of the same kind.) -/
structure Report where
  sto : Rat
  inp : Rat
  out : Rat
  et : Rat
  ppt : Rat
  irrSat : Rat
  irrHyd : Rat
  irrExt : Rat
  intcpSto : Rat
  intcp : Rat
  intcpEvap : Rat
  transp : Rat
  thruf : Rat
  netDep : Rat
  pweqv : Rat
  snowmelt : Rat
  snowEvap : Rat
  surfdep : Rat
  sssto : Rat
  sroff : Rat
  infil : Rat
  qdf : Rat
  uzEt : Rat
  gwSto : Rat
  gw1 : Rat
  gw2 : Rat
  qwet : Rat
  vpref : Rat
  uz2sat : Rat
  recharge : Rat
  sat2uz : Rat
  qwell : Rat
  qpref : Rat
  gwLoss : Rat
  gwFlow : Rat
  chanSto : Rat
  stflow : Rat
  chanDiv : Rat
  chanLoss : Rat
  qsim : Rat
deriving DecidableEq, Repr

/-- `m3cm`, `webmod_res.F:1412`. -/
def m3cm (area : Rat) : Rat := 1 / 10000 / area

/-- One unit with all its inputs and results. -/
abbrev UnitRes := Par × In × Rows × Extra

/-- `webmod_res.F:3370-3411, 3447-3460, 3469-3514`. -/
def report (b : Basin) (units : List UnitRes) (o : BasinOut) : Report :=
  let k := m3cm b.area
  let s (f : UnitRes → Rat) : Rat := sumOf f units * k
  { sto := o.vol.fin * k, inp := o.vol.inp * k, out := o.vol.out * k, et := o.vol.et * k
    ppt := s fun u => (fall u.1 u.2.1).ppt
    irrSat := s fun u => (fall u.1 u.2.1).well
    irrHyd := s fun u => (fall u.1 u.2.1).div
    irrExt := s fun u => (fall u.1 u.2.1).ext
    intcpSto := s fun u => u.2.2.1.can.fin
    intcp := s fun u => u.2.2.1.can.inp - u.2.2.1.can.uz - u.2.2.1.can.ohoriz - Reservoir.thruf u.1 u.2.1
    intcpEvap := s fun u => u.2.2.1.can.et
    transp := s fun u => u.2.2.1.can.uz
    thruf := s fun u => Reservoir.thruf u.1 u.2.1
    netDep := s fun u => u.1.vol (u.2.1.netDep * inch2m)
    pweqv := s fun u => u.2.2.1.snow.fin
    snowmelt := s fun u => u.2.2.1.snow.out
    snowEvap := s fun u => u.2.2.1.snow.et
    surfdep := s fun u => u.2.2.2.surfdep
    sssto := s fun u => sumOf (·.fin) u.2.2.1.uz
    sroff := s fun u => u.1.vol u.2.1.qof
    infil := s fun u => sumOf (·.infil) u.2.2.2.bins
    qdf := s fun u => u.2.2.1.qdf.out
    uzEt := s fun u => u.1.vol u.2.1.sae - u.2.2.1.can.uz
    gwSto := s fun u => u.2.2.1.sat.fin
    gw1 := s fun u => u.2.2.1.sat.gw1
    gw2 := s fun u => u.2.2.1.sat.gw2
    qwet := s fun u => sumOf (·.wet) u.2.2.2.bins
    vpref := s fun u => u.2.2.2.bypass
    uz2sat := s fun u => sumOf (fun x => if x.up > 0 then x.up else 0) u.2.2.2.bins
    recharge := s fun u => sumOf (·.rech) u.2.2.2.bins
    sat2uz := s fun u => sumOf (fun x => if x.up < 0 then -x.up else 0) u.2.2.2.bins
    qwell := s fun u => (fall u.1 u.2.1).well
    qpref := s fun u => u.1.vol u.2.1.qpref
    gwLoss := s fun u => u.1.vol u.2.1.gwLoss
    gwFlow := s fun u => u.1.vol u.2.1.qb
    chanSto := o.stream.sum * k
    stflow := s fun u => u.2.2.1.hill.out
    chanDiv := o.taken.sum * k
    chanLoss := o.loss.sum * k
    qsim := o.discharge * k }

/-! ### Output files -/

/-- The size of the table of units of output files, `vse_lun`; `io.F:292-306`.  `solutes` is `nsolute.ne.0`, `chem` is
`chem_sim.eq.1`; 0 stands for a table that is not allocated. -/
def tableSize (printVse : Int) (solutes chem : Bool) (nmru nac nhydro : Nat) : Nat :=
  if solutes = false then 0 else if printVse = 1 then (if chem then 3 * (nmru + 1) else nmru + 1)
  else if printVse = 2 then
    (if chem then 3 * (1 + nmru * (13 + nac) + nhydro + 1) else 1 + nmru * (13 + nac) + nhydro + 1)
  else 0

/-- The last decimal digits of a number. -/
def low : Nat → Nat → List Char
  | 0, _ => []
  | w + 1, n => low w (n / 10) ++ [Char.ofNat (48 + n % 10)]

/-- The formats `I3.3` and `I2.2`: a number that does not fit gives stars. -/
def iw (w n : Nat) : List Char := if n < 10 ^ w then low w n else List.replicate w '*'

/-- The names of the files of a unit after its number; the first is its own file.  `webmod_res.F:1669-1950, 2017-2033` and
the same for solutes and entities, `phreeq_mms.F90:5471-5752, 5816-6097, 6164-6180`. -/
def unitFiles (full : Bool) (nac : Nat) : List (List Char) :=
  [] :: if full then
    ["_uzgen".toList, "_uzrip".toList, "_uzup".toList, "_can".toList, "_snow".toList, "_transp".toList, "_ohoriz".toList] ++
      ((List.range nac).map (fun j => "_uz".toList ++ iw 2 (j + 1)) ++
        ["_qdf".toList, "_sat".toList, "_satpref".toList, "_hill".toList, "_uz2sat".toList])
  else []

/-- The files opened with one prefix: basin, units, and streams if `hyd`. -/
def filesOf (pre : Char) (full hyd : Bool) (nmru nac nhydro : Nat) : List (List Char) :=
  (pre :: "_basin".toList) ::
    ((List.range nmru).flatMap (fun i => (unitFiles full nac).map (pre :: "_mru".toList ++ iw 3 (i + 1) ++ ·)) ++
      if hyd then (List.range nhydro).map (fun i => pre :: "_hyd".toList ++ iw 3 (i + 1)) ++ [pre :: "_hyd".toList] else [])

/-- The files opened by `webrinit` (`v_`, `webmod_res.F:1649-1991`) and `phreeqmms_init` (`s_` and `e_`,
`phreeq_mms.F90:5452-5793, 5797-6138`); each takes the next place of the table (`nf=nf+1`). -/
def openFiles (printVse : Int) (chem : Bool) (nmru nac nhydro : Nat) : List (List Char) :=
  let full : Bool := printVse = 2
  if printVse ≥ 1 then
    filesOf 'v' full true nmru nac nhydro ++
      if chem then filesOf 's' full full nmru nac nhydro ++ filesOf 'e' full full nmru nac nhydro else []
  else []

end Verif.Reservoir
