import Verif.Model.Route
/-
Model of the hillslope module: `topminit`, `topmrun` and the frame of `EXPINF`
(`webmod.d/src/topmod_chem.F:1596-2032, 2041-3042, 3134-3256`), for one model response unit (MRU); the loop
at 2242 treats the units independently of each other.

Simplifications: reals are exact rationals, and so are the decimal constants.  `EXP`, `SQRT` and `10**x` are
parameters (`Fn`), and so is the iteration inside `EXPINF`.  Basin totals, the debug file and the
summary file, except for the balance it prints, are not modelled.
-/
namespace Verif.Topmod
open Verif.Route (at?)

/-- `T_decay`: 0, 1, 2; other values are refused at 1690. -/
inductive Decay
  | exponential | parabolic | linear
deriving DecidableEq, Repr

/-- Parameters of an MRU, with the names of `topmod_chem.F:226-258`.  `bins` holds `AC` and `ST`, `xk` the
conductivities made at 1788-1797 (one, or nine), `szq` the base flow at zero deficit (1762-1768). -/
structure Mru where
  decay : Decay
  szm : Rat
  tl : Rat
  szq : Rat
  td : Rat
  pmacro : Rat
  pmacSat : Rat
  qdffrac : Rat
  covSum : Rat
  covWin : Rat
  wp : Rat
  fc : Rat
  theta0 : Rat
  porosity : Rat
  root : Rat
  rock : Rat
  lossK : Rat
  zmin : Rat
  zmax : Rat
  satprefK : Rat
  area : Rat
  sched : Int
  src : Int
  irrMax : Rat
  irrInit : Rat
  sbar0 : Rat
  gw1 : Int
  gw2 : Int
  len1 : Rat
  len2 : Rat
  xk : List Rat
  bins : List (Rat × Rat)
deriving DecidableEq, Repr

/-- `topmod_chem.F:209`. -/
def inch2m : Rat := 254 / 10000

/-- `topmod_chem.F:211`. -/
def gpm2m3ph : Rat := 227125 / 1000000

/-- `topmod_chem.F:216`. -/
def qlin2dep : Rat := 63343 / 1000000000000

/-- `topmod_chem.F:1776`. -/
def Mru.srmax (m : Mru) : Rat := (m.fc - m.wp) * m.root

/-- `topmod_chem.F:1908`. -/
def Mru.sr0 (m : Mru) : Rat := (m.fc - m.theta0) * m.root

/-- `topmod_chem.F:1913`: `s_drain`. -/
def Mru.drain (m : Mru) : Rat := m.porosity - m.fc

/-- `topmod_chem.F:1917`: `sbar_max`. -/
def Mru.sbarMax (m : Mru) : Rat := m.rock * m.drain

/-- `topmod_chem.F:1975`: `qpref_max`. -/
def Mru.qprefMax (m : Mru) : Rat := (m.zmax - m.zmin) * m.satprefK * 36

/-- The area fractions `ACF` (`topmod_chem.F:2364-2368`, also 1649-1653, 2789-2793, 2988-2992) from `AC`. -/
def acfs : List Rat → List Rat
  | [] => []
  | [a] => [1 / 2 * a]
  | a :: b :: rest => 1 / 2 * (a + b) :: acfs (b :: rest)

/-- The local storage deficit (`topmod_chem.F:2383-2387`, the same at 1946-1950 and 2794-2798). -/
def deficit (m : Mru) (sbar st : Rat) : Rat :=
  match m.decay with
  | .exponential => sbar + m.szm * (m.tl - st)
  | _ => m.szm - st * (m.szm - sbar) / m.tl

/-- Infiltration state of one conductivity class: `IROF`, `CUMF`, `CONST`, `TP`.  `topmod_chem.F:2310-2335`. -/
structure Pond where
  irof : Bool
  cumf : Rat
  const : Rat
  tp : Rat
deriving DecidableEq, Repr

/-- What is kept for a bin: `SRZ`, `SUZ`, `z_wt_local`, `uz_depth`.  `topmod_chem.F:1958-1969, 2805-2819`. -/
structure BinSt where
  srz : Rat
  suz : Rat
  zwt : Rat
  depth : Rat
deriving DecidableEq, Repr

/-- `SUMP`, `sumgw_in1`, `sumgw_in2`, `SUMAE`, `SUMQ`, `sumgw_loss`.  `topmod_chem.F:2171-2176, 2866`. -/
structure Sums where
  p : Rat
  gw1 : Rat
  gw2 : Rat
  ae : Rat
  q : Rat
  loss : Rat
deriving DecidableEq, Repr

/-- What is kept for the MRU: `SBAR`, `z_wt`, the bins, the infiltration states, the sums, `BAL`.
`topmod_chem.F:1386-2031`. -/
structure St where
  sbar : Rat
  zwt : Rat
  bins : List BinSt
  pond : List Pond
  sums : Sums
  bal : Rat
deriving DecidableEq, Repr

/-- `topmod_chem.F:1960-1969` and 2810-2819: the water above the water table, `uz_depth`. -/
def uzDepth (m : Mru) (srz suz zwt : Rat) : Rat :=
  if zwt ≥ -m.root then m.srmax - srz + m.wp * m.root + suz
  else m.srmax - srz + m.wp * m.root + suz - (m.root + zwt) * m.fc

/-- `topminit` for one MRU, `topmod_chem.F:1621-1673, 1901-1995`.  `none`: refused with a message.
`internal` is `nirrig_int.ne.0`.  The checks of all MRUs precede the setting of the stores; divisions by
zero are left to `topmrun`. -/
def topminit (internal : Bool) (m : Mru) : Option St :=
  match m.bins with
  | [] => none
  | (a, _) :: rest =>
    if a ≠ 0 then none
    else
      let tarea := a + (rest.map (·.1)).sum
      if tarea - 1 > 5 / 10000 ∨ -(tarea - 1) > 5 / 10000 then none
      else if m.theta0 > m.fc then none
      else
        let s0 := if internal ∧ m.irrInit ≠ 0 ∧ m.src = 0 then m.sbar0 - m.irrInit * inch2m else m.sbar0
        let sbar := if s0 < 0 then 0 else s0
        let bins := m.bins.map fun b =>
          let d := deficit m sbar b.2
          let z := -((if d < 0 then 0 else d) / m.drain)
          (⟨m.sr0, 0, z, uzDepth m m.sr0 0 z⟩ : BinSt)
        some ⟨sbar, -sbar / m.drain, bins, m.xk.map fun _ => ⟨false, 0, 0, 0⟩, ⟨0, 0, 0, 0, 0, 0⟩,
          m.rock * m.porosity - sbar - m.sr0⟩

/-- Functions that are parameters of the model.  `solve` stands for the iterations of `EXPINF`
(3154-3239): from the MRU, the conductivity, the step number, `RINT`, `DT` and the infiltration state, either
the cumulative infiltration `F` reached at label 15, or `none` for a jump to label 20; and the new
`CONST` and `TP`. -/
structure Fn where
  exp : Rat → Rat
  sqrt : Rat → Rat
  pow10 : Rat → Rat
  solve : Mru → Rat → Nat → Rat → Rat → Pond → Option Rat × Rat × Rat

/-- `EXPINF`, `topmod_chem.F:3240-3255`: the infiltration `DF` and the new state. -/
def expinf (fn : Fn) (m : Mru) (xk : Rat) (nstep : Nat) (rint dt : Rat) (pd : Pond) : Rat × Pond :=
  let r := fn.solve m xk nstep rint dt pd
  match r.1 with
  | some f =>
    if f < pd.cumf + rint * dt then (f - pd.cumf, ⟨true, f, r.2.1, r.2.2⟩)
    else (rint * dt, ⟨false, pd.cumf + rint * dt, r.2.1, r.2.2⟩)
  | none => (rint * dt, ⟨false, pd.cumf + rint * dt, r.2.1, r.2.2⟩)

/-- `topmod_chem.F:204-206`. -/
def ack : List Rat :=
  [233 / 1000000, 5978 / 1000000, 60597 / 1000000, 241730 / 1000000, 382924 / 1000000, 241730 / 1000000,
   60597 / 1000000, 5978 / 1000000, 233 / 1000000]

/-- `xkarea`, `topmod_chem.F:2320-2321`. -/
def xkareas (m : Mru) : List Rat := if m.xk.length = 1 then [1] else ack

/-- The loop `topmod_chem.F:2296-2337` for `P.GT.0`: `REX` and the new states. -/
def excess (fn : Fn) (m : Mru) (nstep : Nat) (p dt : Rat) : List ((Rat × Rat) × Pond) → Rat × List Pond
  | [] => (0, [])
  | ((xk, area), pd) :: rest =>
    let (df, pd') := expinf fn m xk nstep (p / dt) dt pd
    let tiny := if p - df < 0 then -(p - df) < 1 / 100000000 else p - df < 1 / 100000000
    let df' := if tiny then p else df
    let pd'' := if tiny then { pd' with irof := false, cumf := 0 } else pd'
    let (rex, pds) := excess fn m nstep p dt rest
    ((p - df') * area + rex, pd'' :: pds)

/-- `topmod_chem.F:2277-2339`: `REX` and the new states; `infex` is `INFEX.EQ.1`. -/
def infilExcess (fn : Fn) (m : Mru) (infex : Bool) (nstep : Nat) (p dt : Rat) (pond : List Pond) :
    Rat × List Pond :=
  if infex then
    if p > 0 then excess fn m nstep p dt (List.zip (List.zip m.xk (xkareas m)) pond)
    else (0, pond.map fun _ => ⟨false, 0, 0, 0⟩)
  else (0, pond)

/-- Water offered to every bin: `p2rz`, `qv2suz`, the final `P`, `EP` (2352-2357, 2265-2269) and
`transp_on`. -/
structure Water where
  p2rz : Rat
  qv2suz : Rat
  p : Rat
  ep : Rat
  transp : Bool
deriving DecidableEq, Repr

/-- Fluxes of a bin: `srzwet`, `EX`, `uz_infil`, `UZ`, `sae_local`.  `topmod_chem.F:2371-2560`. -/
structure Flux where
  wet : Rat
  ex : Rat
  infil : Rat
  uz : Rat
  ea : Rat
deriving DecidableEq, Repr

/-- `topmod_chem.F:2464-2469`: `UZ` for a positive `SUZ`.  With `TD` zero, which its range allows, the
quotient is infinite. -/
def drainage (m : Mru) (dt sd suz : Rat) : Rat :=
  let u := if sd > 0 then (if m.td = 0 then suz else suz * dt / (sd * m.td)) else suz
  if u ≥ suz then suz else u

/-- `topmod_chem.F:2506-2514`: `EA` for the deficit `srz`. -/
def evap (m : Mru) (ep : Rat) (transp : Bool) (srz : Rat) : Rat :=
  let e0 := ep * (1 - srz / m.srmax)
  let e1 := if e0 > m.srmax - srz then m.srmax - srz else e0
  if srz / m.srmax > 1 / 100 then (if transp then e1 * m.covSum else e1 * (1 / 10) * m.covWin) else e1

/-- The body of the loop over the bins for `ACF` not zero, `topmod_chem.F:2369-2542`; `sd0` is the deficit
of 2383-2387.  `none`: the program stops with 'double recharge' (2474-2477). -/
def binStep (m : Mru) (dt : Rat) (w : Water) (sd0 : Rat) (b : BinSt) : Option (BinSt × Flux) :=
  let full : Bool := b.suz ≥ sd0
  let uz1 := if full then b.suz else 0
  let sd1 := if full then sd0 - b.suz else sd0
  let suz1 := if full then 0 else b.suz
  let wet := if sd1 < 0 then (if -sd1 ≥ b.srz then b.srz else -sd1) else 0
  let srz1 := if sd1 < 0 then (if -sd1 ≥ b.srz then 0 else b.srz - wet) else b.srz
  let sd2 := if sd1 < 0 then 0 else sd1
  let srz2 := srz1 - w.p2rz
  let suz2 := (if srz2 < 0 then suz1 - srz2 else suz1) + w.qv2suz
  let srz3 := if srz2 < 0 then 0 else srz2
  let ex := if suz2 > sd2 then suz2 - sd2 else 0
  let suz3 := if suz2 > sd2 then sd2 else suz2
  let uz := if suz3 > 0 then drainage m dt sd2 suz3 else uz1
  let suz4 := if suz3 > 0 then (if suz3 - uz < 1 / 10000000 then 0 else suz3 - uz) else suz3
  let ea := evap m w.ep w.transp srz3
  if suz3 > 0 ∧ full = true then none
  else some (⟨srz3 + ea, suz4, b.zwt, b.depth⟩, ⟨wet, ex, w.p - ex, uz, ea⟩)

/-- The loop 30 over the bins, `topmod_chem.F:2362-2601`; a bin is `ACF`, `ST` and its state.  The fluxes of bins without area are set
to zero here; they only occur multiplied by `ACF`. -/
def binLoop (m : Mru) (dt : Rat) (w : Water) (sbar : Rat) :
    List ((Rat × Rat) × BinSt) → Option (List (BinSt × Flux))
  | [] => some []
  | ((acf, st), b) :: rest =>
    match (if acf ≠ 0 then binStep m dt w (deficit m sbar st) b else some (b, ⟨0, 0, 0, 0, 0⟩)),
      binLoop m dt w sbar rest with
    | some r, some rs => some (r :: rs)
    | _, _ => none

/-- A sum over the bins weighted with `ACF`.  E.g. `topmod_chem.F:2984-2996`. -/
def weigh (acf : List Rat) (xs : List Rat) : Rat := (List.zipWith (· * ·) xs acf).sum

/-- `uz2sat`, `topmod_chem.F:2840-2856`. -/
def uz2sat (m : Mru) (last z : Rat) : Rat :=
  if z ≥ -m.root then (if last ≥ -m.root then 0 else (-m.root - last) * m.fc)
  else (if last ≥ -m.root then (m.root + z) * m.fc else (z - last) * m.fc)

/-- The loop 250, `topmod_chem.F:2788-2863`, for one bin: the new state and `uz2sat`. -/
def tableStep (m : Mru) (sbar acf st : Rat) (b : BinSt) : BinSt × Rat :=
  let d := deficit m sbar st
  let z := -(if d < 0 then 0 else d) / m.drain
  if acf ≠ 0 then (⟨b.srz, b.suz, z, uzDepth m b.srz b.suz z⟩, uz2sat m b.zwt z)
  else (⟨b.srz, b.suz, z, 0⟩, 0)

/-- Inputs of a step: `potet`, `intcp_evap`, `snow_evap`, `snowmelt`, `psoilmru`, `transp_on`,
`irrig_sat_mru`, `irrig_int_next`, and the array `gw_ext` of this module, which is never assigned: the
`getvar` at 2093 is commented out. -/
structure In where
  potet : Rat
  intcp : Rat
  snowEvap : Rat
  snowmelt : Rat
  psoil : Rat
  transp : Bool
  irrSat : Rat
  irrNext : List Rat
  gwExt : List Rat
deriving DecidableEq, Repr

/-- Results of a step, with the names of the module.  `topmod_chem.F:2041-3035`. -/
structure Out where
  surfdep : Rat
  rex : Rat
  qofs : Rat
  qof : Rat
  infil : Rat
  qvpref : Rat
  quz : Rat
  qdf : Rat
  qwet : Rat
  sae : Rat
  gwLoss : Rat
  gwIn1 : Rat
  gwIn2 : Rat
  qb : Rat
  qpref : Rat
  qout : Rat
  irrSatNext : Rat
  flux : List Flux
  uz2sat : List Rat
deriving DecidableEq, Repr

/-- `topmod_chem.F:2634-2640`: loss to the deep aquifer. -/
def gwLoss (fn : Fn) (m : Mru) (dt zwt : Rat) : Rat :=
  if m.rock + zwt > 0 ∧ m.lossK < 11 then (m.rock + zwt) * fn.pow10 (-m.lossK) * 36 * dt else 0

/-- `topmod_chem.F:2643-2684`: `irrig_sat_next`; `internal` is `nirrig_int.ne.0`.  `none`: the schedule does
not exist. -/
def irrSatNext (fn : Fn) (m : Mru) (internal : Bool) (dt sbar : Rat) (next : List Rat) : Option Rat :=
  if internal ∧ m.sched > 0 ∧ m.src = 0 then
    let norm := if sbar / m.sbarMax > 1 then 1 else sbar / m.sbarMax
    let dep := fn.sqrt (1 - norm * norm) * m.irrMax * gpm2m3ph / m.area / 1000000 / inch2m * dt
    (at? next m.sched).map fun x => if x ≤ dep then x else dep
  else some 0

/-- `topmod_chem.F:2689-2702`: one ground-water inflow.  `none`: the schedule does not exist. -/
def gwIn (m : Mru) (dt : Rat) (gwExt : List Rat) (sched : Int) (len : Rat) : Option Rat :=
  if gwExt.length ≠ 0 ∧ sched ≠ 0 then
    (at? gwExt sched).map fun g => g * qlin2dep * len * dt / m.area
  else some 0

/-- `topmod_chem.F:2716-2727`: base flow before the adjustment for tile drains. -/
def baseFlow (fn : Fn) (m : Mru) (sbar : Rat) : Rat :=
  let q := match m.decay with
    | .exponential => m.szq * fn.exp (-sbar / m.szm)
    | .parabolic => m.szq * ((1 - sbar / m.szm) * (1 - sbar / m.szm))
    | .linear => m.szq * (1 - sbar / m.szm)
  if q < 1 / 100000 then 0 else q

/-- `topmod_chem.F:2733-2758`: flow in tile drains; `net` is the inflow into the saturated zone before
this flow, `zwt` the previous water table. -/
def drainFlow (m : Mru) (dt zwt net : Rat) : Rat :=
  let z := zwt + net / m.drain
  let q :=
    if z ≤ m.zmin ∨ m.qprefMax < 1 / 1000000000000 then 0
    else if z ≥ m.zmax then m.qprefMax * dt
    else (z - m.zmin) / (m.zmax - m.zmin) * m.qprefMax
  let least := (z - m.zmin) * m.drain - net
  if least < q ∧ least > 0 then least else q

/-- `topmod_chem.F:2769-2773`: base flow adjusted for tile drains. -/
def adjust (m : Mru) (qpref qb : Rat) : Rat :=
  if m.qprefMax > 0 then
    let q := qb - qpref * (qpref / m.qprefMax)
    if q < 1 / 100000 then 1 / 100000 else q
  else qb

/-- `topmrun` for one MRU, `topmod_chem.F:2041-2932`.  The outer `none`: a division by zero or an array
element that does not exist.  The inner `none`: the program stops. -/
def topmrun (fn : Fn) (m : Mru) (infex internal : Bool) (nstep : Nat) (dt : Rat) (i : In) (st : St) :
    Option (Option (St × Out)) :=
  if m.srmax = 0 ∨ m.drain = 0 ∨ m.sbarMax = 0 ∨ m.area = 0 ∨ m.szm = 0 ∨ dt = 0 ∨
      (m.decay ≠ .exponential ∧ m.tl = 0) then none
  else
    let sums := if nstep = 1 then ⟨0, 0, 0, 0, 0, 0⟩ else st.sums
    let ep0 := (i.potet - i.intcp - i.snowEvap) * (254 / 10000)
    let ep := if ep0 < 0 then 0 else ep0
    let surfdep := (i.snowmelt + i.psoil) * (254 / 10000)
    let (rex, pond) := infilExcess fn m infex nstep surfdep dt st.pond
    let p := surfdep - rex
    let qvpref := p * m.pmacSat * m.pmacro
    let w : Water :=
      ⟨p * (1 - m.pmacro), p * (1 - m.pmacSat) * m.pmacro, p - qvpref, ep, i.transp⟩
    let acf := acfs (m.bins.map (·.1))
    let sts := m.bins.map (·.2)
    match gwIn m dt i.gwExt m.gw1 m.len1, gwIn m dt i.gwExt m.gw2 m.len2,
        irrSatNext fn m internal dt st.sbar i.irrNext with
    | some gw1, some gw2, some nextIrr =>
      match binLoop m dt w st.sbar (List.zip (List.zip acf sts) st.bins) with
      | none => some none
      | some rs =>
        let fl := rs.map (·.2)
        let qofs := weigh acf (fl.map (·.ex))
        let qwet := weigh acf (fl.map (·.wet))
        let qdf := weigh acf (fl.map fun f => m.qdffrac * f.uz)
        let quz := weigh acf (fl.map fun f => (1 - m.qdffrac) * f.uz)
        let sae := weigh acf (fl.map (·.ea))
        let qof := qofs + rex
        let loss := gwLoss fn m dt st.zwt
        let qb0 := baseFlow fn m st.sbar
        let net := quz - qb0 - qwet + qvpref - i.irrSat * inch2m + gw1 + gw2 - loss
        let qpref := drainFlow m dt st.zwt net
        let qb := adjust m qpref qb0
        let sbar := st.sbar - quz - qvpref + qb + qwet + qpref + i.irrSat * inch2m - gw1 - gw2 + loss
        let qout := qb + qof + qdf + qpref
        let tab := List.zipWith (fun (a : Rat × Rat) (r : BinSt × Flux) => tableStep m sbar a.1 a.2 r.1)
          (List.zip acf sts) rs
        let zwt := weigh acf (tab.map (·.1.zwt))
        some (some
          (⟨sbar, zwt, tab.map (·.1), pond,
            ⟨sums.p + surfdep, sums.gw1 + gw1, sums.gw2 + gw2, sums.ae + sae, sums.q + qout,
              sums.loss + loss⟩, st.bal⟩,
           ⟨surfdep, rex, qofs, qof, surfdep - qof - qvpref, qvpref, quz, qdf, qwet, sae, loss, gw1, gw2, qb,
            qpref, qout, nextIrr, fl, tab.map (·.2)⟩))
    | _, _, _ => none

/-- The balance printed at the end of a run, `topmod_chem.F:2984-2999`. -/
def printed (m : Mru) (st : St) : Rat :=
  let acf := acfs (m.bins.map (·.1))
  st.bal + st.sbar + st.sums.p + st.sums.gw1 + st.sums.gw2 - st.sums.ae - st.sums.q +
    weigh acf (st.bins.map (·.srz)) - weigh acf (st.bins.map (·.suz)) - st.sums.loss - m.rock * m.porosity

/-- The steps of a run, each with its length; `nstep` counts from 1.  `topmod_chem.F:2041-3035`. -/
def steps (fn : Fn) (m : Mru) (infex internal : Bool) :
    Nat → St → List (Rat × In) → Option (Option (List (St × Out)))
  | _, _, [] => some (some [])
  | nstep, st, (dt, i) :: rest =>
    match topmrun fn m infex internal nstep dt i st with
    | none => none
    | some none => some none
    | some (some (st', o)) =>
      match steps fn m infex internal (nstep + 1) st' rest with
      | none => none
      | some none => some none
      | some (some rs) => some (some ((st', o) :: rs))

end Verif.Topmod
