import Mathlib.Algebra.Order.Field.Rat
/-
Model of canopy interception: `intrun` and `intercept` (`webmod.d/src/intcp_prms.F:320-556, 564-585`).

Simplification: single precision reals are exact rationals, and so are the decimal constants.  One
MRU; the sums over the basin are not modelled.
-/
namespace Verif.Intcp

/-- Parameters of one MRU: `cov_type`, `covden_sum`, `covden_win`, `srain_intcp`, `wrain_intcp`,
`snow_intcp` (`intcp_prms.F:276-292`). -/
structure Veg where
  covType : Int
  covSum : Rat
  covWin : Rat
  srain : Rat
  wrain : Rat
  snowCap : Rat
deriving DecidableEq, Repr

/-- Inputs of one step for the MRU: `mru_rain`, `mru_snow`, `mru_dep`, `basin_dep`, `transp_on`, `temp_c`,
`swrad`, `potet`, `pkwater_equiv` (`intcp_prms.F:331-364`) and the step length in hours (`dt`, 370). -/
structure In where
  rain : Rat
  snow : Rat
  dep : Rat
  basinDep : Rat
  transp : Int
  temp : Rat
  swrad : Rat
  potet : Rat
  pack : Rat
  dt : Rat
deriving DecidableEq, Repr

/-- Variables that survive a step: `intcp_on`, `intcp_stor`, `intcp_evap`, `intcp_transp_on`.
`intcp_prms.F:303-308, 373-377`. -/
structure St where
  on : Int
  stor : Rat
  evap : Rat
  transpOn : Int
deriving DecidableEq, Repr

/-- `intinit`, `intcp_prms.F:303-308`; `intcp_transp_on` is set at the first step (373-377). -/
def St.init (transp : Int) : St := ⟨0, 0, 0, transp⟩

/-- Results of a step: `net_rain`, `net_snow`, `net_dep`, `int_snow`, and the local `cov`.
`intcp_prms.F:388-389, 431-461`. -/
structure Out where
  netRain : Rat
  netSnow : Rat
  netDep : Rat
  intSnow : Int
  cov : Rat
deriving DecidableEq, Repr

/-- `intercept`, `intcp_prms.F:558-577`: the new storage and the net precipitation. -/
def intercept (precip storMax cov stor : Rat) : Rat × Rat :=
  let avail := storMax - stor
  if precip > avail then (storMax, precip * (1 - cov) + (precip - avail) * cov)
  else (stor + precip, precip * (1 - cov) + 0 * cov)

/-- `intcp_prms.F:392-415`: change of season.  Yields the state; `intcp_transp_on` is updated. -/
def season (v : Veg) (transp : Int) (st : St) : St :=
  if transp = 0 ∧ st.transpOn = 1 then
    { st with transpOn := 0, evap := if st.stor > 0 then st.stor * (v.covSum - v.covWin) else st.evap }
  else if transp = 1 ∧ st.transpOn = 0 then
    { st with transpOn := 1,
              stor := if st.stor > 0 then (if v.covSum = 0 then 0 else st.stor * (v.covWin / v.covSum))
                      else st.stor }
  else { st with evap := 0 }

/-- `intcp_prms.F:417-440`: interception of rain; yields the state, `cov` and `net_rain`. -/
def rainPart (v : Veg) (i : In) (st : St) : St × Rat × Rat :=
  if i.rain > 0 then
    if v.covType > 1 ∨ (v.covType = 1 ∧ i.pack = 0) then
      let cov := if i.transp = 1 then v.covSum else v.covWin
      let cap := if i.transp = 1 then v.srain else v.wrain
      let r := intercept i.rain cap cov st.stor
      ({ st with on := 1, stor := r.1 }, cov, r.2)
    else ({ st with on := 0, stor := 0 }, 0, i.rain)
  else (st, 0, 0)

/-- `intcp_prms.F:441-459`: interception of snow; yields the state, `cov` and `net_snow`. -/
def snowPart (v : Veg) (i : In) (st : St) (cov : Rat) : St × Rat × Rat :=
  if i.snow > 0 then
    if v.covType > 1 then
      let cov := if i.transp = 1 then v.covSum else v.covWin
      let r := intercept i.snow v.snowCap cov st.stor
      ({ st with on := 1, stor := r.1 }, cov, r.2)
    else ({ st with on := 0, stor := 0 }, 0, i.snow)
  else (st, cov, 0)

/-- `intcp_prms.F:481-514`: loss of intercepted snow, entered when snow fell on this MRU although the
basin deposition is not positive. -/
def snowLoss (v : Veg) (i : In) (st : St) (o : Out) : St × Out :=
  let cov := if i.transp = 1 then v.covSum else v.covWin
  if i.temp ≥ 0 then
    let sw := i.swrad * (19 / 100)
    let tc := 585 / 10000000000 * ((i.temp + 27316 / 100) * (i.temp + 27316 / 100) *
      (i.temp + 27316 / 100) * (i.temp + 27316 / 100))
    let bal := sw + tc * (1 - cov) * (85 / 100) + cov * tc
    if bal > 0 then
      let xmlt := bal / (2032 / 10)
      let z := st.stor - xmlt
      let st1 : St := if z > 0 then { st with on := 1, stor := z } else { st with on := 0, stor := 0 }
      let xlos := if z > 0 then xmlt else st.stor
      let d := i.potet - xlos
      if d < 0 then
        ({ st1 with evap := st1.evap + i.potet },
          { o with cov := cov, netSnow := -d * cov, netDep := -d * cov, intSnow := 1 })
      else ({ st1 with evap := st1.evap + xlos }, { o with cov := cov })
    else (st, { o with cov := cov })
  else (st, { o with cov := cov })

/-- `intcp_prms.F:517-530`: evaporation of intercepted water. -/
def rainLoss (v : Veg) (i : In) (st : St) (o : Out) : St × Out :=
  let cov := if i.transp = 0 then v.covWin else v.covSum
  let d := i.potet - st.stor
  if d < 0 then ({ st with stor := -d, evap := st.evap + i.potet, on := 1 }, { o with cov := cov })
  else ({ st with evap := st.evap + st.stor, stor := 0, on := 0 }, { o with cov := cov })

/-- `intcp_prms.F:463-531`: evaporation or sublimation from the canopy. -/
def lossPart (v : Veg) (i : In) (form : Int) (st : St) (o : Out) : St × Out :=
  if st.on = 1 then
    let st := { st with evap := 0 }
    if i.dt < 24 ∧ i.dep > 0 then (st, o)
    else if form = 1 then
      if i.basinDep ≤ 0 then snowLoss v i st o else (st, o)
    else rainLoss v i st o
  else (st, o)

/-- The body of the loop over MRUs in `intrun`, `intcp_prms.F:383-541`; `first` is `nstep.eq.1`
(`intcp_prms.F:372-377`). -/
def step (v : Veg) (first : Bool) (i : In) (st0 : St) : St × Out :=
  let st0 := if first then { st0 with transpOn := i.transp } else st0
  let st1 := season v i.transp st0
  let (st2, cov2, netRain) := rainPart v i st1
  let (st3, cov3, netSnow) := snowPart v i st2 cov2
  let form : Int := if i.snow > 0 then 1 else 0
  let (st4, o) := lossPart v i form st3 ⟨netRain, netSnow, netRain + netSnow, 0, cov3⟩
  ({ st4 with evap := o.cov * st4.evap }, o)

end Verif.Intcp
