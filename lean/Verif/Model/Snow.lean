import Verif.Model.Route
/-
Model of the snow module: `nwsminit`, `nwsmrun`, `MELTFACT`, `MELTRATE`, `ROUTE`, `AESNOW` and `HEATWATR`
(`webmod.d/src/nwsmelt_topg.F:484-643, 652-1245, 1262-1585`), for one model response unit (MRU); the loop
at 759 treats the units independently of each other.

Simplifications: reals are exact rationals, and so are the decimal constants.  The carried variables are
kept in millimetres: the factors 25.4 applied when loading (815-830) and storing (1151-1177) cancel, and
so is taken the conversion of `TINDEX` to Fahrenheit and back.
`SIN`, `EXP` and real powers are parameters (`Fn`).  Basin averages and the net radiation `DQNET` are not
modelled; the time step of the loop is six hours (882-883).
-/
namespace Verif.Snow
open Verif.Route (trunc)
open Verif.Top2c (addAt)

/-- Functions that are parameters of the model: `SIN`, `EXP`, `x**0.3`, `x**1.3`.
`nwsmelt_topg.F:1288, 1350, 1402, 1441`. -/
structure Fn where
  sin : Rat → Rat
  exp : Rat → Rat
  pow03 : Rat → Rat
  pow13 : Rat → Rat

/-- Parameters of the MRU (`nwsmelt_topg.F:508-581`), in the units of the parameter file (inches, degrees
Fahrenheit); `allsnow` is `tmax_allsnow_c`, `adc` the eleven points of its depletion curve. -/
structure Mru where
  daygm : Rat
  mfmax : Rat
  mfmin : Rat
  nmf : Rat
  mbase : Rat
  plwhc : Rat
  tipm : Rat
  subrate : Rat
  si : Rat
  uadj : Rat
  pa : Rat
  alat : Rat
  allsnow : Rat
  adc : List Rat
deriving DecidableEq, Repr

/-- The carried variables: `WE`, `LIQW`, `LAGRO`, `STORAGE`, `NEGHS`, `ACCMAX`, `SB`, `SBWS`, `SBAESC`, `AESC` in
millimetres, `TINDEX` in degrees Celsius.  `nwsmelt_topg.F:815-830`. -/
structure Pack where
  we : Rat
  liqw : Rat
  lagro : List Rat
  storage : Rat
  neghs : Rat
  accmax : Rat
  sb : Rat
  sbws : Rat
  sbaesc : Rat
  aesc : Rat
  tindex : Rat
deriving DecidableEq, Repr

/-- `MELTFACT`, `nwsmelt_topg.F:1276-1306`: `MF` and `RATIO` for the day `idn`.  `none`: `MFMAX` is zero. -/
def meltfact (fn : Fn) (idn : Int) (m : Mru) : Option (Rat × Rat) :=
  let diff := m.mfmax - m.mfmin
  let s := fn.sin (idn * 2 * (31416 / 10000) / 366)
  let mf :=
    if m.alat < 54 then s * diff * (1 / 2) + (m.mfmax + m.mfmin) * (1 / 2)
    else
      let x : Rat :=
        if idn ≥ 275 then (idn - 275) / (458 - 275)
        else if idn ≥ 92 then (275 - idn) / (275 - 92)
        else (91 + idn) / 183
      let xx := s * (1 / 2) + 1 / 2
      let adjmf := if x ≤ 48 / 100 then 0 else if x ≥ 70 / 100 then 1 else (x - 48 / 100) / (70 / 100 - 48 / 100)
      xx * adjmf * diff + m.mfmin
  if m.mfmax = 0 then none else some (mf, mf / m.mfmax)

/-- Results of `MELTRATE`: `MELT`, `CNHS`, `EVP`, `TINDEX`.  `nwsmelt_topg.F:1308-1310`. -/
structure Rates where
  melt : Rat
  cnhs : Rat
  evap : Rat
  tindex : Rat
deriving DecidableEq, Repr

/-- `MELTRATE`, `nwsmelt_topg.F:1326-1368`; `mbase` in Celsius, `evap` and `subrate` in millimetres, `step` is
`ISTEP`. -/
def meltrate (fn : Fn) (m : Mru) (mf ratio tair rain rainm tindex : Rat) (step : Nat) : Rates :=
  let mbase := (m.mbase - 32) * (5555556 / 10000000)
  let tmx := if tair - mbase < 0 then 0 else tair - mbase
  let tsur := if tair > 0 then 0 else tair
  let cnhs := ratio * m.nmf * (tindex - tsur)
  let tindex' := tindex + m.tipm * (tair - tindex)
  if rain ≤ 25 / 100 * 6 then
    ⟨mf * tmx + rainm, cnhs, if 1 < step ∧ step < 4 then m.subrate * (254 / 10) * (1 / 2) else 0, tindex'⟩
  else
    let ea := 90 / 100 * (274890000 * fn.exp (-(427863 / 100) / (tair + 242792 / 1000)))
    let tak := (tair + 273) * (1 / 100)
    let qn := 612 / 10000 * 6 * (tak * tak * tak * tak - 5555 / 100)
    let qe := 85 / 10 * (ea - 611 / 100) * m.uadj
    let qh := 85 / 10 * (57 / 100000) * m.pa * m.uadj * tair
    let melt := qn + qe + qh + rainm
    ⟨if melt < 0 then 0 else melt, cnhs, 0, tindex'⟩

/-- Results of `HEATWATR`: `WE`, `LIQW`, `NEGHS`, `EXCESS`, `TINDEX`.  `nwsmelt_topg.F:1527-1528`. -/
structure Heat where
  we : Rat
  liqw : Rat
  neghs : Rat
  excess : Rat
  tindex : Rat
deriving DecidableEq, Repr

/-- `HEATWATR`, `nwsmelt_topg.F:1527-1585`. -/
def heatwatr (melt rain cnhs cnhspx wcplw we neghs liqw tindex : Rat) : Heat :=
  let water := melt + rain
  let liqwmx := wcplw * we
  let n0 := neghs + (cnhs + cnhspx)
  let n1 := if n0 < 0 then 0 else n0
  let n := if n1 > 33 / 100 * we then 33 / 100 * we else n1
  let t := if tindex > 0 then 0 else tindex
  if ¬ water + liqw < liqwmx + n + wcplw * n then
    ⟨we + n, liqwmx + wcplw * n, 0, water + liqw - liqwmx - n - wcplw * n, 0⟩
  else if ¬ water < n then ⟨we + n, liqw + water - n, 0, 0, 0⟩
  else ⟨we + water, liqw, n - water, 0, if n - water = 0 then 0 else t⟩

/-- The loop `nwsmelt_topg.F:1405-1417`, passes `i` to `n`: `POR2*EXCESS/FN` goes to `EXLAG(L2)`, the rest to
`EXLAG(L1)`.  `none`: an element that does not exist is written. -/
def lagLoop (fn : Fn) (excess we : Rat) (n : Nat) : Nat → Nat → List Rat → Option (List Rat)
  | 0, _, ex => some ex
  | k + 1, i, ex =>
    let t0 := 3 / 100 * we * n / (excess * (i - 1 / 2))
    let term := if t0 > 150 then 150 else t0
    let flag := 533 / 100 * (1 - fn.exp (-term))
    let l2 := trunc ((flag + 6) / 6 + 1)
    let l1 := l2 - 1
    let por2 := (flag + 6 - l1 * 6) / 6
    match addAt ex l2 (por2 * excess / n) with
    | none => none
    | some ex' =>
      match addAt ex' l1 ((1 - por2) * excess / n) with
      | none => none
      | some ex'' => lagLoop fn excess we n k (i + 1) ex''

/-- The loop 170, `nwsmelt_topg.F:1445-1449`: `PACKRO` and `STORGE`. -/
def attenuate (r1 el : Rat) : Nat → Rat × Rat → Rat × Rat
  | 0, s => s
  | k + 1, (packro, storge) =>
    let os := (storge + el) * r1
    attenuate r1 el k (packro + os, storge + el - os)

/-- The part from label 160, `nwsmelt_topg.F:1438-1453`: `PACKRO` and `STORGE`.  `none`: division by zero. -/
def attenuated (fn : Fn) (we aesc storge lag1 : Rat) : Option (Rat × Rat) :=
  if aesc = 0 then none
  else
    let el := lag1 / 6
    let els := el / (254 / 10 * aesc)
    let wes := we / (254 / 10 * aesc)
    if fn.pow13 wes = 0 then none
    else
      let t0 := 500 * els / fn.pow13 wes
      let term := if t0 > 150 then 150 else t0
      let r1 := 1 / (5 * fn.exp (-term) + 1)
      let r := attenuate r1 el 6 (0, storge)
      if r.2 > 1 / 1000 then some r else some (r.1 + r.2, 0)

/-- The part from label 150, `nwsmelt_topg.F:1426-1453`. -/
def release (fn : Fn) (we aesc storge lag1 : Rat) : Option (Rat × Rat) :=
  if storge + lag1 = 0 then some (0, storge)
  else if storge + lag1 ≥ 1 / 10 then attenuated fn we aesc storge lag1
  else some (storge + lag1, 0)

/-- `EXLAG(1)`; reading it needs one element.  `nwsmelt_topg.F:1391`. -/
def lag1 : List Rat → Option Rat
  | [] => none
  | x :: _ => some x

/-- Label 190, `nwsmelt_topg.F:1456-1460`. -/
def downshift (ex : List Rat) : List Rat := ex.tail ++ [0]

/-- `ROUTE`, `nwsmelt_topg.F:1371-1463`, for `IT` = 6: `PACKRO`, `STORGE`, `EXLAG`.  `none`: an element that does
not exist, or a division by zero. -/
def route (fn : Fn) (excess we aesc storge : Rat) (exlag : List Rat) : Option (Rat × Rat × List Rat) :=
  match lag1 exlag with
  | none => none
  | some l1 =>
    let prior := storge + l1
    if excess = 0 ∧ prior = 0 then some (0, storge, downshift exlag)
    else if excess = 0 ∧ prior ≥ 1 / 10 then
      (attenuated fn we aesc storge l1).map fun r => (r.1, r.2, downshift exlag)
    else
      let n0 := (trunc (fn.pow03 (excess * 4) + 1 / 2)).toNat
      let n := if n0 = 0 then 1 else n0
      match (if excess < 1 / 10 ∨ we < 1 then addAt exlag 1 excess else lagLoop fn excess we n n 1 exlag) with
      | none => none
      | some ex =>
        match lag1 ex with
        | none => none
        | some l => (release fn we aesc storge l).map fun r => (r.1, r.2, downshift ex)

/-- An element of the depletion curve; `none`: outside.  `nwsmelt_topg.F:1508`. -/
def point (adc : List Rat) (n : Int) : Option Rat := if n < 1 then none else adc[n.toNat - 1]?

/-- The new values of `ACCMAX`, `SB`, `SBWS`, `SBAESC`, `AESC`.  `nwsmelt_topg.F:1465-1466`. -/
structure Cover where
  accmax : Rat
  sb : Rat
  sbws : Rat
  sbaesc : Rat
  aesc : Rat
deriving DecidableEq, Repr

/-- Label 204, `nwsmelt_topg.F:1520-1521`. -/
def clampCover (a : Rat) : Rat :=
  let b := if a < 5 / 100 then 5 / 100 else a
  if b > 1 then 1 else b

/-- `AESNOW`, `nwsmelt_topg.F:1465-1524`; `sit` in millimetres.  `none`: a point outside the curve or a division
by zero. -/
def aesnow (adc : List Rat) (sit we liqw : Rat) (c : Cover) : Option Cover :=
  let twe := we + liqw
  let accmax := if twe > c.accmax then twe else c.accmax
  let ai := if accmax > sit then sit else accmax
  if twe ≥ ai then some ⟨accmax, twe, twe, c.sbaesc, clampCover 1⟩
  else if twe ≤ c.sb then
    if ai = 0 then none
    else
      let r := twe / ai * 10 + 1
      let n := trunc r
      match point adc n, point adc (n + 1) with
      | some a, some b =>
        let aesc := a + (b - a) * (r - n)
        some ⟨accmax, twe + 127 / 100, twe, aesc, clampCover aesc⟩
      | _, _ => none
  else if twe ≥ c.sbws then some ⟨accmax, c.sb, c.sbws, c.sbaesc, clampCover 1⟩
  else if c.sbws - c.sb = 0 then none
  else
    let aesc := c.sbaesc + (1 - c.sbaesc) * ((twe - c.sb) / (c.sbws - c.sb))
    some ⟨accmax, twe + 127 / 100, twe, aesc, clampCover aesc⟩

/-- Results of a period of six hours: the pack, `GM` for the next period, `PACKRO`, the rain on bare soil
(`nwsmelt_topg.F:954` and `PXSOIL`), `EVAP`, the shares of `DSFALL` and `DRAIN`, and `NOSNOW`. -/
structure Period where
  pack : Pack
  gm : Rat
  packro : Rat
  soil : Rat
  evap : Rat
  sfall : Rat
  drain : Rat
  nosnow : Bool
deriving DecidableEq, Repr

/-- Label 300, `nwsmelt_topg.F:1089-1109`: no snow left. -/
def gone (p : Pack) (gm gmro melt rain soil sfall drain : Rat) : Period :=
  ⟨⟨0, 0, p.lagro.map fun _ => 0, 0, 0, 0, 0, 0, 0, 0, 0⟩, gm, gmro + melt + p.lagro.sum + p.storage + rain, soil, 0,
    sfall, drain, true⟩

/-- `nwsmelt_topg.F:927-946`: snowfall `px` at temperature `tair`. -/
def snowfall (p : Pack) (px tair : Rat) : Pack :=
  let ts := if tair > 0 then 0 else tair
  let we := p.we + px
  { p with
    sbws := p.we + p.liqw + 75 / 100 * px
    we := we
    accmax := if we + p.liqw ≥ 3 * p.sb then we + p.liqw else p.accmax
    tindex := if px > 15 / 10 * 6 then ts else p.tindex }

/-- From label 120, `nwsmelt_topg.F:971-1135`, for a pack `p` after snowfall; `px` is what is left of the
precipitation (rain), `cnhspx` and `rainm` its heat. -/
def melting (fn : Fn) (m : Mru) (mf ratio : Rat) (step : Nat) (tair px cnhspx rainm sfall gm : Rat) (p : Pack) :
    Option Period :=
  if p.we ≤ gm then some (gone p gm (p.we + p.liqw) 0 0 px sfall px)
  else
    let gmwlos := gm / p.we * p.liqw
    let r := meltrate fn m mf ratio tair px rainm p.tindex step
    let a := if p.aesc < 1 then p.aesc else 1
    let gm' := gm * a
    let gmro := (gm + gmwlos) * a
    let gmwlos' := gmwlos * a
    let melt := r.melt * a
    let cnhs := r.cnhs * a
    let evap := r.evap * a
    let soil := if p.aesc < 1 then px * (1 - p.aesc) else 0
    let rain := px - soil
    let we := p.we - gm'
    let liqw := p.liqw - gmwlos'
    let cnhs' := if cnhs + p.neghs < 0 then -1 * p.neghs else cnhs
    if melt ≥ we then some (gone p gm' gmro (we + liqw) rain soil sfall px)
    else if evap ≥ we - melt then some (gone p gm' gmro (melt + (we - melt) + liqw) rain soil sfall px)
    else
      let h := heatwatr melt rain cnhs' cnhspx m.plwhc (we - melt - evap) p.neghs liqw r.tindex
      match route fn h.excess h.we p.aesc p.storage p.lagro with
      | none => none
      | some (packro, storage, lagro) =>
        match aesnow m.adc (m.si * (254 / 10)) h.we h.liqw ⟨p.accmax, p.sb, p.sbws, p.sbaesc, p.aesc⟩ with
        | none => none
        | some c =>
          some ⟨⟨h.we, h.liqw, lagro, storage, h.neghs, c.accmax, c.sb, c.sbws, c.sbaesc, c.aesc, h.tindex⟩,
            gm', packro + gmro, soil, evap, sfall, px, false⟩

/-- One pass of the loop 900, `nwsmelt_topg.F:893-1145`: `px` millimetres of precipitation at `tair`. -/
def period (fn : Fn) (m : Mru) (mf ratio : Rat) (step : Nat) (px tair gm : Rat) (p : Pack) : Option Period :=
  if px = 0 then melting fn m mf ratio step tair 0 0 0 0 gm p
  else if tair > m.allsnow then
    if p.we = 0 then some (gone p gm 0 0 0 px 0 px)
    else melting fn m mf ratio step tair px 0 (125 / 10000 * px * (if tair < 0 then 0 else tair)) 0 gm p
  else
    melting fn m mf ratio step tair 0 (-(if tair > 0 then 0 else tair) * px / 160) 0 px gm (snowfall p px tair)

/-- What a day adds up, in inches: `SNOWMELT`, `PSOILMRU`, `SNOW_EVAP`, `NET_SNOW`, `NET_RAIN`.
`nwsmelt_topg.F:1113-1115, 1195-1196`. -/
structure Day where
  melt : Rat
  soil : Rat
  evap : Rat
  snow : Rat
  rain : Rat
deriving DecidableEq, Repr

/-- The loop 900 over the temperatures of the periods that remain; `step` is `I2`.  Yields the pack, the sums,
and `NOSNOW`.  `nwsmelt_topg.F:893-1145`. -/
def periods (fn : Fn) (m : Mru) (mf ratio px : Rat) :
    Nat → List Rat → Rat → Bool → Pack → Day → Option (Pack × Day × Bool)
  | _, [], _, ns, p, d => some (p, d, ns)
  | step, t :: ts, gm, _, p, d =>
    match period fn m mf ratio step px t gm p with
    | none => none
    | some r =>
      periods fn m mf ratio px (step + 1) ts r.gm r.nosnow r.pack
        ⟨d.melt + r.packro / (254 / 10), d.soil + r.soil / (254 / 10), d.evap + r.evap / (254 / 10),
         d.snow + r.sfall / (254 / 10), d.rain + r.drain / (254 / 10)⟩

/-- `nwsmelt_topg.F:835-840`: the temperatures of the four periods. -/
def temps (tmin tmax tmxpre : Rat) : List Rat :=
  let past := tmin - tmax + tmxpre
  [95 / 100 * tmin + 5 / 100 * tmxpre, 40 / 100 * tmin + 60 / 100 * tmax,
   925 / 1000 * tmax + 25 / 1000 * tmin + 5 / 100 * past, 33 / 100 * tmax + 67 / 100 * past]

/-- What is kept between days: the pack, the maximum temperature of the last day with snow or
precipitation (`TMXPREI`; `none`: never assigned), and the published `PKWATER_EQUIV`.
`nwsmelt_topg.F:842, 1169-1184`. -/
structure St where
  pack : Pack
  tmxpre : Option Rat
  pkwater : Rat
deriving DecidableEq, Repr

/-- Inputs of a day: `net_dep` in inches, `tmin_c`, `tmax_c`, the day counted from the first of spring.
`nwsmelt_topg.F:752, 835, 912`. -/
structure In where
  dep : Rat
  tmin : Rat
  tmax : Rat
  jday : Int
deriving DecidableEq, Repr

/-- Results of a day: the sums and `CHNGPCKMRU`.  `nwsmelt_topg.F:1186`. -/
structure Out where
  day : Day
  change : Rat
deriving DecidableEq, Repr

/-- `nwsmrun` for one MRU, `nwsmelt_topg.F:752-1215`.  `none`: an uninitialised temperature, an element that
does not exist, or a division by zero.  A day without snow and precipitation leaves `net_snow` and `net_rain`
as the interception module set them: no water. -/
def nwsmrun (fn : Fn) (m : Mru) (nstep : Nat) (i : In) (st : St) : Option (St × Out) :=
  if st.pack.we = 0 ∧ i.dep = 0 then some ({ st with pkwater := 0 }, ⟨⟨0, 0, 0, 0, 0⟩, 0⟩)
  else
    match (if nstep = 1 then some i.tmax else st.tmxpre), meltfact fn i.jday m with
    | some pre, some (mf, ratio) =>
      let begin := st.pack.we + st.pack.liqw + st.pack.lagro.sum + st.pack.storage
      match periods fn m mf ratio (i.dep * (254 / 10) / 4) 1 (temps i.tmin i.tmax pre) (m.daygm * (254 / 10) / 4) false
          st.pack ⟨0, 0, 0, 0, 0⟩ with
      | none => none
      | some (p, d, nosnow) =>
        let twe := if nosnow then 0 else p.we + p.liqw + p.storage + p.lagro.sum
        let p' := { p with lagro := if nosnow then p.lagro.map fun _ => 0 else p.lagro }
        some (⟨p', some i.tmax, twe / (254 / 10)⟩, ⟨d, (twe - begin) / (254 / 10)⟩)
    | _, _ => none

/-- `nwsminit`, `nwsmelt_topg.F:585-633`, for one MRU with initial `WEI`, `ACUMX` and `NEGHSI` in inches; `nexlag` is
the dimension.  `none`: an element that does not exist, or 0/0.  With more than two lag intervals the others
are not initialised: `rest` are their values.  The atmospheric pressure is a parameter here. -/
def nwsminit (nexlag : Nat) (rest : List Rat) (m : Mru) (wei acumx neghsi : Rat) : Option Pack :=
  if nexlag < 2 then none
  else
    let lagro := 0 :: 0 :: (rest.take (nexlag - 2))
    if wei ≥ acumx then
      some ⟨wei * (254 / 10), 0, lagro, 0, neghsi * (254 / 10), wei * (254 / 10), wei * (254 / 10), wei * (254 / 10), 1, 1,
        -32 * (5555556 / 10000000)⟩
    else
      let ai := if acumx > m.si then m.si else acumx
      if ai = 0 ∧ wei = 0 then none
      else
        let r := wei / ai * 10 + 1
        let full := ai = 0 ∨ r ≥ 11
        let n := if full then 10 else trunc r
        let f := if full then 1 else r - trunc r
        match point m.adc n, point m.adc (n + 1) with
        | some a, some b =>
          let aesc := a + (b - a) * f
          some ⟨wei * (254 / 10), 0, lagro, 0, neghsi * (254 / 10), acumx * (254 / 10), (wei + 5 / 100) * (254 / 10),
            wei * (254 / 10), aesc, aesc, -32 * (5555556 / 10000000)⟩
        | _, _ => none

/-- The days of a run, from step `nstep`.  `nwsmelt_topg.F:652-1245`. -/
def days (fn : Fn) (m : Mru) : Nat → St → List In → Option (List (St × Out))
  | _, _, [] => some []
  | nstep, st, i :: is =>
    match nwsmrun fn m nstep i st with
    | none => none
    | some (st', o) => (days fn m (nstep + 1) st' is).map ((st', o) :: ·)

end Verif.Snow
