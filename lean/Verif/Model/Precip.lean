import Mathlib.Algebra.Order.Field.Rat
/-
Model of the precipitation and irrigation modules: `pptrun` (`webmod.d/src/precip_web.F:288-455`) and
`irrrun` (`webmod.d/src/irrig_web.F:311-638`).

Simplification: single precision reals are exact rationals.  A quotient 0/0 is a NaN, `none`.
The transfer of the arrays between the modules (`getvar`, `putvar`) copies them.
-/
namespace Verif.Precip

/-- The parameters used for one MRU and month: `tmax_allsnow_c`, `tmax_allrain_c(mo)`, `adjmix_rain(mo)`,
`rain_adj(i,mo)`, `snow_adj(i,mo)` (`precip_web.F:251-267`). -/
structure Params where
  allsnow : Rat
  allrain : Rat
  adjmix : Rat
  rainAdj : Rat
  snowAdj : Rat
deriving DecidableEq, Repr

/-- The published variables of one MRU: `mru_ppt`, `mru_dep`, `mru_rain`, `mru_snow`, `prmx`, `pptmix`,
`newsnow`.  `precip_web.F:333-345, 382-445`. -/
structure Form where
  ppt : Rat
  dep : Rat
  rain : Rat
  snow : Rat
  prmx : Option Rat
  pptmix : Int
  newsnow : Int
deriving DecidableEq, Repr

/-- A Fortran quotient of reals: NaN for 0/0 (and an infinity otherwise, which does not occur here).
`precip_web.F:439`, `irrig_web.F:567`. -/
def quot (a b : Rat) : Option Rat := if b = 0 then none else some (a / b)

/-- The body of the loop over MRUs in `pptrun`, `precip_web.F:332-450`. -/
def pptMru (p : Params) (tmax tmin ppt : Rat) : Form :=
  if ppt = 0 then ⟨ppt, 0, 0, 0, some (-1 / 10), 0, 0⟩                        -- 338-346
  else if tmax ≤ p.allsnow then                                               -- 381-388
    let a := ppt * p.snowAdj
    ⟨a, a, 0, a, if a > 0 then some 0 else some (-1 / 10), 0, 1⟩
  else if tmin > p.allsnow ∨ tmax ≥ p.allrain then                            -- 394-401
    let a := ppt * p.rainAdj
    ⟨a, a, a, 0, if a > 0 then some 1 else some (-1 / 10), 0, 0⟩
  else
    let x := (tmax - p.allsnow) / (tmax - tmin) * p.adjmix                    -- 406-407
    if x > 1 then                                                             -- 412-418
      let a := ppt * p.rainAdj
      ⟨a, a, a, 0, some 1, 0, 0⟩
    else                                                                      -- 423-445
      let snow := (1 - x) * ppt * p.snowAdj
      let rain := x * ppt * p.rainAdj
      ⟨rain + snow, rain + snow, rain, snow, quot rain (rain + snow), 1, 1⟩

/-- `irrig_web.F:489-576`: the partition of the deposition `dep` (precipitation and irrigation) of one
MRU; `f` holds the values of the precipitation module.  With `dep` = 0 nothing is changed. -/
def irrPartition (p : Params) (tmax tmin dep : Rat) (f : Form) : Form :=
  if dep = 0 then f
  else
    let g : Form :=
      if tmax ≤ p.allsnow then
        { f with pptmix := 0, rain := 0, snow := dep, prmx := if dep > 0 then some 0 else f.prmx,
                 newsnow := 1 }
      else if tmin > p.allsnow ∨ tmax ≥ p.allrain then
        { f with pptmix := 0, rain := dep, prmx := if dep > 0 then some 1 else f.prmx, snow := 0 }
      else
        let x := (tmax - p.allsnow) / (tmax - tmin) * p.adjmix
        if x > 1 then { f with pptmix := 0, prmx := some 1, rain := dep, snow := 0 }
        else
          let snow := (1 - x) * dep
          let rain := x * dep
          { f with pptmix := 1, snow := snow, rain := rain, prmx := quot rain (rain + snow),
                   newsnow := 1 }
    { g with dep := g.rain + g.snow }                                         -- 576

/-- Internal irrigation of one MRU: `irrig_sched_int`, `irrig_int_src`, `irrig_int_init`, and its
area in m² times `inch2m` (the factor turning inches on the MRU into m³).  `irrig_web.F:410-420`. -/
structure Irr where
  sched : Int
  src : Int
  init : Rat
  vol : Rat
deriving DecidableEq, Repr

/-- What is saved between steps for one MRU: `irrig_sat_next`, `irrig_hyd_next` (set by the hillslope
and routing modules for the next step), and the depths of this step `irrig_sat_mru`, `irrig_hyd_mru`.
`irrig_web.F:414-426, 458-469`. -/
structure IrrState where
  satNext : Rat
  hydNext : Rat
  sat : Rat
  hyd : Rat
deriving DecidableEq, Repr

/-- Diverted volumes per channel segment, `irrig_hyd_seg`; segment 1 is the first element.
`irrig_web.F:400-402`. -/
abbrev Segs := List Rat

/-- `irrig_hyd_seg(isrc) = irrig_hyd_seg(isrc) + v`; `none`: `isrc` is no segment.
`irrig_web.F:418-420, 466-468`. -/
def addSeg (s : Segs) (isrc : Int) (v : Rat) : Option Segs :=
  if isrc < 1 then none
  else if isrc.toNat ≤ s.length then some (s.set (isrc.toNat - 1) (s.getD (isrc.toNat - 1) 0 + v))
  else none

/-- `irrig_web.F:406-430`, the first step with internal irrigation present: the requested initial
depths, and their volumes already added to the diversions. -/
def irrFirst : List (Irr × IrrState) → Segs → Option (List (Irr × IrrState) × Segs)
  | [], s => some ([], s)
  | (m, st) :: rest, s =>
    if m.sched ≥ 1 then
      if m.src = 0 then
        (irrFirst rest s).map fun r => ((m, { st with satNext := m.init, hydNext := 0 }) :: r.1, r.2)
      else
        match addSeg s m.src (m.init * m.vol) with
        | none => none
        | some s' =>
          (irrFirst rest s').map fun r => ((m, { st with satNext := 0, hydNext := m.init }) :: r.1, r.2)
    else (irrFirst rest s).map fun r => ((m, st) :: r.1, r.2)

/-- `irrig_web.F:453-484`, the internal irrigation of each MRU (`nirrig_int` not zero).  The outer
`none` is a write outside `irrig_hyd_seg`; the inner `none` is the error return for a negative
schedule or source. -/
def irrLoop : List (Irr × IrrState) → Segs → Option (Option (List IrrState × Segs))
  | [], s => some (some ([], s))
  | (m, st) :: rest, s =>
    if m.sched = 0 then
      (irrLoop rest s).map (·.map fun r => ({ st with sat := 0, hyd := 0 } :: r.1, r.2))
    else if m.sched > 0 then
      if m.src = 0 then
        (irrLoop rest s).map (·.map fun r => ({ st with sat := st.satNext, hyd := 0 } :: r.1, r.2))
      else if m.src > 0 then
        match addSeg s m.src (st.hydNext * m.vol) with
        | none => none
        | some s' =>
          (irrLoop rest s').map (·.map fun r => ({ st with sat := 0, hyd := st.hydNext } :: r.1, r.2))
      else some none
    else some none

/-- `irrig_web.F:398-484`: the depths and the diversions of one step; `first` is the saved `step1`. -/
def irrStep (first : Bool) (nhydro : Nat) (mrus : List (Irr × IrrState)) :
    Option (Option (List IrrState × Segs)) :=
  let zero : Segs := List.replicate nhydro 0
  if first then
    match irrFirst mrus zero with
    | none => none
    | some (ms, s) => irrLoop ms s
  else irrLoop mrus zero

/-- `irrig_web.F:486-487`: `dep`, the deposition of one MRU. -/
def irrDep (ppt ext sat hyd : Rat) : Rat := ppt + ext + sat + hyd

end Verif.Precip
