import Mathlib.Algebra.Order.Field.Rat
import Mathlib.Data.Rat.Floor
/-
Climate of the units: `webmod.d/src/obs_webmod.F` (temperatures), `temp_1sta_prms.F`, `potet_hamon_prms.F`, `basin_topg.F`.

Simplifications: reals are rationals.  One unit (`mru`) or one station at a time; the loops over the units are independent except for
the basin averages, which are functions of the list of the units.
-/
namespace Verif.Climate

/-! ### Station temperatures, obs_webmod.F:385-417 -/

/-- Temperatures of a station used by other modules: `tsta_min_c`, `tsta_max_c`, `tsta_temp_c`, and `tsta_temp_f`. -/
structure Station where
  minC : Rat
  maxC : Rat
  tempC : Rat
  tempF : Rat
deriving DecidableEq, Repr

/-- obs_webmod.F:385-417; `celsius`: `temp_units = 1`; `sub`: `dt < 24`; `tmin`, `tmax`, `temp`: the columns of the data file (the last
one is only read if `sub`). -/
def station (celsius sub : Bool) (tmin tmax temp : Rat) : Station :=
  if celsius then
    let f : Rat := (tmax * (9 / 5) + 32 + (tmin * (9 / 5) + 32)) / 2
    if sub then ⟨tmin, tmax, temp, f⟩ else ⟨tmin, tmax, (tmax + tmin) / 2, f⟩
  else
    let lo := (tmin - 32) / (9 / 5)
    let hi := (tmax - 32) / (9 / 5)
    if sub then ⟨lo, hi, (hi + lo) / 2, temp⟩ else ⟨lo, hi, (hi + lo) / 2, (tmax + tmin) / 2⟩

/-! ### Temperatures of a unit, temp_1sta_prms.F -/

/-- Parameters of a unit: monthly lapse rates, elevations of unit and station, adjustments. -/
structure Unit' where
  maxLapse : Int → Rat
  minLapse : Int → Rat
  elev : Rat
  staElev : Rat
  maxAdj : Rat
  minAdj : Rat

/-- `elfac`, temp_1sta_prms.F:452-455. -/
def Unit'.elfac (u : Unit') : Rat := (u.elev - u.staElev) / 1000

/-- A time step: month, day, temperatures of the station. -/
structure Rec where
  month : Int
  day : Int
  max : Rat
  min : Rat
  avg : Rat
deriving DecidableEq, Repr

/-- `tcrx`, `tcrn`, temp_1sta_prms.F:501-507. -/
structure Corr where
  x : Rat
  n : Rat
deriving DecidableEq, Repr

/-- `tmax_c`, `tmin_c`, `temp_c`. -/
structure Temps where
  max : Rat
  min : Rat
  avg : Rat
deriving DecidableEq, Repr

/-- `t1run` without reaction temperatures, temp_1sta_prms.F:501-513. -/
def t1run (u : Unit') (first : Bool) (r : Rec) (c : Corr) : Corr × Temps :=
  let c := if first ∨ r.day = 1 then ⟨u.maxLapse r.month * u.elfac - u.maxAdj, u.minLapse r.month * u.elfac - u.minAdj⟩ else c
  (c, ⟨r.max - c.x, r.min - c.n, r.avg - (c.x + c.n) / 2⟩)

/-- The time steps of a simulation, first step `r` (temp_1sta_prms.F:470-620). -/
def temps (u : Unit') (r : Rec) (rs : List Rec) : Corr × Temps :=
  rs.foldl (fun s x => t1run u false x s.1) (t1run u true r ⟨0, 0⟩)

/-- The array of a reaction temperature after `t1init`, temp_1sta_prms.F:441-449; `none`: the array is empty and its first element is
written anyway. -/
def reactInit (days : Rat) : Option (List Rat) := if ⌈days⌉ ≤ 0 then none else some (List.replicate ⌈days⌉.toNat 0)

/-- `cshift (a, -1)`. -/
def cshift (a : List Rat) : List Rat :=
  match a.getLast? with
  | none => []
  | some x => x :: a.dropLast

/-- The reaction temperature of a time step and the array after the rotation, temp_1sta_prms.F:517-540, 602-607. -/
def react (days adj : Rat) (a : List Rat) (t : Rat) : List Rat × Rat :=
  let a := a.set 0 t
  let frac : Rat := ⌈days⌉ - days
  let s := a.sum
  let s := if frac > 1 / 10 ^ 10 then s - frac * a.getD (⌈days⌉.toNat - 1) 0 else s
  (cshift a, s / days + adj)

/-- Reaction temperatures of successive time steps; the last one. -/
def reacts (days adj : Rat) (ts : List Rat) : Option (List Rat × Rat) :=
  (reactInit days).map fun a => ts.foldl (fun s t => react days adj s.1 t) (a, 0)

/-- Choice of the temperature, temp_1sta_prms.F:517-528; `none`: error. -/
def stat (k : Int) (t : Temps) : Option Rat := if k = 1 then some t.min else if k = 2 then some t.avg else if k = 3 then some t.max else none

/-! ### Basin, basin_topg.F:136-173 -/

/-- Areas of the units and fractions of impervious area; `basinit` returns 0.  Division by zero gives no number unless the areas are not
zero as well, and no number is not `.ge. 0.01`. -/
def basinit (basin : Rat) (areas : List Rat) : Bool :=
  if basin = 0 then decide (areas.sum = 0) else !decide (|(areas.sum - basin) / basin| ≥ 1 / 100)

/-- Impervious and pervious area, basin_topg.F:160-161. -/
def split (frac area : Rat) : Rat × Rat := (frac * area, area - frac * area)

/-- Basin averages, temp_1sta_prms.F:594-596, 608-610, potet_hamon_prms.F:399, 402: values with areas. -/
def average (basin : Rat) (xs : List (Rat × Rat)) : Rat := (xs.map fun x => x.1 * x.2).sum / basin

/-! ### Transpiration season, potet_hamon_prms.F -/

/-- `transp_on`, `transp_check`, `tmax_sum`. -/
structure Season where
  on : Bool
  check : Bool
  sum : Rat
deriving DecidableEq, Repr

/-- `petinit`, potet_hamon_prms.F:258-279. -/
def seasonInit (beg fin mo day : Int) : Season :=
  if mo = beg then (if day > 10 then ⟨true, false, 0⟩ else ⟨false, true, 0⟩)
  else if fin - beg > 0 then ⟨decide (mo > beg ∧ mo < fin), false, 0⟩
  else ⟨decide ((mo > beg ∧ mo ≤ 12) ∨ (mo ≥ 1 ∧ mo < fin)), false, 0⟩

/-- A time step: month, day, `tmax_c` of the unit. -/
structure Day where
  month : Int
  day : Int
  tmax : Rat
deriving DecidableEq, Repr

/-- Positive temperatures are added, potet_hamon_prms.F:333, 348. -/
def addPos (s t : Rat) : Rat := if t > 0 then s + t else s

/-- The switch on a new day, potet_hamon_prms.F:332-358. -/
def seasonDay (beg fin : Int) (idx : Rat) (d : Day) (s : Season) : Season :=
  if s.check then
    let t := addPos s.sum d.tmax
    if t > idx then ⟨true, false, 0⟩ else { s with sum := t }
  else if d.day = 1 then
    if d.month = beg then { s with check := true, sum := addPos s.sum d.tmax }
    else if s.on ∧ d.month = fin then { s with on := false }
    else s
  else s

/-- A time step, potet_hamon_prms.F:319-359: `lday` and the switch. -/
def seasonStep (beg fin : Int) (idx : Rat) (s : Int × Season) (d : Day) : Int × Season :=
  if s.1 = d.day then s else (d.day, seasonDay beg fin idx d s.2)

/-- A simulation: date of the start, time steps (`petinit`, `petrun`). -/
def season (beg fin : Int) (idx : Rat) (mo day : Int) (ds : List Day) : Season :=
  (ds.foldl (seasonStep beg fin idx) (0, seasonInit beg fin mo day)).2

/-! ### Potential evapotranspiration, potet_hamon_prms.F:370-400 -/

/-- Hamon formula, potet_hamon_prms.F:373-376; `none`: division by zero.  `exp` is the library function. -/
def hamon (exp : Rat → Rat) (coef epan dyl t : Rat) : Option Rat :=
  if t + 2373 / 10 = 0 ∨ t + 2732 / 10 = 0 ∨ epan = 0 then none
  else some (coef * dyl * dyl * (2167 / 10 * (6108 / 1000 * exp (1726939 / 100000 * t / (t + 2373 / 10))) / (t + 2732 / 10)) / epan)

/-- Weather of a time step: `dt` in hours, day, hours of sunshine, mean temperature of the unit in the step, pan evaporation. -/
structure Weather where
  dt : Rat
  day : Int
  sun : Rat
  temp : Rat
  pan : Option Rat
deriving DecidableEq, Repr

/-- `daily_potet` on a new day, potet_hamon_prms.F:370-388; `pan = none`: there are no pans. -/
def dailyPet (exp : Rat → Rat) (coef epan : Rat) (w : Weather) : Option Rat :=
  match w.pan with
  | some p => if p ≠ -999 then some p else hamon exp coef epan w.sun w.temp
  | none => hamon exp coef epan w.sun w.temp

/-- `petrun` without the switch: `lday`, `daily_potet`, and `potet`, potet_hamon_prms.F:319-321, 370-398. -/
def petrun (exp : Rat → Rat) (coef epan : Rat) (w : Weather) (s : Int × Rat) : Option ((Int × Rat) × Rat) :=
  (if s.1 = w.day then some s else (dailyPet exp coef epan w).map fun d => (w.day, d)).map fun s =>
    (s, (if w.dt < 24 then w.dt / 24 else 1) * s.2)

/-- `potet` of successive time steps of a month (coefficients of the month). -/
def petruns (exp : Rat → Rat) (coef epan : Rat) : List Weather → Int × Rat → Option ((Int × Rat) × List Rat)
  | [], s => some (s, [])
  | w :: r, s =>
    (petrun exp coef epan w s).bind fun a => (petruns exp coef epan r a.1).map fun b => (b.1, a.2 :: b.2)

end Verif.Climate
