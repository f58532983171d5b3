import Verif.Model.Calendar
import Mathlib.Algebra.Order.Field.Rat
/-
Daily solar radiation: `webmod.d/src/ccsolrad_web.F` (`csolinit`, `csolrun`).

Simplifications: reals are rationals.  The two tables (radiation and hours of sunshine) are interpolated by the same statements;
the model has one table and one unit, `tab d` being the entry of calendar day `d`.
-/
namespace Verif.Solar
open Verif.Calendar

/-- Lengths of the 24 periods of the solar year, ccsolrad_web.F:271-272, 323-325; the fifth one is `lp(5)`, 431-432, 455-457. -/
def lengths (lp5 : Int) : List Int :=
  [19, 13, 15, 13, lp5, 14, 14, 15, 14, 15, 14, 21, 20, 15, 14, 15, 15, 14, 15, 14, 14, 14, 14, 18]

/-- `Lp(j)`, ccsolrad_web.F:323-325. -/
def lp (lp5 : Int) (j : Nat) : Int := (lengths lp5).getD (j - 1) 0

/-- `sday`, ccsolrad_web.F:385: calendar days of the table entries used. -/
def sday : List Nat := [356, 10, 23, 38, 51, 66, 80, 94, 109, 123, 138, 152, 173]

/-- Saved variables, ccsolrad_web.F:24, 27-29: `lday`, `lp(5)`, `nper`, `lsv`, `kck` (not 0), `sper`, `cnt`, `psv`, `ssv`, `drad`. -/
structure Sun where
  lday : Int
  lp5 : Int
  nper : Int
  lsv : Nat
  kck : Bool
  sper : Rat
  cnt : Rat
  psv : Rat
  ssv : Rat
  drad : Rat
deriving DecidableEq, Repr

/-- State after `csolinit`, ccsolrad_web.F:320-353. -/
def Sun.init : Sun := ⟨0, 15, 1, 1, false, 0, 0, 0, 0, 0⟩

/-- The search for the period of the first day, ccsolrad_web.F:433-441: `jkeep` and `Nper`. -/
def search (jsol : Int) : List Int → Nat → Int → Nat × Int
  | [], j, n => (j, n)
  | l :: r, j, n => if jsol < n + l then (j + 1, n + l) else search jsol r (j + 1) (n + l)

/-- `ip` and `jp`, ccsolrad_web.F:467-478. -/
def ends (lsv : Nat) : Nat × Nat :=
  if 13 < lsv then (26 - lsv, 25 - lsv) else if lsv = 13 then (13, 12) else (lsv, lsv + 1)

/-- `sday(i)`, ccsolrad_web.F:480-481. -/
def sdayAt (i : Nat) : Nat := sday.getD (i - 1) 0

/-- Linear interpolation, ccsolrad_web.F:507-516. -/
def interp (s : Sun) : Sun := { s with drad := s.psv + s.cnt / s.sper * s.ssv, cnt := s.cnt + 1 }

/-- A new period, ccsolrad_web.F:480-503. -/
def place (tab : Nat → Rat) (s : Sun) : Sun :=
  let a := tab (sdayAt (ends s.lsv).1)
  let b := tab (sdayAt (ends s.lsv).2)
  let s := { s with psv := a, ssv := b - a }
  if s.kck then interp { s with kck := false } else { s with drad := s.psv, cnt := 1 }

/-- The length of the fifth period in year `k`, ccsolrad_web.F:431-432, 455-457. -/
def fifth (k : Int) : Int := if isleap k ≠ 0 then 16 else 15

/-- `csolrun`, ccsolrad_web.F:388-516; `first`: `getstep () = 1`.  `none`: the day of the solar year is undefined (year 1). -/
def csolrun (tab : Nat → Rat) (first : Bool) (d : Date) (s : Sun) : Option Sun :=
  if s.lday = d.day then some s
  else
    (julian .solar d).map fun jsol =>
      let s := { s with lday := d.day }
      if first then
        let lp5 := fifth (if jsol < 11 then d.year + 1 else d.year)
        let p := search jsol (lengths lp5) 0 1
        let sper : Rat := lp lp5 p.1
        let cnt : Rat := sper - (p.2 - jsol : Int)
        place tab { s with lp5 := lp5, nper := p.2, lsv := p.1, sper := sper, cnt := cnt,
                           kck := decide (¬ cnt < 1 / 10 ^ 30) }
      else if s.nper ≠ jsol then interp s
      else if s.lsv = 24 then interp { s with nper := 1, lsv := 0, lp5 := fifth (d.year + 1) }
      else place tab { s with lsv := s.lsv + 1, sper := lp s.lp5 (s.lsv + 1), nper := s.nper + lp s.lp5 (s.lsv + 1) }

/-- The run sections (`csolrun`, ccsolrad_web.F:364-550) of a simulation that starts with day `d`; `ds` are the dates of all later time steps. -/
def runs (tab : Nat → Rat) (d : Date) (ds : List Date) : Option Sun :=
  ds.foldl (fun s x => s.bind (csolrun tab false x)) (csolrun tab true d Sun.init)

/-! ### Radiation received, ccsolrad_web.F:520-544 -/

/-- Parameters of the month, ccsolrad_web.F:31-33. -/
structure Sky where
  slope : Rat
  intcp : Rat
  wppt : Rat
  sppt : Rat
  coef : Rat
  expo : Rat
  radmax : Rat
  pptlimit : Rat
deriving DecidableEq, Repr

/-- Cloud cover, ccsolrad_web.F:527-530. -/
def ccov (p : Sky) (tmax tmin : Rat) : Rat :=
  let c := p.slope * (tmax - tmin) + p.intcp
  let c := if c < 1 / 10 ^ 30 then 0 else c
  if c > 1 then 1 else c

/-- `obsrad(1)`, ccsolrad_web.F:520-540: the measured value if it is positive and not above 10000, otherwise an estimate. -/
def orad (pow : Rat → Rat → Rat) (p : Sky) (mo : Int) (ckrad horad ppt tmax tmin : Rat) : Rat :=
  if ckrad < 1 / 10 ^ 30 ∨ ckrad > 10000 then
    let pptadj := if ppt > p.pptlimit then (if 4 < mo ∧ mo < 10 then p.sppt else p.wppt) else 1
    let radadj := p.coef + (1 - p.coef) * pow (1 - ccov p tmax tmin) p.expo
    let radadj := if radadj > p.radmax then p.radmax else radadj
    radadj * pptadj * horad
  else ckrad

/-- `swrad(j)`, ccsolrad_web.F:542-544; `none`: division by zero. -/
def swrad (drad horad obsrad cossl : Rat) : Option Rat :=
  if horad = 0 ∨ cossl = 0 then none else some (drad / horad * obsrad / cossl)

end Verif.Solar
