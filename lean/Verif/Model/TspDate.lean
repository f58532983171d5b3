import Mathlib.Data.Int.Basic
/-
The dates of TSPROC, the program of the distribution that processes the time series written by the model:
tsproc-trunk/tsproc-master/src/tsp_utilities.F90 (all lines cited are of this file unless another one is named).

Simplification: integers do not overflow.  Division of integers truncates, as in Fortran (`Int.tdiv`).
-/
namespace Verif.Tsp

/-- A date. -/
structure Day where
  year : Int
  month : Int
  day : Int
deriving DecidableEq, Repr

/-- `leap`, 451-463. -/
def leap (y : Int) : Bool :=
  (Int.tmod y 4 = 0 ∧ Int.tmod y 100 ≠ 0) ∨ (Int.tmod y 400 = 0 ∧ y ≠ 0)

/-- `julian_day`, 1964-1995; `origin` is 0 if absent. -/
def julianDay (d : Day) (origin : Int) : Int :=
  let i := d.year
  let j := d.month
  let k := d.day
  (k - 32075 + Int.tdiv (1461 * (i + 4800 + Int.tdiv (j - 14) 12)) 4 + Int.tdiv (367 * (j - 2 - Int.tdiv (j - 14) 12 * 12)) 12
    - Int.tdiv (3 * Int.tdiv (i + 4900 + Int.tdiv (j - 14) 12) 100) 4) - origin

/-- `gregorian_date`, 2244-2292; `origin` is 0 if absent. -/
def gregorianDate (jd origin : Int) : Day :=
  let l := jd + origin + 68569
  let n := Int.tdiv (4 * l) 146097
  let l := l - Int.tdiv (146097 * n + 3) 4
  let i := Int.tdiv (4000 * (l + 1)) 1461001
  let l := l - Int.tdiv (1461 * i) 4 + 31
  let j := Int.tdiv (80 * l) 2447
  let k := l - Int.tdiv (2447 * j) 80
  let l := Int.tdiv j 11
  ⟨100 * (n - 49) + i + l, j + 2 - 12 * l, k⟩

/-- `numdays`, 1241-1265. -/
def numdays (r d : Day) : Int := julianDay d 0 - julianDay r 0

/-- `newdate`, 635-670. -/
def newdate (ndays : Int) (d : Day) : Day := gregorianDate (julianDay d 0 + ndays) 0

/-- `numsecs`, 1333-1347. -/
def numsecs (h1 m1 s1 h2 m2 s2 : Int) : Int := (h2 - h1) * 3600 + (m2 - m1) * 60 + s2 - s1

/-- `day_of_year`, 1924-1940. -/
def dayOfYear (jd : Int) : Int :=
  let d := gregorianDate jd 0
  jd - julianDay ⟨d.year, 1, 1⟩ 0 + 1

/-- `num_days_in_year`, 2066-2077. -/
def numDaysInYear (y : Int) : Int := julianDay ⟨y, 12, 31⟩ 0 - julianDay ⟨y, 1, 1⟩ 0 + 1

/-- The component `iNumDays` of `MONTH`, tsp_data_structures.F90:338-351. -/
def monthTable : List Int := [31, 28, 31, 30, 31, 30, 31, 31, 30, 31, 30, 31]

/-- `num_days_in_month`, 2081-2101; a month above 12 ends the program (`none`; so does a month below 1 here, where the array is
read outside its bounds). -/
def numDaysInMonth (m y : Int) : Option Int :=
  if m ≤ 12 ∧ 1 ≤ m then
    some (if m ≠ 2 then monthTable.getD (m - 1).toNat 0 else if leap y then 29 else 28)
  else none

/-- `water_year_and_day`, 2296-2327: the water year and the day of it (0 to 365). -/
def waterYearAndDay (jd : Int) : Int × Int :=
  let d := gregorianDate jd 0
  let w := if d.month ≥ 10 then d.year + 1 else d.year
  let origin := if d.month ≥ 10 then julianDay ⟨d.year, 10, 1⟩ 0 else julianDay ⟨d.year - 1, 10, 1⟩ 0
  if d.month = 2 ∧ d.day = 29 then (w, 151)
  else
    let n := julianDay d origin
    (w, if n ≥ 151 ∧ leap d.year = false then n + 1 else n)

end Verif.Tsp
