import Verif.Model.TspStat
import Verif.Model.TspDate
/-
PERIOD_STATISTICS block of TSPROC: tsproc-trunk/tsproc-master/src/wsc_additions.F90 (W), `period_stats`.

Simplifications: reals are rational numbers and integers unbounded; transformation (logarithm or power, undefined where the code ends with
an error message) and square root are parameters.  Reading of the block, names, contexts and the place of the new series are left out.
The terms of the period (W:608-653) are those of `reduceSpan`, which has the same tests.  `none` is the end with an error message; a value
`none` of a term is a variable that was never assigned.
-/
namespace Verif.Tsp

/-- PERIOD, W:507-510. -/
inductive PUnit | year | monthMany | monthOne | daily
deriving DecidableEq

/-- YEAR_TYPE, W:531-533. -/
inductive YearType | waterHigh | waterLow | calendar
deriving DecidableEq

/-- TIME_ABSCISSA, W:557-561. -/
inductive Abscissa | start | centre | end_
deriving DecidableEq

/-- STATISTIC, W:483-489. -/
inductive PStat | sum | mean | stdDev | maximum | minimum | median | range
deriving DecidableEq

/-- `nvals`, `tsum`, `tsum2`, `tmax`, `tmin`. -/
structure Acc where
  n : Nat
  sum : Rat
  sum2 : Rat
  max : Rat
  min : Rat
deriving DecidableEq

/-- W:678-689. -/
def Acc.empty : Acc := ⟨0, 0, 0, -10 ^ 30, 10 ^ 30⟩

/-- A further term of a period, W:742-746, 823-827, 873-877, 880-884. -/
def Acc.add (a : Acc) (r : Rat) : Acc :=
  ⟨a.n + 1, a.sum + r, a.sum2 + r * r, if r > a.max then r else a.max, if r < a.min then r else a.min⟩

/-- The first term of another period, W:814-818, 865-869, 928-932; `r` is the transformed value of the term and `v` its value. -/
def Acc.restart (r v : Rat) : Acc := ⟨1, r, r * r, v, v⟩

/-- `wy`, W:734-740. -/
def yearOf (yt : YearType) (d : Day) : Int :=
  match yt with
  | .waterHigh => if d.month ≥ 10 then d.year + 1 else d.year
  | .waterLow => if d.month ≥ 4 then d.year + 1 else d.year
  | .calendar => d.year

/-- What is compared with the term before, W:741, 822, 879. -/
def periodKey (u : PUnit) (yt : YearType) (d : Day) : Int :=
  match u with
  | .year => yearOf yt d
  | .monthMany => d.month
  | .monthOne => 0
  | .daily => d.day

/-- `tstat`, W:749-768 and the same for other periods. -/
def statValue (sqrt : Rat → Rat) (st : PStat) (a : Acc) : Option Rat :=
  match st with
  | .sum => some a.sum
  | .mean => some (a.sum / a.n)
  | .stdDev => some (if a.n = 1 then 0 else sqrt ((a.sum2 - a.n * (a.sum / a.n) * (a.sum / a.n)) / (a.n - 1 : Nat)))
  | .maximum => some a.max
  | .minimum => some a.min
  | .median => none
  | .range => some (a.max - a.min)

/-- The days of months, W:373. -/
def daysOfMonth (m : Int) : Int := [31, 28, 31, 30, 31, 30, 31, 31, 30, 31, 30, 31].getD (m - 1).toNat 0

/-- Date and time of a new term, W:769-807, 848-861, 905-920; `c` is the date of a term of the period. -/
def periodLabel (u : PUnit) (yt : YearType) (ab : Abscissa) (c : Day) : Clock :=
  let w := yearOf yt c
  match u with
  | .year =>
    match ab, yt with
    | .start, .waterHigh => ⟨julianDay ⟨w - 1, 10, 1⟩ 0, 0⟩
    | .start, .waterLow => ⟨julianDay ⟨w - 1, 4, 1⟩ 0, 0⟩
    | .start, .calendar => ⟨julianDay ⟨w, 1, 1⟩ 0, 0⟩
    | .centre, .waterHigh => ⟨julianDay ⟨w, 4, 1⟩ 0, 0⟩
    | .centre, .waterLow => ⟨julianDay ⟨w, 10, 1⟩ 0, 0⟩
    | .centre, .calendar => ⟨julianDay ⟨w, 7, 1⟩ 0, 0⟩
    | .end_, .waterHigh => ⟨julianDay ⟨w, 9, 30⟩ 0, 0⟩
    | .end_, .waterLow => ⟨julianDay ⟨w, 3, 31⟩ 0, 0⟩
    | .end_, .calendar => ⟨julianDay ⟨w, 12, 31⟩ 0, 0⟩
  | .monthMany =>
    match ab with
    | .start => ⟨julianDay ⟨c.year, c.month, 1⟩ 0, 0⟩
    | .centre => ⟨julianDay ⟨c.year, c.month, 15⟩ 0, 0⟩
    | .end_ => ⟨julianDay ⟨c.year, c.month, daysOfMonth c.month + (if c.month = 2 ∧ leap c.year then 1 else 0)⟩ 0, 0⟩
  | .daily => ⟨julianDay c 0, match ab with | .start => 0 | .centre => 43200 | .end_ => 86399⟩
  | .monthOne => ⟨0, 0⟩

/-- Date and time for a month of all years, W:1062-1074. -/
def monthLabel (ab : Abscissa) (m : Int) : Clock :=
  match ab with
  | .start => ⟨julianDay ⟨1800, m, 1⟩ 0, 0⟩
  | .centre => ⟨julianDay ⟨1800, m, 15⟩ 0, 0⟩
  | .end_ => ⟨julianDay ⟨1800, m, daysOfMonth m⟩ 0, 0⟩

/-- The loop over the terms for years, months and days, W:693-935, and what is written after it, W:939-1037 and 1083-1122.  `c` is the
date of the first term of the period that is counted in `a` (of which the code keeps `cdd`, `cmm`, `cyy` or `cwy`). -/
def periodLoop (g : Rat → Option Rat) (key : Day → Int) (mk : Day → Acc → Clock × Option Rat) :
    Day → Acc → List Term → Option (List (Clock × Option Rat))
  | c, a, [] => some (if a.n > 0 then [mk c a] else [])
  | c, a, t :: ts =>
    (g t.val).bind fun r =>
      if key (gregorianDate t.at_.days 0) = key c then periodLoop g key mk c (a.add r) ts
      else (periodLoop g key mk (gregorianDate t.at_.days 0) (Acc.restart r t.val) ts).map ((if a.n > 0 then [mk c a] else []) ++ ·)

/-- The loop for months of all years, W:871-877. -/
def monthLoop (g : Rat → Option Rat) : (Int → Acc) → List Term → Option (Int → Acc)
  | f, [] => some f
  | f, t :: ts =>
    (g t.val).bind fun r =>
      let m := (gregorianDate t.at_.days 0).month
      monthLoop g (fun i => if i = m then (f i).add r else f i) ts

/-- `period_stats`, W:655-1122, for the terms of the period. -/
def periodTerms (g : Rat → Option Rat) (sqrt : Rat → Rat) (u : PUnit) (yt : YearType) (ab : Abscissa) (st : PStat) (s : List Term) :
    Option (List (Clock × Option Rat)) :=
  match s with
  | [] => none
  | t :: ts =>
    if u = .monthOne then
      (monthLoop g (fun _ => .empty) (t :: ts)).map fun f =>
        ((List.range 12).map fun (i : Nat) => ((i : Int) + 1)).filterMap fun m =>
          if (f m).n > 0 then some (monthLabel ab m, statValue sqrt st (f m)) else none
    else
      periodLoop g (periodKey u yt) (fun c a => (periodLabel u yt ab c, statValue sqrt st a)) (gregorianDate t.at_.days 0) .empty (t :: ts)

/-- `period_stats`, W:608-1122. -/
def periodStats (g : Rat → Option Rat) (sqrt : Rat → Rat) (u : PUnit) (yt : YearType) (ab : Abscissa) (st : PStat) (b e : Clock)
    (s : List Term) : Option (List (Clock × Option Rat)) :=
  (reduceSpan b e s).bind (periodTerms g sqrt u yt ab st)

end Verif.Tsp
