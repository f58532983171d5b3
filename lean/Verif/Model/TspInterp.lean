import Verif.Model.TspStat
import Verif.Model.TspDate
/-
Interpolation in time, volumes and durations of TSPROC: tsproc-trunk/tsproc-master/src, files tsp_utilities.F90 (U),
tsp_command_processors.F90 (C) and tsp_time_series_processors.F90 (T).

Simplifications: reals are rational numbers.  Reading of the blocks and of date files is left out.
-/
namespace Verif.Tsp

/-- Seconds from `b` to `a`, e.g. C:1480-1483. -/
def gap (a b : Clock) : Rat := ((a.days - b.days : Int) : Rat) * 86400 + ((a.secs - b.secs : Int) : Rat)

/-- Days from `b` to `a`, e.g. C:1001. -/
def gapDays (a b : Clock) : Rat := ((a.days - b.days : Int) : Rat) + ((a.secs - b.secs : Int) : Rat) * (1 / 86400)

/-- The first interval that does not end before `b`, C:1474-1478: its ends and what follows. -/
def volFirst (b : Clock) : List Term → Option (Term × Term × List Term)
  | p :: q :: r => if later b q.at_ then volFirst b (q :: r) else some (p, q, r)
  | _ => none

/-- The intervals up to the one that does not end before `f`, C:1489-1503, from the interval (`p`, `q`) on; `first` is `i.eq.j`. -/
def volLast (f : Clock) (first : Bool) (vm : Rat) (p q : Term) : List Term → Option (Term × Term × Bool × Rat)
  | [] => if later f q.at_ then none else some (p, q, first, vm)
  | q' :: r =>
    if later f q.at_ then
      volLast f false (if first then vm else vm + 1 / 2 * (q.val + p.val) * gap q.at_ p.at_) q q' r
    else some (p, q, first, vm)

/-- `volume_interp_s`, C:1429-1540; `none` if it returns with `ifail` 1. -/
def volume (s : List Term) (b f : Clock) (fac : Rat) : Option Rat :=
  match volFirst b s with
  | none => some (-41 * 10 ^ 36)
  | some (p, q, r) =>
    if gap q.at_ p.at_ ≤ 0 then none
    else
      let m := (q.val - p.val) / gap q.at_ p.at_
      let volb := gap q.at_ b * (q.val - m * (1 / 2) * gap q.at_ b)
      match volLast f true 0 p q r with
      | none => some (-31 * 10 ^ 36)
      | some (p, q, first, volm) =>
        if gap q.at_ p.at_ = 0 then none
        else
          let m := (q.val - p.val) / gap q.at_ p.at_
          let volf := gap f p.at_ * (p.val + m * (1 / 2) * gap f p.at_)
          let volm := if first then -(1 / 2) * (q.val + p.val) * gap q.at_ p.at_ else volm
          some ((volb + volm + volf) * fac / 86400)

/-- `minval` of days, `HUGE` if there are none. -/
def minDay (l : List Int) : Int := l.foldl min 2147483647

/-- `maxval` of days, `-HUGE-1` if there are none (as gfortran has it). -/
def maxDay (l : List Int) : Int := l.foldl max (-2147483648)

/-- The years of the loops U:2158 and 2185. -/
def yearsOf (ds : List Int) : List Int :=
  match ds.head?, ds.getLast? with
  | some a, some b =>
    (List.range ((gregorianDate b 0).year + 1 - (gregorianDate a 0).year).toNat).map fun (k : Nat) => (gregorianDate a 0).year + (k : Int)
  | _, _ => []

/-- The days of a month among the dates of samples, U:2188 and 2197-2201. -/
def daysIn (ds : List Int) (y m : Int) : List Int :=
  ds.filter fun d => (gregorianDate d 0).year = y ∧ (gregorianDate d 0).month = m

/-- `make_date_list` for MONTHLY, U:2178-2206: first and last day of each period. -/
def monthly (ds : List Int) : List (Int × Int) :=
  (yearsOf ds).flatMap fun y =>
    ([1, 2, 3, 4, 5, 6, 7, 8, 9, 10, 11, 12] : List Int).filterMap fun m =>
      if (daysIn ds y m).length < 25 then none else some (minDay (daysIn ds y m), maxDay (daysIn ds y m))

/-- `make_date_list` for ANNUAL, U:2151-2176. -/
def annual (ds : List Int) : List (Int × Int) :=
  (yearsOf ds).filterMap fun y =>
    if (ds.filter fun d => (gregorianDate d 0).year = y).length < 350 then none
    else some (minDay (daysIn ds y 1), maxDay (daysIn ds y 12))

/-- `volume` (the block VOLUME_CALCULATION) for periods found by the program, T:5916-5947: from 0:00:00 of the first day to 23:59:59
of the last one. -/
def autoVolumes (periods : List (Int × Int)) (s : List Term) (fac factor : Rat) : List (Clock × Clock × Option Rat) :=
  periods.map fun p =>
    (⟨p.1, 0⟩, ⟨p.2, 86399⟩, (volume s ⟨p.1, 0⟩ ⟨p.2, 86399⟩ fac).map (· * factor))

/-- A value that stands for no value, e.g. C:1014. -/
def flagged (x : Rat) : Bool := x < -10 ^ 38

/-- The loop of `time_interp_s`, C:1028-1146, without `extrap` and `direction`, over the terms `p`, `q` and so on, `p` being number
`i - 1` (`none` before the first term).  `none` with `ifail` 1.  Result: value and index. -/
def interpLoop (c : Clock) (rnear rconst : Rat) : Option Term → List Term → Nat → Option (Rat × Nat)
  | none, [], i => some (0, i)
  | some p, [], i =>
    some (if gapDays c p.at_ ≤ rconst then p.val else -91 * 10 ^ 36, i)
  | prev, q :: r, i =>
    let diff := gapDays q.at_ c
    if 0 ≤ diff then
      match prev with
      | none => some (if diff ≤ rconst then q.val else -81 * 10 ^ 36, i)
      | some p =>
        let dentime := gapDays q.at_ p.at_
        if dentime ≤ 0 then none
        else
          let diff1 := dentime - diff
          let v := if diff1 > rnear ∧ diff > rnear then -71 * 10 ^ 36
            else p.val + (q.val - p.val) / dentime * diff1
          some (if flagged q.val then (if diff1 ≤ rconst then p.val else -11 * 10 ^ 37)
            else if flagged p.val then (if diff ≤ rconst then q.val else -11 * 10 ^ 37)
            else v, i)
    else interpLoop c rnear rconst (some q) r (i + 1)

/-- `time_interp_s`, C:918-1175, as it is called (no `extrap`, no `direction`, with `startindex`): value and the new `startindex`. -/
def timeInterp (s : List Term) (c : Clock) (rnear rconst : Rat) (start : Nat) : Option Rat × Nat :=
  match s with
  | [] => (none, start)
  | [t] =>
    let diff := gapDays c t.at_
    (some (if |diff| ≤ rconst then t.val else if 0 < diff then -91 * 10 ^ 36 else -81 * 10 ^ 36), start)
  | s =>
    let istart := min (max start 1) (s.length - 1)
    match interpLoop c rnear rconst (if istart = 1 then none else s[istart - 2]?) (s.drop (istart - 1)) istart with
    | some (v, i) => (some v, i)
    | none => (none, 0)

/-- The loop of `time_base`, T:5519-5530: a value for each of the times; `none` where the value is not set. -/
def baseLoop (s : List Term) : List Clock → Nat → List (Option Rat)
  | [], _ => []
  | c :: cs, start =>
    let r := timeInterp s c (10 ^ 20) 0 start
    r.1 :: baseLoop s cs r.2

/-- `time_base`, T:5450-5536: `none` if the times reach beyond the series. -/
def timeBase (s : List Term) (base : List Clock) : Option (List (Clock × Option Rat)) :=
  match base.head?, base.getLast?, s.head?, s.getLast? with
  | some b1, some b2, some s1, some s2 =>
    if later s1.at_ b1 ∨ later b2 s2.at_ then none else some (base.zip (baseLoop s base 0))
  | _, _, _, _ => none

/-- Time units of durations, T:6259-6277: units in a second. -/
inductive TimeUnit | secs | mins | hrs | days | mths | yrs
deriving DecidableEq, Repr

/-- `fac` of `time_duration`, T:6259-6277. -/
def TimeUnit.fac : TimeUnit → Rat
  | .secs => 1
  | .mins => 1 / 60
  | .hrs => 1 / 3600
  | .days => 1 / 86400
  | .mths => 1 / 86400 / ((356 + 1 / 4) / 12)
  | .yrs => 1 / 86400 / (365 + 1 / 4)

/-- Whether a flow is over (or under) the threshold, T:6296-6309. -/
def isOn (over : Bool) (flow v : Rat) : Bool := if over then v ≥ flow else v ≤ flow

/-- The loop of `time_duration` over the terms after the first, T:6310-6351, ending with the rest of 6352. -/
def durLoop (over : Bool) (flow delay : Rat) : Term → List Term → Rat → Rat → Rat
  | _, [], dur, acc => dur + max 0 (acc - delay)
  | p, q :: r, dur, acc =>
    let dt := gap q.at_ p.at_
    match isOn over flow p.val, isOn over flow q.val with
    | true, true => durLoop over flow delay q r dur (acc + dt)
    | false, true => durLoop over flow delay q r dur (dt * (q.val - flow) / (q.val - p.val))
    | true, false =>
      let acc := acc + dt * (p.val - flow) / (p.val - q.val)
      durLoop over flow delay q r (dur + max 0 (acc - delay)) 0
    | false, false => durLoop over flow delay q r dur acc

/-- `time_duration`, T:6288-6354, for one flow and its delay. -/
def duration (s : List Term) (over : Bool) (flow delay : Rat) (u : TimeUnit) : Rat :=
  match s with
  | [] => 0
  | p :: r => durLoop over flow (delay / u.fac) p r 0 0 * u.fac

/-- The time of the whole series, T:6358-6362. -/
def totalTime (s : List Term) (u : TimeUnit) : Rat :=
  match s.head?, s.getLast? with
  | some p, some q => gap q.at_ p.at_ * u.fac
  | _, _ => 0

end Verif.Tsp
