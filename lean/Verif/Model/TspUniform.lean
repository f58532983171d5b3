import Verif.Model.TspTransform
import Verif.Model.TspInterp
import Verif.Model.TspDate
import Mathlib.Data.Rat.Floor
/-
Periods and new series of TSPROC: tsproc-trunk/tsproc-master/src, files tsp_command_processors.F90 (C) and
tsp_time_series_processors.F90 (T): `date_check`, NEW_SERIES_UNIFORM, V_TABLE_TO_SERIES.

Simplifications: reals are rational numbers and integers unbounded.  A time of day is its number of seconds (`numsecs` of hours, minutes
and seconds).  Reading of the block, names, contexts and the place of the new series are left out.  `none` is the end with an error
message, unless said otherwise.
-/
namespace Verif.Tsp

/-- `date_check`, C:585-680: the period from the dates and times given.  A time that is not given is 24:00 (C:620-631). -/
def dateCheck (d1 : Option Day) (t1 : Option Int) (d2 : Option Day) (t2 : Option Int) : Option (Clock × Clock) :=
  if (d1 = none ∧ t1 ≠ none) ∨ (d2 = none ∧ t2 ≠ none) then none
  else
    let s1 := t1.getD 86400
    let s2 := t2.getD 86400
    let wrong := match d1, d2 with
      | some a, some b => decide (numdays a b < 0 ∨ (numdays a b = 0 ∧ s2 - s1 ≤ 0))
      | _, _ => false
    if wrong then none
    else
      let b := carry (match d1 with | some a => julianDay a 0 | none => -99999999) s1
      let e := carry (match d2 with | some a => julianDay a 0 | none => 99999999) s2
      if b = e then none else some (b, e)

/-- What the loops of `new_series_uniform` change: days and seconds of a term, month and year. -/
structure Cursor where
  at_ : Clock
  mm : Int
  yy : Int

/-- Months above 12, T:1171-1176. -/
def rollYear (mm yy : Int) : Int × Int := if 12 < mm then rollYear (mm - 12) (yy + 1) else (mm, yy)
termination_by mm.toNat

/-- The next term, T:1124-1131, 1144-1146, 1167-1179, 1196-1200. -/
def advance (u : TimeUnit) (n dd : Int) (c : Cursor) : Cursor :=
  match u with
  | .secs => { c with at_ := carry c.at_.days (c.at_.secs + n * 1) }
  | .mins => { c with at_ := carry c.at_.days (c.at_.secs + n * 60) }
  | .hrs => { c with at_ := carry c.at_.days (c.at_.secs + n * 3600) }
  | .days => { c with at_ := ⟨c.at_.days + n, c.at_.secs⟩ }
  | .mths =>
    let (mm, yy) := rollYear (c.mm + n) c.yy
    ⟨⟨julianDay ⟨yy, mm, dd⟩ 0, c.at_.secs⟩, mm, yy⟩
  | .yrs => ⟨⟨julianDay ⟨c.yy + n, c.mm, dd⟩ 0, c.at_.secs⟩, c.mm, c.yy + n⟩

/-- The seconds that a step takes at least, T:1085-1098. -/
def timeInc (u : TimeUnit) (n : Int) : Int :=
  match u with
  | .secs => n
  | .mins => n * 60
  | .hrs => n * 3600
  | .days => n * 86400
  | .mths => n * 28 * 86400
  | .yrs => n * 365 * 86400

/-- The loops, T:1122-1208: terms until one is after the end.  `none` is a write past the end of the temporary series, which has room for
as many more terms as the number says. -/
def uniformLoop (adv : Cursor → Cursor) (e : Clock) : Nat → Cursor → Option (List Clock)
  | 0, _ => none
  | k + 1, c => if later (adv c).at_ e then some [c.at_] else (uniformLoop adv e k (adv c)).map (c.at_ :: ·)

/-- `new_series_uniform`, T:1050-1228: `n` units of time from one term to the next, all of value `v`. -/
def uniformSeries (u : TimeUnit) (n : Int) (v : Rat) (d1 : Day) (t1 : Int) (d2 : Day) (t2 : Int) : Option (List Term) :=
  if n ≤ 0 then none
  else
    (dateCheck (some d1) (some t1) (some d2) (some t2)).bind fun p =>
      if (u = .mths ∧ d1.day > 28) ∨ (u = .yrs ∧ d1.day > 28 ∧ d1.month = 2) then none
      else
        let diff := (p.2.days - p.1.days) * 86400 + (p.2.secs - p.1.secs)
        let room := ⌈(diff : Rat) / (timeInc u n : Int)⌉.toNat + 20
        (uniformLoop (advance u n d1.day) p.2 (room - 1) ⟨p.1, d1.month, d1.year⟩).map (·.map fun c => ⟨c, v⟩)

/-- The time of a volume with the abscissa `centre`, T:1907-1922. -/
def centre (a b : Clock) : Clock :=
  let idiff := b.days - a.days
  let ihalf := idiff.tdiv 2
  let isecs := if ihalf * 2 = idiff then (a.secs + b.secs).tdiv 2 else (a.secs + b.secs).tdiv 2 + 43200
  carry (a.days + ihalf) isecs

/-- The values of the new series, T:1930-1939. -/
def volumeValues (cumulative : Bool) (factor : Rat) (vol : List Rat) : List Rat :=
  if cumulative then (vol.foldl (fun (a : Rat × List Rat) x => (a.1 + x * factor, a.2 ++ [a.1 + x * factor])) (0, [])).2
  else vol.map (· * factor)

end Verif.Tsp
