import Verif.Model.Calendar
import Mathlib.Algebra.Order.Field.Rat
/-
Model of the end-of-period flags: `iorun` (`webmod.d/src/io.F:320-415`) and of the code in the five
consumers that takes the published integer apart again.

Simplification: double precision values are rationals; every double operation is followed by an
arbitrary rounding `rd`.  `deltim()` (`mmf_c/src/timing.c:315-317`) is an input.
-/
namespace Verif.EndPer
open Verif.Calendar

/-- A `DATETIME` (`mmf_c/src/structs.h:60-63`), without the derived fields `jd` and `jt`. -/
structure Now where
  date : Date
  hour : Int
  min : Int
  sec : Int
deriving DecidableEq, Repr

/-- The field `jt` computed by `julday`, `mmf_c/src/julday.c:59-61`; this is the value of
`djulian(when, "absolute")`, `mmf_c/src/timing.c:453-455`.  `none`: year zero, `jt` not computed. -/
def jt (rd : Rat → Rat) (n : Now) : Option Rat :=
  (julday n.date).map fun (j : Int) =>
    rd (rd (rd ((j : Rat) + rd ((n.hour : Rat) / 24)) + rd ((n.min : Rat) / 1440)) +
      rd ((n.sec : Rat) / 86400))

/-- The intrinsic `dint`: truncation towards zero.  Call site: `io.F:374`. -/
def dint (x : Rat) : Int := if x < 0 then -(-x).floor else x.floor

/-- The single precision literal `1.1` of `io.F:366`, converted to double. -/
def c11 : Rat := 9227469 / 8388608

/-- The variables of module `WEBMOD_IO` that survive between steps (`io.F:28, 50-52`). `modays` is the
whole array of twelve month lengths. -/
structure State where
  step1 : Bool
  yrdays : Int
  modays : List Int
deriving DecidableEq, Repr

/-- Module variables as initialised: `data modays` (`io.F:52`); `ioinit` sets `step1` (`io.F:180`).
`yrdays` has no initial value; it is a parameter. -/
def State.init (yrdays0 : Int) : State :=
  ⟨true, yrdays0, [31, 28, 31, 30, 31, 30, 31, 31, 30, 31, 30, 31]⟩

/-- The five local logicals of `iorun` and of every consumer (`io.F:325, 332-336`). -/
structure Flags where
  run : Bool
  yr : Bool
  mo : Bool
  dy : Bool
  storm : Bool
deriving DecidableEq, Repr

/-- The five integers `iend_*` of `iorun` (`io.F:326, 338-342`). -/
structure Ints where
  run : Int
  yr : Int
  mo : Int
  dy : Int
  storm : Int
deriving DecidableEq, Repr

/-- `io.F:354-363`: the year length and the length of February are recomputed at the first step and on
1 January. -/
def leapUpdate (st : State) (cday year : Int) : State :=
  if st.step1 ∨ cday = 1 then
    if isleap year = 1 then ⟨false, 366, st.modays.set 1 29⟩
    else ⟨false, 365, st.modays.set 1 28⟩
  else st

/-- `io.F:365-377`: is this the last step of a day?  `timestep` in hours. -/
def endOfDay (rd : Rat → Rat) (timestep jday : Rat) : Bool :=
  if timestep ≥ 24 then true
  else if dint (rd (rd (rd (c11 * timestep) / 24) + jday)) > dint jday then true
  else false

/-- `io.F:386-405`: the flags and the integers.  `none`: `modays(mo)` is read outside the array. -/
def setFlags (st : State) (jday endjday : Rat) (wyday mo day : Int) (dy : Bool) :
    Option (Flags × Ints) :=
  let idy : Int := if dy then 1 else 0
  if jday ≥ endjday then
    some (⟨true, true, true, true, true⟩, ⟨1, 1, 1, 1, 1⟩)
  else if wyday = st.yrdays ∧ dy = true then
    some (⟨false, true, true, dy, false⟩, ⟨0, 1, 1, idy, 0⟩)
  else if mo < 1 then none
  else
    match st.modays[(mo - 1).toNat]? with
    | none => none
    | some len =>
      if day = len ∧ dy = true then some (⟨false, false, true, dy, false⟩, ⟨0, 0, 1, idy, 0⟩)
      else some (⟨false, false, false, dy, false⟩, ⟨0, 0, 0, idy, 0⟩)

/-- `io.F:410`. -/
def compose (i : Ints) : Int := i.run * 16 + i.yr * 8 + i.mo * 4 + i.dy * 2 + i.storm

/-- What one call of `iorun` leaves behind: the flags it set and the published `endper`.  `io.F:344-410`. -/
structure Out where
  flags : Flags
  endper : Int
deriving DecidableEq, Repr

/-- `iorun`, `io.F:320-415`.  `none`: a day count needs year zero, or `modays(mo)` is out of bounds. -/
def iorun (rd : Rat → Rat) (endjday timestep : Rat) (now : Now) (st : State) : Option (State × Out) :=
  match julian .water now.date, julian .calendar now.date, jt rd now with
  | some wyday, some cday, some jday =>
    let st' := leapUpdate st cday now.date.year
    match setFlags st' jday endjday wyday now.date.month now.date.day (endOfDay rd timestep jday) with
    | some (f, i) => some (st', ⟨f, compose i⟩)
    | none => none
  | _, _, _ => none

/-- The decoding, with identical text in `route_clark.F:818-846`, `topmod_chem.F:2112-2140`,
`webmod_res.F:2118-2146`, `phreeq_mms.F90:6612-6640` and `web_sum.F:1501-1540` (`web_sum` also sets
`lastper`, see Model/Summary.lean). -/
def decode (endper : Int) : Flags :=
  let storm : Bool := endper ≠ 0 ∧ Int.tmod endper 2 ≠ 0
  let e1 := if endper ≠ 0 ∧ Int.tmod endper 2 ≠ 0 then endper - 1 else endper
  if e1 ≠ 0 then
    let e2 := e1 - 2
    if e2 ≠ 0 then
      let e3 := e2 - 4
      if e3 ≠ 0 then
        let e4 := e3 - 8
        ⟨e4 ≠ 0, true, true, true, storm⟩
      else ⟨false, false, true, true, storm⟩
    else ⟨false, false, false, true, storm⟩
  else ⟨false, false, false, false, storm⟩

/-- The steps of a run, each with its time and its `deltim()`, starting from `st`.
One call of `io.F:320-415` for each call at `batch_run.c:123`. -/
def steps (rd : Rat → Rat) (endjday : Rat) : State → List (Now × Rat) → Option (List Out)
  | _, [] => some []
  | st, (n, dt) :: rest =>
    match iorun rd endjday dt n st with
    | none => none
    | some (st', o) => (steps rd endjday st' rest).map (o :: ·)

/-- A whole run: `ioinit` computes `endjday` from the end time (`io.F:250`) and sets `step1`. -/
def runIo (rd : Rat → Rat) (yrdays0 : Int) (fin : Now) (recs : List (Now × Rat)) : Option (List Out) :=
  match jt rd fin with
  | none => none
  | some e => steps rd e (State.init yrdays0) recs

end Verif.EndPer
