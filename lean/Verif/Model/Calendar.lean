/-
Model of the calendar arithmetic of the MMF framework:
`mmf_c/src/julday.c`, `mmf_c/src/julconvert.c`, `mmf_c/src/timing.c`.

Simplification (all definitions here): C `int`/`long` are unbounded integers.  The `double`
products in the C code are replaced by the exact rational values they approximate:
`floor(365.25*jy)` is exact in binary64; `30.6001*jm` is at least 0.0001 away from an
integer for every month value; the binary64 value of `0.01` is slightly above 1/100, so
truncation of `0.01*jy` never falls below the exact quotient.
-/
namespace Verif.Calendar

/-- The date fields of the C struct `DATETIME` (`mmf_c/src/structs.h:60-63`).
The time-of-day fields are modelled in `Verif.Model.TimeLoop`. -/
structure Date where
  year : Int
  month : Int
  day : Int
deriving DecidableEq, Repr

/-- `#define IGREG (15+31L*(10+12L*1582))`, `mmf_c/src/julday.c:15`. -/
def IGREG : Int := 15 + 31 * (10 + 12 * 1582)

/-- `julday`, `mmf_c/src/julday.c:26-64`, the value stored in `datetime->jd`.
`none` models the `return(1)` for year zero at lines 40-43, which leaves `jd` untouched. -/
def julday (d : Date) : Option Int :=
  if d.year = 0 then none
  else
    let iyyy := if d.year < 0 then d.year + 1 else d.year      -- line 45
    let jy := if d.month > 2 then iyyy else iyyy - 1           -- lines 46-52
    let jm := if d.month > 2 then d.month + 1 else d.month + 13
    let jul := (1461 * jy) / 4 + (306001 * jm) / 10000 + d.day + 1720995   -- line 53
    if d.day + 31 * (d.month + 12 * iyyy) ≥ IGREG then         -- line 54
      let ja := Int.tdiv jy 100                                -- line 55
      some (jul + (2 - ja + Int.tdiv ja 4))                    -- line 56
    else some jul

/-- `isleap`, `mmf_c/src/julconvert.c:101-130`; the `modf(...) != 0` tests are divisibility tests. -/
def isleap (year : Int) : Int :=
  if year % 4 ≠ 0 then 0
  else if year % 4 = 0 ∧ year % 100 ≠ 0 then 1
  else if year % 400 ≠ 0 then 0
  else 1

/-- `dayofweek`, `mmf_c/src/julconvert.c:78-81`, for the integral (midnight) argument `jd`
used by callers that pass `julday`'s `jd`.  `(int)(jd + 0.5 + 1)` truncates `jd + 1.5`,
which is `jd + 1` for non-negative `jd`. -/
def dayofweek (jd : Int) : Int := Int.tmod (jd + 1) 7

/-- The `type` argument of `julian`, `mmf_c/src/timing.c:244-277` (illegal strings `exit(1)`
and are not modelled). -/
inductive YearKind
  | calendar | solar | spring | water
deriving DecidableEq, Repr

/-- The reference date chosen by `julian`, `mmf_c/src/timing.c:244-269`. -/
def refDate (k : YearKind) (t : Date) : Date :=
  match k with
  | .calendar => ⟨t.year - 1, 12, 31⟩
  | .solar => ⟨if t.month = 12 ∧ t.day > 21 then t.year else t.year - 1, 12, 21⟩
  | .spring =>
      ⟨if t.month > 3 ∨ (t.month = 3 ∧ t.day > 20) then t.year else t.year - 1, 3, 20⟩
  | .water => ⟨if t.month > 9 then t.year else t.year - 1, 9, 30⟩

/-- `julian`, `mmf_c/src/timing.c:220-292`, for the relative types.  `none` models the case where
one of the two `julday` calls rejects year zero, so that an uninitialised `jd` would be used. -/
def julian (k : YearKind) (t : Date) : Option Int := do
  let a ← julday t
  let b ← julday (refDate k t)
  pure (a - b)

/-- `julian (when, "absolute")`, `mmf_c/src/timing.c:270-272`. -/
def julianAbsolute (t : Date) : Option Int := julday t

end Verif.Calendar
