import Verif.Model.Climate
/-
Vocabulary for the climate of the units.
-/
namespace Verif.Climate

/-- Degrees Celsius of a temperature in degrees Fahrenheit. -/
def celsiusOf (f : Rat) : Rat := 5 / 9 * (f - 32)

/-- Degrees Fahrenheit of a temperature in degrees Celsius. -/
def fahrenheitOf (c : Rat) : Rat := 9 / 5 * c + 32

/-- The temperatures a unit should have in a month. -/
def UnitTemps (u : Unit') (r : Rec) (t : Temps) : Prop :=
  let dmax := u.maxLapse r.month * ((u.elev - u.staElev) / 1000) - u.maxAdj
  let dmin := u.minLapse r.month * ((u.elev - u.staElev) / 1000) - u.minAdj
  t.max = r.max - dmax ∧ t.min = r.min - dmin ∧ t.avg = r.avg - (dmax + dmin) / 2

/-- The first time step of every month is on its first day. -/
def MonthsBegin : Rec → List Rec → Prop
  | _, [] => True
  | r, x :: xs => (x.month = r.month ∨ x.day = 1) ∧ MonthsBegin x xs

/-- The mean of the last `days` (a fractional number) temperatures; `newest` lists them from the newest to the oldest. -/
def MeanOfLast (days : Rat) (newest : List Rat) (v : Rat) : Prop :=
  ∃ n : Nat, (n : Rat) < days ∧ days ≤ n + 1 ∧ ∃ last, newest[n]? = some last ∧
    v = ((newest.take n).sum + (days - n) * last) / days

/-- A single precision number: below 1/2, or a multiple of 2^-24. -/
def Single (x : Rat) : Prop := x ≤ 1 / 2 ∨ ∃ m : Int, x = m / 2 ^ 24

/-! ### Season -/

/-- The first record of each day. -/
def newDays : Int → List Day → List Day
  | _, [] => []
  | l, d :: r => if l = d.day then newDays l r else d :: newDays d.day r

/-- The first day of month `m`. -/
def FirstOf (m : Int) (d : Day) : Prop := d.day = 1 ∧ d.month = m

/-- Sum of the maximum temperatures of the days above freezing. -/
def warmth (ds : List Day) : Rat := (ds.map fun d => max 0 d.tmax).sum

/-- `ds` starts when summing starts: with the first of month `beg`, or with the simulation if it starts in the first ten days of `beg`. -/
def Opens (beg mo day : Int) (earlier ds : List Day) : Prop :=
  (∃ b later, ds = b :: later ∧ FirstOf beg b) ∨ (earlier = [] ∧ mo = beg ∧ day ≤ 10)

/-- No first of month `fin`. -/
def NoEnd (fin : Int) (ds : List Day) : Prop := ∀ d ∈ ds, ¬ FirstOf fin d

/-- Within the season at the start: after the tenth day of month `beg`, or in a later month before `fin`. -/
def StartsInside (beg fin mo day : Int) : Prop :=
  (mo = beg ∧ 10 < day) ∨ (mo ≠ beg ∧ (mo - beg) % 12 < (fin - beg) % 12)

/-- After the days `ds` plants transpire: the season had begun when the simulation started, or the warmth since the first of month
`beg` exceeds the index; and there was no first of month `fin` since. -/
def Active (beg fin : Int) (idx : Rat) (mo day : Int) (ds : List Day) : Prop :=
  (StartsInside beg fin mo day ∧ NoEnd fin ds) ∨
  ∃ earlier q, ds = earlier ++ q ∧ Opens beg mo day earlier q ∧ NoEnd fin q ∧ idx < warmth q

/-- In every year the index is exceeded before the first of month `fin`. -/
def WarmYears (beg fin : Int) (idx : Rat) (mo day : Int) (ds : List Day) : Prop :=
  ∀ earlier q e later, ds = earlier ++ q ++ e :: later → Opens beg mo day earlier q → NoEnd fin q → FirstOf fin e → idx < warmth q

end Verif.Climate
