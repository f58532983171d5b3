import Verif.Model.EndPer
import Verif.Spec.Calendar
/-
Specification for C20: end-of-period flags in terms of the civil calendar and the time of day.
-/
namespace Verif.EndPer
open Verif.Calendar

/-- What is needed of double precision arithmetic: small integers are exact, and values up to 2²⁴ are
rounded by at most 2⁻³⁰ (half a unit in the last place). -/
structure Double (rd : Rat → Rat) : Prop where
  int : ∀ n : Int, -16777216 ≤ n → n ≤ 16777216 → rd n = n
  err : ∀ x : Rat, -16777216 ≤ x → x ≤ 16777216 →
    x - 1 / 1073741824 ≤ rd x ∧ rd x ≤ x + 1 / 1073741824

/-- A time of day on an existing date, years 1584 to 9999 (the water year ending in 1583 has ten days less). -/
structure Now.Ok (n : Now) : Prop where
  date : Valid n.date
  year : 1584 ≤ n.date.year ∧ n.date.year ≤ 9999
  hour : 0 ≤ n.hour ∧ n.hour ≤ 23
  min : 0 ≤ n.min ∧ n.min ≤ 59
  sec : 0 ≤ n.sec ∧ n.sec ≤ 59

/-- Seconds since midnight. -/
def Now.secs (n : Now) : Int := 3600 * n.hour + 60 * n.min + n.sec

/-- `a` is not later than `b`. -/
def NotAfter (a b : Now) : Prop := Before a.date b.date ∨ (a.date = b.date ∧ a.secs ≤ b.secs)

/-- The records of a run visit every day: each is on the day of the previous one or the day after. -/
def Daily : List (Now × Rat) → Prop
  | [] => True
  | [_] => True
  | a :: b :: rest => (b.1.date = a.1.date ∨ b.1.date = next a.1.date) ∧ Daily (b :: rest)

/-- The flags of one step of a run that ends at `fin`, in terms of the calendar; `dy` tells whether
this is the last step of its day. -/
def Right (fin : Now) (dy : Prop) (n : Now) (f : Flags) : Prop :=
  (f.run = true ↔ NotAfter fin n) ∧
  (f.storm = true ↔ NotAfter fin n) ∧
  (f.dy = true ↔ NotAfter fin n ∨ dy) ∧
  (f.mo = true ↔ NotAfter fin n ∨ (dy ∧ n.date.day = monthLength n.date.year n.date.month)) ∧
  (f.yr = true ↔ NotAfter fin n ∨ (dy ∧ n.date.month = 9 ∧ n.date.day = 30))

/-- `timestep` hours are `s` seconds, up to a hundredth of a second. -/
def Step (timestep : Rat) (s : Int) : Prop :=
  (s : Rat) - 1 / 100 ≤ timestep * 3600 ∧ timestep * 3600 ≤ s + 1 / 100

/-- One more step of `s` seconds leads into another day. -/
def LastOfDay (s : Int) (n : Now) : Prop := 86400 ≤ n.secs + s

end Verif.EndPer
