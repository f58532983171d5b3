import Verif.Model.TspGage
import Verif.Spec.TspStat
/-
Vocabulary for C147: what a gage file says about a column.
-/
namespace Verif.TspGage
open Verif.Tsp

/-- The time of a line, to the nearest second, since day 0: `t` units after the reference time, `tpd` of them are a day. -/
def timeOf (r : Clock) (tpd t : Rat) : Int := r.time + ⌊t / tpd * 86400 + 1 / 2⌋

/-- The time of a line in whose column `tc` (from 0 on) the time is. -/
def lineTime (r : Clock) (tpd : Rat) (tc : Nat) (ws : List Rat) : Int := timeOf r tpd (ws.getD tc 0)

/-- The term in column `k` (from 0 on) of a line: day, second of the day, value. -/
def term (r : Clock) (tpd : Rat) (tc k : Nat) (ws : List Rat) : Term :=
  ⟨⟨lineTime r tpd tc ws / 86400, lineTime r tpd tc ws % 86400⟩, ws.getD k 0⟩

/-- The lines in the period, both ends included, without blank lines. -/
def period (r : Clock) (tpd : Rat) (tc : Nat) (b e : Clock) (ls : List (List Rat)) : List (List Rat) :=
  ls.filter fun ws => ws ≠ [] ∧ b.time ≤ lineTime r tpd tc ws ∧ lineTime r tpd tc ws ≤ e.time

/-- The lines up to the first one after the end of the period. -/
def upTo (r : Clock) (tpd : Rat) (tc : Nat) (e : Clock) (ls : List (List Rat)) : List (List Rat) :=
  ls.takeWhile fun ws => ws = [] ∨ lineTime r tpd tc ws ≤ e.time

end Verif.TspGage
