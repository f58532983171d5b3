import Verif.Model.TspStatvar
import Verif.Spec.TspStat
/-
Vocabulary for C144: what a statvar file says about a variable.
-/
namespace Verif.TspStv
open Verif.Tsp Verif.TspSsf

/-- Hours, minutes and seconds of a row are not negative. -/
def Row.Fair (r : Row) : Prop := 0 ≤ r.hh ∧ 0 ≤ r.nn ∧ 0 ≤ r.ss

/-- The seconds since day 0. -/
def Row.time (r : Row) : Int := julianDay r.date 0 * 86400 + r.hh * 3600 + r.nn * 60 + r.ss

/-- The term in column `k` (from 0 on) of a row: day, second of the day, value. -/
def Row.term (k : Nat) (r : Row) : Term := ⟨⟨r.time / 86400, r.time % 86400⟩, r.vals.getD k 0⟩

/-- The rows of a file can be read with `n` values each. -/
def Readable (n : Nat) (rows : List (Option Row)) (rs : List Row) : Prop :=
  rows = rs.map some ∧ ∀ r ∈ rs, n ≤ r.vals.length ∧ r.Fair

/-- Line `k` of the header (from 0 on) is the last one with the variable and the location. -/
def LastCol (q : List Nat × Int) (hs : List Head) (k : Nat) : Prop :=
  (∃ h, hs[k]? = some h ∧ h.loc = some q.2 ∧ varHead h.varname = q.1) ∧
  ∀ i h, k < i → hs[i]? = some h → ¬ (h.loc = some q.2 ∧ varHead h.varname = q.1)

/-- The variable and the location are in the header. -/
def InHead (q : List Nat × Int) (hs : List Head) : Prop := ∃ h ∈ hs, h.loc = some q.2 ∧ varHead h.varname = q.1

/-- The rows in the period, both ends included. -/
def period (b e : Clock) (rs : List Row) : List Row := rs.filter fun r => b.time ≤ r.time ∧ r.time ≤ e.time

/-- The rows up to the first one after the end of the period. -/
def upTo (e : Clock) (rs : List Row) : List Row := rs.takeWhile fun r => r.time ≤ e.time

/-- The number of lines of the header with something asked for. -/
def matched (req : List (List Nat × Int)) (hs : List Head) : Nat :=
  (hs.filter fun h => ∃ q ∈ req, h.loc = some q.2 ∧ varHead h.varname = q.1).length

/-- The keywords of complete series. -/
def written (as : List Ask) : List Key := as.flatMap fun a => [.variable a.site, .location a.locid, .newName a.aname]

end Verif.TspStv
