import Verif.Model.TspStatvar
import Mathlib.Algebra.Order.Floor.Ring
import Mathlib.Data.Rat.Floor
/-
GET_MUL_SERIES_GSFLOW_GAGE in TSPROC, which reads gage files of GSFLOW: `get_mul_series_gsflow_gage`,
tsproc-trunk/tsproc-master/src/tsp_input.F90:11-510 (lines cited are of this file).

Simplifications: reals are rational numbers, integers do not overflow.  A line of data is the list of its words, each given as the number
that it denotes or `none`; a blank line is the empty list.  Names of columns are texts in lower case.  The reading of the block, its
checks and the places of the series are left out; the block gives different names of columns (233-245).
-/
namespace Verif.TspGage
open Verif.Tsp Verif.TspStv

/-- `datcol` and `icount`. -/
structure Cols where
  datcol : Nat → Nat
  icount : Nat

/-- The header, 305-322, from column number `i` on. -/
def scanCols (sites : List (List Nat)) : List (List Nat) → Nat → Cols → Cols
  | [], _, c => c
  | h :: hs, i, c =>
    match sites.findIdx? (fun s => s = h) with
    | none => scanCols sites hs (i + 1) c
    | some j =>
      let c' : Cols := ⟨fun k => if k = j then i else c.datcol k, c.icount + 1⟩
      if c.icount + 1 < sites.length then scanCols sites hs (i + 1) c' else c'

/-- `nint` of a number that is not negative. -/
def nint (x : Rat) : Int := ⌊x + 1 / 2⌋

/-- The time of a line, 371-381; `r` is the reference date and time, `tpd` the units of time per day. -/
def rowClock (r : Clock) (tpd t : Rat) : Clock :=
  let x := t / tpd
  let ddays := ⌊x⌋
  let dsecs := nint ((x - ddays) * 86400)
  carry (ddays + r.days) (dsecs + r.secs)

/-- Word number `i` (from 1 on) as a number. -/
def word (ws : List (Option Rat)) (i : Nat) : Option Rat := (ws[i - 1]?).join

/-- First pass, 352-385: the number of lines in the period, `none` is the end with a message. -/
def countLines (r : Clock) (tpd : Rat) (tc : Nat) (b e : Clock) : List (List (Option Rat)) → Nat → Option Nat
  | [], k => some k
  | ws :: ls, k =>
    if ws = [] then countLines r tpd tc b e ls k
    else match word ws tc with
      | none => none
      | some t =>
        if later b (rowClock r tpd t) then countLines r tpd tc b e ls k
        else if later (rowClock r tpd t) e then countLines r tpd tc b e ls k
        else countLines r tpd tc b e ls (k + 1)

/-- How the reading ends: with a message, with a word that has not been looked for in the line (number 0, or behind the last one looked
for), with a write outside the series, or with series of `nterm` terms of which the first ones have been stored. -/
inductive Outcome
  | error
  | undefined
  | overflow
  | ok (nterm : Nat) (ser : Nat → List Term)

/-- Second pass, 430-470: `m` series with columns `dc`, `mx` is `maxcol`. -/
def fillLines (r : Clock) (tpd : Rat) (tc m mx : Nat) (dc : Nat → Nat) (b e : Clock) (cap : Nat) :
    List (List (Option Rat)) → Nat → (Nat → List Term) → Outcome
  | [], _, ser => .ok cap ser
  | ws :: ls, k, ser =>
    if ws = [] then fillLines r tpd tc m mx dc b e cap ls k ser
    else if ws.length < mx then .error
    else if mx < tc then .undefined
    else match word ws tc with
      | none => .error
      | some t =>
        if later b (rowClock r tpd t) then fillLines r tpd tc m mx dc b e cap ls k ser
        else if later (rowClock r tpd t) e then .ok cap ser
        else if cap ≤ k then .overflow
        else if ∃ j < m, dc j = 0 then .undefined
        else if ∃ j < m, word ws (dc j) = none then .error
        else fillLines r tpd tc m mx dc b e cap ls (k + 1)
          fun j => if j < m then ser j ++ [⟨rowClock r tpd t, (word ws (dc j)).getD 0⟩] else ser j

/-- `maxcol`, 348-351. -/
def maxCol (dc : Nat → Nat) : Nat → Nat
  | 0 => 0
  | m + 1 => if maxCol dc m < dc m then dc m else maxCol dc m

/-- The text `time`. -/
def timeName : List Nat := [116, 105, 109, 101]

/-- `get_mul_series_gsflow_gage` from the header on, 305-471; `b`, `e` are the ends of the period (222-232), `hs` the names of the columns. -/
def getGage (sites : List (List Nat)) (r : Clock) (tpd : Rat) (b e : Clock) (hs : List (List Nat)) (ls : List (List (Option Rat))) : Outcome :=
  let c := scanCols sites hs 1 ⟨fun _ => 0, 0⟩
  if c.icount < sites.length ∧ ∃ j < sites.length, c.datcol j = 0 then .error
  else match hs.findIdx? (fun h => h = timeName) with
    | none => .error
    | some t =>
      match countLines (carry r.days r.secs) tpd (t + 1) b e ls 0 with
      | none => .error
      | some 0 => .error
      | some (k + 1) =>
        fillLines (carry r.days r.secs) tpd (t + 1) sites.length (maxCol c.datcol sites.length) c.datcol b e (k + 1) ls 0 (fun _ => [])

end Verif.TspGage
