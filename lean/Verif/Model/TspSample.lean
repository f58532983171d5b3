import Verif.Model.TspText
import Verif.Model.TspStat
/-
Site sample files in TSPROC, GET_SERIES_SSF and GET_MUL_SERIES_SSF: tsproc-trunk/tsproc-master/src, files tsp_input.F90 (I),
tsp_utilities.F90 (U) and tsp_command_processors.F90 (C).

Simplifications: a line is given as its words; reals are rational numbers, and a number that cannot be read is `none`.  A line of separators
only is left out.  Reading of the block, names of the series and their places are left out.  The period is the one that `date_check`
has computed.  The lines I:1849-1852 and I:1934-1937 for 86400 seconds are left out: there are no such times, see `C142_time_real`.
-/
namespace Verif.TspSsf
open Verif.Tsp Verif.TspText

/-- A line of four words or more: site, date, time, value and the rest of the line. -/
structure Row where
  site : List Nat
  date : List Nat
  time : List Nat
  val : Option Rat
  rest : List Nat
deriving DecidableEq

/-- Lines: blank, of less than four words (with the first), or of four words or more. -/
inductive SLine
  | blank
  | short (site : List Nat)
  | row (r : Row)
deriving DecidableEq

/-- `casetrans` to lower case, U:396-428. -/
def lower (c : Nat) : Nat := if 65 ≤ c ∧ c ≤ 90 then c + 32 else c

/-- The site of a line as it is compared, I:1812-1813 and I:2692-2695: 18 characters (`iTSNAMELENGTH`) in lower case. -/
def name (s : List Nat) : List Nat := (s.take 18).map lower

/-- The mark of rows that do not count, I:1827-1834, I:1921-1928 and I:2743-2750: `x` is the first character after the value that is no blank. -/
def marked (r : Row) : Bool := (r.rest.dropWhile (· == 32)).head? == some 120

/-- `read_rest_of_sample_line` with four columns, U:1385-1423. -/
def rowTerm (spec : Nat) (r : Row) : Option Term :=
  match sampleInstant spec r.date r.time with
  | none => none
  | some (n, s) =>
    match r.val with
    | none => none
    | some v => if v < -(10 ^ 37) then none else some ⟨⟨n, s⟩, v⟩

/-- How the reading of one series ends: with a message, with a write outside the temporary series, or with the terms. -/
inductive Outcome
  | error
  | overflow
  | series (s : List Term)
deriving DecidableEq

/-- `get_ssf_series`, first pass, I:2684-2703: the lines of the site up to the first line of another one. -/
def firstGroup (site : List Nat) : List SLine → Nat → Nat
  | [], n => n
  | .blank :: ls, n => firstGroup site ls n
  | .short w :: ls, n => if name w = site then firstGroup site ls (n + 1) else if 0 < n then n else firstGroup site ls n
  | .row r :: ls, n => if name r.site = site then firstGroup site ls (n + 1) else if 0 < n then n else firstGroup site ls n

/-- `get_ssf_series`, second pass, I:2726-2769, into a temporary series of `cap` terms. -/
def readOne (spec : Nat) (site : List Nat) (b e : Clock) (cap : Nat) : List SLine → List Term → Outcome
  | [], acc => .series acc
  | .blank :: ls, acc => readOne spec site b e cap ls acc
  | .short _ :: _, _ => .error
  | .row r :: ls, acc =>
    if name r.site ≠ site then readOne spec site b e cap ls acc
    else if marked r then readOne spec site b e cap ls acc
    else match rowTerm spec r with
      | none => .error
      | some t =>
        if acc = [] ∧ later b t.at_ then readOne spec site b e cap ls acc
        else if later t.at_ e then .series acc
        else if acc.length < cap then readOne spec site b e cap ls (acc ++ [t])
        else .overflow

/-- `get_ssf_series`, I:2684-2776; the temporary series gets exactly as many terms as the first pass has counted (`alloc_tempseries`, C:749-776). -/
def getOne (spec : Nat) (site : List Nat) (b e : Clock) (ls : List SLine) : Outcome :=
  let n := firstGroup site ls 0
  if n = 0 then .error
  else if readOne spec site b e n ls [] = .series [] then .error
  else readOne spec site b e n ls []

/-- `lastsite` and, if `iactive` is 1, the number of the series. -/
structure Scan where
  last : List Nat
  active : Option Nat

/-- The number of a site in the block, I:1816-1822. -/
def place (sites : List (List Nat)) (s : List Nat) : Option Nat := if s ∈ sites then some (sites.idxOf s) else none

/-- One line in `get_mul_series_ssf`, I:1801-1862 and I:1901-1946: what becomes of the scan, and the term that is taken for a series.
`started` says whether the series has terms already.  `none` is the end with a message. -/
def scanLine (spec : Nat) (sites : List (List Nat)) (b e : Clock) (started : Nat → Bool) (s : Scan) : SLine → Option (Scan × Option (Nat × Term))
  | .blank => some (s, none)
  | .short _ => none
  | .row r =>
    let s' : Scan := if name r.site ≠ s.last then ⟨name r.site, place sites (name r.site)⟩ else s
    match s'.active with
    | none => some (s', none)
    | some j =>
      if marked r then some (s', none)
      else match rowTerm spec r with
        | none => none
        | some t =>
          if started j = false ∧ later b t.at_ then some (s', none)
          else if later t.at_ e then some (⟨s'.last, none⟩, none)
          else some (s', some (j, t))

/-- First pass, I:1791-1863: the numbers of terms. -/
def countMany (spec : Nat) (sites : List (List Nat)) (b e : Clock) : List SLine → Scan → (Nat → Nat) → Option (Nat → Nat)
  | [], _, n => some n
  | l :: ls, s, n =>
    match scanLine spec sites b e (fun j => n j != 0) s l with
    | none => none
    | some (s', none) => countMany spec sites b e ls s' n
    | some (s', some (j, _)) => countMany spec sites b e ls s' fun i => if i = j then n i + 1 else n i

/-- Series as they are filled, a write outside of one, or the end with a message. -/
inductive Filled
  | error
  | overflow
  | ok (ser : Nat → List Term)

/-- Second pass, I:1889-1947, into series of `cap j` terms.  (A bad line has ended the first pass already.) -/
def fillMany (spec : Nat) (sites : List (List Nat)) (b e : Clock) (cap : Nat → Nat) : List SLine → Scan → (Nat → List Term) → Filled
  | [], _, ser => .ok ser
  | l :: ls, s, ser =>
    match scanLine spec sites b e (fun j => (ser j).length != 0) s l with
    | none => .error
    | some (s', none) => fillMany spec sites b e cap ls s' ser
    | some (s', some (j, t)) =>
      if (ser j).length < cap j then fillMany spec sites b e cap ls s' fun i => if i = j then ser i ++ [t] else ser i
      else .overflow

/-- `get_mul_series_ssf`, I:1762-1947: sites that occur twice (I:1771-1783) and sites without terms (I:1870-1878) are errors. -/
def getMany (spec : Nat) (sites : List (List Nat)) (b e : Clock) (ls : List SLine) : Filled :=
  if ¬ sites.Nodup then .error
  else match countMany spec sites b e ls ⟨[], none⟩ (fun _ => 0) with
    | none => .error
    | some n => if ∃ j < sites.length, n j = 0 then .error else fillMany spec sites b e n ls ⟨[], none⟩ (fun _ => [])

end Verif.TspSsf
