import Verif.Model.TspSample
/-
GET_MUL_SERIES_STATVAR in TSPROC, which reads the statvar files that the model writes: tsproc-trunk/tsproc-master/src, files tsp_input.F90 (I)
and tsp_utilities.F90 (U).

Simplifications: names are the texts that `getfile` finds (without blanks at the end), reals are rational numbers, integers do not overflow.
A row is given as its date, time and values; one that cannot be read is `none`.  A row with too few values, where the program reads on in
the next line, counts as one that cannot be read.  The header has exactly as many lines as its first line says.  Of the block, the keywords
FILE, CONTEXT, DATE_1, TIME_1, DATE_2 and TIME_2 are left out, and so are the places of the series (`kseries`).
-/
namespace Verif.TspStv
open Verif.Tsp Verif.TspSsf

/-- Keywords of the block that make series, I:604-687. -/
inductive Key
  | variable (s : List Nat)
  | location (n : Int)
  | newName (s : List Nat)
  | other
deriving DecidableEq

/-- What the block asks for: variable, location, name of the series. -/
structure Ask where
  site : List Nat
  locid : Int
  aname : List Nat
deriving DecidableEq

/-- `isite`, `ilocid`, `iseriesname`; the series that are complete, and the one that is not. -/
structure Block where
  isite : Bool
  ilocid : Bool
  iname : Bool
  done : List Ask
  cur : Ask

/-- A variable of the block as it is compared, I:537 and I:639: 50 characters in lower case. -/
def varWant (s : List Nat) : List Nat := (s.take 50).map lower

/-- A variable of the header as it is compared, I:532 and I:808: 100 characters in lower case. -/
def varHead (s : List Nat) : List Nat := (s.take 100).map lower

/-- One keyword, I:604-687; `max` is MAXSERIESREAD.  `none` is the end with a message. -/
def blockStep (max : Nat) (s : Block) : Key → Option Block
  | .variable w =>
    if s.isite = false then none
    else if s.done.length + 1 > max then none
    else some { s with cur := ⟨varWant w, 0, []⟩, isite := false, ilocid := true }
  | .location n =>
    if s.ilocid = false then none
    else some { s with cur := { s.cur with locid := n }, iname := true, ilocid := false }
  | .newName w =>
    if s.iname = false then none
    else if w ∈ s.done.map Ask.aname then none
    else some { s with done := s.done ++ [{ s.cur with aname := w }], iname := false, isite := true }
  | .other => some s

/-- The keywords one after the other. -/
def blockRun (max : Nat) (s : Block) : List Key → Option Block
  | [] => some s
  | k :: ks =>
    match blockStep max s k with
    | none => none
    | some s' => blockRun max s' ks

/-- The block up to END and the checks behind it, I:553-563, I:697-709, I:734-739 and I:751-763. -/
def readBlock (max : Nat) (ks : List Key) : Option (List Ask) :=
  match blockRun max ⟨true, false, false, [], ⟨[], 0, []⟩⟩ ks with
  | none => none
  | some s =>
    if s.iname then none
    else if s.ilocid then none
    else if s.done = [] then none
    else if ¬ (s.done.map fun a => (a.site, a.locid)).Nodup then none
    else some s.done

/-- Seconds of 86400 and more become days, the loop at I:865-870 and I:931-936. -/
def carry (d s : Int) : Clock :=
  if 86400 ≤ s then carry (d + 1) (s - 86400) else ⟨d, s⟩
termination_by s.toNat
decreasing_by omega

/-- The ends of the period, I:743-750. -/
def settle (c : Clock) : Clock := if 86400 ≤ c.secs then ⟨c.days + 1, c.secs - 86400⟩ else c

/-- A line of the header: the variable and the location, `none` if it is no number (I:818-829). -/
structure Head where
  varname : List Nat
  loc : Option Int

/-- A row, I:860. -/
structure Row where
  date : Day
  hh : Int
  nn : Int
  ss : Int
  vals : List Rat

/-- The time of a row, I:862-870. -/
def rowClock (r : Row) : Clock := carry (julianDay r.date 0) (numsecs 0 0 0 r.hh r.nn r.ss)

/-- Columns and the number of matches. -/
structure Cols where
  datcol : Nat → Nat
  icount : Nat

/-- The header, I:796-842, from line number `i` on. -/
def scanHead (req : List (List Nat × Int)) : List Head → Nat → Cols → Option Cols
  | [], _, c => some c
  | h :: hs, i, c =>
    match h.loc with
    | none => none
    | some l =>
      scanHead req hs (i + 1)
        ⟨fun j => if req[j]? = some (varHead h.varname, l) then i else c.datcol j, c.icount + req.count (varHead h.varname, l)⟩

/-- First pass, I:857-874: the number of rows in the period, `none` if a row cannot be read.  (I:876-880 is the case without rows.) -/
def countRows (n : Nat) (b e : Clock) : List (Option Row) → Nat → Option Nat
  | [], k => some k
  | none :: _, _ => none
  | some r :: rs, k =>
    if r.vals.length < n then none
    else if later b (rowClock r) then countRows n b e rs k
    else if later (rowClock r) e then countRows n b e rs k
    else countRows n b e rs (k + 1)

/-- How the reading ends: with a message, with `rval(0)` read, with a write outside the series, or with series of `nterm` terms of
which the first ones have been stored. -/
inductive Outcome
  | error
  | undefined
  | overflow
  | ok (nterm : Nat) (ser : Nat → List Term)

/-- Second pass, I:925-948, into series of `cap` terms. -/
def fillRows (n m : Nat) (dc : Nat → Nat) (b e : Clock) (cap : Nat) : List (Option Row) → Nat → (Nat → List Term) → Outcome
  | [], _, ser => .ok cap ser
  | none :: _, _, _ => .error
  | some r :: rs, k, ser =>
    if r.vals.length < n then .error
    else if later b (rowClock r) then fillRows n m dc b e cap rs k ser
    else if later (rowClock r) e then .ok cap ser
    else if cap ≤ k then .overflow
    else if ∃ j < m, dc j = 0 then .undefined
    else fillRows n m dc b e cap rs (k + 1) fun j => if j < m then ser j ++ [⟨rowClock r, r.vals.getD (dc j - 1) 0⟩] else ser j

/-- `get_mul_series_statvar` from the opening of the file on, I:779-948; `b`, `e` are the ends that `date_check` gives. -/
def getStatvar (req : List (List Nat × Int)) (b e : Clock) (hs : List Head) (rows : List (Option Row)) : Outcome :=
  if hs = [] then .error
  else match scanHead req hs 1 ⟨fun _ => 0, 0⟩ with
    | none => .error
    | some c =>
      if c.icount < req.length ∧ ∃ j < req.length, c.datcol j = 0 then .error
      else match countRows hs.length (settle b) (settle e) rows 0 with
        | none => .error
        | some 0 => .error
        | some k => fillRows hs.length req.length c.datcol (settle b) (settle e) k rows 0 (fun _ => [])

end Verif.TspStv
