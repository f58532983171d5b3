import Mathlib.Algebra.Order.Field.Rat
/-
Concentrations of precipitation, external sources and samples read from the chemistry file:
webmod.d/src/obs_chem.F, and their use at the start of a step, phreeq_mms.F90:6677-6732.

A text is a list of characters without the blanks that fill a Fortran variable; numbers are rationals.
-/
namespace Verif.ObsChem

/-- A line or a word (`character(len=12)`, `character(len=1000)`). -/
abbrev Text := List Char

/-- The part of a row of the species table that is used (`TYPE lut`, obs_chem.F:48-61): `Spec`, `M2mg`, `M2meq`,
`isounit` equal to `permil`. -/
structure Species where
  name : Text
  mg : Rat
  meq : Rat
  iso : Bool
deriving DecidableEq

/-- `unit_lut`, obs_chem.F:159-162. -/
def unitNames : List Text :=
  ["mg/L".toList, "meq/L".toList, "uconc1".toList, "uconc2".toList, "uconc3".toList, "mmol/L".toList, "mol/L".toList,
    "permil".toList]

/-- Blanks at the end do not count: `LENGTH`, obs_chem.F:1077-1089.  (The comparisons with `'\f'` and `'\r'` are never
true: without a compiler option these are two characters.) -/
def trim (s : Text) : Text := (s.reverse.dropWhile (· = ' ')).reverse

/-- `PARSE`, obs_chem.F:1093-1104, for a blank: up to the first blank after the first character, cut to 12 characters. -/
def word (s : Text) : Text := trim ((s.headD ' ' :: s.tail.takeWhile (· ≠ ' ')).take 12)

/-- The words of the rest of the line, obs_chem.F:957-972: after each word one character is skipped. -/
def wordsOf (s : Text) : List Text :=
  if s = [] then [] else word s :: wordsOf (s.drop ((word s).length + 1))
termination_by s.length
decreasing_by
  simp only [List.length_drop]
  have : 0 < s.length := List.length_pos_iff.2 ‹_›
  omega

/-- Words in turn are species and units.  The unit of a last species without unit is what `elem_units` happens to
hold, obs_chem.F:973-974. -/
def pairUp (garbage : Text) : List Text → List (Text × Text)
  | [] => []
  | [s] => [(s, garbage)]
  | s :: u :: r => (s, u) :: pairUp garbage r

/-- `phreeq_id`, obs_chem.F:1018-1042: position from 0 of the first row with this name; `none` for -99. -/
def speciesId (table : List Species) (s : Text) : Option Nat := table.findIdx? fun t => t.name = s

/-- `unit_id`, obs_chem.F:1046-1069: position from 0 in the list of units; `none` for -99.  (The ninth unit is also
compared, outside of the list, but the result is then overwritten.) -/
def unitId (u : Text) : Option Nat := unitNames.findIdx? fun t => t = u

/-- How a part of the module ends. -/
inductive Res (α : Type) where
  | ok (a : α)
  /-- a message, and an error returned to the caller -/
  | stop
  /-- an error of the Fortran library ends the program -/
  | abort
  /-- reading or writing outside of an array -/
  | ub
deriving DecidableEq

/-- A column: row of the species table, and number of the unit (`obs_sol_lut`). -/
structure Column where
  species : Nat
  unit : Nat
deriving DecidableEq

/-- One column is checked, obs_chem.F:564-580. -/
def checkColumn (table : List Species) (p : Text × Text) : Option Column :=
  match speciesId table p.1, unitId p.2 with
  | some s, some u =>
    match table[s]? with
    | some t => if t.meq < 1 ∧ u = 1 then none else some ⟨s, u⟩
    | none => none
  | _, _ => none

/-- One column compared with a solute, obs_chem.F:1007-1011. -/
def matchColumn (cols : List Column) (sol : Nat) (v : Option Nat) (i : Nat) : Option Nat :=
  match cols[i]? with
  | some c => if c.species = sol then some i else v
  | none => v

/-- `validobs`, obs_chem.F:998-1011: for a solute the last column of its species, from 0. -/
def columnOf (cols : List Column) (sol : Nat) : Option Nat := (List.range cols.length).foldl (matchColumn cols sol) none

/-- What the header of the file says: the columns, and for each solute its column. -/
structure Header where
  cols : List Column
  valid : List (Option Nat)
deriving DecidableEq

/-- `parsechemobs` and the checks after it, obs_chem.F:539-588, 905-1014.  `sols` are the rows of the solutes. -/
def readHeader (table : List Species) (sols : List Nat) (garbage : Text) (line : Text) : Res Header :=
  let buf := trim (line.take 1000)
  let t := word buf
  let r1 := buf.drop (t.length + 1)
  let p := word r1
  let pairs := pairUp garbage (wordsOf (r1.drop (p.length + 1)))
  if 100 < pairs.length then .ub
  else if t ≠ "tempc".toList ∨ p ≠ "pH".toList then .stop
  else
    match pairs.mapM (checkColumn table) with
    | none => .stop
    | some cols => .ok ⟨cols, sols.map (columnOf cols)⟩

/-- Parameters and dimensions: `ppt_chem`, `chem_ext`, `nchem_ext`, `nchemobs`, `convfactor` (`nconvert` is at least
3).  obs_chem.F:236-376. -/
structure Conf where
  ppt : Int
  ext : Int
  nExt : Nat
  nObs : Nat
  factor : Nat → Rat
  table : List Species
  names : List Text

/-- The lines up to and including the one marking the header are skipped, obs_chem.F:527-531: the first 23 characters
are compared. -/
def findHeader : List Text → Option (List Text)
  | [] => none
  | l :: r => if trim (l.take 23) = "** Species and Units **".toList then some r else findHeader r

/-- `obsc_init`, obs_chem.F:438-605: `ok none` if there is no file to be read.  The result has the lines of data.
`file` is `none` if there is no chemistry file.  A solute that is not in the table makes line 509 read outside of the
table. -/
def init (c : Conf) (garbage : Text) (file : Option (List Text)) : Res (Option (Header × List Text)) :=
  if c.ppt ≠ 0 ∧ c.ppt ≠ 1 then .stop
  else if c.ext ≠ 0 ∧ c.ext ≠ 1 then .stop
  else
    match c.names.mapM (speciesId c.table) with
    | none => .ub
    | some sols =>
      match file with
      | none => .ok none
      | some lines =>
        if c.ppt = 0 then .ok none
        else
          match findHeader lines with
          | none => .abort
          | some [] => .abort
          | some (l :: r) =>
            match readHeader c.table sols garbage l with
            | .ok h => if r.length < 3 then .abort else .ok (some (h, r.drop 3))
            | .stop => .stop
            | .abort => .abort
            | .ub => .ub

/-! ### Reading a step -/

/-- An item of a line of data.  (Null items, repeat counts and `/` of list-directed input are not modelled.) -/
inductive Tok where
  | int (z : Int)
  | real (q : Rat)
  | bad
deriving DecidableEq

/-- The value stored in an integer (`true`) or double precision variable, obs_chem.F:745-746. -/
def Tok.value : Bool → Tok → Option Rat
  | _, .int z => some z
  | false, .real q => some q
  | _, _ => none

/-- The items of one line. -/
inductive Scan where
  | done (vals : List Rat)
  | more (need : List Bool) (vals : List Rat)
  | bad (vals : List Rat)

/-- List-directed input from one line, obs_chem.F:745-746. -/
def scanLine : List Bool → List Rat → List Tok → Scan
  | [], vals, _ => .done vals
  | need, vals, [] => .more need vals
  | k :: need, vals, t :: ts =>
    match t.value k with
    | some q => scanLine need (vals ++ [q]) ts
    | none => .bad vals

/-- Result of a `read` statement: values assigned, and the lines not yet read. -/
inductive Got where
  | ok (vals : List Rat) (rest : List (List Tok))
  | eof (vals : List Rat)
  | bad (vals : List Rat) (rest : List (List Tok))

/-- One `read` statement, obs_chem.F:745-746: as many lines as are needed.  After an error the position is taken to be
the next line. -/
def readItems (need : List Bool) (vals : List Rat) : List (List Tok) → Got
  | [] => .eof vals
  | l :: ls =>
    match scanLine need vals l with
    | .done v => .ok v ls
    | .bad v => .bad v ls
    | .more n v => readItems n v ls

theorem readItems_lt {need vals lines v rest} (h : readItems need vals lines = .ok v rest) : rest.length < lines.length := by
  induction lines generalizing need vals with
  | nil => simp [readItems] at h
  | cons l ls ih =>
    rw [readItems] at h
    split at h
    · cases h; simp
    · cases h
    · have := ih h; simp; omega

/-- Kinds of the items of a record: date and time, then `n` numbers.  obs_chem.F:745-746. -/
def kinds (n : Nat) : List Bool := List.replicate 6 true ++ List.replicate n false

/-- Items that are not assigned keep their value. -/
def overlay (vals old : List Rat) : List Rat := vals ++ old.drop vals.length

/-- The time in the first six items equals the time of the step, obs_chem.F:750-753, 771-778. -/
def sameTime (now : List Int) (buf : List Rat) : Prop := buf.take 6 = now.map fun z : Int => (z : Rat)

instance (now : List Int) (buf : List Rat) : Decidable (sameTime now buf) := inferInstanceAs (Decidable (_ = _))

/-- The loop of the first step, obs_chem.F:748-762; `none` is an error of the Fortran library. -/
def seek (n : Nat) (now : List Int) (buf : List Rat) (lines : List (List Tok)) : Option (List Rat × List (List Tok)) :=
  if sameTime now buf then some (buf, lines)
  else
    match h : readItems (kinds n) [] lines with
    | .ok v rest => seek n now v rest
    | _ => none
termination_by lines.length
decreasing_by exact readItems_lt h

/-- Temperature, pH and concentrations of one water. -/
structure Water where
  temp : Rat
  ph : Rat
  conc : List Rat
deriving DecidableEq

/-- What a step gives to the chemistry: precipitation, external sources, samples. -/
structure Inputs where
  precip : Water
  ext : List Water
  obs : List Water
deriving DecidableEq

/-- State kept between steps: lines not yet read, the array `chemdat` (row after row), `step1`. -/
structure St where
  lines : List (List Tok)
  dat : List Rat
  first : Bool
deriving DecidableEq

/-- Conversion to moles per litre, obs_chem.F:814-833; units counted from 0. -/
def convert (c : Conf) (col : Column) (x : Rat) : Rat :=
  if 0 ≤ x then
    if col.unit = 0 then x / ((c.table[col.species]?).elim 0 (·.mg))
    else if col.unit = 1 then x / ((c.table[col.species]?).elim 0 (·.meq))
    else if col.unit ≤ 4 then x / c.factor (col.unit - 2)
    else if col.unit = 5 then x / 1000
    else x
  else x

/-- The concentrations of one row, obs_chem.F:806-842; 0 for a solute without column. -/
def concs (c : Conf) (h : Header) (row : List Rat) : List Rat :=
  h.valid.map fun v => match v with
    | some i => match h.cols[i]? with
      | some col => convert c col (row.getD (i + 2) 0)
      | none => 0
    | none => 0

/-- Row `r` (from 0) of `chemdat`, with `w` numbers. -/
def rowOf (w : Nat) (dat : List Rat) (r : Nat) : List Rat := (dat.drop (r * w)).take w

/-- `nchemdep_obs`, obs_chem.F:454. -/
def nDep (c : Conf) : Nat := if c.ext = 1 then c.nExt + 1 else 1

/-- `nchemdat_obs`, obs_chem.F:455 (`ppt_chem` is 1 if a file is read). -/
def nRows (c : Conf) : Nat := nDep c + c.nObs

/-- The waters of a record, obs_chem.F:713-742, 782-844.  `none`: a row outside of `chemdat` is read. -/
def assign (c : Conf) (h : Header) (dat : List Rat) : Option Inputs :=
  let w := h.cols.length + 2
  let row := rowOf w dat
  if nRows c < c.nExt + 1 then none
  else some
    { precip := ⟨(row 0).getD 0 0, (row 0).getD 1 0, concs c h (row 0)⟩
      ext := (List.range c.nExt).map fun i => ⟨(row (i + 1)).getD 0 0, (row (i + 1)).getD 1 0,
        if c.ext = 1 then concs c h (row (i + 1)) else h.valid.map fun _ => 0⟩
      obs := (List.range c.nObs).map fun j => ⟨(row (nDep c + j)).getD 0 0, (row (nDep c + j)).getD 1 0,
        concs c h (row (nDep c + j))⟩ }

/-- The number of values in a record, obs_chem.F:556, 746. -/
def width (c : Conf) (h : Header) : Nat := nRows c * (h.cols.length + 2)

/-- The first `read` of a step, obs_chem.F:745-746: `iostat`, the contents of the variables, the lines not yet read. -/
def readInto (n : Nat) (old : List Rat) (lines : List (List Tok)) : Int × List Rat × List (List Tok) :=
  match readItems (kinds n) [] lines with
  | .ok v rest => (0, overlay v old, rest)
  | .eof v => (-1, overlay v old, [])
  | .bad v rest => (1, overlay v old, rest)

/-- The rest of a step, obs_chem.F:766-861. -/
def finish (c : Conf) (h : Header) (now : List Int) (io : Int) : Option (List Rat × List (List Tok)) → Res (Inputs × St)
  | none => .abort
  | some (buf, rest) =>
    if ¬ sameTime now buf then .stop
    else
      match assign c h (buf.drop 6) with
      | none => .ub
      | some inp => if io < 0 then .stop else .ok (inp, ⟨rest, buf.drop 6, false⟩)

/-- `obsc_run` with a chemistry file, obs_chem.F:694-861.  `g` is what the local variable `obsc_datetime` holds. -/
def step (c : Conf) (h : Header) (s : St) (g : List Rat) (now : List Int) : Res (Inputs × St) :=
  let r := readInto (width c h) (g.take 6 ++ s.dat) s.lines
  finish c h now r.1 (if s.first then seek (width c h) now r.2.1 r.2.2 else some (r.2.1, r.2.2))

/-- The steps of a run up to the first that fails. -/
def runSteps (c : Conf) (h : Header) : St → List (List Rat × List Int) → Res (List Inputs)
  | _, [] => .ok []
  | s, (g, now) :: r =>
    match step c h s g now with
    | .ok (inp, s') =>
      match runSteps c h s' r with
      | .ok l => .ok (inp :: l)
      | .stop => .stop
      | .abort => .abort
      | .ub => .ub
    | .stop => .stop
    | .abort => .abort
    | .ub => .ub

/-! ### Use of the inputs -/

/-- Where the numbers come from: precipitation, external source or sample (from 1). -/
inductive Source where
  | precip
  | ext (i : Nat)
  | obs (j : Nat)
deriving DecidableEq

/-- A solution is created with phreeqc, or the sample is recorded; with the number of the solution (`ibindx`). -/
inductive Use where
  | create (number : Nat) (s : Source)
  | record (number : Nat) (s : Source)
deriving DecidableEq

/-- One pass of the loop, phreeq_mms.F90:6683-6731, with `ib` from 1. -/
def useOne (c : Conf) (ib : Nat) : Use :=
  let ibindx := if 1 < ib ∧ c.ext = 0 then ib + c.nExt else ib
  let s := if ib = 1 then Source.precip
    else if ib - 1 ≤ (if c.ext = 1 then c.nExt else 0) then .ext (ib - 1)
    else .obs (ibindx - (1 + c.nExt))
  if ib ≤ 1 + c.nExt then .create ibindx s else .record ibindx s

/-- The loop over all rows of the file, phreeq_mms.F90:6679-6732 (`ppt_chem` is 1 if a file is read). -/
def uses (c : Conf) : List Use := (List.range (nRows c)).map fun k => useOne c (k + 1)

end Verif.ObsChem
