import Verif.Model.CFile
import Verif.Model.Calendar
import Verif.Model.ParFile
import Verif.Model.TimeLoop
/-
Data files: the header (mmf_c/src/read_datainfo.c), the first record (`DATA_read_init`, read_line.c:396-460), the
time of a line (`EXTRACT_time`, read_line.c:666-775), the values of a line (read_line.c:299-330, `CHECK_data` 784-792)
and their transfer to the modules (mmf_c/src/readvar.c).

Simplifications: `strtod` knows decimal numbers only (no `inf`, `nan`, hexadecimal); the conversion of the exact value to
`float`, `double` or `long` and the range check of `strtod` are parameters (`Conv`); `long` has the width of the integers in
storage; `umalloc` never fails; variables are found by their key (`var_addr`, C05).
-/
namespace Verif.DataLine
open Verif.CText Verif.CFile
open Verif.ParFile (Ty)
open Verif.Calendar (Date)

/-- defs.h:99. -/
def MAXDATALNLEN : Nat := 2048

/-- defs.h:117. -/
def MAXINFOLEN : Nat := 80

/-! ### `strtod` -/

/-- Powers of ten.  C library; used by `strtod`, read_line.c:315-320. -/
def pow10 : Int → Rat
  | .ofNat n => 10 ^ n
  | .negSucc n => 1 / 10 ^ (n + 1)

/-- The fraction of a decimal number: mantissa so far, number of digits of the fraction, rest.
C library; used by `strtod`, read_line.c:315-320. -/
def fracPart (acc : Nat) (u : List Char) : Nat × Nat × List Char :=
  match u with
  | [] => (acc, 0, [])
  | c :: v =>
    if c = '.' then ((readDigits acc v).1, v.length - (readDigits acc v).2.length, (readDigits acc v).2)
    else (acc, 0, c :: v)

/-- The exponent of a decimal number, if there is a complete one.  C library; used by `strtod`, read_line.c:315-320. -/
def expPart (u : List Char) : Int × List Char :=
  match u with
  | [] => (0, [])
  | c :: v =>
    if c = 'e' ∨ c = 'E' then
      match (readSign v).2 with
      | [] => (0, c :: v)
      | d :: w =>
        if isDigit d then
          (if (readSign v).1 then - ((readDigits 0 (d :: w)).1 : Int) else (readDigits 0 (d :: w)).1, (readDigits 0 (d :: w)).2)
        else (0, c :: v)
    else (0, c :: v)

/-- The part of `strtod` after white space and sign; `s` is the original text.
C library; read_line.c:315-320. -/
def strtodBody (s : List Char) (neg : Bool) (u : List Char) : Rat × List Char :=
  let a := readDigits 0 u
  let f := fracPart a.1 a.2
  if u.length - a.2.length + f.2.1 = 0 then (0, s)
  else
    let e := expPart f.2.2
    let v := (f.1 : Rat) * pow10 (e.1 - f.2.1)
    (if neg then -v else v, e.2)

/-- `strtod (s, &end)`: value and the text at `end`; no number: 0 and `end = s`.  Call sites: read_line.c:315-327, 750. -/
def strtod (s : List Char) : Rat × List Char :=
  strtodBody s (readSign (s.dropWhile isSpace)).1 (readSign (s.dropWhile isSpace)).2

/-! ### The time of a line -/

/-- The fields of DATETIME (structs.h:60-63) found on a line. -/
structure Stamp where
  year : Int
  month : Int
  day : Int
  hour : Int
  min : Int
  sec : Int
deriving Repr, DecidableEq

/-- Truncation of a `double` to `int`.  read_line.c:750.  (Out of range it is undefined in C; the usual machines give the
least integer, which is rejected as well as the negative number here.) -/
def truncInt (x : Rat) : Int := if x < 2147483648 then Int.tdiv x.num x.den else -2147483648

/-- `EXTRACT_time`, read_line.c:666-775: the fields and the text `start_of_data`; `none`: an error message.
(The year is checked before the range error of `strtol`, and a saturated value fails every range check.) -/
def extractTime (line : List Char) : Option (Stamp × List Char) :=
  let y := strtol line
  if y.1 < 1800 ∨ 2100 < y.1 then none
  else
    let m := strtol y.2
    if m.1 < 1 ∨ 12 < m.1 then none
    else
      let d := strtol m.2
      if d.1 < 1 ∨ 31 < d.1 then none
      else
        let h := strtol d.2
        if h.1 < 0 ∨ 24 < h.1 then none
        else
          let mi := strtol h.2
          if mi.1 < 0 ∨ 59 < mi.1 then none
          else
            let s := strtod mi.2
            if truncInt s.1 < 0 ∨ 59 < mi.1 then none
            else some (⟨y.1, m.1, d.1, h.1, mi.1, truncInt s.1⟩, s.2)

/-- `julday`, julday.c:26-64: day number and time (`none`: year 0). -/
def julTime (t : Stamp) : Option TimeLoop.Time :=
  match Calendar.julday ⟨t.year, t.month, t.day⟩ with
  | none => none
  | some jd => some ⟨jd, jd + (t.hour : Rat) / 24 + (t.min : Rat) / 1440 + (t.sec : Rat) / 86400⟩

/-- A line read by `fgets` as the time loop sees it.  read_line.c:334-348 (and 371-381), EXTRACT_time 666-775; the data are
the text from `start_of_data` on. -/
def itemOf (line : List Char) : TimeLoop.Item (List Char) :=
  if line.head? = some '\n' then .blank
  else
    match extractTime line with
    | none => .bad
    | some (t, rest) =>
      match julTime t with
      | none => .bad
      | some time => .record time rest

/-- The lines `fgets` delivers until the end of the file (first argument: a bound, the length of the text).
read_line.c:334, 371, 616, 634. -/
def lines : Nat → Stream → List (List Char)
  | 0, _ => []
  | n + 1, st =>
    match fgets MAXDATALNLEN st with
    | none => []
    | some (l, st') => l :: lines n st'

/-! ### Header and first record -/

/-- The end of the header, `strncmp (line, "####", 4)`.  read_datainfo.c:109, read_line.c:439. -/
def isEnd (l : List Char) : Bool := l.take 4 = ['#', '#', '#', '#']

/-- Entry of Mcheckbase (READCHECK, structs.h:90-97): variable, type and number of columns. -/
structure Col where
  key : List Char
  type : Ty
  count : Nat
deriving Repr, DecidableEq

/-- The fields of PUBVAR (structs.h:75-87) used here. -/
structure Var (V : Type) where
  key : List Char
  type : Ty
  size : Nat
  vals : List V
deriving Repr, DecidableEq

/-- Delimiters of a header line.  read_datainfo.c:149, 175. -/
def isBlankTab (c : Char) : Bool := c = ' ' || c = '\t'

/-- What a header line means.  read_datainfo.c:116-217. -/
inductive Decl
  | skip
  | col (c : Col)
  /-- an error message: bad format or undeclared variable -/
  | err
deriving Repr, DecidableEq

/-- read_datainfo.c:116-217: one line of the header. -/
def declOf {V} (vars : List (Var V)) (line : List Char) : Decl :=
  if line.take 2 = ['/', '/'] then .skip
  else if line.length ≤ 1 then .skip
  else
    match strtok isBlankTab line with
    | [] => .err
    | key :: more =>
      match vars.find? fun v => v.key = key with
      | none => .err
      | some v =>
        match more with
        | [] => .err
        | countstr :: _ =>
          if (strtol countstr).1 < 0 then .err else .col ⟨v.key, v.type, (strtol countstr).1.toNat⟩

/-- read_datainfo.c:108-220: the header; the columns found (in any case) and whether it ended properly, with the rest of the
file.  First argument: bound on the number of lines. -/
def headerLoop {V} (vars : List (Var V)) : Nat → Stream → List Col × Option Stream
  | 0, _ => ([], none)
  | n + 1, st =>
    match fgets MAXDATALNLEN st with
    | none => ([], none)
    | some (l, st') =>
      if isEnd l then ([], some st')
      else
        match declOf vars l with
        | .skip => headerLoop vars n st'
        | .err => ([], none)
        | .col c => (c :: (headerLoop vars n st').1, (headerLoop vars n st').2)

/-- `read_datainfo`, read_datainfo.c:85-233: the columns, and whether it succeeded. -/
def readDatainfo {V} (vars : List (Var V)) (text : List Char) : List Col × Bool :=
  match fgets MAXINFOLEN (openText text) with
  | none => ([], false)
  | some (_, st) =>
    match headerLoop vars (text.length + 1) st with
    | (cols, none) => (cols, false)
    | (cols, some st') => (cols, st'.rest ≠ [])

/-- `READ_data_info`, read_line.c:469-514, over all data files (that can be opened): Mnreads starts at 0 for every file, so
that the columns of the last file read remain; an error ends the loop (mmf.c:178-179 prints a warning and goes on). -/
def readDataInfos {V} (vars : List (Var V)) : List Col → List (List Char) → List Col
  | cols, [] => cols
  | _, t :: ts =>
    match readDatainfo vars t with
    | (cols, false) => cols
    | (cols, true) => readDataInfos vars cols ts

/-- Outcome of opening a data file. -/
inductive Opened
  | ok (f : TimeLoop.FileState (List Char))
  /-- the run is refused with a message -/
  | err
  /-- a buffer that was never filled is used -/
  | ub
deriving Repr, DecidableEq

/-- read_line.c:437-443: spacing forward to the end of the header (`none`: not found). -/
def toData : Nat → Stream → Option Stream
  | 0, _ => none
  | n + 1, st =>
    match fgets MAXDATALNLEN st with
    | none => none
    | some (l, st') => if isEnd l then some st' else toData n st'

/-- `DATA_read_init`, read_line.c:430-457, for one file.  The result of the first `fgets` (437) and of the one at 450 is not
checked. -/
def openData (text : List Char) : Opened :=
  match fgets MAXDATALNLEN (openText text) with
  | none => .ub
  | some _ =>
    match toData (text.length + 1) (openText text) with
    | none => .err
    | some st =>
      match lines (text.length + 1) st with
      | [] => .ub
      | l :: ls =>
        match extractTime l with
        | none => .err
        | some (t, rest) =>
          match julTime t with
          | none => .err
          | some time => .ok (TimeLoop.openFile (time, rest) (ls.map itemOf))

/-- `DATA_read_init`, read_line.c:430-458, for all files in order. -/
def openAll : List (List Char) → Option (List (TimeLoop.FileState (List Char)))
  | [] => some []
  | t :: ts =>
    match openData t with
    | .ok f => (openAll ts).map (f :: ·)
    | _ => none

/-! ### The values of a line -/

/-- Conversion of exact values to stored values: `long`, `(float)`, `double` (read_line.c:309-320), and the values for which
`strtod` reports a range error. -/
structure Conv (V : Type) where
  long : Int → V
  float : Rat → V
  double : Rat → V
  range : Rat → Bool

/-- One value: read_line.c:305-324 and CHECK_data 784-792.  `none`: range error. -/
def readValue {V} (cv : Conv V) (ty : Ty) (s : List Char) : Option (V × List Char) :=
  match ty with
  | .long =>
    if (strtol s).1 < -9223372036854775808 ∨ 9223372036854775807 < (strtol s).1 then none
    else some (cv.long (strtol s).1, (strtol s).2)
  | .float => if cv.range (strtod s).1 then none else some (cv.float (strtod s).1, (strtod s).2)
  | .double => if cv.range (strtod s).1 then none else some (cv.double (strtod s).1, (strtod s).2)

/-- The columns of one variable: read_line.c:303-329. -/
def readCol {V} (cv : Conv V) (ty : Ty) : Nat → List Char → Option (List V × List Char)
  | 0, s => some ([], s)
  | n + 1, s =>
    match readValue cv ty s with
    | none => none
    | some (v, s') =>
      match readCol cv ty n s' with
      | none => none
      | some (vs, s'') => some (v :: vs, s'')

/-- All variables: read_line.c:302-330.  The buffers `Types` of the columns, in order. -/
def readValues {V} (cv : Conv V) : List Col → List Char → Option (List (List V))
  | [], _ => some []
  | c :: cs, s =>
    match readCol cv c.type c.count s with
    | none => none
    | some (vs, s') =>
      match readValues cv cs s' with
      | none => none
      | some r => some (vs :: r)

/-- `var->value` becomes the buffer of the column.  readvar.c:173-201. -/
def store {V} (name : List Char) (b : List V) : List (Var V) → List (Var V)
  | [] => []
  | v :: r => if v.key = name then { v with vals := b } :: r else v :: store name b r

/-- `readvar`, readvar.c:101-206: return code and the variables.  (A name of 80 or more characters overflows `vkey`, 106;
`var == Mcheckbase[i]->var` compares variables, that is keys.) -/
def readvar {V} (cols : List Col) (bufs : List (List V)) (vars : List (Var V)) (name : List Char) : Nat × List (Var V) :=
  match vars.find? fun v => v.key = name with
  | none => (1, vars)
  | some v =>
    match (cols.zip bufs).find? fun c => c.1.key = name with
    | none => (1, vars)
    | some (c, b) =>
      if v.size ≠ c.count then (1, vars)
      else if v.size = 0 then (0, vars)
      else (0, store name b vars)

/-! ### A whole run -/

/-- The values of the steps of a run: a range error ends the run as at the end of the data (read_line.c:324,
batch_run.c:111).  (If the line after such a record is malformed too, the code ends with 1, the model with 100.) -/
def decodeSteps {V} (cv : Conv V) (cols : List Col) : List (TimeLoop.Step (List Char)) × TimeLoop.End →
    List (TimeLoop.Step (List (List V))) × TimeLoop.End
  | ([], e) => ([], e)
  | (s :: r, e) =>
    match readValues cv cols s.data with
    | none => ([], .code 1)
    | some vs => (⟨s.nstep, s.now, s.deltat, vs⟩ :: (decodeSteps cv cols (r, e)).1, (decodeSteps cv cols (r, e)).2)

/-- mmf.c:178-200, batch_run_functions.c:254 and batch_run.c:84-132: the steps of a run with the buffers the modules
read from.  `none`: the data files cannot be opened. -/
def run {V} (cv : Conv V) (vars : List (Var V)) (w : TimeLoop.Window) (now : TimeLoop.Time) (texts : List (List Char)) :
    Option (List (TimeLoop.Step (List (List V))) × TimeLoop.End) :=
  (openAll texts).map fun fs => decodeSteps cv (readDataInfos vars [] texts) (TimeLoop.batchRun w now fs)

end Verif.DataLine
