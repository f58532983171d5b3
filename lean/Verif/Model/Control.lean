import Verif.Model.CFile
/-
Model of the control file reader and the control data base:
mmf_c/src/read_control.c, decl_control.c, control_addr.c, control_var.c, control_array.c,
control_var_size (read_line.c) and the `-set` loop of mmf.c.  Not modelled: `read_control` (61-84),
which after an error reads the previous file again and still returns the error, so that the program
exits (mmf.c:83-87).
-/
namespace Verif.Control
open Verif.CText Verif.CFile

/-- Text to floating point conversions (`atof`, and `(float) atof`); left abstract.
`read_control.c:184, 195`, `mmf.c:102, 105`. -/
structure Parse (F : Type) where
  dbl : List Char → F
  flt : List Char → F

/-- A stored control value.  The types of `read_control.c:176-221`. -/
inductive Val (F : Type) where
  | dbl (x : F)
  | flt (x : F)
  | lng (n : Int)
  | str (s : List Char)
deriving Repr, DecidableEq

/-- A `CONTROL` structure (structs.h): key, type code, size, and the storage behind `start_ptr`
(`none` = not initialised).  `mem.length` is the number of cells allocated.  `structs.h:53-58`. -/
structure Ctl (F : Type) where
  key : List Char
  type : Int
  size : Nat
  mem : List (Option (Val F))
deriving Repr, DecidableEq

/-- `cont_db`, in order of declaration.  `decl_control.c:102, 154`. -/
abbrev Db (F : Type) := List (Ctl F)

/-- defs.h:107. -/
def MAXLNLEN : Nat := 256

/-- defs.h:113. -/
def MAXKEYLEN : Nat := 50

/-- control_addr.c:53-65: first entry with the key. -/
def controlAddr {F} (db : Db F) (key : List Char) : Option (Ctl F) := db.find? fun c => c.key = key

/-- decl_control.c:136-161 (`decl_control`; the `decl_control_*` helpers 163-220 only build the
storage).  `none`: the program exits because the key exists. -/
def declControl {F} (db : Db F) (key : List Char) (type : Int) (vals : List (Val F)) :
    Option (Db F) :=
  match controlAddr db key with
  | some _ => none
  | none => some (db ++ [⟨key, type, vals.length, vals.map some⟩])

/-- decl_control.c:83-127 (`add_control`) for a key that is not in the data base: fresh storage
without values.  `none`: the program exits, unknown type. -/
def addControl {F} (db : Db F) (key : List Char) (type : Int) (size : Nat) : Option (Db F) :=
  if type = 1 ∨ type = 2 ∨ type = 3 ∨ type = 4 then
    some (db ++ [⟨key, type, size, List.replicate size none⟩])
  else none

/-- The text before the first `//`, if any (`strstr (str, "//")`).  `read_control.c:260-264`. -/
def beforeSlashes : List Char → Option (List Char)
  | '/' :: '/' :: _ => some []
  | [] => none
  | c :: s => (beforeSlashes s).map (c :: ·)

/-- Result of reading one line.  `read_control.c:236-273`. -/
inductive Line where
  | eof
  /-- read before the start of the line buffer -/
  | ub
  /-- only used when the recursion bound is exhausted; never happens (`fgetsRc_fuel`) -/
  | fuel
  | ok (line : List Char) (st : Stream)
deriving Repr, DecidableEq

/-- read_control.c:236-273 (`fgets_rc`).  A line that starts with `//` or has at most one character
is skipped; a line containing `//` is cut after the last blank before it, the backward search
leaving the buffer when there is none.  First argument: bound on the number of lines. -/
def fgetsRc : Nat → Nat → Stream → Line
  | 0, _, _ => .fuel
  | fuel + 1, num, st =>
    match fgets num st with
    | none => .eof
    | some (l, st') =>
      if l.take 2 = ['/', '/'] then fgetsRc fuel num st'
      else if l.length ≤ 1 then fgetsRc fuel num st'
      else
        match beforeSlashes l with
        | none => .ok l st'
        | some pre =>
          match splitLast ' ' pre with
          | none => .ub
          | some (a, _) => .ok (a ++ [' ']) st'

/-- Outcome of a stage of `rc`.  `read_control.c:93-226`. -/
inductive Out (F α : Type) where
  /-- the stage completed -/
  | ok (a : α)
  /-- `rc` returned: `none` = NULL (success), `some n` = the n-th error message -/
  | ret (msg : Option Nat) (db : Db F)
  /-- the program exited -/
  | exit
  /-- a line was cut at `//` without a preceding blank: read outside the buffer -/
  | badLine
  /-- a value was written past the storage of the variable -/
  | overrun
  /-- a value was stored with the representation of another type -/
  | confused
  | fuel
deriving Repr, DecidableEq

/-- Sequencing of stages (not in the code).  The stages are those of `read_control.c:121-222`. -/
def Out.bind {F α β} (x : Out F α) (f : α → Out F β) : Out F β :=
  match x with
  | .ok a => f a
  | .ret m db => .ret m db
  | .exit => .exit
  | .badLine => .badLine
  | .overrun => .overrun
  | .confused => .confused
  | .fuel => .fuel

/-- One `fgets_rc` call inside `rc`, with the return value used when the file ends.
`read_control.c:112, 127, 135, 152, 164, 180, 191, 202, 213`. -/
def getLine {F} (fuel num : Nat) (st : Stream) (onEof : Option Nat) (db : Db F) :
    Out F (List Char × Stream) :=
  match fgetsRc fuel num st with
  | .eof => .ret onEof db
  | .ub => .badLine
  | .fuel => .fuel
  | .ok l st' => .ok (l, st')

/-- The value stored for a line, by type code (read_control.c:176-221). -/
def lineVal {F} (ps : Parse F) (type : Int) (l : List Char) : Val F :=
  if type = 3 then .dbl (ps.dbl l)
  else if type = 2 then .flt (ps.flt l)
  else if type = 1 then .lng (atoi l)
  else .str l.dropLast

/-- Bytes of a value of each type (LP64: long and pointers have 8 bytes).  `decl_control.c:108-124`. -/
def typeWidth (type : Int) : Nat := if type = 2 then 4 else 8

/-- Replace the entry with the given key (the pointer `cp` of the code refers to it).
`read_control.c:141, 174`. -/
def update {F} (db : Db F) (key : List Char) (mem : List (Option (Val F))) : Db F :=
  match db with
  | [] => []
  | c :: r => if c.key = key then { c with mem := mem } :: r else c :: update r key mem

/-- Storing element `i` of type `type` in an entry: past the end of the allocated bytes, with another
type's representation, or in its cell.  `read_control.c:184, 195, 206, 218`. -/
def storeCell {F} (c : Ctl F) (mem : List (Option (Val F))) (type : Int) (i : Nat) (v : Val F) :
    Out F (List (Option (Val F))) :=
  if (i + 1) * typeWidth type > mem.length * typeWidth c.type then .overrun
  else if c.type ≠ type then .confused
  else .ok (mem.set i (some v))

/-- read_control.c:176-221: the value loops.  Arguments: number of values left, index of the next
one, storage so far, `line` (kept for the next header search).  Simplification: `strdup` never
fails. -/
def storeLoop {F} (ps : Parse F) (fuel : Nat) (db : Db F) (c : Ctl F) (type : Int) :
    Nat → Nat → List (Option (Val F)) → List Char → Stream →
    Out F (List (Option (Val F)) × List Char × Stream)
  | 0, _, mem, line, st => .ok (mem, line, st)
  | n + 1, i, mem, _, st =>
    (getLine fuel MAXLNLEN st (some 6) (update db c.key mem)).bind fun r =>
    (storeCell c mem type i (lineVal ps type r.1)).bind fun mem' =>
    storeLoop ps fuel db c type n (i + 1) mem' (if type = 4 then r.1.dropLast else r.1) r.2

/-- read_control.c:174: the entry used for the record, and the data base containing it. -/
def entryFor {F} (db : Db F) (key : List Char) (type : Int) (size : Nat) : Out F (Db F × Ctl F) :=
  match controlAddr db key with
  | some c => .ok (db, c)
  | none =>
    match addControl db key type size with
    | none => .exit
    | some db' => .ok (db', ⟨key, type, size, List.replicate size none⟩)

/-- read_control.c:132-221: key, size, type and values of one record.  An entry that exists is used
as it is: neither its size nor its type is updated.  Result: line buffer, stream, data base. -/
def readRecord {F} (ps : Parse F) (fuel : Nat) (db : Db F) (st : Stream) :
    Out F (List Char × Stream × Db F) :=
  (getLine fuel MAXKEYLEN st (some 1) db).bind fun k =>
  (getLine fuel MAXLNLEN k.2 (some 2) db).bind fun s =>
  if atoi s.1 < 0 then .ret (some 3) db else
  (getLine fuel MAXLNLEN s.2 (some 4) db).bind fun t =>
  if atoi t.1 = 0 then .ret (some 5) db else
  (entryFor db k.1.dropLast (atoi t.1) (atoi s.1).toNat).bind fun e =>
  if atoi t.1 = 1 ∨ atoi t.1 = 2 ∨ atoi t.1 = 3 ∨ atoi t.1 = 4 then
    (storeLoop ps fuel e.1 e.2 (atoi t.1) (atoi s.1).toNat 0 e.2.mem t.1 t.2).bind fun r =>
    .ok (r.2.1, r.2.2, update e.1 e.2.key r.1)
  else .ok (t.1, t.2, e.1)

/-- read_control.c:126-131: space forward to the `####` header. -/
def skipHeader {F} (fuel : Nat) (db : Db F) : Nat → List Char → Stream → Out F Stream
  | 0, _, _ => .fuel
  | n + 1, line, st =>
    if line.take 4 = ['#', '#', '#', '#'] then .ok st
    else (getLine fuel MAXLNLEN st none db).bind fun r => skipHeader fuel db n r.1 r.2

/-- read_control.c:121-222: the record loop. -/
def readLoop {F} (ps : Parse F) (fuel : Nat) : Nat → Db F → List Char → Stream → Out F Unit
  | 0, _, _, _ => .fuel
  | n + 1, db, line, st =>
    if st.eof then .ret none db
    else
      (skipHeader fuel db fuel line st).bind fun st1 =>
      (readRecord ps fuel db st1).bind fun r =>
      readLoop ps fuel n r.2.2 r.1 r.2.1

/-- read_control.c:93-226 (`rc`) on the text of an existing file (`none`: the file cannot be opened,
message 7).  Every loop is bounded by the number of characters of the file plus two. -/
def rc {F} (ps : Parse F) (db : Db F) (file : Option (List Char)) : Out F Unit :=
  match file with
  | none => .ret (some 7) db
  | some s =>
    (getLine (s.length + 2) MAXLNLEN (openText s) (some 8) db).bind fun r =>
    readLoop ps (s.length + 2) (s.length + 2) db r.1 r.2

/-- control_var_size, read_line.c:571-580. -/
def controlVarSize {F} (db : Db F) (key : List Char) : Nat :=
  match controlAddr db key with
  | none => 1
  | some c => c.size

/-- control_array.c:58-91: the cell `control_array (key, ind)` points to (`none`: the program
exits, or the cell has no value; the index is not checked for being negative, here it is a natural
number). -/
def controlArray {F} (db : Db F) (key : List Char) (ind : Nat) : Option (Option (Val F)) :=
  match controlAddr db key with
  | none => none
  | some c => if ind ≥ c.size then none else c.mem[ind]?

/-- mmf.c:96-116: one `-set name value` option; the comma separated words are stored from element 0
on.  Outcome of the assignment loop on the storage of the entry. -/
def setWords {F} (ps : Parse F) (c : Ctl F) :
    Nat → List (Option (Val F)) → List (List Char) → Out F (List (Option (Val F)))
  | _, mem, [] => .ok mem
  | j, mem, w :: ws =>
    (storeCell c mem c.type j
      (if c.type = 4 then .str w else lineVal ps c.type w)).bind fun mem' =>
    setWords ps c (j + 1) mem' ws

/-- mmf.c:89-122: one `-set` option; an unknown name is ignored. -/
def setOption {F} (ps : Parse F) (db : Db F) (name value : List Char) : Out F (Db F) :=
  match controlAddr db name with
  | none => .ok db
  | some c =>
    (setWords ps c 0 c.mem (strtok (fun ch => ch = ',') value)).bind fun mem =>
    .ok (update db c.key mem)

/-- control_var.c:130-139 (`control_integer_`): the value handed to Fortran is the first `char` of
the stored `long`, sign extended (little-endian). -/
def controlInteger (stored : Int) : Int :=
  if stored % 256 < 128 then stored % 256 else stored % 256 - 256

/-- `strncpy (dst, src, len)`: the cells written, zero filled.  Call site: `control_var.c:119`. -/
def strncpy (len : Nat) (src : List Char) : List Char :=
  src.take len ++ List.replicate (len - src.length) (Char.ofNat 0)

/-- control_var.c:111-121 (`control_string_`): blanks, then `strncpy` over all of them. -/
def controlString (len : Nat) (stored : List Char) : List Char :=
  strncpy len stored ++ (List.replicate len ' ').drop (strncpy len stored).length

end Verif.Control
