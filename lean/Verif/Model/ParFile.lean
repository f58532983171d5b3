import Verif.Model.CFile
/-
Parameter files: mmf_c/src/read_params.c (`read_params`, `read_dims`, `rp`, `READ_param_head`,
`READ_param_values`) and mmf_c/src/save_params.c (`save_params`).

Not modelled: the copies into module storage made by `updateparam` (read_params.c:473), the
messages, the text of the errors (only which error), overflow of `strtol`/`atol`, the adjustment of
parameters by `reset_dim` (C10; `read_dims` runs before any parameter is declared, mmf.c:144-152).
-/
namespace Verif.ParFile
open Verif.CText Verif.CFile

/-- Undefined or unending behaviour, by cause.  read_params.c:185-822. -/
inductive Fault
  /-- a value is written outside the storage of a parameter -/
  | storage
  /-- a description is attached before the first value (index -1) -/
  | desc
  /-- a name longer than its buffer -/
  | key
  /-- `strtok` finds no word: a null pointer is used -/
  | blank
  /-- the file is closed twice -/
  | closed
  /-- a dimension that does not exist is used in a message -/
  | olddim
  /-- an index name or note is stored outside the list -/
  | names
  /-- more than 1000 comment lines -/
  | comments
  /-- the loop does not end -/
  | hang
  /-- recursion bound of the model exhausted; never happens -/
  | fuel
deriving Repr, DecidableEq

/-- The errors returned (the messages of read_params.c, in order of appearance).  read_params.c:185-822. -/
inductive Err
  | noFile | info | version | label | comment | dimEnd | header | dimName | dimSize
  | keyEnd | ndimEnd | ndim | zeroDim | dimenEnd | dimen | sizeEnd | sizeText | size | typeEnd | typeText | type
  | few | many
deriving Repr, DecidableEq

/-- Type of a parameter, with the code used in files (defs.h:73-75). -/
inductive Ty | long | float | double
deriving Repr, DecidableEq

/-- defs.h:73-75. -/
def Ty.code : Ty → Nat
  | .long => 1
  | .float => 2
  | .double => 3

/-- The fields of PARAM (structs.h:23-51) used here.  `vals` is the storage behind `value`, `desc`
the array `value_desc`, `dims` the names of the dimensions (`ndimen` is its length). -/
structure Par (V : Type) where
  name : List Char
  dims : List (List Char)
  size : Nat
  type : Ty
  vals : List V
  desc : List (Option (List Char))
  width : Int
  format : Option (List Char)
  readIn : Bool
deriving Repr, DecidableEq

/-- `Mparambase`, param_addr.c:42. -/
abbrev Db (V : Type) := List (Par V)

/-- `param_addr` (names are unique in the table, C04).  param_addr.c:32-55. -/
def find {V} (db : Db V) (key : List Char) : Option (Par V) := db.find? fun p => p.name = key

/-- Change of the entry found by `param_addr`.  E.g. read_params.c:557-573. -/
def update {V} (key : List Char) (f : Par V → Par V) : Db V → Db V
  | [] => []
  | p :: r => if p.name = key then f p :: r else p :: update key f r

/-- Outcome of a stage of reading.  read_params.c:420-822. -/
inductive Out (V α : Type)
  | bad (f : Fault)
  /-- the function returns: `none` is NULL (no error) -/
  | ret (e : Option Err) (db : Db V)
  | ok (a : α)
deriving Repr, DecidableEq

/-- Sequencing of stages (not in the code).  read_params.c:420-822. -/
def Out.bind {V α β : Type} : Out V α → (α → Out V β) → Out V β
  | .bad f, _ => .bad f
  | .ret e db, _ => .ret e db
  | .ok a, g => g a

/-- defs.h:107, 113, 114, 117. -/
def MAXLNLEN : Nat := 256
/-- defs.h:113. -/
def MAXKEYLEN : Nat := 50
/-- defs.h:114. -/
def MAXDIMLEN : Nat := 50
/-- defs.h:117. -/
def MAXINFOLEN : Nat := 80

/-- `strncmp (line, "####", 4)` is 0.  read_params.c:296, 500. -/
def isHead (l : List Char) : Bool := l.take 4 = ['#', '#', '#', '#']

/-- `"** Parameters **"` and `"** Dimensions **"`.  read_params.c:294. -/
def parLabel : List Char := "** Parameters **".toList
/-- read_params.c:261. -/
def dimLabel : List Char := "** Dimensions **".toList

/-- `strncmp (line, label, 16)` is 0.  read_params.c:261, 294. -/
def starts (label l : List Char) : Bool := l.take 16 = label

/-- A line that must exist, else the function returns the error.  E.g. read_params.c:509-512. -/
def must {V} (num : Nat) (e : Err) (db : Db V) (st : Stream) : Out V (List Char × Stream) :=
  match fgets num st with
  | none => .ret (some e) db
  | some r => .ok r

/-- read_params.c:500-504: forward to the next header.  At the end of the file `READ_param_head`
closes the file and returns -1, and `rp` closes it again (lines 458-459). -/
def skipTo {V} : Nat → List Char → Stream → Out V Stream
  | 0, _, _ => .bad .fuel
  | n + 1, line, st =>
    if isHead line then .ok st
    else
      match fgets MAXLNLEN st with
      | none => .bad .closed
      | some (l, st') => skipTo n l st'

/-- read_params.c:602-617: the names of the dimensions. -/
def readDimens {V} (db : Db V) : List (List Char) → Stream → Out V Stream
  | [], st => .ok st
  | d :: ds, st =>
    (must MAXDIMLEN .dimenEnd db st).bind fun r =>
      if r.1.dropLast ≠ d then .ret (some .dimen) db else readDimens db ds r.2

/-- read_params.c:652-670: the type. -/
def readType {V} (db : Db V) (p : Par V) (st : Stream) : Out V Stream :=
  (must MAXLNLEN .typeEnd db st).bind fun r =>
    if atoi r.1 = 0 then .ret (some .typeText) db
    else if atoi r.1 ≠ p.type.code then .ret (some .type) db
    else .ok r.2

/-- read_params.c:574-670: the declaration of a declared parameter.  Returns the table and the stream.
`dimVal` is `getdim`. -/
def readDecl {V} (dimVal : List Char → Int) (db : Db V) (p : Par V) (st : Stream) : Out V (Db V × Stream) :=
  (must MAXLNLEN .ndimEnd db st).bind fun r =>
    if isDigit (r.1.headD ' ') then
      if (p.dims.length : Int) ≠ atoi r.1 then .ret (some .ndim) db                 -- lines 585-589
      else if p.dims = [] then .ret (some .zeroDim) db                              -- lines 591-596
      else
        (readDimens db p.dims r.2).bind fun st2 =>
          (must MAXLNLEN .sizeEnd db st2).bind fun s =>
            if atoi s.1 = 0 then .ret (some .sizeText) db
            else if atoi s.1 ≠ p.size then .ret (some .size) db
            else (readType db p s.2).bind fun st3 => .ok (db, st3)
    else                                                                            -- lines 639-651
      let db1 := update p.name (fun q => { q with dims := q.dims.take 1 }) db
      if r.1.length > MAXDIMLEN then .bad .key
      else
        match p.dims with
        | [] => .bad .olddim
        | d0 :: more =>
          if r.1.dropLast ≠ d0 then (if more = [] then .bad .olddim else .ret (some .dimen) db1)
          else
            let db2 := update p.name (fun q => { q with size := (dimVal d0).toNat }) db1
            (readType db2 p r.2).bind fun st3 => .ok (db2, st3)

/-- Width and format after the key, read_params.c:526-548 and 558-573: the last character of the
third word (the newline) is dropped. -/
def widthOf (ts : List (List Char)) : Int := match ts with | [] => 0 | w :: _ => atoi w

/-- read_params.c:535-547, 565-573. -/
def formatOf (ts : List (List Char)) : Option (List Char) :=
  match ts with
  | _ :: f :: _ => if f.length < 2 then none else some f.dropLast
  | _ => none

/-- read_params.c:490-679 (`READ_param_head`): the parameter found (by its name), the table, the content
of `line` and the stream. -/
def head {V} (dimVal : List Char → Int) (fuel : Nat) (db : Db V) (line : List Char) (st : Stream) :
    Out V (Option (List Char) × Db V × List Char × Stream) :=
  (skipTo fuel line st).bind fun st1 =>
    (must MAXLNLEN .keyEnd db st1).bind fun r =>
      match strtok (fun c => c = ' ') r.1 with
      | [] => .bad .blank
      | t :: ts =>
        let key := t.takeWhile fun c => c ≠ '\n'
        if key.length ≥ MAXKEYLEN then .bad .key
        else
          match find db key with
          | none => .ok (none, db, key, r.2)
          | some p =>
            let db1 := update key (fun q => { q with readIn := true, width := widthOf ts, format := formatOf ts }) db
            (readDecl dimVal db1 p r.2).bind fun d => .ok (some key, d.1, [], d.2)

/-- Position, storage and descriptions while the values of a parameter are read.  read_params.c:688-699. -/
structure Cur (V : Type) where
  i : Nat
  vals : List V
  desc : List (Option (List Char))
deriving Repr, DecidableEq

/-- The word split at `*`: repeat count and value text, read_params.c:757-769. -/
def repText (tok : List Char) : Int × List Char :=
  if '*' ∈ tok then (atoi (tok.takeWhile fun c => c ≠ '*'), (tok.dropWhile fun c => c ≠ '*').tail) else (1, tok)

/-- Writing `m` copies of a value from position `i` on; `none` outside the storage.  read_params.c:771-791. -/
def fill {V} (c : Cur V) (m : Nat) (v : V) : Option (List V) :=
  if m = 0 then some c.vals
  else if c.i + m ≤ c.vals.length then some (c.vals.take c.i ++ List.replicate m v ++ c.vals.drop (c.i + m))
  else none

/-- read_params.c:771-791: the copies of one value; `true` when there are more values than the size. -/
def storeRep {V} (size : Nat) (rep : Int) (v : V) (c : Cur V) : Option (Bool × Cur V) :=
  let n := rep.toNat
  if n ≤ size - c.i then (fill c n v).map fun l => (false, { c with i := c.i + n, vals := l })
  else (fill c (size - c.i) v).map fun l => (true, { c with i := max c.i size + 1, vals := l })

/-- read_params.c:752-794: the words of a line. -/
def words {V} (conv : Ty → List Char → V) (ty : Ty) (size : Nat) :
    List (List Char) → Cur V → Option (Bool × Cur V)
  | [], c => some (false, c)
  | t :: ts, c =>
    match storeRep size (repText t).1 (conv ty (repText t).2) c with
    | none => none
    | some (true, c') => some (true, c')
    | some (false, c') => words conv ty size ts c'

/-- read_params.c:709-808: the lines of values and descriptions.  Returns the content of `line`, the
stream and the position. -/
def valLines {V} (conv : Ty → List Char → V) (ty : Ty) (size : Nat) :
    Nat → Stream → Cur V → Out V (List Char × Stream × Cur V)
  | 0, _, _ => .bad .fuel
  | n + 1, st, c =>
    match fgets MAXLNLEN st with
    | none => .ok ([], ⟨[], true⟩, c)
    | some (l, st') =>
      if isHead l then .ok (l, st', c)
      else if l.headD ' ' = '@' then
        if 0 < c.i ∧ c.i - 1 < c.desc.length then                         -- lines 719-742
          valLines conv ty size n st'
            { c with desc := c.desc.set (c.i - 1) (some (l.tail.takeWhile fun ch => ch ≠ '\n')) }
        else .bad .desc
      else
        match words conv ty size (strtok (fun ch => ch = ' ') l) c with
        | none => .bad .storage
        | some (true, c') => .ok (l, st', c')
        | some (false, c') => valLines conv ty size n st' c'

/-- read_params.c:688-822 (`READ_param_values`), and the call at 467-474. -/
def values {V} (conv : Ty → List Char → V) (fuel : Nat) (db : Db V) (p : Par V) (st : Stream) :
    Out V (Db V × List Char × Stream) :=
  (valLines conv p.type p.size fuel st ⟨0, p.vals, p.desc⟩).bind fun r =>
    let db1 := update p.name (fun q => { q with vals := r.2.2.vals, desc := r.2.2.desc }) db
    if r.2.2.i < p.size then .ret (some .few) db1
    else if r.2.2.i > p.size then .ret (some .many) db1
    else .ok (db1, r.1, r.2.1)

/-- The loop read_params.c:455-475. -/
def readLoop {V} (conv : Ty → List Char → V) (dimVal : List Char → Int) (fuel : Nat) :
    Nat → Db V → List Char → Stream → Out V Unit
  | 0, _, _, _ => .bad .fuel
  | n + 1, db, line, st =>
    if st.eof then .ret none db
    else
      (head dimVal fuel db line st).bind fun h =>
        match h.1 with
        | none => readLoop conv dimVal fuel n h.2.1 h.2.2.1 h.2.2.2
        | some key =>
          match find h.2.1 key with
          | none => .bad .fuel
          | some p =>
            (values conv fuel h.2.1 p h.2.2.2).bind fun v => readLoop conv dimVal fuel n v.1 v.2.1 v.2.2

/-- read_params.c:442-450: over the part with the dimensions. -/
def skipDims {V} (db : Db V) : Nat → List Char → Stream → Out V (List Char × Stream)
  | 0, _, _ => .bad .fuel
  | n + 1, line, st =>
    if starts parLabel line then
      match fgets MAXLNLEN st with
      | none => .ok (line, ⟨[], true⟩)
      | some r => .ok r
    else
      match fgets MAXLNLEN st with
      | none => .ret none db
      | some (l, st') => skipDims db n l st'

/-- read_params.c:420-479 (`rp`).  In an empty file `line` is used uninitialised (`blank`). -/
def rp {V} (conv : Ty → List Char → V) (dimVal : List Char → Int) (db : Db V) (file : Option (List Char))
    (index : Nat) : Out V Unit :=
  match file with
  | none => .ret (some .noFile) db
  | some text =>
    let fuel := text.length + 2
    match fgets MAXLNLEN (openText text) with
    | none => .bad .blank
    | some (l, st) =>
      if index = 0 then
        (skipDims db fuel l st).bind fun r => readLoop conv dimVal fuel fuel db r.1 r.2
      else readLoop conv dimVal fuel fuel db l st

/-- read_params.c:153-176 (`read_params`): `last` is the static name of the last file read; after an
error that file is read again.  Simplification: names are shorter than 256 characters. -/
def readParams {V} (conv : Ty → List Char → V) (dimVal : List Char → Int)
    (fs : List Char → Option (List Char)) (last : Option (List Char)) (db : Db V) (name : List Char)
    (index : Nat) : Out V (Option Err × Option (List Char) × Db V) :=
  match rp conv dimVal db (fs name) index with
  | .bad f => .bad f
  | .ok _ => .bad .fuel
  | .ret none db1 => .ok (none, some name, db1)
  | .ret (some e) db1 =>
    match rp conv dimVal db1 (fs (last.getD name)) index with
    | .bad f => .bad f
    | .ok _ => .bad .fuel
    | .ret _ db2 => .ok (some e, some (last.getD name), db2)

/-! ## The dimensions -/

/-- The fields of DIMEN (structs.h:10-21) used here; `names` and `notes` are `none` when NULL. -/
structure Dimen where
  name : List Char
  value : Int
  names : Option (List (Option (List Char)))
  notes : Option (List (Option (List Char)))
deriving Repr, DecidableEq

/-- Outcome of a stage of `read_dims`.  read_params.c:185-411. -/
inductive DOut (α : Type)
  | bad (f : Fault)
  | ret (e : Option Err) (ds : List Dimen)
  | ok (a : α)
deriving Repr, DecidableEq

/-- read_params.c:185-411. -/
def DOut.bind {α β : Type} : DOut α → (α → DOut β) → DOut β
  | .bad f, _ => .bad f
  | .ret e db, _ => .ret e db
  | .ok a, g => g a

/-- A line that must exist.  E.g. read_params.c:285-289. -/
def dmust (num : Nat) (e : Err) (ds : List Dimen) (st : Stream) : DOut (List Char × Stream) :=
  match fgets num st with
  | none => .ret (some e) ds
  | some r => .ok r

/-- `dim_addr`.  dim_addr.c:49-60. -/
def findDim (ds : List Dimen) (key : List Char) : Option Dimen := ds.find? fun d => d.name = key

/-- read_params.c:335-396. -/
def updateDim (key : List Char) (f : Dimen → Dimen) : List Dimen → List Dimen
  | [] => []
  | d :: r => if d.name = key then f d :: r else d :: updateDim key f r

/-- The names after a change of the size (reset_dim.c:111-155). -/
def resizeNames (n : Int) (l : Option (List (Option (List Char)))) : Option (List (Option (List Char))) :=
  match l with
  | none => none
  | some l => if n = 0 then none else some ((l ++ List.replicate (n.toNat - l.length) none).take n.toNat)

/-- `fgets` whose result is ignored: at the end of the file the line is kept.
read_params.c:375, 384, 404-405, 449. -/
def fgetsKeep (line : List Char) (st : Stream) : List Char × Stream :=
  match fgets MAXLNLEN st with
  | none => (line, ⟨[], true⟩)
  | some r => r

/-- read_params.c:253-273: comments up to the label of the dimensions; `k` lines stored so far. -/
def skipComments (ds : List Dimen) : Nat → Nat → List Char → Stream → DOut Stream
  | 0, _, _, _ => .bad .fuel
  | n + 1, k, line, st =>
    if starts dimLabel line then .ok st
    else
      (dmust MAXLNLEN .comment ds st).bind fun r =>
        if starts dimLabel r.1 then .ok r.2
        else if k ≥ 1000 then .bad .comments
        else skipComments ds n (k + 1) r.1 r.2

/-- read_params.c:355-391: index names and notes; `i` names read so far, `names` and `notes` have
`size` entries.  Returns the lists, the content of `line` and the stream. -/
def readNames (size : Nat) : Nat → Nat → List (Option (List Char)) → List (Option (List Char)) → List Char →
    Stream → DOut (List (Option (List Char)) × List (Option (List Char)) × List Char × Stream)
  | 0, _, _, _, _, _ => .bad .fuel
  | n + 1, i, names, notes, line, st =>
    if isHead line then .ok (names, notes, line, st)
    else
      let text := line.takeWhile fun c => c ≠ '\n'
      if line.headD ' ' = '@' then
        if 0 < i ∧ i - 1 < size then
          match fgets MAXLNLEN st with
          | none => .bad .hang
          | some (l, st') =>
            let notes' := notes.set (i - 1) (some text.tail)
            if i = size ∧ l.headD ' ' ≠ '@' then .ok (names, notes', l, st')
            else readNames size n i names notes' l st'
        else .bad .names
      else if i < size then
        let names' := names.set i (some text)
        let r := fgetsKeep line st
        if i + 1 = size ∧ r.1.headD ' ' ≠ '@' then .ok (names', notes, r.1, r.2)
        else readNames size n (i + 1) names' notes r.1 r.2
      else .bad .names

/-- read_params.c:314-401: the size and the index names of a declared dimension.  Returns the table,
the content of `line` and the stream. -/
def readDim (fuel : Nat) (ds : List Dimen) (key : List Char) (st : Stream) :
    DOut (List Dimen × List Char × Stream) :=
  (dmust MAXLNLEN .dimSize ds st).bind fun r =>
    let size := atoi r.1
    let ds1 := updateDim key (fun d => if d.value = size then d else
      { d with value := size, names := resizeNames size d.names, notes := resizeNames size d.notes }) ds
    match fgets MAXLNLEN r.2 with
    | none => .ret none ds1
    | some (l, st') =>
      if starts parLabel l then .ok (ds1, l, st')
      else
        let ds2 := updateDim key (fun d => { d with names := none, notes := none }) ds1
        if isHead l then .ok (ds2, l, st')
        else
          (readNames size.toNat (fuel + size.toNat) 0 (List.replicate size.toNat none)
              (List.replicate size.toNat none) l st').bind fun x =>
            .ok (updateDim key (fun d => { d with names := some x.1, notes := some x.2.1 }) ds2, x.2.2.1, x.2.2.2)

/-- The loop read_params.c:294-407. -/
def dimLoop (fuel : Nat) : Nat → List Dimen → List Char → Stream → DOut Unit
  | 0, _, _, _ => .bad .fuel
  | n + 1, ds, line, st =>
    if starts parLabel line then .ret none ds
    else if !isHead line then .ret (some .header) ds
    else
      (dmust MAXKEYLEN .dimName ds st).bind fun r =>
        let key := r.1.dropLast
        match findDim ds key with
        | none =>                                                          -- lines 402-406
          let a := fgetsKeep line r.2
          let b := fgetsKeep a.1 a.2
          dimLoop fuel n ds b.1 b.2
        | some _ => (readDim fuel ds key r.2).bind fun x => dimLoop fuel n x.1 x.2.1 x.2.2

/-- read_params.c:185-411 (`read_dims`). -/
def readDims (ds : List Dimen) (file : Option (List Char)) : DOut Unit :=
  match file with
  | none => .ret (some .noFile) ds
  | some text =>
    let fuel := text.length + 2
    (dmust MAXINFOLEN .info ds (openText text)).bind fun a =>
      (dmust MAXINFOLEN .version ds a.2).bind fun b =>
        (dmust MAXINFOLEN .label ds b.2).bind fun c =>
          (skipComments ds fuel 0 c.1 c.2).bind fun st =>
            (dmust MAXLNLEN .dimEnd ds st).bind fun d => dimLoop fuel fuel ds d.1 d.2

/-! ## Writing -/

/-- A line of the file.  E.g. save_params.c:131-133. -/
def line (s : List Char) : List Char := s ++ ['\n']

/-- Decimal digits of a count, `"%d"`/`"%ld"` for numbers that are not negative.  save_params.c:133, 159. -/
def digitsOf (n : Nat) : List Char :=
  if n < 10 then [Char.ofNat (48 + n)] else digitsOf (n / 10) ++ [Char.ofNat (48 + n % 10)]

/-- `"%d"`.  save_params.c:133. -/
def intText (n : Int) : List Char := if n < 0 then '-' :: digitsOf n.natAbs else digitsOf n.natAbs

/-- A dimension, save_params.c:127-140. -/
def saveDim (d : Dimen) : List Char :=
  line "####".toList ++ line d.name ++ line (intText d.value) ++
  (List.range d.value.toNat).flatMap fun j =>
    (match d.names with | some l => (match l.getD j none with | some s => line s | none => []) | none => []) ++
    (match d.notes with | some l => (match l.getD j none with | some s => line ('@' :: s) | none => []) | none => [])

/-- The descriptions of a value, save_params.c:168-176: one line for each line of the description,
an empty last line excepted. -/
def saveDesc (d : Option (List Char)) : List Char :=
  match d with
  | none => []
  | some s =>
    let ls := splitBy (fun c => c = '\n') s
    (ls.dropLast.flatMap fun l => line ('@' :: l)) ++
    (if ls.getLastD [] = [] then [] else line ('@' :: ls.getLastD []))

/-- The values of a parameter, save_params.c:162-214: `"%.20le \n"`, `"%.12e \n"`, `"%ld \n"`.
Simplification: elements of integer parameters are read with their own width (with 64-bit `long` the
code reads pairs of elements). -/
def saveVals {V} (show_ : Ty → V → List Char) (p : Par V) : List Char :=
  (List.range p.size).flatMap fun j =>
    (match p.vals[j]? with | some v => line (show_ p.type v ++ [' ']) | none => []) ++ saveDesc (p.desc.getD j none)

/-- A parameter, save_params.c:147-215. -/
def savePar {V} (show_ : Ty → V → List Char) (p : Par V) : List Char :=
  line "####".toList ++
  line (p.name ++ ' ' :: intText p.width ++ (match p.format with | some f => ' ' :: f | none => [])) ++
  line (digitsOf p.dims.length ++ [' ']) ++ p.dims.flatMap line ++
  line (digitsOf p.size ++ [' ']) ++ line (digitsOf p.type.code ++ [' ']) ++ saveVals show_ p

/-- save_params.c:101-219 (`save_params`): the text of the file. -/
def save {V} (show_ : Ty → V → List Char) (ds : List Dimen) (db : Db V) : List Char :=
  line "Default file generated by model".toList ++ line "Version: 1.7".toList ++ line dimLabel ++
  ds.flatMap saveDim ++ line parLabel ++ db.flatMap (savePar show_)

end Verif.ParFile
