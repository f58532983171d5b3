import Verif.Model.ParFile
/-
Saving and restoring the state of a run: mmf_c/src/save_vars.c, mmf_c/src/read_vars.c.

Simplifications: `long` has the width of the integers in storage (with 64-bit `long` the code reads and
writes pairs of elements); numbers in the file do not overflow `long`; variables have one of the three
types of `Ty` (others have no values in the file); the text of a number is a parameter (`show_` for
`"%.20le"`, `"%.12e"`, `"%ld"`, `showF` for `"%f"`), and so is its value (`conv` for `atof`, `atol`,
`strtod`).
-/
namespace Verif.VarFile
open Verif.CText Verif.CFile
open Verif.ParFile (Ty MAXLNLEN MAXKEYLEN MAXDIMLEN MAXINFOLEN isHead line intText digitsOf)

/-- Undefined behaviour.  read_vars.c:87-390. -/
inductive Fault
  /-- characters behind the end of a line are used (left in the buffer from the line before) -/
  | stale
  /-- the name of a dimension that the variable does not have -/
  | dimen
  /-- a value is written outside the storage of a variable -/
  | storage
  /-- the model's bound on loops (never reached, `C16_any_text`) -/
  | fuel
deriving Repr, DecidableEq

/-- The fields of PUBVAR (structs.h:75-87) used here.  A private variable has no dimensions
(declvar.c:455-485). -/
structure Var (V : Type) where
  key : List Char
  dims : List (List Char)
  priv : Bool
  ndimen : Int
  size : Nat
  type : Ty
  vals : List V
deriving Repr, DecidableEq

/-- Mparaminfo, Mnsteps, Mnowtime->jt, Mdeltat, Mdeltanext, dim_db (name and value), Mvarbase.
Saved at save_vars.c:101-189. -/
structure St (V : Type) where
  info : List Char
  nstep : Int
  now : V
  delta : V
  next : V
  dims : List (List Char × Int)
  vars : List (Var V)
deriving Repr, DecidableEq

/-- Outcome of a stage of `read_vars`; `ret`: the function returns the code.  read_vars.c:87-390. -/
inductive Out (V α : Type)
  | bad (f : Fault)
  | ret (code : Nat) (s : St V)
  | ok (a : α)
deriving Repr, DecidableEq

/-- Sequencing of stages (not in the code).  read_vars.c:87-390. -/
def Out.bind {V α β : Type} : Out V α → (α → Out V β) → Out V β
  | .bad f, _ => .bad f
  | .ret e s, _ => .ret e s
  | .ok a, g => g a

/-- `var_addr`.  var_addr.c:36-100, called at read_vars.c:262. -/
def find {V} (vs : List (Var V)) (key : List Char) : Option (Var V) := vs.find? fun v => v.key = key

/-- Change of the entry found by `var_addr`.  read_vars.c:262-382. -/
def update {V} (key : List Char) (f : Var V → Var V) : List (Var V) → List (Var V)
  | [] => []
  | v :: r => if v.key = key then f v :: r else v :: update key f r

/-- `dim_addr (key)->value`.  read_vars.c:195-215, 295. -/
def dimVal (ds : List (List Char × Int)) (key : List Char) : Option Int := (ds.find? fun d => d.1 = key).map (·.2)

/-- A line that must exist, else the function returns the code.  E.g. read_vars.c:116-119. -/
def must {V} (num : Nat) (code : Nat) (s : St V) (st : Stream) : Out V (List Char × Stream) :=
  match fgets num st with
  | none => .ret code s
  | some r => .ok r

/-- `"** Variables **"`, and the comparison at read_vars.c:176. -/
def varLabel : List Char := "** Variables **".toList

/-- read_vars.c:176. -/
def isVarLabel (l : List Char) : Bool := l.take 15 = varLabel

/-- read_vars.c:166-178: forward to the next header (`false`) or the label of the variables (`true`). -/
def toDim {V} (s : St V) : Nat → Stream → Out V (Bool × Stream)
  | 0, _ => .bad .fuel
  | n + 1, st =>
    (must MAXLNLEN 0 s st).bind fun r =>
      if isVarLabel r.1 then .ok (true, r.2)
      else if isHead r.1 then .ok (false, r.2)
      else toDim s n r.2

/-- read_vars.c:161-231: the dimensions. -/
def dimLoop {V} (s : St V) (fuel : Nat) : Nat → Stream → Out V Stream
  | 0, _ => .bad .fuel
  | n + 1, st =>
    if st.eof then .ok st
    else
      (toDim s fuel st).bind fun h =>
        if h.1 then .ok h.2
        else
          (must MAXKEYLEN 1 s h.2).bind fun k =>
            match dimVal s.dims k.1.dropLast with
            | none => .ret 0 s
            | some v => (must MAXLNLEN 1 s k.2).bind fun l => if v ≠ atoi l.1 then .ret 0 s else dimLoop s fuel n l.2

/-- read_vars.c:243-249: forward to the next header. -/
def toVar {V} (s : St V) : Nat → Stream → Out V Stream
  | 0, _ => .bad .fuel
  | n + 1, st => (must MAXLNLEN 0 s st).bind fun r => if isHead r.1 then .ok r.2 else toVar s n r.2

/-- read_vars.c:283-301: `k` more names of dimensions, from number `i` on. -/
def dimNames {V} (s : St V) (dims : List (List Char)) : Nat → Nat → Stream → Out V Stream
  | 0, _, st => .ok st
  | k + 1, i, st =>
    (must MAXDIMLEN 1 s st).bind fun r =>
      if r.1.dropLast = "PRIVATE".toList then dimNames s dims k (i + 1) r.2
      else
        match dims[i]? with
        | none => .bad .dimen
        | some d => if r.1.dropLast ≠ d then .ret 1 s else dimNames s dims k (i + 1) r.2

/-- read_vars.c:355-382: `k` more values, from number `i` on. -/
def values {V} (conv : List Char → V) (key : List Char) : Nat → Nat → St V → Stream → Out V (St V × Stream)
  | 0, _, s, st => .ok (s, st)
  | k + 1, i, s, st =>
    (must MAXLNLEN 1 s st).bind fun r =>
      match find s.vars key with
      | none => .bad .fuel
      | some v =>
        if i < v.vals.length then
          values conv key k (i + 1)
            { s with vars := update key (fun v => { v with vals := v.vals.set i (conv r.1) }) s.vars } r.2
        else .bad .storage

/-- read_vars.c:262-382: a variable that is declared. -/
def readVar {V} (conv : Ty → List Char → V) (s : St V) (v : Var V) (st : Stream) : Out V (St V × Stream) :=
  (must MAXLNLEN 1 s st).bind fun a =>
    let s1 := { s with vars := update v.key (fun v => { v with ndimen := atoi a.1 }) s.vars }
    if atoi a.1 = 0 then .ret 1 s1
    else
      (dimNames s1 v.dims (atoi a.1).toNat 0 a.2).bind fun st1 =>
        (must MAXLNLEN 1 s1 st1).bind fun b =>
          if atoi b.1 ≠ v.size then .ret 1 s1
          else
            (must MAXLNLEN 1 s1 b.2).bind fun c =>
              if atoi c.1 = 0 then .ret 1 s1
              else if atoi c.1 ≠ v.type.code then .ret 1 s1
              else values (conv v.type) v.key v.size 0 s1 c.2

/-- read_vars.c:238-390: the variables. -/
def varLoop {V} (conv : Ty → List Char → V) (fuel : Nat) : Nat → St V → Stream → Out V Unit
  | 0, _, _ => .bad .fuel
  | n + 1, s, st =>
    if st.eof then .ret 0 s
    else
      (toVar s fuel st).bind fun st1 =>
        (must MAXKEYLEN 1 s st1).bind fun k =>
          match find s.vars k.1.dropLast with
          | none => varLoop conv fuel n s k.2
          | some v => (readVar conv s v k.2).bind fun x => varLoop conv fuel n x.1 x.2

/-- The text from a position of the line on, `&(line[n])`.  Behind the end of the line the buffer has the
rest of the line before it.  read_vars.c:131, 155-156. -/
def dropTo {V} (n : Nat) (l : List Char) : Out V (List Char) := if l.length < n then .bad .stale else .ok (l.drop n)

/-- read_vars.c:87-390 (`read_vars`). -/
def read {V} (conv : Ty → List Char → V) (s : St V) (file : Option (List Char)) : Out V Unit :=
  match file with
  | none => .ret 0 s
  | some text =>
    let fuel := text.length + 1
    (must MAXINFOLEN 0 s (openText text)).bind fun a =>                    -- lines 116-121
      let s1 := { s with info := a.1 }
      (must MAXINFOLEN 0 s1 a.2).bind fun b =>                             -- lines 126-131
        (dropTo 11 b.1).bind fun nt =>
          let s2 := { s1 with nstep := atoi nt }
          (must MAXINFOLEN 0 s2 b.2).bind fun c =>                         -- lines 136-139
            (must MAXINFOLEN 0 s2 c.2).bind fun d =>                       -- lines 150-156
              (dropTo 16 d.1).bind fun dt =>
                let s3 := { s2 with delta := conv .double dt, next := conv .double dt }
                (dimLoop s3 fuel fuel d.2).bind fun st => varLoop conv fuel fuel s3 st

/-! ## Writing -/

/-- A variable, save_vars.c:149-189. -/
def saveVar {V} (show_ : Ty → V → List Char) (v : Var V) : List Char :=
  line "####".toList ++ line v.key ++
  (if v.priv then line ['1'] ++ line "PRIVATE".toList
    else line (intText v.ndimen ++ [' ']) ++ (v.dims.take v.ndimen.toNat).flatMap line) ++
  line (digitsOf v.size ++ [' ']) ++ line (digitsOf v.type.code ++ [' ']) ++
  (v.vals.take v.size).flatMap fun x => line (show_ v.type x ++ [' '])

/-- A dimension, save_vars.c:135-141. -/
def saveDim (d : List Char × Int) : List Char := line "####".toList ++ line d.1 ++ line (intText d.2)

/-- save_vars.c:88-195 (`save_vars`): the text of the file. -/
def save {V} (show_ : Ty → V → List Char) (showF : V → List Char) (s : St V) : List Char :=
  line (s.info.takeWhile fun c => c ≠ '\n') ++
  line ("last nstep ".toList ++ intText s.nstep) ++
  line ("last julian time ".toList ++ showF s.now) ++
  line ("last delta time ".toList ++ showF s.delta) ++
  line "** Dimensions **".toList ++ s.dims.flatMap saveDim ++
  line varLabel ++ s.vars.flatMap (saveVar show_)

end Verif.VarFile
