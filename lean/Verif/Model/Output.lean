import Verif.Model.Params
import Verif.Spec.StorageBinList
import Mathlib.Data.Rat.Defs
/-
The output files written by the framework during a run: the statistic variable file and the animation
files.  mmf_c/src/batch_run_functions.c (`single_run_pre_init`, `single_run_post_run`), create_vstats.c,
write_vstats.c, check_vars.c; and the order of the hooks in batch_run.c (`BATCH_run`).

Values are rationals; the conversions of numbers to text (`%f`, `%lf`, `%ld`, `%10.3e`, `%14.6e`,
`%10ld` of the C library) are parameters.  Opening a file succeeds.
-/
namespace Verif.Output
open Verif.CText Verif.Params
open Verif.Sbl (intText)

/-- A `char *` (check_vars.c:85). -/
abbrev Text := List Char

/-- `M_LONG`, `M_FLOAT`, `M_DOUBLE`, `M_STRING`, defs.h. -/
inductive VType where
  | long | float | double | string
deriving DecidableEq

/-- `DIMEN` (structs.h): name and value.  Dimensions are compared by address in the code; names are
unique (C07). -/
structure Dimen where
  name : Text
  value : Nat
deriving DecidableEq

/-- `PUBVAR` (structs.h): name, type and dimensions. -/
structure Pub where
  name : Text
  type : VType
  dims : List Dimen
deriving DecidableEq

/-- The values of all variables at one moment: `PUBVAR.value` (structs.h) by name and offset. -/
abbrev Mem := Text → Int → Rat

/-- The text up to the first dot.  check_vars.c:91-93, 166-168, create_vstats.c:117-119,
batch_run_functions.c:327-329. -/
def keyOf (n : Text) : Text := n.takeWhile (· ≠ '.')

/-- `CHECK_stat_vars`, check_vars.c:80-106: `some true` if every entry is valid.  `none`: the name does
not fit `buf` (undefined behaviour). -/
def checkStat (vars : Text → Option Pub) : List (Text × Text) → Option Bool
  | [] => some true
  | (n, e) :: r =>
    if 80 ≤ n.length then none
    else
      match vars (keyOf n) with
      | none => (checkStat vars r).map fun _ => false
      | some v =>
        match checkIndices (v.dims.map (·.value)) e with
        | none => none
        | some c => (checkStat vars r).map fun b => decide (c = 0) && b

/-- `STAT_LIST_TYPE` (structs.h:109-115): type and address, `none` for NULL. -/
structure Slot where
  type : VType
  addr : Option (Text × Int)
deriving DecidableEq

/-- The key looked up by `GetElemAddress`: cut at the first blank after leading blanks,
get_elem_add.c:247-261, 272. -/
def cutKey (k : Text) : Text :=
  k.takeWhile (· = ' ') ++ (k.dropWhile (· = ' ')).takeWhile (· ≠ ' ')

/-- `GetElemAddress` for a variable, get_elem_add.c:229-369; outer `none` is undefined behaviour. -/
def elemAddr (vars : Text → Option Pub) (key elem : Text) : Option (Option (Text × Int)) :=
  match vars (cutKey key) with
  | none => some none
  | some v =>
    match elemOffset (v.dims.map (·.value)) elem with
    | none => none
    | some o => some (if v.type = .string then none else some (v.name, o))

/-- `create_vstats`, create_vstats.c:104-133.  `none`: the name does not fit `key` (undefined
behaviour) or the variable does not exist (the program ends). -/
def createStats (vars : Text → Option Pub) : List (Text × Text) → Option (List Slot)
  | [] => some []
  | (n, e) :: r =>
    if 50 ≤ n.length then none
    else
      match elemAddr vars (keyOf n) e, vars (keyOf n) with
      | some a, some v => (createStats vars r).map (⟨v.type, a⟩ :: ·)
      | _, _ => none

/-- The values of one line, write_vstats.c:69-106.  `none`: a NULL address is read. -/
def writeVals (fmt : VType → Rat → Text) (mem : Mem) : List Slot → Option Text
  | [] => some []
  | s :: r =>
    match s.type, s.addr with
    | .string, _ => writeVals fmt mem r
    | t, some (n, o) => (writeVals fmt mem r).map (fmt t (mem n o) ++ ' ' :: ·)
    | _, none => none

/-- `write_vstats`, write_vstats.c:52-110; `nums` are the step number, year, month, day, hour, minute,
second. -/
def writeStats (fmt : VType → Rat → Text) (slots : List Slot) (nums : List Int) (mem : Mem) : Option Text :=
  (writeVals fmt mem slots).map fun t => (nums.flatMap fun x => intText x ++ [' ']) ++ (t ++ ['\n'])

/-- The lines written in all steps of a run, batch_run_functions.c:611-612. -/
def writeSteps (fmt : VType → Rat → Text) (slots : List Slot) : List (List Int × Mem) → Option Text
  | [] => some []
  | s :: r =>
    match writeStats fmt slots s.1 s.2 with
    | none => none
    | some t => (writeSteps fmt slots r).map (t ++ ·)

/-- The first lines of the file, batch_run_functions.c:305-308. -/
def statHeader (pairs : List (Text × Text)) : Text :=
  decimal pairs.length ++ '\n' :: pairs.flatMap fun p => p.1 ++ ' ' :: (p.2 ++ ['\n'])

/-- What becomes of an output file. -/
inductive Outcome (α : Type) where
  /-- not asked for -/
  | off
  /-- a requested variable is not valid; the run does not start -/
  | refused
  /-- undefined behaviour or abnormal end -/
  | ub
  | file (x : α)
deriving DecidableEq

/-- The statistic variable file of a run: batch_run_functions.c:212-219, 234-237, 247-248, 290-309,
611-612.  `n` is `nstatVars` (not negative), `names` and `elems` the arrays given in the control file;
reading past them is undefined behaviour. -/
def statRun (vars : Text → Option Pub) (fmt : VType → Rat → Text) (onOff : Int) (n : Nat) (names elems : List Text)
    (steps : List (List Int × Mem)) : Outcome Text :=
  if onOff ≠ 1 ∨ n = 0 then .off
  else if names.length < n ∨ elems.length < n then .ub
  else
    let pairs := (names.zip elems).take n
    match checkStat vars pairs with
    | none => .ub
    | some false => .refused
    | some true =>
      match createStats vars pairs with
      | none => .ub
      | some slots =>
        match writeSteps fmt slots steps with
        | none => .ub
        | some t => .file (statHeader pairs ++ t)

/-! ### Animation files -/

/-- The variables of the request, batch_run_functions.c:325-337, after `CHECK_ani_vars`,
check_vars.c:157-181: `none` for a name that does not fit `buf`, `some none` for an unknown variable. -/
def aniVars (vars : Text → Option Pub) : List Text → Option (Option (List Pub))
  | [] => some (some [])
  | n :: r =>
    if 80 ≤ n.length then none
    else
      match aniVars vars r with
      | none => none
      | some l => some (match vars (keyOf n), l with
        | some v, some l => some (v :: l)
        | _, _ => none)

/-- A variable with its first dimension, `dimen[0]`; `none` if there is none (the array has no
elements).  batch_run_functions.c:346. -/
def withDim (v : Pub) : Option (Pub × Dimen) := v.dims.head?.map fun d => (v, d)

/-- The list of different first dimensions, batch_run_functions.c:342-353. -/
def aniDims (vs : List (Pub × Dimen)) : List Dimen :=
  vs.foldl (fun acc v => if v.2 ∈ acc then acc else acc ++ [v.2]) []

/-- The file a variable is mapped to, batch_run_functions.c:375-381: the last matching dimension. -/
def fileOf (dims : List Dimen) (d : Dimen) : Nat :=
  (List.range dims.length).foldl (fun f j => if dims[j]? = some d then j else f) 0

/-- Contents of the files, by the number of the dimension (`ani_out_files`). -/
abbrev Files := Nat → Text

/-- `fprintf` to file `i`.  batch_run_functions.c:367-658. -/
def emit (fs : Files) (i : Nat) (t : Text) : Files := fun k => if k = i then fs k ++ t else fs k

/-- A loop writing to each file, e.g. batch_run_functions.c:389-391. -/
def eachDim (dims : List Dimen) (g : Dimen → Text) (fs : Files) : Files :=
  (List.range dims.length).foldl (fun fs i => match dims[i]? with
    | some d => emit fs i (g d)
    | none => fs) fs

/-- A loop writing for each variable to its file, e.g. batch_run_functions.c:386-387. -/
def eachVar (dims : List Dimen) (g : Pub → Text) (vs : List (Pub × Dimen)) (fs : Files) : Files :=
  vs.foldl (fun fs v => emit fs (fileOf dims v.2) (g v.1)) fs

/-- The first lines of the files, batch_run_functions.c:360-419. -/
def aniHeader (dims : List Dimen) (vs : List (Pub × Dimen)) : Files :=
  let fs := eachDim dims (fun d => "#\n# Begin DBF\n# timestamp,#FIELD_ISODATETIME,19,0\n# ".toList ++
    (d.name ++ ",#FIELD_DECIMAL,10,2\n".toList)) fun _ => []
  let fs := eachVar dims (fun v => "# ".toList ++ (v.name ++ ",#FIELD_DECIMAL,10,2\n".toList)) vs fs
  let fs := eachDim dims (fun _ => "# End DBF\n#\n".toList) fs
  let fs := eachDim dims (fun d => "timestamp\t".toList ++ d.name) fs
  let fs := eachVar dims (fun v => '\t' :: v.name) vs fs
  let fs := eachDim dims (fun _ => ['\n']) fs
  let fs := eachDim dims (fun _ => "19d\t10n".toList) fs
  let fs := eachVar dims (fun _ => "\t10n".toList) vs fs
  eachDim dims (fun _ => ['\n']) fs

/-- One variable of one line, batch_run_functions.c:637-657, when writing dimension number `i` (`d`),
element `j`.  An integer goes to the file of the variable with the number of the dimension (line 652);
`vs[i]?` exists as there are no more dimensions than variables. -/
def aniCell (fmt : VType → Rat → Text) (dims : List Dimen) (vs : List (Pub × Dimen)) (mem : Mem) (i : Nat) (d : Dimen)
    (j : Nat) (fs : Files) (v : Pub × Dimen) : Files :=
  if v.2 = d then
    match v.1.type with
    | .double => emit fs (fileOf dims v.2) ('\t' :: fmt .double (mem v.1.name j))
    | .float => emit fs (fileOf dims v.2) ('\t' :: fmt .float (mem v.1.name j))
    | .long =>
      match vs[i]? with
      | some w => emit fs (fileOf dims w.2) ('\t' :: fmt .long (mem v.1.name j))
      | none => fs
    | .string => fs
  else fs

/-- One line, batch_run_functions.c:629-658.  `stamp` is the text of the time, `num` that of an element
number (`%10ld`). -/
def aniLine (fmt : VType → Rat → Text) (num : Nat → Text) (dims : List Dimen) (vs : List (Pub × Dimen)) (stamp : Text)
    (mem : Mem) (i : Nat) (d : Dimen) (fs : Files) (j : Nat) : Files :=
  let fs := emit fs i (stamp ++ '\t' :: num (j + 1))
  let fs := vs.foldl (aniCell fmt dims vs mem i d j) fs
  emit fs i ['\n']

/-- One step, batch_run_functions.c:617-661. -/
def aniStep (fmt : VType → Rat → Text) (num : Nat → Text) (dims : List Dimen) (vs : List (Pub × Dimen)) (fs : Files)
    (s : Text × Mem) : Files :=
  (List.range dims.length).foldl (fun fs i => match dims[i]? with
    | some d => (List.range d.value).foldl (aniLine fmt num dims vs s.1 s.2 i d) fs
    | none => fs) fs

/-- The animation files of a run, each with the dimension that gives its name: batch_run_functions.c:221-228,
239-242, 314-421, 617-661.  `n` is `naniOutVars`. -/
def aniRun (vars : Text → Option Pub) (fmt : VType → Rat → Text) (num : Nat → Text) (onOff : Int) (n : Nat)
    (names : List Text) (steps : List (Text × Mem)) : Outcome (List (Dimen × Text)) :=
  if onOff ≠ 1 ∨ n = 0 then .off
  else if names.length < n then .ub
  else
    match aniVars vars (names.take n) with
    | none => .ub
    | some none => .refused
    | some (some vs) =>
      match vs.mapM withDim with
      | none => .ub
      | some vs =>
        let dims := aniDims vs
        let fs := steps.foldl (aniStep fmt num dims vs) (aniHeader dims vs)
        .file (dims.mapIdx fun i d => (d, fs i))

/-! ### The order of a run -/

/-- What happens in a run: batch_run.c:84-150 with batch_run_functions.c. -/
inductive Event where
  /-- output files are opened and their first lines written -/
  | opened
  | initialized
  /-- variables are read from the state file -/
  | restored
  /-- a line is added to the output files -/
  | lines
  | cleaned
  /-- output files are closed -/
  | closed
  | saved
deriving DecidableEq

/-- Answers of the parts called by `BATCH_run`: whether `single_run_pre_init` succeeds, whether the modules
can be initialized, whether each step of the data succeeds in the modules, whether the modules can be
cleaned up; and the control variables `init_vars_from_file`, `save_vars_to_file`. -/
structure Parts where
  pre : Bool
  init : Bool
  steps : List Bool
  cleanup : Bool
  restore : Bool
  save : Bool

/-- The main loop, batch_run.c:111-132: the events, and whether it reached the end of the data.  The
file tested in `single_run_pre_run` (a Windows path with backslashes) does not exist. -/
def mainLoop : List Bool → List Event × Bool
  | [] => ([], true)
  | true :: r => (.lines :: (mainLoop r).1, (mainLoop r).2)
  | false :: _ => ([], false)

/-- `single_run_post_cleanup`, batch_run_functions.c:696-750; `started` is set by each step. -/
def postCleanup (p : Parts) : List Event :=
  .closed :: (if p.steps = [] then [] else if p.save then [.saved] else [])

/-- `BATCH_run`, batch_run.c:84-150. -/
def batch (p : Parts) : List Event :=
  if !p.pre then []
  else .opened ::
    (if !p.init then []
     else .initialized :: ((if p.restore then [.restored] else []) ++
      ((mainLoop p.steps).1 ++
        (if (mainLoop p.steps).2 then (if p.cleanup then .cleaned :: postCleanup p else []) else []))))

end Verif.Output
