import Verif.Model.SelOut
/-
Model of one chemistry instance (IPhreeqcMMS/IPhreeqc/src/IPhreeqc.cpp, ErrorReporter.hxx) and of the
instance registry (IPhreeqcLib.cpp).

The chemistry itself is an arbitrary `Engine`: for every state and input text it produces an arbitrary
sequence of the calls it makes back into the instance (messages, selected-output values), and then
either returns or throws `IPhreeqcStop`.  Everything proved holds for every engine.

Simplifications: texts are lists of characters; maps from user numbers are functions; the output, log,
error, dump and selected-output *files*, the dump string, the component lists and the BASIC callbacks
are left out; memory allocation never fails and the engine throws nothing but `IPhreeqcStop`; a
crash (dereference of a null table pointer) is the result `none`.
-/
namespace Verif.IPq
open Verif.SelOut (Cell Table)

/-- The characters of a `std::string` (IPhreeqc.hpp:923-1000). -/
abbrev Text := List Char

/-- The loop `while (std::getline(iss, line)) lines.push_back(line)` (IPhreeqc.cpp:1520-1525 and five
more places). -/
def getlines : Text → List Text
  | [] => []
  | c :: r =>
    if c = '\n' then [] :: getlines r
    else
      match getlines r with
      | [] => [[c]]
      | l :: ls => (c :: l) :: ls

/-- What the engine calls while it runs.
The entry points are IPhreeqc.cpp:1587-1673, 1764-1835 and 1247-1267. -/
inductive Ev (F : Type) where
  /-- `read_input` returned; the user numbers of the selected-output blocks now defined
  (IPhreeqc.cpp:1247-1267). -/
  | blocks (ks : List Int)
  /-- The engine changes `output_on`, `log_on`, `punch_on` (PHRQ_io.h:63,73,83). -/
  | flags (out log punch : Bool)
  | output (s : Text)
  | log (s : Text)
  | error (s : Text)
  | warning (s : Text)
  /-- `punch_msg` while block `n` is current. -/
  | punchMsg (n : Int) (s : Text)
  /-- `fpunchf` while block `n` is current: the formatted text, the heading and the value. -/
  | punch (n : Int) (s key : Text) (v : Cell F)
  /-- `fpunchf_end_row` while block `n` is current, with the USER_PUNCH headings not yet filled. -/
  | endRow (n : Int) (missing : List Text)

/-- What one engine run does: its calls, whether it ended with a stop, the error count, the new state.
IPhreeqc.cpp:1220-1501 (`do_run`); a stop is the exception caught at IPhreeqc.cpp:757-775 and alike. -/
structure Outcome (F E : Type) where
  evs : List (Ev F)
  stopped : Bool
  errors : Int
  next : E

/-- The chemistry engine.
What the interface uses of class `Phreeqc`: IPhreeqc.cpp:1055-1067, 1121-1125, 1220-1501. -/
structure Engine (F E : Type) where
  /-- `clean_up`, `init`, `do_initialize` (IPhreeqc.cpp:1121-1125). -/
  fresh : E
  /-- `read_database`. -/
  readDb : E → Text → Outcome F E
  /-- `do_run` from reading the input to `do_status` (IPhreeqc.cpp:1220-1501); the Boolean is `pr.all`
  (line 1384). -/
  run : E → Bool → Text → Outcome F E
  /-- The user numbers in `SelectedOutput_map`, ascending. -/
  keys : E → List Int
  /-- They are the keys of a `std::map`. -/
  keys_nodup : ∀ x, (keys x).Nodup
  /-- State and input for the database test (IPhreeqc.cpp:1055-1067). -/
  test : E → E × Text
  /-- `set_reading_database(FALSE)` (IPhreeqc.cpp:1068). -/
  endTest : E → E

/-- The state of an instance (IPhreeqc.hpp:923-1000). -/
structure Inst (F E : Type) where
  eng : E
  /-- `get_input_errors()`. -/
  errors : Int
  db : Bool
  lines : Text
  clearAcc : Bool
  err : Text
  errN : Nat
  errLines : List Text
  warn : Text
  warnN : Nat
  warnLines : List Text
  cur : Int
  strOn : Int → Option Bool
  tabs : Int → Option (Table F)
  strs : Int → Option Text
  selLines : Int → Option (List Text)
  out : Text
  outLines : List Text
  log : Text
  logLines : List Text
  /-- OutputStringOn, LogStringOn, ErrorStringOn, error_on, output_on, log_on, punch_on. -/
  outStrOn : Bool
  logStrOn : Bool
  errStrOn : Bool
  errorOn : Bool
  outputOn : Bool
  logOn : Bool
  punchOn : Bool

/-- `map[k] = v`.  Used e.g. at IPhreeqc.cpp:1052, 1256. -/
def put {β : Type} (m : Int → Option β) (k : Int) (v : β) : Int → Option β :=
  fun j => if j = k then some v else m j

/-- An empty `std::map` (after `clear()`, IPhreeqc.cpp:1072-1127). -/
def none1 {β : Type} : Int → Option β := fun _ => none

/-- The message texts, as characters.  E.g. IPhreeqc.cpp:223-232. -/
def txt (s : String) : Text := s.toList

/-- IPhreeqc.cpp:1072-1127 (`UnLoadDatabase`). -/
def unload {F E} (e : Engine F E) (i : Inst F E) : Inst F E :=
  { i with
    db := false, lines := [], clearAcc := false, err := [], errN := 0, warn := [], warnN := 0
    cur := 1, strOn := put none1 1 false, tabs := none1, strs := none1, selLines := none1
    eng := e.fresh, errors := 0 }

/-- IPhreeqc.cpp:24-68 (constructor); PHRQ_io.cpp:38-41 for the flags. -/
def create {F E} (e : Engine F E) : Inst F E :=
  unload e
    { eng := e.fresh, errors := 0, db := false, lines := [], clearAcc := false, err := [], errN := 0,
      errLines := [], warn := [], warnN := 0, warnLines := [], cur := 1, strOn := none1, tabs := none1,
      strs := none1, selLines := none1, out := [], outLines := [], log := [], logLines := [],
      outStrOn := false, logStrOn := false, errStrOn := true, errorOn := true, outputOn := true,
      logOn := false, punchOn := true }

/-- IPhreeqc.cpp:119-122 with ErrorReporter.hxx:51-57. -/
def addError {F E} (i : Inst F E) (s : Text) : Inst F E := { i with err := i.err ++ s, errN := i.errN + 1 }

/-- IPhreeqc.cpp:124-127. -/
def addWarning {F E} (i : Inst F E) (s : Text) : Inst F E :=
  { i with warn := i.warn ++ s, warnN := i.warnN + 1 }

/-- IPhreeqc.cpp:1560-1585. -/
def updateErrors {F E} (i : Inst F E) : Inst F E :=
  { i with errLines := getlines i.err, warnLines := getlines i.warn }

/-- IPhreeqc.cpp:1646-1654. -/
def outputMsg {F E} (i : Inst F E) (s : Text) : Inst F E :=
  if i.outStrOn ∧ i.outputOn then { i with out := i.out ++ s } else i

/-- IPhreeqc.cpp:1587-1595. -/
def logMsg {F E} (i : Inst F E) (s : Text) : Inst F E :=
  if i.logStrOn ∧ i.logOn then { i with log := i.log ++ s } else i

/-- IPhreeqc.cpp:1597-1623 without the stop. -/
def errorMsg {F E} (i : Inst F E) (s : Text) : Inst F E :=
  if i.errStrOn ∧ i.errorOn then addError i s else i

/-- IPhreeqc.cpp:1625-1644 with PHRQ_io.cpp:253-271. -/
def warningMsg {F E} (i : Inst F E) (s : Text) : Inst F E :=
  addWarning (outputMsg (logMsg i (s ++ ['\n'])) (s ++ ['\n'])) (s ++ ['\n'])

/-- PHRQ_io_output.cpp:272-298 (`Phreeqc::error_msg`) without the stop. -/
def engineError {F E} (i : Inst F E) (s : Text) : Inst F E :=
  let m := txt "ERROR: " ++ s ++ ['\n']
  let j := errorMsg (logMsg (outputMsg i m) m) m
  { j with errors := if i.errors ≤ 0 then 1 else i.errors }

/-- IPhreeqc.cpp:1837-1846: the argument is not used. -/
def selStringOn {F E} (i : Inst F E) (_n : Int) : Bool := (i.strOn i.cur).getD false

/-- IPhreeqc.cpp:1249-1261: one block number after `read_input`. -/
def addBlock {F E} (i : Inst F E) (k : Int) : Inst F E :=
  match i.tabs k with
  | some _ => i
  | none =>
    { i with
      tabs := put i.tabs k SelOut.init
      strs := match i.strs k with
        | some _ => i.strs
        | none => put i.strs k [] }

/-- IPhreeqc.cpp:1661-1670, 1769-1773: text for block `n`. -/
def punchText {F E} (i : Inst F E) (n : Int) (s : Text) : Inst F E :=
  if selStringOn i n ∧ i.punchOn then { i with strs := put i.strs n ((i.strs n).getD [] ++ s) } else i

/-- IPhreeqc.cpp:1138-1145: empty values for the missing headings. -/
def pushMissing {F} (t : Table F) : List Text → Option (Table F)
  | [] => some t
  | h :: hs => (SelOut.pushBack t h .empty).bind fun t' => pushMissing t' hs

/-- One call from the engine.  `none`: crash.  IPhreeqc.cpp:1129-1151, 1247-1267, 1587-1673, 1764-1835. -/
def applyEv {F E} (i : Inst F E) : Ev F → Option (Inst F E)
  | .blocks ks => some (ks.foldl addBlock i)
  | .flags o l p => some { i with outputOn := o, logOn := l, punchOn := p }
  | .output s => some (outputMsg i s)
  | .log s => some (logMsg i s)
  | .error s => some (errorMsg i s)
  | .warning s => some (warningMsg i s)
  | .punchMsg n s => some (punchText i n s)
  | .punch n s key v =>
    -- IPhreeqc.cpp:1764-1781: a missing table pointer is dereferenced
    match (punchText i n s).tabs n with
    | none => none
    | some t => (SelOut.pushBack t key v).map fun t' =>
        { punchText i n s with tabs := put (punchText i n s).tabs n t' }
  | .endRow n missing =>
    -- IPhreeqc.cpp:1129-1151
    match i.tabs n with
    | none => some i
    | some t => (pushMissing t missing).map fun t' => { i with tabs := put i.tabs n (SelOut.endRow t') }

/-- The calls of one engine run in turn (IPhreeqc.cpp:1220-1501). -/
def applyEvs {F E} : Inst F E → List (Ev F) → Option (Inst F E)
  | i, [] => some i
  | i, ev :: evs => (applyEv i ev).bind fun j => applyEvs j evs

/-- IPhreeqc.cpp:1541-1556: lines of block `n`. -/
def fillSel {F E} (i : Inst F E) (n : Int) : Inst F E :=
  if selStringOn i n then
    match i.strs n with
    | none => i
    | some s =>
      if getlines s = [] then i
      else { i with selLines := put i.selLines n ((i.selLines n).getD [] ++ getlines s) }
  else i

/-- IPhreeqc.cpp:1512-1558: the end of `do_run`. -/
def endRun {F E} (e : Engine F E) (i : Inst F E) : Inst F E :=
  let i1 := updateErrors i
  let i2 := if i1.logStrOn then { i1 with logLines := i1.logLines ++ getlines i1.log } else i1
  let i3 := if i2.outStrOn then { i2 with outLines := i2.outLines ++ getlines i2.out } else i2
  (e.keys i3.eng).foldl fillSel i3

/-- IPhreeqc.cpp:1153-1170: what `check_database` clears. -/
def clearResults {F E} (i : Inst F E) : Inst F E :=
  { i with
    err := [], errN := 0, warn := [], warnN := 0, tabs := none1, strs := none1, selLines := none1
    log := [], logLines := [], out := [], outLines := [] }

/-- `do_run` (IPhreeqc.cpp:1182-1558), including the exception caught by the caller. -/
def doRun {F E} (e : Engine F E) (i : Inst F E) (input : Text) : Option (Inst F E) :=
  let o := e.run i.eng i.outStrOn input
  (applyEvs i o.evs).map fun j =>
    let k := { j with eng := o.next, errors := o.errors }
    if o.stopped then k else endRun e k

/-- The common part of RunAccumulated, RunFile and RunString: IPhreeqc.cpp:743-754 and 789-793,
806-826 and 859-863, 876-888 and 922-926 (`check_database` 1153-1180, then the run, then
`update_errors`).  `input` is `none` if the file cannot be opened. -/
def runBody {F E} (e : Engine F E) (routine name : Text) (input : Option Text) (i : Inst F E) :
    Option (Inst F E) :=
  let i1 := clearResults i
  let i2 : Inst F E := { i1 with errors := 0 }
  let r : Option (Inst F E) :=
    if i1.db then
      match input with
      | none => some (engineError i2 (routine ++ txt ": Unable to open:\"" ++ name ++ txt "\"."))
      | some s => doRun e i2 s
    else some (engineError { i1 with errors := 1 } (routine ++ txt ": No database is loaded"))
  r.map updateErrors

/-- IPhreeqc.cpp:735-794. -/
def runAccumulated {F E} (e : Engine F E) (i : Inst F E) : Option (Inst F E) :=
  (runBody e (txt "RunAccumulated") [] (some i.lines) i).map fun j => { j with clearAcc := true }

/-- IPhreeqc.cpp:796-864; `fs` gives the text of a file that can be opened. -/
def runFile {F E} (e : Engine F E) (fs : Text → Option Text) (i : Inst F E) (name : Text) : Option (Inst F E) :=
  runBody e (txt "RunFile") name (fs name) { i with lines := [], clearAcc := false }

/-- IPhreeqc.cpp:866-927. -/
def runString {F E} (e : Engine F E) (i : Inst F E) (s : Text) : Option (Inst F E) :=
  runBody e (txt "RunString") [] (some s) { i with lines := [], clearAcc := false }

/-- IPhreeqc.cpp:578-624, 650-688. -/
def loadDb {F E} (e : Engine F E) (i : Inst F E) (name : Text) (input : Option Text) : Option (Inst F E) :=
  let i1 := unload e i
  let r : Option (Inst F E) :=
    match input with
    | none => some (engineError i1 (txt "LoadDatabase: Unable to open:\"" ++ name ++ txt "\"."))
    | some s =>
      let o := e.readDb i1.eng s
      (applyEvs i1 o.evs).map fun j => { j with eng := o.next, errors := o.errors }
  r.map fun j : Inst F E => { j with db := decide (j.errors = 0) }

/-- IPhreeqc.cpp:1055-1070. -/
def testDb {F E} (e : Engine F E) (i : Inst F E) : Option (Inst F E) :=
  let t := e.test i.eng
  (runString e { i with eng := t.1 } t.2).map fun j => { j with eng := e.endTest j.eng }

/-- IPhreeqc.cpp:626-648, 690-712. -/
def loadDatabase {F E} (e : Engine F E) (i : Inst F E) (name : Text) (input : Option Text) : Option (Inst F E) :=
  (loadDb e i name input).bind fun j => if j.errors = 0 then testDb e j else some j

/-- IPhreeqc.cpp:95-117. -/
def accumulateLine {F E} (i : Inst F E) (l : Text) : Inst F E :=
  let i1 := if i.clearAcc then { i with lines := [], clearAcc := false } else i
  { i1 with err := [], errN := 0, warn := [], warnN := 0, lines := i1.lines ++ l ++ ['\n'] }

/-- The messages of IPhreeqc.cpp:459-487. -/
def valueError (code : Int) : Text :=
  if code = -4 then txt "GetSelectedOutputValue: VR_INVALIDROW Row index out of range.\n"
  else if code = -5 then txt "GetSelectedOutputValue: VR_INVALIDCOL Column index out of range.\n"
  else txt "GetSelectedOutputValue: VR_BADVARTYPE pVar must be initialized(VarInit) and/or cleared(VarClear).\n"

/-- IPhreeqc.cpp:442-493 (`GetSelectedOutputValue`) with a non-null variable of type `ty`: new state
and result.  The number in the last message is left out. -/
def getValue {F E} (i : Inst F E) (ty row col : Int) : Option (Inst F E × SelOut.Got F) :=
  let i1 := { i with err := [], errN := 0 }
  match i1.tabs i1.cur with
  | none => some (updateErrors (addError i1 (txt "GetSelectedOutputValue: VR_INVALIDARG Invalid selected-output user number\n")), (-3, none))
  | some t =>
    (SelOut.get t ty row col).map fun g =>
      if g.1 = 0 then (i1, g) else (updateErrors (addError i1 (valueError g.1)), g)

/-- The calls a user can make on an instance.  IPhreeqc.cpp:95-1053. -/
inductive Call where
  | accumulateLine (l : Text)
  | clearAccumulatedLines
  | runAccumulated
  | runString (s : Text)
  | runFile (name : Text)
  | loadDatabase (name : Text)
  | loadDatabaseString (s : Text)
  | setCurrentSelectedOutputUserNumber (n : Int)
  | setSelectedOutputStringOn (b : Bool)
  | setOutputStringOn (b : Bool)
  | setLogStringOn (b : Bool)
  | setErrorStringOn (b : Bool)
  | setErrorOn (b : Bool)
  | addError (s : Text)
  | addWarning (s : Text)
  | getSelectedOutputValue (ty row col : Int)
deriving DecidableEq

/-- One call: new state and returned integer.
IPhreeqc.cpp:95-1053; the setters of switches are one-line assignments (986-1025). -/
def step {F E} (e : Engine F E) (fs : Text → Option Text) (i : Inst F E) : Call → Option (Inst F E × Int)
  | .accumulateLine l => some (accumulateLine i l, 0)
  -- IPhreeqc.cpp:129-132
  | .clearAccumulatedLines => some ({ i with lines := [] }, 0)
  | .runAccumulated => (runAccumulated e i).map fun j => (j, j.errors)
  | .runString s => (runString e i s).map fun j => (j, j.errors)
  | .runFile name => (runFile e fs i name).map fun j => (j, j.errors)
  | .loadDatabase name => (loadDatabase e i name (fs name)).map fun j => (j, j.errors)
  | .loadDatabaseString s => (loadDatabase e i [] (some s)).map fun j => (j, j.errors)
  -- IPhreeqc.cpp:944-952
  | .setCurrentSelectedOutputUserNumber n => some (if 0 ≤ n then ({ i with cur := n }, 0) else (i, -3))
  -- IPhreeqc.cpp:1050-1053
  | .setSelectedOutputStringOn b => some ({ i with strOn := put i.strOn i.cur b }, 0)
  | .setOutputStringOn b => some ({ i with outStrOn := b }, 0)
  | .setLogStringOn b => some ({ i with logStrOn := b }, 0)
  | .setErrorStringOn b => some ({ i with errStrOn := b }, 0)
  | .setErrorOn b => some ({ i with errorOn := b }, 0)
  | .addError s => some (addError i s, (addError i s).errN)
  | .addWarning s => some (addWarning i s, (addWarning i s).warnN)
  | .getSelectedOutputValue ty row col => (getValue i ty row col).map fun r => (r.1, r.2.1)

/-- IPhreeqc.cpp:134-137. -/
def getAccumulatedLines {F E} (i : Inst F E) : Text := i.lines

/-- IPhreeqc.cpp:221-235. -/
def getErrorString {F E} (i : Inst F E) : Text :=
  if ¬ i.errorOn then txt "GetErrorString: ErrorOn not set.\n"
  else if ¬ i.errStrOn then txt "GetErrorString: ErrorStringOn not set.\n"
  else i.err

/-- IPhreeqc.cpp:540-544. -/
def getWarningString {F E} (i : Inst F E) : Text := i.warn

/-- IPhreeqc.cpp:327-335. -/
def getOutputString {F E} (i : Inst F E) : Text :=
  if ¬ i.outStrOn then txt "GetOutputString: OutputStringOn not set.\n" else i.out

/-- IPhreeqc.cpp:272-280. -/
def getLogString {F E} (i : Inst F E) : Text :=
  if ¬ i.logStrOn then txt "GetLogString: LogStringOn not set.\n" else i.log

/-- IPhreeqc.cpp:399-413: tests whether the switch was ever set, not its value. -/
def getSelectedOutputString {F E} (i : Inst F E) : Text :=
  match i.strOn i.cur with
  | none => txt "GetSelectedOutputString: SelectedOutputStringOn not set.\n"
  | some _ => (i.strs i.cur).getD []

/-- The `Get...StringLine(n)` functions (IPhreeqc.cpp:237-245 and four more): line `n`, or an empty
text out of range. -/
def nthLine (ls : List Text) (n : Int) : Text := if n < 0 then [] else ls[n.toNat]?.getD []

/-- IPhreeqc.cpp:427-435. -/
def selOutLines {F E} (i : Inst F E) : List Text := (i.selLines i.cur).getD []

/-! ### The registry -/

/-- IPhreeqc.cpp:16-17: `InstancesIndex` and `Instances`.  `InstancesIndex` is a natural number: its
overflow after 2^64 creations is not modelled. -/
structure Reg (F E : Type) where
  next : Nat
  insts : Nat → Option (Inst F E)

/-- No instance yet, IPhreeqc.cpp:16-17. -/
def Reg.init {F E} : Reg F E := ⟨0, fun _ => none⟩

/-- `(int) Index` (IPhreeqcLib.cpp:1048). -/
def toInt (n : Nat) : Int := if n % 4294967296 < 2147483648 then ((n % 4294967296 : Nat) : Int) else ((n % 4294967296 : Nat) : Int) - 4294967296

/-- `size_t(id)` (IPhreeqcLib.cpp:1077). -/
def toIndex (id : Int) : Nat := (id % 18446744073709551616).toNat

/-- IPhreeqcLib.cpp:1072-1084. -/
def Reg.find {F E} (r : Reg F E) (id : Int) : Option (Inst F E) := r.insts (toIndex id)

/-- What a program can ask of the library.  IPhreeqcLib.cpp:18-1070. -/
inductive Req where
  | create
  | destroy (id : Int)
  | call (id : Int) (c : Call)
deriving DecidableEq

/-- Insertion into and erasure from `Instances` (IPhreeqcLib.cpp:1040-1070). -/
def setAt {F E} (m : Nat → Option (Inst F E)) (k : Nat) (v : Option (Inst F E)) : Nat → Option (Inst F E) :=
  fun j => if j = k then v else m j

/-- The C interface: IPhreeqcLib.cpp:1040-1070 for create and destroy, 18-1035 for the calls (bad
instance code -6).  `none`: crash inside an instance. -/
def Reg.step {F E} (e : Engine F E) (fs : Text → Option Text) (r : Reg F E) : Req → Option (Reg F E × Int)
  | .create => some (⟨r.next + 1, setAt r.insts r.next (some (create e))⟩, toInt r.next)
  | .destroy id =>
    if 0 ≤ id then
      match r.find id with
      | none => some (r, -6)
      | some _ => some ({ r with insts := setAt r.insts (toIndex id) none }, 0)
    else some (r, -6)
  | .call id c =>
    match r.find id with
    | none => some (r, -6)
    | some i => (IPq.step e fs i c).map fun p => ({ r with insts := setAt r.insts (toIndex id) (some p.1) }, p.2)

end Verif.IPq
