import Mathlib.Data.Rat.Defs
/-
Model of the time loop: mmf_c/src/read_line.c (`read_line`, `FILE_with_next_ts`) and the main loop of
mmf_c/src/batch_run.c (`BATCH_run`).

Simplifications: times are exact rationals (days), the code computes them in double precision; a data
line is an already decoded time with its remaining text (`EXTRACT_time`, read_line.c:666-775, decides
which lines are `bad`); the values of a line are delivered as one item.
-/
namespace Verif.TimeLoop

/-- The part of `DATETIME` (structs.h:60-63) that controls the loop: Julian day and Julian time. -/
structure Time where
  jd : Int
  jt : Rat
deriving Repr, DecidableEq

/-- A line of a data file after the header.  `read_line.c:334-348`, `EXTRACT_time` 666-775. -/
inductive Item (α : Type) where
  | record (t : Time) (d : α)
  /-- an empty line -/
  | blank
  /-- a line whose date or time is out of range -/
  | bad
deriving Repr, DecidableEq

/-- `FILE_DATA` (structs.h:99-107): the current record, whether the year field is 9999 (the code for
end of file), whether `fp` is not NULL, and the unread lines. -/
structure FileState (α : Type) where
  cur : Time × α
  atEnd : Bool
  isOpen : Bool
  rest : List (Item α)
deriving Repr, DecidableEq

/-- A file positioned on its first record (after `DATA_read_init`, read_line.c:396-460). -/
def openFile {α} (first : Time × α) (rest : List (Item α)) : FileState α := ⟨first, false, true, rest⟩

/-- Result of reading the next line of a file.  `read_line.c:334-348`. -/
inductive Adv (α : Type) where
  | ok (f : FileState α)
  /-- `EXTRACT_time` reports an error -/
  | err
  /-- `fgets` on a closed (NULL) stream -/
  | ub
deriving Repr, DecidableEq

/-- Reading the next line: read_line.c:334-348, 616-627 and 634-645 (`blankEnds`, an empty line ends the file)
and read_line.c:371-381 (not `blankEnds`: an empty line is an error, its year being 0). -/
def advance {α} (blankEnds : Bool) (f : FileState α) : Adv α :=
  if f.isOpen then
    match f.rest with
    | [] => .ok { f with atEnd := true, isOpen := false }
    | .record t d :: r => .ok { f with cur := (t, d), rest := r }
    | .blank :: r => if blankEnds then .ok { f with atEnd := true, isOpen := false, rest := r } else .err
    | .bad :: _ => .err
  else .ub

/-- Result of `FILE_with_next_ts`.  `read_line.c:589-657`. -/
inductive Pick (α : Type) where
  | ok (fs : List (FileState α)) (cur : Nat) (prevjt : Rat)
  /-- a bad line was only reported; its data would be read with the position of the line before it -/
  | stale
  | ub
deriving Repr, DecidableEq

/-- One iteration of the loop of `FILE_with_next_ts`, read_line.c:599-653, for file `i`. -/
def pickStep {α} (fs : List (FileState α)) (cur i : Nat) (prevjt : Rat) : Pick α :=
  match fs[cur]?, fs[i]? with
  | some c, some f =>
    if f.atEnd then .ok fs cur prevjt
    else if f.cur.1.jd = c.cur.1.jd then
      if f.cur.1.jt = c.cur.1.jt then .ok fs cur prevjt
      else if f.cur.1.jt < c.cur.1.jt then
        match advance true f with
        | .ok f' => .ok (fs.set i f') cur f.cur.1.jt
        | .err => .stale
        | .ub => .ub
      else
        match advance true c with
        | .ok c' => .ok (fs.set cur c') i c.cur.1.jt
        | .err => .stale
        | .ub => .ub
    else if f.cur.1.jd < c.cur.1.jd then .ok fs i prevjt
    else .ok fs cur prevjt
  | _, _ => .ub

/-- The loop over the files with indices `is`.  `read_line.c:598-654`. -/
def pickLoop {α} (fs : List (FileState α)) (cur : Nat) (prevjt : Rat) : List Nat → Pick α
  | [] => .ok fs cur prevjt
  | i :: is =>
    match pickStep fs cur i prevjt with
    | .ok fs' cur' p => pickLoop fs' cur' p is
    | .stale => .stale
    | .ub => .ub

/-- read_line.c:589-657 (`FILE_with_next_ts`): file 0 is the initial choice, even at its end. -/
def fileWithNextTs {α} (fs : List (FileState α)) (prevjt : Rat) : Pick α :=
  pickLoop fs 0 prevjt (List.range' 1 (fs.length - 1))

/-- The global state used by `read_line`: Mnsteps, the static start_of_data, Mprevjt, Mnowtime,
Mdeltat and the files.  (Mnexttime and Mdeltanext, read_line.c:353-363, are not modelled: nothing in
the loop depends on them.) -/
structure State (α : Type) where
  nsteps : Nat
  startOfData : Bool
  prevjt : Rat
  now : Time
  deltat : Rat
  files : List (FileState α)
deriving Repr, DecidableEq

/-- What the control data base fixes: start (day and time) and end time, initial_deltat (hours).
`get_times.c:57-81`, `read_line.c:182`. -/
structure Window where
  startJd : Int
  start : Rat
  stop : Rat
  initialDeltat : Rat

/-- Outcome of one call of `read_line`.  `read_line.c:166-387`. -/
inductive Ret (α : Type) where
  /-- return value 0: a record is delivered -/
  | step (st : State α) (d : α)
  /-- return value 1 (ENDOFDATA), 2 (ENDOFFILE) or 100 (ERROR_TIME) -/
  | stop (code : Nat) (st : State α)
  | stale
  | ub
  /-- recursion bound exhausted; never happens (`C17_terminates`) -/
  | fuel
deriving Repr, DecidableEq

/-- Number of unread lines of all files.
Not in the code: the bound on the number of iterations of `read_line.c:194-383`. -/
def unread {α} (fs : List (FileState α)) : Nat := (fs.map fun f => f.rest.length).sum

/-- read_line.c:267-288: the time increment for the record at `jt` (the increment and the previous
time are updated; `none`: the data run backwards). -/
def increment (jt prevjt deltat : Rat) : Option (Rat) :=
  if jt < prevjt then none
  else if jt - prevjt < 115 / 10000000 then some 1
  else if prevjt < 0 then some deltat
  else some (jt - prevjt)

/-- read_line.c:248-364: a record inside the window (`f` is file number `cur`). -/
def deliver {α} (w : Window) (st : State α) (cur : Nat) (f : FileState α) : Ret α :=
  let prevjt := if st.startOfData then st.now.jt - w.initialDeltat / 24 else st.prevjt
  let st1 := { st with startOfData := false, prevjt := prevjt, nsteps := st.nsteps + 1 }
  match increment st.now.jt prevjt st.deltat with
  | none => .stop 100 st1
  | some dt =>
    match advance true f with
    | .ok f' => .step { st1 with deltat := dt, prevjt := st.now.jt, files := st.files.set cur f' } f.cur.2
    | .err => .stop 100 { st1 with deltat := dt, prevjt := st.now.jt }
    | .ub => .ub

/-- read_line.c:194-383: the loop (first argument: bound on the number of lines skipped).
`prevtime` is the value of Mnowtime at the call. -/
def loop {α} (w : Window) (prevtime : Time) : Nat → State α → Ret α
  | 0, _ => .fuel
  | n + 1, st =>
    match fileWithNextTs st.files st.prevjt with
    | .stale => .stale
    | .ub => .ub
    | .ok fs cur p =>
      match fs[cur]? with
      | none => .ub
      | some f =>
        if f.atEnd then .stop 2 { st with files := fs, prevjt := p }
        else
          let p' := if p < 0 ∧ f.cur.1.jt - p ≤ 1 / 1000000 then (st.now.jd : Rat) else p
          let st1 := { st with files := fs, prevjt := p', now := f.cur.1 }
          if f.cur.1.jt > w.stop then .stop 1 { st1 with now := prevtime }
          else if f.cur.1.jt ≥ w.start then deliver w st1 cur f
          else
            match advance false f with
            | .ok f' => loop w prevtime n { st1 with prevjt := f.cur.1.jt, files := fs.set cur f' }
            | .err => .stop 100 { st1 with prevjt := f.cur.1.jt }
            | .ub => .ub

/-- read_line.c:166-387 (`read_line`). -/
def readLine {α} (w : Window) (st : State α) : Ret α :=
  loop w st.now (unread st.files + st.files.length + 1)
    (if st.nsteps = 0 then { st with startOfData := true, prevjt := 1 } else st)

/-- One time step as the modules see it: step number, time, increment and data.
What `batch_run.c:123` calls the modules with. -/
structure Step (α : Type) where
  nstep : Nat
  now : Time
  deltat : Rat
  data : α
deriving Repr, DecidableEq

/-- How a run ends.  `batch_run.c:84-132`. -/
inductive End where
  /-- `DATA_check_start` refuses the run -/
  | refused
  | code (n : Nat)
  | stale
  | ub
  | fuel
deriving Repr, DecidableEq

/-- batch_run.c:111-132: the main loop of `BATCH_run`; the modules are called once for every record
`read_line` delivers (their failure, batch_run.c:123-130, is not modelled).  First argument: bound
on the number of steps. -/
def runLoop {α} (w : Window) : Nat → State α → List (Step α) × End
  | 0, _ => ([], .fuel)
  | n + 1, st =>
    match readLine w st with
    | .step st' d =>
      (⟨st'.nsteps, st'.now, st'.deltat, d⟩ :: (runLoop w n st').1, (runLoop w n st').2)
    | .stop c _ => ([], .code c)
    | .stale => ([], .stale)
    | .ub => ([], .ub)
    | .fuel => ([], .fuel)

/-- read_line.c:523-538 (`DATA_check_start`): some file must have a first record not after the start
day. -/
def dataCheckStart {α} (w : Window) (files : List (FileState α)) : Bool :=
  files.any fun f => f.cur.1.jd ≤ w.startJd

/-- batch_run.c:84-132 from the state set up by `DATA_read_init`, get_times.c:79-80 (Mdeltat) and
batch_run.c:109 (Mprevjt).  `now` is the initial content of Mnowtime.  The check is made by
single_run_pre_init (batch_run_functions.c:281). -/
def batchRun {α} (w : Window) (now : Time) (files : List (FileState α)) : List (Step α) × End :=
  if dataCheckStart w files then
    runLoop w (unread files + files.length + 2) ⟨0, true, -1, now, w.initialDeltat / 24, files⟩
  else ([], .refused)

end Verif.TimeLoop
