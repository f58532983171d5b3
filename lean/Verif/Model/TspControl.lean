import Verif.Model.TspNames
/-
The control file of TSPROC: tsproc-trunk/tsproc-master/src, files tsp_command_processors.F90 (C), tsp_main.F90, tsp_main_loop.F90 (L),
tsp_utilities.F90 (U): `linesplit`, `getfile`, `get_next_block`, `Process_Settings`, `get_context`, `test_context`, `find_end`, the loop
over the blocks.

Simplifications: a character is its code; a line is the list of its characters, without the blanks Fortran adds at the end.  What a block
does once it is read is left open: a function of the block and of the store of series and tables, with `none` for an error.  A block
that is processed is read to its end before anything is done; the processors look at each keyword as they read, and end with an error
at the first bad one, so only the message differs.  Messages and the record file are left out.  Errors of the operating system while reading
(labels 9000) are left out.  The preprocessor branch UNROLL_CONTROL_FILE (L:25-240) is not built and not modelled.
-/
namespace Verif.TspCtl

open Verif.Tsp (lower)

/-- The codes of the characters of a text. -/
def codes (s : String) : List Nat := s.toList.map Char.toNat

/-- Without the blanks at the end (`trim`, `len_trim`). -/
def trimR (l : List Nat) : List Nat := (l.reverse.dropWhile (· == 32)).reverse

/-- `read(…,'(a)') cline` with `character (len=400) cline`, tsp_data_structures.F90:262. -/
def cut (l : List Nat) : List Nat := trimR (l.take 400)

/-- Blank, comma and tab, U:491. -/
def isSep (c : Nat) : Bool := c == 32 || c == 44 || c == 9

/-- Lines that all readers pass over, C:1889-1890. -/
def noise (l : List Nat) : Bool := cut l = [] || (cut l).head? = some 35

/-- `casetrans` to upper case, U:396-428. -/
def upper (c : Nat) : Nat := if 97 ≤ c ∧ c ≤ 122 then c - 32 else c

/-- `linesplit(ierr,2)`, U:471-523: the first word, and the line from the second word on; `none` when there are not two words. -/
def split2 (l : List Nat) : Option (List Nat × List Nat) :=
  let s := l.dropWhile isSep
  let r := (s.dropWhile (!isSep ·)).dropWhile isSep
  if r = [] then none else some (s.takeWhile (!isSep ·), r)

/-- A word in capitals in a variable of 30 characters, C:1899-1900, C:1949-1950, C:1959-1960.  (Some processors have 25 characters; no keyword
    is that long.) -/
def key (w : List Nat) : List Nat := (w.map upper).take 30

/-- `getfile`, U:1571-1636, with the line from `left_word(2)` on: text in quotes, or the word; no quote at the end of the word. -/
def getText : List Nat → Option (List Nat)
  | [] => none
  | q :: t =>
    if q = 34 ∨ q = 39 then
      let m := t.takeWhile (· != q)
      if m.length = t.length then none else if m = [] then none else some m
    else
      let w := (q :: t).takeWhile (!isSep ·)
      if w.getLast? = some 34 ∨ w.getLast? = some 39 then none else some w

/-- The variable of 25 characters that gets the text: cut, then `adjustl` (U:1631), without blanks at the end. -/
def field (w : List Nat) : List Nat := trimR ((w.take 25).dropWhile (· == 32))

/-- The name of a context, C:271-287 and C:2185-2200: no blank inside, in lower case. -/
def contextOf (r : List Nat) : Option (List Nat) :=
  match getText r with
  | none => none
  | some w => if 32 ∈ field w then none else some ((field w).map lower)

/-- Titles of blocks and their numbers, C:1962-2069 and tsp_data_structures.F90:292-329. -/
def titles : List (List Nat × Nat) :=
  [("SETTINGS", 1), ("GET_SERIES_WDM", 101), ("GET_SERIES_SSF", 102), ("GET_SERIES_PLOTGEN", 103), ("GET_MUL_SERIES_PLOTGEN", 103),
   ("GET_SERIES_TETRAD", 104), ("GET_MUL_SERIES_SSF", 105), ("GET_SERIES_UFORE_HYDRO", 106), ("GET_MUL_SERIES_GSFLOW_GAGE", 107),
   ("GET_SERIES_GSFLOW_GAGE", 107), ("GET_MUL_SERIES_STATVAR", 108), ("GET_SERIES_STATVAR", 108), ("LIST_OUTPUT", 201),
   ("ERASE_ENTITY", 301), ("REDUCE_TIME_SPAN", 302), ("SERIES_STATISTICS", 303), ("SERIES_COMPARE", 304), ("NEW_TIME_BASE", 305),
   ("VOLUME_CALCULATION", 306), ("EXCEEDENCE_TIME", 308), ("EXCEEDANCE_TIME", 308), ("FLOW_DURATION", 309), ("SERIES_EQUATION", 310),
   ("SERIES_DISPLACE", 311), ("SERIES_CLEAN", 312), ("DIGITAL_FILTER", 313), ("SERIES_BASE_LEVEL", 314), ("V_TABLE_TO_SERIES", 315),
   ("MOVING_MINIMUM", 316), ("NEW_SERIES_UNIFORM", 317), ("SERIES_DIFFERENCE", 318), ("PERIOD_STATISTICS", 319), ("USGS_HYSEP", 321),
   ("HYDRO_PEAKS", 320), ("HYDRO_EVENTS", 323), ("HYDROLOGIC_INDICES", 322), ("WRITE_PEST_FILES", 401)].map fun p => (codes p.1, p.2)

/-- The number of a title. -/
def titleNo (t : List Nat) : Option Nat := titles.lookup t

/-- A block as its processor has read it: number of its title, contexts, other lines. -/
structure TBlock where
  no : Nat
  contexts : List (List Nat)
  body : List (List Nat)
deriving DecidableEq, Repr

/-- State of a run: `Context_g`, `IProcSetting_g`, `NumProcBloc_g`, `lastblock`, `datespec`, the series and tables; `log` is the blocks that
    were processed, for the statements only. -/
structure TState (σ : Type) where
  ctx : List Nat
  settings : Bool
  num : Nat
  last : Option Nat
  date : Nat
  store : σ
  log : List TBlock

/-- How a run ends: no more blocks (C:2108-2121), a bad header of a block (C:2129-2131; the loop of tsp_main.F90:99 is left in the same way), an
    error in a block (L:443-446).  None of them sets a return code. -/
inductive Ends | done | header | block
deriving DecidableEq, Repr

/-- The `CONTEXT` lines at the head of a block, `get_context` (C:243-294) as called by all processors, up to the first line with another
    keyword. -/
def contextsOf : List (List Nat) → List (List Nat) → Option (List (List Nat) × List Nat × List (List Nat))
  | [], _ => none
  | l :: ls, acc =>
    if noise l then contextsOf ls acc
    else match split2 (cut l) with
      | none => none
      | some (w, r) =>
        if key w = codes "CONTEXT" then
          if 5 ≤ acc.length then none
          else match contextOf r with
            | none => none
            | some c => contextsOf ls (acc ++ [c])
        else some (acc, l, ls)

/-- `test_context`, C:709-712. -/
def active (ctx : List Nat) (cs : List (List Nat)) : Bool := ctx ∈ cs || codes "all" ∈ cs

/-- `find_end`, C:1871-1902: the lines after the next `END`. -/
def findEnd : List (List Nat) → Option (List (List Nat))
  | [] => none
  | l :: ls =>
    if noise l then findEnd ls
    else match split2 (cut l) with
      | none => none
      | some (w, _) => if key w = codes "END" then some ls else findEnd ls

/-- The lines of a block that is processed, up to `END`; `CONTEXT` after another keyword is an error. -/
def bodyOf : List (List Nat) → List (List Nat) → Option (List (List Nat) × List (List Nat))
  | [], _ => none
  | l :: ls, acc =>
    if noise l then bodyOf ls acc
    else match split2 (cut l) with
      | none => none
      | some (w, _) =>
        if key w = codes "CONTEXT" then none
        else if key w = codes "END" then some (acc, ls)
        else bodyOf ls (acc ++ [cut l])

/-- A processor of a block: WRITE_PEST_FILES must come after LIST_OUTPUT (tsp_output.F90:87-92); contexts; when none is wanted the lines after the
    first line with another keyword are searched for `END`. -/
def blockStep {σ : Type} (f : TBlock → σ → Option σ) (st : TState σ) (no : Nat) (ls : List (List Nat)) :
    Option (TState σ × List (List Nat)) :=
  if no = 401 ∧ st.last ≠ some 201 then none
  else match contextsOf ls [] with
    | none => none
    | some (cs, l, rest) =>
      if cs = [] then none
      else if active st.ctx cs then
        match bodyOf (l :: rest) [] with
        | none => none
        | some (b, rest') =>
          match f ⟨no, cs, b⟩ st.store with
          | none => none
          | some s => some ({ st with store := s, last := some no, log := st.log ++ [⟨no, cs, b⟩] }, rest')
      else match findEnd rest with
        | none => none
        | some rest' => some ({ st with last := some no }, rest')

/-- The text of DATE_FORMAT, C:2206-2224. -/
def dateSpec (r : List Nat) : Option Nat :=
  match getText r with
  | none => none
  | some w =>
    let d := (field w).map lower
    if d.take 2 = codes "dd" ∧ (d.drop 3).take 2 = codes "mm" then some 1
    else if d.take 2 = codes "mm" ∧ (d.drop 3).take 2 = codes "dd" then some 2
    else none

/-- The lines of SETTINGS, C:2160-2245; `ov` is the context of the command line, without the blanks at its end. -/
def settingsLoop (ov : List Nat) : List (List Nat) → List Nat → Option Nat → Option (List Nat × Option Nat × List (List Nat))
  | [], _, _ => none
  | l :: ls, ctx, date =>
    if noise l then settingsLoop ov ls ctx date
    else match split2 (cut l) with
      | none => none
      | some (w, r) =>
        if key w = codes "CONTEXT" then
          if ctx ≠ [] ∧ ov = [] then none
          else match contextOf r with
            | none => none
            | some c => settingsLoop ov ls c date
        else if key w = codes "DATE_FORMAT" then
          match dateSpec r with
          | none => none
          | some d => settingsLoop ov ls ctx (some d)
        else if key w = codes "END" then some (ctx, date, ls)
        else none

/-- `Process_Settings`, C:2138-2284: the context of the command line comes in place of that of the block, as it is written. -/
def settingsStep {σ : Type} (ov : List Nat) (st : TState σ) (ls : List (List Nat)) : Option (TState σ × List (List Nat)) :=
  match settingsLoop ov ls st.ctx none with
  | none => none
  | some (ctx, date, rest) =>
    if ctx = [] ∧ ov = [] then none
    else match date with
      | none => none
      | some d =>
        if ov ≠ [] then
          if 32 ∈ ov then none else some ({ st with ctx := ov, settings := true, date := d, last := some 1 }, rest)
        else some ({ st with ctx := ctx, settings := true, date := d, last := some 1 }, rest)

/-- What `get_next_block` finds. -/
inductive Head | eof | bad | got (no : Nat) (rest : List (List Nat))
deriving DecidableEq, Repr

/-- `get_next_block`, C:1922-2131. -/
def nextBlock (settings : Bool) (num : Nat) : List (List Nat) → Head
  | [] => .eof
  | l :: ls =>
    if noise l then nextBlock settings num ls
    else match split2 (cut l) with
      | none => .bad
      | some (w, r) =>
        if key w ≠ codes "START" then .bad
        else match titleNo (key (r.takeWhile (!isSep ·))) with
          | none => .bad
          | some no =>
            if no = 1 then (if settings then .bad else if num + 1 ≠ 1 then .bad else .got no ls)
            else if settings then .got no ls else .bad

/-- The loop over the blocks, tsp_main.F90:96-103 and `processBlock`, L:305-450.  A block takes at least one line, so `fuel` above the number of
    lines is enough (`loop_fuel`). -/
def loop {σ : Type} (f : TBlock → σ → Option σ) (ov : List Nat) : Nat → TState σ → List (List Nat) → TState σ × Ends
  | 0, st, _ => (st, .done)
  | fuel + 1, st, ls =>
    match nextBlock st.settings st.num ls with
    | .eof => (st, .done)
    | .bad => (st, .header)
    | .got no rest =>
      match (if no = 1 then settingsStep ov { st with num := st.num + 1 } rest else blockStep f { st with num := st.num + 1 } no rest) with
      | none => (st, .block)
      | some (st', rest') => loop f ov fuel st' rest'

/-- A run of TSPROC: `arg` is the third argument of the command line, in a variable of 25 characters (tsp_main.F90:29-48); initial values
    from L:274-285. -/
def runTsp {σ : Type} (f : TBlock → σ → Option σ) (arg : List Nat) (s : σ) (ls : List (List Nat)) : TState σ × Ends :=
  loop f (trimR (arg.take 25)) (ls.length + 1) ⟨[], false, 0, none, 0, s, []⟩ ls

end Verif.TspCtl
