import Verif.Model.TspControl
/-
Vocabulary for the control file of TSPROC.
-/
namespace Verif.TspCtl

/-- Blank lines and comments. -/
def Blank (l : List Nat) : Prop := (∀ c ∈ l, c = 32) ∨ l.head? = some 35

/-- Nothing of the word separates words. -/
def Word (w : List Nat) : Prop := w ≠ [] ∧ ∀ c ∈ w, c ≠ 32 ∧ c ≠ 44 ∧ c ≠ 9

/-- Blanks, commas and tabs. -/
def Seps (s : List Nat) : Prop := ∀ c ∈ s, c = 32 ∨ c = 44 ∨ c = 9

/-- A line of at most 400 characters with the words `w` and `v` in front, not a comment. -/
def Entry (l w v : List Nat) : Prop :=
  ∃ s1 s2 t, l = s1 ++ w ++ s2 ++ v ++ t ∧ l.length ≤ 400 ∧ l.head? ≠ some 35 ∧ Seps s1 ∧ Word w ∧ Seps s2 ∧ s2 ≠ [] ∧ Word v ∧
    (t = [] ∨ ∃ c t', t = c :: t' ∧ (c = 32 ∨ c = 44 ∨ c = 9))

/-- A line with its keyword and value, and the blank lines and comments before it. -/
structure Piece where
  before : List (List Nat)
  key : List Nat
  value : List Nat
  line : List Nat

/-- The piece is well formed and its keyword is `k`, in any case of letters. -/
def Piece.Is (p : Piece) (k : String) : Prop :=
  (∀ n ∈ p.before, Blank n) ∧ Entry p.line p.key p.value ∧ p.key.map upper = codes k

/-- The piece is well formed and its keyword is neither CONTEXT nor END. -/
def Piece.Other (p : Piece) : Prop :=
  (∀ n ∈ p.before, Blank n) ∧ Entry p.line p.key p.value ∧ p.key.map upper ≠ codes "CONTEXT" ∧ p.key.map upper ≠ codes "END"

/-- The lines of pieces. -/
def text (ps : List Piece) : List (List Nat) := ps.flatMap fun p => p.before ++ [p.line]

/-- A value without quotes. -/
def Plain (v : List Nat) : Prop := ∀ c ∈ v, c ≠ 34 ∧ c ≠ 39

/-- A block as it is written: START line, CONTEXT lines, other lines, END line. -/
structure Section where
  start : Piece
  ctxs : List Piece
  body : List Piece
  fin : Piece
  no : Nat

/-- The head of the block is well formed. -/
def Section.Head (s : Section) : Prop :=
  s.start.Is "START" ∧ (s.start.value.map upper, s.no) ∈ titles ∧ s.no ≠ 1 ∧
    s.ctxs ≠ [] ∧ s.ctxs.length ≤ 5 ∧ (∀ p ∈ s.ctxs, p.Is "CONTEXT" ∧ Plain p.value)

/-- The block is well formed; it has something besides its contexts. -/
def Section.OK (s : Section) : Prop := s.Head ∧ s.body ≠ [] ∧ (∀ p ∈ s.body, p.Other) ∧ s.fin.Is "END"

/-- All lines of the block. -/
def Section.lines (s : Section) : List (List Nat) := text (s.start :: s.ctxs ++ s.body ++ [s.fin])

/-- The block is meant for a context: one of its contexts has the same 25 first letters, in any case, or is `all`. -/
def Section.For (ctx : List Nat) (s : Section) : Prop :=
  ∃ p ∈ s.ctxs, (p.value.map Tsp.lower).take 25 = ctx ∨ p.value.map Tsp.lower = codes "all"

instance (ctx : List Nat) : DecidablePred (Section.For ctx) := fun s => inferInstanceAs (Decidable (∃ p ∈ s.ctxs, _))

/-- What the block asks for. -/
def Section.block (s : Section) : TBlock :=
  ⟨s.no, s.ctxs.map fun p => (p.value.map Tsp.lower).take 25, s.body.map fun p => trimR p.line⟩

/-- Blocks WRITE_PEST_FILES come right after blocks LIST_OUTPUT. -/
def PestAfterList : Option Nat → List Section → Prop
  | _, [] => True
  | last, s :: r => (s.no = 401 → last = some 201) ∧ PestAfterList (some s.no) r

/-- A date format: `dd?mm…` is 1, `mm?dd…` is 2. -/
def DateWord (v : List Nat) (d : Nat) : Prop :=
  v.length ≤ 25 ∧ ((d = 1 ∧ (v.map Tsp.lower).take 2 = codes "dd" ∧ ((v.map Tsp.lower).drop 3).take 2 = codes "mm") ∨
    (d = 2 ∧ (v.map Tsp.lower).take 2 = codes "mm" ∧ ((v.map Tsp.lower).drop 3).take 2 = codes "dd"))

/-- The block SETTINGS: its START line, CONTEXT and DATE_FORMAT in any order, END. -/
structure Settings where
  start : Piece
  ctx : Piece
  date : Piece
  fin : Piece
  ctxFirst : Bool
  spec : Nat

/-- The block SETTINGS is well formed. -/
def Settings.OK (s : Settings) : Prop :=
  s.start.Is "START" ∧ s.start.value.map upper = codes "SETTINGS" ∧ s.ctx.Is "CONTEXT" ∧ Plain s.ctx.value ∧
    s.date.Is "DATE_FORMAT" ∧ Plain s.date.value ∧ DateWord s.date.value s.spec ∧ s.fin.Is "END"

/-- All lines of SETTINGS. -/
def Settings.lines (s : Settings) : List (List Nat) :=
  text (s.start :: (if s.ctxFirst then [s.ctx, s.date] else [s.date, s.ctx]) ++ [s.fin])

/-- The context of the run: that of the command line as it is written, or else that of SETTINGS in lower case; 25 characters. -/
def Settings.context (s : Settings) (arg : List Nat) : List Nat :=
  if arg = [] then (s.ctx.value.map Tsp.lower).take 25 else arg.take 25

/-- The kinds of blocks, each with its titles. -/
def kinds : List (List String) :=
  [["SETTINGS"], ["GET_SERIES_WDM"], ["GET_SERIES_SSF"], ["GET_SERIES_PLOTGEN", "GET_MUL_SERIES_PLOTGEN"], ["GET_SERIES_TETRAD"],
   ["GET_MUL_SERIES_SSF"], ["GET_SERIES_UFORE_HYDRO"], ["GET_SERIES_GSFLOW_GAGE", "GET_MUL_SERIES_GSFLOW_GAGE"],
   ["GET_SERIES_STATVAR", "GET_MUL_SERIES_STATVAR"], ["LIST_OUTPUT"], ["ERASE_ENTITY"], ["REDUCE_TIME_SPAN"], ["SERIES_STATISTICS"],
   ["SERIES_COMPARE"], ["NEW_TIME_BASE"], ["VOLUME_CALCULATION"], ["EXCEEDENCE_TIME", "EXCEEDANCE_TIME"], ["FLOW_DURATION"],
   ["SERIES_EQUATION"], ["SERIES_DISPLACE"], ["SERIES_CLEAN"], ["DIGITAL_FILTER"], ["SERIES_BASE_LEVEL"], ["V_TABLE_TO_SERIES"],
   ["MOVING_MINIMUM"], ["NEW_SERIES_UNIFORM"], ["SERIES_DIFFERENCE"], ["PERIOD_STATISTICS"], ["USGS_HYSEP"], ["HYDRO_PEAKS"],
   ["HYDRO_EVENTS"], ["HYDROLOGIC_INDICES"], ["WRITE_PEST_FILES"]]

end Verif.TspCtl
