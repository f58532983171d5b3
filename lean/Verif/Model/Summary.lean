import Verif.Model.EndPer
import Mathlib.Data.Rat.Floor
/-
The summary module: `web_sum.F`.  It adds up the results of the steps for a storm, a day, a month, a year and the run, and
writes the tables `hydro.out` (through `opstr`) and `chem.out`.

Arithmetic is exact.  The logarithm is a parameter.  Numbers are not turned into digits: a printed number is the value with the
columns it occupies.  The two branches "the run is restarted" (`nstep.ne.0` in `sumbinit`) are not modelled, nor are the
explanations at the head of the files.
-/
namespace Verif.Summary
open Verif.EndPer

/-- The five periods of the accumulators, `web_sum.F:1404, 1490, 1601`: index 1 to 5. -/
inductive Per
  | storm | day | month | year | run
deriving DecidableEq, Repr

/-- The depths that are added up: those with a `basin_…_cm_sum(5)`.  `web_sum.F:1611-1662`. -/
inductive Flux
  | potet | et | inp | out | ppt | irrExt | irrSat | irrHyd | intcp | intcpEvap | transp | thruf | netDep | netRain | netSnow
  | snowmelt | snowEvap | surfdep | ofHort | ofDunn | sroff | infil | qdf | uzEt | gw1 | gw2 | qwet | vpref | uz2sat | recharge
  | sat2uz | qwell | qpref | gwLoss | gwFlow | stflow | chanDiv | chanLoss | qsim | qobs
deriving DecidableEq, Repr

/-- The depths that are stores, printed as they are.  `web_sum.F:1758-1787`. -/
inductive Store
  | sto | intcpSto | pweqv | soilMoist | sssto | gwSto | chanSto
deriving DecidableEq, Repr

/-- Volumes of the chemistry, `web_sum.F:1675-1684`. -/
inductive Water
  | outlet | inp | out | et
deriving DecidableEq, Repr

/-- Temperatures, pH and isotope ratios of the chemistry; solutes by number.  `web_sum.F:1676-1703`. -/
inductive Quality
  | outletTemp | outletPh | outletPermil (i : Nat) | inTemp | inPh | inPermil (i : Nat) | outTemp | outPh | outPermil (i : Nat)
  | etPermil (i : Nat)
deriving DecidableEq, Repr

/-- Moles of the chemistry, `web_sum.F:1696-1706`. -/
inductive Mass
  | outlet (i : Nat) | inp (i : Nat) | out (i : Nat) | rxn (i : Nat)
deriving DecidableEq, Repr

/-- The five objective functions, `web_sum.F:1589-1596`. -/
inductive Obj
  | abs | sq | absLog | sqLog | diff
deriving DecidableEq, Repr

/-- Results of the chemistry in a step, used by `web_sum.F:1672-1709, 1790-1835`. -/
structure ChemStep where
  water : Water → Rat
  prop : Quality → Rat
  mass : Mass → Rat
  volFinal : Rat
  permilFinal : Nat → Rat
  massFinal : Nat → Rat

/-- What a step brings: the time, `endper` and the results of the other modules.  `web_sum.F:1324-1350, 1384-1400, 1494-1567`.
`potet` is in inches, `orad` in Langleys per day. -/
structure Step where
  year : Int
  mo : Int
  day : Int
  hr : Int
  min : Int
  sec : Int
  nstep : Int
  timestep : Rat
  endper : Int
  orad : Rat
  tmax : Rat
  tmin : Rat
  potet : Rat
  depth : Flux → Rat
  store : Store → Rat
  qsim : Rat
  qobs : Rat
  chem : Option ChemStep

/-- `web_sum.F:61, 1559`. -/
def Step.watt (u : Step) : Rat := u.orad * (4833333333333 / 10000000000000)

/-- The depths of a step; potential evapotranspiration is turned into cm.  `web_sum.F:1564-1567`. -/
def Step.flux (u : Step) : Flux → Rat
  | .potet => u.potet * (254 / 100)
  | f => u.depth f

/-- Accumulators of one period.  `web_sum.F:72-123`. -/
structure Acc where
  steps : Nat
  rad : Rat
  tmax : Rat
  tmin : Rat
  flux : Flux → Rat
  qsim : Rat
  qobs : Rat
  bal : Rat
  obj : Obj → Rat
  water : Water → Rat
  prop : Quality → Rat
  mass : Mass → Rat

/-- `web_sum.F:1406-1480`. -/
def Acc.zero : Acc :=
  ⟨0, 0, -999, 999, fun _ => 0, 0, 0, 0, fun _ => 0, fun _ => 0, fun _ => 0, fun _ => 0⟩

/-- Variables that stay between steps: `lastper` with the accumulators of every period, and the storages of the step before. -/
structure State where
  per : Per → Bool × Acc
  lastSto : Rat
  lastChan : Rat

/-- `sumbinit` at the start of a run, `web_sum.F:907-917`. -/
def State.init : State := ⟨fun _ => (true, Acc.zero), 0, 0⟩

/-- A period that ended in the step before starts again.  `web_sum.F:1404-1483`. -/
def restart (x : Bool × Acc) : Bool × Acc := if x.1 then (false, Acc.zero) else x

/-- Which `lastper` are set when a step ends periods: storms as days, and the run never.  `web_sum.F:1517-1535`. -/
def marks (f : Flags) : Per → Bool
  | .storm => f.dy
  | .day => f.dy
  | .month => f.mo
  | .year => f.yr
  | .run => false

/-- The error in the water balance, `web_sum.F:1573-1579`. -/
def balance (st : State) (u : Step) : Rat :=
  if u.nstep = 1 then 0
  else u.flux .ppt + u.flux .irrExt - u.flux .et - u.flux .stflow + u.flux .gw1 + u.flux .gw2 - u.flux .gwLoss - u.flux .chanLoss +
    st.lastSto - u.store .sto + u.store .chanSto - st.lastChan

/-- `web_sum.F:1588-1596`; `log` is the natural logarithm. -/
def objective (log : Rat → Rat) (u : Step) : Obj → Rat
  | .abs => |u.qobs - u.qsim|
  | .sq => (u.qobs - u.qsim) * (u.qobs - u.qsim)
  | .absLog => |log (u.qobs + 1) - log (u.qsim + 1)|
  | .sqLog => (log (u.qobs + 1) - log (u.qsim + 1)) * (log (u.qobs + 1) - log (u.qsim + 1))
  | .diff => u.qobs - u.qsim

/-- The volume by which a property is weighted, `web_sum.F:1676-1703`. -/
def weight : Quality → Water
  | .outletTemp => .outlet
  | .outletPh => .outlet
  | .outletPermil _ => .outlet
  | .inTemp => .inp
  | .inPh => .inp
  | .inPermil _ => .inp
  | .outTemp => .out
  | .outPh => .out
  | .outPermil _ => .out
  | .etPermil _ => .et

/-- `web_sum.F:1485-1492, 1601-1711`.  The part for the chemistry is passed over without it. -/
def Acc.add (log : Rat → Rat) (u : Step) (bal : Rat) (a : Acc) : Acc :=
  { steps := a.steps + 1
    rad := a.rad + u.watt
    tmax := if u.tmax > a.tmax then u.tmax else a.tmax
    tmin := if u.tmin < a.tmin then u.tmin else a.tmin
    flux := fun f => a.flux f + u.flux f
    qsim := a.qsim + u.qsim
    qobs := a.qobs + u.qobs
    bal := a.bal + bal
    obj := fun k => a.obj k + objective log u k
    water := match u.chem with
      | none => a.water
      | some c => fun w => a.water w + c.water w
    prop := match u.chem with
      | none => a.prop
      | some c => fun p => a.prop p + c.prop p * c.water (weight p)
    mass := match u.chem with
      | none => a.mass
      | some c => fun m => a.mass m + c.mass m }

/-- The means `swrad_W_avg`, `basin_qsim_m3s_avg`, `basin_qobs_m3s_avg`, `web_sum.F:1605, 1666-1667`. -/
def Acc.mean (a : Acc) (total : Rat) : Rat := total / a.steps

/-- The accumulators of a step, `web_sum.F:1404-1711`. -/
def advance (log : Rat → Rat) (st : State) (u : Step) : State :=
  { per := fun p =>
      let x := restart (st.per p)
      (x.1 || marks (decode u.endper) p, x.2.add log u (balance st u))
    lastSto := u.store .sto
    lastChan := u.store .chanSto }

/-- The accumulators of a run. -/
def runAll (log : Rat → Rat) (us : List Step) : State := us.foldl (advance log) State.init

/-! ### What is printed -/

/-- Print switches `uprt`, `dprt`, `mprt`, `yprt`, `tprt`. -/
structure Switches where
  u : Bool
  d : Bool
  m : Bool
  y : Bool
  t : Bool
deriving DecidableEq, Repr

/-- `web_sum.F:920-964`; `dtinit` is the time step parameter. -/
def switches (printFreq : Int) (dtinit : Rat) : Switches :=
  let p0 := printFreq
  let u : Bool := p0 ≥ 16
  let p1 := if p0 ≥ 16 then p0 - 16 else p0
  let d : Bool := p1 ≥ 8
  let p2 := if p1 ≥ 8 then p1 - 8 else p1
  let m : Bool := p2 ≥ 4
  let p3 := if p2 ≥ 4 then p2 - 4 else p2
  let y : Bool := p3 ≥ 2
  let p4 := if p3 ≥ 2 then p3 - 2 else p3
  ⟨u || (d && decide (dtinit ≥ 24)), d, m, y, p4 = 1⟩

/-- `web_sum.F:969-975`. -/
def headerPrt (s : Switches) (dtinit : Rat) : Nat :=
  if s.u && decide (dtinit < 24) && s.d then 3
  else if (s.u || s.d) && s.m then 2
  else if s.y && (((s.u || s.d) && !s.m) || (s.m && !(s.u || s.d))) then 1
  else 0

/-- Parameters of the output: `print_type`, the switches, `dtinit`, `print_objfunc`, whether `chem_sim` is 1 and `nsolute` not
zero, and which solutes are isotopes. -/
structure Cfg where
  printType : Int
  sw : Switches
  dtinit : Rat
  objfunc : Bool
  chem : Bool
  iso : List Bool
deriving DecidableEq, Repr

/-- A printed item: an integer, a number, `NA`, or the quotient of a number by zero. -/
inductive Cell
  | int (i : Int)
  | num (x : Rat)
  | na
  | undef
deriving DecidableEq, Repr

/-- Edit descriptors: `Iw.m`, `Fw.d`, `Aw`, `nX` or a text of `n` characters. -/
inductive Ed
  | i (w : Nat)
  | f (w : Nat)
  | a (w : Nat)
  | x (n : Nat)
deriving DecidableEq, Repr

/-- A printed item with the first column and the column after its last, from 0. -/
structure Field where
  first : Nat
  last : Nat
  cell : Cell
deriving DecidableEq, Repr

/-- Does an item agree with its descriptor (Fortran 2008, 10.7.2)?  The quotient by zero is a real number. -/
def fits : Ed → Cell → Bool
  | .i _, .int _ => true
  | .f _, .num _ => true
  | .f _, .undef => true
  | .a _, .na => true
  | _, _ => false

/-- The width of a descriptor. -/
def Ed.width : Ed → Nat
  | .i w => w
  | .f w => w
  | .a w => w
  | .x n => n

/-- A formatted `write` of items from column `pos` on.  `none`: an item does not agree with its descriptor (gfortran stops the
program), or there are more items than descriptors (which does not occur). -/
def layout : Nat → List Ed → List Cell → Option (List Field)
  | _, [], [] => some []
  | _, [], _ :: _ => none
  | pos, .x n :: r, cs => layout (pos + n) r cs
  | _, _ :: _, [] => some []
  | pos, e :: r, c :: cs =>
    if fits e c then (layout (pos + e.width) r cs).map (⟨pos, pos + e.width, c⟩ :: ·) else none

/-- `n` times the same descriptors. -/
def rep (n : Nat) (l : List Ed) : List Ed := (List.replicate n l).flatten

/-- Integer assignment of a real number. -/
def trunc (x : Rat) : Int := if 0 ≤ x then ⌊x⌋ else ⌈x⌉

/-- What is printed about a step or a period in the tables of water. -/
structure Row where
  rad : Rat
  tmax : Rat
  tmin : Rat
  flux : Flux → Rat
  store : Store → Rat
  qsim : Rat
  qobs : Rat
  bal : Rat

/-- Unit values, `web_sum.F:1741-1787`. -/
def unitRow (u : Step) (bal : Rat) : Row := ⟨u.watt, u.tmax, u.tmin, u.flux, u.store, u.qsim, u.qobs, bal⟩

/-- Values of a period, `web_sum.F:1859-1918, 1944-2005, 2092-2152, 2273-2332`. -/
def perRow (u : Step) (a : Acc) : Row :=
  ⟨a.mean a.rad, a.tmax, a.tmin, a.flux, u.store, a.mean a.qsim, a.mean a.qobs, a.bal⟩

/-- The items of a row when `print_type` is 0: `web_sum.F:1742, 1859, 1944, 2090, 2272`. -/
def Row.flow (r : Row) : List Cell := [.num r.qsim, .num r.qobs]

/-- The items when `print_type` is 1; the five lists are the same: `web_sum.F:1748-1751, 1868-1873, 1953-1958, 2099-2104, 2280-2285`. -/
def Row.table (r : Row) : List Cell :=
  [.num (r.store .sto), .num (r.flux .ppt), .num (r.flux .irrExt), .num (r.flux .gw1), .num (r.flux .et), .num (r.flux .gwLoss),
   .num (r.flux .chanLoss), .num (r.flux .qsim), .num (r.flux .qobs), .num r.bal]

/-- The items when `print_type` is 2; the five lists are the same: `web_sum.F:1758-1787, 1886-1918, 1970-2001, 2119-2149, 2298-2328`. -/
def Row.detail (r : Row) : List Cell :=
  [.int (trunc r.rad), .int (trunc r.tmax), .int (trunc r.tmin), .num (r.flux .potet), .num (r.flux .et), .num (r.store .sto),
   .num (r.flux .inp), .num (r.flux .out), .num (r.flux .inp - r.flux .out - r.flux .et), .num (r.flux .ppt), .num (r.flux .irrExt),
   .num (r.flux .irrSat), .num (r.flux .irrHyd), .num (r.store .intcpSto), .num (r.flux .intcp), .num (r.flux .intcpEvap),
   .num (r.flux .transp), .num (r.flux .thruf), .num (r.flux .netDep), .num (r.flux .netRain), .num (r.flux .netSnow),
   .num (r.store .pweqv), .num (r.flux .snowmelt), .num (r.flux .snowEvap), .num (r.flux .surfdep), .num (r.flux .ofHort),
   .num (r.flux .ofDunn), .num (r.flux .sroff), .num (r.flux .infil), .num (r.store .soilMoist), .num (r.store .sssto),
   .num (r.flux .qdf), .num (r.flux .uzEt), .num (r.store .gwSto), .num (r.flux .gw1), .num (r.flux .gw2), .num (r.flux .qwet),
   .num (r.flux .vpref), .num (r.flux .uz2sat), .num (r.flux .recharge), .num (r.flux .sat2uz), .num (r.flux .qwell),
   .num (r.flux .qpref), .num (r.flux .gwLoss), .num (r.flux .gwFlow), .num (r.flux .stflow), .num (r.store .chanSto),
   .num (r.flux .chanDiv), .num (r.flux .chanLoss), .num (r.flux .qsim), .num (r.flux .qobs), .num r.qsim, .num r.qobs,
   .num r.bal]

/-- The kind of a row: one step (`none`) or a period. -/
abbrev Kind := Option Per

/-- The items of the date of a row.  Rows of a storm do not exist; they are given as those of a day. -/
def dateOf (u : Step) : Kind → List Cell
  | none => [.int u.year, .int u.mo, .int u.day, .int u.hr, .int u.min, .int u.sec]
  | some .storm => [.int u.year, .int u.mo, .int u.day]
  | some .day => [.int u.year, .int u.mo, .int u.day]
  | some .month => [.int u.year, .int u.mo]
  | some .year => [.int u.year]
  | some .run => []

/-- Formats 2002, 904, 2004, 2006, 2008: `web_sum.F:2453, 2445, 2455, 2457, 2459`. -/
def flowFormat : Kind → List Ed
  | none => [.x 2, .f 5, .x 2, .f 3, .x 2, .f 3, .f 3, .f 3, .f 3, .f 11, .x 1, .f 11]
  | some .storm => [.x 2, .f 5, .x 2, .f 3, .x 2, .f 3, .x 9, .f 11, .x 1, .f 11]
  | some .day => [.x 2, .f 5, .x 2, .f 3, .x 2, .f 3, .x 9, .f 11, .x 1, .f 11]
  | some .month => [.x 2, .f 5, .x 2, .f 3, .x 14, .f 11, .x 1, .f 11]
  | some .year => [.x 2, .f 5, .x 19, .f 11, .x 1, .f 11]
  | some .run => [.x 14, .x 12, .f 12, .f 12]

/-- Formats 2012, 914, 2014, 2016, 2018: `web_sum.F:2470, 2448, 2476-2478`. -/
def tableFormat : Kind → List Ed
  | none => [.i 4, .x 1] ++ rep 5 [.i 2, .x 1] ++ rep 10 [.f 9, .x 1]
  | some .storm => [.i 4, .x 1] ++ rep 2 [.i 2, .x 1] ++ [.x 9] ++ rep 10 [.f 9, .x 1]
  | some .day => [.i 4, .x 1] ++ rep 2 [.i 2, .x 1] ++ [.x 9] ++ rep 10 [.f 9, .x 1]
  | some .month => [.i 4, .x 1, .i 2, .x 1, .x 12] ++ rep 10 [.f 9, .x 1]
  | some .year => [.i 4, .x 16] ++ rep 10 [.f 9, .x 1]
  | some .run => [.x 14, .x 6] ++ rep 10 [.f 9, .x 1]

/-- Formats 2022, 924, 2024, 2026, 2028: `web_sum.F:2526-2530`. -/
def detailFormat : Kind → List Ed
  | none => [.i 4, .x 1] ++ rep 5 [.i 2, .x 1] ++ rep 3 [.i 4, .x 1] ++ [.f 7, .f 7] ++ rep 49 [.x 1, .f 9]
  | some .storm => [.i 4, .x 1] ++ rep 2 [.i 2, .x 1] ++ [.x 9] ++ rep 3 [.i 4, .x 1] ++ [.f 7, .f 7] ++ rep 49 [.x 1, .f 9]
  | some .day => [.i 4, .x 1] ++ rep 2 [.i 2, .x 1] ++ [.x 9] ++ rep 3 [.i 4, .x 1] ++ [.f 7, .f 7] ++ rep 49 [.x 1, .f 9]
  | some .month => [.i 4, .x 1, .i 2, .x 13] ++ rep 3 [.i 4, .x 1] ++ [.f 7, .f 7] ++ rep 49 [.x 1, .f 9]
  | some .year => [.i 4, .x 16] ++ rep 3 [.i 4, .x 1] ++ [.f 7, .f 7] ++ rep 49 [.x 1, .f 9]
  | some .run => [.x 15, .x 5] ++ rep 3 [.i 4, .x 1] ++ [.f 7, .f 7] ++ rep 49 [.x 1, .f 9]

/-- One line of `hydro.out`. -/
def hydroRow (printType : Int) (u : Step) (k : Kind) (r : Row) : Option (List Field) :=
  if printType = 0 then layout 0 (flowFormat k) (dateOf u k ++ r.flow)
  else if printType = 1 then layout 0 (tableFormat k) (dateOf u k ++ r.table)
  else if printType = 2 then layout 0 (detailFormat k) (dateOf u k ++ r.detail)
  else some []

/-- A quotient. -/
def quot (x y : Rat) : Cell := if y = 0 then .undef else .num (x / y)

/-- Values of the chemistry of a step or a period. -/
structure ChemRow where
  water : Water → Rat
  prop : Quality → Cell
  mass : Mass → Rat
  volFinal : Rat
  permilFinal : Nat → Rat
  massFinal : Nat → Rat

/-- `web_sum.F:1794-1833`. -/
def unitChem (c : ChemStep) : ChemRow := ⟨c.water, fun p => .num (c.prop p), c.mass, c.volFinal, c.permilFinal, c.massFinal⟩

/-- `web_sum.F:2016-2066, 2164-2211, 2342-2390`. -/
def perChem (c : ChemStep) (a : Acc) : ChemRow :=
  ⟨a.water, fun p => quot (a.prop p) (a.water (weight p)), a.mass, c.volFinal, c.permilFinal, c.massFinal⟩

/-- The items of `chem.out` for the outlet (`print_type` 0 or 1): `web_sum.F:1794-1805, 2016-2028, 2164-2176, 2342-2354`. -/
def ChemRow.outlet (iso : List Bool) (r : ChemRow) : List Cell :=
  [.num (r.water .outlet), r.prop .outletTemp, r.prop .outletPh] ++
    iso.zipIdx.map fun s => if s.1 then r.prop (.outletPermil s.2) else .num (r.mass (.outlet s.2))

/-- `NA` for the properties of the inputs when there are none (`NoInputs`). -/
def ChemRow.input (r : ChemRow) (p : Quality) : Cell := if r.water .inp = 0 then .na else r.prop p

/-- The items of `chem.out` for the basin (`print_type` 2): `web_sum.F:1807-1833, 2030-2066, 2178-2211, 2356-2390`. -/
def ChemRow.basin (iso : List Bool) (r : ChemRow) : List Cell :=
  [r.input .inTemp, r.prop .outTemp, r.input .inPh, r.prop .outPh, .num (r.water .inp), .num (r.water .out), .num (r.water .et),
   .num r.volFinal] ++
    iso.zipIdx.flatMap fun s =>
      if s.1 then [r.input (.inPermil s.2), r.prop (.outPermil s.2), r.prop (.etPermil s.2), .num (r.permilFinal s.2)]
      else [.num (r.mass (.inp s.2)), .num (r.mass (.out s.2)), .num (r.mass (.rxn s.2)), .num (r.massFinal s.2)]

/-- The items of the date of a row of `chem.out`: without the time of day. -/
def chemDate (u : Step) : Kind → List Cell
  | none => [.int u.year, .int u.mo, .int u.day]
  | k => dateOf u k

/-- The dates of formats 5012-5018 and 5020-5034, `web_sum.F:2537-2552`; ten columns. -/
def chemDateFormat : Kind → List Ed
  | none => [.i 4, .x 1, .i 2, .x 1, .i 2]
  | some .storm => [.i 4, .x 1, .i 2, .x 1, .i 2]
  | some .day => [.i 4, .x 1, .i 2, .x 1, .i 2]
  | some .month => [.i 4, .x 1, .i 2, .x 3]
  | some .year => [.i 4, .x 6]
  | some .run => [.x 10]

/-- The format of a line for the outlet: every solute is appended to the line, which ends with its last digit.  In lines of steps
moles come after 56 blanks.  `web_sum.F:1798-1804, 2020-2027, 2168-2175, 2346-2353`. -/
def outletFormat (iso : List Bool) (k : Kind) : List Ed :=
  chemDateFormat k ++ rep 3 [.x 2, .f 16] ++
    iso.flatMap fun b => if b || k.isSome then [.x 2, .f 16] else [.x 56, .f 16]

/-- The format of a line for the basin.  `web_sum.F:1808-1832, 2031-2065, 2179-2210, 2357-2389`. -/
def basinFormat (iso : List Bool) (noIn : Bool) (k : Kind) : List Ed :=
  let inp : Ed := if noIn then .a 16 else .f 16
  chemDateFormat k ++ rep 2 [.x 2, inp, .x 2, .f 16] ++ rep 4 [.x 2, .f 16] ++
    iso.flatMap fun b => [.x 2, if b then inp else .f 16] ++ rep 3 [.x 2, .f 16]

/-- One line of `chem.out`. -/
def chemLine (printType : Int) (iso : List Bool) (u : Step) (k : Kind) (r : ChemRow) : Option (List Field) :=
  if printType < 2 then layout 0 (outletFormat iso k) (chemDate u k ++ r.outlet iso)
  else layout 0 (basinFormat iso (decide (r.water .inp = 0)) k) (chemDate u k ++ r.basin iso)

/-- Lines of the files. -/
inductive Line
  | row (k : Kind) (fields : List Field)
  | objective (p : Per) (x : Obj → Rat)
  | rule
  | heading

/-- The rows written in a step, in order: `uprt`, then the day, month, year and run.  `tables` is false for `chem.out`, which has
no rows of days.  `web_sum.F:1739, 1851-1852, 1934-1935, 2084-2085, 2266-2267`. -/
def kinds (s : Switches) (f : Flags) (timestep : Rat) (tables : Bool) : List Kind :=
  (if s.u then [none] else []) ++
  (if f.dy && decide (timestep < 24) && s.d && tables then [some .day] else []) ++
  (if f.mo && s.m then [some .month] else []) ++
  (if s.y && f.yr then [some .year] else []) ++
  (if f.run && s.t then [some .run] else [])

/-- Is there a rule above the row of a period?  `web_sum.F:1855-1857, 1940-1942, 2087-2088, 2270, 2278, 2290`. -/
def ruled (s : Switches) : Per → Bool
  | .storm => s.d
  | .day => s.d
  | .month => s.d
  | .year => s.m || s.d
  | .run => true

/-- The lines of a row, with its rule and its objective functions. -/
def hydroLines (c : Cfg) (u : Step) (bal : Rat) (acc : Per → Acc) : Kind → Option (List Line)
  | none => (hydroRow c.printType u none (unitRow u bal)).map fun r => [.row none r]
  | some p =>
    (hydroRow c.printType u (some p) (perRow u (acc p))).map fun r =>
      (if ruled c.sw p then [.rule] else []) ++ [.row (some p) r] ++ (if c.objfunc then [.objective p (acc p).obj] else [])

/-- Is the heading repeated?  `web_sum.F:2232-2236`. -/
def headed (c : Cfg) (f : Flags) : Bool :=
  !f.run && ((headerPrt c.sw c.dtinit = 2 && f.mo) || (headerPrt c.sw c.dtinit = 1 && f.yr) || (headerPrt c.sw c.dtinit = 3 && f.dy))

/-- Results of all of a list, if all have one. -/
def collect {α β} (f : α → Option (List β)) : List α → Option (List β)
  | [] => some []
  | a :: r =>
    match f a, collect f r with
    | some x, some y => some (x ++ y)
    | _, _ => none

/-- The lines of `hydro.out` of one step; the heading stands before the row of the run, which is then not written.
`web_sum.F:1738-2334`. -/
def hydroStep (log : Rat → Rat) (c : Cfg) (st : State) (u : Step) : Option (List Line) :=
  let f := decode u.endper
  let st' := advance log st u
  (collect (hydroLines c u (balance st u) fun p => (st'.per p).2) (kinds c.sw f u.timestep true)).map fun l =>
    l ++ if headed c f then [.heading] else []

/-- What follows a row of `chem.out`: a rule, or labels and a rule.  `web_sum.F:2068-2075, 2214-2220`. -/
def chemAfter (s : Switches) (f : Flags) : Kind → List Line
  | some .month => if (f.yr && s.y) || (f.run && s.t) then [.rule] else [.heading, .rule]
  | some .year => if f.run && s.t then [.rule] else [.heading, .rule]
  | _ => []

/-- The values of a row of `chem.out`. -/
def chemRowOf (x : ChemStep) (acc : Per → Acc) : Kind → ChemRow
  | none => unitChem x
  | some p => perChem x (acc p)

/-- The lines of a row of `chem.out`; only the month has a rule above.  `web_sum.F:2015`. -/
def chemLines (c : Cfg) (u : Step) (x : ChemStep) (acc : Per → Acc) (k : Kind) : Option (List Line) :=
  (chemLine c.printType c.iso u k (chemRowOf x acc k)).map fun r =>
    (if k = some .month then [.rule] else []) ++ [.row k r] ++ chemAfter c.sw (decode u.endper) k

/-- The lines of `chem.out` of one step.  `web_sum.F:1790-1835, 2011-2077, 2160-2223, 2338-2393`. -/
def chemStep (log : Rat → Rat) (c : Cfg) (st : State) (u : Step) : Option (List Line) :=
  match c.chem, u.chem with
  | true, some x =>
    let st' := advance log st u
    collect (chemLines c u x fun p => (st'.per p).2) (kinds c.sw (decode u.endper) u.timestep false)
  | _, _ => some []

/-- The output of a run from a state on: for every step the lines of both files.  `none`: the program stops. -/
def outputs (log : Rat → Rat) (c : Cfg) : State → List Step → Option (List (List Line × List Line))
  | _, [] => some []
  | st, u :: us =>
    match hydroStep log c st u, chemStep log c st u, outputs log c (advance log st u) us with
    | some a, some b, some r => some ((a, b) :: r)
    | _, _, _ => none

/-! ### Headings -/

/-- Labels of the table, format 2010: `web_sum.F:2461-2464, 1185-1188`. -/
def tableHead : List Char :=
  "    Date  /  Time   Basin_sto  Precip   ".toList ++
  " Irr_ext    GW_in     Act_ET   GW_loss  ".toList ++
  "Chan_loss   Q_sim     Q_obs    Wat_bal  ".toList

/-- The rule of the table when a heading is repeated, format 2013 of `sumbrun`: `web_sum.F:2471-2474`. -/
def tableRule : List Char :=
  "==== == == == == == ========= +++++++++ ".toList ++
  "+++++++++ +++++++++ %%%%%%%%% --------- ".toList ++
  "--------- --------- --------- ========= ".toList

/-- The rule of the table at the head of the file, format 2013 of `sumbinit`: `web_sum.F:1194-1197`. -/
def tableRule0 : List Char :=
  "=== == == == == == ========= +++++++++ +".toList ++
  "++++++++ +++++++++ %%%%%%%%% --------- -".toList ++
  "-------- --------- --------- ========= ".toList

/-- Labels of the detailed table, format 2020: `web_sum.F:2480-2494, 1198-1211`. -/
def detailHead : List Char :=
  "    Date  /  Time   srad tmax tmin  Pot_".toList ++ "ET Act_ET Basin_sto Basin_in  Basin_out ".toList ++
  "Delta_sto  Precip    Irr_ext   Irr_sat  ".toList ++ " Irr_hyd  Intcp_sto   Intcp    Int_evap ".toList ++
  "  Transp   Thrufall  Net_dep   Net_rain ".toList ++ " Net_snow    SWE     Snowmelt  Snowevap ".toList ++
  " Surf_dep  OF_Hort   OF_Dunn    OF_tot  ".toList ++ "  Infil   SoilMoist   UZ_sto  Qdir_flow ".toList ++
  "Soil_evap   GW_sto    GW_in1    GW_in2  ".toList ++ "  Qwet      Qvpref    UZ2Sat   Recharge ".toList ++
  "  Sat2UZ    Qwell    Qsatpref  GW_loss  ".toList ++ " Baseflow   Q_Hill  ".toList ++
  " Chan_sto Diversion Chan_loss   Q_sim   ".toList ++ "  Q_obs     Q_sim     Q_obs    Wat_bal ".toList

/-- The rule of the detailed table, format 2023: `web_sum.F:2511-2525, 1227-1241`. -/
def detailRule : List Char :=
  "==== == == == == == ++++ ==== ====  %%%%".toList ++ "%% %%%%%% ========= +++++++++ --------- ".toList ++
  "========= +++++++++ +++++++++ ********* ".toList ++ "********* ========= ********* %%%%%%%%% ".toList ++
  "********* ********* ********* ********* ".toList ++ "********* ========= ********* %%%%%%%%% ".toList ++
  "********* ********* ********* ********* ".toList ++ "********* ========= ========= ********* ".toList ++
  "%%%%%%%%% ========= +++++++++ +++++++++ ".toList ++ "********* ********* ********* ********* ".toList ++
  "********* ********* ********* --------- ".toList ++ "********* ********* ".toList ++
  "========= ********* --------- --------- ".toList ++ "--------- --------- --------- =========".toList

/-- The initial storages in the detailed table, format 2022 of `sumbinit`: `web_sum.F:1099-1101, 1244-1245`. -/
def initFormat : List Ed :=
  [.x 50, .f 9, .x 71, .f 9, .x 71, .f 9, .x 70] ++ rep 2 [.x 1, .f 9] ++ [.x 21, .f 9, .x 121, .f 9]

/-- `web_sum.F:1099-1101`. -/
def initRow (s : Store → Rat) : Option (List Field) :=
  layout 0 initFormat [.num (s .sto), .num (s .intcpSto), .num (s .pweqv), .num (s .soilMoist), .num (s .sssto), .num (s .gwSto),
    .num (s .chanSto)]

/-- The date and time of the run at the head of `hydro.out`: month, day, year, hour, minute as integers, the second as a real number;
formats 10 (with explanation) and 20, without the text between.  `web_sum.F:843-845, 986-989, 1069-1080, 1113-1115, 1176-1178`. -/
def runTime (explanation : Bool) (mo dy yr hr min : Int) (sec : Rat) : Option (List Field) :=
  layout 0 [.i 2, .x 1, .i 2, .x 1, .i 4, .x 2, .i 2, .x 1, .i 2, .x 1, if explanation then .i 2 else .f 4]
    [.int mo, .int dy, .int yr, .int hr, .int min, .num sec]

/-- The rule of `chem.out`: ten columns for the date, then 16 for every column, `web_sum.F:1012-1014, 1022-1024, 1046-1048`. -/
def chemRule (printType : Int) (nsolute : Nat) : List (Nat × Nat) :=
  (List.range (if printType < 2 then nsolute + 3 else 4 * nsolute + 8)).map fun k => (10 + 18 * k + 2, 10 + 18 * k + 18)

end Verif.Summary
