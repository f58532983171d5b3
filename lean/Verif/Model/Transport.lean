import Verif.Model.Reservoir
import Verif.Model.SolnNum
/-
Which solutions are mixed in a time step, in which parts, and what is recorded: the loop over units and the loop over
stream segments of `phreeqmms_run` (`webmod.d/src/phreeq_mms.F90:6480-9230`).

Simplifications: reals are exact rationals.  One solute stands for all, isotopes are left out (`n_iso = 0`), and so are
temperature and pH.  A solution is its water (kg) and its moles of the solute; solutions mix linearly.  Reactions are a
parameter.  Solutions are known by what they are instead of by their numbers, which are unique (C34); solutions of one
number are one solution here too (the inputs of a bin are written to `solnnum(0,14,0,is,ia)`, which does not depend on
`ia`).  Messages are left out.
-/
namespace Verif.Transport
open Verif.Reservoir (Vol Rows Extra BinOut Par In sumOf fall inch2m)

/-- The arguments of `solnnum`, `phreeq_mms.F90:10330-10359`; `t` is the time: false 0, true 1. -/
inductive Key
  | pure
  | data (i : Nat)
  | hill (t : Bool) (kind unit : Nat)
  | bin (t : Bool) (unit j : Nat)
  | seg (t : Bool) (h : Nat)
deriving DecidableEq, Repr

/-- The number, `phreeq_mms.F90:10330-10359`. -/
def Key.num (k : Key) : Int :=
  let tm (t : Bool) : Int := if t then 1 else 0
  match k with
  | .pure => SolnNum.solnnum id 0 0 0 0 0 0
  | .data i => SolnNum.solnnum id 0 0 i 0 0 0
  | .hill t kind u => SolnNum.solnnum id (tm t) kind 0 u 0 0
  | .bin t u j => SolnNum.solnnum id (tm t) 5 0 u j 0
  | .seg t h => SolnNum.solnnum id (tm t) 99 0 0 0 h

/-- The row of `c_chem`: `isoln` does not depend on the time.  `phreeq_mms.F90:10361-10439`. -/
def Key.row : Key → Key
  | .hill _ k u => .hill false k u
  | .bin _ u j => .bin false u j
  | .seg _ h => .seg false h
  | k => k

/-- A solution of PHREEQC: kg of water and moles of a solute.  (`cxxSolution`, see C32.) -/
structure Sol where
  water : Rat
  mol : Rat
deriving DecidableEq, Repr

/-- What the selected output reports for a solution, moles per kg of water.  `phreeq_mms.F90:2890-2960`. -/
def Sol.conc (s : Sol) : Rat := s.mol / s.water

/-- Reactants of a mix: `no_rxn`, `atm_eqph`, or `n_user` as left by `fill_ent` for a reservoir. -/
inductive Ent
  | no
  | atm
  | res (k : Key)
deriving DecidableEq, Repr

/-- What is recorded: the volumes set in `c_chem`; a call of `update_chem` (row, metric, volume, `conc`,
`tally_table(k,2)`, `mrubnd`, `basbnd`, `react`); amounts added to `c_chem_mru` and `c_chem_basin` directly. -/
inductive Ev
  | set (row : Key) (init et fin : Rat)
  | final (row : Key) (fin : Rat)
  | call (row : Key) (metric : Int) (vol conc tal : Rat) (mru basin react : Bool)
  | enter (unit : Nat) (vol conc : Rat)
  | leave (unit : Nat) (vol conc : Rat)
deriving DecidableEq, Repr

/-- The solutions, the last `conc` and `tally_table(k,2)`, `snow_ion_pulse` of the unit, what has been recorded. -/
structure St where
  sol : Key → Sol
  conc : Rat
  tal : Rat
  pulse : Bool
  log : List Ev

/-- Parts and fractions of a mix. -/
abbrev Parts := List (Key × Rat)

/-- `checkfracs`, `phreeq_mms.F90:10461-10499`: negative fractions become 0 unless pure water or snow. -/
def checked (l : Parts) : Parts :=
  (l.map (·.1)).zip (SolnNum.checkfracs id (l.map fun c => (c.1.num, c.2))).2

/-- The factor for negative fractions, `IPhreeqcMMS.cpp:333-377`, as `Mms.negFactor`. -/
def factor (sol : Key → Sol) (l : Parts) : Rat :=
  if l.any (fun c => decide (c.1 = .pure ∧ c.2 < 0)) then
    let pos := l.filter fun c => decide (0 ≤ c.2)
    let neg := ((l.filter fun c => decide (c.2 < 0)).getLast?.map fun c => (sol c.1).water).getD 0
    if 0 < neg then |sumOf (fun c => c.2 * (sol c.1).water) pos / sumOf (·.2) pos / neg| else 1
  else 1

/-- `MIX` of PHREEQC with the fractions of `IPhreeqcMMS.cpp:384-393` (C32). -/
def blend (sol : Key → Sol) (l : Parts) : Sol :=
  let w (c : Key × Rat) : Rat := if c.2 < 0 then c.2 * factor sol l else c.2
  ⟨sumOf (fun c => w c * (sol c.1).water) l, sumOf (fun c => w c * (sol c.1).mol) l⟩

/-- A solution is saved. -/
def upd (sol : Key → Sol) (k : Key) (s : Sol) : Key → Sol := fun k' => if k' = k then s else sol k'

/-- What the reactants do to a mix; `rx` is PHREEQC. -/
def react (rx : Ent → Sol → Sol) (e : Ent) (s : Sol) : Sol := if e = .no then s else rx e s

/-- `phr_mix(id,count,solns,fracs,index_conserv,fill_factor,index_rxn,conc,...)`, `phr_mix.F90:5-8` and
`IPhreeqcMMS.cpp:398-470` (C32): the mix is saved as `cons`, what the reactants make of it as `dest`; `conc` is that of
the mix. -/
def mix (rx : Ent → Sol → Sol) (l : Parts) (cons dest : Key) (e : Ent) (s : St) : St :=
  let m := blend s.sol l
  let r := react rx e m
  { s with sol := upd (upd s.sol cons m) dest r, conc := m.conc, tal := r.conc }

/-- `update_chem(indx,totvol,imetric,conc,...)`. -/
def note (k : Key) (metric : Int) (vol : Rat) (mru basin react : Bool) (s : St) : St :=
  { s with log := s.log ++ [.call k.row metric vol s.conc s.tal mru basin react] }

/-- The volumes `init`, `ET`, `fin` of a row, e.g. `phreeq_mms.F90:7137-7139`. -/
def book (k : Key) (v : Vol) (s : St) : St := { s with log := s.log ++ [.set k.row v.init v.et v.fin] }

/-- What the transport takes from the other modules for a unit: its number (`is`), parameters and fluxes of `webmod_res`,
their volumes, `quz`, `qpref_max`, `snow_ion_factor`, `src_ext_irrig`, `irrig_int_src`, `src_gw1`, `src_gw2`, and
`ngw_ext.ne.0`. -/
structure Flow where
  unit : Nat
  p : Par
  i : In
  r : Rows
  bins : List BinOut
  quz : Rat
  prefMax : Rat
  ion : Rat
  srcExt : Nat
  srcInt : Nat
  srcGw1 : Nat
  srcGw2 : Nat
  gwExt : Bool

/-- `depvol`, `phreeq_mms.F90:6762`. -/
def Flow.dep (f : Flow) : Rat := f.i.dep * f.p.area * inch2m * Reservoir.million

/-- `irrig_frac_ext`, `irrig_frac_sat`, `irrig_frac_hyd`, `irrig_web.F:577-580`. -/
def Flow.fracExt (f : Flow) : Rat := if f.p.external then f.i.irrExt / f.i.dep else 0
def Flow.fracSat (f : Flow) : Rat := if f.p.internal then f.i.irrSat / f.i.dep else 0
def Flow.fracHyd (f : Flow) : Rat := if f.p.internal then f.i.irrHyd / f.i.dep else 0

/-- `vmix_sat2uz`, `webmod_res.F:3131-3139`. -/
def Flow.sat2uz (f : Flow) : Rat := sumOf (·.vol.sat) f.bins

/-- `vmix_well`, `webmod_res.F:2563`. -/
def Flow.well (f : Flow) : Rat := (fall f.p f.i).well

/-- `solnnum(t,k,0,is,0,0,0)`. -/
def Flow.key (f : Flow) (t : Bool) (k : Nat) : Key := .hill t k f.unit

/-- Rain and irrigation in a row: columns 5, 17, 18, 19. -/
def fallen (v : Vol) : Rat := v.ppt + v.well + v.div + v.ext

/-! ### A unit -/

/-- A solution that is read by mixing it into itself, and recorded.  `phreeq_mms.F90:6782-6826` and alike. -/
def readOff (rx : Ent → Sol → Sol) (k : Key) (metric : Int) (vol : Rat) (mru basin : Bool) (s : St) : St :=
  note k metric vol mru basin false (mix rx (checked [(k, 1)]) k k .no s)

/-- The sources of what falls on a unit, with volume, metric and bounds: precipitation, external irrigation, well,
stream.  `phreeq_mms.F90:6778-6793, 6830-6841, 6884-6895, 6955-6966`. -/
def sources (f : Flow) : List (Key × Rat × Int × Bool × Bool) :=
  (if f.r.mru.ppt > 0 then [(.data 1, f.dep * (1 - (f.fracExt + f.fracSat + f.fracHyd)), 2, false, false)] else []) ++
  (if f.p.external ∧ f.i.irrExt > 0 then [(.data (f.srcExt + 1), f.dep * f.fracExt, 2, false, false)] else []) ++
  (if f.p.internal ∧ f.fracSat > 0 then [(f.key false 8, f.dep * f.fracSat, 3, true, true)] else []) ++
  (if f.p.internal ∧ f.fracHyd > 0 then [(.seg false f.srcInt, f.dep * f.fracHyd, 3, false, true)] else [])

/-- What falls on the unit, `phreeq_mms.F90:6770-7050`. -/
def deposit (rx : Ent → Sol → Sol) (f : Flow) (s : St) : St :=
  if f.i.dep > 0 then
    let s1 := (sources f).foldl (fun s c => readOff rx c.1 c.2.2.1 c.2.1 c.2.2.2.1 c.2.2.2.2 s) s
    note (f.key false 11) 2 f.dep true true false
      (mix rx (checked ((sources f).map fun c => (c.1, c.2.1 / f.dep))) (f.key false 11) (f.key false 11) .atm s1)
  else s

/-- Groundwater from outside, `phreeq_mms.F90:7057-7125`. -/
def gwInput (rx : Ent → Sol → Sol) (f : Flow) (s : St) : St :=
  let v := f.r.sat.gw1 + f.r.sat.gw2
  if v > 0 then
    let s1 := mix rx (checked [(.data (f.srcGw1 + 1), f.r.sat.gw1 / v), (.data (f.srcGw2 + 1), f.r.sat.gw2 / v)])
      (f.key false 14) (f.key false 14) .no s
    { s1 with log := s1.log ++ [.enter f.unit v s1.conc] }
  else s

/-- A mix of a reservoir with its inputs, the mix saved as the initial solution.  `phreeq_mms.F90:7209-7240` and alike. -/
def join (rx : Ent → Sol → Sol) (f : Flow) (k : Nat) (v : Vol) (s : St) : St :=
  let t := v.init + v.inp
  mix rx (checked [(f.key false k, v.init / t), (f.key false 14, v.inp / t)]) (f.key false k) (f.key true k) .no s

/-- Evaporation: pure water is taken away.  `phreeq_mms.F90:7264-7293` and alike; `src` is the mix it is taken from. -/
def evaporate (rx : Ent → Sol → Sol) (src dest : Key) (e : Ent) (v : Vol) (s : St) : St :=
  let t := v.init + v.inp - v.et
  mix rx [(src, (v.init + v.inp) / t), (.pure, -v.et / t)] src dest e s

/-- Canopy without transpiration, `phreeq_mms.F90:7133-7372`. -/
def canopy1 (rx : Ent → Sol → Sol) (f : Flow) (s : St) : St :=
  let v := f.r.can
  let dest := f.key true 1
  let s := book dest v s
  if v.uz = 0 ∧ (v.out ≠ 0 ∨ v.ppt ≠ 0 ∨ v.et ≠ 0) then
    let s := if v.inp > 0 then
        mix rx (checked [(f.key false 11, fallen v / v.inp), (f.key false 4, v.ohoriz / v.inp)]) (f.key false 14)
          (f.key false 14) .no s
      else s
    let s := note dest 2 v.inp false false false s
    let s := if v.init + v.inp > 0 then evaporate rx (f.key false 1) dest (.res dest) v (join rx f 1 v s) else s
    note dest 3 v.out false false true s
  else if v.uz = 0 then
    note dest (-1) 0 false false true (mix rx [(f.key false 1, 1)] (f.key false 1) dest (.res dest) s)
  else s

/-- What melts, `phreeq_mms.F90:7522-7645`; `snow_ion_pulse`. -/
def melt (rx : Ent → Sol → Sol) (f : Flow) (s : St) : St :=
  let v := f.r.snow
  let dest := f.key true 2
  if v.out > 0 then
    if f.ion ≤ 1 ∨ v.fin = 0 ∨ v.out / (v.init + v.inp - v.et) ≥ 9 / 10 then note dest 3 v.out false false false s
    else note dest 3 v.out false false false
      { mix rx [(f.key false 2, 1)] (f.key false 2) (f.key false 2) .no s with pulse := true }
  else s

/-- Snowpack, `phreeq_mms.F90:7375-7722`. -/
def snow (rx : Ent → Sol → Sol) (f : Flow) (s : St) : St :=
  let v := f.r.snow
  let dest := f.key true 2
  let s := book dest v s
  if v.inp > 0 ∨ v.et > 0 ∨ v.out > 0 then
    let s := if v.inp > 0 then
        note dest 2 v.inp false false false
          (mix rx (checked [(f.key false 11, fallen v / v.inp), (f.key true 1, v.can / v.inp)]) (f.key false 14)
            (f.key false 14) .no s)
      else s
    let s := if v.init + v.inp > 0 then evaporate rx dest dest .no v (join rx f 2 v s) else s
    let s := melt rx f s
    note dest (-1) 0 false false true (mix rx [(dest, 1)] dest dest .no s)
  else if v.fin > 0 then
    note dest (-1) 0 false false true (mix rx [(f.key false 2, 1)] (f.key false 2) dest (.res dest) s)
  else s

/-- The solution of melt water, `phreeq_mms.F90:7768-7772`. -/
def meltKey (f : Flow) (s : St) : Key := if s.pulse then f.key false 2 else f.key true 2

/-- O-horizon, `phreeq_mms.F90:7738-7950`. -/
def ohoriz (rx : Ent → Sol → Sol) (f : Flow) (s : St) : St :=
  let v := f.r.ohoriz
  let c := f.r.can.ohoriz
  let dest := f.key true 4
  let s := book dest v s
  if v.inp > 0 ∨ c > 0 then
    let s := if v.inp > 0 then
        note (f.key false 4) 2 v.inp false false false
          (mix rx (checked [(f.key false 11, fallen v / v.inp), (f.key true 1, v.can / v.inp), (meltKey f s, v.melt / v.inp)])
            (f.key false 14) (f.key false 14) .no s)
      else s
    let s := if c > 0 then note dest 3 c false false false (mix rx [(f.key false 4, 1)] dest dest .no s) else s
    let t := v.init + v.inp - c
    let s := if t > 0 then
        mix rx (checked [(f.key false 4, (v.init - c) / t), (f.key false 14, v.inp / t)]) (f.key false 4) dest (.res dest) s
      else s
    note dest 3 (v.out - c) false false true s
  else note dest (-1) 0 false false true (mix rx [(f.key false 4, 1)] dest dest (.res dest) s)

/-- From the saturated to the unsaturated zone, `phreeq_mms.F90:7955-7990`. -/
def satToUz (rx : Ent → Sol → Sol) (f : Flow) (s : St) : St :=
  note (f.key false 8) 3 f.sat2uz false false false (mix rx [(f.key false 8, 1)] (f.key false 8) (f.key false 8) .no s)

/-- Inputs of a bin, `phreeq_mms.F90:8014-8060`. -/
def binIn (rx : Ent → Sol → Sol) (f : Flow) (j : Nat) (v : Vol) (s : St) : St :=
  if v.inp > 0 then
    note (.bin false f.unit j) 2 v.inp false false false
      (mix rx (checked [(f.key false 11, fallen v / v.inp), (f.key true 1, v.can / v.inp), (meltKey f s, v.melt / v.inp),
          (f.key false 8, v.sat / v.inp)]) (f.key false 14) (f.key false 14) .no s)
  else s

/-- A bin of the unsaturated zone, `phreeq_mms.F90:7995-8182`. -/
def binStep (rx : Ent → Sol → Sol) (f : Flow) (j : Nat) (v : Vol) (s : St) : St :=
  let src := Key.bin false f.unit j
  let dest := Key.bin true f.unit j
  let s := binIn rx f j v (book src v s)
  if v.init > 0 then
    let t := v.init + v.inp
    let s := mix rx (checked [(src, v.init / t), (f.key false 14, v.inp / t)]) src dest .no s
    note dest 3 v.out false false true (evaporate rx dest dest (.res dest) v s)
  else s

/-- Loop 93, `phreeq_mms.F90:7995-8183`. -/
def binLoop (rx : Ent → Sol → Sol) (f : Flow) : Nat → List BinOut → St → St
  | _, [], s => s
  | j, b :: bs, s => binLoop rx f (j + 1) bs (binStep rx f j b.vol s)

/-- Parts of a mix of bins, `phreeq_mms.F90:8203-8209, 8411-8417`; bins for which `take` is 0 are left out. -/
def binParts (f : Flow) (take vol : BinOut → Rat) (tot : Rat) : Nat → List BinOut → Parts
  | _, [] => []
  | j, b :: bs =>
    if take b > 0 then (.bin true f.unit j, vol b / tot) :: binParts f take vol tot (j + 1) bs
    else binParts f take vol tot (j + 1) bs

/-- Canopy with transpiration, `phreeq_mms.F90:8188-8395`. -/
def canopy2 (rx : Ent → Sol → Sol) (f : Flow) (s : St) : St :=
  let v := f.r.can
  let dest := f.key true 1
  let s := book dest v s
  if v.uz > 0 then
    let s := note (f.key false 12) 0 v.uz false false false
      (mix rx (checked (binParts f (·.toCan) (·.toCan) v.uz 1 f.bins)) (f.key false 12) (f.key false 12) .no s)
    let s := note (f.key false 1) 2 v.inp false false false
      (mix rx (checked [(f.key false 11, fallen v / v.inp), (f.key false 12, v.uz / v.inp), (f.key false 4, v.ohoriz / v.inp)])
        (f.key false 14) (f.key false 14) .no s)
    note dest 3 0 false false true (evaporate rx (f.key false 1) dest (.res dest) v (join rx f 1 v s))
  else s

/-- Recharge, `phreeq_mms.F90:8404-8470`. -/
def recharge (rx : Ent → Sol → Sol) (f : Flow) (s : St) : St :=
  if f.quz > 0 then
    let t := f.r.qdf.uz + f.r.sat.uz
    let s := note (f.key true 13) 0 t false false false
      (mix rx (checked (binParts f (·.toSat) (fun b => b.toSat + b.toQdf) t 1 f.bins)) (f.key true 13) (f.key true 13) .no s)
    note (f.key false 7) 2 f.r.qdf.inp false false false s
  else s

/-- Shallow preferential flow, `phreeq_mms.F90:8472-8575`. -/
def qdf (rx : Ent → Sol → Sol) (f : Flow) (s : St) : St :=
  let v := f.r.qdf
  let dest := f.key true 7
  let s := book dest v s
  if v.inp > 0 then
    let t := v.init + v.inp
    note dest 3 v.out false false true
      (mix rx (checked [(f.key false 7, v.init / t), (f.key true 13, v.inp / t)]) (f.key false 7) dest (.res dest) s)
  else note dest (-1) 0 false false true (mix rx [(f.key false 7, 1)] (f.key false 7) dest (.res dest) s)

/-- Inputs of the saturated zone, `phreeq_mms.F90:8598-8668`. -/
def satIn (rx : Ent → Sol → Sol) (f : Flow) (s : St) : St :=
  let v := f.r.sat
  if v.inp > 0 then
    note (f.key true 8) 2 v.inp false false false
      (mix rx (checked ([(f.key false 11, v.ppt / v.inp), (f.key true 1, v.can / v.inp), (meltKey f s, v.melt / v.inp),
          (f.key true 13, v.uz / v.inp)] ++
        if f.gwExt then [(.data (f.srcGw1 + 1), v.gw1 / v.inp), (.data (f.srcGw2 + 1), v.gw2 / v.inp)]
        else [(.pure, 0), (.pure, 0)])) (f.key true 14) (f.key true 14) .no s)
  else s

/-- Saturated zone, `phreeq_mms.F90:8578-8765`. -/
def sat (rx : Ent → Sol → Sol) (f : Flow) (s : St) : St :=
  let v := f.r.sat
  let dest := f.key true 8
  let s := book dest v s
  if v.out > 0 ∨ v.inp > 0 then
    let s := satIn rx f s
    let t := v.init - f.sat2uz - f.well + v.inp
    let s := mix rx (checked [(f.key false 8, (v.init - f.sat2uz - f.well) / t), (f.key true 14, v.inp / t)])
      (f.key false 8) dest (.res dest) s
    let s := note dest 3 (v.out - f.sat2uz - f.well) false false true s
    if f.r.satpref.inp > 0 then note (f.key false 9) 2 f.r.satpref.inp false false false s else s
  else note dest (-1) 0 false false true (mix rx [(f.key false 8, 1)] (f.key false 8) dest (.res dest) s)

/-- Loss to deep groundwater, `phreeq_mms.F90:8773-8789`. -/
def gwLoss (f : Flow) (s : St) : St :=
  let v := f.p.vol f.i.gwLoss
  if v > 0 then { s with log := s.log ++ [.leave f.unit v s.conc] } else s

/-- Deep preferential flow, `phreeq_mms.F90:8838-8940`. -/
def satpref (rx : Ent → Sol → Sol) (f : Flow) (s : St) : St :=
  let v := f.r.satpref
  let dest := f.key true 9
  let s := book dest v s
  if f.prefMax > 0 then
    if v.inp > 0 then
      let t := v.init + v.inp
      note dest 3 v.out false false true
        (mix rx (checked [(f.key false 9, v.init / t), (f.key true 8, v.inp / t)]) (f.key false 9) dest (.res dest) s)
    else note dest (-1) 0 false false true (mix rx [(f.key false 9, 1)] dest dest (.res dest) s)
  else s

/-- Hillslope, `phreeq_mms.F90:8956-9023`. -/
def hill (rx : Ent → Sol → Sol) (f : Flow) (s : St) : St :=
  let v := f.r.hill
  if v.out > 0 ∧ v.inp > 0 then
    note (f.key true 10) 3 v.inp true false false
      (mix rx (checked [(f.key true 4, v.ohoriz / v.inp), (f.key true 7, v.qdf / v.inp), (f.key true 8, v.sat / v.inp),
        (f.key true 9, v.satpref / v.inp)]) (f.key true 10) (f.key true 10) .no s)
  else s

/-- The body of the loop over units, `phreeq_mms.F90:6732-9028`; `snow_ion_pulse` is reset at the start of the step
(6505). -/
def flow (rx : Ent → Sol → Sol) (f : Flow) (s : St) : St :=
  let s := deposit rx f { s with pulse := false }
  let s := canopy1 rx f (gwInput rx f s)
  let s := ohoriz rx f (snow rx f s)
  let s := binLoop rx f 1 f.bins (satToUz rx f s)
  let s := recharge rx f (canopy2 rx f s)
  let s := sat rx f (qdf rx f s)
  hill rx f (satpref rx f (gwLoss f s))

/-- A division by zero in a unit: a reservoir from which all water evaporates (7265, 7489, 8126, 8369), a saturated
zone that gives away all its water and receives none (8674), a canopy with transpiration but no input (8238). -/
def Flow.zero (f : Flow) : Bool :=
  let dry (v : Vol) : Bool := v.init + v.inp > 0 ∧ v.init + v.inp - v.et = 0
  decide ((f.r.can.uz = 0 ∧ (f.r.can.out ≠ 0 ∨ f.r.can.ppt ≠ 0 ∨ f.r.can.et ≠ 0) ∧ dry f.r.can) ∨
    (f.r.can.uz > 0 ∧ (f.r.can.inp = 0 ∨ f.r.can.init + f.r.can.inp = 0 ∨ f.r.can.init + f.r.can.inp - f.r.can.et = 0)) ∨
    ((f.r.snow.inp > 0 ∨ f.r.snow.et > 0 ∨ f.r.snow.out > 0) ∧ dry f.r.snow) ∨
    (∃ b ∈ f.bins, b.vol.init > 0 ∧ (b.vol.init + b.vol.inp = 0 ∨ b.vol.init + b.vol.inp - b.vol.et = 0)) ∨
    (f.quz > 0 ∧ f.r.qdf.uz + f.r.sat.uz = 0) ∨
    ((f.r.sat.out > 0 ∨ f.r.sat.inp > 0) ∧ f.r.sat.init - f.sat2uz - f.well + f.r.sat.inp = 0))

/-! ### Streams -/

/-- A segment in a step: `vmix_stream(ih)` and `vmix_stream(ih-1)` (for segment 1 the discharge) at the end of the step, `vmix_diversion`,
`vmix_chan_loss`, `vmix_hillexp` by unit.  `phreeq_mms.F90:9073-9095`. -/
structure Seg where
  own : Rat
  down : Rat
  taken : Rat
  loss : Rat
  hill : List (Nat × Rat)
deriving DecidableEq, Repr

/-- Water from the hillslopes, `phreeq_mms.F90:9083-9128`. -/
def segIn (rx : Ent → Sol → Sol) (h : Nat) (g : Seg) (s : St) : St :=
  let v := sumOf (·.2) g.hill
  if v > 0 then
    note (.seg false h) 2 v false false false
      (mix rx (checked (g.hill.map fun u => (.hill true 10 u.1, if u.2 / v < 0 then 0 else u.2 / v))) (.hill false 14 1)
        (.hill false 14 1) .no s)
  else s

/-- The body of loop 20, `phreeq_mms.F90:9070-9243`, for segment `h` counted from the outlet.  Final volume of the row: 9081.
Simplification: the variables `ch_outlet_*` are left out. -/
def segStep (rx : Ent → Sol → Sol) (h : Nat) (g : Seg) (s : St) : St :=
  let v := sumOf (·.2) g.hill
  let str := g.down + g.taken + g.loss
  let s := segIn rx h g { s with log := s.log ++ [.final (.seg false h) g.own] }
  if str > 0 then
    let x := (str - v) / str
    let s := mix rx (checked [(.hill false 14 1, v / str), (.seg false h, if x < 0 then 0 else x)]) (.seg false h)
      (.seg true (h - 1)) (.res (.seg false h)) s
    let s := note (.seg false h) 3 (g.taken + g.loss) false true false s
    if h > 1 then note (.seg false (h - 1)) 2 g.down false false false (note (.seg false h) 3 g.down false false true s)
    else note (.seg false h) 3 g.down false true true s
  else s

/-- Loop 20, `phreeq_mms.F90:9070-9243`: `h = clark_segs,...,1`; the first element of the list is the segment at the
outlet, `h` its number. -/
def segLoop (rx : Ent → Sol → Sol) : Nat → List Seg → St → St
  | _, [], s => s
  | h, g :: gs, s => segStep rx h g (segLoop rx (h + 1) gs s)

/-! ### Steps -/

/-- `phr_multicopy` of final to initial solutions, `phreeq_mms.F90:6481-6501, 6558-6570`: kinds 1 to 9 of a unit, its
bins, the segments 1 to `clark_segs`. -/
def restart (fs : List Flow) (n : Nat) (sol : Key → Sol) : Key → Sol
  | .hill false k u => if 1 ≤ k ∧ k ≤ 9 ∧ u ∈ fs.map (·.unit) then sol (.hill true k u) else sol (.hill false k u)
  | .bin false u j =>
    if (fs.any fun f => f.unit = u ∧ 1 ≤ j ∧ j ≤ f.bins.length) then sol (.bin true u j) else sol (.bin false u j)
  | .seg false h => if 1 ≤ h ∧ h ≤ n then sol (.seg true h) else sol (.seg false h)
  | k => sol k

/-- The start of a step, `phreeq_mms.F90:6389-6608`: solutions are copied except in the first step, before which
`phreeqmms_init` has defined the initial solutions (the others are pure water, 4150-4231, 4600-4605, 5017-5060). -/
def begin (first : Bool) (fs : List Flow) (n : Nat) (s : St) : St :=
  { s with sol := if first then s.sol else restart fs n s.sol, log := [] }

/-- A step of `phreeqmms_run`, `phreeq_mms.F90:6389-9243`, with the log of this step only; `first` is `step1`.
Simplification: a division by zero ends the model; the program goes on with infinities. -/
def step (rx : Ent → Sol → Sol) (first : Bool) (fs : List Flow) (gs : List Seg) (s : St) : Option St :=
  if fs.any (·.zero) then none
  else some (segLoop rx 1 gs (fs.foldl (fun s f => flow rx f s) (begin first fs gs.length s)))

/-! ### With the volumes of `webmod_res` -/

/-- What the transport knows of a unit besides its volumes: `qpref_max`, `snow_ion_factor`, `src_ext_irrig`, `irrig_int_src`,
`src_gw1`, `src_gw2`, `ngw_ext.ne.0`.  Simplification: sources are those of the whole run; `irrig_int_src` is a
segment. -/
structure Site where
  prefMax : Rat
  ion : Rat
  srcExt : Nat
  srcInt : Nat
  srcGw1 : Nat
  srcGw2 : Nat
  gwExt : Bool
deriving DecidableEq, Repr

/-- The units from number `u` on; `q` is `quz` of each.  Variables are those `webmod_res` has set in the same step,
`phreeq_mms.F90:6393-6470`. -/
def flows : Nat → List Par → List In → List (Rows × Extra) → List (Site × Rat) → List Flow
  | u, p :: ps, i :: is, (r, e) :: rs, (x, q) :: xs =>
    ⟨u, p, i, r, e.bins, q, x.prefMax, x.ion, x.srcExt, x.srcInt, x.srcGw1, x.srcGw2, x.gwExt⟩ :: flows (u + 1) ps is rs xs
  | _, _, _, _, _ => []

/-- The segments, `phreeq_mms.F90:9073-9095`; `us` are the numbers of the units. -/
def segs (us : List Nat) (o : Reservoir.BasinOut) : List Seg :=
  (List.range o.stream.length).map fun j =>
    ⟨o.stream.getD j 0, (o.discharge :: o.stream).getD j 0, o.taken.getD j 0, o.loss.getD j 0,
      List.zip us (o.hillexp.map (·.getD j 0))⟩

/-- A step of `webmod_res` and then of the transport (order of the modules: `call_modules_webmod.F:231-237`, C91).
`x` are the fluxes of the step, `quz` by unit. -/
def couple (rx : Ent → Sol → Sol) (first : Bool) (b : Reservoir.Basin) (ps : List (Par × Site)) (v : Reservoir.St) (s : St)
    (x : List In × Reservoir.StreamIn × List Rat) : Option (Reservoir.St × St × Reservoir.Out × List Flow) :=
  match Reservoir.webrrun b (ps.map (·.1)) v x.1 x.2.1 with
  | none => none
  | some (v', o) =>
    let fs := flows 1 (ps.map (·.1)) x.1 o.units (List.zip (ps.map (·.2)) x.2.2)
    match step rx first fs (segs (fs.map (·.unit)) o.basin) s with
    | none => none
    | some s' => some (v', s', o, fs)

/-- The steps of a run: states after each step, with what was mixed. -/
def run (rx : Ent → Sol → Sol) (b : Reservoir.Basin) (ps : List (Par × Site)) : Bool → Reservoir.St → St →
    List (List In × Reservoir.StreamIn × List Rat) → Option (List (Reservoir.St × St × Reservoir.Out × List Flow))
  | _, _, _, [] => some []
  | first, v, s, x :: xs =>
    match couple rx first b ps v s x with
    | none => none
    | some r => (run rx b ps false r.1 r.2.1 xs).map (r :: ·)

end Verif.Transport
