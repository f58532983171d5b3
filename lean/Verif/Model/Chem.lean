import Mathlib.Data.Rat.Defs
import Mathlib.Algebra.Order.Ring.Rat
/-
Model of the solute accounting of `phreeq_mms.F90`: `update_chem` (10608-10968), the accounting part of
`fractionate` (11213-11214, 11272-11277), groundwater that crosses the boundary of an MRU (7101-7124, 8784-8792), and
the start of a time step in `phreeqmms_run` (6389-6605).

Reals are exact rationals.  The table `c_chem` and the composites are one function from account and field to the
value; rows of `c_chem` are numbered as by `isoln`.  Debug output is left out.
-/
namespace Verif.Chem

/-- `c_chem(row)`, `c_chem_basin`, `c_chem_hyd`, `c_chem_mru(is)`, `c_chem_uzgen(is)`, `c_chem_uzrip(is)`,
`c_chem_uzup(is)`, `phreeq_mms.F90:331-342`. -/
inductive Acc where
  | res (row : Int)
  | basin
  | hyd
  | mru (i : Nat)
  | uzgen (i : Nat)
  | uzrip (i : Nat)
  | uzup (i : Nat)
deriving DecidableEq, Repr

/-- Components of `TYPE geochem`, `phreeq_mms.F90:316-329`; the slots are 1 init, 2 in, 3 out, 4 rxn or ET,
5 fin. -/
inductive Fld where
  | vol (s : Nat)
  | temp (s : Nat)
  | pH (s : Nat)
  | mol (n s : Nat)
  | delta (n s : Nat)
  | rxn (n j : Nat)
  | elem (n : Nat)
  | mass (j : Nat)
  | massDiff (j : Nat)
deriving DecidableEq, Repr

/-- The structures `phreeq_mms.F90:331-342`. -/
abbrev Table := Acc → Fld → Rat

/-- `x = x + v` on one component.  E.g. `phreeq_mms.F90:10693-10723`. -/
def add (t : Table) (a : Acc) (f : Fld) (v : Rat) : Table := fun b g => if b = a ∧ g = f then t b g + v else t b g

/-- `x = v` on one component.  E.g. `phreeq_mms.F90:10676-10689`. -/
def put (t : Table) (a : Acc) (f : Fld) (v : Rat) : Table := fun b g => if b = a ∧ g = f then v else t b g

/-- The same addition to several accounts.  E.g. `phreeq_mms.F90:10883-10901`. -/
def addAll (as : List Acc) (f : Fld) (v : Rat) (t : Table) : Table := as.foldl (fun t a => add t a f v) t

/-- What `update_chem` takes from modules: the MRU `is`, `riparian(ia,is)`, the segment `ih`, `vmix_stream(ih-1)`,
`basin_qsim_cm*1e4*basin_area`, the number of solutes, which of them are isotopes, `ntally_cols`, `mult`.
`phreeq_mms.F90:10608-10656`. -/
structure Ctx where
  is : Nat
  rip : Bool
  ih : Int
  upvol : Rat
  outlet : Rat
  nsolute : Nat
  iso : Nat → Bool
  ncols : Nat
  mult : Nat → Rat

/-- Arguments of `update_chem`: `indx`, `totvol`, `imetric`, `conc1` (`conc n`, and `dconc n` for the value
`conc1(nsolute+nis)` of isotope `n`), `pH`, `tempc`, `tally_table` (`tal n` for `tally_table(k,2)`, `ent n j` for
`tally_table(ke,j)`, `last j` for `tally_table(ntally_rows+1,j)`), `mrubnd`, `basbnd`, `restype`, `react`.
`phreeq_mms.F90:10608-10610`. -/
structure Call where
  row : Int
  totvol : Rat
  metric : Int
  conc : Nat → Rat
  dconc : Nat → Rat
  pH : Rat
  tempc : Rat
  tal : Nat → Rat
  ent : Nat → Nat → Rat
  last : Nat → Rat
  mrubnd : Bool
  basbnd : Bool
  restype : Int
  react : Bool

/-- `phreeq_mms.F90:10657-10666`. -/
def Call.mru (c : Call) : Bool := 0 < c.restype ∧ c.restype < 10
/-- `phreeq_mms.F90:10657-10666`. -/
def Call.unsat (c : Call) : Bool := c.mru ∧ c.restype = 5
/-- `phreeq_mms.F90:10657-10666`. -/
def Call.stream (c : Call) : Bool := c.restype = 99

/-- `im`, `phreeq_mms.F90:10673-10675`. -/
def Call.im (c : Call) : Int := if c.metric = 0 then 2 else if c.metric = -1 then 5 else c.metric

/-- The unsaturated composites, `phreeq_mms.F90:10705-10718` and wherever `riparian(ia,is)` is tested. -/
def uzAccs (x : Ctx) (c : Call) : List Acc :=
  if c.unsat then [.uzgen x.is, if x.rip then .uzrip x.is else .uzup x.is] else []

/-- The composites that take part in the volumes, temperatures and pH of an input or output,
`phreeq_mms.F90:10693-10723`. -/
def volAccs (x : Ctx) (c : Call) : List Acc :=
  (if c.basbnd then [.basin] else []) ++ (if c.mrubnd then [.mru x.is] else []) ++ uzAccs x c ++
    (if x.ih = 1 ∨ (c.stream ∧ ¬ c.react) then [.hyd] else [])

/-- The composites that take part in its solutes, `phreeq_mms.F90:10769-10791`. -/
def molAccs (x : Ctx) (c : Call) : List Acc :=
  (if c.basbnd then [.basin] else []) ++ (if c.mrubnd then [.mru x.is] else []) ++ uzAccs x c ++
    (if (c.stream ∧ ¬ c.react) ∨ x.ih = 1 then [.hyd] else [])

/-- `vol`, `phreeq_mms.F90:10676-10686`. -/
def callVol (c : Call) (im : Nat) (t : Table) : Rat :=
  if im = 3 ∨ im = 2 then c.totvol else if im = 1 then c.totvol else t (.res c.row) (.vol 5)

/-- The reservoir's own volume, temperature and pH, `phreeq_mms.F90:10676-10689`. -/
def ownVol (c : Call) (im : Nat) (vol : Rat) (t : Table) : Table :=
  if im = 3 ∨ im = 2 then
    add (add (add t (.res c.row) (.vol im) vol) (.res c.row) (.temp im) (c.tempc * vol)) (.res c.row) (.pH im) (c.pH * vol)
  else put (put t (.res c.row) (.temp im) c.tempc) (.res c.row) (.pH im) c.pH

/-- The composites' volume, temperature and pH, `phreeq_mms.F90:10690-10723`. -/
def compVol (x : Ctx) (c : Call) (im : Nat) (vol : Rat) (t : Table) : Table :=
  addAll (volAccs x c) (.pH im) (vol * c.pH)
    (addAll (volAccs x c) (.temp im) (vol * c.tempc) (addAll (volAccs x c) (.vol im) vol t))

/-- The reservoir's own solutes, `phreeq_mms.F90:10729-10754`, for solute `n`: the table and `Moles`. -/
def ownMol (c : Call) (im : Nat) (vol : Rat) (n : Nat) (t : Table) : Table × Rat :=
  if (¬ c.stream ∧ im = 3) ∨ im = 2 then
    (add t (.res c.row) (.mol n im) (c.conc n * c.totvol * 1000), c.conc n * c.totvol * 1000)
  else if ¬ c.stream then (put t (.res c.row) (.mol n im) (c.tal n * vol * 1000), c.tal n * vol * 1000)
  else if ¬ c.react then
    (add t (.res c.row) (.mol n im) (c.conc n * c.totvol * 1000), c.conc n * c.totvol * 1000)
  else
    let moles := c.tal n * vol * 1000
    let t' := add t (.res c.row) (.mol n im) moles
    if im = 3 then
      let t'' := put t' (.res (c.row - 1)) (.mol n 2) (t' (.res c.row) (.mol n im) + moles)
      (put t'' (.res (c.row - 1)) (.mol n 1) moles, moles)
    else (t', moles)

/-- The reservoir's own delta of an isotope, `phreeq_mms.F90:10755-10764`. -/
def ownDelta (c : Call) (im : Nat) (vol : Rat) (n : Nat) (t : Table) : Table :=
  let t' := add t (.res c.row) (.delta n im) (c.dconc n * vol)
  if c.stream ∧ c.react then
    put (put t' (.res (c.row - 1)) (.delta n 2) (c.dconc n * vol)) (.res (c.row - 1)) (.delta n 1) (c.dconc n)
  else t'

/-- One pass of the loop 10, `phreeq_mms.F90:10728-10792`. -/
def solute (x : Ctx) (c : Call) (im : Nat) (vol : Rat) (t : Table) (n : Nat) : Table :=
  let r := ownMol c im vol n t
  let t1 := if x.iso n then ownDelta c im vol n r.1 else r.1
  let t2 := addAll (molAccs x c) (.mol n im) r.2 t1
  if x.iso n then addAll (molAccs x c) (.delta n im) (vol * c.dconc n) t2 else t2

/-- The composites of a reservoir that reacts, except the stream: `phreeq_mms.F90:10820-10845`. -/
def hillAccs (x : Ctx) (c : Call) : List Acc := .basin :: .mru x.is :: uzAccs x c

/-- The composites of the reaction of solutes, `phreeq_mms.F90:10883-10901` and below: the basin apart. -/
def rxnAccs (x : Ctx) (c : Call) : List Acc :=
  (if c.mru then .mru x.is :: uzAccs x c else []) ++ (if c.stream then [.hyd] else [])

/-- Volumes of a reaction, `phreeq_mms.F90:10806-10845`: the reacting volume and the table; `vw` are the
products with the volume of the first part. -/
def rxnVol (x : Ctx) (c : Call) (im : Nat) (vol : Rat) (t : Table) : Table × Rat :=
  let v := t (.res c.row) (.vol 5)
  let et := t (.res c.row) (.vol 4)
  let t1 := add t .basin (.vol 4) et
  if c.stream then
    if x.ih > 1 then
      let t2 := addAll [.basin] (.pH 5) (vol * c.pH)
        (addAll [.basin] (.temp 5) (vol * c.tempc) (addAll [.basin] (.vol 5) x.upvol t1))
      let t3 := put t2 .hyd (.vol 5) (t2 .hyd (.vol im) + x.upvol)
      (add (add t3 .hyd (.temp 5) (vol * c.tempc)) .hyd (.pH 5) (vol * c.pH), x.upvol)
    else (t1, x.outlet)
  else
    let t2 := addAll (hillAccs x c) (.vol 5) v t1
    let t3 := addAll (hillAccs x c).tail (.vol 4) et t2
    (addAll (hillAccs x c) (.pH 5) (vol * c.pH) (addAll (hillAccs x c) (.temp 5) (vol * c.tempc) t3), v)

/-- Solutes by entity, `phreeq_mms.F90:10908-10929`. -/
def entity (x : Ctx) (c : Call) (vol : Rat) (n : Nat) (t : Table) (j : Nat) : Table :=
  let m := c.ent n j * x.mult j * vol * 1000
  addAll (.basin :: rxnAccs x c) (.rxn n j) m (put t (.res c.row) (.rxn n j) m)

/-- `j = 3, ntally_cols`.  `phreeq_mms.F90:10954`. -/
def cols (x : Ctx) : List Nat := List.range' 3 (x.ncols - 2)

/-- `M_elem_sum`.  `phreeq_mms.F90:10908-10929`. -/
def elemSum (x : Ctx) (c : Call) (vol : Rat) (n : Nat) : Rat :=
  ((cols x).map fun j => c.ent n j * x.mult j * vol * 1000).sum

/-- One pass of the loop 20, `phreeq_mms.F90:10847-10949`. -/
def reaction (x : Ctx) (c : Call) (vol : Rat) (t : Table) (n : Nat) : Table :=
  let mrxn := c.tal n * vol * 1000
  let t1 := put t (.res c.row) (.mol n 5) mrxn
  let diff := if x.iso n then t1 (.res c.row) (.mol n 4) else mrxn - c.conc n * vol * 1000
  let t2 :=
    if x.iso n then
      addAll (.basin :: ((if c.stream then [.hyd] else []) ++ (if c.mru then .mru x.is :: uzAccs x c else [])))
        (.delta n 5) (c.dconc n * vol) (put t1 (.res c.row) (.delta n 5) (c.dconc n * vol))
    else put (put t1 (.res c.row) (.mol n 4) diff) (.res c.row) (.mol n 5) mrxn
  let t3 := add t2 .basin (.mol n 4) diff
  let t4 := if x.ih ≠ 1 then add t3 .basin (.mol n 5) mrxn else t3
  let t5 := addAll (rxnAccs x c) (.mol n 5) mrxn (addAll (rxnAccs x c) (.mol n 4) diff t4)
  let t6 := if x.iso n then t5 else (cols x).foldl (entity x c vol n) t5
  let sum := if x.iso n then 0 else elemSum x c vol n
  let frac := if sum > 0 then diff / sum else 0
  addAll (.basin :: rxnAccs x c) (.elem n) (frac * vol) (put t6 (.res c.row) (.elem n) frac)

/-- `phreeq_mms.F90:10954-10957` for one column. -/
def massStep (c : Call) (t : Table) (j : Nat) : Table :=
  put (put t (.res c.row) (.massDiff j) (t (.res c.row) (.mass j) - c.last j)) (.res c.row) (.mass j) (c.last j)

/-- The solutes, numbered from 1.  `phreeq_mms.F90:10728`. -/
def solutes (x : Ctx) : List Nat := List.range' 1 x.nsolute

/-- `update_chem`, `phreeq_mms.F90:10608-10968`.  `none`: a metric for which there is no slot. -/
def updateChem (x : Ctx) (c : Call) (t : Table) : Option Table :=
  if c.im < 1 ∨ c.im > 5 then none
  else
    let im := c.im.toNat
    let vol := callVol c im t
    let t1 := compVol x c im vol (ownVol c im vol t)
    let t2 := (solutes x).foldl (solute x c im vol) t1
    let t3 := if im = 1 then (cols x).foldl (fun t j => put t (.res c.row) (.mass j) (c.last j)) t2 else t2
    if c.react then
      let r := rxnVol x c im vol t3
      let t4 := (solutes x).foldl (reaction x c r.2) r.1
      some ((cols x).foldl (massStep c) t4)
    else some t3

/-- The accounting of `fractionate`, `phreeq_mms.F90:11213-11214` and 11272-11277: `evap` cubic metres of water
with `d n` permil and `m n` moles per litre of isotope `n` leave reservoir `row`. -/
def evaporate (x : Ctx) (row : Int) (evap : Rat) (d m : Nat → Rat) (t : Table) : Table :=
  let isos := (solutes x).filter x.iso
  let t1 := isos.foldl (fun t n => add (add t (.res row) (.delta n 4) (d n * evap)) .basin (.delta n 4) (d n * evap)) t
  isos.foldl (fun t n => add t (.res row) (.mol n 4) (-(m n * evap * 1000))) t1

/-- Groundwater from outside, `phreeq_mms.F90:7101-7124`: added to the MRU and the basin.  Simplification: `ch_mru_permil_in`
and `ch_basin_permil_in` are left out. -/
def gwGain (x : Ctx) (vol : Rat) (conc : Nat → Rat) (tempc pH : Rat) (t : Table) : Table :=
  let as : List Acc := [.mru x.is, .basin]
  let t1 := addAll as (.pH 2) (pH * vol) (addAll as (.temp 2) (tempc * vol) (addAll as (.vol 2) vol t))
  (solutes x).foldl (fun t k => addAll as (.mol k 2) (conc k * vol * 1000) t) t1

/-- Groundwater lost, `phreeq_mms.F90:8784-8792`: added to the outputs of the MRU and the basin, temperature and pH are not.
Simplification: `ch_mru_permil_out` and `ch_basin_permil_out` are left out. -/
def gwLeak (x : Ctx) (vol : Rat) (conc : Nat → Rat) (t : Table) : Table :=
  let as : List Acc := [.mru x.is, .basin]
  (solutes x).foldl (fun t k => addAll as (.mol k 3) (conc k * vol * 1000) t) (addAll as (.vol 3) vol t)

/-- The start of a time step after the first, `phreeq_mms.F90:6389-6480` and 6578-6605: the final values become
the initial ones, the others are reset.  Applied to all accounts at once; the accounts outside the dimensions
do not exist in the code.  `Rxn`, `ElemFrac` are reset for composites only, `Mass` and `MassDiff` stay. -/
def newStep (t : Table) : Table := fun a f =>
  match f with
  | .vol s => if s = 1 then t a (.vol 5) else 0
  | .temp s => if s = 1 then t a (.temp 5) else 0
  | .pH s => if s = 1 then t a (.pH 5) else 0
  | .mol n s => if s = 1 then t a (.mol n 5) else 0
  | .delta n s => if s = 1 then t a (.delta n 5) else 0
  | .rxn n j => match a with | .res _ => t a (.rxn n j) | _ => 0
  | .elem n => match a with | .res _ => t a (.elem n) | _ => 0
  | .mass j => t a (.mass j)
  | .massDiff j => t a (.massDiff j)

/-- What the main loop does to the table: calls of `update_chem`; `evaporate`; setting the evaporation and the final
volume of a reservoir (7138-7139, 7389-7390, 7742-7743, 8011-8012, 8486-8487, 8590-8591, 8849-8850, 9079); groundwater from
outside (7101-7124) and lost (8784-8792); the start of the next time step. -/
inductive Event where
  | call (x : Ctx) (c : Call)
  | evap (x : Ctx) (row : Int) (vol : Rat) (d m : Nat → Rat)
  | et (row : Int) (v : Rat)
  | final (row : Int) (v : Rat)
  | enter (x : Ctx) (vol : Rat) (conc : Nat → Rat) (tempc pH : Rat)
  | leave (x : Ctx) (vol : Rat) (conc : Nat → Rat)
  | next

/-- One event; order and arguments of the events in `phreeqmms_run` are not modelled.
`phreeq_mms.F90:6389-9200`. -/
def step (e : Event) (t : Table) : Option Table :=
  match e with
  | .call x c => updateChem x c t
  | .evap x row vol d m => some (evaporate x row vol d m t)
  | .et row v => some (put t (.res row) (.vol 4) v)
  | .final row v => some (put t (.res row) (.vol 5) v)
  | .enter x vol conc tempc pH => some (gwGain x vol conc tempc pH t)
  | .leave x vol conc => some (gwLeak x vol conc t)
  | .next => some (newStep t)

/-- A history of events.  `phreeq_mms.F90:6389-9200`. -/
def run : List Event → Table → Option Table
  | [], t => some t
  | e :: l, t => (step e t).bind (run l)

end Verif.Chem
