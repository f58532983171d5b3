import Mathlib.Algebra.Order.Field.Rat
/-
Numbering of the PHREEQC solutions of all model reservoirs and the rows of the chemistry table
(webmod.d/src/phreeq_mms.F90).

Integers are `Int`: the theorems of C34 show that the numbers fit the 32 bit integers of the code.  The
reals of the code are single precision: every conversion and operation is rounded by `fl`, about which the
theorems assume only what holds of any correct rounding (`Single` in the specification).
-/
namespace Verif.SolnNum

/-- Fortran `int` of a real: truncation towards zero.  phreeq_mms.F90:10345, 10405. -/
def truncR (x : Rat) : Int := if x < 0 then -((-x).floor) else x.floor

/-- phreeq_mms.F90:10330-10359 (`solnnum`): the number of a reservoir.  `1e3 + chemdat` (line 10345) is a
single precision addition.  Simplification: the messages and the unused argument `stat` are left out. -/
def solnnum (fl : Rat → Rat) (time res chemdat mru nac hydro : Int) : Int :=
  if res < 0 ∨ res > 99 then -99
  else if res = 99 then time * 100000000 + 300000000 + hydro
  else if res = 0 then
    if chemdat = 0 then 1 else truncR (fl (1000 + fl chemdat))
  else if res ≤ 14 then
    time * 100000000 + 100000000 + res * 1000000 + mru * 1000 + (if res = 5 then nac * 10 else 0)
  else -99

/-- What `isoln` returns: the row and the output arguments.  phreeq_mms.F90:10365-10366, 10375-10379. -/
structure Loc where
  row : Int
  ires : Int
  chemdat : Int
  mru : Int
  nac : Int
  hydro : Int
deriving Repr, DecidableEq

/-- phreeq_mms.F90:10405 and alike: `int(icut*1.0/1e6)`. -/
def cutRes (fl : Rat → Rat) (icut : Int) : Int := truncR (fl (fl icut / 1000000))

/-- phreeq_mms.F90:10406 and alike: the single precision value `icut*1.0 - ires*1e6`. -/
def cutRest (fl : Rat → Rat) (icut ires : Int) : Rat := fl (fl icut - fl (fl ires * 1000000))

/-- phreeq_mms.F90:10406 and alike: `int((icut*1.0 - ires*1e6)/1000.)`. -/
def cutMru (fl : Rat → Rat) (icut ires : Int) : Int := truncR (fl (cutRest fl icut ires / 1000))

/-- phreeq_mms.F90:10412, 10428: `int((icut*1.0 - ires*1e6 -imru*1e3)/10)`. -/
def cutNac (fl : Rat → Rat) (icut ires imru : Int) : Int :=
  truncR (fl (fl (cutRest fl icut ires - fl (fl imru * 1000)) / 10))

/-- phreeq_mms.F90:10403-10407, 10419-10423 (reservoirs after the unsaturated zone). -/
def locAfter (fl : Rat → Rat) (nchemdat nmru nac icut : Int) : Loc :=
  let ires := cutRes fl icut
  let imru := cutMru fl icut ires
  ⟨1 + nchemdat + nac * nmru + (ires - 3) * nmru + imru, ires, -99, imru, -99, -99⟩

/-- phreeq_mms.F90:10408-10413, 10424-10429 (unsaturated zone). -/
def locUz (fl : Rat → Rat) (nchemdat nmru nac icut : Int) : Loc :=
  let ires := cutRes fl icut
  let imru := cutMru fl icut ires
  let inac := cutNac fl icut ires imru
  ⟨1 + nchemdat + nmru * 4 + (imru - 1) * nac + inac, ires, -99, imru, inac, -99⟩

/-- phreeq_mms.F90:10414-10418, 10430-10434 (reservoirs before the unsaturated zone). -/
def locSurface (fl : Rat → Rat) (nchemdat nmru icut : Int) : Loc :=
  let ires := cutRes fl icut
  let imru := cutMru fl icut ires
  ⟨1 + nchemdat + (ires - 1) * nmru + imru, ires, -99, imru, -99, -99⟩

/-- phreeq_mms.F90:10395-10402 (drainage segments). -/
def locHydro (nchemdat nmru nac h : Int) : Loc :=
  ⟨1 + nchemdat + nmru * (nac + 12) + h + 1, 99, -99, -99, -99, h⟩

/-- phreeq_mms.F90:10365-10438 (`isoln`).  Simplification: the message for a number out of range is left
out; its argument `nhydro` is not used by the code. -/
def isoln (fl : Rat → Rat) (s nchemdat nmru nac : Int) : Loc :=
  if s < 1 ∨ s ≥ 600000000 then ⟨0, -99, -99, -99, -99, -99⟩
  else if s = 1 then ⟨1, -99, -99, -99, -99, -99⟩
  else if s < 1000000 then ⟨s - 999, 0, s - 999 - 1, -99, -99, -99⟩
  else if s ≥ 400000000 then locHydro nchemdat nmru nac (s - 400000000)
  else if s ≥ 300000000 then locHydro nchemdat nmru nac (s - 300000000)
  else if s ≥ 206000000 then locAfter fl nchemdat nmru nac (s - 200000000)
  else if s ≥ 205000000 then locUz fl nchemdat nmru nac (s - 200000000)
  else if s > 200000000 then locSurface fl nchemdat nmru (s - 200000000)
  else if s ≥ 106000000 then locAfter fl nchemdat nmru nac (s - 100000000)
  else if s ≥ 105000000 then locUz fl nchemdat nmru nac (s - 100000000)
  else locSurface fl nchemdat nmru (s - 100000000)

/-! ### The table -/

/-- The sizes used (phreeq_mms.F90:801-811, 3502, 3660): data sources, MRUs, most bins of an MRU, drainage
segments (`nhydro` equals `clark_segs`: route_clark.F:667 refuses anything else) and the bins of each MRU. -/
structure Dims where
  nchemdat : Nat
  nmru : Nat
  nac : Nat
  segs : Nat
  nacsc : Nat → Nat

/-- phreeq_mms.F90:811: the rows allocated. -/
def nsoln (d : Dims) : Nat := 1 + d.nchemdat + 2 * d.nmru * (d.nac + 12) + 2 * (d.segs + 1)

/-- phreeq_mms.F90:4152-4173, 4186-4214: the numbers of the reservoirs `js` of every MRU. -/
def mruNums (fl : Rat → Rat) (d : Dims) (t : Int) (js : List Int) : List Int :=
  js.flatMap fun j => (List.range' 1 d.nmru).map fun (k : Nat) => solnnum fl t j 0 k 0 0

/-- phreeq_mms.F90:4174-4185: the numbers of the unsaturated zone bins. -/
def uzNums (fl : Rat → Rat) (d : Dims) (t : Int) : List Int :=
  (List.range' 1 d.nmru).flatMap fun k =>
    (List.range' 1 (d.nacsc k)).map fun (l : Nat) => solnnum fl t 5 0 k l 0

/-- phreeq_mms.F90:4222-4230: the numbers of the drainage segments. -/
def hydNums (fl : Rat → Rat) (d : Dims) (t : Int) : List Int :=
  (List.range (d.segs + 1)).map fun (h : Nat) => solnnum fl t 99 0 0 0 h

/-- phreeq_mms.F90:4151-4231: one pass of the loop over the two time levels. -/
def block (fl : Rat → Rat) (d : Dims) (t : Int) : List Int :=
  mruNums fl d t [1, 2, 3, 4] ++ uzNums fl d t ++ mruNums fl d t [7, 8, 9, 10, 11, 12, 13, 14] ++
    hydNums fl d t

/-- phreeq_mms.F90:4109-4231: column 1 of `c_indx`, the number of each row (row 1 first). -/
def table (fl : Rat → Rat) (d : Dims) : List Int :=
  1 :: ((List.range' 1 d.nchemdat).map fun (i : Nat) => solnnum fl 0 0 i 0 0 0) ++ block fl d 0 ++ block fl d 1

/-- phreeq_mms.F90:10501-10515 (`chemflag`) on the pairs (row, number) of `chvar_lut`. -/
def chemflag (index : Int) (lut : List (Int × Int)) (number : Int) : List (Int × Int) × Int :=
  (lut.map fun e => if e.2 = number then (index, e.2) else e,
   if lut.any (fun e => e.2 == number) then 1 else 0)

/-- phreeq_mms.F90:4128-4231: `chemflag` for every row from number `row` on (row 1 is not offered). -/
def chemvars : Int → List Int → List (Int × Int) → List (Int × Int)
  | _, [], lut => lut
  | row, n :: ns, lut => chemvars (row + 1) ns (chemflag row lut n).1

/-- The parameters naming the initial reactants: by kind, reservoir and MRU; by kind, MRU and bin; by kind
and segment (phreeq_mms.F90:4298-4530 prepare them). -/
structure Initial where
  nchemobs : Nat
  set : Nat → Int → Int → Int
  uz : Nat → Int → Int → Int
  hydro : Nat → Int → Int

/-- phreeq_mms.F90:4534-4584: entry `src_init(i,j)` for a reactant kind `j ≥ 2` before line 4671.  Only the
kinds 2, 3, 4, 6 and 8 are ever assigned. -/
def srcFirst (d : Dims) (p : Initial) (i : Nat) (l : Loc) (j : Nat) : Int :=
  if j ∉ [2, 3, 4, 6, 8] then -1
  else if i = 1 then -1
  else if l.chemdat = 1 then -1
  else if l.chemdat > 1 ∧ l.chemdat ≤ (d.nchemdat : Int) - p.nchemobs then -1
  else if l.ires ≥ 1 ∧ l.ires ≤ 9 then
    if l.nac > 0 then p.uz j l.mru l.nac else p.set j l.ires l.mru
  else if l.hydro > 0 then p.hydro j l.hydro
  else -1

/-- phreeq_mms.F90:4534-4584, 4671-4675: entry `src_init(i,j)`, `j ≥ 2`, after initialisation.  `none`: no such row. -/
def srcInit (fl : Rat → Rat) (d : Dims) (p : Initial) (i : Int) (j : Nat) : Option Int :=
  if i < 1 then none
  else
    match (table fl d)[i.toNat - 1]? with
    | none => none
    | some n =>
      if srcFirst d p i.toNat (isoln fl n d.nchemdat d.nmru d.nac) j ≠ -1 then some n else some (-1)

/-- phreeq_mms.F90:10441-10459 (`fill_ent`): the reactants for mixing into solution `n`, kinds 1 to 11.
`none`: the row looked up does not exist. -/
def fillEnt (fl : Rat → Rat) (d : Dims) (p : Initial) (n : Int) : Option (List Int) :=
  ((List.range' 2 10).mapM fun j => srcInit fl d p (isoln fl n d.nchemdat d.nmru d.nac).row j).map
    fun l => -1 :: l

/-! ### Fractions -/

/-- The value of the single precision literal `1e-3` (phreeq_mms.F90:10492). -/
def tol : Rat := 8589935 / 8589934592

/-- Fortran integer division by a positive number: truncation (phreeq_mms.F90:10478). -/
def quot (a b : Int) : Int := Int.tdiv a b

/-- phreeq_mms.F90:10475-10491: one pass of the loop.  State: sum, `ET`, `SNOW`; the fraction left in
`fracs(i)`.  Additions are rounded by `rd`. -/
def fracStep (rd : Rat → Rat) (st : Rat × Bool × Bool) (e : Int × Rat) : (Rat × Bool × Bool) × Rat :=
  if e.2 < 0 then
    let et := st.2.1 || decide (e.1 = 1)
    let snow := st.2.2 || decide (e.1 = 2) || decide (quot e.1 1000000 = 102)
    if !et && !snow then ((rd (st.1 + 0), et, snow), 0) else ((rd (st.1 + e.2), et, snow), e.2)
  else ((rd (st.1 + e.2), st.2.1, st.2.2), e.2)

/-- phreeq_mms.F90:10472-10491: the loop; the final sum and the fractions. -/
def fracLoop (rd : Rat → Rat) : Rat × Bool × Bool → List (Int × Rat) → Rat × List Rat
  | st, [] => (st.1, [])
  | st, e :: es =>
    ((fracLoop rd (fracStep rd st e).1 es).1, (fracStep rd st e).2 :: (fracLoop rd (fracStep rd st e).1 es).2)

/-- phreeq_mms.F90:10461-10499 (`checkfracs`): result and fractions afterwards.  Simplification: messages
left out. -/
def checkfracs (rd : Rat → Rat) (mix : List (Int × Rat)) : Int × List Rat :=
  let r := fracLoop rd (0, false, false) mix
  (if |rd (1 - r.1)| > tol then 1 else 0, r.2)

/-- phreeq_mms.F90:5160-5176 and every other caller: the result of `checkfracs` only selects a message;
the mix is requested (`phr_mix`) with the fractions left by it. -/
def checkedMix {α : Type} (rd : Rat → Rat) (phrMix : List (Int × Rat) → α) (mix : List (Int × Rat)) : α :=
  phrMix ((mix.map (·.1)).zip (checkfracs rd mix).2)

end Verif.SolnNum
