import Mathlib.Data.Rat.Defs
/-
The tally table (phreeqcpp/tally.cpp): for every reactant (column) the amounts of all elements (rows)
before and after a reaction step, and its transfer to the caller's array.

Amounts are exact rationals.  Master species are numbered by their place in `master`; an element in an
element list is represented by its primary master species.  `none` as a result is an access outside an
array or a stop of the engine.
-/
namespace Verif.Tally

/-- Names, e.g. tally.cpp:530. -/
abbrev Text := List Char

/-- The part of the data base that is used: primary master species of a species; primary species that are
water or hydrogen ion (tally.cpp:718-723); aqueous ones (tally.cpp:724). -/
structure Db where
  primary : Nat → Nat
  water : Nat → Bool
  aq : Nat → Bool
  count : Nat

/-- Element lists: primary master species and coefficient.  tally.cpp:716-742. -/
abbrev Elts := List (Nat × Rat)

/-- Rows: the master species of the row; none for Total_H and Total_O (tally.cpp:113-160). -/
abbrev Rows := List (Option Nat)

/-- tally.cpp:726-737: the first row with this primary master species. -/
def rowOf (db : Db) (rows : Rows) (p : Nat) : Option Nat := rows.findIdx? fun m => m.map db.primary == some p

/-- One turn of tally.cpp:716-742. -/
def eltOne (db : Db) (rows : Rows) (buf : List Rat) (e : Nat × Rat) : Option (List Rat) :=
  if db.water e.1 = true ∨ db.aq e.1 = false then some buf
  else (rowOf db rows e.1).map fun i => buf.set i e.2

/-- tally.cpp:701-744 (`elt_list_to_tally_table`). -/
def eltTally (db : Db) (rows : Rows) (es : Elts) : Option (List Rat) :=
  es.foldlM (eltOne db rows) (List.replicate rows.length 0)

/-- One turn of tally.cpp:760-784. -/
def masterOne (db : Db) (rows : Rows) (tot : Nat → Rat) (buf : List Rat) (m : Nat) : Option (List Rat) :=
  if tot m ≤ 0 ∨ db.water (db.primary m) = true ∨ db.aq (db.primary m) = false then some buf
  else (rows.findIdx? fun r => r == some m).map fun i => buf.set i (tot m)

/-- tally.cpp:746-786 (`master_to_tally_table`). -/
def masterTally (db : Db) (rows : Rows) (tot : Nat → Rat) : Option (List Rat) :=
  (List.range db.count).foldlM (masterOne db rows tot) (List.replicate rows.length 0)

/-- A solution: alkalinity, total hydrogen and oxygen, and the totals by master species.  tally.cpp:455-485. -/
structure Sol where
  alk : Rat
  h : Rat
  o : Rat
  totals : List (Nat × Rat)

/-- tally.cpp:461-473: the totals of the master species after `add_solution` has summed them up in the
primary master species and the loop has stored each total in its own master species. -/
def masterTot (db : Db) (s : Sol) (m : Nat) : Rat :=
  match (s.totals.filter fun p => p.1 = m).getLast? with
  | some p => p.2
  | none => (s.totals.map fun p => if db.primary p.1 = m then p.2 else 0).sum

/-- The reactants stored in the engine.  Reaction: moles of the first step and the elements for one mole;
exchange, surface, gas phase: the combined element list; phase assemblages, solid solutions, kinetics: the
components with their moles (all solid solutions of an assemblage one after the other).  tally.cpp:435-690. -/
structure Ents where
  solution : Int → Option Sol
  reaction : Int → Option (Rat × Elts)
  exchange : Int → Option Elts
  surface : Int → Option Elts
  gas : Int → Option Elts
  pure : Int → Option (List (Text × Rat))
  ss : Int → Option (List (Text × Rat))
  kinetics : Int → Option (List (Text × Rat))

/-- global_structures.h:165-168, the kinds that have columns. -/
inductive Kind
  | solution | reaction | exchange | surface | gas | pure | ss | kinetics
  deriving DecidableEq

/-- A column (global_structures.h:1450-1465): kind, name and formula; the moles; the amounts in the three
buffers initial, final, difference. -/
structure Col where
  kind : Kind
  name : Text
  formula : Elts
  moles : Rat
  initial : List Rat
  final : List Rat
  diff : List Rat

/-- `add_elt_list (…, moles)`, e.g. tally.cpp:509, 540. -/
def scale (es : Elts) (x : Rat) : Elts := es.map fun e => (e.1, e.2 * x)

/-- `strcmp_nocase (a, b) == 0`.  tally.cpp:530, 610, 670. -/
def sameName (a b : Text) : Bool := a.map Char.toLower == b.map Char.toLower

/-- tally.cpp:523-538, 595-621 and 663-680: the moles of the first component with the name of the column. -/
def compMoles (comps : List (Text × Rat)) (name : Text) : Option Rat :=
  (comps.find? fun c => sameName c.1 name).map (·.2)

/-- What `fill_tally_table` finds for a column: nothing to do, stop, or the amounts and (for phases and
kinetics) the moles.  tally.cpp:431-696. -/
inductive Found
  | nothing
  | stop
  | amounts (moles : Option Rat) (buf : List Rat)

/-- tally.cpp:431-696. -/
def Found.ofOption (moles : Option Rat) : Option (List Rat) → Found
  | none => .stop
  | some b => .amounts moles b

/-- tally.cpp:435-487: a solution column; `i` is the number of the column. -/
def findSolution (db : Db) (rows : Rows) (e : Ents) (nUser : Kind → Int) (cons : Int) (slot : Nat) (i : Nat) : Found :=
  if nUser .solution < 0 ∨ slot = 0 then .nothing
  else if 2 ≤ i then .stop
  else
    match e.solution (if i = 0 then cons else nUser .solution) with
    | none => .nothing
    | some s =>
      .ofOption none ((masterTally db rows (masterTot db s)).map fun b => ((b.set 0 s.alk).set 1 s.h).set 2 s.o)

/-- tally.cpp:513-543, 584-628 and 653-687: columns of single phases or kinetic reactants. -/
def findComp (db : Db) (rows : Rows) (comps : Option (List (Text × Rat))) (c : Col) : Found :=
  match comps with
  | none => .nothing
  | some l =>
    match compMoles l c.name with
    | none => .nothing
    | some m => .ofOption (some m) (eltTally db rows (scale c.formula m))

/-- tally.cpp:488-512, 544-583, 629-652. -/
def findElts (db : Db) (rows : Rows) (es : Option Elts) : Found :=
  match es with
  | none => .nothing
  | some l => .ofOption none (eltTally db rows l)

/-- tally.cpp:431-696: what is found for column `i`; `slot` is 0 for initial and 1 for final. -/
def findCol (db : Db) (rows : Rows) (e : Ents) (nUser : Kind → Int) (cons : Int) (slot : Nat) (i : Nat) (c : Col) : Found :=
  match c.kind with
  | .solution => findSolution db rows e nUser cons slot i
  | .reaction =>
    if nUser .reaction < 0 then .nothing
    else findElts db rows ((e.reaction (nUser .reaction)).map fun r => scale r.2 (if slot = 1 then r.1 else 0))
  | .exchange => if nUser .exchange < 0 then .nothing else findElts db rows (e.exchange (nUser .exchange))
  | .surface => if nUser .surface < 0 then .nothing else findElts db rows (e.surface (nUser .surface))
  | .gas => if nUser .gas < 0 then .nothing else findElts db rows (e.gas (nUser .gas))
  | .pure => if nUser .pure < 0 then .nothing else findComp db rows (e.pure (nUser .pure)) c
  | .ss => if nUser .ss < 0 then .nothing else findComp db rows (e.ss (nUser .ss)) c
  | .kinetics => if nUser .kinetics < 0 then .nothing else findComp db rows (e.kinetics (nUser .kinetics)) c

/-- Store what was found in a column.  E.g. tally.cpp:479-485, 538-541. -/
def putFound (slot : Nat) (c : Col) : Found → Option Col
  | .nothing => some c
  | .stop => none
  | .amounts m b =>
    some (if slot = 0 then { c with moles := m.getD c.moles, initial := b } else { c with moles := m.getD c.moles, final := b })

/-- tally.cpp:416-699 (`fill_tally_table`) from column `i` on. -/
def fillFrom (db : Db) (rows : Rows) (e : Ents) (nUser : Kind → Int) (cons : Int) (slot : Nat) : Nat → List Col → Option (List Col)
  | _, [] => some []
  | i, c :: cs =>
    match putFound slot c (findCol db rows e nUser cons slot i c) with
    | none => none
    | some d => (fillFrom db rows e nUser cons slot (i + 1) cs).map (d :: ·)

/-- tally.cpp:342-360 (`zero_tally_table`). -/
def zero (rows : Rows) (cs : List Col) : List Col :=
  let z := List.replicate rows.length (0 : Rat)
  cs.map fun c => { c with moles := 0, initial := z, final := z, diff := z }

/-- tally.cpp:362-388 (`diff_tally_table`). -/
def diffAll (cs : List Col) : List Col :=
  cs.map fun c => { c with diff := List.zipWith (fun f i => f - i) c.final c.initial }

/-- A write into the caller's array.  tally.cpp:204, 211, 226, 236. -/
def write (a : List Rat) (i : Nat) (v : Rat) : Option (List Rat) := if i < a.length then some (a.set i v) else none

/-- A loop writing `vs` from position `at` on.  tally.cpp:202-205. -/
def writeAll : List Rat → Nat → List Rat → Option (List Rat)
  | a, _, [] => some a
  | a, i, v :: vs => (write a i v).bind fun b => writeAll b (i + 1) vs

/-- tally.cpp:222-229: the columns from number `i` on. -/
def writeCols (rowDim : Nat) (fill : Rat) : List Rat → Nat → List Col → Option (List Rat)
  | a, _, [] => some a
  | a, i, c :: cs => (writeAll a (i * rowDim) (c.diff.map (· / fill))).bind fun b => writeCols rowDim fill b (i + 1) cs

/-- tally.cpp:234-238: the row of the moles. -/
def writeMoles (rowDim rows : Nat) (fill : Rat) : List Rat → Nat → List Col → Option (List Rat)
  | a, _, [] => some a
  | a, i, c :: cs => (write a (i * rowDim + rows) (c.moles / fill)).bind fun b => writeMoles rowDim rows fill b (i + 1) cs

/-- tally.cpp:168-240 (`store_tally_table`): the return value (`true` is OK) and the array.
`rowDimIn` and `colDim` are the dimensions passed by the caller (not negative). -/
def store (rows : Nat) (cs : List Col) (a : List Rat) (rowDimIn colDim : Nat) (fill : Rat) : Option (Bool × List Rat) :=
  if cs = [] then some (false, a)
  else if rows > rowDimIn + 1 then some (false, a)
  else if cs.length > colDim then some (false, a)
  else
    match cs with
    | c0 :: c1 :: _ =>
      ((writeAll a 0 c0.final).bind fun a1 =>
       (writeAll a1 (rowDimIn + 1) c1.final).bind fun a2 =>
       (writeCols (rowDimIn + 1) fill a2 2 ((diffAll cs).drop 2)).bind fun a3 =>
       writeMoles (rowDimIn + 1) rows fill a3 0 cs).map fun b => (true, b)
    | _ => none

/-- A whole mixing step: IPhreeqcMMS.cpp:625-626 (zero and initial amounts, before the run, reactants
`before`) and IPhreeqcMMS.cpp:647-648 (final amounts, reactants `after`, and storing). -/
def tallyRun (db : Db) (rows : Rows) (cs : List Col) (nUser : Kind → Int) (cons : Int) (before after : Ents)
    (a : List Rat) (rowDimIn colDim : Nat) (fill : Rat) : Option (Bool × List Rat) :=
  (fillFrom db rows before nUser cons 0 0 (zero rows cs)).bind fun c0 =>
  (fillFrom db rows after nUser cons 1 0 c0).bind fun c1 =>
  store rows.length c1 a rowDimIn colDim fill

/-! ### The columns -/

/-- tally.cpp:1208-1243 (`extend_tally_table`) and the assignments of name, type and formula after it
(the buffers are not initialised there; every use of the table starts with `zero_tally_table`). -/
def newCol (rows : Rows) (k : Kind) (name : Text) (formula : Elts) : Col :=
  let z := List.replicate rows.length (0 : Rat)
  ⟨k, name, formula, 0, z, z, z⟩

/-- tally.cpp:880-929, 940-980 and 988-1043: one component; it gets a column unless there is one already.
Names are compared exactly (addresses of saved strings).  The alternative formula of a phase
(`add_formula`) is the pair's third entry. -/
def addComp (rows : Rows) (k : Kind) (cs : List (Col × Text)) (comp : Text × Elts × Text) : List (Col × Text) :=
  if (cs.drop 1).any (fun c => c.1.kind == k && c.1.name == comp.1 && c.2 == comp.2.2) then cs
  else cs ++ [(newCol rows k comp.1 comp.2.1, comp.2.2)]

/-- What exists when the table is built: are there any reactions, exchangers, surfaces, gas phases; and
all components of phase assemblages, solid solutions and kinetics.  tally.cpp:834-988. -/
structure Inventory where
  reaction : Bool
  exchange : Bool
  surface : Bool
  gas : Bool
  pure : List (Text × Elts × Text)
  ss : List (Text × Elts)
  kinetics : List (Text × Elts)

/-- tally.cpp:834-870. -/
def optCol (rows : Rows) (b : Bool) (k : Kind) (name : String) : List (Col × Text) :=
  if b then [(newCol rows k name.toList [], [])] else []

/-- tally.cpp:787-1048 (`build_tally_table`). -/
def build (rows : Rows) (v : Inventory) : List Col :=
  let c0 := [(newCol rows .solution "Solution_conservative".toList [], []), (newCol rows .solution "Solution_reaction".toList [], [])]
    ++ optCol rows v.reaction .reaction "Reaction" ++ optCol rows v.exchange .exchange "Exchange"
    ++ optCol rows v.surface .surface "Surface" ++ optCol rows v.gas .gas "Gas_phase"
  let c1 := v.pure.foldl (addComp rows .pure) c0
  let c2 := (v.ss.map fun c => (c.1, c.2, ([] : Text))).foldl (addComp rows .ss) c1
  let c3 := (v.kinetics.map fun c => (c.1, c.2, ([] : Text))).foldl (addComp rows .kinetics) c2
  c3.map (·.1)

end Verif.Tally
