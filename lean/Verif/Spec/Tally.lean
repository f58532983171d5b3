import Verif.Model.Tally
/-
What a tally table should contain, stated without the loops that fill it.
-/
namespace Verif.Tally

/-- Amount of element `p` in an element list. -/
def amount (es : Elts) (p : Nat) : Rat := (es.map fun e => if e.1 = p then e.2 else 0).sum

/-- Elements that are reported: dissolved ones other than hydrogen and oxygen. -/
def counted (db : Db) (p : Nat) : Prop := db.water p = false ∧ db.aq p = true

instance (db : Db) (p : Nat) : Decidable (counted db p) := by unfold counted; infer_instance

/-- The element whose amount in solids, gases, exchangers etc. is reported in row `j`: the element of the
row's master species, in the first row of that element. -/
def shown (db : Db) (rows : Rows) (j : Nat) : Option Nat :=
  match (rows[j]?).join with
  | none => none
  | some m => if ∀ i, i < j → ((rows[i]?).join).map db.primary ≠ some (db.primary m) then some (db.primary m) else none

/-- The amount to be reported in row `j` for an element list. -/
def cell (db : Db) (rows : Rows) (es : Elts) (j : Nat) : Rat :=
  match shown db rows j with
  | none => 0
  | some p => if counted db p then amount es p else 0

/-- Total of master species `m` in a solution: the listed total; for an element of which only valence
states are listed, their sum. -/
def solTotal (db : Db) (s : Sol) (m : Nat) : Rat :=
  if m ∈ s.totals.map (·.1) then amount s.totals m
  else (s.totals.map fun p => if db.primary p.1 = m then p.2 else 0).sum

/-- The amount to be reported in row `j` for a solution. -/
def solCell (db : Db) (rows : Rows) (s : Sol) (j : Nat) : Rat :=
  if j = 0 then s.alk else if j = 1 then s.h else if j = 2 then s.o else
  match (rows[j]?).join with
  | none => 0
  | some m => if counted db (db.primary m) ∧ 0 < solTotal db s m then solTotal db s m else 0

/-- The component of an assemblage with a name, upper and lower case alike. -/
def component (comps : Option (List (Text × Rat))) (name : Text) : Option Rat :=
  comps.bind fun l => (l.find? fun c => c.1.map Char.toLower == name.map Char.toLower).map (·.2)

/-- Moles of the phase or kinetic reactant of a column; `none` if it does not take part. -/
def reactantMoles (e : Ents) (nUser : Kind → Int) (c : Col) : Option Rat :=
  match c.kind with
  | .pure => if nUser .pure < 0 then none else component (e.pure (nUser .pure)) c.name
  | .ss => if nUser .ss < 0 then none else component (e.ss (nUser .ss)) c.name
  | .kinetics => if nUser .kinetics < 0 then none else component (e.kinetics (nUser .kinetics)) c.name
  | _ => none

def timesFormula (es : Elts) (x : Rat) : Elts := es.map fun e => (e.1, e.2 * x)

/-- The elements the reactant of a column holds; a reaction holds nothing before the step and what was
added in the step afterwards. -/
def holds (e : Ents) (nUser : Kind → Int) (afterStep : Bool) (c : Col) : Elts :=
  match c.kind with
  | .solution => []
  | .reaction =>
    if nUser .reaction < 0 ∨ afterStep = false then [] else
      match e.reaction (nUser .reaction) with
      | none => []
      | some r => timesFormula r.2 r.1
  | .exchange => if nUser .exchange < 0 then [] else (e.exchange (nUser .exchange)).getD []
  | .surface => if nUser .surface < 0 then [] else (e.surface (nUser .surface)).getD []
  | .gas => if nUser .gas < 0 then [] else (e.gas (nUser .gas)).getD []
  | _ =>
    match reactantMoles e nUser c with
    | none => []
    | some m => timesFormula c.formula m

/-- An element list as the engine makes them: every element once, and every element that is reported has
a row. -/
def Listed (db : Db) (rows : Rows) (es : Elts) : Prop :=
  (es.map (·.1)).Nodup ∧ ∀ p ∈ es.map (·.1), counted db p → ∃ j, shown db rows j = some p

/-- The element lists of all reactants and formulas are `Listed`. -/
structure EntsOk (db : Db) (rows : Rows) (e : Ents) : Prop where
  reaction : ∀ n r, e.reaction n = some r → Listed db rows r.2
  exchange : ∀ n es, e.exchange n = some es → Listed db rows es
  surface : ∀ n es, e.surface n = some es → Listed db rows es
  gas : ∀ n es, e.gas n = some es → Listed db rows es
  keys : ∀ n s, e.solution n = some s → (s.totals.map (·.1)).Nodup
  totals : ∀ n s, e.solution n = some s → ∀ m, m < db.count → counted db (db.primary m) → 0 < solTotal db s m → some m ∈ rows

/-- A table as it is built: rows for alkalinity, hydrogen and oxygen first, no master species twice, all of
them in the data base; two solution columns first. -/
structure TableOk (db : Db) (rows : Rows) (cs : List Col) : Prop where
  rows3 : 3 ≤ rows.length
  masters : ∀ (i j m : Nat), rows[i]? = some (some m) → rows[j]? = some (some m) → i = j
  inDb : ∀ m, some m ∈ rows → m < db.count
  solutions : ∀ (i : Nat) (c : Col), cs[i]? = some c → (c.kind = .solution ↔ i < 2)
  two : 2 ≤ cs.length
  formulas : ∀ c ∈ cs, Listed db rows c.formula

/-- The entry the caller expects in row `j` of column `i` (column `c`): the two solutions, or the change. -/
def entry (db : Db) (rows : Rows) (nUser : Kind → Int) (cons : Int) (before after : Ents) (fill : Rat)
    (i : Nat) (c : Col) (j : Nat) : Rat :=
  if i < 2 then
    if nUser .solution < 0 then 0 else
      match after.solution (if i = 0 then cons else nUser .solution) with
      | none => 0
      | some s => solCell db rows s j
  else (cell db rows (holds after nUser true c) j - cell db rows (holds before nUser false c) j) / fill

/-- The entry the caller expects in the additional row: moles of the reactant. -/
def lastEntry (nUser : Kind → Int) (before after : Ents) (fill : Rat) (c : Col) : Rat :=
  ((reactantMoles after nUser c).getD ((reactantMoles before nUser c).getD 0)) / fill

end Verif.Tally
