import Verif.Model.ObsChem
/-
Vocabulary for C97 to C102: the chemistry file as the user writes it.
-/
namespace Verif.ObsChem

/-! ### The header -/

/-- A word of the header: not empty, no blank, at most 12 characters. -/
def IsWord (w : Text) : Prop := w ≠ [] ∧ ' ' ∉ w ∧ w.length ≤ 12

/-- Words with one blank between them. -/
def line : List Text → Text
  | [] => []
  | [w] => w
  | w :: r => w ++ ' ' :: line r

/-- Species and units one after the other. -/
def flat (pairs : List (Text × Text)) : List Text := pairs.flatMap fun p => [p.1, p.2]

/-- The line with species and units. -/
def headerLine (pairs : List (Text × Text)) : Text := line ("tempc".toList :: "pH".toList :: flat pairs)

/-- A file: any lines, the mark, the line with species and units, three lines, the data. -/
structure Layout (lines : List Text) (header : Text) (data : List Text) : Prop where
  parts : ∃ before rest three, lines = before ++ ("** Species and Units **".toList ++ rest) :: header :: (three ++ data) ∧
    three.length = 3 ∧ ∀ l ∈ before, ¬ "** Species and Units **".toList <+: l

/-- Species and unit are known, and equivalents are not used for a species without charge. -/
def Accept (table : List Species) (p : Text × Text) : Prop :=
  ∃ t ∈ table, t.name = p.1 ∧ p.2 ∈ unitNames ∧ ¬ (p.2 = "meq/L".toList ∧ t.meq < 1)

/-- The header is understood: each column has its species and unit, and each solute has the last column
with its name, or none. -/
structure Reads (table : List Species) (names : List Text) (pairs : List (Text × Text)) (h : Header) : Prop where
  count : h.cols.length = pairs.length
  col : ∀ (i : Nat) p, pairs[i]? = some p → ∃ c t, h.cols[i]? = some c ∧ table[c.species]? = some t ∧ t.name = p.1 ∧
    unitNames[c.unit]? = some p.2
  solutes : h.valid.length = names.length
  present : ∀ (j : Nat) n pre u post, names[j]? = some n → pairs = pre ++ (n, u) :: post → (∀ p ∈ post, p.1 ≠ n) →
    h.valid[j]? = some (some pre.length)
  absent : ∀ (j : Nat) n, names[j]? = some n → (∀ p ∈ pairs, p.1 ≠ n) → h.valid[j]? = some none

/-! ### Concentrations -/

/-- How much of a unit one mole per litre is; no number for isotopes. -/
def perMole (c : Conf) (t : Species) (unit : Text) : Option Rat :=
  if unit = "mg/L".toList then some t.mg
  else if unit = "meq/L".toList then some t.meq
  else if unit = "uconc1".toList then some (c.factor 0)
  else if unit = "uconc2".toList then some (c.factor 1)
  else if unit = "uconc3".toList then some (c.factor 2)
  else if unit = "mmol/L".toList then some 1000
  else if unit = "mol/L".toList then some 1
  else none

/-- A record: time, and for each water a row with temperature, pH and the columns of the header. -/
structure Rec where
  time : List Int
  rows : List (List Rat)

/-- The record has the right size. -/
structure Rec.Ok (c : Conf) (h : Header) (r : Rec) : Prop where
  time : r.time.length = 6
  rows : r.rows.length = nRows c
  width : ∀ row ∈ r.rows, row.length = h.cols.length + 2

/-- The items of a line are those of the record. -/
def Written (r : Rec) (toks : List Tok) : Prop :=
  ∃ nums, toks = r.time.map Tok.int ++ nums ∧ nums.map (Tok.value false) = r.rows.flatten.map some

/-- A water has the numbers of a row: temperature, pH, and for each solute the converted value of its
column, or 0. -/
structure IsWater (c : Conf) (h : Header) (row : List Rat) (w : Water) : Prop where
  temp : row[0]? = some w.temp
  ph : row[1]? = some w.ph
  conc : w.conc.length = h.valid.length
  present : ∀ (j i : Nat) col x, h.valid[j]? = some (some i) → h.cols[i]? = some col → row[i + 2]? = some x →
    w.conc[j]? = some (convert c col x)
  absent : ∀ j : Nat, h.valid[j]? = some none → w.conc[j]? = some 0

/-- The waters of a record: precipitation first, then external sources (if they are in the file), then samples. -/
structure Rec.Means (c : Conf) (h : Header) (r : Rec) (x : Inputs) : Prop where
  precip : ∃ row, r.rows[0]? = some row ∧ IsWater c h row x.precip
  nExt : x.ext.length = c.nExt
  ext : ∀ (i : Nat) w, x.ext[i]? = some w → ∃ row, r.rows[1 + i]? = some row ∧ IsWater c h row w
  nObs : x.obs.length = c.nObs
  obs : ∀ (j : Nat) w, x.obs[j]? = some w → ∃ row, r.rows[1 + c.nExt + j]? = some row ∧ IsWater c h row w

/-- External sources are in the file, or there are none. -/
def Conf.Full (c : Conf) : Prop := c.ext = 1 ∨ c.nExt = 0

end Verif.ObsChem
