/-
Model of the selected-output table: IPhreeqcMMS/IPhreeqc/src/CSelectedOutput.cpp and Var.c.

Simplifications: memory allocation never fails; C strings are lists of characters without the
terminator; `double` is an arbitrary type `F`; the assertions (active in debug builds only) are left
out.
-/
namespace Verif.SelOut

/-- A `VAR` with one of the defined types (Var.h:19-25, 40-48): empty, error code, long, double, text. -/
inductive Cell (F : Type) where
  | empty
  | error (vresult : Int)
  | long (n : Int)
  | dbl (x : F)
  | str (s : List Char)
deriving Repr, DecidableEq

/-- Var.h:19-25: type codes. -/
def Cell.type {F} : Cell F → Int
  | .empty => 0
  | .error _ => 1
  | .long _ => 2
  | .dbl _ => 3
  | .str _ => 4

/-- `CSelectedOutput` (CSelectedOutput.hxx:67-71): m_nRowCount, m_vecVarHeadings (always texts,
CSelectedOutput.cpp:142), m_arrayVar (by column), m_mapHeadingToCol. -/
structure Table (F : Type) where
  nRow : Nat
  heads : List (List Char)
  cols : List (List (Cell F))
  colOf : List (List Char × Nat)
deriving Repr, DecidableEq

/-- CSelectedOutput.cpp:28-32, 38-44 (constructor, `Clear`). -/
def init {F} : Table F := ⟨0, [], [], []⟩

/-- CSelectedOutput.cpp:58-61. -/
def colCount {F} (t : Table F) : Nat := t.heads.length

/-- CSelectedOutput.cpp:46-56. -/
def rowCount {F} (t : Table F) : Nat := if colCount t ≠ 0 then t.nRow + 1 else 0

/-- `std::map::find`.  CSelectedOutput.cpp:132. -/
def findCol (m : List (List Char × Nat)) (key : List Char) : Option Nat :=
  (m.find? fun e => e.1 = key).map (·.2)

/-- `std::vector::resize` to at least `n` cells, filling with empty values.  CSelectedOutput.cpp:109-114. -/
def padTo {F} (n : Nat) (col : List (Cell F)) : List (Cell F) :=
  col ++ List.replicate (n - col.length) .empty

/-- CSelectedOutput.cpp:126-174 (`PushBack`).  `none`: a container is indexed out of range. -/
def pushBack {F} (t : Table F) (key : List Char) (v : Cell F) : Option (Table F) :=
  match findCol t.colOf key with
  | none =>
    some { t with
      colOf := t.colOf ++ [(key, t.colOf.length)]
      heads := t.heads ++ [key]
      cols := t.cols ++ [List.replicate t.nRow .empty ++ [v]] }
  | some c =>
    match t.cols[c]? with
    | none => none
    | some col =>
      if col.length = t.nRow then some { t with cols := t.cols.set c (col ++ [v]) }
      else if t.nRow < col.length then some { t with cols := t.cols.set c (col.set t.nRow v) }
      else none

/-- CSelectedOutput.cpp:100-124 (`EndRow`). -/
def endRow {F} (t : Table F) : Table F :=
  if colCount t ≠ 0 then { t with nRow := t.nRow + 1, cols := t.cols.map (padTo (t.nRow + 1)) }
  else t

/-- Result of `Get`: the return code and, if the caller's variable was written, its new value.
CSelectedOutput.cpp:70. -/
abbrev Got (F : Type) := Int × Option (Cell F)

/-- CSelectedOutput.cpp:70-97 (`Get`) with Var.c:16-37, 39-70.  `inType` is the type code of the
caller's variable.  `none`: a container is indexed out of range. -/
def get {F} (t : Table F) (inType row col : Int) : Option (Got F) :=
  if inType < 0 ∨ 4 < inType then some (-2, none)
  else if row ≥ (rowCount t : Int) ∨ row < 0 then some (-4, some (.error (-4)))
  else if col ≥ (colCount t : Int) ∨ col < 0 then some (-5, some (.error (-5)))
  else if row ≠ 0 then
    match t.cols[col.toNat]? with
    | none => none
    | some c =>
      match c[(row - 1).toNat]? with
      | none => none
      | some v => some (0, some v)
  else
    match t.heads[col.toNat]? with
    | none => none
    | some h => some (0, some (.str h))

/-- The four buffers of a serialized row.  CSelectedOutput.cpp:249-252. -/
structure Packed (F : Type) where
  types : List Int
  longs : List Int
  doubles : List F
  strings : List Char
deriving Repr, DecidableEq

/-- CSelectedOutput.cpp:278-297: appending one cell. -/
def packCell {F} (p : Packed F) (v : Cell F) : Packed F :=
  match v with
  | .empty => { p with types := p.types ++ [0] }
  | .error r => { p with types := p.types ++ [1], longs := p.longs ++ [r] }
  | .long n => { p with types := p.types ++ [2], longs := p.longs ++ [n] }
  | .dbl x => { p with types := p.types ++ [3], doubles := p.doubles ++ [x] }
  | .str s => { p with types := p.types ++ [4], longs := p.longs ++ [(s.length : Int)],
                       strings := p.strings ++ s }

/-- CSelectedOutput.cpp:266-271: appending one heading. -/
def packHead {F} (p : Packed F) (h : List Char) : Packed F :=
  { p with longs := p.longs ++ [(h.length : Int)], strings := p.strings ++ h }

/-- CSelectedOutput.cpp:273-299: the loop over the columns.  `none`: a column has no such row. -/
def packCols {F} (row : Nat) : Packed F → List (List (Cell F)) → Option (Packed F)
  | p, [] => some p
  | p, c :: cs =>
    match c[row]? with
    | none => none
    | some v => packCols row (packCell p v) cs

/-- CSelectedOutput.cpp:247-300 (`Serialize`); rows are numbered from 0 without the heading. -/
def serialize {F} (t : Table F) (row : Nat) : Option (Packed F) :=
  packCols row (t.heads.foldl packHead ⟨[], [1, (t.heads.length : Int)], [], []⟩) t.cols

/-- Position in the buffers while deserializing.  CSelectedOutput.cpp:307-308. -/
structure Pos where
  types : Nat
  longs : Nat
  doubles : Nat
  strings : Nat
deriving Repr, DecidableEq

/-- CSelectedOutput.cpp:313-320: the headings. -/
def readHeads {F} (p : Packed F) : Nat → Pos → Option (List (List Char) × Pos)
  | 0, q => some ([], q)
  | n + 1, q =>
    match p.longs[q.longs]? with
    | none => none
    | some l =>
      match readHeads p n { q with longs := q.longs + 1, strings := q.strings + l.toNat } with
      | none => none
      | some (hs, q') => some (((p.strings.drop q.strings).take l.toNat) :: hs, q')

/-- CSelectedOutput.cpp:327-358: one cell (`none`: a buffer is exhausted; an unknown type code stores
nothing and is not modelled, `none` too). -/
def readCell {F} (p : Packed F) (q : Pos) : Option (Cell F × Pos) :=
  match p.types[q.types]? with
  | none => none
  | some ty =>
    let q1 := { q with types := q.types + 1 }
    if ty = 0 then some (.empty, q1)
    else if ty = 3 then (p.doubles[q.doubles]?).map fun x => (.dbl x, { q1 with doubles := q.doubles + 1 })
    else
      match p.longs[q.longs]? with
      | none => none
      | some l =>
        let q2 := { q1 with longs := q.longs + 1 }
        if ty = 1 then some (.error l, q2)
        else if ty = 2 then some (.long l, q2)
        else if ty = 4 then
          some (.str ((p.strings.drop q.strings).take l.toNat), { q2 with strings := q.strings + l.toNat })
        else none

/-- CSelectedOutput.cpp:322-360: the loop over the columns (the number of rows in the buffers is
always 1, line 262). -/
def readCols {F} (p : Packed F) : Table F → Pos → List (List Char) → Option (Table F)
  | t, _, [] => some t
  | t, q, h :: hs =>
    match readCell p q with
    | none => none
    | some (v, q') =>
      match pushBack t h v with
      | none => none
      | some t' => readCols p t' q' hs

/-- CSelectedOutput.cpp:301-362 (`DeSerialize`). -/
def deSerialize {F} (t : Table F) (p : Packed F) : Option (Table F) :=
  match p.longs[1]? with
  | none => none
  | some ncols =>
    match readHeads p ncols.toNat ⟨0, 2, 0, 0⟩ with
    | none => none
    | some (hs, q) => (readCols p t q hs).map endRow

/-- CSelectedOutput.cpp:377-398: a cell as a number; `ofInt` converts a long to double, `inactive` is
1.0e30f. -/
def toDouble {F} (ofInt : Int → F) (inactive : F) : Cell F → F
  | .long n => ofInt n
  | .dbl x => x
  | _ => inactive

/-- CSelectedOutput.cpp:363-401 (`Doublize`): number of rows, number of columns, values by column.
`none`: a column is too short. -/
def doublize {F} (ofInt : Int → F) (inactive : F) (t : Table F) : Option (Nat × Nat × List F) :=
  if t.cols.all fun c => t.nRow ≤ c.length then
    some (t.nRow, t.heads.length, t.cols.flatMap fun c => (c.take t.nRow).map (toDouble ofInt inactive))
  else none

end Verif.SelOut
