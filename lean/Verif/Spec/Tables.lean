import Verif.Model.Tables
/-
Specification for properties C04 to C07: name tables.
The order on names is Lean's lexicographic `<` on lists of bytes.
-/
namespace Verif.Tables

/-- A table is strictly increasing in its keys: sorted, and no key occurs twice. -/
def StrictSorted {α : Type} (key : α → CStr) (l : List α) : Prop :=
  l.Pairwise fun a b => key a < key b

/-! ### Histories of dimension declarations -/

/-- A dimension declaration: fixed or not, name, value, maximum. -/
structure DimOp where
  fix : Bool
  name : CStr
  value : Int
  max : Int

/-- Run one declaration on the code. -/
def stepDim (db : List Dim) (o : DimOp) : Option (Int × List Dim) :=
  if o.fix then declfix db o.name o.value o.max else some (decldim db o.name o.value o.max)

/-- Run a history on the code: `none` is undefined behaviour, otherwise the return codes and the
final table. -/
def runDims (db : List Dim) : List DimOp → Option (List Int × List Dim)
  | [] => some ([], db)
  | o :: os =>
    match stepDim db o with
    | none => none
    | some (c, db') => (runDims db' os).map fun r => (c :: r.1, r.2)

/-- What a user expects: a map from names to (value, maximum). -/
abbrev DimMap := CStr → Option (Int × Int)

/-- A declaration is acceptable when the name is new and `0 ≤ value ≤ max`. -/
def acceptable (m : DimMap) (o : DimOp) : Prop := m o.name = none ∧ 0 ≤ o.value ∧ o.value ≤ o.max

instance (m : DimMap) (o : DimOp) : Decidable (acceptable m o) := by
  unfold acceptable; infer_instance

/-- Abstract run: return codes and final map. -/
def specDims (m : DimMap) : List DimOp → List Int × DimMap
  | [] => ([], m)
  | o :: os =>
    if acceptable m o then
      let r := specDims (fun n => if n = o.name then some (o.value, o.max) else m n) os
      (0 :: r.1, r.2)
    else
      let r := specDims m os
      (1 :: r.1, r.2)

/-- The map a table represents. -/
def absDims (db : List Dim) : DimMap := fun n =>
  (db.find? fun d => d.name == n).map fun d => (d.value, d.max)

/-! ### Histories of variable declarations -/

/-- A variable declaration: public (`declvar`) or private (`declpri`). -/
inductive VarOp
  | pub (a : VarDecl)
  | pri (name : CStr) (size : Int) (typeOk : Bool)

def VarOp.name : VarOp → CStr
  | .pub a => a.name
  | .pri n _ _ => n

/-- Run one declaration. -/
def stepVar (dims : List Dim) (pm : Bool) (db : VarDb) : VarOp → Decl VarDb
  | .pub a => declvar dims pm db a
  | .pri n s t => declpri db n s t

/-- Run a history; `none` is undefined behaviour. -/
def runVars (dims : List Dim) (pm : Bool) (db : VarDb) : List VarOp → Option (List Int × VarDb)
  | [] => some ([], db)
  | o :: os =>
    match stepVar dims pm db o with
    | .ub => none
    | .ret c db' => (runVars dims pm db' os).map fun r => (c :: r.1, r.2)

/-- Product of the values of the named dimensions, when all are declared. -/
def dimProduct (dims : List Dim) : List CStr → Option Int
  | [] => some 1
  | n :: ns => do
    let d ← dims.find? fun d => d.name == n
    let p ← dimProduct dims ns
    pure (d.value * p)

/-- A declaration whose arguments are in order: known type, at most three declared dimensions,
product of the dimensions within the space offered. -/
def VarOp.wellFormed (dims : List Dim) : VarOp → Prop
  | .pub a => a.typeOk = true ∧ a.dimen.length ≤ 3 ∧
      ∃ p, dimProduct dims a.dimen = some p ∧ p ≤ a.maxsize
  | .pri _ _ t => t = true

/-- The declarations of a history that introduce a new name, in order. -/
def newOps (seen : List CStr) : List VarOp → List VarOp
  | [] => []
  | o :: os => if o.name ∈ seen then newOps seen os else o :: newOps (o.name :: seen) os

/-- The entry a well-formed declaration should create. -/
def VarOp.entry (dims : List Dim) : VarOp → PubVar
  | .pub a => ⟨a.name, (dimProduct dims a.dimen).getD 0, false⟩
  | .pri n s _ => ⟨n, s, true⟩

/-- Return code for a repeated name: 1, except 0 for `declvar` in print mode. -/
def dupCode (pm : Bool) : VarOp → Int
  | .pub _ => if pm then 0 else 1
  | .pri _ _ _ => 1

/-- Expected return codes: 0 for a new name, `dup` for a repeated one. -/
def expectCodes (seen : List CStr) (dup : VarOp → Int) : List VarOp → List Int
  | [] => []
  | o :: os => if o.name ∈ seen then dup o :: expectCodes seen dup os
               else 0 :: expectCodes (o.name :: seen) dup os

end Verif.Tables
