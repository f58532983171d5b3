import Verif.Model.SelOut
/-
Specification of the selected-output table: what was pushed, row by row.
-/
namespace Verif.SelOut

/-- What a user does with a table. -/
inductive Op (F : Type) where
  | push (key : List Char) (v : Cell F)
  | endRow
  | clear

/-- Running a history on the model (`none`: out of range access). -/
def run {F} : Table F → List (Op F) → Option (Table F)
  | t, [] => some t
  | t, .push k v :: ops => (pushBack t k v).bind fun t' => run t' ops
  | t, .endRow :: ops => run (endRow t) ops
  | _, .clear :: ops => run init ops

/-- The history seen abstractly: the pushes of every finished row and of the row in progress. -/
structure Log (F : Type) where
  done : List (List (List Char × Cell F))
  cur : List (List Char × Cell F)

/-- Row ends before the first push do not count. -/
def Log.step {F} (l : Log F) : Op F → Log F
  | .push k v => ⟨l.done, l.cur ++ [(k, v)]⟩
  | .endRow => if l.done = [] ∧ l.cur = [] then l else ⟨l.done ++ [l.cur], []⟩
  | .clear => ⟨[], []⟩

def logOf {F} (ops : List (Op F)) : Log F := ops.foldl Log.step ⟨[], []⟩

/-- The words of a list, each at its first occurrence. -/
def firsts : List (List Char) → List (List Char)
  | [] => []
  | k :: ks => k :: (firsts ks).filter fun x => x ≠ k

/-- Headings: all keys ever pushed, in order of first use. -/
def Log.heads {F} (l : Log F) : List (List Char) :=
  firsts ((l.done.flatten ++ l.cur).map (·.1))

/-- Value of a heading in a row: the last one pushed, or empty. -/
def cellOf {F} (row : List (List Char × Cell F)) (key : List Char) : Cell F :=
  match row.reverse.find? fun e => e.1 = key with
  | none => .empty
  | some e => e.2

/-- What reading cell (row, col) must return. -/
def Log.get {F} (l : Log F) (row col : Int) : Got F :=
  if row < 0 then (-4, some (.error (-4)))
  else if col < 0 then
    if l.heads ≠ [] ∧ row ≤ l.done.length then (-5, some (.error (-5))) else (-4, some (.error (-4)))
  else
    match l.heads[col.toNat]? with
    | none => if l.heads ≠ [] ∧ row ≤ l.done.length then (-5, some (.error (-5))) else (-4, some (.error (-4)))
    | some h =>
      if row = 0 then (0, some (.str h))
      else
        match l.done[row.toNat - 1]? with
        | none => (-4, some (.error (-4)))
        | some r => (0, some (cellOf r h))

/-- Serializing the data rows with the given numbers one after the other and deserializing each into
the same table. -/
def restore {F} (t0 : Table F) : List Nat → Table F → Option (Table F)
  | [], t => some t
  | i :: is, t => ((serialize t0 i).bind (deSerialize t)).bind (restore t0 is)

end Verif.SelOut
