import Mathlib.Data.List.Basic
/-
Names and places of series and tables of TSPROC: tsproc-trunk/tsproc-master/src, files tsp_command_processors.F90 (C),
tsp_time_series_processors.F90 (T), tsp_utilities.F90 (U): `get_new_series_name`, `get_new_table_name`, `get_series_name`,
`get_table_name`, `erase_entity`, `str_compare`, `casetrans`.

Simplifications: a character is its code.  A name is given as the characters that `getfile` finds in the line.  What a series or table holds
is left open, except whether a series has its values in `dpval`.  `none` is the end with an error message, unless said otherwise.
-/
namespace Verif.Tsp

/-- A name: the codes of its characters. -/
abbrev Name := List Nat

/-- The kinds of entities, tsp_data_structures.F90:186-192. -/
inductive Kind | series | s | v | e | c | g
deriving DecidableEq, Repr

/-- A series or table: its name and what it holds; `double` for series whose values are in `dpval` only (T:1878-1893). -/
structure Entry (α : Type) where
  name : Name
  data : α
  double : Bool
deriving DecidableEq, Repr

/-- The arrays of series and tables; an element that is not active is `none`. -/
abbrev Store (α : Type) := Kind → List (Option (Entry α))

/-- `casetrans` to lower case, U:396-428. -/
def lower (c : Nat) : Nat := if 65 ≤ c ∧ c ≤ 90 then c + 32 else c

/-- `uppercase_fn`, U:2847-2866: the upper limit is compared with the first character of the string. -/
def upperName (n : Name) : Name := if n.headD 0 ≤ 122 then n.map fun c => if 97 ≤ c then c - 32 else c else n

/-- `str_compare`, U:98-110. -/
def sameName (a b : Name) : Bool := upperName a = upperName b

/-- What all readers of names do, C:37-51, C:333-348: at most 18 characters, no blank, in lower case. -/
def readName (w : List Nat) : Option Name :=
  if 18 < w.length then none else if 32 ∈ w then none else some (w.map lower)

/-- An active element with the name. -/
def holds {α : Type} (n : Name) : Option (Entry α) → Bool
  | some x => sameName x.name n
  | none => false

/-- The search through an array, C:349-356, C:494-552. -/
def find {α : Type} (n : Name) (l : List (Option (Entry α))) : Option Nat := l.findIdx? (holds n)

/-- `get_series_name`, C:298-371, and `get_table_name`, C:373-583: the element that a name stands for. -/
def lookup {α : Type} (st : Store α) (k : Kind) (w : List Nat) : Option (Entry α) :=
  (readName w).bind fun n => (find n (st k)).bind fun i => (st k).getD i none

/-- The arrays that a new name is compared with, C:57-120 and C:1274-1350. -/
def checked : Kind → List Kind
  | .series => [.series, .s, .g, .v, .e]
  | _ => [.s, .v, .e, .c, .g, .series]

/-- `get_new_series_name`, C:11-128, and `get_new_table_name`, C:1195-1357. -/
def newName {α : Type} (st : Store α) (k : Kind) (w : List Nat) : Option Name :=
  (readName w).bind fun n => if (checked k).any fun j => (find n (st j)).isSome then none else some n

/-- Change of an element. -/
def put {α : Type} (st : Store α) (k : Kind) (i : Nat) (x : Option (Entry α)) : Store α :=
  fun j => if j = k then (st k).set i x else st j

/-- A block that makes a series or table: the name, and the first element that is not active (for instance T:1212-1228).  `none` is also
when all elements are active: some blocks end with a message, others (T:1212-1215) write past the array. -/
def create {α : Type} (st : Store α) (k : Kind) (w : List Nat) (d : α) (double : Bool) : Option (Store α) :=
  (newName st k w).bind fun n => ((st k).findIdx? Option.isNone).map fun i => put st k i (some ⟨n, d, double⟩)

/-- What is done with one element, T:456-536.  Series, V_TABLEs and E_TABLEs have memory that must be allocated. -/
def clear {α : Type} (st : Store α) (p : Kind × Nat) : Option (Store α) :=
  match (st p.1).getD p.2 none with
  | none => if p.1 = .s ∨ p.1 = .c then some st else none
  | some x => if p.1 = .series ∧ x.double then none else some (put st p.1 p.2 none)

/-- The element that a line of the block stands for, T:367-415; there is no keyword for G_TABLEs. -/
def target {α : Type} (st : Store α) (p : Kind × List Nat) : Option (Kind × Nat) :=
  if p.1 = .g then none else (readName p.2).bind fun n => (find n (st p.1)).map fun i => (p.1, i)

/-- The order in which the kinds are erased, T:456, 477, 488, 499, 520. -/
def inOrder (l : List (Kind × Nat)) : List (Kind × Nat) :=
  [Kind.series, .s, .c, .v, .e].flatMap fun k => l.filter fun p => p.1 = k

/-- `erase_entity`, T:305-555: all names are looked up first. -/
def erase {α : Type} (st : Store α) (l : List (Kind × List Nat)) : Option (Store α) :=
  if l = [] then none else (l.mapM (target st)).bind fun ps => (inOrder ps).foldlM clear st

end Verif.Tsp
