import Mathlib.Data.List.Basic
/-
Tables of the framework that grow with what the modules declare, mmf_c/src: build_lists.c (B), alloc_space.c (A), declvar.c (V), declparam.c (P),
read_datainfo.c (R), umalloc_etc.c (U), call_modules.c (M), getparam.c (G); and what print_model_info.c makes of the modules.

Simplifications: `malloc` and `realloc` find memory (`ucalloc` is modelled with both outcomes); integers do not overflow.  Memory is a list of
cells, `none` is a cell that was never written.  Reads and writes outside a block are the outcome `none`.
-/
namespace Verif.Growth

/-- `malloc` of `n` cells. -/
def mallocCells (α : Type) (n : Nat) : List (Option α) := List.replicate n none

/-- `realloc`, as C defines it: the cells that both blocks have are kept. -/
def reallocCells {α : Type} (m : List (Option α)) (n : Nat) : List (Option α) := m.take n ++ List.replicate (n - m.length) none

/-- A write. -/
def store {α : Type} (m : List (Option α)) (i : Nat) (x : α) : Option (List (Option α)) := if i < m.length then some (m.set i (some x)) else none

/-- `itm`, `size`, `count` of a list; likewise `Mvarbase`, `max_vars`, `Mnvars` and the other tables. -/
structure Table (α : Type) where
  mem : List (Option α)
  size : Nat
  count : Nat

/-- `ALLOC_list`, B:59-81; A:119-121, A:133-135, A:144-146 and P:206-208 do the same with `umalloc`. -/
def alloc (α : Type) (n : Nat) : Table α := ⟨mallocCells α n, n, 0⟩

/-- `RESIZE_list`, B:112-115. -/
def resize {α : Type} (t : Table α) (n : Nat) : Table α := { t with mem := reallocCells t.mem n, size := n }

/-- Writing behind the last entry, B:128; V:223-228, P:368-373, P:220. -/
def append {α : Type} (t : Table α) (x : α) : Option (Table α) := (store t.mem t.count x).map fun m => { t with mem := m, count := t.count + 1 }

/-- `ADD_to_list`, B:124-129: databases of the control variables and of the dimensions. -/
def addToList {α : Type} (t : Table α) (x : α) : Option (Table α) :=
  if t.size ≤ t.count then append (resize t (t.size + 100)) x else append t x

/-- A variable or a parameter, V:159-163 and V:223-228, V:399-403 and V:455-460, P:338-342 and P:368-373; a place of a parameter for its values in a
module (`declparam_u`), P:214-220.  The sizes are signed: -1 if the table has no cells. -/
def addToBase {α : Type} (t : Table α) (x : α) : Option (Table α) :=
  if (t.size : Int) - 1 ≤ t.count then append (resize t (t.size + 100)) x else append t x

/-- A variable in the data file, R:138-142 and what follows. -/
def addToReads {α : Type} (t : Table α) (x : α) : Option (Table α) :=
  if t.size ≤ t.count then append (resize t (t.size + 50)) x else append t x

/-- Many additions. -/
def addAll {α : Type} (add : Table α → α → Option (Table α)) : Table α → List α → Option (Table α)
  | t, [] => some t
  | t, x :: xs =>
    match add t x with
    | none => none
    | some t' => addAll add t' xs

/-- Reading entry `i`, as in the loops `for (i = 0; i < n; i++)` over a table. -/
def entry {α : Type} (t : Table α) (i : Nat) : Option α := (t.mem[i]?).join

/-- `updateparam`, G:69-85: the values go to every place that is registered; `write p m` is the copy to place `p`.  `none` is a read of a cell
that was never written or outside the table. -/
def updateFrom {α β : Type} (t : Table α) (write : α → β → β) : Nat → Nat → β → Option β
  | 0, _, b => some b
  | k + 1, i, b =>
    match entry t i with
    | none => none
    | some p => updateFrom t write k (i + 1) (write p b)

/-- `updateparam`, G:79. -/
def updateparam {α β : Type} (t : Table α) (write : α → β → β) (b : β) : Option β := updateFrom t write t.count 0 b

/-- How a call of an allocation routine ends: with an address (`none` is NULL), or with the end of the program. -/
inductive Alloc
  | ptr (p : Option Nat)
  | stop
deriving DecidableEq

/-- `umalloc`, U:24-35; `got` is what `malloc` gives. -/
def umalloc (size : Nat) (got : Option Nat) : Alloc :=
  if size = 0 then .ptr none
  else if got = none then .stop
  else .ptr got

/-- `urealloc`, U:44-52; `got` is what `malloc` or `realloc` gives. -/
def urealloc (ptr : Option Nat) (size : Nat) (got : Option Nat) : Alloc :=
  if ptr = none then umalloc size got
  else if got = none then (if size ≠ 0 then .stop else .ptr none)
  else .ptr got

/-- `ucalloc`, U:61-68: whether there is a message, and the end.  The two conditions reach up to the message; `exit(1)` is after them. -/
def ucalloc (num size : Nat) (got : Option Nat) : Bool × Alloc :=
  (decide (got = none ∧ size ≠ 0 ∧ num ≠ 0), .stop)

/-- The part of a file name behind the last `/` (code 47), M:36-41. -/
def baseName (s : List Nat) : List Nat := (s.reverse.takeWhile (· ≠ 47)).reverse

/-- `strncpy` to 20 characters, M:43: zeros behind the name, none if it has 20 characters or more. -/
def name20 (s : List Nat) : List (Option Nat) := ((s.take 20) ++ List.replicate (20 - s.length) 0).map some

/-- `mname` after the loop, M:30-47: `21 * n` characters, of which `20 * n` are written. -/
def moduleNames (ns : List (List Nat)) : List (Option Nat) :=
  ns.flatMap (fun s => name20 (baseName s)) ++ List.replicate ns.length none

/-- `strncpy` from the names, print_model_info.c:82: up to `k` characters, up to a zero.  `none`: a cell never written, or the end of the block. -/
def copyText : Nat → List (Option Nat) → Option (List Nat)
  | 0, _ => some []
  | _ + 1, [] => none
  | _ + 1, none :: _ => none
  | k + 1, some c :: m => if c = 0 then some [] else (copyText k m).map (c :: ·)

/-- The name of module `i` as `print_model_info` writes it, print_model_info.c:78-87: 20 characters, cut at the first blank (code 32). -/
def moduleName (ns : List (List Nat)) (i : Nat) : Option (List Nat) :=
  (copyText 20 ((moduleNames ns).drop (20 * i))).map fun s => s.takeWhile (· ≠ 32)

/-- `n` connections from number `j` on, the inner loop of print_model_info.c:92-97. -/
def someConnections (con : List Int) : Nat → Nat → Option (List Int)
  | 0, _ => some []
  | n + 1, j =>
    match con[j]? with
    | none => none
    | some c => (someConnections con n (j + 1)).map (c :: ·)

/-- The connections that are written, print_model_info.c:92-97; `num` are the numbers of the modules (none is negative). -/
def connections (con : List Int) : List Nat → Nat → Option (List Int)
  | [], _ => some []
  | n :: num, j =>
    match someConnections con n j with
    | none => none
    | some l => (connections con num (j + n)).map (l ++ ·)

end Verif.Growth
