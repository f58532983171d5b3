/-
Model of the MMF name tables: the sorted dimension, parameter and variable data bases.
`mmf_c/src/sort_dims.c`, `sort_params.c`, `sort_vars.c`, `decldim.c`, `dim_addr.c`, `getdim.c`,
`var_addr.c`, `param_addr.c`, `declvar.c`.
-/
namespace Verif.Tables

/-- A C string: its bytes without the terminating zero.  Keys compared at `sort_vars.c:57`. -/
abbrev CStr := List Nat

/-- `strcmp` of the C library; only the sign of the result is used by the callers.
Called at `sort_vars.c:57`, `dim_addr.c:49-60`, `var_addr.c:56-75`. -/
def strcmp : CStr → CStr → Ordering
  | [], [] => .eq
  | [], _ :: _ => .lt
  | _ :: _, [] => .gt
  | a :: as, b :: bs => if a < b then .lt else if b < a then .gt else strcmp as bs

/-- Inner loop of the bubble sorts, `for (j = 0; j <= i; j++)` with `n = i + 1` comparisons:
`sort_dims.c:41-47`, `sort_params.c:77-83`, `sort_vars.c:55-65`. -/
def pass {α : Type} (key : α → CStr) : Nat → List α → List α
  | 0, l => l
  | _ + 1, [] => []
  | _ + 1, [a] => [a]
  | n + 1, a :: b :: t =>
    if strcmp (key a) (key b) = .gt then b :: pass key n (a :: t) else a :: pass key n (b :: t)

/-- Outer loop, `for (i = count-2; i >= 0; i--)`; the argument is `i + 1`.
`sort_vars.c:53`, `sort_params.c:76`. -/
def outer {α : Type} (key : α → CStr) : Nat → List α → List α
  | 0, l => l
  | k + 1, l => outer key k (pass key (k + 1) l)

/-- `sort_dims` (`sort_dims.c:34-49`), the sorting part of `sort_params` (`sort_params.c:76-84`) and
`sort_vars` (`sort_vars.c:40-75`). -/
def bubbleSort {α : Type} (key : α → CStr) (l : List α) : List α := outer key (l.length - 1) l

/-! ### Dimensions -/

/-- The fields of `DIMEN` (`structs.h`) used by the modelled functions.  `structs.h:53-73`. -/
structure Dim where
  name : CStr
  value : Int
  max : Int
  fixed : Bool
deriving DecidableEq, Repr

/-- `dim_addr`, `dim_addr.c:49-60`: the first entry with that name. -/
def dimAddr (db : List Dim) (name : CStr) : Option Dim :=
  db.find? fun d => strcmp d.name name = .eq

/-- `decldim`, `decldim.c:137-201`: return code and new data base. -/
def decldim (db : List Dim) (name : CStr) (value max : Int) : Int × List Dim :=
  if (dimAddr db name).isSome then (1, db)                         -- lines 144-148
  else if value < 0 then (1, db)                                   -- lines 158-164
  else if value > max then (1, db)                                 -- lines 166-173
  else (0, bubbleSort Dim.name (db ++ [⟨name, value, max, false⟩]))  -- lines 178-200

/-- Mark the last element of a table as fixed; `none` when the table is empty, because then the
code writes through `itm[-1]`.  `decldim.c:210-217`. -/
def fixLast : List Dim → Option (List Dim)
  | [] => none
  | [d] => some [{ d with fixed := true }]
  | d :: ds => (fixLast ds).map (d :: ·)

/-- `declfix`, `decldim.c:210-217` (and `declfix_`, lines 225-232). -/
def declfix (db : List Dim) (name : CStr) (value max : Int) : Option (Int × List Dim) :=
  let r := decldim db name value max
  (fixLast r.2).map fun db' => (r.1, db')

/-- `getdim`, `getdim.c:78-101`. -/
def getdim (db : List Dim) (name : CStr) : Int :=
  match dimAddr db name with
  | none => -1
  | some d => d.value

/-! ### Variables -/

/-- Outcome of `var_addr`: undefined behaviour (an entry whose key pointer was never set is
compared), `NULL`, or the index of the entry returned.  `var_addr.c:36-100`. -/
inductive Lookup
  | ub
  | notFound
  | found (i : Nat)
deriving DecidableEq, Repr

/-- `strcmp (vars[i]->key, key)`.  `none` when there is no entry `i` or its key pointer is
uninitialised heap memory.  `var_addr.c:56-75`. -/
def cmpAt (keys : List (Option CStr)) (key : CStr) (i : Nat) : Option Ordering :=
  match keys[i]? with
  | some (some k) => some (strcmp k key)
  | _ => none

/-- The bisection loop of `var_addr`, `var_addr.c:75-98`. -/
def bisect (keys : List (Option CStr)) (key : CStr) (low high : Nat) : Lookup :=
  if low = high then .notFound
  else
    let mid := (low + high) / 2
    match cmpAt keys key mid with
    | none => .ub
    | some .eq => .found mid
    | some c =>
      if _h : mid = low ∨ mid = high then .notFound
      else if c = .lt then bisect keys key mid high
      else bisect keys key low mid
termination_by (high - low) + (low - high)
decreasing_by all_goals omega

/-- `var_addr`, `var_addr.c:36-100`. -/
def varAddr (keys : List (Option CStr)) (key : CStr) : Lookup :=
  if keys.length = 0 then .notFound                     -- line 41
  else
    let high := keys.length - 1
    match cmpAt keys key 0 with                         -- lines 56-61
    | none => .ub
    | some .eq => .found 0
    | some .gt => .notFound
    | some .lt =>
      match cmpAt keys key high with                    -- lines 63-69
      | none => .ub
      | some .eq => .found high
      | some .lt => .notFound
      | some .gt => bisect keys key 0 high

/-- The fields of `PUBVAR` (`structs.h:75-87`) used by the modelled functions. -/
structure PubVar where
  key : CStr
  size : Int
  isPrivate : Bool
deriving DecidableEq, Repr

/-- The variable table `Mvarbase[0 .. Mnvars-1]`.  `none` is an entry that was allocated with
`malloc` but whose `key` was never assigned.  `declvar.c:223-228`. -/
abbrev VarDb := List (Option PubVar)

/-- The keys as seen by `var_addr`.  `var_addr.c:56-75`. -/
def VarDb.keys (db : VarDb) : List (Option CStr) := db.map (Option.map PubVar.key)

/-- `sort_vars` on a table that may contain garbage entries.  With two or more entries the first
pass compares every adjacent pair (`sort_vars.c:53-57`), hence touches every key: `none` is
undefined behaviour. -/
def sortVars (db : VarDb) : Option VarDb :=
  if db.length < 2 then some db
  else (db.mapM id).map fun vs => (bubbleSort PubVar.key vs).map some

/-- Arguments of `declvar` (`declvar.c:144`).  Simplifications: `dimen` is the list of its
comma-separated tokens, `typeOk` says whether `type` is one of the six accepted words; module name,
help, units and the value pointer are omitted. -/
structure VarDecl where
  name : CStr
  dimen : List CStr
  maxsize : Int
  typeOk : Bool

/-- Result of a declaration: undefined behaviour, or return code and new table.  `declvar.c:144-330`. -/
inductive Decl (σ : Type)
  | ub
  | ret (code : Int) (db : σ)
deriving DecidableEq, Repr

/-- `#define MAX_NDIMEN 3`, `defs.h:112`. -/
def MAX_NDIMEN : Nat := 3

/-- `declvar`, `declvar.c:144-330`.  An unknown `type` leaves the local `var_type` uninitialised
before it is tested (lines 189-202): undefined behaviour. -/
def declvar (dims : List Dim) (printMode : Bool) (db : VarDb) (a : VarDecl) : Decl VarDb :=
  match varAddr db.keys a.name with
  | .ub => .ub
  | .found _ => .ret (if printMode then 0 else 1) db                   -- lines 176-183
  | .notFound =>
    if ¬ a.typeOk then .ub                                             -- lines 189-209
    else
      let garbage := db ++ [none]                                      -- lines 223-228
      if a.dimen.length > MAX_NDIMEN then .ret 1 garbage               -- lines 245-254
      else
        match a.dimen.mapM (dimAddr dims) with                         -- lines 263-272
        | none => .ret 1 garbage
        | some ds =>
          let size := ds.foldl (fun s d => s * d.value) 1              -- lines 280-288
          if size > a.maxsize then .ret 1 garbage                      -- lines 290-303
          else
            match sortVars (db ++ [some ⟨a.name, size, false⟩]) with   -- lines 309-326
            | none => .ub
            | some db' => .ret 0 db'

/-- `declpri`, `declvar.c:388-488`. -/
def declpri (db : VarDb) (name : CStr) (size : Int) (typeOk : Bool) : Decl VarDb :=
  match varAddr db.keys name with
  | .ub => .ub
  | .found _ => .ret 1 db                                              -- lines 411-415
  | .notFound =>
    if ¬ typeOk then .ub                                               -- lines 421-441
    else
      match sortVars (db ++ [some ⟨name, size, true⟩]) with            -- lines 455-485
      | none => .ub
      | some db' => .ret 0 db'

end Verif.Tables
