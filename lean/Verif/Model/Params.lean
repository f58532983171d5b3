import Verif.Model.CText
import Verif.Model.Tables
/-
Model of the MMF parameter data base: `mmf_c/src/str_to_vals.c`, `load_param.c`, `declparam.c`,
`param_addr.c`, `sort_params.c`, `reset_dim.c`.
-/
namespace Verif.Params
open Verif.CText Verif.Tables

/-- Outcome of a C function that may fail: undefined behaviour (including the use of memory that was
never written), an error return, or a result.  E.g. `str_to_vals.c:109-114`. -/
inductive Res (β : Type)
  | ub
  | err
  | ok (b : β)
deriving DecidableEq, Repr

/-- Sequencing, e.g. `load_param.c:83-123`. -/
def Res.bind {β γ : Type} : Res β → (β → Res γ) → Res γ
  | .ub, _ => .ub
  | .err, _ => .err
  | .ok b, f => f b

/-! ### Decoding of value lists -/

/-- The separators of `strtok (scopy, " ,\t\n")`, `str_to_vals.c:89,179`. -/
def isSep (c : Char) : Bool := c = ' ' || c = ',' || c = '\t' || c = '\n'

/-- `#define MAXTOKLEN 128`, size of the token buffer `tcopy` (`defs.h:106`, `str_to_vals.c:62`). -/
def MAXTOKLEN : Nat := 128

/-- One token, `str_to_vals.c:93-149`: repeat count and value.  `parse` stands for
`strtod`/`strtol`; it is `none` when the call sets `errno` to `EDOM` or `ERANGE`. -/
def decodeToken {α : Type} (parse : List Char → Option α) (tok : List Char) : Res (Nat × α) :=
  if tok.length ≥ MAXTOKLEN then .ub                                   -- strcpy, line 95
  else
    let go (rep : Nat) (valstr : List Char) : Res (Nat × α) :=
      match parse valstr with
      | none => .err                                                   -- lines 137-149
      | some v => .ok (rep, v)
    match splitLast '*' tok with                                       -- line 96
    | none => go 1 tok                                                 -- lines 98-101
    | some (cnt, valstr) =>
      let r := strtol cnt                                              -- line 107
      if r.1 ≤ 0 ∨ r.2 ≠ [] then .err                                  -- lines 109-114
      else go r.1.toNat valstr

/-- The token loop, `str_to_vals.c:93-181`; `buf` is the part of the array written so far.
Simplification: `ndecoded + repeat` does not overflow. -/
def decodeLoop {α : Type} (parse : List Char → Option α) (size : Nat) :
    List (List Char) → List α → Res (List α)
  | [], buf => .ok buf
  | tok :: toks, buf =>
    match decodeToken parse tok with
    | .ub => .ub
    | .err => .err
    | .ok (rep, v) =>
      let rep' := if buf.length + rep > size then size - buf.length else rep  -- lines 151-153
      decodeLoop parse size toks (buf ++ List.replicate rep' v)               -- lines 155-177

/-- The cyclic completion, `str_to_vals.c:187-219`: `n` elements still to write, `nd = ndecoded`.
Reading an element that was never written is `.ub`. -/
def cycleFill {α : Type} (nd : Nat) : Nat → Nat → List α → Res (List α)
  | 0, _, buf => .ok buf
  | n + 1, isource, buf =>
    match buf[isource]? with
    | none => .ub
    | some v =>
      let isource' := if isource + 1 = nd then 0 else isource + 1
      cycleFill nd n isource' (buf ++ [v])

/-- `str_to_vals`, `str_to_vals.c:58-226`. -/
def strToVals {α : Type} (parse : List Char → Option α) (enc : List Char) (size : Nat) :
    Res (List α) :=
  match decodeLoop parse size (strtok isSep enc) [] with
  | .ub => .ub
  | .err => .err
  | .ok buf => cycleFill buf.length (size - buf.length) 0 buf

/-! ### Declaring parameters -/

/-- What the code needs to know about the value type of a parameter: text conversion
(`strtod`/`strtol`), the C comparison `<`, and conversion of a dimension value.
`str_to_vals.c:124-135`, `load_param.c:151-267`. -/
structure NumOps (α : Type) where
  parse : List Char → Option α
  lt : α → α → Bool
  ofInt : Int → α

/-- `M_LONG`, `M_FLOAT`, `M_DOUBLE` (`defs.h`); `none` at the use sites is an illegal type.  `defs.h:73-75`. -/
inductive PType
  | long | float | double
deriving DecidableEq, Repr

/-- The arrays of a loaded parameter (`structs.h`, `PARAM`: `value`, `def`, `min`, `max`).
`structs.h:33-36`. -/
structure Vals (α : Type) where
  value : List α
  dflt : List α
  min : List α
  max : List α
deriving DecidableEq, Repr

/-- Bounding of a parameter: strings for minimum and maximum, or a dimension.  `load_param.c:83-112`. -/
inductive Bounds
  | strings (min max : List Char)
  | dim (value : Int)

/-- Minima, `load_param.c:83-95`. -/
def loadMin {α : Type} (ops : NumOps α) (size : Nat) : Bounds → Res (List α)
  | .dim _ => .ok (List.replicate size (ops.ofInt 0))
  | .strings m _ => strToVals ops.parse m size

/-- Maxima, `load_param.c:100-112`. -/
def loadMax {α : Type} (ops : NumOps α) (size : Nat) : Bounds → Res (List α)
  | .dim v => .ok (List.replicate size (ops.ofInt v))
  | .strings _ m => strToVals ops.parse m size

/-- The range check at position `i`, `load_param.c:161-188` (and 200-227, 239-266). -/
def outOfRange {α : Type} (ops : NumOps α) (mn mx d : List α) (i : Nat) : Bool :=
  match mn[i]?, mx[i]?, d[i]? with
  | some a, some z, some v => ops.lt z a || ops.lt v a || ops.lt z v
  | _, _, _ => false

/-- `load_param`, `load_param.c:56-269`; defaults lines 117-123, `value := def` lines 125-146, range
checks lines 151-267. -/
def loadParam {α : Type} (ops : NumOps α) (size : Nat) (b : Bounds) (dflt : List Char) :
    Res (Vals α) :=
  (loadMin ops size b).bind fun mn =>
  (loadMax ops size b).bind fun mx =>
  (strToVals ops.parse dflt size).bind fun d =>
    if (List.range size).any (outOfRange ops mn mx d) then .err else .ok ⟨d, d, mn, mx⟩

/-- The fields of `PARAM` (`structs.h:23-51`) used by the modelled functions.  `dims` is `none` when
the declaration failed before `param->dimen` was allocated, `vals` is `none` when the arrays were not
filled. -/
structure Param (α : Type) where
  key : CStr
  type : PType
  dims : Option (List CStr)
  bound : Option CStr
  size : Nat
  vals : Option (Vals α)
deriving DecidableEq, Repr

/-- Arguments of `declparam` (`declparam.c:323-324`).  Simplifications: `dimen` is the list of its
comma-separated tokens; module name and descriptive texts are omitted. -/
structure ParamDecl where
  name : CStr
  dimen : List CStr
  type : Option PType
  dflt : List Char
  min : List Char
  max : List Char

/-- The literal "bounded" (`declparam.c:429`). -/
def boundedWord : List Char := ['b', 'o', 'u', 'n', 'd', 'e', 'd']

/-- Bytes of a text, for the use of `maximum` as a dimension name.  `declparam.c:429-437`. -/
def bytes (s : List Char) : CStr := s.map Char.toNat

/-- `param_addr`, `param_addr.c`: linear search.  `param_addr.c:32-55`. -/
def paramAddr {α : Type} (db : List (Param α)) (name : CStr) : Option (Param α) :=
  db.find? fun p => strcmp p.key name = .eq

/-- `declparam`, `declparam.c:323-495`, with `CHECK_param_in_db` (lines 505-578) and `sort_params`
(`sort_params.c:56-85`).  A new entry is in the table from line 373 on, also when the declaration
fails later.  Undefined behaviour: `check_param->dimen[0]->name` for an entry without dimensions
(line 526) and `dim->name` with `dim == NULL` for an undeclared dimension (line 465). -/
def declparam {α : Type} (ops : NumOps α) (dims : List Dim) (db : List (Param α)) (a : ParamDecl) :
    Decl (List (Param α)) :=
  match a.type with
  | none => .ret 0 db                                                  -- lines 354-355
  | some ty =>
    match paramAddr db a.name with
    | some p =>                                                        -- lines 357-360
      match p.dims with
      | some (_ :: _) => .ret 0 db
      | _ => .ub
    | none =>
      if a.dimen.length > MAX_NDIMEN then                              -- lines 402-409
        .ret 1 (db ++ [⟨a.name, ty, none, none, 0, none⟩])
      else
        let bounded := a.min = boundedWord                             -- line 429
        if bounded ∧ ty ≠ .long then                                   -- lines 432-440
          .ret 1 (db ++ [⟨a.name, ty, some a.dimen, none, 0, none⟩])
        else if bounded ∧ (dimAddr dims (bytes a.max)).isNone then     -- lines 442-448
          .ret 1 (db ++ [⟨a.name, ty, some a.dimen, none, 0, none⟩])
        else
          match a.dimen.mapM (dimAddr dims) with                       -- lines 457-468
          | none => .ub
          | some ds =>
            let n := (ds.foldl (fun (s : Int) (d : Dim) => s * d.value) 1).toNat
            let size := if n = 0 then 1 else n                         -- lines 476-477
            let bd := if bounded then (dimAddr dims (bytes a.max)) else none
            let b := match bd with
              | some d => Bounds.dim d.value
              | none => Bounds.strings a.min a.max
            match loadParam ops size b a.dflt with                     -- lines 483-484
            | .ub => .ub
            | .err => .ret 1 (db ++ [⟨a.name, ty, some a.dimen, bd.map Dim.name, size, none⟩])
            | .ok v =>
              .ret 0 (bubbleSort Param.key
                (db ++ [⟨a.name, ty, some a.dimen, bd.map Dim.name, size, some v⟩]))

/-! ### Resizing a dimension -/

/-- A heap array: `none` is an element never written since `malloc`.  `reset_dim.c:292-330`. -/
abbrev Mem (α : Type) := List (Option α)

/-- The index pairs `(new_index, old_index)` in the order the three loops of `resize_param` visit
them, `reset_dim.c:345-372`. -/
def resizeMoves (nframes blocksize : Nat) (nold nnew : Nat) : List (Int × Int) :=
  (List.range nframes).flatMap fun (iframe : Nat) =>
    (List.range nnew).flatMap fun (inew : Nat) =>
      (List.range blocksize).map fun (j : Nat) =>
        let iold : Int := if inew < nold then (inew : Int) else (nold : Int) - 1
        ((j : Int) + inew * blocksize + iframe * ((blocksize : Int) * nnew),
         (j : Int) + iold * blocksize + iframe * ((blocksize : Int) * nold))

/-- `new[new_index] = old[old_index]`: undefined behaviour when either index is outside its array.
`reset_dim.c:345-372`. -/
def move {α : Type} (old : Mem α) (new : Mem α) (m : Int × Int) : Res (Mem α) :=
  if 0 ≤ m.2 ∧ m.2 < old.length ∧ 0 ≤ m.1 ∧ m.1 < new.length then
    .ok (new.set m.1.toNat (old[m.2.toNat]?.getD none))
  else .ub

/-- The loops `reset_dim.c:345-372`. -/
def runMoves {α : Type} (old : Mem α) : List (Int × Int) → Mem α → Res (Mem α)
  | [], new => .ok new
  | m :: ms, new =>
    match move old new m with
    | .ok new' => runMoves old ms new'
    | .err => .err
    | .ub => .ub

/-- One of the three copies (value, minimum, maximum) of `resize_param`, `reset_dim.c:256-390`.
`dimVals` are the dimension values after the change (`dim->value` was already overwritten,
`reset_dim.c:108-109`) and `k = dimen_num`. -/
def resizeArray {α : Type} (dimVals : List Nat) (k : Nat) (nold nnew sizeNew : Nat) (old : Mem α) :
    Res (Mem α) :=
  let nframes := (dimVals.drop (k + 1)).foldl (· * ·) 1                -- lines 275-278
  let blocksize := (dimVals.take k).foldl (· * ·) 1                    -- lines 284-287
  runMoves old (resizeMoves nframes blocksize nold nnew) (List.replicate sizeNew none)

/-- A parameter as seen by `reset_dim`: names of its dimensions, bounding dimension, arrays.
`structs.h:23-51`. -/
structure RParam (α : Type) where
  dims : List CStr
  bound : Option CStr
  size : Nat
  value : Mem α
  min : Mem α
  max : Mem α
deriving DecidableEq, Repr

/-- Index of the last dimension equal to `name` (`dimen_num`, `reset_dim.c:167-173`). -/
def lastIdx (name : CStr) (dims : List CStr) : Option Nat :=
  ((List.range dims.length).filter fun i => dims[i]? = some name).getLast?

/-- First loop body of `reset_dim`, `reset_dim.c:162-192`; `val` gives the dimension values after the
change. -/
def resizeParam {α : Type} (val : CStr → Nat) (name : CStr) (nold nnew : Nat) (p : RParam α) :
    Res (RParam α) :=
  match lastIdx name p.dims with
  | none => .ok p
  | some k =>
    let n := (p.dims.map val).foldl (· * ·) 1
    let sizeNew := if n = 0 then 1 else n
    (resizeArray (p.dims.map val) k nold nnew sizeNew p.value).bind fun v =>
    (resizeArray (p.dims.map val) k nold nnew sizeNew p.min).bind fun mn =>
    (resizeArray (p.dims.map val) k nold nnew sizeNew p.max).bind fun mx =>
      .ok { p with size := sizeNew, value := v, min := mn, max := mx }

/-- The clamping loop for one parameter, `reset_dim.c:199-219`, over `j = 0 .. size-1`.  Comparing a
value that was never written is undefined. -/
def clampLoop (nnew : Int) : Nat → Mem Int → Mem Int → Res (Mem Int × Mem Int)
  | 0, v, m => .ok (v, m)
  | n + 1, v :: vs, _ :: ms =>
    match v with
    | none => .ub
    | some x =>
      (clampLoop nnew n vs ms).bind fun r =>
        .ok ((if x > nnew then some nnew else some x) :: r.1, some nnew :: r.2)
  | _ + 1, _, _ => .ub

/-- Second loop body, `reset_dim.c:199-219`.  Only `long` parameters can be bounded, so the values
are integers. -/
def clampParam (name : CStr) (nnew : Nat) (p : RParam Int) : Res (RParam Int) :=
  if p.bound = some name then
    (clampLoop nnew p.size p.value p.max).bind fun r => .ok { p with value := r.1, max := r.2 }
  else .ok p

/-- The loops over the parameters, `reset_dim.c:162-219`. -/
def mapRes {β γ : Type} (f : β → Res γ) : List β → Res (List γ)
  | [] => .ok []
  | b :: bs => (f b).bind fun c => (mapRes f bs).bind fun cs => .ok (c :: cs)

/-- A dimension table as a function from names to values.  `reset_dim.c:108-109`. -/
def setDim (val : CStr → Nat) (name : CStr) (nnew : Nat) : CStr → Nat :=
  fun n => if n = name then nnew else val n

/-- `reset_dim`, `reset_dim.c:92-246`, on the `long` parameters.  Omitted: index names and notes
(lines 115-156) and the sizes of variables (lines 225-245). -/
def resetDim (val : CStr → Nat) (name : CStr) (nnew : Nat) (ps : List (RParam Int)) :
    Res (List (RParam Int)) :=
  if nnew = val name then .ok ps                                       -- line 103
  else
    (mapRes (resizeParam (setDim val name nnew) name (val name) nnew) ps).bind fun ps' =>
      mapRes (clampParam name nnew) ps'

/-! ### Element references -/

/-- The index strings of `CheckIndices` and `GetElemAddress`, `get_elem_add.c:119-160,291-329`:
everything before the first `(` is skipped (but the parenthesis itself is kept), the text from the
first `)` on is cut off, and the rest is split at commas.  `none` is undefined behaviour: `tsave`
holds 80 characters and every piece 20. -/
def indexStrings (s : List Char) : Option (List (List Char)) :=
  if s.length ≥ 80 then none
  else
    let t := s.dropWhile (· ≠ '(')
    let temp := if t = [] then s else t
    let cut := temp.takeWhile (· ≠ ')')
    let parts := splitBy (· = ',') cut
    if parts.all fun p => p.length < 20 then some parts else none

/-- Check of one index, `get_elem_add.c:178-202`: the loop stops at the first non-digit or at the
last character. -/
def checkIndex (dimValue : Nat) (t : List Char) : Nat :=
  let rest := t.dropWhile isDigit
  if t = [] ∨ rest ≠ [] then 3
  else if atoi t < 1 then 4
  else if atoi t > dimValue then 5
  else 0

/-- The loop over the indices, `get_elem_add.c:178-202`. -/
def checkAll : List Nat → List (List Char) → Nat
  | d :: ds, t :: ts =>
    match checkIndex d t with
    | 0 => checkAll ds ts
    | c => c
  | _, _ => 0

/-- `CheckIndices` on an existing parameter or variable, `get_elem_add.c:87-208`. -/
def checkIndices (dims : List Nat) (s : List Char) : Option Nat :=
  match indexStrings s with
  | none => none
  | some parts => if dims.length ≠ parts.length then some 2 else some (checkAll dims parts)

/-- The offset loop of `GetElemAddress`, `get_elem_add.c:331-350`. -/
def offsetLoop : List Nat → List Int → Int → Int → Int
  | d :: ds, i :: is, offset, prod => offsetLoop ds is (offset + (i - 1) * prod) (prod * d)
  | _, _, offset, _ => offset

/-- The element offset computed by `GetElemAddress`, `get_elem_add.c:229-369`. -/
def elemOffset (dims : List Nat) (s : List Char) : Option Int :=
  (indexStrings s).map fun parts => offsetLoop dims (parts.map atoi) 0 1

/-! ### Copying values to and from modules -/

/-- `memcpy` of `n` words between arrays of 32-bit words; `none` when it leaves an array. -/
def memcpy {W : Type} (dst : List W) (doff : Nat) (src : List W) (soff n : Nat) : Option (List W) :=
  if soff + n ≤ src.length ∧ doff + n ≤ dst.length then
    some (dst.take doff ++ (src.drop soff).take n ++ dst.drop (doff + n))
  else none

/-- Rows `i, i+1, …` of the copy loops `getvar.c:220-243`, `putvar.c:236-259`, `getparam.c:300-318`:
`cnt` words per row, source and destination advance by `sstep` and `dstep` words. -/
def copyRows {W : Type} (cnt sstep dstep : Nat) (src : List W) : Nat → Nat → List W → Option (List W)
  | 0, _, dst => some dst
  | n + 1, i, dst =>
    match memcpy dst (i * dstep) src (i * sstep) cnt with
    | none => none
    | some dst' => copyRows cnt sstep dstep src n (i + 1) dst'

/-- Words copied per element: `sizeof(int)`, `sizeof(float)`, `sizeof(double)` (`getvar.c:194-207`). -/
def width : PType → Nat
  | .long => 1
  | .float => 1
  | .double => 2

/-- Words the row pointers advance per element (`getvar.c:226-240`): `sizeof(long)` for `M_LONG`,
where `longWords` is 1 (Windows, 32-bit) or 2 (64-bit Unix). -/
def stride (longWords : Nat) : PType → Nat
  | .long => longWords
  | .float => 1
  | .double => 2

/-- A public variable as used by `getvar`/`putvar`: type, dimensions as (value, max), size, storage.
`structs.h:75-87`. -/
structure VarStore (W : Type) where
  type : PType
  dims : List (Nat × Nat)
  size : Nat
  mem : List W
deriving DecidableEq, Repr

/-- Row length chosen by `getvar`, `getvar.c:210-217`. -/
def getN1 (v1 m1 n2 maxsize : Nat) : Nat :=
  let n1 := if v1 * n2 ≠ maxsize then m1 else v1
  if n1 * n2 > maxsize then v1 else n1

/-- Row length chosen by `putvar`, `putvar.c:224-230`. -/
def putN1 (v1 m1 n2 maxsize : Nat) : Nat := if m1 * n2 > maxsize then v1 else m1

/-- `getvar` after the look-up, `getvar.c:166-247`: `.err` is return code 1, `.ok` is return code 0
with the new contents of the caller's buffer, `.ub` leaves an array. -/
def getvar {W : Type} (longWords : Nat) (v : VarStore W) (maxsize : Nat) (buf : List W) :
    Res (List W) :=
  if v.size > maxsize then .err
  else
    let r := match v.dims with
      | [_] => memcpy buf 0 v.mem 0 (v.size * width v.type)
      | [(v1, m1), (n2, _)] =>
        let n1 := getN1 v1 m1 n2 maxsize
        copyRows (n1 * width v.type) (n1 * stride longWords v.type) (n1 * stride longWords v.type)
          v.mem n2 0 buf
      | _ => some buf
    match r with
    | none => .ub
    | some b => .ok b

/-- `putvar` after the look-up, `putvar.c:183-268`; the result is the new storage of the variable. -/
def putvar {W : Type} (longWords : Nat) (v : VarStore W) (maxsize : Nat) (buf : List W) :
    Res (List W) :=
  if v.size > maxsize then .err
  else
    let r := match v.dims with
      | [_] => memcpy v.mem 0 buf 0 (v.size * width v.type)
      | [(v1, m1), (n2, _)] =>
        let n1 := putN1 v1 m1 n2 maxsize
        copyRows (n1 * width v.type) (n1 * stride longWords v.type) (n1 * stride longWords v.type)
          buf n2 0 v.mem
      | _ => some v.mem
    match r with
    | none => .ub
    | some b => .ok b

/-- Distance between columns in the caller's array chosen by `paramcopy`, `getparam.c:280-297`.  The
chained comparison of line 280 compares the truth value of the first with `maxsize`. -/
def paramNrow (v1 m1 v2 m2 : Nat) (maxsize : Int) : Nat :=
  if (if m1 * m2 = v1 * v2 then (1 : Int) else 0) = maxsize then v1
  else if (v1 * v2 : Nat) = maxsize then v1
  else if (m1 * m2 : Nat) = maxsize then m1
  else v1

/-- `getparam` after the look-up, `getparam.c:202-235`, with `paramcopy`, lines 244-321.  The storage
of a `long` parameter has `longWords` words per element (`load_param.c:74-77`), but one word per
element is copied.  `updateparam` (`getparam.c:69-85`) calls `paramcopy` directly, with size -1. -/
def paramcopy {W : Type} (v : VarStore W) (maxsize : Int) (buf : List W) : Res (List W) :=
  let r := match v.dims with
    | [_] => memcpy buf 0 v.mem 0 (v.size * width v.type)
    | (v1, m1) :: (v2, m2) :: _ =>
      let nrow := paramNrow v1 m1 v2 m2 maxsize
      copyRows (v1 * width v.type) (v1 * width v.type) (nrow * width v.type) v.mem v2 0 buf
    | [] => none
  match r with
  | none => .ub
  | some b => .ok b

/-- `getparam.c:202-235`. -/
def getparam {W : Type} (v : VarStore W) (maxsize : Int) (buf : List W) : Res (List W) :=
  if (v.size : Int) > maxsize then .err else paramcopy v maxsize buf

end Verif.Params
