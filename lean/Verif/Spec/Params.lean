import Verif.Spec.CText
import Verif.Model.Params
/-
Specification vocabulary for C08 to C13 and C46.
-/
namespace Verif.Params
open Verif.CText

/-! ### C08: value lists -/

/-- One entry of a value list: an optional repeat count and the text of a value. -/
structure Item where
  count : Option Nat
  text : List Char

/-- `n*v` or `v`. -/
def Item.word (it : Item) : List Char :=
  match it.count with
  | none => it.text
  | some n => decimal n ++ '*' :: it.text

/-- The values an entry stands for. -/
def Item.expand {α : Type} (value : List Char → α) (it : Item) : List α :=
  List.replicate (it.count.getD 1) (value it.text)

/-- A legal entry: positive count, a value text free of separators and asterisks that converts
without range error, and at most 127 characters in all. -/
def Item.Legal {α : Type} (parse : List Char → Option α) (value : List Char → α) (it : Item) : Prop :=
  it.count ≠ some 0 ∧ it.text ≠ [] ∧ (∀ c ∈ it.text, c ∉ [' ', ',', '\t', '\n', '*']) ∧
    parse it.text = some (value it.text) ∧ it.word.length ≤ 127

/-- A legal repeat count text: optional white space, optional plus sign, a positive numeral. -/
def LegalCount (s : List Char) : Prop :=
  ∃ ws sg ds, s = ws ++ sg ++ ds ∧ (∀ c ∈ ws, isSpace c = true) ∧ (sg = [] ∨ sg = ['+']) ∧
    ds ≠ [] ∧ (∀ c ∈ ds, c ∈ digits) ∧ 0 < numeral ds

/-! ### C10, C12: column-major element positions -/

/-- Position of a zero-based index tuple in an array with the given dimensions, first index
fastest. -/
def position : List Nat → List Nat → Nat
  | d :: ds, i :: is => i + d * position ds is
  | _, _ => 0

/-- A zero-based index tuple lies inside the dimensions. -/
def Inside : List Nat → List Nat → Prop
  | [], [] => True
  | d :: ds, i :: is => i < d ∧ Inside ds is
  | _, _ => False

/-- Number of elements. -/
def volume : List Nat → Nat
  | [] => 1
  | d :: ds => d * volume ds

end Verif.Params

namespace Verif.Params
open Verif.CText Verif.Tables

/-! ### C04, C09: histories of parameter declarations -/

/-- Run a list of declarations; `none` is undefined behaviour. -/
def runParams {α : Type} (ops : NumOps α) (dims : List Dim) :
    List (Param α) → List ParamDecl → Option (List Int × List (Param α))
  | db, [] => some ([], db)
  | db, a :: as =>
    match declparam ops dims db a with
    | .ub => none
    | .ret c db' => (runParams ops dims db' as).map fun r => (c :: r.1, r.2)

/-- All arrays of a loaded parameter have the parameter's size, the current value is the default, and
every element satisfies minimum ≤ default ≤ maximum. -/
def InBounds {α : Type} [LE α] (size : Nat) (v : Vals α) : Prop :=
  v.value = v.dflt ∧ v.dflt.length = size ∧ v.min.length = size ∧ v.max.length = size ∧
    ∀ i, i < size → ∃ a d z, v.min[i]? = some a ∧ v.dflt[i]? = some d ∧ v.max[i]? = some z ∧
      a ≤ d ∧ d ≤ z

/-! ### C10, C11 -/

/-- A parameter is in a consistent state for the dimension values `val`: its three arrays have one
initialised element per index tuple. -/
def Filled {α : Type} (val : CStr → Nat) (p : RParam α) : Prop :=
  ∀ arr ∈ [p.value, p.min, p.max], arr.length = volume (p.dims.map val) ∧ ∀ x ∈ arr, x ≠ none

/-- The old index tuple an element of a resized array comes from: along the resized dimension, new
positions take the last old position. -/
def source (name : CStr) (nold : Nat) : List CStr → List Nat → List Nat
  | d :: ds, i :: is => (if d = name then min i (nold - 1) else i) :: source name nold ds is
  | _, _ => []

end Verif.Params

namespace Verif.Params
open Verif.CText Verif.Tables

/-! ### C12 -/

/-- Comma-separated list. -/
def joinComma : List (List Char) → List Char
  | [] => []
  | [p] => p
  | p :: q :: r => p ++ ',' :: joinComma (q :: r)

/-- The text is a comma-separated list of numerals with the given values. -/
def IndexText (s : List Char) (idx : List Nat) : Prop :=
  ∃ parts : List (List Char), parts ≠ [] ∧ s = joinComma parts ∧
    (∀ p ∈ parts, p ≠ [] ∧ ∀ c ∈ p, c ∈ digits) ∧ idx = parts.map numeral

/-- One-based indices within the dimensions. -/
def ValidIndices (dims idx : List Nat) : Prop :=
  idx.length = dims.length ∧ ∀ (k i d : Nat), idx[k]? = some i → dims[k]? = some d → 1 ≤ i ∧ i ≤ d

/-- The text fits the buffers of the code: fewer than 80 characters and fewer than 20 between
commas. -/
def ShortText (s : List Char) : Prop :=
  s.length < 80 ∧ ∀ a w b, s = a ++ w ++ b → ',' ∉ w → w.length < 20

/-- Text written for an index tuple. -/
def indexText (idx : List Nat) : List Char := joinComma (idx.map decimal)

/-! ### C13 -/

/-- A variable as left by a successful declaration: values at most maxima, size the product of the
values, room for `decl` elements of storage. -/
def WellDeclared {W : Type} (v : VarStore W) (decl : Nat) : Prop :=
  (∀ d ∈ v.dims, 0 < d.1 ∧ d.1 ≤ d.2) ∧ v.size = volume (v.dims.map Prod.fst) ∧
    v.mem.length = decl * width v.type ∧ v.size ≤ decl

end Verif.Params

namespace Verif.Params
open Verif.CText Verif.Tables

/-- A parameter for which a change of `name` is well behaved. -/
def Regular (val : CStr → Nat) (name : CStr) (p : RParam Int) : Prop :=
  p.dims.count name ≤ 1 ∧ Filled val p ∧ p.size = volume (p.dims.map val) ∧ ∀ d ∈ p.dims, 0 < val d

/-- What a change of `name` to `nnew` must do to a parameter: same dimensions and bound; if bounded by
`name`, all maxima are `nnew` and the values are the moved values, reduced to `nnew` where larger. -/
def Changed (val : CStr → Nat) (name : CStr) (nnew : Nat) (p p' : RParam Int) : Prop :=
  p'.dims = p.dims ∧ p'.bound = p.bound ∧ p'.size = volume (p.dims.map (setDim val name nnew)) ∧
    Filled (setDim val name nnew) p' ∧
    ∀ is, Inside (p.dims.map (setDim val name nnew)) is →
      p'.value[position (p.dims.map (setDim val name nnew)) is]? =
        (p.value[position (p.dims.map val) (source name (val name) p.dims is)]?).map
          (Option.map fun x => if p.bound = some name then min x (nnew : Int) else x) ∧
      p'.max[position (p.dims.map (setDim val name nnew)) is]? =
        (p.max[position (p.dims.map val) (source name (val name) p.dims is)]?).map
          (Option.map fun x => if p.bound = some name then (nnew : Int) else x)

end Verif.Params
