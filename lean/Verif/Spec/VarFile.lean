import Verif.Model.VarFile
import Verif.Spec.ParFile
/- What a saved state file must restore.  Independent of the reader. -/
namespace Verif.VarFile
open Verif.CText
open Verif.ParFile (Ty unlines Fits IsHeader intText)

/-- The variable with a key. -/
def entry {V} (vs : List (Var V)) (n : List Char) : Option (Var V) := vs.find? fun v => v.key = n

/-- Values by key. -/
def look {V} (vs : List (Var V)) (n : List Char) : Option (List V) := (entry vs n).map (·.vals)

/-- A variable whose lines fit the buffers of the reader; a public one has dimensions; the printed values
convert back to the values. -/
structure Savable {V} (conv : Ty → List Char → V) (show_ : Ty → V → List Char) (v : Var V) : Prop where
  key : '\n' ∉ v.key ∧ v.key.length ≤ 48
  kind : v.priv = true ∨ (v.dims ≠ [] ∧ v.ndimen = v.dims.length)
  dims : ∀ d ∈ v.dims, '\n' ∉ d ∧ d.length ≤ 48 ∧ ¬ IsHeader d
  small : (decimal v.dims.length).length ≤ 253 ∧ (decimal v.size).length ≤ 253
  size : v.vals.length = v.size
  texts : ∀ x ∈ v.vals, Fits (show_ v.type x ++ [' ']) ∧ ¬ IsHeader (show_ v.type x)
  exact : ∀ x ∈ v.vals, conv v.type (show_ v.type x ++ [' ', '\n']) = x

/-- The same declaration (a private variable has no dimensions to compare). -/
def Same {V} (v w : Var V) : Prop :=
  (v.priv = true ∨ w.dims = v.dims) ∧ w.size = v.size ∧ w.type = v.type

/-- The first lines of the file and the dimensions fit the buffers of the reader. -/
structure Fitting {V} (showF : V → List Char) (s : St V) : Prop where
  info : (s.info.takeWhile fun c => c ≠ '\n').length ≤ 78
  nstep : (intText s.nstep).length ≤ 67
  now : '\n' ∉ showF s.now ∧ (showF s.now).length ≤ 61
  delta : '\n' ∉ showF s.delta ∧ (showF s.delta).length ≤ 62
  dims : ∀ d ∈ s.dims, '\n' ∉ d.1 ∧ d.1.length ≤ 48 ∧ (intText d.2).length ≤ 254

/-- The dimensions (name and size) are among those declared. -/
def SameDims {V} (l : List (List Char × Int)) (t : St V) : Prop := ∀ d ∈ l, d ∈ t.dims

/-- Every variable has storage for its size. -/
def Stored {V} (t : St V) : Prop := ∀ w ∈ t.vars, w.vals.length = w.size

end Verif.VarFile
