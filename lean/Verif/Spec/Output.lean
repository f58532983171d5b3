import Verif.Model.Output
import Verif.Spec.Params
/-
Vocabulary for C90 to C94: what the output files of a run should contain.
-/
namespace Verif.Output
open Verif.CText Verif.Params
open Verif.Sbl (intText)

/-- A name in the control file stands for the variable before its first dot. -/
def Names (name key : Text) : Prop := '.' ∉ key ∧ (name = key ∨ ∃ r, name = key ++ '.' :: r)

/-- The text of an element fits the buffers and has no parentheses (C12). -/
def PlainText (e : Text) : Prop := '(' ∉ e ∧ ')' ∉ e ∧ ShortText e

/-- The numbers of elements in each direction. -/
def Pub.shape (v : Pub) : List Nat := v.dims.map (·.value)

/-! ### Statistic variable file -/

/-- A requested element: name and element as written in the control file, the variable, the indices
(from 1). -/
structure Wanted where
  name : Text
  elem : Text
  pub : Pub
  idx : List Nat

/-- The request is in order: a declared variable with valid indices. -/
structure Wanted.Ok (vars : Text → Option Pub) (w : Wanted) : Prop where
  decl : ∃ key, Names w.name key ∧ vars key = some w.pub
  index : IndexText w.elem w.idx
  valid : ValidIndices w.pub.shape w.idx

/-- The value of a requested element, in column-major order. -/
def Wanted.value (w : Wanted) (mem : Mem) : Rat := mem w.pub.name (position w.pub.shape (w.idx.map (· - 1)) : Nat)

/-- The head of the file: number of variables, then one line for each. -/
def statHead (ws : List Wanted) : Text :=
  decimal ws.length ++ '\n' :: ws.flatMap fun w => w.name ++ ' ' :: (w.elem ++ ['\n'])

/-- The fields of the line of one step: step number, date and time, values. -/
def statFields (fmt : VType → Rat → Text) (ws : List Wanted) (s : List Int × Mem) : List Text :=
  s.1.map intText ++ ws.map fun w => fmt w.pub.type (w.value s.2)

/-- Fields, each followed by a blank, and the end of the line. -/
def blankLine (fields : List Text) : Text := (fields.flatMap fun f => f ++ [' ']) ++ ['\n']

/-- The whole file. -/
def statText (fmt : VType → Rat → Text) (ws : List Wanted) (steps : List (List Int × Mem)) : Text :=
  statHead ws ++ steps.flatMap fun s => blankLine (statFields fmt ws s)

/-! ### Animation files -/

/-- The variable belongs to a dimension: its first one. -/
def Pub.along (v : Pub) (d : Dimen) : Bool := v.dims.head? = some d

/-- Fields separated by tabs, and the end of the line. -/
def tabLine : List Text → Text
  | [] => ['\n']
  | f :: fs => f ++ ((fs.flatMap fun g => '\t' :: g) ++ ['\n'])

/-- The head of the file of a dimension with the variables `vs`. -/
def aniHead (d : Dimen) (vs : List Pub) : Text :=
  "#\n# Begin DBF\n# timestamp,#FIELD_ISODATETIME,19,0\n# ".toList ++ (d.name ++ (",#FIELD_DECIMAL,10,2\n".toList ++
    ((vs.flatMap fun v => "# ".toList ++ (v.name ++ ",#FIELD_DECIMAL,10,2\n".toList)) ++ ("# End DBF\n#\n".toList ++
      (tabLine ("timestamp".toList :: d.name :: vs.map (·.name)) ++
        tabLine ("19d".toList :: "10n".toList :: vs.map fun _ => "10n".toList))))))

/-- The fields of the line of element `j` (from 0): time, number, values. -/
def aniFields (fmt : VType → Rat → Text) (num : Nat → Text) (vs : List Pub) (s : Text × Mem) (j : Nat) : List Text :=
  s.1 :: num (j + 1) :: vs.map fun v => fmt v.type (s.2 v.name j)

/-- The whole file of a dimension: one line for each step and element. -/
def aniText (fmt : VType → Rat → Text) (num : Nat → Text) (d : Dimen) (vs : List Pub) (steps : List (Text × Mem)) : Text :=
  aniHead d vs ++ steps.flatMap fun s => (List.range d.value).flatMap fun j => tabLine (aniFields fmt num vs s j)

/-- The files of a run: one for each dimension of a requested variable, with the requested variables
of that dimension in the order of the request. -/
structure AniFiles (fmt : VType → Rat → Text) (num : Nat → Text) (vs : List Pub) (steps : List (Text × Mem))
    (files : List (Dimen × Text)) : Prop where
  distinct : (files.map (·.1)).Nodup
  dims : ∀ d, d ∈ files.map (·.1) ↔ ∃ v ∈ vs, v.dims.head? = some d
  text : ∀ f ∈ files, f.2 = aniText fmt num f.1 (vs.filter (·.along f.1)) steps

/-- The names of a request stand for the variables. -/
inductive Requested (vars : Text → Option Pub) : List Text → List Pub → Prop where
  | nil : Requested vars [] []
  | cons {n key v ns vs} : Names n key → vars key = some v → n.length < 80 → Requested vars ns vs →
      Requested vars (n :: ns) (v :: vs)

end Verif.Output
