import Verif.Model.Control
import Verif.Spec.CText
/-
Specification of control files: what a well-formed file looks like and what it assigns.
-/
namespace Verif.Control
open Verif.CText

/-- Does the text contain `//`? -/
def HasSlashes (s : List Char) : Prop := ['/', '/'] <:+: s

/-- A line the reader must ignore: blank, or a comment. -/
inductive Skip where
  | blank
  | comment (c : List Char)

def Skip.render : Skip → List Char
  | .blank => ['\n']
  | .comment c => '/' :: '/' :: c ++ ['\n']

def Skip.Ok (max : Nat) : Skip → Prop
  | .blank => True
  | .comment c => '\n' ∉ c ∧ c.length + 4 ≤ max

/-- A data line: ignored lines, then the text, optionally followed by a blank and a comment. -/
structure Datum where
  before : List Skip
  text : List Char
  comment : Option (List Char)

def Datum.tail (d : Datum) : List Char :=
  match d.comment with
  | none => ['\n']
  | some c => ' ' :: '/' :: '/' :: c ++ ['\n']

def Datum.render (d : Datum) : List Char :=
  d.before.flatMap Skip.render ++ d.text ++ d.tail

/-- Data lines fit a buffer of `max` characters (terminating zero included), and the text is not
empty and contains no newline and no `//`. -/
def Datum.Ok (max : Nat) (d : Datum) : Prop :=
  (∀ s ∈ d.before, s.Ok max) ∧ d.text ≠ [] ∧ '\n' ∉ d.text ∧ ¬ HasSlashes d.text ∧
  (∀ c, d.comment = some c → '\n' ∉ c) ∧ (d.text ++ d.tail).length + 1 ≤ max

/-- A line that starts a record. -/
def IsHeader (s : List Char) : Prop := ['#', '#', '#', '#'] <+: s

/-- A record of the file: free lines, a header line, key, size, type, values, each value on its own
line.  `key`, `size`, `type` and `vals` are the lines. -/
structure Rec where
  free : List Datum
  header : Datum
  key : Datum
  size : Datum
  type : Datum
  vals : List Datum

def Rec.lines (r : Rec) : List Datum := r.free ++ [r.header, r.key, r.size, r.type] ++ r.vals

def Rec.render (r : Rec) : List Char := r.lines.flatMap Datum.render

/-- Well-formed record of type `ty`: the size line is the number of values, the type line is `ty`;
values that are text do not look like a header. -/
structure Rec.Ok (r : Rec) (ty : Nat) : Prop where
  lines : ∀ d ∈ r.lines, d.Ok 256
  keyFits : r.key.Ok 50
  free : ∀ d ∈ r.free, ¬ IsHeader d.text
  header : IsHeader r.header.text
  size : r.size.text = decimal r.vals.length
  type : r.type.text = decimal ty
  known : ty = 1 ∨ ty = 2 ∨ ty = 3 ∨ ty = 4
  vals : ∀ d ∈ r.vals, ¬ IsHeader d.text

/-- The value a text denotes for each type. -/
def denote {F} (ps : Parse F) (ty : Nat) (s : List Char) : Val F :=
  match ty with
  | 1 => .lng (atoi s)
  | 2 => .flt (ps.flt s)
  | 3 => .dbl (ps.dbl s)
  | _ => .str s

/-- White space at the end of a number does not matter to `atof`. -/
def TrailingSpace {F} (ps : Parse F) : Prop :=
  ∀ s c, isSpace c = true → ps.dbl (s ++ [c]) = ps.dbl s ∧ ps.flt (s ++ [c]) = ps.flt s

/-- What a control variable holds: type, reported size, cells. -/
structure Var (F : Type) where
  type : Nat
  size : Nat
  cells : List (Option (Val F))
deriving DecidableEq

/-- Control variables by name. -/
abbrev Store (F : Type) := List Char → Option (Var F)

/-- The contents of the data base, looked up by name. -/
def storeOf {F} (db : Db F) : Store F := fun k =>
  (controlAddr db k).map fun c => ⟨c.type.toNat, c.size, c.mem⟩

/-- A record assigned to a store: a new variable gets exactly the values; the first elements of an
existing one are replaced. -/
def assign {F} (ps : Parse F) (s : Store F) (x : Rec × Nat) : Store F := fun k =>
  if k = x.1.key.text then
    let vs := x.1.vals.map fun d => some (denote ps x.2 d.text)
    match s k with
    | none => some ⟨x.2, vs.length, vs⟩
    | some v => some { v with cells := vs ++ v.cells.drop vs.length }
  else s k

/-- The record has the declared type and not more values than the declaration has room for. -/
def Fits {F} (s : Store F) (x : Rec × Nat) : Prop :=
  ∀ v, s x.1.key.text = some v → v.type = x.2 ∧ x.1.vals.length ≤ v.cells.length

def FitsAll {F} (ps : Parse F) : Store F → List (Rec × Nat) → Prop
  | _, [] => True
  | s, x :: xs => Fits s x ∧ FitsAll ps (assign ps s x) xs

/-- A whole control file: a title line, records, and free lines at the end. -/
structure File where
  title : Datum
  recs : List (Rec × Nat)
  tail : List Datum

def File.render (f : File) : List Char :=
  f.title.render ++ f.recs.flatMap (fun x => x.1.render) ++ f.tail.flatMap Datum.render

structure File.Ok (f : File) : Prop where
  title : f.title.Ok 256 ∧ ¬ IsHeader f.title.text
  recs : ∀ x ∈ f.recs, x.1.Ok x.2
  tail : ∀ d ∈ f.tail, d.Ok 256 ∧ ¬ IsHeader d.text

/-- Types in the data base are the four known codes (true of every declaration). -/
def Typed {F} (db : Db F) : Prop := ∀ c ∈ db, c.type = 1 ∨ c.type = 2 ∨ c.type = 3 ∨ c.type = 4

end Verif.Control
