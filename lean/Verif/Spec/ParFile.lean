import Verif.Model.ParFile
import Verif.Spec.CText
/-
What a well-formed parameter file looks like and what it assigns.  Independent of the reader.
-/
namespace Verif.ParFile
open Verif.CText

/-- A text made of lines. -/
def unlines (ls : List (List Char)) : List Char := ls.flatMap fun l => l ++ ['\n']

/-- A line that fits the line buffer of the reader. -/
def Fits (l : List Char) : Prop := '\n' ∉ l ∧ l.length ≤ 254

/-- A line that starts a block. -/
def IsHeader (l : List Char) : Prop := ['#', '#', '#', '#'] <+: l

/-- A value, or `n*value`. -/
structure Item where
  rep : Option Nat
  text : List Char

def Item.count (x : Item) : Nat := x.rep.getD 1

def Item.render (x : Item) : List Char :=
  match x.rep with
  | none => x.text
  | some n => decimal n ++ '*' :: x.text

def Item.Ok (x : Item) : Prop :=
  x.text ≠ [] ∧ ' ' ∉ x.text ∧ '\n' ∉ x.text ∧ (x.rep = none → '*' ∉ x.text)

/-- A line of values separated by blanks (`more`: one blank more than the number), with blanks before
the first but not after the last. -/
structure VLine where
  lead : Nat
  first : Item
  more : List (Nat × Item)

def VLine.items (l : VLine) : List Item := l.first :: l.more.map (·.2)

def VLine.render (l : VLine) : List Char :=
  List.replicate l.lead ' ' ++ (l.first.render ++ l.more.flatMap fun x => List.replicate (x.1 + 1) ' ' ++ x.2.render)

/-- A line of the section of values: values, or a description of the last value. -/
inductive SecLine
  | vals (l : VLine)
  | note (s : List Char)

def SecLine.render : SecLine → List Char
  | .vals l => l.render
  | .note s => '@' :: s

def SecLine.items : SecLine → List Item
  | .vals l => l.items
  | .note _ => []

def SecLine.Ok (x : SecLine) : Prop :=
  Fits x.render ∧
    match x with
    | .vals l => (∀ i ∈ l.items, i.Ok) ∧ ¬ IsHeader l.render ∧ ¬ ['@'] <+: l.render
    | .note _ => True

/-- The values of lines, repeats expanded. -/
def expand {V} (conv : List Char → V) (ls : List SecLine) : List V :=
  (ls.flatMap SecLine.items).flatMap fun x => List.replicate x.count (conv x.text)

/-- Number of values of lines. -/
def total (ls : List SecLine) : Nat := ((ls.flatMap SecLine.items).map Item.count).sum

/-- No description comes before the first value. -/
def NotesAfter (ls : List SecLine) : Prop :=
  ∀ a s b, ls = a ++ SecLine.note s :: b → 0 < total a

/-- A block of the file: header line, name (with width and format), number and names of the dimensions,
size, type, values.  The texts `hd`, `rest`, `p1`, `p2`, `p3` are the ends of the lines. -/
structure Block where
  hd : List Char
  name : List Char
  rest : List Char
  p1 : List Char
  dims : List (List Char)
  p2 : List Char
  size : Nat
  p3 : List Char
  type : Ty
  sec : List SecLine

def Block.body (b : Block) : List (List Char) :=
  (b.name ++ b.rest) :: (decimal b.dims.length ++ b.p1) :: b.dims ++
    [decimal b.size ++ b.p2, decimal b.type.code ++ b.p3] ++ b.sec.map SecLine.render

/-- The text does not continue a number. -/
def Tail (s : List Char) : Prop := ∀ c, s.head? = some c → isDigit c = false

structure Block.Ok (b : Block) : Prop where
  hd : Fits ("####".toList ++ b.hd)
  lines : ∀ l ∈ b.body, Fits l
  name : b.name ≠ [] ∧ ' ' ∉ b.name ∧ '\n' ∉ b.name ∧ b.name.length < 50
  rest : ∀ c, b.rest.head? = some c → c = ' '
  p1 : Tail b.p1
  p2 : Tail b.p2
  p3 : Tail b.p3
  dims : b.dims ≠ [] ∧ ∀ d ∈ b.dims, d.length ≤ 48
  size : b.size ≠ 0
  sec : ∀ l ∈ b.sec, l.Ok
  notes : NotesAfter b.sec

/-- The block describes the declared parameter. -/
def Block.For {V} (b : Block) (p : Par V) : Prop := p.dims = b.dims ∧ p.size = b.size ∧ p.type = b.type

/-- An entry of the file: a parameter, or one that is not declared (`body`: any lines). -/
inductive Entry
  | listed (b : Block)
  | unknown (hd name rest : List Char) (body : List (List Char))

def Entry.hd : Entry → List Char
  | .listed b => "####".toList ++ b.hd
  | .unknown hd _ _ _ => "####".toList ++ hd

def Entry.body : Entry → List (List Char)
  | .listed b => b.body
  | .unknown _ name rest body => (name ++ rest) :: body

def Entry.lines (e : Entry) : List (List Char) := e.hd :: e.body

/-- The entry can be read with the table `db`: the parameter is declared that way and the number of
values is its size; or it is not declared. -/
def Entry.Good {V} (db : Db V) : Entry → Prop
  | .listed b => b.Ok ∧ (∃ p, find db b.name = some p ∧ b.For p) ∧ total b.sec = b.size
  | .unknown hd name rest body =>
    Fits ("####".toList ++ hd) ∧ Fits (name ++ rest) ∧ (∀ l ∈ body, Fits l ∧ ¬ IsHeader l) ∧
    (name ≠ [] ∧ ' ' ∉ name ∧ '\n' ∉ name ∧ name.length < 50) ∧ ¬ IsHeader name ∧
    (∀ c, rest.head? = some c → c = ' ') ∧ find db name = none

/-- The last entry of a file must be a declared parameter. -/
def EndsListed (es : List Entry) : Prop :=
  ∀ hd name rest body, es.getLast? ≠ some (.unknown hd name rest body)

/-- Values by name of parameter. -/
def look {V} (db : Db V) (n : List Char) : Option (List V) := (find db n).map (·.vals)

/-- What an entry assigns. -/
def assign {V} (conv : Ty → List Char → V) (f : List Char → Option (List V)) (e : Entry) :
    List Char → Option (List V) :=
  match e with
  | .listed b => fun n => if n = b.name then some (expand (conv b.type) b.sec) else f n
  | .unknown .. => f

/-- The declarations in a table. -/
def decls {V} (db : Db V) : List (List Char × List (List Char) × Nat × Ty) :=
  db.map fun p => (p.name, p.dims, p.size, p.type)

/-- Every parameter has storage for its size. -/
def Stored {V} (db : Db V) : Prop := ∀ p ∈ db, p.vals.length = p.size ∧ p.desc.length = p.size

/-- A parameter file: lines before the label of the parameters, the label line, entries. -/
structure File where
  before : List (List Char)
  label : List Char
  entries : List Entry

def File.render (f : File) : List Char :=
  unlines (f.before ++ ("** Parameters **".toList ++ f.label) :: f.entries.flatMap Entry.lines)

structure File.Good {V} (db : Db V) (f : File) : Prop where
  before : ∀ l ∈ f.before, Fits l ∧ ¬ "** Parameters **".toList <+: l
  label : Fits ("** Parameters **".toList ++ f.label)
  entries : ∀ e ∈ f.entries, e.Good db
  last : EndsListed f.entries

/-- The conversions ignore a newline after the number. -/
def NewlineOk {V} (conv : Ty → List Char → V) : Prop := ∀ t s, conv t (s ++ ['\n']) = conv t s

/-! ## Dimensions -/

/-- A block of the part with the dimensions: header line, name, size, and the names of the indices, each
with a note or without. -/
structure DimBlock where
  hd : List Char
  name : List Char
  size : Nat
  pad : List Char
  idx : List (List Char × Option (List Char))

def idxLines (x : List Char × Option (List Char)) : List (List Char) :=
  x.1 :: match x.2 with
    | none => []
    | some s => ['@' :: s]

def DimBlock.lines (b : DimBlock) : List (List Char) :=
  ("####".toList ++ b.hd) :: b.name :: (decimal b.size ++ b.pad) :: b.idx.flatMap idxLines

/-- Well formed: as many names as the size, or none; a dimension that is not declared has none. -/
structure DimBlock.Ok (ds : List Dimen) (b : DimBlock) : Prop where
  lines : ∀ l ∈ b.lines, Fits l
  name : b.name.length ≤ 48
  pad : Tail b.pad
  count : b.idx = [] ∨ b.idx.length = b.size
  idx : ∀ x ∈ b.idx, ¬ ['@'] <+: x.1 ∧ ¬ IsHeader x.1 ∧ ¬ "** Parameters **".toList <+: x.1
  declared : findDim ds b.name = none → b.idx = []

/-- Size, index names and notes by name of dimension. -/
def dimOf (ds : List Dimen) (n : List Char) : Option (Int × Option (List (Option (List Char))) × Option (List (Option (List Char)))) :=
  (findDim ds n).map fun d => (d.value, d.names, d.notes)

/-- What a block assigns: nothing when the dimension is not declared. -/
def dassign (f : List Char → Option (Int × Option (List (Option (List Char))) × Option (List (Option (List Char)))))
    (b : DimBlock) : List Char → Option (Int × Option (List (Option (List Char))) × Option (List (Option (List Char)))) :=
  fun n =>
    if n = b.name ∧ f n ≠ none then
      if b.idx = [] then some (b.size, none, none)
      else some (b.size, some (b.idx.map fun x => some x.1), some (b.idx.map fun x => x.2))
    else f n

/-- The part of a parameter file read for the dimensions: two lines, comments, the label, blocks, the label
of the parameters; `rest` is not looked at. -/
structure DimFile where
  info : List Char
  version : List Char
  comments : List (List Char)
  label : List Char
  blocks : List DimBlock
  plabel : List Char
  rest : List (List Char)

def DimFile.lines (f : DimFile) : List (List Char) :=
  f.info :: f.version :: (f.comments ++ ("** Dimensions **".toList ++ f.label) :: (f.blocks.flatMap DimBlock.lines ++
    ("** Parameters **".toList ++ f.plabel) :: f.rest))

structure DimFile.Ok (ds : List Dimen) (f : DimFile) : Prop where
  info : '\n' ∉ f.info ∧ f.info.length ≤ 78
  version : '\n' ∉ f.version ∧ f.version.length ≤ 78
  comments : ∀ l ∈ f.comments, '\n' ∉ l ∧ l.length ≤ 78 ∧ ¬ "** Dimensions **".toList <+: l
  number : f.comments.length ≤ 1000
  label : '\n' ∉ f.label ∧ f.label.length ≤ 62
  blocks : ∀ b ∈ f.blocks, b.Ok ds
  once : (f.blocks.map DimBlock.name).Nodup
  plabel : Fits ("** Parameters **".toList ++ f.plabel)

/-! ## Saved files -/

/-- The text of a saved value: a number without blanks, repeat mark or marks of other lines. -/
def SavedText (t : List Char) : Prop :=
  t ≠ [] ∧ ' ' ∉ t ∧ '\n' ∉ t ∧ '*' ∉ t ∧ ¬ ['@'] <+: t ∧ ¬ IsHeader t ∧ t.length ≤ 253

/-- A parameter that can be written line by line: its name and dimensions fit the reader's buffers. -/
structure Savable {V} (show_ : Ty → V → List Char) (p : Par V) : Prop where
  name : p.name ≠ [] ∧ ' ' ∉ p.name ∧ '\n' ∉ p.name ∧ p.name.length < 50
  width : ∀ f, p.format = some f → '\n' ∉ f
  line : (p.name ++ ' ' :: intText p.width ++ (match p.format with | some f => ' ' :: f | none => [])).length ≤ 254
  dims : p.dims ≠ [] ∧ ∀ d ∈ p.dims, '\n' ∉ d ∧ d.length ≤ 48
  size : 1 ≤ p.size ∧ p.vals.length = p.size
  small : (decimal p.dims.length).length ≤ 253 ∧ (decimal p.size).length ≤ 253
  vals : ∀ v ∈ p.vals, SavedText (show_ p.type v)
  desc : ∀ d ∈ p.desc, d = none

/-- The same file without the blanks at the ends of the lines with values: one value on each line. -/
def plainBlock {V} (show_ : Ty → V → List Char) (p : Par V) : Block where
  hd := []
  name := p.name
  rest := ' ' :: intText p.width ++ (match p.format with | some f => ' ' :: f | none => [])
  p1 := [' ']
  dims := p.dims
  p2 := [' ']
  size := p.size
  p3 := [' ']
  type := p.type
  sec := p.vals.map fun v => .vals ⟨0, ⟨none, show_ p.type v⟩, []⟩

end Verif.ParFile
