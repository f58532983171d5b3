import Verif.Model.DataLine
import Verif.Spec.CText
import Verif.Spec.Calendar
import Verif.Spec.TimeLoop
/-
Specification vocabulary for data files: decimal numbers, lines, headers.  Independent of the conversion functions of the model.
-/
namespace Verif.DataLine
open Verif.CText
open Verif.ParFile (Ty)

/-- White space inside a line. -/
def Blank (s : List Char) : Prop := ∀ c ∈ s, c = ' ' ∨ c = '\t' ∨ c = '\r'

/-- A decimal number as written: sign, digits, fraction, exponent (letter, sign, digits). -/
structure Dec where
  sign : List Char := []
  ip : List Char
  fp : Option (List Char) := none
  ex : Option (Char × List Char × List Char) := none
deriving Repr, DecidableEq

/-- A sign: none, `-` or `+`. -/
def IsSign (s : List Char) : Prop := s = [] ∨ s = ['-'] ∨ s = ['+']

instance (s : List Char) : Decidable (IsSign s) := by unfold IsSign; infer_instance

/-- The text of a number. -/
def Dec.text (d : Dec) : List Char :=
  d.sign ++ d.ip ++ (match d.fp with | none => [] | some f => '.' :: f) ++
    (match d.ex with | none => [] | some (c, s, e) => c :: s ++ e)

/-- Well-formed: only digits, at least one in the mantissa, at least one in an exponent. -/
def Dec.Ok (d : Dec) : Prop :=
  IsSign d.sign ∧ (∀ c ∈ d.ip, c ∈ digits) ∧ (∀ c ∈ d.fp.getD [], c ∈ digits) ∧ d.ip ++ d.fp.getD [] ≠ [] ∧
    (match d.ex with
      | none => True
      | some (c, s, e) => (c = 'e' ∨ c = 'E') ∧ IsSign s ∧ e ≠ [] ∧ ∀ c ∈ e, c ∈ digits)

instance (d : Dec) : Decidable d.Ok := by
  unfold Dec.Ok
  cases d.ex with
  | none => infer_instance
  | some x => obtain ⟨c, s, e⟩ := x; infer_instance

/-- A sign applied to a number. -/
def signed {α} [Neg α] (s : List Char) (x : α) : α := if s = ['-'] then -x else x

/-- The exponent. -/
def Dec.exponent (d : Dec) : Int :=
  match d.ex with
  | none => 0
  | some (_, s, e) => signed s (numeral e : Int)

/-- The number denoted: integral part plus fraction, times the power of ten. -/
def Dec.value (d : Dec) : Rat :=
  signed d.sign
    ((numeral d.ip + (numeral (d.fp.getD []) : Rat) / 10 ^ (d.fp.getD []).length) *
      (if 0 ≤ d.exponent then 10 ^ d.exponent.toNat else 1 / 10 ^ (-d.exponent).toNat))

/-- Written without fraction and exponent. -/
def Dec.IsInt (d : Dec) : Prop := d.fp = none ∧ d.ex = none

instance (d : Dec) : Decidable d.IsInt := by unfold Dec.IsInt; infer_instance

/-- The integer denoted by a number without fraction and exponent. -/
def Dec.int (d : Dec) : Int := signed d.sign (numeral d.ip : Int)

/-- Words of a line, each with the white space before it. -/
def wordsText : List (List Char × Dec) → List Char
  | [] => []
  | (s, d) :: r => s ++ d.text ++ wordsText r

/-- Words separated by white space. -/
def Separated (ws : List (List Char × Dec)) : Prop := ∀ w ∈ ws, w.1 ≠ [] ∧ Blank w.1

/-- The rest of a line after a word: nothing, or something that begins with white space. -/
def AfterWord (r : List Char) : Prop := r = [] ∨ ∃ c s, r = c :: s ∧ (c = ' ' ∨ c = '\t' ∨ c = '\r' ∨ c = '\n')

/-- A word is a proper value for a column of type `ty`. -/
def FitsType {V} (cv : Conv V) (ty : Ty) (d : Dec) : Prop :=
  d.Ok ∧ (match ty with
    | .long => d.IsInt ∧ -2 ^ 63 ≤ d.int ∧ d.int < 2 ^ 63
    | _ => cv.range d.value = false)

/-- The stored value a word stands for in a column of type `ty`. -/
def meaning {V} (cv : Conv V) (ty : Ty) (d : Dec) : V :=
  match ty with
  | .long => cv.long d.int
  | .float => cv.float d.value
  | .double => cv.double d.value

/-- The type of each single column. -/
def types (cols : List Col) : List Ty := cols.flatMap fun c => List.replicate c.count c.type

/-- Words and the types of their columns fit, one by one. -/
def Fit {V} (cv : Conv V) (tys : List Ty) (ds : List Dec) : Prop :=
  tys.length = ds.length ∧ ∀ p ∈ tys.zip ds, FitsType cv p.1 p.2

/-- A list cut into pieces of the given lengths. -/
def chunks {α} : List Nat → List α → List (List α)
  | [], _ => []
  | n :: ns, l => l.take n :: chunks ns (l.drop n)

/-- The buffers of the columns of a line with the words `ds`. -/
def buffers {V} (cv : Conv V) (cols : List Col) (ds : List Dec) : List (List V) :=
  chunks (cols.map fun c => c.count) (List.zipWith (meaning cv) (types cols) ds)

/-! ### Times -/

/-- The ranges of the fields of a time on a line (only these are checked). -/
def Stamp.InRange (t : Stamp) : Prop :=
  1800 ≤ t.year ∧ t.year ≤ 2100 ∧ 1 ≤ t.month ∧ t.month ≤ 12 ∧ 1 ≤ t.day ∧ t.day ≤ 31 ∧ 0 ≤ t.hour ∧ t.hour ≤ 24 ∧
    0 ≤ t.min ∧ t.min ≤ 59 ∧ 0 ≤ t.sec

instance (t : Stamp) : Decidable t.InRange := by unfold Stamp.InRange; infer_instance

/-- A time that exists: a date of the civil calendar and a time of day. -/
def Stamp.Valid (t : Stamp) : Prop :=
  Calendar.Valid ⟨t.year, t.month, t.day⟩ ∧ 0 ≤ t.hour ∧ t.hour ≤ 23 ∧ 0 ≤ t.min ∧ t.min ≤ 59 ∧ 0 ≤ t.sec ∧ t.sec ≤ 59

instance (t : Stamp) : Decidable t.Valid := by unfold Stamp.Valid; infer_instance

/-- Chronological order of times. -/
def Stamp.Before (a b : Stamp) : Prop :=
  Calendar.Before ⟨a.year, a.month, a.day⟩ ⟨b.year, b.month, b.day⟩ ∨
  (a.year = b.year ∧ a.month = b.month ∧ a.day = b.day ∧
    (a.hour < b.hour ∨ (a.hour = b.hour ∧ (a.min < b.min ∨ (a.min = b.min ∧ a.sec < b.sec)))))

/-- The time in days: the day number of the date (C01, C02) and the fraction of the day. -/
def Stamp.time (t : Stamp) : TimeLoop.Time :=
  ⟨(Calendar.julday ⟨t.year, t.month, t.day⟩).getD 0,
    (Calendar.julday ⟨t.year, t.month, t.day⟩).getD 0 + (3600 * t.hour + 60 * t.min + t.sec : Int) / 86400⟩

/-! ### Files -/

/-- A line of the header. -/
inductive HLine
  | comment (t : List Char)
  | blank
  /-- white space, name of the variable, white space, number of columns, further text -/
  | column (pre : List Char) (key : List Char) (sep : List Char) (n : Nat) (post : List Char)
deriving Repr, DecidableEq

/-- The text of a header line without the newline. -/
def HLine.text : HLine → List Char
  | .comment t => '/' :: '/' :: t
  | .blank => []
  | .column pre key sep n post => pre ++ key ++ sep ++ decimal n ++ post

/-- A well-formed header line: it fits the buffer; a column names a declared variable. -/
def HLine.Ok {V} (vars : List (Var V)) (h : HLine) : Prop :=
  '\n' ∉ h.text ∧ h.text.length + 2 ≤ 2048 ∧
    (match h with
      | .column pre key sep _ post =>
        (∀ c ∈ pre, c = ' ' ∨ c = '\t') ∧ (∃ v ∈ vars, v.key = key) ∧ key ≠ [] ∧ (∀ c ∈ key, c ≠ ' ' ∧ c ≠ '\t') ∧
        key.take 2 ≠ ['/', '/'] ∧ key.take 4 ≠ ['#', '#', '#', '#'] ∧ sep ≠ [] ∧ (∀ c ∈ sep, c = ' ' ∨ c = '\t') ∧
        (post = [] ∨ ∃ c r, post = c :: r ∧ (c = ' ' ∨ c = '\t' ∨ c = '\r'))
      | _ => True)

/-- The columns declared by a header. -/
def columns {V} (vars : List (Var V)) : List HLine → List Col
  | [] => []
  | .column _ key _ n _ :: r =>
    (vars.filter fun v => v.key = key).map (fun v => ⟨v.key, v.type, n⟩) ++ columns vars r
  | _ :: r => columns vars r

/-- A data record: the time (six numbers with the white space before each) and the values, white space at the end. -/
structure Rec where
  year : List Char × Dec
  month : List Char × Dec
  day : List Char × Dec
  hour : List Char × Dec
  min : List Char × Dec
  sec : List Char × Dec
  vals : List (List Char × Dec)
  tail : List Char
deriving Repr, DecidableEq

/-- The words of the time. -/
def Rec.head (r : Rec) : List (List Char × Dec) := [r.year, r.month, r.day, r.hour, r.min, r.sec]

/-- The text of a record. -/
def Rec.text (r : Rec) : List Char := wordsText r.head ++ wordsText r.vals ++ r.tail

/-- The time of a record. -/
def Rec.stamp (r : Rec) : Stamp :=
  ⟨r.year.2.int, r.month.2.int, r.day.2.int, r.hour.2.int, r.min.2.int, r.sec.2.int⟩

/-- A well-formed record for the given columns: numbers separated by white space, the time written in whole numbers and in
range, one proper value per column, no longer than the buffer. -/
def Rec.Ok {V} (cv : Conv V) (cols : List Col) (r : Rec) : Prop :=
  (∀ w ∈ r.head, w.2.Ok ∧ w.2.IsInt ∧ Blank w.1) ∧ (∀ w ∈ r.head.tail, w.1 ≠ []) ∧ r.stamp.InRange ∧ r.stamp.sec < 2 ^ 31 ∧
  Separated r.vals ∧ Fit cv (types cols) (r.vals.map (·.2)) ∧ Blank r.tail ∧ r.text.length + 2 ≤ 2048

/-- The text of a data file: information line, header, end of the header, records. -/
def fileText (info : List Char) (hs : List HLine) (mark : List Char) (rs : List Rec) : List Char :=
  info ++ '\n' :: (hs.flatMap fun h => h.text ++ ['\n']) ++ ('#' :: '#' :: '#' :: '#' :: mark) ++
    '\n' :: (rs.flatMap fun r => r.text ++ ['\n'])

end Verif.DataLine
