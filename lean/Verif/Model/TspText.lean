import Verif.Model.TspDate
/-
Dates and times as texts in TSPROC: tsproc-trunk/tsproc-master/src/tsp_utilities.F90 (U), `char2time`, `char2date`, `a2i`, their use
at VOLUME_CALCULATION in tsp_time_series_processors.F90 (T), and the texts that LIST_OUTPUT writes in tsp_output.F90 (O).

Simplifications: a character is its code; a text is the list of its characters without the blanks Fortran adds at its end.
-/
namespace Verif.TspText

/-- The digits of a number without sign. -/
def digits (s : List Nat) : Option Nat :=
  if s ≠ [] ∧ ∀ c ∈ s, 48 ≤ c ∧ c ≤ 57 then some (s.foldl (fun n c => 10 * n + (c - 48)) 0) else none

/-- An integer of 32 bits; larger ones are errors of reading. -/
def fits (n : Nat) : Option Nat := if n ≤ 2147483647 then some n else none

/-- `a2i`, U:337-353: the edit descriptor `i` with the length of the text; blanks inside do not count. -/
def readInt (s : List Nat) : Option Int :=
  match s.filter (· != 32) with
  | [] => none
  | c :: r =>
    if c = 45 then ((digits r).bind fits).map fun n => -(n : Int)
    else if c = 43 then ((digits r).bind fits).map fun n => (n : Int)
    else ((digits (c :: r)).bind fits).map fun n => (n : Int)

/-- A text in a variable of 20 characters, without blanks around it, U:176-177 and U:255-256. -/
def text20 (s : List Nat) : List Nat := ((((s.dropWhile (· == 32)).take 20).reverse).dropWhile (· == 32)).reverse

/-- Separators in dates, U:252: `:` and `/`. -/
def dateSep (c : Nat) : Bool := c == 58 || c == 47

/-- Separators in times, U:174: `:` and `.`. -/
def timeSep (c : Nat) : Bool := c == 58 || c == 46

/-- The check of day, month and year, U:287-310. -/
def dateOk (dd mm yy : Int) : Bool :=
  !(dd ≤ 0 || dd > 31) && !(mm ≤ 0 || mm > 12) && !(dd = 31 && (mm = 2 || mm = 4 || mm = 6 || mm = 9 || mm = 11)) &&
    !(mm = 2 && dd = 30) && (Tsp.leap yy || !(mm = 2 && dd = 29))

/-- `char2date`, U:231-314: day, month and year; `spec` is `datespec`. -/
def char2date (spec : Nat) (s : List Nat) : Option (Int × Int × Int) :=
  let t := text20 s
  if t.length < 8 then none
  else
    let a := t.takeWhile (!dateSep ·)
    let r := (t.dropWhile (!dateSep ·)).tail
    if t.dropWhile (!dateSep ·) = [] then none
    else if a = [] then none
    else match readInt a with
      | none => none
      | some first =>
        if r.length < 6 then none
        else
          let b := r.takeWhile (!dateSep ·)
          let c := (r.dropWhile (!dateSep ·)).tail
          if r.dropWhile (!dateSep ·) = [] then none
          else if b = [] then none
          else match readInt b with
            | none => none
            | some second =>
              let dd := if spec ≠ 1 then second else first
              let mm := if spec ≠ 1 then first else second
              if c.length ≠ 4 then none
              else match readInt c with
                | none => none
                | some yy => if dateOk dd mm yy then some (dd, mm, yy) else none

/-- `char2time`, U:145-227: hours, minutes and seconds; `ig` when `24:00:00` is taken (`ignore_24`). -/
def char2time (ig : Bool) (s : List Nat) : Option (Int × Int × Int) :=
  let t := text20 s
  if t.length < 5 then none
  else
    let a := t.takeWhile (!timeSep ·)
    let r := (t.dropWhile (!timeSep ·)).tail
    if t.dropWhile (!timeSep ·) = [] then none
    else if a = [] then none
    else match readInt a with
      | none => none
      | some hh =>
        if hh < 0 ∨ hh > (if ig then 24 else 23) then none
        else if r.length < 3 then none
        else
          let b := r.takeWhile (!timeSep ·)
          let c := (r.dropWhile (!timeSep ·)).tail
          if r.dropWhile (!timeSep ·) = [] then none
          else if b = [] then none
          else match readInt b with
            | none => none
            | some mm =>
              if mm < 0 ∨ mm > 59 then none
              else if c.length < 1 then none
              else match readInt c with
                | none => none
                | some ss =>
                  if ss < 0 ∨ ss > 59 then none
                  else if ig ∧ hh = 24 ∧ (mm ≠ 0 ∨ ss ≠ 0) then none
                  else some (hh, mm, ss)

/-- An instant from a date and a time in a file of dates, T:5864-5876 and 5877-5889: days and seconds. -/
def instant (spec : Nat) (date time : List Nat) : Option (Int × Int) :=
  match char2date spec date with
  | none => none
  | some (d, m, y) =>
    match char2time true time with
    | none => none
    | some (hh, nn, ss) =>
      let days := Tsp.julianDay ⟨y, m, d⟩ 0
      let secs := Tsp.numsecs 0 0 0 hh nn ss
      some (if secs ≥ 86400 then (days + 1, secs - 86400) else (days, secs))

/-- A digit. -/
def digit (n : Nat) : Nat := 48 + n % 10

/-- The edit descriptor `i2.2`: two digits, or `**` for a number of more characters. -/
def i22 (n : Int) : List Nat := if 0 ≤ n ∧ n ≤ 99 then [digit (n.toNat / 10), digit n.toNat] else [42, 42]

/-- The edit descriptor `i4.4`. -/
def i44 (n : Int) : List Nat :=
  if 0 ≤ n ∧ n ≤ 9999 then [digit (n.toNat / 1000), digit (n.toNat / 100), digit (n.toNat / 10), digit n.toNat] else [42, 42, 42, 42]

/-- The date of a term in a list of series, O:2811-2823. -/
def writeDate (spec : Nat) (days : Int) : List Nat :=
  let g := Tsp.gregorianDate days 0
  if spec = 1 then i22 g.day ++ 47 :: i22 g.month ++ 47 :: i44 g.year else i22 g.month ++ 47 :: i22 g.day ++ 47 :: i44 g.year

/-- The time of a term in a list of series, O:2815-2817 and 2826-2832. -/
def writeTime (ss : Int) : List Nat :=
  let hhh := Int.tdiv ss 3600
  let mmm := Int.tdiv (ss - hhh * 3600) 60
  let sss := ss - hhh * 3600 - mmm * 60
  i22 hhh ++ 58 :: i22 mmm ++ 58 :: i22 sss

/-- Date and time on a line of a site sample file, `read_rest_of_sample_line`, U:1385-1400: there `24:00:00` is an error. -/
def sampleInstant (spec : Nat) (date time : List Nat) : Option (Int × Int) :=
  match char2date spec date with
  | none => none
  | some (d, m, y) =>
    match char2time false time with
    | none => none
    | some (hh, nn, ss) => some (Tsp.julianDay ⟨y, m, d⟩ 0, Tsp.numsecs 0 0 0 hh nn ss)

end Verif.TspText
