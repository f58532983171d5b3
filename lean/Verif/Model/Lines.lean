import Verif.Model.CText
/-
Reading of input lines (phreeqcpp/common/PHRQ_io.cpp, phreeqcpp/common/Parser.cxx and Parser.h).

A stream is the text still to be read.  Bytes above 127 (where `isspace` of a negative `char` is
undefined) and read errors of the stream are not modelled.
-/
namespace Verif.Lines
open CText (isSpace)

/-- The characters of a stream (`m_line`, `m_line_save`: PHRQ_io.cpp:733, 839). -/
abbrev Text := List Char

/-- PHRQ_io.cpp:413-426 (`getc`): carriage return + line feed read as one line feed; `none` is `EOF`. -/
def getc : Text → Option (Char × Text)
  | [] => none
  | c :: r =>
    match r with
    | d :: r' => if c = '\r' ∧ d = '\n' then some ('\n', r') else some (c, d :: r')
    | [] => some (c, [])

/-- All characters `getc` delivers one after the other (see `decode_getc`).  The functions below take
the stream in this form.  PHRQ_io.cpp:413-426. -/
def decode : Text → Text
  | [] => []
  | [c] => [c]
  | c :: d :: r => if c = '\r' ∧ d = '\n' then '\n' :: decode r else c :: decode (d :: r)

/-- PHRQ_io.cpp:845-855: the comment loop after `#`: the line, whether a newline ended it, the rest. -/
def comment : Text → Text → Text × Bool × Text
  | acc, [] => (acc, false, [])
  | acc, c :: r => if c = '\n' then (acc, true, r) else comment (acc ++ [c]) r

/-- PHRQ_io.cpp:865-885: the loop after a backslash; `pos` is the position of the last backslash. -/
def cont : Text → Nat → Text → Text × Text
  | acc, _, [] => (acc, [])
  | acc, pos, c :: r =>
    if c = '\\' then cont (acc ++ [c]) acc.length r
    else if c = '\n' then (acc.take pos, r)
    else if isSpace c = false then (acc ++ [c], r)
    else cont (acc ++ [c]) pos r

theorem cont_length (r : Text) : ∀ acc pos, (cont acc pos r).2.length ≤ r.length := by
  induction r with
  | nil => intro acc pos; simp [cont]
  | cons c r ih =>
    intro acc pos
    unfold cont
    split
    · have := ih (acc ++ [c]) acc.length; simp only [List.length_cons]; omega
    · split
      · simp
      · split
        · simp
        · have := ih (acc ++ [c]) pos; simp only [List.length_cons]; omega

/-- PHRQ_io.cpp:857-891 after a comment that was ended by the end of the file: `c` is still the last
character of the comment; it is appended once more unless it is a semicolon. -/
def commentEof (a : Text) : Text := if a.getLast? = some ';' then a else a ++ a.getLast?.toList

/-- PHRQ_io.cpp:840-891: the loop of `get_logical_line`.  Result: the line and the rest of the stream;
`none` if the loop was left with `j == EOF`. -/
def logLoop (acc : Text) (s : Text) : Text × Option Text :=
  match s with
  | [] => (acc, none)
  | c :: r =>
    if c = '#' then
      if (comment (acc ++ ['#']) r).2.1 then ((comment (acc ++ ['#']) r).1, some (comment (acc ++ ['#']) r).2.2)
      else (commentEof (comment (acc ++ ['#']) r).1, none)
    else if c = ';' then (acc, some r)
    else if c = '\n' then (acc, some r)
    else if c = '\\' then logLoop (cont (acc ++ [c]) acc.length r).1 (cont (acc ++ [c]) acc.length r).2
    else logLoop (acc ++ [c]) r
termination_by s.length
decreasing_by
  · have := cont_length r (acc ++ [c]) acc.length; simp only [List.length_cons]; omega
  · simp

/-- PHRQ_io.cpp:832-897 (`get_logical_line`): `none` is `LT_EOF`, otherwise `m_line_save` and the rest. -/
def logicalLine (s : Text) : Option (Text × Text) :=
  match logLoop [] s with
  | (l, some r) => some (l, r)
  | (l, none) => if l = [] then none else some (l, [])

/-- Parser.cxx:587-607 (`copy_token` with iterators): the first word and what follows it. -/
def copyToken (s : Text) : Text × Text :=
  ((s.dropWhile isSpace).takeWhile (fun c => !isSpace c), (s.dropWhile isSpace).dropWhile (fun c => !isSpace c))

/-- Parser.h:287-308 (`trim`). -/
def trim (s : Text) : Text := (((s.reverse.dropWhile isSpace).reverse).dropWhile isSpace)

/-- `isalpha` in the C locale.  Called at PHRQ_io.cpp:771. -/
def isAlpha (c : Char) : Bool := ('a' ≤ c && c ≤ 'z') || ('A' ≤ c && c ≤ 'Z')

/-- `LT_KEYWORD`, `LT_OPTION`, `LT_OK` as returned by `get_line`, PHRQ_io.cpp:693-699, 758-776. -/
inductive Kind
  | keyword
  | option
  | ok
  deriving DecidableEq, Repr

/-- PHRQ_io.cpp:758-776 and 899-913 (`check_key`); `keys` is the keyword table of Keywords.cpp. -/
def classify (keys : Text → Bool) (l : Text) : Kind :=
  if keys ((copyToken l).1.map Char.toLower) then .keyword
  else
    match (copyToken l).1 with
    | '-' :: c :: _ => if isAlpha c then .option else .ok
    | _ => .ok

/-- PHRQ_io.cpp:778-790: the name of the file of an include line. -/
def includeName (l : Text) : Option Text :=
  if "include$".toList.isPrefixOf ((copyToken l).1.map Char.toLower) ∨
      "include_file".toList.isPrefixOf ((copyToken l).1.map Char.toLower) then
    if trim (copyToken l).2 = [] then none else some (trim (copyToken l).2)
  else none

/-- What one turn of the loops of `get_line` does.  PHRQ_io.cpp:705-821. -/
inductive Event
  | silent
  | line (k : Kind) (l : Text)
  | eof
  | stopped
  deriving DecidableEq, Repr

/-- PHRQ_io.cpp:682-822 (`get_line`): one turn of the inner `while` loop together with what follows it.
The stack holds the streams (first one on top); `fs` are the files that can be opened.  The copy of the
input in `accumulated` is not modelled. -/
def step (keys : Text → Bool) (fs : Text → Option Text) : List Text → Event × List Text
  | [] => (.eof, [])
  | s :: st =>
    match logicalLine s with
    | none => (.silent, st)
    | some (save, r) =>
      if (save.takeWhile (· != '#')).all isSpace then (.silent, r :: st)
      else
        match includeName (save.takeWhile (· != '#')) with
        | some f =>
          match fs f with
          | none => (.stopped, r :: st)
          | some t => (.silent, decode t :: r :: st)
        | none => (.line (classify keys (save.takeWhile (· != '#'))) (save.takeWhile (· != '#')), r :: st)

/-- Calling `get_line` again and again until the end of input or a stop: the lines delivered and whether
it stopped on a missing file; `none` if `n` turns are not enough.  PHRQ_io.cpp:682-822. -/
def run (keys : Text → Bool) (fs : Text → Option Text) : Nat → List Text → Option (List (Kind × Text) × Bool)
  | 0, _ => none
  | n + 1, st =>
    match step keys fs st with
    | (.eof, _) => some ([], false)
    | (.stopped, _) => some ([], true)
    | (.silent, st') => run keys fs n st'
    | (.line k l, st') => (run keys fs n st').map fun p => ((k, l) :: p.1, p.2)

/-- Reading the text `s` (`push_istream` and repeated `get_line`).  PHRQ_io.cpp:655-661, 682-822. -/
def read (keys : Text → Bool) (fs : Text → Option Text) (n : Nat) (s : Text) : Option (List (Kind × Text) × Bool) :=
  run keys fs n [decode s]

end Verif.Lines
