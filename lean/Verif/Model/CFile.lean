import Verif.Model.CText
/-
The C library stream functions used to read text files (`fgets`, `feof`).  These model the C
standard, not a file of /repo.  A file is its remaining text (no zero characters) and the
end-of-file indicator.
-/
namespace Verif.CFile

/-- An open input stream: unread text and end-of-file indicator.
Used for every `FILE *` of `read_control.c`, `read_params.c` and `read_vars.c`.  E.g. `read_control.c:107`. -/
structure Stream where
  rest : List Char
  eof : Bool
deriving Repr, DecidableEq

/-- A freshly opened file.  `fopen (…, "r")`: `read_control.c:107`, `read_params.c:200, 432`, `read_vars.c:106`. -/
def openText (s : List Char) : Stream := ⟨s, false⟩

/-- The characters read by `fgets` with room for `n` characters: up to and including the next
newline, at most `n`; and the text left.  Call sites: see `fgets`.  See `fgets`; e.g. `read_params.c:441`. -/
def fgetsTake : Nat → List Char → List Char × List Char
  | 0, s => ([], s)
  | _ + 1, [] => ([], [])
  | n + 1, c :: s => if c = '\n' then ([c], s) else (c :: (fgetsTake n s).1, (fgetsTake n s).2)

/-- `fgets (buf, num, stream)`: `none` at end of file, else the line and the stream.  The indicator
is set when the end of the file was met before the newline or the end of the buffer.
Call sites: `read_control.c:242`, `read_params.c:185-822`, `read_vars.c:87-390`. -/
def fgets (num : Nat) (st : Stream) : Option (List Char × Stream) :=
  match st.rest with
  | [] => none
  | _ =>
    let r := fgetsTake (num - 1) st.rest
    some (r.1, ⟨r.2, st.eof || (r.2.isEmpty && decide (r.1.length < num - 1) && r.1.getLast? != some '\n')⟩)

end Verif.CFile
