import Verif.Model.Lines
/-
What the logical lines of an input text are, said line by line instead of character by character.
-/
namespace Verif.Lines
open CText (isSpace splitBy)

/-- Line ends in the Unix form: every carriage return in front of a line feed removed. -/
def unix : Text → Text
  | [] => []
  | c :: r => if c = '\r' ∧ r.head? = some '\n' then unix r else c :: unix r

/-- The part of a line in front of a comment. -/
def code (l : Text) : Text := l.takeWhile (· != '#')

/-- The text in front of a backslash that is the last character (text given in reverse). -/
def beforeBackslash : Text → Option Text
  | [] => none
  | c :: t => if c = '\\' then some t.reverse else none

/-- A line is continued if it has no comment and its last visible character is a backslash; the result
is the text in front of that backslash. -/
def continued (l : Text) : Option Text :=
  if '#' ∈ l then none else beforeBackslash (l.reverse.dropWhile isSpace)

/-- Glue a text to the first of some texts. -/
def glue (t : Text) : List Text → List Text
  | [] => [t]
  | l :: ls => (t ++ l) :: ls

/-- Comments removed and continued lines joined with the following line; the last line has no line end
and is not continued. -/
def joined : List Text → List Text
  | [] => []
  | l :: ls =>
    if ls = [] then [code l]
    else
      match continued l with
      | some t => glue t (joined ls)
      | none => code l :: joined ls

/-- The logical lines of a text: lines, comments removed, continuations joined, cut at semicolons. -/
def logicalLines (s : Text) : List Text := (joined (splitBy (· == '\n') s)).flatMap (splitBy (· == ';'))

/-- The lines that are not blank. -/
def codeLines (s : Text) : List Text := (logicalLines s).filter fun l => !l.all isSpace

/-- In front of any comment, no backslash is followed (after white space) by `#` or `;`. -/
def CleanLine (l : Text) : Prop :=
  ∀ a b, l = a ++ '\\' :: b → '#' ∉ a → ∀ c ∈ (b.dropWhile isSpace).head?, c ≠ '#' ∧ c ≠ ';'

/-- All lines are clean. -/
def Clean (s : Text) : Prop := ∀ l ∈ splitBy (· == '\n') s, CleanLine l

/-- The lines of a text with the lines of included files in place, files nested up to `n` deep.  The flag
tells that a missing file stopped the reading.  `none`: nested deeper. -/
def expand (keys : Text → Bool) (fs : Text → Option Text) : Nat → List Text → Option (List (Kind × Text) × Bool)
  | _, [] => some ([], false)
  | n, l :: ls =>
    match includeName l with
    | none => (expand keys fs n ls).map fun p => ((classify keys l, l) :: p.1, p.2)
    | some f =>
      match fs f with
      | none => some ([], true)
      | some t =>
        match n with
        | 0 => none
        | n + 1 =>
          match expand keys fs n (codeLines (unix t)) with
          | none => none
          | some (ks, true) => some (ks, true)
          | some (ks, false) => (expand keys fs (n + 1) ls).map fun p => (ks ++ p.1, p.2)
termination_by n ls => (n, ls.length)

/-- A line made of white space, a first word and what follows the word. -/
def FirstWord (l w rest : Text) : Prop :=
  (∃ sp, (∀ c ∈ sp, isSpace c = true) ∧ l = sp ++ w ++ rest) ∧ w ≠ [] ∧ (∀ c ∈ w, isSpace c = false) ∧
    ∀ c ∈ rest.head?, isSpace c = true

/-- Words that ask for the inclusion of a file, in upper or lower case. -/
def IncludeWord (w : Text) : Prop :=
  (∃ t, w.map Char.toLower = "include$".toList ++ t) ∨ ∃ t, w.map Char.toLower = "include_file".toList ++ t

end Verif.Lines
