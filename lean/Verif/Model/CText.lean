/-
The C library text functions used by the modelled code, on zero-free strings (`List Char`).
These model the C standard, not a file of /repo; each definition names the call sites that use it.
-/
namespace Verif.CText

/-- `isspace` in the C locale (used inside `strtol`/`strtod`).  Call sites: see `strtol`.
E.g. `str_to_vals.c:107`. -/
def isSpace (c : Char) : Bool :=
  c = ' ' || c = '\t' || c = '\n' || c = Char.ofNat 11 || c = Char.ofNat 12 || c = '\r'

/-- `isdigit`.  Call sites: see `strtol`.  E.g. `str_to_vals.c:107`. -/
def isDigit (c : Char) : Bool := '0' ≤ c && c ≤ '9'

/-- Value of a decimal digit.  Call sites: see `strtol`.  E.g. `str_to_vals.c:107`. -/
def digitVal (c : Char) : Nat := c.toNat - 48

/-- The digit loop of `strtol`: accumulated value and remaining text.  Simplification: no overflow
(the C function saturates at `LONG_MAX`).  Call sites: see `strtol`.  E.g. `str_to_vals.c:107`. -/
def readDigits : Nat → List Char → Nat × List Char
  | acc, [] => (acc, [])
  | acc, c :: s => if isDigit c then readDigits (acc * 10 + digitVal c) s else (acc, c :: s)

/-- The optional sign read by `strtol`: negative or not, and the rest.  Call sites: see `strtol`.
E.g. `str_to_vals.c:107`. -/
def readSign : List Char → Bool × List Char
  | '-' :: u => (true, u)
  | '+' :: u => (false, u)
  | u => (false, u)

/-- The part of `strtol` after white space and sign; `s` is the original text.  Call sites: see `strtol`.
E.g. `str_to_vals.c:107`. -/
def strtolBody (s : List Char) (neg : Bool) (u : List Char) : Int × List Char :=
  match u with
  | [] => (0, s)
  | c :: _ =>
    if isDigit c then
      (if neg then - ((readDigits 0 u).1 : Int) else (readDigits 0 u).1, (readDigits 0 u).2)
    else (0, s)

/-- `strtol (s, &end, 10)`: value and the text at `end`.  When there is no digit the value is 0 and
`end = s`.  Call sites: `read_params.c:325`, `read_vars.c:131, 210, 314`, `str_to_vals.c:107, 133`. -/
def strtol (s : List Char) : Int × List Char :=
  strtolBody s (readSign (s.dropWhile isSpace)).1 (readSign (s.dropWhile isSpace)).2

/-- `atoi`/`atol`.  Call sites: `read_control.c:157, 169, 206`, `mmf.c:108`, `read_params.c:490-822`. -/
def atoi (s : List Char) : Int := (strtol s).1

/-- Cut a string at every character satisfying `p` (repeated `strchr`); empty pieces are kept.
Call sites: see `strtok`.  E.g. `get_elem_add.c:119-160`. -/
def splitBy (p : Char → Bool) : List Char → List (List Char)
  | [] => [[]]
  | c :: s =>
    if p c then [] :: splitBy p s
    else
      match splitBy p s with
      | [] => [[c]]
      | t :: ts => (c :: t) :: ts

/-- The sequence of tokens delivered by repeated `strtok`: the non-empty pieces.
Call sites: `mmf.c:96, 114`, `str_to_vals.c:89, 179`, `declparam.c:395-419`, `declvar.c:238-270`, `read_params.c:517-792`. -/
def strtok (p : Char → Bool) (s : List Char) : List (List Char) :=
  (splitBy p s).filter fun t => !t.isEmpty

/-- `strrchr`: the text before and after the last occurrence of `c`.  Call site: `str_to_vals.c:96`. -/
def splitLast (c : Char) : List Char → Option (List Char × List Char)
  | [] => none
  | a :: s =>
    match splitLast c s with
    | some (x, y) => some (a :: x, y)
    | none => if a = c then some ([], s) else none

end Verif.CText
