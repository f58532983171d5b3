import Verif.Spec.StorageBinList
/-
Exchange of texts with Fortran (IPhreeqc/src/fwrap.cpp, IPhreeqc_interface_F.cpp,
IPhreeqc_interface.F90) and copying of many reservoirs at once (IPhreeqcMMS/src/phr_multicopy.f90).

A Fortran character variable is a list of characters of fixed length.  A C string is the list of its
characters before the terminating NUL.
-/
namespace Verif.FString
open Verif.CText

/-- A Fortran `CHARACTER` variable or the characters of a C string (fwrap.cpp:13-39). -/
abbrev Text := List Char

/-- `isgraph` in the C locale (C library; used in fwrap.cpp:20). -/
def isGraph (c : Char) : Bool := 33 ≤ c.toNat && c.toNat ≤ 126

/-- What C sees of memory holding `m` and a NUL behind it: the characters before the first NUL.
E.g. fwrap.cpp:13-27. -/
def cString (m : Text) : Text := m.takeWhile (· != '\x00')

/-- The loop fwrap.cpp:20 starting at `i = n - 1`; the result is `i + 1`. -/
def lastGraph (s : Text) : Nat → Nat
  | 0 => 0
  | n + 1 =>
    match s[n]? with
    | some c => if isGraph c then n + 1 else lastGraph s n
    | none => lastGraph s n

/-- fwrap.cpp:13-27 (`f2cstring`), also IPhreeqc_interface_F.cpp:14-28: the C string made of a Fortran
variable.  Simplification: `malloc` succeeds. -/
def f2c (s : Text) : Text := cString (s.take (lastGraph s s.length))

/-- fwrap.cpp:34-38: at most `n` characters of `src` and blanks up to `n`.  The characters written to
`dest[0..]`. -/
def padLoop : Nat → Text → Text
  | 0, _ => []
  | n + 1, [] => ' ' :: padLoop n []
  | n + 1, c :: s => c :: padLoop n s

/-- fwrap.cpp:29-39 (`padfstring`) on the memory `dest` of a Fortran variable that may be followed by
other memory: the first `len` characters are written.  `none`: a character is written behind `dest`. -/
def pad (dest : Text) (src : Text) (len : Nat) : Option Text :=
  if len ≤ dest.length then some (padLoop len src ++ dest.drop len) else none

/-- IPhreeqc_interface_F.cpp:30-42 (`padfstring` with an in/out length): also returns the length of the C
string.  `len` is an `int`; with a negative one nothing is written. -/
def padLen (dest : Text) (src : Text) (len : Int) : Option (Text × Int) :=
  (pad dest src len.toNat).map fun d => (d, (src.length : Int))

/-- Fortran `trim`: without the trailing blanks (used in IPhreeqc_interface.F90, e.g. line 37). -/
def trimF (s : Text) : Text := (s.reverse.dropWhile (· == ' ')).reverse

/-- IPhreeqc_interface.F90:37 and alike (`trim(line)//C_NULL_CHAR`): the C string given to the library. -/
def toC (s : Text) : Text := cString (trimF s)

/-- IPhreeqc_interface.F90:694-704: the string value and its length as returned by
`GetSelectedOutputValue` for a string, into a variable of length `var.length`. -/
def selString (var : Text) (value : Text) : Option (Text × Int) :=
  (padLen var value var.length).map fun r => (r.1, if r.2 < (var.length : Int) then r.2 else (var.length : Int))

/-! ### phr_multicopy -/

/-- Fortran edit descriptor `Iw`: right adjusted; asterisks if the field is too small.  `intText` is the
decimal text of an integer.  phr_multicopy.f90:33. -/
def editI (w : Nat) (n : Int) : Text :=
  if (Sbl.intText n).length ≤ w then List.replicate (w - (Sbl.intText n).length) ' ' ++ Sbl.intText n
  else List.replicate w '*'

/-- phr_multicopy.f90:20, 33: `WRITE (line,100) 'COPY ', keyword, src, target` with
`FORMAT(A,A,1X,2I10)` into `CHARACTER(80) line`.  `none`: longer than the record, a runtime error. -/
def copyLine (keyword : Text) (src target : Int) : Option Text :=
  let l := "COPY ".toList ++ keyword ++ ' ' :: (editI 10 src ++ editI 10 target)
  if l.length ≤ 80 then some (padLoop 80 l) else none

/-- The library as seen by phr_multicopy: `AccumulateLine` and `RunAccumulated` with their results.
phr_multicopy.f90:21, 26. -/
structure Engine (σ : Type) where
  accumulate : Text → σ → Int × σ
  run : σ → Int × σ

/-- phr_multicopy.f90:16-34: the loop over the pairs of numbers; `r` is the value of `phr_multicopy` so
far. -/
def copyLoop {σ} (e : Engine σ) (keyword : Text) : List (Int × Int) → Int → σ → Option (Int × σ)
  | [], r, s => some (r, s)
  | p :: ps, r, s =>
    if 0 ≤ p.1 ∧ 0 ≤ p.2 then
      match copyLine keyword p.1 p.2 with
      | none => none
      | some l =>
        if (e.accumulate (toC l) s).1 ≠ 0 then some (e.accumulate (toC l) s)
        else if (e.run (e.accumulate (toC l) s).2).1 ≠ 0 then some (e.run (e.accumulate (toC l) s).2)
        else copyLoop e keyword ps (e.run (e.accumulate (toC l) s).2).1 (e.run (e.accumulate (toC l) s).2).2
    else copyLoop e keyword ps r s

/-- phr_multicopy.f90:2-34. -/
def multicopy {σ} (e : Engine σ) (keyword : Text) (pairs : List (Int × Int)) (s : σ) : Option (Int × σ) :=
  copyLoop e keyword pairs 0 s

end Verif.FString
