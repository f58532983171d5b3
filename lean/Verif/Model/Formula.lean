import Verif.Model.CText
import Verif.Model.DataLine
/-
Chemical formulas and equations of the PHREEQC engine: phreeqcpp/parse.cpp (parse_eq, check_eqn, get_charge, get_coef,
get_elt, get_elts_in_species, get_num, get_species), utilities.cpp (get_token, islegit, replace, squeeze_white, equal),
structures.cpp (elt_list_combine, trxn_sort, phase_rxn_to_trxn) and the callers in read.cpp and tidy.cpp.
All paths are relative to IPhreeqcMMS/IPhreeqc/src/phreeqcpp.

Simplifications: `double` is `Rat` (exact); characters are ASCII; `strtod` knows decimal numbers only (the texts passed to it
contain no letters) and never reports a range error (the texts have fewer than 256 characters); names are compared in full
(`strncmp (…, 256)` in the code); the table of species returns the name and charge it was given (`s_store`,
structures.cpp:1643-1700).
-/
namespace Verif.Formula
open Verif.CText
open Verif.DataLine (strtod)

/-- Outcome of a parsing function: `ERROR`, undefined behaviour, process terminated by a `throw` without exception, a reaction
outside the model, or the bound of a loop of the model used up (shown not to happen).  parse.cpp, utilities.cpp. -/
inductive Res (α : Type) where
  | ok (a : α)
  | err
  | ub
  | abort
  | other
  | fuel
deriving Repr, DecidableEq

/-- `if (f () == ERROR) return ERROR;`.  E.g. parse.cpp:75-78. -/
def Res.bind {α β} : Res α → (α → Res β) → Res β
  | .ok a, f => f a
  | .err, _ => .err
  | .ub, _ => .ub
  | .abort, _ => .abort
  | .other, _ => .other
  | .fuel, _ => .fuel

/-- `MAX_LENGTH`, global_structures.h:125. -/
def MAX_LENGTH : Nat := 256

/-- `isupper`, parse.cpp:598. -/
def isUpper (c : Char) : Bool := 'A' ≤ c && c ≤ 'Z'

/-- `islower`, parse.cpp:541, 550. -/
def isLower (c : Char) : Bool := 'a' ≤ c && c ≤ 'z'

/-- `isalpha`, parse.cpp:418, utilities.cpp:541. -/
def isAlpha (c : Char) : Bool := isUpper c || isLower c

/-! ### Elements of a formula -/

/-- Characters that continue the name of an element, parse.cpp:541, 550. -/
def isTail (c : Char) : Bool := isLower c || c = '_'

/-- The part of the name of an element between brackets; `none`: no closing bracket.  parse.cpp:519-540. -/
def bracket : List Char → Option (List Char × List Char)
  | [] => none
  | c :: u =>
    if c = ']' then some ([c], u)
    else
      match bracket u with
      | none => none
      | some (x, v) => some (c :: x, v)

/-- `get_elt`, parse.cpp:487-557, on a text that begins with `c`: name and rest.  A text that ends behind the opening bracket
is read past its end (the loop 519-540 looks for the end only behind the first character).  With a missing closing bracket the
code reports an error and goes on; here it stops.  `[]`: the loop 519 is not entered, the closing bracket stays. -/
def getElt (c : Char) (u : List Char) : Res (List Char × List Char) :=
  if c = '[' then
    match u with
    | [] => .ub
    | b :: v =>
      if b = ']' then .ok (c :: (b :: v).takeWhile isTail, (b :: v).dropWhile isTail)
      else
        match bracket (b :: v) with
        | none => .err
        | some (x, w) => .ok (c :: x ++ w.takeWhile isTail, w.dropWhile isTail)
  else .ok (c :: u.takeWhile isTail, u.dropWhile isTail)

/-- The characters of a number: digits and one decimal point.  parse.cpp:975-994. -/
def numSpan : Bool → List Char → List Char × List Char
  | _, [] => ([], [])
  | dot, c :: u =>
    if isDigit c then (c :: (numSpan dot u).1, (numSpan dot u).2)
    else if c = '.' ∧ dot = false then (c :: (numSpan true u).1, (numSpan true u).2)
    else ([], c :: u)

/-- `get_num`, parse.cpp:946-1007: the number and the rest; 1 if there is none. -/
def getNum (s : List Char) : Res (Rat × List Char) :=
  let t := numSpan false s
  if t.1 = [] then .ok (1, s)
  else if MAX_LENGTH ≤ t.1.length then .err
  else .ok ((strtod t.1).1, t.2)

/-- Entries of `elt_list`: element and coefficient.  structures.cpp:472-512, parse.cpp:605-616. -/
abbrev Elts := List (List Char × Rat)

/-- `elt_list[i].coef *= d`, parse.cpp:645-648, 668-671. -/
def scale (d : Rat) (l : Elts) : Elts := l.map fun e => (e.1, e.2 * d)

/-- `get_elts_in_species`, parse.cpp:559-693: the elements stored, the rest of the text and `paren_count` on return.
First argument: a bound on the number of steps; then `paren_count`, `coef` and the text. -/
def inSpecies : Nat → Int → Rat → List Char → Res (Elts × List Char × Int)
  | 0, _, _, _ => .fuel
  | n + 1, p, k, s =>
    match s with
    | [] => if p = 0 then .ok ([], [], p) else .err
    | c :: u =>
      if c = '+' ∨ c = '-' then (if p = 0 then .ok ([], c :: u, p) else .err)
      else if c = ')' then (if p - 1 < 0 then .err else .ok ([], u, p - 1))
      else if isUpper c ∨ (c = 'e' ∧ u.head? = some '-') ∨ c = '[' then
        (getElt c u).bind fun e => (getNum e.2).bind fun d => (inSpecies n p k d.2).bind fun t =>
          .ok ((e.1, d.1 * k) :: t.1, t.2)
      else if c = '(' then
        (inSpecies n (p + 1) k u).bind fun g => (getNum g.2.1).bind fun d => (inSpecies n g.2.2 k d.2).bind fun t =>
          .ok (scale d.1 g.1 ++ t.1, t.2)
      else if c = ':' then
        (getNum u).bind fun d => (inSpecies n p k d.2).bind fun g => (inSpecies n g.2.2 k g.2.1).bind fun t =>
          .ok (scale d.1 g.1 ++ t.1, t.2)
      else .err

/-- A call of `get_elts_in_species` with `paren_count = p`.  parse.cpp:144, 217. -/
def run (p : Int) (k : Rat) (s : List Char) : Res (Elts × List Char × Int) := inSpecies (s.length + 1) p k s

/-! ### Combination of equal elements -/

/-- `strcmp (a, b) <= 0`.  structures.cpp:514-523, 2174-2181. -/
def leb : List Char → List Char → Bool
  | [], _ => true
  | _ :: _, [] => false
  | a :: x, b :: y => if a = b then leb x y else decide (a.toNat < b.toNat)

/-- Sorting step.  `qsort`, structures.cpp:489, 2356. -/
def insert {α} (key : α → List Char) (a : α) : List α → List α
  | [] => [a]
  | b :: l => if leb (key a) (key b) then a :: b :: l else b :: insert key a l

/-- `qsort` by name.  structures.cpp:489-490, 2356-2360.  (The order of equal names is not determined by the code.) -/
def sortBy {α} (key : α → List Char) : List α → List α
  | [] => []
  | a :: l => insert key a (sortBy key l)

/-- The loop that adds up adjacent entries; the first argument is entry `j`.  structures.cpp:491-510. -/
def merge : List Char × Rat → Elts → Elts
  | e, [] => [e]
  | e, b :: l => if b.1 = e.1 then merge (e.1, e.2 + b.2) l else e :: merge b l

/-- `elt_list_combine`, structures.cpp:472-512. -/
def combine (l : Elts) : Elts :=
  match sortBy (·.1) l with
  | [] => []
  | e :: r => merge e r

/-! ### Species of an equation -/

/-- Characters at which a species begins behind coefficient or charge.  parse.cpp:418-419, 428-429, 439-440. -/
def startsName (c : Char) : Bool := isAlpha c || c = '(' || c = ')' || c = '[' || c = ']'

/-- Characters of a coefficient, parse.cpp:450, 452. -/
def isCoefChar (c : Char) : Bool := isDigit c || c = '+' || c = '-' || c = '.'

/-- `get_coef`, parse.cpp:385-485: coefficient and rest.  (At the end of the text the code looks at the character behind the
terminating zero, 427; without effect on the result.) -/
def getCoef (s : List Char) : Res (Rat × List Char) :=
  match s with
  | [] => .err
  | c :: u =>
    if startsName c then .ok (1, c :: u)
    else if c = '+' ∧ u.head?.any startsName then .ok (1, u)
    else if c = '-' ∧ u.head?.any startsName then .ok (-1, u)
    else if isCoefChar c then
      let t := (c :: u).takeWhile isCoefChar
      if MAX_LENGTH ≤ t.length then .err
      else if (strtod t).2 = [] then .ok ((strtod t).1, (c :: u).dropWhile isCoefChar)
      else .err
    else .err

/-- The characters of a species up to its charge, utilities.cpp:489-516 (first argument: inside brackets); `none`: no closing
bracket. -/
def tokenScan : Bool → List Char → Option (List Char × List Char)
  | false, [] => some ([], [])
  | true, [] => none
  | false, c :: u =>
    if c = '+' ∨ c = '-' ∨ c = '=' then some ([], c :: u)
    else (tokenScan (c = '[') u).map fun r => (c :: r.1, r.2)
  | true, c :: u => (tokenScan (c ≠ ']') u).map fun r => (c :: r.1, r.2)

/-- Characters at which the charge ends, utilities.cpp:541-545. -/
def endsCharge (c : Char) : Bool := startsName c || c = '='

/-- The text before the last sign and from it on; `none`: no sign.  utilities.cpp:561-568. -/
def lastSign : List Char → Option (List Char × List Char)
  | [] => none
  | c :: u =>
    match lastSign u with
    | some (x, y) => some (c :: x, y)
    | none => if c = '+' ∨ c = '-' then some ([], c :: u) else none

/-- Octal digits read by `strtol (…, 0)` behind a leading zero.  C library; parse.cpp:319. -/
def readOctal : Nat → List Char → Nat × List Char
  | acc, [] => (acc, [])
  | acc, c :: s => if isDigit c ∧ digitVal c < 8 then readOctal (acc * 8 + digitVal c) s else (acc, c :: s)

/-- `strtol (s, &ptr, 0)`: decimal, or octal with a leading zero (hexadecimal numbers contain letters, which a charge does
not).  C library; parse.cpp:319. -/
def strtol0 (s : List Char) : Int × List Char :=
  match (readSign s).2 with
  | [] => (0, s)
  | c :: u =>
    if isDigit c then
      let r := if c = '0' then readOctal 0 (c :: u) else readDigits 0 (c :: u)
      (if (readSign s).1 then - (r.1 : Int) else r.1, r.2)
    else (0, s)

/-- `long` saturates, then `int i = strtol (…)`.  parse.cpp:319. -/
def toInt (v : Int) : Int := Int.bmod (max (-2 ^ 63) (min v (2 ^ 63 - 1))) (2 ^ 32)

/-- Digits of a number.  `snprintf ("%-+d")`, parse.cpp:369. -/
def showNat : Nat → List Char
  | n => if _h : n < 10 then [Char.ofNat (48 + n)] else showNat (n / 10) ++ [Char.ofNat (48 + n % 10)]

/-- The text of the charge in its final form, parse.cpp:349-381; `c` is the sign that was written.
(`abs` of the least integer is undefined.) -/
def finishCharge (c : Char) (i : Int) : Res (List Char × Rat) :=
  if i = 0 then .ok ([], i)
  else if i.natAbs = 1 then .ok ([c], i)
  else if i = -2 ^ 31 then .ub
  else .ok ((if i < 0 then '-' else '+') :: showNat i.natAbs, i)

/-- `get_charge`, parse.cpp:262-383: final form of the text and the charge. -/
def getCharge (t : List Char) : Res (List Char × Rat) :=
  match t with
  | [] => .ok ([], 0)
  | c :: u =>
    if c ≠ '+' ∧ c ≠ '-' then .err
    else if u.all (· = c) then finishCharge c (if c = '-' then -((u.length + 1 : Nat) : Int) else (u.length + 1 : Nat))
    else
      let r := strtol0 (c :: u)
      match r.2 with
      | [] => finishCharge c (toInt r.1)
      | b :: f =>
        if b = '.' then
          if f.all (· = '0') then finishCharge c (toInt r.1) else .ok (c :: u, (strtod (c :: u)).1)
        else .err

/-- `get_token`, utilities.cpp:455-590: name with charge, charge, rest. -/
def getToken (s : List Char) : Res (List Char × Rat × List Char) :=
  match tokenScan false s with
  | none => .err
  | some (name, r) =>
    if name = [] then .err
    else
      match r with
      | [] => .ok (name, 0, [])
      | c :: u =>
        if c = '=' then .ok (name, 0, c :: u)
        else
          let t := (c :: u).takeWhile (fun c => !endsCharge c)
          let v := (c :: u).dropWhile (fun c => !endsCharge c)
          if MAX_LENGTH ≤ t.length then .err
          else
            match v with
            | [] => (getCharge t).bind fun z => .ok (name ++ z.1, z.2, [])
            | b :: w =>
              if b = '=' then (getCharge t).bind fun z => .ok (name ++ z.1, z.2, b :: w)
              else
                match lastSign t with
                | none => .ub
                | some (x, y) => (getCharge x).bind fun z => .ok (name ++ z.1, z.2, y ++ b :: w)

/-- `rxn_token_temp`: name, coefficient, charge.  global_structures.h:1037-1056. -/
structure Tok where
  name : List Char
  coef : Rat
  z : Rat
deriving Repr, DecidableEq

/-- `get_species`, parse.cpp:1009-1044. -/
def getSpecies (s : List Char) : Res (Tok × List Char) :=
  (getCoef s).bind fun k => (getToken k.2).bind fun t => .ok (⟨t.1, k.1, t.2.1⟩, t.2.2)

/-- The loop over the species left of the equal sign, parse.cpp:65-86 (first argument: a bound on the number of species):
species and the text behind the equal sign. -/
def lhs : Nat → List Char → Res (List Tok × List Char)
  | 0, _ => .fuel
  | n + 1, s =>
    match s with
    | [] => .err
    | c :: u =>
      if c = '=' then .ok ([], u)
      else (getSpecies (c :: u)).bind fun t => (lhs n t.2).bind fun r => .ok (t.1 :: r.1, r.2)

/-- The loop over the species right of the equal sign, parse.cpp:114-130. -/
def rhs : Nat → List Char → Res (List Tok)
  | 0, _ => .fuel
  | n + 1, s =>
    match s with
    | [] => .ok []
    | c :: u => (getSpecies (c :: u)).bind fun t => (rhs n t.2).bind fun r => .ok (t.1 :: r)

/-- `islegit`, utilities.cpp:617-635. -/
def isLegit (c : Char) : Bool := isAlpha c || isDigit c || c ∈ ['+', '-', '=', '(', ')', '.', ':', '_', '[', ']']

/-- `coef *= -1.0`, parse.cpp:83, 97, 127. -/
def Tok.neg (t : Tok) : Tok := { t with coef := -t.coef }

/-- `replace (pat, "", s)`, utilities.cpp:681-722: removes the first occurrence. -/
def removeFirst (pat : List Char) : List Char → List Char
  | [] => []
  | c :: u => if pat.isPrefixOf (c :: u) then (c :: u).drop pat.length else c :: removeFirst pat u

/-- `replace ("(s)", …) … replace ("(G)", …)`, parse.cpp:139-142. -/
def strip (s : List Char) : List Char :=
  removeFirst ['(', 'G', ')'] (removeFirst ['(', 'g', ')'] (removeFirst ['(', 'S', ')'] (removeFirst ['(', 's', ')'] s)))

/-- The species of an equation in the order of `trxn.token` before sorting.  parse.cpp:60-130. -/
def parseTokens (assoc : Bool) (eqn : List Char) : Res (List Tok) :=
  (lhs (eqn.length + 1) eqn).bind fun l =>
    if assoc then
      (getSpecies l.2).bind fun t => (rhs (t.2.length + 1) t.2).bind fun r =>
        .ok (match l.1 with
          | [] => t.1.neg :: r.map Tok.neg
          | a :: m => t.1.neg :: m ++ a :: r.map Tok.neg)
    else (rhs (l.2.length + 1) l.2).bind fun r => .ok (l.1.map Tok.neg ++ r)

/-- `parse_eq`, parse.cpp:14-169: the species (defined one first, the others by name) and the elements of the defined species.
No species at all: `trxn.token[0]` is left over from before or does not exist. -/
def parseEq (assoc : Bool) (text : List Char) : Res (List Tok × Elts) :=
  let eqn := text.filter fun c => !isSpace c
  if eqn.all isLegit then
    (parseTokens assoc eqn).bind fun l =>
      match l with
      | [] => .ub
      | t :: r =>
        if MAX_LENGTH ≤ t.name.length then .abort
        else (run 0 t.coef (strip t.name)).bind fun e =>
          .ok (t :: sortBy Tok.name r, (combine e.1).map fun x => (x.1, -x.2))
  else .err

/-! ### Check of an equation -/

/-- `TOL`, global_structures.h:139. -/
def TOL : Rat := 1 / 1000000000

/-- `equal (a, b, TOL)`, utilities.cpp:430-440. -/
def equal (a b : Rat) : Bool := decide (-TOL ≤ a - b ∧ a - b ≤ TOL)

/-- The loop over the species, parse.cpp:212-221: elements and `paren_count`. -/
def eltsOf : Int → List Tok → Res Elts
  | _, [] => .ok []
  | p, t :: l => (run p t.coef t.name).bind fun e => (eltsOf e.2.2 l).bind fun r => .ok (e.1 ++ r)

/-- `check_eqn`, parse.cpp:171-260: `false` is `ERROR` because of the balances (or the first coefficient). -/
def checkEqn (l : List Tok) : Res Bool :=
  match l with
  | [] => .ub
  | t :: r =>
    if equal t.coef (-1) then
      (eltsOf 0 (t :: r)).bind fun e =>
        .ok (equal ((t :: r).map fun t => t.coef * t.z).sum 0 && (combine e).all fun x => equal x.2 0 || x.1 = ['e'])
    else .ok false

/-- A species of SOLUTION_SPECIES: read.cpp:6012-6049 (`parse_eq`, species stored) and tidy.cpp:2282-2293 (`check_eqn`):
the elements of the species and whether the equation was accepted. -/
def defineSpecies (text : List Char) : Res (Elts × Bool) :=
  (parseEq true text).bind fun p => (checkEqn p.1).bind fun b => .ok (p.2, b)

/-- The name contains `pat`.  `strstr`, read.cpp:4157-4160. -/
def hasSub (pat : List Char) : List Char → Bool
  | [] => pat = []
  | c :: u => pat.isPrefixOf (c :: u) || hasSub pat u

/-- A solid or gas among the species of a reaction.  read.cpp:4157-4160. -/
def isMarked (s : List Char) : Bool :=
  hasSub ['(', 's', ')'] s || hasSub ['(', 'g', ')'] s || hasSub ['(', 'S', ')'] s || hasSub ['(', 'G', ')'] s

/-- The other species of the reaction of a phase, read.cpp:4162-4168 (`(aq)`, `(AQ)` removed, two forms of water replaced). -/
def cleanName (s : List Char) : List Char :=
  let s := removeFirst ['(', 'a', 'q', ')'] s
  let s := removeFirst ['(', 'A', 'Q', ')'] s
  let s := if hasSub "H2O(l)".toList s then replaceFirst "H2O(l)".toList "H2O".toList s else s
  if hasSub "(H2O(L)".toList s then replaceFirst "(H2O(L)".toList "H2O".toList s else s
where
  /-- `replace (pat, by, s)`, utilities.cpp:681-722. -/
  replaceFirst (pat by_ : List Char) : List Char → List Char
    | [] => []
    | c :: u => if pat.isPrefixOf (c :: u) then by_ ++ (c :: u).drop pat.length else c :: replaceFirst pat by_ u

/-- A phase of PHASES: read.cpp:4138-4180 (`parse_eq`; formula and species stored), `phase_rxn_to_trxn`
(structures.cpp:1964-1998) and tidy.cpp:1515-1532 (`check_eqn`).  Reactions that contain other solids or gases are rewritten
first (`replace_solids_gases`), which is not modelled.  A reaction without further species uses `trxn.token[1]` all the same
(read.cpp:4185); an error of `get_token` leaves the charge undetermined (structures.cpp:1980). -/
def definePhase (text : List Char) : Res (Elts × Bool) :=
  (parseEq false text).bind fun p =>
    match p.1 with
    | [] => .ub
    | t :: r =>
      if r = [] then .ub
      else if r.any fun u => isMarked u.name then .other
      else
        match getToken (strip t.name) with
        | .ok z =>
          (checkEqn (⟨strip t.name, t.coef, z.2.1⟩ :: r.map fun u => { u with name := cleanName u.name })).bind fun b =>
            .ok (p.2, b)
        | _ => .ub

end Verif.Formula
