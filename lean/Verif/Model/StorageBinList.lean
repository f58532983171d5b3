import Verif.Model.CText
/-
Number lists of DELETE (also used by DUMP) and COPY requests, and what they do to the stored entities:
phreeqcpp/StorageBinList.cpp, ReadClass.cxx (delete_entities), read.cpp (read_copy), mainsubs.cpp
(copy_entities), common/Parser.cxx (get_option, copy_token).

`std::set<int>` is a list of which only membership and emptiness are used.  A stored map
`std::map<int, T>` is a function from user numbers.  `none` as a result is undefined behaviour or a loop
that never ends.
-/
namespace Verif.Sbl
open Verif.CText

/-- C++ strings, e.g. `StorageBinList.cpp:46`. -/
abbrev Text := List Char

/-- Largest C `int`.  Limit of the loop variable at StorageBinList.cpp:88. -/
def intMax : Int := 2147483647

/-- `stream >> i` for an `int` in an `std::istringstream`: value and remaining text, or failure (no
digits, or out of range).  C++ library.  Used at StorageBinList.cpp:61-73 and read.cpp:9983-9988. -/
def readInt (s : Text) : Option (Int × Text) :=
  let sg := readSign (s.dropWhile isSpace)
  match sg.2 with
  | [] => none
  | c :: _ =>
    if isDigit c then
      let r := readDigits 0 sg.2
      let v : Int := if sg.1 then - ((r.1 : Nat) : Int) else ((r.1 : Nat) : Int)
      if -2147483648 ≤ v ∧ v ≤ intMax then some (v, r.2) else none
    else none

/-- StorageBinList.cpp:53-56: the first `--` becomes ` &`. -/
def fixDD : Text → Text
  | '-' :: '-' :: r => ' ' :: '&' :: r
  | c :: r => c :: fixDD r
  | [] => []

/-- StorageBinList.cpp:57-58: from the second character on, `-` becomes a blank, then `&` becomes `-`. -/
def fixTail : Text → Text
  | [] => []
  | c :: r => c :: (r.map fun d => if d = '-' then ' ' else d).map fun d => if d = '&' then '-' else d

/-- StorageBinList.h:10-26. -/
structure Item where
  numbers : List Int
  defined : Bool
deriving DecidableEq

/-- StorageBinList.cpp:13-16. -/
def Item.empty : Item := ⟨[], false⟩

/-- The numbers `i1, i1+1, ..., i2`.  The loop StorageBinList.cpp:88-91. -/
def upTo (i1 i2 : Int) : List Int := (List.range (i2 - i1 + 1).toNat).map fun (k : Nat) => i1 + (k : Int)

/-- StorageBinList.cpp:61-73: the one or two numbers in the token. -/
def tokenNumbers (t : Text) : List Int :=
  match readInt t with
  | none => []
  | some (i, r) =>
    match readInt r with
    | none => [i]
    | some (j, _) => [i, j]

/-- StorageBinList.cpp:46-93.  `temp_set` orders the two numbers and merges equal ones.  If the upper
one is `INT_MAX` the loop variable overflows. -/
def augment (it : Item) (token : Text) : Option Item :=
  match token with
  | [] => some { it with defined := true }
  | _ =>
    match tokenNumbers (fixTail (fixDD token)) with
    | [] => some { it with defined := true }
    | [i] => some ⟨i :: it.numbers, true⟩
    | i :: j :: _ =>
      if i = j then some ⟨i :: it.numbers, true⟩
      else if max i j = intMax then none
      else some ⟨upTo (min i j) (max i j) ++ it.numbers, true⟩

/-- StorageBinList.cpp:94-100. -/
def augmentInt (it : Item) (i : Int) : Item :=
  if it.defined = true ∧ it.numbers = [] then it else ⟨i :: it.numbers, true⟩

/-- The kinds of stored entities (StorageBinList.h:65-75). -/
inductive Kind where
  | solution | ppAssemblage | exchange | surface | ssAssemblage | gasPhase | kinetics | mix | reaction
  | temperature | pressure
deriving DecidableEq

/-- StorageBinList.h:65-77. -/
structure St where
  bins : Kind → Item
  cell : Item

/-- A new list, StorageBinList.cpp:104-108. -/
def St.init : St := ⟨fun _ => .empty, .empty⟩

/-- Assignment to one of the members StorageBinList.h:65-75. -/
def setBin (m : Kind → Item) (k : Kind) (it : Item) : Kind → Item := fun j => if j = k then it else m j

/-- StorageBinList.cpp:337-357. -/
def vopts : List Text :=
  ["solution", "pp_assemblage", "equilibrium_phases", "exchange", "surface", "ss_assemblage",
   "solid_solution", "solid_solutions", "gas_phase", "kinetics", "mix", "reaction", "temperature", "all",
   "cell", "cells", "reaction_temperature", "pressure", "reaction_pressure"].map String.toList

/-- common/Parser.cxx:628-656 (`find_option`): the first option that is equal to (`exact`) or starts
with the word in lower case. -/
def findOption (word : Text) (exact : Bool) : Option Nat :=
  vopts.findIdx? fun o => if exact then o == word.map Char.toLower else (word.map Char.toLower).isPrefixOf o

/-- What an option selects: StorageBinList.cpp:175-221 and 281. -/
inductive Target where
  | kind (k : Kind)
  | cell
  | all
deriving DecidableEq

/-- The options, StorageBinList.cpp:175-221 and 281. -/
def target (opt : Nat) : Option Target :=
  match opt with
  | 0 => some (.kind .solution)
  | 1 | 2 => some (.kind .ppAssemblage)
  | 3 => some (.kind .exchange)
  | 4 => some (.kind .surface)
  | 5 | 6 | 7 => some (.kind .ssAssemblage)
  | 8 => some (.kind .gasPhase)
  | 9 => some (.kind .kinetics)
  | 10 => some (.kind .mix)
  | 11 => some (.kind .reaction)
  | 12 | 16 => some (.kind .temperature)
  | 13 => some .all
  | 14 | 15 => some .cell
  | 17 | 18 => some (.kind .pressure)
  | _ => none

/-- A logical input line.  Keyword recognition is not modelled: a keyword line ends the request.
The line types of common/Parser.cxx:773-782. -/
inductive Line where
  | keyword
  | text (s : Text)

/-- `std::isalpha`.  Used at common/Parser.cxx:271. -/
def isAlpha (c : Char) : Bool := c.isAlpha

/-- common/Parser.cxx:258-277: is this an option line (`-word`)? -/
def isOption (token : Text) : Bool :=
  match token with
  | '-' :: c :: _ => isAlpha c
  | _ => false

/-- common/Parser.cxx:758-828 (`get_option`) on a line that is neither empty nor a keyword: the option
(`none`: OPT_ERROR, `some none`: OPT_DEFAULT) and the tokens that remain. -/
def getOption (s : Text) : Option (Option Nat) × List Text :=
  match strtok isSpace s with
  | [] => (some none, [])
  | w :: ws =>
    if isOption w then
      match findOption (w.drop 1) false with
      | some n => (some (some n), ws)
      | none => (none, ws)
    else
      match findOption w true with
      | some n => (some (some n), ws)
      | none => (some none, w :: ws)

/-- common/Parser.cxx:550-576: is the token of type TT_DIGIT? -/
def isNumberToken (t : Text) : Bool :=
  match t with
  | c :: _ => isDigit c || c == '.' || c == '-'
  | [] => false

/-- StorageBinList.cpp:226-253: the tokens of one line go to an item; a token that is not a number stops
the line with an error (and without marking the item as defined).  Result: item and number of errors. -/
def readTokens (it : Item) : List Text → Option (Item × Nat)
  | [] => (augment it []).map fun j => (j, 0)
  | t :: ts => if isNumberToken t then (augment it t).bind fun j => readTokens j ts else some (it, 1)

/-- StorageBinList.cpp:137-146. -/
def setAll (st : St) (tf : Bool) : St := { st with bins := fun _ => ⟨[], tf⟩ }

/-- One line for a known option (StorageBinList.cpp:224-294). -/
def applyLine (st : St) (tg : Target) (toks : List Text) : Option (St × Nat) :=
  match tg with
  | .all => some (setAll st true, 0)
  | .cell => (readTokens st.cell toks).map fun p => ({ st with cell := p.1 }, p.2)
  | .kind k => (readTokens (st.bins k) toks).map fun p => ({ st with bins := setBin st.bins k p.1 }, p.2)

/-- StorageBinList.cpp:160-307: the loop over the lines; `save` is `opt_save`.  Result: state and number
of errors (an unknown option, or data before any option, ends the request). -/
def readLines (st : St) (save : Option Target) : List Line → Option (St × Nat)
  | [] => some (st, 0)
  | .keyword :: _ => some (st, 0)
  | .text s :: ls =>
    if strtok isSpace s = [] then readLines st save ls
    else
      match getOption s with
      | (none, _) => some (st, 2)
      | (some none, toks) =>
        match save with
        | none => some (st, 2)
        | some tg => (applyLine st tg toks).bind fun p => (readLines p.1 save ls).map fun q => (q.1, p.2 + q.2)
      | (some (some n), toks) =>
        match target n with
        | none => some (st, 2)
        | some tg => (applyLine st tg toks).bind fun p => (readLines p.1 (some tg) ls).map fun q => (q.1, p.2 + q.2)

/-- StorageBinList.cpp:324-336. -/
def transferAll (st : St) (src : Item) : St :=
  { st with bins := fun k => src.numbers.foldl augmentInt (st.bins k) }

/-- StorageBinList.cpp:309-320. -/
def useCells (st : St) : St :=
  if st.cell.defined then
    if st.cell.numbers = [] then setAll st true else transferAll st st.cell
  else st

/-- StorageBinList.cpp:148-322 (`Read`). -/
def read (st : St) (ls : List Line) : Option (St × Nat) :=
  (readLines { st with cell := .empty } none ls).map fun p => (useCells p.1, p.2)

/-- The stored entities.  Phreeqc.h, the maps used at ReadClass.cxx:283-460. -/
abbrev Store (V : Type) := Kind → Int → Option V

/-- ReadClass.cxx:283-460: what happens to the entities of one kind. -/
def deleteKind {V} (it : Item) (m : Int → Option V) : Int → Option V :=
  if it.defined then
    if it.numbers = [] then fun _ => none
    else it.numbers.foldl (fun m n => fun x => if x = n then none else m x) m
  else m

/-- ReadClass.cxx:264-463 (`delete_entities`). -/
def deleteEntities {V} (st : St) (m : Store V) : St × Store V :=
  (setAll st false, fun k => deleteKind (st.bins k) (m k))

/-! ### COPY -/

/-- utilities.cpp (`replace`) as used in read.cpp:9982: only the first `-` from the second character on. -/
def blankDash : Text → Text
  | [] => []
  | '-' :: r => ' ' :: r
  | c :: r => c :: blankDash r

/-- read.cpp:9979-9988: the target or range of targets.  `none`: the variables stay uninitialised. -/
def copyTargets (token : Text) : Option (Int × Int) :=
  match token with
  | [] => none
  | c :: r =>
    match readInt (c :: blankDash r) with
    | none => none
    | some (a, u) =>
      match readInt u with
      | none => some (a, a)
      | some (b, _) => some (a, b)

/-- Conversion of an `int` to `size_t`.  Loop bound at mainsubs.cpp:1877. -/
def toSize (i : Int) : Nat := (i % 18446744073709551616).toNat

/-- Conversion of a `size_t` to `int`.  Argument at mainsubs.cpp:1877-1882. -/
def toInt32 (n : Nat) : Int :=
  if n % 4294967296 < 2147483648 then ((n % 4294967296 : Nat) : Int) else ((n % 4294967296 : Nat) : Int) - 4294967296

/-- Phreeqc.h:1953-1970 (`Rxn_copy`); `renum` is `Set_n_user`/`Set_n_user_end`. -/
def rxnCopy {V} (renum : Int → V → V) (m : Int → Option V) (i j : Int) : Int → Option V :=
  match m i with
  | none => m
  | some v => fun x => if x = j then some (renum j v) else m x

/-- The loop mainsubs.cpp:1877-1882 from `i` on, `n` more turns. -/
def copyLoop {V} (renum : Int → V → V) (src : Int) : Nat → Nat → (Int → Option V) → Int → Option V
  | 0, _, m => m
  | n + 1, i, m => copyLoop renum src n (i + 1) (if i = toSize src then m else rxnCopy renum m src (toInt32 i))

/-- mainsubs.cpp:1873-1884 for one instruction of one kind.  The loop variable is a `size_t`; with an
upper end of `SIZE_MAX` (user number -1) the loop never ends. -/
def copyOne {V} (renum : Int → V → V) (m : Int → Option V) (c : Int × Int × Int) : Option (Int → Option V) :=
  if m c.1 = none then some m
  else if toSize c.2.1 ≤ toSize c.2.2 then
    if toSize c.2.2 = 18446744073709551615 then none
    else some (copyLoop renum c.1 (toSize c.2.2 - toSize c.2.1 + 1) (toSize c.2.1) m)
  else some m

/-- All instructions of one kind, in the order given (mainsubs.cpp:1868-2027). -/
def copyAll {V} (renum : Int → V → V) (m : Int → Option V) : List (Int × Int × Int) → Option (Int → Option V)
  | [] => some m
  | c :: cs => (copyOne renum m c).bind fun m' => copyAll renum m' cs

end Verif.Sbl
