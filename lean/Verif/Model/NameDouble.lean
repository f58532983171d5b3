import Mathlib.Data.Rat.Defs
/-
Name/value maps of the chemistry engine (phreeqcpp/NameDouble.cxx), the string dictionary
(phreeqcpp/Dictionary.cpp), and the mixing of solutions (phreeqcpp/Solution.cxx, step.cpp).

`std::map<std::string, double>` is a list of pairs sorted by name.  Floating-point arithmetic is exact
rational arithmetic (rounding is not modelled); logarithms are left to the caller.
-/
namespace Verif.Nd

/-- A `std::string` (keys at NameDouble.cxx:211). -/
abbrev Text := List Char
/-- `cxxNameDouble`, NameDouble.h:17-64. -/
abbrev ND (V : Type) := List (Text × V)

/-- `std::string::operator<` and `strcmp(a, b) < 0`.
The order of the map (NameDouble.h:17-18) and the comparison NameDouble.cxx:332. -/
def ltText : Text → Text → Bool
  | _, [] => false
  | [], _ :: _ => true
  | a :: s, b :: t => if a.toNat < b.toNat then true else if a = b then ltText s t else false

/-- `std::map::find`.  E.g. NameDouble.cxx:211. -/
def find {V} : ND V → Text → Option V
  | [], _ => none
  | (n, v) :: r, k => if n = k then some v else find r k

/-- `map[k] = v`: replaces the value or inserts at the place of the order.  E.g. NameDouble.cxx:214. -/
def set {V} : ND V → Text → V → ND V
  | [], k, v => [(k, v)]
  | (n, w) :: r, k, v => if n = k then (k, v) :: r else if ltText k n then (k, v) :: (n, w) :: r else (n, w) :: set r k v

/-- `map.erase(map.find(k))`.  NameDouble.cxx:462-465. -/
def erase {V} (m : ND V) (k : Text) : ND V := m.filter fun p => p.1 != k

/-! ### Arithmetic -/

/-- One turn of the loop NameDouble.cxx:208-220. -/
def addOne (f : Rat) (m : ND Rat) (e : Text × Rat) : ND Rat :=
  match find m e.1 with
  | some c => set m e.1 (c + e.2 * f)
  | none => set m e.1 (e.2 * f)

/-- NameDouble.cxx:200-221. -/
def addExtensive (m addee : ND Rat) (f : Rat) : ND Rat := if f = 0 then m else addee.foldl (addOne f) m

/-- One turn of the loop NameDouble.cxx:230-242. -/
def addIntOne (f1 f2 : Rat) (m : ND Rat) (e : Text × Rat) : ND Rat :=
  match find m e.1 with
  | some c => set m e.1 (f1 * c + f2 * e.2)
  | none => set m e.1 (f2 * e.2)

/-- NameDouble.cxx:222-243 (the assertion on the factors is not modelled). -/
def addIntensive (m addee : ND Rat) (f1 f2 : Rat) : ND Rat := addee.foldl (addIntOne f1 f2) m

/-- NameDouble.cxx:421-432. -/
def multiply (m : ND Rat) (x : Rat) : ND Rat := m.map fun p => (p.1, p.2 * x)

/-! ### Redox states -/

/-- NameDouble.cxx:283-300 and 315-331: the element name; names shorter than four characters are not
cut. -/
def ename (n : Text) : Text := if n.length < 4 then n else n.takeWhile (· != '(')

/-- NameDouble.cxx:301-302. -/
def skipped (e : Text) : Bool := e == "H".toList || e == "O".toList || e == "Charge".toList

/-- NameDouble.cxx:280-304: the list of elements, all zero. -/
def simpleKeys (nd : ND Rat) : ND Rat :=
  nd.foldl (fun acc p => if skipped (ename p.1) then acc else set acc (ename p.1) 0) []

/-- NameDouble.cxx:307-347: the two iterators walk over both maps. -/
def walk : ND Rat → ND Rat → ND Rat
  | [], new => new
  | _ :: _, [] => []
  | (o, v) :: old, (n, s) :: new =>
    if ltText n (ename o) then (n, s) :: walk ((o, v) :: old) new
    else if n = ename o then walk old ((n, s + v) :: new)
    else walk old ((n, s) :: new)
termination_by old new => old.length + new.length

/-- NameDouble.cxx:268-349. -/
def simplifyRedox (nd : ND Rat) : ND Rat := walk nd (simpleKeys nd)

/-- The first character as a number, 0 for an empty string.  NameDouble.cxx:362, 376. -/
def head0 (n : Text) : Nat := match n with | [] => 0 | c :: _ => c.toNat

/-- NameDouble.cxx:351-378; `lg` is `log10(f)`. -/
def multActs (str : Text) (lg : Rat) : ND Rat → ND Rat
  | [] => []
  | (n, v) :: r =>
    if head0 n < head0 str then (n, v) :: multActs str lg r
    else
      (n, if n = str then v + lg else if (str ++ ['(']).isPrefixOf n then v + lg else v) ::
        (if head0 str < head0 n then r else multActs str lg r)

/-- NameDouble.cxx:379-401. -/
def getTotal (nd : ND Rat) (e : Text) : Rat :=
  (nd.filterMap fun p => if p.1.takeWhile (· != '(') = e then some p.2 else none).sum

/-- NameDouble.cxx:444-458: `substr(0, pos - 1)` for a name with a parenthesis at `pos` (with `pos = 0`
the difference wraps around and the whole name results). -/
def mergeElt (n : Text) : Text :=
  match n.takeWhile (· != '(') with
  | [] => n
  | e => e.dropLast

/-- NameDouble.cxx:441-494: one source entry. -/
def mergeOne (m : ND Rat) (e : Text × Rat) : ND Rat :=
  if e.1.contains '(' then set (erase m (mergeElt e.1)) e.1 e.2
  else set (m.filter fun p => !(e.1 ++ ['(']).isPrefixOf p.1) e.1 e.2

/-- NameDouble.cxx:433-495. -/
def mergeRedox (m source : ND Rat) : ND Rat := source.foldl mergeOne m

/-! ### Dictionary -/

/-- Dictionary.h:20-23.  `dictionary_map` in order of insertion. -/
structure Dict where
  map : List (Text × Nat)
  words : List Text
  oss : Text

/-- Dictionary.cpp:11-13. -/
def Dict.empty : Dict := ⟨[], [], []⟩

/-- `dictionary_map.find`, Dictionary.cpp:31. -/
def lookup (m : List (Text × Nat)) (s : Text) : Option Nat := (m.find? fun p => p.1 == s).map (·.2)

/-- Dictionary.cpp:28-41. -/
def Dict.find (d : Dict) (s : Text) : Nat × Dict :=
  match lookup d.map s with
  | some i => (i, d)
  | none => (d.map.length, ⟨d.map ++ [(s, d.map.length)], d.words ++ [s], d.oss ++ s ++ ['\n']⟩)

/-- `getline (str, 256)`: up to 255 characters; fails (`none`) at the end of the text or if the line is
longer. -/
def getline256 (s : Text) : Option (Text × Text) :=
  if s = [] then none
  else
    let l := s.takeWhile (· != '\n')
    if l.length ≤ 255 then some (l, s.drop (l.length + 1)) else none

/-- Dictionary.cpp:15-23: the loop over the lines (fuel: the number of lines is at most the length). -/
def dictLoop : Nat → Dict → Text → Dict
  | 0, d, _ => d
  | n + 1, d, s =>
    match getline256 s with
    | none => d
    | some (l, r) => dictLoop n (d.find l).2 r

/-- Dictionary.cpp:15-23. -/
def Dict.ofText (s : Text) : Dict := dictLoop (s.length + 1) .empty s

/-- The streams of a serialization.  NameDouble.cxx:511-512. -/
structure Bufs (V : Type) where
  dict : Dict
  ints : List Nat
  doubles : List V

/-- One turn of NameDouble.cxx:515-520. -/
def serOne {V} (b : Bufs V) (p : Text × V) : Bufs V :=
  ⟨(b.dict.find p.1).2, b.ints ++ [(b.dict.find p.1).1], b.doubles ++ [p.2]⟩

/-- NameDouble.cxx:510-521. -/
def serialize {V} (b : Bufs V) (m : ND V) : Bufs V :=
  m.foldl serOne { b with ints := b.ints ++ [m.length] }

/-- One turn of NameDouble.cxx:527-536, `n` turns; the cursors are the remaining streams.  `none` is an
access outside the arrays. -/
def deserLoop {V} (words : List Text) : Nat → ND V → List Nat → List V → Option (ND V × List Nat × List V)
  | 0, m, is, ds => some (m, is, ds)
  | n + 1, m, is, ds =>
    match is with
    | [] => none
    | i :: is =>
      match words[i]? with
      | none => none
      | some w =>
        if w = [] then deserLoop words n m is ds
        else
          match ds with
          | [] => none
          | d :: ds => deserLoop words n (set m w d) is ds

/-- NameDouble.cxx:522-537. -/
def deserialize {V} (words : List Text) (is : List Nat) (ds : List V) : Option (ND V × List Nat × List V) :=
  match is with
  | [] => none
  | c :: is => deserLoop words c [] is ds

/-! ### Mixing solutions -/

/-- The intensive numbers of a solution (Solution.h:126-139). -/
structure Intens where
  tc : Rat
  ph : Rat
  pe : Rat
  mu : Rat
  ah2o : Rat
  density : Rat
  viscosity : Rat
  viscos0 : Rat
  patm : Rat

/-- `f1 * a + f2 * b` in every field.  Solution.cxx:1423-1434. -/
def Intens.lin (f1 f2 : Rat) (a b : Intens) : Intens :=
  ⟨f1 * a.tc + f2 * b.tc, f1 * a.ph + f2 * b.ph, f1 * a.pe + f2 * b.pe, f1 * a.mu + f2 * b.mu,
   f1 * a.ah2o + f2 * b.ah2o, f1 * a.density + f2 * b.density, f1 * a.viscosity + f2 * b.viscosity,
   f1 * a.viscos0 + f2 * b.viscos0, f1 * a.patm + f2 * b.patm⟩

/-- The part of a solution (Solution.h:126-150) that is mixed; isotopes, activities and species maps are not
modelled.  `int = none`: the intensive numbers are not finite. -/
structure Soln where
  totalH : Rat
  totalO : Rat
  cb : Rat
  massWater : Rat
  solnVol : Rat
  alk : Rat
  totals : ND Rat
  int : Option Intens

/-- Solution.cxx:1386-1409. -/
def Soln.zero : Soln := ⟨0, 0, 0, 0, 0, 0, [], some ⟨0, 0, 0, 0, 0, 1, 1, 1, 1⟩⟩

/-- Solution.cxx:1418-1434: the intensive numbers are weighted with the masses of water. -/
def mixInt (w1 w2 : Rat) (a b : Option Intens) : Option Intens :=
  if w1 + w2 = 0 then none
  else
    match a, b with
    | some a, some b => some (Intens.lin (w1 / (w1 + w2)) (w2 / (w1 + w2)) a b)
    | _, _ => none

/-- Solution.cxx:1411-1484. -/
def Soln.add (s a : Soln) (x : Rat) : Soln :=
  if x = 0 then s
  else
    { totalH := s.totalH + a.totalH * x, totalO := s.totalO + a.totalO * x, cb := s.cb + a.cb * x
      massWater := s.massWater + a.massWater * x, solnVol := s.solnVol + a.solnVol * x
      alk := s.alk + a.alk * x, totals := addExtensive s.totals a.totals x
      int := mixInt s.massWater (a.massWater * x) s.int a.int }

/-- Solution.cxx:1486-1502. -/
def Soln.multiply (s : Soln) (x : Rat) : Soln :=
  if x = 0 ∨ x = 1 then s
  else
    { s with
      totalH := s.totalH * x, totalO := s.totalO * x, cb := s.cb * x, massWater := s.massWater * x
      solnVol := s.solnVol * x, alk := s.alk * x, totals := Nd.multiply s.totals x }

/-- Solution.cxx:107-153: a mixture of stored solutions; missing ones are reported and left out.
Result: the mixture and the number of errors. -/
def mixSolutions (store : Int → Option Soln) (mix : List (Int × Rat)) : Soln × Nat :=
  mix.foldl (fun acc c =>
    match store c.1 with
    | none => (acc.1, acc.2 + 1)
    | some a => (acc.1.add a c.2, acc.2)) (.zero, 0)

/-- The global accumulators of the reaction step (step.cpp:310-344) that add_solution fills; `totals`
are the totals of the primary master species by element. -/
structure Acc where
  tc : Rat
  ph : Rat
  patm : Rat
  pe : Rat
  mu : Rat
  ah2o : Rat
  viscos : Rat
  viscos0 : Rat
  density : Rat
  totalH : Rat
  totalO : Rat
  cb : Rat
  massWater : Rat
  totals : Text → Rat
  errors : Nat

/-- step.cpp:310-360 (`xsolution_zero`). -/
def Acc.zero : Acc := ⟨0, 0, 0, 0, 0, 0, 0, 0, 0, 0, 0, 0, 0, fun _ => 0, 0⟩

/-- step.cpp:394-407: one total goes to its primary master species (`primary` is the data base). -/
def accTotal (primary : Text → Option Text) (x : Rat) (a : Acc) (p : Text × Rat) : Acc :=
  match primary p.1 with
  | none => { a with errors := a.errors + 1 }
  | some e => { a with totals := fun k => if k = e then a.totals k + p.2 * x else a.totals k }

/-- step.cpp:362-437 (`add_solution`); the guesses for activities are not modelled. -/
def addSolution (primary : Text → Option Text) (a : Acc) (s : Soln) (i : Intens) (extensive intensive : Rat) : Acc :=
  s.totals.foldl (accTotal primary extensive)
    { a with
      tc := a.tc + i.tc * intensive, ph := a.ph + i.ph * intensive, patm := a.patm + i.patm * intensive
      pe := a.pe + i.pe * intensive, mu := a.mu + i.mu * intensive, ah2o := a.ah2o + i.ah2o * intensive
      viscos := a.viscos + i.viscosity * intensive, viscos0 := a.viscos0 + i.viscos0 * intensive
      density := a.density + i.density * intensive
      totalH := a.totalH + s.totalH * extensive, totalO := a.totalO + s.totalO * extensive
      cb := a.cb + s.cb * extensive, massWater := a.massWater + s.massWater * extensive }

/-- A stored solution with finite intensive numbers.  step.cpp:640, 660. -/
abbrev Stored := Int → Option (Soln × Intens)

/-- step.cpp:637-657: Σ fraction × water over all, and over the positive fractions; and the number of
positive fractions. -/
def mixSums (store : Stored) (mix : List (Int × Rat)) : Rat × Rat × Nat :=
  mix.foldl (fun (t : Rat × Rat × Nat) (c : Int × Rat) =>
    match store c.1 with
    | none => t
    | some (s, _) =>
      (t.1 + c.2 * s.massWater,
       if 0 < c.2 then t.2.1 + c.2 * s.massWater else t.2.1,
       if 0 < c.2 then t.2.2 + 1 else t.2.2)) (0, 0, 0)

/-- step.cpp:669-685: the weight given to the intensive numbers (`intensive_water`).  When not all
fractions are positive only the positive ones are divided by the positive sum; for the others only the
unused variable `intensive` is reset. -/
def weight (sums : Rat × Rat × Nat) (count : Nat) (frac water : Rat) : Rat :=
  if sums.2.2 < count ∧ 0 < frac then frac * water / sums.2.1 else frac * water / sums.1

/-- step.cpp:658-687: one component. -/
def mixOne (primary : Text → Option Text) (store : Stored) (sums : Rat × Rat × Nat) (count : Nat) (a : Acc)
    (c : Int × Rat) : Acc :=
  match store c.1 with
  | none => { a with errors := a.errors + 1 }
  | some (s, i) => addSolution primary a s i c.2 (weight sums count c.2 s.massWater)

/-- step.cpp:616-689 (`add_mix`).  Missing solutions are reported twice, once in each loop. -/
def addMix (primary : Text → Option Text) (store : Stored) (mix : List (Int × Rat)) : Acc :=
  mix.foldl (mixOne primary store (mixSums store mix) mix.length)
    { Acc.zero with errors := (mix.filter fun c => (store c.1).isNone).length }

/-- cxxMix.h:26-36 (`Add`); components in order of their numbers. -/
def mixAdd : List (Int × Rat) → Int → Rat → List (Int × Rat)
  | [], n, f => [(n, f)]
  | (m, g) :: r, n, f => if m = n then (m, g + f) :: r else if n < m then (n, f) :: (m, g) :: r else (m, g) :: mixAdd r n f

/-- cxxMix.h:37-44. -/
def mixMultiply (mix : List (Int × Rat)) (f : Rat) : List (Int × Rat) := mix.map fun c => (c.1, c.2 * f)

end Verif.Nd
