import Verif.Spec.StorageBinList
import Mathlib.Algebra.Order.Ring.Rat
/-
One mixing and reaction request of the coupled model: IPhreeqcMMS/src/IPhreeqcMMS.cpp
(`PreMixCallback`, `PostMixCallback`), fortran.cpp (`RunMixF`) and phreeqcpp/structures.cpp
(`entity_exists`).

Real numbers are rationals; `num` is the conversion `%g` of `sprintf` (C library), which keeps six
digits.  The engine that reads the generated input is a parameter.
-/
namespace Verif.Mms
open Verif.CText
open Verif.Sbl (intText)

/-- A `char` buffer (IPhreeqcMMS.cpp:319). -/
abbrev Text := List Char

/-- global_structures.h:165-168 (`enum entity_type`), except solution and mix. -/
inductive Kind where
  | reaction | exchange | surface | gasPhase | purePhase | ssPhase | kinetics | temperature | pressure
deriving DecidableEq

/-- What the request looks at in the store: the water mass of the solutions and which entities exist.
IPhreeqcMMS.cpp:351-355 and 459-574. -/
structure Store where
  water : Int → Option Rat
  has : Kind → Int → Bool

/-- IPhreeqcMMS.hpp:12-29 (`struct MixVars`) as filled in by fortran.cpp:75-92: solutions and fractions, number
of the conservative mixture, fill factor, numbers of the reservoir, amounts. -/
structure Request where
  mix : List (Int × Rat)
  cons : Int
  fill : Rat
  sol : Int
  user : Kind → Int
  rxnmols : Rat
  tempc : Rat
  tsec : Rat
  filesOn : Bool

/-- Direct changes of stored entities: tally.cpp:1246-1287 (`set_reaction_moles`,
`set_kinetics_time`, `set_reaction_temperature`). -/
inductive Setting where
  | moles (n : Int) (x : Rat)
  | time (n : Int) (x : Rat)
  | temp (n : Int) (x : Rat)
deriving DecidableEq

/-- structures.cpp:2700-2799 (`entity_exists`) for the names used below; temperature falls through to
pressure and gas phase. -/
def entityExists (s : Store) (k : Kind) (n : Int) : Bool :=
  match k with
  | .temperature => s.has .temperature n && s.has .pressure n && s.has .gasPhase n
  | .pressure => s.has .pressure n && s.has .gasPhase n
  | k => s.has k n

/-- IPhreeqcMMS.cpp:338-346. -/
def evap (mix : List (Int × Rat)) : Bool := mix.any fun c => decide (c.1 = 1 ∧ c.2 < 0)

/-- IPhreeqcMMS.cpp:333-335: `pos_mix_h2o`, `pos_h2o_frac_sum`, `neg_mix_h2o`. -/
structure Sums where
  posMix : Rat
  posFrac : Rat
  negMix : Rat

/-- One turn of IPhreeqcMMS.cpp:349-371. -/
def sumOne (water : Int → Option Rat) (s : Sums) (c : Int × Rat) : Option Sums :=
  match water c.1 with
  | none => none
  | some h2o =>
    if 0 ≤ c.2 then some { s with posMix := s.posMix + c.2 * h2o, posFrac := s.posFrac + c.2 }
    else some { s with negMix := h2o }

/-- IPhreeqcMMS.cpp:347-377: the factor for negative fractions.  `none`: a solution is missing.  The
division by the sum of positive fractions is that of C (not a number or infinite if the sum is 0). -/
def negFactor (water : Int → Option Rat) (mix : List (Int × Rat)) : Option Rat :=
  if evap mix then
    (mix.foldlM (sumOne water) ⟨0, 0, 0⟩).map fun s =>
      if 0 < s.negMix then |s.posMix / s.posFrac / s.negMix| else 1
  else some 1

/-- IPhreeqcMMS.cpp:384-393: the fraction written. -/
def fracOut (ev : Bool) (factor : Rat) (x : Rat) : Rat :=
  x * (if ev then (if x < 0 then factor else 1) else 1)

/-- `sprintf(line, "\t%d %g", n, x)`.  IPhreeqcMMS.cpp:393, 446, 596. -/
def compLine (num : Rat → Text) (n : Int) (x : Rat) : Text := '\t' :: (intText n ++ ' ' :: num x)

/-- `sprintf(line, "<words> %d", n)`.  IPhreeqcMMS.cpp:400-582. -/
def numLine (words : String) (n : Int) : Text := words.toList ++ ' ' :: intText n

/-- What `PreMixCallback` does: result, accumulated lines, warnings, direct changes; `origOut`: whether
`orig_out` was assigned.  IPhreeqcMMS.cpp:315-636. -/
structure Pre where
  ok : Bool
  lines : List Text
  warnings : List Text
  settings : List Setting
  origOut : Bool

/-- IPhreeqcMMS.cpp:379-414: mixing, saving, copying. -/
def mixLines (num : Rat → Text) (rq : Request) (factor : Rat) : List Text :=
  "MIX".toList :: (rq.mix.map fun c => compLine num c.1 (fracOut (evap rq.mix) factor c.2)) ++
    [numLine "SAVE solution" rq.sol, numLine "COPY SOLUTION" rq.sol ++ ' ' :: intText rq.cons, "END".toList]

/-- The name of a kind used in the lines and for `entity_exists` (IPhreeqcMMS.cpp:458-585). -/
def kindName : Kind → String
  | .reaction => "reaction"
  | .exchange => "exchange"
  | .surface => "surface"
  | .gasPhase => "gas_phase"
  | .purePhase => "equilibrium_phases"
  | .ssPhase => "solid_solution"
  | .kinetics => "kinetics"
  | .temperature => "reaction_temperature"
  | .pressure => "reaction_pressure"

/-- Which of the blocks IPhreeqcMMS.cpp:458-585 also write a SAVE line. -/
def saved : Kind → Bool
  | .exchange | .surface | .gasPhase | .purePhase | .ssPhase => true
  | _ => false

/-- The direct change made in the block of a kind.  IPhreeqcMMS.cpp:460, 562, 576. -/
def setting (rq : Request) : Kind → List Setting
  | .reaction => [.moles (rq.user .reaction) (rq.rxnmols * rq.fill)]
  | .kinetics => [.time (rq.user .kinetics) rq.tsec]
  | .temperature => [.temp (rq.user .temperature) rq.tempc]
  | _ => []

/-- One block of IPhreeqcMMS.cpp:458-585: lines, warnings and changes. -/
def block (st : Store) (rq : Request) (k : Kind) : List Text × List Text × List Setting :=
  if 0 ≤ rq.user k then
    if entityExists st k (rq.user k) then
      (numLine ("USE " ++ kindName k) (rq.user k) :: (if saved k then [numLine ("SAVE " ++ kindName k) (rq.user k)] else []),
        [], setting rq k)
    else ([], [(kindName k).toList.map Char.toUpper ++ ' ' :: (intText (rq.user k) ++ " doesn't exist\n".toList)], [])
  else ([], [], [])

/-- The order of the blocks.  IPhreeqcMMS.cpp:457-585. -/
def blocks : List Kind := [.reaction, .exchange, .surface, .gasPhase, .purePhase, .ssPhase, .kinetics, .temperature]

/-- IPhreeqcMMS.cpp:442-455 and 587-622: the lines around the blocks. -/
def reactLines (num : Rat → Text) (st : Store) (rq : Request) : List Text :=
  ["MIX".toList, compLine num rq.sol rq.fill, numLine "SAVE solution" rq.sol] ++
    (blocks.flatMap fun k => (block st rq k).1) ++
    ["END".toList, "MIX".toList, compLine num rq.sol (1 / rq.fill), numLine "SAVE solution" rq.sol, "END".toList]

/-- IPhreeqcMMS.cpp:315-636.  `AccumulateLine` succeeds (the instance exists).  Left out: the message for
a fill factor that is not positive (only printed, see `C32` theorems: the fill factor is positive),
printing of the lines, the tally table (C31). -/
def preMix (num : Rat → Text) (st : Store) (rq : Request) : Pre :=
  match negFactor st.water rq.mix with
  | none => ⟨false, [], [], [], false⟩
  | some factor =>
    if blocks.all fun k => decide (rq.user k < 0) then ⟨true, mixLines num rq factor, [], [], false⟩
    else ⟨true, mixLines num rq factor ++ reactLines num st rq, blocks.flatMap fun k => (block st rq k).2.1,
      blocks.flatMap fun k => (block st rq k).2.2, rq.filesOn⟩

/-- An instance: accumulated lines, whether the next line clears them (IPhreeqc.cpp:99-103, 788), whether
the output file is on, and the engine's store. -/
structure Inst (W : Type) where
  buf : List Text
  clear : Bool
  outOn : Bool
  world : W

/-- The engine.
Its store (IPhreeqcMMS.cpp:351), the direct changes (460, 562, 576) and `RunAccumulated` (IPhreeqc.cpp:735-794). -/
structure Engine (W : Type) where
  store : W → Store
  apply : Setting → W → W
  run : List Text → W → Int × W

/-- IPhreeqc.cpp:95-110 (`AccumulateLine`) for each line in turn. -/
def accumulate {W} (s : Inst W) (lines : List Text) : Inst W :=
  lines.foldl (fun s l => { s with buf := (if s.clear then [] else s.buf) ++ [l], clear := false }) s

/-- fortran.cpp:66-101 (`RunMixF`) with IPhreeqc.cpp:735-790 (`RunAccumulated`) and
IPhreeqcMMS.cpp:638-651 (`PostMixCallback`): the result of `PreMixCallback` is not looked at.  `junk` is
the value of `orig_out` when it was never assigned. -/
def runMix {W} (e : Engine W) (num : Rat → Text) (junk : Bool) (rq : Request) (s : Inst W) : Int × Inst W :=
  let p := preMix num (e.store s.world) rq
  let s1 := accumulate { s with world := p.settings.foldl (fun w c => e.apply c w) s.world } p.lines
  let r := e.run s1.buf s1.world
  (r.1, { buf := s1.buf, clear := true, world := r.2,
          outOn := if rq.filesOn then (if p.origOut then s.outOn else junk) else s.outOn })

end Verif.Mms
