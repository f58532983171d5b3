import Verif.Model.Mms
/-
Specification of a mixing request: what the generated input means, and what the request asks for.
-/
namespace Verif.Mms
open Verif.CText

/-- Stored solutions and other entities. -/
structure World (S R : Type) where
  sol : Int → Option S
  ent : Kind → Int → Option R

/-- The chemistry: mixing, reaction of a solution with reactants, state of a reactant afterwards, setting
amounts and times, mass of water. -/
structure Chem (S R : Type) where
  mix : List (S × Rat) → S
  react : S → List (Kind × R) → S
  after : S → List (Kind × R) → Kind → R
  set : Setting → R → R
  water : S → Rat

/-- The words of a line. -/
def words (s : Text) : List Text := strtok isSpace s

/-- What the lines of the input language used here mean. -/
inductive Cmd where
  | mix
  | comp (n : Int) (x : Rat)
  | saveSol (n : Int)
  | save (k : Kind) (n : Int)
  | use (k : Kind) (n : Int)
  | copySol (a b : Int)
  | fin

/-- The names of the kinds in the input language. -/
def kindOf (w : Text) : Option Kind :=
  match String.ofList w with
  | "reaction" => some .reaction
  | "exchange" => some .exchange
  | "surface" => some .surface
  | "gas_phase" => some .gasPhase
  | "equilibrium_phases" => some .purePhase
  | "solid_solution" => some .ssPhase
  | "kinetics" => some .kinetics
  | "reaction_temperature" => some .temperature
  | "reaction_pressure" => some .pressure
  | _ => none

/-- A whole word as an integer. -/
def int? (w : Text) : Option Int :=
  match Sbl.readInt w with
  | some (i, []) => some i
  | _ => none

/-- One line; `rd` reads a real number.  Keywords in upper case, as generated, kinds in any case. -/
def parse (rd : Text → Option Rat) (line : Text) : Option Cmd :=
  match words line with
  | [w] => if w = "MIX".toList then some .mix else if w = "END".toList then some .fin else none
  | [a, b] => (int? a).bind fun n => (rd b).map fun x => .comp n x
  | [w, k, n] =>
    (int? n).bind fun n =>
      let k := k.map Char.toLower
      if w = "SAVE".toList then
        (if k = "solution".toList then some (.saveSol n) else (kindOf k).map fun k => .save k n)
      else if w = "USE".toList then (kindOf k).map fun k => .use k n else none
  | [w, k, a, b] =>
    (int? a).bind fun a => (int? b).bind fun b =>
      if w = "COPY".toList ∧ k.map Char.toLower = "solution".toList then some (.copySol a b) else none
  | _ => none

/-- One simulation: what has been read since the last END. -/
structure Sim where
  mix : List (Int × Rat) := []
  uses : List (Kind × Int) := []
  saveSol : List Int := []
  saves : List (Kind × Int) := []
  copies : List (Int × Int) := []

/-- One more line of a simulation. -/
def Sim.add (s : Sim) : Cmd → Sim
  | .comp n x => { s with mix := s.mix ++ [(n, x)] }
  | .saveSol n => { s with saveSol := s.saveSol ++ [n] }
  | .save k n => { s with saves := s.saves ++ [(k, n)] }
  | .use k n => { s with uses := s.uses ++ [(k, n)] }
  | .copySol a b => { s with copies := s.copies ++ [(a, b)] }
  | _ => s

/-- Store a solution. -/
def World.setSol {S R} (w : World S R) (n : Int) (s : S) : World S R :=
  { w with sol := fun i => if i = n then some s else w.sol i }

/-- Store an entity. -/
def World.setEnt {S R} (w : World S R) (k : Kind) (n : Int) (r : R) : World S R :=
  { w with ent := fun k' i => if k' = k ∧ i = n then some r else w.ent k' i }

/-- Copy a solution (no effect if there is none). -/
def World.copySol {S R} (w : World S R) (a b : Int) : World S R :=
  match w.sol a with
  | none => w
  | some s => w.setSol b s

/-- Run one simulation: mix, react with the entities used, save, then copy.  `none`: something used is
missing, the engine stops with an error. -/
def runSim {S R} (ch : Chem S R) (w : World S R) (sim : Sim) : Option (World S R) :=
  if sim.mix = [] then none else
  (sim.mix.mapM fun c => (w.sol c.1).map fun s => (s, c.2)).bind fun comps =>
  (sim.uses.mapM fun u => (w.ent u.1 u.2).map fun r => (u.1, r)).bind fun us =>
    let s0 := ch.mix comps
    let w1 := sim.saveSol.foldl (fun w n => w.setSol n (ch.react s0 us)) w
    let w2 := sim.saves.foldl (fun w kn => w.setEnt kn.1 kn.2 (ch.after s0 us kn.1)) w1
    some (sim.copies.foldl (fun w ab => w.copySol ab.1 ab.2) w2)

/-- Run lines up to each END. -/
def exec {S R} (ch : Chem S R) : List Cmd → Sim → World S R → Option (World S R)
  | [], _, w => some w
  | .fin :: cs, sim, w => (runSim ch w sim).bind (exec ch cs {})
  | c :: cs, sim, w => exec ch cs (sim.add c) w

/-- Run an input text: status 0 and the new store, or an error (1). -/
def runLines {S R} (ch : Chem S R) (rd : Text → Option Rat) (ls : List Text) (w : World S R) : Int × World S R :=
  match (ls.mapM (parse rd)).bind fun cs => exec ch cs {} w with
  | some w' => (0, w')
  | none => (1, w)

/-- The engine: direct changes act on the stored entity. -/
def engine {S R} (ch : Chem S R) (rd : Text → Option Rat) : Engine (World S R) where
  store w := ⟨fun n => (w.sol n).map ch.water, fun k n => (w.ent k n).isSome⟩
  apply c w :=
    match c with
    | .moles n _ => { w with ent := fun k i => if k = .reaction ∧ i = n then (w.ent k i).map (ch.set c) else w.ent k i }
    | .time n _ => { w with ent := fun k i => if k = .kinetics ∧ i = n then (w.ent k i).map (ch.set c) else w.ent k i }
    | .temp n _ => { w with ent := fun k i => if k = .temperature ∧ i = n then (w.ent k i).map (ch.set c) else w.ent k i }
  run := runLines ch rd

/-! ### What the request asks for -/

/-- The reactants requested (a number that is not negative) that exist, in the order of `ks`, with their
amounts, time and temperature set. -/
def reactants {S R} (ch : Chem S R) (w : World S R) (rq : Request) : List Kind → List (Kind × R)
  | [] => []
  | k :: ks =>
    match (if 0 ≤ rq.user k then w.ent k (rq.user k) else none) with
    | none => reactants ch w rq ks
    | some r =>
      (k, match k with
          | .reaction => ch.set (.moles (rq.user k) (rq.rxnmols * rq.fill)) r
          | .kinetics => ch.set (.time (rq.user k) rq.tsec) r
          | .temperature => ch.set (.temp (rq.user k) rq.tempc) r
          | _ => r) :: reactants ch w rq ks

/-- Is any reactant requested? -/
def anyReactant (rq : Request) : Prop := ∃ k, k ≠ .pressure ∧ 0 ≤ rq.user k

/-- The kinds of reactants that are changed by a reaction and saved. -/
def changes : Kind → Prop
  | .exchange | .surface | .gasPhase | .purePhase | .ssPhase => True
  | _ => False

/-- All kinds but pressure. -/
def allKinds : List Kind := [.reaction, .exchange, .surface, .gasPhase, .purePhase, .ssPhase, .kinetics, .temperature]

/-- The conservative mixture. -/
def mixture {S R} (ch : Chem S R) (comps : List (S × Rat)) : S := ch.react (ch.mix comps) []

/-- The state `w'` after a request with solutions `comps` (fractions as the engine reads them; `fill` and
`unfill` likewise for the fill factor and its inverse):
the conservative mixture is stored under `cons`; without reactants also as the reservoir; otherwise the
reservoir gets `fill` times the mixture reacted with the reactants, scaled back by `unfill`; reactants
that change are stored, amounts and times are set, and everything else is as before. -/
def Asked {S R} (ch : Chem S R) (rq : Request) (comps : List (S × Rat)) (fill unfill : Rat) (w w' : World S R) : Prop :=
  let m := mixture ch comps
  let s0 := ch.mix [(m, fill)]
  let us := reactants ch w rq allKinds
  (rq.cons ≠ rq.sol → w'.sol rq.cons = some m) ∧
  (¬ anyReactant rq → w'.sol rq.sol = some m ∧ w'.ent = w.ent) ∧
  (anyReactant rq →
    w'.sol rq.sol = some (ch.react (ch.mix [(ch.react s0 us, unfill)]) []) ∧
    ∀ k n, w'.ent k n =
      if n = rq.user k ∧ 0 ≤ n ∧ k ≠ .pressure then
        (w.ent k n).map fun r =>
          match k with
          | .reaction => ch.set (.moles n (rq.rxnmols * rq.fill)) r
          | .kinetics => ch.set (.time n rq.tsec) r
          | .temperature => ch.set (.temp n rq.tempc) r
          | .pressure => r
          | _ => ch.after s0 us k
      else w.ent k n) ∧
  ∀ n, n ≠ rq.sol → n ≠ rq.cons → w'.sol n = w.sol n

/-- The numbers are C `int`s. -/
def IntOk (n : Int) : Prop := -2147483648 ≤ n ∧ n ≤ 2147483647

/-- The texts of real numbers are words that read back as `near`. -/
def NumOk (num : Rat → Text) (rd : Text → Option Rat) (near : Rat → Rat) : Prop :=
  ∀ x, num x ≠ [] ∧ (∀ c ∈ num x, isSpace c = false) ∧ rd (num x) = some (near x)

/-- Fractions of the request in terms of the water removed: `mix` has one negative fraction `x`, of
solution 1 with `w1` kilograms of water, and it shall remove `x` times the mean water mass of the others. -/
def meanWater (mix : List (Rat × Rat)) : Rat :=
  (mix.map fun c => c.1 * c.2).sum / (mix.map fun c => c.1).sum

end Verif.Mms
