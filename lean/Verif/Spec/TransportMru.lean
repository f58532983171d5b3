import Verif.Spec.TransportChem
/-
Specification for C119: the composite of a unit.
-/
namespace Verif.Transport
open Verif.Reservoir (Vol Rows BinOut Par In)
open Verif.Chem (Ctx Call Event Table)
open Verif.SolnNum (Dims)

/-- The unit a row belongs to. -/
def Key.unit? : Key → Option Nat
  | .hill _ _ u => some u
  | .bin _ u _ => some u
  | _ => none

/-- The amount recorded as entering a unit with a call: an input (metric 0 or 2) of a row of the unit, across its boundary. -/
def Ev.crossIn (u : Nat) : Ev → Rat
  | .call row metric vol conc _ mru _ _ => if mru = true ∧ row.unit? = some u ∧ (metric = 0 ∨ metric = 2) then vol * conc else 0
  | _ => 0

/-- The amount recorded as leaving a unit with a call (metric 3). -/
def Ev.crossOut (u : Nat) : Ev → Rat
  | .call row metric vol conc _ mru _ _ => if mru = true ∧ row.unit? = some u ∧ metric = 3 then vol * conc else 0
  | _ => 0

def recCrossIn (u : Nat) (l : List Ev) : Rat := (l.map (Ev.crossIn u)).sum
def recCrossOut (u : Nat) (l : List Ev) : Rat := (l.map (Ev.crossOut u)).sum

/-- The rows of the reservoirs of a unit: canopy, snow, O-horizon, shallow preferential flow, saturated zone, deep
preferential flow, and the bins of the unsaturated zone. -/
def Flow.rows (f : Flow) : List Key :=
  [1, 2, 4, 7, 8, 9].map (f.key false) ++ (List.range f.bins.length).map fun j => .bin false f.unit (j + 1)

/-- Solute of a unit as far as the tables know: all of it, if there is a path of deep preferential flow; without, that in
the reservoir of preferential flow is missing. -/
def known (f : Flow) (vol : Vol → Rat) (t : Bool) (s : St) : Rat :=
  held f vol t s - if 0 < f.prefMax then 0 else vol f.r.satpref * at_ s (f.key t 9)

/-- At the start of a step nothing has been entered for the composites of units. -/
def BlankUnits (n : Nat) (t : Table) : Prop :=
  ∀ i s, s = 2 ∨ s = 3 ∨ s = 4 ∨ s = 5 → t (.mru i) (.mol n s) = 0

/-- The composite of a unit in the table `t` shows what happened.  `u` is the table at the start of the step; `s` has the
solutions at the start of the step, `s'` those at its end.
* The initial amount stays.
* Inputs are what fell on the unit and what came from other groundwater.
* Outputs are what went to the stream, was taken from wells, and was lost to deep groundwater, the latter with the
  concentration `c` of the saturated zone before its reactions: that with which water leaves it after mixing, and from
  which reactions change it to that at the end.
* The final amount is what the reservoirs hold at the end.
* For final amounts and reactions, the composite is the sum of the rows. -/
structure MruShown (d : Dims) (n : Nat) (f : Flow) (s s' : St) (u t : Table) : Prop where
  initial : t (.mru f.unit) (.mol n 1) = u (.mru f.unit) (.mol n 1)
  input : t (.mru f.unit) (.mol n 2) = 1000 * (fallenMol f s + f.r.sat.gw1 * at_ s (.data (f.srcGw1 + 1)) +
    f.r.sat.gw2 * at_ s (.data (f.srcGw2 + 1)))
  output : ∃ c, t (.mru f.unit) (.mol n 3) = 1000 * (f.r.hill.out * at_ s' (f.key true 10) + f.well * at_ s (f.key false 8) +
      f.p.vol f.i.gwLoss * c) ∧
    t (.res (place d (f.key false 8))) (.mol n 3) = 1000 * ((f.sat2uz + f.well) * at_ s (f.key false 8) +
      (f.r.sat.out - (f.sat2uz + f.well)) * c) ∧
    t (.res (place d (f.key false 8))) (.mol n 4) = 1000 * (f.r.sat.fin * (at_ s' (f.key true 8) - c))
  final : t (.mru f.unit) (.mol n 5) = 1000 * known f (·.fin) true s'
  rows : ∀ i, i = 4 ∨ i = 5 → t (.mru f.unit) (.mol n i) = (f.rows.map fun k => t (.res (place d k)) (.mol n i)).sum

/-- `c` and `cb` are the concentrations in the reservoirs and bins of a unit before their reactions, as the tables have them:
with them, the amounts of the reactions are those in the water that remains. -/
structure Unreacted (d : Dims) (n : Nat) (f : Flow) (s' : St) (t : Table) (c cb : Nat → Rat) : Prop where
  can : t (.res (place d (f.key false 1))) (.mol n 4) = 1000 * (f.r.can.fin * (at_ s' (f.key true 1) - c 1))
  snow : t (.res (place d (f.key false 2))) (.mol n 4) = 1000 * (f.r.snow.fin * (at_ s' (f.key true 2) - c 2))
  ohoriz : t (.res (place d (f.key false 4))) (.mol n 4) = 1000 * (f.r.ohoriz.fin * (at_ s' (f.key true 4) - c 4))
  uz : ∀ j b, f.bins[j]? = some b →
    t (.res (place d (.bin false f.unit (j + 1)))) (.mol n 4) = 1000 * (b.vol.fin * (at_ s' (.bin true f.unit (j + 1)) - cb (j + 1)))
  qdf : t (.res (place d (f.key false 7))) (.mol n 4) = 1000 * (f.r.qdf.fin * (at_ s' (f.key true 7) - c 7))
  sat : t (.res (place d (f.key false 8))) (.mol n 4) = 1000 * (f.r.sat.fin * (at_ s' (f.key true 8) - c 8))
  satpref : 0 < f.prefMax →
    t (.res (place d (f.key false 9))) (.mol n 4) = 1000 * (f.r.satpref.fin * (at_ s' (f.key true 9) - c 9))

/-- Reactions that the composite leaves out: those of rain and irrigation with the atmosphere, and those of water that has
left its reservoir by the end of the step.  (Snow melts before it reacts.  What is lost to deep groundwater does not react.) -/
def unseen (f : Flow) (s s' : St) (c cb : Nat → Rat) : Rat :=
  (f.dep * at_ s' (f.key false 11) - fallenMol f s) + f.r.can.out * (at_ s' (f.key true 1) - c 1) +
    (f.r.ohoriz.out - f.r.can.ohoriz) * (at_ s' (f.key true 4) - c 4) +
    overOuts (fun j b => b.vol.out * (at_ s' (.bin true f.unit j) - cb j)) 1 f.bins + f.r.qdf.out * (at_ s' (f.key true 7) - c 7) +
    (f.r.sat.out - f.sat2uz - f.well - f.p.vol f.i.gwLoss) * (at_ s' (f.key true 8) - c 8) +
    if 0 < f.prefMax then f.r.satpref.out * (at_ s' (f.key true 9) - c 9) else 0

/-- The composite of unit `u` balances. -/
def MruEven (n u : Nat) (t : Table) : Prop :=
  t (.mru u) (.mol n 5) + t (.mru u) (.mol n 3) = t (.mru u) (.mol n 1) + t (.mru u) (.mol n 2) + t (.mru u) (.mol n 4)

/-- The tables `ts` show the steps `rs` of a run, which starts with the solutions `s` and the table `u`: for each unit the
initial amount of its composite is that of the water that is there, the composite shows what happened, and it balances but
for the reactions it leaves out. -/
def MruAllShown (d : Dims) (n N : Nat) : Bool → St → Table → List (Reservoir.St × St × Reservoir.Out × List Flow) → List Table → Prop
  | first, s, u, (_, s', _, fs) :: rs, t :: ts =>
    (∀ f ∈ fs, opened first u (.mru f.unit) (.mol n 1) = 1000 * known f (·.init) false (begin first fs N s) ∧
      MruShown d n f (begin first fs N s) s' (opened first u) t ∧
      ∃ c cb, Unreacted d n f s' t c cb ∧
        t (.mru f.unit) (.mol n 5) + t (.mru f.unit) (.mol n 3) = t (.mru f.unit) (.mol n 1) + t (.mru f.unit) (.mol n 2) +
          t (.mru f.unit) (.mol n 4) + 1000 * unseen f (begin first fs N s) s' c cb) ∧
    MruAllShown d n N false s' t rs ts
  | _, _, _, [], [] => True
  | _, _, _, _, _ => False

/-- In each step the composites of the units balance, and have no reactions. -/
def MruAllEven (n : Nat) : List (Reservoir.St × St × Reservoir.Out × List Flow) → List Table → Prop
  | (_, _, _, fs) :: rs, t :: ts => (∀ f ∈ fs, MruEven n f.unit t ∧ t (.mru f.unit) (.mol n 4) = 0) ∧ MruAllEven n rs ts
  | [], [] => True
  | _, _ => False

end Verif.Transport
