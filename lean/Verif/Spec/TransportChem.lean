import Verif.Model.TransportChem
import Verif.Spec.TransportLog
import Verif.Spec.SolnNum
import Verif.Spec.Chem
/-
Specification for C118: the tables show what happened.
-/
namespace Verif.Transport
open Verif.Reservoir (Vol Rows BinOut Par In)
open Verif.Chem (Ctx Call Event Table)
open Verif.SolnNum (Dims)

/-- The sizes of the tables are those of the basin: `n` segments, sources of irrigation among the data and the segments. -/
structure Inside (d : Dims) (ps : List (Par × Site)) (n : Nat) : Prop where
  ok : d.Ok
  some : 1 ≤ d.nmru
  units : ps.length ≤ d.nmru
  bins : ∀ p ∈ ps, p.1.ac.length ≤ d.nac
  segs : n ≤ d.segs
  ext : ∀ p ∈ ps, p.2.srcExt + 1 ≤ d.nchemdat
  int : ∀ p ∈ ps, p.2.srcInt ≤ d.segs

/-- At the start of a step nothing has been entered. -/
def Blank (n : Nat) (t : Table) : Prop :=
  ∀ r s, s = 2 ∨ s = 3 ∨ s = 4 ∨ s = 5 → t (.res r) (.mol n s) = 0

/-- Whether melt water has its own solution: a pulse of ions. -/
def Flow.pulses (f : Flow) : Bool :=
  decide (0 < f.r.snow.out ∧ 1 < f.ion ∧ f.r.snow.fin ≠ 0 ∧ f.r.snow.out / (f.r.snow.init + f.r.snow.inp - f.r.snow.et) < 9 / 10)

/-- Row `r` of the table `t` shows what happened to a reservoir with volumes `v`, concentrations `c0` at the start and
`c1` at the end; `pre` is what left before mixing, `src` the amount that entered.  `u` is the table at the start of the
step.  Amounts are in moles, volumes in cubic metres, concentrations per litre.
* The final volume, and the evaporation.
* The initial amount stays.  The inputs are what entered.  The final amount is that of the water that remains.
* Outputs are what left before mixing, and the rest with a concentration `c`; the reactions change the water that remains
  from concentration `c`.
* The row balances, if the initial amount is that of the water that was there. -/
structure Shown (n : Nat) (r : Int) (v : Vol) (pre c0 c1 src : Rat) (u t : Table) : Prop where
  volume : t (.res r) (.vol 5) = v.fin
  evaporation : t (.res r) (.vol 4) = v.et
  initial : t (.res r) (.mol n 1) = u (.res r) (.mol n 1)
  input : t (.res r) (.mol n 2) = 1000 * src
  final : t (.res r) (.mol n 5) = 1000 * (v.fin * c1)
  rest : ∃ c, t (.res r) (.mol n 3) = 1000 * (pre * c0 + (v.out - pre) * c) ∧ t (.res r) (.mol n 4) = 1000 * (v.fin * (c1 - c))
  balance : u (.res r) (.mol n 1) = 1000 * (v.init * c0) →
    t (.res r) (.mol n 5) + t (.res r) (.mol n 3) = t (.res r) (.mol n 1) + t (.res r) (.mol n 2) + t (.res r) (.mol n 4)

/-- The rows of a unit show what happened in it.  `s` has the solutions at the start of the step, `s'` those at its end.  (For
deep preferential flow: if there is a path; all but what it received, which is entered with the concentration before the
reactions of the saturated zone, C117.  Without a path only the volume is entered.) -/
structure UnitShown (d : Dims) (n : Nat) (f : Flow) (s s' : St) (u t : Table) : Prop where
  can : Shown n (place d (f.key false 1)) f.r.can 0 (at_ s (f.key false 1)) (at_ s' (f.key true 1))
    (fallen f.r.can * at_ s' (f.key false 11) + f.r.can.ohoriz * at_ s (f.key false 4) +
      overOuts (fun j b => b.toCan * at_ s' (.bin true f.unit j)) 1 f.bins) u t
  snow : Shown n (place d (f.key false 2)) f.r.snow 0 (at_ s (f.key false 2)) (at_ s' (f.key true 2)) (above f f.r.snow s') u t
  ohoriz : Shown n (place d (f.key false 4)) f.r.ohoriz f.r.can.ohoriz (at_ s (f.key false 4)) (at_ s' (f.key true 4))
    (above f f.r.ohoriz s') u t
  uz : ∀ j b, f.bins[j]? = some b →
    Shown n (place d (.bin false f.unit (j + 1))) b.vol 0 (at_ s (.bin false f.unit (j + 1))) (at_ s' (.bin true f.unit (j + 1)))
      (above f b.vol s' + b.vol.sat * at_ s (f.key false 8)) u t
  qdf : Shown n (place d (f.key false 7)) f.r.qdf 0 (at_ s (f.key false 7)) (at_ s' (f.key true 7))
    (f.r.qdf.uz * at_ s' (f.key true 13)) u t
  sat : Shown n (place d (f.key false 8)) f.r.sat (f.sat2uz + f.well) (at_ s (f.key false 8)) (at_ s' (f.key true 8))
    (above f f.r.sat s' + f.r.sat.uz * at_ s' (f.key true 13) + f.r.sat.gw1 * at_ s (.data (f.srcGw1 + 1)) +
      f.r.sat.gw2 * at_ s (.data (f.srcGw2 + 1))) u t
  satpref : 0 < f.prefMax →
    t (.res (place d (f.key false 9))) (.mol n 2) = 1000 * (f.r.satpref.sat * at_ s' (f.key true 8)) →
    Shown n (place d (f.key false 9)) f.r.satpref 0 (at_ s (f.key false 9)) (at_ s' (f.key true 9))
      (f.r.satpref.sat * at_ s' (f.key true 8)) u t
  path : 0 < f.prefMax → t (.res (place d (f.key false 9))) (.vol 5) = f.r.satpref.fin ∧
    t (.res (place d (f.key false 9))) (.vol 4) = f.r.satpref.et ∧
    t (.res (place d (f.key false 9))) (.mol n 1) = u (.res (place d (f.key false 9))) (.mol n 1) ∧
    t (.res (place d (f.key false 9))) (.mol n 5) = 1000 * (f.r.satpref.fin * at_ s' (f.key true 9)) ∧
    ∃ c, t (.res (place d (f.key false 9))) (.mol n 3) = 1000 * (f.r.satpref.out * c) ∧
      t (.res (place d (f.key false 9))) (.mol n 4) = 1000 * (f.r.satpref.fin * (at_ s' (f.key true 9) - c)) ∧
      (f.r.satpref.fin + f.r.satpref.out) * c = f.r.satpref.init * at_ s (f.key false 9) + f.r.satpref.sat * at_ s' (f.key true 8)
  shut : ¬ 0 < f.prefMax → t (.res (place d (f.key false 9))) (.vol 5) = f.r.satpref.fin ∧
    t (.res (place d (f.key false 9))) (.mol n 1) = u (.res (place d (f.key false 9))) (.mol n 1) ∧
    ∀ s, s = 2 ∨ s = 3 ∨ s = 4 ∨ s = 5 → t (.res (place d (f.key false 9))) (.mol n s) = 0
  dep : t (.res (place d (f.key false 11))) (.mol n 2) = 1000 * fallenMol f s
  transpired : t (.res (place d (f.key false 12))) (.mol n 2) =
    1000 * overOuts (fun j b => b.toCan * at_ s' (.bin true f.unit j)) 1 f.bins
  recharge : t (.res (place d (f.key false 13))) (.mol n 2) =
    1000 * overOuts (fun j b => (b.toSat + b.toQdf) * at_ s' (.bin true f.unit j)) 1 f.bins
  hill : t (.res (place d (f.key false 10))) (.mol n 3) = 1000 * (f.r.hill.out * at_ s' (f.key true 10))

/-- The initial amounts of a unit are those of the water and the solutions that are there. -/
structure Stocked (d : Dims) (n : Nat) (f : Flow) (s : St) (u : Table) : Prop where
  can : u (.res (place d (f.key false 1))) (.mol n 1) = 1000 * (f.r.can.init * at_ s (f.key false 1))
  snow : u (.res (place d (f.key false 2))) (.mol n 1) = 1000 * (f.r.snow.init * at_ s (f.key false 2))
  ohoriz : u (.res (place d (f.key false 4))) (.mol n 1) = 1000 * (f.r.ohoriz.init * at_ s (f.key false 4))
  uz : ∀ j b, f.bins[j]? = some b →
    u (.res (place d (.bin false f.unit (j + 1)))) (.mol n 1) = 1000 * (b.vol.init * at_ s (.bin false f.unit (j + 1)))
  qdf : u (.res (place d (f.key false 7))) (.mol n 1) = 1000 * (f.r.qdf.init * at_ s (f.key false 7))
  sat : u (.res (place d (f.key false 8))) (.mol n 1) = 1000 * (f.r.sat.init * at_ s (f.key false 8))
  satpref : 0 < f.prefMax → u (.res (place d (f.key false 9))) (.mol n 1) = 1000 * (f.r.satpref.init * at_ s (f.key false 9))

/-- A row balances: final amount and outputs are initial amount, inputs and reactions. -/
def Even (n : Nat) (r : Int) (t : Table) : Prop :=
  t (.res r) (.mol n 5) + t (.res r) (.mol n 3) = t (.res r) (.mol n 1) + t (.res r) (.mol n 2) + t (.res r) (.mol n 4)

/-- The rows of a unit balance.  (For deep preferential flow: if there is a path, and its input is entered as it was.) -/
structure UnitEven (d : Dims) (n : Nat) (f : Flow) (s' : St) (t : Table) : Prop where
  hill : ∀ k, k = 1 ∨ k = 2 ∨ k = 4 ∨ k = 7 ∨ k = 8 → Even n (place d (f.key false k)) t
  uz : ∀ j, 1 ≤ j → j ≤ f.bins.length → Even n (place d (.bin false f.unit j)) t
  satpref : 0 < f.prefMax →
    t (.res (place d (f.key false 9))) (.mol n 2) = 1000 * (f.r.satpref.sat * at_ s' (f.key true 8)) → Even n (place d (f.key false 9)) t

/-- The table at the start of a step: that at the end of the step before, with final values as initial ones. -/
def opened (first : Bool) (t : Table) : Table := if first then t else Chem.newStep t

/-- The tables `ts` show the steps `rs` of a run, which starts with the solutions `s` and the table `u`: for each unit, the
initial amounts are those of the water that is there, its rows show what happened, and they balance.  (`N` is the number of
segments.) -/
def AllShown (d : Dims) (n N : Nat) : Bool → St → Table → List (Reservoir.St × St × Reservoir.Out × List Flow) → List Table → Prop
  | first, s, u, (_, s', _, fs) :: rs, t :: ts =>
    (∀ f ∈ fs, Stocked d n f (begin first fs N s) (opened first u) ∧
      UnitShown d n f (begin first fs N s) { s' with pulse := f.pulses } (opened first u) t ∧ UnitEven d n f s' t) ∧
    AllShown d n N false s' t rs ts
  | _, _, _, [], [] => True
  | _, _, _, _, _ => False

end Verif.Transport
