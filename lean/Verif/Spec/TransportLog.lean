import Verif.Spec.Transport
/-
Specification for C117: what is recorded of the transport.
-/
namespace Verif.Transport
open Verif.Reservoir (Vol Rows BinOut)

/-- The amount of solute recorded as an input (metric 0 or 2) of a row. -/
def Ev.into (k : Key) : Ev → Rat
  | .call row metric vol conc _ _ _ _ => if k = row ∧ (metric = 0 ∨ metric = 2) then vol * conc else 0
  | _ => 0

/-- The amount recorded as an output (metric 3) of a row. -/
def Ev.from (k : Key) : Ev → Rat
  | .call row metric vol conc _ _ _ _ => if k = row ∧ metric = 3 then vol * conc else 0
  | _ => 0

/-- A reaction recorded for a row: concentrations before and after. -/
def Ev.reaction (k : Key) : Ev → List (Rat × Rat)
  | .call row _ _ conc tal _ _ true => if k = row then [(conc, tal)] else []
  | _ => []

/-- Volumes recorded for a row: initial, evaporation, final. -/
def Ev.volumes (k : Key) : Ev → List (Rat × Rat × Rat)
  | .set row init et fin => if k = row then [(init, et, fin)] else []
  | _ => []

def recIn (k : Key) (l : List Ev) : Rat := (l.map (Ev.into k)).sum
def recOut (k : Key) (l : List Ev) : Rat := (l.map (Ev.from k)).sum
def recEnd (k : Key) (l : List Ev) : List (Rat × Rat) := l.flatMap (Ev.reaction k)
def recVol (k : Key) (l : List Ev) : List (Rat × Rat × Rat) := l.flatMap (Ev.volumes k)

/-- Amounts recorded as entering or leaving a unit with groundwater. -/
def Ev.enters (u : Nat) : Ev → Rat
  | .enter v vol conc => if u = v then vol * conc else 0
  | _ => 0

def Ev.leaves (u : Nat) : Ev → Rat
  | .leave v vol conc => if u = v then vol * conc else 0
  | _ => 0

def recEnter (u : Nat) (l : List Ev) : Rat := (l.map (Ev.enters u)).sum
def recLeave (u : Nat) (l : List Ev) : Rat := (l.map (Ev.leaves u)).sum

/-- What is recorded of a reservoir is what happened to it.  `v` are its volumes, `c0` and `c1` its concentrations at
the start and at the end of the step; `pre` is what left before mixing, `src` the amount of solute that entered.
* Its volumes are recorded.
* The recorded inputs are what entered.
* One reaction is recorded, from concentration `c` to that of the water that remains; the recorded outputs are what left
  before mixing, and the rest with concentration `c`; with what remains, unreacted, they make up what was there and what
  entered.  Or there was no water and nothing entered. -/
structure Booked (v : Vol) (pre c0 c1 src : Rat) (k : Key) (l : List Ev) : Prop where
  vols : recVol k l ≠ [] ∧ ∀ x ∈ recVol k l, x = (v.init, v.et, v.fin)
  inp : recIn k l = src
  rest : (∃ c t, recEnd k l = [(c, t)] ∧ recOut k l = pre * c0 + (v.out - pre) * c ∧
      v.fin * c + recOut k l = v.init * c0 + recIn k l ∧ (v.fin ≠ 0 → t = c1)) ∨
    (recEnd k l = [] ∧ recOut k l = 0 ∧ src = 0 ∧ v.init = 0 ∧ v.out = 0 ∧ v.fin = 0)

/-- What is recorded of a unit is what happened in it: `s` is the state before, `s'` the state after, `l` what has been
recorded.  (Water that enters deep preferential flow is recorded with the concentration `c` of the saturated zone before
reactions; the rest of that row is as it was, `path`.  Without a path, only its
volumes are recorded, `shut`.) -/
structure Recorded (f : Flow) (s s' : St) (l : List Ev) : Prop where
  can : Booked f.r.can 0 (at_ s (f.key false 1)) (at_ s' (f.key true 1))
    (fallen f.r.can * at_ s' (f.key false 11) + f.r.can.ohoriz * at_ s (f.key false 4) +
      overOuts (fun j b => b.toCan * at_ s' (.bin true f.unit j)) 1 f.bins) (f.key false 1) l
  snow : Booked f.r.snow 0 (at_ s (f.key false 2)) (at_ s' (f.key true 2)) (above f f.r.snow s') (f.key false 2) l
  ohoriz : Booked f.r.ohoriz f.r.can.ohoriz (at_ s (f.key false 4)) (at_ s' (f.key true 4)) (above f f.r.ohoriz s')
    (f.key false 4) l
  uz : ∀ j b, f.bins[j]? = some b →
    Booked b.vol 0 (at_ s (.bin false f.unit (j + 1))) (at_ s' (.bin true f.unit (j + 1)))
      (above f b.vol s' + b.vol.sat * at_ s (f.key false 8)) (.bin false f.unit (j + 1)) l
  qdf : Booked f.r.qdf 0 (at_ s (f.key false 7)) (at_ s' (f.key true 7)) (f.r.qdf.uz * at_ s' (f.key true 13))
    (f.key false 7) l
  sat : Booked f.r.sat (f.sat2uz + f.well) (at_ s (f.key false 8)) (at_ s' (f.key true 8))
    (above f f.r.sat s' + f.r.sat.uz * at_ s' (f.key true 13) + f.r.sat.gw1 * at_ s (.data (f.srcGw1 + 1)) +
      f.r.sat.gw2 * at_ s (.data (f.srcGw2 + 1))) (f.key false 8) l
  satpref : 0 < f.prefMax → ∃ c t, recEnd (f.key false 8) l = [(c, t)] ∧
    recIn (f.key false 9) l = f.r.satpref.sat * c ∧
    ((f.r.satpref.sat = 0 ∨ c = at_ s' (f.key true 8)) →
      Booked f.r.satpref 0 (at_ s (f.key false 9)) (at_ s' (f.key true 9)) (f.r.satpref.sat * at_ s' (f.key true 8))
        (f.key false 9) l)
  path : 0 < f.prefMax → (recVol (f.key false 9) l ≠ [] ∧
      ∀ x ∈ recVol (f.key false 9) l, x = (f.r.satpref.init, f.r.satpref.et, f.r.satpref.fin)) ∧
    ∃ c t, recEnd (f.key false 9) l = [(c, t)] ∧ recOut (f.key false 9) l = f.r.satpref.out * c ∧
      (f.r.satpref.fin + f.r.satpref.out) * c = f.r.satpref.init * at_ s (f.key false 9) + f.r.satpref.sat * at_ s' (f.key true 8) ∧
      t = at_ s' (f.key true 9)
  shut : ¬ 0 < f.prefMax → recVol (f.key false 9) l = [(f.r.satpref.init, f.r.satpref.et, f.r.satpref.fin)] ∧
    recEnd (f.key false 9) l = [] ∧ recIn (f.key false 9) l = 0 ∧ recOut (f.key false 9) l = 0
  dep : recIn (f.key false 11) l = fallenMol f s
  transpired : recIn (f.key false 12) l = overOuts (fun j b => b.toCan * at_ s' (.bin true f.unit j)) 1 f.bins
  recharge : recIn (f.key false 13) l = overOuts (fun j b => (b.toSat + b.toQdf) * at_ s' (.bin true f.unit j)) 1 f.bins
  hill : recOut (f.key false 10) l = f.r.hill.out * at_ s' (f.key true 10)
  entered : recEnter f.unit l = f.r.sat.gw1 * at_ s (.data (f.srcGw1 + 1)) + f.r.sat.gw2 * at_ s (.data (f.srcGw2 + 1))
  rain : f.srcExt ≠ 0 → recIn (.data 1) l = f.r.mru.ppt * at_ s (.data 1) ∧
    recIn (.data (f.srcExt + 1)) l = f.r.mru.ext * at_ s (.data (f.srcExt + 1))
  diverted : recOut (.seg false f.srcInt) l = f.r.mru.div * at_ s (.seg false f.srcInt)
  left : ∃ c t, recEnd (f.key false 8) l = [(c, t)] ∧ recLeave f.unit l = f.p.vol f.i.gwLoss * c

/-- The table of a row balances: what it holds at the end and the recorded outputs are what it held at the start and the
recorded inputs. -/
def Tallied (v : Vol) (k : Bool → Key) (s s' : St) (l : List Ev) : Prop :=
  v.fin * at_ s' (k true) + recOut (k false) l = v.init * at_ s (k false) + recIn (k false) l

/-- The tables of all rows of a unit balance. -/
structure Balanced (f : Flow) (s s' : St) (l : List Ev) : Prop where
  can : Tallied f.r.can (f.key · 1) s s' l
  snow : Tallied f.r.snow (f.key · 2) s s' l
  ohoriz : Tallied f.r.ohoriz (f.key · 4) s s' l
  uz : ∀ j b, f.bins[j]? = some b → Tallied b.vol (.bin · f.unit (j + 1)) s s' l
  qdf : Tallied f.r.qdf (f.key · 7) s s' l
  sat : Tallied f.r.sat (f.key · 8) s s' l
  satpref : 0 < f.prefMax → Tallied f.r.satpref (f.key · 9) s s' l
  left : recLeave f.unit l = f.p.vol f.i.gwLoss * at_ s' (f.key true 8)

end Verif.Transport
