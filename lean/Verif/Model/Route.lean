import Verif.Model.Top2c
/-
Model of the channel routing: `routecinit` and `routecrun` (`webmod.d/src/route_clark.F:432-752, 759-1065`).

Simplification: single and double precision reals are exact rationals, and so are the decimal
constants.  The objective functions and the summary files are not modelled.
-/
namespace Verif.Route
open Verif.Top2c (addAt)

/-- The intrinsic `INT`: truncation towards zero.  `route_clark.F:594`. -/
def trunc (x : Rat) : Int := if x < 0 then -(-x).floor else x.floor

/-- Parameters of one channel: the `nchan_d` pairs (`d`, `ach`), `chan_area_frac` and `chan_area`
(`route_clark.F:501-534`). -/
structure Table where
  pts : List (Rat × Rat)
  frac : Rat
  area : Rat
deriving DecidableEq, Repr

/-- `route_clark.F:588-591`: `TCH`, paired with `ach`; distances become numbers of time steps. -/
def times (chvdt : Rat) : List (Rat × Rat) → List (Rat × Rat)
  | [] => []
  | (d1, a1) :: rest =>
    (d1 / chvdt, a1) :: rest.map fun p => (d1 / chvdt + (p.1 - d1) / chvdt, p.2)

/-- `route_clark.F:603-609`: the first `J` with `TIME.LE.TCH(J)` and the interpolation.  `none`: no such
`J`, `AR(IR,is)` keeps its uninitialised value. -/
def interp (t : Rat) : List (Rat × Rat) → Option Rat
  | p :: q :: rest =>
    if t ≤ q.1 then some (p.2 + (q.2 - p.2) * (t - p.1) / (q.1 - p.1)) else interp t (q :: rest)
  | _ => none

/-- `route_clark.F:600-610`: the cumulated ordinate at `TIME`; `last` is `TCH(NCH)`. -/
def cumul (ts : List (Rat × Rat)) (last : Rat) (time : Int) : Option Rat :=
  if (time : Rat) > last then some 1 else interp time ts

/-- `route_clark.F:594-597`: `ND` and `NR`. -/
def delays (first last : Rat) : Int × Int :=
  let nr := if (trunc last : Rat) < last then trunc last + 1 else trunc last
  (trunc first, nr - trunc first)

/-- `route_clark.F:598-611`: the cumulated ordinates `AR(1..NR)`, `k` of them from time `t`. -/
def cumuls (ts : List (Rat × Rat)) (last : Rat) : Nat → Int → Option (List Rat)
  | 0, _ => some []
  | k + 1, t =>
    match cumul ts last t, cumuls ts last k (t + 1) with
    | some a, some l => some (a :: l)
    | _, _ => none

/-- `route_clark.F:620-626`: differences, times the area fraction. -/
def diffs (frac a1 : Rat) : List Rat → List Rat
  | [] => []
  | a2 :: rest => (a2 - a1) * frac :: diffs frac a2 rest

/-- `route_clark.F:616-627`: from cumulated ordinates to `AR`.  If `NR` is not positive, the uninitialised
`AR(1,is)` is read here but never used. -/
def ordinates (frac : Rat) : List Rat → List Rat
  | [] => []
  | a :: rest => a * frac :: diffs frac a rest

/-- What is kept of a channel: `ndsc`, `nrsc`, `AR`, `chan_area_frac`, `chan_area`.  `route_clark.F:575-630`. -/
structure Hist where
  nd : Int
  nr : Int
  ar : List Rat
  frac : Rat
  area : Rat
deriving DecidableEq, Repr

/-- The body of the loop `route_clark.F:575-630`.  `none`: no pairs (`TCH(0)` is read), a zero travel
distance per step, or an uninitialised ordinate. -/
def histogram (chvdt : Rat) (c : Table) : Option Hist :=
  if chvdt = 0 then none
  else
    let ts := times chvdt c.pts
    match ts.head?, ts.getLast? with
    | some f, some l =>
      let (nd, nr) := delays f.1 l.1
      (cumuls ts l.1 nr.toNat (nd + 1)).map fun cs => ⟨nd, nr, ordinates c.frac cs, c.frac, c.area⟩
    | _, _ => none

/-- `route_clark.F:726-732`: `ar_fill`, `n` ordinates. -/
def arFill (h : Hist) (n : Nat) : List Rat :=
  (List.range' 1 n).map fun (i : Nat) =>
    if (i : Int) > h.nd ∧ (i : Int) ≤ h.nr + h.nd then h.ar.getD ((i : Int) - h.nd - 1).toNat 0 else 0

/-- `route_clark.F:647-660`: the initial water of a channel, `n` segments. -/
def initQ (q0dt : Rat) (h : Hist) (n : Nat) : List Rat :=
  (List.range' 1 n).map fun (i : Nat) =>
    if (i : Int) ≤ h.nd then q0dt * h.frac
    else if (i : Int) ≤ h.nd + h.nr then
      q0dt * (h.frac - (h.ar.take ((i : Int) - h.nd - 1).toNat).sum)
    else 0

/-- A channel ready for routing: `ndsc + nrsc`, `ar_fill(:,is)`, `chan_area_frac`, `chan_area`.
`route_clark.F:575-630, 726-732`. -/
structure Chan where
  len : Int
  ar : List Rat
  frac : Rat
  area : Rat
deriving DecidableEq, Repr

/-- All channels, or `none`.  `route_clark.F:575-630`. -/
def histograms (chvdt : Rat) : List Table → Option (List Hist)
  | [] => some []
  | c :: cs =>
    match histogram chvdt c, histograms chvdt cs with
    | some h, some hs => some (h :: hs)
    | _, _ => none

/-- `routecinit`, `route_clark.F:566-736`, for a basin without internal irrigation (the additions of
684-698 are left out).  The outer `none` is undefined behaviour, which includes a channel longer than
`nhydro`: `AR` and `Q` are written outside their bounds before the check at 667.  The inner `none` is the
refusal. -/
def routecinit (nhydro : Nat) (chvdt q0dt : Rat) (cs : List Table) :
    Option (Option (List Chan × List (List Rat))) :=
  match histograms chvdt cs with
  | none => none
  | some hs =>
    if hs.any fun h => h.nd + h.nr > nhydro then none
    else
      let clark := hs.foldl (fun m h => if h.nd + h.nr > m then h.nd + h.nr else m) (0 : Int)
      if (nhydro : Int) ≠ clark then some none
      else some (some (hs.map fun h => ⟨h.nr + h.nd, arFill h nhydro, h.frac, h.area⟩,
        hs.map fun h => initQ q0dt h nhydro))

/-- Internal irrigation of an MRU: `irrig_sched_int`, `irrig_int_src`, `irrig_dep_max` (879-880) and the
volume of one inch on it, `inch2m*a_million*mru_area`. -/
structure Irr where
  sched : Int
  src : Int
  depMax : Rat
  vol : Rat
deriving DecidableEq, Repr

/-- An element of a Fortran array; `none`: outside.  E.g. `route_clark.F:925`. -/
def at? (l : List Rat) (i : Int) : Option Rat := if i < 1 then none else l[i.toNat - 1]?

/-- `route_clark.F:872-898`: the depths for the next step, `irrig_hyd_next`, and the volumes requested
from each segment, `irrig_hyd_seg_next`.  `next` is `irrig_int_next`.  The second component of an element
is the old `irrig_hyd_next`.  `none`: an index is out of bounds. -/
def requests (next : List Rat) : List (Irr × Rat) → List Rat → Option (List Rat × List Rat)
  | [], seg => some ([], seg)
  | (m, old) :: ms, seg =>
    if m.src > 0 then
      match at? next m.sched with
      | none => none
      | some s =>
        match (if s ≤ m.depMax then at? next m.src else some m.depMax), addAt seg m.src (s * m.vol) with
        | some dep, some seg' => (requests next ms seg').map fun r => (dep :: r.1, r.2)
        | _, _ => none
    else (requests next ms seg).map fun r => (old :: r.1, r.2)

/-- Results for one segment: `chan_loss(ir)`, the final `irrig_hyd_seg_next(ir)`, the factor applied to
the depths of the MRUs supplied by it, and `frac_divert`.  `route_clark.F:911-977`. -/
structure Seg where
  loss : Rat
  taken : Rat
  reduce : Rat
  divert : Rat
deriving DecidableEq, Repr

/-- `route_clark.F:911-977` for one segment: `qsum` is the depth in all channels after the inflow,
`maxloss` is `maxchanloss(ir)`, `req` the requested volume, `vol` is `basin_area*a_million`. -/
def segment (vol maxloss req qsum : Rat) : Seg :=
  let loss := if maxloss > 0 then (if qsum > maxloss then maxloss else qsum) else 0
  let left := if maxloss > 0 then (if qsum > maxloss then qsum - loss else 0) else qsum
  let avail := left * vol
  let taken := if avail < req then avail else req
  let reduce := if avail < req then avail / req else 1
  ⟨loss, taken, reduce, if avail > 0 then taken / avail else 0⟩

/-- `route_clark.F:923-925` for one channel: the inflow `qchanin`, m³, is spread over the segments. -/
def addIn (c : Chan) (qin : Rat) (col : List Rat) : List Rat :=
  List.zipWith (fun q a => q + qin / c.area / 1000000 * a) col c.ar

/-- The depth of water in segment `ir` of all channels.  `route_clark.F:911-930`. -/
def rowSum (cols : List (List Rat)) (ir : Nat) : Rat := (cols.map fun col => col.getD ir 0).sum

/-- `route_clark.F:994-1002`: `Q(j,is) = Q(j+1,is)` for the first `len - 1` segments, then zero. -/
def shift (len : Int) (col : List Rat) : List Rat :=
  let m := len.toNat
  if m ≤ 1 then col.set 0 0 else (col.take m).tail ++ 0 :: col.drop m

/-- Inputs of one step: `qchanin` for each channel, `irrig_int_next`.  `route_clark.F:872-898, 923`. -/
structure In where
  qin : List Rat
  next : List Rat
deriving DecidableEq, Repr

/-- The constants of a run: the channels, `maxchanloss`, `basin_area` in km², the MRUs, and `div_exists`
(`route_clark.F:681-698`). -/
structure Basin where
  chans : List Chan
  maxloss : List Rat
  area : Rat
  mrus : List Irr
  divert : Bool
deriving DecidableEq, Repr

/-- What is kept between steps: `Q`, one list of segments per channel, and `irrig_hyd_next`.
`route_clark.F:872-1002`. -/
structure St where
  q : List (List Rat)
  hyd : List Rat
deriving DecidableEq, Repr

/-- Results of a step: per segment, and `qscm`, `qbasinm`.  `route_clark.F:911-1023`. -/
structure Out where
  segs : List Seg
  qscm : List Rat
  qbasinm : Rat
deriving DecidableEq, Repr

/-- `routecrun`, `route_clark.F:862-1023`, with `n` = `clark_segs`.  The loop over the segments has
independent passes; here each of its parts is done for all segments.  `none`: an index out of bounds, or
a division by a zero area (the results are then not numbers). -/
def routecrun (b : Basin) (n : Nat) (i : In) (st : St) : Option (St × Out) :=
  if b.area = 0 ∨ b.chans.any (fun c => c.area = 0 ∨ c.frac = 0) then none
  else
    match (if b.divert then requests i.next (List.zip b.mrus st.hyd) (List.replicate n 0)
           else some (st.hyd, List.replicate n 0)) with
    | none => none
    | some (hyd, req) =>
      let q1 := List.zipWith (fun (c : Chan × Rat) col => addIn c.1 c.2 col) (List.zip b.chans i.qin) st.q
      let segs := (List.range n).map fun ir =>
        segment (b.area * 1000000) (b.maxloss.getD ir 0) (req.getD ir 0) (rowSum q1 ir)
      let hyd' := List.zipWith (fun (m : Irr) h =>
        if m.src ≥ 1 ∧ m.src.toNat ≤ n then ((segs.getD (m.src.toNat - 1) ⟨0, 0, 1, 0⟩).reduce) * h else h)
        b.mrus hyd
      let q2 := q1.map fun col => List.zipWith (fun q (s : Seg) => q * (1 - s.divert)) col segs
      let qscm := List.zipWith (fun (c : Chan) col => col.getD 0 0 / c.frac) b.chans q2
      let qbasinm := (List.zipWith (fun (c : Chan) q => q * c.area) b.chans qscm).sum / b.area
      some (⟨List.zipWith (fun (c : Chan) col => shift c.len col) b.chans q2, hyd'⟩, ⟨segs, qscm, qbasinm⟩)

/-- The steps of a run.  `route_clark.F:862-1023`. -/
def steps (b : Basin) (n : Nat) : St → List In → Option (List (St × Out))
  | _, [] => some []
  | st, i :: rest =>
    match routecrun b n i st with
    | none => none
    | some (st', o) => (steps b n st' rest).map ((st', o) :: ·)

end Verif.Route
