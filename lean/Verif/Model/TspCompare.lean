import Verif.Model.TspStat
import Mathlib.Algebra.Order.Group.Unbundled.Abs
/-
The block SERIES_COMPARE of TSPROC: `compare_series`, tsproc-trunk/tsproc-master/src/tsp_time_series_processors.F90 (T):3000-3628.

Simplifications: reals are rational numbers, the square root is a parameter.  Reading of the block, names, contexts and the place of the
table are left out; each statistic is a function of its own, in the code those asked for are stored.  `none` is the end with an error
message, unless said otherwise.
-/
namespace Verif.Tsp

/-- A simulated and an observed value. -/
structure Row where
  sim : Rat
  obs : Rat
deriving DecidableEq, Repr

/-- The tests of the two series and the terms that are compared, T:3276-3277 and 3317-3345. -/
def compareRows (b e : Clock) (s o : List Term) : Option (List Row) :=
  if overlaps b e s && overlaps b e o then
    let (n, ib, ie) := numterms b e s
    let (m, jb, je) := numterms b e o
    if n = 0 ∨ m = 0 ∨ n ≠ m ∨ n ≤ 2 then none
    else if (slice ib ie s).map Term.at_ = (slice jb je o).map Term.at_ then
      some (List.zipWith (fun p q => ⟨p.val, q.val⟩) (slice ib ie s) (slice jb je o))
    else none
  else none

/-- The tests of the base series and its terms, T:3347-3360; `o` is the observed series. -/
def compareBase (b e : Clock) (o base : List Term) : Option (List Rat) :=
  let (n, ib, ie) := numterms b e base
  let (m, jb, je) := numterms b e o
  if n = 0 ∨ n ≠ m then none
  else if (slice ib ie base).map Term.at_ = (slice jb je o).map Term.at_ then some ((slice ib ie base).map Term.val) else none

/-- A sum over the terms, as T:3407-3442. -/
def total (f : Row → Rat) (l : List Row) : Rat := l.foldl (fun a r => a + f r) 0

/-- `mean3`, T:3446. -/
def obsMean (l : List Row) : Rat := total Row.obs l / l.length

/-- BIAS, T:3456. -/
def bias (l : List Row) : Rat := total (fun r => r.sim - r.obs) l / l.length

/-- RELATIVE_BIAS, T:3470-3474. -/
def relativeBias (l : List Row) : Rat :=
  if obsMean l = 0 then 10 ^ 30 else total (fun r => r.sim - r.obs) l / l.length / obsMean l

/-- STANDARD_ERROR, T:3463. -/
def standardError (sqrt : Rat → Rat) (l : List Row) : Rat :=
  sqrt (total (fun r => (r.sim - r.obs) * (r.sim - r.obs)) l / (l.length - 1 : Nat))

/-- VOLUMETRIC_EFFICIENCY, T:3450; `none` is a division by 0. -/
def volumetric (l : List Row) : Option Rat :=
  if total Row.obs l = 0 then none else some (1 - total (fun r => |r.sim - r.obs|) l / total Row.obs l)

/-- The squares of the differences from the mean, T:3481-3487. -/
def spread (l : List Row) : Rat := total (fun r => (r.obs - obsMean l) * (r.obs - obsMean l)) l

/-- RELATIVE_STANDARD_ERROR, T:3488-3497. -/
def relativeError (sqrt : Rat → Rat) (l : List Row) : Option Rat :=
  if spread l ≤ 0 then none
  else some (sqrt (total (fun r => (r.sim - r.obs) * (r.sim - r.obs)) l / (l.length - 1 : Nat)) / sqrt (spread l / (l.length - 1 : Nat)))

/-- NASH_SUTCLIFFE, T:3488-3503. -/
def nash (l : List Row) : Option Rat :=
  if spread l ≤ 0 then none else some (1 - total (fun r => (r.sim - r.obs) * (r.sim - r.obs)) l / spread l)

/-- The sum of the distances to the mean or the base series, T:3516-3520 and 3529-3533. -/
def distance (f : Row → Rat → Rat) (base : Option (List Rat)) (l : List Row) : Rat :=
  match base with
  | none => l.foldl (fun a r => a + f r (obsMean l)) 0
  | some b => (l.zip b).foldl (fun a p => a + f p.1 p.2) 0

/-- COEFFICIENT_OF_EFFICIENCY, T:3512-3546. -/
def coefficient (e : Nat) (base : Option (List Rat)) (l : List Row) : Option Rat :=
  let t := distance (fun r m => |r.obs - m| ^ e) base l
  if t ≤ 0 then none else some (1 - total (fun r => |r.sim - r.obs| ^ e) l / t)

/-- INDEX_OF_AGREEMENT, T:3549-3591. -/
def agreement (e : Nat) (base : Option (List Rat)) (l : List Row) : Option Rat :=
  let t := distance (fun r m => (|r.obs - m| + |r.sim - m|) ^ e) base l
  if t ≤ 0 then none else some (1 - total (fun r => |r.sim - r.obs| ^ e) l / t)

end Verif.Tsp
