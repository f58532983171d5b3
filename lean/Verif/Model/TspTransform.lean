import Verif.Model.TspStat
/-
Blocks of TSPROC that make a series from another one: tsproc-trunk/tsproc-master/src/tsp_time_series_processors.F90 (T): MOVING_MINIMUM,
SERIES_DIFFERENCE, SERIES_BASE_LEVEL, SERIES_CLEAN, SERIES_DISPLACE.

Simplifications: reals are rational numbers and integers unbounded.  Reading of the block, names, contexts and the place of the new series
are left out.  `none` is the end with an error message.
-/
namespace Verif.Tsp

/-- The least of some values and 1e30, T:764-767. -/
def leastOf (l : List Rat) : Rat := l.foldl (fun p x => if x < p then x else p) (10 ^ 30)

/-- `moving_window`, mode continuous, T:702-718 and 729-772; `w` is the number of terms in a window. -/
def movingMinimum (w : Int) (s : List Term) : Option (List Term) :=
  if w ≤ 0 ∨ w % 2 = 0 then none
  else
    let h := (w / 2).toNat
    if s.length ≤ h * 2 then some s
    else some (s.mapIdx fun j t =>
      if j < h ∨ s.length - h ≤ j then t else ⟨t.at_, leastOf (((s.map Term.val).drop (j - h)).take (2 * h + 1))⟩)

/-- The test of a term against the others of its window, T:791-795 and 823-827. -/
def lowest (v : List Rat) (h j : Nat) : Bool :=
  (List.range (2 * h + 1)).all fun k => decide (j - h + k = j) || decide (¬ v.getD j 0 ≥ v.getD (j - h + k) 0)

/-- `moving_window`, mode discrete, T:779-833.  (A series has terms: without any, elements would be read that do not exist.) -/
def movingLowest (w : Int) (first last : Rat) (s : List Term) : Option (List Term) :=
  if w ≤ 0 ∨ w % 2 = 0 then none
  else
    let h := (w / 2).toNat
    match s.head?, s.getLast? with
    | some a, some b =>
      some (⟨a.at_, first⟩ ::
        ((s.zipIdx.filter fun p => decide (h ≤ p.2) && decide (p.2 + h < s.length) && lowest (s.map Term.val) h p.2).map Prod.fst) ++
        [⟨b.at_, last⟩])
    | _, _ => none

/-- `series_difference`, T:1354-1393. -/
def difference (s : List Term) : Option (List Term) :=
  if s.length ≤ 1 then none else some ((s.zip s.tail).map fun p => ⟨p.2.at_, p.2.val - p.1.val⟩)

/-- `series_base_level`, T:1600-1603 and 1612-1672: the base level is the value of the series `b` at the time `c`. -/
def baseLevel (negate : Bool) (b : List Term) (c : Clock) (s : List Term) : Option (List Term) :=
  let c : Clock := if c.secs ≥ 86400 then ⟨c.days + 1, c.secs - 86400⟩ else c
  (b.find? fun t => decide (t.at_.days = c.days) && decide (t.at_.secs = c.secs)).map fun r =>
    s.map fun t => ⟨t.at_, if negate then r.val - t.val else t.val - r.val⟩

/-- The tests that keep a value, T:2134-2147 and 2181-2188. -/
def keeps (lo up : Option Rat) (x : Rat) : Bool :=
  match lo, up with
  | some l, some u => decide (x < l) || decide (x > u)
  | some l, none => decide (x < l)
  | none, some u => decide (x > u)
  | none, none => false

/-- The tests of boundaries, T:2112-2127. -/
def boundsOk (lo up : Option Rat) : Bool :=
  match lo, up with
  | some l, some u => !decide (l ≥ u)
  | none, none => false
  | _, _ => true

/-- `series_clean` with a new series, T:2132-2201: `sub` is the substitute, `none` to delete. -/
def clean (lo up : Option Rat) (sub : Option Rat) (s : List Term) : Option (List Term) :=
  if boundsOk lo up then
    match sub with
    | some r => some (s.map fun t => if keeps lo up t.val then t else ⟨t.at_, r⟩)
    | none =>
      let n := (s.filter fun t => keeps lo up t.val).length
      if n = 0 then none else some (s.filter fun t => keeps lo up t.val)
  else none

/-- `series_clean` in place, T:2203-2214. -/
def cleanInPlace (lo up : Option Rat) (r : Rat) (s : List Term) : Option (List Term) :=
  if boundsOk lo up then
    some (s.map fun t =>
      match lo, up with
      | some l, some u => if t.val ≥ l ∧ t.val ≤ u then ⟨t.at_, r⟩ else t
      | some l, none => if t.val ≥ l then ⟨t.at_, r⟩ else t
      | none, some u => if t.val ≤ u then ⟨t.at_, r⟩ else t
      | none, none => t)
  else none

/-- Seconds over a day, T:6841-6845. -/
def carry (d n : Int) : Clock := if 86400 ≤ n then carry (d + 1) (n - 86400) else ⟨d, n⟩
termination_by n.toNat

/-- The loop over following terms, T:6838-6868. -/
def equalSteps (lag : Int) : List Term → Bool
  | p :: q :: r => decide (carry p.at_.days (p.at_.secs + lag) = q.at_) && equalSteps lag (q :: r)
  | _ => true

/-- The test of equal intervals, T:6835-6868: from the second term on with the first interval; not for less than three terms. -/
def stepsOk : List Term → Bool
  | p :: q :: r => r.isEmpty || equalSteps ((q.at_.days - p.at_.days) * 86400 + q.at_.secs - p.at_.secs) (q :: r)
  | _ => true

/-- `displace`, T:6817-6926.  A lag of -9999 is taken for none. -/
def displace (lag : Int) (fill : Rat) (s : List Term) : Option (List Term) :=
  if lag = -9999 then none
  else if (s.length : Int) < |lag| + 1 then none
  else
    if stepsOk s then
      some (s.mapIdx fun j t =>
        if lag ≥ 0 then (if (j : Int) < lag then ⟨t.at_, fill⟩ else ⟨t.at_, (s.map Term.val).getD (j - lag.toNat) 0⟩)
        else if (j : Int) < s.length + lag then ⟨t.at_, (s.map Term.val).getD (j + (-lag).toNat) 0⟩ else ⟨t.at_, fill⟩)
    else none

end Verif.Tsp
