import Mathlib.Data.Rat.Defs
import Mathlib.Algebra.Order.Field.Rat
/-
Separation of baseflow of TSPROC: tsproc-trunk/tsproc-master/src/wsc_additions.F90 (W).

Simplifications: flows are rational.  An array is a list; `none` is a read outside the arrays, an undefined variable or a write to a
constant.  Missing flows are negative.
-/
namespace Verif.Hysep

/-- The least of some flows and 100000, W:1655-1658 and elsewhere. -/
def pmin (l : List Rat) : Rat := l.foldl (fun p x => if x < p then x else p) 100000

/-- The flows of the days `k1` to `k2`, counted from 1; `none` if they are not all in the record. -/
def window (d : List Rat) (k1 k2 : Nat) : Option (List Rat) :=
  if 1 ≤ k1 ∧ k2 ≤ d.length then some ((d.drop (k1 - 1)).take (k2 + 1 - k1)) else none

/-- START of SLIDE, W:1632-1643: the days before the first flow that is not missing. -/
def leading (d : List Rat) : Nat := (d.takeWhile fun x => decide (x < 0)).length

/-- The baseflow of day `i`, counted from 1, with flow `x`, W:1632-1675. -/
def slideDay (d : List Rat) (intrvl i : Nat) (x : Rat) : Option Rat :=
  let int := (intrvl - 1) / 2
  let start := leading d
  if x < 0 then some x
  else if i - start ≤ int then (window d (start + 1) (i + int)).map pmin
  else if d.length - i ≤ int then (window d (i - int) d.length).map pmin
  else (window d (i - int) (i + int)).map pmin

/-- SLIDE, W:1596-1677. -/
def slide (d : List Rat) (intrvl : Nat) : Option (List Rat) :=
  (d.zipIdx 1).mapM fun p => slideDay d intrvl p.2 p.1

/-- The days `a + 1` to `b` get the value `v`. -/
def setRange (g : List Rat) (a b : Nat) (v : Rat) : List Rat := g.mapIdx fun j x => if a ≤ j ∧ j < b then v else x

/-- GDIS at the start, W:1527-1536. -/
def init (d : List Rat) : List Rat := d.map fun x => if 0 ≤ x then 0 else x

/-- The days `a + 1` to `b` get the least of their flows, W:1556-1564 and 1584-1590. -/
def fill (d g : List Rat) (a b : Nat) : List Rat := setRange g a b (pmin ((d.drop a).take (b - a)))

/-- FXDAYS, W:1538-1547: the days less the missing ones of the last eleven. -/
def fxdays (d : List Rat) : Nat := d.length - ((d.drop (d.length - 11)).filter fun x => decide (x < 0)).length

/-- FIXED, W:1491-1594, as it is called at W:1407 with LSTFLG 1 and the constant 0 for START.  `none` if START is to be changed (the first
flow is missing), if there are less than eleven days (1541), and if L2 is undefined since there is no full interval (1579). -/
def fixed (d : List Rat) (intrvl : Nat) : Option (List Rat) :=
  if d.head?.elim true (· < 0) then none
  else if d.length < 11 then none
  else
    let fx := fxdays d
    let k := fx / intrvl
    if k = 0 then none
    else
      let g := (List.range k).foldl (fun g i => fill d g (i * intrvl) (i * intrvl + intrvl)) (init d)
      some (if k * intrvl < fx then fill d g (k * intrvl) fx else g)

/-- The interval for an area, W:1388-1401; `r` is `2 * area ** 0.2`. -/
def interval (r : Rat) : Nat := if r ≤ 4 then 3 else if r ≤ 6 then 5 else if r ≤ 8 then 7 else if r ≤ 10 then 9 else 11

/-! ### LOCMIN -/

/-- The variables of the search for a period, W:1713-1748: GOODV, START, END (counted from 0), GDIS with days that have not been assigned,
and ID. -/
structure Scan where
  goodv : Nat
  start : Nat
  stop : Nat
  g : List (Option Rat)
  id : Nat

/-- The days `a + 1` to `b` get the values `v`. -/
def putRange (g : List (Option Rat)) (a b : Nat) (v : Nat → Rat) : List (Option Rat) :=
  g.mapIdx fun j x => if a ≤ j ∧ j < b then some (v j) else x

/-- The search for a period without missing flows, W:1719-1748, in the flows from `id` on.  The day of the missing flow after a short period
is not assigned. -/
def find (intrvl : Nat) : List Rat → Scan → Scan
  | [], s => s
  | x :: r, s =>
    if 0 ≤ x then
      find intrvl r ⟨s.goodv + 1, if s.goodv = 0 then s.id else s.start, s.id, s.g.set s.id (some 0), s.id + 1⟩
    else if s.goodv = 0 then find intrvl r ⟨0, s.start, s.stop, s.g.set s.id (some x), s.id + 1⟩
    else if s.goodv < intrvl then
      find intrvl r ⟨0, s.start, s.stop, putRange s.g (s.id - s.goodv) s.id (fun _ => -999), s.id + 1⟩
    else ⟨s.goodv, s.start, s.stop, s.g.set s.id (some (-999)), s.id + 1⟩

/-- The days on each side that are compared, W:1752-1811; `none` if there is no case for the interval. -/
def half (intrvl : Nat) : Option Nat :=
  if intrvl = 3 then some 1 else if intrvl = 5 then some 2 else if intrvl = 7 then some 3 else if intrvl = 9 then some 4
  else if 11 ≤ intrvl then some 5 else none

/-- The comparisons of a day with `h` days on each side, W:1756-1808. -/
def isMin (d : List Rat) (h i : Nat) : Bool :=
  (List.range h).all fun k => decide (d.getD i 0 ≤ d.getD (i + (k + 1)) 0) && decide (d.getD i 0 ≤ d.getD (i - (k + 1)) 0)

/-- IPOINT, W:1752-1811: the days from S to L that are local minima. -/
def points (d : List Rat) (intrvl start stop : Nat) : List Nat :=
  match half intrvl with
  | none => []
  | some h => (List.range' (start + h) (stop + 1 - h - (start + h))).filter (isMin d h)

/-- A flow of nothing is 0.01, W:1834-1835. -/
def positive (x : Rat) : Rat := if x ≤ 0 then 1 / 100 else x

/-- The days between two local minima, W:1825-1839; `li a b t` is `10 ** (t * (log10 b - log10 a) + log10 a)`.  (The code takes `a` again
from GDIS after it has written `10 ** log10 a` there; here this is `a`.) -/
def between (li : Rat → Rat → Rat → Rat) (d : List Rat) (g : List (Option Rat)) (p q : Nat) : List (Option Rat) :=
  putRange g p (q + 1) fun j => li (positive (d.getD p 0)) (positive (d.getD q 0)) (((j : Rat) - p) / ((q : Rat) - p))

/-- All pairs of following local minima, W:1824-1840. -/
def pairs (li : Rat → Rat → Rat → Rat) (d : List Rat) : List (Option Rat) → List Nat → List (Option Rat)
  | g, p :: q :: r => pairs li d (between li d g p q) (q :: r)
  | g, _ => g

/-- A period, W:1750-1848. -/
def period (li : Rat → Rat → Rat → Rat) (d : List Rat) (intrvl : Nat) (s : Scan) : List (Option Rat) :=
  if s.goodv < intrvl then s.g
  else
    let ps := points d intrvl s.start s.stop
    match ps.head?, ps.getLast? with
    | some j, some l =>
      pairs li d (putRange (putRange s.g s.start (j + 1) fun _ => d.getD j 0) l (s.stop + 1) fun _ => d.getD l 0) ps
    | _, _ => putRange s.g s.start (s.stop + 1) fun _ => -999

/-- The loop over periods, W:1712-1849. -/
def periods (li : Rat → Rat → Rat → Rat) (d : List Rat) (intrvl : Nat) : Nat → Scan → List (Option Rat)
  | 0, s => s.g
  | n + 1, s =>
    let t := find intrvl (d.drop s.id) { s with goodv := 0 }
    let g := period li d intrvl t
    if t.stop + 1 < d.length ∧ t.id < d.length then periods li d intrvl n { t with g := g } else g

/-- LOCMIN, W:1679-1855: a baseflow above the flow becomes the flow.  Days that were never assigned are `none`. -/
def locmin (li : Rat → Rat → Rat → Rat) (d : List Rat) (intrvl : Nat) : List (Option Rat) :=
  List.zipWith (fun x g => g.map fun v => if x < v then x else v) d
    (periods li d intrvl d.length ⟨0, 0, 0, d.map fun _ => none, 0⟩)

end Verif.Hysep
