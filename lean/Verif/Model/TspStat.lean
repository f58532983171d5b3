import Verif.Model.TspSort
/-
Median, quantiles, the terms of a period, and the blocks REDUCE_TIME_SPAN, STATISTICS and FLOW_DURATION of TSPROC:
tsproc-trunk/tsproc-master/src, files tsp_utilities.F90 (U), tsp_command_processors.F90 (C) and tsp_time_series_processors.F90 (T).

Simplifications: reals are rational numbers.  Square root, logarithm and powers are parameters.  Reading of the block, names, contexts
and the tables' limits are left out; the times of the period are those that `date_check` has computed.
-/
namespace Verif.Tsp

/-- The list sorted by `quick_sort`. -/
def sorted (l : List Rat) : Option (List Rat) := (quickSort (l.length + 1) l).map (·.map Prod.fst)

/-- `median`, U:2672-2707; `none` for no data, where an element is read that does not exist. -/
def median (l : List Rat) : Option Rat :=
  if 1 < l.length then do
    let s ← sorted l
    if l.length % 2 = 1 then s[l.length / 2]?
    else
      let x ← s[l.length / 2 - 1]?
      let y ← s[l.length / 2]?
      some ((x + y) / 2)
  else l[0]?

/-- `INT`: truncation. -/
def int (x : Rat) : Int := if x < 0 then -⌊-x⌋ else ⌊x⌋

/-- The value at a real index of the sorted data, U:2733-2742 and 2774-2783. -/
def atIndex (s : List Rat) (r : Rat) : Option Rat :=
  let i := max (int r) 1
  if i < s.length then do
    let x ← s[i.toNat - 1]?
    let y ← s[i.toNat]?
    some (x + (y - x) * (r - i))
  else s[s.length - 1]?

/-- `quantile_scalar`, U:2709-2746. -/
def quantileScalar (q : Rat) (l : List Rat) : Option Rat := do
  let s ← sorted l
  if 0 < l.length then atIndex s (q * l.length) else some 0

/-- `quantile_vector`, U:2748-2788, for one of the quantiles. -/
def quantile (q : Rat) (l : List Rat) : Option Rat := do
  let s ← sorted l
  if 0 < l.length then atIndex s (q * (l.length + 1)) else some 0

/-- A time: elapsed days and seconds of the day. -/
structure Clock where
  days : Int
  secs : Int
deriving DecidableEq, Repr

/-- A term of a time series: `days`, `secs`, `val` (tsp_data_structures.F90, `t_timeseries`). -/
structure Term where
  at_ : Clock
  val : Rat
deriving DecidableEq, Repr

/-- The comparison of times used throughout, e.g. C:896-898: `a` is after `b`. -/
def later (a b : Clock) : Bool := a.days > b.days ∨ (a.days = b.days ∧ a.secs > b.secs)

/-- The loop of `numterms`, C:895-909: `iterm`, `ibterm`, `ieterm`. -/
def countTerms (b e : Clock) : List Term → Nat → Nat → Nat → Nat × Nat × Nat
  | [], i, n, ib => (n, ib, i - 1)
  | t :: ts, i, n, ib =>
    if later b t.at_ then countTerms b e ts (i + 1) n ib
    else
      let ib := if ib = 0 then i else ib
      if later t.at_ e then (n, ib, i - 1) else countTerms b e ts (i + 1) (n + 1) ib

/-- `numterms`, C:870-915. -/
def numterms (b e : Clock) (s : List Term) : Nat × Nat × Nat := countTerms b e s 1 0 0

/-- The elements from `ib` to `ie` that the loops `do j=ibterm,ieterm` visit. -/
def slice (ib ie : Nat) (s : List Term) : List Term := (s.drop (ib - 1)).take (ie + 1 - ib)

/-- `beg_end_check`, C:828-866: the period overlaps the series. -/
def overlaps (b e : Clock) (s : List Term) : Bool :=
  match s.head?, s.getLast? with
  | some x, some y => !later b y.at_ && !later x.at_ e
  | _, _ => false

/-- `reduce_span`, T:3758-3808: the new series; `none` with an error message. -/
def reduceSpan (b e : Clock) (s : List Term) : Option (List Term) :=
  if overlaps b e s then
    let (n, ib, ie) := numterms b e s
    if n = 0 then none else some (slice ib ie s)
  else none

/-- What a block STATISTICS stores (T:4317-4400); here all is computed, in the code what is asked for. -/
structure Stats where
  count : Nat
  maximum : Rat
  minimum : Rat
  range : Rat
  mean : Rat
  total : Rat
  median : Option Rat
  stddev : Rat
  maxmean : Rat
  minmean : Rat
deriving DecidableEq, Repr

/-- A turn of the loops T:4248-4257, 4261-4264 and 4304-4307: sum, least and greatest of the terms. -/
def tally (a : Rat × Rat × Rat) (x : Rat) : Rat × Rat × Rat :=
  (a.1 + x, if x < a.2.1 then x else a.2.1, if x > a.2.2 then x else a.2.2)

/-- Means of `k` terms one after the other, T:4265-4283: greatest and least. -/
def runs (k : Nat) : List Rat → Rat × Rat → Rat × Rat
  | [], a => a
  | x :: xs, a =>
    if (x :: xs).length < k then runs k xs a
    else
      let m := ((x :: xs).take k).foldl (· + ·) (0 : Rat) / k
      runs k xs (if m > a.1 then m else a.1, if m < a.2 then m else a.2)

/-- `statistics`, T:4158-4405, for terms transformed by `g` (the identity, log10 or a power; `none` where it is not defined: T:4250,
4288-4302), with `k` the count of MINMEAN and MAXMEAN. -/
def statistics (g : Rat → Option Rat) (sqrt : Rat → Rat) (k : Nat) (b e : Clock) (s : List Term) : Option Stats :=
  if overlaps b e s then do
    let (n, ib, ie) := numterms b e s
    if n = 0 ∨ n < k then none
    else
      let v ← (slice ib ie s).mapM fun t => g t.val
      let (sum, mn, mx) := v.foldl tally (0, 10 ^ 30, -10 ^ 30)
      let mean := sum / n
      let sq := v.foldl (fun a x => a + (x - mean) * (x - mean)) (0 : Rat)
      let w := if k = 0 then (-10 ^ 37, -10 ^ 37) else runs k v (-10 ^ 30, 10 ^ 30)
      some { count := n, maximum := mx, minimum := mn, range := mx - mn, mean := mean, total := sum
             median := median (s.map Term.val)
             stddev := if n = 1 then 0 else sqrt (sq / (n - 1 : Nat))
             maxmean := w.1, minmean := w.2 }
  else none

/-- The probabilities of exceedance taken if none are given, T:6403-6406. -/
def defaultProbs : List Rat := [199 / 2, 99, 98, 95, 90, 75, 50, 25, 10, 5, 2, 1, 1 / 2]

/-- `flow_duration`, T:6383-6680: lines of the table, probability in percent and flow.  `probs` are those given.  The period, which the
heading of the table names, must overlap the series and is not used otherwise. -/
def flowDuration (probs : Option (List Rat)) (b e : Clock) (s : List Term) : Option (List (Rat × Rat)) :=
  if s.length < 30 ∨ overlaps b e s = false then none
  else
    match probs with
    | none => defaultProbs.mapM fun p => (quantile (1 - p / 100) (s.map Term.val)).map fun v => (p, v)
    | some ps => do
      let ps ← sorted ps
      ps.reverse.mapM fun p => (quantile (1 - p / 100) (s.map Term.val)).map fun v => (p, v)

end Verif.Tsp
