import Verif.Model.TspStat
/-
HYDRO_PEAKS and HYDRO_EVENTS blocks of TSPROC: tsproc-trunk/tsproc-master/src/wsc_additions.F90 (W), `hydro_peaks`, `hydro_events` and
`get_event`.

Simplifications: reals are rational numbers and integers unbounded; a quotient with divisor zero is what IEEE arithmetic makes of it.
Reading of the block, names, contexts and the place of the new series are left out, so RISE_LAG and FALL_LAG are always given.  The terms of
the period (W:183-204, 2008-2031) are those of `reduceSpan`, which has the same tests.
-/
namespace Verif.Tsp

/-- `tdate` and `tval` of a term. -/
structure Pt where
  d : Int
  v : Rat
deriving DecidableEq

/-- W:212-220, 2037-2045: the division is one of integers. -/
def pt (t : Term) : Pt := ⟨t.at_.days + t.at_.secs.tdiv 86400, t.val⟩

/-- `slope1 > 0`, W:231 and 234, 2055 and 2057. -/
def rises (a b : Pt) : Bool := if a.d = b.d then a.v < b.v else (b.v - a.v) / ((b.d - a.d : Int) : Rat) > 0

/-- `slope2 ≤ 0`, W:232 and 235, 2056 and 2058; zero divided by zero is not. -/
def falls (b c : Pt) : Bool := if b.d = c.d then c.v < b.v else (c.v - b.v) / ((c.d - b.d : Int) : Rat) ≤ 0

/-- The loop over the terms, W:230-254 and 2054-2083: `j` is the place of the middle one of three terms, counted from zero, `tl` and `vl`
are the integers `tlast` and `vlast`, `acc` the peaks found so far with their places, the last one first.  HYDRO_EVENTS keeps the places,
HYDRO_PEAKS the terms. -/
def peakLoop (w m : Rat) : Nat → Int → Int → List (Nat × Pt) → List Pt → List (Nat × Pt)
  | j, tl, vl, acc, a :: b :: c :: r =>
    if rises a b && falls b c then
      if ((b.d - tl : Int) : Rat) > w then
        if b.v > m then peakLoop w m (j + 1) b.d (int b.v) ((j, b) :: acc) (b :: c :: r)
        else peakLoop w m (j + 1) tl vl acc (b :: c :: r)
      else if b.v > vl then peakLoop w m (j + 1) b.d (int b.v) ((j, b) :: acc.tail) (b :: c :: r)
      else peakLoop w m (j + 1) tl vl acc (b :: c :: r)
    else peakLoop w m (j + 1) tl vl acc (b :: c :: r)
  | _, _, _, acc, _ => acc

/-- The peaks, W:226-254 and 2051-2083; the loop ends before the last two terms.  `w` is WINDOW and `m` MIN_PEAK. -/
def peaksOf (w m : Rat) (l : List Pt) : List (Nat × Pt) :=
  match l with
  | [] => []
  | a :: _ => (peakLoop w m 1 a.d (int a.v) [] l.dropLast).reverse

/-- A term of the new series, W:343-348, 2062-2066, 2073-2077: `86400*(tdate(j)-ndays)` of a whole number. -/
def ptTerm (p : Pt) : Term := ⟨⟨p.d, 0⟩, p.v⟩

/-- `hydro_peaks`, W:2008-2111. -/
def hydroPeaks (w m : Rat) (b e : Clock) (s : List Term) : Option (List Term) :=
  (reduceSpan b e s).map fun r => (peaksOf w m (r.map pt)).map fun p => ptTerm p.2

/-- The search for a date, W:330-341: the first term not after `x` whose next term is after it, counted from `j`, or else `i`. -/
def findPlace (x : Rat) (i : Nat) : Nat → List Pt → Nat
  | j, a :: b :: r => if (a.d : Rat) ≤ x ∧ x < (b.d : Rat) then j else findPlace x i (j + 1) (b :: r)
  | _, _ => i

/-- `get_event`, W:313-351: the terms of the event whose peak is the term with place `i`. -/
def getEvent (l : List Pt) (rise fall : Rat) (i : Nat) : List Pt :=
  match l[i]?, l.head?, l.getLast? with
  | some p, some f, some z =>
    let tbeg := if (p.d : Rat) - rise < f.d then (f.d : Rat) else p.d - rise
    let tend := if (p.d : Rat) + fall > z.d then (z.d : Rat) else p.d + fall
    let j1 := findPlace tbeg i 0 l
    let j2 := findPlace tend i 0 l
    (l.take (j2 + 1)).drop j1
  | _, _, _ => []

/-- `hydro_events`, W:178-288, for the terms of the period of a series with `n` terms; `none` is a write outside of an array, either of
`index` with 10000 elements or of the temporary series with `n` terms. -/
def eventTerms (w m rise fall : Rat) (n : Nat) (l : List Pt) : Option (List Term) :=
  let ps := peaksOf w m l
  let out := (ps.flatMap fun p => getEvent l rise fall p.1).map ptTerm
  if ps.length ≤ 10000 ∧ out.length ≤ n then some out else none

end Verif.Tsp
