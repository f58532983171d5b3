import Verif.Model.TspTransform
import Mathlib.Algebra.Order.Field.Basic
import Mathlib.Algebra.Order.Ring.Abs
/-
DIGITAL_FILTER block of TSPROC: tsproc-trunk/tsproc-master/src/tsp_time_series_processors.F90 (T), `bfilter`, `lpdes`, `hpdes`, `bpdes`.

Simplifications: reals are an ordered field `K` (rational or real numbers) and integers unbounded.  Tangents and cosines are those of a
parameter.  Cutting of words from lines, names, contexts and the place of the new series are left out.  `none` is the end with an error
message.
-/
namespace Verif.Tsp

variable {K : Type} [Field K] [LinearOrder K]

/-- Pass bands, T:2381-2382. -/
inductive FPass | low | high | band
deriving DecidableEq

/-- Types of filter, T:2358-2359. -/
inductive FType | butterworth | baseflow
deriving DecidableEq

/-- What the keywords of the block give, T:2281-2494; clipping and reversal are "yes" or not. -/
structure FilterBlock (K : Type) where
  type : Option FType := none
  pass : Option FPass := none
  stages : Option Int := none
  freq : Option K := none
  freq1 : Option K := none
  freq2 : Option K := none
  clipZero : Bool := false
  clipInput : Bool := false
  alpha : Option K := none
  passes : Option Int := none
  reverse : Bool := false

/-- The filter of a block; for low and high pass both frequencies are the one given. -/
inductive Filter (K : Type)
  | butterworth (p : FPass) (ns : Nat) (f1 f2 : K) (rev : Bool)
  | baseflow (alpha : K) (passes : Nat) (zero input : Bool)

/-- A value that must be positive if it is given, T:2400, 2411, 2421, 2453. -/
def positive (f : Option K) : Bool :=
  match f with
  | some v => !decide (v ≤ 0)
  | none => true

/-- The tests of a block, T:2400-2478 and 2497-2585. -/
def filterChecks (b : FilterBlock K) : Option (Filter K) :=
  if ¬ (positive b.freq ∧ positive b.freq1 ∧ positive b.freq2 ∧ positive b.alpha) then none
  else if b.passes ≠ none ∧ b.passes ≠ some 1 ∧ b.passes ≠ some 3 then none
  else match b.type with
  | none => none
  | some .baseflow =>
    if b.stages.isSome then none
    else if b.pass.isSome then none
    else if b.freq.isSome ∨ b.freq1.isSome ∨ b.freq2.isSome then none
    else if b.reverse then none
    else b.alpha.map fun al => .baseflow al (b.passes.getD 1).toNat b.clipZero b.clipInput
  | some .butterworth =>
    if b.passes.isSome then none
    else if b.alpha.isSome then none
    else if b.clipZero ∨ b.clipInput then none
    else if b.stages.getD 1 < 1 ∨ b.stages.getD 1 > 3 then none
    else match b.pass with
    | none => none
    | some .band =>
      match b.freq1, b.freq2 with
      | some f1, some f2 =>
        if b.freq.isSome then none
        else if f2 ≤ f1 then none
        else if b.reverse then none
        else some (.butterworth .band (b.stages.getD 1).toNat f1 f2 false)
      | _, _ => none
    | some p =>
      if b.freq1.isSome ∨ b.freq2.isSome then none
      else if b.reverse ∧ (p ≠ .low ∨ b.stages.getD 1 ≠ 2) then none
      else b.freq.map fun f => .butterworth p (b.stages.getD 1).toNat f f b.reverse

/-- The loop over following terms, T:2601-2630. -/
def equalGaps (lag : Int) : List Clock → Bool
  | p :: q :: r => decide (carry p.days (p.secs + lag) = q) && equalGaps lag (q :: r)
  | _ => true

/-- The time from the first to the second term, T:2599-2600. -/
def firstLag (cs : List Clock) : Int :=
  match cs with
  | p :: q :: _ => (q.days - p.days) * 86400 + q.secs - p.secs
  | _ => 0

/-- Coefficients of a stage; low and high pass have three. -/
structure Coef (K : Type) where
  a : K
  b : K
  c : K
  d : K
  e : K

/-- Tangents and cosines of multiples of pi. -/
structure Trig (K : Type) where
  tanPi : K → K
  cosPi : K → K

/-- `lpdes`, T:2924-2932, for a stage. -/
def lowCoef (w cs : K) : Coef K :=
  let x := 1 / (1 + w * w - 2 * w * cs)
  { a := w * w * x, b := 2 * (w * w - 1) * x, c := (1 + w * w + 2 * w * cs) * x, d := 0, e := 0 }

/-- `hpdes`, T:2950-2957, for a stage. -/
def highCoef (w cs : K) : Coef K :=
  let a := 1 / (1 + w * w - 2 * w * cs)
  { a := a, b := 2 * (w * w - 1) * a, c := (1 + w * w + 2 * w * cs) * a, d := 0, e := 0 }

/-- `bpdes`, T:2975-2990, for a stage. -/
def bandCoef (w1 w2 cs : K) : Coef K :=
  let wc := w2 - w1
  let q := wc * wc + 2 * w1 * w2
  let s := w1 * w1 * w2 * w2
  let p := -2 * wc * cs
  let r := p * w1 * w2
  let x := 1 + p + q + r + s
  { a := wc * wc / x, b := (-4 - 2 * p + 2 * r + 4 * s) / x, c := (6 - 2 * q + 6 * s) / x,
    d := (-4 + 2 * p - 2 * r + 4 * s) / x, e := (1 - p + q - r + s) / x }

/-- The cosine of stage `k` (from 1) of `ns`, T:2927, 2953, 2982. -/
def stageCos (tr : Trig K) (ns k : Nat) : K := tr.cosPi ((2 * (k + ns) - 1) / (4 * ns))

/-- The coefficients of all stages; `t` is the time from term to term in days. -/
def coefs (tr : Trig K) (p : FPass) (ns : Nat) (f1 f2 t : K) : List (Coef K) :=
  (List.range ns).map fun i =>
    match p with
    | .low => lowCoef (tr.tanPi (f1 * t)) (stageCos tr ns (i + 1))
    | .high => highCoef (tr.tanPi (f1 * t)) (stageCos tr ns (i + 1))
    | .band => bandCoef (tr.tanPi (f1 * t)) (tr.tanPi (f2 * t)) (stageCos tr ns (i + 1))

/-- Element `j`, from 1, of an array. -/
def at1 (l : List K) (j : Int) : K := l.getD (j - 1).toNat 0

/-- The arrays `rval` and `gval`, which have elements from -3: those before 1 are equal, T:2717-2731. -/
def before (v : K) (l : List K) (j : Int) : K := if j < 1 then v else at1 l j

/-- One term of a stage from the terms of input `r` and the earlier ones of output `g`, T:2732-2746 and 2751-2796. -/
def stageTerm (p : FPass) (k : Coef K) (r g : Int → K) (j : Int) : K :=
  match p with
  | .low => k.a * (r j + 2 * r (j - 1) + r (j - 2)) - k.b * g (j - 1) - k.c * g (j - 2)
  | .high => k.a * (r j - 2 * r (j - 1) + r (j - 2)) - k.b * g (j - 1) - k.c * g (j - 2)
  | .band => k.a * (r j - 2 * r (j - 2) + r (j - 4)) - k.b * g (j - 1) - k.c * g (j - 2) - k.d * g (j - 3) - k.e * g (j - 4)

/-- Loops that write elements `j`, `j + 1`, ... from those written before. -/
def grow (f : Int → List K → K) : Nat → Int → List K → List K
  | 0, _, acc => acc
  | n + 1, j, acc => grow f n (j + 1) (acc ++ [f j acc])

/-- A stage, T:2687-2797: the first five terms with elements before the first one, then the others. -/
def stageValues (p : FPass) (k : Coef K) (x : List K) : List K :=
  let five := grow (fun j acc => stageTerm p k (before (at1 x 1) x) (before (if p = .low then at1 x 1 else 0) acc) j) 5 1 []
  grow (fun j acc => stageTerm p k (at1 x) (at1 acc) j) (x.length - 5) 6 five

/-- A stage with the test of band pass, T:2786 and 2794: any large term ends the program, here after all have been computed. -/
def stage (p : FPass) (k : Coef K) (x : List K) : Option (List K) :=
  let y := stageValues p k x
  if p = .band ∧ (y.drop 5).any fun v => decide (10 ^ 30 < |v|) then none else some y

/-- Butterworth filters, T:2635-2647 and 2687-2818: a stage after the other, or the first one forward and backward.  (Exchange of terms
from both ends is reversal.) -/
def butterworth (tr : Trig K) (p : FPass) (ns : Nat) (f1 f2 : K) (rev : Bool) (lag : Int) (x : List K) : Option (List K) :=
  let t : K := lag / 86400
  if f1 ≥ 1 / 2 / t ∨ f2 ≥ 1 / 2 / t then none
  else
    let ks := coefs tr p ns f1 f2 t
    if rev then ks.head?.bind fun k => (stage p k x).bind fun y => (stage p k y.reverse).map List.reverse
    else ks.foldlM (fun y k => stage p k y) x

/-- One pass of the filter for baseflow, T:2839-2848. -/
def basePass (al : K) (t : List K) : List K :=
  let al1 := (1 + al) * (1 / 2)
  let y := at1 t 1 - (at1 t 2 - at1 t 1)
  grow (fun j acc => al * at1 acc (j - 1) + al1 * (at1 t j - at1 t (j - 1))) (t.length - 1) 2 [al * y + al1 * (at1 t 1 - y)]

/-- All passes, T:2829-2849: those after the first one start from the reversed series. -/
def basePasses (al : K) (x : List K) : Nat → List K
  | 0 => []
  | 1 => basePass al x
  | n + 2 => basePass al (basePasses al x (n + 1)).reverse

/-- Clipping, T:2853-2863. -/
def clip (zero input : Bool) (x y : List K) : List K :=
  let y := if zero then y.map fun v => if v < 0 then 0 else v else y
  if input then List.zipWith (fun v u => if v > u then u else v) y x else y

/-- `bfilter`: the values of the new series from times and values of the old one.  T:2591 for the least number of terms. -/
def digitalFilter (tr : Trig K) (b : FilterBlock K) (cs : List Clock) (x : List K) : Option (List K) :=
  (filterChecks b).bind fun f =>
    if x.length < 20 then none
    else if ¬ equalGaps (firstLag cs) cs.tail then none
    else match f with
    | .butterworth p ns f1 f2 rev => butterworth tr p ns f1 f2 rev (firstLag cs) x
    | .baseflow al n zero input => some (clip zero input x (basePasses al x n))

end Verif.Tsp
