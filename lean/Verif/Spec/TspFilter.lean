import Verif.Spec.TspStat
import Verif.Model.TspFilter
/-
Vocabulary for C137.
-/
namespace Verif.Tsp

variable {K : Type} [Field K] [LinearOrder K]

/-- Term `j` (from 1) of a series that had the value `v` before its first term. -/
def padded (v : K) (l : List K) (j : Int) : K := if j < 1 then v else l.getD (j - 1).toNat 0

/-- `y` is `x` after a low pass, high pass or band pass stage, with the difference equations of Butterworth filters.  Before the first term
the input was what it is in the first term; the output of a low pass was the same and that of the others zero. -/
def IsStage (p : FPass) (k : Coef K) (x y : List K) : Prop :=
  y.length = x.length ∧ ∀ j : Int, 1 ≤ j → j ≤ x.length →
    let X := padded (x.headD 0) x
    match p with
    | .low =>
      let Y := padded (x.headD 0) y
      Y j + k.b * Y (j - 1) + k.c * Y (j - 2) = k.a * (X j + 2 * X (j - 1) + X (j - 2))
    | .high =>
      let Y := padded 0 y
      Y j + k.b * Y (j - 1) + k.c * Y (j - 2) = k.a * (X j - 2 * X (j - 1) + X (j - 2))
    | .band =>
      let Y := padded 0 y
      Y j + k.b * Y (j - 1) + k.c * Y (j - 2) + k.d * Y (j - 3) + k.e * Y (j - 4) = k.a * (X j - 2 * X (j - 2) + X (j - 4))

/-- `y` is `x` after stages with the given coefficients, one after the other. -/
inductive Stages (p : FPass) : List (Coef K) → List K → List K → Prop
  | nil (x : List K) : Stages p [] x x
  | cons {k : Coef K} {ks : List (Coef K)} {x y z : List K} : IsStage p k x y → Stages p ks y z → Stages p (k :: ks) x z

/-- `f` is the quick part of the flow `x` by the filter of Lyne and Hollick: it starts with the value of a line through the first two flows
one term before them. -/
def IsQuick (al : K) (x f : List K) : Prop :=
  f.length = x.length ∧ ∀ j : Int, 1 ≤ j → j ≤ x.length →
    let v := 2 * x.getD 0 0 - x.getD 1 0
    padded v f j = al * padded v f (j - 1) + (1 + al) / 2 * (padded v x j - padded v x (j - 1))

/-- Tangents of angles up to a right one are positive, cosines of obtuse angles are between -1 and 0. -/
def Trig.Good (tr : Trig K) : Prop :=
  (∀ u : K, 0 < u → u < 1 / 2 → 0 < tr.tanPi u) ∧ ∀ u : K, 1 / 2 < u → u < 1 → -1 < tr.cosPi u ∧ tr.cosPi u < 0

/-- The sum of multiples of two series. -/
def comb (m n : K) (x x' : List K) : List K := List.zipWith (fun u v => m * u + n * v) x x'

/-- The block asks for this filter and nothing else. -/
def Asks (b : FilterBlock K) : Filter K → Prop
  | .butterworth .band ns f1 f2 rev =>
    b.type = some .butterworth ∧ b.pass = some .band ∧ (b.stages = some (ns : Int) ∨ (b.stages = none ∧ ns = 1)) ∧ 1 ≤ ns ∧ ns ≤ 3 ∧
    b.freq = none ∧ b.freq1 = some f1 ∧ b.freq2 = some f2 ∧ 0 < f1 ∧ f1 < f2 ∧ b.reverse = rev ∧ rev = false ∧
    b.alpha = none ∧ b.passes = none ∧ b.clipZero = false ∧ b.clipInput = false
  | .butterworth p ns f1 f2 rev =>
    b.type = some .butterworth ∧ b.pass = some p ∧ (b.stages = some (ns : Int) ∨ (b.stages = none ∧ ns = 1)) ∧ 1 ≤ ns ∧ ns ≤ 3 ∧
    b.freq = some f1 ∧ f2 = f1 ∧ b.freq1 = none ∧ b.freq2 = none ∧ 0 < f1 ∧ b.reverse = rev ∧ (rev = true → p = .low ∧ ns = 2) ∧
    b.alpha = none ∧ b.passes = none ∧ b.clipZero = false ∧ b.clipInput = false
  | .baseflow al n zero input =>
    b.type = some .baseflow ∧ b.pass = none ∧ b.stages = none ∧ b.freq = none ∧ b.freq1 = none ∧ b.freq2 = none ∧ b.reverse = false ∧
    b.alpha = some al ∧ 0 < al ∧ (b.passes = some (n : Int) ∨ (b.passes = none ∧ n = 1)) ∧ (n = 1 ∨ n = 3) ∧
    b.clipZero = zero ∧ b.clipInput = input

end Verif.Tsp
