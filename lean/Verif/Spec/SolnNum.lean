import Verif.Model.SolnNum
/-
Specification for solution numbers, rows of the chemistry table and mixing fractions.
-/
namespace Verif.SolnNum

/-- What is assumed of single precision rounding: it is monotone, and it does not change numbers
`m / 2^e` with `|m| ≤ 2^24` (24 bit significand; only `e ≤ 20` is needed). -/
structure Single (fl : Rat → Rat) : Prop where
  mono : ∀ x y, x ≤ y → fl x ≤ fl y
  exact : ∀ (m : Int) (e : Nat), e ≤ 20 → -16777216 ≤ m → m ≤ 16777216 → fl ((m : Rat) / 2 ^ e) = (m : Rat) / 2 ^ e

/-- The reservoirs of the model: pure water, a data source, a reservoir kind of an MRU, an unsaturated zone
bin of an MRU, a drainage segment. -/
inductive Reservoir
  | pure
  | data (i : Nat)
  | hill (kind mru : Nat)
  | bin (mru bin : Nat)
  | segment (h : Nat)
deriving DecidableEq, Repr

/-- Beginning or end of the time step. -/
inductive Time
  | begin
  | final
deriving DecidableEq, Repr

/-- Reservoirs within the given sizes.  Kinds of an MRU: 1 canopy, 2 snowpack, 3 impermeable, 4 O-horizon,
7 unsaturated preferential flow, 8 saturated zone, 9 saturated preferential flow, 10 MRU, 11 hillslope
inputs, 12 transpiration, 13 recharge, 14 mixed inputs. -/
def Reservoir.Within (d : Dims) : Reservoir → Prop
  | .pure => True
  | .data i => 1 ≤ i ∧ i ≤ d.nchemdat
  | .hill j k => (1 ≤ j ∧ j ≤ 14 ∧ j ≠ 5 ∧ j ≠ 6) ∧ 1 ≤ k ∧ k ≤ d.nmru
  | .bin k l => (1 ≤ k ∧ k ≤ d.nmru) ∧ 1 ≤ l ∧ l ≤ d.nac
  | .segment h => h ≤ d.segs

/-- Sizes for which the numbers have enough digits; the maxima declared by the model (500 MRUs, 50 bins,
41 data sources) are well within them. -/
structure Dims.Ok (d : Dims) : Prop where
  data : d.nchemdat ≤ 998999
  mru : d.nmru ≤ 999
  bin : d.nac ≤ 99
  seg : d.segs < 100000000

def Time.toInt : Time → Int
  | .begin => 0
  | .final => 1

/-- The number the model asks for (the argument lists of the calls of `solnnum` in phreeq_mms.F90). -/
def number (fl : Rat → Rat) (t : Time) : Reservoir → Int
  | .pure => solnnum fl 0 0 0 0 0 0
  | .data i => solnnum fl 0 0 i 0 0 0
  | .hill j k => solnnum fl t.toInt j 0 k 0 0
  | .bin k l => solnnum fl t.toInt 5 0 k l 0
  | .segment h => solnnum fl t.toInt 99 0 0 0 h

/-- Reservoirs with a solution of its own at the end of the time step. -/
def Reservoir.Timed : Reservoir → Prop
  | .pure => False
  | .data _ => False
  | _ => True

/-- The row of the chemistry table the number of a reservoir leads to. -/
def rowOf (fl : Rat → Rat) (d : Dims) (t : Time) (r : Reservoir) : Int :=
  (isoln fl (number fl t r) d.nchemdat d.nmru d.nac).row

/-- The indices of a reservoir as `isoln` should report them (−99: does not apply). -/
def Reservoir.indices : Reservoir → Int × Int × Int × Int × Int
  | .pure => (-99, -99, -99, -99, -99)
  | .data i => (0, i, -99, -99, -99)
  | .hill j k => (j, -99, k, -99, -99)
  | .bin k l => (5, -99, k, l, -99)
  | .segment h => (99, -99, -99, -99, h)

def Loc.indices (l : Loc) : Int × Int × Int × Int × Int := (l.ires, l.chemdat, l.mru, l.nac, l.hydro)

/-- Every MRU has the largest number of bins. -/
def Dims.Uniform (d : Dims) : Prop := ∀ k, 1 ≤ k → k ≤ d.nmru → d.nacsc k = d.nac

/-- A reactant of kind `j` is given for the reservoir by the initialisation parameters. -/
def Given (p : Initial) (j : Nat) : Reservoir → Prop
  | .pure => False
  | .data _ => False
  | .hill kind k => kind ≤ 9 ∧ p.set j kind k ≠ -1
  | .bin k l => p.uz j k l ≠ -1
  | .segment h => 0 < h ∧ p.hydro j h ≠ -1

/-! ### Fractions -/

/-- Solutions whose fraction may be negative: 1 is the pure water removed by evaporation, 2 and the
snowpacks at the beginning of the step (102mmm000) are used for melt. -/
def MayBeNegative (n : Int) : Prop := n = 1 ∨ n = 2 ∨ (102000000 ≤ n ∧ n < 103000000)

instance (n : Int) : Decidable (MayBeNegative n) := by unfold MayBeNegative; infer_instance

/-- The sum as computed: one rounded addition after the other. -/
def roundedSum (rd : Rat → Rat) (l : List Rat) : Rat := l.foldl (fun s x => rd (s + x)) 0

end Verif.SolnNum
