import Verif.Model.Route
import Verif.Spec.Top2c
/-
Specification for C39, C40 and C55.
-/
namespace Verif.Route

/-- A distance-area table as documented: at least two points, distances not negative and growing, the
drained share growing from a value not negative to 1. -/
structure Table.Ok (c : Table) : Prop where
  two : 2 ≤ c.pts.length
  dist : ∀ p ∈ c.pts, 0 ≤ p.1
  incr : c.pts.Pairwise fun p q => p.1 < q.1
  mono : c.pts.Pairwise fun p q => p.2 ≤ q.2
  share : ∀ p ∈ c.pts, 0 ≤ p.2
  full : ∀ p, c.pts.getLast? = some p → p.2 = 1
  frac : 0 ≤ c.frac

/-- `v` is the share of the area from which water reaches the outlet within `t` time steps: one beyond
the farthest point, linear between two neighbouring points of the table. -/
def Share (c : Table) (chvdt t v : Rat) : Prop :=
  (v = 1 ∧ ∀ p ∈ c.pts, p.1 / chvdt < t) ∨
  ∃ l p q r, c.pts = l ++ p :: q :: r ∧ p.1 / chvdt < t ∧ t ≤ q.1 / chvdt ∧
    (v - p.2) * (q.1 - p.1) = (q.2 - p.2) * (t * chvdt - p.1)

/-- Water in the channels, m³: depths over the basin. -/
def stored (b : Basin) (st : St) : Rat := (st.q.map List.sum).sum * (b.area * 1000000)

/-- Discharge at the outlet during a step, m³. -/
def discharge (b : Basin) (o : Out) : Rat := o.qbasinm * (b.area * 1000000)

/-- Volume diverted for irrigation during a step, m³. -/
def diverted (o : Out) : Rat := (o.segs.map (·.taken)).sum

/-- A channel whose ordinates distribute its whole inflow (C40), with consistent areas. -/
structure Chan.Ok (c : Chan) (n : Nat) (basin : Rat) : Prop where
  len : c.ar.length = n ∧ c.len ≤ n
  nonneg : ∀ a ∈ c.ar, 0 ≤ a
  sum : c.ar.sum = c.frac
  frac : 0 < c.frac
  area : c.area = c.frac * basin

/-- A basin of `n` ≥ 1 segments with a positive area. -/
structure Basin.Ok (b : Basin) (n : Nat) : Prop where
  pos : 0 < n
  area : 0 < b.area
  chans : ∀ c ∈ b.chans, c.Ok n b.area
  vol : ∀ m ∈ b.mrus, 0 ≤ m.vol

/-- No channel losses. -/
def Basin.Tight (b : Basin) : Prop := ∀ x ∈ b.maxloss, x ≤ 0

/-- One inflow per channel; inflows and requests are not negative. -/
structure In.Ok (b : Basin) (i : In) : Prop where
  len : i.qin.length = b.chans.length
  qin : ∀ x ∈ i.qin, 0 ≤ x
  next : ∀ x ∈ i.next, 0 ≤ x

/-- One list of `n` depths, none negative, per channel. -/
structure St.Ok (b : Basin) (n : Nat) (st : St) : Prop where
  cols : st.q.length = b.chans.length
  len : ∀ col ∈ st.q, col.length = n
  nonneg : ∀ col ∈ st.q, ∀ x ∈ col, 0 ≤ x
  hyd : st.hyd.length = b.mrus.length

/-- Water at depth `x`, received per step, leaves along the ordinates: the convolution at step `t`. -/
def convolution (xs ar : List Rat) (t : Nat) : Rat :=
  ((List.range (t + 1)).map fun k => xs.getD k 0 * ar.getD (t - k) 0).sum

/-- Segments beyond the length of the channel hold nothing and receive nothing. -/
def Beyond (c : Chan) (col : List Rat) : Prop :=
  1 ≤ c.len ∧ ∀ j : Nat, c.len ≤ j → col.getD j 0 = 0 ∧ c.ar.getD j 0 = 0

/-- The irrigation depths for the next step, as a volume from segment `k` (numbered from 0). -/
def delivered (k : Nat) (mrus : List Irr) (hyd : List Rat) : Rat :=
  Top2c.sumFor (fun m : Irr × Rat => m.1.src) (fun m => m.2 * m.1.vol) k (List.zip mrus hyd)

end Verif.Route
