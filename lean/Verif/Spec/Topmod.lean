import Verif.Model.Topmod
/-
Specification for C38, C56 and C57.
-/
namespace Verif.Topmod

/-- Parameters within their documented ranges. -/
structure Mru.Ok (m : Mru) : Prop where
  pmacro : 0 ≤ m.pmacro ∧ m.pmacro ≤ 1
  pmacSat : 0 ≤ m.pmacSat ∧ m.pmacSat ≤ 1
  qdffrac : 0 ≤ m.qdffrac ∧ m.qdffrac ≤ 1
  covSum : 0 ≤ m.covSum ∧ m.covSum ≤ 1
  covWin : 0 ≤ m.covWin ∧ m.covWin ≤ 1
  moisture : m.wp < m.fc
  td : 0 ≤ m.td
  root : 0 < m.root
  ac : ∀ b ∈ m.bins, 0 ≤ b.1

/-- The infiltration solver never goes back behind what has infiltrated before; powers of ten are not
negative. -/
structure Fn.Ok (fn : Fn) : Prop where
  forward : ∀ m xk n r dt pd f, (fn.solve m xk n r dt pd).1 = some f → pd.cumf ≤ f
  pow10 : ∀ x, 0 ≤ fn.pow10 x

/-- The area the bins cover, as a fraction of the MRU. -/
def covered (m : Mru) : Rat := (acfs (m.bins.map (·.1))).sum

/-- Water stored, as a depth over the MRU: drainable water in the unsaturated zone less the deficits of
root zone and saturated zone. -/
def storage (m : Mru) (st : St) : Rat :=
  (List.zipWith (fun a (b : BinSt) => a * (b.suz - b.srz)) (acfs (m.bins.map (·.1))) st.bins).sum - st.sbar

/-- The sum of a flux of the bins, each weighted with the part of the unit it covers. -/
def total (m : Mru) (o : Out) (f : Flux → Rat) : Rat :=
  (List.zipWith (fun a x => a * f x) (acfs (m.bins.map (·.1))) o.flux).sum

/-- Water entering during a step. -/
def inflow (o : Out) : Rat := o.surfdep + o.gwIn1 + o.gwIn2

/-- Water leaving during a step: discharge, evapotranspiration, deep loss, and pumping of `irrSat` inches. -/
def outflow (i : In) (o : Out) : Rat := o.qout + o.sae + o.gwLoss + i.irrSat * (254 / 10000)

/-- The root-zone deficit lies between 0 and its maximum; unsaturated storage is not negative. -/
structure BinSt.Ok (m : Mru) (b : BinSt) : Prop where
  srz : 0 ≤ b.srz ∧ b.srz ≤ (m.fc - m.wp) * m.root
  suz : 0 ≤ b.suz

structure St.Ok (m : Mru) (st : St) : Prop where
  bins : st.bins.length = m.bins.length
  ok : ∀ b ∈ st.bins, b.Ok m

/-- Water reaching the soil is not negative. -/
def In.Ok (i : In) : Prop := 0 ≤ i.snowmelt + i.psoil

/-- The water of bin `k` above the water table, as published, is what the storages and the water table
say; this only concerns bins with an area. -/
def Published (m : Mru) (st : St) (k : Nat) : Prop :=
  ∀ b a, st.bins[k]? = some b → (acfs (m.bins.map (·.1)))[k]? = some a → a ≠ 0 →
    b.depth = (m.fc - m.wp) * m.root - b.srz + m.wp * m.root + b.suz +
      (if b.zwt < -m.root then (-m.root - b.zwt) * m.fc else 0)

end Verif.Topmod
