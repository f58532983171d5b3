import Verif.Model.Snow
/-
Specification for C37 and C58.
-/
namespace Verif.Snow

/-- All water in the pack, mm: ice, liquid water, lagged and routed water. -/
def Pack.stored (p : Pack) : Rat := p.we + p.liqw + p.lagro.sum + p.storage

/-- Parameters within their documented ranges (`nwsmelt_topg.F:263-464`). -/
structure Mru.Ok (m : Mru) : Prop where
  daygm : 0 ≤ m.daygm
  mf : 0 ≤ m.mfmin ∧ m.mfmin ≤ m.mfmax ∧ 0 < m.mfmax
  plwhc : 0 ≤ m.plwhc
  subrate : 0 ≤ m.subrate
  si : 0 ≤ m.si
  adc : m.adc.length = 11

/-- The functions of the library. -/
structure Fn.Ok (fn : Fn) : Prop where
  sin : ∀ x, -1 ≤ fn.sin x ∧ fn.sin x ≤ 1
  exp : ∀ x ≤ 0, 0 < fn.exp x ∧ fn.exp x ≤ 1
  pow13 : ∀ x > 0, 0 < fn.pow13 x

/-- No store is negative, the cover is a fraction, and without ice, or without cover, there is no other water
in the pack. -/
structure Pack.Ok (p : Pack) : Prop where
  we : 0 ≤ p.we
  liqw : 0 ≤ p.liqw
  lagro : ∀ x ∈ p.lagro, 0 ≤ x
  storage : 0 ≤ p.storage
  cover : 0 ≤ p.aesc ∧ p.aesc ≤ 1
  lags : 2 ≤ p.lagro.length
  vanished : p.we = 0 → p.stored = 0
  bare : p.aesc = 0 → p.stored = p.we

/-- No flow is negative. -/
structure Out.Ok (o : Out) : Prop where
  melt : 0 ≤ o.day.melt
  soil : 0 ≤ o.day.soil
  evap : 0 ≤ o.day.evap
  snow : 0 ≤ o.day.snow
  rain : 0 ≤ o.day.rain

/-- The water leaving the pack and the unit during a day, inches. -/
def Out.leaving (o : Out) : Rat := o.day.melt + o.day.soil + o.day.evap

end Verif.Snow
