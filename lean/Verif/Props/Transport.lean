import Verif.Lemmas.TransportSum
/-
C113: solutes move with the water.  C114: the solute of a unit is conserved.
-/
namespace Verif.Transport
open Verif.Reservoir (Vol Rows BinOut Par In sumOf fall inch2m Start BinIn)

/-! ### C113 -/

/-- C113: whatever the reactions, in a unit each solution mixed is made of the solutions of its sources in proportion to
the volumes of water, and solutions of other units, of streams and of inputs stay as they are. -/
theorem C113_unit_partial (rx : Ent → Sol → Sol) (hd : Dry rx) (f : Flow) (ho : f.Ok) (hr : f.Regular) (s : St)
    (hF : Full s.sol) :
    Full (flow rx f s).sol ∧ (∀ k, ¬ k.of f.unit → (flow rx f s).sol k = s.sol k) ∧ Moved rx f s (flow rx f s) := by
  obtain ⟨h1, h2, h3⟩ := flow_moved hd ho hr s hF
  refine ⟨h1, fun k hk => h2 k fun hc => hk ?_, h3⟩
  rcases hc with hc | ⟨t, i, rfl⟩
  · simp only [List.mem_cons, List.not_mem_nil, or_false] at hc
    rcases hc with rfl | rfl | rfl | rfl | rfl | rfl | rfl | rfl | rfl | rfl | rfl | rfl | rfl | rfl | rfl | rfl | rfl | rfl <;> rfl
  · rfl

/-! ### C114 -/

/-- C114: without reactions the solute of a unit is conserved. -/
theorem C114_unit_partial (rx : Ent → Sol → Sol) (hi : Inert rx) (f : Flow) (ho : f.Ok) (hr : f.Regular) (s : St)
    (hF : Full s.sol) (h9 : 0 < f.prefMax ∨ f.r.satpref.init = 0 ∨ at_ s (f.key true 9) = at_ s (f.key false 9)) :
    Kept f s (flow rx f s) :=
  moved_held hi ho s _ (flow_moved hi.1 ho hr s hF).2.2 h9 hr.pref

/-! ### Examples -/

/-- A flow from the fluxes of a step of `webmod_res`. -/
def Flow.make (p : Par) (b : Start) (i : In) (quz ion : Rat) : Flow :=
  match Reservoir.step p b i with
  | some (r, e) => ⟨2, p, i, r, e.bins, quz, 1, ion, 1, 1, 2, 3, true⟩
  | none => ⟨2, p, i, ⟨false, {}, {}, {}, [], {}, {}, {}, {}, {}, {}, {}, {}⟩, [], quz, 1, ion, 1, 1, 2, 3, true⟩

theorem Flow.make_ok (p : Par) (b : Start) (i : In) (quz ion : Rat) (hs : (Reservoir.step p b i).isSome = true) (hp : p.Ok)
    (hi : i.Ok p) (hk : i.Pack p b) (hb : b.uz.length = p.ac.length) (hn : (Flow.make p b i quz ion).Nonneg) :
    (Flow.make p b i quz ion).Ok := by
  cases hst : Reservoir.step p b i with
  | none => rw [hst] at hs; exact absurd hs (by simp)
  | some x =>
    obtain ⟨r, e⟩ := x
    have : Flow.make p b i quz ion = ⟨2, p, i, r, e.bins, quz, 1, ion, 1, 1, 2, 3, true⟩ := by
      unfold Flow.make; rw [hst]
    rw [this] at hn ⊢
    exact ⟨hp, hi, ⟨b, e, hst, rfl, hk, hb⟩, hn⟩

/-- A unit with snow, rain and irrigation from all sources. -/
def park : Par := ⟨1, 1 / 2, 1 / 4, 1 / 1000, [0, 4 / 10, 6 / 10], [true, false, false], 1, true, true⟩

def before : Start :=
  { transp := false, can := 1000, snow := 25400, ohoriz := 2000, uz := [10000, 10000, 10000], uzgen := 30000, uzrip := 10000, uzup := 20000,
    qdf := 100, sat := 300000, satpref := 100, hill := 0, mru := 368600 }

def rain : In :=
  { dep := 1, ppt := 7 / 10, irrSat := 1 / 10, irrHyd := 1 / 10, irrExt := 1 / 10, transp := false, netDep := 7 / 8,
    intcpEvap := 1 / 100, pkwater := 11 / 10, snowmelt := 1 / 4, psoil := 1 / 2, snowEvap := 1 / 40, sae := 1 / 1000,
    qof := 105 / 100000, rex := 0, qofs := 0, qvpref := 0, qb := 1 / 1000, qpref := 1 / 1000, gwLoss := 1 / 2000,
    gwIn1 := 1 / 1000, gwIn2 := 1 / 2000,
    bins := [⟨1 / 1000, 18 / 1000, 1 / 1000, 1 / 2000, 0, 0⟩, ⟨1 / 1000, 18 / 1000, 1 / 2000, 1 / 1000, 1 / 4000, 0⟩,
      ⟨1 / 1000, 18 / 1000, 2 / 1000, 1 / 1000, 0, -1 / 1000⟩] }

def rainy : Flow := Flow.make park before rain (1 / 1000) 1

/-- Solutions of different concentrations. -/
def salt : Key → Sol
  | .pure => ⟨1, 0⟩
  | .data i => ⟨1, i / 10⟩
  | .hill _ k _ => ⟨1, k⟩
  | .bin _ _ j => ⟨1, 20 + j⟩
  | .seg _ h => ⟨1, 30 + h⟩

def begun : St := ⟨salt, 0, 0, false, []⟩

theorem begun_full : Full begun.sol := ⟨fun k => by cases k <;> rfl, rfl⟩

theorem park_ok : park.Ok := by
  refine ⟨by decide +kernel, by decide +kernel, by decide +kernel, by decide +kernel, rfl, Or.inr (by decide +kernel)⟩

theorem rain_ok : rain.Ok park := by
  refine ⟨rfl, by decide +kernel, Or.inr (by decide +kernel), by decide +kernel, by decide +kernel, by decide +kernel, by decide +kernel,
    by decide +kernel⟩

theorem rainy_ok : rainy.Ok :=
  Flow.make_ok _ _ _ _ _ (by decide +kernel) park_ok rain_ok ⟨by decide +kernel, by decide +kernel, by decide +kernel⟩ rfl
    ⟨by decide +kernel, by decide +kernel, by decide +kernel⟩

theorem rainy_regular : rainy.Regular := by
  constructor <;> decide +kernel

/-- The hypotheses of C113 and C114 hold in this case, and solutes do move. -/
example : Kept rainy begun (flow (fun _ s => s) rainy begun) ∧
    at_ (flow (fun _ s => s) rainy begun) (rainy.key true 4) ≠ at_ begun (rainy.key true 4) :=
  ⟨C114_unit_partial _ ⟨fun _ _ => rfl, fun _ _ => rfl⟩ rainy rainy_ok rainy_regular begun begun_full (Or.inl (by decide +kernel)), by decide +kernel⟩

/-! ### What the mixing does not provide for -/

/-- Nothing reacts. -/
def calm (_ : Ent) (s : Sol) : Sol := s

instance (f : Flow) (s s' : St) : Decidable (Kept f s s') := inferInstanceAs (Decidable (_ = _))

/-- C114 fails where irrigation water bypasses the unsaturated zone: the mix of inputs of the saturated zone leaves it
out. -/
def shortcut : In := { rain with qvpref := 1 / 1000, bins := [⟨1 / 1000, 17 / 1000, 1 / 1000, 1 / 2000, 0, 0⟩,
  ⟨1 / 1000, 17 / 1000, 1 / 2000, 1 / 1000, 1 / 4000, 0⟩, ⟨1 / 1000, 17 / 1000, 2 / 1000, 1 / 1000, 0, -1 / 1000⟩] }

theorem C114_bypass_violated : ∃ f : Flow, f.Ok ∧ f.zero = false ∧ 0 < f.r.sat.well ∧
    Full begun.sol ∧ ¬ Kept f begun (flow calm f begun) := by
  refine ⟨Flow.make park before shortcut (1 / 1000) 1, Flow.make_ok _ _ _ _ _ (by decide +kernel) park_ok ?_
    ⟨by decide +kernel, by decide +kernel, by decide +kernel⟩ rfl ⟨by decide +kernel, by decide +kernel, by decide +kernel⟩,
    by decide +kernel, by decide +kernel, begun_full, by decide +kernel⟩
  refine ⟨rfl, by decide +kernel, Or.inr (by decide +kernel), by decide +kernel, by decide +kernel, by decide +kernel, by decide +kernel,
    by decide +kernel⟩

/-- C114 fails where a bin gives water to preferential flow but none to the saturated zone: the mix of recharge leaves
the bin out. -/
def straight : In := { rain with bins := [⟨1 / 1000, 18 / 1000, 1 / 1000, 1 / 2000, 0, 0⟩,
  ⟨1 / 1000, 18 / 1000, 0, 1 / 1000, 1 / 4000, 0⟩, ⟨1 / 1000, 18 / 1000, 2 / 1000, 1 / 1000, 0, -1 / 1000⟩] }

theorem C114_recharge_violated : ∃ f : Flow, f.Ok ∧ f.zero = false ∧ (∃ b ∈ f.bins, b.toSat = 0 ∧ 0 < b.toQdf) ∧
    Full begun.sol ∧ ¬ Kept f begun (flow calm f begun) := by
  refine ⟨Flow.make park before straight (1 / 1000) 1, Flow.make_ok _ _ _ _ _ (by decide +kernel) park_ok ?_
    ⟨by decide +kernel, by decide +kernel, by decide +kernel⟩ rfl ⟨by decide +kernel, by decide +kernel, by decide +kernel⟩,
    by decide +kernel, by decide +kernel, begun_full, by decide +kernel⟩
  refine ⟨rfl, by decide +kernel, Or.inr (by decide +kernel), by decide +kernel, by decide +kernel, by decide +kernel, by decide +kernel,
    by decide +kernel⟩

/-- C114 fails where the water table rises and there is no percolation (`quz`): no recharge is mixed, the solution of an
earlier step is used. -/
def rising : In := { rain with bins := [⟨1 / 1000, 18 / 1000, 0, 0, 0, 1 / 1000⟩,
  ⟨1 / 1000, 18 / 1000, 0, 0, 1 / 4000, 1 / 1000⟩, ⟨1 / 1000, 18 / 1000, 0, 0, 0, 1 / 1000⟩] }

theorem C114_rise_violated : ∃ f : Flow, f.Ok ∧ f.zero = false ∧ f.quz = 0 ∧ 0 < f.r.sat.uz ∧
    Full begun.sol ∧ ¬ Kept f begun (flow calm f begun) := by
  refine ⟨Flow.make park before rising 0 1, Flow.make_ok _ _ _ _ _ (by decide +kernel) park_ok ?_
    ⟨by decide +kernel, by decide +kernel, by decide +kernel⟩ rfl ⟨by decide +kernel, by decide +kernel, by decide +kernel⟩,
    by decide +kernel, by decide +kernel, by decide +kernel, begun_full, by decide +kernel⟩
  refine ⟨rfl, by decide +kernel, Or.inr (by decide +kernel), by decide +kernel, by decide +kernel, by decide +kernel, by decide +kernel,
    by decide +kernel⟩

/-- C114 fails with `snow_ion_factor` above 1 on a day with sublimation: melt water has the concentration before
sublimation. -/
theorem C114_pulse_violated : ∃ f : Flow, f.Ok ∧ f.zero = false ∧ 1 < f.ion ∧ 0 < f.r.snow.et ∧ Full begun.sol ∧
    ¬ Kept f begun (flow calm f begun) := by
  refine ⟨Flow.make park before rain (1 / 1000) 2, Flow.make_ok _ _ _ _ _ (by decide +kernel) park_ok rain_ok
    ⟨by decide +kernel, by decide +kernel, by decide +kernel⟩ rfl ⟨by decide +kernel, by decide +kernel, by decide +kernel⟩,
    by decide +kernel, by decide +kernel, by decide +kernel, begun_full, by decide +kernel⟩

/-- C114 fails where an empty bin receives water: it is not mixed. -/
theorem C114_empty_violated : ∃ f : Flow, f.Ok ∧ f.zero = false ∧ (∃ b ∈ f.bins, b.vol.init = 0 ∧ 0 < b.vol.inp) ∧ Full begun.sol ∧
    ¬ Kept f begun (flow calm f begun) := by
  refine ⟨Flow.make park { before with uz := [10000, 0, 10000] } rain (1 / 1000) 1,
    Flow.make_ok _ _ _ _ _ (by decide +kernel) park_ok rain_ok
    ⟨by decide +kernel, by decide +kernel, by decide +kernel⟩ rfl ⟨by decide +kernel, by decide +kernel, by decide +kernel⟩,
    by decide +kernel, by decide +kernel, begun_full, by decide +kernel⟩

/-- C114 fails where the canopy holds back irrigation water on a day without rain and evaporation: it is taken as
unchanged. -/
def drops : In :=
  { rain with
    dep := 3 / 10, ppt := 0, netDep := 9 / 40, psoil := 9 / 40, intcpEvap := 0,
    pkwater := 1 - 1 / 4 - 1 / 40, sae := 0, qof := 65 / 1000000, bins := [⟨0, 12 / 1000, 1 / 1000, 1 / 2000, 0, 0⟩,
  ⟨0, 12 / 1000, 1 / 2000, 1 / 1000, 1 / 4000, 0⟩, ⟨0, 12 / 1000, 2 / 1000, 1 / 1000, 0, -1 / 1000⟩] }

theorem C114_canopy_violated : ∃ f : Flow, f.Ok ∧ f.zero = false ∧ f.r.can.ppt = 0 ∧ 0 < f.r.can.well ∧ Full begun.sol ∧
    ¬ Kept f begun (flow calm f begun) := by
  refine ⟨Flow.make park before drops (1 / 1000) 1, Flow.make_ok _ _ _ _ _ (by decide +kernel) park_ok ?_
    ⟨by decide +kernel, by decide +kernel, by decide +kernel⟩ rfl ⟨by decide +kernel, by decide +kernel, by decide +kernel⟩,
    by decide +kernel, by decide +kernel, by decide +kernel, begun_full, by decide +kernel⟩
  refine ⟨rfl, by decide +kernel, Or.inl (by decide +kernel), by decide +kernel, by decide +kernel, by decide +kernel, by decide +kernel,
    by decide +kernel⟩

/-- C114 fails when leaves come on a day with overland flow and transpiration: the canopy takes its water from the
O-horizon after this has been mixed. -/
def spring : In := { rain with transp := true, dep := 1, netDep := 1 / 2, psoil := 1 / 2, pkwater := 1 - 1 / 4 - 1 / 40 }

theorem C114_leaves_violated : ∃ f : Flow, f.Ok ∧ f.zero = false ∧ 0 < f.r.can.ohoriz ∧ 0 < f.r.can.uz ∧ Full begun.sol ∧
    ¬ Kept f begun (flow calm f begun) := by
  refine ⟨Flow.make park before spring (1 / 1000) 1, Flow.make_ok _ _ _ _ _ (by decide +kernel) park_ok ?_
    ⟨by decide +kernel, by decide +kernel, by decide +kernel⟩ rfl ⟨by decide +kernel, by decide +kernel, by decide +kernel⟩,
    by decide +kernel, by decide +kernel, by decide +kernel, begun_full, by decide +kernel⟩
  refine ⟨rfl, by decide +kernel, Or.inl (by decide +kernel), by decide +kernel, by decide +kernel, by decide +kernel, by decide +kernel,
    by decide +kernel⟩

end Verif.Transport
