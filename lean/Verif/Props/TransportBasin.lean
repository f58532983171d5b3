import Verif.Lemmas.TransportBasin
import Verif.Props.Transport
/-
C115 Solutes move with the water in the streams.
C116 Solutes are conserved in the basin.
-/
namespace Verif.Transport
open Verif.Reservoir (Par In Start Basin BasinOut Chan StreamIn Rows)

/-- C115: in each step, what leaves a segment is what was in the segment and what came from the hillslopes, reacted once; no
solution but those of the streams (and the one used for mixing) changes. -/
theorem C115_routed (rx : Ent → Sol → Sol) (hd : Dry rx) (gs : List Seg) (hg : ∀ g ∈ gs, g.Ok) (s : St) (hF : Full s.sol) :
    Full (segLoop rx 1 gs s).sol ∧ (∀ k : Key, ¬ k.stream → (segLoop rx 1 gs s).sol k = s.sol k) ∧ Routed rx gs s (segLoop rx 1 gs s) :=
  segLoop_routed hd gs hg s hF

/-- C115: the volumes mixed are those of `webmod_res`: a segment passes on what it held and what came from the hillslopes. -/
theorem C115_volumes (b : Basin) (n : Nat) (hb : b.Ok n) (units : List (Par × In × Rows)) (si : StreamIn) (init : Rat)
    (stream : List Rat) (hn : stream.length = n) (o : BasinOut) (h : Reservoir.basin b units si init stream = some o)
    (us : List Nat) (hu : us.length = units.length) :
    (segs us o).length = n ∧ ∀ j g, (segs us o)[j]? = some g →
      g.down = stream.getD j 0 + g.fresh ∧ g.down = (o.discharge :: o.stream).getD j 0 ∧ g.hill.map (·.1) = us := by
  obtain ⟨h1, h2, h3, h4, h5⟩ := basin_streams b n hb units si init stream hn o h
  refine ⟨by rw [segs_length, h1], ?_⟩
  intro j g hg
  refine ⟨segs_link b n hb units si init stream hn o h us hu j g hg, ?_⟩
  obtain ⟨hj, rfl⟩ := segs_at us o j g hg
  refine ⟨rfl, ?_⟩
  exact List.map_fst_zip (by rw [List.length_map, h3]; omega)

/-- C115: solutes that do not react are conserved in the streams where no water is taken or lost.  Missing: streams with
diversions or channel losses, see `C115_taken_violated`. -/
theorem C115_conserved_partial (rx : Ent → Sol → Sol) (hi : Inert rx) (b : Basin) (n : Nat) (hb : b.Ok n)
    (units : List (Par × In × Rows)) (si : StreamIn) (init : Rat) (stream : List Rat) (hn : stream.length = n) (o : BasinOut)
    (h : Reservoir.basin b units si init stream = some o) (us : List Nat) (hu : us.length = units.length) (s : St) (hF : Full s.sol)
    (hg : ∀ g ∈ segs us o, g.Ok) (ht : ∀ g ∈ segs us o, g.taken = 0 ∧ g.loss = 0) :
    o.discharge * at_ (segLoop rx 1 (segs us o) s) (.seg true 0) + inStream true 1 o.stream (segLoop rx 1 (segs us o) s) =
      inStream false 1 stream s + ((segs us o).map fun g => g.freshMol s).sum := by
  obtain ⟨-, -, l3⟩ := segLoop_routed hi.1 _ hg s hF
  have := stream_mol hi b n hb units si init stream hn o h us hu s _ l3
  have e := excess_zero false (segs us o) s (segLoop rx 1 (segs us o) s) ht
  unfold excess at e
  rw [e, overSegs_map] at this
  linarith

/-- C115: where water is taken or lost, its solute stays in the streams: it is replaced by as much water of the segment.  So
the streams hold `(taken + loss) · c` more than they should, `c` the concentration of the segment at the start of the
step. -/
theorem C115_taken_violated (rx : Ent → Sol → Sol) (hi : Inert rx) (b : Basin) (n : Nat) (hb : b.Ok n)
    (units : List (Par × In × Rows)) (si : StreamIn) (init : Rat) (stream : List Rat) (hn : stream.length = n) (o : BasinOut)
    (h : Reservoir.basin b units si init stream = some o) (us : List Nat) (hu : us.length = units.length) (s : St) (hF : Full s.sol)
    (hg : ∀ g ∈ segs us o, g.Ok) :
    o.discharge * at_ (segLoop rx 1 (segs us o) s) (.seg true 0) + inStream true 1 o.stream (segLoop rx 1 (segs us o) s) +
        overSegs (fun j g => (g.taken + g.loss) * at_ (segLoop rx 1 (segs us o) s) (.seg true j)) 0 (segs us o) =
      inStream false 1 stream s + ((segs us o).map fun g => g.freshMol s).sum +
        overSegs (fun j g => (g.taken + g.loss) * at_ s (.seg false (j + 1))) 0 (segs us o) := by
  obtain ⟨-, -, l3⟩ := segLoop_routed hi.1 _ hg s hF
  have := stream_mol hi b n hb units si init stream hn o h us hu s _ l3
  rw [overSegs_map] at this
  have e := overSegs_sub (fun j g => (g.taken + g.loss) * at_ s (.seg false (j + 1)))
    (fun j g => (g.taken + g.loss) * at_ (segLoop rx 1 (segs us o) s) (.seg true j)) 0 (segs us o)
  simp only [mul_sub] at this
  rw [e] at this
  linarith

/-- C116: in a step of volumes and transport, solutes that do not react are conserved in the basin: what it holds after the
step and what was discharged is what it held before, with what the units received.  `excess` is zero where no water is
taken from the streams or lost (`C116_tight_partial`).  Missing: flows that the mixing sequence does not provide for (C114),
and diversions and channel losses (C115).  In the first step, the solutions of deep preferential paths that have no flow are
not carried over. -/
theorem C116_step_partial (rx : Ent → Sol → Sol) (hi : Inert rx) (first : Bool) (b : Basin) (ps : List (Par × Site)) (n : Nat)
    (hb : b.Ok n) (v : Reservoir.St) (s : St) (x : List In × StreamIn × List Rat) (hv : Sized ps n v) (hx : Fits ps x)
    (hF : Full s.sol) (v' : Reservoir.St) (s' : St) (o : Reservoir.Out) (fs : List Flow)
    (h : couple rx first b ps v s x = some (v', s', o, fs)) (hs : Smooth (v', s', o, fs))
    (h9 : first = true → ∀ f ∈ fs, 0 < f.prefMax ∨ f.r.satpref.init = 0) :
    inBasin true v' s' + o.basin.discharge * at_ s' (.seg true 0) =
      inBasin (!first) v s + (fs.map fun f => received f (begin first fs n s) s').sum +
        excess (!first) (segs (fs.map (·.unit)) o.basin) s s' :=
  (couple_kept hi hb hv hx hF h hs.1 hs.2 h9).2

theorem C116_tight_partial (rx : Ent → Sol → Sol) (hi : Inert rx) (first : Bool) (b : Basin) (ps : List (Par × Site)) (n : Nat)
    (hb : b.Ok n) (v : Reservoir.St) (s : St) (x : List In × StreamIn × List Rat) (hv : Sized ps n v) (hx : Fits ps x)
    (hF : Full s.sol) (v' : Reservoir.St) (s' : St) (o : Reservoir.Out) (fs : List Flow)
    (h : couple rx first b ps v s x = some (v', s', o, fs)) (hs : Smooth (v', s', o, fs))
    (h9 : first = true → ∀ f ∈ fs, 0 < f.prefMax ∨ f.r.satpref.init = 0)
    (ht : ∀ g ∈ segs (fs.map (·.unit)) o.basin, g.taken = 0 ∧ g.loss = 0) :
    inBasin true v' s' + o.basin.discharge * at_ s' (.seg true 0) =
      inBasin (!first) v s + (fs.map fun f => received f (begin first fs n s) s').sum := by
  have := (couple_kept hi hb hv hx hF h hs.1 hs.2 h9).2
  rw [excess_zero _ _ _ _ ht] at this
  linarith

/-- C116 for all steps of a run. -/
theorem C116_run_partial (rx : Ent → Sol → Sol) (hi : Inert rx) (b : Basin) (ps : List (Par × Site)) (n : Nat) (hb : b.Ok n)
    (xs : List (List In × StreamIn × List Rat)) (first : Bool) (v : Reservoir.St) (s : St) (hx : ∀ x ∈ xs, Fits ps x)
    (hv : Sized ps n v) (hF : Full s.sol) (rs : List (Reservoir.St × St × Reservoir.Out × List Flow))
    (h : run rx b ps first v s xs = some rs) (hs : ∀ r ∈ rs, Smooth r)
    (h9 : first = true → ∀ r, rs[0]? = some r → ∀ f ∈ r.2.2.2, 0 < f.prefMax ∨ f.r.satpref.init = 0)
    (r : Reservoir.St × St × Reservoir.Out × List Flow) (hr : rs.getLast? = some r) :
    inBasin true r.1 r.2.1 = inBasin (!first) v s + net n first s rs := by
  induction xs generalizing first v s rs with
  | nil =>
    simp only [run, Option.some.injEq] at h
    subst h
    exact absurd hr (by simp)
  | cons x xs ih =>
    unfold run at h
    cases hc : couple rx first b ps v s x with
    | none => rw [hc] at h; exact absurd h (by simp)
    | some q =>
      obtain ⟨v', s', o, fs⟩ := q
      rw [hc] at h
      simp only [Option.map_eq_some_iff] at h
      obtain ⟨rs', h', rfl⟩ := h
      have hx0 := hx x List.mem_cons_self
      have hs0 := hs _ List.mem_cons_self
      obtain ⟨k1, k2⟩ := couple_kept hi hb hv hx0 hF hc hs0.1 hs0.2 fun hf => h9 hf _ rfl
      have hv' := couple_sized hb hv hx0 hc
      simp only [net]
      cases rs' with
      | nil =>
        simp only [List.getLast?_singleton, Option.some.injEq] at hr
        subst hr
        simp only [net]
        linarith
      | cons a rs' =>
        have := ih false v' s' (fun y hy => hx y (List.mem_cons_of_mem _ hy)) hv' k1 (a :: rs') h'
          (fun r hr => hs r (List.mem_cons_of_mem _ hr)) (fun hf => absurd hf (by simp)) (by rwa [List.getLast?_cons_cons] at hr)
        rw [this]
        simp only [Bool.not_false]
        linarith

/-! ### A basin of two units and two segments -/

def creek : Basin := ⟨2, [⟨[3 / 4, 1 / 4], 2⟩]⟩

def plot : Par × Site := (park, ⟨1, 1, 1, 1, 2, 3, true⟩)

def wet : Reservoir.St := ⟨[before, before], 757200, [15000, 5000]⟩

/-- Rain, with irrigation from the stream and channel losses. -/
def day1 : List In × StreamIn × List Rat := ([rain, rain], ⟨[5080, 0], [0, 1 / 1000]⟩, [1 / 1000, 1 / 1000])

def fog : In :=
  { dep := 0, ppt := 0, irrSat := 0, irrHyd := 0, irrExt := 0, transp := false, netDep := 0,
    intcpEvap := 1 / 100, pkwater := 11 / 10, snowmelt := 0, psoil := 0, snowEvap := 0, sae := 0,
    qof := 0, rex := 0, qofs := 0, qvpref := 0, qb := 1 / 1000, qpref := 1 / 1000, gwLoss := 1 / 2000,
    gwIn1 := 1 / 1000, gwIn2 := 1 / 2000,
    bins := [⟨0, 0, 1 / 1000, 1 / 2000, 0, 0⟩, ⟨0, 0, 1 / 2000, 1 / 1000, 1 / 4000, 0⟩,
      ⟨0, 0, 2 / 1000, 1 / 1000, 0, -1 / 1000⟩] }

/-- A dry day. -/
def day2 : List In × StreamIn × List Rat := ([fog, fog], ⟨[0, 0], [0, 0]⟩, [1 / 1000, 1 / 1000])

instance (f : Flow) : Decidable f.Nonneg :=
  decidable_of_iff ((∀ v ∈ [f.r.can, f.r.snow, f.r.ohoriz, f.r.qdf, f.r.sat, f.r.satpref, f.r.hill], ∀ x ∈ Vol.entries v, 0 ≤ x) ∧
      (∀ b ∈ f.bins, (∀ x ∈ Vol.entries b.vol, 0 ≤ x) ∧ 0 ≤ b.toCan ∧ 0 ≤ b.toSat ∧ 0 ≤ b.toQdf) ∧ 0 ≤ f.i.gwLoss)
    ⟨fun h => ⟨h.1, h.2.1, h.2.2⟩, fun h => ⟨h.1, h.2, h.3⟩⟩

instance (f : Flow) : Decidable f.Regular :=
  decidable_of_iff ((f.r.can.uz = 0 → f.r.can.out = 0 → f.r.can.ppt = 0 → f.r.can.et = 0 → f.r.can.inp = 0) ∧
      (0 < f.r.can.uz → 0 < f.r.can.ohoriz → f.r.ohoriz.inp = 0) ∧
      (∀ b ∈ f.bins, b.vol.init = 0 → b.vol.inp = 0 ∧ b.vol.out = 0) ∧ (∀ b ∈ f.bins, b.toSat = 0 → b.toQdf = 0) ∧
      (0 < f.quz ∨ f.r.qdf.uz + f.r.sat.uz = 0) ∧ (f.r.sat.well = 0 ∧ f.r.sat.div = 0 ∧ f.r.sat.ext = 0) ∧
      (f.ion ≤ 1 ∨ f.r.snow.et = 0) ∧ (0 < f.prefMax ∨ f.r.satpref.inp = 0) ∧
      (f.gwExt = true ∨ f.r.sat.gw1 = 0 ∧ f.r.sat.gw2 = 0) ∧ f.r.can.ohoriz ≤ f.r.ohoriz.init ∧
      f.sat2uz + f.well ≤ f.r.sat.init ∧ f.zero = false)
    ⟨fun ⟨a, b, c, d, e, g, h, i, j, k, l, m⟩ => ⟨a, b, c, d, e, g, h, i, j, k, l, m⟩,
      fun ⟨a, b, c, d, e, g, h, i, j, k, l, m⟩ => ⟨a, b, c, d, e, g, h, i, j, k, l, m⟩⟩

instance (g : Seg) : Decidable g.Ok :=
  decidable_of_iff (0 ≤ g.own ∧ 0 ≤ g.down ∧ 0 ≤ g.taken ∧ 0 ≤ g.loss ∧ (∀ u ∈ g.hill, 0 ≤ u.2) ∧ g.fresh ≤ g.whole)
    ⟨fun ⟨a, b, c, d, e, f⟩ => ⟨a, b, c, d, e, f⟩, fun ⟨a, b, c, d, e, f⟩ => ⟨a, b, c, d, e, f⟩⟩

theorem creek_ok : creek.Ok 2 := by
  refine ⟨by decide, by decide +kernel, ?_⟩
  intro c hc
  simp only [creek, List.mem_singleton] at hc
  subst hc
  exact ⟨rfl, by decide +kernel, by decide +kernel⟩

theorem wet_sized : Sized [plot, plot] 2 wet := by
  refine ⟨rfl, ?_, rfl⟩
  intro k p w hp hw
  rcases k with _ | _ | k
  · cases hp; cases hw; rfl
  · cases hp; cases hw; rfl
  · exact absurd hp (by simp)

theorem fits_two (i j : In) (si : StreamIn) (q r : Rat) (hi : i.bins.length = 3) (hj : j.bins.length = 3) :
    Fits [plot, plot] ([i, j], si, [q, r]) := by
  refine ⟨rfl, rfl, ?_⟩
  intro k p i' hp hi'
  rcases k with _ | _ | k
  · cases hp; cases hi'; exact hi
  · cases hp; cases hi'; exact hj
  · exact absurd hp (by simp)

theorem fog_ok : fog.Ok park := by
  refine ⟨rfl, by decide +kernel, Or.inl (by decide +kernel), by decide +kernel, by decide +kernel, by decide +kernel, by decide +kernel,
    by decide +kernel⟩

def evening : Reservoir.St × St × Reservoir.Out × List Flow :=
  (couple calm true creek [plot, plot] wet begun day1).get (by decide +kernel)

theorem evening_eq : couple calm true creek [plot, plot] wet begun day1 = some evening := (Option.some_get _).symm

theorem evening_smooth : Smooth evening := by
  refine couple_smooth wet_sized (fits_two rain rain _ _ _ rfl rfl) evening_eq (fun p hp => ?_) ?_ (by decide +kernel) (by decide +kernel)
  · simp only [List.mem_cons, List.not_mem_nil, or_false, or_self] at hp
    subst hp; exact park_ok
  · intro k p w i hp hw hi
    rcases k with _ | _ | k
    · cases hp; cases hw; cases hi; exact ⟨rain_ok, by decide +kernel, by decide +kernel, by decide +kernel⟩
    · cases hp; cases hw; cases hi; exact ⟨rain_ok, by decide +kernel, by decide +kernel, by decide +kernel⟩
    · exact absurd hp (by simp)

def night : Reservoir.St × St × Reservoir.Out × List Flow :=
  (couple calm false creek [plot, plot] evening.1 evening.2.1 day2).get (by decide +kernel)

theorem night_eq : couple calm false creek [plot, plot] evening.1 evening.2.1 day2 = some night := (Option.some_get _).symm

theorem night_smooth : Smooth night := by
  refine couple_smooth (couple_sized creek_ok wet_sized (fits_two rain rain _ _ _ rfl rfl) evening_eq)
    (fits_two fog fog _ _ _ rfl rfl) night_eq (fun p hp => ?_) ?_ (by decide +kernel) (by decide +kernel)
  · simp only [List.mem_cons, List.not_mem_nil, or_false, or_self] at hp
    subst hp; exact park_ok
  · intro k p w i hp hw hi
    have hsnow : ∀ w ∈ evening.1.units, w.snow = 27940 := by decide +kernel
    have hw' := hsnow w (List.mem_of_getElem? hw)
    have hpk : p = plot ∧ i = fog := by
      rcases k with _ | _ | k
      · cases hp; cases hi; exact ⟨rfl, rfl⟩
      · cases hp; cases hi; exact ⟨rfl, rfl⟩
      · exact absurd hp (by simp)
    obtain ⟨rfl, rfl⟩ := hpk
    exact ⟨fog_ok, by rw [hw']; decide +kernel, by decide +kernel, by decide +kernel⟩

theorem calm_inert : Inert calm := ⟨fun _ _ => rfl, fun _ _ => rfl⟩

theorem two_days : run calm creek [plot, plot] true wet begun [day1, day2] = some [evening, night] := by
  simp only [run, evening_eq, night_eq, Option.map_some]

/-- C116 applies to a run of two days. -/
example : inBasin true night.1 night.2.1 = inBasin false wet begun + net 2 true begun [evening, night] ∧
    inBasin true night.1 night.2.1 ≠ inBasin false wet begun :=
  ⟨C116_run_partial calm calm_inert creek [plot, plot] 2 creek_ok [day1, day2] true wet begun
    (by
      intro x hx
      simp only [List.mem_cons, List.not_mem_nil, or_false] at hx
      rcases hx with rfl | rfl
      · exact fits_two _ _ _ _ _ rfl rfl
      · exact fits_two _ _ _ _ _ rfl rfl)
    wet_sized begun_full [evening, night] two_days
    (by
      intro r hr
      simp only [List.mem_cons, List.not_mem_nil, or_false] at hr
      rcases hr with rfl | rfl
      · exact evening_smooth
      · exact night_smooth)
    (fun _ r hr => by cases hr; decide +kernel) night rfl, by decide +kernel⟩

/-- C116 fails for the run as a whole: water taken from the streams and lost leaves its solute behind. -/
theorem C116_taken_violated : ∃ r, couple calm true creek [plot, plot] wet begun day1 = some r ∧ Smooth r ∧
    inBasin true r.1 r.2.1 + r.2.2.1.basin.discharge * at_ r.2.1 (.seg true 0) +
        overSegs (fun j g => (g.taken + g.loss) * at_ begun (.seg false (j + 1))) 0 (segs (r.2.2.2.map (·.unit)) r.2.2.1.basin) ≠
      inBasin false wet begun + (r.2.2.2.map fun f => received f (begin true r.2.2.2 2 begun) r.2.1).sum :=
  ⟨evening, evening_eq, evening_smooth, by decide +kernel⟩

end Verif.Transport
