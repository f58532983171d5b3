import Verif.Lemmas.ReservoirKeep
import Verif.Lemmas.ReservoirBasin
import Verif.Props.Snow
import Verif.Props.Intcp
/-
C103: each reservoir keeps its books.  C104: what leaves one reservoir enters another.  C105: the volumes are those of
the other modules.
-/
namespace Verif.Reservoir

/-! ### C103 -/

/-- C103, one step: every row starts with the volume kept from the step before, its input is the sum of its sources, its
final volume is kept for the next step, and except for snow it is initial plus input less output and evaporation. -/
theorem C103_step (p : Par) (s : Start) (i : In) (r : Rows) (e : Extra) (h : step p s i = some (r, e)) (q : Res) (v : Vol)
    (hv : r.row q = some v) :
    v.Summed ∧ s.vol q = some v.init ∧ r.next.vol q = some v.fin ∧ (q ≠ .snow → v.Balanced) :=
  step_rows p s i r e h q v hv

/-- C103: for snow this holds if the fluxes agree with each other and the snow module conserves water. -/
theorem C103_snow_partial (p : Par) (hp : p.Ok) (s : Start) (i : In) (hi : i.Ok p) (hk : i.Pack p s)
    (hx : s.uz.length = p.ac.length) (r : Rows) (e : Extra) (h : step p s i = some (r, e)) : r.snow.Balanced :=
  (step_closed p hp s i hi hk hx r e h).2

/-- C103, whole runs: the rows of a reservoir form a chain, and the last volume is the first plus all inputs less all
outputs and evaporation. -/
theorem C103_run (b : Basin) (ps : List Par) (k : Nat) (p : Par) (hp : ps[k]? = some p) (q : Res)
    (ins : List (List In × StreamIn)) (st : St) (rs : List (St × Out)) (h : runSteps b ps st ins = some rs)
    (hlen : ∀ x ∈ ins, x.1.length = ps.length)
    (hbin : ∀ x ∈ ins, ∀ i, x.1[k]? = some i → i.bins.length = p.ac.length)
    (s : Start) (hs : st.units[k]? = some s) (hu : s.uz.length = p.ac.length) (x : Rat) (hx : s.vol q = some x) :
    (rows rs k q).length = ins.length ∧ Chain x (rows rs k q) ∧ (∀ v ∈ rows rs k q, v.Summed) ∧
      (q ≠ .snow → ((rows rs k q).getLast?.map (·.fin)).getD x =
        x + column (·.inp) (rows rs k q) - column (·.out) (rows rs k q) - column (·.et) (rows rs k q)) := by
  obtain ⟨h1, h2, h3⟩ := run_rows b ps k p hp q ins st rs h hlen hbin s hs hu x hx
  exact ⟨h1, h2, fun v hv => (h3 v hv).1, fun hq => chain_total x _ h2 fun v hv => (h3 v hv).2 hq⟩

/-- C103: the composite unsaturated zone is the sum of its bins, of which the riparian ones make up one part and the
others the other, from the start and at every step. -/
theorem C103_composite (b : Basin) (ps : List Par) (k : Nat) (p : Par) (hp : ps[k]? = some p) (hr : p.rip.length = p.ac.length)
    (f : First) (hf : f.uzDepth.length = p.ac.length) (ins : List (List In × StreamIn)) (st : St) (rs : List (St × Out))
    (h : runSteps b ps st ins = some rs) (hlen : ∀ x ∈ ins, x.1.length = ps.length)
    (hbin : ∀ x ∈ ins, ∀ i, x.1[k]? = some i → i.bins.length = p.ac.length) (hs : st.units[k]? = some (initUnit p f)) :
    (initUnit p f).Composite p ∧ ∀ x ∈ rs, ∃ s, x.1.units[k]? = some s ∧ s.Composite p := by
  refine ⟨initUnit_composite p f hr hf, ?_⟩
  have h0 := initUnit_composite p f hr hf
  generalize initUnit p f = s at hs h0
  induction ins generalizing st rs s with
  | nil =>
    simp only [runSteps, Option.some.injEq] at h
    subst h
    intro x hx; exact absurd hx (by simp)
  | cons a ins ih =>
    obtain ⟨is, si⟩ := a
    obtain ⟨st', o, rs', h1, h2, rfl⟩ := runSteps_cons b ps st is si ins rs h
    have hk : k < is.length := by
      rw [hlen (is, si) (by simp)]
      exact (List.getElem?_eq_some_iff.1 hp).1
    obtain ⟨r, e, ho, hst, hn⟩ := webrrun_unit b ps st is si st' o h1 k p s is[k] hp hs (List.getElem?_eq_getElem hk)
    have hc := step_composite p s is[k] r e hst hr (hbin (is, si) (by simp) is[k] (List.getElem?_eq_getElem hk)) h0
    intro x hx
    rcases List.mem_cons.1 hx with rfl | hx
    · exact ⟨r.next, hn, hc⟩
    · exact ih st' rs' h2 (fun y hy => hlen y (by simp [hy])) (fun y hy => hbin y (by simp [hy])) r.next hn hc x hx

/-- C103: paths of flow store nothing: what enters leaves in the same step. -/
theorem C103_paths (p : Par) (s : Start) (i : In) (r : Rows) (e : Extra) (h : step p s i = some (r, e)) :
    r.hill.fin = s.hill ∧ r.qdf.fin = s.qdf ∧ r.satpref.fin = s.satpref ∧ r.hill.out = r.hill.inp ∧ r.qdf.out = r.qdf.inp ∧
      r.satpref.out = r.satpref.inp := by
  obtain ⟨oh, b, h1, h2, e1, e2, e3, r1, r2, r3, r4, r5, r6, r7, r8, r9, r10, r11, r12, r13⟩ := step_eq p s i r e h
  rw [r9, r11, r12]
  refine ⟨(hill_row _ _ _ _ _).2.2.2.trans rfl, (qdf_row _ _).2.2.2, (satpref_row _ _).2.2.2, rfl, rfl, rfl⟩

/-! ### C104 -/

/-- C104, one step: what leaves one reservoir enters another, column by column, and the water of the unit changes by
what its stores change. -/
theorem C104_step (p : Par) (hp : p.Ok) (s : Start) (i : In) (hi : i.Ok p) (hk : i.Pack p s)
    (hx : s.uz.length = p.ac.length) (r : Rows) (e : Extra) (h : step p s i = some (r, e)) :
    r.Closed (metres p i.gwLoss) ∧ r.mru.fin - s.mru = r.next.stored - s.stored :=
  ⟨(step_closed p hp s i hi hk hx r e h).1, step_stored p hp s i hi hk hx r e h⟩

/-- C104, whole runs: the water of each unit is the sum of its stores, from the start and after every step. -/
theorem C104_run (b : Basin) (ps : List Par) (hps : ∀ p ∈ ps, p.Ok) (k : Nat) (p : Par) (hp : ps[k]? = some p) (f : First)
    (hf : f.uzDepth.length = p.ac.length) (ins : List (List In × StreamIn)) (st : St) (rs : List (St × Out))
    (h : runSteps b ps st ins = some rs) (hlen : ∀ x ∈ ins, x.1.length = ps.length)
    (hP : Always b ps (fun p s i => i.Ok p ∧ i.Pack p s) st ins) (hs : st.units[k]? = some (initUnit p f)) :
    (initUnit p f).mru = (initUnit p f).stored ∧ ∀ x ∈ rs, ∃ s, x.1.units[k]? = some s ∧ s.mru = s.stored := by
  refine ⟨rfl, ?_⟩
  have hu : (initUnit p f).uz.length = p.ac.length := by simp [initUnit, Topmod.acfs_length, hf]
  have hall := run_unit b ps _ (fun s => s.mru = s.stored ∧ s.uz.length = p.ac.length) k p hp (by
    intro s i r e h0 hi hst
    have h1 := step_stored p (hps p (List.mem_of_getElem? hp)) s i hi.1 hi.2 h0.2 r e hst
    have h2 : r.next.mru = r.mru.fin := rfl
    refine ⟨by rw [h2]; linarith [h0.1], ?_⟩
    simpa [Rows.next] using (step_bins p s i r e hst hi.1.bins h0.2).1) ins st rs h hlen hP _ hs ⟨rfl, hu⟩
  intro x hx
  obtain ⟨s, h1, h2⟩ := hall x hx
  exact ⟨s, h1, h2.1⟩

/-- C104: interception, snow and soil modules hand over fluxes that agree with each other. -/
theorem C104_modules (u : MUnit) (hu : u.Ok) (x : Now) (hx : x.Ok u) (d : Day) (hd : d.Ok u x) (y : Now) (i : In) (r : Rows)
    (h : advance u x d = some (y, i, r)) :
    i.Ok u.p ∧ i.Pack u.p x.vol ∧ r.Closed (metres u.p i.gwLoss) ∧ y.vol.mru - x.vol.mru = y.vol.stored - x.vol.stored := by
  obtain ⟨hi, hk⟩ := advance_ok u hu x hx d hd y i r h
  obtain ⟨it, t, ha⟩ := advance_advanced u hu x hx d hd y i r h
  obtain ⟨e, hst⟩ := ha.step
  refine ⟨hi, hk, (step_closed u.p hu.p x.vol i hi hk hx.uz r e hst).1, ?_⟩
  rw [ha.vol]
  exact step_stored u.p hu.p x.vol i hi hk hx.uz r e hst

/-! ### C105 -/

/-- C105, one step: the snow volume is that of the snow module, each bin and the soil as a whole change as the soil module
says, up to 1e-7 m. -/
theorem C105_step_partial (u : MUnit) (hu : u.Ok) (k : Rat) (n : Nat) (x : Now) (hl : Linked u k n x) (d : Day) (hd : d.Ok u x)
    (y : Now) (i : In) (r : Rows) (h : advance u x d = some (y, i, r)) : Linked u k (n + 1) y :=
  advance_linked u hu k n x hl d hd y i r h

/-- C105: the saturated zone changes by the change of the mean deficit, and by what changes sides when the water table
moves. -/
theorem C105_saturated (u : MUnit) (hu : u.Ok) (x : Now) (hx : x.Ok u) (d : Day) (hd : d.Ok u x)
    (y : Now) (i : In) (r : Rows) (h : advance u x d = some (y, i, r)) :
    y.vol.sat - x.vol.sat = metres u.p (x.soil.sbar - y.soil.sbar + overBins u.p i (·.uz2sat)) :=
  (advance_soil u hu x hx d hd y i r h).1

/-- C105: the canopy, as long as its water is accounted for by the interception module (C36). -/
theorem C105_canopy_partial (u : MUnit) (hu : u.Ok) (x : Now) (hx : x.Ok u) (hl : CanopyLinked u x) (d : Day) (hd : d.Ok u x)
    (hc : Intcp.Canopy u.veg d.can) (hse : Intcp.Season u.veg d.can x.can) (y : Now) (i : In) (r : Rows)
    (h : advance u x d = some (y, i, r)) : CanopyLinked u y :=
  advance_can u hu x hx d hd hc hse y i r h hl

/-- C105, whole runs: after each step the volumes are those of the modules. -/
theorem C105_run_partial (u : MUnit) (hu : u.Ok) (k : Rat) (x : Now) (hl : Linked u k 0 x) (ds : List Day)
    (hd : Good u (fun x d => d.Ok u x) x ds) (ys : List (Now × In × Rows)) (h : course u x ds = some ys) :
    ys.length = ds.length ∧ ∀ (m : Nat) y, ys[m]? = some y → Linked u k (m + 1) y.1 := by
  obtain ⟨h1, h2⟩ := course_inv u _ (fun n x => Linked u k n x)
    (fun n x d y i r h0 hd h => advance_linked u hu k n x h0 d hd y i r h) 0 x hl ds hd ys h
  exact ⟨h1, fun m y hy => by simpa using h2 m y hy⟩

/-- C105, whole runs, the canopy. -/
theorem C105_canopy_run_partial (u : MUnit) (hu : u.Ok) (x : Now) (hx : x.Ok u) (hl : CanopyLinked u x) (ds : List Day)
    (hd : Good u (fun x d => d.Ok u x ∧ Intcp.Canopy u.veg d.can ∧ Intcp.Season u.veg d.can x.can) x ds)
    (ys : List (Now × In × Rows)) (h : course u x ds = some ys) : ∀ y ∈ ys, CanopyLinked u y.1 := by
  obtain ⟨-, h2⟩ := course_inv u _ (fun _ x => x.Ok u ∧ CanopyLinked u x)
    (fun n x d y i r h0 hd h => ⟨advance_keep u hu x h0.1 d hd.1 y i r h,
      advance_can u hu x h0.1 d hd.1 hd.2.1 hd.2.2 y i r h h0.2⟩) 0 x ⟨hx, hl⟩ ds hd ys h
  intro y hy
  obtain ⟨m, hm⟩ := List.mem_iff_getElem?.1 hy
  exact (h2 m y hm).2

/-- C105: the initial volumes are those of the modules. -/
theorem C105_initial (u : MUnit) (hu : u.Ok) (hw : u.soil.wp ≤ u.soil.theta0) (hadc : ∀ a ∈ u.snow.adc, 0 ≤ a ∧ a ≤ 1)
    (hsi : 0 < u.snow.si) (f : First) (hwei : 0 ≤ f.wei) (transp : Int) (ht : transp = 0 ∨ transp = 1)
    (htr : f.transp = decide (transp = 1)) (soil : Topmod.St) (hsoil : Topmod.topminit u.p.internal u.soil = some soil)
    (huz : f.uzDepth = soil.bins.map (·.depth)) (rest : List Rat) (acumx neghsi : Rat) (pack : Snow.Pack)
    (hpack : Snow.nwsminit 2 rest u.snow f.wei acumx neghsi = some pack) (tm : Option Rat) (pk : Rat) :
    let x : Now := ⟨initUnit u.p f, Intcp.St.init transp, ⟨pack, tm, pk⟩, soil⟩
    CanopyLinked u x ∧
      Linked u (x.vol.uz.sum + x.vol.sat - metres u.p (Topmod.storage u.soil soil)) 0 x := by
  intro x
  obtain ⟨t1, t2⟩ := Topmod.C38_initial u.p.internal u.soil hu.soil hw soil hsoil
  obtain ⟨pk', p1, p2, p3, -⟩ := Snow.C37_initial u.snow hu.snow hadc hsi rest f.wei acumx neghsi hwei
  rw [hpack] at p1
  rw [← Option.some.inj p1] at p2 p3
  refine ⟨?_, ⟨?_, ?_, ?_, ?_, ?_⟩, ?_, ?_⟩
  · show u.p.vol _ = metres u.p (u.p.canDepth * (if f.transp then _ else _)) + _
    rw [vol_eq]
    have : Intcp.held u.veg (Intcp.St.init transp) = 0 := by simp [Intcp.held, Intcp.St.init]
    rw [this]
    simp [inches]
  · show (List.zipWith _ _ f.uzDepth).length = _
    rw [huz, List.length_zipWith, Topmod.acfs_length, List.length_map, t1.bins, hu.bins, List.length_map, Nat.min_self]
  · exact ⟨le_refl _, Or.inl rfl, fun _ => rfl, ht⟩
  · exact p2
  · exact t1
  · show u.p.vol (f.wei * inch2m) = inches u.p (pack.stored / (254 / 10))
    rw [vol_inch, p3, mul_div_assoc, div_self (by norm_num), mul_one]
  · intro j a b v h1 h2 h3 h4
    refine ⟨t2 j, 0, le_refl _, by simp, ?_⟩
    have h5 : (List.zipWith (fun a d => u.p.vol (d * a)) (Topmod.acfs u.p.ac) f.uzDepth)[j]? = some v := h4
    have h6 : soil.bins[j]? = some b := h3
    rw [List.getElem?_zipWith, h1, huz, List.getElem?_map, h6] at h5
    simp only [Option.map_some, Option.some.injEq] at h5
    rw [← h5, vol_eq]
    unfold metres; ring
  · refine ⟨0, le_refl _, by simp, ?_⟩
    show x.vol.uz.sum + x.vol.sat = x.vol.uz.sum + x.vol.sat - metres u.p (Topmod.storage u.soil soil) +
      metres u.p (Topmod.storage u.soil soil + 0)
    rw [add_zero]; ring

/-! ### Examples -/

/-- A wooded hillslope of 3 km², pumped and irrigated. -/
def par0 : Par := ⟨3, 1 / 2, 1 / 4, 1 / 1000, [0, 3 / 10, 5 / 10, 2 / 10], [true, true, false, false], 1, true, true⟩
def unit0 : MUnit := ⟨par0, Intcp.wood, Snow.fn0, Snow.unit0, Topmod.plain, Topmod.hill, true⟩
def first0 : First := ⟨true, 2, 1 / 100, Topmod.hill0.bins.map (·.depth), 1 / 10, 2 / 10, 15 / 100, 1, 3 / 10, 5, 4 / 10, 2 / 10, -1, -2⟩
def now0 : Now :=
  ⟨initUnit par0 first0, Intcp.St.init 1, ⟨(Snow.nwsminit 2 [] Snow.unit0 2 5 0).getD Snow.bare0, none, 2⟩, Topmod.hill0⟩
/-- A day with rain and irrigation from well, stream and outside. -/
def day0 : Day := ⟨1, 24, Intcp.wet, ⟨0, 2, 10, 100⟩, Topmod.wet, 7 / 10, 1 / 10, 1 / 10, 1 / 10⟩
def day1 : Day := ⟨2, 24, Intcp.dry, ⟨0, 2, 10, 101⟩, Topmod.wet, 0, 0, 0, 0⟩

theorem par0_ok : par0.Ok := by
  refine ⟨by decide +kernel, by decide +kernel, by decide +kernel, by decide +kernel, by decide +kernel, Or.inr (by decide +kernel)⟩

theorem unit0_ok : unit0.Ok := by
  refine ⟨par0_ok, ?_, Snow.fn0_ok, Snow.unit0_ok, Topmod.plain_ok, Topmod.hill_ok, by decide +kernel, by decide +kernel⟩
  exact ⟨by decide +kernel, by decide +kernel, by decide +kernel, by decide +kernel, by decide +kernel⟩

/-- C105 applies at the start. -/
theorem now0_linked : CanopyLinked unit0 now0 ∧
    Linked unit0 (now0.vol.uz.sum + now0.vol.sat - metres unit0.p (Topmod.storage unit0.soil now0.soil)) 0 now0 :=
  C105_initial unit0 unit0_ok (by decide +kernel) (by decide +kernel) (by decide +kernel) first0 (by decide +kernel) 1 (Or.inr rfl)
    (by decide +kernel) Topmod.hill0 (by decide +kernel) rfl [] 5 0 _ (by decide +kernel) none 2

theorem day0_ok (x : Now) (h : x.can = now0.can) : day0.Ok unit0 x := by
  refine ⟨by decide +kernel, ⟨by decide +kernel, by decide +kernel, by decide +kernel, by decide +kernel, by decide +kernel⟩,
    by decide +kernel, by decide +kernel, by decide +kernel, by decide +kernel, ?_⟩
  intro drip hd
  rw [h] at hd
  rw [hd]
  decide +kernel

/-- C104, C105: the day has a result, with water in every column. -/
example : ∃ y i r, advance unit0 now0 day0 = some (y, i, r) ∧ (∃ k, Linked unit0 k 1 y) ∧ CanopyLinked unit0 y ∧
    i.Ok par0 ∧ i.Pack par0 now0.vol ∧ r.Closed (metres par0 i.gwLoss) ∧
    0 < r.snow.ppt ∧ 0 < r.sat.uz ∧ 0 < r.ohoriz.well ∧ 0 < r.hill.out ∧ 0 < r.can.out ∧ 0 < r.snow.out ∧ 0 < r.sat.gw1 ∧
    0 < r.sat.ext := by
  have hs : (match advance unit0 now0 day0 with
      | some (_, _, r) => decide (0 < r.snow.ppt ∧ 0 < r.sat.uz ∧ 0 < r.ohoriz.well ∧ 0 < r.hill.out ∧ 0 < r.can.out ∧ 0 < r.snow.out ∧
          0 < r.sat.gw1 ∧ 0 < r.sat.ext)
      | _ => false) = true := by decide +kernel
  split at hs
  · rename_i y i r he
    have hx := now0_linked.2.ok
    have hd := day0_ok now0 rfl
    obtain ⟨m1, m2, m3, -⟩ := C104_modules unit0 unit0_ok now0 hx day0 hd y i r he
    exact ⟨y, i, r, he, ⟨_, C105_step_partial unit0 unit0_ok _ 0 now0 now0_linked.2 day0 hd y i r he⟩,
      C105_canopy_partial unit0 unit0_ok now0 hx now0_linked.1 day0 hd (by unfold Intcp.Canopy; decide +kernel)
        (by unfold Intcp.Season; decide +kernel) y i r he, m1, m2, m3, of_decide_eq_true hs⟩
  · exact absurd hs (by simp)

/-- The two days are proper inputs. -/
theorem days_good : Good unit0 (fun x d => d.Ok unit0 x ∧ Intcp.Canopy unit0.veg d.can ∧ Intcp.Season unit0.veg d.can x.can) now0
    [day0, day1] := by
  refine ⟨⟨day0_ok now0 rfl, by unfold Intcp.Canopy; decide +kernel, by unfold Intcp.Season; decide +kernel⟩, ?_⟩
  intro y hy
  have hc : (advance unit0 now0 day0).map (·.1.can) = some (Intcp.step unit0.veg false day0.can now0.can).1 := by decide +kernel
  rw [hy] at hc
  have hc' : y.1.can = (Intcp.step unit0.veg false day0.can now0.can).1 := Option.some.inj hc
  refine ⟨⟨⟨by decide +kernel, ⟨by decide +kernel, by decide +kernel, by decide +kernel, by decide +kernel, by decide +kernel⟩,
    by decide +kernel, by decide +kernel, by decide +kernel, by decide +kernel, ?_⟩, by unfold Intcp.Canopy; decide +kernel, ?_⟩,
    fun _ _ => trivial⟩
  · intro drip hd
    rw [hc'] at hd
    rw [hd]
    decide +kernel
  · rw [hc']
    unfold Intcp.Season
    decide +kernel

theorem good_mono (u : MUnit) (P Q : Now → Day → Prop) (hPQ : ∀ x d, P x d → Q x d) (x : Now) (ds : List Day) (h : Good u P x ds) :
    Good u Q x ds := by
  induction ds generalizing x with
  | nil => trivial
  | cons d ds ih => exact ⟨hPQ _ _ h.1, fun y hy => ih y.1 (h.2 y hy)⟩

/-- C105 for two days. -/
example : ∃ ys, course unit0 now0 [day0, day1] = some ys ∧ ys.length = 2 ∧ (∀ y ∈ ys, CanopyLinked unit0 y.1) ∧
    ∃ k, ∀ (m : Nat) y, ys[m]? = some y → Linked unit0 k (m + 1) y.1 := by
  have hs : (course unit0 now0 [day0, day1]).isSome = true := by decide +kernel
  cases h : course unit0 now0 [day0, day1] with
  | none => rw [h] at hs; exact absurd hs (by simp)
  | some ys =>
    obtain ⟨h1, h2⟩ := C105_run_partial unit0 unit0_ok _ now0 now0_linked.2 _ (good_mono unit0 _ _ (fun _ _ h => h.1) _ _ days_good) ys h
    exact ⟨ys, rfl, h1, C105_canopy_run_partial unit0 unit0_ok now0 now0_linked.2.ok now0_linked.1 _ days_good ys h, _, h2⟩

/-- Two days of the unit. -/
example : ((course unit0 now0 [day0, day1]).map fun ys => ys.map fun y => decide (y.2.2.mru.fin = y.2.2.next.stored)) =
    some [true, true] := by decide +kernel

/-- The fluxes of a day of snow, 1 inch; less than a litre drips from the canopy. -/
def drip0 : In :=
  { dep := 1, ppt := 1, irrSat := 0, irrHyd := 0, irrExt := 0, transp := true, netDep := 1 / 2 + 1 / 1000000000, intcpEvap := 0,
    pkwater := 1 / 2 + 1 / 1000000000, snowmelt := 0, psoil := 0, snowEvap := 0, sae := 0, qof := 0, rex := 0, qofs := 0,
    qvpref := 0, qb := 0, qpref := 0, gwLoss := 0, gwIn1 := 0, gwIn2 := 0, bins := List.replicate 4 ⟨0, 0, 0, 0, 0, 0⟩ }

/-- C103, C104 fail when less than a litre drips from the canopy: the volume is set to zero on its way to the pack, but
counted there.  All other conditions are met. -/
theorem C104_litre_violated :
    let s : Start := { initUnit par0 first0 with snow := 0 }
    0 < inches par0 (drip0.netDep - drip0.dep * (1 - cover par0 drip0.transp)) ∧ drip0.Pack par0 s ∧
      ∃ r e, step par0 s drip0 = some (r, e) ∧ ¬ r.snow.Balanced ∧ r.mru.fin - s.mru ≠ r.next.stored - s.stored := by
  refine ⟨by decide +kernel, ⟨by decide +kernel, by decide +kernel, by decide +kernel⟩, ?_⟩
  have hs : (match step par0 { initUnit par0 first0 with snow := 0 } drip0 with
      | some (r, _) => decide (¬ r.snow.fin = r.snow.init + r.snow.inp - r.snow.out - r.snow.et ∧
          r.mru.fin - (initUnit par0 first0).mru ≠ r.next.stored - ({ initUnit par0 first0 with snow := 0 } : Start).stored)
      | _ => false) = true := by decide +kernel
  split at hs
  · rename_i r e he
    have := of_decide_eq_true hs
    exact ⟨r, e, he, this.1, this.2⟩
  · exact absurd hs (by simp)

/-- C105 fails when leaves fall from a wet canopy: the interception module drops water that the volume keeps. -/
theorem C105_leaf_fall_violated :
    let x : Now := { now0 with can := ⟨1, 8 / 100, 0, 1⟩, vol := { now0.vol with can := now0.vol.can + inches par0 (4 / 100) } }
    let d : Day := { day1 with can := { Intcp.dry with transp := 0 } }
    CanopyLinked unit0 x ∧ ∃ y i r, advance unit0 x { d with nstep := 1 } = some (y, i, r) ∧ ¬ CanopyLinked unit0 y := by
  refine ⟨?_, ?_⟩
  · unfold CanopyLinked; decide +kernel
  · have hs : (match advance unit0 { now0 with can := ⟨1, 8 / 100, 0, 1⟩, vol := { now0.vol with can := now0.vol.can + inches par0 (4 / 100) } }
          { day1 with can := { Intcp.dry with transp := 0 }, nstep := 1 } with
        | some (y, _, _) => decide (¬ y.vol.can = metres unit0.p (unit0.p.canDepth * cover unit0.p y.vol.transp) +
            inches unit0.p (Intcp.held unit0.veg y.can))
        | _ => false) = true := by decide +kernel
    split at hs
    · rename_i y i r he
      have := of_decide_eq_true hs
      exact ⟨y, i, r, he, this⟩
    · exact absurd hs (by simp)

end Verif.Reservoir
