import Verif.Lemmas.ReservoirLink
import Verif.Lemmas.ReservoirRun
/-
Lemmas for C105: the volumes stay those of the other modules.
-/
namespace Verif.Reservoir
open Verif.Topmod (acfs)

theorem overBins_add (p : Par) (i : In) (f g : BinIn → Rat) :
    overBins p i (fun b => f b + g b) = overBins p i f + overBins p i g := by
  unfold overBins
  generalize acfs p.ac = as
  generalize i.bins = bs
  induction as generalizing bs with
  | nil => simp
  | cons a as ih =>
    cases bs with
    | nil => simp
    | cons b bs =>
      simp only [List.zipWith_cons_cons, List.sum_cons]
      rw [ih]; ring

theorem overBins_sub (p : Par) (i : In) (f g : BinIn → Rat) :
    overBins p i (fun b => f b - g b) = overBins p i f - overBins p i g := by
  have := overBins_add p i (fun b => f b - g b) g
  have e : (fun b => f b - g b + g b) = f := by funext b; ring
  rw [e] at this
  linarith

/-- Sums of fluxes over the bins are those of TOPMODEL. -/
theorem fluxes_over (u : MUnit) (hu : u.Ok) (i : In) (t : Topmod.Out) (a1 a2 a3 a4 a5 : Rat) (a6 : Bool) (c : Intcp.St × Intcp.Out)
    (sn : Snow.St × Snow.Out) (hi : i = fluxes a1 a2 a3 a4 a5 a6 c sn u.soil.qdffrac t) (hl : t.flux.length = t.uz2sat.length)
    (g : BinIn → Rat) (g' : Topmod.Flux → Rat) (hg : ∀ f w, g ((fun (f : Topmod.Flux) u' =>
      (⟨f.ea, f.infil, (1 - u.soil.qdffrac) * f.uz, u.soil.qdffrac * f.uz, f.wet, u'⟩ : BinIn)) f w) = g' f) :
    overBins u.p i g = Topmod.total u.soil t g' := by
  unfold overBins Topmod.total
  rw [hi, hu.bins]
  exact zipWith_zip_map _ _ _ _ g g' hg hl

theorem fluxes_up (as : List Rat) (fs : List Topmod.Flux) (us : List Rat) (g : Topmod.Flux → Rat → BinIn)
    (hg : ∀ f w, (g f w).uz2sat = w) (hl : fs.length = us.length) :
    (List.zipWith (fun a (b : BinIn) => a * b.uz2sat) as (List.zipWith g fs us)).sum = (List.zipWith (· * ·) as us).sum := by
  induction as generalizing fs us with
  | nil => simp
  | cons a as ih =>
    cases fs with
    | nil => cases us with
      | nil => simp
      | cons => simp at hl
    | cons f fs =>
      cases us with
      | nil => simp at hl
      | cons w us =>
        simp only [List.zipWith_cons_cons, List.sum_cons, hg]
        rw [ih fs us (by simpa using hl)]

/-- What is known of a step of one unit. -/
structure Advanced (u : MUnit) (x : Now) (d : Day) (y : Now) (i : In) (r : Rows) (it : Topmod.In) (t : Topmod.Out) : Prop where
  can : y.can = (Intcp.step u.veg false d.can x.can).1
  transp : i.transp = decide (d.can.transp = 1)
  net : i.netDep = (Intcp.step u.veg false d.can x.can).2.netDep ∧ i.intcpEvap = y.can.evap ∧ i.dep = d.can.rain + d.can.snow
  pack : y.pack.pack.Ok ∧ i.pkwater = y.pack.pack.stored / (254 / 10)
  soil : Topmod.topmrun u.soilFn u.soil u.infex u.p.internal d.nstep d.dt it x.soil = some (some (y.soil, t))
  it : it.Ok ∧ it.irrSat = d.irrSat
  flux : t.flux.length = u.soil.bins.length ∧ t.uz2sat.length = u.soil.bins.length
  over : ∀ (g : BinIn → Rat) (g' : Topmod.Flux → Rat), (∀ f w, g ((fun (f : Topmod.Flux) u' =>
      (⟨f.ea, f.infil, (1 - u.soil.qdffrac) * f.uz, u.soil.qdffrac * f.uz, f.wet, u'⟩ : BinIn)) f w) = g' f) →
      overBins u.p i g = Topmod.total u.soil t g'
  up : overBins u.p i (·.uz2sat) = (List.zipWith (· * ·) (acfs u.p.ac) t.uz2sat).sum
  bins : i.bins = List.zipWith (fun (f : Topmod.Flux) u' =>
      (⟨f.ea, f.infil, (1 - u.soil.qdffrac) * f.uz, u.soil.qdffrac * f.uz, f.wet, u'⟩ : BinIn)) t.flux t.uz2sat
  vals : i.qvpref = t.qvpref ∧ i.gwIn1 = t.gwIn1 ∧ i.gwIn2 = t.gwIn2 ∧ i.qpref = t.qpref ∧ i.qb = t.qb ∧ i.gwLoss = t.gwLoss ∧
    i.irrSat = d.irrSat
  step : ∃ e, step u.p x.vol i = some (r, e)
  vol : y.vol = r.next

theorem advance_advanced (u : MUnit) (hu : u.Ok) (x : Now) (hx : x.Ok u) (d : Day) (hd : d.Ok u x) (y : Now) (i : In) (r : Rows)
    (h : advance u x d = some (y, i, r)) : ∃ it t, Advanced u x d y i r it t := by
  obtain ⟨c, sn, t, e, it, hc, hsn, hit, ht, hi, hst, hy⟩ := advance_eq u x d y i r h
  have hnet : 0 ≤ c.2.netDep := by rw [hc]; exact Intcp.step_net u.veg hu.veg false d.can hd.can x.can
  obtain ⟨n1, n2, n3, -, n5, n6⟩ := Snow.nwsmrun_spec u.snowFn hu.snowFn u.snow hu.snow d.nstep _ hnet x.pack hx.pack sn.1 sn.2 hsn
  have hitok : it.Ok := by
    rw [hit]; unfold Topmod.In.Ok
    have := n6.melt
    have := n6.soil
    dsimp only
    linarith
  obtain ⟨t1, t2, t3, t4⟩ := Topmod.topmrun_infil u.soilFn hu.soilFn u.soil hu.soil u.infex u.p.internal d.nstep d.dt hd.dt it hitok
    x.soil t.1 t.2 hx.soil ht
  have hlen : t.2.flux.length = t.2.uz2sat.length := by rw [t3, t4]
  refine ⟨it, t.2, ⟨?_, ?_, ?_, ?_, ?_, ?_, ⟨t3, t4⟩, ?_, ?_, ?_, ?_, ⟨e, hst⟩, ?_⟩⟩
  · rw [hy, hc]
  · rw [hi]; rfl
  · rw [hi, hy, hc]; exact ⟨rfl, rfl, rfl⟩
  · rw [hi, hy]; exact ⟨n5, n3⟩
  · rw [hy]; exact ht
  · exact ⟨hitok, by rw [hit]⟩
  · exact fun g g' hg => fluxes_over u hu i t.2 _ _ _ _ _ _ c sn hi hlen g g' hg
  · unfold overBins
    rw [hi]
    exact fluxes_up _ _ _ _ (fun _ _ => rfl) hlen
  · rw [hi]; rfl
  · rw [hi]; exact ⟨rfl, rfl, rfl, rfl, rfl, rfl, rfl⟩
  · rw [hy]

/-- The soil as a whole. -/
theorem advance_soil (u : MUnit) (hu : u.Ok) (x : Now) (hx : x.Ok u) (d : Day) (hd : d.Ok u x) (y : Now) (i : In) (r : Rows)
    (h : advance u x d = some (y, i, r)) :
    y.vol.sat - x.vol.sat = metres u.p (x.soil.sbar - y.soil.sbar + overBins u.p i (·.uz2sat)) ∧
    ∃ e : Rat, 0 ≤ e ∧ e ≤ 1 / 10000000 ∧
      y.vol.uz.sum + y.vol.sat - (x.vol.uz.sum + x.vol.sat) =
        metres u.p (Topmod.storage u.soil y.soil - Topmod.storage u.soil x.soil + e) := by
  obtain ⟨hi, hk⟩ := advance_ok u hu x hx d hd y i r h
  obtain ⟨it, t, ha⟩ := advance_advanced u hu x hx d hd y i r h
  obtain ⟨e, hst⟩ := ha.step
  obtain ⟨v1, v2, v3, v4, v5, v6, v7⟩ := ha.vals
  obtain ⟨w, rs, hstep⟩ := Topmod.topmrun_step u.soilFn u.soil u.infex u.p.internal d.nstep d.dt it x.soil y.soil t ha.soil
  obtain ⟨e', e0, e1, e2⟩ := Topmod.C38_step_partial u.soilFn u.soil hu.soil.ac hu.covered u.infex u.p.internal d.nstep d.dt it x.soil
    y.soil t hx.soil.bins ha.soil
  obtain ⟨b1, b2, b3, b4, b5, b6, b7, b8, b9, b10, b11, b12⟩ := Topmod.C56_total u.soilFn u.soil hu.soil.ac u.infex u.p.internal d.nstep d.dt it
    x.soil y.soil t hx.soil.bins ha.soil
  have hs := sat_change u.p i hi x.vol hx.uz r e hst
  have hz := uz_change u.p hu.p i hi x.vol hk hx.uz r e hst
  have hwell : (if u.p.internal then inches u.p i.irrSat else 0) = inches u.p d.irrSat := by
    rw [v7]
    cases hin : u.p.internal
    · rw [(hd.internal hin).1]; simp [inches]
    · rfl
  rw [hwell] at hs
  have q1 := ha.over (·.infil) (·.infil) fun _ _ => rfl
  have q2 := ha.over (·.wet) (·.wet) fun _ _ => rfl
  have q3 := ha.over (·.quz) (fun f => (1 - u.soil.qdffrac) * f.uz) fun _ _ => rfl
  have q4 := ha.over (·.qdf) (fun f => u.soil.qdffrac * f.uz) fun _ _ => rfl
  have q5 := ha.over (·.sae) (·.ea) fun _ _ => rfl
  rw [← b10 hu.covered] at q1
  rw [← b6] at q2
  rw [← b4] at q3
  rw [← b5] at q4
  rw [← b7] at q5
  have hsplit : overBins u.p i (fun b => b.quz + b.uz2sat - b.wet) = t.quz + overBins u.p i (·.uz2sat) - t.qwet := by
    rw [overBins_sub u.p i (fun b => b.quz + b.uz2sat) (·.wet), overBins_add u.p i (·.quz) (·.uz2sat), q2, q3]
  have hsplit2 : overBins u.p i (fun b => b.infil + b.wet - b.quz - b.qdf - b.sae - b.uz2sat) =
      t.infil + t.qwet - t.quz - t.qdf - t.sae - overBins u.p i (·.uz2sat) := by
    rw [overBins_sub u.p i (fun b => b.infil + b.wet - b.quz - b.qdf - b.sae) (·.uz2sat),
      overBins_sub u.p i (fun b => b.infil + b.wet - b.quz - b.qdf) (·.sae),
      overBins_sub u.p i (fun b => b.infil + b.wet - b.quz) (·.qdf),
      overBins_sub u.p i (fun b => b.infil + b.wet) (·.quz), overBins_add u.p i (·.infil) (·.wet), q1, q2, q3, q4, q5]
  rw [hsplit, v1, v2, v3, v4, v5, v6] at hs
  rw [hsplit2] at hz
  have hsb := hstep.sbar
  rw [ha.it.2] at hsb
  have hyuz : y.vol.uz.sum = column (·.fin) r.uz := by rw [ha.vol]; rfl
  have hysat : y.vol.sat = r.sat.fin := by rw [ha.vol]; rfl
  unfold Topmod.inch2m at hsb
  refine ⟨?_, e', e0, e1, ?_⟩
  · rw [hysat, hs, hsb]
    unfold metres inches
    ring
  · rw [hysat, hyuz, hs, hz]
    unfold Topmod.inflow Topmod.outflow at e2
    rw [b12, ha.it.2] at e2
    have : Topmod.storage u.soil y.soil - Topmod.storage u.soil x.soil + e' = t.surfdep + t.gwIn1 + t.gwIn2 -
        (t.qb + t.qof + t.qdf + t.qpref + t.sae + t.gwLoss + d.irrSat * (254 / 10000)) := by linarith
    rw [this, b9]
    unfold metres inches
    ring

/-- One bin. -/
theorem advance_bin (u : MUnit) (hu : u.Ok) (x : Now) (hx : x.Ok u) (d : Day) (hd : d.Ok u x) (y : Now) (i : In) (r : Rows)
    (h : advance u x d = some (y, i, r)) (j : Nat) (a : Rat) (b b' : Topmod.BinSt) (v v' : Rat)
    (ha : (acfs u.p.ac)[j]? = some a) (hne : a ≠ 0) (hb : x.soil.bins[j]? = some b) (hb' : y.soil.bins[j]? = some b')
    (hv : x.vol.uz[j]? = some v) (hv' : y.vol.uz[j]? = some v') (hpub : Topmod.Published u.soil x.soil j) :
    Topmod.Published u.soil y.soil j ∧ ∃ e : Rat, 0 ≤ e ∧ e ≤ 1 / 10000000 ∧ v' = v + metres u.p (a * (b'.depth - b.depth + e)) := by
  obtain ⟨hi, hk⟩ := advance_ok u hu x hx d hd y i r h
  obtain ⟨it, t, had⟩ := advance_advanced u hu x hx d hd y i r h
  obtain ⟨e, hst⟩ := had.step
  obtain ⟨c1, c2⟩ := Topmod.C56_bin u.soilFn u.soil hu.soil.ac u.infex u.p.internal d.nstep d.dt it x.soil y.soil t hx.soil.bins
    had.soil j hpub
  refine ⟨c1, ?_⟩
  have hlen : j < u.soil.bins.length := by
    have := (List.getElem?_eq_some_iff.1 hb).1
    rw [hx.soil.bins] at this
    exact this
  obtain ⟨f, hf⟩ : ∃ f, t.flux[j]? = some f := ⟨_, List.getElem?_eq_getElem (by rw [had.flux.1]; exact hlen)⟩
  obtain ⟨w, hw⟩ : ∃ w, t.uz2sat[j]? = some w := ⟨_, List.getElem?_eq_getElem (by rw [had.flux.2]; exact hlen)⟩
  obtain ⟨e', e0, e1, e2⟩ := c2 b b' f w a hb hb' hf hw (by rw [← hu.bins]; exact ha) hne
  refine ⟨e', e0, e1, ?_⟩
  have hbin : i.bins[j]? = some (⟨f.ea, f.infil, (1 - u.soil.qdffrac) * f.uz, u.soil.qdffrac * f.uz, f.wet, w⟩ : BinIn) := by
    rw [had.bins, List.getElem?_zipWith, hf, hw]
  have hch := bin_change u.p hu.p i hi x.vol hk x.vol.transp (canopy u.p x.vol.transp i x.vol.can).uz v j a _ ha hbin
  obtain ⟨oh, bb, -, -, s3, -, -, -, -, -, -, s8, -⟩ := step_eq u.p x.vol i r e hst
  rw [had.vol] at hv'
  simp only [Rows.next, List.getElem?_map] at hv'
  rw [s8, s3] at hv'
  simp only [List.getElem?_map, bins, List.getElem?_zipWith, List.getElem?_zip_eq_some] at hv'
  have hz : (List.zip (acfs u.p.ac) i.bins)[j]? = some (a, _) := List.getElem?_zip_eq_some.2 ⟨ha, hbin⟩
  rw [hz, hv] at hv'
  simp only [Option.map_some, Option.some.injEq] at hv'
  rw [← hv', hch]
  dsimp only
  have : b'.depth - b.depth + e' = f.infil + f.wet - (1 - u.soil.qdffrac) * f.uz - u.soil.qdffrac * f.uz - f.ea - w := by
    linarith
  rw [this]

theorem snow_fin (p : Par) (s : Start) (i : In) (hp : p.Ok) (hi : i.Ok p) (hk : i.Pack p s) :
    (snow p i s.snow).fin = inches p i.pkwater := by
  by_cases h : s.snow = 0 ∧ i.netDep = 0
  · have hA := hp.area
    have hb := hk.balance
    rw [h.1, h.2, hk.bare h.2] at hb
    have h2 : (i.pkwater + i.snowmelt + i.snowEvap) * (254 / 10000 * (p.area * 1000000)) = 0 := by
      unfold inches at hb; linarith
    have h3 : i.pkwater + i.snowmelt + i.snowEvap = 0 := by
      rcases mul_eq_zero.1 h2 with h3 | h3
      · exact h3
      · exact absurd h3 (by positivity)
    have h4 := hk.nonneg.1
    have h5 := hk.nonneg.2
    have h6 := hi.net.2.2
    have h7 : i.pkwater = 0 := by linarith
    unfold snow
    rw [if_pos h, h7]
    simp [inches]
  · have e : snow p i s.snow = _ := if_neg h
    rw [e]
    exact vol_inch _ _

/-- States stay as they occur. -/
theorem advance_keep (u : MUnit) (hu : u.Ok) (x : Now) (hx : x.Ok u) (d : Day) (hd : d.Ok u x) (y : Now) (i : In) (r : Rows)
    (h : advance u x d = some (y, i, r)) : y.Ok u := by
  obtain ⟨hi, hk⟩ := advance_ok u hu x hx d hd y i r h
  obtain ⟨it, t, ha⟩ := advance_advanced u hu x hx d hd y i r h
  obtain ⟨e, hst⟩ := ha.step
  refine ⟨?_, ?_, ha.pack.1, ?_, ?_⟩
  · rw [ha.vol]
    simp only [Rows.next, List.length_map]
    exact (step_bins u.p x.vol i r e hst hi.bins hx.uz).1
  · rw [ha.can]; exact Intcp.step_ok u.veg hu.veg false d.can hd.can x.can hx.can
  · exact (Topmod.C38_range_partial u.soilFn hu.soilFn u.soil hu.soil u.infex u.p.internal d.nstep d.dt hd.dt it ha.it.1 x.soil y.soil
      t hx.soil ha.soil).1
  · rw [ha.vol, ← ha.pack.2, ← snow_fin u.p x.vol i hu.p hi hk]
    obtain ⟨oh, bb, -, -, -, -, -, -, -, s6, -⟩ := step_eq u.p x.vol i r e hst
    rw [← s6]; rfl

/-- The canopy. -/
theorem advance_can (u : MUnit) (hu : u.Ok) (x : Now) (hx : x.Ok u) (d : Day)
    (hd : d.Ok u x) (hc : Intcp.Canopy u.veg d.can) (hse : Intcp.Season u.veg d.can x.can) (y : Now) (i : In) (r : Rows)
    (h : advance u x d = some (y, i, r)) (hl : CanopyLinked u x) : CanopyLinked u y := by
  obtain ⟨hi, hk⟩ := advance_ok u hu x hx d hd y i r h
  obtain ⟨it, t, ha⟩ := advance_advanced u hu x hx d hd y i r h
  obtain ⟨e, hst⟩ := ha.step
  obtain ⟨f1, -⟩ := Intcp.step_facts u.veg hu.veg d.can hd.can hc x.can hx.can hse
  obtain ⟨oh, bb, -, -, -, -, -, s4, s5, -⟩ := step_eq u.p x.vol i r e hst
  have hch := can_change u.p hu.p x.vol.transp i hi x.vol.can
  unfold CanopyLinked at hl ⊢
  have e1 : y.vol.can = r.can.fin := by rw [ha.vol]; rfl
  have e2 : y.vol.transp = i.transp := by rw [ha.vol, ← s4]; rfl
  rw [e1, e2, s5, hch, hl, ha.can]
  rw [← ha.can] at f1 ⊢
  rw [← ha.net.1, ← ha.net.2.1, ← ha.net.2.2] at f1
  have : i.dep - i.netDep - i.intcpEvap = Intcp.held u.veg y.can - Intcp.held u.veg x.can := by linarith
  rw [this]
  unfold inches; ring

/-- The volumes stay those of the modules. -/
theorem advance_linked (u : MUnit) (hu : u.Ok) (k : Rat) (n : Nat) (x : Now) (hl : Linked u k n x) (d : Day) (hd : d.Ok u x) (y : Now)
    (i : In) (r : Rows) (h : advance u x d = some (y, i, r)) : Linked u k (n + 1) y := by
  have hk := advance_keep u hu x hl.ok d hd y i r h
  refine ⟨hk, ?_, ?_⟩
  · intro j a b' v' h1 h2 h3 h4
    have hj : j < u.p.ac.length := by
      have := (List.getElem?_eq_some_iff.1 h1).1
      rw [Topmod.acfs_length] at this
      exact this
    have hjs : j < x.soil.bins.length := by
      rw [hl.ok.soil.bins]; rw [hu.bins, List.length_map] at hj; exact hj
    obtain ⟨b, hb⟩ : ∃ b, x.soil.bins[j]? = some b := ⟨_, List.getElem?_eq_getElem hjs⟩
    obtain ⟨v, hv⟩ : ∃ v, x.vol.uz[j]? = some v := ⟨_, List.getElem?_eq_getElem (by rw [hl.ok.uz]; exact hj)⟩
    obtain ⟨p1, e, e0, e1, e2⟩ := hl.bins j a b v h1 h2 hb hv
    obtain ⟨p2, e', e0', e1', e2'⟩ := advance_bin u hu x hl.ok d hd y i r h j a b b' v v' h1 h2 hb h3 hv h4 p1
    refine ⟨p2, e + e', by linarith, ?_, ?_⟩
    · push_cast; linarith
    · rw [e2', e2]; unfold metres; ring
  · obtain ⟨e, e0, e1, e2⟩ := hl.soil
    obtain ⟨-, e', e0', e1', e2'⟩ := advance_soil u hu x hl.ok d hd y i r h
    refine ⟨e + e', by linarith, ?_, ?_⟩
    · push_cast; linarith
    · have : y.vol.uz.sum + y.vol.sat = x.vol.uz.sum + x.vol.sat +
          metres u.p (Topmod.storage u.soil y.soil - Topmod.storage u.soil x.soil + e') := by linarith
      rw [this, e2]; unfold metres; ring

/-- An invariant of the states of a course, counted. -/
theorem course_inv (u : MUnit) (P : Now → Day → Prop) (Inv : Nat → Now → Prop)
    (hstep : ∀ n x d y i r, Inv n x → P x d → advance u x d = some (y, i, r) → Inv (n + 1) y) (n : Nat) (x : Now)
    (h0 : Inv n x) (ds : List Day) (hg : Good u P x ds) (ys : List (Now × In × Rows)) (h : course u x ds = some ys) :
    ys.length = ds.length ∧ ∀ (m : Nat) y, ys[m]? = some y → Inv (n + m + 1) y.1 := by
  induction ds generalizing n x ys with
  | nil =>
    simp only [course, Option.some.injEq] at h
    subst h
    exact ⟨rfl, fun m y hy => absurd hy (by simp)⟩
  | cons d ds ih =>
    unfold course at h
    cases ha : advance u x d with
    | none => rw [ha] at h; exact absurd h (by simp)
    | some z =>
      rw [ha] at h
      dsimp only at h
      obtain ⟨zs, hz, rfl⟩ := Option.map_eq_some_iff.1 h
      have hi := hstep n x d z.1 z.2.1 z.2.2 h0 hg.1 ha
      obtain ⟨l1, l2⟩ := ih (n + 1) z.1 hi (hg.2 z ha) zs hz
      refine ⟨by simp [l1], ?_⟩
      intro m y hy
      cases m with
      | zero => simp only [List.getElem?_cons_zero, Option.some.injEq] at hy; subst hy; exact hi
      | succ m =>
        have := l2 m y (by simpa using hy)
        have e : n + 1 + m + 1 = n + (m + 1) + 1 := by omega
        rw [e] at this
        exact this

end Verif.Reservoir
