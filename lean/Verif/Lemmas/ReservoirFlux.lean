import Verif.Lemmas.ReservoirRun
import Verif.Lemmas.TopmodRun
import Verif.Props.Topmod
import Verif.Lemmas.Snow
import Verif.Lemmas.Intcp
/-
Lemmas for C104 and C105: the fluxes of the other modules.
-/
namespace Verif.Topmod

/-- No bin takes in less than nothing. -/
theorem binStep_infil (m : Mru) (dt : Rat) (w : Water) (hw : 0 ≤ w.p2rz ∧ 0 ≤ w.qv2suz) (hp : w.p = w.p2rz + w.qv2suz)
    (sd0 : Rat) (b b' : BinSt) (f : Flux) (hb : b.Ok m) (h : binStep m dt w sd0 b = some (b', f)) : 0 ≤ f.infil := by
  obtain ⟨⟨hz0, -⟩, hs0⟩ := hb
  obtain ⟨hw1, hw2⟩ := hw
  unfold binStep at h
  dsimp only at h
  have key : (if decide (b.suz ≥ sd0) = true then 0 else b.suz) ≤
      (if (if decide (b.suz ≥ sd0) = true then sd0 - b.suz else sd0) < 0 then 0 else
        (if decide (b.suz ≥ sd0) = true then sd0 - b.suz else sd0)) := by
    by_cases h1 : b.suz ≥ sd0
    · simp only [h1, decide_true, if_true]
      split
      · exact le_refl _
      · exact not_lt.1 ‹_›
    · simp only [h1, decide_false, Bool.false_eq_true, if_false]
      have : b.suz < sd0 := not_le.1 h1
      rw [if_neg (by linarith)]
      exact this.le
  generalize (if decide (b.suz ≥ sd0) = true then sd0 - b.suz else sd0) = sd1 at *
  generalize (if decide (b.suz ≥ sd0) = true then 0 else b.suz) = suz1 at *
  generalize (if decide (b.suz ≥ sd0) = true then b.suz else 0) = uz1 at *
  generalize decide (b.suz ≥ sd0) = full at *
  have hsrz : 0 ≤ (if sd1 < 0 then (if -sd1 ≥ b.srz then 0 else b.srz - (if sd1 < 0 then
        (if -sd1 ≥ b.srz then b.srz else -sd1) else 0)) else b.srz) := by
    by_cases h1 : sd1 < 0
    · simp only [if_pos h1]
      by_cases h2 : -sd1 ≥ b.srz
      · simp only [if_pos h2]; exact le_refl _
      · simp only [if_neg h2]; linarith
    · simp only [if_neg h1]; exact hz0
  generalize (if sd1 < 0 then (if -sd1 ≥ b.srz then 0 else b.srz - (if sd1 < 0 then
        (if -sd1 ≥ b.srz then b.srz else -sd1) else 0)) else b.srz) = srz1 at *
  generalize (if sd1 < 0 then 0 else sd1) = sd2 at *
  have hA : (if srz1 - w.p2rz < 0 then suz1 - (srz1 - w.p2rz) else suz1) ≤ suz1 + w.p2rz := by
    split <;> linarith
  generalize (if srz1 - w.p2rz < 0 then suz1 - (srz1 - w.p2rz) else suz1) = suzA at *
  have hex : (if suzA + w.qv2suz > sd2 then suzA + w.qv2suz - sd2 else 0) ≤ w.p2rz + w.qv2suz := by
    split <;> linarith
  generalize (if suzA + w.qv2suz > sd2 then suzA + w.qv2suz - sd2 else 0) = ex at *
  generalize (if suzA + w.qv2suz > sd2 then sd2 else suzA + w.qv2suz) = suz3 at *
  by_cases hc : suz3 > 0 ∧ full = true
  · rw [if_pos hc] at h; exact absurd h (by simp)
  · rw [if_neg hc] at h
    simp only [Option.some.injEq, Prod.mk.injEq] at h
    rw [← h.2]
    dsimp only
    linarith

/-- No bin takes in less than nothing during a step. -/
theorem topmrun_infil (fn : Fn) (hfn : fn.Ok) (m : Mru) (hm : m.Ok) (infex internal : Bool) (nstep : Nat) (dt : Rat)
    (hdt : 0 ≤ dt) (i : In) (hi : i.Ok) (st st' : St) (o : Out) (hs : st.Ok m)
    (h : topmrun fn m infex internal nstep dt i st = some (some (st', o))) :
    (∀ f ∈ o.flux, 0 ≤ f.infil ∧ 0 ≤ f.ea) ∧ 0 ≤ o.qvpref ∧ o.flux.length = m.bins.length ∧
      o.uz2sat.length = m.bins.length := by
  obtain ⟨w, rs, hst⟩ := topmrun_step fn m infex internal nstep dt i st st' o h
  obtain ⟨l1, l2, l3, l4, l5, -⟩ := step_balance fn m hm.ac infex nstep dt i st st' o w rs hs.bins hst
  obtain ⟨-, r1, r2, r3, -⟩ := step_range fn hfn m hm infex nstep dt hdt i hi st st' o w rs hs hst
  have hp : 0 ≤ o.surfdep - o.rex := by linarith
  obtain ⟨pm1, pm2⟩ := hm.pmacro
  obtain ⟨ps1, ps2⟩ := hm.pmacSat
  have hw1 : 0 ≤ w.p2rz := by rw [hst.p2rz]; exact mul_nonneg hp (by linarith)
  have hw2 : 0 ≤ w.qv2suz := by rw [hst.qv2suz]; exact mul_nonneg (mul_nonneg hp (by linarith)) pm1
  have hwp : w.p = w.p2rz + w.qv2suz := by rw [hst.p, hst.p2rz, hst.qv2suz, hst.qvpref]; ring
  refine ⟨?_, r3, by rw [hst.flux, List.length_map, l1], ?_⟩
  · intro f hf
    rw [hst.flux] at hf
    obtain ⟨r, hr, rfl⟩ := List.mem_map.1 hf
    obtain ⟨k, hk, rfl⟩ := List.mem_iff_getElem.1 hr
    obtain ⟨a, b, r', g1, g2, g3, g4⟩ := l5 k (by omega)
    rw [List.getElem?_eq_getElem hk] at g3
    have g3 := Option.some.inj g3
    rw [← g3] at g4
    have hb : b.Ok m := hs.ok b (List.mem_of_getElem? g2)
    by_cases ha : a ≠ 0
    · rw [if_pos ha] at g4
      exact ⟨binStep_infil m dt w ⟨hw1, hw2⟩ hwp _ b _ _ hb g4,
        (binStep_range m hm dt hdt w ⟨hw1, hw2, hst.ep⟩ _ b _ _ hb g4).2.2.2.2⟩
    · rw [if_neg ha] at g4
      rw [← Option.some.inj g4]
      exact ⟨le_refl _, le_refl _⟩
  · rw [hst.uz2sat]
    simp [acfs_length, l1]

end Verif.Topmod

namespace Verif.Snow

theorem melting_dry (fn : Fn) (m : Mru) (mf ratio : Rat) (step : Nat) (tair gm : Rat) (p : Pack) (r : Period)
    (h : melting fn m mf ratio step tair 0 0 0 0 gm p = some r) : r.soil = 0 := by
  unfold melting at h
  dsimp only at h
  have hz : (if p.aesc < 1 then 0 * (1 - p.aesc) else 0) = 0 := by split <;> ring
  rw [hz] at h
  generalize (if p.aesc < 1 then p.aesc else 1) = a at h
  split at h
  · rw [← Option.some.inj h]; rfl
  · split at h
    · rw [← Option.some.inj h]; rfl
    · split at h
      · rw [← Option.some.inj h]; rfl
      · split at h
        · exact absurd h (by simp)
        · split at h
          · exact absurd h (by simp)
          · rw [← Option.some.inj h]

theorem periods_dry (fn : Fn) (m : Mru) (mf ratio : Rat) (step : Nat) (ts : List Rat) (gm : Rat) (ns : Bool) (p : Pack)
    (d : Day) (p' : Pack) (d' : Day) (ns' : Bool) (h : periods fn m mf ratio 0 step ts gm ns p d = some (p', d', ns')) :
    d'.soil = d.soil := by
  induction ts generalizing step gm ns p d with
  | nil => unfold periods at h; cases h; rfl
  | cons t ts ih =>
    unfold periods at h
    split at h
    · exact absurd h (by simp)
    · rename_i r hr
      have := ih _ _ _ _ _ h
      unfold period at hr
      rw [if_pos rfl] at hr
      rw [this, melting_dry fn m mf ratio step t gm p r hr]
      simp

/-- Without deposition nothing falls on bare soil. -/
theorem nwsmrun_dry (fn : Fn) (m : Mru) (nstep : Nat) (i : In) (hi : i.dep = 0) (st st' : St) (o : Out)
    (h : nwsmrun fn m nstep i st = some (st', o)) : o.day.soil = 0 := by
  unfold nwsmrun at h
  split at h
  · cases h; rfl
  · split at h
    · dsimp only at h
      split at h
      · exact absurd h (by simp)
      · rename_i p d ns hp
        rw [hi] at hp
        simp only [Option.some.injEq, Prod.mk.injEq] at h
        rw [← h.2]
        have e : (0 : Rat) * (254 / 10) / 4 = 0 := by norm_num
        rw [e] at hp
        exact periods_dry _ _ _ _ _ _ _ _ _ _ _ _ _ hp
    · exact absurd h (by simp)

end Verif.Snow

namespace Verif.Intcp

theorem snowLoss_net (v : Veg) (hv : v.Ok) (i : In) (st : St) (o : Out) (h : 0 ≤ o.netDep) :
    0 ≤ (snowLoss v i st o).2.netDep := by
  have hcv := cover_range v hv i.transp
  unfold cover at hcv
  unfold snowLoss
  dsimp only
  generalize (if i.transp = 1 then v.covSum else v.covWin) = c at *
  generalize i.swrad * (19 / 100) + _ + _ = bal
  by_cases h1 : i.temp ≥ 0
  · rw [if_pos h1]
    by_cases h2 : bal > 0
    · rw [if_pos h2]
      generalize i.potet - _ = d
      by_cases h3 : d < 0
      · rw [if_pos h3]; exact mul_nonneg (by linarith) hcv.1
      · rw [if_neg h3]; exact h
    · rw [if_neg h2]; exact h
  · rw [if_neg h1]; exact h

theorem rainLoss_net (v : Veg) (i : In) (st : St) (o : Out) : (rainLoss v i st o).2.netDep = o.netDep := by
  unfold rainLoss
  dsimp only
  by_cases h : i.potet - st.stor < 0
  · rw [if_pos h]
  · rw [if_neg h]

theorem lossPart_net (v : Veg) (hv : v.Ok) (i : In) (form : Int) (st : St) (o : Out) (h : 0 ≤ o.netDep) :
    0 ≤ (lossPart v i form st o).2.netDep := by
  unfold lossPart
  by_cases h1 : st.on = 1
  · rw [if_pos h1]
    by_cases h2 : i.dt < 24 ∧ i.dep > 0
    · rw [if_pos h2]; exact h
    · rw [if_neg h2]
      by_cases h3 : form = 1
      · rw [if_pos h3]
        by_cases h4 : i.basinDep ≤ 0
        · rw [if_pos h4]; exact snowLoss_net v hv i _ o h
        · rw [if_neg h4]; exact h
      · rw [if_neg h3, rainLoss_net]; exact h
  · rw [if_neg h1]; exact h

/-- Whatever vegetation and season: net deposition is not negative. -/
theorem step_net (v : Veg) (hv : v.Ok) (first : Bool) (i : In) (hi : i.Ok) (st : St) :
    0 ≤ (step v first i st).2.netDep := by
  unfold step
  dsimp only
  apply lossPart_net v hv
  exact add_nonneg (rain_net v hv i hi _) (snow_net v hv i hi _ _)

end Verif.Intcp

namespace Verif.Reservoir
open Verif.Topmod (acfs)

theorem advance_eq (u : MUnit) (x : Now) (d : Day) (y : Now) (i : In) (r : Rows) (h : advance u x d = some (y, i, r)) :
    ∃ c sn t e it, c = Intcp.step u.veg false d.can x.can ∧
      Snow.nwsmrun u.snowFn u.snow d.nstep { d.pack with dep := c.2.netDep } x.pack = some sn ∧
      it = ({ d.soil with intcp := c.1.evap, snowEvap := sn.2.day.evap, snowmelt := sn.2.day.melt, psoil := sn.2.day.soil,
                          transp := decide (d.can.transp = 1), irrSat := d.irrSat } : Topmod.In) ∧
      Topmod.topmrun u.soilFn u.soil u.infex u.p.internal d.nstep d.dt it x.soil = some (some t) ∧
      i = fluxes (d.can.rain + d.can.snow) d.ppt d.irrSat d.irrHyd d.irrExt (decide (d.can.transp = 1)) c sn u.soil.qdffrac t.2 ∧
      step u.p x.vol i = some (r, e) ∧ y = ⟨r.next, c.1, sn.1, t.1⟩ := by
  unfold advance at h
  dsimp only at h
  split at h
  · exact absurd h (by simp)
  · rename_i sn hsn
    split at h
    · rename_i t ht
      obtain ⟨a, ha, hb⟩ := Option.map_eq_some_iff.1 h
      simp only [Prod.mk.injEq] at hb
      obtain ⟨rfl, rfl, rfl⟩ := hb
      exact ⟨_, sn, t, a.2, _, rfl, hsn, rfl, ht, rfl, ha, rfl⟩
    · exact absurd h (by simp)

theorem zipWith_zip_map {α : Type} (as : List Rat) (fs : List α) (us : List Rat) (g : α → Rat → BinIn) (h : BinIn → Rat)
    (h' : α → Rat) (hh : ∀ f u, h (g f u) = h' f) (hl : fs.length = us.length) :
    (List.zipWith (fun a b => a * h b) as (List.zipWith g fs us)).sum = (List.zipWith (fun a f => a * h' f) as fs).sum := by
  induction as generalizing fs us with
  | nil => simp
  | cons a as ih =>
    cases fs with
    | nil => simp
    | cons f fs =>
      cases us with
      | nil => simp at hl
      | cons w us =>
        simp only [List.zipWith_cons_cons, List.sum_cons, hh]
        rw [ih fs us (by simpa using hl)]

theorem Topmod_total (u : MUnit) (x : Now) (d : Day) (it : Topmod.In) (t : Topmod.St × Topmod.Out) (hu : u.Ok) (hx : x.Ok u)
    (ht : Topmod.topmrun u.soilFn u.soil u.infex u.p.internal d.nstep d.dt it x.soil = some (some t)) :
    t.2.qof + Topmod.total u.soil t.2 (·.infil) + t.2.qvpref = (it.snowmelt + it.psoil) * (254 / 10000) ∧
      t.2.sae = Topmod.total u.soil t.2 (·.ea) := by
  obtain ⟨a1, a2, -, -, -, -, a7, a8, a9, a10, -⟩ := Topmod.C56_total u.soilFn u.soil hu.soil.ac u.infex u.p.internal d.nstep d.dt it
    x.soil t.1 t.2 hx.soil.bins ht
  refine ⟨?_, a7⟩
  rw [← a10 hu.covered, a9, a2]; ring

/-- The fluxes of the other modules agree with each other. -/
theorem advance_ok (u : MUnit) (hu : u.Ok) (x : Now) (hx : x.Ok u) (d : Day) (hd : d.Ok u x) (y : Now) (i : In) (r : Rows)
    (h : advance u x d = some (y, i, r)) : i.Ok u.p ∧ i.Pack u.p x.vol := by
  obtain ⟨c, sn, t, e, it, hc, hsn, hit, ht, hi, hst, hy⟩ := advance_eq u x d y i r h
  have hnet : 0 ≤ c.2.netDep := by rw [hc]; exact Intcp.step_net u.veg hu.veg false d.can hd.can x.can
  obtain ⟨n1, n2, n3, -, n5, n6⟩ := Snow.nwsmrun_spec u.snowFn hu.snowFn u.snow hu.snow d.nstep _ hnet x.pack hx.pack sn.1 sn.2 hsn
  have hdry := Snow.nwsmrun_dry u.snowFn u.snow d.nstep { d.pack with dep := c.2.netDep } (st := x.pack) (st' := sn.1) (o := sn.2)
  have hitok : it.Ok := by
    rw [hit]; unfold Topmod.In.Ok
    have := n6.melt
    have := n6.soil
    dsimp only
    linarith
  obtain ⟨t1, t2, t3, t4⟩ := Topmod.topmrun_infil u.soilFn hu.soilFn u.soil hu.soil u.infex u.p.internal d.nstep d.dt hd.dt it hitok
    x.soil t.1 t.2 hx.soil ht
  obtain ⟨w, rs, hstep⟩ := Topmod.topmrun_step u.soilFn u.soil u.infex u.p.internal d.nstep d.dt it x.soil t.1 t.2 ht
  obtain ⟨-, r1, r2, r3, -, -, -, r4, -, -, -, r5, -⟩ := Topmod.step_range u.soilFn hu.soilFn u.soil hu.soil u.infex d.nstep d.dt hd.dt it
    hitok x.soil t.1 t.2 w rs hx.soil hstep
  have htot := Topmod_total u x d it t hu hx ht
  obtain ⟨k1, k3⟩ := htot
  have hlen : t.2.flux.length = t.2.uz2sat.length := by rw [t3, t4]
  have hover : ∀ (g : BinIn → Rat) (g' : Topmod.Flux → Rat), (∀ f w, g ((fun (f : Topmod.Flux) u' =>
      (⟨f.ea, f.infil, (1 - u.soil.qdffrac) * f.uz, u.soil.qdffrac * f.uz, f.wet, u'⟩ : BinIn)) f w) = g' f) →
      overBins u.p i g = Topmod.total u.soil t.2 g' := by
    intro g g' hg
    unfold overBins Topmod.total
    rw [hi, hu.bins]
    exact zipWith_zip_map _ _ _ _ g g' hg hlen
  have hbins : ∀ b ∈ i.bins, 0 ≤ b.infil ∧ 0 ≤ b.sae := by
    intro b hb
    rw [hi] at hb
    obtain ⟨j, hj, rfl⟩ := List.mem_iff_getElem.1 hb
    simp only [fluxes, List.getElem_zipWith]
    exact t1 _ (List.getElem_mem _)
  refine ⟨⟨?_, ?_, ?_, ?_, ?_, ?_, ?_, ?_⟩, ⟨?_, ?_, ?_⟩⟩
  · rw [hi, hu.bins]
    simp [fluxes, t3, t4]
  · rw [hi]
    simp only [fluxes]
    rw [hd.dep]
    cases hin : u.p.internal <;> cases hex : u.p.external
    · rw [(hd.internal hin).1, (hd.internal hin).2, hd.external hex]; simp
    · rw [(hd.internal hin).1, (hd.internal hin).2]; simp
    · rw [hd.external hex]; simp; ring
    · simp; ring
  · rw [hi]
    simp only [fluxes]
    apply hd.litre
    rw [hc]
  · rw [hi]; exact hd.falling
  · rw [hi]; exact ⟨hnet, n6.soil, n6.melt⟩
  · rw [hover (·.infil) (·.infil) fun _ _ => rfl]
    rw [hi]
    simp only [fluxes]
    rw [k1, hit]
  · refine ⟨?_, ?_, fun b hb => (hbins b hb).1⟩
    · rw [hi]; exact r4
    · rw [hi]; exact r3
  · refine ⟨?_, ?_, fun b hb => (hbins b hb).2⟩
    · rw [hover (·.sae) (·.ea) fun _ _ => rfl, hi]; exact k3
    · rw [hi]; exact r5
  · rw [hx.snow, hi]
    simp only [fluxes]
    rw [n3]
    dsimp only at n1
    rw [n1, n2]
    unfold Snow.Out.leaving inches
    ring
  · rw [hi]
    simp only [fluxes]
    refine ⟨?_, n6.evap⟩
    rw [n3]
    have hst : 0 ≤ sn.1.pack.stored := by
      unfold Snow.Pack.stored
      have := n5.we
      have := n5.liqw
      have := n5.storage
      have := Route.sum_nonneg' _ n5.lagro
      linarith
    exact div_nonneg hst (by norm_num)
  · rw [hi]
    intro hz
    exact hdry hz hsn

end Verif.Reservoir
