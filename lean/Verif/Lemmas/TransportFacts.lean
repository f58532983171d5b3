import Verif.Lemmas.TransportMix
import Verif.Lemmas.ReservoirFlow
/-
What the mixing sequence needs to know about the volumes of a unit.
-/
namespace Verif.Transport
open Verif.Reservoir (Vol Rows BinOut Par In sumOf fall inch2m)

/-- No entry is negative. -/
structure Pos (v : Vol) : Prop where
  init : 0 ≤ v.init
  inp : 0 ≤ v.inp
  out : 0 ≤ v.out
  fin : 0 ≤ v.fin
  ppt : 0 ≤ v.ppt
  et : 0 ≤ v.et
  can : 0 ≤ v.can
  melt : 0 ≤ v.melt
  ohoriz : 0 ≤ v.ohoriz
  uz : 0 ≤ v.uz
  qdf : 0 ≤ v.qdf
  sat : 0 ≤ v.sat
  satpref : 0 ≤ v.satpref
  well : 0 ≤ v.well
  div : 0 ≤ v.div
  ext : 0 ≤ v.ext
  gw1 : 0 ≤ v.gw1
  gw2 : 0 ≤ v.gw2

theorem Pos.of (v : Vol) (h : ∀ x ∈ Vol.entries v, 0 ≤ x) : Pos v := by
  constructor <;> exact h _ (by simp [Vol.entries])

theorem Pos.fallen {v : Vol} (h : Pos v) : 0 ≤ fallen v := by
  have := h.ppt; have := h.well; have := h.div; have := h.ext
  unfold Transport.fallen; linarith

/-- The volumes of a unit. -/
structure Facts (f : Flow) : Prop where
  pcan : Pos f.r.can
  psnow : Pos f.r.snow
  poh : Pos f.r.ohoriz
  pqdf : Pos f.r.qdf
  psat : Pos f.r.sat
  ppref : Pos f.r.satpref
  phill : Pos f.r.hill
  pbin : ∀ b ∈ f.bins, Pos b.vol ∧ 0 ≤ b.toCan ∧ 0 ≤ b.toSat ∧ 0 ≤ b.toQdf
  canIn : f.r.can.inp = fallen f.r.can + f.r.can.ohoriz + f.r.can.uz
  canBal : f.r.can.fin + f.r.can.out = f.r.can.init + f.r.can.inp - f.r.can.et
  snowIn : f.r.snow.inp = fallen f.r.snow + f.r.snow.can
  snowMelt : f.r.snow.melt = 0
  snowBal : f.r.snow.fin + f.r.snow.out = f.r.snow.init + f.r.snow.inp - f.r.snow.et
  ohIn : f.r.ohoriz.inp = fallen f.r.ohoriz + f.r.ohoriz.can + f.r.ohoriz.melt
  ohBal : f.r.ohoriz.fin + f.r.ohoriz.out = f.r.ohoriz.init + f.r.ohoriz.inp
  binIn : ∀ b ∈ f.bins, b.vol.inp = fallen b.vol + b.vol.can + b.vol.melt + b.vol.sat
  binBal : ∀ b ∈ f.bins, b.vol.fin + b.vol.out = b.vol.init + b.vol.inp - b.vol.et
  binOut : ∀ b ∈ f.bins, b.vol.out = b.toCan + b.toSat + b.toQdf
  toCan : sumOf (·.toCan) f.bins = f.r.can.uz
  toSat : sumOf (·.toSat) f.bins = f.r.sat.uz
  toQdf : sumOf (·.toQdf) f.bins = f.r.qdf.uz
  qdfIn : f.r.qdf.inp = f.r.qdf.uz
  qdfOut : f.r.qdf.out = f.r.qdf.inp
  qdfFin : f.r.qdf.fin = f.r.qdf.init
  satIn : f.r.sat.inp = fallen f.r.sat + f.r.sat.can + f.r.sat.melt + f.r.sat.uz + f.r.sat.gw1 + f.r.sat.gw2
  satBal : f.r.sat.fin + f.r.sat.out = f.r.sat.init + f.r.sat.inp
  satOut : f.r.sat.out = f.sat2uz + f.well + f.r.satpref.sat + f.r.hill.sat + f.p.vol f.i.gwLoss
  prefIn : f.r.satpref.inp = f.r.satpref.sat
  prefOut : f.r.satpref.out = f.r.satpref.inp
  prefFin : f.r.satpref.fin = f.r.satpref.init
  hillIn : f.r.hill.inp = f.r.hill.ohoriz + f.r.hill.qdf + f.r.hill.sat + f.r.hill.satpref
  hillOut : f.r.hill.out = f.r.hill.inp
  well : 0 ≤ f.well
  sat2uz : 0 ≤ f.sat2uz
  loss : 0 ≤ f.p.vol f.i.gwLoss
  mru : f.r.mru.ppt = f.i.ppt * f.p.area * inch2m * Reservoir.million ∧
    f.r.mru.ext = (if f.p.external then f.i.irrExt else 0) * f.p.area * inch2m * Reservoir.million ∧
    f.r.mru.well = (if f.p.internal then f.i.irrSat else 0) * f.p.area * inch2m * Reservoir.million ∧
    f.r.mru.div = (if f.p.internal then f.i.irrHyd else 0) * f.p.area * inch2m * Reservoir.million
  drip : 0 < f.r.can.uz → f.r.can.out = 0
  closed : f.r.Closed (f.p.vol f.i.gwLoss)
  uz : f.r.uz = f.bins.map (·.vol)
  wellIs : f.r.mru.well = f.well

theorem sumOf_nonneg {α : Type} (g : α → Rat) (l : List α) (h : ∀ x ∈ l, 0 ≤ g x) : 0 ≤ sumOf g l := by
  induction l with
  | nil => simp [sumOf_nil]
  | cons a l ih =>
    rw [sumOf_cons]
    have := h a List.mem_cons_self
    have := ih fun x hx => h x (List.mem_cons_of_mem _ hx)
    linarith

theorem sumOf_eq_zero {α : Type} (g : α → Rat) (l : List α) (h : ∀ x ∈ l, 0 ≤ g x) (h0 : sumOf g l = 0) : ∀ x ∈ l, g x = 0 := by
  induction l with
  | nil => simp
  | cons a l ih =>
    rw [sumOf_cons] at h0
    have h1 := h a List.mem_cons_self
    have h2 := sumOf_nonneg g l fun x hx => h x (List.mem_cons_of_mem _ hx)
    intro x hx
    rcases List.mem_cons.1 hx with rfl | hx
    · linarith
    · exact ih (fun x hx => h x (List.mem_cons_of_mem _ hx)) (by linarith) x hx

theorem oh_melt (p : Par) (was : Bool) (i : In) (g : Reservoir.Ground) (x : Rat) (v : Vol)
    (h : Reservoir.ohorizon p was i g x = some v) : v.ohoriz = 0 ∧ v.uz = 0 ∧ v.inp = fallen v + v.can + v.melt := by
  unfold Reservoir.ohorizon at h
  dsimp only at h
  split at h
  · split at h
    · exact absurd h (by simp)
    · simp only [Option.some.injEq] at h
      subst h
      refine ⟨rfl, rfl, ?_⟩
      simp only [fallen]; ring
  · simp only [Option.some.injEq] at h
    subst h
    refine ⟨rfl, rfl, ?_⟩
    simp only [fallen]; ring

theorem Flow.Ok.facts {f : Flow} (h : f.Ok) : Facts f := by
  obtain ⟨s, e, hst, he, hk, hx⟩ := h.made
  have hcl := Reservoir.step_closed f.p h.par s f.i h.fluxes hk hx f.r e hst
  obtain ⟨oh, b, h1, h2, e1, e2, e3, r1, r2, r3, r4, r5, r6, r7, r8, r9, r10, r11, r12, r13⟩ := Reservoir.step_eq f.p s f.i f.r e hst
  have hcan := Reservoir.toCan_sum f.p h.par s f.i h.fluxes (Reservoir.ground f.p f.i (Reservoir.snowfrac f.i s.snow)) s.uz hx s.can
  have hrow : ∀ b ∈ f.bins, ∃ a bi x, b = Reservoir.bin f.p s.transp f.i
      (Reservoir.ground f.p f.i (Reservoir.snowfrac f.i s.snow)) (Reservoir.canopy f.p s.transp f.i s.can).uz a bi x := by
    intro o ho
    rw [← he, e1] at ho
    obtain ⟨j, hj⟩ := List.mem_iff_getElem?.1 ho
    obtain ⟨a, bb, x, -, -, -, rfl⟩ := Reservoir.bins_getElem _ _ _ _ _ _ j o hj
    exact ⟨a, bb, x, rfl⟩
  have hn := h.nonneg
  have hf := Reservoir.fall_nonneg f.p h.par f.i h.fluxes
  have hl : 0 ≤ f.p.vol f.i.gwLoss := Reservoir.vol_nonneg f.p h.par _ hn.loss
  have hb : ∀ b ∈ f.bins, Pos b.vol ∧ 0 ≤ b.toCan ∧ 0 ≤ b.toSat ∧ 0 ≤ b.toQdf :=
    fun b hb => ⟨Pos.of _ (hn.bins b hb).1, (hn.bins b hb).2⟩
  obtain ⟨o1, o2, o3, o4⟩ := Reservoir.ohorizon_row _ _ _ _ _ _ h1
  have o5 := (oh_melt _ _ _ _ _ _ h1).2.2
  have hsn := hcl.2
  unfold Vol.Balanced at hsn o1
  constructor
  case pcan => exact Pos.of _ (hn.rows _ (by simp))
  case psnow => exact Pos.of _ (hn.rows _ (by simp))
  case poh => exact Pos.of _ (hn.rows _ (by simp))
  case pqdf => exact Pos.of _ (hn.rows _ (by simp))
  case psat => exact Pos.of _ (hn.rows _ (by simp))
  case ppref => exact Pos.of _ (hn.rows _ (by simp))
  case phill => exact Pos.of _ (hn.rows _ (by simp))
  case pbin => exact hb
  case canIn => rw [r2]; simp only [Reservoir.canopy, fallen]
  case canBal => rw [r2]; simp only [Reservoir.canopy]; ring
  case snowIn =>
    rw [r3]; unfold Reservoir.snow
    split
    · simp [fallen]
    · simp only [fallen]
  case snowMelt => rw [r3]; unfold Reservoir.snow; split <;> rfl
  case snowBal => linarith
  case ohIn => rw [r4]; exact o5
  case ohBal => rw [r4]; linarith
  case binIn => intro b hb; obtain ⟨a, bi, x, rfl⟩ := hrow b hb; simp only [Reservoir.bin, fallen]; ring
  case binBal => intro b hb; obtain ⟨a, bi, x, rfl⟩ := hrow b hb; simp only [Reservoir.bin]; ring
  case binOut => intro b hb; obtain ⟨a, bi, x, rfl⟩ := hrow b hb; simp only [Reservoir.bin]; ring
  case toCan => rw [← he, e1, r2]; exact hcan
  case toSat => rw [r10, he]; rfl
  case toQdf => rw [r9, he]; rfl
  case qdfIn => rw [r9]; rfl
  case qdfOut => rw [r9]; rfl
  case qdfFin => rw [r9]; simp only [Reservoir.qdfRow]; ring
  case satIn => rw [r10]; simp only [Reservoir.satRow, fallen]
  case satBal => rw [r10]; simp only [Reservoir.satRow]; ring
  case satOut => rw [r10, r11, r12, he]; simp only [Reservoir.satRow, Reservoir.satprefRow, Reservoir.hillRow, Flow.sat2uz, Flow.well]; ring
  case prefIn => rw [r11]; rfl
  case prefOut => rw [r11]; rfl
  case prefFin => rw [r11]; simp only [Reservoir.satprefRow]; ring
  case hillIn => rw [r12]; simp only [Reservoir.hillRow]; ring
  case hillOut => rw [r12]; rfl
  case well => exact hf.2.1
  case sat2uz => exact sumOf_nonneg _ _ fun b h => (hb b h).1.sat
  case loss => exact hl
  case mru =>
    rw [r13]
    simp only [Reservoir.mruRow, fall, Par.vol]
    refine ⟨by ring, ?_, ?_, ?_⟩ <;> split <;> ring
  case drip =>
    rw [r2]
    intro hu
    rw [Reservoir.canopy_out f.p h.par s.transp f.i h.fluxes s.can]
    simp only [Reservoir.canopy] at hu
    split at hu
    · next ht =>
      rw [ht, zero_add, if_neg]
      intro hlf
      have : Reservoir.rate s.transp f.i = 0 := by
        unfold Reservoir.rate
        have : f.i.transp = false := by
          unfold Reservoir.leavesOff at hlf
          cases hh : f.i.transp
          · rfl
          · rw [hh] at hlf; exact absurd hlf (by simp)
        simp [this, hlf]
      rw [this] at hu
      simp [Par.vol] at hu
    · exact absurd hu (by simp)
  case closed => rw [Reservoir.vol_eq]; exact hcl.1
  case uz => rw [r5, he]
  case wellIs => rw [r13]; rfl

end Verif.Transport
