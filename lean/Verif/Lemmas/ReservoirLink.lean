import Verif.Lemmas.ReservoirFlux
/-
Lemmas for C105: the volumes and the storages of the other modules.
-/
namespace Verif.Reservoir
open Verif.Topmod (acfs)

theorem zipWith_sum_congr {α β : Type} (f g : α → β → Rat) (as : List α) (bs : List β)
    (h : ∀ (j : Nat) a b, as[j]? = some a → bs[j]? = some b → f a b = g a b) :
    (List.zipWith f as bs).sum = (List.zipWith g as bs).sum := by
  induction as generalizing bs with
  | nil => simp
  | cons a as ih =>
    cases bs with
    | nil => simp
    | cons b bs =>
      simp only [List.zipWith_cons_cons, List.sum_cons]
      rw [ih bs fun j a b ha hb => h (j + 1) a b (by simpa using ha) (by simpa using hb), h 0 a b rfl rfl]

theorem zipWith_zero {α β : Type} (f : α → β → Rat) (as : List α) (bs : List β)
    (hn : ∀ a ∈ as, ∀ b ∈ bs, 0 ≤ f a b) (h : (List.zipWith f as bs).sum = 0) (j : Nat) (a : α) (b : β)
    (ha : as[j]? = some a) (hb : bs[j]? = some b) : f a b = 0 := by
  induction as generalizing bs j with
  | nil => exact absurd ha (by simp)
  | cons a' as ih =>
    cases bs with
    | nil => exact absurd hb (by simp)
    | cons b' bs =>
      simp only [List.zipWith_cons_cons, List.sum_cons] at h
      have h1 := zipWith_sum_nonneg f as bs fun a ha b hb => hn a (by simp [ha]) b (by simp [hb])
      have h2 := hn a' (by simp) b' (by simp)
      cases j with
      | zero =>
        simp only [List.getElem?_cons_zero, Option.some.injEq] at ha hb
        subst ha; subst hb
        linarith
      | succ j =>
        exact ih bs (fun a ha b hb => hn a (by simp [ha]) b (by simp [hb])) (by linarith) j (by simpa using ha) (by simpa using hb)

/-- The change of a bin. -/
theorem bin_change (p : Par) (hp : p.Ok) (i : In) (hi : i.Ok p) (s : Start) (hk : i.Pack p s) (was : Bool) (t x : Rat) (j : Nat)
    (a : Rat) (b : BinIn) (ha : (acfs p.ac)[j]? = some a) (hb : i.bins[j]? = some b) :
    (bin p was i (ground p i (snowfrac i s.snow)) t a b x).vol.fin =
      x + metres p (a * (b.infil + b.wet - b.quz - b.qdf - b.sae - b.uz2sat)) := by
  have ht := ground_total p s i hp hi hk
  have hg := ground_nonneg p s i hp hi hk
  have hsum : share p (ground p i (snowfrac i s.snow)) (ground p i (snowfrac i s.snow)).ppt a b +
      share p (ground p i (snowfrac i s.snow)) (ground p i (snowfrac i s.snow)).can a b +
      share p (ground p i (snowfrac i s.snow)) (ground p i (snowfrac i s.snow)).well a b +
      share p (ground p i (snowfrac i s.snow)) (ground p i (snowfrac i s.snow)).div a b +
      share p (ground p i (snowfrac i s.snow)) (ground p i (snowfrac i s.snow)).ext a b +
      share p (ground p i (snowfrac i s.snow)) (ground p i (snowfrac i s.snow)).melt a b = b.infil * (a * p.area * million) := by
    generalize ground p i (snowfrac i s.snow) = g at ht hg ⊢
    have h1 := acf_nonneg p hp a (List.mem_of_getElem? ha)
    have h2 := hi.flows.2.2 b (List.mem_of_getElem? hb)
    unfold share
    by_cases hc : b.infil * (a * p.area * million) > 0 ∧ g.total > 0
    · simp only [if_pos hc]
      have h0 := hc.2
      have e : g.total = g.ppt + g.can + g.well + g.div + g.ext + g.melt := by unfold Ground.total; ring
      have hne : g.total ≠ 0 := ne_of_gt h0
      rw [← add_div, ← add_div, ← add_div, ← add_div, ← add_div, div_eq_iff hne]
      rw [e]; ring
    · simp only [if_neg hc]
      rcases not_and_or.1 hc with hc | hc
      · have : b.infil * (a * p.area * million) = 0 := le_antisymm (not_lt.1 hc) (mul_nonneg h2 h1)
        rw [this]; norm_num
      · have hT : g.total = 0 := by
          obtain ⟨g1, g2, g3, g4, g5, g6⟩ := hg
          have : 0 ≤ g.total := by unfold Ground.total; linarith
          exact le_antisymm (not_lt.1 hc) this
        have hin : 0 ≤ overBins p i (·.infil) := by
          apply zipWith_sum_nonneg
          intro a ha b hb
          exact mul_nonneg (Topmod.acfs_nonneg p.ac hp.ac a ha) (hi.flows.2.2 b hb)
        have hW : (i.snowmelt + i.psoil) * (254 / 10000) = 0 := by
          rw [hT] at ht
          unfold inches at ht
          rcases mul_eq_zero.1 ht.symm with h3 | h3
          · exact h3
          · have := hp.area; exact absurd h3 (by positivity)
        have hsoil := hi.soil
        rw [hW] at hsoil
        have h0 : overBins p i (·.infil) = 0 := by linarith [hi.flows.1, hi.flows.2.1]
        have := zipWith_zero (fun a (b : BinIn) => a * b.infil) (acfs p.ac) i.bins (fun a ha b hb =>
          mul_nonneg (Topmod.acfs_nonneg p.ac hp.ac a ha) (hi.flows.2.2 b hb)) h0 j a b ha hb
        have e : b.infil * (a * p.area * million) = a * b.infil * (p.area * million) := by ring
        rw [e, this]; norm_num
  have hfin : (bin p was i (ground p i (snowfrac i s.snow)) t a b x).vol.fin = x +
      (share p (ground p i (snowfrac i s.snow)) (ground p i (snowfrac i s.snow)).ppt a b +
      share p (ground p i (snowfrac i s.snow)) (ground p i (snowfrac i s.snow)).can a b +
      share p (ground p i (snowfrac i s.snow)) (ground p i (snowfrac i s.snow)).well a b +
      share p (ground p i (snowfrac i s.snow)) (ground p i (snowfrac i s.snow)).div a b +
      share p (ground p i (snowfrac i s.snow)) (ground p i (snowfrac i s.snow)).ext a b +
      share p (ground p i (snowfrac i s.snow)) (ground p i (snowfrac i s.snow)).melt a b) +
      ((if b.uz2sat < 0 then b.wet * (a * p.area * million) - b.uz2sat * (a * p.area * million) else b.wet * (a * p.area * million)) -
        b.quz * (a * p.area * million) - b.qdf * (a * p.area * million) -
        (if b.uz2sat > 0 then b.uz2sat * (a * p.area * million) else 0) - b.sae * (a * p.area * million)) := by
    unfold share
    simp only [bin]
    ring
  rw [hfin, hsum]
  have hup : (if b.uz2sat < 0 then b.wet * (a * p.area * million) - b.uz2sat * (a * p.area * million) else b.wet * (a * p.area * million)) -
      (if b.uz2sat > 0 then b.uz2sat * (a * p.area * million) else 0) = (b.wet - b.uz2sat) * (a * p.area * million) := by
    rcases lt_trichotomy b.uz2sat 0 with h | h | h
    · rw [if_pos h, if_neg (by linarith)]; ring
    · rw [h]; simp
    · rw [if_neg (by linarith), if_pos h]; ring
  unfold metres
  unfold million at *
  linarith

/-- The water that bypasses the unsaturated zone. -/
theorem bypass_total (p : Par) (i : In) (hi : i.Ok p) (g : Ground) (b : Rat) (hb : bypass p i g = some b) :
    g.total * b = p.vol i.qvpref := by
  unfold bypass at hb
  dsimp only at hb
  split at hb
  · split at hb
    · exact absurd hb (by simp)
    · rename_i hn
      rw [not_or] at hn
      obtain ⟨n1, n2⟩ := hn
      rw [← Option.some.inj hb]
      field_simp
  · have : i.qvpref = 0 := le_antisymm (not_lt.1 ‹_›) hi.flows.2.1
    rw [this, vol_zero, ← Option.some.inj hb]; ring

theorem overBins_vol (p : Par) (i : In) (f : BinIn → Rat) :
    (List.zipWith (fun a (b : BinIn) => f b * (a * p.area * million)) (acfs p.ac) i.bins).sum = metres p (overBins p i f) := by
  unfold overBins
  rw [zipWith_sum_mul _ (fun a (b : BinIn) => a * f b) (p.area * million)]
  · unfold metres million; ring
  · intro a _ b _; ring

/-- The change of the saturated zone. -/
theorem sat_change (p : Par) (i : In) (hi : i.Ok p) (s : Start)
    (hx : s.uz.length = p.ac.length) (r : Rows) (e : Extra) (h : step p s i = some (r, e)) :
    r.sat.fin = s.sat + metres p (i.qvpref + overBins p i (fun b => b.quz + b.uz2sat - b.wet) + i.gwIn1 + i.gwIn2 - i.qpref - i.qb -
      i.gwLoss) - (if p.internal then inches p i.irrSat else 0) := by
  obtain ⟨oh, b, h1, h2, e1, e2, e3, r1, r2, r3, r4, r5, r6, r7, r8, r9, r10, r11, r12, r13⟩ := step_eq p s i r e h
  have hb := bypass_total p i hi _ b h2
  have hwell : (fall p i).well = if p.internal then inches p i.irrSat else 0 := by
    unfold fall; dsimp only
    split
    · exact vol_inch _ _
    · rfl
  have hex : sumOf (·.toSat) e.bins - sumOf (·.vol.sat) e.bins =
      metres p (overBins p i (fun b => b.quz + b.uz2sat - b.wet)) := by
    rw [e1, ← overBins_vol]
    rw [bins_sum p s.transp i _ _ s.uz hi.bins hx (·.toSat) (fun a b => b.quz * (a * p.area * million) +
      if b.uz2sat > 0 then b.uz2sat * (a * p.area * million) else 0) fun _ _ _ => rfl]
    rw [bins_sum p s.transp i _ _ s.uz hi.bins hx (·.vol.sat) (fun a b => if b.uz2sat < 0 then b.wet * (a * p.area * million) -
      b.uz2sat * (a * p.area * million) else b.wet * (a * p.area * million)) fun _ _ _ => rfl]
    clear * -
    generalize acfs p.ac = as
    generalize i.bins = bs
    induction as generalizing bs with
    | nil => simp
    | cons a as ih =>
      cases bs with
      | nil => simp
      | cons b bs =>
        simp only [List.zipWith_cons_cons, List.sum_cons]
        have := ih bs
        have hup : (if b.uz2sat > 0 then b.uz2sat * (a * p.area * million) else 0) -
            (if b.uz2sat < 0 then b.wet * (a * p.area * million) - b.uz2sat * (a * p.area * million)
              else b.wet * (a * p.area * million)) = (b.uz2sat - b.wet) * (a * p.area * million) := by
          rcases lt_trichotomy b.uz2sat 0 with h | h | h
          · rw [if_neg (by linarith), if_pos h]; ring
          · rw [h]; simp
          · rw [if_pos h, if_neg (by linarith)]; ring
        linarith
  rw [r10]
  simp only [satRow]
  rw [hwell]
  have hT : (ground p i (snowfrac i s.snow)).total = (ground p i (snowfrac i s.snow)).ppt + (ground p i (snowfrac i s.snow)).ext +
    (ground p i (snowfrac i s.snow)).well + (ground p i (snowfrac i s.snow)).div + (ground p i (snowfrac i s.snow)).can +
    (ground p i (snowfrac i s.snow)).melt := rfl
  rw [hT] at hb
  simp only [vol_eq] at *
  unfold metres at *
  linarith

/-- The change of the unsaturated zone. -/
theorem uz_change (p : Par) (hp : p.Ok) (i : In) (hi : i.Ok p) (s : Start) (hk : i.Pack p s)
    (hx : s.uz.length = p.ac.length) (r : Rows) (e : Extra) (h : step p s i = some (r, e)) :
    column (·.fin) r.uz = s.uz.sum + metres p (overBins p i fun b => b.infil + b.wet - b.quz - b.qdf - b.sae - b.uz2sat) := by
  obtain ⟨oh, b, h1, h2, e1, e2, e3, r1, r2, r3, r4, r5, r6, r7, r8, r9, r10, r11, r12, r13⟩ := step_eq p s i r e h
  have hch := bin_change p hp i hi s hk s.transp (canopy p s.transp i s.can).uz
  rw [column_eq, r5, sumOf_map, e1]
  unfold bins overBins
  have hl := Topmod.acfs_length p.ac
  have hbl := hi.bins
  generalize acfs p.ac = as at *
  generalize i.bins = bs at *
  generalize s.uz = xs at *
  rw [← hl] at hx hbl
  clear * - hch hx hbl
  induction as generalizing bs xs with
  | nil =>
    cases xs with
    | nil => simp [sumOf, metres]
    | cons x xs => simp at hx
  | cons a as ih =>
    cases bs with
    | nil => simp at hbl
    | cons b bs =>
      cases xs with
      | nil => simp at hx
      | cons x xs =>
        simp only [List.zip_cons_cons, List.zipWith_cons_cons, sumOf_cons, List.sum_cons]
        rw [ih bs (by simpa using hbl)
          (fun x j a b ha hb => hch x (j + 1) a b (by simpa using ha) (by simpa using hb)) xs (by simpa using hx),
          hch x 0 a b rfl rfl]
        unfold metres; ring

/-- The change of the canopy. -/
theorem can_change (p : Par) (hp : p.Ok) (was : Bool) (i : In) (hi : i.Ok p) (y : Rat) :
    (canopy p was i y).fin = y + metres p (p.canDepth * cover p i.transp) - metres p (p.canDepth * cover p was) +
      inches p (i.dep - i.netDep - i.intcpEvap) := by
  have h1 := canopy_out p hp was i hi y
  have h2 := (canopy_row p was i y).1
  have h3 := net_eq p i hi
  have h4 := fall_total p i hi
  unfold Vol.Balanced at h2
  rw [h2, h1]
  have e1 : (canopy p was i y).init = y := rfl
  have e2 : (canopy p was i y).inp = (fall p i).total * covden p i + (if leavesOn was i then p.leaf else 0) + (canopy p was i y).uz := by
    simp only [canopy, Fall.total]; ring
  have e3 : (canopy p was i y).et = inches p i.intcpEvap + (canopy p was i y).uz := by
    simp only [canopy, vol_inch]
  have e4 : (if leavesOn was i then p.leaf else 0) - (if leavesOff was i then p.leaf else 0) =
      metres p (p.canDepth * cover p i.transp) - metres p (p.canDepth * cover p was) := by
    unfold leavesOn leavesOff Par.leaf cover metres Par.vol million
    cases i.transp <;> cases was <;> simp <;> ring
  have e5 : inches p (i.dep - i.netDep - i.intcpEvap) = inches p i.dep - inches p i.netDep - inches p i.intcpEvap := by
    unfold inches; ring
  rw [h4] at h3 e2
  rw [e1, e2, e3, e5]
  linarith

end Verif.Reservoir
