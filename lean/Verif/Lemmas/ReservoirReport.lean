import Verif.Lemmas.ReservoirBasin
/-
Lemmas for C107: reported depths.
-/
namespace Verif.Reservoir
open Verif.Topmod (acfs)

/-- What the units do in a step. -/
theorem units_mem (ps : List Par) (us : List Start) (is : List In) (rs : List (Rows × Extra))
    (h : stepUnits (List.zip ps (List.zip us is)) = some rs) (u : UnitRes) (hu : u ∈ List.zip ps (List.zip is rs)) :
    ∃ (k : Nat) (s : Start), ps[k]? = some u.1 ∧ us[k]? = some s ∧ is[k]? = some u.2.1 ∧ step u.1 s u.2.1 = some u.2.2 := by
  induction ps generalizing us is rs with
  | nil => simp at hu
  | cons p ps ih =>
    cases is with
    | nil => simp at hu
    | cons i is =>
      cases us with
      | nil =>
        simp only [List.zip_nil_left, List.zip_nil_right, stepUnits, Option.some.injEq] at h
        subst h
        simp at hu
      | cons s us =>
        simp only [List.zip_cons_cons, stepUnits] at h
        split at h
        · rename_i x xs h1 h2
          simp only [Option.some.injEq] at h
          subst h
          simp only [List.zip_cons_cons, List.mem_cons] at hu
          rcases hu with rfl | hu
          · exact ⟨0, s, rfl, rfl, rfl, h1⟩
          · obtain ⟨k, s', a, b, c, d⟩ := ih us is xs h2 hu
            exact ⟨k + 1, s', a, b, c, d⟩
        · exact absurd h (by simp)

/-- Evaporation from the bins is that of the unit, less what the canopy takes. -/
theorem uz_et (p : Par) (hp : p.Ok) (s : Start) (i : In) (hi : i.Ok p) (hx : s.uz.length = p.ac.length) (r : Rows) (e : Extra)
    (h : step p s i = some (r, e)) : sumOf (·.et) r.uz = p.vol i.sae - r.can.uz := by
  obtain ⟨oh, b, h1, h2, e1, e2, e3, r1, r2, r3, r4, r5, r6, r7, r8, r9, r10, r11, r12, r13⟩ := step_eq p s i r e h
  have ht := toCan_sum p hp s i hi (ground p i (snowfrac i s.snow)) s.uz hx s.can
  have hs := bins_sum p s.transp i (ground p i (snowfrac i s.snow)) (canopy p s.transp i s.can).uz s.uz hi.bins hx
    (fun b => b.vol.et + b.toCan) (fun a b => b.sae * (a * p.area * million)) (fun a b x => by simp only [bin]; ring)
  rw [sumOf_add, ht, zipWith_sum_mul _ (fun a (b : BinIn) => a * b.sae) (p.area * million) _ _ fun a _ b _ => by ring] at hs
  have e4 : (List.zipWith (fun a (b : BinIn) => a * b.sae) (acfs p.ac) i.bins).sum = i.sae := hi.evap.1.symm
  rw [r5, sumOf_map, e1, r2]
  rw [e4] at hs
  unfold Par.vol
  linarith

/-- The water at the ground is overland flow, infiltration and bypass. -/
theorem surfdep_eq (p : Par) (hp : p.Ok) (s : Start) (i : In) (hi : i.Ok p) (hk : i.Pack p s) (hx : s.uz.length = p.ac.length)
    (r : Rows) (e : Extra) (h : step p s i = some (r, e)) :
    e.surfdep = p.vol i.qof + sumOf (·.infil) e.bins + e.bypass := by
  obtain ⟨oh, b, h1, h2, e1, e2, e3, r1, r2, r3, r4, r5, r6, r7, r8, r9, r10, r11, r12, r13⟩ := step_eq p s i r e h
  rw [e2, ground_total p s i hp hi hk, e3, e1,
    bins_sum p s.transp i _ _ s.uz hi.bins hx (·.infil) (fun a b => b.infil * (a * p.area * million)) (fun a b x => rfl), infil_sum]
  have hb : (if i.qvpref > 0 then p.vol i.qvpref else 0) = p.vol i.qvpref := by
    split
    · rfl
    · rename_i hq
      rw [le_antisymm (not_lt.1 hq) hi.flows.2.1, vol_zero]
  rw [hb]
  unfold inches Par.vol million
  rw [hi.soil]
  ring

/-- What leaves the hillslope. -/
theorem hill_out (p : Par) (hp : p.Ok) (s : Start) (i : In) (hi : i.Ok p) (hk : i.Pack p s)
    (r : Rows) (e : Extra) (h : step p s i = some (r, e)) :
    r.hill.out = p.vol i.qof + r.qdf.out + p.vol i.qb + p.vol i.qpref := by
  obtain ⟨oh, b, h1, h2, e1, e2, e3, r1, r2, r3, r4, r5, r6, r7, r8, r9, r10, r11, r12, r13⟩ := step_eq p s i r e h
  obtain ⟨-, -, -, -, -, -, ho⟩ := ohorizon_cols p _ i _ _ _ h1
  have hc : r.can.ohoriz = if leavesOn s.transp i then p.leaf else 0 := by rw [r2]; rfl
  have hr : (ground p i (snowfrac i s.snow)).total * runoff i = p.vol i.qof := by
    rw [ground_total p s i hp hi hk]
    unfold runoff
    split
    · rename_i hq
      have hne : i.snowmelt + i.psoil ≠ 0 := by
        intro h0
        have h3 := hi.soil
        rw [h0, zero_mul] at h3
        have h4 : 0 ≤ overBins p i (·.infil) := by
          unfold overBins
          apply zipWith_sum_nonneg
          intro a ha b hb
          exact mul_nonneg (Topmod.acfs_nonneg p.ac hp.ac a ha) (hi.flows.2.2 b hb)
        have h5 := hi.flows.2.1
        linarith
      unfold inches Par.vol inch2m million
      field_simp
    · rename_i hq
      rw [le_antisymm (not_lt.1 hq) hi.flows.1, vol_zero, mul_zero]
  rw [r12, r11]
  simp only [hillRow, satprefRow]
  rw [ho, hc, hr]
  ring

/-- The factor of the reports. -/
theorem m3cm_eq (b : Basin) (v : Rat) : v * m3cm b.area = depth b v := by
  unfold m3cm depth
  by_cases h : b.area = 0
  · simp [h]
  · field_simp; ring

theorem depth_add (b : Basin) (v w : Rat) : depth b (v + w) = depth b v + depth b w := by
  unfold depth; ring

theorem depth_sub (b : Basin) (v w : Rat) : depth b (v - w) = depth b v - depth b w := by
  unfold depth; ring

/-- The units of the basin, without the other results. -/
theorem zip_rows (ps : List Par) (is : List In) (rs : List (Rows × Extra)) :
    List.zip ps (List.zip is (rs.map (·.1))) = (List.zip ps (List.zip is rs)).map fun u => (u.1, u.2.1, u.2.2.1) := by
  induction ps generalizing is rs with
  | nil => simp
  | cons p ps ih =>
    cases is with
    | nil => simp
    | cons i is =>
      cases rs with
      | nil => simp
      | cons r rs => simp [ih is rs]

end Verif.Reservoir
