import Verif.Spec.Intcp
import Mathlib.Tactic.Linarith
import Mathlib.Tactic.SplitIfs
import Mathlib.Tactic.Ring
import Mathlib.Tactic.FieldSimp
import Mathlib.Algebra.BigOperators.Group.List.Basic
/-
Helper lemmas for C36.
-/
namespace Verif.Intcp

theorem intercept_balance (p m c s : Rat) :
    p = (intercept p m c s).2 + c * ((intercept p m c s).1 - s) := by
  unfold intercept; dsimp only; split_ifs <;> ring

theorem intercept_le (p m c s : Rat) : (intercept p m c s).1 ≤ m := by
  unfold intercept; dsimp only; split_ifs with h
  · exact le_refl _
  · push Not at h; show s + p ≤ m; linarith

theorem intercept_nonneg (p m c s : Rat) (hp : 0 ≤ p) (hm : 0 ≤ m) (hs : 0 ≤ s) :
    0 ≤ (intercept p m c s).1 := by
  unfold intercept; dsimp only; split_ifs
  · exact hm
  · show 0 ≤ s + p; linarith

/-- After the season has been updated the held water is unchanged. -/
theorem season_held (v : Veg) (hv : v.Ok) (i : In) (st : St) (hs : st.Ok) (hi : i.Ok)
    (h : Season v i st) :
    held v (season v i.transp st) = held v st ∧ (season v i.transp st).transpOn = i.transp ∧
      (season v i.transp st).on = st.on ∧ 0 ≤ (season v i.transp st).stor ∧
      (st.stor = 0 → (season v i.transp st).stor = 0) ∧
      (st.on = 0 → (season v i.transp st).evap = 0 ∨ (season v i.transp st).stor = 0) := by
  unfold season
  by_cases h1 : i.transp = 0 ∧ st.transpOn = 1
  · exfalso
    rcases h with h | h
    · omega
    · omega
  · rw [if_neg h1]
    by_cases h2 : i.transp = 1 ∧ st.transpOn = 0
    · rw [if_pos h2]
      have hc : v.covSum ≠ 0 := by
        rcases h with h | h
        · omega
        · exact h.2
      obtain ⟨w1, w2⟩ := hv.win
      obtain ⟨s1, s2⟩ := hv.sum
      by_cases h3 : st.stor > 0
      · simp only [h3, if_true, hc, if_false]
        refine ⟨?_, h2.1.symm, trivial, ?_, fun h => ?_, fun h => ?_⟩
        · simp only [held, cover, h2.2, if_true, if_neg (show ¬ ((0 : Int) = 1) by omega)]
          field_simp
        · exact mul_nonneg hs.stor (div_nonneg w1 s1)
        · rw [h] at h3; exact absurd h3 (lt_irrefl _)
        · exact absurd (hs.off h) h3.ne'
      · have hz : st.stor = 0 := le_antisymm (not_lt.1 h3) hs.stor
        simp [h3, held, hz, h2.1]
    · rw [if_neg h2]
      have : i.transp = st.transpOn := by
        rcases h with h | h
        · exact h
        · have := hs.transp
          omega
      refine ⟨rfl, this.symm, rfl, hs.stor, id, fun _ => Or.inl rfl⟩

theorem rain_held (v : Veg) (hv : v.Ok) (i : In) (hi : i.Ok) (hc : Canopy v i) (st : St)
    (h0 : 0 ≤ st.stor) (h1 : st.on = 0 ∨ st.on = 1) (h2 : st.on = 0 → st.stor = 0)
    (ht : st.transpOn = i.transp) :
    let r := rainPart v i st
    i.rain + held v st = r.2.2 + held v r.1 ∧ r.1.transpOn = i.transp ∧ 0 ≤ r.1.stor ∧
      (r.1.on = 0 ∨ r.1.on = 1) ∧ (r.1.on = 0 → r.1.stor = 0 ∧ r.2.1 = 0) ∧
      (r.2.1 = cover v i.transp ∨ (r.2.1 = 0 ∧ r.1 = st)) ∧
      (0 < i.rain → r.1.stor ≤ (if i.transp = 1 then v.srain else v.wrain)) := by
  dsimp only
  unfold rainPart
  by_cases h3 : i.rain > 0
  · rw [if_pos h3, if_pos (hc.1 h3)]
    dsimp only
    have hb := intercept_balance i.rain (if i.transp = 1 then v.srain else v.wrain)
      (if i.transp = 1 then v.covSum else v.covWin) st.stor
    have hcap : 0 ≤ (if i.transp = 1 then v.srain else v.wrain) := by
      split_ifs
      · exact hv.srain
      · exact hv.wrain
    refine ⟨?_, ht, intercept_nonneg _ _ _ _ hi.rain hcap h0, Or.inr rfl, fun h => ?_, Or.inl rfl,
      fun _ => intercept_le _ _ _ _⟩
    · simp only [held, cover, ht]
      linarith
    · exact absurd h (by decide)
  · rw [if_neg h3]
    have hz : i.rain = 0 := le_antisymm (not_lt.1 h3) hi.rain
    exact ⟨by simp [hz], ht, h0, h1, fun h => ⟨h2 h, rfl⟩, Or.inr ⟨rfl, rfl⟩, fun h => absurd h h3⟩

theorem snow_held (v : Veg) (hv : v.Ok) (i : In) (hi : i.Ok) (hc : Canopy v i) (st : St) (c : Rat)
    (h0 : 0 ≤ st.stor) (h1 : st.on = 0 ∨ st.on = 1) (h2 : st.on = 0 → st.stor = 0)
    (ht : st.transpOn = i.transp) :
    let r := snowPart v i st c
    i.snow + held v st = r.2.2 + held v r.1 ∧ r.1.transpOn = i.transp ∧ 0 ≤ r.1.stor ∧
      (r.1.on = 0 ∨ r.1.on = 1) ∧ (r.1.on = 0 → r.1.stor = 0 ∧ r.2.1 = c ∧ st.on = 0) ∧
      (r.2.1 = cover v i.transp ∨ (r.2.1 = c ∧ r.1 = st)) ∧
      (0 < i.snow → r.1.stor ≤ v.snowCap) ∧ (¬ 0 < i.snow → r.1 = st) := by
  dsimp only
  unfold snowPart
  by_cases h3 : i.snow > 0
  · rw [if_pos h3, if_pos (hc.2 h3)]
    dsimp only
    have hb := intercept_balance i.snow v.snowCap
      (if i.transp = 1 then v.covSum else v.covWin) st.stor
    refine ⟨?_, ht, intercept_nonneg _ _ _ _ hi.snow hv.snow h0, Or.inr rfl, fun h => ?_, Or.inl rfl,
      fun _ => intercept_le _ _ _ _, fun h => absurd h3 h⟩
    · simp only [held, cover, ht]
      linarith
    · exact absurd h (by decide)
  · rw [if_neg h3]
    have hz : i.snow = 0 := le_antisymm (not_lt.1 h3) hi.snow
    exact ⟨by simp [hz], ht, h0, h1, fun h => ⟨h2 h, rfl, h⟩, Or.inr ⟨rfl, rfl⟩, fun h => absurd h h3,
      fun _ => rfl⟩

theorem cover_range (v : Veg) (hv : v.Ok) (t : Int) : 0 ≤ cover v t ∧ cover v t ≤ 1 := by
  unfold cover; split_ifs
  · exact hv.sum
  · exact hv.win

theorem intercept_net (p m c s : Rat) (hp : 0 ≤ p) (hc : 0 ≤ c ∧ c ≤ 1) : 0 ≤ (intercept p m c s).2 := by
  unfold intercept; dsimp only; split_ifs with h
  · have a := mul_nonneg hp (by linarith [hc.2] : 0 ≤ 1 - c)
    have b := mul_nonneg (by linarith : 0 ≤ p - (m - s)) hc.1
    show 0 ≤ p * (1 - c) + (p - (m - s)) * c
    linarith
  · have a := mul_nonneg hp (by linarith [hc.2] : 0 ≤ 1 - c)
    show 0 ≤ p * (1 - c) + 0 * c
    linarith

theorem rain_net (v : Veg) (hv : v.Ok) (i : In) (hi : i.Ok) (st : St) : 0 ≤ (rainPart v i st).2.2 := by
  unfold rainPart
  by_cases h1 : i.rain > 0
  · rw [if_pos h1]
    by_cases h2 : v.covType > 1 ∨ (v.covType = 1 ∧ i.pack = 0)
    · rw [if_pos h2]; exact intercept_net _ _ _ _ hi.rain (cover_range v hv i.transp)
    · rw [if_neg h2]; exact hi.rain
  · rw [if_neg h1]

theorem snow_net (v : Veg) (hv : v.Ok) (i : In) (hi : i.Ok) (st : St) (c : Rat) :
    0 ≤ (snowPart v i st c).2.2 := by
  unfold snowPart
  by_cases h1 : i.snow > 0
  · rw [if_pos h1]
    by_cases h2 : v.covType > 1
    · rw [if_pos h2]; exact intercept_net _ _ _ _ hi.snow (cover_range v hv i.transp)
    · rw [if_neg h2]; exact hi.snow
  · rw [if_neg h1]

theorem loss_held (v : Veg) (hv : v.Ok) (i : In) (hi : i.Ok) (st : St) (o : Out)
    (h0 : 0 ≤ st.stor) (h1 : st.on = 0 ∨ st.on = 1) (h2 : st.on = 0 → st.stor = 0)
    (ht : st.transpOn = i.transp) (hz : st.on = 0 → o.cov = 0) :
    let r := lossPart v i (if i.snow > 0 then 1 else 0) st o
    held v st = held v r.1 + r.2.cov * r.1.evap ∧ 0 ≤ r.2.cov * r.1.evap ∧
      r.2.cov * r.1.evap ≤ i.potet ∧ r.2.cov * r.1.evap ≤ held v st ∧ 0 ≤ r.1.stor ∧ r.1.stor ≤ st.stor ∧
      r.1.transpOn = i.transp ∧ (r.1.on = 0 ∨ r.1.on = 1) ∧ (r.1.on = 0 → r.1.stor = 0) ∧
      r.2.netDep = o.netDep ∧ r.2.netRain = o.netRain ∧ r.2.netSnow = o.netSnow := by
  have hcr := cover_range v hv i.transp
  have hheld : 0 ≤ held v st := by
    unfold held; rw [ht]; exact mul_nonneg hcr.1 h0
  dsimp only
  unfold lossPart
  by_cases hon : st.on = 1
  · rw [if_pos hon]
    dsimp only
    have skip : ∀ o' : Out, held v st = held v { st with evap := 0 } + o'.cov * (0 : Rat) ∧
        0 ≤ o'.cov * (0 : Rat) ∧ o'.cov * (0 : Rat) ≤ i.potet ∧ o'.cov * (0 : Rat) ≤ held v st := by
      intro o'
      simp only [mul_zero, add_zero]
      exact ⟨rfl, le_refl _, hi.potet, hheld⟩
    by_cases h3 : i.dt < 24 ∧ i.dep > 0
    · rw [if_pos h3]
      obtain ⟨a, b, c, d⟩ := skip o
      exact ⟨a, b, c, d, h0, le_refl _, ht, h1, h2, rfl, rfl, rfl⟩
    · rw [if_neg h3]
      by_cases h4 : i.snow > 0
      · rw [if_pos h4, if_pos rfl, if_neg (not_le.2 (hi.basin h4))]
        obtain ⟨a, b, c, d⟩ := skip o
        exact ⟨a, b, c, d, h0, le_refl _, ht, h1, h2, rfl, rfl, rfl⟩
      · rw [if_neg h4, if_neg (by decide)]
        unfold rainLoss
        dsimp only
        have hc : (if i.transp = 0 then v.covWin else v.covSum) = cover v i.transp := by
          unfold cover
          rcases hi.transp with h | h <;> simp [h]
        rw [hc]
        by_cases h5 : i.potet - st.stor < 0
        · rw [if_pos h5]
          simp only [held, ht, zero_add]
          have p1 := mul_nonneg hcr.1 hi.potet
          have p2 : cover v i.transp * i.potet ≤ 1 * i.potet := mul_le_mul_of_nonneg_right hcr.2 hi.potet
          have p3 : cover v i.transp * i.potet ≤ cover v i.transp * st.stor :=
            mul_le_mul_of_nonneg_left (by linarith) hcr.1
          exact ⟨by ring, p1, by linarith, p3, by linarith, by linarith [hi.potet], trivial, Or.inr trivial,
            fun h => absurd h (by decide), trivial, trivial, trivial⟩
        · rw [if_neg h5]
          simp only [held, ht, zero_add]
          have p1 := mul_nonneg hcr.1 h0
          have p2 : cover v i.transp * st.stor ≤ 1 * st.stor := mul_le_mul_of_nonneg_right hcr.2 h0
          exact ⟨by ring, p1, by linarith, le_refl _, le_refl _, h0, trivial, Or.inl trivial,
            fun _ => trivial, trivial, trivial, trivial⟩
  · rw [if_neg hon]
    have hoff : st.on = 0 := by omega
    have e : o.cov * st.evap = 0 := by rw [hz hoff, zero_mul]
    dsimp only
    rw [e]
    exact ⟨by ring, le_refl _, hi.potet, hheld, h0, le_refl _, ht, h1, h2, rfl, rfl, rfl⟩

/-- Everything about one step. -/
theorem step_facts (v : Veg) (hv : v.Ok) (i : In) (hi : i.Ok) (hc : Canopy v i) (st : St) (hs : st.Ok)
    (hse : Season v i st) :
    let r := step v false i st
    (i.rain + i.snow + held v st = r.2.netDep + r.1.evap + held v r.1) ∧
      r.2.netDep = r.2.netRain + r.2.netSnow ∧ 0 ≤ r.2.netRain ∧ 0 ≤ r.2.netSnow ∧
      0 ≤ r.1.evap ∧ r.1.evap ≤ i.potet ∧
      r.1.evap ≤ held v st + (i.rain + i.snow - r.2.netDep) ∧
      (0 < i.rain ∨ 0 < i.snow → r.1.stor ≤ capacity v i) ∧
      r.1.Ok ∧ r.1.transpOn = i.transp := by
  obtain ⟨a1, a2, a3, a4, a5, -⟩ := season_held v hv i st hs hi hse
  have hr := rain_held v hv i hi hc (season v i.transp st) a4 (by rw [a3]; exact hs.on)
    (fun h => a5 (hs.off (a3 ▸ h))) a2
  have hrn := rain_net v hv i hi (season v i.transp st)
  dsimp only [step]
  simp only [Bool.false_eq_true, if_false]
  generalize rainPart v i (season v i.transp st) = R at *
  obtain ⟨st2, cov2, nr⟩ := R
  obtain ⟨b1, b2, b3, b4, b5, b6, b7⟩ := hr
  have hsn := snow_held v hv i hi hc st2 cov2 b3 b4 (fun h => (b5 h).1) b2
  have hnn := snow_net v hv i hi st2 cov2
  dsimp only at *
  generalize snowPart v i st2 cov2 = S at *
  obtain ⟨st3, cov3, ns⟩ := S
  obtain ⟨c1, c2, c3, c4, c5, c6, c7, c8⟩ := hsn
  dsimp only at *
  have hcr := cover_range v hv i.transp
  have hz : st3.on = 0 → cov3 = 0 := fun h => by
    obtain ⟨-, h2, h3⟩ := c5 h
    rw [h2]; exact (b5 h3).2
  have hl := loss_held v hv i hi st3 ⟨nr, ns, nr + ns, 0, cov3⟩ c3 c4 (fun h => (c5 h).1) c2 hz
  dsimp only at hl
  generalize lossPart v i (if i.snow > 0 then 1 else 0) st3 ⟨nr, ns, nr + ns, 0, cov3⟩ = L at *
  obtain ⟨st4, o⟩ := L
  obtain ⟨d1, d2, d3, d4, d5, d6, d7, d8, d9, d10, d11, d12⟩ := hl
  dsimp only at *
  have hh : held v { st4 with evap := o.cov * st4.evap } = held v st4 := rfl
  rw [hh, d10, d11, d12]
  refine ⟨by linarith, rfl, hrn, hnn, d2, d3, by linarith, ?_, ⟨d5, d8, d9, ?_⟩, d7⟩
  · intro hp
    unfold capacity
    by_cases h : 0 < i.snow
    · rw [if_pos h]; exact le_trans d6 (c7 h)
    · rw [if_neg h]
      have := c8 h
      subst this
      exact le_trans d6 (b7 (hp.resolve_right h))
  · have := hi.transp
    show st4.transpOn = 0 ∨ st4.transpOn = 1
    rw [d7]; exact this

theorem run_balance (v : Veg) (hv : v.Ok) (is : List In) (hi : ∀ i ∈ is, i.Ok ∧ Canopy v i) (st : St)
    (hs : st.Ok) (hse : Seasons v st is) :
    (is.map fun i => i.rain + i.snow).sum + held v st =
      ((run v st is).map fun r => r.2.netDep + r.1.evap).sum +
        held v (((run v st is).map (·.1)).getLastD st) := by
  induction is generalizing st with
  | nil => simp [run]
  | cons i rest ih =>
    obtain ⟨h1, h2⟩ := hse
    have hf := step_facts v hv i (hi i (by simp)).1 (hi i (by simp)).2 st hs h1
    have := ih (fun j hj => hi j (by simp [hj])) _ hf.2.2.2.2.2.2.2.2.1 h2
    simp only [run, List.map_cons, List.sum_cons, List.getLastD_cons] at *
    linarith [hf.1]

theorem season_ok (v : Veg) (hv : v.Ok) (t : Int) (ht : t = 0 ∨ t = 1) (st : St) (hs : st.Ok) :
    (season v t st).Ok := by
  unfold season
  by_cases h1 : t = 0 ∧ st.transpOn = 1
  · rw [if_pos h1]; exact ⟨hs.stor, hs.on, hs.off, Or.inl rfl⟩
  · rw [if_neg h1]
    by_cases h2 : t = 1 ∧ st.transpOn = 0
    · rw [if_pos h2]
      by_cases h3 : st.stor > 0
      · refine ⟨?_, hs.on, fun h => absurd (hs.off h) h3.ne', Or.inr rfl⟩
        show 0 ≤ (if st.stor > 0 then _ else _)
        rw [if_pos h3]
        by_cases h4 : v.covSum = 0
        · rw [if_pos h4]
        · rw [if_neg h4]; exact mul_nonneg hs.stor (div_nonneg hv.win.1 hv.sum.1)
      · refine ⟨?_, hs.on, fun h => ?_, Or.inr rfl⟩
        · show 0 ≤ (if st.stor > 0 then _ else _)
          rw [if_neg h3]; exact hs.stor
        · show (if st.stor > 0 then _ else _) = _
          rw [if_neg h3]; exact hs.off h
    · rw [if_neg h2]; exact ⟨hs.stor, hs.on, hs.off, hs.transp⟩

theorem rain_ok (v : Veg) (hv : v.Ok) (i : In) (hi : i.Ok) (st : St) (hs : st.Ok) :
    (rainPart v i st).1.Ok := by
  unfold rainPart
  by_cases h1 : i.rain > 0
  · rw [if_pos h1]
    by_cases h2 : v.covType > 1 ∨ (v.covType = 1 ∧ i.pack = 0)
    · rw [if_pos h2]
      refine ⟨intercept_nonneg _ _ _ _ hi.rain ?_ hs.stor, Or.inr rfl, fun h => absurd (show (1 : Int) = 0 from h) (by decide),
        hs.transp⟩
      split_ifs
      · exact hv.srain
      · exact hv.wrain
    · rw [if_neg h2]; exact ⟨le_refl _, Or.inl rfl, fun _ => rfl, hs.transp⟩
  · rw [if_neg h1]; exact hs

theorem snow_ok (v : Veg) (hv : v.Ok) (i : In) (hi : i.Ok) (st : St) (c : Rat) (hs : st.Ok) :
    (snowPart v i st c).1.Ok := by
  unfold snowPart
  by_cases h1 : i.snow > 0
  · rw [if_pos h1]
    by_cases h2 : v.covType > 1
    · rw [if_pos h2]
      exact ⟨intercept_nonneg _ _ _ _ hi.snow hv.snow hs.stor, Or.inr rfl, fun h => absurd (show (1 : Int) = 0 from h) (by decide),
        hs.transp⟩
    · rw [if_neg h2]; exact ⟨le_refl _, Or.inl rfl, fun _ => rfl, hs.transp⟩
  · rw [if_neg h1]; exact hs

theorem loss_ok (v : Veg) (i : In) (f : Int) (st : St) (o : Out) (hs : st.Ok) :
    (lossPart v i f st o).1.Ok := by
  have hs' : ({ st with evap := 0 } : St).Ok := ⟨hs.stor, hs.on, hs.off, hs.transp⟩
  have off : ∀ e : Rat, (⟨0, 0, e, st.transpOn⟩ : St).Ok := fun e =>
    ⟨le_refl _, Or.inl rfl, fun _ => rfl, hs.transp⟩
  have on : ∀ s e : Rat, 0 < s → (⟨1, s, e, st.transpOn⟩ : St).Ok := fun s e h =>
    ⟨h.le, Or.inr rfl, fun h => absurd (show (1 : Int) = 0 from h) (by decide), hs.transp⟩
  unfold lossPart
  by_cases h1 : st.on = 1
  · rw [if_pos h1]
    dsimp only
    by_cases h2 : i.dt < 24 ∧ i.dep > 0
    · rw [if_pos h2]; exact hs'
    · rw [if_neg h2]
      by_cases h3 : f = 1
      · rw [if_pos h3]
        by_cases h4 : i.basinDep ≤ 0
        · rw [if_pos h4]
          unfold snowLoss
          dsimp only
          split_ifs
          all_goals first
            | exact on _ _ (by assumption)
            | exact off _
            | exact hs'
        · rw [if_neg h4]; exact hs'
      · rw [if_neg h3]
        unfold rainLoss
        dsimp only
        by_cases h5 : i.potet - st.stor < 0
        · rw [if_pos h5]; exact on _ _ (by linarith)
        · rw [if_neg h5]; exact off _
  · rw [if_neg h1]; exact hs

theorem step_ok (v : Veg) (hv : v.Ok) (first : Bool) (i : In) (hi : i.Ok) (st : St) (hs : st.Ok) :
    (step v first i st).1.Ok := by
  have h0 : (if first then { st with transpOn := i.transp } else st : St).Ok := by
    cases first
    · exact hs
    · exact ⟨hs.stor, hs.on, hs.off, hi.transp⟩
  have h1 := season_ok v hv i.transp hi.transp _ h0
  have h2 := rain_ok v hv i hi _ h1
  have h3 := snow_ok v hv i hi _ (rainPart v i (season v i.transp
    (if first then { st with transpOn := i.transp } else st))).2.1 h2
  have h4 := fun o => loss_ok v i (if i.snow > 0 then 1 else 0) _ o h3
  exact ⟨(h4 _).stor, (h4 _).on, (h4 _).off, (h4 _).transp⟩

end Verif.Intcp
