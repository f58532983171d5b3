import Verif.Lemmas.Intcp
/-
C36: canopy interception.
-/
namespace Verif.Intcp

/-- C36: one call for rain or snow: precipitation is net precipitation plus the cover-weighted increase
of storage, whatever the storage before; the storage is at most the capacity and not negative. -/
theorem C36_intercept (precip cap cov stor : Rat) :
    let r := intercept precip cap cov stor
    precip = r.2 + cov * (r.1 - stor) ∧ r.1 ≤ cap ∧
      (0 ≤ precip → 0 ≤ cap → 0 ≤ stor → 0 ≤ r.1) ∧ (0 ≤ precip → 0 ≤ cov ∧ cov ≤ 1 → 0 ≤ r.2) :=
  ⟨intercept_balance _ _ _ _, intercept_le _ _ _ _, fun a b c => intercept_nonneg _ _ _ _ a b c,
    fun a b => intercept_net _ _ _ _ a b⟩

/-- C36, one step of an MRU whose canopy takes part and whose season does not end: precipitation and the
water held before are accounted for by net precipitation, canopy evaporation and the water held
afterwards; evaporation is at most the potential evaporation and at most the water on the canopy; the
storage is within capacity after precipitation and never negative. -/
theorem C36_step_partial (v : Veg) (hv : v.Ok) (i : In) (hi : i.Ok) (hc : Canopy v i) (st : St)
    (hs : st.Ok) (hse : Season v i st) :
    let r := step v false i st
    i.rain + i.snow = r.2.netDep + r.1.evap + (held v r.1 - held v st) ∧
      r.2.netDep = r.2.netRain + r.2.netSnow ∧ 0 ≤ r.2.netRain ∧ 0 ≤ r.2.netSnow ∧
      0 ≤ r.1.evap ∧ r.1.evap ≤ i.potet ∧
      r.1.evap ≤ held v st + (i.rain + i.snow - r.2.netDep) ∧
      0 ≤ r.1.stor ∧ (0 < i.rain ∨ 0 < i.snow → r.1.stor ≤ capacity v i) := by
  obtain ⟨h1, h2, h3, h4, h5, h6, h7, h8, h9, -⟩ := step_facts v hv i hi hc st hs hse
  exact ⟨by linarith, h2, h3, h4, h5, h6, h7, h9.stor, h8⟩

/-- C36, whole histories: over any number of steps, total precipitation is total net precipitation plus
total canopy evaporation plus the change of the water held. -/
theorem C36_history_partial (v : Veg) (hv : v.Ok) (is : List In) (hi : ∀ i ∈ is, i.Ok ∧ Canopy v i)
    (transp : Int) (ht : transp = 0 ∨ transp = 1) (hse : Seasons v (St.init transp) is) :
    (is.map fun i => i.rain + i.snow).sum =
      ((run v (St.init transp) is).map fun r => r.2.netDep + r.1.evap).sum +
        held v (((run v (St.init transp) is).map (·.1)).getLastD (St.init transp)) := by
  have := run_balance v hv is hi (St.init transp)
    ⟨le_refl _, Or.inl rfl, fun _ => rfl, ht⟩ hse
  have h0 : held v (St.init transp) = 0 := by simp [held, St.init]
  rw [h0, add_zero] at this
  exact this

/-- C36: at every step, whatever vegetation, season and snow pack, the storage does not become negative
and the state stays consistent. -/
theorem C36_storage (v : Veg) (hv : v.Ok) (first : Bool) (i : In) (hi : i.Ok) (st : St) (hs : st.Ok) :
    0 ≤ (step v first i st).1.stor ∧ (step v first i st).1.Ok :=
  ⟨(step_ok v hv first i hi st hs).stor, step_ok v hv first i hi st hs⟩

/-- A wood with a wet canopy, a wet day, and the following days. -/
def wood : Veg := ⟨3, 1 / 2, 1 / 4, 1 / 10, 1 / 20, 1 / 5⟩
def wet : In := ⟨1, 0, 1, 1, 1, 20, 0, 3 / 100, 0, 24⟩
def dry : In := ⟨0, 0, 0, 0, 1, 20, 0, 3 / 100, 0, 24⟩

example : wood.Ok := ⟨by decide +kernel, by decide +kernel, by decide +kernel, by decide +kernel, by decide +kernel⟩
example : wet.Ok ∧ Canopy wood wet := ⟨⟨by decide +kernel, by decide +kernel, by decide +kernel, by decide +kernel, by decide +kernel⟩, by
  unfold Canopy; decide⟩
example : Seasons wood (St.init 1) [wet, dry, dry] := by
  unfold Seasons Seasons Seasons Seasons Season; decide +kernel
example : (run wood (St.init 1) [wet, dry, dry]).map (fun r => (r.1.stor, r.1.evap, r.2.netDep)) =
    [(7 / 100, 3 / 200, 19 / 20), (4 / 100, 3 / 200, 0), (1 / 100, 3 / 200, 0)] := by decide +kernel

/-- C36 fails at the end of the season: the canopy thins from 1/2 to 1/4, the water on the lost leaves
is computed as evaporation, but that value is overwritten before it is reported. -/
theorem C36_leaf_fall_violated :
    let st : St := ⟨1, 8 / 100, 0, 1⟩
    let r := step wood false { dry with transp := 0 } st
    held wood st = 4 / 100 ∧ r.1.evap = 3 / 400 ∧ r.2.netDep = 0 ∧ held wood r.1 = 1 / 80 := by
  decide +kernel

/-- C36 fails for grass under snow: the water held is dropped. -/
theorem C36_grass_violated :
    let v : Veg := { wood with covType := 1 }
    let st : St := ⟨1, 8 / 100, 0, 1⟩
    let i : In := { wet with pack := 2 }
    let r := step v false i st
    held v st = 4 / 100 ∧ r.2.netDep = i.rain ∧ r.1.evap = 0 ∧ held v r.1 = 0 := by decide +kernel

end Verif.Intcp
