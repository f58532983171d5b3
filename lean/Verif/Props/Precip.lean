import Verif.Lemmas.Precip
/-
C41: form and amount of precipitation and irrigation.  C54: diverted irrigation water.
-/
namespace Verif.Precip

/-- C41: for every temperature and amount the precipitation of an MRU is divided by the rain share, each
part adjusted by its own factor, and the deposition is the sum of the parts. -/
theorem C41_precip (p : Params) (tmax tmin ppt : Rat) :
    let f := pptMru p tmax tmin ppt
    f.rain = rainShare p tmax tmin * ppt * p.rainAdj ∧
    f.snow = (1 - rainShare p tmax tmin) * ppt * p.snowAdj ∧
    f.dep = f.rain + f.snow ∧ f.ppt = f.dep :=
  ppt_form p tmax tmin ppt

/-- C41: neither rain nor snow is negative, and a positive observation yields a positive deposition. -/
theorem C41_nonnegative (p : Params) (hp : p.Ok) (tmax tmin ppt : Rat) (h : 0 ≤ ppt) :
    let f := pptMru p tmax tmin ppt
    0 ≤ f.rain ∧ 0 ≤ f.snow ∧ (0 < ppt → 0 < f.dep) := by
  obtain ⟨h1, h2, h3, -⟩ := ppt_form p tmax tmin ppt
  obtain ⟨s1, s2⟩ := share_range p hp.mix tmax tmin
  dsimp only at h1 h2 h3 ⊢
  generalize pptMru p tmax tmin ppt = f at *
  generalize rainShare p tmax tmin = s at *
  have hr := hp.rain
  have hs := hp.snow
  have a : 0 ≤ f.rain := by rw [h1]; exact mul_nonneg (mul_nonneg s1 h) hr.le
  have b : 0 ≤ f.snow := by rw [h2]; exact mul_nonneg (mul_nonneg (by linarith) h) hs.le
  refine ⟨a, b, fun hpos => ?_⟩
  rw [h3]
  by_cases hs0 : s = 0
  · subst hs0
    have : 0 < f.snow := by rw [h2]; exact mul_pos (mul_pos (by norm_num) hpos) hs
    linarith
  · have : 0 < s := lt_of_le_of_ne s1 (Ne.symm hs0)
    have : 0 < f.rain := by rw [h1]; exact mul_pos (mul_pos this hpos) hr
    linarith

/-- C41: the thresholds: only snow at or below the snow threshold; only rain when the whole day is above
it or the maximum reaches the rain threshold. -/
theorem C41_thresholds (p : Params) (tmax tmin ppt : Rat) :
    let f := pptMru p tmax tmin ppt
    (tmax ≤ p.allsnow → f.rain = 0) ∧
    (p.allsnow < tmax → p.allsnow < tmin ∨ p.allrain ≤ tmax → f.snow = 0) := by
  obtain ⟨h1, h2, -⟩ := ppt_form p tmax tmin ppt
  dsimp only at h1 h2 ⊢
  refine ⟨fun h => ?_, fun h h' => ?_⟩
  · rw [h1, share_snow p _ _ h]; ring
  · rw [h2, share_rain p _ _ (not_le.2 h) h']; ring

/-- C41: the published rain share of a mixture is rain over deposition. -/
theorem C41_share (p : Params) (hp : p.Ok) (tmax tmin ppt : Rat) (h : 0 < ppt) :
    let f := pptMru p tmax tmin ppt
    ∃ x, f.prmx = some x ∧ x * f.dep = f.rain ∧ 0 ≤ x ∧ x ≤ 1 := by
  obtain ⟨n1, n2, n3⟩ := C41_nonnegative p hp tmax tmin ppt h.le
  have hpos := n3 h
  obtain ⟨-, -, hd, -⟩ := ppt_form p tmax tmin ppt
  have hr := hp.rain
  have hs := hp.snow
  dsimp only at *
  have key : (pptMru p tmax tmin ppt).prmx = some 0 ∧ (pptMru p tmax tmin ppt).rain = 0 ∨
      (pptMru p tmax tmin ppt).prmx = some 1 ∧ (pptMru p tmax tmin ppt).snow = 0 ∨
      (pptMru p tmax tmin ppt).prmx = quot (pptMru p tmax tmin ppt).rain (pptMru p tmax tmin ppt).dep := by
    unfold pptMru
    rw [if_neg h.ne']
    have r := mul_pos h hr
    have s := mul_pos h hs
    by_cases h1 : tmax ≤ p.allsnow
    · rw [if_pos h1]; left; simp [s]
    · rw [if_neg h1]
      by_cases h2 : tmin > p.allsnow ∨ tmax ≥ p.allrain
      · rw [if_pos h2]; right; left; simp [r]
      · rw [if_neg h2]
        dsimp only
        by_cases h3 : (tmax - p.allsnow) / (tmax - tmin) * p.adjmix > 1
        · rw [if_pos h3]; right; left; exact ⟨rfl, rfl⟩
        · rw [if_neg h3]; right; right; rfl
  generalize pptMru p tmax tmin ppt = f at *
  rcases key with ⟨k1, k2⟩ | ⟨k1, k2⟩ | k1
  · exact ⟨0, k1, by rw [k2]; ring, le_refl _, by norm_num⟩
  · exact ⟨1, k1, by rw [hd, k2]; ring, by norm_num, le_refl _⟩
  · rw [quot, if_neg hpos.ne'] at k1
    refine ⟨f.rain / f.dep, k1, by field_simp, div_nonneg n1 hpos.le, ?_⟩
    exact (div_le_one₀ hpos).2 (by linarith)

/-- C41: precipitation together with irrigation, the amounts after the irrigation module: the deposition
is their sum, divided by the rain share. -/
theorem C41_irrigation (p : Params) (tmax tmin obs ext sat hyd : Rat)
    (h : irrDep (pptMru p tmax tmin obs).ppt ext sat hyd ≠ 0) :
    let f := pptMru p tmax tmin obs
    let g := irrPartition p tmax tmin (irrDep f.ppt ext sat hyd) f
    g.dep = f.ppt + ext + sat + hyd ∧ g.dep = g.rain + g.snow ∧
    g.rain = rainShare p tmax tmin * g.dep ∧ g.snow = (1 - rainShare p tmax tmin) * g.dep := by
  obtain ⟨h1, h2, h3, -⟩ := irr_form p tmax tmin _ (pptMru p tmax tmin obs) h
  dsimp only at *
  rw [h3, h1, h2]
  refine ⟨rfl, by ring, rfl, rfl⟩

/-- C41: without any deposition nothing is changed and everything is zero. -/
theorem C41_dry (p : Params) (tmax tmin : Rat) :
    let f := pptMru p tmax tmin 0
    let g := irrPartition p tmax tmin (irrDep f.ppt 0 0 0) f
    g.dep = 0 ∧ g.rain = 0 ∧ g.snow = 0 ∧ g.newsnow = 0 := by
  simp [pptMru, irrDep, irrPartition]

/-- Factors of a mountain station. -/
def exampleParams : Params := ⟨0, 5, 1, 1, 2⟩

example : exampleParams.Ok := ⟨by decide, by decide, by decide⟩
example : (pptMru exampleParams 2 (-2) 10).rain = 5 ∧ (pptMru exampleParams 2 (-2) 10).snow = 10 := by
  decide +kernel
example : irrDep (pptMru exampleParams 2 (-2) 10).ppt 1 0 0 ≠ 0 := by decide +kernel

/-- C41, separate adjustment of rain and snow, does not survive the irrigation module: on a day without
any irrigation the mixture of 5 rain and 10 snow found by the precipitation module is divided anew into
7.5 and 7.5. -/
theorem C41_split_violated :
    let f := pptMru exampleParams 2 (-2) 10
    let g := irrPartition exampleParams 2 (-2) (irrDep f.ppt 0 0 0) f
    (f.rain, f.snow) = (5, 10) ∧ (g.rain, g.snow) = (15 / 2, 15 / 2) := by decide +kernel

/-- C54: after the first step, the volume recorded as diverted from each channel segment is the
irrigation water put on the MRUs supplied by it. -/
theorem C54_diverted_partial (nhydro : Nat) (mrus : List (Irr × IrrState)) (sts : List IrrState) (s : Segs)
    (h : irrStep false nhydro mrus = some (some (sts, s))) (k : Nat) (hk : k < nhydro) :
    sts.length = mrus.length ∧ s.length = nhydro ∧ s.getD k 0 = takenAll k (mrus.map (·.1)) sts := by
  obtain ⟨h1, h2, h3⟩ := irrLoop_sum mrus _ sts s h k (by simpa using hk)
  refine ⟨h1, by simpa using h2, ?_⟩
  rw [h3]
  simp [List.getD, hk]

example : irrStep false 2 [(⟨1, 2, 1, 100⟩, ⟨0, 3, 0, 0⟩), (⟨1, 0, 1, 50⟩, ⟨4, 0, 0, 0⟩),
    (⟨2, 2, 1, 10⟩, ⟨0, 1, 0, 0⟩)] =
    some (some ([⟨0, 3, 0, 3⟩, ⟨4, 0, 4, 0⟩, ⟨0, 1, 0, 1⟩], [0, 310])) := by decide +kernel

/-- C54 fails at the first step: the diversion is recorded twice. -/
theorem C54_first_violated :
    ∃ sts s, irrStep true 1 [(⟨1, 1, 1, 100⟩, ⟨0, 0, 0, 0⟩)] = some (some (sts, s)) ∧
      takenAll 0 [⟨1, 1, 1, 100⟩] sts = 100 ∧ s = [200] :=
  ⟨[⟨0, 1, 0, 1⟩], [200], by decide +kernel, by decide +kernel, rfl⟩

end Verif.Precip
