import Verif.Spec.Precip
import Mathlib.Tactic.Linarith
import Mathlib.Tactic.SplitIfs
import Mathlib.Tactic.Ring
import Mathlib.Tactic.FieldSimp
/-
Helper lemmas for C41 and C54.
-/
namespace Verif.Precip

theorem share_range (p : Params) (hp : 0 ≤ p.adjmix) (tmax tmin : Rat) :
    0 ≤ rainShare p tmax tmin ∧ rainShare p tmax tmin ≤ 1 := by
  unfold rainShare
  split_ifs with h1 h2
  · exact ⟨le_refl _, by norm_num⟩
  · exact ⟨by norm_num, le_refl _⟩
  · push Not at h1 h2
    refine ⟨le_min (by norm_num) ?_, min_le_left _ _⟩
    apply mul_nonneg _ hp
    apply div_nonneg <;> linarith

theorem share_above (p : Params) (tmax tmin : Rat) (h1 : ¬ tmax ≤ p.allsnow)
    (h2 : ¬ (tmin > p.allsnow ∨ tmax ≥ p.allrain)) :
    rainShare p tmax tmin = min 1 ((tmax - p.allsnow) / (tmax - tmin) * p.adjmix) := by
  unfold rainShare
  rw [if_neg h1, if_neg h2]

theorem share_rain (p : Params) (tmax tmin : Rat) (h1 : ¬ tmax ≤ p.allsnow)
    (h2 : tmin > p.allsnow ∨ tmax ≥ p.allrain) : rainShare p tmax tmin = 1 := by
  unfold rainShare
  rw [if_neg h1, if_pos h2]

theorem share_snow (p : Params) (tmax tmin : Rat) (h1 : tmax ≤ p.allsnow) :
    rainShare p tmax tmin = 0 := by
  unfold rainShare
  rw [if_pos h1]

theorem ppt_form (p : Params) (tmax tmin ppt : Rat) :
    let f := pptMru p tmax tmin ppt
    let s := rainShare p tmax tmin
    f.rain = s * ppt * p.rainAdj ∧ f.snow = (1 - s) * ppt * p.snowAdj ∧ f.dep = f.rain + f.snow ∧
      f.ppt = f.dep := by
  dsimp only
  unfold pptMru
  by_cases h0 : ppt = 0
  · rw [if_pos h0]; simp [h0]
  · rw [if_neg h0]
    by_cases h1 : tmax ≤ p.allsnow
    · rw [if_pos h1, share_snow p _ _ h1]; simp
    · rw [if_neg h1]
      by_cases h2 : tmin > p.allsnow ∨ tmax ≥ p.allrain
      · rw [if_pos h2, share_rain p _ _ h1 h2]; simp
      · rw [if_neg h2, share_above p _ _ h1 h2]
        dsimp only
        generalize (tmax - p.allsnow) / (tmax - tmin) * p.adjmix = x
        by_cases h3 : x > 1
        · rw [if_pos h3, min_eq_left h3.le]; simp
        · rw [if_neg h3, min_eq_right (not_lt.1 h3)]; simp

theorem irr_form (p : Params) (tmax tmin dep : Rat) (f : Form) (h0 : dep ≠ 0) :
    let g := irrPartition p tmax tmin dep f
    let s := rainShare p tmax tmin
    g.rain = s * dep ∧ g.snow = (1 - s) * dep ∧ g.dep = dep ∧ g.ppt = f.ppt := by
  dsimp only
  unfold irrPartition
  rw [if_neg h0]
  by_cases h1 : tmax ≤ p.allsnow
  · rw [if_pos h1, share_snow p _ _ h1]; simp
  · rw [if_neg h1]
    by_cases h2 : tmin > p.allsnow ∨ tmax ≥ p.allrain
    · rw [if_pos h2, share_rain p _ _ h1 h2]; simp
    · rw [if_neg h2, share_above p _ _ h1 h2]
      dsimp only
      generalize (tmax - p.allsnow) / (tmax - tmin) * p.adjmix = x
      by_cases h3 : x > 1
      · rw [if_pos h3, min_eq_left h3.le]; simp
      · rw [if_neg h3, min_eq_right (not_lt.1 h3)]
        refine ⟨rfl, rfl, ?_, rfl⟩
        dsimp only
        ring

theorem addSeg_get {s s' : Segs} {i : Int} {v : Rat} (h : addSeg s i v = some s') (k : Nat)
    (hk : k < s.length) :
    s'.length = s.length ∧ s'.getD k 0 = s.getD k 0 + (if i = (k : Int) + 1 then v else 0) := by
  unfold addSeg at h
  split_ifs at h with h1 h2
  cases h
  refine ⟨by simp, ?_⟩
  by_cases hi : i = (k : Int) + 1
  · subst hi
    have : ((k : Int) + 1).toNat - 1 = k := by omega
    rw [if_pos rfl, this]
    simp [List.getD, hk]
  · rw [if_neg hi]
    have : i.toNat - 1 ≠ k := by omega
    simp [List.getD, List.getElem?_set, this]

theorem irrLoop_sum (mrus : List (Irr × IrrState)) (s : Segs) (sts : List IrrState) (s' : Segs)
    (h : irrLoop mrus s = some (some (sts, s'))) (k : Nat) (hk : k < s.length) :
    sts.length = mrus.length ∧ s'.length = s.length ∧
      s'.getD k 0 = s.getD k 0 + takenAll k (mrus.map (·.1)) sts := by
  induction mrus generalizing s sts s' with
  | nil =>
    simp only [irrLoop, Option.some.injEq, Prod.mk.injEq] at h
    obtain ⟨rfl, rfl⟩ := h
    simp [takenAll]
  | cons m rest ih =>
    obtain ⟨m, st⟩ := m
    simp only [irrLoop] at h
    by_cases h1 : m.sched = 0
    · rw [if_pos h1] at h
      obtain ⟨o, ho, h⟩ := Option.map_eq_some_iff.1 h
      obtain ⟨⟨a, b⟩, rfl, h⟩ := Option.map_eq_some_iff.1 h
      cases h
      obtain ⟨i1, i2, i3⟩ := ih s _ _ ho hk
      refine ⟨by simp [i1], i2, ?_⟩
      show b.getD k 0 = _
      rw [i3]
      simp [takenAll, taken, h1]
    · rw [if_neg h1] at h
      by_cases h2 : m.sched > 0
      · rw [if_pos h2] at h
        by_cases h3 : m.src = 0
        · rw [if_pos h3] at h
          obtain ⟨o, ho, h⟩ := Option.map_eq_some_iff.1 h
          obtain ⟨⟨a, b⟩, rfl, h⟩ := Option.map_eq_some_iff.1 h
          cases h
          obtain ⟨i1, i2, i3⟩ := ih s _ _ ho hk
          have : ¬ ((0 : Int) = (k : Int) + 1) := by omega
          refine ⟨by simp [i1], i2, ?_⟩
          show b.getD k 0 = _
          rw [i3]
          simp [takenAll, taken, h3, this]
        · rw [if_neg h3] at h
          by_cases h4 : m.src > 0
          · rw [if_pos h4] at h
            split at h
            · cases h
            · rename_i s1 hs1
              obtain ⟨o, ho, h⟩ := Option.map_eq_some_iff.1 h
              obtain ⟨⟨a, b⟩, rfl, h⟩ := Option.map_eq_some_iff.1 h
              cases h
              obtain ⟨g1, g2⟩ := addSeg_get hs1 k hk
              obtain ⟨i1, i2, i3⟩ := ih s1 _ _ ho (by omega)
              refine ⟨by simp [i1], i2.trans g1, ?_⟩
              show b.getD k 0 = _
              rw [i3, g2]
              simp only [takenAll, taken, List.map_cons, h2, true_and]
              ring
          · rw [if_neg h4] at h; cases h
      · rw [if_neg h2] at h; cases h

end Verif.Precip
