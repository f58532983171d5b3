import Verif.Lemmas.Top2c
/-
C45: coupling of hillslopes to channels.
-/
namespace Verif.Top2c

/-- C45: initialisation is accepted exactly when the fractions add up to one within 0.0001. -/
theorem C45_accepted (nchan : Nat) (mrus : List Mru) (h : Assigned nchan mrus) :
    (∃ a, top2cinit nchan mrus = some (some a)) ↔ |(mrus.map (·.frac)).sum - 1| ≤ 1 / 10000 := by
  obtain ⟨⟨a, c⟩, hr⟩ := sumAreas_total mrus ⟨List.replicate nchan 0, List.replicate nchan 0⟩ 0 nchan h
    (by simp) (by simp)
  have hc := (sumAreas_spec _ _ _ _ _ hr).2.2.1
  rw [zero_add] at hc
  unfold top2cinit
  rw [hr, ← hc]
  dsimp only
  by_cases hb : |c - 1| > 1 / 10000
  · rw [if_pos hb]
    exact ⟨fun ⟨_, h⟩ => absurd h (by simp), fun h => absurd h (not_le.2 hb)⟩
  · rw [if_neg hb]
    exact ⟨fun _ => not_lt.1 hb, fun _ => ⟨a, rfl⟩⟩

/-- C45: otherwise it is refused. -/
theorem C45_refused (nchan : Nat) (mrus : List Mru) (h : Assigned nchan mrus) :
    top2cinit nchan mrus = some none ↔ 1 / 10000 < |(mrus.map (·.frac)).sum - 1| := by
  obtain ⟨⟨a, c⟩, hr⟩ := sumAreas_total mrus ⟨List.replicate nchan 0, List.replicate nchan 0⟩ 0 nchan h
    (by simp) (by simp)
  have hc := (sumAreas_spec _ _ _ _ _ hr).2.2.1
  rw [zero_add] at hc
  unfold top2cinit
  rw [hr, ← hc]
  dsimp only
  by_cases hb : |c - 1| > 1 / 10000
  · rw [if_pos hb]; exact ⟨fun _ => hb, fun _ => rfl⟩
  · rw [if_neg hb]; exact ⟨fun h => absurd h (by simp), fun h => absurd h hb⟩

/-- C45: area and fraction of each channel are the sums over the MRUs draining to it; nothing is lost. -/
theorem C45_areas (nchan : Nat) (mrus : List Mru) (a : Areas) (h : top2cinit nchan mrus = some (some a)) :
    a.area.length = nchan ∧ a.frac.length = nchan ∧
    (∀ k < nchan, a.area.getD k 0 = sumFor Mru.chan Mru.area k mrus ∧
      a.frac.getD k 0 = sumFor Mru.chan Mru.frac k mrus) ∧
    a.area.sum = (mrus.map (·.area)).sum ∧ |a.frac.sum - 1| ≤ 1 / 10000 := by
  unfold top2cinit at h
  split at h
  · exact absurd h (by simp)
  · rename_i b c hb
    by_cases hc : |c - 1| > 1 / 10000
    · rw [if_pos hc] at h; exact absurd h (by simp)
    · rw [if_neg hc] at h
      simp only [Option.some.injEq] at h
      subst h
      obtain ⟨i1, i2, i3, i4, i5, i6, i7⟩ := sumAreas_spec _ _ _ _ _ hb
      simp only [List.length_replicate, List.sum_replicate, nsmul_zero, zero_add] at *
      refine ⟨i1, i2, fun k hk => ?_, i4, ?_⟩
      · obtain ⟨h1, h2⟩ := i7 k
        simp only [List.getD, List.getElem?_replicate, hk, if_true, Option.getD_some, zero_add] at h1 h2
        exact ⟨h1, h2⟩
      · rw [i5, ← i3]; exact not_lt.1 hc

/-- C45: the inflow of each channel is the discharge of the MRUs draining to it, and total inflow is
total discharge. -/
theorem C45_inflow (nchan : Nat) (mrus : List (Mru × Rat)) (h : Assigned nchan (mrus.map (·.1))) :
    ∃ q, top2crun nchan mrus = some q ∧ q.length = nchan ∧
      (∀ k < nchan, q.getD k 0 =
        sumFor (fun m : Mru × Rat => m.1.chan) (fun m => m.2 * m.1.area * 1000000) k mrus) ∧
      q.sum = (mrus.map fun m => m.2 * m.1.area * 1000000).sum := by
  obtain ⟨q, hq⟩ := scatter_total mrus (List.replicate nchan 0) fun m hm => by
    simpa using h m.1 (List.mem_map.2 ⟨m, hm, rfl⟩)
  obtain ⟨h1, h2, h3⟩ := scatter_spec _ _ _ hq
  refine ⟨q, hq, by simpa using h1, fun k hk => ?_, by simpa using h2⟩
  rw [h3 k]
  simp [List.getD, hk]

/-- Two banks of one channel and a tributary. -/
def exampleMrus : List Mru := [⟨1, 3, 3 / 10⟩, ⟨1, 2, 2 / 10⟩, ⟨2, 5, 5 / 10⟩]

example : Assigned 2 exampleMrus := by unfold Assigned exampleMrus; decide
example : top2cinit 2 exampleMrus = some (some ⟨[5, 5], [1 / 2, 1 / 2]⟩) := by decide +kernel
example : top2cinit 2 (exampleMrus.take 2) = some none := by decide +kernel
example : top2crun 2 (exampleMrus.map fun m => (m, 1 / 1000)) = some [5000, 5000] := by decide +kernel

end Verif.Top2c
