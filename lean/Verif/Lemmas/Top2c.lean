import Verif.Spec.Top2c
import Mathlib.Tactic.Linarith
import Mathlib.Tactic.Ring
import Mathlib.Tactic.SplitIfs
import Mathlib.Algebra.BigOperators.Group.List.Basic
/-
Helper lemmas for C45.
-/
namespace Verif.Top2c

theorem addAt_some (l : List Rat) (j : Int) (v : Rat) (h : 1 ≤ j ∧ j ≤ l.length) :
    ∃ l', addAt l j v = some l' := by
  unfold addAt
  rw [if_neg (by omega), if_pos (by omega)]
  exact ⟨_, rfl⟩

theorem addAt_spec (l l' : List Rat) (j : Int) (v : Rat) (h : addAt l j v = some l') :
    l'.length = l.length ∧ 1 ≤ j ∧ j ≤ l.length ∧ l'.sum = l.sum + v ∧
      ∀ k : Nat, l'.getD k 0 = l.getD k 0 + if j = (k : Int) + 1 then v else 0 := by
  unfold addAt at h
  by_cases h1 : j < 1
  · rw [if_pos h1] at h; exact absurd h (by simp)
  · rw [if_neg h1] at h
    by_cases h2 : j.toNat ≤ l.length
    · rw [if_pos h2] at h
      injection h with h
      subst h
      have hi : j.toNat - 1 < l.length := by omega
      refine ⟨by simp, by omega, by omega, ?_, fun k => ?_⟩
      · generalize j.toNat - 1 = i at *
        clear h1 h2
        induction l generalizing i with
        | nil => simp at hi
        | cons a r ih =>
          cases i with
          | zero => simp; ring
          | succ i =>
            simp only [List.set_cons_succ, List.sum_cons, List.getD_cons_succ]
            have := ih i (by simpa using hi)
            rw [this]; ring
      · by_cases hk : j = (k : Int) + 1
        · have : k = j.toNat - 1 := by omega
          rw [if_pos hk, this]
          simp [List.getD, hi]
        · have : ¬ j.toNat - 1 = k := by omega
          rw [if_neg hk]
          simp [List.getD, this]
    · rw [if_neg h2] at h; exact absurd h (by simp)

theorem sumFor_cons {α} (c : α → Int) (v : α → Rat) (k : Nat) (a : α) (l : List α) :
    sumFor c v k (a :: l) = (if c a = (k : Int) + 1 then v a else 0) + sumFor c v k l := by
  unfold sumFor
  by_cases h : c a = (k : Int) + 1
  · simp [h]
  · simp [h]

theorem sumAreas_total (mrus : List Mru) (a : Areas) (chk : Rat) (n : Nat)
    (h : Assigned n mrus) (ha : a.area.length = n) (hf : a.frac.length = n) :
    ∃ r, sumAreas mrus a chk = some r := by
  induction mrus generalizing a chk with
  | nil => exact ⟨_, rfl⟩
  | cons m ms ih =>
    have hm := h m (by simp)
    obtain ⟨x, hx⟩ := addAt_some a.area m.chan m.area (by omega)
    obtain ⟨y, hy⟩ := addAt_some a.frac m.chan m.frac (by omega)
    simp only [sumAreas, hx, hy]
    exact ih ⟨x, y⟩ _ (fun z hz => h z (by simp [hz])) (by rw [(addAt_spec _ _ _ _ hx).1, ha])
      (by rw [(addAt_spec _ _ _ _ hy).1, hf])

theorem sumAreas_spec (mrus : List Mru) (a r : Areas) (chk c : Rat)
    (h : sumAreas mrus a chk = some (r, c)) :
    r.area.length = a.area.length ∧ r.frac.length = a.frac.length ∧
      c = chk + (mrus.map (·.frac)).sum ∧
      r.area.sum = a.area.sum + (mrus.map (·.area)).sum ∧
      r.frac.sum = a.frac.sum + (mrus.map (·.frac)).sum ∧
      (∀ m ∈ mrus, 1 ≤ m.chan ∧ m.chan ≤ a.area.length) ∧
      ∀ k : Nat, r.area.getD k 0 = a.area.getD k 0 + sumFor Mru.chan Mru.area k mrus ∧
        r.frac.getD k 0 = a.frac.getD k 0 + sumFor Mru.chan Mru.frac k mrus := by
  induction mrus generalizing a chk with
  | nil =>
    simp only [sumAreas, Option.some.injEq, Prod.mk.injEq] at h
    obtain ⟨rfl, rfl⟩ := h
    simp [sumFor]
  | cons m ms ih =>
    unfold sumAreas at h
    split at h
    · rename_i x y hx hy
      obtain ⟨x1, x2, x3, x4, x5⟩ := addAt_spec _ _ _ _ hx
      obtain ⟨y1, -, -, y4, y5⟩ := addAt_spec _ _ _ _ hy
      obtain ⟨i1, i2, i3, i4, i5, i6, i7⟩ := ih _ _ h
      dsimp only at *
      refine ⟨by omega, by omega, ?_, ?_, ?_, ?_, fun k => ⟨?_, ?_⟩⟩
      · rw [i3, List.map_cons, List.sum_cons]; ring
      · rw [i4, x4, List.map_cons, List.sum_cons]; ring
      · rw [i5, y4, List.map_cons, List.sum_cons]; ring
      · intro z hz
        rcases List.mem_cons.1 hz with rfl | hz
        · exact ⟨x2, x3⟩
        · have := i6 z hz; omega
      · rw [(i7 k).1, x5, sumFor_cons]; ring
      · rw [(i7 k).2, y5, sumFor_cons]; ring
    · exact absurd h (by simp)

theorem scatter_spec (ms : List (Mru × Rat)) (q r : List Rat) (h : scatter ms q = some r) :
    r.length = q.length ∧ r.sum = q.sum + (ms.map fun m => m.2 * m.1.area * 1000000).sum ∧
      ∀ k : Nat, r.getD k 0 = q.getD k 0 +
        sumFor (fun m : Mru × Rat => m.1.chan) (fun m => m.2 * m.1.area * 1000000) k ms := by
  induction ms generalizing q with
  | nil =>
    simp only [scatter, Option.some.injEq] at h
    subst h
    simp [sumFor]
  | cons m ms ih =>
    obtain ⟨m, qo⟩ := m
    unfold scatter at h
    split at h
    · rename_i x hx
      obtain ⟨x1, x2, x3, x4, x5⟩ := addAt_spec _ _ _ _ hx
      obtain ⟨i1, i2, i3⟩ := ih _ h
      refine ⟨by omega, ?_, fun k => ?_⟩
      · rw [i2, x4, List.map_cons, List.sum_cons]; ring
      · rw [i3, x5, sumFor_cons]; ring
    · exact absurd h (by simp)

theorem scatter_total (ms : List (Mru × Rat)) (q : List Rat)
    (h : ∀ m ∈ ms, 1 ≤ m.1.chan ∧ m.1.chan ≤ q.length) : ∃ r, scatter ms q = some r := by
  induction ms generalizing q with
  | nil => exact ⟨_, rfl⟩
  | cons m ms ih =>
    obtain ⟨m, qo⟩ := m
    obtain ⟨x, hx⟩ := addAt_some q m.chan (qo * m.area * 1000000) (h (m, qo) (by simp))
    simp only [scatter, hx]
    exact ih x fun z hz => by rw [(addAt_spec _ _ _ _ hx).1]; exact h z (by simp [hz])

end Verif.Top2c
