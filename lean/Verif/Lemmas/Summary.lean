import Verif.Spec.Summary
import Mathlib.Tactic.SplitIfs
import Mathlib.Tactic.Linarith
import Mathlib.Tactic.Ring
import Mathlib.Algebra.Order.Ring.Rat
import Mathlib.Algebra.Order.Field.Rat
/-
Lemmas on the accumulators of the summary module.
-/
namespace Verif.Summary
open Verif.EndPer

/-- Accumulators after steps with their balances. -/
def addAll (log : Rat → Rat) (a : Acc) : List (Step × Rat) → Acc
  | [] => a
  | x :: r => addAll log (a.add log x.1 x.2) r

/-- Balances of steps from a state on. -/
def errs (log : Rat → Rat) : State → List Step → List Rat
  | _, [] => []
  | st, u :: us => balance st u :: errs log (advance log st u) us

theorem errs_length (log) (st : State) (us : List Step) : (errs log st us).length = us.length := by
  induction us generalizing st with
  | nil => rfl
  | cons u us ih => simp [errs, ih]

theorem marks_iff (u : Step) (p : Per) : marks (decode u.endper) p = true ↔ Ends u p := by
  cases p <;> simp [marks, Ends]

theorem foldl_per (log) (p : Per) (us : List Step) (st : State) (a : Acc) (hne : us ≠ [])
    (h0 : restart (st.per p) = (false, a)) (hgo : ∀ u ∈ us.dropLast, ¬ Ends u p) :
    (us.foldl (advance log) st).per p =
      (marks (decode (us.getLast hne).endper) p, addAll log a (List.zip us (errs log st us))) := by
  induction us generalizing st a with
  | nil => exact absurd rfl hne
  | cons u us ih =>
    have hstep : (advance log st u).per p = (marks (decode u.endper) p, a.add log u (balance st u)) := by
      simp [advance, h0]
    cases us with
    | nil => simp [errs, addAll, hstep]
    | cons v vs =>
      have hu : ¬ Ends u p := hgo u (by simp)
      have hm : marks (decode u.endper) p = false := by
        cases hx : marks (decode u.endper) p with
        | false => rfl
        | true => exact absurd ((marks_iff u p).1 hx) hu
      rw [hm] at hstep
      have h1 : restart ((advance log st u).per p) = (false, a.add log u (balance st u)) := by
        rw [hstep]; rfl
      have := ih (advance log st u) _ (by simp) h1 (by
        intro w hw
        apply hgo
        simp only [List.dropLast_cons_cons]
        exact List.mem_cons_of_mem _ hw)
      rw [List.foldl_cons, this]
      simp [errs, addAll]

theorem restart_init (p : Per) : restart (State.init.per p) = (false, Acc.zero) := rfl

/-- The flag of a period after steps: the last one ends it. -/
theorem foldl_flag (log) (p : Per) (us : List Step) (st : State) (u : Step) (h : us.getLast? = some u) (he : Ends u p) :
    ((us.foldl (advance log) st).per p).1 = true := by
  obtain ⟨ys, rfl⟩ := List.getLast?_eq_some_iff.1 h
  rw [List.foldl_append]
  simp only [List.foldl_cons, List.foldl_nil, advance]
  rw [(marks_iff u p).2 he]
  simp

theorem since_per (log) (p : Per) (before during : List Step) (h : Since p before during) :
    (runAll log (before ++ during)).per p =
      (marks (decode (during.getLast h.nonempty).endper) p,
        addAll log Acc.zero (List.zip during (errs log (runAll log before) during))) := by
  unfold runAll
  rw [List.foldl_append]
  apply foldl_per _ _ _ _ _ h.nonempty _ h.going
  cases hb : before.getLast? with
  | none =>
    have : before = [] := by simpa using hb
    subst this
    rfl
  | some u =>
    have := foldl_flag log p before State.init u hb (h.start u hb)
    unfold restart
    rw [this]
    rfl

/-! ### Components -/

theorem addAll_steps (log) (l : List (Step × Rat)) (a : Acc) : (addAll log a l).steps = a.steps + l.length := by
  induction l generalizing a with
  | nil => rfl
  | cons x r ih => simp only [addAll, ih, Acc.add, List.length_cons]; omega

theorem addAll_lin (log) (g : Acc → Rat) (f : Step → Rat → Rat) (hg : ∀ (a : Acc) u b, g (a.add log u b) = g a + f u b)
    (l : List (Step × Rat)) (a : Acc) : g (addAll log a l) = g a + (l.map fun x => f x.1 x.2).sum := by
  induction l generalizing a with
  | nil => simp [addAll]
  | cons x r ih => simp only [addAll, ih, hg, List.map_cons, List.sum_cons]; ring

theorem addAll_total (log) (g : Acc → Rat) (f : Step → Rat) (hg : ∀ (a : Acc) u b, g (a.add log u b) = g a + f u)
    (us : List Step) (bs : List Rat) (hl : bs.length = us.length) (h0 : g Acc.zero = 0) :
    g (addAll log Acc.zero (List.zip us bs)) = total f us := by
  rw [addAll_lin log g (fun u _ => f u) (fun a u b => hg a u b), h0, zero_add]
  unfold total
  have : (List.zip us bs).map (fun x => f x.1) = ((List.zip us bs).map Prod.fst).map f := by simp [List.map_map, Function.comp_def]
  rw [this, List.map_fst_zip (by omega)]

theorem addAll_bal (log) (us : List Step) (bs : List Rat) (hl : bs.length = us.length) :
    (addAll log Acc.zero (List.zip us bs)).bal = bs.sum := by
  rw [addAll_lin log (·.bal) (fun _ b => b) (fun _ _ _ => rfl)]
  have : (List.zip us bs).map (fun x => x.2) = bs := List.map_snd_zip (by omega)
  rw [this]
  simp [Acc.zero]

theorem addAll_tmax (log) (l : List (Step × Rat)) (a : Acc) :
    a.tmax ≤ (addAll log a l).tmax ∧ (∀ x ∈ l, x.1.tmax ≤ (addAll log a l).tmax) ∧
      ((addAll log a l).tmax = a.tmax ∨ ∃ x ∈ l, x.1.tmax = (addAll log a l).tmax) := by
  induction l generalizing a with
  | nil => simp [addAll]
  | cons x r ih =>
    obtain ⟨h1, h2, h3⟩ := ih (a.add log x.1 x.2)
    simp only [addAll]
    have h4 : (a.add log x.1 x.2).tmax = if x.1.tmax > a.tmax then x.1.tmax else a.tmax := rfl
    rw [h4] at h1 h3
    refine ⟨?_, ?_, ?_⟩
    · split_ifs at h1 <;> linarith
    · intro y hy
      rcases List.mem_cons.1 hy with rfl | hy
      · split_ifs at h1 <;> linarith
      · exact h2 y hy
    · rcases h3 with h3 | ⟨y, hy, h3⟩
      · split_ifs at h3
        · exact Or.inr ⟨x, by simp, h3.symm⟩
        · exact Or.inl h3
      · exact Or.inr ⟨y, by simp [hy], h3⟩

theorem addAll_tmin (log) (l : List (Step × Rat)) (a : Acc) :
    (addAll log a l).tmin ≤ a.tmin ∧ (∀ x ∈ l, (addAll log a l).tmin ≤ x.1.tmin) ∧
      ((addAll log a l).tmin = a.tmin ∨ ∃ x ∈ l, x.1.tmin = (addAll log a l).tmin) := by
  induction l generalizing a with
  | nil => simp [addAll]
  | cons x r ih =>
    obtain ⟨h1, h2, h3⟩ := ih (a.add log x.1 x.2)
    simp only [addAll]
    have h4 : (a.add log x.1 x.2).tmin = if x.1.tmin < a.tmin then x.1.tmin else a.tmin := rfl
    rw [h4] at h1 h3
    refine ⟨?_, ?_, ?_⟩
    · split_ifs at h1 <;> linarith
    · intro y hy
      rcases List.mem_cons.1 hy with rfl | hy
      · split_ifs at h1 <;> linarith
      · exact h2 y hy
    · rcases h3 with h3 | ⟨y, hy, h3⟩
      · split_ifs at h3
        · exact Or.inr ⟨x, by simp, h3.symm⟩
        · exact Or.inl h3
      · exact Or.inr ⟨y, by simp [hy], h3⟩

theorem mem_zip_fst {us : List Step} {bs : List Rat} (hl : bs.length = us.length) {u : Step} (hu : u ∈ us) :
    ∃ b, (u, b) ∈ List.zip us bs := by
  have : u ∈ (List.zip us bs).map Prod.fst := by rw [List.map_fst_zip (by omega)]; exact hu
  obtain ⟨⟨v, b⟩, h1, h2⟩ := List.mem_map.1 this
  simp only at h2
  subst h2
  exact ⟨b, h1⟩

/-! ### Balances -/

theorem errs_gaps (log) (us : List Step) (st : State) (v : Step) (h1 : st.lastSto = v.store .sto)
    (h2 : st.lastChan = v.store .chanSto) (hn : ∀ u ∈ us, u.nstep ≠ 1) : errs log st us = gaps (some v) us := by
  induction us generalizing st v with
  | nil => rfl
  | cons u us ih =>
    simp only [errs, gaps]
    rw [ih (advance log st u) u rfl rfl (fun w hw => hn w (by simp [hw]))]
    congr 1
    unfold balance gap
    rw [if_neg (hn u (by simp)), h1, h2]
    ring

theorem runAll_last (log) (us : List Step) (v : Step) (h : us.getLast? = some v) :
    (runAll log us).lastSto = v.store .sto ∧ (runAll log us).lastChan = v.store .chanSto := by
  obtain ⟨ys, rfl⟩ := List.getLast?_eq_some_iff.1 h
  unfold runAll
  rw [List.foldl_append]
  exact ⟨rfl, rfl⟩

theorem errs_run (log) (before during : List Step) (hn : Numbered (before ++ during)) :
    errs log (runAll log before) during = gaps before.getLast? during := by
  cases hb : before.getLast? with
  | none =>
    have : before = [] := by simpa using hb
    subst this
    cases during with
    | nil => rfl
    | cons u us =>
      simp only [errs, gaps]
      have h1 : u.nstep = 1 := by simpa using hn 0 u (by simp)
      have h2 : balance (runAll log []) u = 0 := by unfold balance; rw [if_pos h1]
      rw [h2]
      congr 1
      apply errs_gaps _ _ _ _ rfl rfl
      intro w hw
      obtain ⟨k, hk, rfl⟩ := List.mem_iff_getElem.1 hw
      have := hn (k + 1) us[k] (by simp)
      omega
  | some v =>
    obtain ⟨h1, h2⟩ := runAll_last log before v hb
    apply errs_gaps _ _ _ _ h1 h2
    intro w hw
    obtain ⟨k, hk, rfl⟩ := List.mem_iff_getElem.1 hw
    have := hn (before.length + k) during[k] (by simp [List.getElem?_append_right])
    have hl : before.length ≠ 0 := by
      intro hc
      rw [List.length_eq_zero_iff] at hc
      subst hc
      simp at hb
    omega

end Verif.Summary
