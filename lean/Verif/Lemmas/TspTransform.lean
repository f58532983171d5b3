import Verif.Spec.TspTransform
import Mathlib.Tactic.Linarith
import Mathlib.Tactic.Ring
/-
Lemmas for C133.
-/
namespace Verif.Tsp

theorem leastOf_spec (l : List Rat) : leastOf l ≤ 10 ^ 30 ∧ (∀ x ∈ l, leastOf l ≤ x) ∧ (leastOf l = 10 ^ 30 ∨ leastOf l ∈ l) := by
  unfold leastOf
  generalize (10 ^ 30 : Rat) = a
  induction l generalizing a with
  | nil => simp
  | cons y l ih =>
    simp only [List.foldl_cons]
    obtain ⟨h1, h2, h3⟩ := ih (if y < a then y else a)
    by_cases h : y < a
    · rw [if_pos h] at h1 h2 h3 ⊢
      refine ⟨by linarith, ?_, Or.inr ?_⟩
      · rintro x (_ | ⟨_, hx⟩)
        · exact h1
        · exact h2 x hx
      · rcases h3 with h3 | h3
        · rw [h3]; exact List.mem_cons_self ..
        · exact List.mem_cons_of_mem _ h3
    · rw [if_neg h] at h1 h2 h3 ⊢
      refine ⟨h1, ?_, ?_⟩
      · rintro x (_ | ⟨_, hx⟩)
        · linarith
        · exact h2 x hx
      · rcases h3 with h3 | h3
        · exact Or.inl h3
        · exact Or.inr (List.mem_cons_of_mem _ h3)

theorem leastOf_mem (l : List Rat) (h0 : l ≠ []) (h : ∀ x ∈ l, x ≤ 10 ^ 30) : (∀ x ∈ l, leastOf l ≤ x) ∧ leastOf l ∈ l := by
  obtain ⟨h1, h2, h3⟩ := leastOf_spec l
  refine ⟨h2, ?_⟩
  rcases h3 with h3 | h3
  · obtain ⟨x, hx⟩ := List.exists_mem_of_ne_nil l h0
    have := h x hx
    have e : x = leastOf l := le_antisymm (h3 ▸ this) (h2 x hx)
    exact e ▸ hx
  · exact h3

/-- The terms of a slice. -/
theorem mem_slice' (s : List Term) (a n : Nat) (x : Rat) :
    x ∈ ((s.map Term.val).drop a).take n ↔ ∃ j r, a ≤ j ∧ j < a + n ∧ s[j]? = some r ∧ x = r.val := by
  rw [List.mem_iff_getElem?]
  constructor
  · rintro ⟨i, hi⟩
    rw [List.getElem?_take] at hi
    split at hi
    · rw [List.getElem?_drop, List.getElem?_map] at hi
      cases hs : s[a + i]? with
      | none => rw [hs] at hi; simp at hi
      | some r =>
        rw [hs] at hi
        simp only [Option.map_some, Option.some.injEq] at hi
        exact ⟨a + i, r, by omega, by omega, hs, hi.symm⟩
    · cases hi
  · rintro ⟨j, r, h1, h2, h3, rfl⟩
    refine ⟨j - a, ?_⟩
    rw [List.getElem?_take, if_pos (by omega), List.getElem?_drop, List.getElem?_map, show a + (j - a) = j by omega, h3]
    rfl

theorem lt_of_get {α : Type} {s : List α} {i : Nat} {p : α} (h : s[i]? = some p) : i < s.length := by
  by_contra hc
  rw [List.getElem?_eq_none (by omega)] at h
  cases h

theorem lowest_iff (s : List Term) (h j : Nat) (p : Term) (hp : s[j]? = some p) (h1 : h ≤ j) (h2 : j + h < s.length) :
    lowest (s.map Term.val) h j = true ↔ ∀ k q, Close h j k → k ≠ j → s[k]? = some q → p.val < q.val := by
  have get : ∀ k q, s[k]? = some q → (s.map Term.val).getD k 0 = q.val := by
    intro k q e
    rw [List.getD_eq_getElem?_getD, List.getElem?_map, e]; rfl
  unfold lowest Close
  simp only [List.all_eq_true, List.mem_range, Bool.or_eq_true, decide_eq_true_eq, ge_iff_le, not_le]
  constructor
  · intro H k q hk hn hq
    rcases H (k + h - j) (by omega) with e | e
    · omega
    · rw [get j p hp, show j - h + (k + h - j) = k by omega, get k q hq] at e
      exact e
  · intro H k hk
    by_cases e : j - h + k = j
    · exact Or.inl e
    · right
      have hl : j - h + k < s.length := by omega
      have hq := List.getElem?_eq_getElem hl
      rw [get j p hp, get _ _ hq]
      exact H _ _ (by omega) e hq

/-- Terms of an ordered series by number. -/
theorem ordered_lt {s : List Term} (hs : Ordered s) {i j : Nat} {p q : Term} (hp : s[i]? = some p) (hq : s[j]? = some q) (hij : i < j) :
    p.at_.time < q.at_.time := by
  have hi := lt_of_get hp
  have hj := lt_of_get hq
  have := List.pairwise_iff_getElem.1 hs.1 i j hi hj hij
  rw [List.getElem?_eq_getElem hi, Option.some.injEq] at hp
  rw [List.getElem?_eq_getElem hj, Option.some.injEq] at hq
  rwa [hp, hq] at this

theorem ordered_index {s : List Term} (hs : Ordered s) {i j : Nat} {p q : Term} (hp : s[i]? = some p) (hq : s[j]? = some q)
    (e : p.at_.time = q.at_.time) : i = j := by
  rcases Nat.lt_trichotomy i j with h | h | h
  · have := ordered_lt hs hp hq h; omega
  · exact h
  · have := ordered_lt hs hq hp h; omega

theorem clock_eq {a b : Clock} (ha : a.Proper) (hb : b.Proper) (h : a.time = b.time) : a = b := by
  obtain ⟨a1, a2⟩ := a
  obtain ⟨b1, b2⟩ := b
  simp only [Clock.Proper, Clock.time] at *
  obtain ⟨rfl, rfl⟩ : a1 = b1 ∧ a2 = b2 := by omega
  rfl

theorem carry_spec (d n : Int) (h : 0 ≤ n) : (carry d n).Proper ∧ (carry d n).time = d * 86400 + n := by
  induction d, n using carry.induct with
  | case1 d n h1 ih =>
    rw [carry, if_pos h1]
    obtain ⟨h2, h3⟩ := ih (by omega)
    exact ⟨h2, by rw [h3]; ring⟩
  | case2 d n h1 =>
    rw [carry, if_neg h1]
    exact ⟨⟨h, by simpa using h1⟩, rfl⟩

theorem equalSteps_iff (lag : Int) (h0 : 0 ≤ lag) (s : List Term) (hp : ∀ t ∈ s, t.at_.Proper) :
    equalSteps lag s = true ↔ Spaced lag s := by
  induction s with
  | nil => simp [equalSteps, Spaced]
  | cons p s ih =>
    rcases s with _ | ⟨q, r⟩
    · refine ⟨fun _ i a b _ h => ?_, fun _ => rfl⟩
      simp at h
    · rw [equalSteps, Bool.and_eq_true, decide_eq_true_eq, ih fun t ht => hp t (List.mem_cons_of_mem _ ht)]
      have hpp := hp p (List.mem_cons_self ..)
      have hqq := hp q (by simp)
      obtain ⟨c1, c2⟩ := carry_spec p.at_.days (p.at_.secs + lag) (by have := hpp.1; omega)
      have e : carry p.at_.days (p.at_.secs + lag) = q.at_ ↔ q.at_.time - p.at_.time = lag := by
        constructor
        · intro e; rw [e] at c2; rw [c2]; unfold Clock.time; ring
        · intro e
          refine clock_eq c1 hqq ?_
          rw [c2]
          unfold Clock.time at e ⊢
          omega
      rw [e]
      constructor
      · rintro ⟨h1, h2⟩ i a b ha hb
        rcases i with _ | i
        · simp only [List.getElem?_cons_zero, Option.some.injEq, Nat.zero_add, List.getElem?_cons_succ] at ha hb
          rw [← ha, ← hb]; exact h1
        · rw [List.getElem?_cons_succ] at ha hb
          exact h2 i a b ha hb
      · intro h
        exact ⟨h 0 p q rfl rfl, fun i a b ha hb => h (i + 1) a b (by simpa using ha) (by simpa using hb)⟩

/-- Times of a spaced series. -/
theorem spaced_time {step : Int} {s : List Term} (h : Spaced step s) (i k : Nat) (p q : Term) (hp : s[i]? = some p)
    (hq : s[i + k]? = some q) : q.at_.time = p.at_.time + k * step := by
  induction k generalizing q with
  | zero =>
    rw [Nat.add_zero, hp, Option.some.injEq] at hq
    rw [hq]; simp
  | succ k ih =>
    have hl := lt_of_get hq
    have hr := List.getElem?_eq_getElem (show i + k < s.length by omega)
    have := h (i + k) _ q hr hq
    have := ih _ hr
    push_cast
    linarith

end Verif.Tsp
