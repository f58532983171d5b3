import Verif.Spec.Route
import Verif.Lemmas.Top2c
import Mathlib.Tactic.Linarith
import Mathlib.Tactic.Ring
import Mathlib.Tactic.FieldSimp
import Mathlib.Algebra.BigOperators.Group.List.Basic
/-
Helper lemmas for C40: the time-delay ordinates.
-/
namespace Verif.Route

/-- The time-area points are sorted. -/
structure Curve (ts : List (Rat × Rat)) : Prop where
  incr : ts.Pairwise fun p q => p.1 < q.1
  mono : ts.Pairwise fun p q => p.2 ≤ q.2

theorem Curve.tail {p ts} (h : Curve (p :: ts)) : Curve ts :=
  ⟨(List.pairwise_cons.1 h.incr).2, (List.pairwise_cons.1 h.mono).2⟩

theorem interp_spec (t : Rat) : ∀ (p : Rat × Rat) (ts : List (Rat × Rat)), Curve (p :: ts) → p.1 < t →
    t ≤ ((p :: ts).getLast (by simp)).1 →
    ∃ v, interp t (p :: ts) = some v ∧ p.2 ≤ v ∧ v ≤ ((p :: ts).getLast (by simp)).2 ∧
      ∃ l a b r, p :: ts = l ++ a :: b :: r ∧ a.1 < t ∧ t ≤ b.1 ∧
        (v - a.2) * (b.1 - a.1) = (b.2 - a.2) * (t - a.1) := by
  intro p ts
  induction ts generalizing p with
  | nil => intro _ h1 h2; exact absurd h1 (not_lt.2 h2)
  | cons q ts ih =>
    intro hc h1 h2
    have hpq := (List.pairwise_cons.1 hc.incr).1 q (by simp)
    have mpq := (List.pairwise_cons.1 hc.mono).1 q (by simp)
    have mlast : q.2 ≤ ((p :: q :: ts).getLast (by simp)).2 := by
      rw [List.getLast_cons (by simp)]
      rcases ts with _ | ⟨r, ts⟩
      · exact le_refl _
      · rw [List.getLast_cons (by simp)]
        exact (List.pairwise_cons.1 hc.tail.mono).1 _ (List.getLast_mem _)
    unfold interp
    by_cases h : t ≤ q.1
    · rw [if_pos h]
      have hd : 0 < q.1 - p.1 := by linarith
      have hv : (q.2 - p.2) * (t - p.1) / (q.1 - p.1) * (q.1 - p.1) = (q.2 - p.2) * (t - p.1) :=
        div_mul_cancel₀ _ hd.ne'
      have hn : 0 ≤ (q.2 - p.2) * (t - p.1) / (q.1 - p.1) :=
        div_nonneg (mul_nonneg (by linarith) (by linarith)) hd.le
      have hu : (q.2 - p.2) * (t - p.1) / (q.1 - p.1) ≤ q.2 - p.2 := by
        rw [div_le_iff₀ hd]
        exact mul_le_mul_of_nonneg_left (by linarith) (by linarith)
      refine ⟨_, rfl, by linarith, by linarith, [], p, q, ts, rfl, h1, h, ?_⟩
      rw [add_sub_cancel_left]; exact hv
    · rw [if_neg h]
      push Not at h
      obtain ⟨v, e1, e2, e3, l, a, b, r, e4, e5, e6, e7⟩ :=
        ih q hc.tail h (by rw [List.getLast_cons (by simp)] at h2; exact h2)
      refine ⟨v, e1, by linarith, ?_, p :: l, a, b, r, by rw [e4]; rfl, e5, e6, e7⟩
      rw [List.getLast_cons (by simp)]; exact e3

theorem interp_last : ∀ (p : Rat × Rat) (ts : List (Rat × Rat)), Curve (p :: ts) → ts ≠ [] →
    interp ((p :: ts).getLast (by simp)).1 (p :: ts) = some ((p :: ts).getLast (by simp)).2 := by
  intro p ts
  induction ts generalizing p with
  | nil => intro _ h; exact absurd rfl h
  | cons q ts ih =>
    intro hc _
    have hpq := (List.pairwise_cons.1 hc.incr).1 q (by simp)
    rcases ts with _ | ⟨r, ts⟩
    · simp only [List.getLast_cons_cons, List.getLast_singleton, interp, le_refl, if_true]
      have hd : q.1 - p.1 ≠ 0 := by linarith
      rw [mul_div_assoc, div_self hd]
      congr 1; ring
    · rw [List.getLast_cons (by simp)]
      unfold interp
      have : q.1 < ((q :: r :: ts).getLast (by simp)).1 := by
        rw [List.getLast_cons (by simp)]
        exact (List.pairwise_cons.1 hc.tail.incr).1 _ (List.getLast_mem _)
      rw [if_neg (not_le.2 this)]
      exact ih q hc.tail (by simp)

theorem interp_mono (t t' : Rat) (htt : t ≤ t') : ∀ (p : Rat × Rat) (ts : List (Rat × Rat)) (v v' : Rat),
    Curve (p :: ts) → p.1 < t → t' ≤ ((p :: ts).getLast (by simp)).1 →
    interp t (p :: ts) = some v → interp t' (p :: ts) = some v' → v ≤ v' := by
  intro p ts
  induction ts generalizing p with
  | nil => intro v v' _ h1 h2; simp at h2; linarith
  | cons q ts ih =>
    intro v v' hc h1 h2 hv hv'
    have hpq := (List.pairwise_cons.1 hc.incr).1 q (by simp)
    have mpq := (List.pairwise_cons.1 hc.mono).1 q (by simp)
    have hd : 0 < q.1 - p.1 := by linarith
    unfold interp at hv hv'
    by_cases h' : t' ≤ q.1
    · rw [if_pos h'] at hv'
      rw [if_pos (le_trans htt h')] at hv
      simp only [Option.some.injEq] at hv hv'
      rw [← hv, ← hv']
      have : (q.2 - p.2) * (t - p.1) / (q.1 - p.1) ≤ (q.2 - p.2) * (t' - p.1) / (q.1 - p.1) :=
        div_le_div_of_nonneg_right (mul_le_mul_of_nonneg_left (by linarith) (by linarith)) hd.le
      linarith
    · rw [if_neg h'] at hv'
      have h2' : t' ≤ ((q :: ts).getLast (by simp)).1 := by
        rw [List.getLast_cons (by simp)] at h2; exact h2
      by_cases h : t ≤ q.1
      · rw [if_pos h] at hv
        simp only [Option.some.injEq] at hv
        obtain ⟨w, w1, w2, -⟩ := interp_spec t' q ts hc.tail (not_le.1 h') h2'
        rw [w1] at hv'
        simp only [Option.some.injEq] at hv'
        have hu : (q.2 - p.2) * (t - p.1) / (q.1 - p.1) ≤ q.2 - p.2 := by
          rw [div_le_iff₀ hd]
          exact mul_le_mul_of_nonneg_left (by linarith) (by linarith)
        rw [← hv, ← hv']; linarith
      · rw [if_neg h] at hv
        exact ih q v v' hc.tail (not_le.1 h) h2' hv hv'

theorem cumuls_get (ts : List (Rat × Rat)) (last : Rat) (k : Nat) (t : Int) (l : List Rat)
    (h : cumuls ts last k t = some l) :
    l.length = k ∧ ∀ j (hj : j < l.length), cumul ts last (t + j) = some l[j] := by
  induction k generalizing t l with
  | zero =>
    simp only [cumuls, Option.some.injEq] at h
    subst h; exact ⟨rfl, fun j hj => absurd hj (by simp)⟩
  | succ k ih =>
    unfold cumuls at h
    split at h
    · rename_i a l' ha hl
      simp only [Option.some.injEq] at h
      subst h
      obtain ⟨i1, i2⟩ := ih _ _ hl
      refine ⟨by simp [i1], fun j hj => ?_⟩
      cases j with
      | zero => simpa using ha
      | succ j =>
        have := i2 j (by simpa using hj)
        simp only [List.getElem_cons_succ]
        rw [← this]; congr 1; push_cast; ring
    · exact absurd h (by simp)

theorem cumuls_total (ts : List (Rat × Rat)) (last : Rat) (k : Nat) (t : Int)
    (h : ∀ j : Nat, j < k → ∃ v, cumul ts last (t + j) = some v) : ∃ l, cumuls ts last k t = some l := by
  induction k generalizing t with
  | zero => exact ⟨_, rfl⟩
  | succ k ih =>
    obtain ⟨v, hv⟩ := h 0 (by omega)
    obtain ⟨l, hl⟩ := ih (t + 1) fun j hj => by
      have := h (j + 1) (by omega)
      rw [show t + 1 + (j : Int) = t + ((j + 1 : Nat) : Int) by push_cast; ring]
      exact this
    simp only [Nat.cast_zero, Int.natCast_zero, add_zero] at hv
    exact ⟨v :: l, by unfold cumuls; rw [hv, hl]⟩

/-- Prefix sums of the ordinates are the cumulated ordinates. -/
theorem diffs_sum (frac a : Rat) (l : List Rat) (k : Nat) :
    ((diffs frac a l).take k).sum = (((a :: l).getD (min k l.length) 0) - a) * frac := by
  induction l generalizing a k with
  | nil => simp [diffs]
  | cons b l ih =>
    cases k with
    | zero => simp
    | succ k =>
      simp only [diffs, List.take_succ_cons, List.sum_cons, ih]
      simp only [List.length_cons, Nat.succ_min_succ, List.getD_cons_succ]
      ring

theorem ordinates_take (frac : Rat) (l : List Rat) (k : Nat) (hk : k < l.length) :
    ((ordinates frac l).take (k + 1)).sum = l.getD k 0 * frac := by
  cases l with
  | nil => simp at hk
  | cons a l =>
    simp only [ordinates, List.take_succ_cons, List.sum_cons, diffs_sum]
    rw [Nat.min_eq_left (by simpa using Nat.lt_succ_iff.1 hk)]
    ring

theorem diffs_length (frac a : Rat) (l : List Rat) : (diffs frac a l).length = l.length := by
  induction l generalizing a with
  | nil => rfl
  | cons b l ih => simp [diffs, ih]

theorem ordinates_length (frac : Rat) (l : List Rat) : (ordinates frac l).length = l.length := by
  cases l with
  | nil => rfl
  | cons a l => simp [ordinates, diffs_length]

theorem diffs_nonneg (frac a : Rat) (hf : 0 ≤ frac) (l : List Rat) (h : (a :: l).Pairwise (· ≤ ·)) :
    ∀ x ∈ diffs frac a l, 0 ≤ x := by
  induction l generalizing a with
  | nil => simp [diffs]
  | cons b l ih =>
    intro x hx
    rcases List.mem_cons.1 hx with rfl | hx
    · have := (List.pairwise_cons.1 h).1 b (by simp)
      exact mul_nonneg (by linarith) hf
    · exact ih b (List.pairwise_cons.1 h).2 x hx

theorem ordinates_nonneg (frac : Rat) (hf : 0 ≤ frac) (l : List Rat) (h : l.Pairwise (· ≤ ·))
    (h0 : ∀ x ∈ l, 0 ≤ x) : ∀ x ∈ ordinates frac l, 0 ≤ x := by
  cases l with
  | nil => simp [ordinates]
  | cons a l =>
    intro x hx
    rcases List.mem_cons.1 hx with rfl | hx
    · exact mul_nonneg (h0 a (by simp)) hf
    · exact diffs_nonneg frac a hf l h x hx

/-- The padded ordinates. -/
theorem arFill_eq (h : Hist) (n : Nat) (h0 : 0 ≤ h.nd) (hl : h.ar.length = h.nr.toNat) (hr : 0 ≤ h.nr)
    (hn : h.nd + h.nr ≤ n) :
    arFill h n = List.replicate h.nd.toNat 0 ++ (h.ar ++ List.replicate (n - (h.nd + h.nr).toNat) 0) := by
  apply List.ext_getElem
  · simp only [arFill, List.length_map, List.length_range', List.length_append, List.length_replicate, hl]
    omega
  · intro i h1 h2
    simp only [arFill, List.getElem_map, List.getElem_range']
    by_cases a : (i : Int) < h.nd
    · rw [if_neg (by omega), List.getElem_append_left (by simp; omega)]
      simp
    · by_cases b : (i : Int) < h.nd + h.nr
      · rw [if_pos (by omega), List.getElem_append_right (by simp; omega),
          List.getElem_append_left (by simp [hl]; omega)]
        have e : ((1 + 1 * i : Nat) : Int) - h.nd - 1 = (i : Int) - h.nd := by push_cast; ring
        have f : ((i : Int) - h.nd).toNat = i - h.nd.toNat := by omega
        rw [e, f, List.getD, List.getElem?_eq_getElem (by omega)]
        simp
      · rw [if_neg (by omega), List.getElem_append_right (by simp; omega),
          List.getElem_append_right (by simp [hl]; omega)]
        simp

theorem trunc_nonneg (x : Rat) (h : 0 ≤ x) : 0 ≤ trunc x ∧ (trunc x : Rat) ≤ x ∧ x < trunc x + 1 := by
  unfold trunc
  rw [if_neg (not_lt.2 h)]
  refine ⟨?_, Rat.floor_le x, ?_⟩
  · exact (Rat.le_floor_iff).2 (by simpa using h)
  · have : x.floor < x.floor + 1 := by omega
    have := (Rat.floor_lt_iff).1 this
    push_cast at this; exact this

/-- `ND + NR` is the travel time from the farthest point, rounded up. -/
theorem delays_spec (f l : Rat) (hf : 0 ≤ f) (hfl : f < l) :
    0 ≤ (delays f l).1 ∧ 0 < (delays f l).2 ∧ ((delays f l).1 : Rat) ≤ f ∧ f < (delays f l).1 + 1 ∧
      l ≤ ((delays f l).1 + (delays f l).2 : Int) ∧ ((delays f l).1 + (delays f l).2 : Int) < l + 1 := by
  obtain ⟨f1, f2, f3⟩ := trunc_nonneg f hf
  obtain ⟨l1, l2, l3⟩ := trunc_nonneg l (by linarith)
  have key : ∀ nr : Int, l ≤ nr → (nr : Rat) < l + 1 →
      0 ≤ trunc f ∧ 0 < nr - trunc f ∧ (trunc f : Rat) ≤ f ∧ f < trunc f + 1 ∧
      l ≤ ((trunc f + (nr - trunc f) : Int) : Rat) ∧ ((trunc f + (nr - trunc f) : Int) : Rat) < l + 1 := by
    intro nr h1 h2
    have : trunc f < nr := by
      have : (trunc f : Rat) < nr := by linarith
      exact_mod_cast this
    refine ⟨f1, by omega, f2, f3, ?_, ?_⟩
    · rw [show trunc f + (nr - trunc f) = nr by ring]; exact h1
    · rw [show trunc f + (nr - trunc f) = nr by ring]; exact h2
  unfold delays
  dsimp only
  by_cases h : (trunc l : Rat) < l
  · rw [if_pos h]
    exact key _ (by push_cast; linarith) (by push_cast; linarith)
  · rw [if_neg h]
    exact key _ (not_lt.1 h) (by linarith)

/-- The time-area points of a table. -/
theorem times_eq (chvdt : Rat) (hc : chvdt ≠ 0) (pts : List (Rat × Rat)) :
    times chvdt pts = pts.map fun p => (p.1 / chvdt, p.2) := by
  cases pts with
  | nil => rfl
  | cons p rest =>
    obtain ⟨d, a⟩ := p
    simp only [times, List.map_cons, List.cons.injEq, true_and]
    apply List.map_congr_left
    intro q _
    simp only [Prod.mk.injEq, and_true]
    field_simp; ring

theorem times_curve (chvdt : Rat) (hc : 0 < chvdt) (c : Table) (h : c.Ok) :
    Curve (c.pts.map fun p => (p.1 / chvdt, p.2)) := by
  refine ⟨?_, ?_⟩
  · rw [List.pairwise_map]
    exact h.incr.imp fun {p q} hpq => div_lt_div_of_pos_right hpq hc
  · rw [List.pairwise_map]
    exact h.mono

/-- Everything about the ordinates of a documented table. -/
theorem histogram_spec (chvdt : Rat) (hv : 0 < chvdt) (c : Table) (hok : c.Ok) :
    ∃ h, histogram chvdt c = some h ∧ 0 ≤ h.nd ∧ 0 < h.nr ∧ h.ar.length = h.nr.toNat ∧
      h.frac = c.frac ∧ h.area = c.area ∧ (∀ x ∈ h.ar, 0 ≤ x) ∧ h.ar.sum = c.frac ∧
      (∀ p ∈ c.pts, p.1 / chvdt ≤ (h.nd + h.nr : Int)) ∧ (∀ p ∈ c.pts, ((h.nd : Int) : Rat) ≤ p.1 / chvdt) ∧
      ∀ k : Nat, k < h.nr.toNat → ∃ v, Share c chvdt (h.nd + k + 1) v ∧ (h.ar.take (k + 1)).sum = v * c.frac := by
  obtain ⟨p, q, rest, hpts⟩ : ∃ p q rest, c.pts = p :: q :: rest := by
    have := hok.two
    rcases h : c.pts with _ | ⟨p, _ | ⟨q, rest⟩⟩
    · simp [h] at this
    · simp [h] at this
    · exact ⟨p, q, rest, rfl⟩
  have hcurve := times_curve chvdt hv c hok
  have hts : times chvdt c.pts = c.pts.map fun p => (p.1 / chvdt, p.2) := times_eq _ hv.ne' _
  set g : Rat × Rat → Rat × Rat := fun p => (p.1 / chvdt, p.2) with hg
  have hne : c.pts ≠ [] := by rw [hpts]; simp
  set z := c.pts.getLast hne with hz
  have hzl : c.pts.getLast? = some z := List.getLast?_eq_getLast_of_ne_nil hne
  have hz1 : z.2 = 1 := hok.full z hzl
  have hlast : (c.pts.map g).getLast? = some (g z) := by rw [List.getLast?_map, hzl]; rfl
  have hhead : (c.pts.map g).head? = some (g p) := by rw [hpts]; rfl
  have hmap : c.pts.map g = g p :: (q :: rest).map g := by rw [hpts]; rfl
  have hlast' : (g p :: (q :: rest).map g).getLast (by simp) = g z := by
    have := hlast
    rw [hmap, List.getLast?_eq_getLast_of_ne_nil (by simp)] at this
    exact Option.some.inj this
  have hpz : p.1 < z.1 := by
    have hp := hok.incr
    rw [hpts] at hp
    have hzm : z ∈ q :: rest := by
      rw [hz]
      have : c.pts.getLast hne = (q :: rest).getLast (by simp) := by
        simp only [hpts, List.getLast_cons_cons]
      rw [this]; exact List.getLast_mem _
    exact (List.pairwise_cons.1 hp).1 z hzm
  have hp0 : 0 ≤ p.1 := hok.dist p (by rw [hpts]; simp)
  obtain ⟨d1, d2, d3, d4, d5, d6⟩ := delays_spec (g p).1 (g z).1 (div_nonneg hp0 hv.le)
    (div_lt_div_of_pos_right hpz hv)
  -- all points lie between
  have hall : ∀ x ∈ c.pts, (g x).1 ≤ (g z).1 ∧ (g p).1 ≤ (g x).1 := by
    intro x hx
    have hp := hok.incr
    constructor
    · rcases List.mem_iff_getElem.1 hx with ⟨i, hi, rfl⟩
      have : z = c.pts[c.pts.length - 1]'(by omega) := by rw [hz, List.getLast_eq_getElem]
      by_cases hi' : i = c.pts.length - 1
      · subst hi'; rw [this]
      · have := List.pairwise_iff_getElem.1 hp i (c.pts.length - 1) hi (by omega) (by omega)
        rw [‹z = _›]
        exact (div_lt_div_of_pos_right this hv).le
    · rw [hpts] at hx hp
      rcases List.mem_cons.1 hx with rfl | hx
      · exact le_refl _
      · exact (div_lt_div_of_pos_right ((List.pairwise_cons.1 hp).1 x hx) hv).le
  set nd := (delays (g p).1 (g z).1).1 with hnd
  set nr := (delays (g p).1 (g z).1).2 with hnr
  -- the cumulated ordinates
  have hcum : ∀ k : Nat, ∃ v, cumul (c.pts.map g) (g z).1 (nd + 1 + k) = some v ∧ 0 ≤ v ∧ v ≤ 1 ∧
      Share c chvdt (nd + k + 1) v := by
    intro k
    have hgt : (g p).1 < ((nd + 1 + k : Int) : Rat) := by
      push_cast
      have : (0 : Rat) ≤ k := Nat.cast_nonneg k
      linarith
    have ecast : ((nd + 1 + k : Int) : Rat) = (nd : Rat) + k + 1 := by push_cast; ring
    unfold cumul
    by_cases hb : ((nd + 1 + k : Int) : Rat) > (g z).1
    · rw [if_pos hb]
      refine ⟨1, rfl, by norm_num, le_refl _, Or.inl ⟨rfl, fun x hx => ?_⟩⟩
      rw [← ecast]
      exact lt_of_le_of_lt (hall x hx).1 hb
    · rw [if_neg hb]
      push Not at hb
      obtain ⟨v, e1, e2, e3, l, a, b, r, e4, e5, e6, e7⟩ :=
        interp_spec ((nd + 1 + k : Int) : Rat) (g p) ((q :: rest).map g) (hmap ▸ hcurve) hgt
          (by rw [hlast']; exact hb)
      rw [hlast'] at e3
      have hp2 : 0 ≤ (g p).2 := hok.share p (by rw [hpts]; simp)
      refine ⟨v, by rw [hmap]; exact e1, le_trans hp2 e2, by rw [← hz1]; exact e3, Or.inr ?_⟩
      rw [← hmap] at e4
      obtain ⟨l', r', f1, f2, f3⟩ := List.map_eq_append_iff.1 e4
      obtain ⟨a', r'', f4, f5, f6⟩ := List.map_eq_cons_iff.1 f3
      obtain ⟨b', r3, f7, f8, f9⟩ := List.map_eq_cons_iff.1 f6
      refine ⟨l', a', b', r3, by rw [f1, f4, f7], ?_, ?_, ?_⟩
      · rw [← ecast]; rw [← f5] at e5; exact e5
      · rw [← ecast]; rw [← f8] at e6; exact e6
      · rw [← f5, ← f8, ecast] at e7
        simp only [hg] at e7
        have hne' := hv.ne'
        field_simp at e7
        linarith
  have hmono : ∀ j k : Nat, j ≤ k → ∀ v w, cumul (c.pts.map g) (g z).1 (nd + 1 + j) = some v →
      cumul (c.pts.map g) (g z).1 (nd + 1 + k) = some w → v ≤ w := by
    intro j k hjk v w hj hk
    have hjk' : ((nd + 1 + j : Int) : Rat) ≤ ((nd + 1 + k : Int) : Rat) := by
      have : nd + 1 + (j : Int) ≤ nd + 1 + k := by omega
      exact_mod_cast this
    have hgt : (g p).1 < ((nd + 1 + j : Int) : Rat) := by
      push_cast
      have : (0 : Rat) ≤ j := Nat.cast_nonneg j
      linarith
    by_cases hb : ((nd + 1 + k : Int) : Rat) > (g z).1
    · have : w = 1 := by
        unfold cumul at hk; rw [if_pos hb] at hk; exact (Option.some.inj hk).symm
      obtain ⟨v', e, -, e2, -⟩ := hcum j
      rw [hj] at e
      rw [this, Option.some.inj e]; exact e2
    · have hb' : ¬ ((nd + 1 + j : Int) : Rat) > (g z).1 := fun h => hb (lt_of_lt_of_le h hjk')
      unfold cumul at hj hk
      rw [if_neg hb, hmap] at hk
      rw [if_neg hb', hmap] at hj
      exact interp_mono _ _ hjk' (g p) _ v w (hmap ▸ hcurve) hgt (by rw [hlast']; exact not_lt.1 hb) hj hk
  obtain ⟨l, hl⟩ := cumuls_total (c.pts.map g) (g z).1 nr.toNat (nd + 1) fun j _ => by
    obtain ⟨v, h, -⟩ := hcum j; exact ⟨v, h⟩
  obtain ⟨g1, g2⟩ := cumuls_get _ _ _ _ _ hl
  have hlmono : l.Pairwise (· ≤ ·) := by
    rw [List.pairwise_iff_getElem]
    intro i j hi hj hij
    exact hmono i j hij.le _ _ (g2 i hi) (g2 j hj)
  have hl0 : ∀ x ∈ l, 0 ≤ x := by
    intro x hx
    obtain ⟨i, hi, rfl⟩ := List.mem_iff_getElem.1 hx
    obtain ⟨v, e, e1, -⟩ := hcum i
    rw [g2 i hi] at e
    rw [Option.some.inj e]; exact e1
  have hhist : histogram chvdt c = some ⟨nd, nr, ordinates c.frac l, c.frac, c.area⟩ := by
    unfold histogram
    rw [if_neg hv.ne', hts]
    dsimp only
    rw [hhead, hlast]
    dsimp only
    rw [← hnd, ← hnr, hl]
    rfl
  have htake : ∀ k : Nat, k < nr.toNat → ∃ v, cumul (c.pts.map g) (g z).1 (nd + 1 + k) = some v ∧
      Share c chvdt (nd + k + 1) v ∧ ((ordinates c.frac l).take (k + 1)).sum = v * c.frac := by
    intro k hk
    obtain ⟨v, e, -, -, e3⟩ := hcum k
    refine ⟨v, e, e3, ?_⟩
    have hkl : k < l.length := by omega
    rw [ordinates_take _ _ _ hkl]
    have := g2 k hkl
    rw [e] at this
    rw [List.getD, List.getElem?_eq_getElem hkl, Option.getD_some, ← Option.some.inj this]
  refine ⟨_, hhist, d1, d2, by rw [ordinates_length, g1], rfl, rfl,
    ordinates_nonneg _ hok.frac _ hlmono hl0, ?_, fun x hx => ?_, fun x hx => ?_, fun k hk => ?_⟩
  · -- the last cumulated ordinate is one
    have hlen : (ordinates c.frac l).length = nr.toNat - 1 + 1 := by
      rw [ordinates_length, g1]; omega
    obtain ⟨v, e, -, e3⟩ := htake (nr.toNat - 1) (by omega)
    rw [← hlen, List.take_length] at e3
    show (ordinates c.frac l).sum = c.frac
    rw [e3]
    have ht : nd + 1 + ((nr.toNat - 1 : Nat) : Int) = nd + nr := by omega
    rw [ht] at e
    unfold cumul at e
    have : v = 1 := by
      by_cases hb : ((nd + nr : Int) : Rat) > (g z).1
      · rw [if_pos hb] at e; exact (Option.some.inj e).symm
      · rw [if_neg hb] at e
        have heq : ((nd + nr : Int) : Rat) = (g z).1 := le_antisymm (not_lt.1 hb) d5
        rw [heq, hmap] at e
        have hil := interp_last (g p) ((q :: rest).map g) (hmap ▸ hcurve) (by simp)
        rw [hlast'] at hil
        rw [hil] at e
        rw [← Option.some.inj e]; exact hz1
    rw [this, one_mul]
  · exact le_trans (hall x hx).1 d5
  · exact le_trans d3 (hall x hx).2
  · obtain ⟨v, -, e1, e2⟩ := htake k hk
    exact ⟨v, e1, e2⟩

end Verif.Route
