import Verif.Lemmas.TspTransform
import Mathlib.Tactic.NormNum
/-
C133: series made from other series by TSPROC.
-/
namespace Verif.Tsp

/-! ### Moving minimum -/

/-- Each term with enough neighbours gets the least value of its window, the others keep theirs. -/
theorem C133_moving_minimum_partial (h : Nat) (s : List Term) (hm : ∀ t ∈ s, t.val ≤ 10 ^ 30) :
    ∃ g, movingMinimum (2 * h + 1) s = some g ∧ SameTimes s g ∧ ∀ (i : Nat) (p q : Term), s[i]? = some p → g[i]? = some q →
      (h ≤ i ∧ i + h < s.length →
        (∀ j r, Close h i j → s[j]? = some r → q.val ≤ r.val) ∧ ∃ j r, Close h i j ∧ s[j]? = some r ∧ q.val = r.val) ∧
      (¬ (h ≤ i ∧ i + h < s.length) → q = p) := by
  have e : ((2 * (h : Int) + 1) / 2).toNat = h := by omega
  unfold movingMinimum
  rw [if_neg (by omega), e]
  simp only
  split
  · rename_i hl
    refine ⟨s, rfl, rfl, fun i p q hp hq => ⟨by omega, fun _ => ?_⟩⟩
    rw [hp] at hq
    exact (Option.some.inj hq).symm
  · rename_i hl
    refine ⟨_, rfl, ?_, fun i p q hp hq => ?_⟩
    · unfold SameTimes
      apply List.ext_getElem?
      intro i
      rw [List.getElem?_map, List.getElem?_mapIdx, List.getElem?_map]
      cases s[i]? with
      | none => rfl
      | some t => simp only [Option.map_some]; split <;> rfl
    · rw [List.getElem?_mapIdx, hp, Option.map_some, Option.some.injEq] at hq
      have hi := lt_of_get hp
      constructor
      · rintro ⟨h1, h2⟩
        rw [if_neg (by omega)] at hq
        have mem := mem_slice' s (i - h) (2 * h + 1)
        obtain ⟨m1, m2⟩ := leastOf_mem (((s.map Term.val).drop (i - h)).take (2 * h + 1))
          (by
            intro hn
            have := (mem p.val).2 ⟨i, p, by omega, by omega, hp, rfl⟩
            rw [hn] at this
            simp at this)
          (by
            intro x hx
            obtain ⟨j, r, _, _, h5, rfl⟩ := (mem x).1 hx
            exact hm r (List.mem_of_getElem? h5))
        rw [← hq]
        constructor
        · intro j r hc hr
          unfold Close at hc
          exact m1 _ ((mem r.val).2 ⟨j, r, by omega, by omega, hr, rfl⟩)
        · obtain ⟨j, r, h3, h4, h5, h6⟩ := (mem _).1 m2
          exact ⟨j, r, by unfold Close; omega, h5, h6⟩
      · intro hn
        rw [if_pos (by omega)] at hq
        exact hq.symm

/-- A window of values over 1e30 gets 1e30. -/
theorem C133_moving_minimum_large_violated (h : Nat) (s : List Term) (hm : ∀ t ∈ s, 10 ^ 30 < t.val) (i : Nat) (h1 : h ≤ i)
    (h2 : i + h < s.length) (h0 : 0 < h) : ∃ g q, movingMinimum (2 * h + 1) s = some g ∧ g[i]? = some q ∧ q.val = 10 ^ 30 := by
  have e : ((2 * (h : Int) + 1) / 2).toNat = h := by omega
  unfold movingMinimum
  rw [if_neg (by omega), e]
  simp only
  rw [if_neg (by omega)]
  have hp := List.getElem?_eq_getElem (show i < s.length by omega)
  refine ⟨_, _, rfl, by rw [List.getElem?_mapIdx, hp, Option.map_some], ?_⟩
  rw [if_neg (by omega)]
  obtain ⟨m1, m2, m3⟩ := leastOf_spec (((s.map Term.val).drop (i - h)).take (2 * h + 1))
  rcases m3 with m3 | m3
  · exact m3
  · obtain ⟨j, r, _, _, h5, h6⟩ := (mem_slice' s _ _ _).1 m3
    have := hm r (List.mem_of_getElem? h5)
    simp only at h6 ⊢
    linarith

/-- Windows of an even or negative number of terms are refused. -/
theorem C133_moving_refused (w : Int) (a b : Rat) (s : List Term) (h : w ≤ 0 ∨ 2 ∣ w) :
    movingMinimum w s = none ∧ movingLowest w a b s = none := by
  unfold movingMinimum movingLowest
  rw [if_pos (by omega), if_pos (by omega)]
  exact ⟨rfl, rfl⟩

/-- The terms taken are those that are less than all others of their window; first and last come with given values, and times increase. -/
theorem C133_moving_lowest_partial (h : Nat) (h0 : 0 < h) (first last : Rat) (s : List Term) (hs : Ordered s) (hl : 2 ≤ s.length) :
    ∃ m a b, movingLowest (2 * h + 1) first last s = some (⟨a.at_, first⟩ :: m ++ [⟨b.at_, last⟩]) ∧
      s[0]? = some a ∧ s[s.length - 1]? = some b ∧ Ordered (⟨a.at_, first⟩ :: m ++ [⟨b.at_, last⟩]) ∧ ∀ p, p ∈ m ↔
        ∃ i, s[i]? = some p ∧ h ≤ i ∧ i + h < s.length ∧ ∀ j q, Close h i j → j ≠ i → s[j]? = some q → p.val < q.val := by
  have e : ((2 * (h : Int) + 1) / 2).toNat = h := by omega
  have ha : s.head? = some (s[0]'(by omega)) := by
    rw [List.head?_eq_getElem?, List.getElem?_eq_getElem]
  have hb : s.getLast? = some (s[s.length - 1]'(by omega)) := by
    rw [List.getLast?_eq_getElem?, List.getElem?_eq_getElem]
  have mem : ∀ p, p ∈ ((s.zipIdx.filter fun p => decide (h ≤ p.2) && decide (p.2 + h < s.length) && lowest (s.map Term.val) h p.2).map
      Prod.fst) ↔ ∃ i, s[i]? = some p ∧ h ≤ i ∧ i + h < s.length ∧ ∀ j q, Close h i j → j ≠ i → s[j]? = some q → p.val < q.val := by
    intro p
    rw [List.mem_map]
    constructor
    · rintro ⟨⟨t, i⟩, h1, rfl⟩
      rw [List.mem_filter] at h1
      obtain ⟨h1, h2⟩ := h1
      have hi := List.mem_zipIdx_iff_getElem?.1 h1
      simp only [Bool.and_eq_true, decide_eq_true_eq] at h2
      simp only at hi
      exact ⟨i, hi, h2.1.1, h2.1.2, (lowest_iff s h i t hi h2.1.1 h2.1.2).1 h2.2⟩
    · rintro ⟨i, hi, h1, h2, h3⟩
      refine ⟨(p, i), List.mem_filter.2 ⟨List.mem_zipIdx_iff_getElem?.2 hi, ?_⟩, rfl⟩
      simp only [Bool.and_eq_true, decide_eq_true_eq]
      exact ⟨⟨h1, h2⟩, (lowest_iff s h i p hi h1 h2).2 h3⟩
  have sub : ((s.zipIdx.filter fun p => decide (h ≤ p.2) && decide (p.2 + h < s.length) && lowest (s.map Term.val) h p.2).map
      Prod.fst).Sublist s := by
    have := (List.filter_sublist (l := s.zipIdx) (p := fun p => decide (h ≤ p.2) && decide (p.2 + h < s.length) &&
      lowest (s.map Term.val) h p.2)).map Prod.fst
    simpa using this
  refine ⟨_, s[0]'(by omega), s[s.length - 1]'(by omega), ?_, List.getElem?_eq_getElem _, List.getElem?_eq_getElem _, ?_, mem⟩
  · unfold movingLowest
    rw [if_neg (by omega), e, ha, hb]
  · have g0 : s[0]? = some (s[0]'(by omega)) := List.getElem?_eq_getElem _
    have gn : s[s.length - 1]? = some (s[s.length - 1]'(by omega)) := List.getElem?_eq_getElem _
    have hab := ordered_lt hs g0 gn (by omega)
    constructor
    · rw [List.cons_append, List.pairwise_cons, List.pairwise_append]
      refine ⟨?_, hs.1.sublist sub, by simp, ?_⟩
      · intro t ht
        rw [List.mem_append, List.mem_singleton] at ht
        rcases ht with ht | rfl
        · obtain ⟨i, h1, h2, _⟩ := (mem t).1 ht
          have := ordered_lt (i := 0) (j := i) hs g0 h1 (by omega)
          exact this
        · exact hab
      · intro t ht u hu
        rw [List.mem_singleton] at hu
        subst hu
        obtain ⟨i, h1, h2, h3, _⟩ := (mem t).1 ht
        have := ordered_lt (i := i) (j := s.length - 1) hs h1 gn (by omega)
        exact this
    · intro t ht
      simp only [List.cons_append, List.mem_cons, List.mem_append, List.not_mem_nil, or_false] at ht
      rcases ht with rfl | ht | rfl
      · exact hs.2 (s[0]'(by omega)) (List.getElem_mem ..)
      · exact hs.2 t (sub.subset ht)
      · exact hs.2 (s[s.length - 1]'(by omega)) (List.getElem_mem ..)

/-- With a window of one term every term is taken, and the first and last times come twice. -/
theorem C133_moving_lowest_one_violated (first last : Rat) (s : List Term) (a b : Term) (ha : s.head? = some a) (hb : s.getLast? = some b) :
    movingLowest 1 first last s = some (⟨a.at_, first⟩ :: s ++ [⟨b.at_, last⟩]) ∧ ¬ Ordered (⟨a.at_, first⟩ :: s ++ [⟨b.at_, last⟩]) := by
  constructor
  · unfold movingLowest
    rw [if_neg (by omega), ha, hb]
    have : s.zipIdx.filter (fun p => decide ((1 / 2 : Int).toNat ≤ p.2) && decide (p.2 + (1 / 2 : Int).toNat < s.length) &&
        lowest (s.map Term.val) (1 / 2 : Int).toNat p.2) = s.zipIdx := by
      rw [List.filter_eq_self]
      rintro ⟨t, i⟩ h
      have := lt_of_get (List.mem_zipIdx_iff_getElem?.1 h)
      simp [lowest, this]
    simp only
    rw [this]
    simp
  · rintro ⟨h, _⟩
    rcases s with _ | ⟨c, s⟩
    · simp at ha
    · simp only [List.head?_cons, Option.some.injEq] at ha
      subst ha
      have := (List.pairwise_cons.1 h).1 c (by simp)
      simp at this

/-- A series of days from day 0. -/
def exDaily (v : List Rat) : List Term := v.mapIdx fun i x => ⟨⟨i, 0⟩, x⟩

example : (movingMinimum 3 (exDaily [5, 3, 4, 6, 2, 7])).map (·.map Term.val) = some [5, 3, 3, 2, 2, 7] := by decide +kernel
example : movingLowest 3 9 8 (exDaily [5, 3, 4, 6, 2, 7]) = some [⟨⟨0, 0⟩, 9⟩, ⟨⟨1, 0⟩, 3⟩, ⟨⟨4, 0⟩, 2⟩, ⟨⟨5, 0⟩, 8⟩] := by decide +kernel

/-! ### Differences -/

/-- Terms of the new series are differences of following terms at the time of the second; adding them up gives the series back. -/
theorem C133_difference_partial (s : List Term) (h : 2 ≤ s.length) :
    ∃ g, difference s = some g ∧ SameTimes s.tail g ∧
      (∀ (i : Nat) (p q r : Term), s[i]? = some p → s[i + 1]? = some q → g[i]? = some r → r.val = q.val - p.val) ∧
      ∀ (a : Term) (i : Nat) (p : Term), s[0]? = some a → s[i]? = some p → a.val + ((g.take i).map Term.val).sum = p.val := by
  have get : ∀ (i : Nat) (p q : Term), s[i]? = some p → s[i + 1]? = some q →
      ((s.zip s.tail).map fun p => (⟨p.2.at_, p.2.val - p.1.val⟩ : Term))[i]? = some ⟨q.at_, q.val - p.val⟩ := by
    intro i p q hp hq
    rw [List.getElem?_map, List.zip, List.getElem?_zipWith, hp, List.getElem?_tail, hq]
    rfl
  refine ⟨_, by rw [difference, if_neg (by omega)], ?_, ?_, ?_⟩
  · unfold SameTimes
    rw [List.map_map]
    have : (Term.at_ ∘ fun p : Term × Term => (⟨p.2.at_, p.2.val - p.1.val⟩ : Term)) = Term.at_ ∘ Prod.snd := rfl
    rw [this, ← List.map_map, List.map_snd_zip]
    simp
  · intro i p q r hp hq hr
    rw [get i p q hp hq, Option.some.injEq] at hr
    rw [← hr]
  · intro a i
    induction i with
    | zero =>
      intro p ha hp
      rw [ha, Option.some.injEq] at hp
      rw [hp]; simp
    | succ i ih =>
      intro p ha hp
      have hi := lt_of_get hp
      have hq := List.getElem?_eq_getElem (show i < s.length by omega)
      rw [List.take_add_one, get i _ p hq hp, List.map_append, List.sum_append, ← add_assoc, ih _ ha hq]
      simp

example : (difference (exDaily [5, 3, 4])).map (·.map Term.val) = some [-2, 1] := by decide +kernel

/-! ### Base level -/

/-- The value of the base series at the time is taken from all terms, or they from it; without a term at the time the block is refused. -/
theorem C133_base_level (negate : Bool) (b : List Term) (hb : Ordered b) (c : Clock) (h0 : 0 ≤ c.secs) (h1 : c.secs ≤ 86400)
    (s : List Term) :
    ((∀ r ∈ b, r.at_.time ≠ c.time) → baseLevel negate b c s = none) ∧
    ∀ r ∈ b, r.at_.time = c.time → ∃ g, baseLevel negate b c s = some g ∧ SameTimes s g ∧
      ∀ (i : Nat) (p q : Term), s[i]? = some p → g[i]? = some q → q.val = if negate then r.val - p.val else p.val - r.val := by
  have hn : ∃ c' : Clock, (if c.secs ≥ 86400 then (⟨c.days + 1, c.secs - 86400⟩ : Clock) else c) = c' ∧ c'.Proper ∧ c'.time = c.time := by
    split
    · refine ⟨_, rfl, ⟨?_, ?_⟩, ?_⟩ <;> simp only [Clock.time] <;> omega
    · exact ⟨_, rfl, ⟨h0, by omega⟩, rfl⟩
  obtain ⟨c', e, hp, ht⟩ := hn
  unfold baseLevel
  simp only [e]
  have iff : ∀ r ∈ b, ((decide (r.at_.days = c'.days) && decide (r.at_.secs = c'.secs)) = true ↔ r.at_.time = c.time) := by
    intro r hr
    rw [Bool.and_eq_true, decide_eq_true_eq, decide_eq_true_eq, ← ht]
    constructor
    · rintro ⟨e1, e2⟩; unfold Clock.time; rw [e1, e2]
    · intro e; rw [clock_eq (hb.2 r hr) hp e]; exact ⟨rfl, rfl⟩
  constructor
  · intro h
    have : b.find? (fun t => decide (t.at_.days = c'.days) && decide (t.at_.secs = c'.secs)) = none := by
      rw [List.find?_eq_none]
      intro r hr hc
      exact h r hr ((iff r hr).1 hc)
    rw [this]; rfl
  · intro r hr hrt
    cases hf : b.find? (fun t => decide (t.at_.days = c'.days) && decide (t.at_.secs = c'.secs)) with
    | none =>
      rw [List.find?_eq_none] at hf
      exact absurd ((iff r hr).2 hrt) (hf r hr)
    | some r' =>
      have hm := List.mem_of_find?_eq_some hf
      have hf' := List.find?_some hf
      have ht' := (iff r' hm).1 hf'
      obtain ⟨i, hi⟩ := List.mem_iff_getElem?.1 hr
      obtain ⟨j, hj⟩ := List.mem_iff_getElem?.1 hm
      obtain rfl := ordered_index hb hi hj (by rw [hrt, ht'])
      rw [hi, Option.some.injEq] at hj
      subst hj
      refine ⟨_, rfl, ?_, ?_⟩
      · unfold SameTimes
        rw [List.map_map]; rfl
      · intro k p q hk hq
        rw [List.getElem?_map, hk, Option.map_some, Option.some.injEq] at hq
        rw [← hq]

example : (baseLevel false (exDaily [5, 3, 4]) ⟨0, 86400⟩ (exDaily [5, 3, 4])).map (·.map Term.val) = some [2, 0, 1] := by decide +kernel

/-! ### Cleaning -/

theorem keeps_iff (lo up : Option Rat) (hb : boundsOk lo up = true) (x : Rat) : keeps lo up x = true ↔ ¬ Inside lo up x := by
  unfold Inside
  rcases lo with _ | l <;> rcases up with _ | u <;> simp [keeps, boundsOk] at hb ⊢
  constructor
  · rintro (h | h) h' <;> [exact absurd h' (not_le.2 h); exact h]
  · intro h
    rcases lt_or_ge x l with h' | h'
    · exact Or.inl h'
    · exact Or.inr (h h')

/-- Boundaries are refused if none is given, or the lower one is not below the upper one. -/
theorem C133_clean_refused (lo up : Option Rat) (r : Rat) (s : List Term) :
    (cleanInPlace lo up r s = none ↔ (lo = none ∧ up = none) ∨ ∃ l u, lo = some l ∧ up = some u ∧ u ≤ l) ∧
    (clean lo up (some r) s = none ↔ cleanInPlace lo up r s = none) := by
  unfold clean cleanInPlace
  rcases lo with _ | l <;> rcases up with _ | u <;> simp [boundsOk]

/-- Values within the boundaries are replaced, the others stay, in a new series or in place. -/
theorem C133_clean_substitute (lo up : Option Rat) (r : Rat) (s g : List Term) (h : clean lo up (some r) s = some g) :
    cleanInPlace lo up r s = some g ∧ SameTimes s g ∧ ∀ (i : Nat) (p q : Term), s[i]? = some p → g[i]? = some q →
      (Inside lo up p.val → q.val = r) ∧ (¬ Inside lo up p.val → q = p) := by
  unfold clean at h
  split at h
  · rename_i hb
    simp only [Option.some.injEq] at h
    subst h
    refine ⟨?_, ?_, ?_⟩
    · unfold cleanInPlace
      rw [if_pos hb]
      congr 1
      apply List.map_congr_left
      intro t _
      rcases lo with _ | l <;> rcases up with _ | u
      · simp [boundsOk] at hb
      · simp only [keeps, gt_iff_lt, decide_eq_true_eq]
        by_cases h : u < t.val
        · rw [if_pos h, if_neg (not_le.2 h)]
        · rw [if_neg h, if_pos (not_lt.1 h)]
      · simp only [keeps, ge_iff_le, decide_eq_true_eq]
        by_cases h : t.val < l
        · rw [if_pos h, if_neg (not_le.2 h)]
        · rw [if_neg h, if_pos (not_lt.1 h)]
      · simp only [keeps, ge_iff_le, gt_iff_lt, Bool.or_eq_true, decide_eq_true_eq]
        by_cases h : t.val < l ∨ u < t.val
        · rw [if_pos h, if_neg]
          rintro ⟨h1, h2⟩
          rcases h with h | h <;> linarith
        · rw [if_neg h, if_pos]
          rw [not_or, not_lt, not_lt] at h
          exact h
    · unfold SameTimes
      rw [List.map_map]
      apply List.map_congr_left
      intro t _
      simp only [Function.comp]
      split <;> rfl
    · intro i p q hp hq
      rw [List.getElem?_map, hp, Option.map_some, Option.some.injEq] at hq
      have := keeps_iff lo up hb p.val
      constructor
      · intro hi
        rw [if_neg (by rw [this]; simpa using hi)] at hq
        rw [← hq]
      · intro hi
        rw [if_pos (this.2 hi)] at hq
        exact hq.symm
  · cases h

open Classical in
/-- Values within the boundaries are left out; the block is refused if none is left. -/
theorem C133_clean_delete (lo up : Option Rat) (s : List Term) (hb : ∃ r g, clean lo up (some r) s = some g) :
    let rest := s.filter fun t => decide (¬ Inside lo up t.val)
    clean lo up none s = if rest = [] then none else some rest := by
  obtain ⟨r, g, hb⟩ := hb
  unfold clean at hb
  split at hb
  · rename_i hb'
    replace hb := hb'
    have e : (s.filter fun t => keeps lo up t.val) = s.filter fun t => decide (¬ Inside lo up t.val) := by
      apply List.filter_congr
      intro t _
      have := keeps_iff lo up hb t.val
      by_cases h : Inside lo up t.val
      · simp only [h, not_true, iff_false, Bool.not_eq_true] at this
        simp [this, h]
      · simp only [h, not_false_iff, iff_true] at this
        simp [this, h]
    intro rest
    unfold clean
    rw [if_pos hb]
    simp only [e, List.length_eq_zero_iff]
    rfl
  · cases hb

example : (clean (some 3) (some 4) (some 0) (exDaily [5, 3, 4, 2])).map (·.map Term.val) = some [5, 0, 0, 2] := by decide +kernel
example : clean (some 3) (some 4) none (exDaily [5, 3, 4, 2]) = some [⟨⟨0, 0⟩, 5⟩, ⟨⟨3, 0⟩, 2⟩] := by decide +kernel

/-! ### Displacement -/

/-- The length of a step of the series. -/
theorem displace_ok (lag : Int) (h9 : lag ≠ -9999) (fill : Rat) (s : List Term) (hs : Ordered s) (hl : |lag| < s.length) :
    (∃ step, 0 < step ∧ Spaced step s) ∨ displace lag fill s = none := by
  rcases s with _ | ⟨p, _ | ⟨q, r⟩⟩
  · left; exact ⟨1, by omega, fun i a b h => by simp at h⟩
  · left; exact ⟨1, by omega, fun i a b _ h => by simp at h⟩
  · have hpq : p.at_.time < q.at_.time := ordered_lt hs (i := 0) (j := 1) rfl rfl (by omega)
    by_cases h : Spaced (q.at_.time - p.at_.time) (p :: q :: r)
    · exact Or.inl ⟨_, by omega, h⟩
    · right
      unfold displace
      rw [if_neg h9, if_neg (by omega)]
      have e : (q.at_.days - p.at_.days) * 86400 + q.at_.secs - p.at_.secs = q.at_.time - p.at_.time := by
        unfold Clock.time; omega
      have ep := equalSteps_iff (q.at_.time - p.at_.time) (by omega) (p :: q :: r) hs.2
      have eq := equalSteps_iff (q.at_.time - p.at_.time) (by omega) (q :: r) fun t ht => hs.2 t (List.mem_cons_of_mem _ ht)
      have hno : ¬ Spaced (q.at_.time - p.at_.time) (q :: r) := by
        intro hq
        apply h
        intro i a b ha hb
        rcases i with _ | i
        · simp only [List.getElem?_cons_zero, Option.some.injEq, Nat.zero_add, List.getElem?_cons_succ] at ha hb
          rw [← ha, ← hb]
        · exact hq i a b (by simpa using ha) (by simpa using hb)
      have hr : r.isEmpty = false := by
        rcases r with _ | ⟨x, r⟩
        · exfalso; apply hno; intro i a b _ hb; simp at hb
        · rfl
      simp only [stepsOk, e, hr, Bool.false_or]
      rw [if_neg (by rw [eq]; exact hno)]

/-- A series that is not equally spaced, or has too few terms, is refused, and no other. -/
theorem C133_displace_refused_partial (lag : Int) (h9 : lag ≠ -9999) (fill : Rat) (s : List Term) (hs : Ordered s) :
    displace lag fill s = none ↔ (s.length : Int) ≤ |lag| ∨ ¬ ∃ step, Spaced step s := by
  constructor
  · intro h
    by_contra hc
    rw [not_or, not_le, not_not] at hc
    obtain ⟨hl, step, hst⟩ := hc
    unfold displace at h
    rw [if_neg h9, if_neg (by omega)] at h
    rcases s with _ | ⟨p, _ | ⟨q, r⟩⟩
    · simp [stepsOk] at h
    · simp [stepsOk] at h
    · have e : (q.at_.days - p.at_.days) * 86400 + q.at_.secs - p.at_.secs = q.at_.time - p.at_.time := by
        unfold Clock.time; omega
      have hpq : p.at_.time < q.at_.time := ordered_lt hs (i := 0) (j := 1) rfl rfl (by omega)
      have eq := equalSteps_iff (q.at_.time - p.at_.time) (by omega) (q :: r) fun t ht => hs.2 t (List.mem_cons_of_mem _ ht)
      have est : step = q.at_.time - p.at_.time := (hst 0 p q rfl rfl).symm
      have : equalSteps (q.at_.time - p.at_.time) (q :: r) = true := by
        rw [eq]
        intro i a b ha hb
        rw [← est]
        exact hst (i + 1) a b (by simpa using ha) (by simpa using hb)
      simp only [stepsOk, e, this, Bool.or_true, if_true] at h
      cases h
  · rintro (h | h)
    · unfold displace
      rw [if_neg h9, if_pos (by omega)]
    · by_cases hl : |lag| < s.length
      · rcases displace_ok lag h9 fill s hs hl with ⟨step, _, h'⟩ | h'
        · exact absurd ⟨step, h'⟩ h
        · exact h'
      · unfold displace
        rw [if_neg h9, if_pos (by omega)]

/-- The value at a time is that of the series so many steps earlier, or the filling if the series has no term then. -/
theorem C133_displace (lag : Int) (fill : Rat) (s g : List Term) (hs : Ordered s) (step : Int) (h0 : 0 < step) (hst : Spaced step s)
    (h : displace lag fill s = some g) :
    SameTimes s g ∧ ∀ q ∈ g,
      (∀ p ∈ s, p.at_.time = q.at_.time - lag * step → q.val = p.val) ∧
      ((∀ p ∈ s, p.at_.time ≠ q.at_.time - lag * step) → q.val = fill) := by
  unfold displace at h
  split at h
  · cases h
  split at h
  · cases h
  split at h
  rotate_left
  · cases h
  simp only [Option.some.injEq] at h
  subst h
  constructor
  · unfold SameTimes
    apply List.ext_getElem?
    intro i
    rw [List.getElem?_map, List.getElem?_mapIdx, List.getElem?_map]
    cases s[i]? with
    | none => rfl
    | some t => simp only [Option.map_some]; split <;> split <;> rfl
  · intro q hq
    obtain ⟨i, hi⟩ := List.mem_iff_getElem?.1 hq
    rw [List.getElem?_mapIdx] at hi
    cases hs' : s[i]? with
    | none => rw [hs'] at hi; simp at hi
    | some t =>
      rw [hs', Option.map_some, Option.some.injEq] at hi
      have hil := lt_of_get hs'
      have hqt : q.at_ = t.at_ := by rw [← hi]; split <;> split <;> rfl
      -- the term `lag` places before
      have key : ∀ j : Nat, ∀ p, s[j]? = some p → (p.at_.time = t.at_.time - lag * step ↔ (j : Int) = i - lag) := by
        intro j p hj
        have : p.at_.time = t.at_.time + ((j : Int) - i) * step := by
          rcases Nat.le_total i j with hij | hij
          · obtain ⟨k, rfl⟩ := Nat.exists_eq_add_of_le hij
            have := spaced_time hst i k t p hs' hj
            rw [this]; push_cast; ring
          · obtain ⟨k, rfl⟩ := Nat.exists_eq_add_of_le hij
            have := spaced_time hst j k p t hj hs'
            rw [this]; push_cast; ring
        rw [this]
        constructor
        · intro e
          have : ((j : Int) - i + lag) * step = 0 := by linarith
          rcases Int.mul_eq_zero.1 this with h | h <;> omega
        · intro e
          rw [e]; ring
      rw [hqt]
      have val : ∀ j p, s[j]? = some p → (s.map Term.val).getD j 0 = p.val := by
        intro j p e
        rw [List.getD_eq_getElem?_getD, List.getElem?_map, e]; rfl
      constructor
      · intro p hp he
        obtain ⟨j, hj⟩ := List.mem_iff_getElem?.1 hp
        have hji := (key j p hj).1 he
        have hjl := lt_of_get hj
        rw [← hi]
        split
        · rw [if_neg (by omega)]
          simp only
          rw [show i - lag.toNat = j by omega, val j p hj]
        · rw [if_pos (by omega)]
          simp only
          rw [show i + (-lag).toNat = j by omega, val j p hj]
      · intro hno
        rw [← hi]
        split
        · split
          · rfl
          · exfalso
            have hj := List.getElem?_eq_getElem (show i - lag.toNat < s.length by omega)
            exact hno _ (List.mem_of_getElem? hj) ((key _ _ hj).2 (by omega))
        · split
          · exfalso
            have hj := List.getElem?_eq_getElem (show i + (-lag).toNat < s.length by omega)
            exact hno _ (List.mem_of_getElem? hj) ((key _ _ hj).2 (by omega))
          · rfl

/-- A lag of -9999 is refused for every series. -/
theorem C133_displace_sentinel_violated (fill : Rat) (s : List Term) : displace (-9999) fill s = none := by
  unfold displace
  rw [if_pos rfl]

example : (displace 2 0 (exDaily [5, 3, 4, 6])).map (·.map Term.val) = some [0, 0, 5, 3] := by decide +kernel
example : (displace (-1) 0 (exDaily [5, 3, 4, 6])).map (·.map Term.val) = some [3, 4, 6, 0] := by decide +kernel
example : displace 1 0 [⟨⟨0, 0⟩, 1⟩, ⟨⟨1, 0⟩, 2⟩, ⟨⟨3, 0⟩, 2⟩] = none := by decide +kernel

end Verif.Tsp
