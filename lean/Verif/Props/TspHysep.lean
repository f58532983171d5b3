import Verif.Lemmas.TspHysep2
import Mathlib.Tactic.NormNum
import Mathlib.Algebra.Order.Ring.Abs
import Mathlib.Tactic.Linarith
/-
C131: separation of baseflow of TSPROC.
-/
namespace Verif.Hysep

/-! ### Intervals -/

/-- The interval is the odd number from 3 to 11 that is nearest to the given one. -/
theorem C131_interval (r : Rat) :
    interval r ∈ [3, 5, 7, 9, 11] ∧ ∀ c ∈ [3, 5, 7, 9, 11], |r - (interval r : Nat)| ≤ |r - (c : Nat)| := by
  unfold interval
  refine ⟨by split_ifs <;> simp, fun c hc => ?_⟩
  simp only [List.mem_cons, List.not_mem_nil, or_false] at hc
  rcases hc with rfl | rfl | rfl | rfl | rfl <;> split_ifs <;> push_cast <;>
    refine sq_le_sq.1 ?_ <;> nlinarith

/-- These intervals are looked at with half of the other days on each side. -/
theorem C131_half_partial (c : Nat) (h : c ∈ [3, 5, 7, 9, 11]) : ∃ k, half c = some k ∧ c = 2 * k + 1 := by
  simp only [List.mem_cons, List.not_mem_nil, or_false] at h
  rcases h with rfl | rfl | rfl | rfl | rfl
  · exact ⟨1, rfl, rfl⟩
  · exact ⟨2, rfl, rfl⟩
  · exact ⟨3, rfl, rfl⟩
  · exact ⟨4, rfl, rfl⟩
  · exact ⟨5, rfl, rfl⟩

/-- Intervals given by the user: 1 and even ones below 11 are not looked at, all from 11 on are the same. -/
theorem C131_half_violated (c : Nat) : (c < 11 → c = 1 ∨ 2 ∣ c → half c = none) ∧ (11 ≤ c → half c = some 5) := by
  unfold half
  constructor
  · intro h1 h2
    rw [if_neg (by omega), if_neg (by omega), if_neg (by omega), if_neg (by omega), if_neg (by omega)]
  · intro h
    rw [if_neg (by omega), if_neg (by omega), if_neg (by omega), if_neg (by omega), if_pos h]

/-! ### Sliding intervals -/

/-- The baseflow of a day is the least flow of the days around it that are in the record, from the first flow on; missing flows stay. -/
theorem C131_sliding_partial (d : List Rat) (h s : Nat) (hs : FirstGood d s) (hl : s + 2 * h ≤ d.length) (hm : ∀ x ∈ d, x ≤ 100000) :
    ∃ g, slide d (2 * h + 1) = some g ∧ g.length = d.length ∧ ∀ i x, d[i]? = some x →
      (x < 0 → g[i]? = some x) ∧
      (0 ≤ x → ∃ v, g[i]? = some v ∧ LeastOf d (fun j => s ≤ j ∧ Near h i j) v) := by
  refine ⟨_, slide_eq d h s hs hl, by simp, fun i x hi => ⟨fun hx => ?_, fun hx => ?_⟩⟩
  · rw [slide_get d h s i x hi, slideVal, if_pos hx]
  · refine ⟨_, slide_get d h s i x hi, ?_⟩
    rw [slideVal, if_neg (not_lt.2 hx)]
    have hil : i < d.length := by
      by_contra hc
      rw [List.getElem?_eq_none (by omega)] at hi
      cases hi
    have his : s ≤ i := by
      by_contra hc
      have := hs.1 i x (by omega) hi
      linarith
    obtain ⟨p1, j, p2, p3⟩ := pmin_least d (max s (i - h)) (min d.length (i + h + 1)) (by omega) (by omega)
      fun j y _ _ e => hm y (List.mem_of_getElem? e)
    refine ⟨fun j y hj hy => ?_, j, ⟨by omega, by unfold Near; omega⟩, p3⟩
    have hjl : j < d.length := by
      by_contra hc
      rw [List.getElem?_eq_none (by omega)] at hy
      cases hy
    unfold Near at hj
    exact p1 j y (by omega) hy

/-- The baseflow is neither negative nor above the flow, if no flow is missing. -/
theorem C131_sliding_bounds_partial (d : List Rat) (hc : Complete d) (hd : d ≠ []) (h : Nat) (hl : 2 * h ≤ d.length)
    (hm : ∀ x ∈ d, x ≤ 100000) :
    ∃ g, slide d (2 * h + 1) = some g ∧ g.length = d.length ∧ ∀ (i : Nat) (x : Rat), d[i]? = some x → ∃ v, g[i]? = some v ∧ 0 ≤ v ∧ v ≤ x := by
  have h0 : 0 < d.length := List.length_pos_iff.2 hd
  have hs : FirstGood d 0 := ⟨fun j y hj => by omega, d[0], List.getElem?_eq_getElem h0, hc _ (List.getElem_mem h0)⟩
  obtain ⟨g, h1, h2, h3⟩ := C131_sliding_partial d h 0 hs (by omega) hm
  refine ⟨g, h1, h2, fun i x hi => ?_⟩
  obtain ⟨v, h4, h5, j, _, h7⟩ := (h3 i x hi).2 (hc x (List.mem_of_getElem? hi))
  exact ⟨v, h4, hc v (List.mem_of_getElem? h7), h5 i x ⟨by omega, by unfold Near; omega⟩ hi⟩

example : slide [-1, 5, 4, 7, 9, 8, 3, 6] 3 = some [-1, 4, 4, 4, 7, 3, 3, 3] := by decide +kernel
example : FirstGood [-1, 5, 4, 7, 9, 8, 3, 6] 1 := by
  refine ⟨fun j y hj hy => ?_, 5, rfl, by norm_num⟩
  obtain rfl : j = 0 := by omega
  simp only [List.getElem?_cons_zero, Option.some.injEq] at hy
  rw [← hy]; norm_num

/-- A missing flow within the days around makes the baseflow negative. -/
theorem C131_sliding_missing_violated (d : List Rat) (h s : Nat) (hs : FirstGood d s) (hl : s + 2 * h ≤ d.length) (i j : Nat) (x y : Rat)
    (hi : d[i]? = some x) (hx : 0 ≤ x) (hj : d[j]? = some y) (hy : y < 0) (hsj : s ≤ j) (hn : Near h i j) :
    ∃ g v, slide d (2 * h + 1) = some g ∧ g[i]? = some v ∧ v < 0 := by
  refine ⟨_, _, slide_eq d h s hs hl, slide_get d h s i x hi, ?_⟩
  rw [slideVal, if_neg (not_lt.2 hx)]
  have hjl : j < d.length := by
    by_contra hc
    rw [List.getElem?_eq_none (by omega)] at hj
    cases hj
  unfold Near at hn
  exact lt_of_le_of_lt ((pmin_spec _).2.1 y ((mem_slice d _ _ y).2 ⟨j, by omega, by omega, hj⟩)) hy

example : slide [5, 4, -999, 7, 9, 8] 3 = some [4, -999, -999, -999, 7, 8] := by decide +kernel

/-- A record of fewer days than the interval is read past its end. -/
theorem C131_sliding_short_violated (d : List Rat) (hc : Complete d) (hd : d ≠ []) (h : Nat) (hl : d.length ≤ h) :
    slide d (2 * h + 1) = none := by
  rcases d with _ | ⟨x, d⟩
  · exact absurd rfl hd
  · have hx : 0 ≤ x := hc x (List.mem_cons_self ..)
    have e : slideDay (x :: d) (2 * h + 1) 1 x = none := by
      have hlead : leading (x :: d) = 0 := by simp [leading, not_lt.2 hx]
      unfold slideDay
      rw [hlead]
      simp only [show (2 * h + 1 - 1) / 2 = h by omega]
      simp only [List.length_cons] at hl
      rw [if_neg (not_lt.2 hx), if_pos (by omega), window, if_neg]
      · rfl
      · simp only [List.length_cons]; omega
    unfold slide
    rw [List.zipIdx_cons, List.mapM_cons, e]
    rfl

example : slide [5, 4] 5 = none := by decide +kernel

/-- Flows over 100000 have a baseflow of 100000. -/
theorem C131_sliding_large_violated (d : List Rat) (h : Nat) (hl : 2 * h ≤ d.length) (hm : ∀ x ∈ d, 100000 < x) (i : Nat)
    (hi : i < d.length) : ∃ g, slide d (2 * h + 1) = some g ∧ g[i]? = some 100000 := by
  have h0 : 0 < d.length := by omega
  have hs : FirstGood d 0 := ⟨fun j y hj => by omega, d[0], List.getElem?_eq_getElem h0, by
    have := hm _ (List.getElem_mem h0); linarith⟩
  refine ⟨_, slide_eq d h 0 hs (by omega), ?_⟩
  rw [slide_get d h 0 i d[i] (List.getElem?_eq_getElem hi), slideVal, if_neg (by
    have := hm _ (List.getElem_mem hi); linarith)]
  rcases (pmin_spec ((d.drop (max 0 (i - h))).take (min d.length (i + h + 1) - max 0 (i - h)))).2.2 with e | e
  · rw [e]
  · have := hm _ (List.mem_of_mem_drop (List.mem_of_mem_take e))
    have := (pmin_spec ((d.drop (max 0 (i - h))).take (min d.length (i + h + 1) - max 0 (i - h)))).1
    linarith

example : slide [200000, 300000, 150000] 3 = some [100000, 100000, 100000] := by decide +kernel

/-! ### Fixed intervals -/

/-- The days are cut into intervals, and the baseflow of a day is the least flow of its interval. -/
theorem C131_fixed_partial (d : List Rat) (hc : Complete d) (c : Nat) (h0 : 0 < c) (h1 : 11 ≤ d.length) (hk : c ≤ d.length)
    (hm : ∀ x ∈ d, x ≤ 100000) :
    ∃ g, fixed d c = some g ∧ g.length = d.length ∧ ∀ i, i < d.length →
      ∃ v, g[i]? = some v ∧ LeastOf d (fun j => j / c = i / c) v := by
  obtain ⟨g, h2, h3, h4⟩ := fixed_complete d hc c h0 h1 hk
  exact ⟨g, h2, h3, fun i hi => h4 i hi fun j y _ e => hm y (List.mem_of_getElem? e)⟩

/-- The baseflow is neither negative nor above the flow. -/
theorem C131_fixed_bounds_partial (d : List Rat) (hc : Complete d) (c : Nat) (h0 : 0 < c) (h1 : 11 ≤ d.length) (hk : c ≤ d.length)
    (hm : ∀ x ∈ d, x ≤ 100000) :
    ∃ g, fixed d c = some g ∧ g.length = d.length ∧ ∀ (i : Nat) (x : Rat), d[i]? = some x → ∃ v, g[i]? = some v ∧ 0 ≤ v ∧ v ≤ x := by
  obtain ⟨g, h2, h3, h4⟩ := C131_fixed_partial d hc c h0 h1 hk hm
  refine ⟨g, h2, h3, fun i x hi => ?_⟩
  have hil : i < d.length := by
    by_contra hc
    rw [List.getElem?_eq_none (by omega)] at hi
    cases hi
  obtain ⟨v, h5, h6, j, _, h8⟩ := h4 i hil
  exact ⟨v, h5, hc v (List.mem_of_getElem? h8), h6 i x rfl hi⟩

example : fixed [5, 4, 7, 9, 8, 3, 6, 2, 8, 4, 4] 3 = some [4, 4, 4, 3, 3, 3, 2, 2, 2, 4, 4] := by decide +kernel

/-- Fewer than eleven days, a missing first flow, or fewer days than the interval: reads outside the arrays, a write to a constant, an
undefined variable. -/
theorem C131_fixed_short_violated (d : List Rat) (c : Nat) (h : d.length < 11 ∨ d.length < c ∨ ∃ x ∈ d.head?, x < 0) :
    fixed d c = none := by
  unfold fixed
  split
  · rfl
  · rename_i hh
    split
    · rfl
    · rename_i hl
      rcases h with h | h | ⟨x, hx, h⟩
      · omega
      · simp only
        rw [if_pos]
        rw [Nat.div_eq_zero_iff]
        have := fxdays_le d
        omega
      · rw [Option.mem_def.1 hx] at hh
        simp [h] at hh

/-- A missing flow among the last eleven takes a day away at the end: as many last days as there are missing flows have no baseflow,
whatever their flow is. -/
theorem C131_fixed_end_violated (d : List Rat) (c : Nat) (h0 : ∃ x ∈ d.head?, 0 ≤ x) (h1 : 11 ≤ d.length)
    (hk : c ≤ fxdays d) (hc : 0 < c) (i : Nat) (x : Rat) (hi : d[i]? = some x) (hx : 0 ≤ x) (hf : fxdays d ≤ i) :
    ∃ g, fixed d c = some g ∧ g[i]? = some 0 := by
  have hh : d.head?.elim true (fun x => decide (x < 0)) = false := by
    obtain ⟨y, h2, h3⟩ := h0
    rw [Option.mem_def.1 h2]
    simpa using h3
  have hk' : fxdays d / c ≠ 0 := by
    have := Nat.div_pos hk hc
    omega
  have hkc : fxdays d / c * c ≤ fxdays d := Nat.div_mul_le_self _ _
  refine ⟨_, fixed_eq d c hh h1 hk', ?_⟩
  have e : (blocks d c (fxdays d / c))[i]? = some 0 := by
    rw [blocks_out d c _ i (by omega), init, List.getElem?_map, hi]
    simp [hx]
  split
  · rw [fill_out d _ _ _ _ (Or.inr hf), e]
  · exact e

example : fixed [5, 4, 7, 9, 8, 3, 6, -1, 8, 4, 4, 9] 3 = some [4, 4, 4, 3, 3, 3, -1, -1, -1, 4, 4, 0] := by decide +kernel

/-! ### Local minima -/

/-- Whatever the record, a baseflow that is assigned is not above the flow. -/
theorem C131_locmin_flow (li : Rat → Rat → Rat → Rat) (d : List Rat) (c i : Nat) (x v : Rat) (hx : d[i]? = some x)
    (hv : (locmin li d c)[i]? = some (some v)) : v ≤ x := by
  unfold locmin at hv
  rw [List.getElem?_zipWith, hx] at hv
  cases hg : (periods li d c d.length ⟨0, 0, 0, d.map fun _ => none, 0⟩)[i]? with
  | none => rw [hg] at hv; simp at hv
  | some o =>
    rw [hg] at hv
    cases o with
    | none => simp at hv
    | some w =>
      simp only [Option.map_some, Option.some.injEq] at hv
      split at hv <;> linarith

/-- Between two following local minima the baseflow is on the line of logarithms between their flows, or the flow where this is less. -/
theorem C131_locmin_between_partial (li : Rat → Rat → Rat → Rat) (d : List Rat) (hc : Complete d) (c h : Nat) (hh : half c = some h)
    (hl : c ≤ d.length) (p q : Nat) (x y : Rat) (hp : LocalMin d h p) (hq : LocalMin d h q) (hpq : p < q)
    (hb : ∀ r, p < r → r < q → ¬ LocalMin d h r) (hx : d[p]? = some x) (hy : d[q]? = some y) (hx0 : 0 < x) (hy0 : 0 < y)
    (i : Nat) (z : Rat) (h1 : p ≤ i) (h2 : i < q) (hz : d[i]? = some z) :
    (locmin li d c)[i]? = some (some (min z (li x y (((i : Rat) - p) / ((q : Rat) - p))))) := by
  have hd : d ≠ [] := by rintro rfl; simp at hx
  obtain ⟨s, e1, e2, e3, e4, e5, _⟩ := periods_complete li d hc hd c
  have mem : ∀ i, i ∈ points d c s.start s.stop ↔ LocalMin d h i := by rw [e3]; exact mem_points d c h hh s.stop e4
  have sorted := points_sorted d c s.start s.stop
  obtain ⟨l, r, e⟩ := adjacent _ p q sorted ((mem p).2 hp) ((mem q).2 hq) hpq (by
    intro r hr
    by_contra hn
    exact hb r (by omega) (by omega) ((mem r).1 hr))
  obtain ⟨a, b, ha, hb'⟩ := ends_of_mem ((mem p).2 hp)
  have hi : i < d.length := by have := hq.2.1; omega
  have hg : (periods li d c d.length ⟨0, 0, 0, d.map fun _ => none, 0⟩)[i]? = some (some (joint li d p q i)) := by
    rw [e1, period_points li d c s (by omega) a b ha hb', e]
    exact pairs_in li d p q r l _ i (by rw [← e]; exact sorted) h1 h2 (by rw [put_length, put_length]; omega)
  rw [locmin_get li d c i z _ hz hg, Option.map_some, joint]
  have ep : d.getD p 0 = x := by rw [List.getD_eq_getElem?_getD, hx]; rfl
  have eq : d.getD q 0 = y := by rw [List.getD_eq_getElem?_getD, hy]; rfl
  rw [ep, eq, positive, positive, if_neg (not_le.2 hx0), if_neg (not_le.2 hy0)]
  congr 2
  split
  · rw [min_eq_left]; linarith
  · rw [min_eq_right]; linarith

/-- At a local minimum all flow is baseflow. -/
theorem C131_locmin_minimum_partial (li : Rat → Rat → Rat → Rat) (h0 : ∀ a b, li a b 0 = a) (h1 : ∀ a b, li a b 1 = b) (d : List Rat)
    (hc : Complete d) (c h : Nat) (hh : half c = some h) (hl : c ≤ d.length) (p : Nat) (x : Rat) (hp : LocalMin d h p)
    (hx : d[p]? = some x) : (locmin li d c)[p]? = some (some x) := by
  have hd : d ≠ [] := by rintro rfl; simp at hx
  obtain ⟨s, e1, e2, e3, e4, e5, _⟩ := periods_complete li d hc hd c
  have mem : ∀ i, i ∈ points d c s.start s.stop ↔ LocalMin d h i := by rw [e3]; exact mem_points d c h hh s.stop e4
  have sorted := points_sorted d c s.start s.stop
  have hpm := (mem p).2 hp
  obtain ⟨a, b, ha, hb⟩ := ends_of_mem hpm
  have hpl : p < d.length := by have := hp.2.1; omega
  have ep : d.getD p 0 = x := by rw [List.getD_eq_getElem?_getD, hx]; rfl
  have hx0 : 0 ≤ x := hc x (List.mem_of_getElem? hx)
  have pos : (if x < positive x then x else positive x) = x := by
    unfold positive
    by_cases h : x ≤ 0
    · rw [if_pos h, if_pos (lt_of_le_of_lt h (by norm_num))]
    · rw [if_neg h, if_neg (lt_irrefl x)]
  have key : (periods li d c d.length ⟨0, 0, 0, d.map fun _ => none, 0⟩)[p]? = some (some (positive x)) ∨
      (periods li d c d.length ⟨0, 0, 0, d.map fun _ => none, 0⟩)[p]? = some (some x) := by
    rw [e1, period_points li d c s (by omega) a b ha hb]
    obtain ⟨l, r, e⟩ := List.append_of_mem hpm
    rcases r with _ | ⟨q, r⟩
    · rcases List.eq_nil_or_concat l with rfl | ⟨l', o, rfl⟩
      · right
        rw [e, List.nil_append] at ha hb ⊢
        simp only [List.head?_cons, Option.some.injEq, List.getLast?_singleton] at ha hb
        subst ha; subst hb
        rw [pairs, put_in _ _ _ _ _ (by rw [put_length]; omega) le_rfl (by omega), ep]
        simp
      · left
        rw [List.concat_eq_append] at e
        have hop : o < p := by
          rw [e] at sorted
          have := (List.pairwise_append.1 sorted).2.2 o (by simp) p (by simp)
          exact this
        rw [e, List.append_assoc, List.singleton_append,
          pairs_end li d o p hop.le l' _ (by rw [put_length, put_length]; omega), joint, ep, div_self, h1]
        have : (o : Rat) < p := by exact_mod_cast hop
        linarith
    · left
      have hpq : p < q := by
        rw [e] at sorted
        exact (List.pairwise_cons.1 (List.pairwise_append.1 sorted).2.1).1 q (by simp)
      rw [e, pairs_in li d p q r l _ p (by rw [← e]; exact sorted) le_rfl hpq (by rw [put_length, put_length]; omega), joint, ep,
        sub_self, zero_div, h0]
  rcases key with k | k
  · rw [locmin_get li d c p x _ hx k, Option.map_some, pos]
  · rw [locmin_get li d c p x _ hx k, Option.map_some, if_neg (lt_irrefl x)]

/-- Before the first local minimum the baseflow is its flow, after the last one that of the last, or the flow where this is less. -/
theorem C131_locmin_ends_partial (li : Rat → Rat → Rat → Rat) (d : List Rat) (hc : Complete d) (c h : Nat) (hh : half c = some h)
    (hl : c ≤ d.length) (p : Nat) (x : Rat) (hp : LocalMin d h p) (hx : d[p]? = some x) (i : Nat) (z : Rat) (hz : d[i]? = some z)
    (hb : (i < p ∧ ∀ r, r < p → ¬ LocalMin d h r) ∨ (p < i ∧ ∀ r, p < r → ¬ LocalMin d h r)) :
    (locmin li d c)[i]? = some (some (min z x)) := by
  have hd : d ≠ [] := by rintro rfl; simp at hx
  obtain ⟨s, e1, e2, e3, e4, e5, _⟩ := periods_complete li d hc hd c
  have mem : ∀ i, i ∈ points d c s.start s.stop ↔ LocalMin d h i := by rw [e3]; exact mem_points d c h hh s.stop e4
  have sorted := points_sorted d c s.start s.stop
  have hpm := (mem p).2 hp
  obtain ⟨a, b, ha, hb'⟩ := ends_of_mem hpm
  have hil : i < d.length := by
    by_contra hc
    rw [List.getElem?_eq_none (by omega)] at hz
    cases hz
  have ep : d.getD p 0 = x := by rw [List.getD_eq_getElem?_getD, hx]; rfl
  have hg : (periods li d c d.length ⟨0, 0, 0, d.map fun _ => none, 0⟩)[i]? = some (some x) := by
    rw [e1, period_points li d c s (by omega) a b ha hb']
    rcases hb with ⟨h1, h2⟩ | ⟨h1, h2⟩
    · have hap : a = p := by
        have := head_le sorted ha hpm
        by_contra hn
        exact h2 a (by omega) ((mem a).1 (List.mem_of_head? ha))
      subst hap
      have hab := le_last sorted hb' hpm
      rw [pairs_before li d _ _ i sorted (by rw [ha]; simpa using h1), put_out _ _ _ _ _ (Or.inl (by omega)),
        put_in _ _ _ _ _ (by omega) (by omega) (by omega), ep]
    · have hbp : b = p := by
        have := le_last sorted hb' hpm
        by_contra hn
        exact h2 b (by omega) ((mem b).1 (List.mem_of_getLast? hb'))
      subst hbp
      rw [pairs_after li d _ _ i (fun q hq => lt_of_le_of_lt (le_last sorted hb' hq) h1),
        put_in _ _ _ _ _ (by rw [put_length]; omega) (by omega) (by omega), ep]
  rw [locmin_get li d c i z _ hz hg, Option.map_some]
  congr 2
  split
  · rw [min_eq_left]; linarith
  · rw [min_eq_right]; linarith

/-- Without a local minimum, or with an interval of one day, the baseflow is -999. -/
theorem C131_locmin_none_violated (li : Rat → Rat → Rat → Rat) (d : List Rat) (hc : Complete d) (c : Nat) (hl : c ≤ d.length)
    (hn : half c = none ∨ ∃ h, half c = some h ∧ ∀ r, ¬ LocalMin d h r) (i : Nat) (hi : i < d.length) :
    (locmin li d c)[i]? = some (some (-999)) := by
  have hd : d ≠ [] := by rintro rfl; simp at hi
  obtain ⟨s, e1, e2, e3, e4, e5, _⟩ := periods_complete li d hc hd c
  have hp : points d c s.start s.stop = [] := by
    rcases hn with hn | ⟨h, hh, hn⟩
    · unfold points; rw [hn]
    · rw [List.eq_nil_iff_forall_not_mem]
      intro r hr
      rw [e3] at hr
      exact hn r ((mem_points d c h hh s.stop e4 r).1 hr)
  have hz : d[i]? = some d[i] := List.getElem?_eq_getElem hi
  rw [locmin_get li d c i d[i] (some (-999)) hz, Option.map_some, if_neg]
  · have := hc _ (List.getElem_mem hi)
    linarith
  · rw [e1, period_none li d c s (by omega) hp, put_in _ _ _ _ _ (by omega) (by omega) (by omega)]

/-- A record shorter than the interval has a baseflow of 0. -/
theorem C131_locmin_short_violated (li : Rat → Rat → Rat → Rat) (d : List Rat) (hc : Complete d) (c : Nat) (hl : d.length < c) (i : Nat)
    (hi : i < d.length) : (locmin li d c)[i]? = some (some 0) := by
  have hd : d ≠ [] := by rintro rfl; simp at hi
  obtain ⟨s, e1, e2, e3, e4, e5, e6⟩ := periods_complete li d hc hd c
  rw [locmin_get li d c i d[i] (some 0) (List.getElem?_eq_getElem hi), Option.map_some, if_neg]
  · have := hc _ (List.getElem_mem hi)
    linarith
  · rw [e1, period, if_pos (by omega), e6 i hi]

/-- A straight line in place of that of logarithms. -/
def exLine (a b t : Rat) : Rat := a + t * (b - a)

example : locmin exLine [9, 4, 8, 9, 3, 7, 2, 6, 8] 3 =
    [some 4, some 4, some (4 - 1 / 3), some (4 - 2 / 3), some 3, some (5 / 2), some 2, some 2, some 2] := by decide +kernel

example : LocalMin [9, 4, 8, 9, 3, 7, 2, 6, 8] 1 4 := by
  refine ⟨by omega, by simp, 3, rfl, ?_⟩
  intro j y hn hy
  unfold Near at hn
  obtain rfl | rfl | rfl : j = 3 ∨ j = 4 ∨ j = 5 := by omega
  all_goals
    simp only [List.getElem?_cons_succ, List.getElem?_cons_zero, Option.some.injEq] at hy
    linarith

example : ∀ a b : Rat, exLine a b 0 = a := by intro a b; simp [exLine]
example : ∀ a b : Rat, exLine a b 1 = b := by intro a b; simp [exLine]

/-- After a period shorter than the interval the day of the missing flow is never assigned. -/
theorem C131_locmin_unassigned_violated : (locmin exLine [5, 6, -1, 9, 4, 8, 7] 3)[2]? = some none := by decide +kernel

end Verif.Hysep
