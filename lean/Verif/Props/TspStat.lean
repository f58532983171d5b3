import Verif.Lemmas.TspStat
/-
C126: median, quantiles and flow-duration tables of TSPROC.  C127: the terms of a period and their statistics.
-/
namespace Verif.Tsp

/-- The median is the middle one of the sorted values, or the mean of the two middle ones. -/
theorem C126_median (l s : List Rat) (h : SortOf l s) (hne : l ≠ []) :
    median l = some ((s.getD ((l.length - 1) / 2) 0 + s.getD (l.length / 2) 0) / 2) := median_eq h hne

/-- At least half of the values are not above the median, and at least half are not below. -/
theorem C126_half (l : List Rat) (m : Rat) (h : median l = some m) :
    l.length ≤ 2 * l.countP (fun x => x ≤ m) ∧ l.length ≤ 2 * l.countP (fun x => m ≤ x) := by
  by_cases hne : l = []
  · subst hne; simp
  obtain ⟨s, hs⟩ := sortOf_ex l
  have hpos : 0 < l.length := List.length_pos_iff.2 hne
  have hlen := hs.1.length_eq
  rw [median_eq hs hne, Option.some.injEq] at h
  have hm := getD_mono hs.2 (i := (l.length - 1) / 2) (j := l.length / 2) (by omega) (by omega)
  rw [← hs.1.countP_eq, ← hs.1.countP_eq]
  have h1 := count_le hs.2 (i := (l.length - 1) / 2) (by omega) (m := m) (by linarith)
  have h2 := count_ge hs.2 (i := l.length / 2) (by omega) (m := m) (by linarith)
  omega

/-- The quantile of `k` parts of the number of values plus one is the value of rank `k`. -/
theorem C126_rank (l s : List Rat) (h : SortOf l s) (k : Nat) (h1 : 1 ≤ k) (h2 : k ≤ l.length) :
    quantile ((k : Rat) / (l.length + 1)) l = some (s.getD (k - 1) 0) := by
  have hne : l ≠ [] := by rintro rfl; simp at h2; omega
  have hlen := h.1.length_eq
  have hsne : s ≠ [] := by rintro rfl; simp at hlen; omega
  rw [quantile_eq h hne, div_mul_cancel₀ _ (by positivity)]
  obtain ⟨i, a1, a2, a3⟩ := atIndex_spec s hsne k
  rw [a3]
  have hi : i + 1 = k := by
    rcases a2 with a2 | ⟨rfl, a2⟩
    · have b1 : k < i + 2 := by exact_mod_cast a1
      have b2 : i + 1 ≤ k := by exact_mod_cast a2
      omega
    · have : k < 1 := by exact_mod_cast a2
      omega
  subst hi
  rw [Nat.add_sub_cancel]
  split_ifs with hc
  · push_cast; simp
  · rw [show s.length - 1 = i by omega]

/-- The quantile of one half is the median. -/
theorem C126_middle (l : List Rat) (hne : l ≠ []) : quantile (1 / 2) l = median l := by
  obtain ⟨s, h⟩ := sortOf_ex l
  have hlen := h.1.length_eq
  have hpos : 0 < l.length := List.length_pos_iff.2 hne
  have hsne : s ≠ [] := by rintro rfl; simp at hlen; omega
  rw [quantile_eq h hne, median_eq h hne]
  obtain ⟨i, a1, a2, a3⟩ := atIndex_spec s hsne (1 / 2 * (l.length + 1))
  rw [a3]
  have b1 : l.length + 1 < 2 * i + 4 := by
    have : ((l.length + 1 : Nat) : Rat) < (2 * i + 4 : Nat) := by push_cast; linarith
    exact_mod_cast this
  have b2 : 2 * i + 2 ≤ l.length + 1 ∨ i = 0 := by
    rcases a2 with a2 | ⟨rfl, a2⟩
    · left
      have : ((2 * i + 2 : Nat) : Rat) ≤ (l.length + 1 : Nat) := by push_cast; linarith
      exact_mod_cast this
    · exact Or.inr rfl
  congr 1
  split_ifs with hc
  · rcases Nat.even_or_odd' l.length with ⟨j, e | e⟩
    · have hi : i + 1 = j := by omega
      rw [show (l.length - 1) / 2 = i by omega, show l.length / 2 = i + 1 by omega, e, ← hi]
      push_cast; ring
    · have hi : i = j := by omega
      rw [show (l.length - 1) / 2 = i by omega, show l.length / 2 = i by omega, e, ← hi]
      push_cast; ring
  · rw [show s.length - 1 = 0 by omega, show (l.length - 1) / 2 = 0 by omega, show l.length / 2 = 0 by omega]
    ring

/-- Greater quantiles have greater values. -/
theorem C126_monotone (l : List Rat) (q q' v v' : Rat) (h : q ≤ q') (h1 : quantile q l = some v) (h2 : quantile q' l = some v') :
    v ≤ v' := by
  by_cases hne : l = []
  · subst hne
    unfold quantile at h1 h2
    rw [sorted_eq (s := []) ⟨List.Perm.nil, List.Pairwise.nil⟩] at h1 h2
    cases h1; cases h2; exact le_refl _
  obtain ⟨s, hs⟩ := sortOf_ex l
  have hsne : s ≠ [] := by rintro rfl; exact hne (List.nil_perm.1 hs.1)
  rw [quantile_eq hs hne] at h1 h2
  exact atIndex_mono hs.2 hsne (mul_le_mul_of_nonneg_right h (by positivity)) h1 h2

/-- A quantile is not above all the data. -/
theorem C126_upper (l : List Rat) (hne : l ≠ []) (q v : Rat) (h : quantile q l = some v) : ∃ y ∈ l, v ≤ y := by
  obtain ⟨s, hs⟩ := sortOf_ex l
  have hsne : s ≠ [] := by rintro rfl; exact hne (List.nil_perm.1 hs.1)
  have hpos : 0 < s.length := List.length_pos_iff.2 hsne
  rw [quantile_eq hs hne] at h
  obtain ⟨k, a1, a2, a3⟩ := atIndex_spec s hsne (q * (l.length + 1))
  rw [h, Option.some.injEq] at a3
  split_ifs at a3 with hc
  · exact ⟨_, hs.1.mem_iff.1 (getD_mem hc), atIndex_upper hs.2 hc a1 a3⟩
  · exact ⟨_, hs.1.mem_iff.1 (getD_mem (by omega)), le_of_eq a3⟩

/-- A quantile is not below all the data, if it is not that of less than one value.  Missing: lesser quantiles
(`C126_low_violated`). -/
theorem C126_lower_partial (l : List Rat) (hne : l ≠ []) (q v : Rat) (hq : 1 ≤ q * (l.length + 1)) (h : quantile q l = some v) :
    ∃ y ∈ l, y ≤ v := by
  obtain ⟨s, hs⟩ := sortOf_ex l
  have hsne : s ≠ [] := by rintro rfl; exact hne (List.nil_perm.1 hs.1)
  have hpos : 0 < s.length := List.length_pos_iff.2 hsne
  rw [quantile_eq hs hne] at h
  obtain ⟨k, a1, a2, a3⟩ := atIndex_spec s hsne (q * (l.length + 1))
  rw [h, Option.some.injEq] at a3
  split_ifs at a3 with hc
  · refine ⟨_, hs.1.mem_iff.1 (getD_mem (i := k) (by omega)), ?_⟩
    have hm := getD_mono hs.2 (i := k) (j := k + 1) (by omega) hc
    rcases a2 with a2 | ⟨-, a2⟩
    · rw [a3]; nlinarith
    · linarith
  · exact ⟨_, hs.1.mem_iff.1 (getD_mem (by omega)), le_of_eq a3.symm⟩

/-- The quantile of less than one value is below all the data: the line through the two least values goes on. -/
theorem C126_low_violated (l s : List Rat) (h : SortOf l s) (h2 : 2 ≤ l.length) (q : Rat) (hq : q * (l.length + 1) < 1) :
    quantile q l = some (s.getD 0 0 - (s.getD 1 0 - s.getD 0 0) * (1 - q * (l.length + 1))) ∧
    (s.getD 0 0 < s.getD 1 0 → ∀ x ∈ l, s.getD 0 0 - (s.getD 1 0 - s.getD 0 0) * (1 - q * (l.length + 1)) < x) := by
  have hlen := h.1.length_eq
  have hne : l ≠ [] := by rintro rfl; simp at h2
  have hsne : s ≠ [] := by rintro rfl; simp at hlen; omega
  constructor
  · rw [quantile_eq h hne]
    obtain ⟨k, a1, a2, a3⟩ := atIndex_spec s hsne (q * (l.length + 1))
    have hk : k = 0 := by
      rcases a2 with a2 | a2
      · have : (0 : Rat) ≤ k := by positivity
        linarith
      · exact a2.1
    subst hk
    rw [a3, if_pos (by omega)]
    congr 1
    push_cast; ring
  · intro hlt x hx
    obtain ⟨i, hi, rfl⟩ := mem_getD (h.1.mem_iff.2 hx)
    have := getD_mono h.2 (i := 0) (j := i) (by omega) hi
    nlinarith

/-- The table of flow durations of a short record: with 30 to 198 flows the lowest line, which 99.5 % of the flows exceed, is below
the least flow, and can be negative. -/
theorem C126_duration_violated (l s : List Rat) (h : SortOf l s) (h30 : 30 ≤ l.length) (h199 : l.length < 199)
    (h0 : s.getD 0 0 = 0) (h1 : 0 < s.getD 1 0) : ∃ v, quantile (1 - (199 / 2) / 100) l = some v ∧ v < 0 := by
  have hlt : ((l.length : Rat)) < 199 := by exact_mod_cast h199
  have hq : (1 - (199 / 2) / 100 : Rat) * (l.length + 1) < 1 := by linarith
  refine ⟨_, (C126_low_violated l s h (by omega) _ hq).1, ?_⟩
  rw [h0]
  nlinarith

/-- The other function for quantiles does not agree: it is not the one used for tables. -/
theorem C126_scalar_violated : quantileScalar (1 / 2) [0, 10] = some 0 ∧ quantile (1 / 2) [0, 10] = some 5 ∧
    quantileScalar (1 / 10) [0, 10] = some (-8) := by decide +kernel

/-- The flow of probability `p` is exceeded by not more than `p` percent of the flows, and reached by not less: of one value more than
there are, and up to one. -/
theorem C126_exceed (l : List Rat) (hne : l ≠ []) (p v : Rat) (h0 : 0 ≤ p) (h100 : p ≤ 100) (h : quantile (1 - p / 100) l = some v) :
    (l.countP (fun x => v < x) : Rat) ≤ p / 100 * (l.length + 1) ∧
    p / 100 * (l.length + 1) ≤ l.countP (fun x => v ≤ x) + 1 := by
  obtain ⟨s, hs⟩ := sortOf_ex l
  have hlen := hs.1.length_eq
  have hsne : s ≠ [] := by rintro rfl; exact hne (List.nil_perm.1 hs.1)
  have hpos : 0 < s.length := List.length_pos_iff.2 hsne
  have hup := count_split l v
  have hup' : (l.countP (fun x => x ≤ v) : Rat) + l.countP (fun x => v < x) = l.length := by exact_mod_cast hup
  rw [quantile_eq hs hne] at h
  obtain ⟨k, a1, a2, a3⟩ := atIndex_spec s hsne ((1 - p / 100) * (l.length + 1))
  rw [h, Option.some.injEq] at a3
  rw [← hs.1.countP_eq, ← hs.1.countP_eq] at *
  have hn : (0 : Rat) ≤ l.length := by positivity
  have hlen' : (s.length : Rat) = l.length := by exact_mod_cast hlen
  by_cases hc : k + 1 < s.length
  · rw [if_pos hc] at a3
    have hm := getD_mono hs.2 (i := k) (j := k + 1) (by omega) hc
    have hge := count_ge hs.2 hc (atIndex_upper hs.2 hc a1 a3)
    have hge' : (s.length : Rat) ≤ s.countP (fun x => v ≤ x) + (k + 1) := by
      have : s.length ≤ s.countP (fun x => v ≤ x) + (k + 1) := by omega
      exact_mod_cast this
    rcases a2 with a2 | ⟨rfl, a2⟩
    · have hle := count_le hs.2 (i := k) (by omega) (m := v) (by rw [a3]; nlinarith)
      have hle' : (k : Rat) + 1 ≤ s.countP (fun x => x ≤ v) := by exact_mod_cast hle
      constructor <;> linarith
    · have hv : v ≤ s.getD 0 0 := by
        rw [a3]; push_cast; nlinarith
      have hg := count_ge hs.2 (i := 0) hpos hv
      have hg' : (s.length : Rat) ≤ s.countP (fun x => v ≤ x) := by
        have : s.length ≤ s.countP (fun x => v ≤ x) := by omega
        exact_mod_cast this
      have hz : (0 : Rat) ≤ s.countP (fun x => x ≤ v) := by positivity
      constructor
      · linarith
      · nlinarith
  · rw [if_neg hc] at a3
    have hle := count_le hs.2 (i := s.length - 1) (by omega) (m := v) (le_of_eq a3.symm)
    have hge := count_ge hs.2 (i := s.length - 1) (by omega) (m := v) (le_of_eq a3)
    have hle' : (s.length : Rat) ≤ s.countP (fun x => x ≤ v) := by
      have : s.length ≤ s.countP (fun x => x ≤ v) := by omega
      exact_mod_cast this
    have hge' : (1 : Rat) ≤ s.countP (fun x => v ≤ x) := by
      have : 1 ≤ s.countP (fun x => v ≤ x) := by omega
      exact_mod_cast this
    have hpn : 0 ≤ p / 100 * ((l.length : Rat) + 1) := by positivity
    constructor
    · linarith
    · rcases a2 with a2 | ⟨rfl, a2⟩
      · have : (s.length : Rat) ≤ k + 1 := by
          have : s.length ≤ k + 1 := by omega
          exact_mod_cast this
        linarith
      · have : (s.length : Rat) ≤ 1 := by
          have : s.length ≤ 1 := by omega
          exact_mod_cast this
        nlinarith

/-- The lines of a table of flow durations: the probabilities given, from the greatest on, each with its flow; flows increase. -/
theorem C126_table (ps : List Rat) (b e : Clock) (s : List Term) (t : List (Rat × Rat))
    (h : flowDuration (some ps) b e s = some t) :
    (t.map Prod.fst).Perm ps ∧ (t.map Prod.fst).Pairwise (· ≥ ·) ∧ (t.map Prod.snd).Pairwise (· ≤ ·) ∧
    ∀ x ∈ t, quantile (1 - x.1 / 100) (s.map Term.val) = some x.2 := by
  unfold flowDuration at h
  split_ifs at h
  obtain ⟨u, hu⟩ := sortOf_ex ps
  simp only [sorted_eq hu, Option.bind_eq_bind, Option.bind_some] at h
  have hf := mapM_forall _ _ _ h
  have key : ∀ x ∈ t, quantile (1 - x.1 / 100) (s.map Term.val) = some x.2 := by
    clear h
    generalize u.reverse = w at hf
    induction hf with
    | nil => simp
    | @cons a x l t ha _ ih =>
      intro y hy
      rcases List.mem_cons.1 hy with rfl | hy
      · cases hq : quantile (1 - a / 100) (s.map Term.val) with
        | none => rw [hq] at ha; cases ha
        | some v => rw [hq] at ha; cases ha; exact hq
      · exact ih y hy
  have hfst : t.map Prod.fst = u.reverse := by
    clear h key
    generalize u.reverse = w at hf ⊢
    induction hf with
    | nil => rfl
    | @cons a x l t ha _ ih =>
      rw [List.map_cons, ih]
      cases hq : quantile (1 - a / 100) (s.map Term.val) with
      | none => rw [hq] at ha; cases ha
      | some v => rw [hq] at ha; cases ha; rfl
  have hdesc : (t.map Prod.fst).Pairwise (· ≥ ·) := by
    rw [hfst, List.pairwise_reverse]
    exact hu.2
  refine ⟨by rw [hfst]; exact (List.reverse_perm u).trans hu.1, hdesc, ?_, key⟩
  rw [List.pairwise_map] at hdesc ⊢
  exact hdesc.imp_of_mem fun {x y} hx hy hxy => C126_monotone _ _ _ _ _ (by linarith) (key x hx) (key y hy)

/-- The flows of the table are those of the whole series, whatever the period that the table is headed with. -/
theorem C126_period_violated (ps : Option (List Rat)) (b e b' e' : Clock) (s : List Term) (h : overlaps b e s = true)
    (h' : overlaps b' e' s = true) : flowDuration ps b e s = flowDuration ps b' e' s := by
  unfold flowDuration
  rw [h, h']

/-- The terms of a period are found: REDUCE_TIME_SPAN gives them, or fails if there are none. -/
theorem C127_reduce (b e : Clock) (hb : b.Proper) (he : e.Proper) (s : List Term) (h : Ordered s) :
    reduceSpan b e s = if within b e s = [] then none else some (within b e s) := by
  obtain ⟨ib, ie, h1, h2⟩ := numterms_spec hb he h
  unfold reduceSpan
  simp only [h1]
  by_cases hw : within b e s = []
  · rw [if_pos hw, hw, List.length_nil, if_pos rfl, ite_self]
  · rw [if_neg hw, if_pos (overlaps_spec hb he h hw), if_neg (fun h => hw (List.length_eq_zero_iff.1 h)), h2 hw]

/-- Statistics are those of the transformed terms of the period. -/
theorem C127_statistics (g : Rat → Option Rat) (sqrt : Rat → Rat) (k : Nat) (b e : Clock) (hb : b.Proper) (he : e.Proper)
    (s : List Term) (h : Ordered s) (v : List Rat) (hv : (within b e s).mapM (fun t => g t.val) = some v) (hne : v ≠ [])
    (hk : k ≤ v.length) (hr : ∀ x ∈ v, -10 ^ 30 ≤ x ∧ x ≤ 10 ^ 30) :
    ∃ st, statistics g sqrt k b e s = some st ∧ st.count = v.length ∧ st.total = v.sum ∧ st.mean = v.sum / v.length ∧
      (st.maximum ∈ v ∧ ∀ x ∈ v, x ≤ st.maximum) ∧ (st.minimum ∈ v ∧ ∀ x ∈ v, st.minimum ≤ x) ∧
      st.range = st.maximum - st.minimum ∧
      (2 ≤ v.length → st.stddev = sqrt ((v.map fun x => (x - v.sum / v.length) ^ 2).sum / (v.length - 1))) ∧
      (0 < k → ((∃ i, i + k ≤ v.length ∧ st.maxmean = meanOf v k i) ∧ ∀ i, i + k ≤ v.length → meanOf v k i ≤ st.maxmean) ∧
        ((∃ i, i + k ≤ v.length ∧ st.minmean = meanOf v k i) ∧ ∀ i, i + k ≤ v.length → st.minmean ≤ meanOf v k i)) := by
  obtain ⟨ib, ie, h1, h2⟩ := numterms_spec hb he h
  have hlen := mapM_length _ hv
  have hpos : 0 < v.length := List.length_pos_iff.2 hne
  have hw : within b e s ≠ [] := by
    intro hw; rw [hw, List.length_nil] at hlen; omega
  have unf : statistics g sqrt k b e s = some
      { count := v.length, maximum := (v.foldl tally (0, 10 ^ 30, -10 ^ 30)).2.2,
        minimum := (v.foldl tally (0, 10 ^ 30, -10 ^ 30)).2.1,
        range := (v.foldl tally (0, 10 ^ 30, -10 ^ 30)).2.2 - (v.foldl tally (0, 10 ^ 30, -10 ^ 30)).2.1,
        mean := (v.foldl tally (0, 10 ^ 30, -10 ^ 30)).1 / v.length, total := (v.foldl tally (0, 10 ^ 30, -10 ^ 30)).1,
        median := median (s.map Term.val),
        stddev := if v.length = 1 then 0 else
          sqrt (v.foldl (fun a x => a + (x - (v.foldl tally (0, 10 ^ 30, -10 ^ 30)).1 / v.length) *
            (x - (v.foldl tally (0, 10 ^ 30, -10 ^ 30)).1 / v.length)) (0 : Rat) / (v.length - 1 : Nat)),
        maxmean := (if k = 0 then ((-10 ^ 37 : Rat), (-10 ^ 37 : Rat)) else runs k v (-10 ^ 30, 10 ^ 30)).1,
        minmean := (if k = 0 then ((-10 ^ 37 : Rat), (-10 ^ 37 : Rat)) else runs k v (-10 ^ 30, 10 ^ 30)).2 } := by
    unfold statistics
    rw [if_pos (overlaps_spec hb he h hw)]
    simp only [h1, h2 hw, ← hlen]
    rw [if_neg (by omega), hv]
    rfl
  refine ⟨_, unf, rfl, ?_, ?_, ?_, ?_, rfl, ?_, ?_⟩
  · simp only [tally_sum, zero_add]
  · simp only [tally_sum, zero_add]
  · obtain ⟨a1, a2, a3⟩ := tally_max v (0, 10 ^ 30, -10 ^ 30)
    refine ⟨?_, a3⟩
    rcases a1 with a1 | a1
    · obtain ⟨x, hx⟩ := List.exists_mem_of_ne_nil _ hne
      have c1 := a3 x hx
      have c2 := (hr x hx).1
      simp only at a1
      have : x = -10 ^ 30 := by linarith
      simp only
      rw [a1, ← this]; exact hx
    · exact a1
  · obtain ⟨a1, a2, a3⟩ := tally_min v (0, 10 ^ 30, -10 ^ 30)
    refine ⟨?_, a3⟩
    rcases a1 with a1 | a1
    · obtain ⟨x, hx⟩ := List.exists_mem_of_ne_nil _ hne
      have c1 := a3 x hx
      have c2 := (hr x hx).2
      simp only at a1
      have : x = 10 ^ 30 := by linarith
      simp only
      rw [a1, ← this]; exact hx
    · exact a1
  · intro h2
    simp only
    rw [if_neg (by omega), foldl_sq, zero_add]
    simp only [tally_sum, zero_add]
    congr 2
    rw [Nat.cast_sub (by omega)]; simp
  · intro hk0
    simp only [if_neg (by omega : ¬ k = 0)]
    obtain ⟨a1, a2, a3, a4, a5, a6⟩ := runs_spec hk0 v (-10 ^ 30, 10 ^ 30)
    have bound : -10 ^ 30 ≤ meanOf v k 0 ∧ meanOf v k 0 ≤ 10 ^ 30 := by
      have hkpos : (0 : Rat) < k := by exact_mod_cast hk0
      have hs : ∀ w : List Rat, (∀ x ∈ w, -10 ^ 30 ≤ x ∧ x ≤ 10 ^ 30) → -10 ^ 30 * (w.length : Rat) ≤ w.sum ∧
          w.sum ≤ 10 ^ 30 * (w.length : Rat) := by
        intro w
        induction w with
        | nil => intro _; simp
        | cons x w ih =>
          intro hw
          have := ih fun y hy => hw y (by simp [hy])
          have hx := hw x (by simp)
          rw [List.sum_cons, List.length_cons]
          push_cast
          constructor <;> linarith [this.1, this.2, hx.1, hx.2]
      have := hs (v.take k) fun x hx => hr x (List.mem_of_mem_take hx)
      rw [List.length_take, Nat.min_eq_left hk] at this
      unfold meanOf
      rw [List.drop_zero]
      exact ⟨(le_div_iff₀ hkpos).2 this.1, (div_le_iff₀ hkpos).2 this.2⟩
    have g1 := a3 0 (by omega)
    have g2 := a6 0 (by omega)
    refine ⟨⟨?_, a3⟩, ?_, a6⟩
    · rcases a1 with a1 | a1
      · simp only at a1
        exact ⟨0, by omega, by rw [a1]; rw [a1] at g1; exact le_antisymm bound.1 g1⟩
      · exact a1
    · rcases a4 with a4 | a4
      · simp only at a4
        exact ⟨0, by omega, by rw [a4]; rw [a4] at g2; exact le_antisymm g2 bound.2⟩
      · exact a4

/-- The median of a block STATISTICS is that of the whole series, untransformed, whatever the period and the transformation. -/
theorem C127_median_violated (g : Rat → Option Rat) (sqrt : Rat → Rat) (k : Nat) (b e : Clock) (s : List Term) (st : Stats)
    (h : statistics g sqrt k b e s = some st) : st.median = median (s.map Term.val) := by
  unfold statistics at h
  by_cases ho : overlaps b e s = true
  · rw [if_pos ho] at h
    simp only at h
    by_cases hc : (numterms b e s).1 = 0 ∨ (numterms b e s).1 < k
    · rw [if_pos hc] at h; cases h
    · rw [if_neg hc] at h
      cases hv : (slice (numterms b e s).2.1 (numterms b e s).2.2 s).mapM (fun t => g t.val) with
      | none => rw [hv] at h; cases h
      | some v => rw [hv] at h; cases h; rfl
  · rw [if_neg ho] at h; cases h

/-- A series of seven days. -/
def week : List Term := [⟨⟨0, 0⟩, 4⟩, ⟨⟨1, 0⟩, 2⟩, ⟨⟨2, 0⟩, 9⟩, ⟨⟨2, 43200⟩, 6⟩, ⟨⟨3, 0⟩, 50⟩, ⟨⟨4, 0⟩, 60⟩, ⟨⟨5, 0⟩, 70⟩]

example : Ordered week := ⟨by decide, by unfold week Clock.Proper; decide⟩
example : reduceSpan ⟨1, 0⟩ ⟨2, 43200⟩ week = some [⟨⟨1, 0⟩, 2⟩, ⟨⟨2, 0⟩, 9⟩, ⟨⟨2, 43200⟩, 6⟩] := by decide +kernel
example : (statistics some id 2 ⟨0, 0⟩ ⟨2, 43200⟩ week).map (fun st => (st.mean, st.maximum, st.maxmean, st.minmean, st.median)) =
    some (21 / 4, 9, 15 / 2, 3, some 9) := by decide +kernel
/-- Thirty dry days and thirty wet ones. -/
def dryWet : List Term := (List.range 60).map fun i => ⟨⟨i, 0⟩, if i < 30 then 0 else 100⟩

/-- A table headed with the dry period has the flows of the wet one. -/
theorem C126_period_witness_violated : (within ⟨0, 0⟩ ⟨29, 0⟩ dryWet).map Term.val = List.replicate 30 0 ∧
    flowDuration (some [10]) ⟨0, 0⟩ ⟨29, 0⟩ dryWet = some [(10, 100)] := by decide +kernel

example : SortOf [3, 1, 2] [1, 2, 3] := ⟨by decide, by decide⟩
example : quantile (1 / 4) [3, 1, 2] = some 1 ∧ quantile (3 / 8) [3, 1, 2] = some (3 / 2) ∧ quantile (1 / 8) [3, 1, 2] = some (1 / 2) := by
  decide +kernel

end Verif.Tsp
