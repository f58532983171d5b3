import Verif.Lemmas.TspSort
import Verif.Spec.TspStat
import Mathlib.Data.List.GetD
import Mathlib.Tactic.Ring
import Mathlib.Tactic.NormNum
import Mathlib.Tactic.FieldSimp
import Mathlib.Tactic.Positivity
import Mathlib.Algebra.BigOperators.Group.List.Basic
/-
Lemmas for C126 and C127.
-/
namespace Verif.Tsp

theorem sorted_eq {l s : List Rat} (h : SortOf l s) : sorted l = some s := by
  obtain ⟨out, e, p, hs⟩ := quickSort_spec l _ (Nat.lt_succ_self _)
  unfold sorted
  rw [show l.length + 1 = l.length.succ from rfl, e, Option.map_some, Option.some.injEq]
  have p' : (out.map Prod.fst).Perm l := by simpa using p.map Prod.fst
  exact (p'.trans h.1.symm).eq_of_pairwise (fun a b _ _ => le_antisymm) hs h.2

theorem sortOf_ex (l : List Rat) : ∃ s, SortOf l s := by
  obtain ⟨out, e, p, hs⟩ := quickSort_spec l _ (Nat.lt_succ_self _)
  exact ⟨_, by simpa using p.map Prod.fst, hs⟩

theorem getD_mono {s : List Rat} (hs : s.Pairwise (· ≤ ·)) {i j : Nat} (hij : i ≤ j) (hj : j < s.length) :
    s.getD i 0 ≤ s.getD j 0 := by
  rw [List.getD_eq_getElem _ _ (by omega), List.getD_eq_getElem _ _ hj]
  rcases Nat.eq_or_lt_of_le hij with rfl | h
  · exact le_refl _
  · exact List.pairwise_iff_getElem.1 hs i j (by omega) hj h

theorem getElem?_getD {s : List Rat} {i : Nat} (hi : i < s.length) : s[i]? = some (s.getD i 0) := by
  rw [List.getD_eq_getElem _ _ hi, List.getElem?_eq_getElem hi]

theorem getD_mem {s : List Rat} {i : Nat} (hi : i < s.length) : s.getD i 0 ∈ s := by
  rw [List.getD_eq_getElem _ _ hi]; exact List.getElem_mem hi

theorem mem_getD {s : List Rat} {x : Rat} (h : x ∈ s) : ∃ i, i < s.length ∧ x = s.getD i 0 := by
  obtain ⟨i, hi, e⟩ := List.getElem_of_mem h
  exact ⟨i, hi, by rw [List.getD_eq_getElem _ _ hi, e]⟩

theorem count_le {s : List Rat} (hs : s.Pairwise (· ≤ ·)) {i : Nat} (hi : i < s.length) {m : Rat} (h : s.getD i 0 ≤ m) :
    i + 1 ≤ s.countP (fun x => x ≤ m) := by
  conv_rhs => rw [← List.take_append_drop (i + 1) s]
  rw [List.countP_append]
  have : (s.take (i + 1)).countP (fun x => x ≤ m) = (s.take (i + 1)).length := by
    rw [List.countP_eq_length]
    intro x hx
    obtain ⟨j, hj, e⟩ := List.getElem_of_mem hx
    rw [List.length_take] at hj
    rw [List.getElem_take] at e
    have h1 := getD_mono hs (i := j) (j := i) (by omega) hi
    rw [List.getD_eq_getElem _ _ (by omega : j < s.length), e] at h1
    exact decide_eq_true (le_trans h1 h)
  rw [this, List.length_take]
  omega

theorem count_ge {s : List Rat} (hs : s.Pairwise (· ≤ ·)) {i : Nat} (hi : i < s.length) {m : Rat} (h : m ≤ s.getD i 0) :
    s.length - i ≤ s.countP (fun x => m ≤ x) := by
  conv_rhs => rw [← List.take_append_drop i s]
  rw [List.countP_append]
  have : (s.drop i).countP (fun x => m ≤ x) = (s.drop i).length := by
    rw [List.countP_eq_length]
    intro x hx
    obtain ⟨j, hj, e⟩ := List.getElem_of_mem hx
    rw [List.length_drop] at hj
    rw [List.getElem_drop] at e
    have h1 := getD_mono hs (i := i) (j := i + j) (by omega) (by omega)
    rw [List.getD_eq_getElem (n := i + j) _ _ (by omega), e] at h1
    exact decide_eq_true (le_trans h h1)
  rw [this, List.length_drop]
  omega

theorem count_split (s : List Rat) (m : Rat) : s.countP (fun x => x ≤ m) + s.countP (fun x => m < x) = s.length := by
  induction s with
  | nil => rfl
  | cons x s ih =>
    simp only [List.countP_cons, List.length_cons, decide_eq_true_eq]
    by_cases h : x ≤ m
    · rw [if_pos h, if_neg (not_lt.2 h)]; omega
    · rw [if_neg h, if_pos (not_le.1 h)]; omega

theorem median_eq {l s : List Rat} (h : SortOf l s) (hne : l ≠ []) :
    median l = some ((s.getD ((l.length - 1) / 2) 0 + s.getD (l.length / 2) 0) / 2) := by
  have hlen := h.1.length_eq
  have hpos : 0 < l.length := List.length_pos_iff.2 hne
  unfold median
  by_cases h1 : 1 < l.length
  · rw [if_pos h1, sorted_eq h]
    simp only [Option.bind_eq_bind, Option.bind_some]
    by_cases h2 : l.length % 2 = 1
    · rw [if_pos h2, getElem?_getD (by omega), show (l.length - 1) / 2 = l.length / 2 by omega]
      congr 1; ring
    · rw [if_neg h2, getElem?_getD (by omega), getElem?_getD (by omega), Option.bind_some, Option.bind_some,
        show (l.length - 1) / 2 = l.length / 2 - 1 by omega]
  · rw [if_neg h1]
    have hl : l.length = 1 := by omega
    obtain ⟨x, rfl⟩ := List.length_eq_one_iff.1 hl
    have hs : s = [x] := List.perm_singleton.1 h.1
    subst hs
    norm_num

/-- The index below a real index, counted from 0. -/
theorem index_spec (r : Rat) : ∃ k : Nat, max (int r) 1 = (k : Int) + 1 ∧ r < k + 2 ∧ ((k : Rat) + 1 ≤ r ∨ (k = 0 ∧ r < 1)) := by
  unfold int
  by_cases h : r < 1
  · refine ⟨0, ?_, by push_cast; linarith, Or.inr ⟨rfl, h⟩⟩
    split_ifs with h0
    · have : (0 : Int) ≤ ⌊-r⌋ := Int.floor_nonneg.2 (by linarith)
      omega
    · have : ⌊r⌋ < 1 := Int.floor_lt.2 (by exact_mod_cast h)
      omega
  · have h1 : (1 : Int) ≤ ⌊r⌋ := Int.le_floor.2 (by push_cast; linarith)
    rw [if_neg (by linarith)]
    refine ⟨(⌊r⌋ - 1).toNat, by omega, ?_, Or.inl ?_⟩
    · have h2 := Int.lt_floor_add_one r
      have h3 : (((⌊r⌋ - 1).toNat : Int) : Rat) = (⌊r⌋ : Rat) - 1 := by rw [Int.toNat_of_nonneg (by omega)]; push_cast; ring
      rw [Int.cast_natCast] at h3
      rw [h3]; linarith
    · have h2 := Int.floor_le r
      have h3 : (((⌊r⌋ - 1).toNat : Int) : Rat) = (⌊r⌋ : Rat) - 1 := by rw [Int.toNat_of_nonneg (by omega)]; push_cast; ring
      rw [Int.cast_natCast] at h3
      rw [h3]; linarith

theorem atIndex_spec (s : List Rat) (hs : s ≠ []) (r : Rat) :
    ∃ k : Nat, r < k + 2 ∧ ((k : Rat) + 1 ≤ r ∨ (k = 0 ∧ r < 1)) ∧
      atIndex s r = some (if k + 1 < s.length then s.getD k 0 + (s.getD (k + 1) 0 - s.getD k 0) * (r - (k + 1))
        else s.getD (s.length - 1) 0) := by
  obtain ⟨k, e, h1, h2⟩ := index_spec r
  refine ⟨k, h1, h2, ?_⟩
  have hpos : 0 < s.length := List.length_pos_iff.2 hs
  unfold atIndex
  simp only [e]
  by_cases hk : k + 1 < s.length
  · rw [if_pos (by exact_mod_cast hk), if_pos hk, show ((k : Int) + 1).toNat = k + 1 by omega, Nat.add_sub_cancel,
      getElem?_getD (by omega), getElem?_getD hk]
    simp only [Option.bind_eq_bind, Option.bind_some]
    push_cast
    rfl
  · rw [if_neg (by exact_mod_cast hk), if_neg hk, getElem?_getD (by omega)]

theorem quantile_eq {l s : List Rat} (h : SortOf l s) (hne : l ≠ []) (q : Rat) :
    quantile q l = atIndex s (q * (l.length + 1)) := by
  unfold quantile
  rw [sorted_eq h]
  simp only [Option.bind_eq_bind, Option.bind_some]
  rw [if_pos (List.length_pos_iff.2 hne)]

theorem atIndex_upper {s : List Rat} (hs : s.Pairwise (· ≤ ·)) {r v : Rat} {k : Nat} (hk : k + 1 < s.length) (h1 : r < k + 2)
    (hv : v = s.getD k 0 + (s.getD (k + 1) 0 - s.getD k 0) * (r - (k + 1))) : v ≤ s.getD (k + 1) 0 := by
  have := getD_mono hs (i := k) (j := k + 1) (by omega) hk
  nlinarith

theorem atIndex_mono {s : List Rat} (hs : s.Pairwise (· ≤ ·)) (hne : s ≠ []) {r r' v v' : Rat} (hr : r ≤ r')
    (h : atIndex s r = some v) (h' : atIndex s r' = some v') : v ≤ v' := by
  have hpos : 0 < s.length := List.length_pos_iff.2 hne
  obtain ⟨k, a1, a2, a3⟩ := atIndex_spec s hne r
  obtain ⟨k', b1, b2, b3⟩ := atIndex_spec s hne r'
  rw [h, Option.some.injEq] at a3
  rw [h', Option.some.injEq] at b3
  have hkk : k ≤ k' := by
    rcases a2 with a2 | ⟨rfl, -⟩
    · have : (k : Rat) < k' + 1 := by linarith
      have : k < k' + 1 := by exact_mod_cast this
      omega
    · omega
  by_cases hk' : k' + 1 < s.length
  · have hk : k + 1 < s.length := by omega
    rw [if_pos hk] at a3
    rw [if_pos hk'] at b3
    have hm := getD_mono hs (i := k) (j := k + 1) (by omega) hk
    have hm' := getD_mono hs (i := k') (j := k' + 1) (by omega) hk'
    rcases Nat.eq_or_lt_of_le hkk with rfl | hlt
    · rw [a3, b3]; nlinarith
    · have hb : (k' : Rat) + 1 ≤ r' := by
        rcases b2 with b2 | ⟨rfl, -⟩
        · exact b2
        · omega
      have h1 : v ≤ s.getD (k + 1) 0 := atIndex_upper hs hk a1 a3
      have h2 := getD_mono hs (i := k + 1) (j := k') (by omega) (by omega)
      have h3 : s.getD k' 0 ≤ v' := by rw [b3]; nlinarith
      linarith
  · rw [if_neg hk'] at b3
    by_cases hk : k + 1 < s.length
    · rw [if_pos hk] at a3
      rw [b3]
      exact le_trans (atIndex_upper hs hk a1 a3) (getD_mono hs (by omega) (by omega))
    · rw [if_neg hk] at a3
      rw [a3, b3]

theorem mapM_forall {α β : Type} (f : α → Option β) : ∀ (l : List α) (out : List β), l.mapM f = some out →
    List.Forall₂ (fun a b => f a = some b) l out
  | [], out, h => by
    simp only [List.mapM_nil] at h
    cases h; exact .nil
  | a :: l, out, h => by
    rw [List.mapM_cons] at h
    cases ha : f a with
    | none => rw [ha] at h; cases h
    | some b =>
      cases hl : l.mapM f with
      | none => rw [ha, hl] at h; cases h
      | some bs =>
        rw [ha, hl] at h
        cases h
        exact .cons ha (mapM_forall f l bs hl)

theorem mapM_length {α β : Type} (f : α → Option β) {l : List α} {out : List β} (h : l.mapM f = some out) :
    out.length = l.length := (mapM_forall f l out h).length_eq.symm

theorem later_iff {a b : Clock} (ha : a.Proper) (hb : b.Proper) : later a b = true ↔ b.time < a.time := by
  unfold later Clock.time
  unfold Clock.Proper at ha hb
  rw [decide_eq_true_eq]
  omega

theorem later_false {a b : Clock} (ha : a.Proper) (hb : b.Proper) : later a b = false ↔ a.time ≤ b.time := by
  rw [← Bool.not_eq_true, later_iff ha hb, not_lt]

theorem count_before (b e : Clock) : ∀ (A r : List Term) (i n ib : Nat), (∀ t ∈ A, later b t.at_ = true) →
    countTerms b e (A ++ r) i n ib = countTerms b e r (i + A.length) n ib
  | [], _, _, _, _, _ => rfl
  | t :: A, r, i, n, ib, h => by
    rw [List.cons_append, countTerms, if_pos (h t (by simp)), count_before b e A r (i + 1) n ib fun t ht => h t (by simp [ht])]
    rw [List.length_cons, show i + 1 + A.length = i + (A.length + 1) by omega]

theorem count_in (b e : Clock) : ∀ (B r : List Term) (i n ib : Nat), 0 < i →
    (∀ t ∈ B, later b t.at_ = false ∧ later t.at_ e = false) →
    countTerms b e (B ++ r) i n ib = countTerms b e r (i + B.length) (n + B.length) (if ib = 0 ∧ B ≠ [] then i else ib)
  | [], _, i, n, ib, _, _ => by simp
  | t :: B, r, i, n, ib, hi, h => by
    obtain ⟨h1, h2⟩ := h t (by simp)
    rw [List.cons_append, countTerms, if_neg (by rw [h1]; simp)]
    simp only [h2, Bool.false_eq_true, if_false]
    rw [count_in b e B r (i + 1) (n + 1) _ (by omega) fun t ht => h t (by simp [ht])]
    rw [List.length_cons, show i + 1 + B.length = i + (B.length + 1) by omega,
      show n + 1 + B.length = n + (B.length + 1) by omega]
    congr 1
    by_cases hib : ib = 0
    · rw [if_pos hib, if_neg (by omega), if_pos ⟨hib, by simp⟩]
    · rw [if_neg hib, if_neg (by omega), if_neg (by omega)]

theorem count_after (b e : Clock) (C : List Term) (i n ib : Nat)
    (h : ∀ t ∈ C, later b t.at_ = false ∧ later t.at_ e = true) :
    ∃ x, countTerms b e C i n ib = (n, x, i - 1) ∧ (ib ≠ 0 → x = ib) := by
  cases C with
  | nil => exact ⟨ib, rfl, fun _ => rfl⟩
  | cons t C =>
    obtain ⟨h1, h2⟩ := h t (by simp)
    refine ⟨if ib = 0 then i else ib, ?_, fun h => if_neg h⟩
    rw [countTerms, if_neg (by rw [h1]; simp)]
    simp only [h2, if_true]

theorem three {b e : Clock} (hb : b.Proper) (he : e.Proper) : ∀ {s : List Term}, Ordered s → ∃ A C,
    s = A ++ (within b e s ++ C) ∧ (∀ t ∈ A, later b t.at_ = true) ∧
    (∀ t ∈ within b e s, later b t.at_ = false ∧ later t.at_ e = false) ∧
    (∀ t ∈ C, later b t.at_ = false ∧ later t.at_ e = true)
  | [], _ => ⟨[], [], rfl, by simp, by simp [within], by simp⟩
  | t :: s, h => by
    have ht : t.at_.Proper := h.2 t (by simp)
    have hs : Ordered s := ⟨(List.pairwise_cons.1 h.1).2, fun u hu => h.2 u (by simp [hu])⟩
    have hlt := (List.pairwise_cons.1 h.1).1
    have hP : ∀ u ∈ s, u.at_.Proper := hs.2
    obtain ⟨A, C, e1, h1, h2, h3⟩ := three hb he hs
    by_cases c1 : t.at_.time < b.time
    · have hw : within b e (t :: s) = within b e s := by
        unfold within
        rw [List.filter_cons_of_neg (by simp; omega)]
      rw [hw]
      refine ⟨t :: A, C, by rw [List.cons_append, ← e1], ?_, h2, h3⟩
      intro u hu
      rcases List.mem_cons.1 hu with rfl | hu
      · exact (later_iff hb ht).2 c1
      · exact h1 u hu
    · by_cases c2 : t.at_.time ≤ e.time
      · have hw : within b e (t :: s) = t :: within b e s := by
          unfold within
          rw [List.filter_cons_of_pos (by simp; omega)]
        have hA : A = [] := by
          cases A with
          | nil => rfl
          | cons u A =>
            have hu : u ∈ s := by rw [e1]; simp
            have := (later_iff hb (hP u hu)).1 (h1 u (by simp))
            have := hlt u hu
            omega
        subst hA
        rw [hw]
        refine ⟨[], C, by rw [List.nil_append, List.cons_append, ← List.nil_append (within b e s ++ C), ← e1], by simp, ?_, h3⟩
        intro u hu
        rcases List.mem_cons.1 hu with rfl | hu
        · exact ⟨(later_false hb ht).2 (by omega), (later_false ht he).2 c2⟩
        · exact h2 u hu
      · have hw : within b e (t :: s) = [] := by
          unfold within
          rw [List.filter_eq_nil_iff]
          intro u hu
          rcases List.mem_cons.1 hu with rfl | hu
          · simp; omega
          · have := hlt u hu
            simp; omega
        rw [hw]
        refine ⟨[], t :: s, rfl, by simp, by simp, ?_⟩
        intro u hu
        have hu' : t.at_.time ≤ u.at_.time ∧ u.at_.Proper := by
          rcases List.mem_cons.1 hu with rfl | hu
          · exact ⟨le_refl _, ht⟩
          · exact ⟨le_of_lt (hlt u hu), hP u hu⟩
        exact ⟨(later_false hb hu'.2).2 (by omega), (later_iff hu'.2 he).2 (by omega)⟩

theorem numterms_spec {b e : Clock} (hb : b.Proper) (he : e.Proper) {s : List Term} (h : Ordered s) :
    ∃ ib ie, numterms b e s = ((within b e s).length, ib, ie) ∧ (within b e s ≠ [] → slice ib ie s = within b e s) := by
  obtain ⟨A, C, e1, h1, h2, h3⟩ := three hb he h
  obtain ⟨x, hx, hx'⟩ := count_after b e C (1 + A.length + (within b e s).length) (within b e s).length
    (if within b e s ≠ [] then 1 + A.length else 0) h3
  have hn : numterms b e s = ((within b e s).length, x, A.length + (within b e s).length) := by
    unfold numterms
    conv_lhs => rw [e1]
    rw [count_before b e A _ 1 0 0 h1, count_in b e _ C (1 + A.length) 0 0 (by omega) h2]
    simp only [true_and, Nat.zero_add]
    rw [hx, show 1 + A.length + (within b e s).length - 1 = A.length + (within b e s).length by omega]
  refine ⟨x, _, hn, fun hne => ?_⟩
  rw [if_pos hne] at hx'
  have hx := hx' (by omega)
  unfold slice
  rw [hx, show 1 + A.length - 1 = A.length by omega,
    show A.length + (within b e s).length + 1 - (1 + A.length) = (within b e s).length by omega]
  clear hn h1 h2 h3 hx hx' hne
  generalize within b e s = W at e1 ⊢
  rw [e1, List.drop_left, List.take_left]

theorem overlaps_spec {b e : Clock} (hb : b.Proper) (he : e.Proper) {s : List Term} (h : Ordered s) (hw : within b e s ≠ []) :
    overlaps b e s = true := by
  obtain ⟨t, ht⟩ := List.exists_mem_of_ne_nil _ hw
  unfold within at ht
  rw [List.mem_filter] at ht
  simp only [decide_eq_true_eq] at ht
  obtain ⟨hts, h1, h2⟩ := ht
  have hne : s ≠ [] := List.ne_nil_of_mem hts
  unfold overlaps
  rw [List.head?_eq_some_head hne, List.getLast?_eq_some_getLast hne]
  simp only [Bool.and_eq_true, Bool.not_eq_true']
  have hh : (s.head hne).at_.time ≤ t.at_.time := by
    cases s with
    | nil => exact absurd rfl hne
    | cons u s =>
      rcases List.mem_cons.1 hts with rfl | hts
      · exact le_refl _
      · exact le_of_lt ((List.pairwise_cons.1 h.1).1 t hts)
  have hl : t.at_.time ≤ (s.getLast hne).at_.time := by
    have h5 := h.1
    rw [← List.dropLast_append_getLast hne] at h5 hts
    rcases List.mem_append.1 hts with h6 | h6
    · exact le_of_lt ((List.pairwise_append.1 h5).2.2 t h6 _ (by simp))
    · rw [List.mem_singleton.1 h6]
  exact ⟨(later_false hb (h.2 _ (List.getLast_mem hne))).2 (by omega), (later_false (h.2 _ (List.head_mem hne)) he).2 (by omega)⟩

theorem tally_sum : ∀ (v : List Rat) (a : Rat × Rat × Rat), (v.foldl tally a).1 = a.1 + v.sum
  | [], a => by simp
  | x :: v, a => by
    rw [List.foldl_cons, tally_sum v, List.sum_cons]
    unfold tally
    simp only
    ring

theorem tally_min : ∀ (v : List Rat) (a : Rat × Rat × Rat), ((v.foldl tally a).2.1 = a.2.1 ∨ (v.foldl tally a).2.1 ∈ v) ∧
    (v.foldl tally a).2.1 ≤ a.2.1 ∧ ∀ x ∈ v, (v.foldl tally a).2.1 ≤ x
  | [], a => ⟨Or.inl rfl, le_refl _, by simp⟩
  | x :: v, a => by
    rw [List.foldl_cons]
    obtain ⟨h1, h2, h3⟩ := tally_min v (tally a x)
    have e : (tally a x).2.1 = if x < a.2.1 then x else a.2.1 := rfl
    rw [e] at h1 h2
    by_cases hc : x < a.2.1
    · rw [if_pos hc] at h1 h2
      refine ⟨Or.inr ?_, by linarith, ?_⟩
      · rcases h1 with h1 | h1
        · rw [h1]; simp
        · simp [h1]
      · intro y hy
        rcases List.mem_cons.1 hy with rfl | hy
        · exact h2
        · exact h3 y hy
    · rw [if_neg hc] at h1 h2
      refine ⟨?_, h2, ?_⟩
      · rcases h1 with h1 | h1
        · exact Or.inl h1
        · exact Or.inr (by simp [h1])
      · intro y hy
        rcases List.mem_cons.1 hy with rfl | hy
        · linarith
        · exact h3 y hy

theorem tally_max : ∀ (v : List Rat) (a : Rat × Rat × Rat), ((v.foldl tally a).2.2 = a.2.2 ∨ (v.foldl tally a).2.2 ∈ v) ∧
    a.2.2 ≤ (v.foldl tally a).2.2 ∧ ∀ x ∈ v, x ≤ (v.foldl tally a).2.2
  | [], a => ⟨Or.inl rfl, le_refl _, by simp⟩
  | x :: v, a => by
    rw [List.foldl_cons]
    obtain ⟨h1, h2, h3⟩ := tally_max v (tally a x)
    have e : (tally a x).2.2 = if x > a.2.2 then x else a.2.2 := rfl
    rw [e] at h1 h2
    by_cases hc : x > a.2.2
    · rw [if_pos hc] at h1 h2
      refine ⟨Or.inr ?_, by linarith, ?_⟩
      · rcases h1 with h1 | h1
        · rw [h1]; simp
        · simp [h1]
      · intro y hy
        rcases List.mem_cons.1 hy with rfl | hy
        · exact h2
        · exact h3 y hy
    · rw [if_neg hc] at h1 h2
      refine ⟨?_, h2, ?_⟩
      · rcases h1 with h1 | h1
        · exact Or.inl h1
        · exact Or.inr (by simp [h1])
      · intro y hy
        rcases List.mem_cons.1 hy with rfl | hy
        · linarith
        · exact h3 y hy

theorem foldl_add (v : List Rat) (a : Rat) : v.foldl (· + ·) a = a + v.sum := by
  induction v generalizing a with
  | nil => simp
  | cons x v ih => rw [List.foldl_cons, ih, List.sum_cons]; ring

theorem foldl_sq (m : Rat) (v : List Rat) (a : Rat) :
    v.foldl (fun a x => a + (x - m) * (x - m)) a = a + (v.map fun x => (x - m) ^ 2).sum := by
  induction v generalizing a with
  | nil => simp
  | cons x v ih => rw [List.foldl_cons, ih, List.map_cons, List.sum_cons]; ring

theorem runs_cons {k : Nat} {x : Rat} {xs : List Rat} {a : Rat × Rat} (h : k ≤ (x :: xs).length) :
    runs k (x :: xs) a = runs k xs (if meanOf (x :: xs) k 0 > a.1 then meanOf (x :: xs) k 0 else a.1,
      if meanOf (x :: xs) k 0 < a.2 then meanOf (x :: xs) k 0 else a.2) := by
  rw [runs, if_neg (by omega), foldl_add, zero_add]
  rfl

theorem meanOf_succ (x : Rat) (xs : List Rat) (k i : Nat) : meanOf (x :: xs) k (i + 1) = meanOf xs k i := by
  unfold meanOf
  rw [List.drop_succ_cons]

theorem runs_spec {k : Nat} (hk : 0 < k) : ∀ (v : List Rat) (a : Rat × Rat),
    ((runs k v a).1 = a.1 ∨ ∃ i, i + k ≤ v.length ∧ (runs k v a).1 = meanOf v k i) ∧ a.1 ≤ (runs k v a).1 ∧
    (∀ i, i + k ≤ v.length → meanOf v k i ≤ (runs k v a).1) ∧
    ((runs k v a).2 = a.2 ∨ ∃ i, i + k ≤ v.length ∧ (runs k v a).2 = meanOf v k i) ∧ (runs k v a).2 ≤ a.2 ∧
    (∀ i, i + k ≤ v.length → (runs k v a).2 ≤ meanOf v k i)
  | [], a => ⟨Or.inl rfl, le_refl _, fun i hi => by simp at hi; omega, Or.inl rfl, le_refl _, fun i hi => by simp at hi; omega⟩
  | x :: xs, a => by
    by_cases h : k ≤ (x :: xs).length
    · rw [runs_cons h]
      generalize hm : meanOf (x :: xs) k 0 = m
      obtain ⟨h1, h2, h3, h4, h5, h6⟩ := runs_spec hk xs (if m > a.1 then m else a.1, if m < a.2 then m else a.2)
      generalize runs k xs (if m > a.1 then m else a.1, if m < a.2 then m else a.2) = w at *
      simp only at h1 h2 h4 h5
      have g1 : a.1 ≤ (if m > a.1 then m else a.1) ∧ m ≤ (if m > a.1 then m else a.1) := by
        split_ifs with hc
        · exact ⟨le_of_lt hc, le_refl _⟩
        · exact ⟨le_refl _, not_lt.1 hc⟩
      have g2 : (if m < a.2 then m else a.2) ≤ a.2 ∧ (if m < a.2 then m else a.2) ≤ m := by
        split_ifs with hc
        · exact ⟨le_of_lt hc, le_refl _⟩
        · exact ⟨le_refl _, not_lt.1 hc⟩
      refine ⟨?_, by linarith [g1.1], ?_, ?_, by linarith [g2.1], ?_⟩
      · rcases h1 with h1 | ⟨i, hi, h1⟩
        · rw [h1]
          split_ifs
          · exact Or.inr ⟨0, by simpa using h, hm.symm⟩
          · exact Or.inl rfl
        · exact Or.inr ⟨i + 1, by rw [List.length_cons]; omega, by rw [h1, meanOf_succ]⟩
      · intro i hi
        cases i with
        | zero => rw [hm]; linarith [g1.2]
        | succ i => rw [meanOf_succ]; exact h3 i (by rw [List.length_cons] at hi; omega)
      · rcases h4 with h4 | ⟨i, hi, h4⟩
        · rw [h4]
          split_ifs
          · exact Or.inr ⟨0, by simpa using h, hm.symm⟩
          · exact Or.inl rfl
        · exact Or.inr ⟨i + 1, by rw [List.length_cons]; omega, by rw [h4, meanOf_succ]⟩
      · intro i hi
        cases i with
        | zero => rw [hm]; linarith [g2.2]
        | succ i => rw [meanOf_succ]; exact h6 i (by rw [List.length_cons] at hi; omega)
    · rw [runs, if_pos (by omega)]
      obtain ⟨h1, h2, h3, h4, h5, h6⟩ := runs_spec hk xs a
      refine ⟨?_, h2, fun i hi => by omega, ?_, h5, fun i hi => by omega⟩
      · rcases h1 with h1 | ⟨i, hi, -⟩
        · exact Or.inl h1
        · rw [List.length_cons] at h; omega
      · rcases h4 with h1 | ⟨i, hi, -⟩
        · exact Or.inl h1
        · rw [List.length_cons] at h; omega

end Verif.Tsp
