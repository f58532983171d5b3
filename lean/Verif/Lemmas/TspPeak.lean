import Verif.Spec.TspPeak
import Mathlib.Tactic.Linarith
import Mathlib.Data.List.Chain
import Mathlib.Data.List.Nodup
import Mathlib.Algebra.Order.Field.Basic
/-
Lemmas for C139.
-/
namespace Verif.Tsp

/-- One turn of the loop. -/
def peakStep (w m : Rat) (j : Nat) (s : Int × Int × List (Nat × Pt)) (a b c : Pt) : Int × Int × List (Nat × Pt) :=
  if rises a b && falls b c then
    if ((b.d - s.1 : Int) : Rat) > w then
      if b.v > m then (b.d, int b.v, (j, b) :: s.2.2) else s
    else if b.v > s.2.1 then (b.d, int b.v, (j, b) :: s.2.2.tail) else s
  else s

theorem peakLoop_step (w m : Rat) (j : Nat) (s : Int × Int × List (Nat × Pt)) (a b c : Pt) (r : List Pt) :
    peakLoop w m j s.1 s.2.1 s.2.2 (a :: b :: c :: r) =
      peakLoop w m (j + 1) (peakStep w m j s a b c).1 (peakStep w m j s a b c).2.1 (peakStep w m j s a b c).2.2 (b :: c :: r) := by
  rw [peakLoop]
  unfold peakStep
  split_ifs <;> rfl

theorem peakLoop_ind {w m : Rat} {L : List Pt} (I : Nat → Int × Int × List (Nat × Pt) → Prop)
    (hstep : ∀ j s a b c, L[j]? = some a → L[j + 1]? = some b → L[j + 2]? = some c → I (j + 1) s → I (j + 2) (peakStep w m (j + 1) s a b c)) :
    ∀ (r : List Pt) (j : Nat) (s : Int × Int × List (Nat × Pt)), L.drop j = r → I (j + 1) s →
      ∃ k s', L.length ≤ k + 1 ∧ I k s' ∧ peakLoop w m (j + 1) s.1 s.2.1 s.2.2 r = s'.2.2
  | a :: b :: c :: r, j, s, hr, hI => by
    have e0 : L[j]? = some a := by
      have := congrArg (fun l => l[0]?) hr
      simpa [List.getElem?_drop] using this
    have e1 : L[j + 1]? = some b := by
      have := congrArg (fun l => l[1]?) hr
      simpa [List.getElem?_drop] using this
    have e2 : L[j + 2]? = some c := by
      have := congrArg (fun l => l[2]?) hr
      simpa [List.getElem?_drop] using this
    have hd : L.drop (j + 1) = b :: c :: r := by
      rw [← List.tail_drop, hr]; rfl
    rw [peakLoop_step]
    exact peakLoop_ind I hstep (b :: c :: r) (j + 1) _ hd (hstep j s a b c e0 e1 e2 hI)
  | [], j, s, hr, hI => ⟨j + 1, s, by have := List.drop_eq_nil_iff.mp hr; omega, hI, rfl⟩
  | [a], j, s, hr, hI => by
    have := congrArg List.length hr
    simp at this
    exact ⟨j + 1, s, by omega, hI, rfl⟩
  | [a, b], j, s, hr, hI => by
    have := congrArg List.length hr
    simp at this
    exact ⟨j + 1, s, by omega, hI, rfl⟩

theorem days_index {l : List Pt} (h : Days l) {i j : Nat} {a b : Pt} (hi : l[i]? = some a) (hj : l[j]? = some b) (hij : i < j) : a.d < b.d := by
  obtain ⟨h1, rfl⟩ := List.getElem?_eq_some_iff.mp hi
  obtain ⟨h2, rfl⟩ := List.getElem?_eq_some_iff.mp hj
  exact List.pairwise_iff_getElem.mp h i j h1 h2 hij

theorem index_of_days {l : List Pt} (h : Days l) {i j : Nat} {a b : Pt} (hi : l[i]? = some a) (hj : l[j]? = some b) (hab : a.d < b.d) : i < j := by
  rcases Nat.lt_trichotomy i j with h1 | h1 | h1
  · exact h1
  · subst h1
    rw [hi] at hj
    cases hj
    omega
  · have := days_index h hj hi h1
    omega

theorem rises_iff {a b : Pt} (h : a.d < b.d) : rises a b = true ↔ a.v < b.v := by
  have hp : (0 : Rat) < ((b.d - a.d : Int) : Rat) := by exact_mod_cast Int.sub_pos.mpr h
  unfold rises
  rw [if_neg (by omega), decide_eq_true_eq]
  constructor
  · intro h
    have := (div_pos_iff_of_pos_right hp).mp h
    linarith
  · intro h
    exact div_pos (by linarith) hp

theorem falls_iff {b c : Pt} (h : b.d < c.d) : falls b c = true ↔ c.v ≤ b.v := by
  have hp : (0 : Rat) < ((c.d - b.d : Int) : Rat) := by exact_mod_cast Int.sub_pos.mpr h
  unfold falls
  rw [if_neg (by omega), decide_eq_true_eq, div_le_iff₀ hp]
  constructor <;> intro h <;> linarith

/-- A top among the terms of the loop. -/
def Top (L : List Pt) (i : Nat) (p : Pt) : Prop :=
  0 < i ∧ L[i]? = some p ∧ (∃ a, L[i - 1]? = some a ∧ a.v < p.v) ∧ ∃ c, L[i + 1]? = some c ∧ c.v ≤ p.v

theorem top_iff (l : List Pt) (i : Nat) (p : Pt) : Top l.dropLast i p ↔ TopAt l i p := by
  have hd : ∀ k, k + 1 < l.length → l.dropLast[k]? = l[k]? := by
    intro k hk
    rw [List.dropLast_eq_take, List.getElem?_take_of_lt (by omega)]
  unfold Top TopAt
  constructor
  · rintro ⟨h0, h1, ⟨a, ha, hv⟩, ⟨c, hc, hw⟩⟩
    have hl : i + 1 < l.dropLast.length := (List.getElem?_eq_some_iff.mp hc).1
    rw [List.length_dropLast] at hl
    rw [hd _ (by omega)] at h1 ha hc
    exact ⟨h0, by omega, h1, ⟨a, ha, hv⟩, ⟨c, hc, hw⟩⟩
  · rintro ⟨h0, hl, h1, ⟨a, ha, hv⟩, ⟨c, hc, hw⟩⟩
    exact ⟨h0, by rw [hd _ (by omega)]; exact h1, ⟨a, by rw [hd _ (by omega)]; exact ha, hv⟩, ⟨c, by rw [hd _ (by omega)]; exact hc, hw⟩⟩

theorem days_dropLast {l : List Pt} (h : Days l) : Days l.dropLast := List.Pairwise.sublist (List.dropLast_sublist l) h

/-- What is found by the test of a turn. -/
theorem test_iff {L : List Pt} (h : Days L) {j : Nat} {a b c : Pt} (ha : L[j]? = some a) (hb : L[j + 1]? = some b) (hc : L[j + 2]? = some c) :
    (rises a b && falls b c) = true ↔ Top L (j + 1) b := by
  rw [Bool.and_eq_true, rises_iff (days_index h ha hb (by omega)), falls_iff (days_index h hb hc (by omega))]
  constructor
  · rintro ⟨h1, h2⟩
    exact ⟨by omega, hb, ⟨a, ha, h1⟩, ⟨c, hc, h2⟩⟩
  · rintro ⟨-, -, ⟨a', ha', h1⟩, ⟨c', hc', h2⟩⟩
    have e1 : a' = a := by
      have : L[j]? = some a' := ha'
      rw [ha] at this
      exact (Option.some.inj this).symm
    have e2 : c' = c := by
      have : L[j + 2]? = some c' := hc'
      rw [hc] at this
      exact (Option.some.inj this).symm
    subst e1; subst e2
    exact ⟨h1, h2⟩

/-- The invariant of the loop; `f` is the first term. -/
structure PeakInv (w : Rat) (L : List Pt) (f : Pt) (k : Nat) (s : Int × Int × List (Nat × Pt)) : Prop where
  top : ∀ x ∈ s.2.2, Top L x.1 x.2 ∧ x.1 < k
  order : s.2.2.Pairwise fun x y => y.1 < x.1 ∧ w < ((x.2.d - y.2.d : Int) : Rat)
  none : s.2.2 = [] → s.1 = f.d ∧ s.2.1 = int f.v
  some : ∀ x r, s.2.2 = x :: r → s.1 = x.2.d ∧ s.2.1 = int x.2.v

theorem inv_step {w m : Rat} {L : List Pt} (hL : Days L) {f : Pt} (j : Nat) (s : Int × Int × List (Nat × Pt)) (a b c : Pt)
    (ha : L[j]? = some a) (hb : L[j + 1]? = some b) (hc : L[j + 2]? = some c) (h : PeakInv w L f (j + 1) s) :
    PeakInv w L f (j + 2) (peakStep w m (j + 1) s a b c) := by
  have up : PeakInv w L f (j + 2) s := ⟨fun x hx => ⟨(h.top x hx).1, by have := (h.top x hx).2; omega⟩, h.order, h.none, h.some⟩
  unfold peakStep
  split
  · rename_i ht
    have htop := (test_iff hL ha hb hc).mp ht
    split
    · rename_i hw
      split
      · refine ⟨?_, ?_, by simp, ?_⟩
        · intro x hx
          rcases List.mem_cons.mp hx with rfl | hx
          · exact ⟨htop, by simp⟩
          · exact up.top x hx
        · refine List.pairwise_cons.mpr ⟨fun y hy => ⟨(h.top y hy).2, ?_⟩, h.order⟩
          obtain ⟨tl, vl, acc⟩ := s
          cases acc with
          | nil => simp at hy
          | cons x r =>
            have e := (h.some x r rfl).1
            simp only at e hw hy ⊢
            rcases List.mem_cons.mp hy with rfl | hy
            · rw [← e]; exact hw
            · have h1 := (List.pairwise_cons.mp h.order).1 y hy
              have h2 := days_index hL (h.top y (by simp [hy])).1.2.1 (h.top x (by simp)).1.2.1 h1.1
              refine lt_trans hw ?_
              rw [e]
              exact_mod_cast by omega
        · intro x r hx
          simp only [List.cons.injEq] at hx
          rw [← hx.1]
          exact ⟨rfl, rfl⟩
      · exact up
    · split
      · refine ⟨?_, ?_, by simp, ?_⟩
        · intro x hx
          rcases List.mem_cons.mp hx with rfl | hx
          · exact ⟨htop, by simp⟩
          · exact up.top x (List.mem_of_mem_tail hx)
        · refine List.pairwise_cons.mpr ⟨fun y hy => ⟨(h.top y (List.mem_of_mem_tail hy)).2, ?_⟩, h.order.tail⟩
          obtain ⟨tl, vl, acc⟩ := s
          cases acc with
          | nil => simp at hy
          | cons x r =>
            simp only [List.tail_cons] at hy
            have h1 := (List.pairwise_cons.mp h.order).1 y hy
            have h2 := days_index hL (h.top x (by simp)).1.2.1 hb (h.top x (by simp)).2
            refine lt_trans h1.2 ?_
            exact_mod_cast by simp only; omega
        · intro x r hx
          simp only [List.cons.injEq] at hx
          rw [← hx.1]
          exact ⟨rfl, rfl⟩
      · exact up
  · exact up

/-- Tops that are not taken have a peak at least as high with no other peak between. -/
def Dominated (w m : Rat) (L : List Pt) (f : Pt) (k : Nat) (acc : List (Nat × Pt)) : Prop :=
  ∀ i p, Top L i p → i < k → m < p.v → w < ((p.d - f.d : Int) : Rat) →
    ∃ q ∈ acc, p.v ≤ q.2.v ∧ ∀ x ∈ acc, ¬ (i < x.1 ∧ x.1 < q.1) ∧ ¬ (q.1 < x.1 ∧ x.1 < i)

theorem int_of_int {x : Rat} (h : ∃ n : Int, x = n) : ((int x : Int) : Rat) = x := by
  obtain ⟨n, rfl⟩ := h
  unfold int
  split
  · rw [← Int.cast_neg, Int.floor_intCast, neg_neg]
  · rw [Int.floor_intCast]

theorem dom_step {w m : Rat} {L : List Pt} (hL : Days L) (hi : ∀ p ∈ L, ∃ n : Int, p.v = n) {f : Pt} (j : Nat)
    (s : Int × Int × List (Nat × Pt)) (a b c : Pt) (ha : L[j]? = some a) (hb : L[j + 1]? = some b) (hc : L[j + 2]? = some c)
    (h : PeakInv w L f (j + 1) s) (hd : Dominated w m L f (j + 1) s.2.2) : Dominated w m L f (j + 2) (peakStep w m (j + 1) s a b c).2.2 := by
  -- what is new is term number `j + 1`
  have new : ∀ acc, (∀ i p, Top L i p → i < j + 1 → m < p.v → w < ((p.d - f.d : Int) : Rat) →
      ∃ q ∈ acc, p.v ≤ q.2.v ∧ ∀ x ∈ acc, ¬ (i < x.1 ∧ x.1 < q.1) ∧ ¬ (q.1 < x.1 ∧ x.1 < i)) →
      (Top L (j + 1) b → m < b.v → w < ((b.d - f.d : Int) : Rat) →
        ∃ q ∈ acc, b.v ≤ q.2.v ∧ ∀ x ∈ acc, ¬ (j + 1 < x.1 ∧ x.1 < q.1) ∧ ¬ (q.1 < x.1 ∧ x.1 < j + 1)) →
      Dominated w m L f (j + 2) acc := by
    intro acc h1 h2 i p ht hk hm hw
    rcases Nat.lt_or_ge i (j + 1) with hlt | hge
    · exact h1 i p ht hlt hm hw
    · have hij : i = j + 1 := by omega
      subst hij
      have : p = b := by
        have := ht.2.1
        rw [hb] at this
        exact (Option.some.inj this).symm
      subst this
      exact h2 ht hm hw
  unfold peakStep
  split
  · rename_i ht
    split
    · rename_i hw
      split
      · rename_i hm
        refine new _ ?_ ?_
        · intro i p htop hk hmp hwp
          obtain ⟨q, hq, hv, hx⟩ := hd i p htop hk hmp hwp
          refine ⟨q, by simp [hq], hv, fun x hxm => ?_⟩
          rcases List.mem_cons.mp hxm with rfl | hxm
          · have := (h.top q hq).2
            simp only
            omega
          · exact hx x hxm
        · intro _ _ _
          refine ⟨(j + 1, b), by simp, le_rfl, fun x hxm => ?_⟩
          simp only
          omega
      · rename_i hm
        exact new _ hd fun _ hmb _ => absurd hmb hm
    · rename_i hw
      split
      · rename_i hv
        refine new _ ?_ ?_
        · intro i p htop hk hmp hwp
          obtain ⟨q, hq, hvq, hx⟩ := hd i p htop hk hmp hwp
          obtain ⟨tl, vl, acc⟩ := s
          cases acc with
          | nil => simp at hq
          | cons y r =>
            have hy := h.top y (by simp)
            have e := (h.some y r rfl).2
            simp only at e hv hq hx
            have hyb : y.2.v < b.v := by
              rw [e, int_of_int (hi y.2 (List.mem_of_getElem? hy.1.2.1))] at hv
              exact hv
            rcases List.mem_cons.mp hq with rfl | hq
            · refine ⟨(j + 1, b), by simp, by simp only; linarith, fun x hxm => ?_⟩
              rcases List.mem_cons.mp hxm with rfl | hxm
              · simp only; omega
              · simp only [List.tail_cons] at hxm
                have h1 := hx x (by simp [hxm])
                have h2 := ((List.pairwise_cons.mp h.order).1 x hxm).1
                simp only
                omega
            · refine ⟨q, by simp [hq], hvq, fun x hxm => ?_⟩
              rcases List.mem_cons.mp hxm with rfl | hxm
              · have := (h.top q (by simp [hq])).2
                simp only; omega
              · simp only [List.tail_cons] at hxm
                exact hx x (by simp [hxm])
        · intro _ _ _
          refine ⟨(j + 1, b), by simp, le_rfl, fun x hxm => ?_⟩
          simp only
          omega
      · rename_i hv
        refine new _ hd ?_
        intro _ _ hwf
        obtain ⟨tl, vl, acc⟩ := s
        cases acc with
        | nil =>
          rw [(h.none rfl).1] at hw
          exact absurd hwf hw
        | cons y r =>
          have hy := h.top y (by simp)
          have e := (h.some y r rfl).2
          simp only at e hv
          rw [e, int_of_int (hi y.2 (List.mem_of_getElem? hy.1.2.1))] at hv
          refine ⟨y, by simp, not_lt.mp hv, fun x hxm => ?_⟩
          rcases List.mem_cons.mp hxm with rfl | hxm
          · omega
          · have h2 := ((List.pairwise_cons.mp h.order).1 x hxm).1
            have := hy.2
            omega
  · rename_i ht
    exact new _ hd fun htop _ _ => absurd ((test_iff hL ha hb hc).mpr htop) ht

/-- Exactly the tops above the least height so far. -/
def Exactly (m : Rat) (L : List Pt) (k : Nat) (acc : List (Nat × Pt)) : Prop :=
  ∀ i p, (i, p) ∈ acc ↔ Top L i p ∧ i < k ∧ m < p.v

theorem exact_step {w m : Rat} {L : List Pt} (hL : Days L) {f : Pt}
    (hs : ∀ i p, Top L i p → w < ((p.d - f.d : Int) : Rat) ∧ ∀ k q, Top L k q → k < i → w < ((p.d - q.d : Int) : Rat)) (j : Nat)
    (s : Int × Int × List (Nat × Pt)) (a b c : Pt) (ha : L[j]? = some a) (hb : L[j + 1]? = some b) (hc : L[j + 2]? = some c)
    (h : PeakInv w L f (j + 1) s) (hd : Exactly m L (j + 1) s.2.2) : Exactly m L (j + 2) (peakStep w m (j + 1) s a b c).2.2 := by
  have keep : (Top L (j + 1) b → ¬ m < b.v) → Exactly m L (j + 2) s.2.2 := by
    intro hn i p
    rw [hd i p]
    constructor
    · rintro ⟨h1, h2, h3⟩
      exact ⟨h1, by omega, h3⟩
    · rintro ⟨h1, h2, h3⟩
      refine ⟨h1, ?_, h3⟩
      by_contra hge
      have hij : i = j + 1 := by omega
      subst hij
      have : p = b := by
        have := h1.2.1
        rw [hb] at this
        exact (Option.some.inj this).symm
      subst this
      exact hn h1 h3
  unfold peakStep
  split
  · rename_i ht
    have htop := (test_iff hL ha hb hc).mp ht
    have hw : ((b.d - s.1 : Int) : Rat) > w := by
      obtain ⟨tl, vl, acc⟩ := s
      cases acc with
      | nil =>
        rw [(h.none rfl).1]
        exact (hs _ _ htop).1
      | cons y r =>
        rw [(h.some y r rfl).1]
        exact (hs _ _ htop).2 y.1 y.2 (h.top y (by simp)).1 (h.top y (by simp)).2
    rw [if_pos hw]
    split
    · rename_i hm
      intro i p
      simp only [List.mem_cons, Prod.mk.injEq]
      rw [hd i p]
      constructor
      · rintro (⟨rfl, rfl⟩ | ⟨h1, h2, h3⟩)
        · exact ⟨htop, by omega, hm⟩
        · exact ⟨h1, by omega, h3⟩
      · rintro ⟨h1, h2, h3⟩
        rcases Nat.lt_or_ge i (j + 1) with hlt | hge
        · exact Or.inr ⟨h1, hlt, h3⟩
        · have hij : i = j + 1 := by omega
          subst hij
          have := h1.2.1
          rw [hb] at this
          exact Or.inl ⟨rfl, (Option.some.inj this).symm⟩
    · rename_i hm
      exact keep fun _ => hm
  · rename_i ht
    exact keep fun h => absurd ((test_iff hL ha hb hc).mpr h) ht

/-! ### Events -/

theorem findPlace_spec {x : Rat} {i : Nat} : ∀ (l : List Pt) (j : Nat) (f z : Pt), l.head? = some f → l.getLast? = some z → (f.d : Rat) ≤ x →
    x < (z.d : Rat) → ∃ k a b, l[k]? = some a ∧ l[k + 1]? = some b ∧ (a.d : Rat) ≤ x ∧ x < (b.d : Rat) ∧ findPlace x i j l = j + k
  | [], _, _, _, h, _, _, _ => by cases h
  | [a], j, f, z, h1, h2, h3, h4 => by
    simp at h1 h2
    subst h1; subst h2
    linarith
  | a :: b :: r, j, f, z, h1, h2, h3, h4 => by
    simp only [List.head?_cons, Option.some.injEq] at h1
    subst h1
    rw [findPlace]
    split
    · rename_i h
      exact ⟨0, a, b, rfl, rfl, h.1, h.2, rfl⟩
    · rename_i h
      have hb : (b.d : Rat) ≤ x := by
        by_contra hn
        exact h ⟨h3, not_le.mp hn⟩
      obtain ⟨k, a', b', e1, e2, e3, e4, e5⟩ := findPlace_spec (b :: r) (j + 1) b z rfl (by rw [← h2, List.getLast?_cons_cons]) hb h4
      exact ⟨k + 1, a', b', by simpa using e1, by simpa using e2, e3, e4, by rw [e5]; omega⟩

theorem findPlace_none {x : Rat} {i : Nat} : ∀ (l : List Pt) (j : Nat), (∀ a ∈ l, (a.d : Rat) ≤ x) → findPlace x i j l = i
  | [], _, _ => rfl
  | [_], _, _ => rfl
  | a :: b :: r, j, h => by
    rw [findPlace, if_neg (fun hx => by have := h b (by simp); linarith [hx.2])]
    exact findPlace_none (b :: r) (j + 1) fun x hx => h x (by simp [hx])

theorem days_last {l : List Pt} (h : Days l) {z x : Pt} (hz : l.getLast? = some z) (hx : x ∈ l) : x.d ≤ z.d := by
  obtain ⟨i, hi⟩ := List.getElem?_of_mem hx
  rw [List.getLast?_eq_getElem?] at hz
  have hl := (List.getElem?_eq_some_iff.mp hi).1
  rcases Nat.lt_or_ge i (l.length - 1) with h1 | h1
  · exact (days_index h hi hz h1).le
  · have : i = l.length - 1 := by omega
    subst this
    rw [hi] at hz
    cases hz
    exact le_rfl

theorem days_head {l : List Pt} (h : Days l) {f x : Pt} (hf : l.head? = some f) (hx : x ∈ l) : f.d ≤ x.d := by
  obtain ⟨i, hi⟩ := List.getElem?_of_mem hx
  rw [List.head?_eq_getElem?] at hf
  rcases Nat.eq_zero_or_pos i with rfl | h1
  · rw [hi] at hf
    cases hf
    exact le_rfl
  · exact (days_index h hf hi h1).le

theorem mem_slice {l : List Pt} {j1 j2 : Nat} {x : Pt} : x ∈ (l.take (j2 + 1)).drop j1 ↔ ∃ k, j1 ≤ k ∧ k ≤ j2 ∧ l[k]? = some x := by
  rw [List.mem_iff_getElem?]
  constructor
  · rintro ⟨k, hk⟩
    rw [List.getElem?_drop] at hk
    have : j1 + k < j2 + 1 := by
      by_contra hn
      rw [List.getElem?_take, if_neg (by omega)] at hk
      cases hk
    rw [List.getElem?_take_of_lt this] at hk
    exact ⟨j1 + k, by omega, by omega, hk⟩
  · rintro ⟨k, h1, h2, hk⟩
    refine ⟨k - j1, ?_⟩
    rw [List.getElem?_drop, List.getElem?_take_of_lt (by omega)]
    rw [show j1 + (k - j1) = k by omega]
    exact hk

/-- The terms of an event: `e` is the end of the event if it is before the last term, or else the peak. -/
theorem event_iff {l : List Pt} (h : Days l) {i : Nat} {p z : Pt} (hp : l[i]? = some p) (hz : l.getLast? = some z) {rise fall : Rat}
    (hr : 0 ≤ rise) (hf : 0 ≤ fall) (hi : p.d < z.d) (x : Pt) :
    x ∈ getEvent l rise fall i ↔ x ∈ l ∧ (x.d : Rat) ≤ (if (p.d : Rat) + fall < z.d then (p.d : Rat) + fall else p.d) ∧
      ∀ y ∈ l, x.d < y.d → (p.d : Rat) - rise < y.d := by
  have hpl := List.mem_of_getElem? hp
  cases hh : l.head? with
  | none =>
    rw [List.head?_eq_none_iff] at hh
    subst hh
    simp at hpl
  | some f =>
    have hfp := days_head h hh hpl
    unfold getEvent
    simp only [hp, hh, hz]
    have hfz : (f.d : Rat) ≤ p.d := by exact_mod_cast hfp
    have hpz : (p.d : Rat) < z.d := by exact_mod_cast hi
    obtain ⟨k1, a1, b1, c1, c2, c3, c4, c5⟩ := findPlace_spec (x := if (p.d : Rat) - rise < f.d then (f.d : Rat) else p.d - rise) (i := i) l 0 f z
      hh hz (by split <;> linarith) (by split <;> linarith)
    rw [c5, Nat.zero_add]
    -- the end
    have hend : ∃ k2, findPlace (if (p.d : Rat) + fall > z.d then (z.d : Rat) else p.d + fall) i 0 l = k2 ∧
        ∀ k y, l[k]? = some y → (k ≤ k2 ↔ (y.d : Rat) ≤ (if (p.d : Rat) + fall < z.d then (p.d : Rat) + fall else p.d)) := by
      by_cases hc : (p.d : Rat) + fall < z.d
      · rw [if_neg (by linarith), if_pos hc]
        obtain ⟨k2, a2, b2, d1, d2, d3, d4, d5⟩ := findPlace_spec (x := (p.d : Rat) + fall) (i := i) l 0 f z hh hz (by linarith) hc
        refine ⟨k2, by rw [d5, Nat.zero_add], fun k y hk => ?_⟩
        constructor
        · intro hle
          rcases Nat.lt_or_ge k k2 with h1 | h1
          · have := days_index h hk d1 h1
            have : (y.d : Rat) < a2.d := by exact_mod_cast this
            linarith
          · have : k = k2 := by omega
            subst this
            rw [hk] at d1
            cases d1
            exact d3
        · intro hle
          have : (y.d : Rat) < b2.d := lt_of_le_of_lt hle d4
          have := index_of_days h hk d2 (by exact_mod_cast this)
          omega
      · rw [if_neg hc]
        have e : (if (p.d : Rat) + fall > z.d then (z.d : Rat) else p.d + fall) = z.d := by
          split
          · rfl
          · linarith
        rw [e]
        refine ⟨i, findPlace_none l 0 fun a ha => by exact_mod_cast days_last h hz ha, fun k y hk => ?_⟩
        constructor
        · intro hle
          rcases Nat.lt_or_ge k i with h1 | h1
          · have := days_index h hk hp h1
            exact_mod_cast this.le
          · have : k = i := by omega
            subst this
            rw [hk] at hp
            cases hp
            exact le_rfl
        · intro hle
          by_contra hn
          have := days_index h hp hk (by omega)
          have : (p.d : Rat) < y.d := by exact_mod_cast this
          linarith
    obtain ⟨k2, e1, e2⟩ := hend
    rw [e1, mem_slice]
    constructor
    · rintro ⟨k, h1, h2, hk⟩
      refine ⟨List.mem_of_getElem? hk, (e2 k x hk).mp h2, fun y hy hxy => ?_⟩
      obtain ⟨ky, hky⟩ := List.getElem?_of_mem hy
      have h3 := index_of_days h hk hky hxy
      have h4 : (b1.d : Rat) ≤ y.d := by
        rcases Nat.lt_or_ge (k1 + 1) ky with h5 | h5
        · exact_mod_cast (days_index h c2 hky h5).le
        · have : ky = k1 + 1 := by omega
          subst this
          rw [hky] at c2
          cases c2
          exact le_rfl
      have h5 : (p.d : Rat) - rise ≤ (if (p.d : Rat) - rise < f.d then (f.d : Rat) else p.d - rise) := by split <;> linarith
      linarith
    · rintro ⟨hx, h2, h3⟩
      obtain ⟨k, hk⟩ := List.getElem?_of_mem hx
      refine ⟨k, ?_, (e2 k x hk).mpr h2, hk⟩
      by_contra hn
      have h4 := days_index h hk c1 (by omega)
      have h5 := h3 a1 (List.mem_of_getElem? c1) h4
      have h6 : (f.d : Rat) < a1.d := by
        have := days_head h hh hx
        exact_mod_cast (by omega : f.d < a1.d)
      split at c3 <;> linarith

theorem event_order {l : List Pt} (h : Days l) (rise fall : Rat) (i : Nat) : Days (getEvent l rise fall i) := by
  unfold getEvent
  split
  · exact List.Pairwise.sublist ((List.drop_sublist _ _).trans (List.take_sublist _ _)) h
  · exact List.Pairwise.nil

end Verif.Tsp
