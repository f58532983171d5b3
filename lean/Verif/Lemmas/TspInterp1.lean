import Verif.Lemmas.TspStat
import Verif.Spec.TspInterp
/-
Lemmas for C128: volumes.
-/
namespace Verif.Tsp

theorem gap_eq (a b : Clock) : gap a b = (a.time : Rat) - b.time := by
  unfold gap Clock.time
  push_cast; ring

theorem Ordered.tail {p : Term} {s : List Term} (h : Ordered (p :: s)) : Ordered s :=
  ⟨(List.pairwise_cons.1 h.1).2, fun t ht => h.2 t (by simp [ht])⟩

theorem Ordered.lt {p q : Term} {s : List Term} (h : Ordered (p :: q :: s)) : p.t < q.t := by
  unfold Term.t
  exact_mod_cast (List.pairwise_cons.1 h.1).1 q (by simp)

theorem area_after (b f : Rat) : ∀ (s : List Term), Ordered s → (∀ p ∈ s, f ≤ p.t) → area b f s = 0
  | [], _, _ => rfl
  | [_], _, _ => rfl
  | p :: q :: r, h, hf => by
    rw [area, area_after b f (q :: r) h.tail (fun t ht => hf t (List.mem_cons_of_mem _ ht)), add_zero, piece, if_neg]
    rw [not_lt]
    have h1 := hf p (by simp)
    exact le_trans (min_le_left _ _) (le_trans h1 (le_max_right _ _))

theorem Ordered.head_le {p : Term} {s : List Term} (h : Ordered (p :: s)) : ∀ t ∈ p :: s, p.t ≤ t.t := by
  intro t ht
  rcases List.mem_cons.1 ht with rfl | ht
  · exact le_refl _
  · unfold Term.t
    exact_mod_cast le_of_lt ((List.pairwise_cons.1 h.1).1 t ht)

theorem later_t {c : Clock} {q : Term} (hc : c.Proper) (hq : q.at_.Proper) : later c q.at_ = true ↔ q.t < (c.time : Rat) := by
  rw [later_iff hc hq]
  unfold Term.t
  exact Int.cast_lt.symm

theorem volFirst_spec {b : Clock} (hb : b.Proper) (f : Rat) : ∀ (p : Term) (s : List Term), Ordered (p :: s) → p.t ≤ b.time →
    (b.time : Rat) ≤ ((p :: s).getLast (by simp)).t → s ≠ [] →
    ∃ A p' q' r, p :: s = A ++ p' :: q' :: r ∧ volFirst b (p :: s) = some (p', q', r) ∧ p'.t ≤ b.time ∧ (b.time : Rat) ≤ q'.t ∧
      area b.time f (p :: s) = area b.time f (p' :: q' :: r)
  | p, [], _, _, _, h => absurd rfl h
  | p, q :: r, ho, hp, hl, _ => by
    have hq : q.at_.Proper := ho.2 q (by simp)
    rw [volFirst]
    by_cases hc : later b q.at_ = true
    · rw [if_pos hc]
      have hqb := (later_t hb hq).1 hc
      have hr : r ≠ [] := by
        rintro rfl
        simp only [List.getLast_cons_cons, List.getLast_singleton] at hl
        linarith
      obtain ⟨A, p', q', r', e, h1, h2, h3, h4⟩ := volFirst_spec hb f q r ho.tail (le_of_lt hqb)
        (by rwa [List.getLast_cons_cons] at hl) hr
      refine ⟨p :: A, p', q', r', by rw [e]; rfl, h1, h2, h3, ?_⟩
      rw [area, h4, piece, if_neg, zero_add]
      rw [not_lt]
      exact le_trans (min_le_right _ _) (le_trans (le_of_lt hqb) (le_max_left _ _))
    · rw [if_neg hc]
      refine ⟨[], p, q, r, rfl, rfl, hp, ?_, rfl⟩
      rw [later_t hb hq, not_lt] at hc
      exact hc

/-- The volume of the last interval as the code has it. -/
def volEnd (f : Clock) (p q : Term) : Rat :=
  gap f p.at_ * (p.val + (q.val - p.val) / gap q.at_ p.at_ * (1 / 2) * gap f p.at_)

theorem volEnd_eq {f : Clock} {b : Rat} {p q : Term} (hpq : p.t < q.t) (hb : b ≤ p.t) (hp : p.t < f.time) (hq : (f.time : Rat) ≤ q.t) :
    volEnd f p q = piece b f.time p q := by
  have hne : q.t - p.t ≠ 0 := by linarith
  unfold volEnd piece line
  rw [gap_eq, gap_eq, max_eq_right hb, min_eq_left hq, if_pos hp]
  change ((f.time : Rat) - p.t) * (p.val + (q.val - p.val) / (q.t - p.t) * (1 / 2) * ((f.time : Rat) - p.t)) = _
  field_simp
  ring

theorem volLast_spec {f : Clock} (hf : f.Proper) (b : Rat) : ∀ (r : List Term) (p q : Term) (vm : Rat), Ordered (p :: q :: r) →
    b ≤ p.t → p.t < f.time → (f.time : Rat) ≤ ((q :: r).getLast (by simp)).t →
    ∃ p' q' vm', volLast f false vm p q r = some (p', q', false, vm') ∧ p'.t < q'.t ∧
      vm' + volEnd f p' q' = vm + area b f.time (p :: q :: r)
  | [], p, q, vm, ho, hb, hp, hl => by
    have hq : q.at_.Proper := ho.2 q (by simp)
    rw [List.getLast_singleton] at hl
    refine ⟨p, q, vm, ?_, ho.lt, ?_⟩
    · rw [volLast, if_neg]
      rw [later_t hf hq, not_lt]; exact hl
    · have hz : area b f.time [q] = 0 := rfl
      rw [volEnd_eq ho.lt hb hp hl, area, hz, add_zero]
  | q' :: r, p, q, vm, ho, hb, hp, hl => by
    have hq : q.at_.Proper := ho.2 q (by simp)
    rw [volLast]
    by_cases hc : later f q.at_ = true
    · rw [if_pos hc]
      have hqf := (later_t hf hq).1 hc
      have hpq := ho.lt
      obtain ⟨p1, q1, vm1, e, h1, h2⟩ := volLast_spec hf b r q q' (vm + 1 / 2 * (q.val + p.val) * gap q.at_ p.at_) ho.tail
        (by linarith) hqf (by rwa [List.getLast_cons_cons] at hl)
      refine ⟨p1, q1, vm1, by simpa using e, h1, ?_⟩
      rw [h2]
      conv_rhs => rw [area]
      have hne : q.t - p.t ≠ 0 := by linarith
      have : piece b f.time p q = 1 / 2 * (q.val + p.val) * gap q.at_ p.at_ := by
        unfold piece line
        rw [max_eq_right hb, min_eq_right (le_of_lt hqf), if_pos hpq, gap_eq]
        change _ = 1 / 2 * (q.val + p.val) * (q.t - p.t)
        field_simp
        ring
      rw [this]; ring
    · rw [if_neg hc]
      rw [later_t hf hq, not_lt] at hc
      refine ⟨p, q, vm, rfl, ho.lt, ?_⟩
      rw [volEnd_eq ho.lt hb hp hc]
      conv_rhs => rw [area]
      rw [area_after b f.time (q :: q' :: r) ho.tail fun t ht => le_trans hc (ho.tail.head_le t ht), add_zero]

theorem Ordered.append {A B : List Term} (h : Ordered (A ++ B)) : Ordered B :=
  ⟨(List.pairwise_append.1 h.1).2.1, fun t ht => h.2 t (by simp [ht])⟩

theorem volume_spec {s : List Term} (ho : Ordered s) (h2 : 2 ≤ s.length) {b f : Clock} (hb : b.Proper) (hf : f.Proper)
    (h1 : ∀ p ∈ s.head?, p.t ≤ b.time) (hbf : b.time ≤ f.time) (hl : ∀ p ∈ s.getLast?, (f.time : Rat) ≤ p.t) (fac : Rat) :
    volume s b f fac = some (area b.time f.time s * fac / 86400) := by
  obtain ⟨p0, s0, rfl⟩ : ∃ p0 s0, s = p0 :: s0 := by
    cases s with
    | nil => simp at h2
    | cons p s => exact ⟨p, s, rfl⟩
  have hs0 : s0 ≠ [] := by rintro rfl; simp at h2
  have hbf' : (b.time : Rat) ≤ f.time := by exact_mod_cast hbf
  have hl' : (f.time : Rat) ≤ ((p0 :: s0).getLast (by simp)).t := hl _ (List.getLast?_eq_some_getLast (by simp))
  obtain ⟨A, p, q, r, e, v1, hpb, hbq, ha⟩ := volFirst_spec hb f.time p0 s0 ho (h1 p0 rfl) (le_trans hbf' hl') hs0
  have ho' : Ordered (p :: q :: r) := by rw [e] at ho; exact ho.append
  have hlast : (f.time : Rat) ≤ ((q :: r).getLast (by simp)).t := by
    have : (p0 :: s0).getLast (by simp) = (q :: r).getLast (by simp) := by
      simp only [e]
      rw [List.getLast_append_of_ne_nil _ (by simp), List.getLast_cons_cons]
    rwa [this] at hl'
  have hpq := ho'.lt
  have hne : q.t - p.t ≠ 0 := by linarith
  have hq : q.at_.Proper := ho'.2 q (by simp)
  unfold volume
  rw [v1]
  simp only
  rw [if_neg (by rw [gap_eq]; change ¬ q.t - p.t ≤ 0; linarith), ha]
  by_cases hc : later f q.at_ = true
  · have hqf := (later_t hf hq).1 hc
    have hr : r ≠ [] := by
      rintro rfl
      rw [List.getLast_singleton] at hlast
      linarith
    obtain ⟨q', r', rfl⟩ : ∃ q' r', r = q' :: r' := by
      cases r with
      | nil => exact absurd rfl hr
      | cons p s => exact ⟨p, s, rfl⟩
    obtain ⟨p1, q1, vm1, e1, g1, g2⟩ := volLast_spec hf b.time r' q q' 0 ho'.tail hbq hqf (by rwa [List.getLast_cons_cons] at hlast)
    have e2 : volLast f true 0 p q (q' :: r') = some (p1, q1, false, vm1) := by
      rw [volLast, if_pos hc]; simpa using e1
    rw [e2]
    simp only
    rw [if_neg (by rw [gap_eq]; change ¬ q1.t - p1.t = 0; linarith)]
    simp only [Bool.false_eq_true, if_false]
    have hb1 : gap q.at_ b * (q.val - (q.val - p.val) / gap q.at_ p.at_ * (1 / 2) * gap q.at_ b) = piece b.time f.time p q := by
      unfold piece line
      rw [max_eq_left hpb, min_eq_right (le_of_lt hqf), gap_eq, gap_eq]
      change (q.t - b.time) * (q.val - (q.val - p.val) / (q.t - p.t) * (1 / 2) * (q.t - b.time)) = _
      split_ifs with hlt
      · field_simp
        ring
      · have : (b.time : Rat) = q.t := le_antisymm hbq (not_lt.1 hlt)
        rw [this]; ring
    rw [hb1, area]
    unfold volEnd at g2
    rw [show piece b.time f.time p q + vm1 + _ = piece b.time f.time p q +
      (vm1 + gap f p1.at_ * (p1.val + (q1.val - p1.val) / gap q1.at_ p1.at_ * (1 / 2) * gap f p1.at_)) by ring, g2, zero_add]
  · have e2 : volLast f true 0 p q r = some (p, q, true, 0) := by
      cases r with
      | nil => rw [volLast, if_neg hc]
      | cons _ _ => rw [volLast, if_neg hc]
    rw [later_t hf hq, not_lt] at hc
    rw [e2]
    simp only
    rw [if_neg (by rw [gap_eq]; change ¬ q.t - p.t = 0; linarith)]
    simp only [if_true]
    rw [area, area_after _ _ (q :: r) ho'.tail fun t ht => le_trans hc (ho'.tail.head_le t ht), add_zero]
    congr 3
    unfold piece line
    rw [max_eq_left hpb, min_eq_left hc, gap_eq, gap_eq, gap_eq]
    change (q.t - b.time) * (q.val - (q.val - p.val) / (q.t - p.t) * (1 / 2) * (q.t - b.time)) +
      -(1 / 2) * (q.val + p.val) * (q.t - p.t) +
      ((f.time : Rat) - p.t) * (p.val + (q.val - p.val) / (q.t - p.t) * (1 / 2) * ((f.time : Rat) - p.t)) = _
    split_ifs with hlt
    · field_simp
      ring
    · have : (b.time : Rat) = f.time := le_antisymm hbf' (not_lt.1 hlt)
      rw [this]
      field_simp
      ring

theorem piece_add {p q : Term} (hpq : p.t < q.t) {b m f : Rat} (h1 : b ≤ m) (h2 : m ≤ f) :
    piece b m p q + piece m f p q = piece b f p q := by
  have hne : q.t - p.t ≠ 0 := by linarith
  unfold piece line
  rcases le_total m p.t with hm | hm
  · -- the first piece is empty
    rw [if_neg (by rw [not_lt]; exact le_trans (min_le_left _ _) (le_trans hm (le_max_right _ _))), zero_add, max_eq_right hm,
      max_eq_right (le_trans h1 hm)]
  · rcases le_total q.t m with hq | hq
    · rw [if_neg (c := max m p.t < min f q.t) (by rw [not_lt]; exact le_trans (min_le_right _ _) (le_trans hq (le_max_left _ _))),
        add_zero, min_eq_right hq, min_eq_right (le_trans hq h2)]
    · rw [min_eq_left hq, max_eq_left hm]
      have hlo : max b p.t ≤ m := max_le h1 hm
      have hhi : m ≤ min f q.t := le_min h2 hq
      generalize max b p.t = lo at *
      generalize min f q.t = hi at *
      rcases eq_or_lt_of_le hlo with e1 | e1
      · rw [if_neg (by rw [e1]; exact lt_irrefl _), zero_add, e1]
      · rcases eq_or_lt_of_le hhi with e2 | e2
        · rw [if_neg (c := m < hi) (by rw [e2]; exact lt_irrefl _), add_zero, e2]
        · rw [if_pos e1, if_pos e2, if_pos (lt_trans e1 e2)]
          field_simp
          ring

theorem area_add {b m f : Rat} (h1 : b ≤ m) (h2 : m ≤ f) : ∀ (s : List Term), Ordered s → area b m s + area m f s = area b f s
  | [], _ => by simp [area]
  | [_], _ => by simp [area]
  | p :: q :: r, h => by
    have := area_add h1 h2 (q :: r) h.tail
    have h3 := piece_add h.lt h1 h2
    rw [area, area, area]
    linarith

theorem line_bounds {p q : Term} (hpq : p.t < q.t) {lo hi x : Rat} (hp : lo ≤ p.val ∧ p.val ≤ hi) (hq : lo ≤ q.val ∧ q.val ≤ hi)
    (h1 : p.t ≤ x) (h2 : x ≤ q.t) : lo ≤ line p q x ∧ line p q x ≤ hi := by
  have hd : 0 < q.t - p.t := by linarith
  have hk0 : 0 ≤ (x - p.t) / (q.t - p.t) := div_nonneg (by linarith) (by linarith)
  have hk1 : (x - p.t) / (q.t - p.t) ≤ 1 := by rw [div_le_one hd]; linarith
  unfold line
  rw [mul_div_assoc]
  generalize (x - p.t) / (q.t - p.t) = k at *
  constructor <;> nlinarith

theorem area_bounds {b f lo hi : Rat} (hbf : b ≤ f) : ∀ (s : List Term), Ordered s → (∀ p ∈ s, lo ≤ p.val ∧ p.val ≤ hi) →
    (∀ p ∈ s.head?, p.t ≤ b) → (∀ p ∈ s.getLast?, f ≤ p.t) → s ≠ [] → lo * (f - b) ≤ area b f s ∧ area b f s ≤ hi * (f - b)
  | [], _, _, _, _, h => absurd rfl h
  | [p], _, _, h1, h2, _ => by
    have e1 := h1 p rfl
    have e2 := h2 p rfl
    have : b = f := by linarith
    have hz : area f f [p] = 0 := rfl
    rw [this, hz]; simp
  | p :: q :: r, ho, hv, h1, h2, _ => by
    have hpq := ho.lt
    have e1 := h1 p rfl
    rw [area]
    have key : ∀ x y, p.t ≤ x → x < y → y ≤ q.t → lo * (y - x) ≤ (y - x) * ((line p q x + line p q y) / 2) ∧
        (y - x) * ((line p q x + line p q y) / 2) ≤ hi * (y - x) := by
      intro x y a1 a2 a3
      have l1 := line_bounds hpq (hv p (by simp)) (hv q (by simp)) (x := x) a1 (by linarith)
      have l2 := line_bounds hpq (hv p (by simp)) (hv q (by simp)) (x := y) (by linarith) a3
      constructor <;> nlinarith
    rcases le_total f q.t with hf | hf
    · rw [area_after b f (q :: r) ho.tail fun t ht => le_trans hf (ho.tail.head_le t ht), add_zero]
      unfold piece
      rw [max_eq_left e1, min_eq_left hf]
      split_ifs with hlt
      · exact key b f e1 hlt hf
      · have : b = f := le_antisymm hbf (not_lt.1 hlt)
        rw [this]; simp
    · rcases le_total b q.t with hb | hb
      · have ih := area_bounds (b := q.t) (f := f) hf (q :: r) ho.tail (fun t ht => hv t (List.mem_cons_of_mem _ ht))
          (fun t ht => by cases ht; exact le_refl _) (by rwa [List.getLast?_cons_cons] at h2) (by simp)
        have hz : area b q.t (q :: r) = 0 := area_after b q.t (q :: r) ho.tail fun t ht => ho.tail.head_le t ht
        have hadd := area_add hb hf (q :: r) ho.tail
        rw [hz, zero_add] at hadd
        rw [← hadd]
        unfold piece
        rw [max_eq_left e1, min_eq_right hf]
        split_ifs with hlt
        · have := key b q.t e1 hlt (le_refl _)
          constructor <;> nlinarith [this.1, this.2, ih.1, ih.2]
        · have : b = q.t := le_antisymm hb (not_lt.1 hlt)
          rw [this, zero_add]; exact ih
      · have ih := area_bounds hbf (q :: r) ho.tail (fun t ht => hv t (List.mem_cons_of_mem _ ht))
          (fun t ht => by cases ht; exact hb) (by rwa [List.getLast?_cons_cons] at h2) (by simp)
        unfold piece
        rw [if_neg, zero_add]
        · exact ih
        · rw [not_lt]; exact le_trans (min_le_right _ _) (le_trans hb (le_max_left _ _))

end Verif.Tsp
