import Verif.Lemmas.TspInterp1
import Mathlib.Tactic.LinearCombination
/-
Lemmas for C130: durations.
-/
namespace Verif.Tsp

theorem isOn_iff (over : Bool) (flow v : Rat) : isOn over flow v = true ↔ Meets over flow v := by
  unfold isOn Meets
  cases over <;> simp

/-- How far the flow is over (or under) the threshold. -/
def exc (over : Bool) (flow v : Rat) : Rat := if over then v - flow else flow - v

theorem meets_exc (over : Bool) (flow v : Rat) : Meets over flow v ↔ 0 ≤ exc over flow v := by
  unfold Meets exc
  cases over <;> simp

theorem exc_line (over : Bool) (flow : Rat) (p q : Term) (x : Rat) : exc over flow (line p q x) =
    exc over flow p.val + (exc over flow q.val - exc over flow p.val) * (x - p.t) / (q.t - p.t) := by
  unfold exc line
  cases over <;> simp only [if_true, if_false, Bool.false_eq_true] <;> ring

theorem cross_up (over : Bool) (flow dt : Rat) (p q : Term) : dt * (q.val - flow) / (q.val - p.val) =
    dt * exc over flow q.val / (exc over flow q.val - exc over flow p.val) := by
  unfold exc
  cases over <;> simp only [if_true, if_false, Bool.false_eq_true]
  · rw [show flow - q.val = -(q.val - flow) by ring, show -(q.val - flow) - (flow - p.val) = -(q.val - p.val) by ring, mul_neg,
      neg_div_neg_eq]
  · rw [show q.val - flow - (p.val - flow) = q.val - p.val by ring]

theorem cross_down (over : Bool) (flow dt : Rat) (p q : Term) : dt * (p.val - flow) / (p.val - q.val) =
    dt * exc over flow p.val / (exc over flow p.val - exc over flow q.val) := by
  unfold exc
  cases over <;> simp only [if_true, if_false, Bool.false_eq_true]
  · rw [show flow - p.val = -(p.val - flow) by ring, show -(p.val - flow) - (flow - q.val) = -(p.val - q.val) by ring, mul_neg,
      neg_div_neg_eq]
  · rw [show p.val - flow - (q.val - flow) = p.val - q.val by ring]

/-- The value before the second term is that of the first line. -/
theorem isAt_first {p q : Term} {r : List Term} (ho : Ordered (p :: q :: r)) {x v : Rat} (h : IsAt (p :: q :: r) x v) (hx : x < q.t) :
    p.t ≤ x ∧ v = line p q x := by
  have hpq := ho.lt
  rcases h with ⟨t, ht, rfl, rfl⟩ | ⟨A, p', q', B, e, h1, h2, rfl⟩
  · rcases List.mem_cons.1 ht with rfl | ht
    · exact ⟨le_refl _, by unfold line; simp⟩
    · have := ho.tail.head_le t ht
      linarith
  · cases A with
    | nil =>
      simp only [List.nil_append, List.cons.injEq] at e
      obtain ⟨rfl, rfl, rfl⟩ := e
      exact ⟨le_of_lt h1, rfl⟩
    | cons a A =>
      simp only [List.cons_append, List.cons.injEq] at e
      have hm : p' ∈ q :: r := by rw [e.2]; simp
      have := ho.tail.head_le p' hm
      linarith

/-- From the second term on the value is that of the rest. -/
theorem isAt_rest {p q : Term} {r : List Term} (ho : Ordered (p :: q :: r)) {x v : Rat} (h : IsAt (p :: q :: r) x v) (hx : q.t ≤ x) :
    IsAt (q :: r) x v := by
  have hpq := ho.lt
  rcases h with ⟨t, ht, rfl, rfl⟩ | ⟨A, p', q', B, e, h1, h2, rfl⟩
  · rcases List.mem_cons.1 ht with rfl | ht
    · linarith
    · exact Or.inl ⟨t, ht, rfl, rfl⟩
  · cases A with
    | nil =>
      simp only [List.nil_append, List.cons.injEq] at e
      obtain ⟨rfl, rfl, rfl⟩ := e
      linarith
    | cons a A =>
      simp only [List.cons_append, List.cons.injEq] at e
      exact Or.inr ⟨A, p', q', B, e.2, h1, h2, rfl⟩

/-- The time of the excursions less the delay. -/
def durSum (delay : Rat) (E : List (Rat × Rat)) : Rat := (E.map fun e => max 0 (e.2 - e.1 - delay)).sum

theorem Excursions.cons_off {over : Bool} {flow : Rat} {p q : Term} {r : List Term} (ho : Ordered (p :: q :: r)) {E : List (Rat × Rat)}
    {F : List (Rat × Rat)} (hE : Excursions over flow (q :: r) E)
    (h1 : ∀ e ∈ F, e.1 ≤ e.2) (h2 : F.Pairwise (fun e e' => e.2 < e'.1)) (h3 : ∀ e ∈ F, p.t ≤ e.1)
    (h4 : ∀ x, p.t ≤ x → x < q.t → (Meets over flow (line p q x) ↔ ∃ e ∈ F, e.1 ≤ x ∧ x ≤ e.2))
    (h5 : ∀ x, q.t ≤ x → ((∃ e ∈ F, e.1 ≤ x ∧ x ≤ e.2) ↔ ∃ e ∈ E, e.1 ≤ x ∧ x ≤ e.2))
    (h6 : ∀ e ∈ F, ∀ t ∈ (q :: r).getLast?, e.2 ≤ t.t) : Excursions over flow (p :: q :: r) F := by
  refine ⟨h1, h2, fun e he => ⟨fun t ht => by cases ht; exact h3 e he, by rw [List.getLast?_cons_cons]; exact h6 e he⟩, ?_⟩
  intro x v hv
  rcases lt_or_ge x q.t with hx | hx
  · obtain ⟨a, rfl⟩ := isAt_first ho hv hx
    exact h4 x a hx
  · rw [hE.2.2.2 x v (isAt_rest ho hv hx)]
    exact (h5 x hx).symm

theorem last_ge {q : Term} {r : List Term} (ho : Ordered (q :: r)) : ∀ t ∈ (q :: r).getLast?, q.t ≤ t.t :=
  fun t ht => ho.head_le t (List.mem_of_getLast? ht)

theorem durLoop_spec (over : Bool) (flow delay : Rat) (hd : 0 ≤ delay) : ∀ (r : List Term) (p : Term), Ordered (p :: r) →
    ∃ E, Excursions over flow (p :: r) E ∧
      (isOn over flow p.val = true → ∃ hi E', E = (p.t, hi) :: E' ∧ ∀ dur acc,
        durLoop over flow delay p r dur acc = dur + max 0 (hi - p.t + acc - delay) + durSum delay E') ∧
      (isOn over flow p.val = false → (∀ e ∈ E, p.t < e.1) ∧ ∀ dur, durLoop over flow delay p r dur 0 = dur + durSum delay E)
  | [], p, ho => by
    cases hon : isOn over flow p.val with
    | true =>
      refine ⟨[(p.t, p.t)], ⟨by simp, by simp, by simp, ?_⟩, fun _ => ⟨p.t, [], rfl, fun dur acc => ?_⟩, fun h => by cases h⟩
      · intro x v hv
        have : x = p.t ∧ v = p.val := by
          rcases hv with ⟨t, ht, h1, h2⟩ | ⟨A, p', q', B, e, _⟩
          · rw [List.mem_singleton] at ht; subst ht; exact ⟨h1, h2⟩
          · have := congrArg List.length e; simp at this; omega
        obtain ⟨rfl, rfl⟩ := this
        rw [← isOn_iff, hon]; simp
      · rw [durLoop, durSum]; simp
    | false =>
      refine ⟨[], ⟨by simp, by simp, by simp, ?_⟩, (fun h => by cases h), fun _ => ⟨by simp, fun dur => ?_⟩⟩
      · intro x v hv
        have : v = p.val := by
          rcases hv with ⟨t, ht, h1, h2⟩ | ⟨A, p', q', B, e, _⟩
          · rw [List.mem_singleton] at ht; subst ht; exact h2
          · have := congrArg List.length e; simp at this; omega
        subst this
        rw [← isOn_iff, hon]; simp
      · rw [durLoop, durSum, max_eq_left (by linarith)]; simp
  | q :: r, p, ho => by
    obtain ⟨E, hE, hOn, hOff⟩ := durLoop_spec over flow delay hd r q ho.tail
    have hpq := ho.lt
    have hdt : gap q.at_ p.at_ = q.t - p.t := gap_eq _ _
    have hpos : 0 < q.t - p.t := by linarith
    have hlast := last_ge ho.tail
    have hm : ∀ x, Meets over flow (line p q x) ↔
        0 ≤ exc over flow p.val * (q.t - x) + exc over flow q.val * (x - p.t) := by
      intro x
      rw [meets_exc, exc_line]
      have : exc over flow p.val + (exc over flow q.val - exc over flow p.val) * (x - p.t) / (q.t - p.t) =
          (exc over flow p.val * (q.t - x) + exc over flow q.val * (x - p.t)) / (q.t - p.t) := by
        field_simp; ring
      rw [this, div_nonneg_iff]
      constructor
      · rintro (h | h)
        · exact h.1
        · linarith
      · intro h; exact Or.inl ⟨h, le_of_lt hpos⟩
    have ip := isOn_iff over flow p.val
    have iq := isOn_iff over flow q.val
    rw [meets_exc] at ip iq
    cases hop : isOn over flow p.val with
    | true =>
      have ap := ip.1 hop
      cases hoq : isOn over flow q.val with
      | true =>
        have aq := iq.1 hoq
        obtain ⟨hi, E', rfl, hdur⟩ := hOn hoq
        have g1 := hE.1 (q.t, hi) (by simp)
        simp only at g1
        refine ⟨(p.t, hi) :: E', ?_, fun _ => ⟨hi, E', rfl, fun dur acc => ?_⟩, fun h => by cases h⟩
        · refine hE.cons_off ho ?_ ?_ ?_ ?_ ?_ ?_
          · intro e he
            rcases List.mem_cons.1 he with rfl | he
            · simp only; linarith
            · exact hE.1 e (by simp [he])
          · have := hE.2.1
            rw [List.pairwise_cons] at this ⊢
            exact this
          · intro e he
            rcases List.mem_cons.1 he with rfl | he
            · exact le_refl _
            · have := (hE.2.2.1 e (by simp [he])).1 q rfl; linarith
          · intro x h1 h2
            rw [hm x]
            refine iff_of_true (by have := mul_nonneg ap (by linarith : 0 ≤ q.t - x); have := mul_nonneg aq (by linarith : 0 ≤ x - p.t); linarith) ⟨(p.t, hi), by simp, h1, by simp only; linarith⟩
          · intro x hx
            constructor
            · rintro ⟨e, he, h1, h2⟩
              rcases List.mem_cons.1 he with rfl | he
              · exact ⟨(q.t, hi), by simp, hx, h2⟩
              · exact ⟨e, by simp [he], h1, h2⟩
            · rintro ⟨e, he, h1, h2⟩
              rcases List.mem_cons.1 he with rfl | he
              · exact ⟨(p.t, hi), by simp, by simp only; linarith, h2⟩
              · exact ⟨e, by simp [he], h1, h2⟩
          · intro e he t ht
            rcases List.mem_cons.1 he with rfl | he
            · exact (hE.2.2.1 (q.t, hi) (by simp)).2 t ht
            · exact (hE.2.2.1 e (by simp [he])).2 t ht
        · rw [durLoop]
          simp only [hop, hoq]
          rw [hdur, hdt]
          congr 3
          ring
      | false =>
        have aq : exc over flow q.val < 0 := by rw [← not_le, ← iq, hoq]; simp
        obtain ⟨hq, hdur⟩ := hOff hoq
        have hden : 0 < exc over flow p.val - exc over flow q.val := by linarith
        -- the flow falls
        have hk0 : 0 ≤ (q.t - p.t) * exc over flow p.val / (exc over flow p.val - exc over flow q.val) := by positivity
        have hk1 : (q.t - p.t) * exc over flow p.val / (exc over flow p.val - exc over flow q.val) < q.t - p.t := by
          rw [div_lt_iff₀ hden]; nlinarith
        have hk : (q.t - p.t) * exc over flow p.val / (exc over flow p.val - exc over flow q.val) *
            (exc over flow p.val - exc over flow q.val) = (q.t - p.t) * exc over flow p.val := div_mul_cancel₀ _ (ne_of_gt hden)
        have hcross := cross_down over flow (q.t - p.t) p q
        generalize (q.t - p.t) * exc over flow p.val / (exc over flow p.val - exc over flow q.val) = k at *
        refine ⟨(p.t, p.t + k) :: E, ?_, fun _ => ⟨p.t + k, E, rfl, fun dur acc => ?_⟩, fun h => by cases h⟩
        · refine hE.cons_off ho ?_ ?_ ?_ ?_ ?_ ?_
          · intro e he
            rcases List.mem_cons.1 he with rfl | he
            · simp only; linarith
            · exact hE.1 e he
          · rw [List.pairwise_cons]
            exact ⟨fun e he => by have := hq e he; simp only; linarith, hE.2.1⟩
          · intro e he
            rcases List.mem_cons.1 he with rfl | he
            · exact le_refl _
            · have := hq e he; linarith
          · intro x h1 h2
            rw [hm x]
            have e1 : exc over flow p.val * (q.t - x) + exc over flow q.val * (x - p.t) =
                (exc over flow p.val - exc over flow q.val) * (p.t + k - x) := by
              linear_combination (-1 : Rat) * hk
            rw [e1, mul_nonneg_iff_of_pos_left hden]
            constructor
            · intro h
              exact ⟨(p.t, p.t + k), by simp, h1, by simp only; linarith⟩
            · rintro ⟨e, he, g1, g2⟩
              rcases List.mem_cons.1 he with rfl | he
              · simp only at g2; linarith
              · have := hq e he; linarith
          · intro x hx
            constructor
            · rintro ⟨e, he, h1, h2⟩
              rcases List.mem_cons.1 he with rfl | he
              · simp only at h2; linarith
              · exact ⟨e, he, h1, h2⟩
            · rintro ⟨e, he, h1, h2⟩
              exact ⟨e, by simp [he], h1, h2⟩
          · intro e he t ht
            rcases List.mem_cons.1 he with rfl | he
            · have := hlast t ht; simp only; linarith
            · exact (hE.2.2.1 e he).2 t ht
        · rw [durLoop]
          simp only [hop, hoq]
          rw [hdur, hdt, hcross]
          congr 3
          ring
    | false =>
      have ap : exc over flow p.val < 0 := by rw [← not_le, ← ip, hop]; simp
      cases hoq : isOn over flow q.val with
      | true =>
        have aq := iq.1 hoq
        obtain ⟨hi, E', rfl, hdur⟩ := hOn hoq
        have g1 := hE.1 (q.t, hi) (by simp)
        simp only at g1
        have hden : 0 < exc over flow q.val - exc over flow p.val := by linarith
        have hk0 : 0 ≤ (q.t - p.t) * exc over flow q.val / (exc over flow q.val - exc over flow p.val) := by positivity
        have hk1 : (q.t - p.t) * exc over flow q.val / (exc over flow q.val - exc over flow p.val) < q.t - p.t := by
          rw [div_lt_iff₀ hden]; nlinarith
        have hk : (q.t - p.t) * exc over flow q.val / (exc over flow q.val - exc over flow p.val) *
            (exc over flow q.val - exc over flow p.val) = (q.t - p.t) * exc over flow q.val := div_mul_cancel₀ _ (ne_of_gt hden)
        have hcross := cross_up over flow (q.t - p.t) p q
        generalize (q.t - p.t) * exc over flow q.val / (exc over flow q.val - exc over flow p.val) = k at *
        refine ⟨(q.t - k, hi) :: E', ?_, (fun h => by cases h), fun _ => ⟨?_, fun dur => ?_⟩⟩
        · refine hE.cons_off ho ?_ ?_ ?_ ?_ ?_ ?_
          · intro e he
            rcases List.mem_cons.1 he with rfl | he
            · simp only; linarith
            · exact hE.1 e (by simp [he])
          · have := hE.2.1
            rw [List.pairwise_cons] at this ⊢
            exact this
          · intro e he
            rcases List.mem_cons.1 he with rfl | he
            · simp only; linarith
            · have := (hE.2.2.1 e (by simp [he])).1 q rfl; linarith
          · intro x h1 h2
            rw [hm x]
            have e1 : exc over flow p.val * (q.t - x) + exc over flow q.val * (x - p.t) =
                (exc over flow q.val - exc over flow p.val) * (x - (q.t - k)) := by
              linear_combination (-1 : Rat) * hk
            rw [e1, mul_nonneg_iff_of_pos_left hden]
            constructor
            · intro h
              exact ⟨(q.t - k, hi), by simp, by simp only; linarith, by simp only; linarith⟩
            · rintro ⟨e, he, g1, g2⟩
              rcases List.mem_cons.1 he with rfl | he
              · simp only at g1; linarith
              · have := (hE.2.2.1 e (by simp [he])).1 q rfl; linarith
          · intro x hx
            constructor
            · rintro ⟨e, he, h1, h2⟩
              rcases List.mem_cons.1 he with rfl | he
              · exact ⟨(q.t, hi), by simp, hx, h2⟩
              · exact ⟨e, by simp [he], h1, h2⟩
            · rintro ⟨e, he, h1, h2⟩
              rcases List.mem_cons.1 he with rfl | he
              · exact ⟨(q.t - k, hi), by simp, by simp only; linarith, h2⟩
              · exact ⟨e, by simp [he], h1, h2⟩
          · intro e he t ht
            rcases List.mem_cons.1 he with rfl | he
            · exact (hE.2.2.1 (q.t, hi) (by simp)).2 t ht
            · exact (hE.2.2.1 e (by simp [he])).2 t ht
        · intro e he
          rcases List.mem_cons.1 he with rfl | he
          · simp only; linarith
          · have := (hE.2.2.1 e (by simp [he])).1 q rfl; linarith
        · rw [durLoop]
          simp only [hop, hoq]
          rw [hdur, hdt, hcross]
          unfold durSum
          rw [List.map_cons, List.sum_cons, ← add_assoc]
          congr 4
          simp only; ring
      | false =>
        have aq : exc over flow q.val < 0 := by rw [← not_le, ← iq, hoq]; simp
        obtain ⟨hq, hdur⟩ := hOff hoq
        refine ⟨E, ?_, (fun h => by cases h), fun _ => ⟨fun e he => by have := hq e he; linarith, fun dur => ?_⟩⟩
        · refine hE.cons_off ho hE.1 hE.2.1 (fun e he => by have := hq e he; linarith) ?_ (fun x _ => Iff.rfl)
            fun e he => (hE.2.2.1 e he).2
          intro x h1 h2
          rw [hm x]
          refine iff_of_false ?_ ?_
          · rw [not_le]
            have a1 := mul_neg_of_neg_of_pos ap (by linarith : 0 < q.t - x)
            have a2 := mul_nonpos_of_nonpos_of_nonneg (le_of_lt aq) (by linarith : 0 ≤ x - p.t)
            linarith
          · rintro ⟨e, he, g1, g2⟩
            have := hq e he; linarith
        · rw [durLoop]
          simp only [hop, hoq]
          exact hdur dur

theorem isAt_ex : ∀ (s : List Term), s ≠ [] → ∀ x, (∀ p ∈ s.head?, p.t ≤ x) → (∀ p ∈ s.getLast?, x ≤ p.t) → ∃ v, IsAt s x v
  | [], h, _, _, _ => absurd rfl h
  | [p], _, x, h1, h2 => ⟨p.val, Or.inl ⟨p, by simp, le_antisymm (h2 p rfl) (h1 p rfl), rfl⟩⟩
  | p :: q :: r, _, x, h1, h2 => by
    rcases lt_or_ge x q.t with hx | hx
    · rcases eq_or_lt_of_le (h1 p rfl) with e | e
      · exact ⟨p.val, Or.inl ⟨p, by simp, e.symm, rfl⟩⟩
      · exact ⟨_, Or.inr ⟨[], p, q, r, rfl, e, hx, rfl⟩⟩
    · obtain ⟨v, hv⟩ := isAt_ex (q :: r) (by simp) x (fun t ht => by cases ht; exact hx) (by rwa [List.getLast?_cons_cons] at h2)
      refine ⟨v, ?_⟩
      rcases hv with ⟨t, ht, a, b⟩ | ⟨A, p', q', B, e, a⟩
      · exact Or.inl ⟨t, List.mem_cons_of_mem _ ht, a, b⟩
      · exact Or.inr ⟨p :: A, p', q', B, by rw [e]; rfl, a⟩

theorem separated_end {e f : Rat × Rat} {E F : List (Rat × Rat)} (hE : ∀ x ∈ e :: E, x.1 ≤ x.2) (sE : (e :: E).Pairwise (fun a b => a.2 < b.1))
    (h1 : f.1 = e.1)
    (h : ∀ x, (∃ a ∈ f :: F, a.1 ≤ x ∧ x ≤ a.2) → ∃ a ∈ e :: E, a.1 ≤ x ∧ x ≤ a.2) : f.2 ≤ e.2 := by
  by_contra hc
  rw [not_le] at hc
  have he := hE e (by simp)
  have hsep := (List.pairwise_cons.1 sE).1
  -- the next interval begins after `e.2`
  obtain ⟨m, m1, m2, m3⟩ : ∃ m, e.2 < m ∧ m ≤ f.2 ∧ ∀ a ∈ E, m ≤ a.1 := by
    cases E with
    | nil => exact ⟨f.2, hc, le_refl _, by simp⟩
    | cons a E =>
      refine ⟨min f.2 a.1, lt_min hc (hsep a (by simp)), min_le_left _ _, ?_⟩
      intro b hb
      rcases List.mem_cons.1 hb with rfl | hb
      · exact min_le_right _ _
      · have := (List.pairwise_cons.1 (List.pairwise_cons.1 sE).2).1 b hb
        have h2 := hE a (by simp)
        exact le_trans (min_le_right _ _) (by linarith)
  obtain ⟨a, ha, k1, k2⟩ := h ((e.2 + m) / 2) ⟨f, by simp, by rw [h1]; linarith, by linarith⟩
  rcases List.mem_cons.1 ha with rfl | ha
  · linarith
  · have := m3 a ha
    linarith

theorem separated_eq : ∀ (E F : List (Rat × Rat)), (∀ e ∈ E, e.1 ≤ e.2) → (∀ e ∈ F, e.1 ≤ e.2) → E.Pairwise (fun a b => a.2 < b.1) →
    F.Pairwise (fun a b => a.2 < b.1) → (∀ x, (∃ e ∈ E, e.1 ≤ x ∧ x ≤ e.2) ↔ ∃ e ∈ F, e.1 ≤ x ∧ x ≤ e.2) → E = F
  | [], [], _, _, _, _, _ => rfl
  | [], f :: F, _, hF, _, _, h => by
    obtain ⟨e, he, _⟩ := (h f.1).2 ⟨f, by simp, le_refl _, hF f (by simp)⟩
    cases he
  | e :: E, [], hE, _, _, _, h => by
    obtain ⟨f, hf, _⟩ := (h e.1).1 ⟨e, by simp, le_refl _, hE e (by simp)⟩
    cases hf
  | e :: E, f :: F, hE, hF, sE, sF, h => by
    have first : ∀ (g : Rat × Rat) (G : List (Rat × Rat)), (∀ a ∈ g :: G, a.1 ≤ a.2) → (g :: G).Pairwise (fun a b => a.2 < b.1) →
        ∀ a ∈ g :: G, g.1 ≤ a.1 := by
      intro g G hG sG a ha
      rcases List.mem_cons.1 ha with rfl | ha
      · exact le_refl _
      · have := (List.pairwise_cons.1 sG).1 a ha
        have := hG g (by simp)
        linarith
    have e1 : f.1 = e.1 := by
      obtain ⟨a, ha, k1, _⟩ := (h e.1).1 ⟨e, by simp, le_refl _, hE e (by simp)⟩
      obtain ⟨b, hb, l1, _⟩ := (h f.1).2 ⟨f, by simp, le_refl _, hF f (by simp)⟩
      exact le_antisymm (le_trans (first f F hF sF a ha) k1) (le_trans (first e E hE sE b hb) l1)
    have e2 : f.2 = e.2 := le_antisymm (separated_end hE sE e1 fun x => (h x).2) (separated_end hF sF e1.symm fun x => (h x).1)
    have ef : f = e := Prod.ext e1 e2
    subst ef
    rw [List.pairwise_cons] at sE sF
    rw [separated_eq E F (fun a ha => hE a (by simp [ha])) (fun a ha => hF a (by simp [ha])) sE.2 sF.2]
    intro x
    constructor
    · rintro ⟨a, ha, k1, k2⟩
      obtain ⟨b, hb, l1, l2⟩ := (h x).1 ⟨a, by simp [ha], k1, k2⟩
      rcases List.mem_cons.1 hb with rfl | hb
      · have := sE.1 a ha; linarith
      · exact ⟨b, hb, l1, l2⟩
    · rintro ⟨a, ha, k1, k2⟩
      obtain ⟨b, hb, l1, l2⟩ := (h x).2 ⟨a, by simp [ha], k1, k2⟩
      rcases List.mem_cons.1 hb with rfl | hb
      · have := sF.1 a ha; linarith
      · exact ⟨b, hb, l1, l2⟩

end Verif.Tsp
