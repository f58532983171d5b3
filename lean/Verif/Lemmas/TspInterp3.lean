import Verif.Lemmas.TspInterp2
/-
Further lemmas for C130: durations without delay.
-/
namespace Verif.Tsp

/-- The part of an interval in which a line from `a` to `c` is not negative. -/
def frac (a c : Rat) : Rat := if 0 ≤ a then (if 0 ≤ c then 1 else a / (a - c)) else if 0 ≤ c then c / (c - a) else 0

theorem frac_nonneg (a c : Rat) : 0 ≤ frac a c := by
  unfold frac
  split_ifs with h1 h2 h3
  · norm_num
  · exact div_nonneg h1 (by linarith)
  · exact div_nonneg h3 (by linarith)
  · exact le_refl _

theorem frac_le (a c : Rat) : frac a c ≤ 1 := by
  unfold frac
  split_ifs with h1 h2 h3
  · norm_num
  · exact (div_le_one (by linarith)).2 (by linarith)
  · exact (div_le_one (by linarith)).2 (by linarith)
  · norm_num

theorem frac_mono {a c d : Rat} (hd : 0 ≤ d) : frac (a - d) (c - d) ≤ frac a c := by
  by_cases h1 : 0 ≤ a
  · by_cases h2 : 0 ≤ c
    · have : frac a c = 1 := by unfold frac; rw [if_pos h1, if_pos h2]
      rw [this]; exact frac_le _ _
    · have : frac a c = a / (a - c) := by unfold frac; rw [if_pos h1, if_neg h2]
      rw [this]
      unfold frac
      rw [if_neg (by linarith : ¬ 0 ≤ c - d), if_neg (by linarith : ¬ 0 ≤ c - d)]
      split_ifs
      · rw [show a - d - (c - d) = a - c by ring]
        exact div_le_div_of_nonneg_right (by linarith) (by linarith)
      · exact div_nonneg h1 (by linarith)
  · by_cases h2 : 0 ≤ c
    · have : frac a c = c / (c - a) := by unfold frac; rw [if_neg h1, if_pos h2]
      rw [this]
      unfold frac
      rw [if_neg (by linarith : ¬ 0 ≤ a - d)]
      split_ifs
      · rw [show c - d - (a - d) = c - a by ring]
        exact div_le_div_of_nonneg_right (by linarith) (by linarith)
      · exact div_nonneg h2 (by linarith)
    · unfold frac
      rw [if_neg (by linarith : ¬ 0 ≤ a - d), if_neg (by linarith : ¬ 0 ≤ c - d)]
      split_ifs
      exact le_refl _

theorem frac_neg {a c : Rat} (h : ¬ (a = 0 ∧ c = 0)) : frac a c + frac (-a) (-c) = 1 := by
  unfold frac
  rcases lt_trichotomy a 0 with ha | ha | ha <;> rcases lt_trichotomy c 0 with hc | hc | hc
  · rw [if_neg (by linarith), if_neg (by linarith), if_pos (by linarith), if_pos (by linarith)]; norm_num
  · subst hc; rw [if_neg (by linarith)]; simp; exact le_of_lt ha
  · rw [if_neg (by linarith), if_pos (by linarith), if_pos (by linarith), if_neg (by linarith)]
    have : c - a ≠ 0 := by linarith
    rw [show -a - -c = c - a by ring]
    field_simp; ring
  · subst ha; simp only [le_refl, if_true, neg_zero]; rw [if_neg (by linarith), if_pos (by linarith)]; simp
  · exact absurd ⟨ha, hc⟩ h
  · subst ha; simp only [le_refl, if_true, neg_zero]; rw [if_pos (by linarith), if_neg (by linarith)]; simp
  · rw [if_pos (by linarith), if_neg (by linarith), if_neg (by linarith), if_pos (by linarith)]
    have : a - c ≠ 0 := by linarith
    rw [show -c - -a = a - c by ring]
    field_simp; ring
  · subst hc; rw [if_pos (by linarith), if_pos (le_refl _), neg_zero, if_neg (by linarith), if_pos (le_refl _)]; simp
  · rw [if_pos (by linarith), if_pos (by linarith), if_neg (by linarith), if_neg (by linarith)]; norm_num

/-- The time over (or under) the threshold, interval by interval. -/
def lens (over : Bool) (flow : Rat) : Term → List Term → Rat
  | _, [] => 0
  | p, q :: r => (q.t - p.t) * frac (exc over flow p.val) (exc over flow q.val) + lens over flow q r

theorem durLoop_zero (over : Bool) (flow : Rat) : ∀ (r : List Term) (p : Term) (dur acc : Rat), Ordered (p :: r) → 0 ≤ acc →
    (isOn over flow p.val = false → acc = 0) → durLoop over flow 0 p r dur acc = dur + acc + lens over flow p r
  | [], p, dur, acc, _, ha, _ => by rw [durLoop, lens, sub_zero, max_eq_right ha, add_zero]
  | q :: r, p, dur, acc, ho, ha, hz => by
    have hpq := ho.lt
    have hdt : gap q.at_ p.at_ = q.t - p.t := gap_eq _ _
    have ip := isOn_iff over flow p.val
    have iq := isOn_iff over flow q.val
    rw [meets_exc] at ip iq
    have hc1 := cross_up over flow (q.t - p.t) p q
    have hc2 := cross_down over flow (q.t - p.t) p q
    rw [durLoop, lens, hdt]
    simp only
    cases hop : isOn over flow p.val with
    | true =>
      have ap := ip.1 hop
      cases hoq : isOn over flow q.val with
      | true =>
        simp only
        rw [durLoop_zero over flow r q dur _ ho.tail (by linarith) (by rw [hoq]; intro h; cases h)]
        unfold frac
        rw [if_pos ap, if_pos (iq.1 hoq)]; ring
      | false =>
        have aq : exc over flow q.val < 0 := by rw [← not_le, ← iq, hoq]; simp
        have hk : 0 ≤ (q.t - p.t) * exc over flow p.val / (exc over flow p.val - exc over flow q.val) :=
          div_nonneg (mul_nonneg (by linarith) ap) (by linarith)
        simp only
        rw [durLoop_zero over flow r q _ 0 ho.tail (le_refl _) (fun _ => rfl), hc2, sub_zero, max_eq_right (by linarith)]
        unfold frac
        rw [if_pos ap, if_neg (by linarith), ← mul_div_assoc]; ring
    | false =>
      have ap : exc over flow p.val < 0 := by rw [← not_le, ← ip, hop]; simp
      have := hz hop
      subst this
      cases hoq : isOn over flow q.val with
      | true =>
        have aq := iq.1 hoq
        have hk : 0 ≤ (q.t - p.t) * exc over flow q.val / (exc over flow q.val - exc over flow p.val) :=
          div_nonneg (mul_nonneg (by linarith) aq) (by linarith)
        simp only
        rw [hc1, durLoop_zero over flow r q dur _ ho.tail hk (by rw [hoq]; intro h; cases h)]
        unfold frac
        rw [if_neg (by linarith), if_pos aq, ← mul_div_assoc]; ring
      | false =>
        have aq : exc over flow q.val < 0 := by rw [← not_le, ← iq, hoq]; simp
        simp only
        rw [durLoop_zero over flow r q dur 0 ho.tail (le_refl _) (fun _ => rfl)]
        unfold frac
        rw [if_neg (by linarith), if_neg (by linarith)]; ring

theorem fac_pos (u : TimeUnit) : 0 < u.fac := by
  cases u <;> unfold TimeUnit.fac <;> norm_num

theorem duration_zero {over : Bool} {flow : Rat} {p : Term} {r : List Term} (ho : Ordered (p :: r)) (u : TimeUnit) :
    duration (p :: r) over flow 0 u = lens over flow p r * u.fac := by
  unfold duration
  simp only [zero_div]
  rw [durLoop_zero over flow r p 0 0 ho (le_refl _) (fun _ => rfl)]; ring

theorem lens_mono {flow flow' : Rat} (h : flow ≤ flow') : ∀ (r : List Term) (p : Term), Ordered (p :: r) →
    lens true flow' p r ≤ lens true flow p r ∧ lens false flow p r ≤ lens false flow' p r
  | [], _, _ => ⟨le_refl _, le_refl _⟩
  | q :: r, p, ho => by
    have ih := lens_mono h r q ho.tail
    have hpq := ho.lt
    rw [lens, lens, lens, lens]
    have f1 : frac (exc true flow' p.val) (exc true flow' q.val) ≤ frac (exc true flow p.val) (exc true flow q.val) := by
      have := frac_mono (a := exc true flow p.val) (c := exc true flow q.val) (sub_nonneg.2 h)
      unfold exc at *
      simp only [if_true] at *
      rwa [show p.val - flow - (flow' - flow) = p.val - flow' by ring, show q.val - flow - (flow' - flow) = q.val - flow' by ring] at this
    have f2 : frac (exc false flow p.val) (exc false flow q.val) ≤ frac (exc false flow' p.val) (exc false flow' q.val) := by
      have := frac_mono (a := exc false flow' p.val) (c := exc false flow' q.val) (sub_nonneg.2 h)
      unfold exc at *
      simp only [if_false, Bool.false_eq_true] at *
      rwa [show flow' - p.val - (flow' - flow) = flow - p.val by ring, show flow' - q.val - (flow' - flow) = flow - q.val by ring] at this
    have hp : 0 ≤ q.t - p.t := by linarith
    exact ⟨add_le_add (mul_le_mul_of_nonneg_left f1 hp) ih.1, add_le_add (mul_le_mul_of_nonneg_left f2 hp) ih.2⟩

theorem lens_neg (flow : Rat) : ∀ (r : List Term) (p : Term), Ordered (p :: r) →
    (∀ A a b B, p :: r = A ++ a :: b :: B → ¬ (a.val = flow ∧ b.val = flow)) →
    lens true flow p r + lens false flow p r = ((p :: r).getLast (by simp)).t - p.t
  | [], p, _, _ => by simp [lens]
  | q :: r, p, ho, hn => by
    have ih := lens_neg flow r q ho.tail fun A a b B e => hn (p :: A) a b B (by rw [e]; rfl)
    have h0 := hn [] p q r rfl
    have hf : frac (exc true flow p.val) (exc true flow q.val) + frac (exc false flow p.val) (exc false flow q.val) = 1 := by
      have := frac_neg (a := p.val - flow) (c := q.val - flow) (by
        rintro ⟨h1, h2⟩; exact h0 ⟨by linarith, by linarith⟩)
      unfold exc
      simp only [if_true, if_false, Bool.false_eq_true]
      rwa [neg_sub, neg_sub] at this
    rw [lens, lens, List.getLast_cons_cons]
    linear_combination ih + (q.t - p.t) * hf

end Verif.Tsp
