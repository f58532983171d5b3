import Verif.Lemmas.TspInterp1
/-
Lemmas for C129: interpolation.
-/
namespace Verif.Tsp

theorem gapDays_eq (a b : Clock) : gapDays a b = ((a.time : Rat) - b.time) / 86400 := by
  unfold gapDays Clock.time
  push_cast; ring

theorem flagged_iff (x : Rat) : flagged x = true ↔ NoValue x := by
  unfold flagged NoValue; simp

theorem interpLoop_spec {s : List Term} (ho : Ordered s) {c : Clock} (h1 : ∀ p ∈ s.head?, p.t ≤ c.time)
    (hB : ∀ p ∈ s, ∀ q ∈ s, q.t - p.t ≤ 86400 * 10 ^ 20) :
    ∀ (rest pre : List Term), s = pre ++ rest → (∀ p ∈ pre, p.t < c.time) → rest ≠ [] →
    (∀ p ∈ rest.getLast?, (c.time : Rat) ≤ p.t) →
    ∃ v i', interpLoop c (10 ^ 20) 0 pre.getLast? rest (pre.length + 1) = some (v, i') ∧ IsAtOrNone s c.time v ∧
      i' ≤ s.length ∧ ∀ p ∈ s.take (i' - 1), p.t < c.time
  | [], _, _, _, h, _ => absurd rfl h
  | q :: r, pre, e, hpre, _, hl => by
    rw [interpLoop.eq_def]
    simp only [gapDays_eq]
    have hqs : q ∈ s := by rw [e]; simp
    by_cases hd : 0 ≤ ((q.at_.time : Rat) - c.time) / 86400
    · have hqc : (c.time : Rat) ≤ q.t := by
        rw [div_nonneg_iff] at hd
        unfold Term.t
        rcases hd with hd | hd
        · linarith [hd.1]
        · linarith [hd.2]
      have htake : ∀ p ∈ s.take (pre.length + 1 - 1), p.t < c.time := by
        rw [Nat.add_sub_cancel, e, List.take_left]; exact hpre
      have hlen : pre.length + 1 ≤ s.length := by rw [e]; simp
      rw [if_pos hd]
      rcases List.eq_nil_or_concat pre with rfl | ⟨pre', p, rfl⟩
      · -- the first term
        rw [List.getLast?_nil]
        simp only
        have hq := h1 q (by rw [e]; rfl)
        have hcq : (c.time : Rat) = q.t := le_antisymm hqc hq
        refine ⟨_, _, rfl, Or.inl ⟨q, hqs, hcq, ?_⟩, hlen, htake⟩
        rw [if_pos (by unfold Term.t at hcq; rw [hcq]; simp)]
        exact Or.inl rfl
      · rw [List.concat_eq_append] at *
        rw [List.getLast?_concat]
        simp only
        have e' : s = pre' ++ p :: q :: r := by rw [e]; simp
        have hpc := hpre p (by simp)
        have hps : p ∈ s := by rw [e']; simp
        have hpq : p.t < q.t := by linarith
        have hb := hB p hps q hqs
        change ∃ v i', (if (q.t - p.t) / 86400 ≤ 0 then none else some
          (if flagged q.val = true then (if (q.t - p.t) / 86400 - (q.t - c.time) / 86400 ≤ 0 then p.val else -11 * 10 ^ 37)
            else if flagged p.val = true then (if (q.t - c.time) / 86400 ≤ 0 then q.val else -11 * 10 ^ 37)
            else (if (q.t - p.t) / 86400 - (q.t - c.time) / 86400 > 10 ^ 20 ∧ (q.t - c.time) / 86400 > 10 ^ 20 then -71 * 10 ^ 36
              else p.val + (q.val - p.val) / ((q.t - p.t) / 86400) * ((q.t - p.t) / 86400 - (q.t - c.time) / 86400)),
            (pre' ++ [p]).length + 1)) = some (v, i') ∧ _
        rw [if_neg (by rw [not_le]; exact div_pos (by linarith) (by norm_num))]
        refine ⟨_, _, rfl, ?_, hlen, htake⟩
        have hnv : NoValue (-11 * 10 ^ 37) := by unfold NoValue; norm_num
        have hd1 : ¬ ((q.t - p.t) / 86400 - (q.t - c.time) / 86400 ≤ 0) := by
          rw [not_le, ← sub_div]; exact div_pos (by linarith) (by norm_num)
        rw [if_neg hd1]
        have hv : (if (q.t - p.t) / 86400 - (q.t - c.time) / 86400 > 10 ^ 20 ∧ (q.t - c.time) / 86400 > 10 ^ 20 then -71 * 10 ^ 36
              else p.val + (q.val - p.val) / ((q.t - p.t) / 86400) * ((q.t - p.t) / 86400 - (q.t - c.time) / 86400)) = line p q c.time := by
          rw [if_neg]
          · unfold line
            have : q.t - p.t ≠ 0 := by linarith
            field_simp
            ring
          · rintro ⟨-, h⟩
            rw [gt_iff_lt, lt_div_iff₀ (by norm_num)] at h
            linarith
        rw [hv]
        rcases eq_or_lt_of_le hqc with hcq | hcq
        · left
          refine ⟨q, hqs, hcq, ?_⟩
          by_cases fq : flagged q.val = true
          · rw [if_pos fq]
            exact Or.inr ⟨(flagged_iff _).1 fq, hnv⟩
          · rw [if_neg fq]
            left
            split_ifs with fp hz
            · rfl
            · exact absurd (by rw [hcq]; simp) hz
            · rw [hcq]; unfold line
              have : q.t - p.t ≠ 0 := by linarith
              field_simp; ring
        · right
          refine ⟨pre', p, q, r, e', hpc, hcq, ?_⟩
          by_cases fq : flagged q.val = true
          · rw [if_pos fq]
            exact Or.inr ⟨Or.inr ((flagged_iff _).1 fq), hnv⟩
          · rw [if_neg fq]
            by_cases fp : flagged p.val = true
            · rw [if_pos fp, if_neg (by rw [not_le]; exact div_pos (by linarith) (by norm_num))]
              exact Or.inr ⟨Or.inl ((flagged_iff _).1 fp), hnv⟩
            · rw [if_neg fp]
              exact Or.inl ⟨fun h => fp ((flagged_iff _).2 h), fun h => fq ((flagged_iff _).2 h), rfl⟩
    · rw [if_neg hd]
      have hqc : q.t < c.time := by
        rw [not_le] at hd
        unfold Term.t
        by_contra h
        rw [not_lt] at h
        exact absurd hd (not_lt.2 (div_nonneg (by linarith) (by norm_num)))
      have hr : r ≠ [] := by
        rintro rfl
        have := hl q rfl
        linarith
      have := interpLoop_spec ho h1 hB r (pre ++ [q]) (by rw [e]; simp)
        (by intro p hp; rcases List.mem_append.1 hp with hp | hp
            · exact hpre p hp
            · rw [List.mem_singleton] at hp; subst hp; exact hqc) hr
        (by
          intro p hp
          refine hl p ?_
          cases r with
          | nil => exact absurd rfl hr
          | cons a r => rw [List.getLast?_cons_cons]; exact hp)
      rw [List.getLast?_concat, List.length_append] at this
      exact this

theorem timeInterp_spec {s : List Term} (ho : Ordered s) {c : Clock} (h1 : ∀ p ∈ s.head?, p.t ≤ c.time)
    (h2 : ∀ p ∈ s.getLast?, (c.time : Rat) ≤ p.t) (hne : s ≠ [])
    (hB : ∀ p ∈ s, ∀ q ∈ s, q.t - p.t ≤ 86400 * 10 ^ 20) (start : Nat) (hs : ∀ p ∈ s.take (start - 1), p.t < c.time) :
    ∃ v i', timeInterp s c (10 ^ 20) 0 start = (some v, i') ∧ IsAtOrNone s c.time v ∧ ∀ p ∈ s.take (i' - 1), p.t < c.time := by
  rcases s with _ | ⟨a, _ | ⟨b, r⟩⟩
  · exact absurd rfl hne
  · have e1 := h1 a rfl
    have e2 := h2 a rfl
    have e : (c.time : Rat) = a.t := le_antisymm e2 e1
    refine ⟨a.val, start, ?_, Or.inl ⟨a, by simp, e, Or.inl rfl⟩, hs⟩
    unfold timeInterp
    simp only [gapDays_eq]
    rw [if_pos (by unfold Term.t at e; rw [e]; simp)]
  · unfold timeInterp
    simp only
    generalize hS : a :: b :: r = S at *
    have hlen : 2 ≤ S.length := by rw [← hS]; simp
    generalize hi : min (max start 1) (S.length - 1) = is
    have his : 1 ≤ is ∧ is ≤ S.length - 1 ∧ is - 1 ≤ start - 1 := by omega
    have hpre : ∀ p ∈ S.take (is - 1), p.t < c.time := fun p hp => hs p (by
      have : S.take (is - 1) = (S.take (start - 1)).take (is - 1) := by rw [List.take_take, Nat.min_eq_left his.2.2]
      rw [this] at hp
      exact List.mem_of_mem_take hp)
    have hlast : (if is = 1 then none else S[is - 2]?) = (S.take (is - 1)).getLast? := by
      split_ifs with h
      · rw [h]; simp
      · rw [List.getLast?_eq_getElem?, List.length_take, Nat.min_eq_left (by omega), List.getElem?_take, if_pos (by omega)]
        rfl
    have hdrop : S.drop (is - 1) ≠ [] := by
      intro h
      have := congrArg List.length h
      rw [List.length_drop, List.length_nil] at this
      omega
    obtain ⟨v, i', k1, k2, k3, k4⟩ := interpLoop_spec ho h1 hB (S.drop (is - 1)) (S.take (is - 1)) (List.take_append_drop _ _).symm
      hpre hdrop (by
        intro p hp
        refine h2 p ?_
        rw [← List.take_append_drop (is - 1) S, List.getLast?_append_of_ne_nil _ hdrop]
        exact hp)
    rw [List.length_take, Nat.min_eq_left (by omega), show is - 1 + 1 = is by omega] at k1
    rw [hlast, k1]
    exact ⟨v, i', rfl, k2, k4⟩

theorem baseLoop_spec {s : List Term} (ho : Ordered s) (hne : s ≠ []) (hB : ∀ p ∈ s, ∀ q ∈ s, q.t - p.t ≤ 86400 * 10 ^ 20) :
    ∀ (cs : List Clock) (start : Nat), cs.Pairwise (fun a b => a.time ≤ b.time) →
    (∀ c ∈ cs, (∀ p ∈ s.head?, p.t ≤ c.time) ∧ ∀ p ∈ s.getLast?, (c.time : Rat) ≤ p.t) →
    (∀ c ∈ cs, ∀ p ∈ s.take (start - 1), p.t < c.time) →
    List.Forall₂ (fun (c : Clock) v => ∃ x, v = some x ∧ IsAtOrNone s c.time x) cs (baseLoop s cs start)
  | [], _, _, _, _ => List.Forall₂.nil
  | c :: cs, start, hp, hr, hs => by
    have hc := hr c (by simp)
    obtain ⟨v, i', k1, k2, k3⟩ := timeInterp_spec ho hc.1 hc.2 hne hB start (hs c (by simp))
    rw [List.pairwise_cons] at hp
    rw [baseLoop]
    simp only [k1]
    refine List.Forall₂.cons ⟨v, rfl, k2⟩ (baseLoop_spec ho hne hB cs i' hp.2 (fun c hc => hr c (by simp [hc])) ?_)
    intro d hd p hpp
    have := k3 p hpp
    have hcd : (c.time : Rat) ≤ d.time := by exact_mod_cast hp.1 d hd
    linarith

end Verif.Tsp
