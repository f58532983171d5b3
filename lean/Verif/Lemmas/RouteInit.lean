import Verif.Lemmas.RouteRun
/-
Helper lemmas for C39 and C40: initialisation.
-/
namespace Verif.Route

theorem histograms_spec (chvdt : Rat) (hv : 0 < chvdt) (cs : List Table) (hok : ∀ c ∈ cs, c.Ok) :
    ∃ hs, histograms chvdt cs = some hs ∧ hs.length = cs.length ∧
      ∀ k (hk : k < cs.length) (hk' : k < hs.length), histogram chvdt cs[k] = some hs[k] := by
  induction cs with
  | nil => exact ⟨[], rfl, rfl, fun k hk => absurd hk (by simp)⟩
  | cons c cs ih =>
    obtain ⟨h, hh, -⟩ := histogram_spec chvdt hv c (hok c (by simp))
    obtain ⟨hs, h1, h2, h3⟩ := ih fun d hd => hok d (by simp [hd])
    refine ⟨h :: hs, by unfold histograms; rw [hh, h1], by simp [h2], fun k hk hk' => ?_⟩
    cases k with
    | zero => exact hh
    | succ k => exact h3 k (by simpa using hk) (by simpa using hk')

/-- A histogram as made from a documented table. -/
structure Hist.Ok (h : Hist) (n : Nat) : Prop where
  nd : 0 ≤ h.nd
  nr : 0 < h.nr
  len : h.ar.length = h.nr.toNat
  nonneg : ∀ x ∈ h.ar, 0 ≤ x
  sum : h.ar.sum = h.frac
  fits : h.nd + h.nr ≤ n

theorem arFill_spec (h : Hist) (n : Nat) (hh : h.Ok n) :
    (arFill h n).length = n ∧ (∀ x ∈ arFill h n, 0 ≤ x) ∧ (arFill h n).sum = h.frac ∧
      (∀ j : Nat, h.nr + h.nd ≤ j → (arFill h n).getD j 0 = 0) := by
  have e := arFill_eq h n hh.nd hh.len hh.nr.le hh.fits
  have hl : (arFill h n).length = n := by simp [arFill]
  refine ⟨hl, ?_, ?_, fun j hj => ?_⟩
  · rw [e]
    intro x hx
    rcases List.mem_append.1 hx with hx | hx
    · rw [List.eq_of_mem_replicate hx]
    · rcases List.mem_append.1 hx with hx | hx
      · exact hh.nonneg x hx
      · rw [List.eq_of_mem_replicate hx]
  · rw [e, List.sum_append, List.sum_append, hh.sum]; simp
  · by_cases hjn : j < n
    · have : (arFill h n)[j]'(by omega) = 0 := by
        simp only [arFill, List.getElem_map, List.getElem_range']
        rw [if_neg (by omega)]
      rw [List.getD, List.getElem?_eq_getElem (by omega), this]; rfl
    · rw [List.getD, List.getElem?_eq_none (by omega)]; rfl

/-- Prefix sums of the padded ordinates. -/
theorem arFill_take (h : Hist) (n : Nat) (hh : h.Ok n) (k : Nat) (hk : k < h.nr.toNat) :
    ((arFill h n).take (h.nd.toNat + k + 1)).sum = (h.ar.take (k + 1)).sum := by
  rw [arFill_eq h n hh.nd hh.len hh.nr.le hh.fits, List.take_append, List.sum_append]
  simp only [List.length_replicate]
  rw [show h.nd.toNat + k + 1 - h.nd.toNat = k + 1 by omega, List.take_append, List.sum_append,
    show k + 1 - h.ar.length = 0 by rw [hh.len]; omega]
  simp

theorem take_sum_le (l : List Rat) (h : ∀ x ∈ l, 0 ≤ x) (k : Nat) : (l.take k).sum ≤ l.sum := by
  rw [← List.sum_take_add_sum_drop l k]
  have := sum_nonneg' (l.drop k) fun x hx => h x (List.mem_of_mem_drop hx)
  linarith

theorem initQ_spec (q0dt : Rat) (hq : 0 ≤ q0dt) (h : Hist) (n : Nat) (hh : h.Ok n) (hf : 0 ≤ h.frac) :
    (initQ q0dt h n).length = n ∧ (∀ x ∈ initQ q0dt h n, 0 ≤ x) ∧
      (∀ j : Nat, h.nr + h.nd ≤ j → (initQ q0dt h n).getD j 0 = 0) := by
  have hl : (initQ q0dt h n).length = n := by simp [initQ]
  refine ⟨hl, ?_, fun j hj => ?_⟩
  · intro x hx
    obtain ⟨i, -, rfl⟩ := List.mem_map.1 hx
    by_cases h1 : (i : Int) ≤ h.nd
    · rw [if_pos h1]; exact mul_nonneg hq hf
    · rw [if_neg h1]
      by_cases h2 : (i : Int) ≤ h.nd + h.nr
      · rw [if_pos h2]
        have := take_sum_le h.ar hh.nonneg ((i : Int) - h.nd - 1).toNat
        rw [hh.sum] at this
        exact mul_nonneg hq (by linarith)
      · rw [if_neg h2]
  · by_cases hjn : j < n
    · have : (initQ q0dt h n)[j]'(by omega) = 0 := by
        have := hh.nr
        simp only [initQ, List.getElem_map, List.getElem_range']
        rw [if_neg (by omega), if_neg (by omega)]
      rw [List.getD, List.getElem?_eq_getElem (by omega), this]; rfl
    · rw [List.getD, List.getElem?_eq_none (by omega)]; rfl

theorem arFill_take' (h : Hist) (n : Nat) (hh : h.Ok n) (j : Nat) :
    ((arFill h n).take j).sum = (h.ar.take (j - h.nd.toNat)).sum := by
  rw [arFill_eq h n hh.nd hh.len hh.nr.le hh.fits, List.take_append, List.sum_append]
  simp only [List.length_replicate]
  rw [List.take_append, List.sum_append]
  simp

/-- The initial water of a segment is what the ordinates still hold back. -/
theorem initQ_eq (q0dt : Rat) (h : Hist) (n : Nat) (hh : h.Ok n) (j : Nat) (hj : j < n) :
    (initQ q0dt h n).getD j 0 = q0dt * ((arFill h n).drop j).sum := by
  have hl : (initQ q0dt h n).length = n := by simp [initQ]
  have hsum := (arFill_spec h n hh).2.2.1
  have hsplit := List.sum_take_add_sum_drop (arFill h n) j
  rw [arFill_take' h n hh j, hsum] at hsplit
  have hd : ((arFill h n).drop j).sum = h.frac - (h.ar.take (j - h.nd.toNat)).sum := by linarith
  have hnr := hh.nr
  have hnd := hh.nd
  rw [List.getD, List.getElem?_eq_getElem (by omega), Option.getD_some, hd]
  simp only [initQ, List.getElem_map, List.getElem_range', one_mul]
  by_cases h1 : ((1 + j : Nat) : Int) ≤ h.nd
  · rw [if_pos h1, show j - h.nd.toNat = 0 by omega]; simp
  · rw [if_neg h1]
    by_cases h2 : ((1 + j : Nat) : Int) ≤ h.nd + h.nr
    · rw [if_pos h2, show (((1 + j : Nat) : Int) - h.nd - 1).toNat = j - h.nd.toNat by omega]
    · rw [if_neg h2, List.take_of_length_le (by rw [hh.len]; omega), hh.sum]; simp

/-- The maximum over the channels. -/
theorem foldl_max (hs : List Hist) (m : Int) :
    let r := hs.foldl (fun m h => if h.nd + h.nr > m then h.nd + h.nr else m) m
    m ≤ r ∧ (∀ h ∈ hs, h.nd + h.nr ≤ r) ∧ (r = m ∨ ∃ h ∈ hs, r = h.nd + h.nr) := by
  induction hs generalizing m with
  | nil => exact ⟨le_refl _, fun _ h => absurd h (by simp), Or.inl rfl⟩
  | cons h hs ih =>
    simp only [List.foldl_cons]
    obtain ⟨i1, i2, i3⟩ := ih (if h.nd + h.nr > m then h.nd + h.nr else m)
    by_cases hc : h.nd + h.nr > m
    · rw [if_pos hc] at *
      refine ⟨by omega, ?_, Or.inr ?_⟩
      · intro x hx
        rcases List.mem_cons.1 hx with rfl | hx
        · exact i1
        · exact i2 x hx
      · rcases i3 with i3 | ⟨x, hx, i3⟩
        · exact ⟨h, by simp, i3⟩
        · exact ⟨x, by simp [hx], i3⟩
    · rw [if_neg hc] at *
      refine ⟨i1, ?_, ?_⟩
      · intro x hx
        rcases List.mem_cons.1 hx with rfl | hx
        · omega
        · exact i2 x hx
      · rcases i3 with i3 | ⟨x, hx, i3⟩
        · exact Or.inl i3
        · exact Or.inr ⟨x, by simp [hx], i3⟩

/-- What an accepted initialisation yields. -/
theorem routecinit_spec (nhydro : Nat) (chvdt q0dt : Rat) (hv : 0 < chvdt) (cs : List Table)
    (hok : ∀ c ∈ cs, c.Ok) (chans : List Chan) (q : List (List Rat))
    (h : routecinit nhydro chvdt q0dt cs = some (some (chans, q))) :
    chans.length = cs.length ∧ q.length = cs.length ∧
    ∀ k (hk : k < cs.length), ∃ g : Hist, g.Ok nhydro ∧ histogram chvdt cs[k] = some g ∧
      g.frac = cs[k].frac ∧
      chans[k]? = some ⟨g.nr + g.nd, arFill g nhydro, cs[k].frac, cs[k].area⟩ ∧
      q[k]? = some (initQ q0dt g nhydro) := by
  obtain ⟨hs, e1, e2, e3⟩ := histograms_spec chvdt hv cs hok
  unfold routecinit at h
  rw [e1] at h
  dsimp only at h
  by_cases hb : (hs.any fun h => h.nd + h.nr > nhydro) = true
  · rw [if_pos hb] at h; exact absurd h (by simp)
  · rw [if_neg hb] at h
    by_cases hc : (nhydro : Int) ≠ hs.foldl (fun m h => if h.nd + h.nr > m then h.nd + h.nr else m) (0 : Int)
    · rw [if_pos hc] at h; exact absurd h (by simp)
    · rw [if_neg hc] at h
      simp only [Option.some.injEq, Prod.mk.injEq] at h
      obtain ⟨rfl, rfl⟩ := h
      refine ⟨by simp [e2], by simp [e2], fun k hk => ?_⟩
      have hk' : k < hs.length := by omega
      have hg := e3 k hk hk'
      obtain ⟨g, g0, g1, g2, g3, g4, g5, g6, g7, -⟩ := histogram_spec chvdt hv cs[k]
        (hok _ (List.getElem_mem hk))
      rw [hg] at g0
      have g0 := Option.some.inj g0
      subst g0
      refine ⟨hs[k], ⟨g1, g2, g3, g6, by rw [g7, g4], ?_⟩, hg, g4, ?_, ?_⟩
      · rw [Bool.not_eq_true, List.any_eq_false] at hb
        have := hb hs[k] (List.getElem_mem hk')
        simpa using this
      · rw [List.getElem?_map, List.getElem?_eq_getElem hk', ← g4, ← g5]; rfl
      · rw [List.getElem?_map, List.getElem?_eq_getElem hk']; rfl

theorem at?_some (l : List Rat) (i : Int) (h1 : 1 ≤ i) (h2 : i ≤ l.length) : ∃ x, at? l i = some x := by
  unfold at?
  rw [if_neg (by omega)]
  exact ⟨_, List.getElem?_eq_getElem (by omega)⟩

theorem addAt_some (l : List Rat) (i : Int) (x : Rat) (h1 : 1 ≤ i) (h2 : i ≤ l.length) :
    ∃ l', Top2c.addAt l i x = some l' ∧ l'.length = l.length := by
  unfold Top2c.addAt
  rw [if_neg (by omega), if_pos (by omega)]
  exact ⟨_, rfl, by simp⟩

theorem requests_some (next : List Rat) (n : Nat) (ms : List (Irr × Rat)) :
    ∀ seg : List Rat, seg.length = n →
      (∀ m ∈ ms, 0 < m.1.src → 1 ≤ m.1.sched ∧ m.1.sched ≤ next.length ∧ m.1.src ≤ next.length ∧ m.1.src ≤ n) →
      ∃ r, requests next ms seg = some r := by
  induction ms with
  | nil => exact fun seg _ _ => ⟨_, rfl⟩
  | cons m ms ih =>
    obtain ⟨m, old⟩ := m
    intro seg hseg h
    unfold requests
    have h' : ∀ m ∈ ms, 0 < m.1.src →
      1 ≤ m.1.sched ∧ m.1.sched ≤ next.length ∧ m.1.src ≤ next.length ∧ m.1.src ≤ n :=
      fun x hx => h x (by simp [hx])
    by_cases hs : m.src > 0
    · rw [if_pos hs]
      obtain ⟨a, b, c, d⟩ := h (m, old) (by simp) hs
      obtain ⟨s, es⟩ := at?_some next m.sched a b
      obtain ⟨t, et⟩ := at?_some next m.src (by omega) c
      obtain ⟨l, el, ll⟩ := addAt_some seg m.src (s * m.vol) (by omega) (by rw [hseg]; exact d)
      obtain ⟨r, er⟩ := ih l (by omega) h'
      rw [es, et]
      dsimp only
      rw [el]
      by_cases hc : s ≤ m.depMax
      · rw [if_pos hc]; dsimp only; rw [er]; exact ⟨_, rfl⟩
      · rw [if_neg hc]; dsimp only; rw [er]; exact ⟨_, rfl⟩
    · rw [if_neg hs]
      obtain ⟨r, er⟩ := ih seg hseg h'
      rw [er]; exact ⟨_, rfl⟩

end Verif.Route
