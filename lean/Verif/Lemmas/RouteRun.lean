import Verif.Lemmas.Route
/-
Helper lemmas for C39 and C55: one routing step and whole runs.
-/
namespace Verif.Route
open Verif.Top2c (addAt addAt_spec sumFor sumFor_cons)

theorem sum_nonneg' (l : List Rat) (h : ∀ x ∈ l, 0 ≤ x) : 0 ≤ l.sum := by
  induction l with
  | nil => simp
  | cons a l ih =>
    rw [List.sum_cons]
    exact add_nonneg (h a (by simp)) (ih fun x hx => h x (by simp [hx]))

theorem getD_nonneg (l : List Rat) (h : ∀ x ∈ l, 0 ≤ x) (k : Nat) : 0 ≤ l.getD k 0 := by
  by_cases hk : k < l.length
  · rw [List.getD, List.getElem?_eq_getElem hk]
    exact h _ (List.getElem_mem hk)
  · rw [List.getD, List.getElem?_eq_none (by omega)]; exact le_refl _

/-- Inflow into one channel. -/
theorem addIn_sum (x : Rat) : ∀ (col ar : List Rat), col.length = ar.length →
    (List.zipWith (fun q a => q + x * a) col ar).sum = col.sum + x * ar.sum := by
  intro col
  induction col with
  | nil => intro ar h; cases ar <;> simp_all
  | cons q col ih =>
    intro ar h
    cases ar with
    | nil => simp at h
    | cons a ar =>
      simp only [List.zipWith_cons_cons, List.sum_cons, ih ar (by simpa using h)]
      ring

theorem zipWith_getD {α β} (f : Rat → α → β) (b : β) (d : α) (l : List Rat) (m : List α) (k : Nat)
    (h : l.length = m.length) (hk : k < l.length) :
    (List.zipWith f l m).getD k b = f (l.getD k 0) (m.getD k d) := by
  rw [List.getD, List.getElem?_zipWith, List.getElem?_eq_getElem hk, List.getElem?_eq_getElem (by omega)]
  simp [List.getD, hk, List.getElem?_eq_getElem (show k < m.length by omega)]

/-- Removal from one channel. -/
theorem cut_sum (segs : List Seg) : ∀ (col : List Rat), col.length = segs.length →
    (List.zipWith (fun q (s : Seg) => q * (1 - s.divert)) col segs).sum =
      col.sum - ((List.range segs.length).map fun ir =>
        col.getD ir 0 * (segs.getD ir ⟨0, 0, 1, 0⟩).divert).sum := by
  induction segs with
  | nil => intro col h; cases col <;> simp_all
  | cons s segs ih =>
    intro col h
    cases col with
    | nil => simp at h
    | cons q col =>
      simp only [List.zipWith_cons_cons, List.sum_cons, ih col (by simpa using h), List.length_cons,
        List.range_succ_eq_map, List.map_cons, List.map_map, List.getD_cons_zero]
      have : ((fun ir => (q :: col).getD ir 0 * ((s :: segs).getD ir ⟨0, 0, 1, 0⟩).divert) ∘ Nat.succ) =
          fun ir => col.getD ir 0 * (segs.getD ir ⟨0, 0, 1, 0⟩).divert := by
        funext ir; simp
      rw [this]; ring

theorem map_sum_add (l : List Nat) (f g : Nat → Rat) :
    (l.map fun k => f k + g k).sum = (l.map f).sum + (l.map g).sum := by
  induction l with
  | nil => simp
  | cons a l ih => simp only [List.map_cons, List.sum_cons, ih]; ring

theorem map_sum_mul (l : List Nat) (f : Nat → Rat) (c : Rat) :
    (l.map f).sum * c = (l.map fun k => f k * c).sum := by
  induction l with
  | nil => simp
  | cons a l ih => simp only [List.map_cons, List.sum_cons, ← ih]; ring

/-- Removal from all channels: per segment. -/
theorem cuts_sum (segs : List Seg) (cols : List (List Rat)) (h : ∀ col ∈ cols, col.length = segs.length) :
    ((cols.map fun col => List.zipWith (fun q (s : Seg) => q * (1 - s.divert)) col segs).map List.sum).sum =
      (cols.map List.sum).sum - ((List.range segs.length).map fun ir =>
        rowSum cols ir * (segs.getD ir ⟨0, 0, 1, 0⟩).divert).sum := by
  induction cols with
  | nil => simp [rowSum]
  | cons col cols ih =>
    simp only [List.map_cons, List.sum_cons] at *
    rw [ih fun c hc => h c (by simp [hc]), cut_sum segs col (h col (by simp))]
    have : (fun ir => rowSum (col :: cols) ir * (segs.getD ir ⟨0, 0, 1, 0⟩).divert) =
        fun ir => col.getD ir 0 * (segs.getD ir ⟨0, 0, 1, 0⟩).divert +
          rowSum cols ir * (segs.getD ir ⟨0, 0, 1, 0⟩).divert := by
      funext ir; simp only [rowSum, List.map_cons, List.sum_cons]; ring
    rw [this, map_sum_add]; ring

theorem shift_sum (len : Int) (col : List Rat) (h : 0 < col.length) (hl : len ≤ col.length) :
    (shift len col).sum = col.sum - col.getD 0 0 := by
  unfold shift
  dsimp only
  cases col with
  | nil => simp at h
  | cons q col =>
    by_cases hm : len.toNat ≤ 1
    · rw [if_pos hm]; simp
    · rw [if_neg hm]
      obtain ⟨m, hm'⟩ : ∃ m, len.toNat = m + 1 := ⟨len.toNat - 1, by omega⟩
      rw [hm']
      simp only [List.take_succ_cons, List.tail_cons, List.drop_succ_cons, List.sum_append, List.sum_cons,
        List.getD_cons_zero]
      rw [← List.sum_take_add_sum_drop col m]; ring

theorem shift_length (len : Int) (col : List Rat) (h : 0 < col.length) (hl : len ≤ col.length) :
    (shift len col).length = col.length := by
  unfold shift
  dsimp only
  by_cases hm : len.toNat ≤ 1
  · rw [if_pos hm]; simp
  · rw [if_neg hm]; simp; omega

theorem shift_nonneg (len : Int) (col : List Rat) (h : ∀ x ∈ col, 0 ≤ x) : ∀ x ∈ shift len col, 0 ≤ x := by
  unfold shift
  dsimp only
  intro x hx
  by_cases hm : len.toNat ≤ 1
  · rw [if_pos hm] at hx
    rcases List.mem_or_eq_of_mem_set hx with hx | hx
    · exact h x hx
    · rw [hx]
  · rw [if_neg hm] at hx
    rcases List.mem_append.1 hx with hx | hx
    · exact h x (List.mem_of_mem_take (List.mem_of_mem_tail hx))
    · rcases List.mem_cons.1 hx with rfl | hx
      · exact le_refl _
      · exact h x (List.mem_of_mem_drop hx)

/-- One segment without losses: the water removed is the water diverted. -/
theorem segment_tight (vol maxloss req qsum : Rat) (hv : 0 < vol) (hl : maxloss ≤ 0) (hr : 0 ≤ req)
    (hq : 0 ≤ qsum) :
    qsum * (segment vol maxloss req qsum).divert * vol = (segment vol maxloss req qsum).taken := by
  unfold segment
  simp only [if_neg (not_lt.2 hl)]
  by_cases h : qsum * vol > 0
  · rw [if_pos h]
    have e : ∀ t : Rat, qsum * (t / (qsum * vol)) * vol = t := by
      intro t
      have : qsum ≠ 0 := by rintro rfl; simp at h
      have := hv.ne'
      field_simp
    exact e _
  · rw [if_neg h]
    have hz : qsum * vol = 0 := le_antisymm (not_lt.1 h) (mul_nonneg hq hv.le)
    rw [hz]
    by_cases h' : 0 < req
    · rw [if_pos h']; ring
    · rw [if_neg h', mul_zero, zero_mul]; exact le_antisymm hr (not_lt.1 h')

/-- The share removed from a segment is between 0 and 1; the volume taken is within the request. -/
theorem segment_range (vol maxloss req qsum : Rat) (hv : 0 < vol) (hr : 0 ≤ req) (hq : 0 ≤ qsum) :
    let s := segment vol maxloss req qsum
    0 ≤ s.divert ∧ s.divert ≤ 1 ∧ 0 ≤ s.taken ∧ s.taken ≤ req ∧ 0 ≤ s.loss ∧ s.loss ≤ qsum ∧
      s.taken ≤ (qsum - s.loss) * vol := by
  unfold segment
  dsimp only
  have key : ∀ left : Rat, 0 ≤ left →
      0 ≤ (if left * vol > 0 then (if left * vol < req then left * vol else req) / (left * vol) else 0) ∧
      (if left * vol > 0 then (if left * vol < req then left * vol else req) / (left * vol) else 0) ≤ 1 ∧
      0 ≤ (if left * vol < req then left * vol else req) ∧
      (if left * vol < req then left * vol else req) ≤ req ∧
      (if left * vol < req then left * vol else req) ≤ left * vol := by
    intro left hleft
    have ha : 0 ≤ left * vol := mul_nonneg hleft hv.le
    have t0 : 0 ≤ (if left * vol < req then left * vol else req) := by split_ifs <;> assumption
    have t1 : (if left * vol < req then left * vol else req) ≤ req := by
      split_ifs with h
      · exact h.le
      · exact le_refl _
    have t2 : (if left * vol < req then left * vol else req) ≤ left * vol := by
      split_ifs with h
      · exact le_refl _
      · exact not_lt.1 h
    refine ⟨?_, ?_, t0, t1, t2⟩
    · by_cases h : left * vol > 0
      · rw [if_pos h]; exact div_nonneg t0 h.le
      · rw [if_neg h]
    · by_cases h : left * vol > 0
      · rw [if_pos h]; exact (div_le_one₀ h).2 t2
      · rw [if_neg h]; norm_num
  by_cases h1 : maxloss > 0
  · simp only [if_pos h1]
    by_cases h2 : qsum > maxloss
    · simp only [if_pos h2]
      obtain ⟨a, b, c, d, e⟩ := key (qsum - maxloss) (by linarith)
      exact ⟨a, b, c, d, h1.le, h2.le, e⟩
    · simp only [if_neg h2]
      obtain ⟨a, b, c, d, e⟩ := key 0 (le_refl _)
      exact ⟨a, b, c, d, hq, le_refl _, by rw [sub_self]; exact e⟩
  · simp only [if_neg h1]
    obtain ⟨a, b, c, d, e⟩ := key qsum hq
    exact ⟨a, b, c, d, le_refl _, hq, by rw [sub_zero]; exact e⟩

/-- Requests: depths and volumes. -/
theorem requests_spec (next : List Rat) : ∀ (ms : List (Irr × Rat)) (seg hyd req : List Rat),
    requests next ms seg = some (hyd, req) →
    hyd.length = ms.length ∧ req.length = seg.length ∧
    ((∀ x ∈ next, 0 ≤ x) → (∀ m ∈ ms, 0 ≤ m.1.vol) → (∀ x ∈ seg, 0 ≤ x) → ∀ x ∈ req, 0 ≤ x) := by
  intro ms
  induction ms with
  | nil =>
    intro seg hyd req h
    simp only [requests, Option.some.injEq, Prod.mk.injEq] at h
    obtain ⟨rfl, rfl⟩ := h
    exact ⟨rfl, rfl, fun _ _ h => h⟩
  | cons m ms ih =>
    intro seg hyd req h
    obtain ⟨m, old⟩ := m
    unfold requests at h
    by_cases hs : m.src > 0
    · rw [if_pos hs] at h
      split at h
      · exact absurd h (by simp)
      · rename_i s hsx
        split at h
        · rename_i dep seg' hd hseg
          rcases hrec : requests next ms seg' with _ | ⟨h1, r1⟩
          · rw [hrec] at h; exact absurd h (by simp)
          · rw [hrec] at h
            simp only [Option.map_some, Option.some.injEq, Prod.mk.injEq] at h
            obtain ⟨rfl, rfl⟩ := h
            obtain ⟨i1, i2, i3⟩ := ih _ _ _ hrec
            obtain ⟨a1, a2, a3, a4, a5⟩ := addAt_spec _ _ _ _ hseg
            refine ⟨by simp [i1], by omega, fun hn hv hp => i3 hn (fun z hz => hv z (by simp [hz])) ?_⟩
            intro x hx
            obtain ⟨k, hk, rfl⟩ := List.mem_iff_getElem.1 hx
            have := a5 k
            rw [List.getD, List.getElem?_eq_getElem hk, Option.getD_some] at this
            rw [this]
            have hs0 : 0 ≤ s := by
              unfold at? at hsx
              by_cases hc : m.sched < 1
              · rw [if_pos hc] at hsx; exact absurd hsx (by simp)
              · rw [if_neg hc] at hsx
                exact hn s (List.mem_of_getElem? hsx)
            have hv0 := hv (m, old) (by simp)
            apply add_nonneg (getD_nonneg _ hp k)
            split_ifs
            · exact mul_nonneg hs0 hv0
            · exact le_refl _
        · exact absurd h (by simp)
    · rw [if_neg hs] at h
      rcases hrec : requests next ms seg with _ | ⟨h1, r1⟩
      · rw [hrec] at h; exact absurd h (by simp)
      · rw [hrec] at h
        simp only [Option.map_some, Option.some.injEq, Prod.mk.injEq] at h
        obtain ⟨rfl, rfl⟩ := h
        obtain ⟨i1, i2, i3⟩ := ih _ _ _ hrec
        exact ⟨by simp [i1], i2, fun hn hv hp => i3 hn (fun z hz => hv z (by simp [hz])) hp⟩

/-- The requests of a step. -/
def demand (b : Basin) (n : Nat) (i : In) (st : St) : Option (List Rat × List Rat) :=
  if b.divert then requests i.next (List.zip b.mrus st.hyd) (List.replicate n 0)
  else some (st.hyd, List.replicate n 0)

theorem demand_spec (b : Basin) (n : Nat) (hb : b.Ok n) (i : In) (hi : i.Ok b) (st : St) (hs : st.Ok b n)
    (hyd req : List Rat) (h : demand b n i st = some (hyd, req)) :
    hyd.length = b.mrus.length ∧ req.length = n ∧ ∀ x ∈ req, 0 ≤ x := by
  unfold demand at h
  have hz : ∀ x ∈ List.replicate n (0 : Rat), 0 ≤ x := fun x hx => by
    rw [List.eq_of_mem_replicate hx]
  by_cases hd : b.divert = true
  · rw [if_pos hd] at h
    obtain ⟨h1, h2, h3⟩ := requests_spec _ _ _ _ _ h
    refine ⟨?_, by simpa using h2, h3 hi.next (fun m hm => ?_) hz⟩
    · rw [h1, List.length_zip, hs.hyd]; simp
    · exact hb.vol m.1 (List.of_mem_zip hm).1
  · rw [if_neg hd] at h
    simp only [Option.some.injEq, Prod.mk.injEq] at h
    obtain ⟨rfl, rfl⟩ := h
    exact ⟨hs.hyd, by simp, hz⟩

/-- The parts of a step. -/
theorem routecrun_eq (b : Basin) (n : Nat) (i : In) (st st' : St) (o : Out)
    (h : routecrun b n i st = some (st', o)) :
    ∃ hyd req, demand b n i st = some (hyd, req) ∧
      let q1 := List.zipWith (fun (c : Chan × Rat) col => addIn c.1 c.2 col) (List.zip b.chans i.qin) st.q
      let segs := (List.range n).map fun ir =>
        segment (b.area * 1000000) (b.maxloss.getD ir 0) (req.getD ir 0) (rowSum q1 ir)
      let q2 := q1.map fun col => List.zipWith (fun q (s : Seg) => q * (1 - s.divert)) col segs
      o.segs = segs ∧
      o.qscm = List.zipWith (fun (c : Chan) col => col.getD 0 0 / c.frac) b.chans q2 ∧
      o.qbasinm = (List.zipWith (fun (c : Chan) q => q * c.area) b.chans o.qscm).sum / b.area ∧
      st'.q = List.zipWith (fun (c : Chan) col => shift c.len col) b.chans q2 ∧
      st'.hyd = List.zipWith (fun (m : Irr) h =>
        if m.src ≥ 1 ∧ m.src.toNat ≤ n then ((segs.getD (m.src.toNat - 1) ⟨0, 0, 1, 0⟩).reduce) * h else h)
        b.mrus hyd := by
  unfold routecrun at h
  split at h
  · exact absurd h (by simp)
  · split at h
    · exact absurd h (by simp)
    · rename_i hyd req hd
      simp only [Option.some.injEq, Prod.mk.injEq] at h
      obtain ⟨rfl, rfl⟩ := h
      exact ⟨hyd, req, hd, rfl, rfl, rfl, rfl, rfl⟩

theorem addIns_sum (n : Nat) (basin : Rat) (hbasin : 0 < basin) : ∀ (cs : List Chan) (xs : List Rat) (q : List (List Rat)),
    (∀ c ∈ cs, c.Ok n basin) → xs.length = cs.length → q.length = cs.length → (∀ col ∈ q, col.length = n) →
    (∀ x ∈ xs, 0 ≤ x) → (∀ col ∈ q, ∀ x ∈ col, 0 ≤ x) →
    let q1 := List.zipWith (fun (c : Chan × Rat) col => addIn c.1 c.2 col) (List.zip cs xs) q
    q1.length = cs.length ∧ (∀ col ∈ q1, col.length = n) ∧ (∀ col ∈ q1, ∀ x ∈ col, 0 ≤ x) ∧
      (q1.map List.sum).sum * (basin * 1000000) = (q.map List.sum).sum * (basin * 1000000) + xs.sum := by
  intro cs
  induction cs with
  | nil =>
    intro xs q _ hx hq _ _ _
    cases xs with
    | nil => cases q <;> simp_all
    | cons _ _ => simp at hx
  | cons c cs ih =>
    intro xs q hc hx hq hlen hx0 hq0
    cases xs with
    | nil => simp at hx
    | cons x xs =>
      cases q with
      | nil => simp at hq
      | cons col q =>
        have hcok := hc c (by simp)
        obtain ⟨i1, i2, i3, i4⟩ := ih xs q (fun c' h => hc c' (by simp [h])) (by simpa using hx)
          (by simpa using hq) (fun c' h => hlen c' (by simp [h])) (fun y h => hx0 y (by simp [h]))
          (fun c' h => hq0 c' (by simp [h]))
        have hcl := hlen col (by simp)
        have hcl' : col.length = c.ar.length := by rw [hcl, hcok.len.1]
        have harea : 0 < c.area := by rw [hcok.area]; exact mul_pos hcok.frac hbasin
        dsimp only at *
        simp only [List.zip_cons_cons, List.zipWith_cons_cons, List.length_cons, List.map_cons, List.sum_cons]
        refine ⟨by rw [i1], ?_, ?_, ?_⟩
        · intro d hd
          rcases List.mem_cons.1 hd with rfl | hd
          · simp [addIn, hcl, hcok.len.1]
          · exact i2 d hd
        · intro d hd y hy
          rcases List.mem_cons.1 hd with rfl | hd
          · unfold addIn at hy
            obtain ⟨k, hk, rfl⟩ := List.mem_iff_getElem.1 hy
            rw [List.getElem_zipWith]
            simp only [List.length_zipWith] at hk
            apply add_nonneg (hq0 col (by simp) _ (List.getElem_mem _))
            exact mul_nonneg (div_nonneg (div_nonneg (hx0 x (by simp)) harea.le) (by norm_num))
              (hcok.nonneg _ (List.getElem_mem _))
          · exact i3 d hd y hy
        · rw [add_mul, i4]
          have : (addIn c x col).sum * (basin * 1000000) = col.sum * (basin * 1000000) + x := by
            unfold addIn
            rw [addIn_sum _ _ _ hcl', hcok.sum, hcok.area]
            have h1 := hcok.frac.ne'
            have h2 := hbasin.ne'
            field_simp
          rw [this]; ring

theorem out_sum (n : Nat) (basin : Rat) (hn : 0 < n) : ∀ (cs : List Chan) (q2 : List (List Rat)),
    (∀ c ∈ cs, c.Ok n basin) → q2.length = cs.length → (∀ col ∈ q2, col.length = n) →
    (List.zipWith (fun (c : Chan) q => q * c.area) cs
      (List.zipWith (fun (c : Chan) col => col.getD 0 0 / c.frac) cs q2)).sum =
        (q2.map fun col => col.getD 0 0).sum * basin ∧
    ((List.zipWith (fun (c : Chan) col => shift c.len col) cs q2).map List.sum).sum =
      (q2.map List.sum).sum - (q2.map fun col => col.getD 0 0).sum ∧
    (List.zipWith (fun (c : Chan) col => shift c.len col) cs q2).length = cs.length ∧
    (∀ col ∈ List.zipWith (fun (c : Chan) col => shift c.len col) cs q2, col.length = n) ∧
    ((∀ col ∈ q2, ∀ x ∈ col, 0 ≤ x) →
      ∀ col ∈ List.zipWith (fun (c : Chan) col => shift c.len col) cs q2, ∀ x ∈ col, 0 ≤ x) := by
  intro cs
  induction cs with
  | nil => intro q2 _ hq _; cases q2 <;> simp_all
  | cons c cs ih =>
    intro q2 hc hq hlen
    cases q2 with
    | nil => simp at hq
    | cons col q2 =>
      have hcok := hc c (by simp)
      obtain ⟨i1, i2, i3, i4, i5⟩ := ih q2 (fun c' h => hc c' (by simp [h])) (by simpa using hq)
        (fun c' h => hlen c' (by simp [h]))
      have hcl := hlen col (by simp)
      simp only [List.zipWith_cons_cons, List.map_cons, List.sum_cons, List.length_cons]
      refine ⟨?_, ?_, by rw [i3], ?_, ?_⟩
      · rw [i1, hcok.area]
        have := hcok.frac.ne'
        field_simp
      · rw [i2, shift_sum _ _ (by omega) (by rw [hcl]; exact hcok.len.2)]; ring
      · intro d hd
        rcases List.mem_cons.1 hd with rfl | hd
        · rw [shift_length _ _ (by omega) (by rw [hcl]; exact hcok.len.2), hcl]
        · exact i4 d hd
      · intro h0 d hd
        rcases List.mem_cons.1 hd with rfl | hd
        · exact shift_nonneg _ _ (h0 col (by simp))
        · exact i5 (fun c' h => h0 c' (by simp [h])) d hd

theorem rowSum_nonneg (cols : List (List Rat)) (h : ∀ col ∈ cols, ∀ x ∈ col, 0 ≤ x) (ir : Nat) :
    0 ≤ rowSum cols ir := by
  apply sum_nonneg'
  intro x hx
  obtain ⟨col, hc, rfl⟩ := List.mem_map.1 hx
  exact getD_nonneg _ (h col hc) _

/-- One step: the state stays well formed and not negative; without losses the volumes balance. -/
theorem step_spec (b : Basin) (n : Nat) (hb : b.Ok n) (i : In) (hi : i.Ok b) (st st' : St) (o : Out)
    (hs : st.Ok b n) (h : routecrun b n i st = some (st', o)) :
    st'.Ok b n ∧ (∀ s ∈ o.segs, 0 ≤ s.taken ∧ 0 ≤ s.loss) ∧ 0 ≤ discharge b o ∧
      (b.Tight → stored b st + i.qin.sum = stored b st' + discharge b o + diverted o) := by
  obtain ⟨hyd, req, hd, e⟩ := routecrun_eq b n i st st' o h
  obtain ⟨d1, d2, d3⟩ := demand_spec b n hb i hi st hs hyd req hd
  have hv : 0 < b.area * 1000000 := mul_pos hb.area (by norm_num)
  obtain ⟨a1, a2, a3, a4⟩ := addIns_sum n b.area hb.area b.chans i.qin st.q hb.chans hi.len hs.cols hs.len
    hi.qin hs.nonneg
  dsimp only at e a1 a2 a3 a4
  generalize List.zipWith (fun (c : Chan × Rat) col => addIn c.1 c.2 col) (List.zip b.chans i.qin) st.q = q1
    at *
  generalize hsegs : ((List.range n).map fun ir =>
    segment (b.area * 1000000) (b.maxloss.getD ir 0) (req.getD ir 0) (rowSum q1 ir)) = segs at *
  have hsl : segs.length = n := by rw [← hsegs]; simp
  have hseg : ∀ ir < n, segs.getD ir ⟨0, 0, 1, 0⟩ =
      segment (b.area * 1000000) (b.maxloss.getD ir 0) (req.getD ir 0) (rowSum q1 ir) := by
    intro ir hir
    rw [← hsegs]; simp [List.getD, hir]
  have hrange := fun ir => segment_range (b.area * 1000000) (b.maxloss.getD ir 0) (req.getD ir 0)
    (rowSum q1 ir) hv (getD_nonneg _ d3 ir) (rowSum_nonneg _ a3 ir)
  have hmem : ∀ s ∈ segs, 0 ≤ s.divert ∧ s.divert ≤ 1 ∧ 0 ≤ s.taken ∧ 0 ≤ s.loss := by
    intro s hs
    rw [← hsegs] at hs
    obtain ⟨ir, -, rfl⟩ := List.mem_map.1 hs
    obtain ⟨x1, x2, x3, -, x5, -⟩ := hrange ir
    exact ⟨x1, x2, x3, x5⟩
  have c1 := cuts_sum segs q1 (fun col hc => by rw [a2 col hc, hsl])
  have q2len : (q1.map fun col => List.zipWith (fun q (s : Seg) => q * (1 - s.divert)) col segs).length =
      b.chans.length := by simp [a1]
  have q2col : ∀ col ∈ (q1.map fun col => List.zipWith (fun q (s : Seg) => q * (1 - s.divert)) col segs),
      col.length = n := by
    intro col hc
    obtain ⟨d, hd, rfl⟩ := List.mem_map.1 hc
    simp [a2 d hd, hsl]
  have q2nn : ∀ col ∈ (q1.map fun col => List.zipWith (fun q (s : Seg) => q * (1 - s.divert)) col segs),
      ∀ x ∈ col, 0 ≤ x := by
    intro col hc x hx
    obtain ⟨d, hd, rfl⟩ := List.mem_map.1 hc
    obtain ⟨k, hk, rfl⟩ := List.mem_iff_getElem.1 hx
    rw [List.getElem_zipWith]
    have := hmem _ (List.getElem_mem (l := segs) (by simp at hk; omega : k < segs.length))
    exact mul_nonneg (a3 d hd _ (List.getElem_mem _)) (by linarith [this.2.1])
  generalize (q1.map fun col => List.zipWith (fun q (s : Seg) => q * (1 - s.divert)) col segs) = q2 at *
  obtain ⟨o1, o2, o3, o4, o5⟩ := out_sum n b.area hb.pos b.chans q2 hb.chans q2len q2col
  obtain ⟨e1, e2, e3, e4, e5⟩ := e
  have hdis : discharge b o = (q2.map fun col => col.getD 0 0).sum * (b.area * 1000000) := by
    unfold discharge
    rw [e3, e2, o1]
    have := hb.area.ne'
    field_simp
  refine ⟨⟨by rw [e4, o3], by rw [e4]; exact o4, by rw [e4]; exact o5 q2nn, ?_⟩, ?_, ?_, ?_⟩
  · rw [e5]; simp [d1]
  · rw [e1]; intro s hs; exact ⟨(hmem s hs).2.2.1, (hmem s hs).2.2.2⟩
  · rw [hdis]
    apply mul_nonneg _ hv.le
    apply sum_nonneg'
    intro x hx
    obtain ⟨col, hc, rfl⟩ := List.mem_map.1 hx
    exact getD_nonneg _ (q2nn col hc) _
  · intro ht
    have hdiv : ((List.range segs.length).map fun ir =>
        rowSum q1 ir * (segs.getD ir ⟨0, 0, 1, 0⟩).divert).sum * (b.area * 1000000) = diverted o := by
      unfold diverted
      rw [e1, ← hsegs, List.map_map]
      simp only [List.length_map, List.length_range]
      rw [map_sum_mul]
      congr 1
      apply List.map_congr_left
      intro ir hir
      rw [hsegs, hseg ir (by simpa using hir)]
      apply segment_tight _ _ _ _ hv _ (getD_nonneg _ d3 ir) (rowSum_nonneg _ a3 ir)
      by_cases hk : ir < b.maxloss.length
      · rw [List.getD, List.getElem?_eq_getElem hk]; exact ht _ (List.getElem_mem hk)
      · rw [List.getD, List.getElem?_eq_none (by omega)]; exact le_refl _
    unfold stored
    rw [← a4, e4, o2, hdis, ← hdiv, c1]
    ring

theorem steps_spec (b : Basin) (n : Nat) (hb : b.Ok n) (ht : b.Tight) (is : List In) (hi : ∀ i ∈ is, i.Ok b)
    (st : St) (hs : st.Ok b n) (rs : List (St × Out)) (h : steps b n st is = some rs) :
    rs.length = is.length ∧ (∀ r ∈ rs, r.1.Ok b n) ∧
    stored b st + (is.map fun i => i.qin.sum).sum =
      stored b ((rs.map (·.1)).getLastD st) + (rs.map fun r => discharge b r.2 + diverted r.2).sum := by
  induction is generalizing st rs with
  | nil =>
    simp only [steps, Option.some.injEq] at h
    subst h; simp
  | cons i is ih =>
    unfold steps at h
    split at h
    · exact absurd h (by simp)
    · rename_i st' o hr
      rcases hrec : steps b n st' is with _ | rs'
      · rw [hrec] at h; exact absurd h (by simp)
      · rw [hrec] at h
        simp only [Option.map_some, Option.some.injEq] at h
        subst h
        obtain ⟨s1, -, -, s4⟩ := step_spec b n hb i (hi i (by simp)) st st' o hs hr
        obtain ⟨i1, i2, i3⟩ := ih (fun j hj => hi j (by simp [hj])) st' s1 rs' hrec
        have s4 := s4 ht
        refine ⟨by simp [i1], ?_, ?_⟩
        · intro r hr'
          rcases List.mem_cons.1 hr' with rfl | hr'
          · exact s1
          · exact i2 r hr'
        · simp only [List.map_cons, List.sum_cons, List.getLastD_cons]
          linarith

/-- Without diversions nothing is removed. -/
theorem segment_zero (vol maxloss qsum : Rat) (hv : 0 < vol) (hq : 0 ≤ qsum) :
    (segment vol maxloss 0 qsum).divert = 0 := by
  obtain ⟨-, -, h3, h4, -⟩ := segment_range vol maxloss 0 qsum hv (le_refl _) hq
  have : (segment vol maxloss 0 qsum).taken = 0 := le_antisymm h4 h3
  unfold segment at *
  dsimp only at *
  rw [this]
  split_ifs <;> simp

theorem zipWith_one (col : List Rat) (segs : List Seg) (h : col.length = segs.length)
    (hz : ∀ s ∈ segs, s.divert = 0) :
    List.zipWith (fun q (s : Seg) => q * (1 - s.divert)) col segs = col := by
  induction col generalizing segs with
  | nil => simp
  | cons q col ih =>
    cases segs with
    | nil => simp at h
    | cons s segs =>
      simp only [List.zipWith_cons_cons]
      rw [ih segs (by simpa using h) (fun t ht => hz t (by simp [ht])), hz s (by simp)]
      simp

theorem shift_getD (len : Int) (col : List Rat) (hn : 0 < col.length) (hl : len ≤ col.length) (h1 : 1 ≤ len)
    (hz : ∀ j : Nat, len ≤ j → col.getD j 0 = 0) (j : Nat) :
    (shift len col).getD j 0 = col.getD (j + 1) 0 := by
  unfold shift
  dsimp only
  cases col with
  | nil => simp at hn
  | cons q col =>
    by_cases hm : len.toNat ≤ 1
    · rw [if_pos hm]
      have hlen : len = 1 := by omega
      subst hlen
      rw [hz (j + 1) (by push_cast; omega)]
      cases j with
      | zero => simp
      | succ j =>
        have := hz (j + 1) (by push_cast; omega)
        simpa using this
    · rw [if_neg hm]
      obtain ⟨m, hm'⟩ : ∃ m, len.toNat = m + 1 := ⟨len.toNat - 1, by omega⟩
      rw [hm']
      have hmc : m ≤ col.length := by
        have : (len : Int) ≤ (q :: col).length := hl
        simp only [List.length_cons] at this; omega
      simp only [List.take_succ_cons, List.tail_cons, List.drop_succ_cons, List.getD_cons_succ]
      by_cases hj : j < m
      · rw [List.getD, List.getElem?_append_left (by simp; omega), List.getElem?_take_of_lt hj]; rfl
      · have hz1 : col.getD j 0 = 0 := by
          have := hz (j + 1) (by push_cast; omega)
          simpa using this
        rw [hz1, List.getD, List.getElem?_append_right (by simp; omega)]
        simp only [List.length_take, Nat.min_eq_left hmc]
        rcases hjm : j - m with _ | k
        · simp
        · simp only [List.getElem?_cons_succ, List.getElem?_drop]
          have := hz (m + k + 1) (by push_cast; omega)
          simp only [List.getD_cons_succ] at this
          exact this

/-- One step of one channel without diversions. -/
theorem step_channel (b : Basin) (n : Nat) (hb : b.Ok n) (hdv : b.divert = false) (i : In) (hi : i.Ok b)
    (st st' : St) (o : Out) (hs : st.Ok b n) (h : routecrun b n i st = some (st', o)) (k : Nat) (c : Chan)
    (hc : b.chans[k]? = some c) (hB : Beyond c (st.q.getD k [])) :
    Beyond c (st'.q.getD k []) ∧
    (∀ j, (st'.q.getD k []).getD j 0 =
      (st.q.getD k []).getD (j + 1) 0 + i.qin.getD k 0 / c.area / 1000000 * c.ar.getD (j + 1) 0) ∧
    o.qscm.getD k 0 * c.frac =
      (st.q.getD k []).getD 0 0 + i.qin.getD k 0 / c.area / 1000000 * c.ar.getD 0 0 := by
  obtain ⟨hyd, req, hd, e⟩ := routecrun_eq b n i st st' o h
  have hreq : req = List.replicate n 0 := by
    unfold demand at hd
    rw [hdv, if_neg (by simp)] at hd
    simp only [Option.some.injEq, Prod.mk.injEq] at hd
    exact hd.2.symm
  have hv : 0 < b.area * 1000000 := mul_pos hb.area (by norm_num)
  obtain ⟨a1, a2, a3, -⟩ := addIns_sum n b.area hb.area b.chans i.qin st.q hb.chans hi.len hs.cols hs.len
    hi.qin hs.nonneg
  have hk : k < b.chans.length := (List.getElem?_eq_some_iff.1 hc).1
  have hck : b.chans[k] = c := (List.getElem?_eq_some_iff.1 hc).2
  have hcok : c.Ok n b.area := hb.chans c (List.mem_of_getElem? hc)
  have hkq : k < st.q.length := by rw [hs.cols]; exact hk
  have hkx : k < i.qin.length := by rw [hi.len]; exact hk
  have hcol : st.q.getD k [] = st.q[k] := by rw [List.getD, List.getElem?_eq_getElem hkq]; rfl
  have hxk : i.qin.getD k 0 = i.qin[k] := by rw [List.getD, List.getElem?_eq_getElem hkx]; rfl
  have hlen : st.q[k].length = n := hs.len _ (List.getElem_mem hkq)
  have hq1 : (List.zipWith (fun (c : Chan × Rat) col => addIn c.1 c.2 col) (List.zip b.chans i.qin) st.q)[k]? =
      some (addIn c i.qin[k] st.q[k]) := by
    rw [List.getElem?_zipWith, List.getElem?_eq_getElem hkq,
      List.getElem?_eq_getElem (by simp; omega), List.getElem_zip, hck]
  dsimp only at e a1 a2 a3
  generalize List.zipWith (fun (c : Chan × Rat) col => addIn c.1 c.2 col) (List.zip b.chans i.qin) st.q = q1
    at *
  generalize hsegs : ((List.range n).map fun ir =>
    segment (b.area * 1000000) (b.maxloss.getD ir 0) (req.getD ir 0) (rowSum q1 ir)) = segs at *
  have hz : ∀ s ∈ segs, s.divert = 0 := by
    intro s hsm
    rw [← hsegs] at hsm
    obtain ⟨ir, hir, rfl⟩ := List.mem_map.1 hsm
    have : req.getD ir 0 = 0 := by
      rw [hreq]; simp only [List.mem_range] at hir; simp [List.getD, hir]
    rw [this]
    exact segment_zero _ _ _ hv (rowSum_nonneg _ a3 ir)
  have hq2 : q1.map (fun col => List.zipWith (fun q (s : Seg) => q * (1 - s.divert)) col segs) = q1 := by
    conv_rhs => rw [← List.map_id q1]
    apply List.map_congr_left
    intro col hcm
    exact zipWith_one col segs (by rw [a2 col hcm, ← hsegs]; simp) hz
  obtain ⟨-, e2, -, e4, -⟩ := e
  rw [hq2] at e2 e4
  have hadd : ∀ j, (addIn c i.qin[k] st.q[k]).getD j 0 =
      st.q[k].getD j 0 + i.qin[k] / c.area / 1000000 * c.ar.getD j 0 := by
    intro j
    by_cases hj : j < n
    · unfold addIn
      rw [zipWith_getD _ 0 0 _ _ j (by rw [hlen, hcok.len.1]) (by omega)]
    · have l1 : (addIn c i.qin[k] st.q[k]).length = n := by simp [addIn, hlen, hcok.len.1]
      simp only [List.getD]
      rw [List.getElem?_eq_none (by omega), List.getElem?_eq_none (by omega),
        List.getElem?_eq_none (by rw [hcok.len.1]; omega)]
      simp
  have hal : (addIn c i.qin[k] st.q[k]).length = n := by simp [addIn, hlen, hcok.len.1]
  rw [hcol] at hB ⊢
  rw [hxk]
  have hzadd : ∀ j : Nat, c.len ≤ j → (addIn c i.qin[k] st.q[k]).getD j 0 = 0 := by
    intro j hj
    rw [hadd, (hB.2 j hj).1, (hB.2 j hj).2]; ring
  have hst' : st'.q.getD k [] = shift c.len (addIn c i.qin[k] st.q[k]) := by
    rw [e4, List.getD, List.getElem?_zipWith, hc, hq1]; rfl
  have hsh := shift_getD c.len (addIn c i.qin[k] st.q[k]) (by rw [hal]; exact hb.pos)
    (by rw [hal]; exact hcok.len.2) hB.1 hzadd
  refine ⟨⟨hB.1, fun j hj => ⟨?_, (hB.2 j hj).2⟩⟩, fun j => ?_, ?_⟩
  · rw [hst', hsh, hzadd (j + 1) (by push_cast; omega)]
  · rw [hst', hsh, hadd]
  · rw [e2, List.getD, List.getElem?_zipWith, hc, hq1]
    simp only [Option.getD_some]
    have hf := hcok.frac.ne'
    rw [div_mul_cancel₀ _ hf, hadd]

theorem convolution_succ (x : Rat) (xs ar : List Rat) (t : Nat) :
    convolution (x :: xs) ar (t + 1) = x * ar.getD (t + 1) 0 + convolution xs ar t := by
  unfold convolution
  rw [List.range_succ_eq_map]
  simp only [List.map_cons, List.sum_cons, List.map_map, List.getD_cons_zero, Nat.sub_zero]
  congr 2
  apply List.map_congr_left
  intro k _
  simp only [Function.comp, List.getD_cons_succ, Nat.succ_eq_add_one, Nat.add_sub_add_right]

/-- The discharge of a channel is the convolution of its inflow with the ordinates, plus the initial
water. -/
theorem steps_delay (b : Basin) (n : Nat) (hb : b.Ok n) (hdv : b.divert = false) (is : List In)
    (hi : ∀ i ∈ is, i.Ok b) (st : St) (hs : st.Ok b n) (rs : List (St × Out))
    (h : steps b n st is = some rs) (k : Nat) (c : Chan) (hc : b.chans[k]? = some c)
    (hB : Beyond c (st.q.getD k [])) (t : Nat) (ht : t < is.length) :
    (rs.map fun r => r.2.qscm.getD k 0 * c.frac).getD t 0 =
      (st.q.getD k []).getD t 0 +
        convolution (is.map fun i => i.qin.getD k 0 / c.area / 1000000) c.ar t := by
  induction is generalizing st rs t with
  | nil => simp at ht
  | cons i is ih =>
    unfold steps at h
    split at h
    · exact absurd h (by simp)
    · rename_i st' o hr
      rcases hrec : steps b n st' is with _ | rs'
      · rw [hrec] at h; exact absurd h (by simp)
      · rw [hrec] at h
        simp only [Option.map_some, Option.some.injEq] at h
        subst h
        have s1 := (step_spec b n hb i (hi i (by simp)) st st' o hs hr).1
        obtain ⟨c1, c2, c3⟩ := step_channel b n hb hdv i (hi i (by simp)) st st' o hs hr k c hc hB
        cases t with
        | zero =>
          simp only [List.map_cons, List.getD_cons_zero, c3, convolution]
          simp
        | succ t =>
          simp only [List.map_cons, List.getD_cons_succ]
          rw [ih (fun j hj => hi j (by simp [hj])) st' s1 rs' hrec c1 t (by simpa using ht), c2,
            convolution_succ]
          ring

/-- Requests of MRUs that follow the schedule with the number of their segment, within pump capacity. -/
theorem requests_volume (next : List Rat) : ∀ (ms : List (Irr × Rat)) (seg hyd req : List Rat),
    requests next ms seg = some (hyd, req) →
    (∀ m ∈ ms, 0 < m.1.src → m.1.sched = m.1.src ∧ ∀ s, at? next m.1.sched = some s → s ≤ m.1.depMax) →
    ∀ k : Nat, req.getD k 0 = seg.getD k 0 +
      sumFor (fun m : Irr × Rat => m.1.src) (fun m => m.2 * m.1.vol) k (List.zip (ms.map (·.1)) hyd) := by
  intro ms
  induction ms with
  | nil =>
    intro seg hyd req h _ k
    simp only [requests, Option.some.injEq, Prod.mk.injEq] at h
    obtain ⟨rfl, rfl⟩ := h
    simp [sumFor]
  | cons m ms ih =>
    intro seg hyd req h hm k
    obtain ⟨m, old⟩ := m
    unfold requests at h
    by_cases hs : m.src > 0
    · rw [if_pos hs] at h
      split at h
      · exact absurd h (by simp)
      · rename_i s hsx
        obtain ⟨g1, g2⟩ := hm (m, old) (by simp) hs
        rw [if_pos (g2 s hsx), ← g1, hsx] at h
        split at h
        · rename_i dep seg' hd hseg
          simp only [Option.some.injEq] at hd
          subst hd
          rcases hrec : requests next ms seg' with _ | ⟨h1, r1⟩
          · rw [hrec] at h; exact absurd h (by simp)
          · rw [hrec] at h
            simp only [Option.map_some, Option.some.injEq, Prod.mk.injEq] at h
            obtain ⟨rfl, rfl⟩ := h
            have := ih _ _ _ hrec (fun z hz => hm z (by simp [hz])) k
            rw [this, (addAt_spec _ _ _ _ hseg).2.2.2.2 k]
            simp only [List.map_cons, List.zip_cons_cons, sumFor_cons]
            rw [g1]; ring
        · exact absurd h (by simp)
    · rw [if_neg hs] at h
      rcases hrec : requests next ms seg with _ | ⟨h1, r1⟩
      · rw [hrec] at h; exact absurd h (by simp)
      · rw [hrec] at h
        simp only [Option.map_some, Option.some.injEq, Prod.mk.injEq] at h
        obtain ⟨rfl, rfl⟩ := h
        rw [ih _ _ _ hrec (fun z hz => hm z (by simp [hz])) k]
        simp only [List.map_cons, List.zip_cons_cons, sumFor_cons]
        rw [if_neg (show ¬ m.src = (k : Int) + 1 by omega)]; ring

theorem delivered_reduced (f : Nat → Rat) (n k : Nat) (hk : k < n) : ∀ (mrus : List Irr) (hyd : List Rat),
    delivered k mrus (List.zipWith (fun (m : Irr) h =>
      if m.src ≥ 1 ∧ m.src.toNat ≤ n then f (m.src.toNat - 1) * h else h) mrus hyd) =
      f k * delivered k mrus hyd := by
  intro mrus
  induction mrus with
  | nil => intro hyd; simp [delivered, sumFor]
  | cons m mrus ih =>
    intro hyd
    cases hyd with
    | nil => simp [delivered, sumFor]
    | cons h hyd =>
      have := ih hyd
      unfold delivered at *
      simp only [List.zipWith_cons_cons, List.zip_cons_cons, sumFor_cons, this]
      by_cases hs : m.src = (k : Int) + 1
      · rw [if_pos hs, if_pos hs, if_pos (by omega)]
        rw [show m.src.toNat - 1 = k by omega]; ring
      · rw [if_neg hs, if_neg hs]; ring

theorem segment_reduce (vol maxloss req qsum : Rat) (hv : 0 < vol) (hr : 0 ≤ req) (hq : 0 ≤ qsum) :
    (segment vol maxloss req qsum).taken = (segment vol maxloss req qsum).reduce * req := by
  obtain ⟨-, -, h3, h4, -⟩ := segment_range vol maxloss req qsum hv hr hq
  unfold segment at *
  dsimp only at *
  generalize (if maxloss > 0 then if qsum > maxloss then
    qsum - (if maxloss > 0 then if qsum > maxloss then maxloss else qsum else 0) else 0 else qsum) * vol = a at *
  by_cases h : a < req
  · rw [if_pos h] at *
    rw [if_pos h]
    have : 0 < req := lt_of_le_of_lt h3 h
    rw [div_mul_cancel₀ _ this.ne']
  · rw [if_neg h] at *
    rw [if_neg h, one_mul]

end Verif.Route
