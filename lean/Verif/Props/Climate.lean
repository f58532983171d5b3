import Verif.Lemmas.Climate
/-
Climate of the units (C79-C89).  Specification: `Verif/Spec/Climate.lean`.
-/
namespace Verif.Climate

/-! ### C79, C80: temperatures of units -/

/-- **C79.** In every time step of a simulation of any length the temperatures of a unit are those of its station corrected with the
lapse rates of the month of that step; records of the first of every month exist. -/
theorem C79_month (u : Unit') (r : Rec) (rs : List Rec) (h : MonthsBegin r rs) :
    UnitTemps u ((r :: rs).getLast (by simp)) (temps u r rs).2 := by
  unfold temps
  refine temps_inv u r rs _ ?_ ?_ h
  · unfold t1run; simp
  · unfold t1run; simp [UnitTemps, Unit'.elfac]

example : MonthsBegin ⟨1, 30, 2, -8, -3⟩ [⟨1, 31, 1, -9, -4⟩, ⟨2, 1, 0, -10, -5⟩, ⟨2, 2, 1, -8, -4⟩] ∧
    (temps ⟨fun m => m, fun m => 2 * m, 1500, 500, 0, 0⟩ ⟨1, 30, 2, -8, -3⟩
      [⟨1, 31, 1, -9, -4⟩, ⟨2, 1, 0, -10, -5⟩, ⟨2, 2, 1, -8, -4⟩]).2 = ⟨-1, -12, -7⟩ := by
  constructor
  · simp [MonthsBegin]
  · decide +kernel

/-- **C80 (part).** After missing records the temperatures are right from the next first of a month on. -/
theorem C80_recovers_partial (u : Unit') (r : Rec) (before : List Rec) (x : Rec) (after : List Rec) (hx : x.day = 1) (h : MonthsBegin x after) :
    UnitTemps u ((x :: after).getLast (by simp)) (temps u r (before ++ x :: after)).2 := by
  unfold temps
  rw [List.foldl_append, List.foldl_cons]
  refine temps_inv u x after _ ?_ ?_ h
  · unfold t1run; simp [hx]
  · unfold t1run; simp [UnitTemps, Unit'.elfac, hx]

/-- **C80 violated.** If the record of the first day is missing, the lapse rates of an earlier month are used for the rest of the
month: the error is the difference of the lapse rates times the difference of elevation. -/
theorem C80_gap_violated (u : Unit') (r x : Rec) (rs : List Rec) (hx : ∀ y ∈ rs ++ [x], y.day ≠ 1) :
    (temps u r (rs ++ [x])).2.max =
      x.max - (u.maxLapse x.month * u.elfac - u.maxAdj) + (u.maxLapse x.month - u.maxLapse r.month) * u.elfac := by
  have key : ∀ (rs : List Rec) (s : Corr × Temps), (∀ y ∈ rs, y.day ≠ 1) → (rs.foldl (fun s x => t1run u false x s.1) s).1 = s.1 := by
    intro rs
    induction rs with
    | nil => intro s _; rfl
    | cons y ys ih =>
      intro s h
      rw [List.foldl_cons, ih _ (fun z hz => h z (by simp [hz]))]
      unfold t1run
      simp [h y (by simp)]
  unfold temps
  rw [List.foldl_append, List.foldl_cons, List.foldl_nil]
  have hd : x.day ≠ 1 := hx x (by simp)
  have hc := key rs (t1run u true r ⟨0, 0⟩) (fun y hy => hx y (by simp [hy]))
  unfold t1run at hc ⊢
  simp only [Bool.false_eq_true, false_or, hd, if_false] at hc ⊢
  rw [hc]
  simp only [true_or, if_true]
  ring

/-- From January to July: the winter lapse rate remains. -/
example : (temps ⟨fun m => m, fun m => m, 1500, 500, 0, 0⟩ ⟨1, 30, 2, -8, -3⟩ [⟨7, 2, 20, 10, 15⟩]).2.max = 19 := by decide +kernel

/-! ### C81, C82: reaction temperatures -/

/-- **C81.** After at least as many time steps as the averaging period, the reaction temperature is the mean over that period, in
which the oldest temperature counts with the fraction of its step, plus the adjustment. -/
theorem C81_mean {days adj : Rat} (h : 0 < days) (hs : Single days) (ts : List Rat) (hlen : days ≤ ts.length) :
    ∃ a v m, reacts days adj ts = some (a, v) ∧ MeanOfLast days ts.reverse m ∧ v = m + adj := by
  obtain ⟨n, hn, h1, h2⟩ := ceil_pos h
  have hnl : n + 1 ≤ ts.length := by
    have : (n : Rat) < ts.length := lt_of_lt_of_le h1 hlen
    have : n < ts.length := by exact_mod_cast this
    omega
  have hne : ts ≠ [] := by rintro rfl; simp at hnl
  have hinit : reactInit days = some (List.replicate (n + 1) 0) := by
    unfold reactInit
    rw [if_neg (by omega)]
    congr 2
    omega
  obtain ⟨x, hx⟩ := reacts_state days adj n ts (List.replicate (n + 1) 0) 0 (by simp) hne
  have htl : (List.replicate (n + 1) (0 : Rat)).tail = List.replicate n 0 := rfl
  rw [htl] at hx
  have hb : (ts.reverse.tail ++ List.replicate n 0).take n = ts.reverse.tail.take n := by
    rw [List.take_append_of_le_length (by simp; omega)]
  rw [hb] at hx
  have hrev : ts.reverse = ts.getLast hne :: ts.reverse.tail := by
    have h3 : ts.reverse ≠ [] := by simpa using hne
    have h4 := List.cons_head_tail h3
    rw [List.head_reverse] at h4
    exact h4.symm
  obtain ⟨last, h5, h6⟩ := react_value (adj := adj) (t := ts.getLast hne) hn h hs (ts.reverse.tail.take n) (by simp; omega)
  have htake : (ts.getLast hne :: ts.reverse.tail.take n) = ts.reverse.take (n + 1) := by
    conv_rhs => rw [hrev, List.take_succ_cons]
  rw [htake] at h5 h6
  refine ⟨_, _, _, by unfold reacts; rw [hinit, Option.map_some, hx], ⟨n, h1, h2, last, ?_, rfl⟩, ?_⟩
  · rw [List.getElem?_take_of_lt (by omega)] at h5; exact h5
  · rw [h6, List.take_take]; congr 5; omega

/-- **C81.** It never leaves the range of the temperatures averaged (before the adjustment). -/
theorem C81_range {days : Rat} (h : 0 < days) {newest : List Rat} {v lo hi : Rat} (hm : MeanOfLast days newest v)
    (hr : ∀ t ∈ newest, lo ≤ t ∧ t ≤ hi) : lo ≤ v ∧ v ≤ hi := by
  obtain ⟨n, h1, h2, last, h3, rfl⟩ := hm
  have hl := hr last (List.mem_of_getElem? h3)
  have hn : n < newest.length := (List.getElem?_eq_some_iff.1 h3).1
  have hlen : (newest.take n).length = n := by simp; omega
  have hsum : n * lo ≤ (newest.take n).sum ∧ (newest.take n).sum ≤ n * hi := by
    have key : ∀ l : List Rat, (∀ t ∈ l, lo ≤ t ∧ t ≤ hi) → l.length * lo ≤ l.sum ∧ l.sum ≤ l.length * hi := by
      intro l
      induction l with
      | nil => intro _; simp
      | cons t l ih =>
        intro h
        obtain ⟨h4, h5⟩ := ih fun x hx => h x (by simp [hx])
        obtain ⟨h6, h7⟩ := h t (by simp)
        simp only [List.length_cons, List.sum_cons]
        push_cast
        constructor <;> nlinarith
    have := key (newest.take n) (fun t ht => hr t (List.mem_of_mem_take ht))
    rw [hlen] at this
    exact this
  have hw : 0 ≤ days - n := by linarith
  constructor
  · rw [le_div_iff₀ h]; nlinarith [hsum.1, hl.1]
  · rw [div_le_iff₀ h]; nlinarith [hsum.2, hl.2]

/-- Two and a half days. -/
example : Single (5 / 2) ∧ (5 / 2 : Rat) ≤ [4, 5, 6, 7].length ∧ (reacts (5 / 2) 1 [4, 5, 6, 7]).map (·.2) = some ((7 + 6 + 5 / 2) / (5 / 2) + 1) := by
  refine ⟨.inr ⟨5 * 2 ^ 23, by norm_num⟩, by norm_num, by decide +kernel⟩

/-- **C82 (part).** In the first time steps the mean is taken as if all earlier temperatures had been 0. -/
theorem C82_start_partial {days adj : Rat} (h : 0 < days) (hs : Single days) (ts : List Rat) (hne : ts ≠ []) :
    ∃ a v m, reacts days adj ts = some (a, v) ∧ MeanOfLast days (ts.reverse ++ List.replicate ⌈days⌉.toNat 0) m ∧ v = m + adj := by
  obtain ⟨n, hn, h1, h2⟩ := ceil_pos h
  have hinit : reactInit days = some (List.replicate (n + 1) 0) := by
    unfold reactInit
    rw [if_neg (by omega)]
    congr 2
    omega
  obtain ⟨x, hx⟩ := reacts_state days adj n ts (List.replicate (n + 1) 0) 0 (by simp) hne
  have htl : (List.replicate (n + 1) (0 : Rat)).tail = List.replicate n 0 := rfl
  rw [htl] at hx
  have hrev : ts.reverse = ts.getLast hne :: ts.reverse.tail := by
    have h3 : ts.reverse ≠ [] := by simpa using hne
    have h4 := List.cons_head_tail h3
    rw [List.head_reverse] at h4
    exact h4.symm
  have hceil : ⌈days⌉.toNat = n + 1 := by omega
  obtain ⟨last, h5, h6⟩ := react_value (adj := adj) (t := ts.getLast hne) hn h hs ((ts.reverse.tail ++ List.replicate n 0).take n)
    (by simp)
  have htake : (ts.getLast hne :: (ts.reverse.tail ++ List.replicate n 0).take n) = (ts.reverse ++ List.replicate (n + 1) 0).take (n + 1) := by
    conv_rhs => rw [hrev, List.cons_append, List.take_succ_cons]
    congr 1
    rw [List.replicate_succ', ← List.append_assoc]
    rw [List.take_append_of_le_length (l₁ := ts.reverse.tail ++ List.replicate n 0) (by simp)]
  rw [htake] at h5 h6
  rw [hceil]
  refine ⟨_, _, _, by unfold reacts; rw [hinit, Option.map_some, hx], ⟨n, h1, h2, last, ?_, rfl⟩, ?_⟩
  · rw [List.getElem?_take_of_lt (by omega)] at h5; exact h5
  · rw [h6, List.take_take]; congr 5; omega

/-- **C82 violated.** With a constant temperature `t` the first reaction temperature of an averaging period of a day or more is
`t / days`. -/
theorem C82_start_violated {days t : Rat} (h : 1 < days) (hs : Single days) :
    ∃ a, reacts days 0 [t] = some (a, t / days) := by
  obtain ⟨a, v, m, h1, ⟨n, h2, h3, last, h4, rfl⟩, h5⟩ := C82_start_partial (adj := 0) (lt_trans (by norm_num) h) hs [t] (by simp)
  refine ⟨a, ?_⟩
  rw [h1, h5]
  have hn : n ≠ 0 := by
    rintro rfl
    simp at h3
    linarith
  obtain ⟨k, rfl⟩ : ∃ k, n = k + 1 := ⟨n - 1, by omega⟩
  have hl : last = 0 := by
    have : last ∈ List.replicate ⌈days⌉.toNat (0 : Rat) := by
      simp only [List.reverse_singleton, List.singleton_append, List.getElem?_cons_succ] at h4
      exact List.mem_of_getElem? h4
    exact (List.mem_replicate.1 this).2
  have hsum : (([t].reverse ++ List.replicate ⌈days⌉.toNat 0).take (k + 1)).sum = t := by
    simp only [List.reverse_singleton, List.singleton_append, List.take_succ_cons, List.sum_cons, List.take_replicate,
      List.sum_replicate]
    simp
  rw [hl, hsum]
  congr 2
  ring

/-- **C82 violated.** The period is counted in time steps: with hourly steps a period of two days is the mean of two hours. -/
theorem C82_hourly_violated : ∃ hours : List Rat, hours.length = 48 ∧ hours.sum / 48 = 10 ∧ (reacts 2 0 hours).map (·.2) = some 20 := by
  refine ⟨List.replicate 24 0 ++ List.replicate 24 20, by simp, by simp [List.sum_append]; norm_num, by decide +kernel⟩

/-- **C82 violated.** An averaging period of 0 writes outside the array. -/
theorem C82_zero_violated (adj : Rat) (ts : List Rat) : reacts 0 adj ts = none := by
  unfold reacts reactInit
  rw [if_pos (by simp)]
  rfl

/-! ### C83, C84: season of transpiration -/

/-- **C83.** For time steps of any length and number: after any number of days transpiration is switched on if and only if the season
has begun (the warmth since the first of month `beg` exceeds the index, or the start date is in the season) and has not ended since
(no first of month `fin`).  Every year is warm enough, and the index is not exceeded by the first day of month `beg` alone. -/
theorem C83_season {beg fin : Int} {idx : Rat} {mo day : Int} (hb : 1 ≤ beg ∧ beg ≤ 12) (hf : 1 ≤ fin ∧ fin ≤ 12) (hm : 1 ≤ mo ∧ mo ≤ 12)
    (hne : beg ≠ fin) (h0 : 0 ≤ idx) (steps : List Day) (hfirst : ∀ d ∈ newDays 0 steps, FirstOf beg d → d.tmax ≤ idx)
    (hwarm : WarmYears beg fin idx mo day (newDays 0 steps)) :
    (season beg fin idx mo day steps).on = true ↔ Active beg fin idx mo day (newDays 0 steps) := by
  unfold season
  rw [season_newDays]
  exact (season_inv hb hf hm hne h0 _ hfirst hwarm).iff

/-- A simulation from 31 March to 1 October (days without change left out): off, on in May, off in October. -/
example : (season 4 10 50 3 31 [⟨3, 30, 10⟩, ⟨3, 31, 60⟩]).on = false ∧
    (season 4 10 50 3 31 [⟨3, 31, 10⟩, ⟨4, 1, 20⟩, ⟨4, 2, 20⟩]).on = false ∧
    (season 4 10 50 3 31 [⟨3, 31, 10⟩, ⟨4, 1, 20⟩, ⟨4, 2, 20⟩, ⟨5, 3, 20⟩]).on = true ∧
    (season 4 10 50 3 31 [⟨3, 31, 10⟩, ⟨4, 1, 20⟩, ⟨4, 2, 20⟩, ⟨5, 3, 20⟩, ⟨10, 1, 20⟩]).on = false ∧
    WarmYears 4 10 50 3 31 (newDays 0 [⟨3, 31, 10⟩, ⟨4, 1, 20⟩, ⟨4, 2, 20⟩, ⟨5, 3, 20⟩, ⟨10, 1, 20⟩]) := by
  refine ⟨by decide +kernel, by decide +kernel, by decide +kernel, by decide +kernel, ?_⟩
  have : newDays 0 [⟨3, 31, 10⟩, ⟨4, 1, 20⟩, ⟨4, 2, 20⟩, ⟨5, 3, 20⟩, ⟨10, 1, 20⟩] =
      [⟨3, 31, 10⟩, ⟨4, 1, 20⟩, ⟨4, 2, 20⟩, ⟨5, 3, 20⟩, ⟨10, 1, 20⟩] := by decide +kernel
  rw [this]
  intro e q x l h1 h2 h3 h4
  rcases h2 with ⟨b, r, rfl, hb⟩ | ⟨-, h, -⟩
  · -- the only first of April is the second record, the only first of October the last
    match e with
    | [] => simp at h1; obtain ⟨rfl, -⟩ := h1; exact absurd hb.2 (by decide)
    | [_] =>
      simp at h1
      obtain ⟨-, rfl, h1⟩ := h1
      match r with
      | [] => simp at h1; obtain ⟨rfl, -⟩ := h1; exact absurd h4.2 (by decide)
      | [_] => simp at h1; obtain ⟨-, rfl, -⟩ := h1; exact absurd h4.2 (by decide)
      | [_, _] => simp at h1; obtain ⟨rfl, rfl, -⟩ := h1; norm_num [warmth]
      | _ :: _ :: _ :: _ => have := congrArg List.length h1; simp at this
    | [_, _] => simp at h1; obtain ⟨-, -, rfl, -⟩ := h1; exact absurd hb.1 (by decide)
    | [_, _, _] => simp at h1; obtain ⟨-, -, -, rfl, -⟩ := h1; exact absurd hb.2 (by decide)
    | _ :: _ :: _ :: _ :: _ => have := congrArg List.length h1; simp at this; omega
  · exact absurd h (by decide)

/-- **C84 (part).** Without the assumptions on the weather, transpiration is switched on only if since some first of month `beg` (or
the start) the index was exceeded, or the season had begun at the start. -/
theorem C84_on_partial {beg fin : Int} {idx : Rat} {mo day : Int} (hb : 1 ≤ beg ∧ beg ≤ 12) (hf : 1 ≤ fin ∧ fin ≤ 12)
    (hm : 1 ≤ mo ∧ mo ≤ 12) (hne : beg ≠ fin) (steps : List Day) (hon : (season beg fin idx mo day steps).on = true) :
    StartsInside beg fin mo day ∨ ∃ earlier q later, newDays 0 steps = earlier ++ q ++ later ∧ Opens beg mo day earlier q ∧ idx < warmth q := by
  unfold season at hon
  rw [season_newDays] at hon
  generalize newDays 0 steps = L at hon ⊢
  obtain ⟨i1, i2, i3⟩ := seasonInit_on (day := day) hb hf hm hne
  have key : ∀ L : List Day,
      ((L.foldl (fun s d => seasonDay beg fin idx d s) (seasonInit beg fin mo day)).on = true →
        StartsInside beg fin mo day ∨ ∃ earlier q later, L = earlier ++ q ++ later ∧ Opens beg mo day earlier q ∧ idx < warmth q) ∧
      ((L.foldl (fun s d => seasonDay beg fin idx d s) (seasonInit beg fin mo day)).check = true →
        ∃ e q, L = e ++ q ∧ Opens beg mo day e q ∧
          (L.foldl (fun s d => seasonDay beg fin idx d s) (seasonInit beg fin mo day)).sum = warmth q) ∧
      ((L.foldl (fun s d => seasonDay beg fin idx d s) (seasonInit beg fin mo day)).check = false →
        (L.foldl (fun s d => seasonDay beg fin idx d s) (seasonInit beg fin mo day)).sum = 0) := by
    intro L
    induction L using List.reverseRecOn with
    | nil =>
      refine ⟨fun h => .inl (i1.1 h), fun h => ⟨[], [], rfl, .inr ⟨rfl, i2.1 h⟩, by simp [i3, warmth]⟩, fun _ => i3⟩
    | append_singleton L d ih =>
      rw [List.foldl_append, List.foldl_cons, List.foldl_nil]
      generalize L.foldl (fun s d => seasonDay beg fin idx d s) (seasonInit beg fin mo day) = s at ih
      obtain ⟨a1, a2, a3⟩ := ih
      have lift : s.on = true → StartsInside beg fin mo day ∨
          ∃ earlier q later, L ++ [d] = earlier ++ q ++ later ∧ Opens beg mo day earlier q ∧ idx < warmth q := by
        intro h
        rcases a1 h with h | ⟨e, q, l, rfl, h2, h3⟩
        · exact .inl h
        · exact .inr ⟨e, q, l ++ [d], by simp, h2, h3⟩
      unfold seasonDay
      cases hc : s.check with
      | true =>
        obtain ⟨e, q, h1, h2, h3⟩ := a2 hc
        simp only [if_true, addPos_eq]
        by_cases ht : s.sum + max 0 d.tmax > idx
        · simp only [ht, if_true]
          refine ⟨fun _ => .inr ⟨e, q ++ [d], [], by rw [h1]; simp, h2.snoc d, by rw [warmth_snoc, ← h3]; exact ht⟩,
            fun h => by simp at h, fun _ => trivial⟩
        · simp only [ht, if_false]
          exact ⟨lift, fun _ => ⟨e, q ++ [d], by rw [h1]; simp, h2.snoc d, by rw [warmth_snoc, ← h3]⟩, fun h => by simp at h⟩
      | false =>
        have hz := a3 hc
        simp only [Bool.false_eq_true, if_false]
        split_ifs with g1 g2 g3
        · refine ⟨lift, fun _ => ⟨L, [d], rfl, .inl ⟨d, [], rfl, g1, g2⟩, ?_⟩, fun h => by simp at h⟩
          simp [hz, addPos_eq, warmth]
        · exact ⟨fun h => by simp at h, fun h => by simp at h, fun _ => hz⟩
        · exact ⟨lift, fun h => by rw [hc] at h; simp at h, fun _ => hz⟩
        · exact ⟨lift, fun h => by rw [hc] at h; simp at h, fun _ => hz⟩
  exact (key L).1 hon

/-- **C84 violated.** If the index is not exceeded before the first of month `fin`, summing goes on and transpiration is switched on
after the end of the season, whenever the sum exceeds the index. -/
theorem C84_cold_violated {beg fin : Int} {idx : Rat} (b e d : Day) (q r : List Day) (hb : FirstOf beg b) (he : FirstOf fin e)
    (hq : warmth (b :: q ++ e :: r) ≤ idx) (hd : idx < warmth (b :: q ++ e :: r) + max 0 d.tmax) :
    ((b :: q ++ e :: r ++ [d]).foldl (fun s d => seasonDay beg fin idx d s) ⟨false, false, 0⟩).on = true := by
  have h1 : seasonDay beg fin idx b ⟨false, false, 0⟩ = ⟨false, true, max 0 b.tmax⟩ := by
    unfold seasonDay
    simp [hb.1, hb.2, addPos_eq]
  have hw : warmth (b :: q ++ e :: r) = max 0 b.tmax + warmth (q ++ e :: r) := by simp [warmth]
  rw [List.foldl_append, List.cons_append, List.foldl_cons (l := q ++ e :: r), h1,
    check_run (q ++ e :: r) ⟨false, true, max 0 b.tmax⟩ rfl (by rw [hw] at hq; exact hq), List.foldl_cons, List.foldl_nil]
  unfold seasonDay
  simp only [if_true, addPos_eq]
  rw [if_pos (by rw [hw] at hd; exact hd)]

/-- A cold summer: transpiration begins on 5 November. -/
example : (season 4 10 100 1 1 [⟨3, 31, -5⟩, ⟨4, 1, 10⟩, ⟨7, 2, 80⟩, ⟨10, 1, 8⟩, ⟨11, 5, 6⟩]).on = true := by decide +kernel

/-- **C84 violated.** On the first day of the last month of the season transpiration is switched off (the documentation of
`transp_end` has it end with that month). -/
theorem C84_last_month_violated {beg fin : Int} {idx : Rat} (d : Day) (hd : FirstOf fin d) (hne : beg ≠ fin) :
    (seasonDay beg fin idx d ⟨true, false, 0⟩).on = false := by
  unfold seasonDay
  simp only [Bool.false_eq_true, if_false, hd.1, hd.2, if_true]
  rw [if_neg (Ne.symm hne)]
  simp

/-- **C84 violated.** If the first day of month `beg` alone exceeds the index, transpiration is not switched on that day. -/
theorem C84_first_day_violated {beg fin : Int} {idx : Rat} (d : Day) (hd : FirstOf beg d) (hi : idx < d.tmax) :
    (seasonDay beg fin idx d ⟨false, false, 0⟩).on = false ∧ idx < warmth [d] := by
  constructor
  · unfold seasonDay; simp [hd.1, hd.2]
  · have : d.tmax ≤ max 0 d.tmax := le_max_right _ _
    have hw : warmth [d] = max 0 d.tmax := by simp [warmth]
    rw [hw]
    linarith

example : FirstOf 4 ⟨4, 1, 20⟩ ∧ (10 : Rat) < 20 := ⟨⟨rfl, rfl⟩, by norm_num⟩

/-! ### C85, C86: potential evapotranspiration -/

/-- **C85.** The time steps of a day, however it is divided, add up to the daily value; it is the pan evaporation if there is one and
otherwise the Hamon value of the first time step. -/
theorem C85_day (exp : Rat → Rat) (coef epan : Rat) (w : Weather) (ws : List Weather) (l : Int) (v d : Rat) (hl : l ≠ w.day)
    (hd : dailyPet exp coef epan w = some d) (hs : ∀ x ∈ w :: ws, x.day = w.day ∧ x.dt < 24) (hsum : ((w :: ws).map (·.dt)).sum = 24) :
    ∃ ps, petruns exp coef epan (w :: ws) (l, v) = some ((w.day, d), ps) ∧ ps.sum = d := by
  have hw := hs w (by simp)
  have hrun := petruns_same exp coef epan ws w.day d (fun x hx => hs x (by simp [hx]))
  refine ⟨w.dt / 24 * d :: ws.map fun x => x.dt / 24 * d, ?_, ?_⟩
  · rw [petruns, petrun]
    simp only [hl, if_false, hd, Option.map_some, hw.2, if_true, Option.bind_some, hrun]
  · have key : ∀ xs : List Weather, (xs.map fun x => x.dt / 24 * d).sum = (xs.map (·.dt)).sum / 24 * d := by
      intro xs
      induction xs with
      | nil => simp
      | cons x r ih => simp only [List.map_cons, List.sum_cons, ih]; ring
    have := key (w :: ws)
    rw [hsum] at this
    rw [show (w.dt / 24 * d :: ws.map fun x => x.dt / 24 * d) = (w :: ws).map (fun x => x.dt / 24 * d) from rfl, this]
    norm_num

/-- **C85.** With daily time steps every step has the value of its own day. -/
theorem C85_daily (exp : Rat → Rat) (coef epan : Rat) (w : Weather) (l : Int) (v d : Rat) (hl : l ≠ w.day)
    (hd : dailyPet exp coef epan w = some d) (ht : w.dt = 24) : petruns exp coef epan [w] (l, v) = some ((w.day, d), [d]) := by
  simp [petruns, petrun, hl, hd, ht]

/-- **C85.** The Hamon value exists and is not negative for every temperature above -237.3 degrees, it grows with the square of the
hours of sunshine. -/
theorem C85_hamon {exp : Rat → Rat} (hexp : ∀ x, 0 < exp x) {coef epan dyl t : Rat} (hc : 0 ≤ coef) (he : 0 < epan) (ht : -2373 / 10 < t) :
    ∃ v, hamon exp coef epan dyl t = some v ∧ 0 ≤ v ∧ hamon exp coef epan (2 * dyl) t = some (4 * v) := by
  have h1 : 0 < t + 2373 / 10 := by linarith
  have h2 : 0 < t + 2732 / 10 := by linarith
  have hno : ¬ (t + 2373 / 10 = 0 ∨ t + 2732 / 10 = 0 ∨ epan = 0) := by
    rintro (h | h | h)
    · exact h1.ne' h
    · exact h2.ne' h
    · exact he.ne' h
  unfold hamon
  rw [if_neg hno, if_neg hno]
  have h3 := hexp (1726939 / 100000 * t / (t + 2373 / 10))
  refine ⟨_, rfl, ?_, ?_⟩
  · have h4 : 0 ≤ dyl * dyl := mul_self_nonneg dyl
    have : coef * dyl * dyl = coef * (dyl * dyl) := by ring
    rw [this]
    positivity
  · congr 1
    ring

example : petruns (fun _ => 1) 1 1 [⟨6, 3, 12, 10, some 8⟩, ⟨6, 3, 12, 15, some 9⟩, ⟨12, 3, 12, 20, some 10⟩] (2, 0)
    = some ((3, 8), [2, 2, 4]) := by decide +kernel

/-- **C86 (part).** With daily time steps the temperature and pan of the day itself are used (`C85_daily`); the step is one day. -/
theorem C86_own_day_partial (exp : Rat → Rat) (coef epan : Rat) (w w' : Weather) (l : Int) (v d d' : Rat) (hl : l ≠ w.day) (hl' : w.day ≠ w'.day)
    (hd : dailyPet exp coef epan w = some d) (hd' : dailyPet exp coef epan w' = some d') (ht : w.dt = 24) (ht' : w'.dt = 24) :
    petruns exp coef epan [w, w'] (l, v) = some ((w'.day, d'), [d, d']) := by
  simp [petruns, petrun, hl, hl', hd, hd', ht, ht']

/-- **C86 violated.** With shorter time steps the whole day has the value of the temperature of its first step: the temperatures of
the other steps do not matter. -/
theorem C86_first_hour_violated (exp : Rat → Rat) (coef epan : Rat) (w : Weather) (ws ws' : List Weather) (l : Int) (v : Rat)
    (hs : ∀ x ∈ w :: ws, x.day = w.day ∧ x.dt < 24) (hs' : ∀ x ∈ ws', x.day = w.day ∧ x.dt < 24) (hdt : ws.map (·.dt) = ws'.map (·.dt)) :
    petruns exp coef epan (w :: ws) (l, v) = petruns exp coef epan (w :: ws') (l, v) := by
  rw [petruns, petruns]
  cases h : petrun exp coef epan w (l, v) with
  | none => rfl
  | some a =>
    simp only [Option.bind_some]
    have ha : a.1.1 = w.day := by
      unfold petrun at h
      by_cases hl : l = w.day
      · simp [hl] at h; rw [← h]
      · simp only [hl, if_false, Option.map_map] at h
        cases hd : dailyPet exp coef epan w with
        | none => rw [hd] at h; simp at h
        | some d => rw [hd] at h; simp at h; rw [← h]
    have hp : a.1 = (w.day, a.1.2) := by rw [← ha]
    rw [hp, petruns_same exp coef epan ws w.day a.1.2 (fun x hx => hs x (by simp [hx])),
      petruns_same exp coef epan ws' w.day a.1.2 hs']
    have : ws.map (fun x => x.dt / 24 * a.1.2) = ws'.map (fun x => x.dt / 24 * a.1.2) := by
      have h2 := congrArg (List.map fun t => t / 24 * a.1.2) hdt
      rw [List.map_map, List.map_map] at h2
      exact h2
    rw [this]

/-- **C86 violated.** A time step of two days has the potential evapotranspiration of one. -/
theorem C86_two_days_violated (exp : Rat → Rat) (coef epan : Rat) (w : Weather) (l : Int) (v d : Rat) (hl : l ≠ w.day)
    (hd : dailyPet exp coef epan w = some d) (ht : w.dt = 48) : petruns exp coef epan [w] (l, v) = some ((w.day, d), [d]) := by
  simp [petruns, petrun, hl, hd, ht]
  norm_num

/-! ### C87: basin -/

/-- **C87.** With a positive basin area the areas of the units are accepted if and only if their sum differs from it by less than one
percent. -/
theorem C87_accepted {basin : Rat} (h : 0 < basin) (areas : List Rat) :
    basinit basin areas = true ↔ 99 / 100 * basin < areas.sum ∧ areas.sum < 101 / 100 * basin := by
  unfold basinit
  rw [if_neg h.ne']
  simp only [Bool.not_eq_true', decide_eq_false_iff_not, not_le, abs_lt, lt_div_iff₀ h, div_lt_iff₀ h]
  constructor
  · rintro ⟨h1, h2⟩; constructor <;> linarith
  · rintro ⟨h1, h2⟩; constructor <;> linarith

/-- **C87.** A basin average differs from the mean weighted by the areas of the units by less than one percent of it; it is the mean if
the areas add up to the area of the basin. -/
theorem C87_average {basin : Rat} (h : 0 < basin) (xs : List (Rat × Rat)) (ha : basinit basin (xs.map (·.2)) = true) :
    ∃ mean, mean * (xs.map (·.2)).sum = (xs.map fun x => x.1 * x.2).sum ∧ |average basin xs - mean| ≤ 1 / 100 * |mean| ∧
      ((xs.map (·.2)).sum = basin → average basin xs = mean) := by
  obtain ⟨h1, h2⟩ := (C87_accepted h _).1 ha
  generalize (xs.map (·.2)).sum = a at h1 h2
  have ha : 0 < a := by linarith
  unfold average
  generalize (xs.map fun x => x.1 * x.2).sum = s
  refine ⟨s / a, by field_simp, ?_, ?_⟩
  · have hs : s / basin - s / a = (a - basin) / basin * (s / a) := by field_simp
    rw [hs, abs_mul]
    apply mul_le_mul_of_nonneg_right _ (abs_nonneg _)
    rw [abs_le]
    constructor
    · rw [le_div_iff₀ h]; linarith
    · rw [div_le_iff₀ h]; linarith
  · intro hb; rw [hb]

/-- **C87.** Impervious and pervious area add up to the area, and neither is negative for fractions between 0 and 1. -/
theorem C87_split {f a : Rat} (hf : 0 ≤ f ∧ f ≤ 1) (ha : 0 ≤ a) : (split f a).1 + (split f a).2 = a ∧ 0 ≤ (split f a).1 ∧ 0 ≤ (split f a).2 := by
  unfold split
  refine ⟨by ring, mul_nonneg hf.1 ha, ?_⟩
  simp only
  nlinarith [hf.2]

example : basinit 100 [30, 30, 395 / 10] = true ∧ average 100 [(10, 30), (20, 30), (30, 395 / 10)] = 2085 / 100 ∧
    basinit 100 [30, 30, 41] = false := by decide +kernel

/-! ### C88, C89: station temperatures -/

/-- **C88.** Minimum and maximum in degrees Celsius are those of the data file in either unit; with daily time steps the temperature of
the step is their mean. -/
theorem C88_units (celsius sub : Bool) (tmin tmax temp : Rat) :
    (station celsius sub tmin tmax temp).minC = (if celsius then tmin else celsiusOf tmin) ∧
    (station celsius sub tmin tmax temp).maxC = (if celsius then tmax else celsiusOf tmax) ∧
    (sub = false → (station celsius sub tmin tmax temp).tempC =
      ((station celsius sub tmin tmax temp).minC + (station celsius sub tmin tmax temp).maxC) / 2) := by
  unfold station celsiusOf
  cases celsius <;> cases sub <;> simp <;> (try constructor) <;> (try constructor) <;> ring

/-- **C88.** The same weather written in degrees Celsius or Fahrenheit gives the same temperatures (daily time steps). -/
theorem C88_same (tmin tmax temp temp' : Rat) :
    station true false tmin tmax temp = station false false (fahrenheitOf tmin) (fahrenheitOf tmax) temp' := by
  unfold station fahrenheitOf
  simp only [Bool.false_eq_true, if_false, if_true, Station.mk.injEq]
  refine ⟨?_, ?_, ?_, ?_⟩ <;> ring

/-- **C88.** In degrees Celsius the temperature of a shorter time step is the one in the data file. -/
theorem C88_step (tmin tmax temp : Rat) : (station true true tmin tmax temp).tempC = temp := rfl

example : station false false 32 50 0 = ⟨0, 10, 5, 41⟩ := by decide +kernel

/-- **C89 (part).** In degrees Fahrenheit the temperature of a shorter step is read, but only the one in degrees Fahrenheit is set. -/
theorem C89_read_partial (tmin tmax temp : Rat) : (station false true tmin tmax temp).tempF = temp := rfl

/-- **C89 violated.** In degrees Fahrenheit the temperature of a shorter time step used by the model is the mean of the day's extremes,
whatever the data file says. -/
theorem C89_fahrenheit_violated (tmin tmax temp : Rat) :
    (station false true tmin tmax temp).tempC = (celsiusOf tmin + celsiusOf tmax) / 2 := by
  unfold station celsiusOf
  simp only [Bool.false_eq_true, if_false, if_true]
  ring

example : (station false true 32 50 86).tempC = 5 ∧ celsiusOf 86 = 30 := by decide +kernel

end Verif.Climate
