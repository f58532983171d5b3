import Verif.Lemmas.TspUniform
import Mathlib.Tactic.NormNum
import Mathlib.Order.Monotone.Basic
/-
C134: periods and new series of TSPROC.  That `julianDay`, which is used for times, counts the days of the calendar is C124.
-/
namespace Verif.Tsp

/-! ### Periods -/

/-- Two dates with times make a period if and only if the first is before the second, from the one to the other. -/
theorem C134_period (d1 d2 : Day) (t1 t2 : Int) (h1 : 0 ≤ t1 ∧ t1 ≤ 86400) (h2 : 0 ≤ t2 ∧ t2 ≤ 86400) :
    (timeOf d2 t2 ≤ timeOf d1 t1 → dateCheck (some d1) (some t1) (some d2) (some t2) = none) ∧
    (timeOf d1 t1 < timeOf d2 t2 → ∃ b e : Clock, dateCheck (some d1) (some t1) (some d2) (some t2) = some (b, e) ∧
      b.Proper ∧ e.Proper ∧ b.time = timeOf d1 t1 ∧ e.time = timeOf d2 t2) := by
  obtain ⟨b1, b2⟩ := carry_spec (julianDay d1 0) t1 h1.1
  obtain ⟨e1, e2⟩ := carry_spec (julianDay d2 0) t2 h2.1
  unfold dateCheck
  rw [if_neg (by simp)]
  simp only [decide_eq_true_eq]
  simp only [Option.getD_some, numdays]
  unfold timeOf
  constructor
  · intro h
    split
    · rfl
    · rw [if_pos (clock_eq b1 e1 (by rw [b2, e2]; omega))]
  · intro h
    rw [if_neg (by omega), if_neg]
    · exact ⟨_, _, rfl, b1, e1, b2, e2⟩
    · intro he
      rw [he] at b2
      omega

/-- A time without a date is refused. -/
theorem C134_time_without_date (t : Int) (d : Option Day) (s : Option Int) :
    dateCheck none (some t) d s = none ∧ dateCheck d s none (some t) = none := by
  unfold dateCheck
  exact ⟨if_pos (by simp), if_pos (by simp)⟩

/-- Without a date the period is open: it starts 99999998 days before and ends 100000000 days after the first day. -/
theorem C134_open (d : Day) (t : Int) (h0 : 0 ≤ t ∧ t ≤ 86400) (h : -99999998 < julianDay d 0 ∧ julianDay d 0 < 99999999) :
    (∃ e : Clock, dateCheck none none (some d) (some t) = some (⟨-99999998, 0⟩, e) ∧ e.Proper ∧ e.time = timeOf d t) ∧
    (∃ b : Clock, dateCheck (some d) (some t) none none = some (b, ⟨100000000, 0⟩) ∧ b.Proper ∧ b.time = timeOf d t) ∧
    dateCheck none none none none = some (⟨-99999998, 0⟩, ⟨100000000, 0⟩) := by
  obtain ⟨b1, b2⟩ := carry_spec (julianDay d 0) t h0.1
  have c1 : carry (-99999999) 86400 = ⟨-99999998, 0⟩ := by rw [carry, if_pos (by norm_num), carry, if_neg (by norm_num)]; rfl
  have c2 : carry 99999999 86400 = ⟨100000000, 0⟩ := by rw [carry, if_pos (by norm_num), carry, if_neg (by norm_num)]; rfl
  refine ⟨⟨_, ?_, b1, b2⟩, ⟨_, ?_, b1, b2⟩, ?_⟩
  · unfold dateCheck
    rw [if_neg (by simp)]
    simp only [Option.getD_some, Option.getD_none, Bool.false_eq_true, if_false, c1]
    rw [if_neg]
    intro he
    rw [← he] at b2
    unfold Clock.time at b2
    simp only at b2
    omega
  · unfold dateCheck
    rw [if_neg (by simp)]
    simp only [Option.getD_some, Option.getD_none, Bool.false_eq_true, if_false, c2]
    rw [if_neg]
    intro he
    rw [he] at b2
    unfold Clock.time at b2
    simp only at b2
    omega
  · unfold dateCheck
    rw [if_neg (by simp)]
    simp only [Option.getD_none, Bool.false_eq_true, if_false, c1, c2]
    rw [if_neg (by decide)]

/-- A period from a date without a time starts at the end of that day: nothing of the day itself is in it. -/
theorem C134_default_violated (d1 d2 : Day) (t2 : Int) (h2 : 0 ≤ t2 ∧ t2 ≤ 86400) (b e : Clock)
    (h : dateCheck (some d1) none (some d2) (some t2) = some (b, e)) : b.time = timeOf d1 86400 := by
  have : dateCheck (some d1) none (some d2) (some t2) = dateCheck (some d1) (some 86400) (some d2) (some t2) := by
    simp [dateCheck]
  rw [this] at h
  obtain ⟨p1, p2⟩ := C134_period d1 d2 86400 t2 (by omega) h2
  by_cases hl : timeOf d1 86400 < timeOf d2 t2
  · obtain ⟨b', e', h3, _, _, h4, _⟩ := p2 hl
    rw [h3] at h
    cases h
    exact h4
  · rw [p1 (by omega)] at h
    cases h

example : dateCheck (some ⟨2000, 1, 1⟩) none (some ⟨2000, 1, 2⟩) (some 0) = none := by decide +kernel

/-! ### Uniform series -/

theorem step_enough (u : TimeUnit) (m : Nat) (d : Day) (hd : Valid d) (t : Int) (k : Nat) :
    later_by u d t (k * m) + timeInc u m ≤ later_by u d t ((k + 1) * m) := by
  have ey : -4799 ≤ d.year := by have := hd.year; omega
  cases u <;> simp only [later_by, timeInc]
  · linarith
  · linarith
  · linarith
  · linarith
  · have e : ((k + 1) * m : Int) = k * m + m := by ring
    have e2 : ((k * m : Nat) : Int) = k * m := by push_cast; rfl
    have h := jd_months (monthsLater d (k * m)) (monthsLater_month ..) m
    rw [monthsLater_add, ← e] at h
    have y1 : -4799 ≤ (monthsLater d (k * m)).year := by
      have := monthsLater_year d hd.month (k * m)
      rw [e2] at this; omega
    have y2 : -4799 ≤ (monthsLater d ((k + 1) * m)).year := by
      have := monthsLater_year d hd.month ((k + 1) * m)
      push_cast at this; omega
    unfold timeOf
    rw [julianDay_jd y1 (monthsLater_month ..), julianDay_jd y2 (monthsLater_month ..)]
    omega
  · have h := jd_years (d.year + k * m) d.month d.day m
    have e : d.year + (k : Int) * m + m = d.year + (k + 1) * m := by ring
    rw [e] at h
    rw [monthsLater_years d hd.month, monthsLater_years d hd.month]
    have z1 : (0 : Int) ≤ k * m := by positivity
    have z2 : (0 : Int) ≤ (k + 1) * m := by positivity
    unfold timeOf
    rw [julianDay_jd (d := ⟨d.year + (k : Int) * m, d.month, d.day⟩) (by simp only; omega) hd.month,
      julianDay_jd (d := ⟨d.year + ((k : Int) + 1) * m, d.month, d.day⟩) (by simp only; omega) hd.month]
    omega

/-- Where the loops are after `k` steps. -/
theorem advance_iterate (u : TimeUnit) (m : Nat) (d : Day) (hd : Valid d) (t : Int) (b : Clock) (hb : b.Proper) (hbt : b.time = timeOf d t)
    (h24 : u = .mths ∨ u = .yrs → b = ⟨julianDay d 0, t⟩) (k : Nat) :
    ∃ c, (advance u m d.day)^[k] ⟨b, d.month, d.year⟩ = c ∧ c.at_.Proper ∧ c.at_.time = later_by u d t (k * m) ∧
      (u = .mths → ⟨c.yy, c.mm, d.day⟩ = monthsLater d (k * m) ∧ c.at_.secs = t) ∧
      (u = .yrs → c.yy = d.year + k * m ∧ c.mm = d.month ∧ c.at_.secs = t) := by
  induction k with
  | zero =>
    refine ⟨_, rfl, hb, ?_, ?_, ?_⟩
    · show b.time = _
      rw [hbt]
      cases u <;> simp [later_by, monthsLater_zero d hd.month]
    · intro hu
      simp only [Function.iterate_zero, id]
      rw [h24 (Or.inl hu)]
      simp [monthsLater_zero d hd.month]
    · intro hu
      simp only [Function.iterate_zero, id]
      rw [h24 (Or.inr hu)]
      simp
  | succ k ih =>
    obtain ⟨c, e, h1, h2, h3, h4⟩ := ih
    rw [Function.iterate_succ_apply', e]
    refine ⟨_, rfl, ?_⟩
    have hp := h1
    unfold Clock.Proper at hp
    have hm0 : (0 : Int) ≤ m := by positivity
    cases u
    · obtain ⟨c1, c2⟩ := carry_spec c.at_.days (c.at_.secs + m * 1) (by omega)
      refine ⟨c1, ?_, by simp, by simp⟩
      simp only [advance, c2, later_by] at h2 ⊢
      unfold Clock.time at h2
      push_cast
      linarith
    · obtain ⟨c1, c2⟩ := carry_spec c.at_.days (c.at_.secs + m * 60) (by omega)
      refine ⟨c1, ?_, by simp, by simp⟩
      simp only [advance, c2, later_by] at h2 ⊢
      unfold Clock.time at h2
      push_cast
      linarith
    · obtain ⟨c1, c2⟩ := carry_spec c.at_.days (c.at_.secs + m * 3600) (by omega)
      refine ⟨c1, ?_, by simp, by simp⟩
      simp only [advance, c2, later_by] at h2 ⊢
      unfold Clock.time at h2
      push_cast
      linarith
    · refine ⟨h1, ?_, by simp, by simp⟩
      simp only [advance, later_by, Clock.time] at h2 ⊢
      push_cast
      linarith
    · obtain ⟨h5, h6⟩ := h3 rfl
      have hmm : 1 ≤ c.mm ∧ c.mm ≤ 12 := by
        have := monthsLater_month d (k * m)
        rw [← h5] at this
        exact this
      have e3 : (⟨(rollYear (c.mm + m) c.yy).2, (rollYear (c.mm + m) c.yy).1, d.day⟩ : Day) = monthsLater d ((k + 1 : Nat) * m) := by
        have : ((k + 1 : Nat) * m : Int) = k * m + m := by push_cast; ring
        rw [this, ← monthsLater_add, ← h5, rollYear_eq _ _ (by omega)]
        unfold monthsLater
        exact day_eq (by simp only; omega) (by simp only; omega) rfl
      refine ⟨h1, ?_, fun _ => ⟨e3, h6⟩, by simp⟩
      simp only [advance, later_by, Clock.time]
      rw [e3, h6]
      rfl
    · obtain ⟨h5, h6, h7⟩ := h4 rfl
      refine ⟨h1, ?_, by simp, fun _ => ⟨?_, h6, h7⟩⟩
      · simp only [advance, later_by, Clock.time]
        rw [monthsLater_years d hd.month, h5, h6, h7]
        unfold timeOf
        have : d.year + (k : Int) * m + m = d.year + ((k + 1 : Nat) : Int) * m := by push_cast; ring
        rw [this]
      · simp only [advance]
        rw [h5]
        push_cast
        ring

/-- The new series has the terms `0, n, 2 n, ...` units of time after the start as long as they are not after the end, all with the value
given; the temporary series is large enough. -/
theorem C134_uniform_partial (u : TimeUnit) (n : Int) (hn : 0 < n) (v : Rat) (d1 d2 : Day) (hd : Valid d1) (t1 t2 : Int)
    (h1 : 0 ≤ t1 ∧ t1 ≤ 86400) (h2 : 0 ≤ t2 ∧ t2 ≤ 86400) (hlt : timeOf d1 t1 < timeOf d2 t2) (hm : u = .mths → d1.day ≤ 28)
    (hy : u = .yrs → ¬ (d1.month = 2 ∧ d1.day = 29)) (h24 : u = .mths ∨ u = .yrs → t1 < 86400) :
    ∃ g, uniformSeries u n v d1 t1 d2 t2 = some g ∧ (∀ k : Nat, k < g.length ↔ later_by u d1 t1 (k * n) ≤ timeOf d2 t2) ∧
      ∀ (k : Nat) (p : Term), g[k]? = some p → p.at_.Proper ∧ p.at_.time = later_by u d1 t1 (k * n) ∧ p.val = v := by
  obtain ⟨m, rfl⟩ := Int.eq_ofNat_of_zero_le hn.le
  obtain ⟨b, e, h3, hb, he, hbt, het⟩ := (C134_period d1 d2 t1 t2 h1 h2).2 hlt
  have hb24 : u = .mths ∨ u = .yrs → b = ⟨julianDay d1 0, t1⟩ := fun hu =>
    clock_eq hb ⟨h1.1, h24 hu⟩ (by rw [hbt]; rfl)
  have hday : ¬ ((u = .mths ∧ d1.day > 28) ∨ (u = .yrs ∧ d1.day > 28 ∧ d1.month = 2)) := by
    rintro (⟨hu, h⟩ | ⟨hu, h, h'⟩)
    · have := hm hu; omega
    · have := hd.day.2
      have h29 : monthDays d1.year d1.month ≤ 29 := by unfold monthDays; rw [if_pos h']; split <;> omega
      exact hy hu ⟨h', by omega⟩
  have seq := fun k => advance_iterate u m d1 hd t1 b hb hbt hb24 k
  have hc : ∀ k, ((advance u m d1.day)^[k] ⟨b, d1.month, d1.year⟩).at_.Proper ∧
      ((advance u m d1.day)^[k] ⟨b, d1.month, d1.year⟩).at_.time = later_by u d1 t1 (k * m) := by
    intro k
    obtain ⟨c, rfl, x, y, _⟩ := seq k
    exact ⟨x, y⟩
  have hT : 0 < timeInc u m := by cases u <;> simp only [timeInc] <;> omega
  have hstep := fun k => step_enough u m d1 hd t1 k
  have mono : StrictMono fun k : Nat => later_by u d1 t1 (k * m) := by
    refine strictMono_nat_of_lt_succ fun k => ?_
    have := hstep k
    push_cast
    omega
  have b0 : b.time = later_by u d1 t1 ((0 : Nat) * m) := by
    have := (hc 0).2
    exact this
  obtain ⟨N, r1, r2, r3⟩ := uniformLoop_spec (advance u m d1.day) e he (fun k => (advance u m d1.day)^[k] ⟨b, d1.month, d1.year⟩)
    (fun k => Function.iterate_succ_apply' ..) (fun k => (hc k).1) (timeInc u m)
    (fun k => by
      have := hstep k
      rw [(hc k).2, (hc (k + 1)).2]
      push_cast
      exact this)
    (⌈(((e.days - b.days) * 86400 + (e.secs - b.secs) : Int) : Rat) / (timeInc u m : Int)⌉.toNat + 20 - 1) 0
    (by
      show b.time ≤ e.time
      omega)
    (by
      have := room_enough ((e.days - b.days) * 86400 + (e.secs - b.secs)) (timeInc u m) hT
        (by unfold Clock.time at hbt het; omega)
      refine lt_of_le_of_lt (le_of_eq ?_) this
      show e.time - b.time = _
      unfold Clock.time
      ring)
  have hres : uniformSeries u m v d1 t1 d2 t2 =
      some (((List.range' 0 (N + 1)).map fun j => ((advance u m d1.day)^[j] ⟨b, d1.month, d1.year⟩).at_).map fun c => ⟨c, v⟩) := by
    unfold uniformSeries
    rw [if_neg (by omega), h3, Option.bind_some, if_neg hday]
    have r1' : uniformLoop (advance u m d1.day) e
      (⌈(((e.days - b.days) * 86400 + (e.secs - b.secs) : Int) : Rat) / (timeInc u m : Int)⌉.toNat + 20 - 1) ⟨b, d1.month, d1.year⟩ = _ := r1
    simp only
    rw [r1']
    rfl
  refine ⟨_, hres, ?_, ?_⟩
  · intro k
    simp only [List.length_map, List.length_range']
    rw [Nat.zero_add, (hc N).2, het] at r2
    rw [Nat.zero_add, (hc (N + 1)).2, het] at r3
    constructor
    · intro hk
      have : later_by u d1 t1 (k * m) ≤ later_by u d1 t1 (N * m) := mono.monotone (by omega : k ≤ N)
      omega
    · intro hk
      by_contra hcon
      have : later_by u d1 t1 ((N + 1 : Nat) * m) ≤ later_by u d1 t1 (k * m) := mono.monotone (by omega : N + 1 ≤ k)
      omega
  · intro k p hp
    rw [List.getElem?_map, List.getElem?_map] at hp
    have hk : k < N + 1 := by
      by_contra hcon
      rw [List.getElem?_eq_none (by simpa using hcon)] at hp
      simp at hp
    rw [List.getElem?_range' hk] at hp
    simp only [Option.map_some, Option.some.injEq] at hp
    subst hp
    have := hc k
    simpa using this

/-- What is refused: no positive interval, an end not after the start, months from a day after the 28th, years from 29 February. -/
theorem C134_uniform_refused (u : TimeUnit) (n : Int) (v : Rat) (d1 d2 : Day) (hd : Valid d1) (t1 t2 : Int)
    (h1 : 0 ≤ t1 ∧ t1 ≤ 86400) (h2 : 0 ≤ t2 ∧ t2 ≤ 86400)
    (h : n ≤ 0 ∨ timeOf d2 t2 ≤ timeOf d1 t1 ∨ (u = .mths ∧ 28 < d1.day) ∨ (u = .yrs ∧ d1.month = 2 ∧ d1.day = 29)) :
    uniformSeries u n v d1 t1 d2 t2 = none := by
  unfold uniformSeries
  split
  · rfl
  · rename_i hn
    obtain ⟨p1, p2⟩ := C134_period d1 d2 t1 t2 h1 h2
    by_cases hl : timeOf d1 t1 < timeOf d2 t2
    · obtain ⟨b, e, h3, _⟩ := p2 hl
      rw [h3, Option.bind_some, if_pos]
      rcases h with h | h | h | ⟨h4, h5, h6⟩
      · omega
      · omega
      · exact Or.inl h
      · exact Or.inr ⟨h4, by omega, h5⟩
    · rw [p1 (by omega)]
      rfl

example : (uniformSeries .hrs 8 3 ⟨2000, 2, 28⟩ 36000 ⟨2000, 2, 29⟩ 86400).map (·.map Term.at_) =
    some [⟨2451603, 36000⟩, ⟨2451603, 64800⟩, ⟨2451604, 7200⟩, ⟨2451604, 36000⟩, ⟨2451604, 64800⟩] := by decide +kernel
example : (uniformSeries .mths 1 3 ⟨1999, 12, 15⟩ 0 ⟨2000, 3, 15⟩ 0).map (·.map Term.at_) =
    some [⟨julianDay ⟨1999, 12, 15⟩ 0, 0⟩, ⟨julianDay ⟨2000, 1, 15⟩ 0, 0⟩, ⟨julianDay ⟨2000, 2, 15⟩ 0, 0⟩, ⟨julianDay ⟨2000, 3, 15⟩ 0, 0⟩] := by
  decide +kernel

/-- From 24:00 on, the first term of monthly series is at the start of the next day, all others a day earlier in their months. -/
theorem C134_uniform_midnight_violated :
    (uniformSeries .mths 1 0 ⟨2000, 1, 10⟩ 86400 ⟨2000, 4, 1⟩ 0).map (·.map Term.at_) =
      some [⟨julianDay ⟨2000, 1, 11⟩ 0, 0⟩, ⟨julianDay ⟨2000, 2, 10⟩ 0, 0⟩, ⟨julianDay ⟨2000, 3, 10⟩ 0, 0⟩] := by
  decide +kernel

/-! ### Volumes as series -/

/-- The centre of a period is the middle of its times, rounded down to a second. -/
theorem C134_centre (a b : Clock) (ha : a.Proper) (hb : b.Proper) (h : a.time ≤ b.time) :
    (centre a b).Proper ∧ 2 * (centre a b).time ≤ a.time + b.time ∧ a.time + b.time < 2 * (centre a b).time + 2 := by
  unfold Clock.Proper at ha hb
  have hd : 0 ≤ b.days - a.days := by unfold Clock.time at h; omega
  unfold centre
  simp only
  rw [Int.tdiv_eq_ediv_of_nonneg hd, Int.tdiv_eq_ediv_of_nonneg (by omega : 0 ≤ a.secs + b.secs)]
  split
  · obtain ⟨c1, c2⟩ := carry_spec (a.days + (b.days - a.days) / 2) ((a.secs + b.secs) / 2) (by omega)
    refine ⟨c1, ?_⟩
    rw [c2]
    unfold Clock.time
    omega
  · obtain ⟨c1, c2⟩ := carry_spec (a.days + (b.days - a.days) / 2) ((a.secs + b.secs) / 2 + 43200) (by omega)
    refine ⟨c1, ?_⟩
    rw [c2]
    unfold Clock.time
    omega

theorem cumulative_eq (factor : Rat) (vol : List Rat) : ∀ (a : Rat) (l : List Rat),
    (vol.foldl (fun (a : Rat × List Rat) x => (a.1 + x * factor, a.2 ++ [a.1 + x * factor])) (a, l)).2 =
      l ++ (List.range vol.length).map fun i => a + (vol.take (i + 1)).sum * factor := by
  induction vol with
  | nil => intro a l; simp
  | cons x vol ih =>
    intro a l
    rw [List.foldl_cons, ih, List.length_cons, List.range_succ_eq_map, List.map_cons, List.map_map, List.append_assoc]
    congr 1
    simp only [List.singleton_append, List.take_succ_cons, List.take_zero, List.sum_cons, List.sum_nil, add_zero, List.cons.injEq, true_and]
    apply List.map_congr_left
    intro i _
    simp only [Function.comp, List.take_succ_cons, List.sum_cons]
    ring

/-- The series of a table of volumes has the volumes in other units, or all volume up to the end of each period. -/
theorem C134_volumes (factor : Rat) (vol : List Rat) :
    (volumeValues false factor vol).length = vol.length ∧ (volumeValues true factor vol).length = vol.length ∧
    (∀ (i : Nat) (x : Rat), vol[i]? = some x → (volumeValues false factor vol)[i]? = some (x * factor)) ∧
    ∀ i < vol.length, (volumeValues true factor vol)[i]? = some ((vol.take (i + 1)).sum * factor) := by
  unfold volumeValues
  simp only [Bool.false_eq_true, if_false, if_true, cumulative_eq, List.nil_append, List.length_map, List.length_range, zero_add, true_and]
  constructor
  · intro i x hx
    rw [List.getElem?_map, hx]; rfl
  · intro i hi
    rw [List.getElem?_map, List.getElem?_range hi]; rfl

example : centre ⟨3, 0⟩ ⟨6, 10⟩ = ⟨4, 43205⟩ := by decide +kernel
example : volumeValues true 2 [1, 3, 5] = [2, 8, 18] := by decide +kernel

end Verif.Tsp
