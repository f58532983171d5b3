import Verif.Lemmas.TspUforeShort
/-
C146: reading of values at equal steps of time (GET_SERIES_UFORE_HYDRO of TSPROC).
-/
namespace Verif.TspUfore
open Verif.Tsp Verif.TspStv

/-- Without a period all the announced values are stored, value `j` at the reference time plus `j` steps, whatever the step and whatever
follows in the file. -/
theorem C146_all (lim : Int) {r : Clock} {d : Int} (hr : 0 ≤ r.secs ∧ r.secs < 172800) (hd : 0 < d) (vs : List Rat) (hv : vs ≠ [])
    (rest : List (Option Rat)) :
    getUfore lim r d none none vs.length (vs.map some ++ rest) = .ok vs.length (steps d r.time vs) ∧
    ∀ (j : Nat) (h : j < vs.length), (steps d r.time vs)[j]? = some ⟨split (r.time + (j + 1) * d), vs[j]⟩ := by
  have hpos : 0 < vs.length := List.length_pos_iff.2 hv
  constructor
  · unfold getUfore
    simp only [Option.any_none, Bool.false_eq_true, if_false, and_self, if_true]
    rw [if_neg (by omega), Int.toNat_natCast, storeAll_eq _ hd vs rest _ [] (settle_proper hr) (by simp), settle_time]
    rfl
  · generalize r.time = t
    clear hpos hv hr rest
    induction vs generalizing t with
    | nil => intro j h; simp at h
    | cons v vs ih =>
      intro j h
      cases j with
      | zero => simp [steps]
      | succ j =>
        simp only [steps, List.getElem?_cons_succ, List.getElem_cons_succ]
        rw [ih (t + d) j (by simpa using h)]
        congr 3
        push_cast
        ring

example : getUfore 2147483647 ⟨2453371, 43200⟩ 100000 none none 3 [some 5, some 6, some 7, none] =
    .ok 3 [⟨⟨2453372, 56800⟩, 5⟩, ⟨⟨2453373, 70400⟩, 6⟩, ⟨⟨2453374, 84000⟩, 7⟩] := by decide +kernel

/-- Too few values, or one that cannot be read, end in a message. -/
theorem C146_short (lim : Int) (r : Clock) (d : Int) (vs : List Rat) (n : Nat)
    (hn : vs.length < n) (rest : List (Option Rat)) (hrest : rest.head? = none ∨ rest.head? = some none) :
    getUfore lim r d none none n (vs.map some ++ rest) = .error := by
  have key : ∀ (vs : List Rat) (k : Nat) (c : Clock) (acc : List Term), vs.length < k → acc.length + k ≤ n →
      storeAll n d k (vs.map some ++ rest) c acc = .error := by
    intro vs
    induction vs with
    | nil =>
      intro k c acc h _
      obtain ⟨k, rfl⟩ : ∃ m, k = m + 1 := ⟨k - 1, by simp at h; omega⟩
      rcases rest with _ | ⟨x, rest⟩
      · rfl
      · rcases x with _ | x
        · rfl
        · simp at hrest
    | cons v vs ih =>
      intro k c acc h h2
      obtain ⟨k, rfl⟩ : ∃ m, k = m + 1 := ⟨k - 1, by simp at h; omega⟩
      simp only [List.map_cons, List.cons_append, storeAll]
      rw [if_pos (by omega)]
      exact ih k _ _ (by simpa using h) (by simp only [List.length_append, List.length_singleton]; omega)
  unfold getUfore
  simp only [Option.any_none, Bool.false_eq_true, if_false, and_self, if_true]
  rw [if_neg (by omega), Int.toNat_natCast]
  exact key vs n _ [] hn (by simp)

example : getUfore 2147483647 ⟨2453371, 43200⟩ 100000 none none 3 [some 5, none, some 7] = .error := by decide +kernel

/-- An announced number that is zero or negative is refused, and so is a period that begins before the reference time. -/
theorem C146_errors (lim : Int) (r : Clock) (d : Int) (b e : Option Clock) (nterm : Int) (vals : List (Option Rat))
    (h : nterm ≤ 0 ∨ ∃ c, b = some c ∧ c.Proper ∧ (0 ≤ r.secs ∧ r.secs < 172800) ∧ c.time < r.time) :
    getUfore lim r d b e nterm vals = .error := by
  unfold getUfore
  simp only
  rcases h with h | ⟨c, rfl, hc, hr, ht⟩
  · split_ifs <;> rfl
  · rw [if_pos]
    simp only [Option.any_some]
    rw [Tsp.later_iff (settle_proper hr) hc, settle_time]
    exact ht

example : getUfore 2147483647 ⟨2453371, 43200⟩ 3600 (some ⟨2453371, 43199⟩) none 1 [some 1] = .error := by decide +kernel

/-- With a period, steps of at most a day and integers that hold the seconds, the values of the period are stored, each at its time, and
fill the series exactly; a period without values and one that ends after the last value are refused. -/
theorem C146_period {lim : Int} {r : Clock} {d : Int} (hr : 0 ≤ r.secs ∧ r.secs < 172800) (hd : 0 < d) (hd2 : d ≤ 86400)
    (b e : Option Clock) (hbe : b ≠ none ∨ e ≠ none) (hb : ∀ c ∈ b, c.Proper ∧ r.time ≤ c.time ∧ c.time ≤ lim)
    (he : ∀ c ∈ e, c.Proper ∧ 0 ≤ c.time ∧ c.time ≤ lim) (h0 : 0 ≤ r.time) (vs : List Rat) (hv : vs ≠ [])
    (hl : r.time + vs.length * d ≤ lim) (rest : List (Option Rat)) :
    getUfore lim r d b e vs.length (vs.map some ++ rest) =
      if (∃ c ∈ e, r.time + vs.length * d < c.time) ∨ ((steps d r.time vs).filter fun x => wanted b e x.at_.time) = [] then .error
      else .ok ((steps d r.time vs).filter fun x => wanted b e x.at_.time).length
        ((steps d r.time vs).filter fun x => wanted b e x.at_.time) := by
  have hpos : 0 < vs.length := List.length_pos_iff.2 hv
  have hn : 0 ≤ (vs.length : Int) * d := Int.mul_nonneg (by omega) hd.le
  have hp := settle_proper hr
  have hst := settle_time r
  have bnd := steps_bound hd vs r.time
  have f1 : ∀ t1 t2 : Int, (∀ t, r.time < t → t ≤ lim → ((t1 ≤ t ∧ t ≤ t2) ↔ wanted b e t = true)) →
      between t1 t2 (steps d r.time vs) = (steps d r.time vs).filter fun x => wanted b e x.at_.time := by
    intro t1 t2 h
    unfold between
    refine List.filter_congr fun x hx => ?_
    have hx' := bnd x hx
    rw [Bool.eq_iff_iff, Bool.and_eq_true, decide_eq_true_eq, decide_eq_true_eq]
    exact h _ hx'.1 (by omega)
  unfold getUfore
  simp only
  rw [if_neg (by
    rcases b with _ | c
    · simp
    · have h := hb c rfl
      simp only [Option.any_some, Bool.not_eq_true]
      rw [Tsp.later_false hp h.1, hst]
      exact h.2.1), if_neg (by omega), if_neg (by rintro ⟨rfl, rfl⟩; simp at hbe), total_eq hp (by omega) (by omega), hst]
  simp only [Int.toNat_natCast]
  have hlate : tooLate lim r.time d vs.length e = some (decide (∃ c ∈ e, r.time + vs.length * d < c.time)) := by
    rcases e with _ | c
    · simp [tooLate]
    · have h := he c rfl
      unfold tooLate
      simp only
      rw [show chk lim (vs.length * d) = some (vs.length * d) from if_pos (by omega)]
      simp only
      rw [show chk lim (vs.length * d + r.time) = some (vs.length * d + r.time) from if_pos (by omega), total_eq h.1 h.2.1 h.2.2]
      simp [add_comm]
  have hb1 : endTotal lim (-9999) b = some ((b.map Clock.time).getD (-9999)) := by
    rcases b with _ | c
    · rfl
    · have h := hb c rfl
      exact total_eq h.1 (by omega) h.2.2
  have he1 : endTotal lim lim e = some ((e.map Clock.time).getD lim) := by
    rcases e with _ | c
    · rfl
    · have h := he c rfl
      exact total_eq h.1 h.2.1 h.2.2
  rw [hlate, hb1, he1]
  by_cases hL : ∃ c ∈ e, r.time + vs.length * d < c.time
  · rw [if_pos (Or.inl hL), decide_eq_true hL]
  · rw [decide_eq_false hL]
    simp only
    rw [countTimes_eq _ _ hd vs _ 0 h0 hl, f1 _ _ (by
      intro t ht1 ht2
      rcases b with _ | c <;> rcases e with _ | c' <;> simp [wanted] <;> omega)]
    simp only [hL, false_or, Nat.zero_add]
    generalize hF : (steps d r.time vs).filter (fun x => wanted b e x.at_.time) = G
    rcases G with _ | ⟨x, F⟩
    · simp
    · simp only [List.length_cons, reduceCtorEq, if_false]
      have hb2 : (b.getD ⟨-9999, 0⟩).Proper := by
        rcases b with _ | c
        · exact ⟨by decide, by decide⟩
        · exact (hb c rfl).1
      have he2 : (e.getD ⟨lim, 0⟩).Proper := by
        rcases e with _ | c
        · exact ⟨by simp, by simp⟩
        · exact (he c rfl).1
      have f2 : between (b.getD ⟨-9999, 0⟩).time (e.getD ⟨lim, 0⟩).time (steps d r.time vs) = x :: F := by
        rw [← hF]
        refine f1 _ _ ?_
        intro t ht1 ht2
        rcases b with _ | c <;> rcases e with _ | c' <;> simp [wanted] <;> simp only [Clock.time] <;> omega
      rw [storeSome_eq _ hd hd2 hb2 he2 vs rest _ [] hp (by rw [hst, f2]; simp), hst, f2]
      rfl

example : getUfore 300000000000 ⟨2453371, 43200⟩ 43200 (some ⟨2453372, 0⟩) (some ⟨2453372, 50000⟩) 4 [some 5, some 6, some 7, some 8] =
    .ok 2 [⟨⟨2453372, 0⟩, 5⟩, ⟨⟨2453372, 43200⟩, 6⟩] := by decide +kernel

/-- With a period, too few values or one that cannot be read before the end of the period end in a message, too. -/
theorem C146_short_period {lim : Int} {r : Clock} {d : Int} (hr : 0 ≤ r.secs ∧ r.secs < 172800) (hd : 0 < d) (hd2 : d ≤ 86400)
    (b e : Option Clock) (hbe : b ≠ none ∨ e ≠ none) (hb : ∀ c ∈ b, c.Proper ∧ c.time ≤ lim)
    (h0 : 0 ≤ r.time) (vs : List Rat) (n : Nat) (hn : vs.length < n) (hl : r.time + n * d ≤ lim)
    (he : ∀ c ∈ e, c.Proper ∧ r.time + vs.length * d ≤ c.time ∧ c.time ≤ lim)
    (rest : List (Option Rat)) (hrest : rest.head? = none ∨ rest.head? = some none) :
    getUfore lim r d b e n (vs.map some ++ rest) = .error := by
  by_cases hB : ∃ c, b = some c ∧ c.time < r.time
  · obtain ⟨c, h1, h2⟩ := hB
    exact C146_errors lim r d b e n _ (Or.inr ⟨c, h1, (hb c h1).1, hr, h2⟩)
  have hp := settle_proper hr
  have hst := settle_time r
  have hn0 : 0 ≤ (vs.length : Int) * d := Int.mul_nonneg (by omega) hd.le
  have hnd : 0 ≤ (n : Int) * d := Int.mul_nonneg (by omega) hd.le
  have hle : (vs.length : Int) * d ≤ n * d := Int.mul_le_mul_of_nonneg_right (by omega) hd.le
  have hb0 : ∀ c ∈ b, r.time ≤ c.time := fun c hc => by
    by_contra h
    exact hB ⟨c, hc, by omega⟩
  obtain ⟨ws, hws⟩ : ∃ ws : List Rat, (vs ++ ws).length = n := ⟨List.replicate (n - vs.length) 0, by simp; omega⟩
  unfold getUfore
  simp only
  rw [if_neg (by
    rcases b with _ | c
    · simp
    · simp only [Option.any_some, Bool.not_eq_true]
      rw [Tsp.later_false hp (hb c rfl).1, hst]
      exact hb0 c rfl), if_neg (by omega), if_neg (by rintro ⟨rfl, rfl⟩; simp at hbe), total_eq hp (by omega) (by omega), hst]
  simp only [Int.toNat_natCast]
  have hlate : ∃ q, tooLate lim r.time d n e = some q := by
    rcases e with _ | c
    · exact ⟨_, rfl⟩
    · have h := he c rfl
      unfold tooLate
      simp only
      rw [show chk lim (n * d) = some (n * d) from if_pos (by omega)]
      simp only
      rw [show chk lim (n * d + r.time) = some (n * d + r.time) from if_pos (by omega), total_eq h.1 (by omega) h.2.2]
      exact ⟨_, rfl⟩
  have hb1 : endTotal lim (-9999) b = some ((b.map Clock.time).getD (-9999)) := by
    rcases b with _ | c
    · rfl
    · have h := hb c rfl
      have := hb0 c rfl
      exact total_eq h.1 (by omega) h.2
  have he1 : endTotal lim lim e = some ((e.map Clock.time).getD lim) := by
    rcases e with _ | c
    · rfl
    · have h := he c rfl
      exact total_eq h.1 (by omega) h.2.2
  obtain ⟨q, hq⟩ := hlate
  rw [hq, hb1, he1]
  cases q
  · simp only
    have hcount := countTimes_eq (lim := lim) ((b.map Clock.time).getD (-9999)) ((e.map Clock.time).getD lim) hd (vs ++ ws) r.time 0 h0
      (by rw [hws]; exact hl)
    rw [hws] at hcount
    rw [hcount]
    have hcap := between_append_le d ((b.map Clock.time).getD (-9999)) ((e.map Clock.time).getD lim) r.time vs ws
    generalize hk : 0 + (between ((b.map Clock.time).getD (-9999)) ((e.map Clock.time).getD lim) (steps d r.time (vs ++ ws))).length = k
    rcases k with _ | k
    · rfl
    · simp only
      have hb2 : (b.getD ⟨-9999, 0⟩).Proper := by
        rcases b with _ | c
        · exact ⟨by decide, by decide⟩
        · exact (hb c rfl).1
      have he2 : (e.getD ⟨lim, 0⟩).Proper := by
        rcases e with _ | c
        · exact ⟨by simp, by simp⟩
        · exact (he c rfl).1
      refine storeSome_short _ hd hd2 hb2 he2 hrest vs n _ [] hn hp ?_ ?_
      · rw [hst]
        rcases e with _ | c
        · simp only [Option.getD_none, Clock.time] at hl h0 ⊢; omega
        · exact (he c rfl).2.1
      · rw [hst]
        have : between (b.getD ⟨-9999, 0⟩).time (e.getD ⟨lim, 0⟩).time (steps d r.time vs) =
            between ((b.map Clock.time).getD (-9999)) ((e.map Clock.time).getD lim) (steps d r.time vs) := by
          unfold between
          refine List.filter_congr fun x hx => ?_
          have hx' := steps_bound hd vs r.time x hx
          rw [Bool.eq_iff_iff, Bool.and_eq_true, Bool.and_eq_true]
          simp only [decide_eq_true_eq]
          generalize x.at_.time = t at hx'
          rcases b with _ | c <;> rcases e with _ | c' <;> simp only [Option.getD_none, Option.getD_some, Option.map_none, Option.map_some] <;>
            simp only [Clock.time] at * <;> omega
        rw [this]
        simp only [List.length_nil]
        omega
  · rfl

example : getUfore 300000000000 ⟨2453371, 43200⟩ 43200 (some ⟨2453372, 0⟩) (some ⟨2453373, 0⟩) 4 [some 5, none, some 7, some 8] = .error := by
  decide +kernel

/-- With a period the totals of seconds exceed the integers of the program for every reference date from the year 1 on, whatever the
file. -/
theorem C146_overflow_violated {day : Day} (hy : 1 ≤ day.year) (hm : 1 ≤ day.month ∧ day.month ≤ 12) (hk : 1 ≤ day.day) {s d : Int}
    (hs : 0 ≤ s ∧ s < 172800) (b e : Option Clock) (hbe : b ≠ none ∨ e ≠ none)
    (hb : ∀ c ∈ b, c.Proper ∧ (⟨julianDay day 0, s⟩ : Clock).time ≤ c.time) {nterm : Int} (hn : 0 < nterm) (vals : List (Option Rat)) :
    getUfore 2147483647 ⟨julianDay day 0, s⟩ d b e nterm vals = .undefined := by
  have hj : 24856 ≤ julianDay day 0 := by rw [julianDay_jd (by omega) hm]; have := jd_large hy hm hk; omega
  generalize julianDay day 0 = j at hj hb ⊢
  have hp : (settle ⟨j, s⟩).Proper := settle_proper hs
  have hd : 24856 ≤ (settle ⟨j, s⟩).days := by unfold settle; split_ifs <;> simp only <;> omega
  unfold getUfore
  simp only
  rw [if_neg (by
    rcases b with _ | c
    · simp
    · have h := hb c rfl
      simp only [Option.any_some, Bool.not_eq_true]
      rw [Tsp.later_false hp h.1, settle_time]
      exact h.2), if_neg (by omega), if_neg (by rintro ⟨rfl, rfl⟩; simp at hbe)]
  have : total 2147483647 (settle ⟨j, s⟩) = none := by
    unfold total
    rw [show chk 2147483647 ((settle ⟨j, s⟩).days * 86400) = none from if_neg (by omega)]
  rw [this]

example : getUfore 2147483647 ⟨julianDay ⟨2005, 1, 1⟩ 0, 0⟩ 3600 (some ⟨julianDay ⟨2005, 1, 2⟩ 0, 0⟩) none 2 [some 1, some 2] = .undefined := by
  decide +kernel

/-- With a period and steps of two days the clock falls behind, as at most one day is carried: terms of the period are counted at their
times but stored at others, here outside the series; and a series is stored whose times are not those of the values. -/
theorem C146_step_violated :
    getUfore 300000000000 ⟨2453371, 0⟩ 172800 (some ⟨2453375, 0⟩) (some ⟨2453379, 0⟩) 9 (List.replicate 9 (some 1)) = .overflow ∧
    getUfore 300000000000 ⟨2453371, 0⟩ 172800 (some ⟨2453371, 0⟩) none 2 [some 1, some 2] =
      .ok 2 [⟨⟨2453372, 86400⟩, 1⟩, ⟨⟨2453373, 172800⟩, 2⟩] ∧
    steps 172800 (⟨2453371, 0⟩ : Clock).time [1, 2] = [⟨⟨2453373, 0⟩, 1⟩, ⟨⟨2453375, 0⟩, 2⟩] := by
  decide +kernel

end Verif.TspUfore
