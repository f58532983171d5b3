import Verif.Lemmas.TspText
import Verif.Props.TspDate
/-
C142: dates and times as texts in TSPROC.
-/
namespace Verif.TspText
open Verif.Tsp

/-- Digits, `:` or `/`, digits, `:` or `/` and four digits (at most 20 characters) are read as day, month and year, or as month, day and
year, if that is a date of the calendar, and refused if it is not.  (The year 0 is apart, see `C142_year_zero_violated`.) -/
theorem C142_date (a b c : List Nat) (p q : Nat) (ha : Digits a) (hb : Digits b) (hc : Digits c) (h4 : c.length = 4) (hy : value c ≠ 0)
    (hp : p = 58 ∨ p = 47) (hq : q = 58 ∨ q = 47) (hl : (three a p b q c).length ≤ 20) :
    (char2date 1 (three a p b q c) =
      if Valid ⟨value c, value b, value a⟩ then some ((value a : Int), (value b : Int), (value c : Int)) else none) ∧
    ∀ spec, spec ≠ 1 → char2date spec (three a p b q c) =
      if Valid ⟨value c, value a, value b⟩ then some ((value b : Int), (value a : Int), (value c : Int)) else none := by
  have hp' : dateSep p = true := by simp [dateSep, hp]
  have hq' : dateSep q = true := by simp [dateSep, hq]
  have hcv : value c < 10000 := by have := digits_bound hc.2; rw [h4] at this; simpa using this
  have key : ∀ d m : Nat, (dateOk d m (value c) = true ↔ Valid ⟨value c, m, d⟩) := by
    intro d m
    rw [dateOk_iff]
    constructor
    · rintro ⟨h1, h2, h3, h5, _⟩
      exact ⟨by show (-4712 : Int) ≤ value c; omega, ⟨h1, h2⟩, ⟨h3, h5⟩⟩
    · rintro ⟨_, h2, h3⟩
      exact ⟨h2.1, h2.2, h3.1, h3.2, by omega⟩
  have big : ∀ d m : Nat, Valid ⟨value c, m, d⟩ → d ≤ 31 ∧ m ≤ 12 := by
    intro d m hv
    have h1 := hv.month
    have h2 := hv.day
    simp only at h1 h2
    have : monthDays (value c) m ≤ 31 := by unfold monthDays; split_ifs <;> omega
    omega
  have main : ∀ spec, char2date spec (three a p b q c) = _ := fun spec => char2date_three spec ha hb hc h4 hp' hq' hl
  constructor
  · rw [main, readInt_digits ha, readInt_digits hb, readInt_digits hc, if_pos (show value c ≤ 2147483647 by omega)]
    by_cases h1 : value a ≤ 2147483647
    · by_cases h2 : value b ≤ 2147483647
      · simp only [h1, h2, if_true, Option.bind_some, ne_eq, not_true_eq_false, if_false, key]
      · rw [if_pos h1, if_neg h2, Option.bind_some, Option.bind_none, if_neg (fun hv => h2 (by have := big _ _ hv; omega))]
    · rw [if_neg h1, Option.bind_none, if_neg (fun hv => h1 (by have := big _ _ hv; omega))]
  · intro spec hs
    rw [main, readInt_digits ha, readInt_digits hb, readInt_digits hc, if_pos (show value c ≤ 2147483647 by omega)]
    by_cases h1 : value a ≤ 2147483647
    · by_cases h2 : value b ≤ 2147483647
      · simp only [h1, h2, if_true, Option.bind_some, ne_eq, hs, not_false_eq_true, key]
      · rw [if_pos h1, if_neg h2, Option.bind_some, Option.bind_none, if_neg (fun hv => h2 (by have := big _ _ hv; omega))]
    · rw [if_neg h1, Option.bind_none, if_neg (fun hv => h1 (by have := big _ _ hv; omega))]

/-- `29/2/2000` is a date and `29/02/1900` is none. -/
example : char2date 1 (codes "29/2/2000") = some (29, 2, 2000) ∧ char2date 1 (codes "29/02/1900") = none ∧
    char2date 2 (codes "2/29/2000") = some (29, 2, 2000) ∧
    three (codes "29") 47 (codes "2") 58 (codes "2000") = codes "29/2:2000" := by decide +kernel

/-- Whatever the text: what is read is a date of the calendar. -/
theorem C142_date_real (spec : Nat) (s : List Nat) (d m y : Int) (h : char2date spec s = some (d, m, y)) (hy : -4712 ≤ y) :
    Valid ⟨y, m, d⟩ := by
  obtain ⟨_, _, _, _, _, _, _, _, _, _, ho⟩ := char2date_some h
  rw [dateOk_iff] at ho
  exact ⟨hy, ⟨ho.1, ho.2.1⟩, ⟨ho.2.2.1, ho.2.2.2.1⟩⟩

example : char2date 1 (codes "  +1/12:2003") = some (1, 12, 2003) := by decide +kernel

/-- A text that is a date in both orders is read with the day and the month exchanged in the other order; the year is the same. -/
theorem C142_other_order (s : List Nat) (d m y d' m' y' : Int) (h : char2date 1 s = some (d, m, y)) (h' : char2date 2 s = some (d', m', y')) :
    d' = m ∧ m' = d ∧ y' = y := by
  obtain ⟨f, g, c, h1, h2, rfl, _, h3, h4, h5, _⟩ := char2date_some h
  obtain ⟨f', g', c', h1', h2', rfl, _, h3', h4', h5', _⟩ := char2date_some h'
  rw [h1] at h1'; rw [h2] at h2'; rw [h3] at h3'
  cases h1'; cases h2'; cases h3'
  simp at h4 h5 h4' h5'
  subst h4 h5 h4' h5'
  exact ⟨rfl, rfl, rfl⟩

example : char2date 1 (codes "03/04/2001") = some (3, 4, 2001) ∧ char2date 2 (codes "03/04/2001") = some (4, 3, 2001) := by decide +kernel

/-- Digits, `:` or `.`, digits, `:` or `.` and digits are read as hours, minutes and seconds, if they are a time of day, and refused if
they are not; where a block or a file of dates is read, 24 hours with 0 minutes and 0 seconds are taken as well. -/
theorem C142_time (ig : Bool) (a b c : List Nat) (p q : Nat) (ha : Digits a) (hb : Digits b) (hc : Digits c)
    (hp : p = 58 ∨ p = 46) (hq : q = 58 ∨ q = 46) (hl : (three a p b q c).length ≤ 20) :
    char2time ig (three a p b q c) =
      if RealTime (value a) (value b) (value c) ∨ (ig = true ∧ value a = 24 ∧ value b = 0 ∧ value c = 0)
        then some ((value a : Int), (value b : Int), (value c : Int)) else none := by
  have hp' : timeSep p = true := by simp [timeSep, hp]
  have hq' : timeSep q = true := by simp [timeSep, hq]
  rw [char2time_three ig ha hb hc hp' hq' hl, readInt_digits ha, readInt_digits hb, readInt_digits hc]
  unfold RealTime
  by_cases h1 : value a ≤ 2147483647
  · by_cases h2 : value b ≤ 2147483647
    · by_cases h3 : value c ≤ 2147483647
      · simp only [h1, h2, h3, if_true, Option.bind_some]
        cases ig <;> simp only [Bool.false_eq_true, false_and, or_false, true_and] <;> split_ifs <;> first | rfl | (exfalso; omega)
      · rw [if_pos h1, if_pos h2, if_neg h3, if_neg (by omega)]
        rfl
    · rw [if_pos h1, if_neg h2, Option.bind_some, Option.bind_none, if_neg (by omega)]
  · rw [if_neg h1, Option.bind_none, if_neg (by omega)]

example : char2time true (codes "24:00:00") = some (24, 0, 0) ∧ char2time false (codes "24:00:00") = none ∧
    char2time true (codes "24:00:01") = none ∧ char2time false (codes "9.5:07") = some (9, 5, 7) := by decide +kernel

/-- Whatever the text: what is read is a time of day, or the end of the day. -/
theorem C142_time_real (ig : Bool) (s : List Nat) (h m x : Int) (hh : char2time ig s = some (h, m, x)) :
    RealTime h m x ∨ (ig = true ∧ h = 24 ∧ m = 0 ∧ x = 0) := char2time_some hh

/-- An instant of a file of dates: the day of the date and the seconds of the time, where the end of a day is the beginning of the next. -/
theorem C142_instant (spec : Nat) (date time : List Nat) (d m y hh nn ss : Int) (hy : -4712 ≤ y)
    (h1 : char2date spec date = some (d, m, y)) (h2 : char2time true time = some (hh, nn, ss)) :
    instant spec date time =
      if hh = 24 then some (julianDay (next ⟨y, m, d⟩) 0, 0) else some (julianDay ⟨y, m, d⟩ 0, 3600 * hh + 60 * nn + ss) := by
  have hv := C142_date_real spec date d m y h1 hy
  have hj := (C124_consecutive _ hv).2
  have hn : numsecs 0 0 0 hh nn ss = 3600 * hh + 60 * nn + ss := by unfold numsecs; ring
  unfold instant
  simp only [h1, h2, hn]
  rcases C142_time_real true time hh nn ss h2 with ht | ⟨_, rfl, rfl, rfl⟩
  · unfold RealTime at ht
    have e1 : ¬ (3600 * hh + 60 * nn + ss ≥ 86400) := by omega
    have e2 : ¬ (hh = 24) := by omega
    simp only [e1, e2, if_false]
  · rw [hj]
    rfl

example : instant 1 (codes "31/12/1999") (codes "24:00:00") = some (julianDay ⟨2000, 1, 1⟩ 0, 0) := by decide +kernel

/-- The dates of LIST_OUTPUT are read again as they were, in either order, from year 1 to year 9999. -/
theorem C142_date_again (spec : Nat) (d : Day) (hv : Valid d) (hy : 1 ≤ d.year ∧ d.year ≤ 9999) :
    char2date spec (writeDate spec (julianDay d 0)) = some (d.day, d.month, d.year) := by
  have hm := hv.month
  have hd := hv.day
  have hd' : d.day ≤ 31 := by
    have : monthDays d.year d.month ≤ 31 := by unfold monthDays; split_ifs <;> omega
    omega
  obtain ⟨m1, m2, m3⟩ := i22_digits (n := d.month) (by omega)
  obtain ⟨d1, d2, d3⟩ := i22_digits (n := d.day) (by omega)
  obtain ⟨y1, y2, y3⟩ := i44_digits (n := d.year) (by omega)
  have e : ∀ a b c : List Nat, a ++ 47 :: b ++ 47 :: c = three a 47 b 47 c := by intro a b c; simp [three]
  unfold writeDate
  simp only [gregorianDate_julianDay hv, e]
  by_cases hs : spec = 1
  · subst hs
    rw [if_pos rfl, (C142_date _ _ _ 47 47 d1 m1 y1 y3 (by omega) (by simp) (by simp) (by rw [three_length]; omega)).1, m2, d2, y2,
      if_pos hv]
  · rw [if_neg hs, (C142_date _ _ _ 47 47 m1 d1 y1 y3 (by omega) (by simp) (by simp) (by rw [three_length]; omega)).2 _ hs, m2, d2, y2,
      if_pos hv]

example : writeDate 2 (julianDay ⟨2024, 2, 9⟩ 0) = codes "02/09/2024" := by decide +kernel

/-- The times of LIST_OUTPUT are read again as they were. -/
theorem C142_time_again (ig : Bool) (s : Int) (h : 0 ≤ s ∧ s < 86400) :
    ∃ hh nn ss, char2time ig (writeTime s) = some (hh, nn, ss) ∧ RealTime hh nn ss ∧ numsecs 0 0 0 hh nn ss = s := by
  have e1 : Int.tdiv s 3600 = s / 3600 := Int.tdiv_eq_ediv_of_nonneg h.1
  have e2 : Int.tdiv (s - s / 3600 * 3600) 60 = (s - s / 3600 * 3600) / 60 := Int.tdiv_eq_ediv_of_nonneg (by omega)
  have e : ∀ a b c : List Nat, a ++ 58 :: b ++ 58 :: c = three a 58 b 58 c := by intro a b c; simp [three]
  obtain ⟨h1, h2, h3⟩ := i22_digits (n := s / 3600) (by omega)
  obtain ⟨m1, m2, m3⟩ := i22_digits (n := (s - s / 3600 * 3600) / 60) (by omega)
  obtain ⟨s1, s2, s3⟩ := i22_digits (n := s - s / 3600 * 3600 - (s - s / 3600 * 3600) / 60 * 60) (by omega)
  refine ⟨s / 3600, (s - s / 3600 * 3600) / 60, s - s / 3600 * 3600 - (s - s / 3600 * 3600) / 60 * 60, ?_, ?_, ?_⟩
  · unfold writeTime
    simp only [e1, e2, e]
    rw [C142_time ig _ _ _ 58 58 h1 m1 s1 (by simp) (by simp) (by rw [three_length]; omega), h2, m2, s2, if_pos]
    left
    unfold RealTime
    omega
  · unfold RealTime
    omega
  · unfold numsecs
    ring

example : writeTime 86399 = codes "23:59:59" ∧ writeTime 3661 = codes "01:01:01" := by decide +kernel

/-- A series written by LIST_OUTPUT and read as a site sample file has the instants that it had. -/
theorem C142_sample_again (spec : Nat) (d : Day) (hv : Valid d) (hy : 1 ≤ d.year ∧ d.year ≤ 9999) (s : Int) (h : 0 ≤ s ∧ s < 86400) :
    sampleInstant spec (writeDate spec (julianDay d 0)) (writeTime s) = some (julianDay d 0, s) := by
  obtain ⟨hh, nn, ss, h1, _, h2⟩ := C142_time_again false s h
  unfold sampleInstant
  simp only [C142_date_again spec d hv hy, h1, h2]

example : Valid ⟨2024, 2, 29⟩ ∧ sampleInstant 1 (codes "29/02/2024") (codes "06:00:00") = some (julianDay ⟨2024, 2, 29⟩ 0, 21600) := by
  decide +kernel

/-- In a site sample file the end of a day is refused whatever the date, although the program that reads the file has lines that would
make it the beginning of the next day (tsp_input.F90:1849-1852), and blocks and files of dates take it. -/
theorem C142_sample_midnight_violated (spec : Nat) (date : List Nat) :
    sampleInstant spec date (codes "24:00:00") = none ∧
    ∀ d m y, -4712 ≤ y → char2date spec date = some (d, m, y) →
      instant spec date (codes "24:00:00") = some (julianDay (next ⟨y, m, d⟩) 0, 0) := by
  have e1 : char2time false (codes "24:00:00") = none := by decide +kernel
  have e2 : char2time true (codes "24:00:00") = some (24, 0, 0) := by decide +kernel
  constructor
  · unfold sampleInstant
    simp only [e1]
    split <;> rfl
  · intro d m y hy h
    rw [C142_instant spec date _ d m y 24 0 0 hy h e2, if_pos rfl]

/-- A date of more than 20 characters is not refused: what follows the 20th is not read. -/
theorem C142_cut_violated (spec : Nat) (s t : List Nat) (h : ∀ c ∈ s, c ≠ 32) (hl : s.length = 20) :
    char2date spec (s ++ t) = char2date spec s := by
  unfold char2date
  rw [text20_long h hl t]

example : char2date 1 (codes "000000000001/02/19991") = some (1, 2, 1999) := by decide +kernel

/-- 29 February of the year 0 is a day that the program counts, and its text is refused. -/
theorem C142_year_zero_violated : Valid ⟨0, 2, 29⟩ ∧ char2date 1 (codes "29/02/0000") = none ∧
    char2date 1 (codes "28/02/0000") = some (28, 2, 0) ∧ julianDay ⟨0, 3, 1⟩ 0 = julianDay ⟨0, 2, 28⟩ 0 + 2 ∧
    writeDate 1 (julianDay ⟨0, 2, 28⟩ 0 + 1) = codes "29/02/0000" := by
  decide +kernel

/-- The date of a term after the year 9999 is written as a text that is no date. -/
theorem C142_far_violated (spec : Nat) (d : Day) (hv : Valid d) (hy : 9999 < d.year) :
    char2date spec (writeDate spec (julianDay d 0)) = none := by
  have hm := hv.month
  have hd := hv.day
  have hd' : d.day ≤ 31 := by
    have : monthDays d.year d.month ≤ 31 := by unfold monthDays; split_ifs <;> omega
    omega
  have hfin : readInt [42, 42, 42, 42] = none := by decide +kernel
  have key : ∀ a b : List Nat, Digits a → Digits b → a.length = 2 → b.length = 2 →
      char2date spec (a ++ 47 :: b ++ 47 :: [42, 42, 42, 42]) = none := by
    intro a b ha hb la lb
    cases hr : char2date spec (a ++ 47 :: b ++ 47 :: [42, 42, 42, 42]) with
    | none => rfl
    | some r =>
      exfalso
      obtain ⟨f, g, c, _, _, hc, _, h3, _⟩ := char2date_some (s := a ++ 47 :: b ++ 47 :: [42, 42, 42, 42]) (d := r.1) (m := r.2.1)
        (y := r.2.2) (by rw [hr])
      have e : a ++ 47 :: b ++ 47 :: [42, 42, 42, 42] = a ++ 47 :: (b ++ 47 :: [42, 42, 42, 42]) := by simp
      have ht : text20 (a ++ 47 :: b ++ 47 :: [42, 42, 42, 42]) = a ++ 47 :: (b ++ 47 :: [42, 42, 42, 42]) := by
        rw [text20_plain, e]
        · intro x hx
          simp only [List.mem_append, List.mem_cons, List.not_mem_nil, or_false] at hx
          rcases hx with (hx | hx | hx) | hx
          · exact (digits_ne ha hx).1
          · omega
          · exact (digits_ne hb hx).1
          · omega
        · simp [la, lb]
      have c1 := (cut_take (r := b ++ 47 :: [42, 42, 42, 42]) (p := 47) (!dateSep ·) (fun x hx => (digits_ne ha hx).2.1) (by decide)).2
      have c2 := (cut_take (r := [42, 42, 42, 42]) (p := 47) (!dateSep ·) (fun x hx => (digits_ne hb hx).2.1) (by decide)).2
      rw [ht, c1, List.tail_cons, c2, List.tail_cons] at hc
      rw [hc, hfin] at h3
      exact absurd h3 (by simp)
  obtain ⟨m1, _, m3⟩ := i22_digits (n := d.month) (by omega)
  obtain ⟨d1, _, d3⟩ := i22_digits (n := d.day) (by omega)
  have y : i44 d.year = [42, 42, 42, 42] := by unfold i44; rw [if_neg (by omega)]
  unfold writeDate
  simp only [gregorianDate_julianDay hv, y]
  split
  · exact key _ _ d1 m1 d3 m3
  · exact key _ _ m1 d1 m3 d3

example : writeDate 1 (julianDay ⟨10000, 1, 1⟩ 0) = codes "01/01/****" := by decide +kernel

/-- A part of a date or time is a number with or without a sign, not larger than the integers of the program. -/
theorem C142_signs (s : List Nat) (h : Digits s) :
    (readInt s = if value s ≤ 2147483647 then some (value s : Int) else none) ∧
    (readInt (43 :: s) = if value s ≤ 2147483647 then some (value s : Int) else none) ∧
    (readInt (45 :: s) = if value s ≤ 2147483647 then some (-(value s : Int)) else none) := by
  refine ⟨readInt_digits h, ?_⟩
  have hf : s.filter (· != 32) = s := by
    rw [List.filter_eq_self]
    intro c hc
    have := h.2 c hc
    simp only [bne_iff_ne]
    omega
  have hd : digits s = some (value s) := by
    unfold digits
    rw [if_pos ⟨h.1, h.2⟩, fold_value]
    simp
  constructor
  · unfold readInt
    rw [List.filter_cons_of_pos (by decide), hf]
    simp only
    rw [if_neg (by decide), if_pos trivial, hd, Option.bind_some, fits]
    split <;> rfl
  · unfold readInt
    rw [List.filter_cons_of_pos (by decide), hf]
    simp only
    rw [if_pos trivial, hd, Option.bind_some, fits]
    split <;> rfl

example : Digits (codes "17") ∧ value (codes "17") = 17 := by
  refine ⟨⟨by decide, ?_⟩, by decide⟩
  decide

end Verif.TspText
