import Verif.Lemmas.TspDate
/-
C124: the dates of TSPROC are those of the Gregorian calendar.
-/
namespace Verif.Tsp

/-- Consecutive days have consecutive numbers. -/
theorem C124_consecutive (d : Day) (h : Valid d) :
    Valid (next d) ∧ ∀ o, julianDay (next d) o = julianDay d o + 1 :=
  ⟨next_valid h, fun o => by rw [julianDay_valid (next_valid h), julianDay_valid h, jd_next h]; ring⟩

/-- The numbers are the astronomical ones. -/
theorem C124_anchor : julianDay ⟨2000, 1, 1⟩ 0 = 2451545 ∧ julianDay ⟨1960, 1, 1⟩ 2436935 = 0 := by decide

/-- A date is found again from its number, whatever the origin. -/
theorem C124_inverse (d : Day) (h : Valid d) (o : Int) (ho : 0 ≤ o) (hd : 0 ≤ julianDay d o) :
    gregorianDate (julianDay d o) o = d := by
  rw [gregorianDate_back hd o ho, julianDay_valid h, sub_add_cancel, back_jd h]

/-- Every number from that of 1 January -4712 on is the number of a date. -/
theorem C124_onto (n : Int) (h : 38 ≤ n) : Valid (gregorianDate n 0) ∧ julianDay (gregorianDate n 0) 0 = n := by
  obtain ⟨d, hd, rfl⟩ := jd_onto h
  rw [gregorianDate_back (by omega) 0 (le_refl 0), add_zero, back_jd hd]
  exact ⟨hd, by rw [julianDay_valid hd, sub_zero]⟩

/-- `newdate` counts days on the calendar. -/
theorem C124_newdate (d : Day) (h : Valid d) (n : Nat) : newdate n d = next^[n] d := by
  obtain ⟨h1, h2⟩ := jd_step n h
  unfold newdate
  rw [julianDay_valid h, sub_zero, ← h2]
  have := gregorianDate_julianDay h1
  rwa [julianDay_valid h1, sub_zero] at this

/-- `newdate` with a negative number goes back: the date that comes to `d` after `n` days. -/
theorem C124_back (d : Day) (h : Valid d) (n : Nat) : newdate (-n) (next^[n] d) = d := by
  obtain ⟨h1, h2⟩ := jd_step n h
  unfold newdate
  rw [julianDay_valid h1, sub_zero, h2, show jd d + n + -(n : Int) = jd d by ring]
  have := gregorianDate_julianDay h
  rwa [julianDay_valid h, sub_zero] at this

/-- `numdays` counts the days from the first date to the second, and is negative if the second is earlier. -/
theorem C124_numdays (d : Day) (h : Valid d) (n : Nat) : numdays d (next^[n] d) = n ∧ numdays (next^[n] d) d = -n := by
  obtain ⟨h1, h2⟩ := jd_step n h
  unfold numdays
  rw [julianDay_valid h1, julianDay_valid h, h2]
  omega

/-- `numdays` and `newdate` belong together, for any two dates. -/
theorem C124_between (a b : Day) (ha : Valid a) (hb : Valid b) : newdate (numdays a b) a = b := by
  unfold newdate numdays
  rw [show julianDay a 0 + (julianDay b 0 - julianDay a 0) = julianDay b 0 by ring]
  exact gregorianDate_julianDay hb

/-- Years have 365 days, leap years 366. -/
theorem C124_year (y : Int) (hy : -4712 ≤ y) : numDaysInYear y = if IsLeap y then 366 else 365 := by
  unfold numDaysInYear
  rw [julianDay_jd (by simp only; omega) (by norm_num), julianDay_jd (by simp only; omega) (by norm_num)]
  have := span hy
  unfold jd
  norm_num
  split_ifs at this ⊢ <;> omega

/-- The day of the year is 1 on 1 January and otherwise one more than on the day before. -/
theorem C124_doy (d : Day) (h : Valid d) :
    ((next d).month = 1 ∧ (next d).day = 1 → dayOfYear (julianDay (next d) 0) = 1) ∧
    (¬ ((next d).month = 1 ∧ (next d).day = 1) → dayOfYear (julianDay (next d) 0) = dayOfYear (julianDay d 0) + 1) := by
  have hn := next_valid h
  unfold dayOfYear
  simp only [gregorianDate_julianDay hn, gregorianDate_julianDay h]
  constructor
  · rintro ⟨h1, h2⟩
    have : (⟨(next d).year, 1, 1⟩ : Day) = next d := by
      conv_rhs => rw [← show (⟨(next d).year, (next d).month, (next d).day⟩ : Day) = next d from rfl, h1, h2]
    rw [this]; ring
  · intro h1
    have hy : (next d).year = d.year := by
      unfold next at h1 ⊢
      split_ifs at h1 ⊢
      · rfl
      · rfl
      · exact absurd ⟨rfl, rfl⟩ h1
    rw [hy, julianDay_valid hn, julianDay_valid h, jd_next h]
    ring

/-- The lengths of months are those of the calendar, except in the year 0. -/
theorem C124_month (m y : Int) (hm : 1 ≤ m ∧ m ≤ 12) (hy : y ≠ 0) : numDaysInMonth m y = some (monthDays y m) := by
  have hl := leap_iff y
  unfold numDaysInMonth monthDays
  rw [if_pos ⟨hm.2, hm.1⟩]
  by_cases h : IsLeap y
  · rw [if_pos h, hl.2 ⟨h, hy⟩]
    rcases month_cases hm with rfl | rfl | rfl | rfl | rfl | rfl | rfl | rfl | rfl | rfl | rfl | rfl <;> rfl
  · have : leap y = false := by
      cases hb : leap y with
      | false => rfl
      | true => exact absurd (hl.1 hb).1 h
    rw [if_neg h, this]
    rcases month_cases hm with rfl | rfl | rfl | rfl | rfl | rfl | rfl | rfl | rfl | rfl | rfl | rfl <;> rfl

/-- In the year 0 the length of February differs from the calendar that numbers the days. -/
theorem C124_zero_violated : numDaysInMonth 2 0 = some 28 ∧ numdays ⟨0, 2, 28⟩ ⟨0, 3, 1⟩ = 2 ∧ Valid ⟨0, 2, 29⟩ := by decide

/-- The water year begins on 1 October; the day in it depends only on the month and day, as if every water year had a 29 February.
Not in the year 0 (`C124_zero_violated`). -/
theorem C124_water (d : Day) (h : Valid d) (h0 : d.year ≠ 0) (h1 : -4712 < d.year) :
    waterYearAndDay (julianDay d 0) = (if 10 ≤ d.month then d.year + 1 else d.year, beforeMonth d.month + d.day - 1) := by
  unfold waterYearAndDay
  simp only [gregorianDate_julianDay h]
  have hl := leap_iff d.year
  obtain ⟨y, m, k⟩ := d
  obtain ⟨hy, hm, hk⟩ := h
  simp only at hy hm hk h0 h1 hl ⊢
  have hj : ∀ o, julianDay ⟨y, m, k⟩ o = jd ⟨y, m, k⟩ - o := julianDay_jd (by simp only; omega) hm
  rw [hj, julianDay_jd (d := ⟨y, 10, 1⟩) (by simp only; omega) (by norm_num),
    julianDay_jd (d := ⟨y - 1, 10, 1⟩) (by simp only; omega) (by norm_num)]
  have hs := span hy
  have hlf : leap y = false ↔ ¬ IsLeap y := by
    constructor
    · intro h hL; rw [hl.2 ⟨hL, h0⟩] at h; cases h
    · intro hL
      cases hb : leap y with
      | false => rfl
      | true => exact absurd (hl.1 hb).1 hL
  have b1 : beforeMonth 1 = 92 := rfl
  have b2 : beforeMonth 2 = 123 := rfl
  have b3 : beforeMonth 3 = 152 := rfl
  have b4 : beforeMonth 4 = 183 := rfl
  have b5 : beforeMonth 5 = 213 := rfl
  have b6 : beforeMonth 6 = 244 := rfl
  have b7 : beforeMonth 7 = 274 := rfl
  have b8 : beforeMonth 8 = 305 := rfl
  have b9 : beforeMonth 9 = 336 := rfl
  have b10 : beforeMonth 10 = 0 := rfl
  have b11 : beforeMonth 11 = 31 := rfl
  have b12 : beforeMonth 12 = 61 := rfl
  unfold monthDays at hk
  unfold jd
  by_cases hL : IsLeap y
  · rw [if_pos hL] at hs hk
    have hb : leap y = true := hl.2 ⟨hL, h0⟩
    rcases month_cases hm with rfl | rfl | rfl | rfl | rfl | rfl | rfl | rfl | rfl | rfl | rfl | rfl <;>
      norm_num [b1, b2, b3, b4, b5, b6, b7, b8, b9, b10, b11, b12, hb] at hk ⊢ <;> (try split_ifs) <;> (try simp only [Prod.mk.injEq, true_and]) <;> omega
  · rw [if_neg hL] at hs hk
    have hb : leap y = false := hlf.2 hL
    rcases month_cases hm with rfl | rfl | rfl | rfl | rfl | rfl | rfl | rfl | rfl | rfl | rfl | rfl <;>
      norm_num [b1, b2, b3, b4, b5, b6, b7, b8, b9, b10, b11, b12, hb] at hk ⊢ <;> (try split_ifs) <;> (try simp only [Prod.mk.injEq, true_and]) <;> omega

example : Valid ⟨1999, 12, 31⟩ ∧ next ⟨1999, 12, 31⟩ = ⟨2000, 1, 1⟩ ∧ next^[60] ⟨1999, 12, 31⟩ = ⟨2000, 2, 29⟩ := by decide +kernel
example : newdate 366 ⟨2000, 2, 29⟩ = ⟨2001, 3, 1⟩ ∧ newdate (-1) ⟨1900, 3, 1⟩ = ⟨1900, 2, 28⟩ := by decide
example : waterYearAndDay (julianDay ⟨2001, 3, 1⟩ 0) = (2001, 152) ∧ waterYearAndDay (julianDay ⟨2004, 9, 30⟩ 0) = (2004, 365) := by
  decide

end Verif.Tsp
