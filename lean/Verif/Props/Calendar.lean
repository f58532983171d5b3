import Verif.Lemmas.Calendar
/-
Properties C01, C02, C03: calendar arithmetic.  Specification: `Verif/Spec/Calendar.lean`.
-/
namespace Verif.Calendar

/-- C01: consecutive civil days have consecutive Julian day numbers, from year 1 on, across month
ends, leap days, year ends and the 1582 switch. -/
theorem C01_consecutive (d : Date) (h : Valid d) :
    Valid (next d) ∧ ∃ n, julday d = some n ∧ julday (next d) = some (n + 1) :=
  ⟨next_valid h, julday_next h⟩

/-- C01: Julian day numbers order the dates. -/
theorem C01_order (a b : Date) (ha : Valid a) (hb : Valid b) (h : Before a b) :
    ∃ m n, julday a = some m ∧ julday b = some n ∧ m < n :=
  ⟨_, _, julday_jd ha, julday_jd hb, jd_mono ha hb h⟩

/-- C01: Julian day numbers never repeat. -/
theorem C01_injective (a b : Date) (ha : Valid a) (hb : Valid b) (h : julday a = julday b) :
    a = b := by
  rw [julday_jd ha, julday_jd hb] at h
  have h := Option.some.inj h
  rcases Before.trichotomy a b with h1 | h1 | h1
  · have := jd_mono ha hb h1; omega
  · exact h1
  · have := jd_mono hb ha h1; omega

/-- C01: the numbering is anchored at the astronomical Julian day (15 October 1582 is 2299161,
1 January 2000 is 2451545); with `C01_consecutive` this fixes every value. -/
theorem C01_anchor :
    julday ⟨1582, 10, 15⟩ = some 2299161 ∧ julday ⟨2000, 1, 1⟩ = some 2451545 := by decide

example : Valid ⟨2000, 2, 29⟩ ∧ next ⟨2000, 2, 29⟩ = ⟨2000, 3, 1⟩ := by decide
example : Valid ⟨1900, 2, 28⟩ ∧ next ⟨1900, 2, 28⟩ = ⟨1900, 3, 1⟩ := by decide
example : Valid ⟨1582, 10, 4⟩ ∧ next ⟨1582, 10, 4⟩ = ⟨1582, 10, 15⟩ := by decide
example : Before ⟨1999, 12, 31⟩ ⟨2000, 1, 1⟩ := by unfold Before; decide

/-- C02: every count is between 1 and 366. -/
theorem C02_range (k : YearKind) (d : Date) (h : Valid d) (hy : 2 ≤ d.year) :
    ∃ n, julian k d = some n ∧ 1 ≤ n ∧ n ≤ 366 := julian_range k h hy

/-- C02: the count restarts at 1 on the first day of that kind of year and otherwise increases
by one per day. -/
theorem C02_step (k : YearKind) (d : Date) (h : Valid d) (hy : 2 ≤ d.year) :
    ∃ n, julian k d = some n ∧
      (isFirstDay k (next d) → julian k (next d) = some 1) ∧
      (¬ isFirstDay k (next d) → julian k (next d) = some (n + 1)) := julian_next k h hy

/-- C02: the count is 1 exactly on the first day of that kind of year. -/
theorem C02_one_iff (k : YearKind) (d : Date) (h : Valid d) (hy : 2 ≤ d.year) :
    julian k d = some 1 ↔ isFirstDay k d := julian_one_iff k h hy

/-- The excluded year 1: the calendar count subtracts a reference day number that was never
computed, because the reference date is in year zero, which `julday` rejects. -/
theorem C02_year1_undefined (m d : Int) : julian .calendar ⟨1, m, d⟩ = none := by
  simp [julian, refDate, julday]

example : Valid ⟨2001, 10, 1⟩ ∧ isFirstDay .water ⟨2001, 10, 1⟩ ∧
    julian .water ⟨2001, 10, 1⟩ = some 1 ∧ julian .calendar ⟨2000, 12, 31⟩ = some 366 := by
  unfold isFirstDay; decide

/-- C03: after 1582 the leap-year predicate is 1 exactly when the year has 366 numbered days,
and 0 exactly when it has 365. -/
theorem C03_leap (y : Int) (h : 1582 < y) :
    ∃ a b, julday ⟨y, 1, 1⟩ = some a ∧ julday ⟨y + 1, 1, 1⟩ = some b ∧
      (isleap y = 1 ↔ b - a = 366) ∧ (isleap y = 0 ↔ b - a = 365) ∧
      (isleap y = 1 ∨ isleap y = 0) := leap_year_days h

/-- C03: `isleap` is the Gregorian rule for every year. -/
theorem C03_rule (y : Int) :
    isleap y = if (4 ∣ y ∧ ¬ 100 ∣ y) ∨ 400 ∣ y then 1 else 0 := by
  unfold isleap
  split_ifs <;> omega

/-- C03: weekdays are 0..6 and advance by one (mod 7) per civil day. -/
theorem C03_weekday (d : Date) (h : Valid d) :
    ∃ a b, julday d = some a ∧ julday (next d) = some b ∧
      0 ≤ dayofweek a ∧ dayofweek a ≤ 6 ∧ dayofweek b = (dayofweek a + 1) % 7 := weekday_next h

/-- C03: the anchor: 1 January 2000 was a Saturday (6, Sunday being 0). -/
theorem C03_weekday_anchor : (julday ⟨2000, 1, 1⟩).map dayofweek = some 6 := by decide

example : isleap 2000 = 1 ∧ isleap 1900 = 0 ∧ isleap 2004 = 1 ∧ isleap 2023 = 0 := by decide

end Verif.Calendar
