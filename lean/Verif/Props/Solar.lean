import Verif.Lemmas.Solar
import Mathlib.Tactic.Positivity
import Mathlib.Tactic.FieldSimp
/-
Solar radiation (C75-C78).  Specification: `Verif/Spec/Solar.lean`.
-/
namespace Verif.Solar
open Verif.Calendar

/-! ### C75: the solar table -/

/-- **C75.** A simulation of any length starts on any day (Gregorian calendar, not 21 December) and misses no day; time steps may be
shorter than a day.  On every day the value used is the linear interpolation between the table entries before and after that day of
the solar year, leap days included. -/
theorem C75_interpolation (tab : Nat → Rat) {d : Date} {ds : List Date} (h : Valid d) (hy : 1582 < d.year)
    (hd : ¬ (d.month = 12 ∧ d.day = 21)) (hds : Daily d ds) :
    ∃ s j, runs tab d ds = some s ∧ julian .solar ((d :: ds).getLast (by simp)) = some j ∧
      OnTable tab (leapDay ((d :: ds).getLast (by simp))) j s.drad := by
  obtain ⟨s, j, h1, h2, h3⟩ := runs_inv h hy (first_inv (tab := tab) h hy hd) hds
  exact ⟨s, j, h1, h2, h3.2.1⟩

/-- **C75.** The value of a day does not depend on when the simulation started. -/
theorem C75_start (tab : Nat → Rat) {d d' : Date} {ds ds' : List Date} (h : Valid d) (hy : 1582 < d.year)
    (hd : ¬ (d.month = 12 ∧ d.day = 21)) (hds : Daily d ds) (h' : Valid d') (hy' : 1582 < d'.year)
    (hd' : ¬ (d'.month = 12 ∧ d'.day = 21)) (hds' : Daily d' ds') (hlast : (d :: ds).getLast (by simp) = (d' :: ds').getLast (by simp)) :
    ∃ s s', runs tab d ds = some s ∧ runs tab d' ds' = some s' ∧ s.drad = s'.drad := by
  obtain ⟨s, j, h1, h2, h3⟩ := C75_interpolation tab h hy hd hds
  obtain ⟨s', j', h1', h2', h3'⟩ := C75_interpolation tab h' hy' hd' hds'
  refine ⟨s, s', h1, h1', ?_⟩
  rw [hlast] at h2 h3
  rw [h2] at h2'
  cases h2'
  exact onTable_unique (leapDay_cases _) h3 h3'

/-- **C75.** The value never leaves the range of the table entries. -/
theorem C75_range (tab : Nat → Rat) {d : Date} {ds : List Date} (h : Valid d) (hy : 1582 < d.year)
    (hd : ¬ (d.month = 12 ∧ d.day = 21)) (hds : Daily d ds) {lo hi : Rat} (ht : ∀ i, lo ≤ tab i ∧ tab i ≤ hi) :
    ∃ s, runs tab d ds = some s ∧ lo ≤ s.drad ∧ s.drad ≤ hi := by
  obtain ⟨s, j, h1, h2, a, c, b, e, h3, h4, h5, h6⟩ := C75_interpolation tab h hy hd hds
  refine ⟨s, h1, ?_⟩
  have hab := infix_lt (leapDay_cases _) h3
  have hw : (0 : Rat) < ((b - a : Int) : Rat) := by exact_mod_cast (by omega : (0 : Int) < b - a)
  have h0 : (0 : Rat) ≤ ((j - a : Int) : Rat) / ((b - a : Int) : Rat) :=
    div_nonneg (by exact_mod_cast (by omega : (0 : Int) ≤ j - a)) hw.le
  have h1' : ((j - a : Int) : Rat) / ((b - a : Int) : Rat) ≤ 1 := by
    rw [div_le_one hw]; exact_mod_cast (by omega : j - a ≤ b - a)
  rw [h6]
  generalize ((j - a : Int) : Rat) / ((b - a : Int) : Rat) = r at h0 h1'
  obtain ⟨p1, p2⟩ := ht c
  obtain ⟨q1, q2⟩ := ht e
  constructor <;> nlinarith

/-- Two years and a half from 1 March 1999. -/
example : Valid ⟨1999, 3, 1⟩ ∧ ¬ ((3 : Int) = 12 ∧ (1 : Int) = 21) ∧
    Daily ⟨1999, 3, 1⟩ ((List.range 900).map fun i => next^[i + 1] ⟨1999, 3, 1⟩) := by
  refine ⟨by decide, by decide, ?_⟩
  have key : ∀ n (d : Date), Daily d ((List.range n).map fun i => next^[i + 1] d) := by
    intro n
    induction n with
    | zero => intro d; trivial
    | succ n ih =>
      intro d
      rw [List.range_succ_eq_map, List.map_cons, List.map_map]
      exact ⟨.inr rfl, ih (next d)⟩
  exact key _ _

/-- 26 January 2000: three days after the entry of day 23, of 15. -/
example : (runs (fun i => i) ⟨2000, 1, 1⟩ ((List.range 25).map fun i => next^[i + 1] ⟨2000, 1, 1⟩)).map (·.drad) = some 26 := by
  decide +kernel

/-! ### C76: other starts, missing days -/

/-- **C76 (part).** Starting on 21 December, the first day is right. -/
theorem C76_first_day_partial (tab : Nat → Rat) {y : Int} (hy : 1582 < y) :
    ∃ s j, runs tab ⟨y, 12, 21⟩ [] = some s ∧ julian .solar ⟨y, 12, 21⟩ = some j ∧ OnTable tab (leapDay ⟨y, 12, 21⟩) j s.drad := by
  obtain ⟨s, h1, h2, -⟩ := dec21_first tab hy
  obtain ⟨j, hj, -, -, h3, -⟩ := solar_day (valid_dec21 (y := y) (by omega)) hy
  have hj' := h3 ⟨rfl, rfl⟩
  refine ⟨s, j, h1, hj, onTable_of 23 (by omega) ?_ ?_ ?_⟩
  · rw [hj']; show 347 + _ ≤ 365 + _; omega
  · rw [hj']; show _ ≤ 365 + _; omega
  · have e1 : node (leapDay ⟨y, 12, 21⟩) 23 = 347 + leapDay ⟨y, 12, 21⟩ := rfl
    have e2 : node (leapDay ⟨y, 12, 21⟩) (23 + 1) = 365 + leapDay ⟨y, 12, 21⟩ := rfl
    have e3 : (365 + leapDay ⟨y, 12, 21⟩ - (347 + leapDay ⟨y, 12, 21⟩) : Int) = 18 := by omega
    rw [h2, hj', e1, e2, e3]
    show _ = tab 10 + _ * (tab 356 - tab 10)
    norm_num

/-- **C76 violated.** A simulation that starts on 21 December extrapolates the last stretch of the table during the following year:
after `n` days the weight of the last entry is `(18 + n) / 18`, more than 21 at the end. -/
theorem C76_december_violated (tab : Nat → Rat) {y : Int} (hy : 1582 < y) {n : Nat} (hn : n ≤ 364) :
    ∃ s, runs tab ⟨y, 12, 21⟩ ((List.range n).map fun i => next^[i + 1] ⟨y, 12, 21⟩) = some s ∧
      s.drad = tab 10 + ((18 + n : Nat) : Rat) / 18 * (tab 356 - tab 10) := by
  obtain ⟨s, h1, h2, h3, h4, h5, h6, h7⟩ := dec21_first tab hy
  have hv := valid_dec21 (y := y) (by omega)
  have hdrift := drift (tab := tab) (s := s) hv hy h3 n (fun i hi1 hi2 => by
    rw [solar_after hy (by omega), h4]
    intro hc
    have := Option.some.inj hc
    have := leapDay_cases ⟨y, 12, 21⟩
    omega)
  obtain ⟨s', h8, h9⟩ := hdrift
  refine ⟨s', ?_, ?_⟩
  · unfold runs at h1 ⊢
    rw [List.foldl_nil] at h1
    rw [h1]; exact h8
  · cases n with
    | zero =>
      rw [h9.2 rfl, h2]; norm_num
    | succ n =>
      rw [h9.1 (by omega), h5, h6, h7.1, h7.2]
      push_cast
      congr 2
      ring

/-- Radiation that falls from 190 to 180 in the last 18 days of the solar year is negative in the following summer. -/
example : ∃ s, runs (fun i => if i = 10 then 190 else 180) ⟨1999, 12, 21⟩
    ((List.range 330).map fun i => next^[i + 1] ⟨1999, 12, 21⟩) = some s ∧ s.drad < 0 := by
  obtain ⟨s, h1, h2⟩ := C76_december_violated (fun i => if i = 10 then 190 else 180) (y := 1999) (by decide) (n := 330) (by decide)
  refine ⟨s, h1, ?_⟩
  rw [h2]; norm_num

/-- **C76 violated.** If the record of 10 January is missing, the first stretch of the table is extrapolated for the rest of the
year. -/
theorem C76_gap_violated (tab : Nat → Rat) {y : Int} (hy : 1582 < y) {n : Nat} (hn : n ≤ 300) :
    ∃ s, runs tab ⟨y, 1, 9⟩ (⟨y, 1, 11⟩ :: (List.range n).map fun i => next^[i + 1] ⟨y, 1, 11⟩) = some s ∧
      s.drad = tab 356 + ((19 + n : Nat) : Rat) / 19 * (tab 10 - tab 356) := by
  have hv : Valid ⟨y, 1, 9⟩ := by refine ⟨by show 1 ≤ y; omega, ?_⟩; simp [monthLength]
  have hv' : Valid ⟨y, 1, 11⟩ := by refine ⟨by show 1 ≤ y; omega, ?_⟩; simp [monthLength]
  obtain ⟨s, j, h1, h2, h3⟩ := first_inv (tab := tab) hv hy (by simp)
  have hj9 : julian .solar ⟨y, 1, 9⟩ = some 19 := by
    have := solar_january hy (k := 8) (by omega)
    exact this
  rw [hj9] at h2; cases h2
  obtain ⟨i1, i2, i3, i4⟩ := h3
  have hl := leapDay_cases ⟨y, 1, 9⟩
  rcases i4 with ⟨i4, -⟩ | ⟨k, hk, ilsv, -, inper, ik, ij, isper, icnt, ipsv, issv⟩
  · omega
  have hk0 : k = 0 := by
    by_contra hne
    have : node (leapDay ⟨y, 1, 9⟩) k ≥ 20 := by
      rcases hl with h | h <;> rw [h] <;> interval_cases k <;> first | omega | decide
    omega
  subst hk0
  have hn20 : s.nper = 20 := by rw [inper]; rfl
  have hnode : node (leapDay ⟨y, 1, 9⟩) 0 = 1 := rfl
  rw [hnode] at isper icnt
  rw [hn20] at isper
  -- the step of 11 January
  have hj11 : julian .solar ⟨y, 1, 11⟩ = some 21 := solar_january hy (k := 10) (by omega)
  have hstep : csolrun tab false ⟨y, 1, 11⟩ s = some (interp { s with lday := 11 }) := by
    unfold csolrun
    rw [if_neg (by rw [i1]; simp), hj11]
    simp [hn20]
  obtain ⟨s', h8, h9⟩ := drift (tab := tab) (s := interp { s with lday := 11 }) hv' hy rfl n (fun i hi1 hi2 => by
    have h12 : julian .solar (next^[i] ⟨y, 1, 11⟩) = some (11 + (10 : Nat) + i) :=
      solar_january_after hy (k := 10) (by omega) (by omega)
    rw [h12]
    show some _ ≠ some s.nper
    rw [hn20]
    intro hc
    have := Option.some.inj hc
    omega)
  have e1 : s.psv = tab 356 := ipsv
  have e2 : s.ssv = tab 10 - tab 356 := issv
  refine ⟨s', ?_, ?_⟩
  · unfold runs
    rw [List.foldl_cons, h1, Option.bind_some, hstep]; exact h8
  · cases n with
    | zero =>
      rw [h9.2 rfl]
      simp only [interp, icnt, isper, e1, e2]
      norm_num
    | succ n =>
      rw [h9.1 (by omega)]
      simp only [interp, icnt, isper, e1, e2]
      push_cast
      congr 2
      ring

example : ∃ s, runs (fun i => if i = 10 then 190 else 180) ⟨2001, 1, 9⟩
    (⟨2001, 1, 11⟩ :: (List.range 171).map fun i => next^[i + 1] ⟨2001, 1, 11⟩) = some s ∧ s.drad = 280 := by
  obtain ⟨s, h1, h2⟩ := C76_gap_violated (fun i => if i = 10 then 190 else 180) (y := 2001) (by decide) (n := 171) (by decide)
  refine ⟨s, h1, ?_⟩
  rw [h2]; norm_num

/-! ### C77, C78: radiation received -/

/-- **C77.** Without a usable measurement the radiation is estimated, and it is between zero and the largest admitted fraction of the
potential radiation, times the factor for wet days; cloud cover is between 0 and 1.  `pow` is the power function of the library. -/
theorem C77_estimate {pow : Rat → Rat → Rat} (hpow : ∀ b e, 0 ≤ b → b ≤ 1 → 0 ≤ pow b e ∧ pow b e ≤ 1) {p : Sky}
    (hc : 0 ≤ p.coef ∧ p.coef ≤ 1) (hr : 0 ≤ p.radmax) (hw : 0 ≤ p.wppt ∧ p.wppt ≤ 1) (hs : 0 ≤ p.sppt ∧ p.sppt ≤ 1)
    {mo : Int} {ck horad ppt tmax tmin : Rat} (hh : 0 ≤ horad) (hm : ck ≤ 0 ∨ 10000 < ck) :
    0 ≤ ccov p tmax tmin ∧ ccov p tmax tmin ≤ 1 ∧
      0 ≤ orad pow p mo ck horad ppt tmax tmin ∧ orad pow p mo ck horad ppt tmax tmin ≤ p.radmax * horad := by
  have hcc : 0 ≤ ccov p tmax tmin ∧ ccov p tmax tmin ≤ 1 := by
    unfold ccov
    simp only
    generalize p.slope * (tmax - tmin) + p.intcp = c
    have h30 : (0 : Rat) < 1 / 10 ^ 30 := by positivity
    by_cases h : c < 1 / 10 ^ 30
    · simp only [h, if_true]; norm_num
    · simp only [h, if_false]
      split
      · norm_num
      · constructor <;> linarith
  refine ⟨hcc.1, hcc.2, ?_⟩
  have hcond : ck < 1 / 10 ^ 30 ∨ ck > 10000 := by
    rcases hm with h | h
    · left
      have : (0 : Rat) < 1 / 10 ^ 30 := by positivity
      linarith
    · exact .inr h
  unfold orad
  rw [if_pos hcond]
  simp only
  obtain ⟨hp0, hp1⟩ := hpow (1 - ccov p tmax tmin) p.expo (by linarith) (by linarith)
  generalize pow (1 - ccov p tmax tmin) p.expo = q at hp0 hp1
  have hadj : 0 ≤ (if ppt > p.pptlimit then (if 4 < mo ∧ mo < 10 then p.sppt else p.wppt) else 1) ∧
      (if ppt > p.pptlimit then (if 4 < mo ∧ mo < 10 then p.sppt else p.wppt) else 1) ≤ 1 := by
    split
    · split
      · exact hs
      · exact hw
    · norm_num
  generalize (if ppt > p.pptlimit then (if 4 < mo ∧ mo < 10 then p.sppt else p.wppt) else 1) = a at hadj
  have hrad : 0 ≤ (if p.coef + (1 - p.coef) * q > p.radmax then p.radmax else p.coef + (1 - p.coef) * q) ∧
      (if p.coef + (1 - p.coef) * q > p.radmax then p.radmax else p.coef + (1 - p.coef) * q) ≤ p.radmax := by
    split
    · exact ⟨hr, le_rfl⟩
    · refine ⟨?_, by linarith⟩
      have : 0 ≤ (1 - p.coef) * q := mul_nonneg (by linarith [hc.2]) hp0
      linarith [hc.1]
  generalize (if p.coef + (1 - p.coef) * q > p.radmax then p.radmax else p.coef + (1 - p.coef) * q) = r at hrad
  refine ⟨mul_nonneg (mul_nonneg hrad.1 hadj.1) hh, ?_⟩
  apply mul_le_mul_of_nonneg_right _ hh
  calc r * a ≤ r * 1 := mul_le_mul_of_nonneg_left hadj.2 hrad.1
    _ ≤ p.radmax := by linarith [hrad.2]

/-- **C77.** A measurement between 10^-30 and 10000 is used as it is. -/
theorem C77_measured (pow : Rat → Rat → Rat) (p : Sky) (mo : Int) (ck horad ppt tmax tmin : Rat) (h1 : 1 / 10 ^ 30 ≤ ck)
    (h2 : ck ≤ 10000) : orad pow p mo ck horad ppt tmax tmin = ck := by
  unfold orad
  rw [if_neg (by rintro (h | h) <;> linarith)]

/-- The defaults of the parameters meet the hypotheses. -/
example : orad (fun b _ => b) ⟨-13/100, 183/100, 1/2, 44/100, 4/10, 61/100, 8/10, 2/100⟩ 7 (-999) 600 (3/10) 30 15
    = 8/10 * (44/100) * 600 := by decide +kernel

/-- **C78 (part).** If the first unit is horizontal, the radiation of every unit is non-negative, and that of a horizontal unit
is the radiation on the horizontal surface. -/
theorem C78_received_partial {drad horad obs cossl : Rat} (h1 : 0 < horad) (h2 : 0 ≤ drad) (h3 : 0 ≤ obs) (h4 : 0 < cossl) :
    ∃ v, swrad drad horad obs cossl = some v ∧ 0 ≤ v ∧ (drad = horad → cossl = 1 → v = obs) := by
  refine ⟨_, by unfold swrad; rw [if_neg (by rintro (h | h) <;> linarith)], by positivity, ?_⟩
  rintro rfl rfl
  field_simp

/-- **C78 violated.** The radiation of a unit depends on the slope of the first unit: twice the potential radiation of the first unit
halves the radiation of all others. -/
theorem C78_first_unit_violated {drad horad obs cossl v : Rat} (h1 : 0 < horad) (h4 : 0 < cossl)
    (hv : swrad drad horad obs cossl = some v) : swrad drad (2 * horad) obs cossl = some (v / 2) := by
  unfold swrad at hv ⊢
  rw [if_neg (by rintro (h | h) <;> linarith)] at hv ⊢
  cases hv
  congr 1
  field_simp

/-- **C78 violated.** Where the sun does not rise on the first unit, the radiation of every unit is undefined. -/
theorem C78_polar_violated (drad obs cossl : Rat) : swrad drad 0 obs cossl = none := by
  unfold swrad; rw [if_pos (.inl rfl)]

example : swrad 300 600 400 (4/5) = some 250 := by decide +kernel

end Verif.Solar
