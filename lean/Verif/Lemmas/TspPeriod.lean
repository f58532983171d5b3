import Verif.Spec.TspPeriod
import Verif.Lemmas.TspDate
import Verif.Props.TspDate
import Mathlib.Tactic.Linarith
import Mathlib.Algebra.Order.Field.Rat
import Mathlib.Algebra.BigOperators.Group.List.Lemmas
import Mathlib.Tactic.LinearCombination
import Mathlib.Tactic.FieldSimp
import Mathlib.Data.List.Chain
import Mathlib.Algebra.Order.Ring.Abs
namespace Verif.Tsp

/-! ### The calendar -/

/-- What does not decrease from one day to the next does not decrease. -/
theorem date_mono (F : Day → Int) (hF : ∀ d, Valid d → F d ≤ F (next d)) {a b : Int} (ha : 38 ≤ a) (hab : a ≤ b) :
    F (gregorianDate a 0) ≤ F (gregorianDate b 0) := by
  obtain ⟨hv, hj⟩ := C124_onto a ha
  have : gregorianDate b 0 = next^[(b - a).toNat] (gregorianDate a 0) := by
    rw [← C124_newdate _ hv]
    unfold newdate
    rw [hj]
    congr 1
    omega
  rw [this]
  generalize (b - a).toNat = n
  induction n with
  | zero => exact le_rfl
  | succ n ih =>
    rw [Function.iterate_succ_apply']
    exact ih.trans (hF _ (jd_step n hv).1)

/-- A year does not decrease from one day to the next. -/
theorem year_next (d : Day) (h : Valid d) : d.year ≤ (next d).year := by
  unfold next
  split
  · simp
  · split
    · simp
    · simp only; omega

theorem month_next (d : Day) (h : Valid d) : 12 * d.year + d.month ≤ 12 * (next d).year + (next d).month := by
  obtain ⟨-, ⟨h1, h2⟩, -⟩ := h
  unfold next
  split
  · simp
  · split <;> simp only <;> omega

theorem hydro_next (yt : YearType) (d : Day) (h : Valid d) :
    (if d.month ≤ lastMonth yt then d.year else d.year + 1) ≤ (if (next d).month ≤ lastMonth yt then (next d).year else (next d).year + 1) := by
  obtain ⟨-, ⟨h1, h2⟩, -⟩ := h
  have : 1 ≤ lastMonth yt := by cases yt <;> simp [lastMonth]
  have hn : ((next d).year = d.year ∧ d.month ≤ (next d).month) ∨ ((next d).year = d.year + 1 ∧ (next d).month = 1) := by
    unfold next
    by_cases c1 : d.day < monthDays d.year d.month
    · rw [if_pos c1]; left; simp
    · rw [if_neg c1]
      by_cases c2 : d.month < 12
      · rw [if_pos c2]; left; simp
      · rw [if_neg c2]; right; simp
  split <;> split <;> omega

theorem periodNo_mono (u : PUnit) (hu : u ≠ .monthOne) (yt : YearType) {a b : Int} (ha : 38 ≤ a) (hab : a ≤ b) :
    periodNo u yt a ≤ periodNo u yt b := by
  cases u with
  | year => exact date_mono (fun d => if d.month ≤ lastMonth yt then d.year else d.year + 1) (hydro_next yt) ha hab
  | monthMany => exact date_mono (fun d => 12 * d.year + d.month) month_next ha hab
  | monthOne => exact absurd rfl hu
  | daily => exact hab

theorem year_pos {n : Int} (h : firstDay ≤ n) : 1 ≤ (gregorianDate n 0).year := by
  have := date_mono Day.year year_next (a := firstDay) (b := n) (by decide) h
  have e : (gregorianDate firstDay 0).year = 1 := by decide
  omega

/-- The number of the day before and after. -/
theorem day_after {d e : Day} (hd : Valid d) (he : next d = e) : julianDay e 0 - 1 = julianDay d 0 ∧ julianDay d 0 + 1 = julianDay e 0 := by
  have := (C124_consecutive d hd).2 0
  rw [he] at this
  omega

theorem yearOf_eq (yt : YearType) (d : Day) (h : Valid d) : yearOf yt d = if d.month ≤ lastMonth yt then d.year else d.year + 1 := by
  obtain ⟨-, ⟨h1, h2⟩, -⟩ := h
  cases yt <;> simp only [yearOf, lastMonth] <;> split_ifs <;> omega

theorem year_label (yt : YearType) (ab : Abscissa) (hc : ¬ (yt = .waterLow ∧ ab = .centre)) (n : Int) (hn : firstDay ≤ n) :
    IsLabel .year yt ab (periodNo .year yt n) (periodLabel .year yt ab (gregorianDate n 0)) := by
  have hy := year_pos hn
  obtain ⟨hv, -⟩ := C124_onto n (le_trans (by decide) hn)
  have hp : periodNo .year yt n = yearOf yt (gregorianDate n 0) := (yearOf_eq yt _ hv).symm
  have hw : 1 ≤ yearOf yt (gregorianDate n 0) := by
    rw [yearOf_eq yt _ hv]
    split <;> omega
  rw [hp]
  unfold periodLabel
  simp only
  generalize yearOf yt (gregorianDate n 0) = w at hw ⊢
  have hmd : ∀ y m : Int, 28 ≤ monthDays y m := by intro y m; unfold monthDays; split_ifs <;> omega
  have val : ∀ (y m k : Int), 0 ≤ y → 1 ≤ m ∧ m ≤ 12 → 1 ≤ k ∧ k ≤ monthDays y m → Valid ⟨y, m, k⟩ :=
    fun y m k h1 h2 h3 => ⟨by simp only; omega, h2, h3⟩
  have one : ∀ (y m : Int), 0 ≤ y → 1 ≤ m ∧ m ≤ 12 → Valid ⟨y, m, 1⟩ := fun y m h1 h2 => val y m 1 h1 h2 ⟨by omega, by have := hmd y m; omega⟩
  have v930 : ∀ y : Int, 0 ≤ y → Valid ⟨y, 9, 30⟩ := fun y h => val y 9 30 h (by omega) (by simp [monthDays])
  have v331 : ∀ y : Int, 0 ≤ y → Valid ⟨y, 3, 31⟩ := fun y h => val y 3 31 h (by omega) (by simp [monthDays])
  have v1231 : ∀ y : Int, 0 ≤ y → Valid ⟨y, 12, 31⟩ := fun y h => val y 12 31 h (by omega) (by simp [monthDays])
  have n930 : ∀ y : Int, next ⟨y, 9, 30⟩ = ⟨y, 10, 1⟩ := fun y => by simp [next, monthDays]
  have n331 : ∀ y : Int, next ⟨y, 3, 31⟩ = ⟨y, 4, 1⟩ := fun y => by simp [next, monthDays]
  have n1231 : ∀ y : Int, next ⟨y, 12, 31⟩ = ⟨y + 1, 1, 1⟩ := fun y => by simp [next, monthDays]
  cases ab <;> cases yt <;> simp only [IsLabel, periodNo, lastMonth, middleMonth]
  · rw [gregorianDate_julianDay (one _ _ (by omega) (by omega)), (day_after (v930 (w - 1) (by omega)) (n930 _)).1,
      gregorianDate_julianDay (v930 _ (by omega))]
    simp
  · rw [gregorianDate_julianDay (one _ _ (by omega) (by omega)), (day_after (v331 (w - 1) (by omega)) (n331 _)).1,
      gregorianDate_julianDay (v331 _ (by omega))]
    simp
  · have h1 := n1231 (w - 1)
    rw [sub_add_cancel] at h1
    rw [gregorianDate_julianDay (one _ _ (by omega) (by omega)), (day_after (v1231 (w - 1) (by omega)) h1).1,
      gregorianDate_julianDay (v1231 _ (by omega))]
    simp
  · rw [gregorianDate_julianDay (one _ _ (by omega) (by omega))]
    simp
  · exact absurd ⟨rfl, rfl⟩ hc
  · rw [gregorianDate_julianDay (one _ _ (by omega) (by omega))]
    simp
  · rw [gregorianDate_julianDay (v930 _ (by omega)), (day_after (v930 w (by omega)) (n930 _)).2,
      gregorianDate_julianDay (one _ _ (by omega) (by omega))]
    simp
  · rw [gregorianDate_julianDay (v331 _ (by omega)), (day_after (v331 w (by omega)) (n331 _)).2,
      gregorianDate_julianDay (one _ _ (by omega) (by omega))]
    simp
  · rw [gregorianDate_julianDay (v1231 _ (by omega)), (day_after (v1231 w (by omega)) (n1231 _)).2,
      gregorianDate_julianDay (one _ _ (by omega) (by omega))]
    simp

theorem days_of_month (y m : Int) (hm : 1 ≤ m ∧ m ≤ 12) (hy : y ≠ 0) :
    daysOfMonth m + (if m = 2 ∧ leap y then 1 else 0) = monthDays y m := by
  have hl := leap_iff y
  unfold monthDays
  by_cases h : IsLeap y
  · rw [if_pos h, hl.2 ⟨h, hy⟩]
    rcases month_cases hm with rfl | rfl | rfl | rfl | rfl | rfl | rfl | rfl | rfl | rfl | rfl | rfl <;> rfl
  · have hb : leap y = false := by
      cases hb : leap y with
      | false => rfl
      | true => exact absurd (hl.1 hb).1 h
    rw [if_neg h, hb]
    rcases month_cases hm with rfl | rfl | rfl | rfl | rfl | rfl | rfl | rfl | rfl | rfl | rfl | rfl <;> rfl

theorem month_label (yt : YearType) (ab : Abscissa) (n : Int) (hn : firstDay ≤ n) :
    IsLabel .monthMany yt ab (periodNo .monthMany yt n) (periodLabel .monthMany yt ab (gregorianDate n 0)) := by
  have hy := year_pos hn
  obtain ⟨hv, -⟩ := C124_onto n (le_trans (by decide) hn)
  obtain ⟨-, hm, hk⟩ := hv
  simp only [periodLabel, IsLabel, periodNo]
  generalize (gregorianDate n 0).year = y at *
  generalize (gregorianDate n 0).month = m at *
  have hmd : ∀ y m : Int, 28 ≤ monthDays y m := by intro y m; unfold monthDays; split_ifs <;> omega
  have val : ∀ (y m k : Int), 0 ≤ y → 1 ≤ m ∧ m ≤ 12 → 1 ≤ k ∧ k ≤ monthDays y m → Valid ⟨y, m, k⟩ :=
    fun y m k h1 h2 h3 => ⟨by simp only; omega, h2, h3⟩
  cases ab <;> simp only
  · rw [gregorianDate_julianDay (val y m 1 (by omega) hm ⟨by omega, by have := hmd y m; omega⟩)]
    refine ⟨rfl, trivial, ?_⟩
    rcases eq_or_ne m 1 with rfl | h
    · have h1 : next ⟨y - 1, 12, 31⟩ = ⟨y, 1, 1⟩ := by simp [next, monthDays]
      have hv1 : Valid ⟨y - 1, 12, 31⟩ := val _ _ _ (by omega) (by omega) (by simp [monthDays])
      rw [(day_after hv1 h1).1, gregorianDate_julianDay hv1]
      simp only; omega
    · have h1 : next ⟨y, m - 1, monthDays y (m - 1)⟩ = ⟨y, m, 1⟩ := by
        unfold next
        rw [if_neg (by simp), if_pos (by simp only; omega)]
        simp
      have hv1 : Valid ⟨y, m - 1, monthDays y (m - 1)⟩ := val _ _ _ (by omega) (by omega) ⟨by have := hmd y (m - 1); omega, le_rfl⟩
      rw [(day_after hv1 h1).1, gregorianDate_julianDay hv1]
      simp only; omega
  · rw [gregorianDate_julianDay (val y m 15 (by omega) hm ⟨by omega, by have := hmd y m; omega⟩)]
    exact ⟨rfl, trivial, rfl⟩
  · rw [days_of_month y m hm (by omega)]
    have hv1 : Valid ⟨y, m, monthDays y m⟩ := val _ _ _ (by omega) hm ⟨by have := hmd y m; omega, le_rfl⟩
    rw [gregorianDate_julianDay hv1]
    refine ⟨rfl, trivial, ?_⟩
    rw [← (C124_consecutive _ hv1).2 0, gregorianDate_julianDay (next_valid hv1)]
    unfold next
    rw [if_neg (by simp)]
    split <;> simp only <;> omega

theorem daily_label (yt : YearType) (ab : Abscissa) (n : Int) (hn : firstDay ≤ n) :
    IsLabel .daily yt ab (periodNo .daily yt n) (periodLabel .daily yt ab (gregorianDate n 0)) := by
  obtain ⟨hv, hj⟩ := C124_onto n (le_trans (by decide) hn)
  simp only [periodLabel, IsLabel, periodNo, hj]
  trivial

/-! ### The loops -/

/-- The transformed values of terms. -/
def vals (g : Rat → Option Rat) (l : List Term) : Option (List Rat) := l.mapM fun t => g t.val

theorem vals_cons {g : Rat → Option Rat} {t : Term} {l : List Term} {r : Rat} {v : List Rat} (h1 : g t.val = some r) (h2 : vals g l = some v) :
    vals g (t :: l) = some (r :: v) := by
  unfold vals at *
  rw [List.mapM_cons, h1, h2]
  rfl

theorem add_n (a : Acc) (l : List Rat) : a.n ≤ (l.foldl Acc.add a).n := by
  induction l generalizing a with
  | nil => exact le_rfl
  | cons x l ih => exact le_trans (by simp [Acc.add]) (ih _)

/-- What a period with given terms is told by: date and counts. -/
def Told (g : Rat → Option Rat) (mk : Day → Acc → Clock × Option Rat) (l : List Term) (o : Clock × Option Rat) : Prop :=
  ∃ t ts r v, l = t :: ts ∧ g t.val = some r ∧ vals g ts = some v ∧
    o = mk (gregorianDate t.at_.days 0) (v.foldl Acc.add (Acc.restart r t.val))

theorem loop_spec {g : Rat → Option Rat} {key : Day → Int} {mk : Day → Acc → Clock × Option Rat} {no : Int → Int} :
    ∀ (ts : List Term) (c : Day) (a : Acc) (prev : Term) (out : List (Clock × Option Rat)), 0 < a.n →
    key (gregorianDate prev.at_.days 0) = key c →
    (prev :: ts).IsChain (fun p q => key (gregorianDate p.at_.days 0) = key (gregorianDate q.at_.days 0) ↔ no p.at_.days = no q.at_.days) →
    (prev :: ts).Pairwise (fun p q => no p.at_.days ≤ no q.at_.days) → periodLoop g key mk c a ts = some out →
    ∃ (g0 : List Term) (gs : List (List Term)) (v0 : List Rat) (os : List (Clock × Option Rat)), ts = g0 ++ gs.flatten ∧
      (∀ t ∈ g0, no t.at_.days = no prev.at_.days) ∧ (∀ l ∈ gs, ∀ t ∈ l, no prev.at_.days < no t.at_.days) ∧
      gs.Pairwise (fun l m => ∀ p ∈ l, ∀ q ∈ m, no p.at_.days < no q.at_.days) ∧
      (∀ l ∈ gs, ∀ p ∈ l, ∀ q ∈ l, no p.at_.days = no q.at_.days) ∧
      vals g g0 = some v0 ∧ out = mk c (v0.foldl Acc.add a) :: os ∧ List.Forall₂ (Told g mk) gs os
  | [], c, a, prev, out, ha, _, _, _, h => by
    rw [periodLoop, if_pos ha] at h
    exact ⟨[], [], [], [], rfl, by simp, by simp, .nil, by simp, rfl, (Option.some.inj h).symm, .nil⟩
  | t :: ts, c, a, prev, out, ha, hk, hc, hp, h => by
    rw [periodLoop] at h
    obtain ⟨r, hr, h⟩ := Option.bind_eq_some_iff.mp h
    rw [List.isChain_cons_cons] at hc
    have hp' := (List.pairwise_cons.mp hp).2
    have hle := (List.pairwise_cons.mp hp).1
    split at h
    · rename_i hkey
      have hno : no prev.at_.days = no t.at_.days := hc.1.mp (hk.trans hkey.symm)
      obtain ⟨g0, gs, v0, os, e1, e2, e3, e4, e5, e6, e7, e8⟩ :=
        loop_spec ts c (a.add r) t out (by simp [Acc.add]) hkey hc.2 hp' h
      refine ⟨t :: g0, gs, r :: v0, os, by rw [e1]; rfl, ?_, by rw [hno]; exact e3, e4, e5, vals_cons hr e6, e7, e8⟩
      intro x hx
      rcases List.mem_cons.mp hx with rfl | hx
      · exact hno.symm
      · rw [e2 x hx, hno]
    · rename_i hkey
      obtain ⟨out', ho, rfl⟩ := Option.map_eq_some_iff.mp h
      have hlt : no prev.at_.days < no t.at_.days :=
        lt_of_le_of_ne (hle t (by simp)) fun he => hkey ((hc.1.mpr he).symm.trans hk)
      obtain ⟨g0, gs, v0, os, e1, e2, e3, e4, e5, e6, e7, e8⟩ :=
        loop_spec ts (gregorianDate t.at_.days 0) (Acc.restart r t.val) t out' (by simp [Acc.restart]) rfl hc.2 hp' ho
      refine ⟨[], (t :: g0) :: gs, [], out', by rw [e1]; rfl, by simp, ?_, ?_, ?_, rfl, by simp, ?_⟩
      · intro l hl x hx
        rcases List.mem_cons.mp hl with rfl | hl
        · rcases List.mem_cons.mp hx with rfl | hx
          · exact hlt
          · rw [e2 x hx]; exact hlt
        · exact hlt.trans (e3 l hl x hx)
      · refine List.pairwise_cons.mpr ⟨fun l hl p hp q hq => ?_, e4⟩
        rcases List.mem_cons.mp hp with rfl | hp
        · exact e3 l hl q hq
        · rw [e2 p hp]; exact e3 l hl q hq
      · intro l hl
        rcases List.mem_cons.mp hl with rfl | hl
        · have : ∀ x ∈ t :: g0, no x.at_.days = no t.at_.days := by
            intro x hx
            rcases List.mem_cons.mp hx with rfl | hx
            · rfl
            · exact e2 x hx
          intro p hp q hq
          rw [this p hp, this q hq]
        · exact e5 l hl
      · rw [e7]
        exact .cons ⟨t, g0, r, v0, rfl, hr, e6, rfl⟩ e8

theorem loop_some {g : Rat → Option Rat} {key : Day → Int} {mk : Day → Acc → Clock × Option Rat} :
    ∀ (ts : List Term) (c : Day) (a : Acc), (∃ out, periodLoop g key mk c a ts = some out) ↔ ∀ t ∈ ts, ∃ r, g t.val = some r
  | [], c, a => by simp [periodLoop]
  | t :: ts, c, a => by
    rw [List.forall_mem_cons, periodLoop]
    cases hr : g t.val with
    | none => simp
    | some r =>
      rw [Option.bind_some]
      split
      · rw [loop_some ts]; simp
      · rw [← loop_some (g := g) (key := key) (mk := mk) ts (gregorianDate t.at_.days 0) (Acc.restart r t.val)]
        simp only [Option.map_eq_some_iff, Option.some.injEq, exists_eq', true_and]
        exact ⟨fun ⟨_, o, h, _⟩ => ⟨o, h⟩, fun ⟨o, h⟩ => ⟨_, o, h, rfl⟩⟩

/-! ### Counts -/

/-- Number, sum and sum of squares of values. -/
theorem fold_sums (l : List Rat) (a : Acc) :
    (l.foldl Acc.add a).n = a.n + l.length ∧ (l.foldl Acc.add a).sum = a.sum + l.sum ∧
    (l.foldl Acc.add a).sum2 = a.sum2 + (l.map fun x => x * x).sum := by
  induction l generalizing a with
  | nil => simp
  | cons x l ih =>
    obtain ⟨h1, h2, h3⟩ := ih (a.add x)
    rw [List.foldl_cons, h1, h2, h3, List.length_cons, List.sum_cons, List.map_cons, List.sum_cons]
    simp only [Acc.add]
    refine ⟨by omega, by ring, by ring⟩

theorem fold_max (l : List Rat) (a : Acc) : a.max ≤ (l.foldl Acc.add a).max ∧ (∀ x ∈ l, x ≤ (l.foldl Acc.add a).max) ∧
    ((l.foldl Acc.add a).max = a.max ∨ (l.foldl Acc.add a).max ∈ l) := by
  induction l generalizing a with
  | nil => simp
  | cons x l ih =>
    obtain ⟨h1, h2, h3⟩ := ih (a.add x)
    rw [List.foldl_cons]
    have e : a.max ≤ (a.add x).max ∧ x ≤ (a.add x).max ∧ ((a.add x).max = a.max ∨ (a.add x).max = x) := by
      simp only [Acc.add]
      split
      · exact ⟨by linarith, le_rfl, Or.inr rfl⟩
      · exact ⟨le_rfl, by linarith, Or.inl rfl⟩
    refine ⟨e.1.trans h1, ?_, ?_⟩
    · intro y hy
      rcases List.mem_cons.mp hy with rfl | hy
      · exact e.2.1.trans h1
      · exact h2 y hy
    · rcases h3 with h3 | h3
      · rcases e.2.2 with h | h
        · left; rw [h3, h]
        · right; rw [h3, h]; simp
      · right; simp [h3]

theorem fold_min (l : List Rat) (a : Acc) : (l.foldl Acc.add a).min ≤ a.min ∧ (∀ x ∈ l, (l.foldl Acc.add a).min ≤ x) ∧
    ((l.foldl Acc.add a).min = a.min ∨ (l.foldl Acc.add a).min ∈ l) := by
  induction l generalizing a with
  | nil => simp
  | cons x l ih =>
    obtain ⟨h1, h2, h3⟩ := ih (a.add x)
    rw [List.foldl_cons]
    have e : (a.add x).min ≤ a.min ∧ (a.add x).min ≤ x ∧ ((a.add x).min = a.min ∨ (a.add x).min = x) := by
      simp only [Acc.add]
      split
      · exact ⟨by linarith, le_rfl, Or.inr rfl⟩
      · exact ⟨le_rfl, by linarith, Or.inl rfl⟩
    refine ⟨h1.trans e.1, ?_, ?_⟩
    · intro y hy
      rcases List.mem_cons.mp hy with rfl | hy
      · exact h1.trans e.2.1
      · exact h2 y hy
    · rcases h3 with h3 | h3
      · rcases e.2.2 with h | h
        · left; rw [h3, h]
        · right; rw [h3, h]; simp
      · right; simp [h3]

theorem sum_sq (l : List Rat) (m : Rat) : (l.map fun x => (x - m) ^ 2).sum = (l.map fun x => x * x).sum - 2 * m * l.sum + l.length * m ^ 2 := by
  induction l with
  | nil => simp
  | cons x l ih =>
    rw [List.map_cons, List.sum_cons, ih, List.map_cons, List.sum_cons, List.sum_cons, List.length_cons]
    push_cast
    ring

/-- Counts that are those of the values give the statistic. -/
theorem stat_of {sqrt : Rat → Rat} {st : PStat} {a : Acc} {l : List Rat} (hl : l ≠ []) (h1 : a.n = l.length) (h2 : a.sum = l.sum)
    (h3 : a.sum2 = (l.map fun x => x * x).sum)
    (hm : st = .sum ∨ st = .mean ∨ st = .stdDev ∨ (st ≠ .median ∧ (a.max ∈ l ∧ ∀ x ∈ l, x ≤ a.max) ∧ (a.min ∈ l ∧ ∀ x ∈ l, a.min ≤ x))) :
    ∃ v, statValue sqrt st a = some v ∧ IsStat sqrt st l v := by
  cases st with
  | sum => exact ⟨_, rfl, h2⟩
  | mean => exact ⟨_, rfl, by simp only [IsStat]; rw [h2, h1]⟩
  | stdDev =>
    refine ⟨_, rfl, fun h => if_pos (by omega), fun h => ?_⟩
    rw [if_neg (by omega)]
    congr 1
    have hpos : 1 ≤ l.length := List.length_pos_iff.mpr hl
    have hc : ((a.n - 1 : Nat) : Rat) = (l.length : Rat) - 1 := by
      rw [h1]
      rw [Nat.cast_sub hpos, Nat.cast_one]
    have hne : (l.length : Rat) ≠ 0 := by
      have : (0 : Rat) < l.length := by exact_mod_cast hpos
      exact this.ne'
    rw [hc, sum_sq, h1, h2, h3]
    congr 1
    field_simp
    ring
  | maximum =>
    rcases hm with h | h | h | h
    · cases h
    · cases h
    · cases h
    · exact ⟨_, rfl, h.2.1⟩
  | minimum =>
    rcases hm with h | h | h | h
    · cases h
    · cases h
    · cases h
    · exact ⟨_, rfl, h.2.2⟩
  | median =>
    rcases hm with h | h | h | h
    · cases h
    · cases h
    · cases h
    · exact absurd rfl h.1
  | range =>
    rcases hm with h | h | h | h
    · cases h
    · cases h
    · cases h
    · exact ⟨_, rfl, _, h.2.1.1, _, h.2.2.1, fun x hx => ⟨h.2.2.2 x hx, h.2.1.2 x hx⟩, rfl⟩

/-- The first value after the start of a period. -/
theorem restart_stat {sqrt : Rat → Rat} {st : PStat} {r v : Rat} {l : List Rat}
    (hm : st = .sum ∨ st = .mean ∨ st = .stdDev ∨ (st ≠ .median ∧ r = v)) :
    ∃ w, statValue sqrt st (l.foldl Acc.add (Acc.restart r v)) = some w ∧ IsStat sqrt st (r :: l) w := by
  obtain ⟨h1, h2, h3⟩ := fold_sums l (Acc.restart r v)
  refine stat_of (by simp) (by rw [h1]; simp [Acc.restart]; omega) (by rw [h2]; simp [Acc.restart]) (by rw [h3]; simp [Acc.restart]) ?_
  rcases hm with h | h | h | ⟨h, rfl⟩
  · exact Or.inl h
  · exact Or.inr (Or.inl h)
  · exact Or.inr (Or.inr (Or.inl h))
  · refine Or.inr (Or.inr (Or.inr ⟨h, ?_, ?_⟩))
    · obtain ⟨m1, m2, m3⟩ := fold_max l (Acc.restart r r)
      refine ⟨?_, fun x hx => ?_⟩
      · rcases m3 with m3 | m3
        · rw [m3]; simp [Acc.restart]
        · simp [m3]
      · rcases List.mem_cons.mp hx with rfl | hx
        · exact m1
        · exact m2 x hx
    · obtain ⟨m1, m2, m3⟩ := fold_min l (Acc.restart r r)
      refine ⟨?_, fun x hx => ?_⟩
      · rcases m3 with m3 | m3
        · rw [m3]; simp [Acc.restart]
        · simp [m3]
      · rcases List.mem_cons.mp hx with rfl | hx
        · exact m1
        · exact m2 x hx

/-- Counts from the beginning are those after a first value of at most 1e30. -/
theorem empty_add (r : Rat) (h : |r| ≤ 10 ^ 30) : Acc.empty.add r = Acc.restart r r := by
  obtain ⟨h1, h2⟩ := abs_le.mp h
  unfold Acc.empty Acc.add Acc.restart
  simp only [zero_add, Acc.mk.injEq, true_and]
  refine ⟨?_, ?_⟩
  · split
    · rfl
    · linarith
  · split
    · rfl
    · linarith

/-- The same for any first value but greatest and least. -/
theorem empty_stat {sqrt : Rat → Rat} {st : PStat} {r : Rat} {l : List Rat}
    (hm : st = .sum ∨ st = .mean ∨ st = .stdDev ∨ (st ≠ .median ∧ |r| ≤ 10 ^ 30)) :
    ∃ w, statValue sqrt st (l.foldl Acc.add (Acc.empty.add r)) = some w ∧ IsStat sqrt st (r :: l) w := by
  by_cases hb : |r| ≤ 10 ^ 30
  · rw [empty_add r hb]
    refine restart_stat ?_
    rcases hm with h | h | h | h
    · exact Or.inl h
    · exact Or.inr (Or.inl h)
    · exact Or.inr (Or.inr (Or.inl h))
    · exact Or.inr (Or.inr (Or.inr ⟨h.1, rfl⟩))
  · obtain ⟨h1, h2, h3⟩ := fold_sums l (Acc.empty.add r)
    refine stat_of (by simp) (by rw [h1]; simp [Acc.empty, Acc.add]; omega) (by rw [h2]; simp [Acc.empty, Acc.add])
      (by rw [h3]; simp [Acc.empty, Acc.add]) ?_
    rcases hm with h | h | h | h
    · exact Or.inl h
    · exact Or.inr (Or.inl h)
    · exact Or.inr (Or.inr (Or.inl h))
    · exact absurd h.2 hb

/-- Months of all years are dated in 1800. -/
theorem month_one_start (m : Int) (h : 1 ≤ m ∧ m ≤ 12) : (monthLabel .start m).secs = 0 ∧ gregorianDate (monthLabel .start m).days 0 = ⟨1800, m, 1⟩ := by
  rcases month_cases h with rfl | rfl | rfl | rfl | rfl | rfl | rfl | rfl | rfl | rfl | rfl | rfl <;> decide +kernel

theorem month_one_centre (m : Int) (h : 1 ≤ m ∧ m ≤ 12) :
    (monthLabel .centre m).secs = 0 ∧ gregorianDate (monthLabel .centre m).days 0 = ⟨1800, m, 15⟩ := by
  rcases month_cases h with rfl | rfl | rfl | rfl | rfl | rfl | rfl | rfl | rfl | rfl | rfl | rfl <;> decide +kernel

theorem month_one_end (m : Int) (h : 1 ≤ m ∧ m ≤ 12) :
    (monthLabel .end_ m).secs = 0 ∧ gregorianDate (monthLabel .end_ m).days 0 = ⟨1800, m, monthDays 1800 m⟩ := by
  rcases month_cases h with rfl | rfl | rfl | rfl | rfl | rfl | rfl | rfl | rfl | rfl | rfl | rfl <;> decide +kernel

/-! ### Groups -/

theorem forall₂_mem {α β : Type} {R : α → β → Prop} {l : List α} {m : List β} (h : List.Forall₂ R l m) :
    List.Forall₂ (fun a b => a ∈ l ∧ R a b) l m := by
  induction h with
  | nil => exact .nil
  | cons hr _ ih => exact .cons ⟨by simp, hr⟩ (ih.imp fun a b h => ⟨by simp [h.1], h.2⟩)

theorem forall₂_left {α β : Type} {R : α → β → Prop} {l : List α} {m : List β} (h : List.Forall₂ R l m) {a : α} (ha : a ∈ l) :
    ∃ b, b ∈ m ∧ R a b := by
  induction h with
  | nil => simp at ha
  | cons hr _ ih =>
    rcases List.mem_cons.mp ha with rfl | ha
    · exact ⟨_, by simp, hr⟩
    · obtain ⟨b, hb, h⟩ := ih ha
      exact ⟨b, by simp [hb], h⟩

theorem vals_uncons {g : Rat → Option Rat} {t : Term} {l : List Term} {w : List Rat} (h : vals g (t :: l) = some w) :
    ∃ r v, g t.val = some r ∧ vals g l = some v ∧ w = r :: v := by
  unfold vals at *
  rw [List.mapM_cons] at h
  obtain ⟨r, hr, h⟩ := Option.bind_eq_some_iff.mp h
  obtain ⟨v, hv, h⟩ := Option.bind_eq_some_iff.mp h
  exact ⟨r, v, hr, hv, (Option.some.inj h).symm⟩

theorem vals_length {g : Rat → Option Rat} : ∀ {l : List Term} {w : List Rat}, vals g l = some w → w.length = l.length
  | [], w, h => by
    have : w = [] := (Option.some.inj h).symm
    rw [this]; rfl
  | t :: l, w, h => by
    obtain ⟨r, v, -, hv, rfl⟩ := vals_uncons h
    rw [List.length_cons, List.length_cons, vals_length hv]

theorem vals_mem {g : Rat → Option Rat} : ∀ {l : List Term} {w : List Rat}, vals g l = some w → ∀ r ∈ w, ∃ x ∈ l, g x.val = some r
  | [], w, h, r, hr => by
    have : w = [] := (Option.some.inj h).symm
    rw [this] at hr
    simp at hr
  | t :: l, w, h, r, hr => by
    obtain ⟨q, v, hq, hv, rfl⟩ := vals_uncons h
    rcases List.mem_cons.mp hr with rfl | hr
    · exact ⟨t, by simp, hq⟩
    · obtain ⟨x, hx, h⟩ := vals_mem hv r hr
      exact ⟨x, by simp [hx], h⟩

theorem filterMap_forall₂ {α β : Type} {P : α → Prop} [DecidablePred P] {f : α → Option β} {R : α → β → Prop} (l : List α)
    (h1 : ∀ m ∈ l, P m → ∃ b, f m = some b ∧ R m b) (h2 : ∀ m ∈ l, ¬ P m → f m = none) :
    List.Forall₂ R (l.filter fun m => P m) (l.filterMap f) := by
  induction l with
  | nil => exact .nil
  | cons a l ih =>
    have ih := ih (fun m hm => h1 m (by simp [hm])) (fun m hm => h2 m (by simp [hm]))
    by_cases hp : P a
    · obtain ⟨b, hb, hr⟩ := h1 a (by simp) hp
      rw [List.filter_cons_of_pos (by simpa using hp), List.filterMap_cons_some hb]
      exact .cons hr ih
    · rw [List.filter_cons_of_neg (by simpa using hp), List.filterMap_cons_none (h2 a (by simp) hp)]
      exact ih

theorem loop_values {g : Rat → Option Rat} {key : Day → Int} {mk : Day → Acc → Clock × Option Rat} (P : Clock × Option Rat → Prop)
    (hP : ∀ c a, P (mk c a)) : ∀ (ts : List Term) (c : Day) (a : Acc) (out : List (Clock × Option Rat)),
    periodLoop g key mk c a ts = some out → ∀ o ∈ out, P o
  | [], c, a, out, h, o, ho => by
    rw [periodLoop, Option.some.injEq] at h
    rw [← h] at ho
    split at ho
    · rw [List.mem_singleton.mp ho]; exact hP _ _
    · simp at ho
  | t :: ts, c, a, out, h, o, ho => by
    rw [periodLoop] at h
    obtain ⟨r, hr, h⟩ := Option.bind_eq_some_iff.mp h
    split at h
    · exact loop_values P hP ts _ _ out h o ho
    · obtain ⟨out', ho', rfl⟩ := Option.map_eq_some_iff.mp h
      rcases List.mem_append.mp ho with hx | hx
      · split at hx
        · rw [List.mem_singleton.mp hx]; exact hP _ _
        · simp at hx
      · exact loop_values P hP ts _ _ out' ho' o hx

theorem filter_groups (no : Term → Int) : ∀ gs : List (List Term), (∀ l ∈ gs, ∀ p ∈ l, ∀ q ∈ l, no p = no q) →
    gs.Pairwise (fun l m => ∀ p ∈ l, ∀ q ∈ m, no p < no q) → ∀ l ∈ gs, ∀ t ∈ l, gs.flatten.filter (fun x => no x = no t) = l
  | [], _, _, l, hl, _, _ => by simp at hl
  | m :: gs, h1, h2, l, hl, t, ht => by
    obtain ⟨h2a, h2b⟩ := List.pairwise_cons.mp h2
    rw [List.flatten_cons, List.filter_append]
    rcases List.mem_cons.mp hl with rfl | hl'
    · have e1 : l.filter (fun x => no x = no t) = l := by
        rw [List.filter_eq_self]
        intro x hx
        simpa using h1 l (by simp) x hx t ht
      have e2 : gs.flatten.filter (fun x => no x = no t) = [] := by
        rw [List.filter_eq_nil_iff]
        intro x hx
        obtain ⟨k, hk, hx⟩ := List.mem_flatten.mp hx
        have := h2a k hk t ht x hx
        simp only [decide_eq_true_eq]
        omega
      rw [e1, e2, List.append_nil]
    · have e1 : m.filter (fun x => no x = no t) = [] := by
        rw [List.filter_eq_nil_iff]
        intro x hx
        have := h2a l hl' x hx t ht
        simp only [decide_eq_true_eq]
        omega
      rw [e1, List.nil_append]
      exact filter_groups no gs (fun k hk => h1 k (by simp [hk])) h2b l hl' t ht

/-- The number of a group. -/
def headNo (no : Term → Int) : List Term → Int
  | [] => 0
  | t :: _ => no t

/-- Groups give the numbers in order, and the groups are the terms with these numbers. -/
theorem groups_numbers {no : Term → Int} {gs : List (List Term)} {os : List (Clock × Option Rat)} {P : List Term → Clock × Option Rat → Prop}
    (h0 : ∀ l ∈ gs, l ≠ []) (h1 : ∀ l ∈ gs, ∀ p ∈ l, ∀ q ∈ l, no p = no q) (h2 : gs.Pairwise (fun l m => ∀ p ∈ l, ∀ q ∈ m, no p < no q))
    (h : List.Forall₂ P gs os) :
    ∃ ns : List Int, ns.Pairwise (· < ·) ∧ (∀ n, n ∈ ns ↔ ∃ t ∈ gs.flatten, no t = n) ∧
      List.Forall₂ (fun n o => P (gs.flatten.filter (fun x => no x = n)) o) ns os := by
  have hh : ∀ l ∈ gs, ∃ t ∈ l, headNo no l = no t := by
    intro l hl
    cases l with
    | nil => exact absurd rfl (h0 _ hl)
    | cons t l => exact ⟨t, by simp, rfl⟩
  refine ⟨gs.map (headNo no), ?_, ?_, ?_⟩
  · rw [List.pairwise_map]
    refine List.Pairwise.imp_of_mem ?_ h2
    intro l m hl hm hlm
    obtain ⟨t, ht, e⟩ := hh l hl
    obtain ⟨u, hu, e'⟩ := hh m hm
    rw [e, e']
    exact hlm t ht u hu
  · intro n
    simp only [List.mem_map, List.mem_flatten]
    constructor
    · rintro ⟨l, hl, rfl⟩
      obtain ⟨t, ht, e⟩ := hh l hl
      exact ⟨t, ⟨l, hl, ht⟩, e.symm⟩
    · rintro ⟨t, ⟨l, hl, ht⟩, rfl⟩
      obtain ⟨u, hu, e⟩ := hh l hl
      exact ⟨l, hl, by rw [e]; exact h1 l hl u hu t ht⟩
  · rw [List.forall₂_map_left_iff]
    have : List.Forall₂ (fun l o => l ∈ gs ∧ P l o) gs os := forall₂_mem h
    refine this.imp ?_
    rintro l o ⟨hl, hp⟩
    obtain ⟨t, ht, e⟩ := hh l hl
    rw [e, filter_groups no gs h1 h2 l hl t ht]
    exact hp

/-- The number of a period is kept apart by what is compared, up to a gap. -/
theorem key_of_no (u : PUnit) (yt : YearType) {a b : Int} (ha : 38 ≤ a) (hb : 38 ≤ b) (h : periodNo u yt a = periodNo u yt b) :
    periodKey u yt (gregorianDate a 0) = periodKey u yt (gregorianDate b 0) := by
  obtain ⟨va, -⟩ := C124_onto a ha
  obtain ⟨vb, -⟩ := C124_onto b hb
  cases u with
  | year =>
    simp only [periodKey]
    rw [yearOf_eq yt _ va, yearOf_eq yt _ vb]
    exact h
  | monthMany =>
    simp only [periodNo] at h
    obtain ⟨-, ⟨a1, a2⟩, -⟩ := va
    obtain ⟨-, ⟨b1, b2⟩, -⟩ := vb
    simp only [periodKey]
    omega
  | monthOne => rfl
  | daily =>
    simp only [periodNo] at h
    rw [h]

theorem monthLoop_spec {g : Rat → Option Rat} : ∀ (ts : List Term) (f f' : Int → Acc), monthLoop g f ts = some f' →
    ∀ m, ∃ w, vals g (ts.filter fun t => (gregorianDate t.at_.days 0).month = m) = some w ∧ f' m = w.foldl Acc.add (f m)
  | [], f, f', h, m => ⟨[], rfl, by rw [← Option.some.inj h]; rfl⟩
  | t :: ts, f, f', h, m => by
    rw [monthLoop] at h
    obtain ⟨r, hr, h⟩ := Option.bind_eq_some_iff.mp h
    obtain ⟨w, hw, e⟩ := monthLoop_spec ts _ f' h m
    by_cases hm : (gregorianDate t.at_.days 0).month = m
    · rw [List.filter_cons_of_pos (by simpa using hm)]
      refine ⟨r :: w, vals_cons hr hw, ?_⟩
      rw [e, if_pos hm.symm]
      rfl
    · rw [List.filter_cons_of_neg (by simpa using hm)]
      refine ⟨w, hw, ?_⟩
      rw [e, if_neg (fun h => hm h.symm)]

theorem monthLoop_some {g : Rat → Option Rat} : ∀ (ts : List Term) (f : Int → Acc),
    (∃ f', monthLoop g f ts = some f') ↔ ∀ t ∈ ts, ∃ r, g t.val = some r
  | [], f => by simp [monthLoop]
  | t :: ts, f => by
    rw [List.forall_mem_cons, monthLoop]
    cases hr : g t.val with
    | none => simp
    | some r =>
      rw [Option.bind_some, monthLoop_some ts]
      simp

end Verif.Tsp
