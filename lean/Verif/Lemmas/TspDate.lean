import Verif.Spec.TspDate
import Mathlib.Tactic.Ring
import Mathlib.Tactic.NormNum
import Mathlib.Logic.Function.Iterate
/-
Helper lemmas for C124.
-/
namespace Verif.Tsp

theorem leap_iff (y : Int) : leap y = true ↔ IsLeap y ∧ y ≠ 0 := by
  have h4 : Int.tmod y 4 = 0 ↔ 4 ∣ y := (Int.dvd_iff_tmod_eq_zero ..).symm
  have h100 : Int.tmod y 100 = 0 ↔ 100 ∣ y := (Int.dvd_iff_tmod_eq_zero ..).symm
  have h400 : Int.tmod y 400 = 0 ↔ 400 ∣ y := (Int.dvd_iff_tmod_eq_zero ..).symm
  unfold leap IsLeap
  rw [decide_eq_true_eq, Ne, h4, h100, h400]
  omega

/-- Days of a date counted with floors. -/
def jd (d : Day) : Int :=
  let y := if d.month ≤ 2 then d.year - 1 else d.year
  let m := if d.month ≤ 2 then d.month + 10 else d.month - 2
  d.day - 32075 + 1461 * (y + 4800) / 4 + 367 * m / 12 - 3 * ((y + 4900) / 100) / 4

theorem julianDay_jd {d : Day} (hy : -4799 ≤ d.year) (hm : 1 ≤ d.month ∧ d.month ≤ 12) (o : Int) : julianDay d o = jd d - o := by
  obtain ⟨y, m, k⟩ := d
  simp only at hy hm
  unfold julianDay jd
  simp only
  have h1 : Int.tdiv (m - 14) 12 = if m ≤ 2 then -1 else 0 := by
    have : m = 1 ∨ m = 2 ∨ m = 3 ∨ m = 4 ∨ m = 5 ∨ m = 6 ∨ m = 7 ∨ m = 8 ∨ m = 9 ∨ m = 10 ∨ m = 11 ∨ m = 12 := by omega
    rcases this with rfl | rfl | rfl | rfl | rfl | rfl | rfl | rfl | rfl | rfl | rfl | rfl <;> rfl
  rw [h1]
  split_ifs with h
  · rw [Int.tdiv_eq_ediv_of_nonneg (by omega : (0 : Int) ≤ 1461 * (y + 4800 + -1)),
      Int.tdiv_eq_ediv_of_nonneg (by omega : (0 : Int) ≤ 367 * (m - 2 - -1 * 12)),
      Int.tdiv_eq_ediv_of_nonneg (by omega : (0 : Int) ≤ y + 4900 + -1),
      Int.tdiv_eq_ediv_of_nonneg (by omega : (0 : Int) ≤ 3 * ((y + 4900 + -1) / 100))]
    have e1 : y + 4800 + -1 = y - 1 + 4800 := by ring
    have e2 : m - 2 - -1 * 12 = m + 10 := by ring
    have e3 : y + 4900 + -1 = y - 1 + 4900 := by ring
    rw [e1, e2, e3]
  · rw [Int.tdiv_eq_ediv_of_nonneg (by omega : (0 : Int) ≤ 1461 * (y + 4800 + 0)),
      Int.tdiv_eq_ediv_of_nonneg (by omega : (0 : Int) ≤ 367 * (m - 2 - 0 * 12)),
      Int.tdiv_eq_ediv_of_nonneg (by omega : (0 : Int) ≤ y + 4900 + 0),
      Int.tdiv_eq_ediv_of_nonneg (by omega : (0 : Int) ≤ 3 * ((y + 4900 + 0) / 100))]
    have e2 : m - 2 - 0 * 12 = m - 2 := by ring
    rw [e2, add_zero, add_zero]

theorem monthDays_cases (y m : Int) : monthDays y m = if m = 2 then (if IsLeap y then 29 else 28) else
    if m = 4 ∨ m = 6 ∨ m = 9 ∨ m = 11 then 30 else 31 := rfl

theorem month_cases {m : Int} (h : 1 ≤ m ∧ m ≤ 12) :
    m = 1 ∨ m = 2 ∨ m = 3 ∨ m = 4 ∨ m = 5 ∨ m = 6 ∨ m = 7 ∨ m = 8 ∨ m = 9 ∨ m = 10 ∨ m = 11 ∨ m = 12 := by omega

theorem next_valid {d : Day} (h : Valid d) : Valid (next d) := by
  obtain ⟨y, m, k⟩ := d
  obtain ⟨hy, hm, hk⟩ := h
  simp only at hy hm hk
  unfold next
  simp only
  have hpos : ∀ y m, 28 ≤ monthDays y m := by intro y m; unfold monthDays; split_ifs <;> omega
  split_ifs with h1 h2
  · exact ⟨hy, hm, by simp only; omega⟩
  · have := hpos y (m + 1)
    exact ⟨hy, by simp only; omega, by simp only; omega⟩
  · have := hpos (y + 1) 1
    exact ⟨by simp only; omega, by simp only; omega, by simp only; omega⟩

theorem jd_next {d : Day} (h : Valid d) : jd (next d) = jd d + 1 := by
  obtain ⟨y, m, k⟩ := d
  obtain ⟨hy, hm, hk⟩ := h
  simp only at hy hm hk
  unfold next
  simp only
  by_cases h1 : k < monthDays y m
  · rw [if_pos h1]; unfold jd; simp only; omega
  · rw [if_neg h1]
    have hk' : k = monthDays y m := by omega
    subst hk'
    unfold monthDays jd
    rcases month_cases hm with rfl | rfl | rfl | rfl | rfl | rfl | rfl | rfl | rfl | rfl | rfl | rfl <;> norm_num <;> try omega
    have e1 : 1461 * (y + 4800) / 4 = 1461 * (y - 1 + 4800) / 4 + 365 + (if 4 ∣ y then 1 else 0) := by
      obtain ⟨t, ht⟩ : ∃ t, y = 4 * t ∨ y = 4 * t + 1 ∨ y = 4 * t + 2 ∨ y = 4 * t + 3 := ⟨y / 4, by omega⟩
      rcases ht with rfl | rfl | rfl | rfl <;> split_ifs <;> omega
    have e2 : (y + 4900) / 100 = (y - 1 + 4900) / 100 + (if 100 ∣ y then 1 else 0) := by split_ifs <;> omega
    rw [e1, e2]
    generalize hz : (y - 1 + 4900) / 100 = z
    generalize 1461 * (y - 1 + 4800) / 4 = w
    by_cases h4 : 4 ∣ y <;> by_cases h100 : 100 ∣ y
    · have hyz : y = 100 * z - 4800 := by omega
      have h400 : 400 ∣ y ↔ 4 ∣ z := by omega
      have e3 : 3 * (z + 1) / 4 = 3 * z / 4 + (if 4 ∣ z then 0 else 1) := by
        obtain ⟨t, ht⟩ : ∃ t, z = 4 * t ∨ z = 4 * t + 1 ∨ z = 4 * t + 2 ∨ z = 4 * t + 3 := ⟨z / 4, by omega⟩
        clear hyz h400 hz
        rcases ht with rfl | rfl | rfl | rfl <;> split_ifs <;> omega
      by_cases hz4 : 4 ∣ z
      · have hl : IsLeap y := ⟨h4, Or.inr (h400.2 hz4)⟩
        rw [if_pos hl, if_pos h4, if_pos h100, e3, if_pos hz4]; omega
      · have hl : ¬ IsLeap y := fun h => h.2.elim (fun h => h h100) (fun h => hz4 (h400.1 h))
        rw [if_neg hl, if_pos h4, if_pos h100, e3, if_neg hz4]; omega
    · have hl : IsLeap y := ⟨h4, Or.inl h100⟩
      rw [if_pos hl, if_pos h4, if_neg h100]; omega
    · omega
    · have hl : ¬ IsLeap y := fun h => h4 h.1
      rw [if_neg hl, if_neg h4, if_neg h100]; omega

theorem jd_step (n : Nat) : ∀ {d : Day}, Valid d → Valid (next^[n] d) ∧ jd (next^[n] d) = jd d + n := by
  induction n with
  | zero => intro d h; exact ⟨h, by simp⟩
  | succ n ih =>
    intro d h
    rw [Function.iterate_succ_apply]
    obtain ⟨h1, h2⟩ := ih (next_valid h)
    exact ⟨h1, by rw [h2, jd_next h]; push_cast; ring⟩

/-- The first date. -/
def day0 : Day := ⟨-4712, 1, 1⟩

theorem valid0 : Valid day0 := by decide

theorem jd0 : jd day0 = 38 := by decide

/-- Every number from 38 on is the number of a date. -/
theorem jd_onto {n : Int} (h : 38 ≤ n) : ∃ d, Valid d ∧ jd d = n := by
  obtain ⟨h1, h2⟩ := jd_step (n - 38).toNat valid0
  exact ⟨_, h1, by rw [h2, jd0]; omega⟩

/-! ### Back from the number to the date -/

/-- `gregorian_date` with floors. -/
def back (n : Int) : Day :=
  let l := n + 68569
  let n := 4 * l / 146097
  let l := l - (146097 * n + 3) / 4
  let i := 4000 * (l + 1) / 1461001
  let l := l - 1461 * i / 4 + 31
  let j := 80 * l / 2447
  let k := l - 2447 * j / 80
  let l := j / 11
  ⟨100 * (n - 49) + i + l, j + 2 - 12 * l, k⟩

/-- The parts of the computation, for the date `e` days after 1 March of the year `100 (c - 49) + r`. -/
theorem stage1 {c r e L : Int} (hc : 0 ≤ c) (hr : 0 ≤ r ∧ r ≤ 99) (he : 0 ≤ e ∧ e ≤ 365)
    (hL : L = 36525 * c - 3 * c / 4 + 1461 * r / 4 + e) (h : r = 99 → e = 365 → 4 ∣ c) : 4 * L / 146097 = c := by
  have hu : 3 * c - 3 ≤ 4 * (3 * c / 4) ∧ 4 * (3 * c / 4) ≤ 3 * c := by omega
  have hu' : 4 ∣ c → 4 * (3 * c / 4) = 3 * c := by rintro ⟨t, rfl⟩; omega
  generalize 3 * c / 4 = u at *
  have hv : 4 * (1461 * r / 4) ≤ 1461 * r ∧ 0 ≤ 1461 * r / 4 := by omega
  have hv' : r = 99 → 1461 * r / 4 = 36159 := by rintro rfl; rfl
  generalize 1461 * r / 4 = v at *
  have h1 : 4 * L = 146100 * c - 4 * u + 4 * v + 4 * e := by rw [hL]; ring
  have h2 : 146097 * c ≤ 4 * L := by omega
  have h3 : 4 * L < 146097 * (c + 1) := by
    by_cases hr99 : r = 99
    · have hv99 := hv' hr99
      by_cases he' : e = 365
      · have := hu' (h hr99 he'); omega
      · omega
    · omega
  omega

theorem stage2 (c v : Int) : 36525 * c - 3 * c / 4 + v - (146097 * c + 3) / 4 = v := by
  obtain ⟨t, ht⟩ : ∃ t, c = 4 * t ∨ c = 4 * t + 1 ∨ c = 4 * t + 2 ∨ c = 4 * t + 3 := ⟨c / 4, by omega⟩
  rcases ht with rfl | rfl | rfl | rfl <;> omega

theorem stage3 {r e : Int} (hr : 0 ≤ r ∧ r ≤ 99) (he : 0 ≤ e ∧ e ≤ 365) (h : e = 365 → r % 4 = 3) :
    4000 * (1461 * r / 4 + e + 1) / 1461001 = r := by
  obtain ⟨t, ht⟩ : ∃ t, r = 4 * t ∨ r = 4 * t + 1 ∨ r = 4 * t + 2 ∨ r = 4 * t + 3 := ⟨r / 4, by omega⟩
  have key : ∀ s : Int, 0 ≤ s → s ≤ 3 → r = 4 * t + s → 1461 * r / 4 = 1461 * t + 365 * s := by intro s h0 h3 hs; subst hs; omega
  rcases ht with ht | ht | ht | ht
  · rw [key 0 (by omega) (by omega) (by omega)]; omega
  · rw [key 1 (by omega) (by omega) (by omega)]; omega
  · rw [key 2 (by omega) (by omega) (by omega)]; omega
  · rw [key 3 (by omega) (by omega) (by omega)]; omega

theorem stage4 {d : Day} (hm : 1 ≤ d.month ∧ d.month ≤ 12) (hk : 1 ≤ d.day ∧ d.day ≤ monthDays d.year d.month) :
    let m := if d.month ≤ 2 then d.month + 10 else d.month - 2
    let l := 367 * m / 12 + d.day
    let j := 80 * l / 2447
    j = m ∧ l - 2447 * j / 80 = d.day ∧ 31 ≤ l ∧ l ≤ 396 ∧
      (l = 396 → d.month = 2 ∧ d.day = 29) ∧ j / 11 = (if d.month ≤ 2 then 1 else 0) := by
  obtain ⟨y, m, k⟩ := d
  simp only at hm hk ⊢
  have hlen : monthDays y m ≤ if m = 2 then 29 else if m = 4 ∨ m = 6 ∨ m = 9 ∨ m = 11 then 30 else 31 := by
    unfold monthDays; split_ifs <;> omega
  have hk' := le_trans hk.2 hlen
  have hk1 := hk.1
  clear hk hlen
  rcases month_cases hm with rfl | rfl | rfl | rfl | rfl | rfl | rfl | rfl | rfl | rfl | rfl | rfl <;> norm_num at hk' ⊢ <;> omega

theorem back_jd {d : Day} (h : Valid d) : back (jd d) = d := by
  obtain ⟨hy, hm, hk⟩ := h
  have hs := stage4 hm hk
  obtain ⟨y, m, k⟩ := d
  simp only at hy hm hk hs
  unfold jd
  simp only
  generalize hM : (if m ≤ 2 then m + 10 else m - 2) = M at *
  obtain ⟨h1, h2, h3, h4, h5, h6⟩ := hs
  have hY : ∃ y', (if m ≤ 2 then y - 1 else y) = y' := ⟨_, rfl⟩
  obtain ⟨y', hY⟩ := hY
  rw [hY]
  have hy' : -4713 ≤ y' := by rw [← hY]; split_ifs <;> omega
  obtain ⟨c, hc⟩ : ∃ c, c = (y' + 4900) / 100 := ⟨_, rfl⟩
  obtain ⟨r, hr⟩ : ∃ r, r = (y' + 4900) % 100 := ⟨_, rfl⟩
  have hyc : y' = 100 * c + r - 4900 := by omega
  obtain ⟨e, he⟩ : ∃ e, e = 367 * M / 12 + k - 31 := ⟨_, rfl⟩
  have hleap : e = 365 → IsLeap (y' + 1) := by
    intro h365
    obtain ⟨hm2, hk29⟩ := h5 (by omega)
    subst hm2 hk29
    have : y' + 1 = y := by rw [← hY]; norm_num
    rw [this]
    by_contra hl
    have := hk.2
    unfold monthDays at this
    rw [if_pos rfl, if_neg hl] at this
    omega
  have hL : k - 32075 + 1461 * (y' + 4800) / 4 + 367 * M / 12 - 3 * ((y' + 4900) / 100) / 4 + 68569 =
      36525 * c - 3 * c / 4 + 1461 * r / 4 + e := by
    rw [← hc]
    have : 1461 * (y' + 4800) / 4 = 36525 * c - 36525 + 1461 * r / 4 := by rw [hyc]; omega
    omega
  have s1 : 4 * (36525 * c - 3 * c / 4 + 1461 * r / 4 + e) / 146097 = c := by
    refine stage1 (by omega) (by omega) (by omega) rfl ?_
    intro h99 h365
    obtain ⟨_, hl⟩ := hleap h365
    have h100 : (100 : Int) ∣ y' + 1 := by omega
    have h400 := hl.resolve_left (fun h => h h100)
    omega
  have s2 : 36525 * c - 3 * c / 4 + 1461 * r / 4 + e - (146097 * c + 3) / 4 = 1461 * r / 4 + e := by
    rw [add_assoc]; exact stage2 c _
  have s3 : 4000 * (1461 * r / 4 + e + 1) / 1461001 = r := by
    refine stage3 (by omega) (by omega) ?_
    intro h365
    have := (hleap h365).1
    omega
  have s4 : 1461 * r / 4 + e - 1461 * r / 4 + 31 = 367 * M / 12 + k := by omega
  unfold back
  simp only
  rw [hL, s1, s2, s3, s4, h2, h1]
  rw [h1] at h6
  rw [h6]
  refine Day.mk.injEq .. |>.mpr ⟨?_, ?_, rfl⟩
  · rw [← hY] at hyc; split_ifs at * <;> omega
  · rw [← hM]; split_ifs <;> omega

theorem gregorianDate_back {n : Int} (h : 0 ≤ n) (o : Int) (ho : 0 ≤ o) : gregorianDate n o = back (n + o) := by
  have a1 : 0 ≤ n + o + 68569 := by omega
  unfold gregorianDate back
  simp only
  rw [Int.tdiv_eq_ediv_of_nonneg (by omega : (0 : Int) ≤ 4 * (n + o + 68569))]
  generalize hN : 4 * (n + o + 68569) / 146097 = N
  have b1 : 0 ≤ N := by omega
  rw [Int.tdiv_eq_ediv_of_nonneg (by omega : (0 : Int) ≤ 146097 * N + 3)]
  generalize hl1 : n + o + 68569 - (146097 * N + 3) / 4 = l1
  have b2 : -1 ≤ l1 := by omega
  rw [Int.tdiv_eq_ediv_of_nonneg (by omega : (0 : Int) ≤ 4000 * (l1 + 1))]
  generalize hI : 4000 * (l1 + 1) / 1461001 = I
  have b3 : 0 ≤ I := by omega
  rw [Int.tdiv_eq_ediv_of_nonneg (by omega : (0 : Int) ≤ 1461 * I)]
  generalize hl2 : l1 - 1461 * I / 4 + 31 = l2
  have b4 : 0 ≤ l2 := by omega
  rw [Int.tdiv_eq_ediv_of_nonneg (by omega : (0 : Int) ≤ 80 * l2)]
  generalize hJ : 80 * l2 / 2447 = J
  have b5 : 0 ≤ J := by omega
  rw [Int.tdiv_eq_ediv_of_nonneg (by omega : (0 : Int) ≤ 2447 * J), Int.tdiv_eq_ediv_of_nonneg b5]

/-! ### Lengths of years -/

theorem span {y : Int} (hy : -4712 ≤ y) :
    1461 * (y + 4800) / 4 - 3 * ((y + 4900) / 100) / 4 =
      1461 * (y - 1 + 4800) / 4 - 3 * ((y - 1 + 4900) / 100) / 4 + 365 + (if IsLeap y then 1 else 0) := by
  have hv : Valid ⟨y, 2, monthDays y 2⟩ := by
    refine ⟨hy, by norm_num, ?_, le_refl _⟩
    simp only [monthDays]; split_ifs <;> norm_num
  have h := jd_next hv
  have hn : next ⟨y, 2, monthDays y 2⟩ = ⟨y, 3, 1⟩ := by
    unfold next; simp
  rw [hn] at h
  unfold jd at h
  norm_num at h
  unfold monthDays at h
  split_ifs at h ⊢ <;> simp_all <;> omega

theorem julianDay_valid {d : Day} (h : Valid d) (o : Int) : julianDay d o = jd d - o :=
  julianDay_jd (by have := h.year; omega) h.month o

theorem jd_pos {d : Day} (h : Valid d) : 38 ≤ jd d := by
  obtain ⟨y, m, k⟩ := d
  obtain ⟨hy, hm, hk⟩ := h
  simp only at hy hm hk
  unfold jd
  simp only
  generalize hY : (if m ≤ 2 then y - 1 else y) = y'
  have h1 : -4713 ≤ y' := by rw [← hY]; split_ifs <;> omega
  have h2 : y' = -4713 → 367 * (if m ≤ 2 then m + 10 else m - 2) / 12 ≥ 336 := by
    intro h; rw [← hY] at h; split_ifs at h ⊢ <;> omega
  have h3 : 367 * (if m ≤ 2 then m + 10 else m - 2) / 12 ≥ 30 := by split_ifs <;> omega
  generalize 367 * (if m ≤ 2 then m + 10 else m - 2) / 12 = w at *
  by_cases h4 : y' = -4713
  · have := h2 h4; subst h4; omega
  · omega

theorem gregorianDate_julianDay {d : Day} (h : Valid d) : gregorianDate (julianDay d 0) 0 = d := by
  rw [julianDay_valid h, sub_zero, gregorianDate_back (by have := jd_pos h; omega) 0 (le_refl 0), add_zero, back_jd h]

end Verif.Tsp
