import Verif.Spec.Calendar
import Mathlib.Tactic.SplitIfs
/-
Helper lemmas for the calendar properties.
-/
namespace Verif.Calendar

theorem month_cases {m : Int} (h1 : 1 ≤ m) (h2 : m ≤ 12) :
    m = 1 ∨ m = 2 ∨ m = 3 ∨ m = 4 ∨ m = 5 ∨ m = 6 ∨ m = 7 ∨ m = 8 ∨ m = 9 ∨ m = 10 ∨
      m = 11 ∨ m = 12 := by omega

theorem civilLeap_iff (y : Int) : civilLeap y = true ↔
    (y ≤ 1582 ∧ y % 4 = 0) ∨ (1582 < y ∧ y % 4 = 0 ∧ (y % 100 ≠ 0 ∨ y % 400 = 0)) := by
  unfold civilLeap
  split <;> simp <;> omega

/-- Closed form of `julday` for years from 1 on. -/
theorem julday_eq (y m d : Int) (hy : 1 ≤ y) :
    julday ⟨y, m, d⟩ =
      let jy := if m > 2 then y else y - 1
      let jm := if m > 2 then m + 1 else m + 13
      let jul := 365 * jy + jy / 4 + (306001 * jm) / 10000 + d + 1720995
      some (if d + 31 * (m + 12 * y) ≥ 588829 then jul + 2 - jy / 100 + jy / 400 else jul) := by
  unfold julday
  have h0 : ¬ y = 0 := by omega
  have h1 : ¬ y < 0 := by omega
  simp only [h0, h1, if_false, IGREG]
  have hj : 0 ≤ (if m > 2 then y else y - 1) := by split <;> omega
  generalize (if m > 2 then y else y - 1) = jy at *
  rw [Int.tdiv_eq_ediv_of_nonneg hj, Int.tdiv_eq_ediv_of_nonneg (by omega)]
  have e1 : 1461 * jy / 4 = 365 * jy + jy / 4 := by omega
  have e2 : jy / 100 / 4 = jy / 400 := by omega
  rw [e1, e2]
  split <;> split <;> first | rfl | omega | (congr 1; omega)

theorem next_valid {d : Date} (h : Valid d) : Valid (next d) := by
  obtain ⟨y, m, dd⟩ := d
  unfold Valid at h
  simp only at h
  obtain ⟨h1, h2, h3, h4, h5, h6⟩ := h
  have := civilLeap_iff y
  rcases month_cases h2 h3 with h | h | h | h | h | h | h | h | h | h | h | h <;> subst h <;>
    simp [next, monthLength] at h5 h6 ⊢ <;> split_ifs at h5 ⊢ <;>
    simp_all [Valid, monthLength] <;> omega

theorem pred_div (y n : Int) (hn : 0 < n) :
    (y % n = 0 ∧ (y - 1) / n = y / n - 1) ∨ (y % n ≠ 0 ∧ (y - 1) / n = y / n) := by
  have h1 := Int.mul_ediv_add_emod y n
  have h2 := Int.emod_nonneg y (by omega : n ≠ 0)
  have h3 := Int.emod_lt_of_pos y hn
  by_cases h : y % n = 0
  · left
    refine ⟨h, ?_⟩
    have : y - 1 = (n - 1) + n * (y / n - 1) := by rw [Int.mul_sub]; omega
    rw [this, Int.add_mul_ediv_left _ _ (by omega), Int.ediv_eq_zero_of_lt (by omega) (by omega)]
    omega
  · right
    refine ⟨h, ?_⟩
    have : y - 1 = (y % n - 1) + n * (y / n) := by omega
    rw [this, Int.add_mul_ediv_left _ _ (by omega), Int.ediv_eq_zero_of_lt (by omega) (by omega)]
    omega

/-- The facts about leap days that the linear-arithmetic proofs need. -/
theorem leap_facts (y : Int) :
    (civilLeap y = true → y ≤ 1582 → (y - 1) / 4 = y / 4 - 1) ∧
    (civilLeap y = true → 1582 < y →
      (y - 1) / 4 - (y - 1) / 100 + (y - 1) / 400 = y / 4 - y / 100 + y / 400 - 1) ∧
    (¬ civilLeap y = true → y ≤ 1582 → (y - 1) / 4 = y / 4) ∧
    (¬ civilLeap y = true → 1582 < y →
      (y - 1) / 4 - (y - 1) / 100 + (y - 1) / 400 = y / 4 - y / 100 + y / 400) := by
  rw [civilLeap_iff]
  have h4 := pred_div y 4 (by omega)
  have h100 := pred_div y 100 (by omega)
  have h400 := pred_div y 400 (by omega)
  have a : y % 400 = 0 → y % 100 = 0 := by omega
  have b : y % 100 = 0 → y % 4 = 0 := by omega
  generalize (y - 1) / 4 = a4 at *
  generalize (y - 1) / 100 = a100 at *
  generalize (y - 1) / 400 = a400 at *
  generalize y / 4 = b4 at *
  generalize y / 100 = b100 at *
  generalize y / 400 = b400 at *
  generalize y % 4 = c4 at *
  generalize y % 100 = c100 at *
  generalize y % 400 = c400 at *
  refine ⟨?_, ?_, ?_, ?_⟩ <;> intro h1 h2 <;> omega

theorem julday_next {d : Date} (h : Valid d) :
    ∃ n, julday d = some n ∧ julday (next d) = some (n + 1) := by
  obtain ⟨y, m, dd⟩ := d
  unfold Valid at h
  simp only at h
  obtain ⟨h1, h2, h3, h4, h5, h6⟩ := h
  have hl := leap_facts y
  refine ⟨_, julday_eq y m dd h1, ?_⟩
  rcases month_cases h2 h3 with h | h | h | h | h | h | h | h | h | h | h | h <;> subst h <;>
    simp [next, monthLength] at h5 h6 ⊢ <;> split_ifs at h5 ⊢ <;>
    (try rw [julday_eq _ _ _ (by omega)]) <;> simp_all <;> (try split_ifs) <;>  omega

/-- `julday` as a plain integer on valid dates. -/
def jd (d : Date) : Int := (julday d).getD 0

theorem julday_jd {d : Date} (h : Valid d) : julday d = some (jd d) := by
  obtain ⟨n, hn, _⟩ := julday_next h
  simp [jd, hn]

theorem jd_month_bounds {y m d : Int} (h : Valid ⟨y, m, d⟩) :
    jd ⟨y, m, 1⟩ ≤ jd ⟨y, m, d⟩ ∧
    jd ⟨y, m, d⟩ < if m = 12 then jd ⟨y + 1, 1, 1⟩ else jd ⟨y, m + 1, 1⟩ := by
  unfold Valid at h
  simp only at h
  obtain ⟨h1, h2, h3, h4, h5, h6⟩ := h
  have hl := leap_facts y
  unfold jd
  rw [julday_eq _ _ _ h1, julday_eq _ _ _ h1, julday_eq _ _ _ h1,
    julday_eq _ _ _ (by omega : 1 ≤ y + 1)]
  rcases month_cases h2 h3 with h | h | h | h | h | h | h | h | h | h | h | h <;> subst h <;>
    simp [monthLength] at h5 h6 ⊢ <;> split_ifs at h5 ⊢ <;> simp_all <;> omega

theorem valid_first {y m : Int} (hy : 1 ≤ y) (h1 : 1 ≤ m) (h2 : m ≤ 12) : Valid ⟨y, m, 1⟩ := by
  refine ⟨hy, h1, h2, by simp, ?_, by simp⟩
  unfold monthLength
  simp only
  split_ifs <;> omega

theorem jd_first_mono {y m : Int} (hy : 1 ≤ y) (h1 : 1 ≤ m) (k : Nat) (h2 : m + k ≤ 12) :
    jd ⟨y, m, 1⟩ ≤ jd ⟨y, m + k, 1⟩ := by
  induction k with
  | zero => simp
  | succ k ih =>
    have := ih (by omega)
    have h := (jd_month_bounds (valid_first hy (by omega : 1 ≤ m + k) (by omega))).2
    rw [if_neg (by omega)] at h
    have e : m + ((k + 1 : Nat) : Int) = m + k + 1 := by omega
    rw [e]
    omega

theorem jd_month_le {y m m' : Int} (hy : 1 ≤ y) (h1 : 1 ≤ m) (h : m ≤ m') (h2 : m' ≤ 12) :
    jd ⟨y, m, 1⟩ ≤ jd ⟨y, m', 1⟩ := by
  have := jd_first_mono hy h1 (m' - m).toNat (by omega)
  rwa [show m + ((m' - m).toNat : Int) = m' by omega] at this

theorem jd_year_bounds {y m d : Int} (h : Valid ⟨y, m, d⟩) :
    jd ⟨y, 1, 1⟩ ≤ jd ⟨y, m, d⟩ ∧ jd ⟨y, m, d⟩ < jd ⟨y + 1, 1, 1⟩ := by
  obtain ⟨hy, hm1, hm2, -⟩ := id h
  simp only at hy hm1 hm2
  have h1 := jd_month_bounds h
  have h2 := jd_month_le hy (by omega) hm1 hm2
  have h3 := jd_month_le hy hm1 hm2 (by omega)
  have h4 := (jd_month_bounds (valid_first hy (by omega : (1:Int) ≤ 12) (by omega))).2
  rw [if_pos rfl] at h4
  refine ⟨by omega, ?_⟩
  split at h1
  · omega
  · have h5 := jd_month_le hy (by omega : 1 ≤ m + 1) (by omega : m + 1 ≤ 12) (by omega)
    omega

theorem jd_newyear_mono {y z : Int} (hy : 1 ≤ y) (h : y ≤ z) : jd ⟨y, 1, 1⟩ ≤ jd ⟨z, 1, 1⟩ := by
  have key : ∀ k : Nat, jd ⟨y, 1, 1⟩ ≤ jd ⟨y + k, 1, 1⟩ := by
    intro k
    induction k with
    | zero => simp
    | succ k ih =>
      have h := (jd_year_bounds (valid_first (by omega : 1 ≤ y + k) (by omega : (1:Int) ≤ 1) (by omega))).2
      have e : y + ((k + 1 : Nat) : Int) = y + k + 1 := by omega
      rw [e]
      omega
  have := key (z - y).toNat
  rwa [show y + ((z - y).toNat : Int) = z by omega] at this

theorem jd_day_mono {y m d d' : Int} (h : Valid ⟨y, m, d⟩) (h' : Valid ⟨y, m, d'⟩)
    (hd : d < d') : jd ⟨y, m, d⟩ < jd ⟨y, m, d'⟩ := by
  unfold Valid at h h'
  simp only at h h'
  obtain ⟨h1, h2, h3, h4, h5, h6⟩ := h
  obtain ⟨-, -, -, h4', h5', h6'⟩ := h'
  have hml : monthLength y m ≤ 31 := by unfold monthLength; split_ifs <;> omega
  unfold jd
  rw [julday_eq _ _ _ h1, julday_eq _ _ _ h1]
  simp only [Option.getD_some]
  by_cases hc : y = 1582 ∧ m = 10
  · obtain ⟨rfl, rfl⟩ := hc
    simp
    split_ifs <;> omega
  · generalize (if m > 2 then y else y - 1) = jy
    split_ifs <;> omega

theorem jd_mono {a b : Date} (ha : Valid a) (hb : Valid b) (h : Before a b) : jd a < jd b := by
  obtain ⟨y, m, d⟩ := a
  obtain ⟨y', m', d'⟩ := b
  unfold Before at h
  simp only at h
  have hy := ha.1
  simp only at hy
  rcases h with h | ⟨rfl, h | ⟨rfl, h⟩⟩
  · have h1 := jd_year_bounds ha
    have h2 := jd_year_bounds hb
    have h3 := jd_newyear_mono (y := y + 1) (z := y') (by omega) (by omega)
    omega
  · have h1 := (jd_month_bounds ha).2
    have h2 := (jd_month_bounds hb).1
    have a1 := ha.2.1
    have b1 := hb.2.2.1
    simp only at a1 b1
    have h3 := jd_month_le hy (by omega : 1 ≤ m + 1) (by omega : m + 1 ≤ m') b1
    rw [if_neg (by omega)] at h1
    omega
  · exact jd_day_mono ha hb h

theorem Before.trichotomy (a b : Date) : Before a b ∨ a = b ∨ Before b a := by
  obtain ⟨y, m, d⟩ := a
  obtain ⟨y', m', d'⟩ := b
  simp only [Before, Date.mk.injEq]
  omega

theorem jd_pos {d : Date} (h : Valid d) : 0 < jd d := by
  obtain ⟨y, m, dd⟩ := d
  have h1 := (jd_year_bounds h).1
  have h2 := jd_newyear_mono (y := 1) (z := y) (by omega) h.1
  have h3 : jd ⟨1, 1, 1⟩ = 1721424 := by decide
  omega

theorem ref_valid (k : YearKind) {d : Date} (hy : 2 ≤ d.year) :
    Valid (refDate k d) := by
  cases k <;> simp only [refDate, Valid, monthLength] <;> simp <;> (try split_ifs) <;> omega

theorem ref_before (k : YearKind) {d : Date} (h : Valid d) : Before (refDate k d) d := by
  obtain ⟨y, m, dd⟩ := d
  obtain ⟨h1, h2, h3, h4, h5, h6⟩ := h
  simp only at h1 h2 h3 h4 h5 h6
  cases k <;> simp only [refDate, Before] <;> (try split_ifs) <;> omega

theorem julian_eq (k : YearKind) {d : Date} (h : Valid d) (hy : 2 ≤ d.year) :
    julian k d = some (jd d - jd (refDate k d)) := by
  simp [julian, julday_jd h, julday_jd (ref_valid k hy)]

theorem ref_next (k : YearKind) {d : Date} (h : Valid d) :
    (isFirstDay k (next d) → refDate k (next d) = d) ∧
    (¬ isFirstDay k (next d) → refDate k (next d) = refDate k d) := by
  obtain ⟨y, m, dd⟩ := d
  obtain ⟨h1, h2, h3, h4, h5, h6⟩ := h
  simp only at h1 h2 h3 h4 h5 h6
  have hl := civilLeap_iff y
  rcases month_cases h2 h3 with h | h | h | h | h | h | h | h | h | h | h | h <;> subst h <;>
    simp [monthLength] at h5 h6 <;>
    cases k <;> simp [next, monthLength, isFirstDay, refDate] <;> (try split_ifs) <;>
      simp_all <;> omega

theorem jd_next {d : Date} (h : Valid d) : jd (next d) = jd d + 1 := by
  obtain ⟨n, h1, h2⟩ := julday_next h
  simp [jd, h1, h2]

theorem next_year (d : Date) : d.year ≤ (next d).year := by
  unfold next
  split_ifs <;> simp <;> omega

theorem julian_next (k : YearKind) {d : Date} (h : Valid d) (hy : 2 ≤ d.year) :
    ∃ n, julian k d = some n ∧
      (isFirstDay k (next d) → julian k (next d) = some 1) ∧
      (¬ isFirstDay k (next d) → julian k (next d) = some (n + 1)) := by
  refine ⟨_, julian_eq k h hy, ?_, ?_⟩ <;> intro hf <;>
    rw [julian_eq k (next_valid h) (by have := next_year d; omega), jd_next h]
  · rw [(ref_next k h).1 hf]; congr 1; omega
  · rw [(ref_next k h).2 hf]; congr 1; omega

/-- The reference date one year later. -/
def anniversary (d : Date) : Date := ⟨d.year + 1, d.month, d.day⟩

theorem anniversary_le (k : YearKind) {d : Date} (h : Valid d) (hy : 2 ≤ d.year) :
    Valid (anniversary (refDate k d)) ∧
    (d = anniversary (refDate k d) ∨ Before d (anniversary (refDate k d))) := by
  obtain ⟨y, m, dd⟩ := d
  obtain ⟨h1, h2, h3, h4, h5, h6⟩ := h
  simp only at h1 h2 h3 h4 h5 h6 hy
  have hml : monthLength y m ≤ 31 := by unfold monthLength; split_ifs <;> omega
  have hml9 : m = 9 → monthLength y m ≤ 30 := by intro h; unfold monthLength; subst h; simp
  constructor
  · cases k <;> simp only [anniversary, refDate, Valid, monthLength] <;> simp <;> (try split_ifs) <;> omega
  · cases k <;> simp only [anniversary, refDate, Before, Date.mk.injEq] <;>
      (try split_ifs) <;> omega

theorem anniversary_jd (k : YearKind) {d : Date} (hy : 2 ≤ d.year) :
    jd (anniversary (refDate k d)) ≤ jd (refDate k d) + 366 := by
  have key : ∀ y, 1 ≤ y → ∀ m dd, (m, dd) ∈ [((12:Int), (31:Int)), (12, 21), (3, 20), (9, 30)] →
      jd ⟨y + 1, m, dd⟩ ≤ jd ⟨y, m, dd⟩ + 366 := by
    intro y h1 m dd hm
    have hl := leap_facts (y + 1)
    unfold jd
    rw [julday_eq _ _ _ h1, julday_eq _ _ _ (by omega : 1 ≤ y + 1)]
    have e : y + 1 - 1 = y := by omega
    rw [e] at hl
    simp at hm
    rcases hm with ⟨rfl, rfl⟩ | ⟨rfl, rfl⟩ | ⟨rfl, rfl⟩ | ⟨rfl, rfl⟩ <;> simp <;> split_ifs <;>
      by_cases hc : civilLeap (y + 1) = true <;> simp [hc] at hl <;> omega
  cases k <;> simp only [anniversary, refDate]
  · exact key _ (by omega) _ _ (by simp)
  · exact key _ (by split_ifs <;> omega) _ _ (by simp)
  · exact key _ (by split_ifs <;> omega) _ _ (by simp)
  · exact key _ (by split_ifs <;> omega) _ _ (by simp)

theorem julian_range (k : YearKind) {d : Date} (h : Valid d) (hy : 2 ≤ d.year) :
    ∃ n, julian k d = some n ∧ 1 ≤ n ∧ n ≤ 366 := by
  refine ⟨_, julian_eq k h hy, ?_, ?_⟩
  · have := jd_mono (ref_valid k hy) h (ref_before k h)
    omega
  · have h1 := anniversary_jd k hy
    obtain ⟨h2, h3 | h3⟩ := anniversary_le k h hy
    · rw [← h3] at h1; omega
    · have := jd_mono h h2 h3; omega

theorem julian_one_iff (k : YearKind) {d : Date} (h : Valid d) (hy : 2 ≤ d.year) :
    julian k d = some 1 ↔ isFirstDay k d := by
  have hr := ref_valid k hy
  have hb := ref_before k h
  have hn := next_valid hr
  have hfirst : isFirstDay k (next (refDate k d)) := by
    cases k <;> simp [isFirstDay, refDate, next, monthLength]
  rw [julian_eq k h hy]
  have hnj := jd_next hr
  constructor
  · intro he
    have he := Option.some.inj he
    have : jd d = jd (next (refDate k d)) := by omega
    rcases Before.trichotomy d (next (refDate k d)) with h1 | h1 | h1
    · have := jd_mono h hn h1; omega
    · rw [h1]; exact hfirst
    · have := jd_mono hn h h1; omega
  · intro hf
    have : d = next (refDate k d) := by
      obtain ⟨y, m, dd⟩ := d
      cases k <;> simp only [isFirstDay] at hf <;> obtain ⟨rfl, rfl⟩ := hf <;>
        simp [refDate, next, monthLength]
    congr 1
    have h2 : jd d = jd (next (refDate k d)) := congrArg jd this
    omega

theorem isleap_eq {y : Int} (h : 1582 < y) : isleap y = if civilLeap y then 1 else 0 := by
  have hc := civilLeap_iff y
  unfold isleap
  by_cases hcl : civilLeap y = true
  · have := hc.1 hcl
    rw [if_pos hcl]
    split_ifs <;> omega
  · have h2 := mt hc.2 hcl
    rw [if_neg hcl]
    split_ifs <;> omega

theorem jd_newyear {y : Int} (h : 1582 < y) :
    julday ⟨y, 1, 1⟩ =
      some (365 * (y - 1) + (y - 1) / 4 - (y - 1) / 100 + (y - 1) / 400 + 1721426) := by
  rw [julday_eq _ _ _ (by omega)]
  simp only [show ¬ ((1 : Int) > 2) by omega, if_false]
  rw [if_pos (by omega)]
  congr 1
  omega

theorem leap_year_days {y : Int} (h : 1582 < y) :
    ∃ a b, julday ⟨y, 1, 1⟩ = some a ∧ julday ⟨y + 1, 1, 1⟩ = some b ∧
      (isleap y = 1 ↔ b - a = 366) ∧ (isleap y = 0 ↔ b - a = 365) ∧
      (isleap y = 1 ∨ isleap y = 0) := by
  refine ⟨_, _, jd_newyear h, jd_newyear (by omega), ?_⟩
  have hl := leap_facts y
  have e : y + 1 - 1 = y := by omega
  rw [isleap_eq h, e]
  generalize (y - 1) / 4 = a4 at *
  generalize (y - 1) / 100 = a100 at *
  generalize (y - 1) / 400 = a400 at *
  generalize y / 4 = b4 at *
  generalize y / 100 = b100 at *
  generalize y / 400 = b400 at *
  by_cases hcl : civilLeap y = true
  · have := hl.2.1 hcl h
    rw [if_pos hcl]
    clear hl
    refine ⟨⟨fun _ => ?_, fun _ => rfl⟩, ⟨fun h => ?_, fun h => ?_⟩, Or.inl rfl⟩ <;> omega
  · have := hl.2.2.2 hcl h
    rw [if_neg hcl]
    clear hl
    refine ⟨⟨fun h => ?_, fun h => ?_⟩, ⟨fun _ => ?_, fun _ => rfl⟩, Or.inr rfl⟩ <;> omega

theorem weekday_next {d : Date} (h : Valid d) :
    ∃ a b, julday d = some a ∧ julday (next d) = some b ∧
      0 ≤ dayofweek a ∧ dayofweek a ≤ 6 ∧ dayofweek b = (dayofweek a + 1) % 7 := by
  obtain ⟨n, h1, h2⟩ := julday_next h
  refine ⟨_, _, h1, h2, ?_⟩
  have : jd d = n := by simp [jd, h1]
  have hp := jd_pos h
  unfold dayofweek
  rw [Int.tmod_eq_emod_of_nonneg (by omega), Int.tmod_eq_emod_of_nonneg (by omega)]
  omega

end Verif.Calendar
