import Verif.Spec.TspUniform
import Verif.Lemmas.TspTransform
import Verif.Lemmas.TspDate
import Mathlib.Tactic.Linarith
import Mathlib.Tactic.FieldSimp
import Mathlib.Logic.Function.Iterate
/-
Helper lemmas for C134.
-/
namespace Verif.Tsp

theorem later_iff {a b : Clock} (ha : a.Proper) (hb : b.Proper) : later a b = true ↔ b.time < a.time := by
  unfold later Clock.time
  rw [decide_eq_true_eq]
  unfold Clock.Proper at ha hb
  omega

theorem day_eq {a b c a' b' c' : Int} (h1 : a = a') (h2 : b = b') (h3 : c = c') : (⟨a, b, c⟩ : Day) = ⟨a', b', c'⟩ := by
  rw [h1, h2, h3]

theorem year_part (z : Int) :
    1461 * (z + 4800) / 4 - 3 * ((z + 4900) / 100) / 4 + 365 ≤ 1461 * (z + 1 + 4800) / 4 - 3 * ((z + 1 + 4900) / 100) / 4 := by
  generalize ha : (z + 4900) / 100 = a
  generalize hb : (z + 1 + 4900) / 100 = b
  have hab : b = a ∨ (b = a + 1 ∧ 4 ∣ z + 1) := by omega
  rcases hab with rfl | ⟨rfl, t, ht⟩
  · clear ha hb; omega
  · have : z = 4 * t - 1 := by omega
    subst this
    clear ha hb
    omega

/-- Years that are used by `julianDay` for a month. -/
theorem jd_month (y m d : Int) (hm : 1 ≤ m ∧ m ≤ 12) :
    jd ⟨y, m, d⟩ + 28 ≤ jd ⟨(12 * y + m - 1 + 1) / 12, (12 * y + m - 1 + 1) % 12 + 1, d⟩ := by
  by_cases h12 : m = 12
  · subst h12
    have e1 : (12 * y + 12 - 1 + 1) / 12 = y + 1 := by omega
    have e2 : (12 * y + 12 - 1 + 1) % 12 + 1 = 1 := by omega
    rw [e1, e2]
    unfold jd
    norm_num
    omega
  · have e1 : (12 * y + m - 1 + 1) / 12 = y := by omega
    have e2 : (12 * y + m - 1 + 1) % 12 + 1 = m + 1 := by omega
    rw [e1, e2]
    by_cases h2 : m = 2
    · subst h2
      unfold jd
      norm_num
      have := year_part (y - 1)
      rw [sub_add_cancel] at this
      omega
    · have hm' : m = 1 ∨ (3 ≤ m ∧ m ≤ 11) := by omega
      unfold jd
      rcases hm' with rfl | ⟨h3, h4⟩
      · norm_num; omega
      · simp only
        rw [if_neg (by omega), if_neg (by omega), if_neg (by omega), if_neg (by omega)]
        omega

theorem monthsLater_month (d : Day) (k : Int) : 1 ≤ (monthsLater d k).month ∧ (monthsLater d k).month ≤ 12 := by
  unfold monthsLater
  simp only
  omega

theorem monthsLater_zero (d : Day) (h : 1 ≤ d.month ∧ d.month ≤ 12) : monthsLater d 0 = d := by
  obtain ⟨y, m, k⟩ := d
  simp only at h
  unfold monthsLater
  exact day_eq (by simp only; omega) (by simp only; omega) rfl

theorem monthsLater_add (d : Day) (j k : Int) : monthsLater (monthsLater d j) k = monthsLater d (j + k) := by
  unfold monthsLater
  exact day_eq (by simp only; omega) (by simp only; omega) rfl

theorem jd_months (d : Day) (h : 1 ≤ d.month ∧ d.month ≤ 12) (n : Nat) : jd d + 28 * n ≤ jd (monthsLater d n) := by
  induction n with
  | zero => simp [monthsLater_zero d h]
  | succ n ih =>
    have := jd_month (monthsLater d n).year (monthsLater d n).month (monthsLater d n).day (monthsLater_month d n)
    have e : (⟨(12 * (monthsLater d n).year + (monthsLater d n).month - 1 + 1) / 12,
        (12 * (monthsLater d n).year + (monthsLater d n).month - 1 + 1) % 12 + 1, (monthsLater d n).day⟩ : Day) =
        monthsLater (monthsLater d n) 1 := rfl
    rw [e, monthsLater_add] at this
    push_cast
    have e2 : jd ⟨(monthsLater d n).year, (monthsLater d n).month, (monthsLater d n).day⟩ = jd (monthsLater d n) := rfl
    omega

theorem monthsLater_years (d : Day) (h : 1 ≤ d.month ∧ d.month ≤ 12) (k : Int) : monthsLater d (12 * k) = ⟨d.year + k, d.month, d.day⟩ := by
  unfold monthsLater
  exact day_eq (by omega) (by omega) rfl

theorem jd_year (y m d : Int) : jd ⟨y, m, d⟩ + 365 ≤ jd ⟨y + 1, m, d⟩ := by
  unfold jd
  simp only
  split
  · have := year_part (y - 1)
    have e : y + 1 - 1 = y - 1 + 1 := by ring
    rw [e]
    omega
  · have := year_part y
    omega

theorem jd_years (y m d : Int) (n : Nat) : jd ⟨y, m, d⟩ + 365 * n ≤ jd ⟨y + n, m, d⟩ := by
  induction n with
  | zero => simp
  | succ n ih =>
    have := jd_year (y + n) m d
    push_cast
    rw [← add_assoc]
    omega

theorem monthsLater_year (d : Day) (h : 1 ≤ d.month ∧ d.month ≤ 12) (k : Nat) : d.year ≤ (monthsLater d k).year := by
  unfold monthsLater
  simp only
  omega

theorem rollYear_eq (mm yy : Int) (h : 1 ≤ mm) : rollYear mm yy = ((mm - 1) % 12 + 1, yy + (mm - 1) / 12) := by
  induction mm, yy using rollYear.induct with
  | case1 mm yy h1 ih =>
    rw [rollYear, if_pos h1, ih (by omega)]
    simp only [Prod.mk.injEq]
    omega
  | case2 mm yy h1 =>
    rw [rollYear, if_neg h1]
    simp only [Prod.mk.injEq]
    omega

/-- The loop: terms as long as they are not after the end; there is room if every step takes long enough. -/
theorem uniformLoop_spec (adv : Cursor → Cursor) (e : Clock) (he : e.Proper) (c : Nat → Cursor) (hc : ∀ k, c (k + 1) = adv (c k))
    (hp : ∀ k, (c k).at_.Proper) (T : Int) (ht : ∀ k, (c k).at_.time + T ≤ (c (k + 1)).at_.time) (room : Nat) :
    ∀ k, (c k).at_.time ≤ e.time → e.time - (c k).at_.time < room * T → ∃ N : Nat,
      uniformLoop adv e room (c k) = some ((List.range' k (N + 1)).map fun j => (c j).at_) ∧
      (c (k + N)).at_.time ≤ e.time ∧ e.time < (c (k + N + 1)).at_.time := by
  induction room with
  | zero => intro k h1 h2; simp at h2; omega
  | succ room ih =>
    intro k h1 h2
    rw [uniformLoop, ← hc]
    by_cases hl : e.time < (c (k + 1)).at_.time
    · rw [if_pos ((later_iff (hp _) he).2 hl)]
      exact ⟨0, by simp, h1, hl⟩
    · rw [if_neg (by rw [later_iff (hp _) he]; exact hl)]
      have := ht k
      obtain ⟨N, e1, e2, e3⟩ := ih (k + 1) (by omega) (by push_cast at h2; rw [add_mul] at h2; omega)
      refine ⟨N + 1, ?_, ?_, ?_⟩
      · rw [e1, Option.map_some, List.range'_succ (n := N + 1)]; rfl
      · rw [show k + (N + 1) = k + 1 + N by omega]; exact e2
      · rw [show k + (N + 1) + 1 = k + 1 + N + 1 by omega]; exact e3

theorem room_enough (diff T : Int) (h : 0 < T) (h0 : 0 ≤ diff) :
    diff < ((⌈(diff : Rat) / (T : Int)⌉.toNat + 20 - 1 : Nat) : Int) * T := by
  have h1 : (diff : Rat) / T ≤ ⌈(diff : Rat) / (T : Int)⌉ := Int.le_ceil _
  have hT : (0 : Rat) < T := by exact_mod_cast h
  rw [div_le_iff₀ hT] at h1
  have h2 : diff ≤ ⌈(diff : Rat) / (T : Int)⌉ * T := by exact_mod_cast h1
  have h3 : ⌈(diff : Rat) / (T : Int)⌉ + 19 ≤ ((⌈(diff : Rat) / (T : Int)⌉.toNat + 20 - 1 : Nat) : Int) := by omega
  nlinarith

end Verif.Tsp
