import Verif.Spec.Soltab
import Mathlib.Analysis.SpecialFunctions.Integrals.Basic
import Mathlib.Analysis.Real.Pi.Bounds
/-
Lemmas for C140.
-/
namespace Verif.Soltab
open Real

theorem cos_pos_between {x : ℝ} (h : Between x) : 0 < cos x := cos_pos_of_mem_Ioo ⟨h.1, h.2⟩

/-- The sine of the elevation by the product of tangents. -/
theorem sunUp_eq {l d : ℝ} (hl : Between l) (hd : Between d) (h : ℝ) : sunUp l d h = cos l * cos d * (cos h - -tan l * tan d) := by
  have h1 := (cos_pos_between hl).ne'
  have h2 := (cos_pos_between hd).ne'
  unfold sunUp
  rw [tan_eq_sin_div_cos, tan_eq_sin_div_cos]
  field_simp
  ring

theorem halfDay_eq {l d : ℝ} (h : RisesAndSets l d) : halfDay l d = arccos (-tan l * tan d) := by
  unfold halfDay
  simp only
  rw [if_neg (not_lt.mpr h.1), if_neg (not_lt.mpr h.2)]

theorem cos_halfDay {l d : ℝ} (h : RisesAndSets l d) : cos (halfDay l d) = -tan l * tan d := by
  rw [halfDay_eq h, cos_arccos h.1 h.2]

theorem halfDay_mem {l d : ℝ} (h : RisesAndSets l d) : 0 ≤ halfDay l d ∧ halfDay l d ≤ π := by
  rw [halfDay_eq h]
  exact ⟨arccos_nonneg _, arccos_le_pi _⟩

/-- Sunrise and sunset. -/
theorem up_iff {l d : ℝ} (hl : Between l) (hd : Between d) (hr : RisesAndSets l d) {h : ℝ} (h1 : -π ≤ h) (h2 : h ≤ π) :
    0 < sunUp l d h ↔ |h| < halfDay l d := by
  have hp := mul_pos (cos_pos_between hl) (cos_pos_between hd)
  obtain ⟨m1, m2⟩ := halfDay_mem hr
  rw [sunUp_eq hl hd, ← cos_halfDay hr, mul_pos_iff_of_pos_left hp, sub_pos, ← cos_abs h]
  exact strictAntiOn_cos.lt_iff_gt ⟨m1, m2⟩ ⟨abs_nonneg h, abs_le.mpr ⟨h1, h2⟩⟩

/-- `x cos x ≤ sin x` up to noon of the other side. -/
theorem mul_cos_lt_sin {x : ℝ} (h0 : 0 < x) (h1 : x ≤ π) : x * cos x < sin x := by
  rcases lt_or_ge x (π / 2) with h | h
  · have hc : 0 < cos x := cos_pos_of_mem_Ioo ⟨by linarith [pi_pos], h⟩
    have := lt_tan h0 h
    rw [tan_eq_sin_div_cos, lt_div_iff₀ hc] at this
    exact this
  · rcases h.lt_or_eq with h | h
    · have hc : cos x < 0 := cos_neg_of_pi_div_two_lt_of_lt h (by linarith)
      have hs : 0 ≤ sin x := sin_nonneg_of_nonneg_of_le_pi h0.le h1
      have := mul_neg_of_pos_of_neg h0 hc
      linarith
    · rw [← h]
      simp

/-- The integral of the statement function. -/
theorem func3_integral (r1 d v w x y : ℝ) :
    func3 r1 d v w x y = r1 * ∫ h in y..x, (3.8197 * (sin d * sin w) + 12 / 3.14159 * (cos d * cos w * cos (h + v))) := by
  have e1 : ∫ h in y..x, cos (h + v) = sin (x + v) - sin (y + v) := by
    rw [intervalIntegral.integral_comp_add_right (fun h => cos h) v, integral_cos]
  have e2 : ∫ h in y..x, (3.8197 * (sin d * sin w) + 12 / 3.14159 * (cos d * cos w * cos (h + v))) =
      (x - y) * (3.8197 * (sin d * sin w)) + 12 / 3.14159 * (cos d * cos w * (sin (x + v) - sin (y + v))) := by
    rw [intervalIntegral.integral_add, intervalIntegral.integral_const, intervalIntegral.integral_const_mul,
      intervalIntegral.integral_const_mul, e1, smul_eq_mul]
    · exact intervalIntegrable_const
    · exact ((continuous_const.mul (continuous_const.mul (continuous_cos.comp (continuous_id.add continuous_const))))).intervalIntegrable _ _
  rw [e2]
  unfold func3
  ring

/-- Unit vectors. -/
theorem unit_vector (i a l : ℝ) :
    (cos i * sin l + sin i * cos l * cos a) ^ 2 + (cos i * cos l - sin i * sin l * cos a) ^ 2 + (sin i * sin a) ^ 2 = 1 := by
  have h1 := sin_sq_add_cos_sq i
  have h2 := sin_sq_add_cos_sq a
  have h3 := sin_sq_add_cos_sq l
  have : (cos i * sin l + sin i * cos l * cos a) ^ 2 + (cos i * cos l - sin i * sin l * cos a) ^ 2 + (sin i * sin a) ^ 2 =
      cos i ^ 2 * (sin l ^ 2 + cos l ^ 2) + sin i ^ 2 * (cos a ^ 2 * (sin l ^ 2 + cos l ^ 2) + sin a ^ 2) := by ring
  rw [this, h3]
  have h4 : cos a ^ 2 * 1 + sin a ^ 2 = 1 := by linarith
  rw [h4]
  linarith

/-- Latitude and longitude of the parallel surface. -/
theorem parallel (s : Surface) (h : 0 < cos s.i * cos s.l0 - sin s.i * sin s.l0 * cos s.a) :
    sin s.l1 = cos s.i * sin s.l0 + sin s.i * cos s.l0 * cos s.a ∧
    cos s.l1 * cos s.l2 = cos s.i * cos s.l0 - sin s.i * sin s.l0 * cos s.a ∧ cos s.l1 * sin s.l2 = sin s.i * sin s.a := by
  have hu := unit_vector s.i s.a s.l0
  have hd : s.d1 = cos s.i * cos s.l0 - sin s.i * sin s.l0 * cos s.a := by
    unfold Surface.d1
    simp only
    rw [if_neg h.ne']
  have hl2 : s.l2 = arctan (sin s.i * sin s.a / s.d1) := by
    unfold Surface.l2
    rw [if_neg (by rw [hd]; exact not_lt.mpr h.le), add_zero]
  generalize hA : cos s.i * sin s.l0 + sin s.i * cos s.l0 * cos s.a = A at *
  generalize hD : cos s.i * cos s.l0 - sin s.i * sin s.l0 * cos s.a = D at *
  generalize hS : sin s.i * sin s.a = S at *
  have hA1 : A ^ 2 ≤ 1 := by nlinarith [sq_nonneg D, sq_nonneg S]
  have hAb := abs_le.mp ((sq_le_one_iff_abs_le_one A).mp hA1)
  have hs : sin s.l1 = A := by
    unfold Surface.l1
    rw [hA, sin_arcsin hAb.1 hAb.2]
  have hc : cos s.l1 = √(D ^ 2 + S ^ 2) := by
    unfold Surface.l1
    rw [hA, cos_arcsin]
    congr 1
    linarith
  have hD2 : √(1 + (S / D) ^ 2) = √(D ^ 2 + S ^ 2) / D := by
    rw [eq_div_iff h.ne']
    nth_rewrite 2 [← sqrt_sq h.le]
    rw [← sqrt_mul (by positivity)]
    congr 1
    field_simp
  have hpos : 0 < √(D ^ 2 + S ^ 2) := sqrt_pos.mpr (by positivity)
  refine ⟨hs, ?_, ?_⟩
  · rw [hl2, hd, cos_arctan, hc, hD2]
    field_simp
  · rw [hl2, hd, sin_arctan, hc, hD2]
    field_simp

theorem pi_d : (3.14159 : ℝ) < π := by
  have := pi_gt_d6
  norm_num at this ⊢
  linarith

/-- The declinations of the table are less than 30 degrees. -/
theorem dm_bound : ∀ d ∈ dm, |d| < π / 6 := by
  have := pi_d
  have h6 : (0.5 : ℝ) < π / 6 := by norm_num at this ⊢; linarith
  intro d hd
  unfold dm at hd
  simp only [List.mem_cons, List.not_mem_nil, or_false] at hd
  rw [abs_lt]
  rcases hd with rfl | rfl | rfl | rfl | rfl | rfl | rfl | rfl | rfl | rfl | rfl | rfl | rfl <;> constructor <;> norm_num <;> norm_num at h6 <;> linarith

/-- Up to 60 degrees the sun rises and sets every day. -/
theorem rises_and_sets {lat : ℝ} (h1 : -60 ≤ lat) (h2 : lat ≤ 60) {d : ℝ} (hd : |d| < π / 6) :
    Between (lat / 57.2958) ∧ Between d ∧ -1 < -tan (lat / 57.2958) * tan d ∧ -tan (lat / 57.2958) * tan d < 1 := by
  have hp := pi_gt_d6
  have hl : |lat / 57.2958| ≤ π / 3 := by
    rw [abs_le]
    constructor
    · rw [le_div_iff₀ (by norm_num)]
      norm_num at hp ⊢
      linarith
    · rw [div_le_iff₀ (by norm_num)]
      norm_num at hp ⊢
      linarith
  have hb : ∀ x : ℝ, |x| ≤ π / 3 → Between x := by
    intro x hx
    have := abs_le.mp hx
    exact ⟨by linarith [pi_pos], by linarith [pi_pos]⟩
  have hdb : Between d := hb d (by linarith [pi_pos])
  have hlb := hb _ hl
  refine ⟨hlb, hdb, ?_⟩
  have t3 : |tan (lat / 57.2958)| ≤ √3 := by
    rw [abs_le, ← tan_pi_div_three]
    obtain ⟨a, b⟩ := abs_le.mp hl
    have m : Between (π / 3) := hb _ (by rw [abs_of_pos (by linarith [pi_pos])])
    have m' : Between (-(π / 3)) := hb _ (by rw [abs_neg, abs_of_pos (by linarith [pi_pos])])
    refine ⟨?_, ?_⟩
    · rw [← tan_neg]
      exact strictMonoOn_tan.monotoneOn ⟨m'.1, m'.2⟩ ⟨hlb.1, hlb.2⟩ a
    · exact strictMonoOn_tan.monotoneOn ⟨hlb.1, hlb.2⟩ ⟨m.1, m.2⟩ b
  have t6 : |tan d| < 1 / √3 := by
    rw [abs_lt, ← tan_pi_div_six]
    obtain ⟨a, b⟩ := abs_lt.mp hd
    have m : Between (π / 6) := hb _ (by rw [abs_of_pos (by linarith [pi_pos])]; linarith [pi_pos])
    have m' : Between (-(π / 6)) := hb _ (by rw [abs_neg, abs_of_pos (by linarith [pi_pos])]; linarith [pi_pos])
    refine ⟨?_, ?_⟩
    · rw [← tan_neg]
      exact strictMonoOn_tan ⟨m'.1, m'.2⟩ ⟨hdb.1, hdb.2⟩ a
    · exact strictMonoOn_tan ⟨hdb.1, hdb.2⟩ ⟨m.1, m.2⟩ b
  have h3 : (0 : ℝ) < √3 := by positivity
  have : |-tan (lat / 57.2958) * tan d| < 1 := by
    rw [abs_mul, abs_neg]
    calc |tan (lat / 57.2958)| * |tan d| ≤ √3 * |tan d| := mul_le_mul_of_nonneg_right t3 (abs_nonneg _)
      _ < √3 * (1 / √3) := mul_lt_mul_of_pos_left t6 h3
      _ = 1 := by field_simp
  exact abs_lt.mp this

end Verif.Soltab
