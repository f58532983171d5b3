import Verif.Lemmas.Soltab
import Verif.Model.Solar
/-
C140: the table of potential radiation.
-/
namespace Verif.Soltab
open Real

/-- The days of the table are exactly those that are read on the days of a simulation. -/
theorem C140_days (s : Surface) : (solTable s).map Prod.fst = Solar.sday := by
  unfold solTable jday e dm Solar.sday
  simp

/-- The angles are those of the unit: slope is the tangent of the inclination, aspect and latitude are in degrees, up to the rounding of a
constant. -/
theorem C140_angles (s : Surface) : tan s.i = s.slope ∧ |s.a - s.aspect * (π / 180)| ≤ |s.aspect| * 0.00000001 ∧
    |s.l0 - s.lat * (π / 180)| ≤ |s.lat| * 0.00000001 := by
  have key : ∀ x : ℝ, |x / 57.2958 - x * (π / 180)| ≤ |x| * 0.00000001 := by
    intro x
    have h1 := pi_gt_d6
    have h2 := pi_lt_d6
    rw [show x / 57.2958 - x * (π / 180) = x * (1 / 57.2958 - π / 180) by ring, abs_mul]
    refine mul_le_mul_of_nonneg_left ?_ (abs_nonneg _)
    rw [abs_le]
    constructor <;> norm_num at h1 h2 ⊢ <;> linarith
  exact ⟨tan_arctan _, key _, key _⟩

/-- Every element of the table is computed with an eccentricity between 1.9 and 2.1 and a declination between those of the solstices, and
up to 60 degrees of latitude the sun rises and sets on all of these days. -/
theorem C140_entries (s : Surface) (x : ℕ × ℝ × ℝ) (hx : x ∈ solTable s) :
    ∃ r d, x.2 = entry s r d ∧ 114 < r ∧ r < 126 ∧ |d| < π / 6 ∧
      (-60 ≤ s.lat → s.lat ≤ 60 → Between s.l0 ∧ Between d ∧ RisesAndSets s.l0 d) := by
  unfold solTable at hx
  obtain ⟨⟨j, c, d⟩, hm, rfl⟩ := List.mem_map.mp hx
  have h2 := List.of_mem_zip hm
  have h3 := List.of_mem_zip h2.2
  have hb := dm_bound d h3.2
  have he : ∀ c ∈ e, (1.9 : ℝ) < c ∧ c < 2.1 := by
    intro c hc
    unfold e at hc
    simp only [List.mem_cons, List.not_mem_nil, or_false] at hc
    rcases hc with rfl | rfl | rfl | rfl | rfl | rfl | rfl | rfl | rfl | rfl | rfl | rfl | rfl <;> norm_num
  obtain ⟨e1, e2⟩ := he c h3.1
  refine ⟨60 * c, d, rfl, by norm_num at e1 ⊢; linarith, by norm_num at e2 ⊢; linarith, hb, fun l1 l2 => ?_⟩
  obtain ⟨h4, h5, h6, h7⟩ := rises_and_sets l1 l2 hb
  exact ⟨h4, h5, h6.le, h7.le⟩

/-- The sun is above the horizon exactly for hour angles less than the one computed. -/
theorem C140_sunset (l d : ℝ) (hl : Between l) (hd : Between d) (hr : RisesAndSets l d) (h : ℝ) (h1 : -π ≤ h) (h2 : h ≤ π) :
    0 < sunUp l d h ↔ |h| < halfDay l d := up_iff hl hd hr h1 h2

private theorem sin_diff (x y : ℝ) (h : y ≤ x) : |sin x - sin y| ≤ x - y := by
  rw [sin_sub_sin, abs_mul, abs_mul]
  have h1 : |sin ((x - y) / 2)| ≤ (x - y) / 2 := by
    have := abs_sin_le_abs (x := (x - y) / 2)
    rwa [abs_of_nonneg (by linarith : 0 ≤ (x - y) / 2)] at this
  have h2 := abs_cos_le_one ((x + y) / 2)
  rw [abs_of_pos (by norm_num : (0 : ℝ) < 2)]
  calc 2 * |sin ((x - y) / 2)| * |cos ((x + y) / 2)| ≤ 2 * |sin ((x - y) / 2)| * 1 :=
        mul_le_mul_of_nonneg_left h2 (by positivity)
    _ ≤ x - y := by linarith

private theorem const_a : |3.8197 - 12 / π| ≤ 0.00003 := by
  have h1 := pi_gt_d6
  have h2 := pi_lt_d6
  have hp := pi_pos
  norm_num at h1 h2
  have e1 : 12 / π ≤ 3.81973 := by rw [div_le_iff₀ hp]; norm_num; linarith
  have e2 : 3.81971 ≤ 12 / π := by rw [le_div_iff₀ hp]; norm_num; linarith
  rw [abs_le]
  norm_num at e1 e2 ⊢
  constructor <;> linarith

private theorem const_b : |12 / 3.14159 - 12 / π| ≤ 0.00002 := by
  have h1 := pi_gt_d6
  have h2 := pi_lt_d6
  have hp := pi_pos
  norm_num at h1 h2
  have e1 : 12 / π ≤ 3.81973 := by rw [div_le_iff₀ hp]; norm_num; linarith
  have e2 : 3.81971 ≤ 12 / π := by rw [le_div_iff₀ hp]; norm_num; linarith
  rw [abs_le]
  norm_num at e1 e2 ⊢
  constructor <;> linarith

/-- The closed form is the integral over the time between two hour angles, up to the rounding of constants. -/
theorem C140_integral (r1 d v w x y : ℝ) (hr : 0 ≤ r1) (h : y ≤ x) :
    |func3 r1 d v w x y - r1 * (12 / π * ∫ h in y..x, sunUp w d (h + v))| ≤ r1 * (0.00005 * (x - y)) := by
  have e1 : ∫ h in y..x, cos (h + v) = sin (x + v) - sin (y + v) := by
    rw [intervalIntegral.integral_comp_add_right (fun h => cos h) v, integral_cos]
  have e2 : ∫ h in y..x, sunUp w d (h + v) = (x - y) * (sin w * sin d) + cos w * cos d * (sin (x + v) - sin (y + v)) := by
    unfold sunUp
    rw [intervalIntegral.integral_add, intervalIntegral.integral_const, intervalIntegral.integral_const_mul, e1, smul_eq_mul]
    · exact intervalIntegrable_const
    · exact (continuous_const.mul (continuous_cos.comp (continuous_id.add continuous_const))).intervalIntegrable _ _
  have hs := sin_diff (x + v) (y + v) (by linarith)
  rw [show x + v - (y + v) = x - y by ring] at hs
  have hss : |sin w * sin d| ≤ 1 := by
    rw [abs_mul]
    exact mul_le_one₀ (abs_sin_le_one w) (abs_nonneg _) (abs_sin_le_one d)
  have hcc : |cos w * cos d| ≤ 1 := by
    rw [abs_mul]
    exact mul_le_one₀ (abs_cos_le_one w) (abs_nonneg _) (abs_cos_le_one d)
  have key : func3 r1 d v w x y - r1 * (12 / π * ∫ h in y..x, sunUp w d (h + v)) =
      r1 * ((3.8197 - 12 / π) * ((x - y) * (sin w * sin d)) + (12 / 3.14159 - 12 / π) * (cos w * cos d * (sin (x + v) - sin (y + v)))) := by
    rw [e2]
    unfold func3
    ring
  rw [key, abs_mul, abs_of_nonneg hr]
  refine mul_le_mul_of_nonneg_left ?_ hr
  refine (abs_add_le _ _).trans ?_
  have hxy : 0 ≤ x - y := by linarith
  have b1 : |(3.8197 - 12 / π) * ((x - y) * (sin w * sin d))| ≤ 0.00003 * (x - y) := by
    rw [abs_mul, abs_mul, abs_of_nonneg hxy]
    exact mul_le_mul const_a (mul_le_of_le_one_right hxy hss) (by positivity) (by norm_num)
  have b2 : |(12 / 3.14159 - 12 / π) * (cos w * cos d * (sin (x + v) - sin (y + v)))| ≤ 0.00002 * (x - y) := by
    rw [abs_mul, abs_mul (cos w * cos d)]
    refine mul_le_mul const_b ?_ (by positivity) (by norm_num)
    calc |cos w * cos d| * |sin (x + v) - sin (y + v)| ≤ 1 * (x - y) := mul_le_mul hcc hs (abs_nonneg _) (by norm_num)
      _ = x - y := one_mul _
  norm_num at b1 b2 ⊢
  linarith

/-! ### Level units -/

private theorem entry_flat (s : Surface) (hs : s.slope = 0) (r d : ℝ) :
    entry s r d = (func3 r d 0 s.l0 (halfDay s.l0 d) (-halfDay s.l0 d), (halfDay s.l0 d - -halfDay s.l0 d) * 3.8197 / 12) := by
  unfold entry
  simp only
  rw [if_pos (by unfold Surface.i; rw [hs, arctan_zero])]

/-- A level unit gets what comes in between sunrise and sunset, and hours are counted from sunrise to sunset. -/
theorem C140_level (s : Surface) (hs : s.slope = 0) (r d : ℝ) (hr : 0 ≤ r) (h1 : RisesAndSets s.l0 d) :
    |(entry s r d).1 - r * (12 / π * ∫ h in (-halfDay s.l0 d)..(halfDay s.l0 d), sunUp s.l0 d h)| ≤ r * (0.0001 * halfDay s.l0 d) ∧
    (entry s r d).2 = 2 * halfDay s.l0 d * 3.8197 / 12 := by
  rw [entry_flat s hs]
  have hn := (halfDay_mem h1).1
  refine ⟨?_, by simp only; ring⟩
  have := C140_integral r d 0 s.l0 (halfDay s.l0 d) (-halfDay s.l0 d) hr (by linarith)
  simp only [add_zero] at this
  refine this.trans (mul_le_mul_of_nonneg_left ?_ hr)
  norm_num
  linarith

/-- Up to 60 degrees of latitude all entries of a level unit are positive, so that later divisions by them are defined. -/
theorem C140_level_positive (s : Surface) (hs : s.slope = 0) (h1 : -60 ≤ s.lat) (h2 : s.lat ≤ 60) (x : ℕ × ℝ × ℝ) (hx : x ∈ solTable s) :
    0 < x.2.1 ∧ 0 < x.2.2 := by
  obtain ⟨r, d, e, hr, -, hd, -⟩ := C140_entries s x hx
  obtain ⟨b1, b2, t1, t2⟩ := rises_and_sets h1 h2 hd
  have b1' : Between s.l0 := b1
  have hrs : RisesAndSets s.l0 d := ⟨t1.le, t2.le⟩
  have hpos : 0 < halfDay s.l0 d := by
    rw [halfDay_eq hrs]
    exact arccos_pos.mpr t2
  have hle := (halfDay_mem hrs).2
  rw [e, entry_flat s hs]
  refine ⟨?_, by simp only; norm_num; linarith⟩
  have hc := mul_pos (cos_pos_between b1') (cos_pos_between b2)
  have hss : sin d * sin s.l0 = -(cos s.l0 * cos d * cos (halfDay s.l0 d)) := by
    rw [cos_halfDay hrs, tan_eq_sin_div_cos, tan_eq_sin_div_cos]
    have := (cos_pos_between b1').ne'
    have := (cos_pos_between b2).ne'
    field_simp
  have hlt := mul_cos_lt_sin hpos hle
  have hsin : 0 ≤ sin (halfDay s.l0 d) := sin_nonneg_of_nonneg_of_le_pi hpos.le hle
  simp only [func3, add_zero, sin_neg]
  refine mul_pos (by linarith) ?_
  rw [hss]
  generalize halfDay s.l0 d = t at *
  have e2 : -(cos s.l0 * cos d * cos t) * (t - -t) * 3.8197 + cos d * cos s.l0 * (sin t - -sin t) * 12 / 3.14159 =
      cos s.l0 * cos d * (2 * 3.8197 * (sin t - t * cos t) + 2 * (12 / 3.14159 - 3.8197) * sin t) := by ring
  rw [e2]
  refine mul_pos hc ?_
  have p1 : 0 < 2 * 3.8197 * (sin t - t * cos t) := mul_pos (by norm_num) (by linarith)
  have p2 : 0 ≤ 2 * (12 / 3.14159 - 3.8197) * sin t := mul_nonneg (by norm_num) hsin
  linarith

/-- In the northern hemisphere days are longer for a greater declination, and day and night change places if the declination changes
its sign. -/
theorem C140_lengthen (s : Surface) (hs : s.slope = 0) (h1 : 0 ≤ s.lat) (h2 : s.lat ≤ 60) (r r' d d' : ℝ) (hd : |d| < π / 6) (hd' : |d'| < π / 6)
    (hle : d ≤ d') : (entry s r d).2 ≤ (entry s r' d').2 ∧ (entry s r d).2 + (entry s r (-d)).2 = 2 * π * 3.8197 / 12 := by
  have h0 : -60 ≤ s.lat := by linarith
  obtain ⟨b1, b2, t1, t2⟩ := rises_and_sets h0 h2 hd
  obtain ⟨-, b3, t3, t4⟩ := rises_and_sets h0 h2 hd'
  have hrs : RisesAndSets s.l0 d := ⟨t1.le, t2.le⟩
  have hrs' : RisesAndSets s.l0 d' := ⟨t3.le, t4.le⟩
  have hn : RisesAndSets s.l0 (-d) := by
    unfold RisesAndSets at hrs ⊢
    rw [tan_neg]
    constructor <;> linarith [hrs.1, hrs.2]
  rw [entry_flat s hs, entry_flat s hs, entry_flat s hs]
  simp only
  constructor
  · have htan : tan d ≤ tan d' := strictMonoOn_tan.monotoneOn ⟨b2.1, b2.2⟩ ⟨b3.1, b3.2⟩ hle
    have hl : 0 ≤ tan s.l0 := tan_nonneg_of_nonneg_of_le_pi_div_two (div_nonneg h1 (by norm_num)) (le_of_lt b1.2)
    have : halfDay s.l0 d ≤ halfDay s.l0 d' := by
      rw [halfDay_eq hrs, halfDay_eq hrs']
      refine arccos_le_arccos ?_
      have := mul_le_mul_of_nonneg_left htan hl
      linarith
    norm_num
    linarith
  · have : halfDay s.l0 (-d) = π - halfDay s.l0 d := by
      rw [halfDay_eq hrs, halfDay_eq hn, tan_neg, mul_neg, arccos_neg]
    rw [this]
    ring

/-! ### Inclined units -/

/-- The parallel level surface sees the sun as the unit does. -/
theorem C140_parallel (s : Surface) (h : 0 < cos s.i * cos s.l0 - sin s.i * sin s.l0 * cos s.a) (d t : ℝ) :
    sunUp s.l1 d (t + s.l2) = onSlope s.i s.a s.l0 d t := by
  obtain ⟨e1, e2, e3⟩ := parallel s h
  have : sunUp s.l1 d (t + s.l2) = sin s.l1 * sin d + cos d * (cos s.l1 * cos s.l2 * cos t - cos s.l1 * sin s.l2 * sin t) := by
    unfold sunUp
    rw [cos_add]
    ring
  rw [this, e1, e2, e3]
  unfold onSlope sunNorth sunEast sunUp
  ring

/-- An inclined unit gets what comes in while the sun is above the horizon and shines on it, and hours are counted for the same time.
Missing: units on which the sun can rise twice a day, and units so steep to the pole that the parallel level surface is beyond it. -/
theorem C140_inclined_partial (s : Surface) (hs : s.slope ≠ 0) (hd1 : 0 < cos s.i * cos s.l0 - sin s.i * sin s.l0 * cos s.a) (r d : ℝ)
    (hr : 0 ≤ r) (hl : Between s.l0) (hd : Between d) (h0 : RisesAndSets s.l0 d) (h1 : RisesAndSets s.l1 d)
    (honce : halfDay s.l0 d + halfDay s.l1 d + |s.l2| ≤ 6.28318) :
    ∃ b c, (∀ h, -π ≤ h → h ≤ π → ((0 < sunUp s.l0 d h ∧ 0 < onSlope s.i s.a s.l0 d h) ↔ b < h ∧ h < c)) ∧
      (entry s r d).2 = max 0 (c - b) * 3.8197 / 12 ∧
      |(entry s r d).1 - r * (12 / π * ∫ h in b..max b c, onSlope s.i s.a s.l0 d h)| ≤ r * (0.00005 * max 0 (c - b)) := by
  obtain ⟨e1, e2, e3⟩ := parallel s hd1
  have hD : s.d1 = cos s.i * cos s.l0 - sin s.i * sin s.l0 * cos s.a := by
    unfold Surface.d1
    simp only
    rw [if_neg hd1.ne']
  have hl2 : Between s.l2 := by
    unfold Surface.l2
    rw [if_neg (by rw [hD]; exact not_lt.mpr hd1.le), add_zero]
    exact ⟨neg_pi_div_two_lt_arctan _, arctan_lt_pi_div_two _⟩
  have hcl1 : 0 < cos s.l1 := by
    have := cos_pos_between hl2
    rw [← e2] at hd1
    exact pos_of_mul_pos_left hd1 this.le
  have hl1 : Between s.l1 := by
    unfold Surface.l1 at hcl1 ⊢
    refine ⟨lt_of_le_of_ne (neg_pi_div_two_le_arcsin _) fun h => ?_, lt_of_le_of_ne (arcsin_le_pi_div_two _) fun h => ?_⟩
    · rw [← h, cos_neg, cos_pi_div_two] at hcl1
      exact lt_irrefl _ hcl1
    · rw [h, cos_pi_div_two] at hcl1
      exact lt_irrefl _ hcl1
  have hi : s.i ≠ 0 := by
    unfold Surface.i
    rw [Ne, arctan_eq_zero_iff]
    exact hs
  obtain ⟨m1, m2⟩ := halfDay_mem h0
  obtain ⟨m3, m4⟩ := halfDay_mem h1
  obtain ⟨a1, a2⟩ := abs_le.mp (show |s.l2| ≤ 6.28318 - halfDay s.l0 d - halfDay s.l1 d by linarith)
  have hpar := C140_parallel s hd1 d
  have hpi := pi_d
  refine ⟨max (-halfDay s.l1 d - s.l2) (-halfDay s.l0 d), min (halfDay s.l1 d - s.l2) (halfDay s.l0 d), ?_, ?_⟩
  · intro h g1 g2
    rw [up_iff hl hd h0 g1 g2, ← hpar, max_lt_iff, lt_min_iff, abs_lt]
    have per : ∀ x, sunUp s.l1 d (x + 2 * π) = sunUp s.l1 d x := by
      intro x
      unfold sunUp
      rw [cos_add_two_pi]
    have hpi2 : (6.28318 : ℝ) < 2 * π := by norm_num at hpi ⊢; linarith
    by_cases hc1 : h + s.l2 > π
    · have e := up_iff hl1 hd h1 (h := h + s.l2 - 2 * π) (by linarith) (by linarith [hl2.2])
      rw [← per, sub_add_cancel] at e
      rw [e, abs_lt]
      constructor
      · rintro ⟨⟨p1, p2⟩, p3, p4⟩
        linarith
      · rintro ⟨⟨p1, p2⟩, p3, p4⟩
        linarith
    · by_cases hc2 : h + s.l2 < -π
      · have e := up_iff hl1 hd h1 (h := h + s.l2 + 2 * π) (by linarith [hl2.1]) (by linarith)
        rw [per] at e
        rw [e, abs_lt]
        constructor
        · rintro ⟨⟨p1, p2⟩, p3, p4⟩
          linarith
        · rintro ⟨⟨p1, p2⟩, p3, p4⟩
          linarith
      · rw [up_iff hl1 hd h1 (by linarith) (by linarith), abs_lt]
        constructor
        · rintro ⟨⟨p1, p2⟩, p3, p4⟩
          exact ⟨⟨by linarith, p1⟩, by linarith, p2⟩
        · rintro ⟨⟨p1, p2⟩, p3, p4⟩
          exact ⟨⟨p2, p4⟩, by linarith, by linarith⟩
  · have t3 : (if halfDay s.l1 d - s.l2 > halfDay s.l0 d then halfDay s.l0 d else halfDay s.l1 d - s.l2) =
        min (halfDay s.l1 d - s.l2) (halfDay s.l0 d) := by
      split
      · exact (min_eq_right (by linarith)).symm
      · exact (min_eq_left (by linarith)).symm
    have t2 : (if -halfDay s.l1 d - s.l2 < -halfDay s.l0 d then -halfDay s.l0 d else -halfDay s.l1 d - s.l2) =
        max (-halfDay s.l1 d - s.l2) (-halfDay s.l0 d) := by
      split
      · exact (max_eq_right (by linarith)).symm
      · exact (max_eq_left (by linarith)).symm
    have hentry : entry s r d = (func3 r d s.l2 s.l1
        (if min (halfDay s.l1 d - s.l2) (halfDay s.l0 d) ≥ max (-halfDay s.l1 d - s.l2) (-halfDay s.l0 d) then
          min (halfDay s.l1 d - s.l2) (halfDay s.l0 d) else 0)
        (if min (halfDay s.l1 d - s.l2) (halfDay s.l0 d) ≥ max (-halfDay s.l1 d - s.l2) (-halfDay s.l0 d) then
          max (-halfDay s.l1 d - s.l2) (-halfDay s.l0 d) else 0),
        ((if min (halfDay s.l1 d - s.l2) (halfDay s.l0 d) ≥ max (-halfDay s.l1 d - s.l2) (-halfDay s.l0 d) then
          min (halfDay s.l1 d - s.l2) (halfDay s.l0 d) else 0) -
        (if min (halfDay s.l1 d - s.l2) (halfDay s.l0 d) ≥ max (-halfDay s.l1 d - s.l2) (-halfDay s.l0 d) then
          max (-halfDay s.l1 d - s.l2) (-halfDay s.l0 d) else 0)) * 3.8197 / 12) := by
      unfold entry
      simp only
      rw [if_neg hi, t3, t2, if_neg (by linarith), if_neg (by linarith)]
    rw [hentry]
    generalize max (-halfDay s.l1 d - s.l2) (-halfDay s.l0 d) = b
    generalize min (halfDay s.l1 d - s.l2) (halfDay s.l0 d) = c
    by_cases hbc : b ≤ c
    · simp only [ge_iff_le, if_pos hbc]
      rw [max_eq_right (by linarith : 0 ≤ c - b), max_eq_right hbc]
      refine ⟨rfl, ?_⟩
      have := C140_integral r d s.l2 s.l1 c b hr hbc
      simp only [hpar] at this
      exact this
    · simp only [ge_iff_le, if_neg hbc]
      rw [max_eq_left (by linarith : c - b ≤ 0), max_eq_left (by linarith : c ≤ b)]
      refine ⟨by simp, ?_⟩
      rw [intervalIntegral.integral_same]
      simp [func3]

/-! ### What goes wrong -/

/-- The table that is declared as hours from sunrise to sunset has them in units of twelve hours: on a day on which the sun is up for twelve
hours everywhere the entry of a level unit is less than 1.001. -/
theorem C140_hours_violated (s : Surface) (hs : s.slope = 0) (r : ℝ) : halfDay s.l0 0 = π / 2 ∧ (entry s r 0).2 < 1.001 := by
  have hrs : RisesAndSets s.l0 0 := by
    unfold RisesAndSets
    rw [tan_zero]
    norm_num
  have h : halfDay s.l0 0 = π / 2 := by
    rw [halfDay_eq hrs, tan_zero, mul_zero, arccos_zero]
  refine ⟨h, ?_⟩
  rw [entry_flat s hs]
  simp only
  rw [h]
  have := pi_lt_d6
  norm_num at this ⊢
  linarith

/-! ### Examples -/

/-- A level unit at 40 degrees. -/
example : (⟨0, 0, 40⟩ : Surface).slope = 0 ∧ (-60 : ℝ) ≤ 40 ∧ (40 : ℝ) ≤ 60 ∧ (356, entry ⟨0, 0, 40⟩ (60 * 2.06699) (-0.410152)) ∈ solTable ⟨0, 0, 40⟩ := by
  refine ⟨rfl, by norm_num, by norm_num, ?_⟩
  unfold solTable jday e dm
  simp

/-- A unit that is inclined to the north at the equator on an equinox. -/
example : let s : Surface := ⟨1, 0, 0⟩
    s.slope ≠ 0 ∧ 0 < cos s.i * cos s.l0 - sin s.i * sin s.l0 * cos s.a ∧ Between s.l0 ∧ Between 0 ∧ RisesAndSets s.l0 0 ∧
      RisesAndSets s.l1 0 ∧ halfDay s.l0 0 + halfDay s.l1 0 + |s.l2| ≤ 6.28318 := by
  intro s
  have hl : s.l0 = 0 := by simp [s, Surface.l0]
  have ha : s.a = 0 := by simp [s, Surface.a]
  have hrs : ∀ x, RisesAndSets x 0 := by
    intro x
    unfold RisesAndSets
    rw [tan_zero]
    norm_num
  have hh : ∀ x, halfDay x 0 = π / 2 := by
    intro x
    rw [halfDay_eq (hrs x), tan_zero, mul_zero, arccos_zero]
  have hcos : 0 < cos s.i * cos s.l0 - sin s.i * sin s.l0 * cos s.a := by
    rw [hl, sin_zero, cos_zero, mul_one, mul_zero, zero_mul, sub_zero]
    exact cos_arctan_pos _
  have hl2 : s.l2 = 0 := by
    have hd : s.d1 = cos s.i * cos s.l0 - sin s.i * sin s.l0 * cos s.a := by
      unfold Surface.d1
      simp only
      rw [if_neg hcos.ne']
    unfold Surface.l2
    rw [if_neg (by rw [hd]; exact not_lt.mpr hcos.le), ha, sin_zero, mul_zero, zero_div, arctan_zero, add_zero]
  refine ⟨by simp [s], hcos, ?_, ?_, hrs _, hrs _, ?_⟩
  · rw [hl]
    exact ⟨by linarith [pi_pos], by linarith [pi_pos]⟩
  · exact ⟨by linarith [pi_pos], by linarith [pi_pos]⟩
  · rw [hh, hh, hl2, abs_zero]
    have := pi_lt_d6
    norm_num at this ⊢
    linarith

end Verif.Soltab
