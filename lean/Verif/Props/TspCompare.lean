import Verif.Lemmas.TspCompare
import Mathlib.Tactic.NormNum
/-
C135: comparison of series by TSPROC.
-/
namespace Verif.Tsp

/-- The terms compared are those of the period, if both series have the same times in it, at least three. -/
theorem C135_rows (b e : Clock) (hb : b.Proper) (he : e.Proper) (s o : List Term) (hs : Ordered s) (ho : Ordered o) :
    compareRows b e s o =
      if (within b e s).map Term.at_ = (within b e o).map Term.at_ ∧ 3 ≤ (within b e s).length then
        some (List.zipWith (fun p q => ⟨p.val, q.val⟩) (within b e s) (within b e o))
      else none := by
  obtain ⟨ib, ie, h1, h2⟩ := numterms_spec hb he hs
  obtain ⟨jb, je, h3, h4⟩ := numterms_spec hb he ho
  unfold compareRows
  simp only [h1, h3]
  by_cases hw : within b e s = []
  · rw [hw, List.length_nil]
    simp
  by_cases hv : within b e o = []
  · rw [hv, List.length_nil]
    simp [hw]
  rw [overlaps_spec hb he hs hw, overlaps_spec hb he ho hv, h2 hw, h4 hv]
  simp only [Bool.and_self, if_true]
  have e1 : (within b e s).length ≠ 0 := by rwa [Ne, List.length_eq_zero_iff]
  have e2 : (within b e o).length ≠ 0 := by rwa [Ne, List.length_eq_zero_iff]
  by_cases ht : (within b e s).map Term.at_ = (within b e o).map Term.at_
  · have hl : (within b e s).length = (within b e o).length := by
      have := congrArg List.length ht
      simpa using this
    by_cases h3 : 3 ≤ (within b e s).length
    · rw [if_neg (by omega), if_pos ht, if_pos ⟨ht, h3⟩]
    · rw [if_pos (by omega), if_neg (fun h => h3 h.2)]
  · rw [if_neg (fun h : _ ∧ _ => ht h.1)]
    simp [ht]

/-- The base series is taken in the same way. -/
theorem C135_base (b e : Clock) (hb : b.Proper) (he : e.Proper) (o base : List Term) (ho : Ordered o) (hs : Ordered base) (hv : within b e o ≠ []) :
    compareBase b e o base =
      if (within b e base).map Term.at_ = (within b e o).map Term.at_ then some ((within b e base).map Term.val) else none := by
  obtain ⟨ib, ie, h1, h2⟩ := numterms_spec hb he hs
  obtain ⟨jb, je, h3, h4⟩ := numterms_spec hb he ho
  unfold compareBase
  simp only [h1, h3]
  by_cases hw : within b e base = []
  · rw [hw, List.length_nil]
    simp [hv]
  rw [h2 hw, h4 hv]
  have e1 : (within b e base).length ≠ 0 := by rwa [Ne, List.length_eq_zero_iff]
  by_cases ht : (within b e base).map Term.at_ = (within b e o).map Term.at_
  · have hl : (within b e base).length = (within b e o).length := by
      have := congrArg List.length ht
      simpa using this
    rw [if_neg (by omega)]
  · rw [if_neg ht]
    split <;> rfl

/-- Two terms are refused, although the message asks for at least two. -/
theorem C135_two_violated (b e : Clock) (hb : b.Proper) (he : e.Proper) (s o : List Term) (hs : Ordered s) (ho : Ordered o)
    (h : (within b e s).length = 2) : compareRows b e s o = none := by
  rw [C135_rows b e hb he s o hs ho, if_neg]
  omega

/-- The bias is the difference of the means. -/
theorem C135_bias (l : List Row) : bias l = mean (l.map Row.sim) - mean (l.map Row.obs) := by
  have : ∀ l : List Row, (l.map fun r => r.sim - r.obs).sum = (l.map Row.sim).sum - (l.map Row.obs).sum := by
    intro l
    induction l with
    | nil => simp
    | cons x l ih => simp only [List.map_cons, List.sum_cons, ih]; ring
  rw [bias, total_eq, this, mean, mean, List.length_map, List.length_map, sub_div]

/-- The relative bias is the bias in units of the mean of the observed values. -/
theorem C135_relative_bias_partial (l : List Row) (h : mean (l.map Row.obs) ≠ 0) :
    relativeBias l = (mean (l.map Row.sim) - mean (l.map Row.obs)) / mean (l.map Row.obs) := by
  rw [relativeBias, obsMean_eq, if_neg h, ← C135_bias, bias]

/-- With a mean of 0 the relative bias is 1e30, whatever the simulated values are. -/
theorem C135_relative_bias_violated (l : List Row) (h : mean (l.map Row.obs) = 0) : relativeBias l = 10 ^ 30 := by
  rw [relativeBias, obsMean_eq, if_pos h]

/-- The standard error is the root of the squares of the errors over one less than their number. -/
theorem C135_standard_error (sqrt : Rat → Rat) (l : List Row) (h : l ≠ []) :
    standardError sqrt l = sqrt ((l.map fun r => (r.sim - r.obs) ^ 2).sum / (l.length - 1)) := by
  have := List.length_pos_iff.2 h
  rw [standardError, total_eq, Nat.cast_sub (by omega), Nat.cast_one]
  congr 3
  apply List.map_congr_left
  intro r _
  ring

/-- The coefficient of Nash and Sutcliffe: refused for equal observed values only; at most 1, and 1 for a perfect simulation only. -/
theorem C135_nash (l : List Row) (hl : l ≠ []) :
    (nash l = none ↔ Uniform l) ∧ ∀ v, nash l = some v →
      v = 1 - (l.map fun r => (r.sim - r.obs) ^ 2).sum / (l.map fun r => (r.obs - mean (l.map Row.obs)) ^ 2).sum ∧
      v ≤ 1 ∧ (v = 1 ↔ Perfect l) := by
  obtain ⟨h1, h2⟩ := sum_pos_or (fun r : Row => (r.obs - mean (l.map Row.obs)) ^ 2) l fun r _ => sq_nonneg _
  rw [← spread_eq] at h1 h2
  have hu : spread l = 0 ↔ Uniform l := by
    rw [h2]
    constructor
    · intro h
      refine ⟨mean (l.map Row.obs), fun r hr => ?_⟩
      have := pow_eq_zero_iff (two_ne_zero) |>.1 (h r hr)
      linarith
    · rintro ⟨c, h⟩ r hr
      rw [mean_const l hl c h, h r hr, sub_self]
      norm_num
  have ht : total (fun r => (r.sim - r.obs) * (r.sim - r.obs)) l = (l.map fun r => (r.sim - r.obs) ^ 2).sum := by
    rw [total_eq]
    congr 1
    apply List.map_congr_left
    intro r _
    ring
  unfold nash
  constructor
  · rw [← hu]
    constructor
    · intro h
      split at h
      · linarith
      · cases h
    · intro h
      rw [if_pos h.le]
  · intro v hv
    split at hv
    · cases hv
    · rename_i hp
      rw [Option.some.injEq, ht] at hv
      subst hv
      obtain ⟨h3, h4⟩ := sum_pos_or (fun r : Row => (r.sim - r.obs) ^ 2) l fun r _ => sq_nonneg _
      obtain ⟨h5, h6⟩ := efficiency _ _ h3 (not_le.1 hp)
      refine ⟨by rw [spread_eq], h5, h6.trans (h4.trans ?_)⟩
      unfold Perfect
      refine forall₂_congr fun r _ => ?_
      rw [pow_eq_zero_iff two_ne_zero, sub_eq_zero]

/-- The square of the relative standard error and the coefficient of Nash and Sutcliffe make 1, where the roots are right. -/
theorem C135_relative_error (sqrt : Rat → Rat) (l : List Row) (h2 : 2 ≤ l.length) (v w : Rat) (hv : nash l = some v)
    (hw : relativeError sqrt l = some w)
    (r1 : sqrt ((l.map fun r => (r.sim - r.obs) ^ 2).sum / (l.length - 1)) ^ 2 = (l.map fun r => (r.sim - r.obs) ^ 2).sum / (l.length - 1))
    (r2 : sqrt ((l.map fun r => (r.obs - mean (l.map Row.obs)) ^ 2).sum / (l.length - 1)) ^ 2 =
      (l.map fun r => (r.obs - mean (l.map Row.obs)) ^ 2).sum / (l.length - 1)) : w ^ 2 + v = 1 := by
  have hl : l ≠ [] := by rintro rfl; simp at h2
  have ht : total (fun r => (r.sim - r.obs) * (r.sim - r.obs)) l = (l.map fun r => (r.sim - r.obs) ^ 2).sum := by
    rw [total_eq]
    congr 1
    apply List.map_congr_left
    intro r _
    ring
  obtain ⟨e, _⟩ := (C135_nash l hl).2 v hv
  have hn : ((l.length - 1 : Nat) : Rat) = (l.length : Rat) - 1 := by
    rw [Nat.cast_sub (by omega), Nat.cast_one]
  unfold relativeError at hw
  split at hw
  · cases hw
  · rename_i hp
    rw [Option.some.injEq, ht, hn] at hw
    rw [spread_eq] at hw hp
    rw [← hw, div_pow, r1, r2, e]
    have h3 : ((l.length : Rat) - 1) ≠ 0 := by
      have : (2 : Rat) ≤ l.length := by exact_mod_cast h2
      intro h
      linarith
    have h4 : (l.map fun r => (r.obs - mean (l.map Row.obs)) ^ 2).sum ≠ 0 := (not_le.1 hp).ne'
    field_simp
    ring

/-- The coefficient of efficiency: at most 1, and 1 for a perfect simulation only; refused if the observed values are those compared with. -/
theorem C135_coefficient (e : Nat) (he : e = 1 ∨ e = 2) (base : Option (List Rat)) (l : List Row)
    (hb : ∀ b ∈ base, b.length = l.length) :
    (coefficient e base l = none ↔ ∀ p ∈ withBase base l, p.1.obs = p.2) ∧ ∀ v, coefficient e base l = some v →
      v = 1 - (l.map fun r => |r.sim - r.obs| ^ e).sum / ((withBase base l).map fun p => |p.1.obs - p.2| ^ e).sum ∧
      v ≤ 1 ∧ (v = 1 ↔ Perfect l) := by
  have he0 : e ≠ 0 := by omega
  obtain ⟨h1, h2⟩ := sum_pos_or (fun p : Row × Rat => |p.1.obs - p.2| ^ e) (withBase base l) fun r _ => pow_nonneg (abs_nonneg _) _
  have hu : ((withBase base l).map fun p => |p.1.obs - p.2| ^ e).sum = 0 ↔ ∀ p ∈ withBase base l, p.1.obs = p.2 := by
    rw [h2]
    refine forall₂_congr fun r _ => ?_
    rw [pow_eq_zero_iff he0, abs_eq_zero, sub_eq_zero]
  obtain ⟨e1, e2⟩ := errors e (by omega) l
  unfold coefficient
  simp only [distance_eq]
  constructor
  · rw [← hu]
    constructor
    · intro h
      split at h
      · linarith
      · cases h
    · intro h
      rw [if_pos h.le]
  · intro v hv
    split at hv
    · cases hv
    · rename_i hp
      rw [Option.some.injEq] at hv
      subst hv
      obtain ⟨h5, h6⟩ := efficiency _ _ e1 (not_le.1 hp)
      exact ⟨by rw [total_eq], h5, h6.trans e2⟩

/-- With squares and without a base series it is the coefficient of Nash and Sutcliffe. -/
theorem C135_coefficient_nash (l : List Row) : coefficient 2 none l = nash l := by
  unfold coefficient nash
  have h1 : distance (fun r m => |r.obs - m| ^ 2) none l = spread l := by
    rw [distance_eq, spread_eq, withBase]
    simp only [List.map_map]
    congr 1
    apply List.map_congr_left
    intro r _
    simp [sq_abs]
  have h2 : total (fun r => |r.sim - r.obs| ^ 2) l = total (fun r => (r.sim - r.obs) * (r.sim - r.obs)) l := by
    rw [total_eq, total_eq]
    congr 1
    apply List.map_congr_left
    intro r _
    rw [sq_abs]; ring
  simp only [h1, h2]

/-- The index of agreement: from 0 to 1, and 1 for a perfect simulation only; refused if both series are what they are compared with. -/
theorem C135_agreement (e : Nat) (he : e = 1 ∨ e = 2) (base : Option (List Rat)) (l : List Row)
    (hb : ∀ b ∈ base, b.length = l.length) :
    (agreement e base l = none ↔ ∀ p ∈ withBase base l, p.1.obs = p.2 ∧ p.1.sim = p.2) ∧ ∀ v, agreement e base l = some v →
      v = 1 - (l.map fun r => |r.sim - r.obs| ^ e).sum / ((withBase base l).map fun p => (|p.1.obs - p.2| + |p.1.sim - p.2|) ^ e).sum ∧
      0 ≤ v ∧ v ≤ 1 ∧ (v = 1 ↔ Perfect l) := by
  have he0 : e ≠ 0 := by omega
  have hnn : ∀ p : Row × Rat, 0 ≤ |p.1.obs - p.2| + |p.1.sim - p.2| := fun p => add_nonneg (abs_nonneg _) (abs_nonneg _)
  obtain ⟨h1, h2⟩ := sum_pos_or (fun p : Row × Rat => (|p.1.obs - p.2| + |p.1.sim - p.2|) ^ e) (withBase base l)
    fun r _ => pow_nonneg (hnn r) _
  have hu : ((withBase base l).map fun p => (|p.1.obs - p.2| + |p.1.sim - p.2|) ^ e).sum = 0 ↔
      ∀ p ∈ withBase base l, p.1.obs = p.2 ∧ p.1.sim = p.2 := by
    rw [h2]
    refine forall₂_congr fun r _ => ?_
    rw [pow_eq_zero_iff he0, add_eq_zero_iff_of_nonneg (abs_nonneg _) (abs_nonneg _), abs_eq_zero, abs_eq_zero, sub_eq_zero, sub_eq_zero]
  obtain ⟨e1, e2⟩ := errors e (by omega) l
  have tri : total (fun r => |r.sim - r.obs| ^ e) l ≤ ((withBase base l).map fun p => (|p.1.obs - p.2| + |p.1.sim - p.2|) ^ e).sum := by
    rw [total_eq]
    conv_lhs => rw [← withBase_fst base l hb]
    rw [List.map_map]
    refine sum_le _ _ _ fun p _ => ?_
    refine pow_le_pow_left₀ (abs_nonneg _) ?_ e
    have := abs_sub_le p.1.sim p.2 p.1.obs
    rw [abs_sub_comm p.2 p.1.obs] at this
    linarith
  unfold agreement
  simp only [distance_eq]
  constructor
  · rw [← hu]
    constructor
    · intro h
      split at h
      · linarith
      · cases h
    · intro h
      rw [if_pos h.le]
  · intro v hv
    split at hv
    · cases hv
    · rename_i hp
      rw [Option.some.injEq] at hv
      subst hv
      obtain ⟨h5, h6⟩ := efficiency _ _ e1 (not_le.1 hp)
      refine ⟨by rw [total_eq], ?_, h5, h6.trans e2⟩
      have := (div_le_one (not_le.1 hp)).2 tri
      linarith

/-- The volumetric efficiency: at most 1, and 1 for a perfect simulation only, if the total of the observed values is positive. -/
theorem C135_volumetric_partial (l : List Row) (h : 0 < (l.map Row.obs).sum) :
    ∃ v, volumetric l = some v ∧ v = 1 - (l.map fun r => |r.sim - r.obs|).sum / (l.map Row.obs).sum ∧ v ≤ 1 ∧ (v = 1 ↔ Perfect l) := by
  obtain ⟨e1, e2⟩ := errors 1 (by omega) l
  simp only [pow_one] at e1 e2
  rw [← total_eq Row.obs] at h ⊢
  obtain ⟨h5, h6⟩ := efficiency _ _ e1 h
  refine ⟨_, by rw [volumetric, if_neg h.ne'], by rw [total_eq (fun r => |r.sim - r.obs|)], h5, h6.trans e2⟩

/-- With a negative total it is above 1 for every simulation that is not perfect; with a total of 0 there is a division by 0. -/
theorem C135_volumetric_violated (l : List Row) :
    ((l.map Row.obs).sum < 0 → ¬ Perfect l → ∃ v, volumetric l = some v ∧ 1 < v) ∧
    ((l.map Row.obs).sum = 0 → volumetric l = none) := by
  obtain ⟨e1, e2⟩ := errors 1 (by omega) l
  simp only [pow_one] at e1 e2
  rw [← total_eq Row.obs]
  constructor
  · intro h hp
    refine ⟨_, by rw [volumetric, if_neg h.ne], ?_⟩
    have : 0 < total (fun r => |r.sim - r.obs|) l := lt_of_le_of_ne e1 fun h => hp (e2.1 h.symm)
    have := div_neg_of_pos_of_neg this h
    linarith
  · intro h
    rw [volumetric, if_pos h]

/-- Three rows. -/
def exRows : List Row := [⟨1, 2⟩, ⟨4, 4⟩, ⟨7, 6⟩]

example : bias exRows = 0 := by decide +kernel
example : nash exRows = some (3 / 4) := by decide +kernel
example : coefficient 1 none exRows = some (1 / 2) := by decide +kernel
example : coefficient 1 (some [3, 3, 3]) exRows = some (3 / 5) := by decide +kernel
example : agreement 2 none exRows = some (1 - 1 / 25) := by decide +kernel
example : volumetric exRows = some (5 / 6) := by decide +kernel
example : compareRows ⟨0, 0⟩ ⟨2, 0⟩ [⟨⟨0, 0⟩, 1⟩, ⟨⟨1, 0⟩, 4⟩, ⟨⟨2, 0⟩, 7⟩, ⟨⟨3, 0⟩, 9⟩] [⟨⟨0, 0⟩, 2⟩, ⟨⟨1, 0⟩, 4⟩, ⟨⟨2, 0⟩, 6⟩] = some exRows := by
  decide +kernel
/-- Rows whose errors and spread have rational roots: 3, 0, 3 and -1, 0, 1 (see `C135_relative_error`). -/
example : relativeError (fun x => if x = 9 then 3 else 1) [⟨4, 1⟩, ⟨2, 2⟩, ⟨6, 3⟩] = some 3 ∧
    nash [⟨4, 1⟩, ⟨2, 2⟩, ⟨6, 3⟩] = some (1 - 3 ^ 2) := by decide +kernel

end Verif.Tsp
