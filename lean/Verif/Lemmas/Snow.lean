import Verif.Spec.Snow
import Verif.Lemmas.RouteRun
import Mathlib.Tactic.Linarith
import Mathlib.Tactic.Ring
import Mathlib.Tactic.NormNum
import Mathlib.Tactic.FieldSimp
/-
Lemmas for C37 and C58.
-/
namespace Verif.Snow
open Verif.Route (trunc sum_nonneg')
open Verif.Top2c (addAt)

theorem meltfact_range (fn : Fn) (hf : fn.Ok) (idn : Int) (m : Mru) (hm : m.Ok) :
    ∃ mf ratio, meltfact fn idn m = some (mf, ratio) ∧ m.mfmin ≤ mf ∧ mf ≤ m.mfmax ∧ ratio = mf / m.mfmax := by
  obtain ⟨h1, h2, h3⟩ := hm.mf
  unfold meltfact
  rw [if_neg h3.ne']
  refine ⟨_, _, rfl, ?_⟩
  have hs := hf.sin (idn * 2 * (31416 / 10000) / 366)
  generalize fn.sin (idn * 2 * (31416 / 10000) / 366) = s at *
  have hd : 0 ≤ m.mfmax - m.mfmin := by linarith
  by_cases ha : m.alat < 54
  · simp only [if_pos ha]
    refine ⟨?_, ?_, trivial⟩
    · nlinarith [mul_nonneg (by linarith : 0 ≤ s + 1) hd]
    · nlinarith [mul_nonneg (by linarith : 0 ≤ 1 - s) hd]
  · simp only [if_neg ha]
    generalize (if idn ≥ 275 then ((idn : Rat) - 275) / (458 - 275) else
      if idn ≥ 92 then (275 - (idn : Rat)) / (275 - 92) else (91 + (idn : Rat)) / 183) = x
    have hA : 0 ≤ (if x ≤ 48 / 100 then (0 : Rat) else if x ≥ 70 / 100 then 1
          else (x - 48 / 100) / (70 / 100 - 48 / 100)) ∧
        (if x ≤ 48 / 100 then (0 : Rat) else if x ≥ 70 / 100 then 1
          else (x - 48 / 100) / (70 / 100 - 48 / 100)) ≤ 1 := by
      split
      · constructor <;> norm_num
      · rename_i h
        split
        · constructor <;> norm_num
        · rename_i h'
          push Not at h h'
          constructor
          · exact div_nonneg (by linarith) (by norm_num)
          · rw [div_le_one₀ (by norm_num)]; linarith
    generalize (if x ≤ 48 / 100 then (0 : Rat) else if x ≥ 70 / 100 then 1
          else (x - 48 / 100) / (70 / 100 - 48 / 100)) = a at *
    have h0 : 0 ≤ (s * (1 / 2) + 1 / 2) * a := mul_nonneg (by linarith) hA.1
    have h1 : (s * (1 / 2) + 1 / 2) * a ≤ 1 := by
      calc (s * (1 / 2) + 1 / 2) * a ≤ 1 * 1 := mul_le_mul (by linarith) hA.2 hA.1 (by norm_num)
        _ = 1 := by norm_num
    refine ⟨?_, ?_, trivial⟩
    · linarith [mul_nonneg h0 hd]
    · linarith [mul_le_mul_of_nonneg_right h1 hd]

theorem meltrate_range (fn : Fn) (m : Mru) (hm : m.Ok) (mf ratio tair rain rainm tindex : Rat) (step : Nat)
    (h1 : 0 ≤ mf) (h2 : 0 ≤ rainm) :
    0 ≤ (meltrate fn m mf ratio tair rain rainm tindex step).melt ∧
      0 ≤ (meltrate fn m mf ratio tair rain rainm tindex step).evap := by
  unfold meltrate
  dsimp only
  split
  · dsimp only
    constructor
    · refine add_nonneg (mul_nonneg h1 ?_) h2
      split
      · exact le_refl _
      · rename_i h; exact not_lt.1 h
    · split
      · exact mul_nonneg (mul_nonneg hm.subrate (by norm_num)) (by norm_num)
      · exact le_refl _
  · dsimp only
    constructor
    · split
      · exact le_refl _
      · rename_i h; exact not_lt.1 h
    · exact le_refl _

theorem heatwatr_spec (melt rain cnhs cnhspx wcplw we neghs liqw tindex : Rat) (h1 : 0 ≤ melt + rain)
    (h2 : 0 ≤ wcplw) (h3 : 0 < we) (h4 : 0 ≤ liqw) :
    let h := heatwatr melt rain cnhs cnhspx wcplw we neghs liqw tindex
    h.we + h.liqw + h.excess = we + liqw + (melt + rain) ∧ 0 < h.we ∧ 0 ≤ h.liqw ∧ 0 ≤ h.excess ∧
      (melt + rain = 0 → liqw = 0 → h.excess = 0) := by
  unfold heatwatr
  dsimp only
  have hn0 : 0 ≤ (if neghs + (cnhs + cnhspx) < 0 then 0 else neghs + (cnhs + cnhspx)) := by
    split
    · exact le_refl _
    · rename_i h; exact not_lt.1 h
  generalize (if neghs + (cnhs + cnhspx) < 0 then 0 else neghs + (cnhs + cnhspx)) = n0 at *
  have hn : 0 ≤ (if n0 > 33 / 100 * we then 33 / 100 * we else n0) := by
    split
    · exact mul_nonneg (by norm_num) h3.le
    · exact hn0
  generalize (if n0 > 33 / 100 * we then 33 / 100 * we else n0) = n at *
  generalize (if tindex > 0 then 0 else tindex) = t
  have hl : 0 ≤ wcplw * we := mul_nonneg h2 h3.le
  have hw : 0 ≤ wcplw * n := mul_nonneg h2 hn
  by_cases hc : melt + rain + liqw < wcplw * we + n + wcplw * n
  · rw [if_neg (not_not.2 hc)]
    by_cases hd : melt + rain < n
    · rw [if_neg (not_not.2 hd)]
      dsimp only
      exact ⟨by ring, by linarith, h4, le_refl _, fun _ _ => rfl⟩
    · rw [if_pos hd]
      push Not at hd
      dsimp only
      exact ⟨by ring, by linarith, by linarith, le_refl _, fun _ _ => rfl⟩
  · rw [if_pos hc]
    push Not at hc
    dsimp only
    exact ⟨by ring, by linarith, by linarith, by linarith, fun a b => by linarith⟩

/-- Adding to two neighbouring elements. -/
theorem addAt_head (x : Rat) (l : List Rat) (v : Rat) : addAt (x :: l) 1 v = some ((x + v) :: l) := by
  simp [addAt]

theorem addAt_second (x y : Rat) (l : List Rat) (v : Rat) :
    addAt (x :: y :: l) 2 v = some (x :: (y + v) :: l) := by
  simp [addAt]

theorem trunc_two (f : Rat) (h0 : 0 ≤ f) (h1 : f < 6) : trunc ((f + 6) / 6 + 1) = 2 := by
  unfold trunc
  have hp : (2 : Rat) ≤ (f + 6) / 6 + 1 := by
    have : (1 : Rat) ≤ (f + 6) / 6 := by rw [le_div_iff₀ (by norm_num)]; linarith
    linarith
  have hq : (f + 6) / 6 + 1 < 3 := by
    have : (f + 6) / 6 < 2 := by rw [div_lt_iff₀ (by norm_num)]; linarith
    linarith
  rw [if_neg (by linarith)]
  have a : (2 : Int) ≤ ((f + 6) / 6 + 1).floor := Rat.le_floor_iff.2 (by exact_mod_cast hp)
  have b : ((f + 6) / 6 + 1).floor < 3 := Rat.floor_lt_iff.2 (by exact_mod_cast hq)
  omega

theorem lagLoop_spec (fn : Fn) (hf : fn.Ok) (excess we : Rat) (n : Nat) (he : 0 < excess) (hw : 0 < we)
    (hn : 0 < n) (k i : Nat) (hi : 1 ≤ i) (x y : Rat) (l : List Rat) :
    ∃ x' y', lagLoop fn excess we n k i (x :: y :: l) = some (x' :: y' :: l) ∧
      x' + y' = x + y + k * (excess / n) ∧ x ≤ x' ∧ y ≤ y' := by
  induction k generalizing i x y with
  | zero => exact ⟨x, y, rfl, by simp, le_refl _, le_refl _⟩
  | succ k ih =>
    unfold lagLoop
    have hn' : (0 : Rat) < n := by exact_mod_cast hn
    have hi' : (1 : Rat) ≤ i := by exact_mod_cast hi
    have ht : 0 ≤ 3 / 100 * we * n / (excess * ((i : Rat) - 1 / 2)) :=
      div_nonneg (mul_nonneg (mul_nonneg (by norm_num) hw.le) hn'.le) (mul_nonneg he.le (by linarith))
    generalize 3 / 100 * we * n / (excess * ((i : Rat) - 1 / 2)) = t0 at *
    have ht' : 0 ≤ (if t0 > 150 then 150 else t0) := by split <;> [norm_num; exact ht]
    dsimp only
    generalize (if t0 > 150 then 150 else t0) = term at *
    obtain ⟨e0, e1⟩ := hf.exp (-term) (by linarith)
    generalize fn.exp (-term) = e at *
    have f0 : 0 ≤ 533 / 100 * (1 - e) := mul_nonneg (by norm_num) (by linarith)
    have f1 : 533 / 100 * (1 - e) < 6 := by linarith
    generalize 533 / 100 * (1 - e) = f at *
    rw [trunc_two f f0 f1, addAt_second]
    have h21 : ((2 : Int) - 1) = 1 := rfl
    dsimp only
    rw [h21, addAt_head]
    dsimp only
    obtain ⟨x', y', h1, h2, h3, h4⟩ := ih (i + 1) (by omega)
      (x + (1 - (f + 6 - ((1 : Int) : Rat) * 6) / 6) * excess / n)
      (y + (f + 6 - ((1 : Int) : Rat) * 6) / 6 * excess / n)
    have hp : (f + 6 - ((1 : Int) : Rat) * 6) / 6 = f / 6 := by push_cast; ring
    rw [hp] at h1 h2 h3 h4 ⊢
    refine ⟨x', y', h1, ?_, ?_, ?_⟩
    · rw [h2]; push_cast; ring
    · refine le_trans (le_add_of_nonneg_right (div_nonneg (mul_nonneg ?_ he.le) hn'.le)) h3
      linarith
    · exact le_trans (le_add_of_nonneg_right (div_nonneg (mul_nonneg (by linarith) he.le) hn'.le)) h4

theorem attenuate_spec (r1 el : Rat) (h0 : 0 ≤ r1) (h1 : r1 ≤ 1) (he : 0 ≤ el) (k : Nat) (a b : Rat) (ha : 0 ≤ a)
    (hb : 0 ≤ b) :
    0 ≤ (attenuate r1 el k (a, b)).1 ∧ 0 ≤ (attenuate r1 el k (a, b)).2 ∧
      (attenuate r1 el k (a, b)).1 + (attenuate r1 el k (a, b)).2 = a + b + k * el := by
  induction k generalizing a b with
  | zero => exact ⟨ha, hb, by simp [attenuate]⟩
  | succ k ih =>
    unfold attenuate
    dsimp only
    have : 0 ≤ (b + el) * r1 := mul_nonneg (by linarith) h0
    have h2 : (b + el) * r1 ≤ b + el := by
      calc (b + el) * r1 ≤ (b + el) * 1 := mul_le_mul_of_nonneg_left h1 (by linarith)
        _ = b + el := by ring
    obtain ⟨q1, q2, q3⟩ := ih (a + (b + el) * r1) (b + el - (b + el) * r1) (by linarith) (by linarith)
    refine ⟨q1, q2, ?_⟩
    rw [q3]; push_cast; ring

theorem attenuated_spec (fn : Fn) (hf : fn.Ok) (we aesc storge l : Rat) (hw : 0 < we) (ha : 0 < aesc)
    (hs : 0 ≤ storge) (hl : 0 ≤ l) :
    ∃ r, attenuated fn we aesc storge l = some r ∧ 0 ≤ r.1 ∧ 0 ≤ r.2 ∧ r.1 + r.2 = storge + l := by
  unfold attenuated
  rw [if_neg ha.ne']
  have hx : 0 < we / (254 / 10 * aesc) := div_pos hw (mul_pos (by norm_num) ha)
  have hp := hf.pow13 _ hx
  dsimp only
  rw [if_neg hp.ne']
  have hel : 0 ≤ l / 6 / (254 / 10 * aesc) :=
    div_nonneg (div_nonneg hl (by norm_num)) (mul_nonneg (by norm_num) ha.le)
  have ht : 0 ≤ 500 * (l / 6 / (254 / 10 * aesc)) / fn.pow13 (we / (254 / 10 * aesc)) :=
    div_nonneg (mul_nonneg (by norm_num) hel) hp.le
  generalize 500 * (l / 6 / (254 / 10 * aesc)) / fn.pow13 (we / (254 / 10 * aesc)) = t0 at *
  have ht' : 0 ≤ (if t0 > 150 then 150 else t0) := by split <;> [norm_num; exact ht]
  generalize (if t0 > 150 then 150 else t0) = term at *
  obtain ⟨e0, -⟩ := hf.exp (-term) (by linarith)
  have hd : (1 : Rat) ≤ 5 * fn.exp (-term) + 1 := by linarith
  have r0 : 0 ≤ 1 / (5 * fn.exp (-term) + 1) := div_nonneg (by norm_num) (by linarith)
  have r1 : 1 / (5 * fn.exp (-term) + 1) ≤ 1 := by rw [div_le_one₀ (by linarith)]; exact hd
  generalize 1 / (5 * fn.exp (-term) + 1) = r at *
  obtain ⟨q1, q2, q3⟩ := attenuate_spec r (l / 6) r0 r1 (div_nonneg hl (by norm_num)) 6 0 storge (le_refl _) hs
  have q3' : (attenuate r (l / 6) 6 (0, storge)).1 + (attenuate r (l / 6) 6 (0, storge)).2 = storge + l := by
    rw [q3]; push_cast; ring
  split
  · exact ⟨_, rfl, q1, q2, q3'⟩
  · exact ⟨_, rfl, add_nonneg q1 q2, le_refl _, by dsimp only; linarith⟩

theorem release_spec (fn : Fn) (hf : fn.Ok) (we aesc storge l : Rat) (hw : 0 < we) (ha : 0 < aesc)
    (hs : 0 ≤ storge) (hl : 0 ≤ l) :
    ∃ r, release fn we aesc storge l = some r ∧ 0 ≤ r.1 ∧ 0 ≤ r.2 ∧ r.1 + r.2 = storge + l := by
  unfold release
  split
  · rename_i h
    exact ⟨_, rfl, le_refl _, hs, by dsimp only; linarith⟩
  · split
    · exact attenuated_spec fn hf we aesc storge l hw ha hs hl
    · exact ⟨_, rfl, by dsimp only; linarith, le_refl _, by dsimp only; linarith⟩

/-- `ROUTE` keeps all water. -/
theorem route_spec (fn : Fn) (hf : fn.Ok) (excess we aesc storge : Rat) (ex : List Rat) (he : 0 ≤ excess)
    (hw : 0 < we) (hs : 0 ≤ storge) (hl : ∀ x ∈ ex, 0 ≤ x) (h2 : 2 ≤ ex.length) (ha0 : 0 ≤ aesc)
    (ha : aesc = 0 → excess = 0 ∧ storge + ex.sum = 0) :
    ∃ p s ex', route fn excess we aesc storge ex = some (p, s, ex') ∧ 0 ≤ p ∧ 0 ≤ s ∧ ex'.length = ex.length ∧
      (∀ x ∈ ex', 0 ≤ x) ∧ p + s + ex'.sum = excess + storge + ex.sum := by
  match ex, h2 with
  | x :: y :: l, _ =>
    have hx : 0 ≤ x := hl x (by simp)
    have hy : 0 ≤ y := hl y (by simp)
    have hl' : ∀ z ∈ l, 0 ≤ z := fun z hz => hl z (by simp [hz])
    have hsum : 0 ≤ l.sum := sum_nonneg' _ hl'
    have hdown : ∀ a b : Rat, 0 ≤ b → (downshift (a :: b :: l)).length = (x :: y :: l).length ∧
        (∀ z ∈ downshift (a :: b :: l), 0 ≤ z) ∧ (downshift (a :: b :: l)).sum = b + l.sum := by
      intro a b hb
      refine ⟨by simp [downshift], ?_, by simp [downshift]⟩
      intro z hz
      simp only [downshift, List.tail_cons, List.cons_append, List.mem_cons, List.mem_append, List.not_mem_nil,
        or_false] at hz
      rcases hz with rfl | hz | rfl
      · exact hb
      · exact hl' z hz
      · exact le_refl _
    have hs1 : (x :: y :: l).sum = x + (y + l.sum) := by simp
    rw [hs1] at ha ⊢
    unfold route lag1
    dsimp only
    by_cases h0 : excess = 0 ∧ storge + x = 0
    · rw [if_pos h0]
      obtain ⟨d1, d2, d3⟩ := hdown x y hy
      exact ⟨_, _, _, rfl, le_refl _, hs, d1, d2, by rw [d3]; linarith [h0.1, h0.2]⟩
    · rw [if_neg h0]
      have hpos : 0 < aesc := by
        rcases ha0.lt_or_eq with h | h
        · exact h
        · obtain ⟨q1, q2⟩ := ha h.symm
          exact absurd ⟨q1, by linarith⟩ h0
      by_cases h1 : excess = 0 ∧ storge + x ≥ 1 / 10
      · rw [if_pos h1]
        obtain ⟨r, e1, e2, e3, e4⟩ := attenuated_spec fn hf we aesc storge x hw hpos hs hx
        obtain ⟨d1, d2, d3⟩ := hdown x y hy
        rw [e1]
        exact ⟨_, _, _, rfl, e2, e3, d1, d2, by rw [d3]; linarith [h1.1]⟩
      · rw [if_neg h1]
        have hn : 0 < (if (trunc (fn.pow03 (excess * 4) + 1 / 2)).toNat = 0 then 1 else
            (trunc (fn.pow03 (excess * 4) + 1 / 2)).toNat) := by
          split
          · exact Nat.one_pos
          · rename_i h; exact Nat.pos_of_ne_zero h
        generalize (if (trunc (fn.pow03 (excess * 4) + 1 / 2)).toNat = 0 then 1 else
            (trunc (fn.pow03 (excess * 4) + 1 / 2)).toNat) = n at *
        obtain ⟨x', y', g1, g2, g3, g4⟩ : ∃ x' y', (if excess < 1 / 10 ∨ we < 1 then addAt (x :: y :: l) 1 excess
            else lagLoop fn excess we n n 1 (x :: y :: l)) = some (x' :: y' :: l) ∧ x' + y' = x + y + excess ∧
            x ≤ x' ∧ y ≤ y' := by
          by_cases hc : excess < 1 / 10 ∨ we < 1
          · rw [if_pos hc, addAt_head]
            exact ⟨_, _, rfl, by ring, by linarith, le_refl _⟩
          · rw [if_neg hc]
            push Not at hc
            obtain ⟨x', y', k1, k2, k3, k4⟩ := lagLoop_spec fn hf excess we n (by linarith [hc.1]) hw hn n 1 (le_refl _)
              x y l
            refine ⟨x', y', k1, ?_, k3, k4⟩
            rw [k2]
            have : (n : Rat) ≠ 0 := by exact_mod_cast hn.ne'
            field_simp
        rw [g1]
        dsimp only
        obtain ⟨r, e1, e2, e3, e4⟩ := release_spec fn hf we aesc storge x' hw hpos hs (by linarith)
        obtain ⟨d1, d2, d3⟩ := hdown x' y' (by linarith)
        rw [e1]
        exact ⟨_, _, _, rfl, e2, e3, d1, d2, by rw [d3]; linarith⟩

theorem clampCover_range (a : Rat) : 5 / 100 ≤ clampCover a ∧ clampCover a ≤ 1 := by
  unfold clampCover
  dsimp only
  split_ifs <;> constructor <;> linarith

theorem point_some (adc : List Rat) (n : Int) (h1 : 1 ≤ n) (h2 : n ≤ adc.length) : ∃ a, point adc n = some a := by
  unfold point
  rw [if_neg (by omega)]
  exact ⟨adc[n.toNat - 1]'(by omega), List.getElem?_eq_getElem (by omega)⟩

/-- `AESNOW` always has a result: points of the curve only, no division by zero, a cover from 5 % to 100 %. -/
theorem aesnow_spec (adc : List Rat) (h : adc.length = 11) (sit we liqw : Rat) (hs : 0 ≤ sit) (ht : 0 ≤ we + liqw)
    (c : Cover) : ∃ c', aesnow adc sit we liqw c = some c' ∧ 5 / 100 ≤ c'.aesc ∧ c'.aesc ≤ 1 := by
  unfold aesnow
  dsimp only
  generalize we + liqw = twe at *
  generalize (if twe > c.accmax then twe else c.accmax) = acc
  generalize (if acc > sit then sit else acc) = ai
  by_cases h1 : twe ≥ ai
  · rw [if_pos h1]
    exact ⟨_, rfl, clampCover_range _⟩
  · rw [if_neg h1]
    push Not at h1
    by_cases h2 : twe ≤ c.sb
    · rw [if_pos h2, if_neg (by linarith)]
      have hpos : 0 < ai := by linarith
      have q0 : 0 ≤ twe / ai := div_nonneg ht hpos.le
      have q1 : twe / ai < 1 := by rw [div_lt_iff₀ hpos]; linarith
      generalize twe / ai = q at *
      have hr : trunc (q * 10 + 1) = (q * 10 + 1).floor := by
        unfold trunc; rw [if_neg (by linarith)]
      have a1 : (1 : Int) ≤ (q * 10 + 1).floor := Rat.le_floor_iff.2 (by push_cast; linarith)
      have a2 : (q * 10 + 1).floor < 11 := Rat.floor_lt_iff.2 (by push_cast; linarith)
      rw [hr]
      generalize (q * 10 + 1).floor = n at *
      obtain ⟨a, e1⟩ := point_some adc n a1 (by omega)
      obtain ⟨b, e2⟩ := point_some adc (n + 1) (by omega) (by omega)
      rw [e1, e2]
      exact ⟨_, rfl, clampCover_range _⟩
    · rw [if_neg h2]
      by_cases h3 : twe ≥ c.sbws
      · rw [if_pos h3]
        exact ⟨_, rfl, clampCover_range _⟩
      · push Not at h2 h3
        rw [if_neg (not_le.2 h3), if_neg (by linarith)]
        exact ⟨_, rfl, clampCover_range _⟩

/-- What a period of six hours does with the water. -/
structure PeriodOk (px : Rat) (p : Pack) (r : Period) : Prop where
  balance : p.stored + px = r.pack.stored + r.packro + r.soil + r.evap
  form : r.sfall + r.drain = px
  pack : r.pack.Ok
  gm : 0 ≤ r.gm
  packro : 0 ≤ r.packro
  soil : 0 ≤ r.soil
  evap : 0 ≤ r.evap
  sfall : 0 ≤ r.sfall
  drain : 0 ≤ r.drain
  gone : r.nosnow = true → r.pack.stored = 0 ∧ r.pack.we = 0
  ice : r.nosnow = false → 0 < r.pack.we

theorem gone_spec (p : Pack) (hp : p.Ok) (gm gmro melt rain soil sfall drain px : Rat) (h1 : 0 ≤ gm) (h2 : 0 ≤ gmro)
    (h3 : 0 ≤ melt) (h4 : 0 ≤ rain) (h5 : 0 ≤ soil) (h6 : 0 ≤ sfall) (h7 : 0 ≤ drain) (h8 : sfall + drain = px)
    (hb : p.we + p.liqw + drain = gmro + melt + rain + soil) (q : Pack) (hq : q.stored + sfall = p.stored) :
    PeriodOk px q (gone p gm gmro melt rain soil sfall drain) := by
  have hz : ∀ l : List Rat, (l.map fun _ => (0 : Rat)).sum = 0 := by
    intro l; induction l with
    | nil => rfl
    | cons a l ih => simp [ih]
  have hl := sum_nonneg' _ hp.lagro
  have hs := hp.storage
  unfold gone
  refine ⟨?_, h8, ⟨le_refl _, le_refl _, ?_, le_refl _, ⟨le_refl _, by norm_num⟩, by simpa using hp.lags, ?_, ?_⟩, h1,
    ?_, h5, le_refl _, h6, h7, ?_, fun h => absurd h (by simp)⟩
  · unfold Pack.stored at hq ⊢
    dsimp only
    rw [hz]; linarith
  · intro x hx
    obtain ⟨y, -, rfl⟩ := List.mem_map.1 hx
    exact le_refl _
  · intro _; simp only [Pack.stored, hz]; norm_num
  · intro _; simp only [Pack.stored, hz]; norm_num
  · dsimp only; linarith
  · intro _; exact ⟨by simp only [Pack.stored, hz]; norm_num, rfl⟩

theorem melting_spec (fn : Fn) (hf : fn.Ok) (m : Mru) (hm : m.Ok) (mf ratio : Rat) (hmf : 0 ≤ mf) (step : Nat)
    (tair px cnhspx rainm sfall gm : Rat) (h1 : 0 ≤ px) (h2 : 0 ≤ rainm) (h3 : 0 ≤ sfall) (h4 : 0 ≤ gm) (p q : Pack)
    (hp : p.Ok) (hq : q.stored + sfall = p.stored) :
    ∃ r, melting fn m mf ratio step tair px cnhspx rainm sfall gm p = some r ∧ PeriodOk (sfall + px) q r := by
  unfold melting
  by_cases hg : p.we ≤ gm
  · rw [if_pos hg]
    exact ⟨_, rfl, gone_spec p hp gm _ 0 0 px sfall px (sfall + px) h4 (add_nonneg hp.we hp.liqw) (le_refl _) (le_refl _) h1
      h3 h1 rfl (by ring) q hq⟩
  · rw [if_neg hg]
    push Not at hg
    obtain ⟨r1, r2⟩ := meltrate_range fn m hm mf ratio tair px rainm p.tindex step hmf h2
    dsimp only
    generalize meltrate fn m mf ratio tair px rainm p.tindex step = r at *
    have hwe : 0 < p.we := by linarith
    have hA : 0 ≤ (if p.aesc < 1 then p.aesc else 1) ∧ (if p.aesc < 1 then p.aesc else 1) ≤ 1 ∧
        ((if p.aesc < 1 then p.aesc else 1) = 0 → p.aesc = 0) ∧
        (if p.aesc < 1 then px * (1 - p.aesc) else 0) = px * (1 - (if p.aesc < 1 then p.aesc else 1)) := by
      split
      · exact ⟨hp.cover.1, hp.cover.2, id, rfl⟩
      · exact ⟨by norm_num, le_refl _, fun h => absurd h (by norm_num), by ring⟩
    rw [hA.2.2.2]
    have hbare : (if p.aesc < 1 then p.aesc else 1) = 0 ↔ p.aesc = 0 := by
      refine ⟨hA.2.2.1, fun h => ?_⟩
      rw [h, if_pos (by norm_num)]
    generalize (if p.aesc < 1 then p.aesc else 1) = a at *
    obtain ⟨a0, a1, -⟩ := hA
    have hgw0 : 0 ≤ gm / p.we := div_nonneg h4 hwe.le
    have hgw1 : gm / p.we ≤ 1 := by rw [div_le_one₀ hwe]; exact hg.le
    have hL : 0 ≤ gm / p.we * p.liqw := mul_nonneg hgw0 hp.liqw
    have hL1 : gm / p.we * p.liqw ≤ p.liqw := by
      calc gm / p.we * p.liqw ≤ 1 * p.liqw := mul_le_mul_of_nonneg_right hgw1 hp.liqw
        _ = p.liqw := by ring
    have hLbare : p.liqw = 0 → gm / p.we * p.liqw = 0 := fun h => by rw [h, mul_zero]
    generalize gm / p.we * p.liqw = los at *
    have hscale : ∀ x : Rat, 0 ≤ x → 0 ≤ x * a ∧ x * a ≤ x := fun x hx =>
      ⟨mul_nonneg hx a0, by
        calc x * a ≤ x * 1 := mul_le_mul_of_nonneg_left a1 hx
          _ = x := by ring⟩
    obtain ⟨g0, g1⟩ := hscale gm h4
    obtain ⟨l0, l1⟩ := hscale los hL
    obtain ⟨m0, -⟩ := hscale r.melt r1
    obtain ⟨e0, -⟩ := hscale r.evap r2
    have hgm : (gm + los) * a = gm * a + los * a := by ring
    rw [hgm]
    have s0 : 0 ≤ px * (1 - a) := mul_nonneg h1 (by linarith)
    have hr0 : px - px * (1 - a) = px * a := by ring
    have hr : 0 ≤ px * a := mul_nonneg h1 a0
    have hmz : a = 0 → r.melt * a + px * a = 0 := fun h => by rw [h]; ring
    rw [hr0]
    have hrs : px * a + px * (1 - a) = px := by ring
    have hb := hp.bare
    generalize px * (1 - a) = soil at *
    generalize px * a = rain at *
    generalize gm * a = gm' at *
    generalize los * a = los' at *
    generalize r.melt * a = melt at *
    generalize r.evap * a = evap at *
    by_cases c1 : melt ≥ p.we - gm'
    · rw [if_pos c1]
      exact ⟨_, rfl, gone_spec p hp gm' _ _ _ _ _ _ _ g0 (by linarith) (by linarith [hp.liqw]) hr s0 h3 h1 rfl
        (by linarith) q hq⟩
    · rw [if_neg c1]
      push Not at c1
      by_cases c2 : evap ≥ p.we - gm' - melt
      · rw [if_pos c2]
        exact ⟨_, rfl, gone_spec p hp gm' _ _ _ _ _ _ _ g0 (by linarith) (by linarith [hp.liqw]) hr s0 h3 h1 rfl
          (by linarith) q hq⟩
      · rw [if_neg c2]
        push Not at c2
        generalize (if r.cnhs * a + p.neghs < 0 then -1 * p.neghs else r.cnhs * a) = cn
        obtain ⟨w1, w2, w3, w4, w5⟩ := heatwatr_spec melt rain cn cnhspx m.plwhc (p.we - gm' - melt - evap) p.neghs
          (p.liqw - los') r.tindex (by linarith) hm.plwhc (by linarith) (by linarith)
        generalize heatwatr melt rain cn cnhspx m.plwhc (p.we - gm' - melt - evap) p.neghs (p.liqw - los') r.tindex = h at *
        have hlag := sum_nonneg' _ hp.lagro
        obtain ⟨pk, st, ex', t1, t2, t3, t4, t5, t6⟩ := route_spec fn hf h.excess h.we p.aesc p.storage p.lagro w4 w2
          hp.storage hp.lagro hp.lags hp.cover.1 (by
            intro hz
            have hst := hb hz
            unfold Pack.stored at hst
            have hz' := hbare.2 hz
            have hli : p.liqw = 0 := by linarith [hp.liqw, hp.storage]
            refine ⟨w5 (hmz hz') (by linarith [hLbare hli]), by linarith [hp.liqw, hp.storage]⟩)
        obtain ⟨c, v1, v2, v3⟩ := aesnow_spec m.adc hm.adc (m.si * (254 / 10)) h.we h.liqw
          (mul_nonneg hm.si (by norm_num)) (by linarith) ⟨p.accmax, p.sb, p.sbws, p.sbaesc, p.aesc⟩
        rw [t1]
        dsimp only
        rw [v1]
        refine ⟨_, rfl, ⟨?_, rfl, ⟨w2.le, w3, t5, t3, ⟨by dsimp only; linarith, v3⟩, by dsimp only; rw [t4]; exact hp.lags,
          ?_, ?_⟩, g0, by dsimp only; linarith, s0, e0, h3, h1, ?_, fun _ => w2⟩⟩
        · unfold Pack.stored at hq ⊢
          dsimp only
          linarith
        · intro hz; dsimp only at hz; linarith
        · intro hz; dsimp only at hz; linarith
        · intro hz; exact absurd hz (by simp)

theorem period_spec (fn : Fn) (hf : fn.Ok) (m : Mru) (hm : m.Ok) (mf ratio : Rat) (hmf : 0 ≤ mf) (step : Nat)
    (px tair gm : Rat) (h1 : 0 ≤ px) (h4 : 0 ≤ gm) (p : Pack) (hp : p.Ok) :
    ∃ r, period fn m mf ratio step px tair gm p = some r ∧ PeriodOk px p r := by
  unfold period
  by_cases c1 : px = 0
  · rw [if_pos c1, c1]
    simpa using melting_spec fn hf m hm mf ratio hmf step tair 0 0 0 0 gm (le_refl _) (le_refl _) (le_refl _) h4 p p hp
      (by ring)
  · rw [if_neg c1]
    by_cases c2 : tair > m.allsnow
    · rw [if_pos c2]
      by_cases c3 : p.we = 0
      · rw [if_pos c3]
        have hv := hp.vanished c3
        have hl := sum_nonneg' _ hp.lagro
        have h0 : p.liqw = 0 := by
          unfold Pack.stored at hv
          linarith [hp.liqw, hp.storage]
        exact ⟨_, rfl, gone_spec p hp gm 0 0 0 px 0 px px h4 (le_refl _) (le_refl _) (le_refl _) h1 (le_refl _) h1 (by ring)
          (by rw [c3, h0]; ring) p (by ring)⟩
      · rw [if_neg c3]
        simpa using melting_spec fn hf m hm mf ratio hmf step tair px 0 (125 / 10000 * px * (if tair < 0 then 0 else tair)) 0
          gm h1 (mul_nonneg (mul_nonneg (by norm_num) h1) (by split <;> [exact le_refl _; (rename_i h; exact not_lt.1 h)]))
          (le_refl _) h4 p p hp (by ring)
    · rw [if_neg c2]
      have hw := hp.we
      have hpos : 0 < px := lt_of_le_of_ne h1 (Ne.symm c1)
      have hst : (snowfall p px tair).stored = p.stored + px := by
        unfold snowfall Pack.stored
        dsimp only
        ring
      have hs : (snowfall p px tair).Ok := by
        refine ⟨by unfold snowfall; dsimp only; linarith, hp.liqw, hp.lagro, hp.storage, hp.cover, hp.lags, ?_, ?_⟩
        · intro hz; unfold snowfall at hz; dsimp only at hz; linarith
        · intro hz
          have := hp.bare hz
          rw [hst, this]; rfl
      simpa using melting_spec fn hf m hm mf ratio hmf step tair 0 (-(if tair > 0 then 0 else tair) * px / 160) 0 px gm
        (le_refl _) (le_refl _) h1 h4 (snowfall p px tair) p hs hst.symm

theorem periods_spec (fn : Fn) (hf : fn.Ok) (m : Mru) (hm : m.Ok) (mf ratio px : Rat) (hmf : 0 ≤ mf) (h1 : 0 ≤ px)
    (step : Nat) (ts : List Rat) (gm : Rat) (h4 : 0 ≤ gm) (ns : Bool) (p : Pack) (hp : p.Ok)
    (hns : ns = true → p.stored = 0 ∧ p.we = 0) (d : Day) (hd : (Out.mk d 0).Ok) :
    ∃ p' d' ns', periods fn m mf ratio px step ts gm ns p d = some (p', d', ns') ∧ p'.Ok ∧ (Out.mk d' 0).Ok ∧
      (ns' = true → p'.stored = 0 ∧ p'.we = 0) ∧
      p.stored + ts.length * px = p'.stored + (d'.melt + d'.soil + d'.evap - (d.melt + d.soil + d.evap)) * (254 / 10) ∧
      (d'.snow + d'.rain - (d.snow + d.rain)) * (254 / 10) = ts.length * px ∧
      (ts ≠ [] → ns' = false → 0 < p'.we) := by
  induction ts generalizing step gm ns p d with
  | nil => exact ⟨p, d, ns, rfl, hp, hd, hns, by simp, by simp, fun h => absurd rfl h⟩
  | cons t ts ih =>
    obtain ⟨r, e, hr⟩ := period_spec fn hf m hm mf ratio hmf step px t gm h1 h4 p hp
    unfold periods
    rw [e]
    dsimp only
    obtain ⟨d1, d2, d3, d4, d5⟩ := hd
    dsimp only at d1 d2 d3 d4 d5
    have hq : ∀ x : Rat, 0 ≤ x → 0 ≤ x / (254 / 10) := fun x hx => div_nonneg hx (by norm_num)
    obtain ⟨p', d', ns', q1, q2, q3, q4, q5, q6, q7⟩ := ih (step + 1) r.gm hr.gm r.nosnow r.pack hr.pack hr.gone
      ⟨d.melt + r.packro / (254 / 10), d.soil + r.soil / (254 / 10), d.evap + r.evap / (254 / 10),
         d.snow + r.sfall / (254 / 10), d.rain + r.drain / (254 / 10)⟩
      ⟨add_nonneg d1 (hq _ hr.packro), add_nonneg d2 (hq _ hr.soil), add_nonneg d3 (hq _ hr.evap),
       add_nonneg d4 (hq _ hr.sfall), add_nonneg d5 (hq _ hr.drain)⟩
    refine ⟨p', d', ns', q1, q2, q3, q4, ?_, ?_, fun _ => ?_⟩
    · have := hr.balance
      rw [List.length_cons]
      push_cast
      dsimp only at q5
      linarith
    · have := hr.form
      rw [List.length_cons]
      push_cast
      dsimp only at q6
      linarith
    · cases ts with
      | nil => unfold periods at q1; cases q1; exact hr.ice
      | cons t' ts => exact q7 (by simp)

theorem aesnow_cover (adc : List Rat) (sit we liqw : Rat) (c c' : Cover) (h : aesnow adc sit we liqw c = some c') :
    5 / 100 ≤ c'.aesc ∧ c'.aesc ≤ 1 := by
  unfold aesnow at h
  dsimp only at h
  generalize (if we + liqw > c.accmax then we + liqw else c.accmax) = acc at h
  generalize (if acc > sit then sit else acc) = ai at h
  by_cases h1 : we + liqw ≥ ai
  · rw [if_pos h1] at h; cases h; exact clampCover_range _
  · rw [if_neg h1] at h
    by_cases h2 : we + liqw ≤ c.sb
    · rw [if_pos h2] at h
      by_cases h3 : ai = 0
      · rw [if_pos h3] at h; exact absurd h (by simp)
      · rw [if_neg h3] at h
        split at h
        · cases h; exact clampCover_range _
        · exact absurd h (by simp)
    · rw [if_neg h2] at h
      by_cases h3 : we + liqw ≥ c.sbws
      · rw [if_pos h3] at h; cases h; exact clampCover_range _
      · rw [if_neg h3] at h
        by_cases h4 : c.sbws - c.sb = 0
        · rw [if_pos h4] at h; exact absurd h (by simp)
        · rw [if_neg h4] at h; cases h; exact clampCover_range _

theorem melting_form (fn : Fn) (m : Mru) (mf ratio : Rat) (step : Nat) (tair px cnhspx rainm sfall gm : Rat) (p : Pack)
    (r : Period) (h : melting fn m mf ratio step tair px cnhspx rainm sfall gm p = some r) :
    r.sfall = sfall ∧ r.drain = px ∧
      (if r.nosnow then r.pack.aesc = 0 else 5 / 100 ≤ r.pack.aesc ∧ r.pack.aesc ≤ 1) := by
  unfold melting at h
  split at h
  · cases h; exact ⟨rfl, rfl, rfl⟩
  · dsimp only at h
    generalize (if p.aesc < 1 then px * (1 - p.aesc) else 0) = soil at h
    generalize (if p.aesc < 1 then p.aesc else 1) = a at h
    generalize (if (meltrate fn m mf ratio tair px rainm p.tindex step).cnhs * a + p.neghs < 0 then -1 * p.neghs
      else (meltrate fn m mf ratio tair px rainm p.tindex step).cnhs * a) = cn at h
    split at h
    · cases h; exact ⟨rfl, rfl, rfl⟩
    · split at h
      · cases h; exact ⟨rfl, rfl, rfl⟩
      · split at h
        · exact absurd h (by simp)
        · split at h
          · exact absurd h (by simp)
          · rename_i c hc
            cases h
            refine ⟨rfl, rfl, ?_⟩
            simp only [Bool.false_eq_true, if_false]
            exact aesnow_cover _ _ _ _ _ _ hc

theorem period_form (fn : Fn) (m : Mru) (mf ratio : Rat) (step : Nat) (px tair gm : Rat) (p : Pack) (r : Period)
    (h : period fn m mf ratio step px tair gm p = some r) :
    r.sfall = (if tair ≤ m.allsnow then px else 0) ∧ r.drain = (if tair ≤ m.allsnow then 0 else px) ∧
      (if r.nosnow then r.pack.aesc = 0 else 5 / 100 ≤ r.pack.aesc ∧ r.pack.aesc ≤ 1) := by
  unfold period at h
  by_cases c1 : px = 0
  · rw [if_pos c1] at h
    subst c1
    simpa using melting_form _ _ _ _ _ _ _ _ _ _ _ _ _ h
  · rw [if_neg c1] at h
    by_cases c2 : tair > m.allsnow
    · rw [if_pos c2] at h
      rw [if_neg (not_le.2 c2), if_neg (not_le.2 c2)]
      split at h
      · cases h; exact ⟨rfl, rfl, rfl⟩
      · exact melting_form _ _ _ _ _ _ _ _ _ _ _ _ _ h
    · rw [if_neg c2] at h
      rw [if_pos (not_lt.1 c2), if_pos (not_lt.1 c2)]
      exact melting_form _ _ _ _ _ _ _ _ _ _ _ _ _ h

theorem periods_form (fn : Fn) (m : Mru) (mf ratio px : Rat) (step : Nat) (ts : List Rat) (gm : Rat) (ns : Bool) (p : Pack)
    (d : Day) (p' : Pack) (d' : Day) (ns' : Bool) (h : periods fn m mf ratio px step ts gm ns p d = some (p', d', ns')) :
    d'.snow = d.snow + (ts.countP fun t => t ≤ m.allsnow) * px / (254 / 10) ∧
      d'.rain = d.rain + (ts.countP fun t => ¬ t ≤ m.allsnow) * px / (254 / 10) ∧
      (ts ≠ [] → if ns' then p'.aesc = 0 else 5 / 100 ≤ p'.aesc ∧ p'.aesc ≤ 1) := by
  induction ts generalizing step gm ns p d with
  | nil =>
    unfold periods at h
    cases h
    exact ⟨by simp, by simp, fun h => absurd rfl h⟩
  | cons t ts ih =>
    unfold periods at h
    split at h
    · exact absurd h (by simp)
    · rename_i r hr
      obtain ⟨f1, f2, f3⟩ := period_form _ _ _ _ _ _ _ _ _ _ hr
      obtain ⟨i1, i2, i3⟩ := ih _ _ _ _ _ h
      refine ⟨?_, ?_, fun _ => ?_⟩
      · rw [i1, List.countP_cons]
        dsimp only
        rw [f1]
        by_cases c : t ≤ m.allsnow
        · simp only [c, if_true, decide_true]; push_cast; ring
        · simp only [c, if_false, decide_false]; simp
      · rw [i2, List.countP_cons]
        dsimp only
        rw [f2]
        by_cases c : t ≤ m.allsnow
        · simp only [c, if_true, not_true, decide_false]; simp
        · simp only [c, if_false, not_false_iff, decide_true]; push_cast; simp; ring
      · cases ts with
        | nil => unfold periods at h; cases h; exact f3
        | cons t' ts => exact i3 (by simp)

/-- A day as the specification sees it. -/
theorem nwsmrun_spec (fn : Fn) (hf : fn.Ok) (m : Mru) (hm : m.Ok) (nstep : Nat) (i : In) (hi : 0 ≤ i.dep) (st : St)
    (hs : st.pack.Ok) (st' : St) (o : Out) (h : nwsmrun fn m nstep i st = some (st', o)) :
    i.dep = o.leaving + o.change ∧ o.change = (st'.pack.stored - st.pack.stored) / (254 / 10) ∧
      st'.pkwater = st'.pack.stored / (254 / 10) ∧ o.day.snow + o.day.rain = i.dep ∧ st'.pack.Ok ∧ o.Ok := by
  unfold nwsmrun at h
  by_cases c : st.pack.we = 0 ∧ i.dep = 0
  · rw [if_pos c] at h
    cases h
    have := hs.vanished c.1
    refine ⟨by rw [c.2]; norm_num [Out.leaving], by norm_num, by dsimp only; rw [this]; norm_num, by rw [c.2]; norm_num, hs,
      ⟨le_refl _, le_refl _, le_refl _, le_refl _, le_refl _⟩⟩
  · rw [if_neg c] at h
    split at h
    · rename_i pre mf ratio hpre hmf
      obtain ⟨mf', ratio', e, e1, -, -⟩ := meltfact_range fn hf i.jday m hm
      rw [e] at hmf
      cases hmf
      obtain ⟨p', d', ns', q1, q2, q3, q4, q5, q6, q7⟩ := periods_spec fn hf m hm mf ratio (i.dep * (254 / 10) / 4)
        (le_trans hm.mf.1 e1) (div_nonneg (mul_nonneg hi (by norm_num)) (by norm_num)) 1 (temps i.tmin i.tmax pre)
        (m.daygm * (254 / 10) / 4) (div_nonneg (mul_nonneg hm.daygm (by norm_num)) (by norm_num)) false st.pack hs
        (by simp) ⟨0, 0, 0, 0, 0⟩ ⟨le_refl _, le_refl _, le_refl _, le_refl _, le_refl _⟩
      rw [q1] at h
      dsimp only at h
      have hlen : (temps i.tmin i.tmax pre).length = 4 := rfl
      rw [hlen] at q5 q6
      push_cast at q5 q6
      have hz : ∀ l : List Rat, (l.map fun _ => (0 : Rat)).sum = 0 := by
        intro l; induction l with
        | nil => rfl
        | cons a l ih => simp
      have key : (if ns' = true then 0 else p'.we + p'.liqw + p'.storage + p'.lagro.sum) = p'.stored ∧
          Pack.stored { p' with lagro := if ns' = true then p'.lagro.map fun _ => 0 else p'.lagro } = p'.stored ∧
          Pack.Ok { p' with lagro := if ns' = true then p'.lagro.map fun _ => 0 else p'.lagro } := by
        cases ns' with
        | false =>
          simp only [Bool.false_eq_true, if_false]
          exact ⟨by unfold Pack.stored; ring, trivial, q2⟩
        | true =>
          simp only [if_true]
          obtain ⟨z1, z2⟩ := q4 rfl
          have hl := sum_nonneg' _ q2.lagro
          have z1' := z1
          unfold Pack.stored at z1'
          have w := q2.we
          have li := q2.liqw
          have so := q2.storage
          have e0 : Pack.stored { p' with lagro := p'.lagro.map fun _ => 0 } = 0 := by
            unfold Pack.stored; dsimp only; rw [hz]; linarith
          refine ⟨z1.symm, by rw [e0, z1], ⟨w, li, ?_, so, q2.cover, by simpa using q2.lags, fun _ => e0, fun _ => ?_⟩⟩
          · intro x hx
            obtain ⟨y, -, rfl⟩ := List.mem_map.1 hx
            exact le_refl _
          · rw [e0, z2]
      obtain ⟨k1, k2, k3⟩ := key
      rw [k1] at h
      cases h
      dsimp only
      rw [k2]
      refine ⟨?_, ?_, rfl, ?_, k3, q3.melt, q3.soil, q3.evap, q3.snow, q3.rain⟩
      · unfold Out.leaving
        dsimp only at *
        rw [show st.pack.we + st.pack.liqw + st.pack.lagro.sum + st.pack.storage = st.pack.stored from rfl]
        rw [div_eq_mul_inv]
        norm_num
        linarith
      · rfl
      · linarith
    · exact absurd h (by simp)

theorem nwsmrun_defined (fn : Fn) (hf : fn.Ok) (m : Mru) (hm : m.Ok) (nstep : Nat) (i : In) (hi : 0 ≤ i.dep) (st : St)
    (hs : st.pack.Ok) (ht : nstep = 1 ∨ st.tmxpre ≠ none) :
    ∃ st' o, nwsmrun fn m nstep i st = some (st', o) ∧
      ((st.pack.we ≠ 0 ∨ i.dep ≠ 0 ∨ st.tmxpre ≠ none) → st'.tmxpre ≠ none) := by
  unfold nwsmrun
  by_cases c : st.pack.we = 0 ∧ i.dep = 0
  · rw [if_pos c]
    exact ⟨_, _, rfl, fun h => by
      rcases h with h | h | h
      · exact absurd c.1 h
      · exact absurd c.2 h
      · exact h⟩
  · rw [if_neg c]
    obtain ⟨mf', ratio', e, e1, -, -⟩ := meltfact_range fn hf i.jday m hm
    have hp : ∃ pre, (if nstep = 1 then some i.tmax else st.tmxpre) = some pre := by
      by_cases h1 : nstep = 1
      · exact ⟨_, if_pos h1⟩
      · rw [if_neg h1]
        exact Option.ne_none_iff_exists'.1 (ht.resolve_left h1)
    obtain ⟨pre, hp⟩ := hp
    rw [hp, e]
    dsimp only
    obtain ⟨p', d', ns', q1, -⟩ := periods_spec fn hf m hm mf' ratio' (i.dep * (254 / 10) / 4)
      (le_trans hm.mf.1 e1) (div_nonneg (mul_nonneg hi (by norm_num)) (by norm_num)) 1 (temps i.tmin i.tmax pre)
      (m.daygm * (254 / 10) / 4) (div_nonneg (mul_nonneg hm.daygm (by norm_num)) (by norm_num)) false st.pack hs
      (by simp) ⟨0, 0, 0, 0, 0⟩ ⟨le_refl _, le_refl _, le_refl _, le_refl _, le_refl _⟩
    rw [q1]
    exact ⟨_, _, rfl, fun _ => by simp⟩

end Verif.Snow
