import Verif.Spec.Topmod
import Verif.Lemmas.RouteInit
import Mathlib.Tactic.Linarith
import Mathlib.Tactic.Ring
import Mathlib.Tactic.SplitIfs
import Mathlib.Tactic.NormNum
import Mathlib.Tactic.FieldSimp
/-
Helper lemmas for C38, C56 and C57.
-/
namespace Verif.Topmod
open Verif.Route (sum_nonneg')

theorem drainage_le (m : Mru) (dt sd suz : Rat) : drainage m dt sd suz ≤ suz := by
  unfold drainage
  generalize (if sd > 0 then (if m.td = 0 then suz else suz * dt / (sd * m.td)) else suz) = u
  dsimp only
  by_cases h : u ≥ suz
  · rw [if_pos h]
  · rw [if_neg h]; linarith

theorem drainage_nonneg (m : Mru) (dt sd suz : Rat) (hdt : 0 ≤ dt) (htd : 0 ≤ m.td) (hs : 0 ≤ suz) :
    0 ≤ drainage m dt sd suz := by
  have hu : 0 ≤ (if sd > 0 then (if m.td = 0 then suz else suz * dt / (sd * m.td)) else suz) := by
    by_cases h : sd > 0
    · rw [if_pos h]
      by_cases h2 : m.td = 0
      · rw [if_pos h2]; exact hs
      · rw [if_neg h2]; exact div_nonneg (mul_nonneg hs hdt) (mul_nonneg h.le htd)
    · rw [if_neg h]; exact hs
  unfold drainage
  generalize (if sd > 0 then (if m.td = 0 then suz else suz * dt / (sd * m.td)) else suz) = u at *
  dsimp only
  by_cases h : u ≥ suz
  · rw [if_pos h]; exact hs
  · rw [if_neg h]; exact hu

theorem evap_range (m : Mru) (hm : m.Ok) (ep : Rat) (hep : 0 ≤ ep) (transp : Bool) (srz : Rat)
    (h0 : 0 ≤ srz) (h1 : srz ≤ m.srmax) : 0 ≤ evap m ep transp srz ∧ evap m ep transp srz ≤ m.srmax - srz := by
  have hs : 0 < m.srmax := mul_pos (by linarith [hm.moisture]) hm.root
  have e0 : 0 ≤ ep * (1 - srz / m.srmax) := by
    apply mul_nonneg hep
    have := (div_le_one₀ hs).2 h1
    linarith
  unfold evap
  dsimp only
  have e1 : 0 ≤ (if ep * (1 - srz / m.srmax) > m.srmax - srz then m.srmax - srz else ep * (1 - srz / m.srmax)) ∧
      (if ep * (1 - srz / m.srmax) > m.srmax - srz then m.srmax - srz else ep * (1 - srz / m.srmax)) ≤
        m.srmax - srz := by
    by_cases h : ep * (1 - srz / m.srmax) > m.srmax - srz
    · rw [if_pos h]; exact ⟨by linarith, le_refl _⟩
    · rw [if_neg h]; exact ⟨e0, not_lt.1 h⟩
  generalize (if ep * (1 - srz / m.srmax) > m.srmax - srz then m.srmax - srz else
    ep * (1 - srz / m.srmax)) = e at *
  obtain ⟨a, b⟩ := e1
  obtain ⟨c1, c2⟩ := hm.covSum
  obtain ⟨d1, d2⟩ := hm.covWin
  by_cases hc : srz / m.srmax > 1 / 100
  · rw [if_pos hc]
    cases transp
    · simp only [Bool.false_eq_true, if_false]
      refine ⟨by positivity, ?_⟩
      have : e * (1 / 10) * m.covWin ≤ e * (1 / 10) * 1 := mul_le_mul_of_nonneg_left d2 (by positivity)
      linarith
    · simp only [if_true]
      refine ⟨by positivity, ?_⟩
      have : e * m.covSum ≤ e * 1 := mul_le_mul_of_nonneg_left c2 a
      linarith
  · rw [if_neg hc]; exact ⟨a, b⟩

/-- A bin never stops the program, and its balance closes up to less than 1e-7. -/
theorem binStep_balance (m : Mru) (dt : Rat) (w : Water) (sd0 : Rat) (b : BinSt) :
    ∃ b' f e, binStep m dt w sd0 b = some (b', f) ∧ b'.zwt = b.zwt ∧ b'.depth = b.depth ∧
      0 ≤ e ∧ e ≤ 1 / 10000000 ∧ f.infil = w.p - f.ex ∧
      b'.suz - b'.srz + e = b.suz - b.srz + (w.p2rz + w.qv2suz) + f.wet - f.ex - f.uz - f.ea := by
  unfold binStep
  dsimp only
  have key : ∀ (full : Bool), full = decide (b.suz ≥ sd0) →
      ∀ sd1 suz1 uz1 : Rat, sd1 = (if full then sd0 - b.suz else sd0) →
      suz1 = (if full then 0 else b.suz) → uz1 = (if full then b.suz else 0) →
      (full = true → sd1 ≤ 0) ∧ suz1 = b.suz - uz1 ∧ (full = false → uz1 = 0) := by
    rintro full hf sd1 suz1 uz1 rfl rfl rfl
    cases full
    · simp
    · have := of_decide_eq_true hf.symm
      simp only [if_true, forall_true_left]
      exact ⟨by linarith, by ring, fun h => absurd h (by decide)⟩
  have hk := key _ rfl _ _ _ rfl rfl rfl
  generalize (if decide (b.suz ≥ sd0) = true then sd0 - b.suz else sd0) = sd1 at *
  generalize (if decide (b.suz ≥ sd0) = true then 0 else b.suz) = suz1 at *
  generalize (if decide (b.suz ≥ sd0) = true then b.suz else 0) = uz1 at *
  generalize decide (b.suz ≥ sd0) = full at *
  clear key
  obtain ⟨hfull, hsuz1, huz1⟩ := hk
  -- wetting of the root zone
  have hwet : (if sd1 < 0 then (if -sd1 ≥ b.srz then 0 else b.srz - (if sd1 < 0 then
      (if -sd1 ≥ b.srz then b.srz else -sd1) else 0)) else b.srz) =
      b.srz - (if sd1 < 0 then (if -sd1 ≥ b.srz then b.srz else -sd1) else 0) := by
    by_cases h1 : sd1 < 0
    · rw [if_pos h1, if_pos h1]
      by_cases h2 : -sd1 ≥ b.srz
      · rw [if_pos h2, if_pos h2]; ring
      · rw [if_neg h2]
    · rw [if_neg h1, if_neg h1]; ring
  rw [hwet]
  clear hwet
  generalize (if sd1 < 0 then (if -sd1 ≥ b.srz then b.srz else -sd1) else 0) = wet at *
  have hsd2 : full = true → (if sd1 < 0 then 0 else sd1) = 0 := by
    intro hf
    by_cases h : sd1 < 0
    · rw [if_pos h]
    · rw [if_neg h]; linarith [hfull hf]
  generalize (if sd1 < 0 then 0 else sd1) = sd2 at *
  -- root zone
  have hroot : (if b.srz - wet - w.p2rz < 0 then suz1 - (b.srz - wet - w.p2rz) else suz1) -
      (if b.srz - wet - w.p2rz < 0 then 0 else b.srz - wet - w.p2rz) =
      suz1 - (b.srz - wet - w.p2rz) := by
    by_cases h : b.srz - wet - w.p2rz < 0
    · rw [if_pos h, if_pos h]; ring
    · rw [if_neg h, if_neg h]
  generalize (if b.srz - wet - w.p2rz < 0 then suz1 - (b.srz - wet - w.p2rz) else suz1) = suzA at *
  generalize (if b.srz - wet - w.p2rz < 0 then 0 else b.srz - wet - w.p2rz) = srz3 at *
  -- saturation
  have hex : (if suzA + w.qv2suz > sd2 then sd2 else suzA + w.qv2suz) =
      suzA + w.qv2suz - (if suzA + w.qv2suz > sd2 then suzA + w.qv2suz - sd2 else 0) ∧
      (if suzA + w.qv2suz > sd2 then sd2 else suzA + w.qv2suz) ≤ sd2 := by
    by_cases h : suzA + w.qv2suz > sd2
    · rw [if_pos h, if_pos h]; exact ⟨by ring, le_refl _⟩
    · rw [if_neg h, if_neg h]; exact ⟨by ring, not_lt.1 h⟩
  generalize (if suzA + w.qv2suz > sd2 then sd2 else suzA + w.qv2suz) = suz3 at *
  generalize (if suzA + w.qv2suz > sd2 then suzA + w.qv2suz - sd2 else 0) = ex at *
  obtain ⟨hex, hle⟩ := hex
  generalize evap m w.ep w.transp srz3 = ea
  rw [if_neg (by
    rintro ⟨h1, h2⟩
    have := hsd2 h2
    linarith)]
  by_cases hpos : suz3 > 0
  · have hnf : full = false := by
      cases full
      · rfl
      · have := hsd2 rfl; linarith
    rw [if_pos hpos, if_pos hpos]
    have hd := drainage_le m dt sd2 suz3
    generalize drainage m dt sd2 suz3 = uz at *
    by_cases ht : suz3 - uz < 1 / 10000000
    · rw [if_pos ht]
      refine ⟨_, _, suz3 - uz, rfl, rfl, rfl, by linarith, ht.le, rfl, ?_⟩
      dsimp only
      linarith [huz1 hnf]
    · rw [if_neg ht]
      refine ⟨_, _, 0, rfl, rfl, rfl, le_refl _, by norm_num, rfl, ?_⟩
      dsimp only
      linarith [huz1 hnf]
  · rw [if_neg hpos, if_neg hpos]
    refine ⟨_, _, 0, rfl, rfl, rfl, le_refl _, by norm_num, rfl, ?_⟩
    dsimp only
    linarith

/-- A bin stays within its bounds and has no negative fluxes. -/
theorem binStep_range (m : Mru) (hm : m.Ok) (dt : Rat) (hdt : 0 ≤ dt) (w : Water)
    (hw : 0 ≤ w.p2rz ∧ 0 ≤ w.qv2suz ∧ 0 ≤ w.ep) (sd0 : Rat) (b b' : BinSt) (f : Flux) (hb : b.Ok m)
    (h : binStep m dt w sd0 b = some (b', f)) :
    b'.Ok m ∧ 0 ≤ f.wet ∧ 0 ≤ f.ex ∧ 0 ≤ f.uz ∧ 0 ≤ f.ea := by
  obtain ⟨⟨hz0, hz1⟩, hs0⟩ := hb
  obtain ⟨hw1, hw2, hw3⟩ := hw
  unfold binStep at h
  dsimp only at h
  have key : ∀ (full : Bool), full = decide (b.suz ≥ sd0) →
      ∀ sd1 suz1 uz1 : Rat, sd1 = (if full then sd0 - b.suz else sd0) →
      suz1 = (if full then 0 else b.suz) → uz1 = (if full then b.suz else 0) →
      0 ≤ suz1 ∧ 0 ≤ uz1 := by
    rintro full hf sd1 suz1 uz1 rfl rfl rfl
    cases full
    · simp [hs0]
    · simp [hs0]
  have hk := key _ rfl _ _ _ rfl rfl rfl
  generalize (if decide (b.suz ≥ sd0) = true then sd0 - b.suz else sd0) = sd1 at *
  generalize (if decide (b.suz ≥ sd0) = true then 0 else b.suz) = suz1 at *
  generalize (if decide (b.suz ≥ sd0) = true then b.suz else 0) = uz1 at *
  generalize decide (b.suz ≥ sd0) = full at *
  clear key
  obtain ⟨hsuz1, huz1⟩ := hk
  have hwet : 0 ≤ (if sd1 < 0 then (if -sd1 ≥ b.srz then b.srz else -sd1) else 0) ∧
      0 ≤ (if sd1 < 0 then (if -sd1 ≥ b.srz then 0 else b.srz - (if sd1 < 0 then
        (if -sd1 ≥ b.srz then b.srz else -sd1) else 0)) else b.srz) ∧
      (if sd1 < 0 then (if -sd1 ≥ b.srz then 0 else b.srz - (if sd1 < 0 then
        (if -sd1 ≥ b.srz then b.srz else -sd1) else 0)) else b.srz) ≤ b.srz := by
    by_cases h1 : sd1 < 0
    · simp only [if_pos h1]
      by_cases h2 : -sd1 ≥ b.srz
      · simp only [if_pos h2]; exact ⟨hz0, le_refl _, hz0⟩
      · simp only [if_neg h2]; exact ⟨by linarith, by linarith, by linarith⟩
    · simp only [if_neg h1]; exact ⟨le_refl _, hz0, le_refl _⟩
  generalize (if sd1 < 0 then (if -sd1 ≥ b.srz then 0 else b.srz - (if sd1 < 0 then
        (if -sd1 ≥ b.srz then b.srz else -sd1) else 0)) else b.srz) = srz1 at *
  generalize (if sd1 < 0 then (if -sd1 ≥ b.srz then b.srz else -sd1) else 0) = wet at *
  have hsd2 : 0 ≤ (if sd1 < 0 then 0 else sd1) := by
    by_cases h : sd1 < 0
    · rw [if_pos h]
    · rw [if_neg h]; exact not_lt.1 h
  generalize (if sd1 < 0 then 0 else sd1) = sd2 at *
  obtain ⟨hwet, hsrz1, hsrz1'⟩ := hwet
  have hroot : 0 ≤ (if srz1 - w.p2rz < 0 then suz1 - (srz1 - w.p2rz) else suz1) ∧
      0 ≤ (if srz1 - w.p2rz < 0 then 0 else srz1 - w.p2rz) ∧
      (if srz1 - w.p2rz < 0 then 0 else srz1 - w.p2rz) ≤ srz1 := by
    by_cases h : srz1 - w.p2rz < 0
    · simp only [if_pos h]; exact ⟨by linarith, le_refl _, hsrz1⟩
    · simp only [if_neg h]; exact ⟨hsuz1, not_lt.1 h, by linarith⟩
  generalize (if srz1 - w.p2rz < 0 then suz1 - (srz1 - w.p2rz) else suz1) = suzA at *
  generalize (if srz1 - w.p2rz < 0 then 0 else srz1 - w.p2rz) = srz3 at *
  obtain ⟨hsuzA, hsrz3, hsrz3'⟩ := hroot
  have hex : 0 ≤ (if suzA + w.qv2suz > sd2 then sd2 else suzA + w.qv2suz) ∧
      0 ≤ (if suzA + w.qv2suz > sd2 then suzA + w.qv2suz - sd2 else 0) := by
    by_cases h : suzA + w.qv2suz > sd2
    · rw [if_pos h, if_pos h]; exact ⟨hsd2, by linarith⟩
    · rw [if_neg h, if_neg h]; exact ⟨by linarith, le_refl _⟩
  generalize (if suzA + w.qv2suz > sd2 then sd2 else suzA + w.qv2suz) = suz3 at *
  generalize (if suzA + w.qv2suz > sd2 then suzA + w.qv2suz - sd2 else 0) = ex at *
  obtain ⟨hsuz3, hex⟩ := hex
  have hea := evap_range m hm w.ep hw3 w.transp srz3 hsrz3 (by
    show srz3 ≤ (m.fc - m.wp) * m.root
    linarith)
  generalize evap m w.ep w.transp srz3 = ea at *
  by_cases hc : suz3 > 0 ∧ full = true
  · rw [if_pos hc] at h; exact absurd h (by simp)
  · rw [if_neg hc] at h
    simp only [Option.some.injEq, Prod.mk.injEq] at h
    obtain ⟨rfl, rfl⟩ := h
    dsimp only
    have huz : 0 ≤ (if suz3 > 0 then drainage m dt sd2 suz3 else uz1) := by
      by_cases hp : suz3 > 0
      · rw [if_pos hp]; exact drainage_nonneg m dt sd2 suz3 hdt hm.td hsuz3
      · rw [if_neg hp]; exact huz1
    refine ⟨⟨⟨by dsimp only; linarith [hea.1], ?_⟩, ?_⟩, hwet, hex, huz, hea.1⟩
    · dsimp only
      have := hea.2
      unfold Mru.srmax at this
      linarith
    · dsimp only
      by_cases hp : suz3 > 0
      · simp only [if_pos hp]
        by_cases ht : suz3 - drainage m dt sd2 suz3 < 1 / 10000000
        · rw [if_pos ht]
        · rw [if_neg ht]; linarith [drainage_le m dt sd2 suz3]
      · simp only [if_neg hp]; exact hsuz3

theorem weigh_cons (a x : Rat) (as xs : List Rat) : weigh (a :: as) (x :: xs) = x * a + weigh as xs := rfl

theorem weigh_nil (as : List Rat) : weigh as [] = 0 := by
  cases as <;> rfl

theorem weigh_nonneg (as xs : List Rat) (ha : ∀ a ∈ as, 0 ≤ a) (hx : ∀ x ∈ xs, 0 ≤ x) : 0 ≤ weigh as xs := by
  induction as generalizing xs with
  | nil => cases xs <;> exact le_refl _
  | cons a as ih =>
    cases xs with
    | nil => exact le_refl _
    | cons x xs =>
      rw [weigh_cons]
      have h1 := ih xs (fun y hy => ha y (by simp [hy])) (fun y hy => hx y (by simp [hy]))
      have h2 := mul_nonneg (hx x (by simp)) (ha a (by simp))
      linarith

/-- The loop over the bins: never stops, and its balance. -/
theorem binLoop_balance (m : Mru) (dt : Rat) (w : Water) (sbar : Rat) (l : List ((Rat × Rat) × BinSt))
    (hl : ∀ x ∈ l, 0 ≤ x.1.1) :
    ∃ rs, binLoop m dt w sbar l = some rs ∧ rs.length = l.length ∧
      (∀ k (hk : k < l.length) (hk' : k < rs.length),
        (if l[k].1.1 ≠ 0 then binStep m dt w (deficit m sbar l[k].1.2) l[k].2
         else some (l[k].2, ⟨0, 0, 0, 0, 0⟩)) = some rs[k]) ∧
      ∃ e, 0 ≤ e ∧ e ≤ (l.map (·.1.1)).sum / 10000000 ∧
        (List.zipWith (fun a (b : BinSt) => a * (b.suz - b.srz)) (l.map (·.1.1)) (rs.map (·.1))).sum + e =
        (List.zipWith (fun a (b : BinSt) => a * (b.suz - b.srz)) (l.map (·.1.1)) (l.map (·.2))).sum +
          (w.p2rz + w.qv2suz) * (l.map (·.1.1)).sum + weigh (l.map (·.1.1)) (rs.map (·.2.wet)) -
          weigh (l.map (·.1.1)) (rs.map (·.2.ex)) - weigh (l.map (·.1.1)) (rs.map (·.2.uz)) -
          weigh (l.map (·.1.1)) (rs.map (·.2.ea)) := by
  induction l with
  | nil => exact ⟨[], rfl, rfl, fun k hk => absurd hk (by simp), 0, le_refl _, by simp, by simp [weigh]⟩
  | cons x l ih =>
    obtain ⟨⟨acf, st⟩, b⟩ := x
    obtain ⟨rs, h1, h2, h3, e, he0, he1, he⟩ := ih fun y hy => hl y (by simp [hy])
    have ha : 0 ≤ acf := hl ((acf, st), b) (by simp)
    have hstep : ∃ b' f d, (if acf ≠ 0 then binStep m dt w (deficit m sbar st) b
        else some (b, ⟨0, 0, 0, 0, 0⟩)) = some (b', f) ∧ 0 ≤ d ∧ d ≤ acf / 10000000 ∧
        acf * (b'.suz - b'.srz) + d = acf * (b.suz - b.srz) + (w.p2rz + w.qv2suz) * acf + f.wet * acf -
          f.ex * acf - f.uz * acf - f.ea * acf := by
      by_cases hz : acf ≠ 0
      · obtain ⟨b', f, d, g1, -, -, g2, g3, -, g4⟩ := binStep_balance m dt w (deficit m sbar st) b
        refine ⟨b', f, d * acf, by rw [if_pos hz]; exact g1, mul_nonneg g2 ha, ?_, ?_⟩
        · have := mul_le_mul_of_nonneg_right g3 ha
          linarith
        · have := congrArg (acf * ·) g4
          linarith
      · rw [not_not] at hz
        subst hz
        exact ⟨b, ⟨0, 0, 0, 0, 0⟩, 0, by simp, le_refl _, by simp, by simp⟩
    obtain ⟨b', f, d, g1, g2, g3, g4⟩ := hstep
    refine ⟨(b', f) :: rs, ?_, by simp [h2], ?_, e + d, by linarith, ?_, ?_⟩
    · unfold binLoop
      rw [g1, h1]
    · intro k hk hk'
      cases k with
      | zero => exact g1
      | succ k => exact h3 k (by simpa using hk) (by simpa using hk')
    · simp only [List.map_cons, List.sum_cons]
      linarith
    · simp only [List.map_cons, List.sum_cons, List.zipWith_cons_cons, weigh_cons]
      linarith

theorem acfs_length (l : List Rat) : (acfs l).length = l.length := by
  induction l with
  | nil => rfl
  | cons a l ih =>
    cases l with
    | nil => rfl
    | cons b l => simp only [acfs, List.length_cons] at ih ⊢; omega

theorem acfs_sum (a : Rat) (l : List Rat) : (acfs (a :: l)).sum = a / 2 + l.sum := by
  induction l generalizing a with
  | nil => simp [acfs]; ring
  | cons b l ih =>
    unfold acfs
    rw [List.sum_cons, ih, List.sum_cons]
    ring

theorem acfs_nonneg (l : List Rat) (h : ∀ x ∈ l, 0 ≤ x) : ∀ x ∈ acfs l, 0 ≤ x := by
  induction l with
  | nil => intro x hx; exact absurd hx (by simp [acfs])
  | cons a l ih =>
    cases l with
    | nil =>
      intro x hx
      simp only [acfs, List.mem_singleton] at hx
      rw [hx]
      have := h a (by simp)
      linarith
    | cons b l =>
      intro x hx
      simp only [acfs, List.mem_cons] at hx
      rcases hx with rfl | hx
      · have h1 := h a (by simp)
        have h2 := h b (by simp)
        linarith
      · exact ih (fun y hy => h y (List.mem_cons_of_mem _ hy)) x hx

/-- What one step does, without the details of the bins. -/
structure Step (fn : Fn) (m : Mru) (infex : Bool) (nstep : Nat) (dt : Rat) (i : In) (st st' : St) (o : Out)
    (w : Water) (rs : List (BinSt × Flux)) : Prop where
  drain : m.drain ≠ 0
  nonzero : dt ≠ 0
  surfdep : o.surfdep = (i.snowmelt + i.psoil) * (254 / 10000)
  rex : o.rex = (infilExcess fn m infex nstep o.surfdep dt st.pond).1
  qvpref : o.qvpref = (o.surfdep - o.rex) * m.pmacSat * m.pmacro
  p2rz : w.p2rz = (o.surfdep - o.rex) * (1 - m.pmacro)
  qv2suz : w.qv2suz = (o.surfdep - o.rex) * (1 - m.pmacSat) * m.pmacro
  p : w.p = o.surfdep - o.rex - o.qvpref
  ep : 0 ≤ w.ep
  loop : binLoop m dt w st.sbar (List.zip (List.zip (acfs (m.bins.map (·.1))) (m.bins.map (·.2))) st.bins) =
    some rs
  qofs : o.qofs = weigh (acfs (m.bins.map (·.1))) (rs.map (·.2.ex))
  qof : o.qof = o.qofs + o.rex
  qwet : o.qwet = weigh (acfs (m.bins.map (·.1))) (rs.map (·.2.wet))
  qdf : o.qdf = weigh (acfs (m.bins.map (·.1))) (rs.map fun r => m.qdffrac * r.2.uz)
  quz : o.quz = weigh (acfs (m.bins.map (·.1))) (rs.map fun r => (1 - m.qdffrac) * r.2.uz)
  sae : o.sae = weigh (acfs (m.bins.map (·.1))) (rs.map (·.2.ea))
  loss : o.gwLoss = gwLoss fn m dt st.zwt
  qpref : ∃ net, o.qpref = drainFlow m dt st.zwt net
  qb : o.qb = adjust m o.qpref (baseFlow fn m st.sbar)
  sbar : st'.sbar = st.sbar - o.quz - o.qvpref + o.qb + o.qwet + o.qpref + i.irrSat * inch2m - o.gwIn1 -
    o.gwIn2 + o.gwLoss
  qout : o.qout = o.qb + o.qof + o.qdf + o.qpref
  flux : o.flux = rs.map (·.2)
  infil : o.infil = o.surfdep - o.qof - o.qvpref
  bins : st'.bins = (List.zipWith (fun (a : Rat × Rat) (r : BinSt × Flux) => tableStep m st'.sbar a.1 a.2 r.1)
    (List.zip (acfs (m.bins.map (·.1))) (m.bins.map (·.2))) rs).map (·.1)
  uz2sat : o.uz2sat = (List.zipWith (fun (a : Rat × Rat) (r : BinSt × Flux) =>
    tableStep m st'.sbar a.1 a.2 r.1) (List.zip (acfs (m.bins.map (·.1))) (m.bins.map (·.2))) rs).map (·.2)
  sums : ∃ s : Sums, s = (if nstep = 1 then ⟨0, 0, 0, 0, 0, 0⟩ else st.sums) ∧ st'.sums =
    ⟨s.p + o.surfdep, s.gw1 + o.gwIn1, s.gw2 + o.gwIn2, s.ae + o.sae, s.q + o.qout, s.loss + o.gwLoss⟩
  bal : st'.bal = st.bal

theorem topmrun_step (fn : Fn) (m : Mru) (infex internal : Bool) (nstep : Nat) (dt : Rat) (i : In)
    (st st' : St) (o : Out) (h : topmrun fn m infex internal nstep dt i st = some (some (st', o))) :
    ∃ w rs, Step fn m infex nstep dt i st st' o w rs := by
  unfold topmrun at h
  split at h
  · exact absurd h (by simp)
  · rename_i hz
    have hz1 : m.drain ≠ 0 := fun h => hz (Or.inr (Or.inl h))
    have hz2 : dt ≠ 0 := fun h => hz (by simp [h])
    dsimp only at h
    split at h
    · rename_i gw1 gw2 nx _ _ _
      split at h
      · exact absurd h (by simp)
      · rename_i rs hloop
        simp only [Option.some.injEq, Prod.mk.injEq] at h
        obtain ⟨rfl, rfl⟩ := h
        exact ⟨_, rs, {
          drain := hz1, nonzero := hz2, surfdep := rfl, rex := rfl, qvpref := rfl, p2rz := rfl,
          qv2suz := rfl, p := rfl,
          ep := by
            dsimp only
            split
            · exact le_refl _
            · rename_i h; exact not_lt.1 h
          loop := hloop
          qofs := by dsimp only; simp only [List.map_map]; rfl
          qof := rfl
          qwet := by dsimp only; simp only [List.map_map]; rfl
          qdf := by dsimp only; simp only [List.map_map]; rfl
          quz := by dsimp only; simp only [List.map_map]; rfl
          sae := by dsimp only; simp only [List.map_map]; rfl
          loss := rfl, qpref := ⟨_, rfl⟩, qb := rfl, sbar := rfl, qout := rfl, flux := rfl, infil := rfl, bins := rfl,
          uz2sat := rfl, sums := ⟨_, rfl, rfl⟩, bal := rfl }⟩
    · exact absurd h (by simp)

/-- A step is never a stop. -/
theorem topmrun_no_stop (fn : Fn) (m : Mru) (hm : ∀ b ∈ m.bins, 0 ≤ b.1) (infex internal : Bool) (nstep : Nat)
    (dt : Rat) (i : In) (st : St) : topmrun fn m infex internal nstep dt i st ≠ some none := by
  unfold topmrun
  split
  · simp
  · dsimp only
    split
    · split
      · rename_i hloop
        obtain ⟨rs, h1, -⟩ := binLoop_balance m dt _ st.sbar
          (List.zip (List.zip (acfs (m.bins.map (·.1))) (m.bins.map (·.2))) st.bins) (by
            intro x hx
            have := (List.of_mem_zip hx).1
            have h2 := (List.of_mem_zip (show (x.1.1, x.1.2) ∈ _ from this)).1
            refine acfs_nonneg _ ?_ _ h2
            intro y hy
            obtain ⟨b, hb, rfl⟩ := List.mem_map.1 hy
            exact hm b hb)
        rw [h1] at hloop
        exact absurd hloop (by simp)
      · simp
    · simp

end Verif.Topmod
