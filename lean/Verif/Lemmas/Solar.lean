import Verif.Lemmas.Calendar
import Verif.Model.Solar
import Verif.Spec.Solar
import Mathlib.Tactic.Linarith
import Mathlib.Tactic.NormNum
import Mathlib.Tactic.IntervalCases
import Mathlib.Tactic.Ring
/-
Lemmas about the solar table.
-/
namespace Verif.Solar
open Verif.Calendar

theorem jd_dec21 {y : Int} (h : 1581 < y) : jd ⟨y, 12, 21⟩ + 11 = jd ⟨y + 1, 1, 1⟩ := by
  have h1 := jd_newyear (y := y + 1) (by omega)
  simp only [jd, h1]
  rw [julday_eq _ _ _ (by omega)]
  simp only [show ((12 : Int) > 2) by omega, if_true]
  rw [if_pos (by omega)]
  simp only [Option.getD_some]
  omega

theorem dec21_year {y : Int} (h : 1582 < y) :
    jd ⟨y, 12, 21⟩ = jd ⟨y - 1, 12, 21⟩ + 365 + if civilLeap y then 1 else 0 := by
  have h1 := jd_dec21 (y := y) (by omega)
  have h2 := jd_dec21 (y := y - 1) (by omega)
  rw [show y - 1 + 1 = y by omega] at h2
  obtain ⟨a, b, ha, hb, h3, h4, h5⟩ := leap_year_days h
  have ea : jd ⟨y, 1, 1⟩ = a := by simp [jd, ha]
  have eb : jd ⟨y + 1, 1, 1⟩ = b := by simp [jd, hb]
  rw [isleap_eq h] at h3 h4
  split at h3 <;> simp_all <;> omega

theorem valid_dec21 {y : Int} (h : 1 ≤ y) : Valid ⟨y, 12, 21⟩ := by
  refine ⟨h, ?_⟩
  simp [monthLength]

theorem solarYear_ref {d : Date} : refDate .solar d = ⟨solarYear d - 1, 12, 21⟩ := by
  simp only [refDate, solarYear]
  split <;> simp

theorem solarYear_gt {d : Date} (hy : 1582 < d.year) : 1582 < solarYear d := by
  unfold solarYear; split <;> omega

theorem solar_day {d : Date} (h : Valid d) (hy : 1582 < d.year) :
    ∃ j, julian .solar d = some j ∧ 1 ≤ j ∧ (j < 11 ↔ d.month = 12 ∧ d.day > 21) ∧
      ((d.month = 12 ∧ d.day = 21) → j = 365 + leapDay d) ∧ (¬ (d.month = 12 ∧ d.day = 21) → j < 365 + leapDay d) := by
  have hs := solarYear_gt hy
  have hj := dec21_year hs
  refine ⟨_, julian_eq .solar h (by omega), ?_, ?_, ?_, ?_⟩
  · have := jd_mono (ref_valid .solar (d := d) (by omega)) h (ref_before .solar h)
    omega
  · rw [solarYear_ref]
    by_cases hd : d.month = 12 ∧ d.day > 21
    · have e : solarYear d - 1 = d.year := by simp [solarYear, hd]
      have h31 : Valid ⟨d.year + 1, 1, 1⟩ := valid_first (by omega) (by omega) (by omega)
      have hb : Before d ⟨d.year + 1, 1, 1⟩ := by left; show d.year < d.year + 1; omega
      have := jd_mono h h31 hb
      have h2 := jd_dec21 (y := d.year) (by omega)
      rw [e]
      simp only [hd, and_self, iff_true]
      omega
    · have e : solarYear d = d.year := by simp [solarYear, hd]
      have h2 := jd_dec21 (y := d.year - 1) (by omega)
      rw [show d.year - 1 + 1 = d.year by omega] at h2
      have h3 := (jd_year_bounds (y := d.year) (m := d.month) (d := d.day) h).1
      rw [e]
      simp only [hd, iff_false]
      have : jd d = jd ⟨d.year, d.month, d.day⟩ := rfl
      omega
  · rintro ⟨h1, h2⟩
    have e : solarYear d = d.year := by simp [solarYear, h2]
    have hd : d = ⟨d.year, 12, 21⟩ := by
      cases d; simp only at h1 h2; simp [h1, h2]
    rw [solarYear_ref]
    have : jd d = jd ⟨d.year, 12, 21⟩ := congrArg jd hd
    rw [← e] at this
    unfold leapDay
    omega
  · intro hn
    have hb : Before d ⟨solarYear d, 12, 21⟩ := by
      obtain ⟨h1, h2, h3, h4, h5, h6⟩ := h
      show d.year < solarYear d ∨ (d.year = solarYear d ∧ (d.month < 12 ∨ (d.month = 12 ∧ d.day < 21)))
      by_cases hd : d.month = 12 ∧ d.day > 21
      · have e : solarYear d = d.year + 1 := by simp [solarYear, hd]
        omega
      · have e : solarYear d = d.year := by simp [solarYear, hd]
        omega
    have := jd_mono h (valid_dec21 (by omega)) hb
    rw [solarYear_ref]
    unfold leapDay
    omega

/-- First day of period `k + 1`. -/
def node (l : Int) (k : Nat) : Int := ((nodes l).getD k (0, 0)).1

/-- Table entry used on that day. -/
def entry (l : Int) (k : Nat) : Nat := ((nodes l).getD k (0, 0)).2

theorem node_step (l : Int) (k : Nat) (h : k < 24) : node l (k + 1) = node l k + lp (15 + l) (k + 1) := by
  interval_cases k <;> simp [node, nodes, lp, lengths] <;> omega

theorem node_lt (l : Int) (hl : l = 0 ∨ l = 1) (k : Nat) (h : k < 24) : node l k < node l (k + 1) := by
  rcases hl with rfl | rfl <;> interval_cases k <;> decide

theorem entry_ends (l : Int) (k : Nat) (h : k < 24) :
    sdayAt (ends (k + 1)).1 = entry l k ∧ sdayAt (ends (k + 1)).2 = entry l (k + 1) := by
  interval_cases k <;> simp [entry, nodes, ends, sdayAt, sday]

theorem onTable_of {tab : Nat → Rat} {l j : Int} {v : Rat} (k : Nat) (h : k < 24) (h1 : node l k ≤ j) (h2 : j ≤ node l (k + 1))
    (hv : v = tab (entry l k) + (j - node l k : Int) / (node l (k + 1) - node l k : Int) * (tab (entry l (k + 1)) - tab (entry l k))) :
    OnTable tab l j v := by
  refine ⟨_, _, _, _, ?_, h1, h2, hv⟩
  refine ⟨(nodes l).take k, (nodes l).drop (k + 2), ?_⟩
  interval_cases k <;> rfl

theorem search_spec {jsol : Int} : ∀ (ls : List Int) (j : Nat) (n : Int), n ≤ jsol → (∀ l ∈ ls, 0 < l) → jsol < n + ls.sum →
    ∃ i, i < ls.length ∧ search jsol ls j n = (j + i + 1, n + (ls.take (i + 1)).sum) ∧ n + (ls.take i).sum ≤ jsol ∧
      jsol < n + (ls.take (i + 1)).sum := by
  intro ls
  induction ls with
  | nil => intro j n h1 _ h2; simp at h2; omega
  | cons l r ih =>
    intro j n h1 hp h2
    rw [search]
    by_cases hc : jsol < n + l
    · rw [if_pos hc]
      exact ⟨0, by simp, by simp, by simpa using h1, by simpa using hc⟩
    · rw [if_neg hc]
      have hl := hp l (by simp)
      obtain ⟨i, h3, h4, h5, h6⟩ := ih (j + 1) (n + l) (by omega) (fun x hx => hp x (by simp [hx])) (by simp at h2; omega)
      refine ⟨i + 1, by simp; omega, ?_, ?_, ?_⟩
      · rw [h4]; simp; omega
      · simp; omega
      · simp at h6 ⊢; omega

theorem node_sum (l : Int) (k : Nat) (h : k ≤ 24) : node l k = 1 + ((lengths (15 + l)).take k).sum := by
  interval_cases k <;> simp [node, nodes, lengths] <;> omega

theorem leapDay_cases (d : Date) : leapDay d = 0 ∨ leapDay d = 1 := by unfold leapDay; split <;> simp

theorem fifth_eq {y : Int} (h : 1582 < y) : fifth y = 15 + if civilLeap y then 1 else 0 := by
  unfold fifth
  rw [isleap_eq h]
  split <;> simp

/-- State of the module after the step of day `d`. -/
def Inv (tab : Nat → Rat) (s : Sun) (d : Date) (j : Int) : Prop :=
  s.lday = d.day ∧ OnTable tab (leapDay d) j s.drad ∧ s.kck = false ∧
    ((j = 365 + leapDay d ∧ s.nper = 1 ∧ s.lsv = 0 ∧ s.lp5 = fifth (d.year + 1)) ∨
      ∃ k, k < 24 ∧ s.lsv = k + 1 ∧ s.lp5 = 15 + leapDay d ∧ s.nper = node (leapDay d) (k + 1) ∧ node (leapDay d) k ≤ j ∧
        j < s.nper ∧ s.sper = (s.nper - node (leapDay d) k : Int) ∧ s.cnt = (j - node (leapDay d) k + 1 : Int) ∧
        s.psv = tab (entry (leapDay d) k) ∧ s.ssv = tab (entry (leapDay d) (k + 1)) - tab (entry (leapDay d) k))

theorem first_inv {tab : Nat → Rat} {d : Date} (h : Valid d) (hy : 1582 < d.year) (hd : ¬ (d.month = 12 ∧ d.day = 21)) :
    ∃ s j, csolrun tab true d Sun.init = some s ∧ julian .solar d = some j ∧ Inv tab s d j := by
  obtain ⟨j, hj, h1, h11, -, hlt⟩ := solar_day h hy
  have hlt := hlt hd
  have hl := leapDay_cases d
  have h0 : ¬ Sun.init.lday = d.day := by have := h.2.2.2.1; simp only [Sun.init]; omega
  have hyear : (if j < 11 then d.year + 1 else d.year) = solarYear d := by
    unfold solarYear; simp only [h11]
  have hf : fifth (solarYear d) = 15 + leapDay d := fifth_eq (solarYear_gt hy)
  have hpos : ∀ x ∈ lengths (15 + leapDay d), 0 < x := by
    rcases hl with h | h <;> rw [h] <;> decide
  have hsum : (1 : Int) + (lengths (15 + leapDay d)).sum = 365 + leapDay d := by simp [lengths]; omega
  obtain ⟨i, hi, hs, h3, h4⟩ := search_spec (jsol := j) (lengths (15 + leapDay d)) 0 1 h1 hpos (by omega)
  have hi : i < 24 := hi
  rw [← node_sum _ _ (by omega)] at h3
  rw [← node_sum _ _ (by omega)] at hs h4
  have hstep := node_step (leapDay d) i hi
  have hlt' := node_lt (leapDay d) hl i hi
  have hent := entry_ends (leapDay d) i hi
  unfold csolrun
  rw [if_neg h0, hj]
  simp only [Option.map_some, if_true]
  rw [hyear, hf, hs]
  refine ⟨_, j, rfl, rfl, ?_⟩
  · have hcnt : ((lp (15 + leapDay d) (0 + i + 1) : Int) : Rat) - ((node (leapDay d) (i + 1) - j : Int) : Rat)
        = (j - node (leapDay d) i : Int) := by
      rw [Nat.zero_add]; push_cast [hstep]; ring
    simp only [hcnt]
    unfold place
    simp only [Nat.zero_add, hent]
    have hsp : (lp (15 + leapDay d) (i + 1) : Int) = node (leapDay d) (i + 1) - node (leapDay d) i := by omega
    by_cases hz : j = node (leapDay d) i
    · have : ¬ ¬ (((j - node (leapDay d) i : Int) : Rat) < 1 / 10 ^ 30) := by rw [hz]; norm_num
      simp only [this, decide_false, Bool.false_eq_true, if_false]
      refine ⟨rfl, onTable_of i hi h3 (by omega) (by rw [hz]; simp), rfl, .inr ⟨i, hi, rfl, rfl, rfl, h3, h4, ?_, ?_, rfl, rfl⟩⟩
      · simp only [hsp]
      · rw [hz]; simp
    · have : ¬ (((j - node (leapDay d) i : Int) : Rat) < 1 / 10 ^ 30) := by
        have h5 : (1 : Int) ≤ j - node (leapDay d) i := by omega
        have h6 : (1 : Rat) ≤ ((j - node (leapDay d) i : Int) : Rat) := by exact_mod_cast h5
        have h7 : (1 : Rat) / 10 ^ 30 ≤ 1 := by norm_num
        linarith
      simp only [this, not_false_eq_true, decide_true, if_true, interp]
      refine ⟨rfl, onTable_of i hi h3 (by omega) ?_, rfl, .inr ⟨i, hi, rfl, rfl, rfl, h3, h4, ?_, ?_, rfl, rfl⟩⟩
      · simp only [hsp]
      · simp only [hsp]
      · push_cast; ring

theorem step_inv {tab : Nat → Rat} {s : Sun} {d e : Date} {j : Int} (h : Valid d) (hy : 1582 < d.year)
    (hj : julian .solar d = some j) (hs : Inv tab s d j) (he : e = d ∨ e = next d) :
    ∃ s' j', csolrun tab false e s = some s' ∧ julian .solar e = some j' ∧ Inv tab s' e j' := by
  rcases he with rfl | rfl
  · exact ⟨s, j, by unfold csolrun; rw [if_pos hs.1], hj, hs⟩
  obtain ⟨h1, h2, h3, h4⟩ := hs
  have hv := next_valid h
  have hy' : 1582 < (next d).year := by have := next_year d; omega
  have hne : ¬ s.lday = (next d).day := by
    rw [h1]; unfold next
    obtain ⟨a1, a2, a3, a4, a5, a6⟩ := h
    have hml : 28 ≤ monthLength d.year d.month := by unfold monthLength; split_ifs <;> omega
    by_cases hc : d.year = 1582 ∧ d.month = 10 ∧ d.day = 4
    · omega
    · rw [if_neg hc]
      split_ifs <;> simp only <;> omega
  obtain ⟨j', hj', b1, b11, b21, blt⟩ := solar_day hv hy'
  obtain ⟨j0, hj0, c1, c11, c21, clt⟩ := solar_day h hy
  rw [hj] at hj0; cases hj0
  obtain ⟨n, hn, hfirst, hother⟩ := julian_next .solar h (by omega)
  rw [hj] at hn; cases hn
  have hl := leapDay_cases d
  have hfd : isFirstDay .solar (next d) ↔ (d.month = 12 ∧ d.day = 21) := by
    obtain ⟨a1, a2, a3, a4, a5, a6⟩ := h
    unfold isFirstDay next
    have hml : 28 ≤ monthLength d.year d.month := by unfold monthLength; split_ifs <;> omega
    have hml' : d.month = 12 → monthLength d.year d.month = 31 := by intro h; rw [h]; simp [monthLength]
    by_cases hc : d.year = 1582 ∧ d.month = 10 ∧ d.day = 4
    · omega
    · rw [if_neg hc]
      split_ifs <;> simp only <;> omega
  unfold csolrun
  rw [if_neg hne, hj']
  simp only [Option.map_some, Bool.false_eq_true, if_false]
  by_cases hd : d.month = 12 ∧ d.day = 21
  · -- the first day of the next solar year
    have hone : j' = 1 := by
      have := hfirst (hfd.2 hd); rw [hj'] at this; exact Option.some.inj this
    subst hone
    have hj365 := c21 hd
    have hnext : (next d).month = 12 ∧ (next d).day = 22 := hfd.2 hd
    have hyd : (next d).year = d.year := by
      unfold next; rw [if_neg (by omega), if_pos (by rw [hd.1, hd.2]; simp [monthLength])]
    have hsy : solarYear (next d) = d.year + 1 := by simp [solarYear, hnext, hyd]
    have hld : 15 + leapDay (next d) = fifth (d.year + 1) := by
      rw [fifth_eq (by omega), ← hsy]; rfl
    rcases h4 with ⟨-, hn1, hl0, hl5⟩ | ⟨k, hk, -, -, hnp, -, hjn, -⟩
    · refine ⟨_, 1, rfl, rfl, ?_⟩
      have hcond : ¬ ((1 : Int) ≠ 1) := by omega
      simp only [hn1, hl0, hl5, ← hld]
      rw [if_neg hcond, if_neg (by omega : ¬ ((0 : Nat) = 24))]
      have hent := entry_ends (leapDay (next d)) 0 (by omega)
      have hnode : node (leapDay (next d)) 0 = 1 := rfl
      have hstep := node_step (leapDay (next d)) 0 (by omega)
      have hlt' := node_lt (leapDay (next d)) (leapDay_cases _) 0 (by omega)
      unfold place
      simp only [Nat.zero_add, h3, Bool.false_eq_true, if_false] at hent hstep hlt' ⊢
      simp only [hent]
      refine ⟨rfl, onTable_of 0 (by omega) (by omega) (by simp only [Nat.zero_add]; omega) (by rw [hnode]; simp), rfl,
        .inr ⟨0, by omega, rfl, rfl, ?_, by omega, ?_, ?_, ?_, rfl, rfl⟩⟩
      · simp only [Nat.zero_add]; omega
      · simp only; omega
      · simp only [hnode]; congr 1
      · rw [hnode]; simp
    · exfalso
      have hmax : node (leapDay d) (k + 1) ≤ 365 + leapDay d := by
        rcases hl with h | h <;> rw [h] <;> interval_cases k <;> decide
      omega
  · have hjj : j' = j + 1 := by
      have := hother (mt hfd.1 hd); rw [hj'] at this; exact Option.some.inj this
    subst hjj
    have hsy : solarYear (next d) = solarYear d := by
      have h1 := (ref_next .solar h).2 (mt hfd.1 hd)
      rw [solarYear_ref, solarYear_ref] at h1
      simp at h1; omega
    have hld : leapDay (next d) = leapDay d := by unfold leapDay; rw [hsy]
    rcases h4 with ⟨h365, -⟩ | ⟨k, hk, hlsv, hl5, hnp, hkj, hjn, hsper, hcnt, hpsv, hssv⟩
    · have := clt hd; omega
    · have hstep := node_step (leapDay d) k hk
      have hlt' := node_lt (leapDay d) hl k hk
      by_cases hc : s.nper = j + 1
      · have hcond : ¬ (s.nper ≠ j + 1) := by omega
        simp only [hcond, if_false, hlsv]
        by_cases h24 : k + 1 = 24
        · have hkk : k = 23 := by omega
          subst hkk
          have hlast : node (leapDay d) (23 + 1) = 365 + leapDay d := rfl
          have hdec : (next d).month = 12 ∧ (next d).day = 21 := by
            by_contra hcon
            have := blt hcon; rw [hld] at this; omega
          simp only [h24, if_true, interp]
          refine ⟨_, _, rfl, rfl, rfl, ?_, h3, .inl ⟨?_, rfl, rfl, ?_⟩⟩
          · rw [hld]
            refine onTable_of 23 (by omega) (by omega) (by omega) ?_
            simp only [hpsv, hcnt, hsper, hssv]
            rw [hnp, show j + 1 - node (leapDay d) 23 = j - node (leapDay d) 23 + 1 by omega]
          · rw [hld]; omega
          · rfl
        · have hk' : k + 1 < 24 := by omega
          have hent := entry_ends (leapDay d) (k + 1) hk'
          have hstep' := node_step (leapDay d) (k + 1) hk'
          have hlt'' := node_lt (leapDay d) hl (k + 1) hk'
          simp only [h24, if_false, hl5]
          unfold place
          simp only [h3, Bool.false_eq_true, if_false, hent]
          refine ⟨_, _, rfl, rfl, rfl, ?_, rfl, .inr ⟨k + 1, hk', rfl, ?_, ?_, ?_, ?_, ?_, ?_, ?_, ?_⟩⟩
          · rw [hld]
            exact onTable_of (k + 1) hk' (by omega) (by omega) (by rw [← hnp, hc]; simp)
          · rw [hld]
          · rw [hld]; simp only; omega
          · rw [hld]; omega
          · simp only; omega
          · rw [hld]; simp only [hnp]; congr 1; omega
          · rw [hld, ← hnp, hc]; simp
          · rw [hld]
          · rw [hld]
      · simp only [ne_eq, hc, not_false_eq_true, if_true, interp]
        refine ⟨_, _, rfl, rfl, rfl, ?_, h3, .inr ⟨k, hk, hlsv, ?_, ?_, ?_, ?_, ?_, ?_, ?_, ?_⟩⟩
        · rw [hld]
          refine onTable_of k hk (by omega) (by omega) ?_
          simp only [hpsv, hcnt, hsper, hssv]
          rw [hnp, show j + 1 - node (leapDay d) k = j - node (leapDay d) k + 1 by omega]
        · rw [hld]; exact hl5
        · rw [hld]; exact hnp
        · rw [hld]; omega
        · simp only; omega
        · rw [hld]; exact hsper
        · rw [hld]; simp only [hcnt]; push_cast; ring
        · rw [hld]; exact hpsv
        · rw [hld]; exact hssv

theorem runs_inv {tab : Nat → Rat} {s : Option Sun} : ∀ {d : Date} {ds : List Date}, Valid d → 1582 < d.year →
    (∃ s' j, s = some s' ∧ julian .solar d = some j ∧ Inv tab s' d j) → Daily d ds →
    ∃ s' j, ds.foldl (fun s x => s.bind (csolrun tab false x)) s = some s' ∧
      julian .solar ((d :: ds).getLast (by simp)) = some j ∧ Inv tab s' ((d :: ds).getLast (by simp)) j := by
  intro d ds
  induction ds generalizing s d with
  | nil => intro _ _ h _; exact h
  | cons e r ih =>
    intro hv hy hs hd
    obtain ⟨s', j, rfl, hj, hi⟩ := hs
    obtain ⟨he, hr⟩ := hd
    have hv' : Valid e := by rcases he with rfl | rfl; exacts [hv, next_valid hv]
    have hy' : 1582 < e.year := by
      rcases he with rfl | rfl
      · exact hy
      · have := next_year d; omega
    have := step_inv hv hy hj hi he
    have h2 := ih (s := some s' |>.bind (csolrun tab false e)) hv' hy' (by simpa using this) hr
    simpa using h2

theorem infix_node {l a b : Int} {c e : Nat} (h : [(a, c), (b, e)] <:+: nodes l) :
    ∃ k, k < 24 ∧ a = node l k ∧ c = entry l k ∧ b = node l (k + 1) ∧ e = entry l (k + 1) := by
  obtain ⟨x, y, h⟩ := h
  have hlen : x.length + 2 + y.length = 25 := by
    have := congrArg List.length h
    simp [nodes] at this
    omega
  have h1 : (nodes l).getD x.length (0, 0) = (a, c) := by rw [← h]; simp
  have h2 : (nodes l).getD (x.length + 1) (0, 0) = (b, e) := by rw [← h]; simp
  refine ⟨x.length, by omega, ?_, ?_, ?_, ?_⟩ <;> simp only [node, entry, h1, h2]

theorem infix_lt {l a b : Int} {c e : Nat} (hl : l = 0 ∨ l = 1) (h : [(a, c), (b, e)] <:+: nodes l) : a < b := by
  obtain ⟨k, hk, rfl, -, rfl, -⟩ := infix_node h
  exact node_lt l hl k hk

theorem node_mono {l : Int} (hl : l = 0 ∨ l = 1) : ∀ {k m : Nat}, k ≤ m → m ≤ 24 → node l k ≤ node l m := by
  intro k m h
  induction m with
  | zero => intro _; have : k = 0 := by omega
            subst this; exact le_rfl
  | succ m ih =>
    intro hm
    rcases Nat.lt_or_ge k (m + 1) with h1 | h1
    · have := ih (by omega) (by omega)
      have := node_lt l hl m (by omega)
      omega
    · have : k = m + 1 := by omega
      subst this; exact le_rfl

theorem onTable_unique {tab : Nat → Rat} {l j : Int} {v w : Rat} (hl : l = 0 ∨ l = 1) (hv : OnTable tab l j v)
    (hw : OnTable tab l j w) : v = w := by
  obtain ⟨a, c, b, e, h1, h2, h3, rfl⟩ := hv
  obtain ⟨a', c', b', e', h1', h2', h3', rfl⟩ := hw
  obtain ⟨k, hk, rfl, rfl, rfl, rfl⟩ := infix_node h1
  obtain ⟨m, hm, rfl, rfl, rfl, rfl⟩ := infix_node h1'
  have key : ∀ k m : Nat, k < 24 → m < 24 → k < m → node l m ≤ j → j ≤ node l (k + 1) →
      tab (entry l k) + ((j - node l k : Int) : Rat) / ((node l (k + 1) - node l k : Int) : Rat) * (tab (entry l (k + 1)) - tab (entry l k)) =
      tab (entry l m) + ((j - node l m : Int) : Rat) / ((node l (m + 1) - node l m : Int) : Rat) * (tab (entry l (m + 1)) - tab (entry l m)) := by
    intro k m hk hm hkm h1 h2
    have h3 := node_mono hl (k := k + 1) (m := m) (by omega) (by omega)
    have hmk : m = k + 1 := by
      by_contra hne
      have h4 := node_mono hl (k := k + 2) (m := m) (by omega) (by omega)
      have h5 := node_lt l hl (k + 1) (by omega)
      rw [show k + 1 + 1 = k + 2 by omega] at h5
      omega
    subst hmk
    have hj : j = node l (k + 1) := by omega
    subst hj
    have h5 := node_lt l hl k hk
    have h6 : ((node l (k + 1) - node l k : Int) : Rat) ≠ 0 := by
      have : node l (k + 1) - node l k ≠ 0 := by omega
      exact_mod_cast this
    rw [div_self h6]
    simp
  rcases Nat.lt_trichotomy k m with h | h | h
  · exact key k m hk hm h h2' h3
  · subst h; rfl
  · exact (key m k hm hk h h2 h3').symm

theorem iterate_valid {d : Date} (h : Valid d) : ∀ n, Valid (next^[n] d) := by
  intro n
  induction n with
  | zero => exact h
  | succ n ih => rw [Function.iterate_succ_apply']; exact next_valid ih

theorem iterate_year {d : Date} : ∀ n, d.year ≤ (next^[n] d).year := by
  intro n
  induction n with
  | zero => exact le_rfl
  | succ n ih => rw [Function.iterate_succ_apply']; have := next_year (next^[n] d); omega

theorem day_ne {d : Date} (h : Valid d) (hy : 1582 < d.year) : d.day ≠ (next d).day := by
  unfold next
  obtain ⟨a1, a2, a3, a4, a5, a6⟩ := h
  have hml : 28 ≤ monthLength d.year d.month := by unfold monthLength; split_ifs <;> omega
  by_cases hc : d.year = 1582 ∧ d.month = 10 ∧ d.day = 4
  · omega
  · rw [if_neg hc]
    split_ifs <;> simp only <;> omega

theorem drift {tab : Nat → Rat} {s : Sun} {d : Date} (h : Valid d) (hy : 1582 < d.year) (hs : s.lday = d.day) (n : Nat)
    (hj : ∀ i, 1 ≤ i → i ≤ n → julian .solar (next^[i] d) ≠ some s.nper) :
    ∃ s', ((List.range n).map fun i => next^[i + 1] d).foldl (fun s x => s.bind (csolrun tab false x)) (some s) = some s' ∧
      (1 ≤ n → s'.drad = s.psv + (s.cnt + (n - 1 : Nat)) / s.sper * s.ssv) ∧ (n = 0 → s'.drad = s.drad) := by
  have key : ∀ n, (∀ i, 1 ≤ i → i ≤ n → julian .solar (next^[i] d) ≠ some s.nper) →
      ∃ s', ((List.range n).map fun i => next^[i + 1] d).foldl (fun s x => s.bind (csolrun tab false x)) (some s) = some s' ∧
        (1 ≤ n → s'.drad = s.psv + (s.cnt + (n - 1 : Nat)) / s.sper * s.ssv) ∧ (n = 0 → s'.drad = s.drad) ∧
        s'.lday = (next^[n] d).day ∧ s'.nper = s.nper ∧ s'.psv = s.psv ∧ s'.ssv = s.ssv ∧ s'.sper = s.sper ∧
        s'.cnt = s.cnt + (n : Nat) := by
    intro n
    induction n with
    | zero => intro _; exact ⟨s, rfl, by omega, fun _ => rfl, hs, rfl, rfl, rfl, rfl, by simp⟩
    | succ n ih =>
      intro hj
      obtain ⟨s', h1, -, -, h2, h3, h4, h5, h6, h7⟩ := ih fun i a b => hj i a (by omega)
      have hv := iterate_valid h n
      have hyn : 1582 < (next^[n] d).year := by have := iterate_year (d := d) n; omega
      have hne := day_ne hv hyn
      obtain ⟨j, hjj, -⟩ := solar_day (next_valid hv) (by have := next_year (next^[n] d); omega)
      have hnj : s.nper ≠ j := by
        intro hc
        apply hj (n + 1) (by omega) (by omega)
        rw [Function.iterate_succ_apply', hjj, hc]
      have hrun : csolrun tab false (next^[n + 1] d) s' = some (interp { s' with lday := (next^[n + 1] d).day }) := by
        rw [Function.iterate_succ_apply']
        unfold csolrun
        rw [if_neg (by rw [h2]; exact hne), hjj]
        simp [h3, hnj]
      refine ⟨interp { s' with lday := (next^[n + 1] d).day }, ?_, ?_, ?_, ?_, ?_, ?_, ?_, ?_, ?_⟩
      · rw [List.range_succ, List.map_append, List.foldl_append, h1]
        simp only [List.map_cons, List.map_nil, List.foldl_cons, List.foldl_nil, Option.bind_some]
        exact hrun
      · intro _
        simp [interp, h4, h5, h6, h7]
      · intro h; omega
      · rfl
      · exact h3
      · exact h4
      · exact h5
      · exact h6
      · simp only [interp, h7]; push_cast; ring
  obtain ⟨s', h1, h2, h3, -⟩ := key n hj
  exact ⟨s', h1, h2, h3⟩

theorem dec21_first (tab : Nat → Rat) {y : Int} (hy : 1582 < y) :
    ∃ s, runs tab ⟨y, 12, 21⟩ [] = some s ∧ s.drad = tab 356 ∧ s.lday = 21 ∧ s.nper = 365 + leapDay ⟨y, 12, 21⟩ ∧ s.sper = 18 ∧
      s.cnt = 19 ∧ s.psv = tab 10 ∧ s.ssv = tab 356 - tab 10 := by
  obtain ⟨j, hj, h1, h11, h21, -⟩ := solar_day (valid_dec21 (y := y) (by omega)) hy
  have hj' := h21 ⟨rfl, rfl⟩
  have hl := leapDay_cases ⟨y, 12, 21⟩
  have hsy : solarYear ⟨y, 12, 21⟩ = y := by simp [solarYear]
  have hyear : (if j < 11 then y + 1 else y) = y := by rw [if_neg (by omega)]
  have hf : fifth y = 15 + leapDay ⟨y, 12, 21⟩ := by rw [fifth_eq hy]; unfold leapDay; rw [hsy]
  have hsearch : search j (lengths (15 + leapDay ⟨y, 12, 21⟩)) 0 1 = (24, 365 + leapDay ⟨y, 12, 21⟩) := by
    rw [hj']
    rcases hl with h | h <;> rw [h] <;> decide
  unfold runs csolrun
  rw [if_neg (by simp [Sun.init]), hj]
  simp only [Option.map_some, if_true, List.foldl_nil]
  rw [hyear, hf, hsearch]
  have hcnt : ((lp (15 + leapDay ⟨y, 12, 21⟩) 24 : Int) : Rat) - ((365 + leapDay ⟨y, 12, 21⟩ - j : Int) : Rat) = 18 := by
    rw [hj', sub_self]; simp [lp, lengths]
  have h18 : ¬ ((18 : Rat) < 1 / 10 ^ 30) := by norm_num
  refine ⟨_, rfl, ?_⟩
  simp only [hcnt, h18, not_false_eq_true, decide_true]
  have hlp : (lp (15 + leapDay ⟨y, 12, 21⟩) 24 : Int) = 18 := by simp [lp, lengths]
  simp only [hlp]
  unfold place
  simp [interp, ends, sdayAt, sday]
  norm_num

theorem solar_iterate {d : Date} (h : Valid d) (hy : 1582 < d.year) {j : Int} (hj : julian .solar d = some j) :
    ∀ n : Nat, j + n ≤ 365 → julian .solar (next^[n] d) = some (j + n) := by
  intro n
  induction n with
  | zero => intro _; simpa using hj
  | succ n ih =>
    intro hn
    have ih := ih (by push_cast at hn; omega)
    have hv := iterate_valid h n
    have hyn : 1582 < (next^[n] d).year := by have := iterate_year (d := d) n; omega
    obtain ⟨m, hm, h1, h2⟩ := julian_next .solar hv (by omega)
    rw [ih] at hm; cases hm
    rw [Function.iterate_succ_apply']
    by_cases hf : isFirstDay .solar (next (next^[n] d))
    · -- the day before is 21 December
      exfalso
      have h3 := h1 hf
      have hv' := next_valid hv
      have hr := (ref_next .solar hv).1 hf
      rw [solarYear_ref] at hr
      have hm : (next^[n] d).month = 12 ∧ (next^[n] d).day = 21 := by rw [← hr]; exact ⟨rfl, rfl⟩
      obtain ⟨j', hj', -, -, h21, -⟩ := solar_day hv hyn
      rw [ih] at hj'; cases hj'
      have := h21 hm
      have := leapDay_cases (next^[n] d)
      push_cast at hn
      omega
    · rw [h2 hf]; push_cast; congr 1; ring

theorem solar_after {y : Int} (hy : 1582 < y) {n : Nat} (h1 : 1 ≤ n ∧ n ≤ 365) :
    julian .solar (next^[n] ⟨y, 12, 21⟩) = some (n : Int) := by
  have hv := valid_dec21 (y := y) (by omega)
  have h22 : next ⟨y, 12, 21⟩ = ⟨y, 12, 22⟩ := by simp [next, monthLength]
  have hj : julian .solar (next ⟨y, 12, 21⟩) = some 1 :=
    (julian_one_iff .solar (next_valid hv) (by rw [h22]; show 2 ≤ y; omega)).2 (by rw [h22]; exact ⟨rfl, rfl⟩)
  obtain ⟨n, rfl⟩ : ∃ m, n = m + 1 := ⟨n - 1, by omega⟩
  have := solar_iterate (next_valid hv) (by rw [h22]; exact hy) hj n (by omega)
  rw [Function.iterate_succ_apply, this]
  push_cast; congr 1; ring

theorem solar_january {y : Int} (hy : 1582 < y) {k : Nat} (h : k ≤ 30) : julian .solar ⟨y, 1, k + 1⟩ = some (11 + k) := by
  have hv : ∀ k : Nat, k ≤ 30 → Valid ⟨y, 1, k + 1⟩ := by
    intro k hk
    refine ⟨by show 1 ≤ y; omega, ?_⟩
    simp [monthLength]; omega
  have h0 : julian .solar ⟨y, 1, 1⟩ = some 11 := by
    have h2 := jd_dec21 (y := y - 1) (by omega)
    rw [show y - 1 + 1 = y by omega] at h2
    rw [julian_eq .solar (by simpa using hv 0 (by omega)) (by show 2 ≤ y; omega)]
    congr 1
    show jd ⟨y, 1, 1⟩ - jd ⟨y - 1, 12, 21⟩ = 11
    omega
  have hit : ∀ k : Nat, k ≤ 30 → next^[k] (⟨y, 1, 1⟩ : Date) = ⟨y, 1, k + 1⟩ := by
    intro k
    induction k with
    | zero => intro _; simp
    | succ k ih =>
      intro hk
      rw [Function.iterate_succ_apply', ih (by omega)]
      unfold next
      rw [if_neg (by simp only; omega), if_pos (by simp [monthLength]; omega)]
      simp
  rw [← hit k h]
  exact solar_iterate (by simpa using hv 0 (by omega)) hy h0 k (by omega)

theorem solar_january_after {y : Int} (hy : 1582 < y) {k n : Nat} (h : k ≤ 30) (hn : 11 + k + n ≤ 365) :
    julian .solar (next^[n] ⟨y, 1, k + 1⟩) = some (11 + k + n) := by
  refine solar_iterate ?_ hy (solar_january hy h) n (by omega)
  refine ⟨by show 1 ≤ y; omega, ?_⟩
  simp [monthLength]; omega

end Verif.Solar
