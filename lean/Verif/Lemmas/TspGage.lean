import Verif.Spec.TspGage
import Verif.Lemmas.TspStatvar
import Verif.Lemmas.TspStat
import Mathlib.Tactic.Ring
/-
Lemmas for C147.
-/
namespace Verif.TspGage
open Verif.Tsp Verif.TspStv

theorem nint_nonneg {x : Rat} (h : 0 ≤ x) : 0 ≤ nint x := Int.floor_nonneg.2 (by linarith)

theorem rowClock_eq {r : Clock} (hr : 0 ≤ r.secs) (tpd t : Rat) :
    rowClock r tpd t = ⟨timeOf r tpd t / 86400, timeOf r tpd t % 86400⟩ := by
  unfold rowClock
  simp only
  have h0 : 0 ≤ nint ((t / tpd - ⌊t / tpd⌋) * 86400) := nint_nonneg (mul_nonneg (sub_nonneg.2 (Int.floor_le _)) (by norm_num))
  rw [carry_eq _ _ (by omega)]
  have : (⌊t / tpd⌋ + r.days) * 86400 + (nint ((t / tpd - ⌊t / tpd⌋) * 86400) + r.secs) = timeOf r tpd t := by
    have e1 : ⌊t / tpd * 86400 + 1 / 2⌋ = nint ((t / tpd - ⌊t / tpd⌋) * 86400) + ⌊t / tpd⌋ * 86400 := by
      unfold nint
      rw [← Int.floor_add_intCast]
      congr 1
      push_cast
      ring
    unfold timeOf Clock.time
    rw [e1]
    ring
  rw [this]

theorem rowClock_proper {r : Clock} (hr : 0 ≤ r.secs) (tpd t : Rat) : (rowClock r tpd t).Proper := by
  rw [rowClock_eq hr]; simp only [Clock.Proper]; omega

theorem rowClock_time {r : Clock} (hr : 0 ≤ r.secs) (tpd t : Rat) : (rowClock r tpd t).time = timeOf r tpd t := by
  rw [rowClock_eq hr]; simp only [Clock.time]; omega

theorem word_map {ws : List Rat} {k : Nat} (h : k < ws.length) : word (ws.map some) (k + 1) = some (ws.getD k 0) := by
  unfold word
  simp [h]

theorem later_b {r : Clock} (hr : 0 ≤ r.secs) (tpd t : Rat) {b : Clock} (hb : b.Proper) :
    later b (rowClock r tpd t) = true ↔ timeOf r tpd t < b.time := by
  rw [Tsp.later_iff hb (rowClock_proper hr tpd t), rowClock_time hr]

theorem later_e {r : Clock} (hr : 0 ≤ r.secs) (tpd t : Rat) {e : Clock} (he : e.Proper) :
    later (rowClock r tpd t) e = true ↔ e.time < timeOf r tpd t := by
  rw [Tsp.later_iff (rowClock_proper hr tpd t) he, rowClock_time hr]

theorem map_some_nil {ws : List Rat} : ws.map some = [] ↔ ws = [] := by simp

theorem countLines_eq {r : Clock} (hr : 0 ≤ r.secs) (tpd : Rat) {tc : Nat} {b e : Clock} (hb : b.Proper) (he : e.Proper) :
    ∀ (ls : List (List Rat)) (k : Nat), (∀ ws ∈ ls, ws = [] ∨ tc < ws.length) →
    countLines r tpd (tc + 1) b e (ls.map fun ws => ws.map some) k = some (k + (period r tpd tc b e ls).length)
  | [], k, _ => by simp [countLines, period]
  | ws :: ls, k, h => by
    have ih := fun k => countLines_eq hr tpd hb he ls k (fun ws hw => h ws (List.mem_cons_of_mem _ hw))
    simp only [List.map_cons, countLines, map_some_nil]
    by_cases hw : ws = []
    · rw [if_pos hw, ih]
      simp [period, hw]
    · have hl := (h ws List.mem_cons_self).resolve_left hw
      rw [if_neg hw, word_map hl]
      simp only [later_b hr tpd _ hb, later_e hr tpd _ he]
      unfold period
      rw [List.filter_cons]
      unfold period at ih
      unfold lineTime
      unfold lineTime at ih
      by_cases h1 : timeOf r tpd (ws.getD tc 0) < b.time
      · rw [if_pos h1, ih, if_neg (by simp only [decide_eq_true_eq]; omega)]
      · by_cases h2 : e.time < timeOf r tpd (ws.getD tc 0)
        · rw [if_neg h1, if_pos h2, ih, if_neg (by simp only [decide_eq_true_eq]; omega)]
        · rw [if_neg h1, if_neg h2, ih, if_pos (by simp only [decide_eq_true_eq]; exact ⟨hw, by omega, by omega⟩), List.length_cons]
          congr 1
          omega

theorem fillLines_eq {r : Clock} (hr : 0 ≤ r.secs) (tpd : Rat) {tc m mx : Nat} {dc : Nat → Nat} {b e : Clock} (hb : b.Proper) (he : e.Proper)
    (hbe : b.time ≤ e.time) (cap : Nat) (hmx : tc < mx) (hdc : ∀ j < m, 0 < dc j ∧ dc j ≤ mx) :
    ∀ (ls : List (List Rat)) (k : Nat) (ser : Nat → List Term), (∀ ws ∈ ls, ws = [] ∨ mx ≤ ws.length) →
    k + (period r tpd tc b e (upTo r tpd tc e ls)).length ≤ cap →
    fillLines r tpd (tc + 1) m mx dc b e cap (ls.map fun ws => ws.map some) k ser =
      .ok cap fun j => if j < m then ser j ++ (period r tpd tc b e (upTo r tpd tc e ls)).map (term r tpd tc (dc j - 1)) else ser j
  | [], k, ser, _, _ => by simp [fillLines, period, upTo]
  | ws :: ls, k, ser, h, hc => by
    have ih := fun k ser => fillLines_eq hr tpd hb he hbe cap hmx hdc ls k ser (fun ws hw => h ws (List.mem_cons_of_mem _ hw))
    simp only [List.map_cons, fillLines, map_some_nil]
    by_cases hw : ws = []
    · have e1 : period r tpd tc b e (upTo r tpd tc e (ws :: ls)) = period r tpd tc b e (upTo r tpd tc e ls) := by
        simp [period, upTo, hw]
      rw [e1] at hc ⊢
      rw [if_pos hw, ih _ _ hc]
    · have hl := (h ws List.mem_cons_self).resolve_left hw
      rw [if_neg hw, List.length_map, if_neg (by omega), if_neg (by omega), word_map (show tc < ws.length by omega)]
      simp only [later_b hr tpd _ hb, later_e hr tpd _ he]
      have hT : lineTime r tpd tc ws = timeOf r tpd (ws.getD tc 0) := rfl
      by_cases h1 : timeOf r tpd (ws.getD tc 0) < b.time
      · have e1 : period r tpd tc b e (upTo r tpd tc e (ws :: ls)) = period r tpd tc b e (upTo r tpd tc e ls) := by
          unfold period upTo
          rw [List.takeWhile_cons_of_pos (by simp only [decide_eq_true_eq, hT]; right; omega),
            List.filter_cons_of_neg (by simp only [decide_eq_true_eq, hT]; omega)]
        rw [e1] at hc ⊢
        rw [if_pos h1, ih _ _ hc]
      · by_cases h2 : e.time < timeOf r tpd (ws.getD tc 0)
        · have e1 : period r tpd tc b e (upTo r tpd tc e (ws :: ls)) = [] := by
            unfold period upTo
            rw [List.takeWhile_cons_of_neg (by simp only [decide_eq_true_eq, hT, hw, false_or]; omega)]
            rfl
          rw [e1, if_neg h1, if_pos h2]
          simp
        · have e1 : period r tpd tc b e (upTo r tpd tc e (ws :: ls)) = ws :: period r tpd tc b e (upTo r tpd tc e ls) := by
            unfold period upTo
            rw [List.takeWhile_cons_of_pos (by simp only [decide_eq_true_eq, hT]; right; omega),
              List.filter_cons_of_pos (by simp only [decide_eq_true_eq, hT]; exact ⟨hw, by omega, by omega⟩)]
          rw [e1] at hc ⊢
          rw [List.length_cons] at hc
          have hword : ∀ j < m, word (ws.map some) (dc j) = some (ws.getD (dc j - 1) 0) := by
            intro j hj
            have := hdc j hj
            have hh := word_map (ws := ws) (k := dc j - 1) (by omega)
            rwa [show dc j - 1 + 1 = dc j by omega] at hh
          rw [if_neg h1, if_neg h2, if_neg (by omega), if_neg (by rintro ⟨j, hj, h0⟩; have := hdc j hj; omega),
            if_neg (by rintro ⟨j, hj, h0⟩; rw [hword j hj] at h0; exact absurd h0 (by simp)), ih _ _ (by omega)]
          congr 1
          funext j
          by_cases hj : j < m
          · simp only [if_pos hj, List.map_cons, hword j hj, Option.getD_some]
            rw [List.append_assoc]
            congr 2
            rw [rowClock_eq hr]
            rfl
          · simp only [if_neg hj]

theorem maxCol_le (dc : Nat → Nat) : ∀ m j, j < m → dc j ≤ maxCol dc m
  | 0, j, h => by omega
  | m + 1, j, h => by
    unfold maxCol
    by_cases hj : j < m
    · have := maxCol_le dc m j hj
      split_ifs <;> omega
    · have : j = m := by omega
      subst this
      split_ifs <;> omega

theorem maxCol_bound {dc : Nat → Nat} {B : Nat} : ∀ m, (∀ j < m, dc j ≤ B) → maxCol dc m ≤ B
  | 0, _ => Nat.zero_le _
  | m + 1, h => by
    unfold maxCol
    have := maxCol_bound m (fun j hj => h j (by omega))
    have := h m (by omega)
    split_ifs <;> omega

theorem countP_or {sites pre : List (List Nat)} {h : List Nat} (hh : h ∉ pre) : sites.countP (fun s => s ∈ pre ++ [h]) =
    sites.countP (fun s => s ∈ pre) + sites.count h := by
  induction sites with
  | nil => rfl
  | cons s ss ih =>
    rw [List.countP_cons, List.countP_cons, List.count_cons, ih]
    by_cases h1 : s = h
    · subst h1; simp [hh]; omega
    · by_cases h2 : s ∈ pre <;> simp [h1, h2] <;> omega

/-- Where the columns are, for names that differ. -/
theorem scanCols_spec {sites : List (List Nat)} (hn : sites.Nodup) :
    ∀ (hs pre : List (List Nat)) (c : Cols), (pre ++ hs).Nodup → c.icount = sites.countP (fun s => s ∈ pre) →
    (∀ j s, sites[j]? = some s → if s ∈ pre then pre[c.datcol j - 1]? = some s ∧ 0 < c.datcol j else c.datcol j = 0) →
    ∀ j s, sites[j]? = some s → if s ∈ pre ++ hs then
      (pre ++ hs)[(scanCols sites hs (pre.length + 1) c).datcol j - 1]? = some s ∧ 0 < (scanCols sites hs (pre.length + 1) c).datcol j
      else (scanCols sites hs (pre.length + 1) c).datcol j = 0 ∧ (scanCols sites hs (pre.length + 1) c).icount < sites.length
  | [], pre, c, _, hi, hc, j, s, hj => by
    have := hc j s hj
    simp only [List.append_nil, scanCols]
    split_ifs with h
    · rwa [if_pos h] at this
    · rw [if_neg h] at this
      refine ⟨this, ?_⟩
      rw [hi]
      rw [List.countP_lt_length_iff]
      exact ⟨s, List.mem_of_getElem? hj, by simpa using h⟩
  | h :: hs, pre, c, hd, hi, hc, j, s, hj => by
    have hp : h ∉ pre := fun hm => by
      rw [List.nodup_append] at hd
      exact hd.2.2 h hm h List.mem_cons_self rfl
    have ea : pre ++ h :: hs = (pre ++ [h]) ++ hs := by simp
    have el : pre.length + 1 + 1 = (pre ++ [h]).length + 1 := by simp
    unfold scanCols
    rcases hf : sites.findIdx? (fun s => decide (s = h)) with _ | i
    · simp only
      have hns : h ∉ sites := fun hm => by
        rw [List.findIdx?_eq_none_iff] at hf
        simpa using hf h hm
      rw [ea, el]
      refine scanCols_spec hn hs (pre ++ [h]) c (by rw [← ea]; exact hd) ?_ ?_ j s hj
      · rw [countP_or hp, List.count_eq_zero_of_not_mem hns]; exact hi
      · intro j s hj
        have h1 := hc j s hj
        have hsh : s ≠ h := fun e => hns (e ▸ List.mem_of_getElem? hj)
        by_cases hs' : s ∈ pre
        · rw [if_pos hs'] at h1
          rw [if_pos (by simp [hs'])]
          exact ⟨by rw [List.getElem?_append_left (List.getElem?_eq_some_iff.1 h1.1).1]; exact h1.1, h1.2⟩
        · rw [if_neg hs'] at h1
          rw [if_neg (by simp [hs', hsh])]
          exact h1
    · simp only
      obtain ⟨hil, hih, _⟩ := List.findIdx?_eq_some_iff_getElem.1 hf
      have hih : sites[i] = h := by simpa using hih
      have hmem : h ∈ sites := hih ▸ List.getElem_mem hil
      have hi' : c.icount + 1 = sites.countP (fun s => s ∈ pre ++ [h]) := by
        rw [countP_or hp, List.count_eq_one_of_mem hn hmem, hi]
      have hc' : ∀ j s, sites[j]? = some s → if s ∈ pre ++ [h] then
          (pre ++ [h])[(if j = i then pre.length + 1 else c.datcol j) - 1]? = some s ∧ 0 < (if j = i then pre.length + 1 else c.datcol j)
          else (if j = i then pre.length + 1 else c.datcol j) = 0 := by
        intro j s hj
        have h1 := hc j s hj
        by_cases hji : j = i
        · subst hji
          have : s = h := by rw [List.getElem?_eq_getElem hil] at hj; injection hj with hj; rw [← hj]; exact hih
          subst this
          simp
        · have hsh : s ≠ h := fun e => by
            obtain ⟨hl, he⟩ := List.getElem?_eq_some_iff.1 hj
            exact hji ((List.Nodup.getElem_inj_iff hn).1 (he.trans (e.trans hih.symm)))
          rw [if_neg hji]
          by_cases hs' : s ∈ pre
          · rw [if_pos hs'] at h1
            rw [if_pos (by simp [hs'])]
            exact ⟨by rw [List.getElem?_append_left (List.getElem?_eq_some_iff.1 h1.1).1]; exact h1.1, h1.2⟩
          · rw [if_neg hs'] at h1
            rw [if_neg (by simp [hs', hsh])]
            exact h1
      by_cases hlt : c.icount + 1 < sites.length
      · simp only [if_pos hlt]
        have := scanCols_spec hn hs (pre ++ [h]) ⟨fun k => if k = i then pre.length + 1 else c.datcol k, c.icount + 1⟩
          (by rw [← ea]; exact hd) hi' hc' j s hj
        rw [← ea, ← el] at this
        exact this
      · simp only [if_neg hlt]
        have hall : sites.countP (fun s => s ∈ pre ++ [h]) = sites.length := le_antisymm List.countP_le_length (by omega)
        rw [List.countP_eq_length] at hall
        have hs' : s ∈ pre ++ [h] := by simpa using hall s (List.mem_of_getElem? hj)
        have h2 := hc' j s hj
        rw [if_pos hs'] at h2
        rw [ea, if_pos (List.mem_append_left _ hs')]
        exact ⟨by rw [List.getElem?_append_left (List.getElem?_eq_some_iff.1 h2.1).1]; exact h2.1, h2.2⟩

end Verif.TspGage
