import Verif.Lemmas.TspGage
import Mathlib.Algebra.Order.Group.Abs
/-
C147: series from gage files of GSFLOW in TSPROC.
-/
namespace Verif.TspGage
open Verif.Tsp Verif.TspStv

/-- The time of a line is that of the reference plus the elapsed time, off by at most half a second, as a day and a second of that day. -/
theorem C147_clock {r : Clock} (hr : 0 ≤ r.secs) (tpd t : Rat) : (rowClock r tpd t).Proper ∧
    |((rowClock r tpd t).time : Rat) - (r.time + t / tpd * 86400)| ≤ 1 / 2 := by
  refine ⟨rowClock_proper hr tpd t, ?_⟩
  rw [rowClock_time hr]
  unfold timeOf
  have h1 := Int.floor_le (t / tpd * 86400 + 1 / 2)
  have h2 := Int.lt_floor_add_one (t / tpd * 86400 + 1 / 2)
  push_cast
  rw [abs_le]
  constructor <;> linarith

example : rowClock ⟨2453371, 43200⟩ 24 (37 / 2) = ⟨2453372, 23400⟩ := by decide +kernel

theorem carry_fix {r : Clock} (hr : 0 ≤ r.secs) : 0 ≤ (carry r.days r.secs).secs ∧ (carry r.days r.secs).time = r.time := by
  rw [carry_eq _ _ hr]
  simp only [Clock.time]
  omega

theorem time_fix {r : Clock} (hr : 0 ≤ r.secs) (tpd : Rat) (tc : Nat) : lineTime (carry r.days r.secs) tpd tc = lineTime r tpd tc := by
  funext ws
  unfold lineTime timeOf
  rw [(carry_fix hr).2]

/-- The general law for files that can be read, whose columns have names that differ and in which the time stands before the last of the
columns asked for: each series claims as many terms as there are lines in the period; those stored are the terms of its column up to the
first line after the period.  Without a line in the period the reading ends with a message. -/
theorem C147_general {sites : List (List Nat)} (hn : sites.Nodup) {r : Clock} (hr : 0 ≤ r.secs) (tpd : Rat) {b e : Clock} (hb : b.Proper)
    (he : e.Proper) (hbe : b.time ≤ e.time) {hs : List (List Nat)} (hd : hs.Nodup) (hall : ∀ s ∈ sites, s ∈ hs) {tc : Nat}
    (ht : hs[tc]? = some timeName) (hlast : ∃ s ∈ sites, ∃ k, tc ≤ k ∧ hs[k]? = some s) (ls : List (List Rat))
    (hls : ∀ ws ∈ ls, ws = [] ∨ hs.length ≤ ws.length) :
    (period r tpd tc b e ls = [] → getGage sites r tpd b e hs (ls.map fun ws => ws.map some) = .error) ∧
    (period r tpd tc b e ls ≠ [] → ∃ ser, getGage sites r tpd b e hs (ls.map fun ws => ws.map some) = .ok (period r tpd tc b e ls).length ser ∧
      ∀ (j : Nat) (s : List Nat) (k : Nat), sites[j]? = some s → hs[k]? = some s →
        ser j = (period r tpd tc b e (upTo r tpd tc e ls)).map (term r tpd tc k)) := by
  have hcol : ∀ j s, sites[j]? = some s → hs[(scanCols sites hs 1 ⟨fun _ => 0, 0⟩).datcol j - 1]? = some s ∧
      0 < (scanCols sites hs 1 ⟨fun _ => 0, 0⟩).datcol j := by
    intro j s hj
    have h := scanCols_spec hn hs [] ⟨fun _ => 0, 0⟩ (by simpa using hd) (by simp) (by simp) j s hj
    rw [List.nil_append, if_pos (hall s (List.mem_of_getElem? hj))] at h
    simpa using h
  generalize hC : scanCols sites hs 1 ⟨fun _ => 0, 0⟩ = c at hcol
  have htl := List.getElem?_eq_some_iff.1 ht
  have hf : hs.findIdx? (fun h => decide (h = timeName)) = some tc := by
    rw [List.findIdx?_eq_some_iff_getElem]
    refine ⟨htl.1, by simpa using htl.2, ?_⟩
    intro j hj
    simp only [decide_eq_true_eq]
    intro h
    have := (List.Nodup.getElem_inj_iff hd).1 (h.trans htl.2.symm)
    omega
  have hpos : ∀ j < sites.length, 0 < c.datcol j ∧ c.datcol j ≤ maxCol c.datcol sites.length :=
    fun j hj => ⟨(hcol j _ (List.getElem?_eq_getElem hj)).2, maxCol_le _ _ _ hj⟩
  have hmx : tc < maxCol c.datcol sites.length := by
    obtain ⟨s, hs1, k, hk1, hk2⟩ := hlast
    obtain ⟨j, hj, rfl⟩ := List.getElem_of_mem hs1
    obtain ⟨h1, h2⟩ := hcol j _ (List.getElem?_eq_getElem hj)
    obtain ⟨l1, e1⟩ := List.getElem?_eq_some_iff.1 h1
    obtain ⟨l2, e2⟩ := List.getElem?_eq_some_iff.1 hk2
    have := (List.Nodup.getElem_inj_iff hd).1 (e1.trans e2.symm)
    have := (hpos j hj).2
    omega
  have hmxl : maxCol c.datcol sites.length ≤ hs.length := maxCol_bound _ fun j hj => by
    obtain ⟨l1, _⟩ := List.getElem?_eq_some_iff.1 (hcol j _ (List.getElem?_eq_getElem hj)).1
    omega
  have ep : ∀ l, period (carry r.days r.secs) tpd tc b e l = period r tpd tc b e l := fun l => by unfold period; rw [time_fix hr]
  have eu : ∀ l, upTo (carry r.days r.secs) tpd tc e l = upTo r tpd tc e l := fun l => by unfold upTo; rw [time_fix hr]
  have et : ∀ k, term (carry r.days r.secs) tpd tc k = term r tpd tc k := fun k => by funext ws; unfold term; rw [time_fix hr]
  have hcnt := countLines_eq (carry_fix hr).1 tpd (tc := tc) hb he ls 0 (fun ws hw => (hls ws hw).imp id (fun h => by omega))
  rw [ep, Nat.zero_add] at hcnt
  have hle : (period r tpd tc b e (upTo r tpd tc e ls)).length ≤ (period r tpd tc b e ls).length :=
    ((List.takeWhile_sublist _).filter _).length_le
  have hfill := fillLines_eq (carry_fix hr).1 tpd (m := sites.length) hb he hbe (period r tpd tc b e ls).length hmx hpos ls 0 (fun _ => [])
    (fun ws hw => (hls ws hw).imp id (fun h => by omega)) (by rw [eu, ep]; omega)
  have hred : getGage sites r tpd b e hs (ls.map fun ws => ws.map some) =
      match (some (period r tpd tc b e ls).length : Option Nat) with
      | none => .error
      | some 0 => .error
      | some (k + 1) => fillLines (carry r.days r.secs) tpd (tc + 1) sites.length (maxCol c.datcol sites.length) c.datcol b e (k + 1)
          (ls.map fun ws => ws.map some) 0 (fun _ => []) := by
    unfold getGage
    simp only [hC]
    rw [if_neg (by rintro ⟨_, j, hj, h0⟩; have := hpos j hj; omega), hf]
    simp only
    rw [hcnt]
    generalize (period r tpd tc b e ls).length = q
    cases q <;> rfl
  constructor
  · intro h
    rw [hred, h]
    rfl
  · intro h
    obtain ⟨k, hk⟩ : ∃ k, (period r tpd tc b e ls).length = k + 1 := ⟨_, (Nat.succ_pred_eq_of_pos (List.length_pos_iff.2 h)).symm⟩
    rw [hk] at hred hfill ⊢
    refine ⟨_, hred.trans hfill, ?_⟩
    intro j s k' hj hk'
    obtain ⟨h1, h2⟩ := hcol j s hj
    obtain ⟨l1, e1⟩ := List.getElem?_eq_some_iff.1 h1
    obtain ⟨l2, e2⟩ := List.getElem?_eq_some_iff.1 hk'
    have hkk := (List.Nodup.getElem_inj_iff hd).1 (e1.trans e2.symm)
    rw [if_pos (List.getElem?_eq_some_iff.1 hj).1, List.nil_append, ep, eu, hkk, et]

/-- If the lines are in the order of time, each series has exactly the terms of its column in the period and is filled by them. -/
theorem C147_exact {sites : List (List Nat)} (hn : sites.Nodup) {r : Clock} (hr : 0 ≤ r.secs) (tpd : Rat) {b e : Clock} (hb : b.Proper)
    (he : e.Proper) (hbe : b.time ≤ e.time) {hs : List (List Nat)} (hd : hs.Nodup) (hall : ∀ s ∈ sites, s ∈ hs) {tc : Nat}
    (ht : hs[tc]? = some timeName) (hlast : ∃ s ∈ sites, ∃ k, tc ≤ k ∧ hs[k]? = some s) (ls : List (List Rat))
    (hls : ∀ ws ∈ ls, hs.length ≤ ws.length) (ho : ls.Pairwise fun p q => lineTime r tpd tc p ≤ lineTime r tpd tc q)
    (hp : period r tpd tc b e ls ≠ []) :
    ∃ ser, getGage sites r tpd b e hs (ls.map fun ws => ws.map some) = .ok (period r tpd tc b e ls).length ser ∧
      ∀ (j : Nat) (s : List Nat) (k : Nat), sites[j]? = some s → hs[k]? = some s →
        ser j = (period r tpd tc b e ls).map (term r tpd tc k) := by
  have hu : ∀ l : List (List Rat), l.Pairwise (fun p q => lineTime r tpd tc p ≤ lineTime r tpd tc q) →
      (∀ ws ∈ l, ws ≠ []) → period r tpd tc b e (upTo r tpd tc e l) = period r tpd tc b e l := by
    intro l
    induction l with
    | nil => intros; rfl
    | cons w l ih =>
      intro ho hne
      rw [List.pairwise_cons] at ho
      have ih' := ih ho.2 fun ws h => hne ws (List.mem_cons_of_mem _ h)
      by_cases h : lineTime r tpd tc w ≤ e.time
      · unfold upTo
        rw [List.takeWhile_cons_of_pos (by simp only [decide_eq_true_eq]; exact Or.inr h)]
        unfold period at ih' ⊢
        unfold upTo at ih'
        rw [List.filter_cons, List.filter_cons, ih']
      · unfold upTo
        rw [List.takeWhile_cons_of_neg (by simp only [decide_eq_true_eq, hne w List.mem_cons_self, false_or]; exact h)]
        symm
        unfold period
        simp only [List.filter_nil]
        rw [List.filter_eq_nil_iff]
        intro x hx
        simp only [decide_eq_true_eq]
        rintro ⟨_, _, h3⟩
        rcases List.mem_cons.1 hx with rfl | hx
        · exact h h3
        · have := ho.1 x hx
          omega
  have hpos : 0 < hs.length := by have := (List.getElem?_eq_some_iff.1 ht).1; omega
  obtain ⟨ser, h1, h2⟩ := (C147_general hn hr tpd hb he hbe hd hall ht hlast ls (fun ws hw => Or.inr (hls ws hw))).2 hp
  refine ⟨ser, h1, fun j s k hj hk => ?_⟩
  rw [h2 j s k hj hk, hu ls ho fun ws hw h => by have := hls ws hw; rw [h, List.length_nil] at this; omega]

/-- Columns: time, flow (here 102), stage (here 115). -/
example : ∃ ser, getGage [[115], [102]] ⟨100, 43200⟩ 1 ⟨101, 0⟩ ⟨102, 50000⟩ [timeName, [102], [115]]
      [[some 0, some 1, some 2], [some 1, some 3, some 4], [some 2, some 5, some 6], [some 3, some 7, some 8]] = .ok 2 ser ∧
    ser 0 = [⟨⟨101, 43200⟩, 4⟩, ⟨⟨102, 43200⟩, 6⟩] ∧ ser 1 = [⟨⟨101, 43200⟩, 3⟩, ⟨⟨102, 43200⟩, 5⟩] := by
  obtain ⟨ser, h1, h2⟩ := C147_exact (sites := [[115], [102]]) (by decide) (r := ⟨100, 43200⟩) (by decide) 1 (b := ⟨101, 0⟩) (e := ⟨102, 50000⟩)
    ⟨by decide, by decide⟩ ⟨by decide, by decide⟩ (by decide) (hs := [timeName, [102], [115]]) (by decide) (by decide) (tc := 0) rfl
    ⟨[115], by decide, 2, by decide, rfl⟩ [[0, 1, 2], [1, 3, 4], [2, 5, 6], [3, 7, 8]] (by decide) (by decide +kernel) (by decide +kernel)
  refine ⟨ser, ?_, ?_, ?_⟩
  · have e2 : (period ⟨100, 43200⟩ 1 0 ⟨101, 0⟩ ⟨102, 50000⟩ [[0, 1, 2], [1, 3, 4], [2, 5, 6], [3, 7, 8]]).length = 2 := by decide +kernel
    rw [e2] at h1
    exact h1
  · rw [h2 0 [115] 2 rfl rfl]; decide +kernel
  · rw [h2 1 [102] 1 rfl rfl]; decide +kernel

/-- A column that is not in the header is reported. -/
theorem C147_absent {sites : List (List Nat)} (hn : sites.Nodup) (r : Clock) (tpd : Rat) (b e : Clock) {hs : List (List Nat)} (hd : hs.Nodup)
    {s : List Nat} (hs1 : s ∈ sites) (hs2 : s ∉ hs) (ls : List (List (Option Rat))) : getGage sites r tpd b e hs ls = .error := by
  obtain ⟨j, hj, rfl⟩ := List.getElem_of_mem hs1
  have h := scanCols_spec hn hs [] ⟨fun _ => 0, 0⟩ (by simpa using hd) (by simp) (by simp) j _ (List.getElem?_eq_getElem hj)
  rw [List.nil_append, if_neg hs2] at h
  unfold getGage
  simp only
  exact if_pos ⟨h.2, j, hj, h.1⟩

example : getGage [[115], [102]] ⟨100, 43200⟩ 1 ⟨101, 0⟩ ⟨102, 50000⟩ [timeName, [102]] [[some 0, some 1]] = .error :=
  C147_absent (s := [115]) (by decide) _ _ _ _ (by decide) (by decide) (by decide) _

theorem countLines_bad {r : Clock} {tpd : Rat} {tc : Nat} {b e : Clock} {ls : List (List (Option Rat))}
    (h : ∃ ws ∈ ls, ws ≠ [] ∧ word ws tc = none) : ∀ k, countLines r tpd tc b e ls k = none := by
  induction ls with
  | nil => obtain ⟨_, h, _⟩ := h; simp at h
  | cons w ls ih =>
    intro k
    obtain ⟨ws, h1, h2, h3⟩ := h
    unfold countLines
    rcases List.mem_cons.1 h1 with rfl | h1
    · rw [if_neg h2, h3]
    · have ih := ih ⟨ws, h1, h2, h3⟩
      split_ifs
      · exact ih k
      · split
        · rfl
        · split_ifs <;> exact ih _

/-- A header without a column for the time, and a line whose time cannot be read, also one outside the period, end in a message. -/
theorem C147_errors (sites : List (List Nat)) (r : Clock) (tpd : Rat) (b e : Clock) (hs : List (List Nat)) (ls : List (List (Option Rat)))
    (h : timeName ∉ hs ∨ ∃ tc : Nat, hs[tc]? = some timeName ∧ (∀ i < tc, hs[i]? ≠ some timeName) ∧
      ∃ ws ∈ ls, ws ≠ [] ∧ (ws[tc]? = none ∨ ws[tc]? = some none)) : getGage sites r tpd b e hs ls = .error := by
  unfold getGage
  simp only
  split_ifs
  · rfl
  · rcases h with h | ⟨tc, h1, h2, ws, h3, h4, h5⟩
    · have : hs.findIdx? (fun h => decide (h = timeName)) = none := by
        rw [List.findIdx?_eq_none_iff]
        intro x hx
        simp only [decide_eq_false_iff_not]
        rintro rfl
        exact h hx
      rw [this]
    · have htl := List.getElem?_eq_some_iff.1 h1
      have hf : hs.findIdx? (fun h => decide (h = timeName)) = some tc := by
        rw [List.findIdx?_eq_some_iff_getElem]
        refine ⟨htl.1, by simpa using htl.2, ?_⟩
        intro j hj
        simp only [decide_eq_true_eq]
        intro hh
        have hl := htl.1
        exact h2 j hj (by rw [List.getElem?_eq_getElem (by omega), hh])
      rw [hf]
      simp only
      rw [countLines_bad ⟨ws, h3, h4, by unfold word; rcases h5 with h5 | h5 <;> simp [h5]⟩]

example : getGage [[102]] ⟨100, 0⟩ 1 ⟨101, 0⟩ ⟨102, 50000⟩ [timeName, [102]] [[some 1, some 3], [], [some 9], [none, some 3]] = .error :=
  C147_errors _ _ _ _ _ _ _ (Or.inr ⟨0, rfl, by omega, [none, some 3], by decide, by decide, Or.inr rfl⟩)

theorem countLines_mono {r : Clock} {tpd : Rat} {tc : Nat} {b e : Clock} : ∀ (ls : List (List (Option Rat))) (k n : Nat),
    countLines r tpd tc b e ls k = some n → k ≤ n
  | [], k, n, h => by simp only [countLines, Option.some.injEq] at h; omega
  | ws :: ls, k, n, h => by
    unfold countLines at h
    split_ifs at h
    · exact countLines_mono ls k n h
    · split at h
      · exact absurd h (by simp)
      · split_ifs at h
        · exact countLines_mono ls k n h
        · exact countLines_mono ls k n h
        · have := countLines_mono ls (k + 1) n h; omega

theorem bad_line {r : Clock} (hr : 0 ≤ r.secs) {tpd : Rat} {tc m mx : Nat} {dc : Nat → Nat} {b e : Clock} (hb : b.Proper) (he : e.Proper)
    (hmx : tc < mx) (hdc : ∀ j < m, 0 < dc j ∧ dc j ≤ mx) {bad : List (Option Rat)} {post : List (List (Option Rat))} {t : Rat}
    (ht : word bad (tc + 1) = some t) (h1 : b.time ≤ timeOf r tpd t) (h2 : timeOf r tpd t ≤ e.time) (hbad : ∃ j < m, word bad (dc j) = none)
    (cap : Nat) : ∀ (pre : List (List Rat)) (k : Nat) (ser : Nat → List Term),
    (∀ ws ∈ pre, ws = [] ∨ mx ≤ ws.length ∧ lineTime r tpd tc ws ≤ e.time) →
    countLines r tpd (tc + 1) b e ((pre.map fun ws => ws.map some) ++ bad :: post) k = some cap →
    fillLines r tpd (tc + 1) m mx dc b e cap ((pre.map fun ws => ws.map some) ++ bad :: post) k ser = .error
  | [], k, ser, _, hc => by
    have hne : bad ≠ [] := by rintro rfl; simp [word] at ht
    simp only [List.map_nil, List.nil_append, countLines, fillLines] at hc ⊢
    rw [if_neg hne, ht] at hc
    rw [if_neg hne]
    simp only [later_b hr tpd _ hb, later_e hr tpd _ he] at hc
    rw [if_neg (by omega), if_neg (by omega)] at hc
    have := countLines_mono _ _ _ hc
    by_cases g1 : bad.length < mx
    · rw [if_pos g1]
    · rw [if_neg g1, if_neg (by omega), ht]
      simp only [later_b hr tpd _ hb, later_e hr tpd _ he]
      rw [if_neg (by omega), if_neg (by omega), if_neg (by omega), if_neg (by rintro ⟨j, hj, h0⟩; have := hdc j hj; omega), if_pos hbad]
  | ws :: pre, k, ser, h, hc => by
    have ih := fun k ser => bad_line hr hb he hmx hdc (post := post) ht h1 h2 hbad cap pre k ser (fun ws hw => h ws (List.mem_cons_of_mem _ hw))
    simp only [List.map_cons, List.cons_append, countLines, fillLines, map_some_nil] at hc ⊢
    by_cases hw : ws = []
    · rw [if_pos hw] at hc ⊢
      exact ih _ _ hc
    · obtain ⟨hl, hT⟩ := (h ws List.mem_cons_self).resolve_left hw
      have hT' : timeOf r tpd (ws.getD tc 0) ≤ e.time := hT
      have hword : ∀ j < m, word (ws.map some) (dc j) = some (ws.getD (dc j - 1) 0) := by
        intro j hj
        have := hdc j hj
        have hh := word_map (ws := ws) (k := dc j - 1) (by omega)
        rwa [show dc j - 1 + 1 = dc j by omega] at hh
      rw [if_neg hw, word_map (show tc < ws.length by omega)] at hc
      rw [if_neg hw, List.length_map, if_neg (by omega), if_neg (by omega), word_map (show tc < ws.length by omega)]
      simp only [later_b hr tpd _ hb, later_e hr tpd _ he] at hc ⊢
      by_cases g : timeOf r tpd (ws.getD tc 0) < b.time
      · rw [if_pos g] at hc ⊢
        exact ih _ _ hc
      · rw [if_neg g, if_neg (by omega)] at hc
        have := countLines_mono _ _ _ hc
        rw [if_neg g, if_neg (by omega), if_neg (by omega), if_neg (by rintro ⟨j, hj, h0⟩; have := hdc j hj; omega),
          if_neg (by rintro ⟨j, hj, h0⟩; rw [hword j hj] at h0; exact absurd h0 (by simp))]
        exact ih _ _ hc

/-- A line of the period in which a value asked for is missing or cannot be read ends the reading with a message, if no line before it is
beyond the period, whatever follows. -/
theorem C147_value_errors {sites : List (List Nat)} (hn : sites.Nodup) {r : Clock} (hr : 0 ≤ r.secs) (tpd : Rat) {b e : Clock} (hb : b.Proper)
    (he : e.Proper) {hs : List (List Nat)} (hd : hs.Nodup) (hall : ∀ s ∈ sites, s ∈ hs) {tc : Nat}
    (ht : hs[tc]? = some timeName) (hlast : ∃ s ∈ sites, ∃ k, tc ≤ k ∧ hs[k]? = some s) (pre : List (List Rat))
    (hpre : ∀ ws ∈ pre, ws = [] ∨ hs.length ≤ ws.length ∧ lineTime r tpd tc ws ≤ e.time) (bad : List (Option Rat)) {t : Rat}
    (hbt : bad[tc]? = some (some t)) (h1 : b.time ≤ timeOf r tpd t) (h2 : timeOf r tpd t ≤ e.time)
    (hbad : ∃ s ∈ sites, ∃ k : Nat, hs[k]? = some s ∧ (bad[k]? = none ∨ bad[k]? = some none)) (post : List (List (Option Rat))) :
    getGage sites r tpd b e hs ((pre.map fun ws => ws.map some) ++ bad :: post) = .error := by
  have hcol : ∀ j s, sites[j]? = some s → hs[(scanCols sites hs 1 ⟨fun _ => 0, 0⟩).datcol j - 1]? = some s ∧
      0 < (scanCols sites hs 1 ⟨fun _ => 0, 0⟩).datcol j := by
    intro j s hj
    have h := scanCols_spec hn hs [] ⟨fun _ => 0, 0⟩ (by simpa using hd) (by simp) (by simp) j s hj
    rw [List.nil_append, if_pos (hall s (List.mem_of_getElem? hj))] at h
    simpa using h
  generalize hC : scanCols sites hs 1 ⟨fun _ => 0, 0⟩ = c at hcol
  have huniq : ∀ j (hj : j < sites.length) k, hs[k]? = some sites[j] → c.datcol j = k + 1 := by
    intro j hj k hk
    obtain ⟨g1, g2⟩ := hcol j _ (List.getElem?_eq_getElem hj)
    obtain ⟨l1, e1⟩ := List.getElem?_eq_some_iff.1 g1
    obtain ⟨l2, e2⟩ := List.getElem?_eq_some_iff.1 hk
    have := (List.Nodup.getElem_inj_iff hd).1 (e1.trans e2.symm)
    omega
  have htl := List.getElem?_eq_some_iff.1 ht
  have hf : hs.findIdx? (fun h => decide (h = timeName)) = some tc := by
    rw [List.findIdx?_eq_some_iff_getElem]
    refine ⟨htl.1, by simpa using htl.2, ?_⟩
    intro j hj
    simp only [decide_eq_true_eq]
    intro h
    have := (List.Nodup.getElem_inj_iff hd).1 (h.trans htl.2.symm)
    omega
  have hpos : ∀ j < sites.length, 0 < c.datcol j ∧ c.datcol j ≤ maxCol c.datcol sites.length :=
    fun j hj => ⟨(hcol j _ (List.getElem?_eq_getElem hj)).2, maxCol_le _ _ _ hj⟩
  have hmx : tc < maxCol c.datcol sites.length := by
    obtain ⟨s, hs1, k, hk1, hk2⟩ := hlast
    obtain ⟨j, hj, rfl⟩ := List.getElem_of_mem hs1
    have := huniq j hj k hk2
    have := (hpos j hj).2
    omega
  have hmxl : maxCol c.datcol sites.length ≤ hs.length := maxCol_bound _ fun j hj => by
    obtain ⟨l1, _⟩ := List.getElem?_eq_some_iff.1 (hcol j _ (List.getElem?_eq_getElem hj)).1
    omega
  have hto : timeOf (carry r.days r.secs) tpd t = timeOf r tpd t := by unfold timeOf; rw [(carry_fix hr).2]
  unfold getGage
  simp only [hC]
  rw [if_neg (by rintro ⟨_, j, hj, h0⟩; have := hpos j hj; omega), hf]
  simp only
  split
  · rfl
  · rfl
  · rename_i k hk
    refine bad_line (carry_fix hr).1 hb he hmx hpos (t := t) (by simp [word, hbt]) (by rw [hto]; exact h1) (by rw [hto]; exact h2) ?_ _ pre 0 _ ?_ hk
    · obtain ⟨s, hs1, i, hi, hi2⟩ := hbad
      obtain ⟨j, hj, rfl⟩ := List.getElem_of_mem hs1
      refine ⟨j, hj, ?_⟩
      rw [huniq j hj i hi]
      unfold word
      rcases hi2 with hi2 | hi2 <;> simp [hi2]
    · intro ws hw
      rcases hpre ws hw with g | ⟨g1, g2⟩
      · exact Or.inl g
      · exact Or.inr ⟨by omega, by rw [time_fix hr]; exact g2⟩

example : getGage [[102]] ⟨100, 0⟩ 1 ⟨101, 0⟩ ⟨102, 50000⟩ [timeName, [102]] (([[1, 5]].map fun ws => ws.map some) ++ [some 2] :: [[none]]) = .error :=
  C147_value_errors (by decide) (by decide) 1 ⟨by decide, by decide⟩ ⟨by decide, by decide⟩ (by decide) (by decide) (tc := 0) rfl
    ⟨[102], by decide, 1, by decide, rfl⟩ [[1, 5]] (by decide +kernel) [some 2] (t := 2) rfl (by decide +kernel) (by decide +kernel)
    ⟨[102], by decide, 1, rfl, Or.inl rfl⟩ [[none]]

/-- If the time stands behind all the columns asked for, the second pass takes a word for the time that it has not looked for in the line:
whatever the values are, if there is a line in the period the times of the series are undefined. -/
theorem C147_time_violated {sites : List (List Nat)} (hn : sites.Nodup) {r : Clock} (hr : 0 ≤ r.secs) (tpd : Rat) {b e : Clock} (hb : b.Proper)
    (he : e.Proper) {hs : List (List Nat)} (hd : hs.Nodup) (hall : ∀ s ∈ sites, s ∈ hs) {tc : Nat}
    (ht : hs[tc]? = some timeName) (hlast : ∀ s ∈ sites, ∀ k, hs[k]? = some s → k < tc) (ls : List (List Rat))
    (hls : ∀ ws ∈ ls, ws = [] ∨ hs.length ≤ ws.length) (hp : period r tpd tc b e ls ≠ []) :
    getGage sites r tpd b e hs (ls.map fun ws => ws.map some) = .undefined := by
  have hcol : ∀ j s, sites[j]? = some s → hs[(scanCols sites hs 1 ⟨fun _ => 0, 0⟩).datcol j - 1]? = some s ∧
      0 < (scanCols sites hs 1 ⟨fun _ => 0, 0⟩).datcol j := by
    intro j s hj
    have h := scanCols_spec hn hs [] ⟨fun _ => 0, 0⟩ (by simpa using hd) (by simp) (by simp) j s hj
    rw [List.nil_append, if_pos (hall s (List.mem_of_getElem? hj))] at h
    simpa using h
  generalize hC : scanCols sites hs 1 ⟨fun _ => 0, 0⟩ = c at hcol
  have htl := List.getElem?_eq_some_iff.1 ht
  have hf : hs.findIdx? (fun h => decide (h = timeName)) = some tc := by
    rw [List.findIdx?_eq_some_iff_getElem]
    refine ⟨htl.1, by simpa using htl.2, ?_⟩
    intro j hj
    simp only [decide_eq_true_eq]
    intro h
    have := (List.Nodup.getElem_inj_iff hd).1 (h.trans htl.2.symm)
    omega
  have hmx : maxCol c.datcol sites.length ≤ tc := maxCol_bound _ fun j hj => by
    obtain ⟨h1, h2⟩ := hcol j _ (List.getElem?_eq_getElem hj)
    have := hlast _ (List.getElem_mem hj) _ h1
    omega
  have htl' := htl.1
  have hcnt := countLines_eq (carry_fix hr).1 tpd (tc := tc) hb he ls 0 (fun ws hw => (hls ws hw).imp id (fun h => by omega))
  have ep : period (carry r.days r.secs) tpd tc b e ls = period r tpd tc b e ls := by unfold period; rw [time_fix hr]
  rw [ep, Nat.zero_add] at hcnt
  obtain ⟨k, hk⟩ : ∃ k, (period r tpd tc b e ls).length = k + 1 := ⟨_, (Nat.succ_pred_eq_of_pos (List.length_pos_iff.2 hp)).symm⟩
  rw [hk] at hcnt
  have hex : ∃ ws ∈ ls, ws ≠ [] := by
    obtain ⟨ws, hw⟩ := List.exists_mem_of_ne_nil _ hp
    unfold period at hw
    rw [List.mem_filter, decide_eq_true_eq] at hw
    exact ⟨ws, hw.1, hw.2.1⟩
  unfold getGage
  simp only [hC]
  rw [if_neg (by rintro ⟨_, j, hj, h0⟩; have := (hcol j _ (List.getElem?_eq_getElem hj)).2; omega), hf]
  simp only
  rw [hcnt]
  simp only
  generalize (fun _ => [] : Nat → List Term) = ser
  clear hcnt ep hk hp
  induction ls with
  | nil => obtain ⟨_, h, _⟩ := hex; simp at h
  | cons ws ls ih =>
    simp only [List.map_cons, fillLines, map_some_nil]
    by_cases hw : ws = []
    · rw [if_pos hw]
      refine ih (fun ws h => hls ws (List.mem_cons_of_mem _ h)) ?_
      obtain ⟨w, h1, h2⟩ := hex
      rcases List.mem_cons.1 h1 with rfl | h1
      · exact absurd hw h2
      · exact ⟨w, h1, h2⟩
    · have := (hls ws List.mem_cons_self).resolve_left hw
      rw [if_neg hw, List.length_map, if_neg (by omega), if_pos (by omega)]

example : getGage [[102]] ⟨100, 0⟩ 1 ⟨101, 0⟩ ⟨102, 50000⟩ [[102], timeName] ([[3, 1], [4, 2]].map fun ws => ws.map some) = .undefined :=
  C147_time_violated (by decide) (by decide) 1 ⟨by decide, by decide⟩ ⟨by decide, by decide⟩ (by decide) (by decide) (tc := 1) rfl
    (by
      intro s hs k hk
      obtain ⟨hl, he⟩ := List.getElem?_eq_some_iff.1 hk
      rcases k with _ | _ | k
      · decide
      · simp at hs; subst hs; simp [timeName] at he
      · simp at hl; omega)
    [[3, 1], [4, 2]] (by decide) (by decide +kernel)

/-- A name that is twice in the header counts twice: another column asked for is then not found, without a message. -/
theorem C147_names_violated : getGage [[102], [115]] ⟨100, 0⟩ 1 ⟨101, 0⟩ ⟨102, 50000⟩ [timeName, [102], [102], [115]]
    [[some 1, some 3, some 4, some 5]] = .undefined := by
  have h : (match getGage [[102], [115]] ⟨100, 0⟩ 1 ⟨101, 0⟩ ⟨102, 50000⟩ [timeName, [102], [102], [115]]
    [[some 1, some 3, some 4, some 5]] with | .undefined => true | _ => false) = true := by decide +kernel
  split at h
  · assumption
  · exact absurd h (by simp)

end Verif.TspGage
