import Verif.Spec.TspStatvar
import Verif.Lemmas.TspSample
import Mathlib.Data.List.Nodup
import Mathlib.Data.List.Perm.Subperm
/-
Helper lemmas for C144.
-/
namespace Verif.TspStv
open Verif.Tsp Verif.TspSsf

theorem carry_eq (d s : Int) (h : 0 ≤ s) : carry d s = ⟨(d * 86400 + s) / 86400, (d * 86400 + s) % 86400⟩ := by
  rw [carry]
  split
  · rename_i h1
    rw [carry_eq (d + 1) (s - 86400) (by omega)]
    congr 2 <;> omega
  · congr 1 <;> omega
termination_by s.toNat
decreasing_by omega

theorem rowClock_eq {r : Row} (h : r.Fair) : rowClock r = ⟨r.time / 86400, r.time % 86400⟩ := by
  obtain ⟨h1, h2, h3⟩ := h
  unfold rowClock numsecs
  rw [carry_eq _ _ (by omega)]
  unfold Row.time
  congr 2 <;> omega

theorem rowClock_proper {r : Row} (h : r.Fair) : (rowClock r).Proper := by
  rw [rowClock_eq h]
  unfold Clock.Proper
  simp only
  omega

theorem rowClock_time {r : Row} (h : r.Fair) : (rowClock r).time = r.time := by
  rw [rowClock_eq h]
  unfold Clock.time
  simp only
  omega

theorem settle_proper {c : Clock} (h : 0 ≤ c.secs ∧ c.secs < 172800) : (settle c).Proper := by
  unfold settle Clock.Proper
  split
  · simp only; omega
  · omega

theorem settle_time (c : Clock) : (settle c).time = c.time := by
  unfold settle Clock.time
  split
  · simp only; omega
  · rfl

theorem period_cons_in {b e : Clock} {r : Row} {rs : List Row} (h1 : b.time ≤ r.time) (h2 : r.time ≤ e.time) :
    period b e (r :: rs) = r :: period b e rs := by
  unfold period
  rw [List.filter_cons_of_pos (by simp [h1, h2])]

theorem period_cons_out {b e : Clock} {r : Row} {rs : List Row} (h : ¬ (b.time ≤ r.time ∧ r.time ≤ e.time)) :
    period b e (r :: rs) = period b e rs := by
  unfold period
  rw [List.filter_cons_of_neg (by simpa using h)]

theorem later_iff {a b : Clock} (ha : a.Proper) (hb : b.Proper) {x y : Int} (hx : a.time = x) (hy : b.time = y) :
    later a b = true ↔ y < x := by
  rw [later_time ha hb, hx, hy]

theorem countRows_eq {n : Nat} {b e : Clock} (hb : b.Proper) (he : e.Proper) (rs : List Row) (h : ∀ r ∈ rs, n ≤ r.vals.length ∧ r.Fair) (k : Nat) :
    countRows n b e (rs.map some) k = some (k + (period b e rs).length) := by
  induction rs generalizing k with
  | nil => simp [countRows, period]
  | cons r rs ih =>
    obtain ⟨hv, hf⟩ := h r (by simp)
    have ih := fun k => ih (fun r hr => h r (by simp [hr])) k
    rw [List.map_cons, countRows, if_neg (by omega)]
    by_cases h1 : later b (rowClock r) = true
    · rw [if_pos h1, ih]
      rw [later_iff hb (rowClock_proper hf) rfl (rowClock_time hf)] at h1
      rw [period_cons_out (by omega)]
    · rw [if_neg h1]
      rw [later_iff hb (rowClock_proper hf) rfl (rowClock_time hf)] at h1
      by_cases h2 : later (rowClock r) e = true
      · rw [if_pos h2, ih]
        rw [later_iff (rowClock_proper hf) he (rowClock_time hf) rfl] at h2
        rw [period_cons_out (by omega)]
      · rw [if_neg h2, ih]
        rw [later_iff (rowClock_proper hf) he (rowClock_time hf) rfl] at h2
        rw [period_cons_in (by omega) (by omega), List.length_cons]
        congr 1
        omega

theorem countRows_bad {n : Nat} {b e : Clock} (rows : List (Option Row)) (h : none ∈ rows) (k : Nat) : countRows n b e rows k = none := by
  induction rows generalizing k with
  | nil => exact absurd h (by simp)
  | cons r rows ih =>
    cases r with
    | none => rfl
    | some r =>
      have ih := ih (by simpa using h)
      rw [countRows]
      split
      · rfl
      · split
        · exact ih _
        · split <;> exact ih _

theorem countRows_mono {n : Nat} {b e : Clock} (rows : List (Option Row)) (k c : Nat) (h : countRows n b e rows k = some c) : k ≤ c := by
  induction rows generalizing k with
  | nil => rw [countRows] at h; injection h with h; omega
  | cons r rows ih =>
    cases r with
    | none => exact absurd h (by simp [countRows])
    | some r =>
      rw [countRows, Option.ite_none_left_eq_some] at h
      have h := h.2
      split at h
      · exact ih _ h
      · split at h
        · exact ih _ h
        · exact Nat.le_of_succ_le (ih _ h)

theorem fillRows_fits {n m : Nat} {dc : Nat → Nat} {b e : Clock} (cap : Nat) (rows : List (Option Row)) (k : Nat) (ser : Nat → List Term)
    (h : countRows n b e rows k = some cap) : fillRows n m dc b e cap rows k ser ≠ .overflow := by
  induction rows generalizing k ser with
  | nil => simp [fillRows]
  | cons r rows ih =>
    cases r with
    | none => simp [fillRows]
    | some r =>
      rw [countRows, Option.ite_none_left_eq_some] at h
      obtain ⟨h0, h⟩ := h
      rw [fillRows, if_neg h0]
      split at h
      · rename_i h1
        rw [if_pos h1]
        exact ih _ _ h
      · rename_i h1
        rw [if_neg h1]
        split at h
        · rename_i h2
          rw [if_pos h2]
          simp
        · rename_i h2
          have := countRows_mono _ _ _ h
          rw [if_neg h2, if_neg (by omega)]
          split
          · simp
          · exact ih _ _ h

theorem upTo_cons_in {e : Clock} {r : Row} {rs : List Row} (h : r.time ≤ e.time) : upTo e (r :: rs) = r :: upTo e rs := by
  unfold upTo
  rw [List.takeWhile_cons_of_pos (by simpa using h)]

theorem upTo_cons_out {e : Clock} {r : Row} {rs : List Row} (h : e.time < r.time) : upTo e (r :: rs) = [] := by
  unfold upTo
  rw [List.takeWhile_cons_of_neg (by simpa using h)]

/-- The second pass on a readable file. -/
theorem fillRows_eq {n m : Nat} {dc : Nat → Nat} {b e : Clock} (hb : b.Proper) (he : e.Proper) (hbe : b.time ≤ e.time) (cap : Nat)
    (rs : List Row) (h : ∀ r ∈ rs, n ≤ r.vals.length ∧ r.Fair) (hd : ∀ j < m, dc j ≠ 0) (k : Nat) (ser : Nat → List Term)
    (hk : k + (period b e rs).length ≤ cap) :
    fillRows n m dc b e cap (rs.map some) k ser =
      .ok cap fun j => if j < m then ser j ++ (period b e (upTo e rs)).map (Row.term (dc j - 1)) else ser j := by
  induction rs generalizing k ser with
  | nil => simp [fillRows, upTo, period]
  | cons r rs ih =>
    obtain ⟨hv, hf⟩ := h r (by simp)
    have ih := fun k ser hk => ih (fun r hr => h r (by simp [hr])) k ser hk
    rw [List.map_cons, fillRows, if_neg (by omega)]
    by_cases h1 : later b (rowClock r) = true
    · rw [if_pos h1]
      rw [later_iff hb (rowClock_proper hf) rfl (rowClock_time hf)] at h1
      rw [period_cons_out (by omega)] at hk
      rw [ih _ _ hk, upTo_cons_in (by omega), period_cons_out (by omega)]
    · rw [if_neg h1]
      rw [later_iff hb (rowClock_proper hf) rfl (rowClock_time hf)] at h1
      by_cases h2 : later (rowClock r) e = true
      · rw [if_pos h2]
        rw [later_iff (rowClock_proper hf) he (rowClock_time hf) rfl] at h2
        rw [upTo_cons_out (by omega)]
        simp [period]
      · rw [if_neg h2]
        rw [later_iff (rowClock_proper hf) he (rowClock_time hf) rfl] at h2
        rw [period_cons_in (by omega) (by omega), List.length_cons] at hk
        rw [if_neg (by omega), if_neg (by rintro ⟨j, hj, h0⟩; exact hd j hj h0), ih _ _ (by omega), upTo_cons_in (by omega),
          period_cons_in (by omega) (by omega)]
        congr 1
        funext j
        split
        · rw [List.map_cons, List.append_assoc, rowClock_eq hf]
          rfl
        · rfl

/-- The second pass on a readable file where a series has no column. -/
theorem fillRows_undefined {n m : Nat} {dc : Nat → Nat} {b e : Clock} (hb : b.Proper) (he : e.Proper) (hbe : b.time ≤ e.time) (cap : Nat)
    (rs : List Row) (h : ∀ r ∈ rs, n ≤ r.vals.length ∧ r.Fair) (hd : ∃ j < m, dc j = 0) (k : Nat) (ser : Nat → List Term)
    (hk : k + (period b e rs).length ≤ cap) (hp : period b e (upTo e rs) ≠ []) :
    fillRows n m dc b e cap (rs.map some) k ser = .undefined := by
  induction rs generalizing k ser with
  | nil => exact absurd rfl hp
  | cons r rs ih =>
    obtain ⟨hv, hf⟩ := h r (by simp)
    rw [List.map_cons, fillRows, if_neg (by omega)]
    by_cases h1 : later b (rowClock r) = true
    · rw [if_pos h1]
      rw [later_iff hb (rowClock_proper hf) rfl (rowClock_time hf)] at h1
      rw [period_cons_out (by omega)] at hk
      rw [upTo_cons_in (by omega), period_cons_out (by omega)] at hp
      exact ih (fun r hr => h r (by simp [hr])) _ _ hk hp
    · rw [if_neg h1]
      rw [later_iff hb (rowClock_proper hf) rfl (rowClock_time hf)] at h1
      by_cases h2 : later (rowClock r) e = true
      · rw [later_iff (rowClock_proper hf) he (rowClock_time hf) rfl] at h2
        rw [upTo_cons_out (by omega)] at hp
        exact absurd rfl hp
      · rw [if_neg h2]
        rw [later_iff (rowClock_proper hf) he (rowClock_time hf) rfl] at h2
        rw [period_cons_in (by omega) (by omega), List.length_cons] at hk
        rw [if_neg (by omega), if_pos hd]

/-! ### The header -/

theorem scanHead_some {req : List (List Nat × Int)} (hs : List Head) (h : ∀ x ∈ hs, x.loc ≠ none) (i : Nat) (c : Cols) :
    ∃ c', scanHead req hs i c = some c' := by
  induction hs generalizing i c with
  | nil => exact ⟨c, rfl⟩
  | cons x hs ih =>
    rw [scanHead]
    split
    · rename_i hx
      exact absurd hx (h x (by simp))
    · exact ih (fun x hx => h x (by simp [hx])) _ _

theorem scanHead_none {req : List (List Nat × Int)} (hs : List Head) (x : Head) (hx : x ∈ hs) (hl : x.loc = none) (i : Nat) (c : Cols) :
    scanHead req hs i c = none := by
  induction hs generalizing i c with
  | nil => exact absurd hx (by simp)
  | cons y hs ih =>
    rw [scanHead]
    split
    · rfl
    · rename_i l hy
      rcases List.mem_cons.1 hx with rfl | hm
      · rw [hl] at hy
        exact absurd hy (by simp)
      · exact ih hm _ _

theorem lastCol_cons {q : List Nat × Int} {x : Head} {hs : List Head} {k : Nat} (h : LastCol q hs k) : LastCol q (x :: hs) (k + 1) := by
  refine ⟨?_, ?_⟩
  · simpa using h.1
  · intro i y hi hy
    cases i with
    | zero => omega
    | succ i => exact h.2 i y (by omega) (by simpa using hy)

theorem scanHead_col {req : List (List Nat × Int)} (hs : List Head) (i : Nat) (c c' : Cols) (h : scanHead req hs i c = some c') (j : Nat)
    (q : List Nat × Int) (hq : req[j]? = some q) :
    (∃ k, LastCol q hs k ∧ c'.datcol j = i + k) ∨ (¬ InHead q hs ∧ c'.datcol j = c.datcol j) := by
  induction hs generalizing i c with
  | nil =>
    rw [scanHead] at h
    injection h with h
    subst h
    exact Or.inr ⟨by simp [InHead], rfl⟩
  | cons x hs ih =>
    rw [scanHead] at h
    split at h
    · exact absurd h (by simp)
    · rename_i l hl
      rcases ih _ _ h with ⟨k, hk, hd⟩ | ⟨hn, hd⟩
      · exact Or.inl ⟨k + 1, lastCol_cons hk, by omega⟩
      · simp only at hd
        rw [hq] at hd
        by_cases he : q = (varHead x.varname, l)
        · rw [if_pos (by rw [he])] at hd
          refine Or.inl ⟨0, ⟨⟨x, by simp, ?_⟩, ?_⟩, by omega⟩
          · rw [he]
            exact ⟨hl, rfl⟩
          · intro i y hi hy hm
            cases i with
            | zero => omega
            | succ i =>
              rw [List.getElem?_cons_succ] at hy
              exact hn ⟨y, List.mem_of_getElem? hy, hm⟩
        · rw [if_neg (by simpa using he)] at hd
          refine Or.inr ⟨?_, hd⟩
          rintro ⟨y, hy, h1, h2⟩
          rcases List.mem_cons.1 hy with rfl | hy
          · rw [hl] at h1
            injection h1 with h1
            exact he (by rw [h2, h1])
          · exact hn ⟨y, hy, h1, h2⟩

theorem lastCol_inHead {q : List Nat × Int} {hs : List Head} {k : Nat} (h : LastCol q hs k) : InHead q hs := by
  obtain ⟨⟨x, hx, hm⟩, _⟩ := h
  exact ⟨x, List.mem_of_getElem? hx, hm⟩

theorem scanHead_count {req : List (List Nat × Int)} (hn : req.Nodup) (hs : List Head) (i : Nat) (c c' : Cols)
    (h : scanHead req hs i c = some c') : c'.icount = c.icount + matched req hs := by
  induction hs generalizing i c with
  | nil =>
    rw [scanHead] at h
    injection h with h
    subst h
    rfl
  | cons x hs ih =>
    rw [scanHead] at h
    split at h
    · exact absurd h (by simp)
    · rename_i l hl
      rw [ih _ _ h]
      simp only
      unfold matched
      by_cases hm : (varHead x.varname, l) ∈ req
      · rw [List.count_eq_one_of_mem hn hm, List.filter_cons_of_pos, List.length_cons]
        · omega
        · rw [decide_eq_true_eq]
          exact ⟨_, hm, hl, rfl⟩
      · rw [List.count_eq_zero_of_not_mem hm, List.filter_cons_of_neg]
        · omega
        · rw [decide_eq_true_eq]
          rintro ⟨q, hq, h1, h2⟩
          rw [hl] at h1
          injection h1 with h1
          apply hm
          rw [h1, h2]
          exact hq

/-- If no line of the header comes twice and something is missing, there are fewer matches than series. -/
theorem matched_lt {req : List (List Nat × Int)} {hs : List Head} (hh : (hs.map fun h => (varHead h.varname, h.loc)).Nodup)
    {q : List Nat × Int} (hq : q ∈ req) (hm : ¬ InHead q hs) : matched req hs < req.length := by
  have h1 := hh.sublist (List.Sublist.map (fun h : Head => (varHead h.varname, h.loc))
    (List.filter_sublist (p := fun h : Head => decide (∃ q ∈ req, h.loc = some q.2 ∧ varHead h.varname = q.1)) (l := hs)))
  have h2 : ((hs.filter fun h => ∃ q ∈ req, h.loc = some q.2 ∧ varHead h.varname = q.1).map fun h => (varHead h.varname, h.loc)) ⊆
      (req.erase q).map fun q => (q.1, some q.2) := by
    intro y hy
    obtain ⟨h, hf, rfl⟩ := List.mem_map.1 hy
    obtain ⟨hmem, hp⟩ := List.mem_filter.1 hf
    rw [decide_eq_true_eq] at hp
    obtain ⟨q', hq', e1, e2⟩ := hp
    refine List.mem_map.2 ⟨q', (List.mem_erase_of_ne ?_).2 hq', ?_⟩
    · rintro rfl
      exact hm ⟨h, hmem, e1, e2⟩
    · rw [e1, e2]
  have h3 := (List.subperm_of_subset h1 h2).length_le
  rw [List.length_map, List.length_map, List.length_erase_of_mem hq] at h3
  have := List.length_pos_of_mem hq
  unfold matched
  omega

/-! ### The block -/

/-- A series as it is asked for. -/
def norm (a : Ask) : Ask := ⟨varWant a.site, a.locid, a.aname⟩

theorem blockRun_other (max : Nat) (s : Block) (ks : List Key) : blockRun max s ks = blockRun max s (ks.filter (· ≠ .other)) := by
  induction ks generalizing s with
  | nil => rfl
  | cons k ks ih =>
    by_cases hk : k = .other
    · subst hk
      rw [List.filter_cons_of_neg (by simp), blockRun]
      simp only [blockStep]
      exact ih _
    · rw [List.filter_cons_of_pos (by simpa using hk), blockRun, blockRun]
      cases blockStep max s k with
      | none => rfl
      | some s' => exact ih _

theorem blockRun_inv (max : Nat) (s : Block) : ∀ (ks : List Key) (done : List Ask) (cur : Ask), (∀ k ∈ ks, k ≠ Key.other) →
    blockRun max ⟨true, false, false, done, cur⟩ ks = some s → s.iname = false → s.ilocid = false → (done.map Ask.aname).Nodup →
    done.length ≤ max → ∃ ws, ks = written ws ∧ s.done = done ++ ws.map norm ∧ (s.done.map Ask.aname).Nodup ∧ s.done.length ≤ max := by
  intro ks
  match ks with
  | [] =>
    intro done cur _ h _ _ hd hl
    rw [blockRun] at h
    injection h with h
    subst h
    exact ⟨[], rfl, by simp, hd, hl⟩
  | .other :: ks =>
    intro _ _ hk
    exact absurd rfl (hk .other (by simp))
  | .location n :: ks =>
    intro done cur _ h
    simp [blockRun, blockStep] at h
  | .newName n :: ks =>
    intro done cur _ h
    simp [blockRun, blockStep] at h
  | [.variable w] =>
    intro done cur _ h h1 h2
    simp only [blockRun, blockStep] at h
    split at h
    · exact absurd h (by simp)
    · rename_i s' hs
      simp at hs h
      rw [← h, ← hs.2] at h2
      simp at h2
  | .variable w :: .other :: ks =>
    intro _ _ hk
    exact absurd rfl (hk .other (by simp))
  | .variable w :: .variable v :: ks =>
    intro done cur _ h
    simp only [blockRun, blockStep] at h
    split at h
    · exact absurd h (by simp)
    · rename_i s' hs
      simp at hs
      rw [← hs.2] at h
      simp at h
  | .variable w :: .newName v :: ks =>
    intro done cur _ h
    simp only [blockRun, blockStep] at h
    split at h
    · exact absurd h (by simp)
    · rename_i s' hs
      simp at hs
      rw [← hs.2] at h
      simp at h
  | [.variable w, .location n] =>
    intro done cur _ h h1 h2
    simp only [blockRun, blockStep] at h
    split at h
    · exact absurd h (by simp)
    · rename_i s' hs
      simp at hs
      rw [← hs.2] at h
      simp at h
      rw [← h] at h1
      simp at h1
  | .variable w :: .location n :: .other :: ks =>
    intro _ _ hk
    exact absurd rfl (hk .other (by simp))
  | .variable w :: .location n :: .variable v :: ks =>
    intro done cur _ h
    simp only [blockRun, blockStep] at h
    split at h
    · exact absurd h (by simp)
    · rename_i s' hs
      simp at hs
      rw [← hs.2] at h
      simp at h
  | .variable w :: .location n :: .location v :: ks =>
    intro done cur _ h
    simp only [blockRun, blockStep] at h
    split at h
    · exact absurd h (by simp)
    · rename_i s' hs
      simp at hs
      rw [← hs.2] at h
      simp at h
  | .variable w :: .location n :: .newName v :: ks =>
    intro done cur hk h h1 h2 hd hl
    simp only [blockRun, blockStep] at h
    split at h
    · exact absurd h (by simp)
    · rename_i s' hs
      simp at hs
      rw [← hs.2] at h
      simp only [Bool.true_eq_false, if_false] at h
      by_cases hm : v ∈ done.map Ask.aname
      · rw [if_pos hm] at h
        exact absurd h (by simp)
      · rw [if_neg hm] at h
        obtain ⟨ws, e1, e2, e3, e4⟩ := blockRun_inv max s ks (done ++ [⟨varWant w, n, v⟩]) _ (fun k hx => hk k (by simp [hx])) h h1 h2
          (by rw [List.map_append]; exact List.Nodup.append hd (by simp) (by simpa using hm)) (by simp; omega)
        refine ⟨⟨w, n, v⟩ :: ws, ?_, ?_, e3, e4⟩
        · rw [e1]
          rfl
        · rw [e2]
          simp [norm]

theorem blockRun_written (max : Nat) (ws : List Ask) (done : List Ask) (cur : Ask)
    (hn : (done.map Ask.aname ++ ws.map Ask.aname).Nodup) (hl : done.length + ws.length ≤ max) :
    ∃ cur', blockRun max ⟨true, false, false, done, cur⟩ (written ws) = some ⟨true, false, false, done ++ ws.map norm, cur'⟩ := by
  induction ws generalizing done cur with
  | nil => exact ⟨cur, by simp [written, blockRun]⟩
  | cons a ws ih =>
    have hm : a.aname ∉ done.map Ask.aname := by
      intro hx
      rw [List.map_cons] at hn
      exact List.disjoint_of_nodup_append hn hx (by simp)
    have e : written (a :: ws) = .variable a.site :: .location a.locid :: .newName a.aname :: written ws := rfl
    obtain ⟨c', hc⟩ := ih (done ++ [norm a]) ⟨varWant a.site, a.locid, []⟩ (by simpa [norm] using hn) (by simp at hl ⊢; omega)
    refine ⟨c', ?_⟩
    rw [e, blockRun]
    simp only [blockStep, Bool.true_eq_false, if_false]
    rw [if_neg (by simp at hl; omega)]
    simp only
    rw [blockRun]
    simp only [blockStep, Bool.true_eq_false, if_false]
    rw [blockRun]
    simp only [blockStep, Bool.true_eq_false, if_false]
    rw [if_neg hm]
    simp only
    rw [show (done ++ (a :: ws).map norm) = (done ++ [norm a]) ++ ws.map norm by simp]
    exact hc

end Verif.TspStv
