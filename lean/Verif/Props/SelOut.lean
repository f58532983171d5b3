import Verif.Lemmas.SelOut
/-
C23, C24, C49: the selected-output table.
-/
namespace Verif.SelOut

/-- C23: after any history no container is indexed out of range, and every column holds one cell per
completed row plus at most one pending cell; there is one column per heading. -/
theorem C23_rectangular {F} (ops : List (Op F)) :
    ∃ t, run init ops = some t ∧ t.cols.length = t.heads.length ∧
      ∀ c ∈ t.cols, c.length = t.nRow ∨ c.length = t.nRow + 1 := by
  obtain ⟨t, h1, h2⟩ := run_rep ops init _ rep_init
  refine ⟨t, h1, by rw [h2.cols, h2.heads]; simp, ?_⟩
  intro c hc
  rw [h2.cols] at hc
  obtain ⟨k, _, rfl⟩ := List.mem_map.1 hc
  rw [h2.rows]
  unfold colSpec
  split <;> simp

/-- C23: after any history, reading any cell (any integers) into any valid variable returns exactly
what the history says: the heading in row 0, the last value pushed for the heading during that row
otherwise (empty if there was none), the invalid-row code outside the rows and the invalid-column
code outside the columns. -/
theorem C23_get {F} (ops : List (Op F)) (t : Table F) (h : run init ops = some t) (ty : Int)
    (hty : 0 ≤ ty ∧ ty ≤ 4) (row col : Int) : get t ty row col = some ((logOf ops).get row col) := by
  obtain ⟨t', h1, h2⟩ := run_rep ops init _ rep_init
  rw [h] at h1; injection h1 with h1; subst h1
  exact get_rep h2 ty hty row col

/-- C23: the reported numbers of rows and columns. -/
theorem C23_counts {F} (ops : List (Op F)) (t : Table F) (h : run init ops = some t) :
    colCount t = (logOf ops).heads.length ∧
    rowCount t = if (logOf ops).heads = [] then 0 else (logOf ops).done.length + 1 := by
  obtain ⟨t', h1, h2⟩ := run_rep ops init _ rep_init
  rw [h] at h1; injection h1 with h1; subst h1
  refine ⟨by unfold colCount; rw [h2.heads]; rfl, ?_⟩
  unfold rowCount colCount
  rw [h2.heads, h2.rows]
  unfold logOf
  by_cases hn : (ops.foldl Log.step ⟨[], []⟩ : Log F).heads = [] <;> simp [hn]

/-- C23: a variable with an undefined type is refused and left alone. -/
theorem C23_bad_variable {F} (t : Table F) (ty : Int) (hty : ty < 0 ∨ 4 < ty) (row col : Int) :
    get t ty row col = some (-2, none) := by
  unfold get; rw [if_pos hty]

/-- A history with a heading introduced in the second row and a value overwritten before its row ended. -/
example : ∃ t, run (F := Nat) init [.push ['a'] (.long 1), .endRow, .push ['b'] (.dbl 2), .push ['b'] (.dbl 3), .endRow]
    = some t ∧ get t 0 1 1 = some (0, some .empty) ∧ get t 0 2 1 = some (0, some (.dbl 3)) ∧
    get t 0 2 0 = some (0, some .empty) ∧ get t 0 0 1 = some (0, some (.str ['b'])) ∧
    get t 0 3 0 = some (-4, some (.error (-4))) ∧ get t 0 1 2 = some (-5, some (.error (-5))) :=
  ⟨_, rfl, by decide +kernel⟩

/-- C24: take any table reached by any history and any nonempty list of its data rows; serializing
these rows and deserializing them one after the other into an empty table gives a table with the same
headings whose k-th data row reads exactly like the k-th row taken. -/
theorem C24_restored {F} (ops : List (Op F)) (t0 : Table F) (h : run init ops = some t0)
    (is : List Nat) (hne : is ≠ []) (his : ∀ i ∈ is, i < t0.nRow) :
    ∃ t1, restore t0 is init = some t1 ∧ t1.heads = t0.heads ∧ t1.nRow = is.length ∧
      ∀ (ty col : Int), get t1 ty 0 col = get t0 ty 0 col ∧
        ∀ (k i : Nat), is[k]? = some i → get t1 ty ((k : Int) + 1) col = get t0 ty ((i : Int) + 1) col := by
  obtain ⟨t', h1, h2⟩ := run_rep ops init _ rep_init
  rw [h] at h1; injection h1 with h1; subst h1
  generalize ops.foldl Log.step ⟨[], []⟩ = l at h2
  have hget : ∀ i ∈ is, ∃ r, l.done[i]? = some r := by
    intro i hi
    have : i < l.done.length := by rw [← h2.rows]; exact his i hi
    exact ⟨_, List.getElem?_eq_getElem this⟩
  obtain ⟨rs, hrs⟩ : ∃ rs : List (List (List Char × Cell F)), is.map (fun i => l.done[i]?) = rs.map some := by
    clear hne his
    induction is with
    | nil => exact ⟨[], rfl⟩
    | cons i is ih =>
      obtain ⟨rs, hrs⟩ := ih fun j hj => hget j (by simp [hj])
      obtain ⟨r, hr⟩ := hget i (by simp)
      exact ⟨r :: rs, by simp [hr, hrs]⟩
  have hlen : is.length = rs.length := by simpa using congrArg List.length hrs
  have hheads : l.heads ≠ [] := by
    intro hn
    have hd := h2.start hn
    obtain ⟨i, hi⟩ := List.exists_mem_of_ne_nil is hne
    have := his i hi
    rw [h2.rows, hd] at this; simp at this
  obtain ⟨t1, h3, h4⟩ := run_rep (rs.flatMap fun r => rowOps l.heads (rowVals l r)) init _ rep_init
  rw [foldl_rows l hheads rs] at h4
  simp only [List.nil_append] at h4
  have hk : (⟨rs.map (fun r => l.heads.zip (rowVals l r)), []⟩ : Log F).heads = l.heads := by
    show firsts (((rs.map (fun r => l.heads.zip (rowVals l r))).flatten ++ []).map (fun x : List Char × Cell F => x.1)) = l.heads
    simp only [List.append_nil, List.map_flatten, List.map_map]
    rcases rs with _ | ⟨r, rs⟩
    · simp at hlen; exact absurd hlen hne
    · simp only [List.map_cons, List.flatten_cons, Function.comp]
      rw [zip_keys, firsts_append_subset, firsts_nodup h2.nodup]
      · intro x hx
        obtain ⟨y, hy, hx⟩ := List.mem_flatten.1 hx
        obtain ⟨r', _, rfl⟩ := List.mem_map.1 hy
        have hz := zip_keys l r'
        exact hz ▸ hx
  refine ⟨t1, by rw [restore_run t0 l h2 is init rs hrs]; exact h3, ?_, ?_, ?_⟩
  · rw [h4.heads, hk, h2.heads]
  · rw [h4.rows]; simp [hlen]
  · intro ty col
    by_cases hty : ty < 0 ∨ 4 < ty
    · refine ⟨by rw [C23_bad_variable _ _ hty, C23_bad_variable _ _ hty], fun k i _ => ?_⟩
      rw [C23_bad_variable _ _ hty, C23_bad_variable _ _ hty]
    · have hty' : 0 ≤ ty ∧ ty ≤ 4 := by omega
      refine ⟨?_, fun k i hki => ?_⟩
      · rw [get_rep h4 ty hty', get_rep h2 ty hty']
        unfold Log.get
        simp [hk]
      · rw [get_rep h4 ty hty', get_rep h2 ty hty']
        have hi : i < l.done.length := by
          rw [← h2.rows]; exact his i (List.mem_of_getElem? hki)
        have hkl : k < is.length := (List.getElem?_eq_some_iff.1 hki).1
        have hr : rs[k]? = l.done[i]? := by
          have := congrArg (fun x => x[k]?) hrs
          simp only [List.getElem?_map, hki, Option.map_some] at this
          rcases hx : rs[k]? with _ | r
          · rw [hx] at this; simp at this
          · rw [hx] at this; simp only [Option.map_some, Option.some.injEq] at this; exact this.symm
        unfold Log.get
        rw [hk]
        simp only [List.length_map]
        rw [if_neg (show ¬ ((k : Int) + 1 < 0) by omega), if_neg (show ¬ ((i : Int) + 1 < 0) by omega)]
        have hA : (k : Int) + 1 ≤ rs.length := by omega
        have hB : (i : Int) + 1 ≤ l.done.length := by omega
        simp only [hA, hB, and_true]
        split
        · rfl
        · rcases hc : l.heads[col.toNat]? with _ | hd
          · rfl
          · simp only
            rw [if_neg (show ¬ ((k : Int) + 1 = 0) by omega), if_neg (show ¬ ((i : Int) + 1 = 0) by omega)]
            have e1 : ((k : Int) + 1).toNat - 1 = k := by omega
            have e2 : ((i : Int) + 1).toNat - 1 = i := by omega
            rw [e1, e2, List.getElem?_map, hr, List.getElem?_eq_getElem hi]
            simp only [Option.map_some]
            rw [rowVals, cellOf_zip _ _ _ (List.mem_of_getElem? hc)]

example : ∃ t0, run (F := Nat) init [.push ['a'] (.str ['x', 'y']), .push [] (.str []), .endRow, .push ['b'] (.dbl 2), .endRow]
    = some t0 ∧ 1 < t0.nRow ∧ restore t0 [0, 1] init = some t0 := ⟨_, rfl, by decide +kernel, by decide +kernel⟩

/-- C49: after any history the Fortran-style matrix has one row per completed row and one column per
heading, and its element (i, j), stored by columns, is the number in that cell, or the inactive value
if the cell is empty, a text or an error. -/
theorem C49_matrix {F} (ofInt : Int → F) (inactive : F) (ops : List (Op F)) (t : Table F)
    (h : run init ops = some t) :
    ∃ ds, doublize ofInt inactive t = some ((logOf ops).done.length, (logOf ops).heads.length, ds) ∧
      ds.length = (logOf ops).done.length * (logOf ops).heads.length ∧
      ∀ (i j : Nat) r k, (logOf ops).done[i]? = some r → (logOf ops).heads[j]? = some k →
        ds[j * (logOf ops).done.length + i]? = some (match cellOf r k with
          | .long n => ofInt n | .dbl x => x | _ => inactive) := by
  obtain ⟨t', h1, h2⟩ := run_rep ops init _ rep_init
  rw [h] at h1; injection h1 with h1; subst h1
  unfold logOf
  generalize ops.foldl Log.step ⟨[], []⟩ = l at h2
  refine ⟨(l.heads.map fun k => l.done.map fun r => toDouble ofInt inactive (cellOf r k)).flatten, ?_, ?_, ?_⟩
  · unfold doublize
    rw [if_pos]
    · rw [h2.rows, h2.heads, h2.cols]
      simp only [Option.some.injEq, Prod.mk.injEq, true_and]
      rw [List.flatMap_map, ← List.flatMap_def]
      congr 1
      funext k
      unfold colSpec
      rw [List.take_left' (by simp), List.map_map]
      rfl
    · rw [List.all_eq_true, h2.cols]
      intro c hc
      obtain ⟨k, _, rfl⟩ := List.mem_map.1 hc
      simp [colSpec, h2.rows]
  · generalize l.heads = hs
    induction hs with
    | nil => simp
    | cons a hs ih => simp only [List.map_cons, List.flatten_cons, List.length_append, ih]; simp [Nat.mul_succ]; omega
  · intro i j r k hr hk
    generalize l.heads = hs at hk
    have hi : i < l.done.length := (List.getElem?_eq_some_iff.1 hr).1
    induction hs generalizing j with
    | nil => simp at hk
    | cons a hs ih =>
      simp only [List.map_cons, List.flatten_cons]
      cases j with
      | zero =>
        simp at hk; subst hk
        rw [List.getElem?_append_left (by simpa using hi)]
        simp only [Nat.zero_mul, Nat.zero_add, List.getElem?_map, hr, Option.map_some]
        rfl
      | succ j =>
        rw [List.getElem?_append_right (by simp [Nat.succ_mul]; omega)]
        have := ih j (by simpa using hk)
        rw [← this]
        congr 1
        simp [Nat.succ_mul]; omega

end Verif.SelOut
