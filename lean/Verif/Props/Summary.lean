import Verif.Lemmas.SummaryChem
/-
C109: totals, means and extremes of days, months, years and the run.  C111: rows written.  C112: columns of the files.
-/
namespace Verif.Summary
open Verif.EndPer

/-! ### C109 -/

/-- C109: during a period the accumulators hold the sums over its steps, and nothing else. -/
theorem C109_totals (log : Rat → Rat) (p : Per) (before during : List Step) (h : Since p before during) :
    let a := ((runAll log (before ++ during)).per p).2
    a.steps = during.length ∧ (∀ f, a.flux f = total (·.flux f) during) ∧
      a.mean a.rad = average (·.watt) during ∧ a.mean a.qsim = average (·.qsim) during ∧ a.mean a.qobs = average (·.qobs) during ∧
      a.obj .abs = total (fun u => |u.qobs - u.qsim|) during ∧
      a.obj .sq = total (fun u => (u.qobs - u.qsim) ^ 2) during ∧
      a.obj .absLog = total (fun u => |log (u.qobs + 1) - log (u.qsim + 1)|) during ∧
      a.obj .sqLog = total (fun u => (log (u.qobs + 1) - log (u.qsim + 1)) ^ 2) during ∧
      a.obj .diff = total (fun u => u.qobs - u.qsim) during ∧
      (∀ w, a.water w = total (ofChem (·.water w)) during) ∧
      (∀ q, a.prop q = total (ofChem fun c => c.prop q * c.water (weight q)) during) ∧
      (∀ m, a.mass m = total (ofChem (·.mass m)) during) := by
  intro a
  have ha : a = addAll log Acc.zero (List.zip during (errs log (runAll log before) during)) := by
    show ((runAll log (before ++ during)).per p).2 = _
    rw [since_per log p before during h]
  clear_value a
  subst ha
  have hl := errs_length log (runAll log before) during
  have hs : (addAll log Acc.zero (List.zip during (errs log (runAll log before) during))).steps = during.length := by
    rw [addAll_steps, List.length_zip, hl]
    simp [Acc.zero]
  have hsq : ∀ x : Rat, x ^ 2 = x * x := fun x => by ring
  refine ⟨hs, fun f => addAll_total log (fun a => a.flux f) _ (fun _ _ _ => rfl) _ _ hl rfl, ?_, ?_, ?_,
    addAll_total log (fun a => a.obj .abs) _ (fun _ _ _ => rfl) _ _ hl rfl, ?_,
    addAll_total log (fun a => a.obj .absLog) _ (fun _ _ _ => rfl) _ _ hl rfl, ?_,
    addAll_total log (fun a => a.obj .diff) _ (fun _ _ _ => rfl) _ _ hl rfl, ?_, ?_, ?_⟩
  · unfold Acc.mean average
    rw [hs, addAll_total log (fun a => a.rad) _ (fun _ _ _ => rfl) _ _ hl rfl]
  · unfold Acc.mean average
    rw [hs, addAll_total log (fun a => a.qsim) _ (fun _ _ _ => rfl) _ _ hl rfl]
  · unfold Acc.mean average
    rw [hs, addAll_total log (fun a => a.qobs) _ (fun _ _ _ => rfl) _ _ hl rfl]
  · exact addAll_total log (fun a => a.obj .sq) _ (fun _ _ _ => by rw [hsq]; rfl) _ _ hl rfl
  · exact addAll_total log (fun a => a.obj .sqLog) _ (fun _ _ _ => by rw [hsq]; rfl) _ _ hl rfl
  · intro w
    refine addAll_total log (fun a => a.water w) _ (fun a u b => ?_) _ _ hl rfl
    simp only [Acc.add, ofChem]
    cases u.chem <;> simp
  · intro q
    refine addAll_total log (fun a => a.prop q) _ (fun a u b => ?_) _ _ hl rfl
    simp only [Acc.add, ofChem]
    cases u.chem <;> simp
  · intro m
    refine addAll_total log (fun a => a.mass m) _ (fun a u b => ?_) _ _ hl rfl
    simp only [Acc.add, ofChem]
    cases u.chem <;> simp

/-- C109: the extremes of temperature are those of the steps of the period, if some step is above -999 and some below 999. -/
theorem C109_extremes (log : Rat → Rat) (p : Per) (before during : List Step) (h : Since p before during) :
    let a := ((runAll log (before ++ during)).per p).2
    ((∃ u ∈ during, -999 < u.tmax) → Greatest (·.tmax) during a.tmax) ∧
      ((∃ u ∈ during, u.tmin < 999) → Least (·.tmin) during a.tmin) := by
  intro a
  have ha : a = addAll log Acc.zero (List.zip during (errs log (runAll log before) during)) := by
    show ((runAll log (before ++ during)).per p).2 = _
    rw [since_per log p before during h]
  clear_value a
  subst ha
  have hl := errs_length log (runAll log before) during
  obtain ⟨x1, x2, x3⟩ := addAll_tmax log (List.zip during (errs log (runAll log before) during)) Acc.zero
  obtain ⟨n1, n2, n3⟩ := addAll_tmin log (List.zip during (errs log (runAll log before) during)) Acc.zero
  refine ⟨fun ⟨u, hu, hlt⟩ => ⟨?_, ?_⟩, fun ⟨u, hu, hlt⟩ => ⟨?_, ?_⟩⟩
  · rcases x3 with x3 | ⟨y, hy, x3⟩
    · exfalso
      obtain ⟨b, hb⟩ := mem_zip_fst hl hu
      have := x2 _ hb
      rw [x3] at this
      simp only [Acc.zero] at this
      linarith
    · exact ⟨y.1, (List.of_mem_zip hy).1, x3⟩
  · intro v hv
    obtain ⟨b, hb⟩ := mem_zip_fst hl hv
    exact x2 _ hb
  · rcases n3 with n3 | ⟨y, hy, n3⟩
    · exfalso
      obtain ⟨b, hb⟩ := mem_zip_fst hl hu
      have := n2 _ hb
      rw [n3] at this
      simp only [Acc.zero] at this
      linarith
    · exact ⟨y.1, (List.of_mem_zip hy).1, n3⟩
  · intro v hv
    obtain ⟨b, hb⟩ := mem_zip_fst hl hv
    exact n2 _ hb

/-- The sum of the errors of a period. -/
theorem since_bal (log : Rat → Rat) (p : Per) (before during : List Step) (h : Since p before during) (hn : Numbered (before ++ during)) :
    ((runAll log (before ++ during)).per p).2.bal = (gaps before.getLast? during).sum := by
  rw [since_per log p before during h]
  rw [← errs_run log before during hn]
  exact addAll_bal log during _ (errs_length log _ during)

theorem hydro_row_mem (log) (c : Cfg) (us : List Step) (u : Step) (p : Per) (lines) (h : hydroStep log c (runAll log us) u = some lines)
    (hd : Due c u (some p)) :
    ∃ fs, hydroRow c.printType u (some p) (perRow u ((runAll log (us ++ [u])).per p).2) = some fs ∧ .row (some p) fs ∈ lines := by
  have hst : advance log (runAll log us) u = runAll log (us ++ [u]) := by simp [runAll]
  unfold hydroStep at h
  obtain ⟨l, h1, rfl⟩ := Option.map_eq_some_iff.1 h
  have hm : some p ∈ kinds c.sw (decode u.endper) u.timestep true := by
    rw [kinds_mem]
    cases p <;> simp [Due, Ends] at hd ⊢ <;> tauto
  obtain ⟨x, h2, h3⟩ := collect_mem _ _ _ h1 _ hm
  unfold hydroLines at h2
  obtain ⟨fs, h4, rfl⟩ := Option.map_eq_some_iff.1 h2
  rw [hst] at h4
  exact ⟨fs, h4, List.mem_append_left _ (h3 _ (by simp))⟩

/-- C109, detailed table: at the end of a day, month, year or run for which rows are wanted, a row is written that says, under the
labels of the heading, the sums, means and extremes over the steps of that period and the storages at its end. -/
theorem C109_detail (log : Rat → Rat) (c : Cfg) (hc : c.printType = 2) (p : Per) (before rest : List Step) (u : Step)
    (h : Since p before (rest ++ [u])) (hn : Numbered (before ++ (rest ++ [u]))) (hd : Due c u (some p)) (outs)
    (ho : outputs log c State.init (before ++ (rest ++ [u])) = some outs)
    (hmax : ∃ v ∈ rest ++ [u], -999 < v.tmax) (hmin : ∃ v ∈ rest ++ [u], v.tmin < 999) :
    ∃ lines chem fs tmax tmin, outs.getLast? = some (lines, chem) ∧ .row (some p) fs ∈ lines ∧
      Greatest (·.tmax) (rest ++ [u]) tmax ∧ Least (·.tmin) (rest ++ [u]) tmin ∧
      fs.map (·.cell) = dateOf u (some p) ++
        (detailOf (rest ++ [u]) u tmax tmin (gaps before.getLast? (rest ++ [u])).sum).map Prod.snd ∧
      (detailOf (rest ++ [u]) u tmax tmin (gaps before.getLast? (rest ++ [u])).sum).map Prod.fst = (labels detailHead).drop 3 := by
  rw [← List.append_assoc] at ho
  obtain ⟨lines, chem, h1, h2, -⟩ := outputs_last log c _ u outs ho
  obtain ⟨fs, h3, h4⟩ := hydro_row_mem log c _ u p lines h2 hd
  rw [List.append_assoc] at h3
  obtain ⟨e1, e2⟩ := C109_extremes log p before (rest ++ [u]) h
  obtain ⟨t1, t2, t3, t4, t5, -⟩ := C109_totals log p before (rest ++ [u]) h
  have hb := since_bal log p before (rest ++ [u]) h hn
  refine ⟨lines, chem, fs, _, _, h1, h4, e1 hmax, e2 hmin, ?_, ?_⟩
  · rw [hc] at h3
    rw [detail_cells _ _ _ _ h3]
    congr 1
    simp only [Row.detail, perRow, detailOf, List.map_cons, List.map_nil, t2, t3, t4, t5, hb]
  · have : (labels detailHead).drop 3 = (detailOf ([] : List Step)
        ⟨0, 0, 0, 0, 0, 0, 0, 0, 0, 0, 0, 0, 0, fun _ => 0, fun _ => 0, 0, 0, none⟩ 0 0 0).map Prod.fst := by decide +kernel
    rw [this]
    rfl

/-- C109, table of the water balance. -/
theorem C109_table (log : Rat → Rat) (c : Cfg) (hc : c.printType = 1) (p : Per) (before rest : List Step) (u : Step)
    (h : Since p before (rest ++ [u])) (hn : Numbered (before ++ (rest ++ [u]))) (hd : Due c u (some p)) (outs)
    (ho : outputs log c State.init (before ++ (rest ++ [u])) = some outs) :
    ∃ lines chem fs, outs.getLast? = some (lines, chem) ∧ .row (some p) fs ∈ lines ∧
      fs.map (·.cell) = dateOf u (some p) ++
        (tableOf (rest ++ [u]) u (gaps before.getLast? (rest ++ [u])).sum).map Prod.snd ∧
      (tableOf (rest ++ [u]) u (gaps before.getLast? (rest ++ [u])).sum).map Prod.fst = (labels tableHead).drop 3 := by
  rw [← List.append_assoc] at ho
  obtain ⟨lines, chem, h1, h2, -⟩ := outputs_last log c _ u outs ho
  obtain ⟨fs, h3, h4⟩ := hydro_row_mem log c _ u p lines h2 hd
  rw [List.append_assoc] at h3
  obtain ⟨t1, t2, t3, t4, t5, -⟩ := C109_totals log p before (rest ++ [u]) h
  have hb := since_bal log p before (rest ++ [u]) h hn
  refine ⟨lines, chem, fs, h1, h4, ?_, ?_⟩
  · rw [hc] at h3
    rw [table_cells _ _ _ _ h3]
    congr 1
    simp only [Row.table, perRow, tableOf, List.map_cons, List.map_nil, t2, hb]
  · have : (labels tableHead).drop 3 = (tableOf ([] : List Step)
        ⟨0, 0, 0, 0, 0, 0, 0, 0, 0, 0, 0, 0, 0, fun _ => 0, fun _ => 0, 0, 0, none⟩ 0).map Prod.fst := by decide +kernel
    rw [this]
    rfl

theorem quot_weighted (log) (p : Per) (before during : List Step) (h : Since p before during) (q : Quality) :
    let a := ((runAll log (before ++ during)).per p).2
    quot (a.prop q) (a.water (weight q)) = weighted (·.prop q) (·.water (weight q)) during := by
  intro a
  obtain ⟨-, -, -, -, -, -, -, -, -, -, w, q', -⟩ := C109_totals log p before during h
  show quot (((runAll log (before ++ during)).per p).2.prop q) _ = _
  rw [q', w]
  rfl

theorem chem_row_mem (log) (c : Cfg) (us : List Step) (u : Step) (x : ChemStep) (hx : u.chem = some x) (p : Per) (lines)
    (h : chemStep log c (runAll log us) u = some lines) (hd : ChemDue c u (some p)) :
    ∃ fs, chemLine c.printType c.iso u (some p) (perChem x ((runAll log (us ++ [u])).per p).2) = some fs ∧
      .row (some p) fs ∈ lines := by
  have hst : advance log (runAll log us) u = runAll log (us ++ [u]) := by simp [runAll]
  obtain ⟨d1, d2, d3, d4⟩ := hd
  unfold chemStep at h
  rw [d1, hx] at h
  simp only at h
  have hm : some p ∈ kinds c.sw (decode u.endper) u.timestep false := by
    rw [kinds_mem]
    cases p <;> simp [Due, Ends] at d3 d4 ⊢ <;> tauto
  obtain ⟨y, h2, h3⟩ := collect_mem _ _ _ h _ hm
  unfold chemLines at h2
  obtain ⟨fs, h4, rfl⟩ := Option.map_eq_some_iff.1 h2
  simp only [hst] at h4
  exact ⟨fs, h4, h3 _ (by simp)⟩

/-- C109, chemistry: at the end of a month, year or run for which rows are wanted, a row is written with the total volumes and moles
and the means weighted by volume over the steps of that period. -/
theorem C109_chem (log : Rat → Rat) (c : Cfg) (p : Per) (before rest : List Step) (u : Step) (x : ChemStep) (hx : u.chem = some x)
    (h : Since p before (rest ++ [u])) (hd : ChemDue c u (some p)) (outs)
    (ho : outputs log c State.init (before ++ (rest ++ [u])) = some outs) :
    ∃ lines chem fs, outs.getLast? = some (lines, chem) ∧ .row (some p) fs ∈ chem ∧
      fs.map (·.cell) = dateOf u (some p) ++
        if c.printType < 2 then outletOf c.iso (rest ++ [u]) else basinOf c.iso (rest ++ [u]) x := by
  rw [← List.append_assoc] at ho
  obtain ⟨lines, chem, h1, -, h2⟩ := outputs_last log c _ u outs ho
  obtain ⟨fs, h3, h4⟩ := chem_row_mem log c _ u x hx p chem h2 hd
  rw [List.append_assoc] at h3
  refine ⟨lines, chem, fs, h1, h4, ?_⟩
  obtain ⟨-, -, -, -, -, -, -, -, -, -, w, q', m⟩ := C109_totals log p before (rest ++ [u]) h
  have hq := quot_weighted log p before (rest ++ [u]) h
  generalize ((runAll log (before ++ (rest ++ [u]))).per p).2 = a at *
  unfold chemLine at h3
  by_cases hp : c.printType < 2
  · rw [if_pos hp] at h3 ⊢
    rw [layout_cells _ _ _ _ h3]
    simp only [chemDate, ChemRow.outlet, outletOf, perChem, hq]
    simp only [w, m, weight]
  · rw [if_neg hp] at h3 ⊢
    rw [layout_cells _ _ _ _ h3]
    simp only [chemDate, ChemRow.basin, ChemRow.input, basinOf, perChem, hq]
    simp only [w, m, weight]

/-- C109: a month, year or run without outflow has no mean temperature of the outflow (`0/0` is printed; for inputs it is `NA`). -/
theorem C109_no_outflow_violated (iso : List Bool) (us : List Step) (x : ChemStep) (h : total (ofChem (·.water .out)) us = 0)
    (hi : total (ofChem (·.water .inp)) us = 0) :
    (basinOf iso us x).take 4 = [.na, .undef, .na, .undef] := by
  simp [basinOf, weighted, h, hi]

/-! ### C111 -/

/-- C111: the parameter `print_freq` is a sum of 16 for steps, 8 for days, 4 for months, 2 for years and 1 for the run; with steps
of a day, rows of days are rows of steps. -/
theorem C111_switches (f : Int) (h0 : 0 ≤ f) (h1 : f ≤ 31) (dtinit : Rat) :
    let s := switches f dtinit
    (s.u = true ↔ f / 16 % 2 = 1 ∨ (f / 8 % 2 = 1 ∧ 24 ≤ dtinit)) ∧ (s.d = true ↔ f / 8 % 2 = 1) ∧ (s.m = true ↔ f / 4 % 2 = 1) ∧
      (s.y = true ↔ f / 2 % 2 = 1) ∧ (s.t = true ↔ f % 2 = 1) := by
  intro s
  have hs : s = switches f dtinit := rfl
  clear_value s
  subst hs
  unfold switches
  simp only [Bool.or_eq_true, Bool.and_eq_true, decide_eq_true_eq, ge_iff_le]
  refine ⟨?_, ?_, ?_, ?_, ?_⟩
  · apply or_congr
    · constructor <;> intro h <;> omega
    · apply and_congr_left
      intro _
      constructor <;> intro h <;> split_ifs at * <;> omega
  all_goals constructor <;> intro h <;> split_ifs at * <;> omega

theorem hydro_rows (log) (c : Cfg) (st : State) (u : Step) (lines) (h : hydroStep log c st u = some lines) :
    rowsOf lines = kinds c.sw (decode u.endper) u.timestep true := by
  unfold hydroStep at h
  obtain ⟨l, h1, rfl⟩ := Option.map_eq_some_iff.1 h
  have h2 := collect_filterMap _ Line.kind? (fun k => [k]) (by
    intro k x hx
    unfold hydroLines at hx
    split at hx
    · obtain ⟨fs, -, rfl⟩ := Option.map_eq_some_iff.1 hx
      rfl
    · rename_i p
      obtain ⟨fs, -, rfl⟩ := Option.map_eq_some_iff.1 hx
      cases ruled c.sw p <;> cases c.objfunc <;> rfl) _ _ h1
  unfold rowsOf
  rw [List.filterMap_append, h2]
  cases headed c (decode u.endper) <;> simp [Line.kind?]

theorem chem_rows (log) (c : Cfg) (st : State) (u : Step) (lines) (h : chemStep log c st u = some lines) :
    rowsOf lines = if c.chem = true ∧ u.chem.isSome = true then kinds c.sw (decode u.endper) u.timestep false else [] := by
  unfold chemStep at h
  split at h
  · rename_i x h1 h2
    rw [if_pos ⟨h1, by rw [h2]; rfl⟩]
    have h3 := collect_filterMap _ Line.kind? (fun k => [k]) (by
      intro k x hx
      unfold chemLines at hx
      obtain ⟨fs, -, rfl⟩ := Option.map_eq_some_iff.1 hx
      have ha : (chemAfter c.sw (decode u.endper) k).filterMap Line.kind? = [] := by
        unfold chemAfter
        split
        · split_ifs <;> rfl
        · split_ifs <;> rfl
        · rfl
      rw [List.filterMap_append, List.filterMap_append, ha]
      split_ifs <;> rfl) _ _ h
    unfold rowsOf
    rw [h3]
    simp
  · rename_i h1
    simp only [Option.some.injEq] at h
    subst h
    rw [if_neg]
    · rfl
    · rintro ⟨h2, h3⟩
      obtain ⟨x, hx⟩ := Option.isSome_iff_exists.1 h3
      exact h1 x h2 hx

theorem kinds_nodup (s : Switches) (f : Flags) (ts : Rat) (b : Bool) : (kinds s f ts b).Nodup := by
  unfold kinds
  split_ifs <;> decide

theorem due_mem (c : Cfg) (u : Step) (k : Kind) : k ∈ kinds c.sw (decode u.endper) u.timestep true ↔ Due c u k := by
  rw [kinds_mem]
  rcases k with _ | _ | _ | _ | _ | _ <;> simp [Due, Ends] <;> tauto

theorem headed_iff (c : Cfg) (u : Step) : headed c (decode u.endper) = true ↔ HeadingDue c u := by
  unfold headed HeadingDue headerPrt Ends
  by_cases hd : c.dtinit < 24 <;> cases c.sw.u <;> cases c.sw.d <;> cases c.sw.m <;> cases c.sw.y <;> simp [hd]

/-- C111: with `print_type` 1 or 2 the program writes, for every step, one row of each kind that is due and no other; chemistry
likewise, without rows of days; the heading is repeated when due. -/
theorem C111_rows (log : Rat → Rat) (c : Cfg) (hc : c.printType = 1 ∨ c.printType = 2) (us : List Step) (st : State) :
    ∃ outs, outputs log c st us = some outs ∧
      List.Forall₂ (fun u (o : List Line × List Line) =>
        (rowsOf o.1).Nodup ∧ (∀ k, k ∈ rowsOf o.1 ↔ Due c u k) ∧ (rowsOf o.2).Nodup ∧ (∀ k, k ∈ rowsOf o.2 ↔ ChemDue c u k) ∧
          (Line.heading ∈ o.1 ↔ HeadingDue c u)) us outs := by
  induction us generalizing st with
  | nil => exact ⟨[], rfl, .nil⟩
  | cons u us ih =>
    obtain ⟨r, h1, h2⟩ := ih (advance log st u)
    have hh : (hydroStep log c st u).isSome = true := by
      unfold hydroStep
      simp only [Option.isSome_map]
      apply collect_some
      intro k _
      cases k with
      | none =>
        simp only [hydroLines, Option.isSome_map]
        rcases hc with hc | hc <;> rw [hc]
        · exact table_some _ _ _
        · exact detail_some _ _ _
      | some p =>
        simp only [hydroLines, Option.isSome_map]
        rcases hc with hc | hc <;> rw [hc]
        · exact table_some _ _ _
        · exact detail_some _ _ _
    have hch : (chemStep log c st u).isSome = true := by
      unfold chemStep
      split
      · rename_i x _ _
        apply collect_some
        intro k _
        simp only [chemLines, Option.isSome_map]
        have hr : (chemRowOf x (fun p => ((advance log st u).per p).2) k).Reals := by
          cases k
          · exact unit_reals x
          · exact per_reals _ _
        by_cases hp : c.printType < 2
        · obtain ⟨d, fs, h, -⟩ := outlet_line c.printType hp c.iso u k _ hr
          rw [h]; rfl
        · obtain ⟨d, fs, h, -⟩ := basin_line c.printType hp c.iso u k _ hr
          rw [h]; rfl
      · rfl
    obtain ⟨a, ha⟩ := Option.isSome_iff_exists.1 hh
    obtain ⟨b, hb⟩ := Option.isSome_iff_exists.1 hch
    refine ⟨(a, b) :: r, by rw [outputs, ha, hb, h1], .cons ⟨?_, ?_, ?_, ?_, ?_⟩ h2⟩
    · rw [hydro_rows _ _ _ _ _ ha]; exact kinds_nodup _ _ _ _
    · intro k
      rw [hydro_rows _ _ _ _ _ ha]
      exact due_mem c u k
    · rw [chem_rows _ _ _ _ _ hb]
      split_ifs
      · exact kinds_nodup _ _ _ _
      · exact List.nodup_nil
    · intro k
      rw [chem_rows _ _ _ _ _ hb]
      unfold ChemDue
      split_ifs with hx
      · rw [← due_mem, kinds_mem, kinds_mem]
        rcases k with _ | _ | _ | _ | _ | _ <;> simp [hx]
      · constructor
        · intro h; simp at h
        · rintro ⟨h1, h2, -⟩; exact absurd ⟨h1, h2⟩ hx
    · rw [← headed_iff]
      unfold hydroStep at ha
      obtain ⟨l, h3, rfl⟩ := Option.map_eq_some_iff.1 ha
      have hno : Line.heading ∉ l := by
        have h4 := collect_filterMap _ (fun | Line.heading => some () | _ => none) (fun _ => []) (by
          intro k x hx
          unfold hydroLines at hx
          split at hx
          · obtain ⟨fs, -, rfl⟩ := Option.map_eq_some_iff.1 hx
            rfl
          · rename_i p
            obtain ⟨fs, -, rfl⟩ := Option.map_eq_some_iff.1 hx
            cases ruled c.sw p <;> cases c.objfunc <;> rfl) _ _ h3
        intro hm
        have : () ∈ l.filterMap (fun | Line.heading => some () | _ => none) := List.mem_filterMap.2 ⟨_, hm, rfl⟩
        rw [h4] at this
        simp at this
      cases headed c (decode u.endper) <;> simp [hno]

/-- C111: when days are wanted and `dtinit` is the time step, every day ends with one row for it: that of its last step, when steps
last a day, or that of the day. -/
theorem C111_daily (c : Cfg) (f : Int) (h0 : 0 ≤ f) (h1 : f ≤ 31) (hf : f / 8 % 2 = 1) (hs : c.sw = switches f c.dtinit) (u : Step)
    (ht : u.timestep = c.dtinit) (he : Ends u .day) :
    if 24 ≤ u.timestep then Due c u none ∧ ¬ Due c u (some .day) else Due c u (some .day) := by
  obtain ⟨s1, s2, -⟩ := C111_switches f h0 h1 c.dtinit
  rw [← hs] at s1 s2
  split_ifs with h
  · refine ⟨s1.2 (Or.inr ⟨hf, ht ▸ h⟩), ?_⟩
    rintro ⟨-, -, h2⟩
    linarith
  · exact ⟨s2.2 hf, he, lt_of_not_ge h⟩

/-- C111: with a step of a day after a day, what the row of the step says is what a row of the day would say. -/
theorem C111_day_step (log : Rat → Rat) (us : List Step) (u : Step) (h : ∀ v ∈ us.getLast?, Ends v .day) (hx : -999 < u.tmax)
    (hm : u.tmin < 999) :
    perRow u ((runAll log (us ++ [u])).per .day).2 = unitRow u (balance (runAll log us) u) := by
  have h' : Since .day us [u] := ⟨by simp, h, by simp⟩
  rw [since_per log .day us [u] h']
  simp only [errs, addAll, List.zip_cons_cons, List.zip_nil_left, perRow, unitRow, Acc.mean, Acc.add, Acc.zero]
  simp [hx, hm]

/-- C111: when `dtinit` is less than a day but steps last a day, days are wanted and none is written. -/
theorem C111_dtinit_violated (c : Cfg) (f : Int) (h0 : 0 ≤ f) (h1 : f ≤ 15) (hs : c.sw = switches f c.dtinit) (hd : c.dtinit < 24)
    (u : Step) (ht : 24 ≤ u.timestep) : ¬ Due c u none ∧ ¬ Due c u (some .day) := by
  obtain ⟨s1, -⟩ := C111_switches f h0 (by omega) c.dtinit
  rw [← hs] at s1
  constructor
  · intro h
    rcases s1.1 h with h | ⟨-, h⟩
    · omega
    · linarith
  · rintro ⟨-, -, h⟩
    linarith

/-- C111: the chemistry of days is never written. -/
theorem C111_chem_daily_violated (log : Rat → Rat) (c : Cfg) (st : State) (u : Step) (lines)
    (h : chemStep log c st u = some lines) : some .day ∉ rowsOf lines := by
  rw [chem_rows log c st u lines h]
  split_ifs
  · rw [kinds_mem]; simp
  · simp

/-! ### C112 -/

/-- C112: with `print_type` 0 ("observed and predicted flow only") the items of rows do not agree with their format, except in that
of the run: years are written as real numbers. -/
theorem C112_flow_violated (u : Step) (k : Kind) (r : Row) : hydroRow 0 u k r = none ↔ k ≠ some .run := by
  rcases k with _ | _ | _ | _ | _ | _ <;> simp [hydroRow, flowFormat, dateOf, layout, fits, Row.flow]

/-- C112: the head of `hydro.out` with explanation (the default) writes the seconds, a real number, as an integer. -/
theorem C112_explanation_violated (mo dy yr hr min : Int) (sec : Rat) :
    runTime true mo dy yr hr min sec = none ∧ (runTime false mo dy yr hr min sec).isSome = true := ⟨rfl, rfl⟩

/-- The columns of the rule of the detailed table, after those of the date. -/
def detailColumns : List (Nat × Nat) :=
  [(20, 24), (25, 29), (30, 34), (36, 42), (43, 49)] ++ (List.range 49).map fun k => (50 + 10 * k, 59 + 10 * k)

/-- The columns of the items of the detailed table, after those of the date. -/
def detailPlaces : List (Nat × Nat) :=
  [(20, 24), (25, 29), (30, 34), (35, 42), (42, 49)] ++ (List.range 49).map fun k => (50 + 10 * k, 59 + 10 * k)

theorem detail_rule : (columns detailRule).drop 6 = detailColumns := by decide +kernel

theorem detail_unit : (places 0 (detailFormat none)).length = 60 ∧ (places 0 (detailFormat none)).drop 6 = detailPlaces := by
  decide +kernel

theorem detail_day : (places 0 (detailFormat (some .day))).length = 57 ∧
    (places 0 (detailFormat (some .day))).drop 3 = detailPlaces := by decide +kernel

theorem detail_month : (places 0 (detailFormat (some .month))).length = 56 ∧
    (places 0 (detailFormat (some .month))).drop 2 = detailPlaces := by decide +kernel

theorem detail_year : (places 0 (detailFormat (some .year))).length = 55 ∧
    (places 0 (detailFormat (some .year))).drop 1 = detailPlaces := by decide +kernel

theorem detail_run : (places 0 (detailFormat (some .run))).length = 54 ∧
    (places 0 (detailFormat (some .run))).drop 0 = detailPlaces := by decide +kernel

theorem detail_places (u : Step) (k : Kind) :
    (places 0 (detailFormat k)).length = (dateOf u k).length + 54 ∧
      (places 0 (detailFormat k)).drop (dateOf u k).length = detailPlaces := by
  rcases k with _ | _ | _ | _ | _ | _
  · exact detail_unit
  · exact detail_day
  · exact detail_day
  · exact detail_month
  · exact detail_year
  · exact detail_run

theorem detail_over : (((columns detailHead).drop 3).zip detailColumns).all
      (fun x => decide (x.2.1 ≤ x.1.1) && decide (x.1.2 ≤ x.2.2)) = true ∧
    ((columns detailHead).drop 3).length = detailColumns.length := by decide +kernel

theorem detail_near : (detailPlaces.zip detailColumns).all
      (fun x => decide (x.1.1 ≤ x.2.1) && decide (x.2.1 ≤ x.1.1 + 1)) = true ∧ detailPlaces.length = detailColumns.length ∧
    detailPlaces.map Prod.snd = detailColumns.map Prod.snd := by decide +kernel

theorem forall₂_of_zip {α β} (R : α → β → Prop) (a : List α) (b : List β) (hl : a.length = b.length)
    (h : ∀ x ∈ a.zip b, R x.1 x.2) : List.Forall₂ R a b := by
  induction a generalizing b with
  | nil =>
    cases b with
    | nil => exact .nil
    | cons y b => simp at hl
  | cons x a ih =>
    cases b with
    | nil => simp at hl
    | cons y b =>
      exact .cons (h (x, y) (by simp)) (ih b (by simpa using hl) (fun z hz => h z (by simp [hz])))

/-- C112, detailed table: every item of every row ends in the last column of its part of the rule, begins at its first column or
one before, and has its label above it. -/
theorem C112_detail (u : Step) (k : Kind) (r : Row) :
    (∃ fs, hydroRow 2 u k r = some fs ∧
      (fs.drop (dateOf u k).length).map (·.last) = ((columns detailRule).drop 6).map Prod.snd ∧
      List.Forall₂ (fun f (c : Nat × Nat) => f.first ≤ c.1 ∧ c.1 ≤ f.first + 1) (fs.drop (dateOf u k).length) ((columns detailRule).drop 6)) ∧
    List.Forall₂ Over ((columns detailHead).drop 3) ((columns detailRule).drop 6) := by
  rw [detail_rule]
  obtain ⟨p1, p2⟩ := detail_places u k
  obtain ⟨n1, n2, n3⟩ := detail_near
  obtain ⟨o1, o2⟩ := detail_over
  have hsome := detail_some u k r
  have hlen : r.detail.length = 54 := rfl
  have hrow : hydroRow 2 u k r = layout 0 (detailFormat k) (dateOf u k ++ r.detail) := by
    unfold hydroRow
    rw [if_neg (by decide), if_neg (by decide), if_pos rfl]
  obtain ⟨fs, hf⟩ := Option.isSome_iff_exists.1 hsome
  rw [hf] at hrow
  have hpl := layout_places _ _ _ _ hrow.symm (by rw [p1, List.length_append, hlen])
  generalize (columns detailHead).drop 3 = H at *
  generalize detailColumns = C at *
  generalize detailPlaces = P at *
  generalize places 0 (detailFormat k) = Q at *
  clear hrow hlen hsome
  rw [← hpl, ← List.map_drop] at p2
  refine ⟨⟨fs, hf, ?_, ?_⟩, ?_⟩
  · rw [← n3, ← p2, List.map_map]
    rfl
  · have : List.Forall₂ (fun (a : Nat × Nat) (c : Nat × Nat) => a.1 ≤ c.1 ∧ c.1 ≤ a.1 + 1) P C := by
      refine forall₂_of_zip _ _ _ n2 fun x hx => ?_
      simpa using List.all_eq_true.1 n1 x hx
    rw [← p2, List.forall₂_map_left_iff] at this
    exact this
  · refine forall₂_of_zip _ _ _ o2 fun x hx => ?_
    simpa [Over] using List.all_eq_true.1 o1 x hx

theorem init_labels :
    ((labels detailHead).zip (columns detailRule |>.drop 3)).filter
        (fun x => x.1 ∈ ["Basin_sto", "Intcp_sto", "SWE", "SoilMoist", "UZ_sto", "GW_sto", "Chan_sto"]) =
      [("Basin_sto", (50, 59)), ("Intcp_sto", (130, 139)), ("SWE", (210, 219)), ("SoilMoist", (290, 299)), ("UZ_sto", (300, 309)),
       ("GW_sto", (330, 339)), ("Chan_sto", (460, 469))] := by decide +kernel

theorem init_row (s : Store → Rat) : initRow s = some [⟨50, 59, .num (s .sto)⟩, ⟨130, 139, .num (s .intcpSto)⟩,
    ⟨210, 219, .num (s .pweqv)⟩, ⟨290, 299, .num (s .soilMoist)⟩, ⟨300, 309, .num (s .sssto)⟩, ⟨330, 339, .num (s .gwSto)⟩,
    ⟨460, 469, .num (s .chanSto)⟩] := by
  simp [initRow, initFormat, rep, layout, fits, Ed.width]

/-- C112: the initial storages stand in the columns of their labels. -/
theorem C112_initial (s : Store → Rat) :
    ∃ fs, initRow s = some fs ∧ (fs.map fun f => ((f.first, f.last), f.cell)) =
      [((50, 59), .num (s .sto)), ((130, 139), .num (s .intcpSto)), ((210, 219), .num (s .pweqv)), ((290, 299), .num (s .soilMoist)),
       ((300, 309), .num (s .sssto)), ((330, 339), .num (s .gwSto)), ((460, 469), .num (s .chanSto))] ∧
    ((labels detailHead).zip (columns detailRule |>.drop 3)).filter
        (fun x => x.1 ∈ ["Basin_sto", "Intcp_sto", "SWE", "SoilMoist", "UZ_sto", "GW_sto", "Chan_sto"]) =
      [("Basin_sto", (50, 59)), ("Intcp_sto", (130, 139)), ("SWE", (210, 219)), ("SoilMoist", (290, 299)), ("UZ_sto", (300, 309)),
       ("GW_sto", (330, 339)), ("Chan_sto", (460, 469))] :=
  ⟨_, init_row s, rfl, init_labels⟩

/-- C112, table of the water balance. -/
theorem C112_table (u : Step) (k : Kind) (r : Row) :
    (∃ fs, hydroRow 1 u k r = some fs ∧
      ((fs.drop (dateOf u k).length).map fun f => (f.first, f.last)) = (columns tableRule).drop 6) ∧
    List.Forall₂ Over ((columns tableHead).drop 3) ((columns tableRule).drop 6) := by
  have hp : ∃ n, (dateOf u k).length = n ∧ (places 0 (tableFormat k)).length = n + 10 ∧
      (places 0 (tableFormat k)).drop n = (columns tableRule).drop 6 := by
    rcases k with _ | _ | _ | _ | _ | _
    · exact ⟨6, rfl, by decide +kernel, by decide +kernel⟩
    · exact ⟨3, rfl, by decide +kernel, by decide +kernel⟩
    · exact ⟨3, rfl, by decide +kernel, by decide +kernel⟩
    · exact ⟨2, rfl, by decide +kernel, by decide +kernel⟩
    · exact ⟨1, rfl, by decide +kernel, by decide +kernel⟩
    · exact ⟨0, rfl, by decide +kernel, by decide +kernel⟩
  refine ⟨?_, ?_⟩
  · obtain ⟨n, h1, h2, h3⟩ := hp
    obtain ⟨fs, hf⟩ := Option.isSome_iff_exists.1 (table_some u k r)
    refine ⟨fs, hf, ?_⟩
    unfold hydroRow at hf
    rw [if_neg (by decide), if_pos rfl] at hf
    have hpl := layout_places _ _ _ _ hf (by rw [h2, List.length_append, h1]; rfl)
    rw [h1, List.map_drop, hpl, h3]
  · unfold Over
    decide +kernel

/-- C112: at the head of the file the rule of the table is one column to the left of the numbers. -/
theorem C112_table_head_violated : (columns tableRule0).drop 6 = ((columns tableRule).drop 6).map fun c => (c.1 - 1, c.2 - 1) := by
  decide +kernel

/-- C112, chemistry: the items of rows of months, years and the run, and with `print_type` 2 also those of steps, stand in the
columns of the rule, for any solutes. -/
theorem C112_chem_partial (pt : Int) (iso : List Bool) (u : Step) (k : Kind) (r : ChemRow) (hr : ∀ p, r.prop p ≠ .na ∧ ∀ i, r.prop p ≠ .int i)
    (h : k ≠ none ∨ 2 ≤ pt) :
    ∃ fs, chemLine pt iso u k r = some fs ∧
      ((fs.drop (chemDate u k).length).map fun f => (f.first, f.last)) = chemRule pt iso.length := by
  have hr' : r.Reals := by
    intro p
    cases hc : r.prop p with
    | int i => exact absurd hc ((hr p).2 i)
    | num x => exact num_real x
    | na => exact absurd hc (hr p).1
    | undef => exact Or.inl rfl
  by_cases hp : pt < 2
  · obtain ⟨d, fs, h1, h2, h3, -⟩ := outlet_line pt hp iso u k r hr'
    refine ⟨d ++ fs, h1, ?_⟩
    rw [← h2, List.drop_left, h3, spots_even, outletCols_len, chemRule, if_pos hp]
    intro c hc
    have hk : k.isSome = true := by
      cases k with
      | none => rcases h with h | h
                · exact absurd rfl h
                · omega
      | some p => rfl
    unfold outletCols at hc
    rcases List.mem_append.1 hc with hc | hc
    · rw [(List.mem_replicate.1 hc).2]; exact ⟨rfl, rfl⟩
    · obtain ⟨b, -, rfl⟩ := List.mem_map.1 hc
      simp [hk, Ed.width]
  · obtain ⟨d, fs, h1, h2, h3, -⟩ := basin_line pt hp iso u k r hr'
    refine ⟨d ++ fs, h1, ?_⟩
    rw [← h2, List.drop_left, h3, spots_even, basinCols_len, chemRule, if_neg hp]
    intro c hc
    unfold basinCols at hc
    have hw : ∀ b : Bool, (if b then Ed.a 16 else Ed.f 16).width = 16 := by intro b; cases b <;> rfl
    rcases List.mem_append.1 hc with hc | hc
    · rcases List.mem_append.1 hc with hc | hc
      · simp only [List.mem_cons, List.not_mem_nil, or_false] at hc
        rcases hc with rfl | rfl | rfl | rfl
        · exact ⟨rfl, hw _⟩
        · exact ⟨rfl, rfl⟩
        · exact ⟨rfl, hw _⟩
        · exact ⟨rfl, rfl⟩
      · rw [(List.mem_replicate.1 hc).2]; exact ⟨rfl, rfl⟩
    · obtain ⟨b, -, hc⟩ := List.mem_flatMap.1 hc
      simp only [List.mem_cons, List.not_mem_nil, or_false] at hc
      rcases hc with rfl | rfl | rfl | rfl
      · refine ⟨rfl, ?_⟩
        cases b
        · rfl
        · exact hw _
      all_goals exact ⟨rfl, rfl⟩

theorem spots_shift (cols : List (Nat × Ed)) (pos : Nat) (h : ∀ c ∈ cols, 2 ≤ c.1 ∧ c.2.width = 16) (hx : ∃ c ∈ cols, c.1 ≠ 2) :
    spots pos cols ≠ (List.range cols.length).map fun k => (pos + 18 * k + 2, pos + 18 * k + 18) := by
  induction cols generalizing pos with
  | nil => simp at hx
  | cons c cols ih =>
    obtain ⟨h1, h2⟩ := h c (by simp)
    rw [spots, h2, List.length_cons, List.range_succ_eq_map, List.map_cons, List.map_map]
    intro he
    have he1 := (List.cons.injEq .. ▸ he).1
    have he2 := (List.cons.injEq .. ▸ he).2
    simp only [Prod.mk.injEq] at he1
    have hc : c.1 = 2 := by omega
    rw [hc] at he2
    refine ih (pos + 2 + 16) (fun x hx => h x (by simp [hx])) ?_ ?_
    · obtain ⟨x, hx, hne⟩ := hx
      rcases List.mem_cons.1 hx with rfl | hx
      · exact absurd hc hne
      · exact ⟨x, hx, hne⟩
    · rw [he2]
      apply List.map_congr_left
      intro k _
      simp only [Function.comp, Nat.succ_eq_add_one, Prod.mk.injEq]
      omega

/-- C112: in rows of steps for the outlet, a solute that is not an isotope stands 54 columns to the right of its label, and so does
all that follows: no such row agrees with the rule. -/
theorem C112_outlet_violated (pt : Int) (hp : pt < 2) (iso : List Bool) (u : Step) (x : ChemStep) (h : false ∈ iso) :
    ∃ fs, chemLine pt iso u none (unitChem x) = some fs ∧
      ((fs.drop 3).map fun f => (f.first, f.last)) ≠ chemRule pt iso.length := by
  obtain ⟨d, fs, h1, h2, h3, -⟩ := outlet_line pt hp iso u none _ (unit_reals x)
  refine ⟨d ++ fs, h1, ?_⟩
  have h4 : (chemDate u none).length = 3 := rfl
  rw [h4] at h2
  rw [← h2, List.drop_left, h3, chemRule, if_pos hp, ← outletCols_len iso none]
  apply spots_shift
  · intro c hc
    unfold outletCols at hc
    rcases List.mem_append.1 hc with hc | hc
    · rw [(List.mem_replicate.1 hc).2]; exact ⟨le_refl _, rfl⟩
    · obtain ⟨b, -, rfl⟩ := List.mem_map.1 hc
      cases b <;> exact ⟨by decide, rfl⟩
  · refine ⟨(56, .f 16), ?_, by decide⟩
    unfold outletCols
    exact List.mem_append_right _ (List.mem_map.2 ⟨false, h, rfl⟩)

/-! ### Examples -/

/-- The chemistry of a step: 10 m³ enter with 1 mol of the first solute, 5 m³ leave. -/
def chem0 : ChemStep :=
  { water := fun w => match w with
      | .inp => 10 | .out => 5 | .outlet => 4 | .et => 2
    prop := fun _ => 7
    mass := fun _ => 1
    volFinal := 100
    permilFinal := fun _ => -5
    massFinal := fun _ => 3 }

/-- A step of 12 hours. -/
def step0 (n : Int) (endper : Int) (x : Rat) : Step :=
  { year := 2000, mo := 1, day := 30, hr := 12, min := 0, sec := 0, nstep := n, timestep := 12, endper := endper, orad := 100 * x
    tmax := x, tmin := -x, potet := 1, qsim := x, qobs := 2 * x, chem := some chem0
    depth := fun f => if f = .ppt then x else if f = .et then 1 / 2 else 0
    store := fun s => if s = .sto then x else 0 }

/-- The end of a day, and the two steps of the day after it, which is the last of a month. -/
def steps0 : List Step := [step0 1 2 3, step0 2 0 5]
def cfg0 (printType : Int) : Cfg := ⟨printType, switches 15 12, 12, true, true, [false, true]⟩

theorem since0 : Since .day [step0 1 2 3] [step0 2 0 5, step0 3 6 4] := by
  refine ⟨by simp, ?_, ?_⟩
  · intro u hu
    simp only [List.getLast?_singleton, Option.mem_def, Option.some.injEq] at hu
    subst hu
    show (decode 2).dy = true
    decide
  · intro u hu
    simp only [List.dropLast_cons_cons, List.dropLast_singleton, List.mem_cons, List.not_mem_nil, or_false] at hu
    subst hu
    show ¬ (decode 0).dy = true
    decide

theorem sinceMonth0 : Since .month [] [step0 1 2 3, step0 2 0 5, step0 3 6 4] := by
  refine ⟨by simp, by simp, ?_⟩
  intro u hu
  simp only [List.dropLast_cons_cons, List.dropLast_singleton, List.mem_cons, List.not_mem_nil, or_false] at hu
  rcases hu with rfl | rfl
  · show ¬ (decode 2).mo = true
    decide
  · show ¬ (decode 0).mo = true
    decide

theorem numbered0 : Numbered [step0 1 2 3, step0 2 0 5, step0 3 6 4] := by
  intro k u hk
  match k, hk with
  | 0, hk => simp only [List.getElem?_cons_zero, Option.some.injEq] at hk; subst hk; rfl
  | 1, hk => simp only [List.getElem?_cons_succ, List.getElem?_cons_zero, Option.some.injEq] at hk; subst hk; rfl
  | 2, hk => simp only [List.getElem?_cons_succ, List.getElem?_cons_zero, Option.some.injEq] at hk; subst hk; rfl
  | k + 3, hk => simp at hk

/-- C109: the sums of the second day leave out the step of the first. -/
example : ((runAll (fun x => x) ([step0 1 2 3] ++ [step0 2 0 5, step0 3 6 4])).per .day).2.flux .ppt = 9 := by
  rw [(C109_totals (fun x => x) .day _ _ since0).2.1]
  decide +kernel

/-- C109: the extremes are those of the second day. -/
example : Greatest (·.tmax) [step0 2 0 5, step0 3 6 4] ((runAll (fun x => x) ([step0 1 2 3] ++ [step0 2 0 5, step0 3 6 4])).per .day).2.tmax :=
  (C109_extremes (fun x => x) .day _ _ since0).1 ⟨step0 2 0 5, by simp, by decide +kernel⟩

/-- C109, C111: the rows of the second day and of the month are written; the hypotheses of the theorems are met. -/
example : ∃ outs, outputs (fun x => x) (cfg0 2) State.init ([step0 1 2 3] ++ ([step0 2 0 5] ++ [step0 3 6 4])) = some outs ∧
    (∃ lines chem fs tmax tmin, outs.getLast? = some (lines, chem) ∧ .row (some .day) fs ∈ lines ∧
      Greatest (·.tmax) [step0 2 0 5, step0 3 6 4] tmax ∧ Least (·.tmin) [step0 2 0 5, step0 3 6 4] tmin ∧
      fs.map (·.cell) = dateOf (step0 3 6 4) (some .day) ++
        (detailOf [step0 2 0 5, step0 3 6 4] (step0 3 6 4) tmax tmin
          (gaps (some (step0 1 2 3)) [step0 2 0 5, step0 3 6 4]).sum).map Prod.snd) ∧
    gaps (some (step0 1 2 3)) [step0 2 0 5, step0 3 6 4] = [5 / 2, 9 / 2] := by
  obtain ⟨outs, ho, -⟩ := C111_rows (fun x => x) (cfg0 2) (Or.inr rfl) ([step0 1 2 3] ++ ([step0 2 0 5] ++ [step0 3 6 4])) State.init
  obtain ⟨lines, chem, fs, tmax, tmin, h1, h2, h3, h4, h5, -⟩ := C109_detail (fun x => x) (cfg0 2) rfl .day [step0 1 2 3] [step0 2 0 5]
    (step0 3 6 4) since0 numbered0 (by unfold Due Ends; decide +kernel) outs ho ⟨step0 2 0 5, by simp, by decide +kernel⟩
    ⟨step0 2 0 5, by simp, by decide +kernel⟩
  exact ⟨outs, ho, ⟨lines, chem, fs, tmax, tmin, h1, h2, h3, h4, h5⟩, by decide +kernel⟩

/-- C109, short table and chemistry: the month. -/
example : ∃ outs, outputs (fun x => x) (cfg0 1) State.init ([] ++ (steps0 ++ [step0 3 6 4])) = some outs ∧
    (∃ lines chem fs, outs.getLast? = some (lines, chem) ∧ .row (some .month) fs ∈ lines) ∧
    (∃ lines chem fs, outs.getLast? = some (lines, chem) ∧ .row (some .month) fs ∈ chem ∧
      total (ofChem (·.water .outlet)) (steps0 ++ [step0 3 6 4]) = 12) := by
  obtain ⟨outs, ho, -⟩ := C111_rows (fun x => x) (cfg0 1) (Or.inl rfl) ([] ++ (steps0 ++ [step0 3 6 4])) State.init
  have hd : Due (cfg0 1) (step0 3 6 4) (some .month) := by unfold Due Ends; decide +kernel
  obtain ⟨lines, chem, fs, h1, h2, -⟩ := C109_table (fun x => x) (cfg0 1) rfl .month [] steps0 (step0 3 6 4) sinceMonth0 numbered0 hd outs ho
  obtain ⟨lines', chem', fs', h1', h2', -⟩ := C109_chem (fun x => x) (cfg0 1) .month [] steps0 (step0 3 6 4) chem0 rfl sinceMonth0
    ⟨rfl, rfl, by simp, hd⟩ outs ho
  exact ⟨outs, ho, ⟨lines, chem, fs, h1, h2⟩, lines', chem', fs', h1', h2', by decide +kernel⟩

/-- C109: a step without flow. -/
example : (basinOf [false] [{ step0 1 0 1 with chem := some { chem0 with water := fun _ => 0 } }] chem0).take 4 = [.na, .undef, .na, .undef] :=
  C109_no_outflow_violated _ _ _ (by decide +kernel) (by decide +kernel)

/-- C111: a daily row for steps of half a day, none of its own for steps of a day. -/
example : Due (cfg0 1) (step0 2 2 1) (some .day) ∧
    Due { cfg0 1 with sw := switches 15 24, dtinit := 24 } { step0 2 2 1 with timestep := 24 } none := by
  have h1 := C111_daily (cfg0 1) 15 (by decide) (by decide) (by decide) rfl (step0 2 2 1) rfl (by unfold Ends; decide +kernel)
  have h2 := C111_daily { cfg0 1 with sw := switches 15 24, dtinit := 24 } 15 (by decide) (by decide) (by decide) rfl
    { step0 2 2 1 with timestep := 24 } rfl (by unfold Ends; decide +kernel)
  rw [if_neg (by decide +kernel)] at h1
  rw [if_pos (by decide +kernel)] at h2
  exact ⟨h1, h2.1⟩

/-- C111: a day of one step. -/
example : perRow (step0 2 2 4) ((runAll (fun x => x) ([step0 1 2 3] ++ [step0 2 2 4])).per .day).2 =
    unitRow (step0 2 2 4) (balance (runAll (fun x => x) [step0 1 2 3]) (step0 2 2 4)) :=
  C111_day_step _ _ _ (by
    intro v hv
    simp only [List.getLast?_singleton, Option.mem_def, Option.some.injEq] at hv
    subst hv
    show (decode 2).dy = true
    decide) (by decide +kernel) (by decide +kernel)

/-- C111: days asked for, but steps of a day with `dtinit` 12. -/
example : ¬ Due (cfg0 1) { step0 2 2 1 with timestep := 24 } none ∧ ¬ Due (cfg0 1) { step0 2 2 1 with timestep := 24 } (some .day) :=
  C111_dtinit_violated (cfg0 1) 15 (by decide) (by decide) rfl (by decide +kernel) _ (by decide +kernel)

/-- C112: a row of a month in the file of the basin, and a row of a step in the file of the outlet. -/
example : (∃ fs, chemLine 2 [false, true] (step0 2 2 1) (some .month) (unitChem chem0) = some fs ∧
      ((fs.drop (chemDate (step0 2 2 1) (some .month)).length).map fun f => (f.first, f.last)) = chemRule 2 2) ∧
    ∃ fs, chemLine 1 [false, true] (step0 2 2 1) none (unitChem chem0) = some fs ∧
      ((fs.drop 3).map fun f => (f.first, f.last)) ≠ chemRule 1 2 :=
  ⟨C112_chem_partial 2 [false, true] _ _ _ (fun p => by simp [unitChem]) (Or.inl (by simp)),
    C112_outlet_violated 1 (by decide) [false, true] _ chem0 (by simp)⟩

end Verif.Summary
