import Verif.Props.Summary
/-
C109, continued: rows of single steps, and the objective functions.
-/
namespace Verif.Summary
open Verif.EndPer

theorem hydro_unit_mem (log) (c : Cfg) (us : List Step) (u : Step) (lines) (h : hydroStep log c (runAll log us) u = some lines)
    (hd : Due c u none) :
    ∃ fs, hydroRow c.printType u none (unitRow u (balance (runAll log us) u)) = some fs ∧ .row none fs ∈ lines := by
  unfold hydroStep at h
  obtain ⟨l, h1, rfl⟩ := Option.map_eq_some_iff.1 h
  have hm : none ∈ kinds c.sw (decode u.endper) u.timestep true := (due_mem c u none).2 hd
  obtain ⟨x, h2, h3⟩ := collect_mem _ _ _ h1 _ hm
  unfold hydroLines at h2
  obtain ⟨fs, h4, rfl⟩ := Option.map_eq_some_iff.1 h2
  exact ⟨fs, h4, List.mem_append_left _ (h3 _ (by simp))⟩

theorem unit_bal (log : Rat → Rat) (before : List Step) (u : Step) (hn : Numbered (before ++ [u])) :
    balance (runAll log before) u = (gaps before.getLast? [u]).sum := by
  rw [← errs_run log before [u] hn]
  simp [errs]

theorem total_one (f : Step → Rat) (u : Step) : total f [u] = f u := by simp [total]

theorem average_one (f : Step → Rat) (u : Step) : average f [u] = f u := by simp [average, total]

/-- C109, rows of steps: the detailed table and the short one say, under their labels, the values of the step. -/
theorem C109_step (log : Rat → Rat) (c : Cfg) (before : List Step) (u : Step) (hn : Numbered (before ++ [u])) (hd : Due c u none) (outs)
    (ho : outputs log c State.init (before ++ [u]) = some outs) :
    ∃ lines chem fs, outs.getLast? = some (lines, chem) ∧ .row none fs ∈ lines ∧
      (c.printType = 2 → fs.map (·.cell) = dateOf u none ++
        (detailOf [u] u u.tmax u.tmin (gaps before.getLast? [u]).sum).map Prod.snd) ∧
      (c.printType = 1 → fs.map (·.cell) = dateOf u none ++ (tableOf [u] u (gaps before.getLast? [u]).sum).map Prod.snd) := by
  obtain ⟨lines, chem, h1, h2, -⟩ := outputs_last log c _ u outs ho
  obtain ⟨fs, h3, h4⟩ := hydro_unit_mem log c _ u lines h2 hd
  have hb := unit_bal log before u hn
  refine ⟨lines, chem, fs, h1, h4, fun hc => ?_, fun hc => ?_⟩
  · rw [hc] at h3
    rw [detail_cells _ _ _ _ h3]
    congr 1
    simp only [Row.detail, unitRow, detailOf, List.map_cons, List.map_nil, total_one, average_one, hb]
  · rw [hc] at h3
    rw [table_cells _ _ _ _ h3]
    congr 1
    simp only [Row.table, unitRow, tableOf, List.map_cons, List.map_nil, total_one, hb]

/-- What `chem.out` says about the outlet in a step. -/
def outletNow (iso : List Bool) (x : ChemStep) : List Cell :=
  [.num (x.water .outlet), .num (x.prop .outletTemp), .num (x.prop .outletPh)] ++
    iso.zipIdx.map fun s => if s.1 then .num (x.prop (.outletPermil s.2)) else .num (x.mass (.outlet s.2))

/-- What `chem.out` says about the basin in a step. -/
def basinNow (iso : List Bool) (x : ChemStep) : List Cell :=
  let inp (p : Quality) : Cell := if x.water .inp = 0 then .na else .num (x.prop p)
  [inp .inTemp, .num (x.prop .outTemp), inp .inPh, .num (x.prop .outPh), .num (x.water .inp), .num (x.water .out), .num (x.water .et),
    .num x.volFinal] ++
    iso.zipIdx.flatMap fun s =>
      if s.1 then [inp (.inPermil s.2), .num (x.prop (.outPermil s.2)), .num (x.prop (.etPermil s.2)), .num (x.permilFinal s.2)]
      else [.num (x.mass (.inp s.2)), .num (x.mass (.out s.2)), .num (x.mass (.rxn s.2)), .num (x.massFinal s.2)]

/-- C109, rows of steps of the chemistry. -/
theorem C109_step_chem (log : Rat → Rat) (c : Cfg) (before : List Step) (u : Step) (x : ChemStep) (hx : u.chem = some x)
    (hd : ChemDue c u none) (outs) (ho : outputs log c State.init (before ++ [u]) = some outs) :
    ∃ lines chem fs, outs.getLast? = some (lines, chem) ∧ .row none fs ∈ chem ∧
      fs.map (·.cell) = [.int u.year, .int u.mo, .int u.day] ++ if c.printType < 2 then outletNow c.iso x else basinNow c.iso x := by
  obtain ⟨lines, chem, h1, -, h2⟩ := outputs_last log c _ u outs ho
  obtain ⟨d1, d2, d3, d4⟩ := hd
  unfold chemStep at h2
  rw [d1, hx] at h2
  simp only at h2
  have hm : none ∈ kinds c.sw (decode u.endper) u.timestep false := by
    rw [kinds_mem]
    simpa [Due] using d4
  obtain ⟨y, h3, h4⟩ := collect_mem _ _ _ h2 _ hm
  unfold chemLines at h3
  obtain ⟨fs, h5, rfl⟩ := Option.map_eq_some_iff.1 h3
  refine ⟨lines, chem, fs, h1, h4 _ (by simp), ?_⟩
  unfold chemLine at h5
  by_cases hp : c.printType < 2
  · rw [if_pos hp] at h5 ⊢
    rw [layout_cells _ _ _ _ h5]
    rfl
  · rw [if_neg hp] at h5 ⊢
    rw [layout_cells _ _ _ _ h5]
    rfl

/-- C109, objective functions: with the row of a period those of its steps are written, if wanted. -/
theorem C109_objective (log : Rat → Rat) (c : Cfg) (hc : c.objfunc = true) (p : Per) (before rest : List Step) (u : Step)
    (h : Since p before (rest ++ [u])) (hd : Due c u (some p)) (outs)
    (ho : outputs log c State.init (before ++ (rest ++ [u])) = some outs) :
    ∃ lines chem x, outs.getLast? = some (lines, chem) ∧ .objective p x ∈ lines ∧
      x .abs = total (fun u => |u.qobs - u.qsim|) (rest ++ [u]) ∧
      x .sq = total (fun u => (u.qobs - u.qsim) ^ 2) (rest ++ [u]) ∧
      x .absLog = total (fun u => |log (u.qobs + 1) - log (u.qsim + 1)|) (rest ++ [u]) ∧
      x .sqLog = total (fun u => (log (u.qobs + 1) - log (u.qsim + 1)) ^ 2) (rest ++ [u]) ∧
      x .diff = total (fun u => u.qobs - u.qsim) (rest ++ [u]) := by
  rw [← List.append_assoc] at ho
  obtain ⟨lines, chem, h1, h2, -⟩ := outputs_last log c _ u outs ho
  obtain ⟨-, -, -, -, -, o1, o2, o3, o4, o5, -⟩ := C109_totals log p before (rest ++ [u]) h
  have hst : advance log (runAll log (before ++ rest)) u = runAll log (before ++ (rest ++ [u])) := by
    rw [← List.append_assoc]
    simp [runAll]
  unfold hydroStep at h2
  obtain ⟨l, h3, rfl⟩ := Option.map_eq_some_iff.1 h2
  obtain ⟨x, h4, h5⟩ := collect_mem _ _ _ h3 _ ((due_mem c u (some p)).2 hd)
  unfold hydroLines at h4
  obtain ⟨fs, h6, rfl⟩ := Option.map_eq_some_iff.1 h4
  rw [hst] at h5
  exact ⟨_, chem, _, h1, List.mem_append_left _ (h5 (.objective p ((runAll log (before ++ (rest ++ [u]))).per p).2.obj) (by simp [hc])),
    o1, o2, o3, o4, o5⟩

/-- C109: rows of steps in both tables and in the chemistry, and the objective functions of the month. -/
example : ∃ outs, outputs (fun x => x) { cfg0 2 with sw := switches 31 12 } State.init (steps0 ++ [step0 3 6 4]) = some outs ∧
    (∃ lines chem fs, outs.getLast? = some (lines, chem) ∧ .row none fs ∈ lines ∧
      fs.map (·.cell) = dateOf (step0 3 6 4) none ++ (detailOf [step0 3 6 4] (step0 3 6 4) 4 (-4) (9 / 2)).map Prod.snd) ∧
    (∃ lines chem fs, outs.getLast? = some (lines, chem) ∧ .row none fs ∈ chem) ∧
    ∃ lines chem x, outs.getLast? = some (lines, chem) ∧ .objective .month x ∈ lines ∧ x .sq = 50 := by
  obtain ⟨outs, ho, -⟩ := C111_rows (fun x => x) { cfg0 2 with sw := switches 31 12 } (Or.inr rfl) (steps0 ++ [step0 3 6 4]) State.init
  obtain ⟨lines, chem, fs, h1, h2, h3, -⟩ := C109_step (fun x => x) { cfg0 2 with sw := switches 31 12 } steps0 (step0 3 6 4) numbered0
    (by unfold Due; decide +kernel) outs ho
  obtain ⟨lines', chem', fs', h1', h2', -⟩ := C109_step_chem (fun x => x) { cfg0 2 with sw := switches 31 12 } steps0 (step0 3 6 4) chem0
    rfl ⟨rfl, rfl, by simp, by unfold Due; decide +kernel⟩ outs ho
  obtain ⟨lines'', chem'', x, h1'', h2'', -, o, -⟩ := C109_objective (fun x => x) { cfg0 2 with sw := switches 31 12 } rfl .month [] steps0
    (step0 3 6 4) sinceMonth0 (by unfold Due Ends; decide +kernel) outs ho
  have hg : (gaps steps0.getLast? [step0 3 6 4]).sum = 9 / 2 := by decide +kernel
  rw [hg] at h3
  exact ⟨outs, ho, ⟨lines, chem, fs, h1, h2, h3 rfl⟩, ⟨lines', chem', fs', h1', h2'⟩, lines'', chem'', x, h1'', h2'', by
    rw [o]; decide +kernel⟩

end Verif.Summary
