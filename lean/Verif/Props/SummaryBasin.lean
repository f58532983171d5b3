import Verif.Spec.SummaryBasin
import Verif.Props.Basin
/-
C110: the water balance of the tables.
-/
namespace Verif.Summary
open Verif.Reservoir (Basin Par In St StreamIn Out webrrun runSteps depth)

/-- One step: what the tables call the error of the water balance is what is taken from the streams less what of it is spread
on the units. -/
theorem C110_step (b : Basin) (n : Nat) (hb : b.Ok n) (ps : List Par) (hps : ∀ p ∈ ps, p.Ok) (st : St) (is : List In) (si : StreamIn)
    (st' : St) (o : Out) (hu : st.units.length = ps.length) (hn : st.stream.length = n) (hf : Fit b ps st [(is, si)])
    (h : webrrun b ps st is si = some (st', o)) (v u : Step) (hv : Holds b st v) (hs : Shows u (reportOf b ps ((is, si), st', o))) :
    Holds b st' u ∧ gap v u = u.flux .chanDiv - u.flux .irrHyd ∧
      u.store .sto = v.store .sto + (u.flux .inp - u.flux .out - u.flux .et) ∧
      u.flux .inp - u.flux .out - u.flux .et = u.flux .ppt + u.flux .irrExt + u.flux .gw1 - u.flux .et - u.flux .gwLoss -
        u.flux .chanLoss - u.flux .qsim + (u.flux .gw2 + u.flux .irrHyd - u.flux .chanDiv) := by
  obtain ⟨r1, r2, r3, r4, -, -, -, r8, r9, -⟩ :=
    Reservoir.C107_report b n hb ps hps st is si st' o hu (hf.1 (is, si) (by simp)) hn hf.2.1 h
  have hw : (reportOf b ps ((is, si), st', o)).irrSat = (reportOf b ps ((is, si), st', o)).qwell := rfl
  have hr : Reservoir.report b (List.zip ps (List.zip is o.units)) o.basin = reportOf b ps ((is, si), st', o) := rfl
  rw [hr] at r1 r2 r3 r4 r8 r9
  generalize reportOf b ps ((is, si), st', o) = r at *
  obtain ⟨i1, i2, i3, i4, i5, i6, i7, i8, i9, i10, i11, i12, i13, i14, i15⟩ := hs
  obtain ⟨v1, v2⟩ := hv
  refine ⟨⟨i14.trans r1, i15.trans r8⟩, ?_, ?_, ?_⟩
  · unfold gap
    rw [v1, v2, i3, i4, i5, i6, i7, i8, i9, i10, i11, i12, i14, i15]
    linarith
  · rw [v1, i1, i2, i3, i14]
    linarith
  · rw [i1, i2, i3, i4, i5, i6, i7, i8, i9, i11, i12, i13]
    linarith

theorem run_after (b : Basin) (n : Nat) (hb : b.Ok n) (ps : List Par) (hps : ∀ p ∈ ps, p.Ok) (ins : List (List In × StreamIn)) (st : St)
    (rs : List (St × Out)) (hu : st.units.length = ps.length) (hn : st.stream.length = n) (hf : Fit b ps st ins)
    (h : runSteps b ps st ins = some rs) (us : List Step) (hs : ShowsAll b ps us ins rs) (v : Step) (hv : Holds b st v) :
    gaps (some v) us = us.map (fun u => u.flux .chanDiv - u.flux .irrHyd) ∧
      (us.getLastD v).store .sto = v.store .sto + total (fun u => u.flux .inp - u.flux .out - u.flux .et) us ∧
      total (fun u => u.flux .inp - u.flux .out - u.flux .et) us =
        total (fun u => u.flux .ppt + u.flux .irrExt + u.flux .gw1 - u.flux .et - u.flux .gwLoss - u.flux .chanLoss - u.flux .qsim) us +
          total (fun u => u.flux .gw2 + u.flux .irrHyd - u.flux .chanDiv) us := by
  induction ins generalizing st rs us v with
  | nil =>
    unfold ShowsAll at hs
    simp only [List.zip_nil_left, List.forall₂_nil_right_iff] at hs
    subst hs
    simp [gaps, total]
  | cons a ins ih =>
    obtain ⟨is, si⟩ := a
    obtain ⟨st', o, rs', h1, h2, rfl⟩ := Reservoir.runSteps_cons b ps st is si ins rs h
    have hf1 : Fit b ps st [(is, si)] := by
      refine ⟨fun x hx => hf.1 x ?_, hf.2.1, fun _ _ _ => trivial⟩
      simp only [List.mem_cons, List.not_mem_nil, or_false] at hx
      subst hx
      exact List.mem_cons_self
    have hf2 : Fit b ps st' ins := ⟨fun x hx => hf.1 x (by simp [hx]), hf.2.2 st' o h1⟩
    obtain ⟨a1, a2, -⟩ := Reservoir.webrrun_basin b n hb ps st is si st' o hu (hf1.1 (is, si) (by simp)) hn h1
    unfold ShowsAll at hs
    rw [List.zip_cons_cons] at hs
    cases hs with
    | cons hu1 hus =>
      rename_i u us
      obtain ⟨s1, s2, s3, s4⟩ := C110_step b n hb ps hps st is si st' o hu hn hf1 h1 v u hv hu1
      obtain ⟨t1, t2, t3⟩ := ih st' rs' a1 a2 hf2 h2 us hus u s1
      refine ⟨?_, ?_, ?_⟩
      · rw [gaps, t1, List.map_cons, s2]
      · rw [List.getLastD_cons, t2, s3]
        unfold total
        rw [List.map_cons, List.sum_cons]
        ring
      · unfold total at t3 ⊢
        rw [List.map_cons, List.map_cons, List.map_cons, List.sum_cons, List.sum_cons, List.sum_cons, t3, s4]
        ring

/-- C110, whole runs: the error of the water balance is zero in the first step, and after it what is taken from the streams
less what of it is spread on the units. -/
theorem C110_run (b : Basin) (n : Nat) (hb : b.Ok n) (ps : List Par) (hps : ∀ p ∈ ps, p.Ok) (ins : List (List In × StreamIn)) (st : St)
    (rs : List (St × Out)) (hu : st.units.length = ps.length) (hn : st.stream.length = n) (hf : Fit b ps st ins)
    (h : runSteps b ps st ins = some rs) (us : List Step) (hs : ShowsAll b ps us ins rs) :
    gaps none us = (us.take 1).map (fun _ => 0) ++ (us.drop 1).map (fun u => u.flux .chanDiv - u.flux .irrHyd) := by
  cases ins with
  | nil =>
    unfold ShowsAll at hs
    simp only [List.zip_nil_left, List.forall₂_nil_right_iff] at hs
    subst hs
    simp [gaps]
  | cons a ins =>
    obtain ⟨is, si⟩ := a
    obtain ⟨st', o, rs', h1, h2, rfl⟩ := Reservoir.runSteps_cons b ps st is si ins rs h
    have hi := hf.1 (is, si) List.mem_cons_self
    have hf2 : Fit b ps st' ins := ⟨fun x hx => hf.1 x (by simp [hx]), hf.2.2 st' o h1⟩
    obtain ⟨a1, a2, -⟩ := Reservoir.webrrun_basin b n hb ps st is si st' o hu hi hn h1
    obtain ⟨r1, -, -, -, -, -, -, r8, -⟩ := Reservoir.C107_report b n hb ps hps st is si st' o hu hi hn hf.2.1 h1
    unfold ShowsAll at hs
    rw [List.zip_cons_cons] at hs
    cases hs with
    | cons hu1 hus =>
      rename_i u us
      have hv : Holds b st' u := ⟨hu1.sto.trans r1, hu1.chanSto.trans r8⟩
      rw [gaps, (run_after b n hb ps hps ins st' rs' a1 a2 hf2 h2 us hus u hv).1]
      simp

/-- C110: the change of the storage of the basin printed for a period is the difference of the storages printed at its end and
at the end of the period before. -/
theorem C110_storage (b : Basin) (n : Nat) (hb : b.Ok n) (ps : List Par) (hps : ∀ p ∈ ps, p.Ok) (ins : List (List In × StreamIn)) (st : St)
    (rs : List (St × Out)) (hu : st.units.length = ps.length) (hn : st.stream.length = n) (hf : Fit b ps st ins)
    (h : runSteps b ps st ins = some rs) (during : List Step) (u : Step) (hs : ShowsAll b ps (during ++ [u]) ins rs) (v : Step)
    (hv : Holds b st v) :
    u.store .sto - v.store .sto =
      total (·.flux .inp) (during ++ [u]) - total (·.flux .out) (during ++ [u]) - total (·.flux .et) (during ++ [u]) := by
  obtain ⟨-, t2, -⟩ := run_after b n hb ps hps ins st rs hu hn hf h _ hs v hv
  have hl : (during ++ [u]).getLastD v = u := by simp [List.getLastD_eq_getLast?]
  have hd : ∀ l : List Step, total (fun u => u.flux .inp - u.flux .out - u.flux .et) l =
      total (·.flux .inp) l - total (·.flux .out) l - total (·.flux .et) l := by
    intro l
    unfold total
    induction l with
    | nil => simp
    | cons x l ih => simp only [List.map_cons, List.sum_cons, ih]; ring
  rw [hl, hd] at t2
  linarith

/-- C110: the columns of the short table add up to the change of storage only without the second groundwater inflow, diversions
and irrigation from streams; the remainder is not printed. -/
theorem C110_table_violated (b : Basin) (n : Nat) (hb : b.Ok n) (ps : List Par) (hps : ∀ p ∈ ps, p.Ok) (ins : List (List In × StreamIn))
    (st : St) (rs : List (St × Out)) (hu : st.units.length = ps.length) (hn : st.stream.length = n) (hf : Fit b ps st ins)
    (h : runSteps b ps st ins = some rs) (during : List Step) (u : Step) (hs : ShowsAll b ps (during ++ [u]) ins rs) (v : Step)
    (hv : Holds b st v) :
    let t (f : Flux) : Rat := total (·.flux f) (during ++ [u])
    u.store .sto - v.store .sto =
      t .ppt + t .irrExt + t .gw1 - t .et - t .gwLoss - t .chanLoss - t .qsim + (t .gw2 + t .irrHyd - t .chanDiv) := by
  intro t
  obtain ⟨-, t2, t3⟩ := run_after b n hb ps hps ins st rs hu hn hf h _ hs v hv
  have hl : (during ++ [u]).getLastD v = u := by simp [List.getLastD_eq_getLast?]
  have hd : ∀ l : List Step,
      total (fun u => u.flux .ppt + u.flux .irrExt + u.flux .gw1 - u.flux .et - u.flux .gwLoss - u.flux .chanLoss - u.flux .qsim) l +
          total (fun u => u.flux .gw2 + u.flux .irrHyd - u.flux .chanDiv) l =
        total (·.flux .ppt) l + total (·.flux .irrExt) l + total (·.flux .gw1) l - total (·.flux .et) l - total (·.flux .gwLoss) l -
          total (·.flux .chanLoss) l - total (·.flux .qsim) l +
          (total (·.flux .gw2) l + total (·.flux .irrHyd) l - total (·.flux .chanDiv) l) := by
    intro l
    unfold total
    induction l with
    | nil => simp
    | cons x l ih => simp only [List.map_cons, List.sum_cons]; linarith
  rw [hl] at t2
  rw [hd] at t3
  show _ = total (·.flux .ppt) (during ++ [u]) + total (·.flux .irrExt) (during ++ [u]) + total (·.flux .gw1) (during ++ [u]) -
    total (·.flux .et) (during ++ [u]) - total (·.flux .gwLoss) (during ++ [u]) - total (·.flux .chanLoss) (during ++ [u]) -
    total (·.flux .qsim) (during ++ [u]) +
      (total (·.flux .gw2) (during ++ [u]) + total (·.flux .irrHyd) (during ++ [u]) - total (·.flux .chanDiv) (during ++ [u]))
  linarith

/-- C110: water lost from the streams, which leaves the basin but stays in the streams, is not seen by the error of the water
balance: it is zero although the storage of the basin is less than what units and streams hold. -/
theorem C110_loss_violated (b : Basin) (n : Nat) (hb : b.Ok n) (ps : List Par) (hps : ∀ p ∈ ps, p.Ok) (st : St) (is : List In) (si : StreamIn)
    (st' : St) (o : Out) (hu : st.units.length = ps.length) (hn : st.stream.length = n) (hf : Fit b ps st [(is, si)])
    (h : webrrun b ps st is si = some (st', o)) (v u : Step) (hv : Holds b st v) (hs : Shows u (reportOf b ps ((is, si), st', o)))
    (h0 : st.basin = (st.units.map (·.mru)).sum + st.stream.sum) (hd : u.flux .chanDiv = 0) (hi : u.flux .irrHyd = 0)
    (ha : 0 < b.area) (hl : 0 < si.taken.sum + si.loss.sum * (b.area * 1000000)) :
    gap v u = 0 ∧ u.store .sto < depth b ((st'.units.map (·.mru)).sum + st'.stream.sum) := by
  obtain ⟨s1, s2, -⟩ := C110_step b n hb ps hps st is si st' o hu hn hf h v u hv hs
  refine ⟨by rw [s2, hd, hi]; ring, ?_⟩
  have hlt := Reservoir.C106_loss_violated b n hb ps st is si st' o hu (hf.1 (is, si) (by simp)) hn h0 h hl
  rw [s1.1]
  unfold depth
  have : (0 : Rat) < b.area * 1000000 := by linarith
  exact mul_lt_mul_of_pos_right (div_lt_div_of_pos_right hlt this) (by norm_num)

/-! ### Examples -/

/-- The step that brings a report. -/
def stepOf (r : Reservoir.Report) : Step :=
  { year := 2000, mo := 1, day := 1, hr := 24, min := 0, sec := 0, nstep := 1, timestep := 24, endper := 2, orad := 0, tmax := 0,
    tmin := 0, potet := 0, qsim := 0, qobs := 0, chem := none
    depth := fun f => match f with
      | .inp => r.inp | .out => r.out | .et => r.et | .ppt => r.ppt | .irrExt => r.irrExt | .irrHyd => r.irrHyd | .gw1 => r.gw1
      | .gw2 => r.gw2 | .gwLoss => r.gwLoss | .stflow => r.stflow | .chanLoss => r.chanLoss | .chanDiv => r.chanDiv
      | .qsim => r.qsim | _ => 0
    store := fun s => match s with
      | .sto => r.sto | .chanSto => r.chanSto | _ => 0 }

theorem stepOf_shows (r : Reservoir.Report) : Shows (stepOf r) r :=
  ⟨rfl, rfl, rfl, rfl, rfl, rfl, rfl, rfl, rfl, rfl, rfl, rfl, rfl, rfl, rfl⟩

open Reservoir (basin0 par0 start0 unit0 now0 day0 first0 initUnit)

/-- A day with irrigation from outside and from wells, but not from streams. -/
def dayN : Reservoir.Day := { day0 with ppt := 8 / 10, irrHyd := 0 }

theorem dayN_ok : dayN.Ok unit0 now0 := by
  refine ⟨by decide +kernel, ⟨by decide +kernel, by decide +kernel, by decide +kernel, by decide +kernel, by decide +kernel⟩,
    by decide +kernel, by decide +kernel, by decide +kernel, by decide +kernel, ?_⟩
  intro drip hd
  rw [hd]
  decide +kernel

/-- Its fluxes. -/
def inN : In := ((Reservoir.advance unit0 now0 dayN).map (·.2.1)).getD Reservoir.drip0

theorem inN_ok : inN.Ok par0 ∧ inN.Pack par0 (initUnit par0 first0) := by
  have hs : (Reservoir.advance unit0 now0 dayN).isSome = true := by decide +kernel
  cases h : Reservoir.advance unit0 now0 dayN with
  | none => rw [h] at hs; exact absurd hs (by simp)
  | some y =>
    obtain ⟨m1, m2, -⟩ := Reservoir.C104_modules unit0 Reservoir.unit0_ok now0 Reservoir.now0_linked.2.ok dayN dayN_ok y.1 y.2.1 y.2.2 h
    have : inN = y.2.1 := by unfold inN; rw [h]; rfl
    rw [this]
    exact ⟨m1, m2⟩

theorem fitN (si : StreamIn) : Fit basin0 [par0] start0 [([inN], si)] := by
  refine ⟨by simp, ?_, fun _ _ _ => trivial⟩
  intro k p s i hp hs hi
  cases k with
  | zero =>
    simp only [start0, Reservoir.webrinit, List.map_cons, List.getElem?_cons_zero, Option.some.injEq] at hp hs hi
    subst hp; subst hs; subst hi
    exact ⟨by decide +kernel, inN_ok⟩
  | succ k => simp at hp

/-- The storages of `start0`. -/
def before0 : Step :=
  { stepOf (reportOf basin0 [par0] (([inN], ⟨[], []⟩), start0, ⟨[], ⟨{}, [], 0, [], [], []⟩⟩)) with
    store := fun s => match s with
      | .sto => depth basin0 start0.basin | .chanSto => depth basin0 start0.stream.sum | _ => 0 }

/-- 50 m³ are taken from the first segment, 3 m³ lost from the second. -/
def takenN : StreamIn := ⟨[50, 0], [0, 1 / 1000000]⟩
/-- 3 m³ are lost from the second segment. -/
def lostN : StreamIn := ⟨[0, 0], [0, 1 / 1000000]⟩

/-- C110: 50 m³ are taken from the streams, which is shown as an error of the water balance. -/
example : ∃ st' o, webrrun basin0 [par0] start0 [inN] takenN = some (st', o) ∧
    gap before0 (stepOf (reportOf basin0 [par0] (([inN], takenN), st', o))) = depth basin0 50 := by
  have hs : (match webrrun basin0 [par0] start0 [inN] takenN with
      | some (st', o) => decide ((reportOf basin0 [par0] (([inN], takenN), st', o)).chanDiv -
          (reportOf basin0 [par0] (([inN], takenN), st', o)).irrHyd = depth basin0 50)
      | none => false) = true := by decide +kernel
  split at hs
  · rename_i st' o he
    refine ⟨st', o, he, ?_⟩
    rw [(C110_step basin0 2 Reservoir.basin0_ok [par0] (by simp [Reservoir.par0_ok]) start0 [inN] takenN st' o rfl rfl (fitN _) he
      before0 _ ⟨rfl, rfl⟩ (stepOf_shows _)).2.1]
    exact of_decide_eq_true hs
  · exact absurd hs (by simp)

/-- C110: 3 m³ are lost from the streams and nothing is taken from them; the error is zero. -/
example : ∃ st' o, webrrun basin0 [par0] start0 [inN] lostN = some (st', o) ∧
    gap before0 (stepOf (reportOf basin0 [par0] (([inN], lostN), st', o))) = 0 ∧
    (stepOf (reportOf basin0 [par0] (([inN], lostN), st', o))).store .sto <
      depth basin0 ((st'.units.map (·.mru)).sum + st'.stream.sum) := by
  have hs : (match webrrun basin0 [par0] start0 [inN] lostN with
      | some (st', o) => decide ((reportOf basin0 [par0] (([inN], lostN), st', o)).chanDiv = 0 ∧
          (reportOf basin0 [par0] (([inN], lostN), st', o)).irrHyd = 0)
      | none => false) = true := by decide +kernel
  split at hs
  · rename_i st' o he
    refine ⟨st', o, he, ?_⟩
    exact C110_loss_violated basin0 2 Reservoir.basin0_ok [par0] (by simp [Reservoir.par0_ok]) start0 [inN] _ st' o rfl rfl (fitN _) he
      before0 _ ⟨rfl, rfl⟩ (stepOf_shows _) (by decide +kernel) (of_decide_eq_true hs).1 (of_decide_eq_true hs).2 (by decide +kernel)
      (by decide +kernel)
  · exact absurd hs (by simp)

/-- C110: the hypotheses about runs and periods are met by the run of one step. -/
example : ∃ rs u, runSteps basin0 [par0] start0 [([inN], takenN)] = some rs ∧ ShowsAll basin0 [par0] [u] [([inN], takenN)] rs ∧
    gaps none [u] = [0] ∧ u.store .sto - before0.store .sto = u.flux .inp - u.flux .out - u.flux .et ∧ 0 < u.flux .chanDiv ∧
    0 < u.flux .gw1 := by
  have hs : (match webrrun basin0 [par0] start0 [inN] takenN with
      | some (st', o) => decide (0 < (reportOf basin0 [par0] (([inN], takenN), st', o)).chanDiv ∧
          0 < (reportOf basin0 [par0] (([inN], takenN), st', o)).gw1)
      | none => false) = true := by decide +kernel
  split at hs
  · rename_i st' o he
    have h1 : runSteps basin0 [par0] start0 [([inN], takenN)] = some [(st', o)] := by
      unfold runSteps
      rw [he]
      rfl
    have h2 : ShowsAll basin0 [par0] [stepOf (reportOf basin0 [par0] (([inN], takenN), st', o))] [([inN], takenN)] [(st', o)] :=
      .cons (stepOf_shows _) .nil
    refine ⟨_, _, h1, h2, ?_, ?_, (of_decide_eq_true hs).1, (of_decide_eq_true hs).2⟩
    · exact C110_run basin0 2 Reservoir.basin0_ok [par0] (by simp [Reservoir.par0_ok]) _ start0 _ rfl rfl (fitN _) h1 _ h2
    · have := C110_storage basin0 2 Reservoir.basin0_ok [par0] (by simp [Reservoir.par0_ok]) _ start0 _ rfl rfl (fitN _) h1 [] _ h2
        before0 ⟨rfl, rfl⟩
      simpa [total] using this
  · exact absurd hs (by simp)

end Verif.Summary
