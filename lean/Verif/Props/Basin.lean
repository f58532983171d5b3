import Verif.Lemmas.ReservoirReport
import Verif.Lemmas.ReservoirFiles
import Verif.Props.Reservoir
import Verif.Spec.Route
/-
C106: the water of the basin is that of its units and streams.  C107: the depths reported.  C108: the volume files.
-/
namespace Verif.Reservoir

/-! ### C106 -/

/-- C106, one step: the water of the basin, with what is lost and taken from the streams, changes as units and streams do;
what leaves the hillslopes is spread over the segments; the streams change by that and the discharge. -/
theorem C106_step_partial (b : Basin) (n : Nat) (hb : b.Ok n) (ps : List Par) (st : St) (is : List In) (si : StreamIn) (st' : St)
    (o : Out) (hu : st.units.length = ps.length) (hi : is.length = ps.length) (hn : st.stream.length = n)
    (h : webrrun b ps st is si = some (st', o)) :
    st'.basin + (o.basin.loss.sum + o.basin.taken.sum) - st.basin =
        (st'.units.map (·.mru)).sum - (st.units.map (·.mru)).sum + (st'.stream.sum - st.stream.sum) ∧
      o.basin.hillexp.map (·.sum) = o.units.map (·.1.hill.out) ∧
      st'.stream.sum = st.stream.sum + (o.units.map (·.1.hill.out)).sum - o.basin.discharge ∧ st'.stream.length = n ∧
      o.basin.vol.init = st.basin ∧ o.basin.vol.fin = st'.basin ∧ o.basin.vol.Balanced ∧ o.basin.vol.Summed := by
  obtain ⟨h1, h2, h3⟩ := webrrun_basin b n hb ps st is si st' o hu hi hn h
  obtain ⟨w1, w2, w3, w4, w5⟩ := webrrun_eq b ps st is si st' o h
  obtain ⟨s1, s2, s3, s4, s5, s6, s7, s8, s9, -⟩ := basin_spec b n hb _ si st.basin st.stream hn o.basin w2
  obtain ⟨u1, -⟩ := units_change ps st.units is o.units w1 hu hi
  have hz : (List.zip ps (List.zip is (o.units.map (·.1)))).map (fun u => u.2.2.hill.out) = o.units.map (·.1.hill.out) := by
    have : (List.zip ps (List.zip is (o.units.map (·.1)))).map (fun u => u.2.2.hill.out) =
        (((List.zip ps (List.zip is (o.units.map (·.1)))).map Prod.snd).map Prod.snd).map (·.hill.out) := by
      simp [List.map_map, Function.comp_def]
    rw [this, List.map_snd_zip (by simp [hi, u1]), List.map_snd_zip (by simp [hi, u1]), List.map_map]
    rfl
  refine ⟨h3, by rw [s9, hz], ?_, h2, s3, w4.symm, s4, s5⟩
  rw [w5, s2]
  unfold sumOf
  rw [hz]

/-- The units of a run satisfy `P`. -/
theorem sum_stored (us : List Start) (h : ∀ s ∈ us, s.mru = s.stored) : (us.map (·.mru)).sum = (us.map (·.stored)).sum := by
  congr 1
  exact List.map_congr_left h

theorem run_lengths (b : Basin) (n : Nat) (hb : b.Ok n) (ps : List Par) (ins : List (List In × StreamIn)) (st : St)
    (rs : List (St × Out)) (hu : st.units.length = ps.length) (hi : ∀ x ∈ ins, x.1.length = ps.length) (hn : st.stream.length = n)
    (h : runSteps b ps st ins = some rs) : ((rs.map (·.1)).getLastD st).units.length = ps.length := by
  induction ins generalizing st rs with
  | nil =>
    simp only [runSteps, Option.some.injEq] at h
    subst h
    simpa using hu
  | cons a ins ih =>
    obtain ⟨is, si⟩ := a
    obtain ⟨st', o, rs', h1, h2, rfl⟩ := runSteps_cons b ps st is si ins rs h
    obtain ⟨a1, a2, a3⟩ := webrrun_basin b n hb ps st is si st' o hu (hi (is, si) (by simp)) hn h1
    rw [List.map_cons, List.getLastD_cons]
    exact ih st' rs' a1 (fun x hx => hi x (by simp [hx])) a2 h2

/-- C106, whole runs from the start of the program: the water of the basin is that in the stores of its units and in its
streams, less all that was lost and taken from the streams. -/
theorem C106_run_partial (b : Basin) (n : Nat) (hb : b.Ok n) (fs : List (Par × First))
    (hf : ∀ f ∈ fs, f.1.Ok ∧ f.2.uzDepth.length = f.1.ac.length) (q : List (List Rat)) (maxloss : List Rat)
    (hm : maxloss.length = n) (ins : List (List In × StreamIn)) (rs : List (St × Out)) (hi : ∀ x ∈ ins, x.1.length = fs.length)
    (hP : Always b (fs.map (·.1)) (fun p s i => i.Ok p ∧ i.Pack p s) (webrinit b fs q maxloss) ins)
    (h : runSteps b (fs.map (·.1)) (webrinit b fs q maxloss) ins = some rs) :
    let last := (rs.map (·.1)).getLastD (webrinit b fs q maxloss)
    last.basin = (last.units.map (·.stored)).sum + last.stream.sum - lostAndTaken rs := by
  intro last
  have hu : (webrinit b fs q maxloss).units.length = (fs.map (·.1)).length := by simp [webrinit]
  have hs : (webrinit b fs q maxloss).stream.length = n := by simp [webrinit, initStream, hm]
  have hi' : ∀ x ∈ ins, x.1.length = (fs.map (·.1)).length := by simpa using hi
  have h1 := run_basin b n hb _ ins _ rs hu hi' hs h
  have h2 : (webrinit b fs q maxloss).basin =
      sumOf (·.mru) (webrinit b fs q maxloss).units + (webrinit b fs q maxloss).stream.sum := rfl
  have h3 := run_lengths b n hb _ ins _ rs hu hi' hs h
  have hall := run_all b (fs.map (·.1)) ins _ rs _ (fun p s => s.mru = s.stored ∧ s.uz.length = p.ac.length) (by
    intro p hp s i r e h0 hi hst
    obtain ⟨f, hf1, rfl⟩ := List.mem_map.1 hp
    have g1 := step_stored f.1 (hf f hf1).1 s i hi.1 hi.2 h0.2 r e hst
    have g2 : r.next.mru = r.mru.fin := rfl
    refine ⟨by rw [g2]; linarith [h0.1], ?_⟩
    simpa [Rows.next] using (step_bins f.1 s i r e hst hi.1.bins h0.2).1) h hi' hP hu (by
    intro k p s hp hs
    rw [List.getElem?_map] at hp
    have hs' : (fs.map fun x => initUnit x.1 x.2)[k]? = some s := hs
    rw [List.getElem?_map] at hs'
    cases hk : fs[k]? with
    | none => rw [hk] at hp; simp at hp
    | some f =>
      rw [hk] at hp hs'
      simp only [Option.map_some, Option.some.injEq] at hp hs'
      subst hp; subst hs'
      refine ⟨rfl, ?_⟩
      simp [initUnit, Topmod.acfs_length, (hf f (List.mem_of_getElem? hk)).2])
  have h4 : (last.units.map (·.mru)).sum = (last.units.map (·.stored)).sum := by
    apply sum_stored
    intro s hs
    obtain ⟨k, hk, rfl⟩ := List.mem_iff_getElem.1 hs
    have hk' : k < (fs.map (·.1)).length := by rw [← h3]; exact hk
    obtain ⟨s', g1, g2⟩ := hall k _ (List.getElem?_eq_getElem hk')
    have g3 : last.units[k]? = some s' := g1
    rw [List.getElem?_eq_getElem hk] at g3
    rw [Option.some.inj g3]
    exact g2.1
  rw [h2] at h1
  have h5 : sumOf (·.mru) last.units = (last.units.map (·.stored)).sum := h4
  have h6 : last.basin + lostAndTaken rs - (sumOf (·.mru) (webrinit b fs q maxloss).units + (webrinit b fs q maxloss).stream.sum) =
    sumOf (·.mru) last.units - sumOf (·.mru) (webrinit b fs q maxloss).units +
      (last.stream.sum - (webrinit b fs q maxloss).stream.sum) := h1
  linarith

/-- C106: what is lost from the streams or taken from them leaves the basin, but stays in the streams. -/
theorem C106_loss_violated (b : Basin) (n : Nat) (hb : b.Ok n) (ps : List Par) (st : St) (is : List In) (si : StreamIn) (st' : St)
    (o : Out) (hu : st.units.length = ps.length) (hi : is.length = ps.length) (hn : st.stream.length = n)
    (h0 : st.basin = (st.units.map (·.mru)).sum + st.stream.sum) (h : webrrun b ps st is si = some (st', o))
    (hl : 0 < si.taken.sum + si.loss.sum * (b.area * 1000000)) :
    st'.basin < (st'.units.map (·.mru)).sum + st'.stream.sum := by
  obtain ⟨h3, -⟩ := C106_step_partial b n hb ps st is si st' o hu hi hn h
  obtain ⟨w1, w2, w3, w4, w5⟩ := webrrun_eq b ps st is si st' o h
  obtain ⟨-, -, -, -, -, -, -, -, -, s10, s11⟩ := basin_spec b n hb _ si st.basin st.stream hn o.basin w2
  have h4 : o.basin.loss.sum = si.loss.sum * (b.area * 1000000) := by
    rw [s11]
    clear * -
    generalize si.loss = l
    induction l with
    | nil => simp
    | cons x l ih => rw [List.map_cons, List.sum_cons, ih, List.sum_cons]; ring
  rw [s10, h4] at h3
  linarith

/-- C106: at the start the streams of a basin with one channel, without losses, hold the water of the routing module. -/
theorem C106_start_partial (b : Basin) (c : Chan) (hc : b.chans = [c]) (ha : c.area = b.area) (col : List Rat) (rb : Route.Basin)
    (hr : rb.area = b.area) (hyd : List Rat) :
    (initStream b [col] (List.replicate col.length 0)).sum = Route.stored rb ⟨[col], hyd⟩ := by
  unfold initStream Route.stored
  rw [hc, hr]
  have h1 : List.zipWith (fun ih m => sumOf (fun c : Chan × List Rat => c.2.getD ih 0 * c.1.area * million) (List.zip [c] [col]) +
      m * b.area * million) (List.range (List.replicate col.length (0 : Rat)).length) (List.replicate col.length 0) =
      col.map fun x => x * (b.area * 1000000) := by
    apply List.ext_getElem?
    intro k
    simp only [List.getElem?_zipWith, List.length_replicate, List.getElem?_map]
    by_cases hk : k < col.length
    · simp only [List.getElem?_range, hk, List.getElem?_replicate, List.getElem?_eq_getElem hk, List.zip_cons_cons, List.zip_nil_left,
        sumOf_cons, sumOf_nil, ha, million, Option.map_some, if_true, List.getD_eq_getElem?_getD, Option.getD_some]
      simp only [Option.some.injEq]
      ring
    · rw [List.getElem?_eq_none (by simpa using hk), List.getElem?_eq_none (by simpa using hk), List.getElem?_eq_none (by simpa using hk)]
      rfl
  rw [h1]
  clear * -
  simp only [List.map_cons, List.map_nil, List.sum_cons, List.sum_nil, add_zero]
  induction col with
  | nil => simp
  | cons x l ih => rw [List.map_cons, List.sum_cons, ih, List.sum_cons]; ring

/-- C106 fails for two channels: the depths, which refer to the basin, are multiplied with the areas of the channels.  Here the
streams of the routing module hold 30000 m³, those of the volumes 15000 m³. -/
theorem C106_start_violated :
    let b : Basin := ⟨3, [⟨[1 / 2], 3 / 2⟩, ⟨[1 / 2], 3 / 2⟩]⟩
    let rb : Route.Basin := ⟨[⟨1, [1 / 2], 1 / 2, 3 / 2⟩, ⟨1, [1 / 2], 1 / 2, 3 / 2⟩], [0], 3, [], false⟩
    let st : Route.St := ⟨[[1 / 200], [1 / 200]], []⟩
    b.Ok 1 ∧ rb.Ok 1 ∧ st.Ok rb 1 ∧ Route.stored rb st = 30000 ∧ (initStream b st.q [0]).sum = 15000 := by
  refine ⟨⟨by decide, by decide +kernel, ?_⟩, ⟨by decide, by decide +kernel, ?_, by simp⟩, ⟨rfl, by decide, by decide +kernel, rfl⟩,
    by decide +kernel, by decide +kernel⟩
  · intro c hc
    simp only [List.mem_cons, List.not_mem_nil, or_false] at hc
    rcases hc with rfl | rfl <;> exact ⟨rfl, by decide +kernel, by decide +kernel⟩
  · intro c hc
    simp only [List.mem_cons, List.not_mem_nil, or_false] at hc
    rcases hc with rfl | rfl <;>
      exact ⟨by decide +kernel, by decide +kernel, by decide +kernel, by decide +kernel, by decide +kernel⟩

/-! ### C107 -/

/-- C107: the depths reported are those of the volumes, and add up. -/
theorem C107_report (b : Basin) (n : Nat) (hb : b.Ok n) (ps : List Par) (hps : ∀ p ∈ ps, p.Ok) (st : St) (is : List In) (si : StreamIn)
    (st' : St) (o : Out) (hu : st.units.length = ps.length) (hi : is.length = ps.length) (hn : st.stream.length = n)
    (hok : ∀ (k : Nat) p s i, ps[k]? = some p → st.units[k]? = some s → is[k]? = some i →
      s.uz.length = p.ac.length ∧ i.Ok p ∧ i.Pack p s)
    (h : webrrun b ps st is si = some (st', o)) :
    let r := report b (List.zip ps (List.zip is o.units)) o.basin
    r.sto = depth b st'.basin ∧ r.sto = depth b st.basin + r.inp - r.out - r.et ∧
      r.inp = r.ppt + r.irrSat + r.irrHyd + r.irrExt + r.gw1 + r.gw2 ∧
      r.out = r.gwLoss + r.qwell + r.chanLoss + r.chanDiv + r.qsim ∧
      r.et = r.intcpEvap + r.snowEvap + r.uzEt ∧
      r.surfdep = r.sroff + r.infil + r.vpref ∧
      r.stflow = r.sroff + r.qdf + r.gwFlow + r.qpref ∧
      r.chanSto = depth b st'.stream.sum ∧ r.chanSto = depth b st.stream.sum + r.stflow - r.qsim ∧
      r.intcpSto + r.pweqv + r.sssto + r.gwSto =
        depth b (st'.units.map fun s => s.can + s.snow + s.uz.sum + s.sat).sum := by
  intro r
  have hr : r = report b (List.zip ps (List.zip is o.units)) o.basin := rfl
  clear_value r
  obtain ⟨w1, w2, w3, w4, w5⟩ := webrrun_eq b ps st is si st' o h
  obtain ⟨s1, s2, s3, s4, s5, s6, s7, s8, s9, s10, s11⟩ := basin_spec b n hb _ si st.basin st.stream hn o.basin w2
  obtain ⟨u1, -⟩ := units_change ps st.units is o.units w1 hu hi
  have hm := units_mem ps st.units is o.units w1
  rw [zip_rows] at s2 s6 s7 s8
  rw [sumOf_map] at s2 s6 s7 s8
  have hmap : st'.units = (List.zip ps (List.zip is o.units)).map fun u => u.2.2.1.next := by
    rw [w3]
    have : (List.zip ps (List.zip is o.units)).map (fun u => u.2.2.1.next) =
        (((List.zip ps (List.zip is o.units)).map Prod.snd).map Prod.snd).map (·.1.next) := by
      simp [List.map_map, Function.comp_def]
    rw [this, List.map_snd_zip (by simp [hi, u1]), List.map_snd_zip (by simp [hi, u1])]
  have key : ∀ u ∈ List.zip ps (List.zip is o.units), ∃ s : Start, u.1.Ok ∧ s.uz.length = u.1.ac.length ∧ u.2.1.Ok u.1 ∧ u.2.1.Pack u.1 s ∧
      step u.1 s u.2.1 = some (u.2.2.1, u.2.2.2) := by
    intro u hu
    obtain ⟨k, s, a1, a2, a3, a4⟩ := hm u hu
    obtain ⟨b1, b2, b3⟩ := hok k _ _ _ a1 a2 a3
    exact ⟨s, hps _ (List.mem_of_getElem? a1), b1, b2, b3, a4⟩
  generalize List.zip ps (List.zip is o.units) = L at *
  have e1 : sumOf (fun u : UnitRes => sumOf (·.et) u.2.2.1.uz) L = sumOf (fun u => u.1.vol u.2.1.sae - u.2.2.1.can.uz) L :=
    sumOf_congr _ _ _ fun u hu => by
      obtain ⟨s, a, b, c, d, e⟩ := key u hu
      exact uz_et u.1 a s u.2.1 c b _ _ e
  have e2 : sumOf (fun u : UnitRes => u.2.2.2.surfdep) L =
      sumOf (fun u => u.1.vol u.2.1.qof) L + sumOf (fun u => sumOf (·.infil) u.2.2.2.bins) L + sumOf (fun u => u.2.2.2.bypass) L := by
    rw [← sumOf_add, ← sumOf_add]
    exact sumOf_congr _ _ _ fun u hu => by
      obtain ⟨s, a, b, c, d, e⟩ := key u hu
      exact surfdep_eq u.1 a s u.2.1 c d b _ _ e
  have e3 : sumOf (fun u : UnitRes => u.2.2.1.hill.out) L = sumOf (fun u => u.1.vol u.2.1.qof) L + sumOf (fun u => u.2.2.1.qdf.out) L +
      sumOf (fun u => u.1.vol u.2.1.qb) L + sumOf (fun u => u.1.vol u.2.1.qpref) L := by
    rw [← sumOf_add, ← sumOf_add, ← sumOf_add]
    exact sumOf_congr _ _ _ fun u hu => by
      obtain ⟨s, a, b, c, d, e⟩ := key u hu
      exact hill_out u.1 a s u.2.1 c d _ _ e
  have e4 : sumOf (fun u : UnitRes => (fall u.1 u.2.1).total + (u.2.2.1.sat.gw1 + u.2.2.1.sat.gw2)) L =
      sumOf (fun u => (fall u.1 u.2.1).ppt) L + sumOf (fun u => (fall u.1 u.2.1).well) L + sumOf (fun u => (fall u.1 u.2.1).div) L +
      sumOf (fun u => (fall u.1 u.2.1).ext) L + sumOf (fun u => u.2.2.1.sat.gw1) L + sumOf (fun u => u.2.2.1.sat.gw2) L := by
    simp only [← sumOf_add]
    exact sumOf_congr _ _ _ fun u _ => by unfold Fall.total; ring
  have e5 : (st'.units.map fun s => s.can + s.snow + s.uz.sum + s.sat).sum = sumOf (fun u : UnitRes => u.2.2.1.can.fin) L +
      sumOf (fun u => u.2.2.1.snow.fin) L + sumOf (fun u => sumOf (·.fin) u.2.2.1.uz) L + sumOf (fun u => u.2.2.1.sat.fin) L := by
    rw [hmap, List.map_map]
    simp only [← sumOf_add]
    rfl
  simp only [sumOf_add] at s7 s8
  refine ⟨?_, ?_, ?_, ?_, ?_, ?_, ?_, ?_, ?_, ?_⟩ <;> simp only [hr, report, m3cm_eq]
  · rw [w4]
  · rw [← depth_add, ← depth_sub, ← depth_sub]
    have := s4
    unfold Vol.Balanced at this
    rw [this, s3]
  · simp only [← depth_add]
    rw [s6, e4]
  · simp only [← depth_add]
    rw [s7]
    congr 1; ring
  · simp only [← depth_add]
    rw [s8, e1]
  · simp only [← depth_add]
    rw [e2]
  · simp only [← depth_add]
    rw [e3]
  · rw [w5]
  · rw [← depth_add, ← depth_sub, s2]
  · simp only [← depth_add]
    rw [e5]

/-! ### C108 -/

/-- C108: for detailed output with solutes every file has a place in the table, and no place is left over. -/
theorem C108_places (chem : Bool) (nmru nac nhydro : Nat) :
    (openFiles 2 chem nmru nac nhydro).length = tableSize 2 true chem nmru nac nhydro := by
  unfold openFiles tableSize
  cases chem <;> simp [filesOf_length] <;> ring

/-- C108: the files have different names, up to 999 units and segments and 99 bins. -/
theorem C108_names_partial (printVse : Int) (chem : Bool) (nmru nac nhydro : Nat) (hm : nmru ≤ 999) (ha : nac ≤ 99) (hh : nhydro ≤ 999) :
    (openFiles printVse chem nmru nac nhydro).Nodup := by
  unfold openFiles
  dsimp only
  split
  · have hd : ∀ (a b : Char) (f g f' g' : Bool), a ≠ b →
        List.Disjoint (filesOf a f g nmru nac nhydro) (filesOf b f' g' nmru nac nhydro) := by
      intro a b f g f' g' hab x h1 h2
      have e1 := filesOf_head a f g nmru nac nhydro x h1
      have e2 := filesOf_head b f' g' nmru nac nhydro x h2
      rw [e1] at e2
      exact hab (Option.some.inj e2)
    refine List.Nodup.append (filesOf_nodup _ _ _ _ _ _ hm ha hh) ?_ ?_
    · split
      · exact List.Nodup.append (filesOf_nodup _ _ _ _ _ _ hm ha hh) (filesOf_nodup _ _ _ _ _ _ hm ha hh) (hd _ _ _ _ _ _ (by decide))
      · exact List.nodup_nil
    · split
      · intro x h1 h2
        rcases List.mem_append.1 h2 with h2 | h2
        · exact hd 'v' 's' _ _ _ _ (by decide) h1 h2
        · exact hd 'v' 'e' _ _ _ _ (by decide) h1 h2
      · intro x _ h2; simp at h2
  · exact List.nodup_nil

/-- C108 fails for summary output: the files of the streams have no place in the table. -/
theorem C108_summary_violated (solutes chem : Bool) (nmru nac nhydro : Nat) :
    tableSize 1 solutes chem nmru nac nhydro + nhydro + 1 ≤ (openFiles 1 chem nmru nac nhydro).length := by
  unfold openFiles tableSize
  cases chem <;> cases solutes <;> simp [filesOf_length] <;> omega

/-- C108 fails without solutes: there is no table, but files are opened. -/
theorem C108_no_solutes_violated (printVse : Int) (hp : 1 ≤ printVse) (chem : Bool) (nmru nac nhydro : Nat) :
    tableSize printVse false chem nmru nac nhydro = 0 ∧ 0 < (openFiles printVse chem nmru nac nhydro).length := by
  unfold openFiles tableSize
  refine ⟨by simp, ?_⟩
  dsimp only
  rw [if_pos hp, List.length_append, filesOf_length]
  omega

theorem flat_disjoint {α : Type} (f : Nat → List α) (n a b : Nat) (hab : a < b) (hb : b < n) (h : ((List.range n).flatMap f).Nodup)
    (x : α) (h1 : x ∈ f a) (h2 : x ∈ f b) : False := by
  have h3 := (List.nodup_flatMap.1 h).2
  rw [List.pairwise_iff_getElem] at h3
  have h4 := h3 a b (by simp; omega) (by simpa using hb) hab
  simp only [List.getElem_range] at h4
  exact h4 h1 h2

/-- C108 fails from 1001 units on: two units write to files of the same name. -/
theorem C108_units_violated (printVse : Int) (hp : 1 ≤ printVse) (chem : Bool) (nmru nac nhydro : Nat) (hm : 1001 ≤ nmru) :
    ¬ (openFiles printVse chem nmru nac nhydro).Nodup := by
  intro hn
  unfold openFiles at hn
  dsimp only at hn
  rw [if_pos hp] at hn
  have h1 := (List.nodup_append.1 hn).1
  unfold filesOf at h1
  have h2 := (List.nodup_append.1 (List.nodup_cons.1 h1).2).1
  have h3 : ('v' :: "_mru".toList ++ iw 3 (999 + 1) ++ []) = 'v' :: "_mru".toList ++ iw 3 (1000 + 1) ++ [] := by decide +kernel
  refine flat_disjoint _ nmru 999 1000 (by omega) (by omega) h2 _ (List.mem_map.2 ⟨[], List.mem_cons_self, rfl⟩) ?_
  rw [h3]
  exact List.mem_map.2 ⟨[], List.mem_cons_self, rfl⟩

/-! ### Examples -/

/-- One channel of two segments. -/
def basin0 : Basin := ⟨3, [⟨[7 / 10, 3 / 10], 3⟩]⟩
/-- The fluxes of `day0`. -/
def in0 : In := ((advance unit0 now0 day0).map (·.2.1)).getD drip0
def start0 : St := webrinit basin0 [(par0, first0)] [[1 / 1000, 1 / 2000]] [0, 0]
/-- 50 m³ are taken from the first segment, 3 m³ lost from the second. -/
def streams0 : StreamIn := ⟨[50, 0], [0, 1 / 1000000]⟩

theorem basin0_ok : basin0.Ok 2 := by
  refine ⟨by decide, by decide +kernel, ?_⟩
  intro c hc
  simp only [basin0, List.mem_cons, List.not_mem_nil, or_false] at hc
  subst hc
  exact ⟨rfl, by decide +kernel, by decide +kernel⟩

theorem in0_ok : in0.Ok par0 ∧ in0.Pack par0 (initUnit par0 first0) := by
  have hs : (advance unit0 now0 day0).isSome = true := by decide +kernel
  cases h : advance unit0 now0 day0 with
  | none => rw [h] at hs; exact absurd hs (by simp)
  | some y =>
    obtain ⟨m1, m2, -⟩ := C104_modules unit0 unit0_ok now0 now0_linked.2.ok day0 (day0_ok now0 rfl) y.1 y.2.1 y.2.2 h
    have : in0 = y.2.1 := by unfold in0; rw [h]; rfl
    rw [this]
    exact ⟨m1, m2⟩

/-- C106: a run with losses, diversions and discharge. -/
example : ∃ rs, runSteps basin0 [par0] start0 [([in0], streams0)] = some rs ∧ lostAndTaken rs = 53 ∧
    0 < (rs.map fun x => x.2.basin.discharge).sum ∧
    ((rs.map (·.1)).getLastD start0).basin = (((rs.map (·.1)).getLastD start0).units.map (·.stored)).sum +
      ((rs.map (·.1)).getLastD start0).stream.sum - lostAndTaken rs := by
  have hs : (match runSteps basin0 [par0] start0 [([in0], streams0)] with
      | some rs => decide (lostAndTaken rs = 53 ∧ 0 < (rs.map fun x => x.2.basin.discharge).sum)
      | none => false) = true := by decide +kernel
  split at hs
  · rename_i rs he
    refine ⟨rs, he, (of_decide_eq_true hs).1, (of_decide_eq_true hs).2, ?_⟩
    refine C106_run_partial basin0 2 basin0_ok [(par0, first0)] ?_ [[1 / 1000, 1 / 2000]] [0, 0] rfl [([in0], streams0)] rs
      (by simp) ?_ he
    · intro f hf
      simp only [List.mem_cons, List.not_mem_nil, or_false] at hf
      subst hf
      exact ⟨par0_ok, by decide +kernel⟩
    · refine ⟨?_, fun _ _ _ => trivial⟩
      intro k p s i hp hs hi
      cases k with
      | zero =>
        simp only [webrinit, List.map_cons, List.getElem?_cons_zero, Option.some.injEq] at hp hs hi
        subst hp; subst hs; subst hi
        exact in0_ok
      | succ k => simp at hp
  · exact absurd hs (by simp)

/-- C103: the saturated zone during that run. -/
example : ∃ rs, runSteps basin0 [par0] start0 [([in0], streams0)] = some rs ∧ (rows rs 0 .sat).length = 1 ∧
    Chain (initUnit par0 first0).sat (rows rs 0 .sat) := by
  have hs : (runSteps basin0 [par0] start0 [([in0], streams0)]).isSome = true := by decide +kernel
  cases h : runSteps basin0 [par0] start0 [([in0], streams0)] with
  | none => rw [h] at hs; exact absurd hs (by simp)
  | some rs =>
    have := C103_run basin0 [par0] 0 par0 rfl .sat [([in0], streams0)] start0 rs h (by simp) (by
      intro x hx i hi
      simp only [List.mem_cons, List.not_mem_nil, or_false] at hx
      subst hx
      simp only [List.getElem?_cons_zero, Option.some.injEq] at hi
      subst hi
      exact in0_ok.1.bins) (initUnit par0 first0) rfl (by decide +kernel) _ rfl
    exact ⟨rs, rfl, this.1, this.2.1⟩

/-- C107: the hypotheses are met by the same step. -/
example : ∃ st' o, webrrun basin0 [par0] start0 [in0] streams0 = some (st', o) ∧
    0 < (report basin0 (List.zip [par0] (List.zip [in0] o.units)) o.basin).uzEt ∧
    (report basin0 (List.zip [par0] (List.zip [in0] o.units)) o.basin).et =
      (report basin0 (List.zip [par0] (List.zip [in0] o.units)) o.basin).intcpEvap +
      (report basin0 (List.zip [par0] (List.zip [in0] o.units)) o.basin).snowEvap +
      (report basin0 (List.zip [par0] (List.zip [in0] o.units)) o.basin).uzEt := by
  have hs : (match webrrun basin0 [par0] start0 [in0] streams0 with
      | some (_, o) => decide (0 < (report basin0 (List.zip [par0] (List.zip [in0] o.units)) o.basin).uzEt)
      | none => false) = true := by decide +kernel
  split at hs
  · rename_i st' o he
    refine ⟨st', o, he, of_decide_eq_true hs, ?_⟩
    have := C107_report basin0 2 basin0_ok [par0] (by simp [par0_ok]) start0 [in0] streams0 st' o rfl rfl rfl (by
      intro k p s i hp hs hi
      cases k with
      | zero =>
        simp only [start0, webrinit, List.map_cons, List.getElem?_cons_zero, Option.some.injEq] at hp hs hi
        subst hp; subst hs; subst hi
        exact ⟨by decide +kernel, in0_ok⟩
      | succ k => simp at hp) he
    exact this.2.2.2.2.1
  · exact absurd hs (by simp)

/-- C108: 30 files for one unit of 3 bins and 12 segments. -/
example : (openFiles 2 false 1 3 12).length = 30 ∧ "v_mru001_uz03".toList ∈ openFiles 2 false 1 3 12 := by decide +kernel

end Verif.Reservoir
