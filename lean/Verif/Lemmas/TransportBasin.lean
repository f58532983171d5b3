import Verif.Lemmas.TransportStep
/-
A step of volumes and transport.
-/
namespace Verif.Transport
open Verif.Reservoir (sumOf Par In Rows Extra BinOut Vol)

theorem couple_eq {rx : Ent → Sol → Sol} {first : Bool} {b : Reservoir.Basin} {ps : List (Par × Site)} {v : Reservoir.St} {s : St}
    {x : List In × Reservoir.StreamIn × List Rat} {v' : Reservoir.St} {s' : St} {o : Reservoir.Out} {fs : List Flow}
    (h : couple rx first b ps v s x = some (v', s', o, fs)) :
    Reservoir.webrrun b (ps.map (·.1)) v x.1 x.2.1 = some (v', o) ∧
    fs = flows 1 (ps.map (·.1)) x.1 o.units (List.zip (ps.map (·.2)) x.2.2) ∧
    s' = segLoop rx 1 (segs (fs.map (·.unit)) o.basin)
      (fs.foldl (fun s f => flow rx f s) (begin first fs (segs (fs.map (·.unit)) o.basin).length s)) := by
  unfold couple at h
  cases hw : Reservoir.webrrun b (ps.map (·.1)) v x.1 x.2.1 with
  | none => rw [hw] at h; exact absurd h (by simp)
  | some r =>
    obtain ⟨v1, o1⟩ := r
    rw [hw] at h
    dsimp only at h
    unfold step at h
    split at h
    · exact absurd h (by simp)
    · rename_i t ht
      split at ht
      · exact absurd ht (by simp)
      · simp only [Option.some.injEq, Prod.mk.injEq] at h ht
        obtain ⟨rfl, rfl, rfl, rfl⟩ := h
        exact ⟨rfl, rfl, ht.symm⟩

/-- Volumes and flows of a step belong together. -/
theorem couple_units {rx : Ent → Sol → Sol} {first : Bool} {b : Reservoir.Basin} {ps : List (Par × Site)} {v : Reservoir.St} {s : St}
    {x : List In × Reservoir.StreamIn × List Rat} {v' : Reservoir.St} {s' : St} {o : Reservoir.Out} {fs : List Flow} {n : Nat}
    (hv : Sized ps n v) (hx : Fits ps x) (h : couple rx first b ps v s x = some (v', s', o, fs)) :
    fs.length = ps.length ∧ o.units.length = ps.length ∧ fs.map (·.r) = o.units.map (·.1) ∧
    ∀ k f, fs[k]? = some f → f.unit = 1 + k ∧ f.r.uz = f.bins.map (·.vol) ∧ v'.units[k]? = some f.r.next ∧
      ∃ w e, v.units[k]? = some w ∧ Reservoir.step f.p w f.i = some (f.r, e) ∧ f.bins = e.bins ∧
        f.i.bins.length = f.p.ac.length ∧ w.uz.length = f.p.ac.length := by
  obtain ⟨h1, h2, -⟩ := couple_eq h
  obtain ⟨w1, w2, w3, -, -⟩ := Reservoir.webrrun_eq _ _ _ _ _ _ _ h1
  obtain ⟨u1, u2⟩ := Reservoir.stepUnits_get _ _ w1
  have hol : o.units.length = ps.length := by
    rw [u1]; simp [hv.units, hx.units]
  have hfl : fs.length = ps.length := by
    rw [h2]
    exact flows_length _ _ _ _ 1 ps.length (by simp) hx.units hol (by simp [hx.quz])
  have hat : ∀ k f, fs[k]? = some f → _ := fun k f hk => flows_at _ _ _ _ 1 k f (h2 ▸ hk)
  refine ⟨hfl, hol, ?_, ?_⟩
  · apply List.ext_getElem?
    intro k
    rw [List.getElem?_map, List.getElem?_map]
    cases hk : fs[k]? with
    | none =>
      rw [List.getElem?_eq_none_iff, hfl, ← hol, ← List.getElem?_eq_none_iff] at hk
      rw [hk]; rfl
    | some f =>
      obtain ⟨-, -, -, e, he, -⟩ := hat k f hk
      rw [he]; rfl
  · intro k f hk
    obtain ⟨a1, a2, a3, e, a4, a5⟩ := hat k f hk
    have hkl : k < ps.length := by
      rw [← hfl]; exact (List.getElem?_eq_some_iff.1 hk).1
    obtain ⟨p, hp⟩ : ∃ p, ps[k]? = some p := ⟨_, List.getElem?_eq_getElem hkl⟩
    obtain ⟨w, hw⟩ : ∃ w, v.units[k]? = some w := ⟨_, List.getElem?_eq_getElem (by rw [hv.units]; exact hkl)⟩
    obtain ⟨r, e', b1, b2, b3⟩ := Reservoir.webrrun_unit _ _ _ _ _ _ _ h1 k f.p w f.i a2 hw a3
    rw [a4] at b1
    simp only [Option.some.injEq, Prod.mk.injEq] at b1
    obtain ⟨rfl, rfl⟩ := b1
    have hpp : f.p = p.1 := by
      rw [List.getElem?_map, hp] at a2
      simpa using a2.symm
    obtain ⟨oh, bb, -, -, e1, -, -, -, -, -, -, r5, -⟩ := Reservoir.step_eq f.p w f.i _ _ b2
    refine ⟨a1, by rw [r5, a5], b3, w, e, hw, b2, a5, ?_, ?_⟩
    · rw [hpp]; exact hx.bins k p f.i hp a3
    · rw [hpp]; exact hv.bins k p w hp hw

theorem couple_sized {rx : Ent → Sol → Sol} {first : Bool} {b : Reservoir.Basin} {ps : List (Par × Site)} {v : Reservoir.St} {s : St}
    {x : List In × Reservoir.StreamIn × List Rat} {v' : Reservoir.St} {s' : St} {o : Reservoir.Out} {fs : List Flow} {n : Nat}
    (hb : b.Ok n) (hv : Sized ps n v) (hx : Fits ps x) (h : couple rx first b ps v s x = some (v', s', o, fs)) : Sized ps n v' := by
  obtain ⟨c1, c2, c3, c4⟩ := couple_units hv hx h
  obtain ⟨h1, h2, -⟩ := couple_eq h
  obtain ⟨w1, w2, w3, -, w5⟩ := Reservoir.webrrun_eq _ _ _ _ _ _ _ h1
  refine ⟨?_, ?_, ?_⟩
  · rw [w3, List.length_map, c2]
  · intro k p w hp hw
    have hkl : k < fs.length := by rw [c1]; exact (List.getElem?_eq_some_iff.1 hp).1
    obtain ⟨f, hf⟩ : ∃ f, fs[k]? = some f := ⟨_, List.getElem?_eq_getElem hkl⟩
    obtain ⟨d1, d2, d3, w0, e, d4, d5, d6, d7, d8⟩ := c4 k f hf
    rw [d3] at hw
    rw [← Option.some.inj hw]
    have hpp : f.p = p.1 := by
      have a2 := (flows_at _ _ _ _ 1 k f (h2 ▸ hf)).2.1
      rw [List.getElem?_map, hp] at a2
      simpa using a2.symm
    obtain ⟨-, -, -, i4, -⟩ := step_init f.p w0 f.i f.r e d5 d7 d8
    simp only [Rows.next, List.length_map, d2]
    rw [← hpp, ← d8, ← i4, d6, List.length_map]
  · rw [w5]
    exact (basin_streams b n hb _ _ _ _ hv.stream _ w2).1

/-- Routing. -/
theorem segLoop_routed {rx : Ent → Sol → Sol} (hd : Dry rx) (gs : List Seg) (hg : ∀ g ∈ gs, g.Ok) (s : St) (hF : Full s.sol) :
    Full (segLoop rx 1 gs s).sol ∧ (∀ k : Key, ¬ k.stream → (segLoop rx 1 gs s).sol k = s.sol k) ∧ Routed rx gs s (segLoop rx 1 gs s) := by
  obtain ⟨l1, l2, l3⟩ := segLoop_sect hd gs hg 1 (by omega) s hF
  refine ⟨l1, ?_, ?_⟩
  · intro k hk
    refine l2 k ?_ ?_
    · rintro rfl; exact hk trivial
    · intro i _
      exact ⟨by rintro rfl; exact hk trivial, by rintro rfl; exact hk trivial⟩
  · intro j g hj
    have := l3 j g hj
    rw [show 1 + j - 1 = j by omega, show 1 + j = j + 1 by omega] at this
    unfold Seg.freshMol
    simp only [at_full l1, at_full hF]
    exact this

/-- A step of the basin. -/
theorem couple_kept {rx : Ent → Sol → Sol} (hi : Inert rx) {first : Bool} {b : Reservoir.Basin} {ps : List (Par × Site)}
    {v : Reservoir.St} {s : St} {x : List In × Reservoir.StreamIn × List Rat} {v' : Reservoir.St} {s' : St} {o : Reservoir.Out}
    {fs : List Flow} {n : Nat} (hb : b.Ok n) (hv : Sized ps n v) (hx : Fits ps x) (hF : Full s.sol)
    (h : couple rx first b ps v s x = some (v', s', o, fs)) (ho : ∀ f ∈ fs, f.Ok ∧ f.Regular)
    (hg : ∀ g ∈ segs (fs.map (·.unit)) o.basin, g.Ok)
    (h9 : first = true → ∀ f ∈ fs, 0 < f.prefMax ∨ f.r.satpref.init = 0) :
    Full s'.sol ∧ inBasin true v' s' + o.basin.discharge * at_ s' (.seg true 0) =
      inBasin (!first) v s + (fs.map fun f => received f (begin first fs n s) s').sum +
        excess (!first) (segs (fs.map (·.unit)) o.basin) s s' := by
  obtain ⟨c1, c2, c3, c4⟩ := couple_units hv hx h
  obtain ⟨h1, h2, h3⟩ := couple_eq h
  obtain ⟨w1, w2, w3, -, w5⟩ := Reservoir.webrrun_eq _ _ _ _ _ _ _ h1
  obtain ⟨g1, g2, g3, -, -⟩ := basin_streams b n hb _ _ _ _ hv.stream _ w2
  have g4 := (Reservoir.basin_spec b n hb _ _ _ _ hv.stream _ w2).2.2.2.2.2.2.2.2.1
  have hsl : (segs (fs.map (·.unit)) o.basin).length = n := by rw [segs_length, g1]
  rw [hsl] at h3
  have hun : ∀ k f, fs[k]? = some f → f.unit = 1 + k := fun k f hk => (c4 k f hk).1
  obtain ⟨m1, m2, m3⟩ := units_kept hi fs (units_nodup fs 1 hun) ho (begin first fs n s) (begin_full first fs n s hF) (by
    intro f hf
    cases first with
    | true => exact (h9 rfl f hf).imp id Or.inl
    | false =>
      refine Or.inr (Or.inr ?_)
      rw [begin_hill false fs n s f hf 9 (by omega) (by omega), Flow.key, begin_true]
      rfl)
  generalize hs1 : fs.foldl (fun s f => flow rx f s) (begin first fs n s) = s1 at *
  obtain ⟨l1, l2, l3⟩ := segLoop_routed hi.1 _ hg s1 m1
  rw [← h3] at l1 l2 l3
  refine ⟨l1, ?_⟩
  have same : ∀ u (k : Key), k.of u → (k ≠ .hill false 14 1) → s'.sol k = s1.sol k := by
    intro u k hk hne
    apply l2
    intro hst
    cases k with
    | hill t i v =>
      unfold Key.stream at hst
      split at hst
      · rename_i he; exact absurd he (by simp)
      · rename_i he; exact hne he
      · exact hst
    | _ => first | exact hk | exact hst
  have hux : (List.zip (ps.map (·.1)) (List.zip x.1 (o.units.map (·.1)))).length = (fs.map (·.unit)).length := by
    simp [hx.units, c1, c2]
  have mol := stream_mol hi b n hb _ _ _ _ hv.stream _ w2 (fs.map (·.unit)) hux.symm s1 s' l3
  -- streams before
  have hseg : ∀ j, at_ s1 (.seg false j) = at_ (begin first fs n s) (.seg false j) :=
    fun j => at_congr (m2 _ fun f _ hk => hk)
  have e1 : inStream false 1 v.stream s1 = inStream (!first) 1 v.stream s := by
    apply inStream_congr
    intro i hi1 hi2
    rw [hseg, begin_seg first fs n s i hi1 (by rw [← hv.stream]; omega)]
  have e2 : overSegs (fun j g => (g.taken + g.loss) * (at_ s1 (.seg false (j + 1)) - at_ s' (.seg true j))) 0
      (segs (fs.map (·.unit)) o.basin) = excess (!first) (segs (fs.map (·.unit)) o.basin) s s' := by
    unfold excess
    apply overSegs_congr
    intro i g hgi
    have : i < n := by rw [← hsl]; exact (List.getElem?_eq_some_iff.1 hgi).1
    rw [Nat.zero_add, hseg, begin_seg first fs n s (i + 1) (by omega) (by omega)]
  -- from the hillslopes
  have e3 : overSegs (fun _ g => g.freshMol s1) 0 (segs (fs.map (·.unit)) o.basin) =
      (fs.map fun f => f.r.hill.out * at_ s' (f.key true 10)).sum := by
    rw [fresh_sum _ _ (by rw [g1]; exact g2), g4]
    have : (List.zip (ps.map (·.1)) (List.zip x.1 (o.units.map (·.1)))).map (fun u => u.2.2.hill.out) = fs.map (·.r.hill.out) := by
      have q : (List.zip (ps.map (·.1)) (List.zip x.1 (o.units.map (·.1)))).map (fun u => u.2.2) = o.units.map (·.1) := by
        have q1 : (List.zip (ps.map (·.1)) (List.zip x.1 (o.units.map (·.1)))).map Prod.snd = List.zip x.1 (o.units.map (·.1)) :=
          List.map_snd_zip (by simp [hx.units, c2])
        have q2 : (List.zip x.1 (o.units.map (·.1))).map Prod.snd = o.units.map (·.1) := List.map_snd_zip (by simp [hx.units, c2])
        rw [← q1, List.map_map] at q2
        exact q2
      have := congrArg (List.map fun r : Rows => r.hill.out) (q.trans c3.symm)
      rw [List.map_map, List.map_map] at this
      exact this
    rw [this, zip_out fs fun u => at_ s1 (.hill true 10 u)]
    congr 1
    apply List.map_congr_left
    intro f _
    rw [at_congr (same f.unit (f.key true 10) rfl (by simp [Flow.key]))]
    rfl
  -- units
  have e4 : inUnits true 1 v'.units s' = (fs.map fun f => held f (·.fin) true s').sum := by
    apply inUnits_sum
    · rw [w3, List.length_map, c1, c2]
    · intro k f w hk hw
      obtain ⟨d1, d2, d3, -⟩ := c4 k f hk
      rw [d3] at hw
      rw [← Option.some.inj hw, ← d1, held_fin f d2]
  have e5 : inUnits (!first) 1 v.units s = (fs.map fun f => held f (·.init) false (begin first fs n s)).sum := by
    apply inUnits_sum
    · rw [hv.units, c1]
    · intro k f w hk hw
      obtain ⟨d1, d2, d3, w0, e, d4, d5, d6, d7, d8⟩ := c4 k f hk
      rw [d4] at hw
      have hw0 := Option.some.inj hw
      subst hw0
      obtain ⟨i1, i2, i3, i4, i5, i6, i7⟩ := step_init f.p w0 f.i f.r e d5 d7 d8
      have hf := List.mem_of_getElem? hk
      rw [← d1]
      unfold inUnit held
      rw [overOuts_bins, d6, i4]
      rw [← inBins_congr false (!first) f.unit w0.uz (begin first fs n s) s 1 (by
        intro j j1 j2
        refine begin_bin first fs n s f hf j j1 ?_
        rw [d6, ← List.length_map (f := fun b : BinOut => b.vol.init), i4]; omega)]
      rw [begin_hill first fs n s f hf 1 (by omega) (by omega), begin_hill first fs n s f hf 2 (by omega) (by omega),
        begin_hill first fs n s f hf 4 (by omega) (by omega), begin_hill first fs n s f hf 7 (by omega) (by omega),
        begin_hill first fs n s f hf 8 (by omega) (by omega), begin_hill first fs n s f hf 9 (by omega) (by omega)]
      dsimp only
      rw [i1, i2, i3, i5, i6, i7]
  have e6 : (fs.map fun f => held f (·.fin) true s').sum + (fs.map fun f => f.r.hill.out * at_ s' (f.key true 10)).sum =
      (fs.map fun f => held f (·.init) false (begin first fs n s)).sum + (fs.map fun f => received f (begin first fs n s) s').sum := by
    rw [← sum_map_add, ← sum_map_add]
    congr 1
    apply List.map_congr_left
    intro f hf
    have hk := m3 f hf
    unfold Kept at hk
    unfold received
    have k1 : held f (·.fin) true s' = held f (·.fin) true s1 := by
      unfold held
      have q : ∀ k, at_ s' (f.key true k) = at_ s1 (f.key true k) := fun k => at_congr (same f.unit _ rfl (by simp [Flow.key]))
      have q2 : ∀ j, at_ s' (.bin true f.unit j) = at_ s1 (.bin true f.unit j) := fun j => at_congr (same f.unit _ rfl (by simp))
      simp only [q, q2]
    rw [k1, at_congr (same f.unit (f.key true 10) rfl (by simp [Flow.key])), at_congr (same f.unit (f.key true 8) rfl (by simp [Flow.key]))]
    linarith
  unfold inBasin
  rw [w5]
  rw [e1, e2, e3] at mol
  linarith

theorem excess_zero (t : Bool) (gs : List Seg) (s s' : St) (h : ∀ g ∈ gs, g.taken = 0 ∧ g.loss = 0) : excess t gs s s' = 0 := by
  unfold excess
  generalize 0 = j at *
  induction gs generalizing j with
  | nil => simp [overSegs]
  | cons g gs ih =>
    obtain ⟨h1, h2⟩ := h g List.mem_cons_self
    simp only [overSegs, h1, h2]
    rw [ih (fun g hg => h g (List.mem_cons_of_mem _ hg))]
    ring

theorem couple_smooth {rx : Ent → Sol → Sol} {first : Bool} {b : Reservoir.Basin} {ps : List (Par × Site)} {v : Reservoir.St} {s : St}
    {x : List In × Reservoir.StreamIn × List Rat} {v' : Reservoir.St} {s' : St} {o : Reservoir.Out} {fs : List Flow} {n : Nat}
    (hv : Sized ps n v) (hx : Fits ps x) (h : couple rx first b ps v s x = some (v', s', o, fs)) (hp : ∀ p ∈ ps, p.1.Ok)
    (hc : ∀ (k : Nat) p w i, ps[k]? = some p → v.units[k]? = some w → x.1[k]? = some i → i.Ok p.1 ∧ i.Pack p.1 w)
    (hf : ∀ f ∈ fs, f.Nonneg ∧ f.Regular) (hg : ∀ g ∈ segs (fs.map (·.unit)) o.basin, g.Ok) : Smooth (v', s', o, fs) := by
  refine ⟨?_, hg⟩
  intro f hm
  obtain ⟨c1, c2, c3, c4⟩ := couple_units hv hx h
  obtain ⟨-, h2, -⟩ := couple_eq h
  obtain ⟨k, hk⟩ := List.mem_iff_getElem?.1 hm
  obtain ⟨d1, d2, d3, w, e, d4, d5, d6, d7, d8⟩ := c4 k f hk
  obtain ⟨a1, a2, a3, -⟩ := flows_at _ _ _ _ 1 k f (h2 ▸ hk)
  have hkl : k < ps.length := by rw [← c1]; exact (List.getElem?_eq_some_iff.1 hk).1
  obtain ⟨p, hpk⟩ : ∃ p, ps[k]? = some p := ⟨_, List.getElem?_eq_getElem hkl⟩
  have hpp : f.p = p.1 := by
    rw [List.getElem?_map, hpk] at a2
    simpa using a2.symm
  obtain ⟨q1, q2⟩ := hc k p w f.i hpk d4 a3
  obtain ⟨n1, n2⟩ := hf f hm
  refine ⟨⟨?_, ?_, ⟨w, e, d5, d6.symm, ?_, d8⟩, n1⟩, n2⟩
  · rw [hpp]; exact hp p (List.mem_of_getElem? hpk)
  · rw [hpp]; exact q1
  · rw [hpp]; exact q2

end Verif.Transport
