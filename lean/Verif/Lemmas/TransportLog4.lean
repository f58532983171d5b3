import Verif.Lemmas.TransportLog3
/-
What the sections of a unit record: preferential flow, saturated zone, hillslope, deposition.
-/
namespace Verif.Transport
open Verif.Reservoir (Vol Rows BinOut Par In sumOf fall inch2m)

theorem qdf_log {rx : Ent → Sol → Sol} (hd : Dry rx) {f : Flow} (h : Facts f) (s : St) (hF : Full s.sol) :
    ∃ l c t, Wrote [f.key false 7] s (qdf rx f s) l ∧
      recs (f.key false 7) l = ⟨0, f.r.qdf.out * c, [(c, t)], [(f.r.qdf.init, f.r.qdf.et, f.r.qdf.fin)]⟩ ∧
      (f.r.qdf.fin + f.r.qdf.out) * c = f.r.qdf.init * mo s (f.key false 7) + f.r.qdf.uz * mo s (f.key true 13) ∧
      t = mo (qdf rx f s) (f.key true 7) := by
  have hp := h.pqdf
  have e1 : f.r.qdf.fin + f.r.qdf.out = f.r.qdf.init + f.r.qdf.inp := by rw [h.qdfFin, h.qdfOut]
  have w0 := wrote_book s (f.key true 7) f.r.qdf
  unfold qdf
  dsimp only
  split
  · next hi =>
    obtain ⟨m, hm, em⟩ := mix_vols hd [(f.key false 7, f.r.qdf.init), (f.key true 13, f.r.qdf.inp)] (f.r.qdf.init + f.r.qdf.inp) (f.key false 7)
      (f.key true 7) (by simp [Flow.key]) (by simp [Flow.key]) (.res (f.key true 7)) (book (f.key true 7) f.r.qdf s) hF
      (by have := hp.init; linarith) (pair_nonneg hp.init hp.inp) (by simp [sumOf_cons, sumOf_nil])
    simp only [List.map] at hm
    generalize mix rx (checked [(f.key false 7, f.r.qdf.init / (f.r.qdf.init + f.r.qdf.inp)), (f.key true 13, f.r.qdf.inp / (f.r.qdf.init + f.r.qdf.inp))])
      (f.key false 7) (f.key true 7) (.res (f.key true 7)) (book (f.key true 7) f.r.qdf s) = s1 at hm
    have wa := (w0.of_log hm.log).next (wrote_note s1 (f.key true 7) 3 f.r.qdf.out false false true) (K := [f.key false 7])
      (by simp [Key.row, Flow.key]) (by simp [Key.row, Flow.key])
    refine ⟨_, s1.conc, s1.tal, wa, ?_, ?_, hm.talEq hd⟩
    · rw [recs_append, show (f.key true 7).row = f.key false 7 from rfl, rec_set, rec_last]
      simp [Rec.add]
    · rw [hm.conc, e1, em, ← h.qdfIn]
      simp [sumOf_cons, sumOf_nil, mo, book_sol]
  · next hi =>
    have i0 : f.r.qdf.inp = 0 := le_antisymm (not_lt.1 hi) hp.inp
    have hm := mix_one hd (f.key false 7) (f.key false 7) (f.key true 7) (by simp [Flow.key]) (by simp [Flow.key]) (.res (f.key true 7))
      (book (f.key true 7) f.r.qdf s) hF
    generalize mix rx [(f.key false 7, 1)] (f.key false 7) (f.key true 7) (.res (f.key true 7)) (book (f.key true 7) f.r.qdf s) = s1 at hm
    have wa := (w0.of_log hm.log).next (wrote_note s1 (f.key true 7) (-1) 0 false false true) (K := [f.key false 7])
      (by simp [Key.row, Flow.key]) (by simp [Key.row, Flow.key])
    refine ⟨_, s1.conc, s1.tal, wa, ?_, ?_, hm.talEq hd⟩
    · rw [recs_append, show (f.key true 7).row = f.key false 7 from rfl, rec_set, rec_still, h.qdfOut, i0]
      simp [Rec.add]
    · rw [hm.conc, e1, ← h.qdfIn, i0]
      simp [book_sol]

theorem satIn_log {rx : Ent → Sol → Sol} (hd : Dry rx) {f : Flow} (h : Facts f) (hr : f.Regular) (s : St) (hF : Full s.sol) :
    ∃ l, Wrote [f.key false 8] s (satIn rx f s) l ∧
    recs (f.key false 8) l = ⟨fallen f.r.sat * mo s (f.key false 11) + f.r.sat.can * mo s (f.key true 1) +
      f.r.sat.melt * mo s (meltKey f s) + f.r.sat.uz * mo s (f.key true 13) + f.r.sat.gw1 * mo s (.data (f.srcGw1 + 1)) +
      f.r.sat.gw2 * mo s (.data (f.srcGw2 + 1)), 0, [], []⟩ := by
  have hp := h.psat
  obtain ⟨w1, w2, w3⟩ := hr.bypass
  have hfall : fallen f.r.sat = f.r.sat.ppt := by unfold fallen; rw [w1, w2, w3]; ring
  have hin := h.satIn
  rw [hfall] at hin
  have hgw : f.gwExt = false → f.r.sat.gw1 = 0 ∧ f.r.sat.gw2 = 0 := by
    intro hg
    rcases hr.gw with h | h
    · rw [hg] at h; exact absurd h (by simp)
    · exact h
  obtain ⟨l, wl, rl⟩ := input_note hd f true (f.key true 8) ([(f.key false 11, f.r.sat.ppt), (f.key true 1, f.r.sat.can), (meltKey f s, f.r.sat.melt),
      (f.key true 13, f.r.sat.uz)] ++ if f.gwExt then [(.data (f.srcGw1 + 1), f.r.sat.gw1), (.data (f.srcGw2 + 1), f.r.sat.gw2)]
        else [(.pure, 0), (.pure, 0)]) f.r.sat.inp s hF
    (by
      intro c hc
      have := hp.ppt; have := hp.can; have := hp.melt; have := hp.uz; have := hp.gw1; have := hp.gw2
      split at hc <;> simp only [List.cons_append, List.nil_append, List.mem_cons, List.not_mem_nil, or_false] at hc <;>
        rcases hc with rfl | rfl | rfl | rfl | rfl | rfl <;> first | assumption | exact le_refl _)
    (by
      split
      · simp only [List.cons_append, List.nil_append, sumOf_cons, sumOf_nil]; linarith
      · next hg =>
        obtain ⟨g1, g2⟩ := hgw (by simpa using hg)
        simp only [List.cons_append, List.nil_append, sumOf_cons, sumOf_nil]; linarith)
    (satIn rx f s)
    (by
      unfold satIn
      dsimp only
      cases f.gwExt <;> simp)
  refine ⟨l, wl, ?_⟩
  rw [show (f.key true 8).row = f.key false 8 from rfl] at rl
  rw [rl, hfall]
  congr 1
  cases hg : f.gwExt
  · obtain ⟨g1, g2⟩ := hgw hg
    simp only [List.cons_append, List.nil_append, sumOf_cons, sumOf_nil, Bool.false_eq_true, if_false, g1, g2]; ring
  · simp only [List.cons_append, List.nil_append, sumOf_cons, sumOf_nil, if_true]; ring

/-- What is recorded of the saturated zone; `conc` is left as it is for what follows. -/
theorem sat_log {rx : Ent → Sol → Sol} (hd : Dry rx) {f : Flow} (h : Facts f) (hr : f.Regular) (s : St) (hF : Full s.sol) :
    ∃ l t, Wrote [f.key false 8, f.key false 9] s (sat rx f s) l ∧
      recs (f.key false 8) l = ⟨fallen f.r.sat * mo s (f.key false 11) + f.r.sat.can * mo s (f.key true 1) +
        f.r.sat.melt * mo s (meltKey f s) + f.r.sat.uz * mo s (f.key true 13) + f.r.sat.gw1 * mo s (.data (f.srcGw1 + 1)) +
        f.r.sat.gw2 * mo s (.data (f.srcGw2 + 1)), (f.r.sat.out - f.sat2uz - f.well) * (sat rx f s).conc, [((sat rx f s).conc, t)],
        [(f.r.sat.init, f.r.sat.et, f.r.sat.fin)]⟩ ∧
      recs (f.key false 9) l = ⟨f.r.satpref.inp * (sat rx f s).conc, 0, [], []⟩ ∧
      (f.r.sat.fin + f.r.sat.out - f.sat2uz - f.well) * (sat rx f s).conc =
        (f.r.sat.init - f.sat2uz - f.well) * mo s (f.key false 8) + (fallen f.r.sat * mo s (f.key false 11) +
        f.r.sat.can * mo s (f.key true 1) + f.r.sat.melt * mo s (meltKey f s) + f.r.sat.uz * mo s (f.key true 13) +
        f.r.sat.gw1 * mo s (.data (f.srcGw1 + 1)) + f.r.sat.gw2 * mo s (.data (f.srcGw2 + 1))) ∧
      t = mo (sat rx f s) (f.key true 8) := by
  have hp := h.psat
  have hz := hr.defined
  have hb := h.satBal
  have hs := hr.sat
  have hin := h.satIn
  have w0 := wrote_book s (f.key true 8) f.r.sat
  rw [show (f.key true 8).row = f.key false 8 from rfl] at w0
  have := hp.fallen; have := hp.can; have := hp.melt; have := hp.uz; have := hp.gw1; have := hp.gw2; have := hp.inp; have := hp.out
  have hpi := h.ppref.inp
  have ho := h.satOut
  have := h.sat2uz; have := h.well; have := h.loss; have := h.ppref.sat; have := h.phill.sat
  have hpin := h.prefIn
  unfold sat
  dsimp only
  split
  · next ha =>
    obtain ⟨i1, i2⟩ := satIn_sect hd h hr (book (f.key true 8) f.r.sat s) hF
    obtain ⟨l1, w1, r1⟩ := satIn_log hd h hr (book (f.key true 8) f.r.sat s) hF
    rw [meltKey_eq (f := f) (show (book (f.key true 8) f.r.sat s).pulse = s.pulse from rfl)] at i2 r1
    simp only [mo, book_sol] at i2 r1
    generalize satIn rx f (book (f.key true 8) f.r.sat s) = s1 at i1 i2 w1
    have i0 : Sect [f.key true 14] s s1 := ⟨i1.full, i1.same, i1.pulse⟩
    have ht : 0 < f.r.sat.init - f.sat2uz - f.well + f.r.sat.inp := by
      rcases (show 0 ≤ f.r.sat.init - f.sat2uz - f.well + f.r.sat.inp by linarith).eq_or_lt with e | e
      · exfalso
        revert hz
        unfold Flow.zero
        simp only [decide_eq_false_iff_not, not_or]
        intro hz
        exact hz.2.2.2.2.2 ⟨ha, e.symm⟩
      · exact e
    obtain ⟨m, hm, em⟩ := mix_vols hd [(f.key false 8, f.r.sat.init - f.sat2uz - f.well), (f.key true 14, f.r.sat.inp)]
      (f.r.sat.init - f.sat2uz - f.well + f.r.sat.inp) (f.key false 8) (f.key true 8) (by simp [Flow.key]) (by simp [Flow.key])
      (.res (f.key true 8)) s1 i0.full ht (pair_nonneg (by linarith) hp.inp) (by simp [sumOf_cons, sumOf_nil])
    simp only [sumOf_cons, sumOf_nil, add_zero, mo, List.map] at em hm
    rw [i2, i0.same (f.key false 8) (by simp [Flow.key])] at em
    generalize mix rx (checked [(f.key false 8, (f.r.sat.init - f.sat2uz - f.well) / (f.r.sat.init - f.sat2uz - f.well + f.r.sat.inp)),
      (f.key true 14, f.r.sat.inp / (f.r.sat.init - f.sat2uz - f.well + f.r.sat.inp))]) (f.key false 8) (f.key true 8)
      (.res (f.key true 8)) s1 = s2 at hm
    have w2 := wrote_note s2 (f.key true 8) 3 (f.r.sat.out - f.sat2uz - f.well) false false true
    rw [show (f.key true 8).row = f.key false 8 from rfl] at w2
    generalize hs2' : note (f.key true 8) 3 (f.r.sat.out - f.sat2uz - f.well) false false true s2 = s2' at w2
    have e2' : s2'.sol = s2.sol ∧ s2'.conc = s2.conc := by rw [← hs2']; exact ⟨rfl, rfl⟩
    generalize hs3 : (if f.r.satpref.inp > 0 then note (f.key false 9) 2 f.r.satpref.inp false false false s2' else s2') = s3
    have h3 : s3.sol = s2.sol ∧ s3.conc = m ∧ ∃ l3, Wrote [f.key false 9] s2' s3 l3 ∧ recs (f.key false 9) l3 = ⟨f.r.satpref.inp * m, 0, [], []⟩ := by
      by_cases hi : f.r.satpref.inp > 0
      · rw [if_pos hi] at hs3
        have w3 := wrote_note s2' (f.key false 9) 2 f.r.satpref.inp false false false
        rw [hs3] at w3
        refine ⟨by rw [← hs3]; exact e2'.1, by rw [← hs3]; exact e2'.2.trans hm.conc, _, w3, ?_⟩
        rw [show (f.key false 9).row = f.key false 9 from rfl, rec_in, e2'.2, hm.conc]
      · rw [if_neg hi] at hs3
        rw [← hs3]
        refine ⟨e2'.1, e2'.2.trans hm.conc, [], Wrote.refl, ?_⟩
        rw [le_antisymm (not_lt.1 hi) hpi, zero_mul]; rfl
    obtain ⟨g1, g2, l3, w3, r3⟩ := h3
    have wa := w0.next w1 (K := [f.key false 8]) (by simp) (by simp)
    have wb := (wa.of_log hm.log).next w2 (K := [f.key false 8]) (by simp) (by simp)
    have wc := wb.next w3 (K := [f.key false 8, f.key false 9]) (by simp) (by simp)
    refine ⟨_, s2.tal, wc, ?_, ?_, ?_, ?_⟩
    · rw [recs_append, recs_append, recs_append, rec_set, r1, rec_last, w3.other _ (by simp [Flow.key]), g2, hm.conc]
      simp [Rec.add, Rec.none]
    · rw [recs_append, wb.other _ (by simp [Flow.key]), r3, Rec.none_add, g2]
    · have : f.r.sat.fin + f.r.sat.out - f.sat2uz - f.well = f.r.sat.init - f.sat2uz - f.well + f.r.sat.inp := by linarith
      rw [this, g2, em]
    · unfold mo; rw [g1]; exact hm.talEq hd
  · next ha =>
    simp only [not_or, not_lt] at ha
    have o0 : f.r.sat.out = 0 := le_antisymm ha.1 hp.out
    have i0 : f.r.sat.inp = 0 := le_antisymm ha.2 hp.inp
    have z1 : f.sat2uz = 0 := by linarith
    have z2 : f.well = 0 := by linarith
    have z3 : f.r.satpref.inp = 0 := by linarith
    have hm := mix_one hd (f.key false 8) (f.key false 8) (f.key true 8) (by simp [Flow.key]) (by simp [Flow.key]) (.res (f.key true 8))
      (book (f.key true 8) f.r.sat s) hF
    generalize mix rx [(f.key false 8, 1)] (f.key false 8) (f.key true 8) (.res (f.key true 8)) (book (f.key true 8) f.r.sat s) = s1 at hm
    have w1 := wrote_note s1 (f.key true 8) (-1) 0 false false true
    rw [show (f.key true 8).row = f.key false 8 from rfl] at w1
    have wa := (w0.of_log hm.log).next w1 (K := [f.key false 8, f.key false 9]) (by simp) (by simp)
    have e1 : fallen f.r.sat = 0 := by linarith
    have e2 : f.r.sat.can = 0 := by linarith
    have e3 : f.r.sat.melt = 0 := by linarith
    have e4 : f.r.sat.uz = 0 := by linarith
    have e5 : f.r.sat.gw1 = 0 := by linarith
    have e6 : f.r.sat.gw2 = 0 := by linarith
    have ec : (note (f.key true 8) (-1) 0 false false true s1).conc = s1.conc := rfl
    refine ⟨_, s1.tal, wa, ?_, ?_, ?_, hm.talEq hd⟩
    · rw [recs_append, rec_set, rec_still, e1, e2, e3, e4, e5, e6, z1, z2, o0, ec]
      simp [Rec.add]
    · rw [recs_append, w0.other _ (by simp [Flow.key]), w1.other _ (by simp [Flow.key]), z3, Rec.add_none, zero_mul]; rfl
    · rw [ec, hm.conc, e1, e2, e3, e4, e5, e6, z1, z2, hb, i0]
      simp [book_sol]

theorem gwLoss_log {f : Flow} (h : Facts f) (s : St) :
    ∃ l, (gwLoss f s).log = s.log ++ l ∧ (∀ k, recs k l = .none) ∧ gws f.unit l = (0, f.p.vol f.i.gwLoss * s.conc) := by
  unfold gwLoss
  dsimp only
  split
  · refine ⟨_, rfl, fun k => ?_, ?_⟩
    · simp [recs_cons, recs_nil, Ev.one, Ev.into, Ev.from, Ev.reaction, Ev.volumes, Rec.none, Rec.add]
    · simp [gws, recEnter, recLeave, Ev.enters, Ev.leaves]
  · next hv =>
    refine ⟨[], by simp, fun _ => rfl, ?_⟩
    rw [le_antisymm (not_lt.1 hv) h.loss, zero_mul]; rfl

theorem satpref_log {rx : Ent → Sol → Sol} (hd : Dry rx) {f : Flow} (h : Facts f) (s : St) (hF : Full s.sol) :
    ∃ l, Wrote [f.key false 9] s (satpref rx f s) l ∧
      (0 < f.prefMax → ∃ c t, recs (f.key false 9) l = ⟨0, f.r.satpref.out * c, [(c, t)], [(f.r.satpref.init, f.r.satpref.et, f.r.satpref.fin)]⟩ ∧
      (f.r.satpref.fin + f.r.satpref.out) * c = f.r.satpref.init * mo s (f.key false 9) + f.r.satpref.sat * mo s (f.key true 8) ∧
      t = mo (satpref rx f s) (f.key true 9)) ∧
      (¬ 0 < f.prefMax → recs (f.key false 9) l = ⟨0, 0, [], [(f.r.satpref.init, f.r.satpref.et, f.r.satpref.fin)]⟩) := by
  have hp := h.ppref
  have e1 : f.r.satpref.fin + f.r.satpref.out = f.r.satpref.init + f.r.satpref.inp := by rw [h.prefFin, h.prefOut]
  have w0 := wrote_book s (f.key true 9) f.r.satpref
  unfold satpref
  dsimp only
  split
  · next hpm =>
    split
    · next hi =>
      obtain ⟨m, hm, em⟩ := mix_vols hd [(f.key false 9, f.r.satpref.init), (f.key true 8, f.r.satpref.inp)] (f.r.satpref.init + f.r.satpref.inp)
        (f.key false 9) (f.key true 9) (by simp [Flow.key]) (by simp [Flow.key]) (.res (f.key true 9)) (book (f.key true 9) f.r.satpref s) hF
        (by have := hp.init; linarith) (pair_nonneg hp.init hp.inp) (by simp [sumOf_cons, sumOf_nil])
      simp only [List.map] at hm
      generalize mix rx (checked [(f.key false 9, f.r.satpref.init / (f.r.satpref.init + f.r.satpref.inp)),
        (f.key true 8, f.r.satpref.inp / (f.r.satpref.init + f.r.satpref.inp))]) (f.key false 9) (f.key true 9) (.res (f.key true 9))
        (book (f.key true 9) f.r.satpref s) = s1 at hm
      have wa := (w0.of_log hm.log).next (wrote_note s1 (f.key true 9) 3 f.r.satpref.out false false true) (K := [f.key false 9])
        (by simp [Key.row, Flow.key]) (by simp [Key.row, Flow.key])
      refine ⟨_, wa, fun _ => ⟨s1.conc, s1.tal, ?_, ?_, hm.talEq hd⟩, fun h0 => absurd hpm h0⟩
      · rw [recs_append, show (f.key true 9).row = f.key false 9 from rfl, rec_set, rec_last]
        simp [Rec.add]
      · rw [hm.conc, e1, em, ← h.prefIn]
        simp [sumOf_cons, sumOf_nil, mo, book_sol]
    · next hi =>
      have i0 : f.r.satpref.inp = 0 := le_antisymm (not_lt.1 hi) hp.inp
      have hm := mix_one hd (f.key false 9) (f.key true 9) (f.key true 9) (by simp [Flow.key]) (by simp [Flow.key]) (.res (f.key true 9))
        (book (f.key true 9) f.r.satpref s) hF
      generalize mix rx [(f.key false 9, 1)] (f.key true 9) (f.key true 9) (.res (f.key true 9)) (book (f.key true 9) f.r.satpref s) = s1 at hm
      have wa := (w0.of_log hm.log).next (wrote_note s1 (f.key true 9) (-1) 0 false false true) (K := [f.key false 9])
        (by simp [Key.row, Flow.key]) (by simp [Key.row, Flow.key])
      refine ⟨_, wa, fun _ => ⟨s1.conc, s1.tal, ?_, ?_, hm.talEq hd⟩, fun h0 => absurd hpm h0⟩
      · rw [recs_append, show (f.key true 9).row = f.key false 9 from rfl, rec_set, rec_still, h.prefOut, i0]
        simp [Rec.add]
      · rw [hm.conc, e1, ← h.prefIn, i0]
        simp [book_sol]
  · next hn => exact ⟨_, w0, fun h0 => absurd h0 hn, fun _ => by rw [show (f.key true 9).row = f.key false 9 from rfl, rec_set]⟩

theorem hill_log {rx : Ent → Sol → Sol} (hd : Dry rx) {f : Flow} (h : Facts f) (s : St) (hF : Full s.sol) :
    ∃ l, Wrote [f.key false 10] s (hill rx f s) l ∧
      recs (f.key false 10) l = ⟨0, f.r.hill.out * mo (hill rx f s) (f.key true 10), [], []⟩ := by
  have hp := h.phill
  have hin := h.hillIn
  have := hp.ohoriz; have := hp.qdf; have := hp.sat; have := hp.satpref
  unfold hill
  dsimp only
  split
  · next hi =>
    obtain ⟨m, hm, -⟩ := mix_vols hd [(f.key true 4, f.r.hill.ohoriz), (f.key true 7, f.r.hill.qdf), (f.key true 8, f.r.hill.sat),
        (f.key true 9, f.r.hill.satpref)] f.r.hill.inp (f.key true 10) (f.key true 10) (by simp [Flow.key]) (by simp [Flow.key]) .no s hF hi.2
      (by
        intro c hc
        simp only [List.mem_cons, List.not_mem_nil, or_false] at hc
        rcases hc with rfl | rfl | rfl | rfl <;> assumption)
      (by simp only [sumOf_cons, sumOf_nil]; linarith)
    simp only [List.map] at hm
    generalize mix rx (checked [(f.key true 4, f.r.hill.ohoriz / f.r.hill.inp), (f.key true 7, f.r.hill.qdf / f.r.hill.inp),
      (f.key true 8, f.r.hill.sat / f.r.hill.inp), (f.key true 9, f.r.hill.satpref / f.r.hill.inp)]) (f.key true 10) (f.key true 10) .no s = s1 at hm
    have w1 := wrote_note s1 (f.key true 10) 3 f.r.hill.inp true false false
    rw [show (f.key true 10).row = f.key false 10 from rfl] at w1
    refine ⟨_, ⟨by rw [w1.log, hm.log], w1.other, w1.gw⟩, ?_⟩
    rw [rec_out, hm.conc, h.hillOut]
    congr 2
    exact hm.destNo.symm
  · next hi =>
    have h0 : f.r.hill.inp = 0 := by
      rw [h.hillOut] at hi
      exact le_antisymm (not_lt.1 fun hh => hi ⟨hh, hh⟩) hp.inp
    refine ⟨[], Wrote.refl, ?_⟩
    rw [h.hillOut, h0, zero_mul]; rfl

/-- Solutions that are not the unit's: of the chemistry data. -/
def Key.given : Key → Bool
  | .data _ => true
  | _ => false

theorem readAll_log {rx : Ent → Sol → Sol} (hd : Dry rx) (l : List (Key × Rat × Int × Bool × Bool)) (hk : ∀ c ∈ l, c.1 ≠ .pure)
    (hr : ∀ c ∈ l, c.1.row = c.1 ∧ c.2.2.1 = if c.1.given then 2 else 3) (s : St) (hF : Full s.sol) :
    ∃ l', (l.foldl (fun s c => readOff rx c.1 c.2.2.1 c.2.1 c.2.2.2.1 c.2.2.2.2 s) s).log = s.log ++ l' ∧ (∀ u, gws u l' = (0, 0)) ∧
    ∀ k, recs k l' = ⟨sumOf (fun c => c.2.1 * if k = c.1 ∧ c.1.given = true then mo s c.1 else 0) l,
      sumOf (fun c => c.2.1 * if k = c.1 ∧ c.1.given = false then mo s c.1 else 0) l, [], []⟩ := by
  induction l generalizing s with
  | nil => exact ⟨[], by simp, fun _ => rfl, fun k => by simp [sumOf_nil]; rfl⟩
  | cons a l ih =>
    have h1 := readOff_same hd a.1 (hk a List.mem_cons_self) a.2.2.1 a.2.1 a.2.2.2.1 a.2.2.2.2 s hF
    obtain ⟨l2, e2, g2, r2⟩ := ih (fun c hc => hk c (List.mem_cons_of_mem _ hc)) (fun c hc => hr c (List.mem_cons_of_mem _ hc))
      (readOff rx a.1 a.2.2.1 a.2.1 a.2.2.2.1 a.2.2.2.2 s) (h1.1 ▸ hF)
    obtain ⟨u1, u2, u3, u4⟩ := mix_self hd a.1 (hk a List.mem_cons_self) s hF
    obtain ⟨q1, q2⟩ := hr a List.mem_cons_self
    have w : Wrote [a.1] s (readOff rx a.1 a.2.2.1 a.2.1 a.2.2.2.1 a.2.2.2.2 s)
        [.call a.1 a.2.2.1 a.2.1 (mix rx [(a.1, 1)] a.1 a.1 .no s).conc (mix rx [(a.1, 1)] a.1 a.1 .no s).tal a.2.2.2.1 a.2.2.2.2 false] := by
      unfold readOff
      rw [checked_one]
      have w := wrote_note (mix rx [(a.1, 1)] a.1 a.1 .no s) a.1 a.2.2.1 a.2.1 a.2.2.2.1 a.2.2.2.2 false
      rw [q1] at w
      exact ⟨by rw [w.log, u4], w.other, w.gw⟩
    refine ⟨[.call a.1 a.2.2.1 a.2.1 (mix rx [(a.1, 1)] a.1 a.1 .no s).conc (mix rx [(a.1, 1)] a.1 a.1 .no s).tal a.2.2.2.1 a.2.2.2.2
      false] ++ l2, by rw [List.foldl_cons, e2, w.log, List.append_assoc], fun u => by rw [gws_append, w.gw, g2]; simp, fun k => ?_⟩
    rw [recs_append, r2 k, sumOf_cons, sumOf_cons]
    simp only [mo, h1.1]
    by_cases hka : k = a.1
    · subst hka
      cases hg : a.1.given
      · rw [q2, hg, if_neg (by simp), rec_out, u2]; simp [Rec.add, mo]
      · rw [q2, hg, if_pos rfl, rec_in, u2]; simp [Rec.add, mo]
    · rw [w.other k (by simpa using hka), Rec.none_add]; simp [hka]

theorem sources_row (f : Flow) : ∀ c ∈ sources f, c.1.row = c.1 ∧ c.2.2.1 = if c.1.given then 2 else 3 := by
  intro c hc
  unfold sources at hc
  simp only [List.mem_append] at hc
  rcases hc with ((hc | hc) | hc) | hc <;> split at hc <;> simp at hc <;> subst hc <;> simp [Flow.key, Key.row, Key.given]

/-- Without deposition there is none of its parts. -/
theorem Flow.Ok.noDep {f : Flow} (h : f.Ok) (h0 : f.i.dep = 0) :
    f.r.mru.ppt = 0 ∧ f.r.mru.ext = 0 ∧ f.r.mru.well = 0 ∧ f.r.mru.div = 0 := by
  obtain ⟨hp, he, hw, hv⟩ := h.facts.mru
  obtain ⟨a, b, c, d⟩ := h.fluxes.falling
  have hD := h.fluxes.dep
  rw [h0] at hD
  have q : f.i.ppt = 0 ∧ (if f.p.external then f.i.irrExt else 0) = 0 ∧ (if f.p.internal then f.i.irrSat else 0) = 0 ∧
      (if f.p.internal then f.i.irrHyd else 0) = 0 := by
    by_cases hi : f.p.internal = true <;> by_cases hx : f.p.external = true <;>
      simp only [hi, hx, ↓reduceIte, Bool.false_eq_true] at hD ⊢ <;> refine ⟨?_, ?_, ?_, ?_⟩ <;> first | trivial | linarith
  rw [hp, he, hw, hv, q.1, q.2.1, q.2.2.1, q.2.2.2]
  simp

/-- What is recorded of deposition. -/
theorem deposit_log {rx : Ent → Sol → Sol} (hd : Dry rx) {f : Flow} (h : f.Ok) (s : St) (hF : Full s.sol) :
    ∃ l, (deposit rx f s).log = s.log ++ l ∧ (∀ u, gws u l = (0, 0)) ∧
      (∀ k, k ∉ [f.key false 11, .data 1, .data (f.srcExt + 1), f.key false 8, .seg false f.srcInt] → recs k l = .none) ∧
      recs (f.key false 11) l = ⟨fallenMol f s, 0, [], []⟩ ∧
      recs (f.key false 8) l = ⟨0, f.well * mo s (f.key false 8), [], []⟩ ∧
      recs (.seg false f.srcInt) l = ⟨0, f.r.mru.div * mo s (.seg false f.srcInt), [], []⟩ ∧
      (f.srcExt ≠ 0 → recs (.data 1) l = ⟨f.r.mru.ppt * mo s (.data 1), 0, [], []⟩ ∧
        recs (.data (f.srcExt + 1)) l = ⟨f.r.mru.ext * mo s (.data (f.srcExt + 1)), 0, [], []⟩) := by
  have hk : f.key false 11 ≠ .pure := by simp [Flow.key]
  have hu := h.unit_pos
  have hdep' : f.dep = f.i.dep * (f.p.area * inch2m * Reservoir.million) := by unfold Flow.dep; ring
  unfold deposit
  split
  · next hpos =>
    have hdp : 0 < f.dep := by rw [hdep']; exact mul_pos hpos hu
    obtain ⟨v1, v2, v3⟩ := sources_vol h hpos
    obtain ⟨r1, r2⟩ := readAll_same hd (sources f) (sources_pure f) s hF
    obtain ⟨l1, e1, g1, q1⟩ := readAll_log hd (sources f) (sources_pure f) (sources_row f) s hF
    dsimp only
    generalize hs1 : (sources f).foldl (fun s c => readOff rx c.1 c.2.2.1 c.2.1 c.2.2.2.1 c.2.2.2.2 s) s = s1 at r1 r2 e1
    have hF1 : Full s1.sol := r1 ▸ hF
    obtain ⟨m, hm, hm2⟩ := mix_vols hd ((sources f).map fun c => (c.1, c.2.1)) f.dep (f.key false 11) (f.key false 11) hk hk .atm s1 hF1 hdp
      (by intro c hc; obtain ⟨x, hx, rfl⟩ := List.mem_map.1 hc; exact v1 x hx)
      (by rw [Reservoir.sumOf_map]; exact v2)
    rw [List.map_map] at hm
    rw [Reservoir.sumOf_map] at hm2
    have q : ∀ k, recs k l1 = _ := fun k => by
      rw [q1 k, v3 fun k' => if k = k' ∧ k'.given = true then mo s k' else 0,
        v3 fun k' => if k = k' ∧ k'.given = false then mo s k' else 0]
    have e : (mix rx (checked ((sources f).map fun c => (c.1, c.2.1 / f.dep))) (f.key false 11) (f.key false 11) .atm s1).conc = m := hm.conc
    have e' : (mix rx (checked ((sources f).map fun c => (c.1, c.2.1 / f.dep))) (f.key false 11) (f.key false 11) .atm s1).log = s1.log := hm.log
    generalize mix rx (checked ((sources f).map fun c => (c.1, c.2.1 / f.dep))) (f.key false 11) (f.key false 11) .atm s1 = s2 at e e'
    have w2 := wrote_note s2 (f.key false 11) 2 f.dep true true false
    rw [show (f.key false 11).row = f.key false 11 from rfl] at w2
    have tot : f.dep * m = fallenMol f s := by
      rw [hm2]
      unfold mo
      rw [r1, v3 fun k => (s.sol k).mol]
      unfold fallenMol
      simp only [at_full hF]
    refine ⟨l1 ++ _, by rw [w2.log, e', e1, List.append_assoc], fun u => by rw [gws_append, w2.gw, g1]; simp, fun k hk => ?_, ?_, ?_, ?_, ?_⟩
    · simp only [List.mem_cons, List.not_mem_nil, or_false, not_or] at hk
      rw [recs_append, w2.other k (by simpa using hk.1), Rec.add_none, q]
      simp [hk, Rec.none]
    · rw [recs_append, q, rec_in, e, tot]
      simp [Rec.add, Flow.key]
    · rw [recs_append, q, w2.other _ (by simp [Flow.key]), Rec.add_none]
      simp [Flow.key, Key.given, ← h.facts.wellIs]
    · rw [recs_append, q, w2.other _ (by simp [Flow.key]), Rec.add_none]
      simp [Flow.key, Key.given]
    · intro hx
      constructor
      · rw [recs_append, q, w2.other _ (by simp [Flow.key]), Rec.add_none]
        have : ¬ 1 = f.srcExt + 1 := by omega
        simp [Flow.key, Key.given, this, hx, Ne.symm hx]
      · rw [recs_append, q, w2.other _ (by simp [Flow.key]), Rec.add_none]
        simp [Flow.key, Key.given, hx]
  · next hpos =>
    have h0 : f.i.dep = 0 := le_antisymm (not_lt.1 hpos) h.dep_pos
    obtain ⟨z1, z2, z3, z4⟩ := h.noDep h0
    have hw := h.facts.wellIs
    unfold fallenMol
    rw [z1, z2, z4, ← hw, z3]
    refine ⟨[], by simp, fun _ => rfl, fun _ _ => rfl, ?_⟩
    simp [recs_nil, Rec.none]

/-- What is recorded of groundwater from outside. -/
theorem gwInput_log {rx : Ent → Sol → Sol} (hd : Dry rx) {f : Flow} (h : Facts f) (s : St) (hF : Full s.sol) :
    ∃ l, (gwInput rx f s).log = s.log ++ l ∧ (∀ k, recs k l = .none) ∧
      gws f.unit l = (f.r.sat.gw1 * mo s (.data (f.srcGw1 + 1)) + f.r.sat.gw2 * mo s (.data (f.srcGw2 + 1)), 0) := by
  have hk : f.key false 14 ≠ .pure := by simp [Flow.key]
  unfold gwInput
  dsimp only
  split
  · next hv =>
    obtain ⟨m, hm, em⟩ := mix_vols hd [(.data (f.srcGw1 + 1), f.r.sat.gw1), (.data (f.srcGw2 + 1), f.r.sat.gw2)] (f.r.sat.gw1 + f.r.sat.gw2)
      (f.key false 14) (f.key false 14) hk hk .no s hF hv
      (by
        intro c hc
        simp only [List.mem_cons, List.not_mem_nil, or_false] at hc
        rcases hc with rfl | rfl
        · exact h.psat.gw1
        · exact h.psat.gw2)
      (by simp [sumOf_cons, sumOf_nil])
    simp only [List.map] at hm
    refine ⟨_, by rw [hm.log], fun k => ?_, ?_⟩
    · simp [recs_cons, recs_nil, Ev.one, Ev.into, Ev.from, Ev.reaction, Ev.volumes, Rec.none, Rec.add]
    · rw [hm.conc]
      simp only [gws, recEnter, recLeave, Ev.enters, Ev.leaves, List.map, List.sum_cons, List.sum_nil, if_true]
      rw [em]
      simp [sumOf_cons, sumOf_nil]
  · next hv =>
    have h1 := h.psat.gw1
    have h2 := h.psat.gw2
    have e1 : f.r.sat.gw1 = 0 := by linarith
    have e2 : f.r.sat.gw2 = 0 := by linarith
    refine ⟨[], by simp, fun _ => rfl, ?_⟩
    rw [e1, e2]; simp [gws, recEnter, recLeave]

end Verif.Transport
