import Verif.Lemmas.TransportUnit4
/-
The sections of a unit: preferential flow, saturated zone, hillslope.
-/
namespace Verif.Transport
open Verif.Reservoir (Vol Rows BinOut Par In sumOf fall inch2m)

theorem pair_nonneg {k k' : Key} {a b : Rat} (ha : 0 ≤ a) (hb : 0 ≤ b) : ∀ c ∈ [(k, a), (k', b)], 0 ≤ c.2 := by
  intro c hc
  simp only [List.mem_cons, List.not_mem_nil, or_false] at hc
  rcases hc with rfl | rfl
  · exact ha
  · exact hb

theorem qdf_sect {rx : Ent → Sol → Sol} (hd : Dry rx) {f : Flow} (h : Facts f) (s : St) (hF : Full s.sol) :
    Sect [f.key false 7, f.key true 7] s (qdf rx f s) ∧
    Taken rx (.res (f.key true 7)) (f.r.qdf.fin + f.r.qdf.out) (mo (qdf rx f s) (f.key true 7))
      (f.r.qdf.init * mo s (f.key false 7) + f.r.qdf.uz * mo s (f.key true 13)) := by
  have hp := h.pqdf
  have e1 : f.r.qdf.fin + f.r.qdf.out = f.r.qdf.init + f.r.qdf.inp := by rw [h.qdfFin, h.qdfOut]
  unfold qdf
  dsimp only
  split
  · next hi =>
    obtain ⟨m, hm, em⟩ := mix_vols hd [(f.key false 7, f.r.qdf.init), (f.key true 13, f.r.qdf.inp)] (f.r.qdf.init + f.r.qdf.inp) (f.key false 7)
      (f.key true 7) (by simp [Flow.key]) (by simp [Flow.key]) (.res (f.key true 7)) (book (f.key true 7) f.r.qdf s) hF
      (by have := hp.init; linarith) (pair_nonneg hp.init hp.inp) (by simp [sumOf_cons, sumOf_nil])
    refine ⟨(Sect.refl (l := []) hF).next hm.sect rfl rfl rfl rfl (by simp) (by simp), m, fun _ => hm.destRx hd (by simp), ?_⟩
    rw [e1, em, ← h.qdfIn]
    simp [sumOf_cons, sumOf_nil, mo, book_sol]
  · next hi =>
    have i0 : f.r.qdf.inp = 0 := le_antisymm (not_lt.1 hi) hp.inp
    have hm := mix_one hd (f.key false 7) (f.key false 7) (f.key true 7) (by simp [Flow.key]) (by simp [Flow.key]) (.res (f.key true 7))
      (book (f.key true 7) f.r.qdf s) hF
    refine ⟨(Sect.refl (l := []) hF).next hm.sect rfl rfl rfl rfl (by simp) (by simp), _, fun _ => hm.destRx hd (by simp), ?_⟩
    rw [e1, ← h.qdfIn, i0]
    simp [book_sol]

theorem satIn_sect {rx : Ent → Sol → Sol} (hd : Dry rx) {f : Flow} (h : Facts f) (hr : f.Regular) (s : St) (hF : Full s.sol) :
    Sect [f.key true 14] s (satIn rx f s) ∧
    f.r.sat.inp * mo (satIn rx f s) (f.key true 14) = fallen f.r.sat * mo s (f.key false 11) + f.r.sat.can * mo s (f.key true 1) +
      f.r.sat.melt * mo s (meltKey f s) + f.r.sat.uz * mo s (f.key true 13) + f.r.sat.gw1 * mo s (.data (f.srcGw1 + 1)) +
      f.r.sat.gw2 * mo s (.data (f.srcGw2 + 1)) := by
  have hp := h.psat
  obtain ⟨w1, w2, w3⟩ := hr.bypass
  have hfall : fallen f.r.sat = f.r.sat.ppt := by unfold fallen; rw [w1, w2, w3]; ring
  have hin := h.satIn
  rw [hfall] at hin
  have hgw : f.gwExt = false → f.r.sat.gw1 = 0 ∧ f.r.sat.gw2 = 0 := by
    intro hg
    rcases hr.gw with h | h
    · rw [hg] at h; exact absurd h (by simp)
    · exact h
  have key := input_sect hd f true ([(f.key false 11, f.r.sat.ppt), (f.key true 1, f.r.sat.can), (meltKey f s, f.r.sat.melt),
      (f.key true 13, f.r.sat.uz)] ++ if f.gwExt then [(.data (f.srcGw1 + 1), f.r.sat.gw1), (.data (f.srcGw2 + 1), f.r.sat.gw2)]
        else [(.pure, 0), (.pure, 0)]) f.r.sat.inp s hF
    (by
      intro c hc
      have := hp.ppt; have := hp.can; have := hp.melt; have := hp.uz; have := hp.gw1; have := hp.gw2
      split at hc <;> simp only [List.cons_append, List.nil_append, List.mem_cons, List.not_mem_nil, or_false] at hc <;>
        rcases hc with rfl | rfl | rfl | rfl | rfl | rfl <;> first | assumption | exact le_refl _)
    (by
      split
      · simp only [List.cons_append, List.nil_append, sumOf_cons, sumOf_nil]; linarith
      · next hg =>
        obtain ⟨g1, g2⟩ := hgw (by simpa using hg)
        simp only [List.cons_append, List.nil_append, sumOf_cons, sumOf_nil]; linarith)
    (satIn rx f s)
    (by
      intro h0
      unfold satIn
      dsimp only
      rw [if_pos h0, note_sol, note_pulse]
      refine ⟨?_, rfl⟩
      cases f.gwExt <;> simp)
    (by intro h0; unfold satIn; dsimp only; rw [if_neg h0])
  refine ⟨key.1, ?_⟩
  rw [key.2, hfall]
  cases hg : f.gwExt
  · obtain ⟨g1, g2⟩ := hgw hg
    simp only [List.cons_append, List.nil_append, sumOf_cons, sumOf_nil, Bool.false_eq_true, if_false, g1, g2]; ring
  · simp only [List.cons_append, List.nil_append, sumOf_cons, sumOf_nil, if_true]; ring

theorem sat_sect {rx : Ent → Sol → Sol} (hd : Dry rx) {f : Flow} (h : Facts f) (hr : f.Regular) (s : St) (hF : Full s.sol) :
    Sect [f.key true 14, f.key false 8, f.key true 8] s (sat rx f s) ∧
    Taken rx (.res (f.key true 8)) (f.r.sat.fin + f.r.sat.out - f.sat2uz - f.well) (mo (sat rx f s) (f.key true 8))
      ((f.r.sat.init - f.sat2uz - f.well) * mo s (f.key false 8) + fallen f.r.sat * mo s (f.key false 11) +
        f.r.sat.can * mo s (f.key true 1) + f.r.sat.melt * mo s (meltKey f s) + f.r.sat.uz * mo s (f.key true 13) +
        f.r.sat.gw1 * mo s (.data (f.srcGw1 + 1)) + f.r.sat.gw2 * mo s (.data (f.srcGw2 + 1))) := by
  have hp := h.psat
  have hz := hr.defined
  have hb := h.satBal
  have hs := hr.sat
  have hin := h.satIn
  have := hp.fallen; have := hp.can; have := hp.melt; have := hp.uz; have := hp.gw1; have := hp.gw2; have := hp.inp; have := hp.out
  unfold sat
  dsimp only
  split
  · next ha =>
    obtain ⟨i1, i2⟩ := satIn_sect hd h hr (book (f.key true 8) f.r.sat s) hF
    rw [meltKey_eq (f := f) (show (book (f.key true 8) f.r.sat s).pulse = s.pulse from rfl)] at i2
    simp only [mo, book_sol] at i2
    generalize satIn rx f (book (f.key true 8) f.r.sat s) = s1 at i1 i2
    have i0 : Sect [f.key true 14] s s1 := ⟨i1.full, i1.same, i1.pulse⟩
    have ht : 0 < f.r.sat.init - f.sat2uz - f.well + f.r.sat.inp := by
      rcases (show 0 ≤ f.r.sat.init - f.sat2uz - f.well + f.r.sat.inp by linarith).eq_or_lt with e | e
      · exfalso
        revert hz
        unfold Flow.zero
        simp only [decide_eq_false_iff_not, not_or]
        intro hz
        exact hz.2.2.2.2.2 ⟨ha, e.symm⟩
      · exact e
    obtain ⟨m, hm, em⟩ := mix_vols hd [(f.key false 8, f.r.sat.init - f.sat2uz - f.well), (f.key true 14, f.r.sat.inp)]
      (f.r.sat.init - f.sat2uz - f.well + f.r.sat.inp) (f.key false 8) (f.key true 8) (by simp [Flow.key]) (by simp [Flow.key])
      (.res (f.key true 8)) s1 i0.full ht (pair_nonneg (by linarith) hp.inp) (by simp [sumOf_cons, sumOf_nil])
    simp only [sumOf_cons, sumOf_nil, add_zero, mo, List.map] at em hm
    rw [i2, i0.same (f.key false 8) (by simp [Flow.key])] at em
    generalize mix rx (checked [(f.key false 8, (f.r.sat.init - f.sat2uz - f.well) / (f.r.sat.init - f.sat2uz - f.well + f.r.sat.inp)),
      (f.key true 14, f.r.sat.inp / (f.r.sat.init - f.sat2uz - f.well + f.r.sat.inp))]) (f.key false 8) (f.key true 8)
      (.res (f.key true 8)) s1 = s2 at hm
    generalize hs3 : (if f.r.satpref.inp > 0 then note (f.key false 9) 2 f.r.satpref.inp false false false
      (note (f.key true 8) 3 (f.r.sat.out - f.sat2uz - f.well) false false true s2) else
      note (f.key true 8) 3 (f.r.sat.out - f.sat2uz - f.well) false false true s2) = s3
    have h3 : s3.sol = s2.sol ∧ s3.pulse = s2.pulse := by rw [← hs3]; split <;> exact ⟨rfl, rfl⟩
    refine ⟨i0.next hm.sect rfl rfl h3.1 h3.2 (by simp) (by simp), m, fun _ => ?_, ?_⟩
    · unfold mo; rw [h3.1]; exact hm.destRx hd (by simp)
    · have : f.r.sat.fin + f.r.sat.out - f.sat2uz - f.well = f.r.sat.init - f.sat2uz - f.well + f.r.sat.inp := by linarith
      rw [this, em]
      unfold mo; ring
  · next ha =>
    simp only [not_or, not_lt] at ha
    have o0 : f.r.sat.out = 0 := le_antisymm ha.1 hp.out
    have i0 : f.r.sat.inp = 0 := le_antisymm ha.2 hp.inp
    have ho := h.satOut
    have := h.sat2uz; have := h.well; have := h.loss; have := h.ppref.sat; have := h.phill.sat
    have z1 : f.sat2uz = 0 := by linarith
    have z2 : f.well = 0 := by linarith
    have hm := mix_one hd (f.key false 8) (f.key false 8) (f.key true 8) (by simp [Flow.key]) (by simp [Flow.key]) (.res (f.key true 8))
      (book (f.key true 8) f.r.sat s) hF
    refine ⟨(Sect.refl (l := []) hF).next hm.sect rfl rfl rfl rfl (by simp) (by simp), _, fun _ => hm.destRx hd (by simp), ?_⟩
    have e1 : fallen f.r.sat = 0 := by linarith
    have e2 : f.r.sat.can = 0 := by linarith
    have e3 : f.r.sat.melt = 0 := by linarith
    have e4 : f.r.sat.uz = 0 := by linarith
    have e5 : f.r.sat.gw1 = 0 := by linarith
    have e6 : f.r.sat.gw2 = 0 := by linarith
    rw [e1, e2, e3, e4, e5, e6, z1, z2, hb, i0]
    simp [book_sol]

theorem gwLoss_sect (f : Flow) (s : St) (hF : Full s.sol) : Sect [] s (gwLoss f s) := by
  unfold gwLoss
  dsimp only
  split
  · exact (Sect.refl hF).of_sol rfl rfl
  · exact Sect.refl hF

theorem satpref_sect {rx : Ent → Sol → Sol} (hd : Dry rx) {f : Flow} (h : Facts f) (s : St) (hF : Full s.sol) :
    Sect [f.key false 9, f.key true 9] s (satpref rx f s) ∧
    (0 < f.prefMax → Taken rx (.res (f.key true 9)) (f.r.satpref.fin + f.r.satpref.out) (mo (satpref rx f s) (f.key true 9))
      (f.r.satpref.init * mo s (f.key false 9) + f.r.satpref.sat * mo s (f.key true 8))) ∧
    (¬ 0 < f.prefMax → (satpref rx f s).sol = s.sol) := by
  have hp := h.ppref
  have e1 : f.r.satpref.fin + f.r.satpref.out = f.r.satpref.init + f.r.satpref.inp := by rw [h.prefFin, h.prefOut]
  unfold satpref
  dsimp only
  split
  · next hpm =>
    split
    · next hi =>
      obtain ⟨m, hm, em⟩ := mix_vols hd [(f.key false 9, f.r.satpref.init), (f.key true 8, f.r.satpref.inp)] (f.r.satpref.init + f.r.satpref.inp)
        (f.key false 9) (f.key true 9) (by simp [Flow.key]) (by simp [Flow.key]) (.res (f.key true 9)) (book (f.key true 9) f.r.satpref s) hF
        (by have := hp.init; linarith) (pair_nonneg hp.init hp.inp) (by simp [sumOf_cons, sumOf_nil])
      refine ⟨(Sect.refl (l := []) hF).next hm.sect rfl rfl rfl rfl (by simp) (by simp), fun _ => ⟨m, fun _ => hm.destRx hd (by simp), ?_⟩, fun hn => absurd hpm hn⟩
      rw [e1, em, ← h.prefIn]
      simp [sumOf_cons, sumOf_nil, mo, book_sol]
    · next hi =>
      have i0 : f.r.satpref.inp = 0 := le_antisymm (not_lt.1 hi) hp.inp
      have hm := mix_one hd (f.key false 9) (f.key true 9) (f.key true 9) (by simp [Flow.key]) (by simp [Flow.key]) (.res (f.key true 9))
        (book (f.key true 9) f.r.satpref s) hF
      refine ⟨(Sect.refl (l := []) hF).next hm.sect rfl rfl rfl rfl (by simp) (by simp), fun _ => ⟨_, fun _ => hm.destRx hd (by simp), ?_⟩, fun hn => absurd hpm hn⟩
      rw [e1, ← h.prefIn, i0]
      simp [book_sol]
  · next hn => exact ⟨(Sect.refl hF).of_sol rfl rfl, fun h0 => absurd h0 hn, fun _ => rfl⟩

theorem hill_sect {rx : Ent → Sol → Sol} (hd : Dry rx) {f : Flow} (h : Facts f) (s : St) (hF : Full s.sol) :
    Sect [f.key true 10] s (hill rx f s) ∧
    f.r.hill.out * mo (hill rx f s) (f.key true 10) = f.r.hill.ohoriz * mo s (f.key true 4) + f.r.hill.qdf * mo s (f.key true 7) +
      f.r.hill.sat * mo s (f.key true 8) + f.r.hill.satpref * mo s (f.key true 9) := by
  have hp := h.phill
  have hin := h.hillIn
  have := hp.ohoriz; have := hp.qdf; have := hp.sat; have := hp.satpref
  unfold hill
  dsimp only
  split
  · next hi =>
    obtain ⟨m, hm, em⟩ := mix_vols hd [(f.key true 4, f.r.hill.ohoriz), (f.key true 7, f.r.hill.qdf), (f.key true 8, f.r.hill.sat),
        (f.key true 9, f.r.hill.satpref)] f.r.hill.inp (f.key true 10) (f.key true 10) (by simp [Flow.key]) (by simp [Flow.key]) .no s hF hi.2
      (by
        intro c hc
        simp only [List.mem_cons, List.not_mem_nil, or_false] at hc
        rcases hc with rfl | rfl | rfl | rfl <;> assumption)
      (by simp only [sumOf_cons, sumOf_nil]; linarith)
    refine ⟨(hm.sect.mono (by simp)).of_sol rfl rfl, ?_⟩
    have e : mo (mix rx (checked ([(f.key true 4, f.r.hill.ohoriz), (f.key true 7, f.r.hill.qdf), (f.key true 8, f.r.hill.sat),
      (f.key true 9, f.r.hill.satpref)].map fun c => (c.1, c.2 / f.r.hill.inp))) (f.key true 10) (f.key true 10) .no s) (f.key true 10) = m :=
      hm.destNo
    simp only [mo, note_sol, List.map] at e ⊢
    rw [e, h.hillOut, em]
    simp only [sumOf_cons, sumOf_nil, mo]; ring
  · next hi =>
    have h0 : f.r.hill.inp = 0 := by
      rw [h.hillOut] at hi
      exact le_antisymm (not_lt.1 fun hh => hi ⟨hh, hh⟩) hp.inp
    refine ⟨Sect.refl hF, ?_⟩
    have e1 : f.r.hill.ohoriz = 0 := by linarith
    have e2 : f.r.hill.qdf = 0 := by linarith
    have e3 : f.r.hill.sat = 0 := by linarith
    have e4 : f.r.hill.satpref = 0 := by linarith
    rw [h.hillOut, h0, e1, e2, e3, e4]; ring

end Verif.Transport
