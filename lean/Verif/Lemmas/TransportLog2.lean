import Verif.Lemmas.TransportLog1
/-
What the sections of a unit record: snow, O-horizon.
-/
namespace Verif.Transport
open Verif.Reservoir (Vol Rows BinOut Par In sumOf fall inch2m)

/-- What is recorded of melt water. -/
theorem melt_log {rx : Ent → Sol → Sol} (hd : Dry rx) {f : Flow} (hpos : 0 ≤ f.r.snow.out) (s : St) (hF : Full s.sol) :
    ∃ l c, Wrote [f.key false 2] s (melt rx f s) l ∧ recs (f.key false 2) l = ⟨0, f.r.snow.out * c, [], []⟩ ∧
      (c = s.conc ∨ 1 < f.ion ∧ c = mo s (f.key false 2)) := by
  unfold melt
  dsimp only
  split
  · next ho =>
    split
    · refine ⟨_, s.conc, (wrote_note s (f.key true 2) 3 f.r.snow.out false false false), ?_, Or.inl rfl⟩
      rw [show (f.key true 2).row = f.key false 2 from rfl, rec_out]
    · next hc =>
      simp only [not_or, not_le] at hc
      obtain ⟨-, u2, -, u4⟩ := mix_self hd (f.key false 2) (by simp [Flow.key]) s hF
      generalize mix rx [(f.key false 2, 1)] (f.key false 2) (f.key false 2) .no s = s1 at u2 u4
      have w := wrote_note { s1 with pulse := true } (f.key true 2) 3 f.r.snow.out false false false
      refine ⟨_, s1.conc, ⟨by rw [w.log]; simp only; rw [u4], w.other, w.gw⟩, ?_, Or.inr ⟨hc.1, u2⟩⟩
      rw [show (f.key true 2).row = f.key false 2 from rfl, rec_out]
  · next ho =>
    refine ⟨[], s.conc, Wrote.refl, ?_, Or.inl rfl⟩
    rw [le_antisymm (not_lt.1 ho) hpos, zero_mul]; rfl

theorem join_evaporate_kept_rec {rx : Ent → Sol → Sol} (hd : Dry rx) (f : Flow) (k : Nat) (v : Vol) (hv : Pos v)
    (h0 : 0 < v.init + v.inp) (h1 : 0 < v.init + v.inp - v.et) (s : St) (hF : Full s.sol) (s' : St)
    (hs : s' = evaporate rx (f.key true k) (f.key true k) .no v (join rx f k v s)) :
    s'.log = s.log ∧ s'.conc = mo s' (f.key true k) := by
  obtain ⟨m, hm, em⟩ := join_did hd f k v hv h0 s hF
  have h2 := evaporate_did hd (f.key true k) (f.key true k) (by simp [Flow.key]) (by simp [Flow.key]) .no v (join rx f k v s) hm.full h0 hv.et h1
  rw [← hs] at h2
  exact ⟨h2.log.trans hm.log, h2.conc.trans h2.destNo.symm⟩

theorem snow_log {rx : Ent → Sol → Sol} (hd : Dry rx) {f : Flow} (h : Facts f) (hr : f.Regular) (s : St) (hF : Full s.sol) :
    ∃ l, Wrote [f.key false 2] s (snow rx f s) l ∧
      ((∃ c t, Ends (f.key false 2) f.r.snow f.r.snow.out f.r.snow.fin (f.r.snow.init * mo s (f.key false 2))
        (mo (snow rx f s) (f.key true 2)) (fallen f.r.snow * mo s (f.key false 11) + f.r.snow.can * mo s (f.key true 1)) c t l) ∨
      (recs (f.key false 2) l = ⟨0, 0, [], [(f.r.snow.init, f.r.snow.et, f.r.snow.fin)]⟩ ∧ f.r.snow.init = 0 ∧ f.r.snow.out = 0 ∧
        f.r.snow.fin = 0 ∧ fallen f.r.snow = 0 ∧ f.r.snow.can = 0)) := by
  have hp := h.psnow
  have hz := hr.defined
  have hin := h.snowIn
  have hb := h.snowBal
  have w0 := wrote_book s (f.key true 2) f.r.snow
  have := hp.init; have := hp.inp; have := hp.fin; have := hp.out; have := hp.fallen; have := hp.can; have := hp.et
  unfold snow
  dsimp only
  split
  · next ha =>
    generalize hs1 : (if f.r.snow.inp > 0 then note (f.key true 2) 2 f.r.snow.inp false false false
      (mix rx (checked [(f.key false 11, fallen f.r.snow / f.r.snow.inp), (f.key true 1, f.r.snow.can / f.r.snow.inp)]) (f.key false 14)
        (f.key false 14) .no (book (f.key true 2) f.r.snow s)) else book (f.key true 2) f.r.snow s) = s1
    have hnn : ∀ c ∈ [(f.key false 11, fallen f.r.snow), (f.key true 1, f.r.snow.can)], 0 ≤ c.2 := by
      intro c hc
      simp only [List.mem_cons, List.not_mem_nil, or_false] at hc
      rcases hc with rfl | rfl
      · exact hp.fallen
      · exact hp.can
    have hsum : sumOf (·.2) [(f.key false 11, fallen f.r.snow), (f.key true 1, f.r.snow.can)] = f.r.snow.inp := by
      simp [sumOf_cons, sumOf_nil, hin]
    obtain ⟨i1, i2⟩ := input_sect hd f false [(f.key false 11, fallen f.r.snow), (f.key true 1, f.r.snow.can)] f.r.snow.inp
      (book (f.key true 2) f.r.snow s) hF hnn hsum s1
      (by intro h0; rw [if_pos h0] at hs1; rw [← hs1]; exact ⟨rfl, rfl⟩) (by intro h0; rw [if_neg h0] at hs1; exact hs1.symm)
    obtain ⟨l1, w1, r1⟩ := input_note hd f false (f.key true 2) [(f.key false 11, fallen f.r.snow), (f.key true 1, f.r.snow.can)] f.r.snow.inp
      (book (f.key true 2) f.r.snow s) hF hnn hsum s1 (by rw [← hs1]; rfl)
    simp only [sumOf_cons, sumOf_nil, add_zero, mo, book_sol] at i2 r1
    have i0 : Sect [f.key false 14] s s1 := ⟨i1.full, i1.same, i1.pulse⟩
    have hk2 : (s1.sol (f.key false 2)) = s.sol (f.key false 2) := i0.same _ (by simp [Flow.key])
    have h0 : f.r.snow.init + f.r.snow.inp > 0 := by
      rcases ha with ha | ha | ha <;> linarith
    rw [if_pos h0]
    have h1 : 0 < f.r.snow.init + f.r.snow.inp - f.r.snow.et := by
      rcases (show 0 ≤ f.r.snow.init + f.r.snow.inp - f.r.snow.et by linarith).eq_or_lt with e | e
      · exfalso
        revert hz
        unfold Flow.zero
        simp only [decide_eq_false_iff_not, not_or]
        intro hz
        exact hz.2.2.1 ⟨ha, by simp only [decide_eq_true_eq]; exact ⟨h0, e.symm⟩⟩
      · exact e
    obtain ⟨m, m0, m1, m2, m3, m4, m5⟩ := join_evaporate_kept hd f 2 f.r.snow hp h0 h1 s1 i1.full
    obtain ⟨q1, q2⟩ := join_evaporate_kept_rec hd f 2 f.r.snow hp h0 h1 s1 i1.full _ rfl
    generalize evaporate rx (f.key true 2) (f.key true 2) .no f.r.snow (join rx f 2 f.r.snow s1) = s2 at m1 m2 m3 q1 q2
    obtain ⟨t1, -⟩ := melt_sect hd (f := f) s2 m1.full
    obtain ⟨l2, c, w2, r2, hc⟩ := melt_log hd (f := f) hp.out s2 m1.full
    generalize melt rx f s2 = s3 at t1 w2
    have hF3 : Full s3.sol := t1 ▸ m1.full
    have hm := mix_one hd (f.key true 2) (f.key true 2) (f.key true 2) (by simp [Flow.key]) (by simp [Flow.key]) .no s3 hF3
    generalize mix rx [(f.key true 2, 1)] (f.key true 2) (f.key true 2) .no s3 = s4 at hm
    have hcm : c = m := by
      rcases hc with hc | ⟨hi, hc⟩
      · rw [hc, q2]; exact m2
      · have het : f.r.snow.et = 0 := by
          rcases hr.pulse with h | h
          · exact absurd h (not_le.2 hi)
          · exact h
        rw [het, sub_zero] at m4
        exact (hc.trans m3).trans (mul_left_cancel₀ h0.ne' (m5.trans m4.symm))
    have h4 : s4.conc = m := by rw [hm.conc, t1]; exact m2
    have wa := w0.next w1 (K := [f.key false 2]) (by simp [Key.row, Flow.key]) (by simp [Key.row, Flow.key])
    have wb := (wa.of_log q1).next w2 (K := [f.key false 2]) (by simp) (by simp)
    have wc := (wb.of_log hm.log).next (wrote_note s4 (f.key true 2) (-1) 0 false false true) (K := [f.key false 2]) (by simp)
      (by simp [Key.row, Flow.key])
    refine ⟨_, wc, Or.inl ⟨m, s4.tal, ?_, ?_, fun _ => hm.talEq hd⟩⟩
    · rw [show (f.key true 2).row = f.key false 2 from rfl] at r1 ⊢
      rw [recs_append, recs_append, recs_append, rec_set, r1, r2, rec_still, hcm, h4]
      simp [Rec.add]
    · rw [hb, m4]
      unfold mo
      rw [i2, hk2]
  · next ha =>
    simp only [not_or, not_lt] at ha
    have a1 : f.r.snow.inp = 0 := le_antisymm ha.1 hp.inp
    have a2 : f.r.snow.et = 0 := le_antisymm ha.2.1 hp.et
    have a3 : f.r.snow.out = 0 := le_antisymm ha.2.2 hp.out
    have f0 : fallen f.r.snow = 0 := by linarith
    have c0 : f.r.snow.can = 0 := by linarith
    have hfi : f.r.snow.fin = f.r.snow.init := by linarith
    split
    · next hf =>
      have hm := mix_one hd (f.key false 2) (f.key false 2) (f.key true 2) (by simp [Flow.key]) (by simp [Flow.key]) (.res (f.key true 2))
        (book (f.key true 2) f.r.snow s) hF
      generalize mix rx [(f.key false 2, 1)] (f.key false 2) (f.key true 2) (.res (f.key true 2)) (book (f.key true 2) f.r.snow s) = s3 at hm
      have wb := (w0.of_log hm.log).next (wrote_note s3 (f.key true 2) (-1) 0 false false true) (K := [f.key false 2])
        (by simp [Key.row, Flow.key]) (by simp [Key.row, Flow.key])
      refine ⟨_, wb, Or.inl ⟨s3.conc, s3.tal, ?_, ?_, fun _ => hm.talEq hd⟩⟩
      · rw [recs_append, show (f.key true 2).row = f.key false 2 from rfl, rec_set, rec_still, f0, c0, a3]
        simp [Rec.add]
      · rw [f0, c0, a3, hfi, hm.conc]
        simp [book_sol]
    · next hf =>
      have f1 : f.r.snow.fin = 0 := le_antisymm (not_lt.1 hf) hp.fin
      refine ⟨_, w0, Or.inr ⟨?_, hfi ▸ f1, a3, f1, f0, c0⟩⟩
      rw [show (f.key true 2).row = f.key false 2 from rfl, rec_set]

/-- No more flows off than falls. -/
theorem Flow.Ok.ohOut {f : Flow} (h : f.Ok) : f.r.ohoriz.out ≤ f.r.can.ohoriz + f.r.ohoriz.inp := by
  obtain ⟨s, e, hst, he, hk, hx⟩ := h.made
  obtain ⟨oh, b, h1, h2, e1, e2, e3, r1, r2, r3, r4, -⟩ := Reservoir.step_eq f.p s f.i f.r e hst
  have hl : 0 ≤ f.p.leaf := by
    unfold Par.leaf
    rw [Reservoir.vol_eq]
    rcases h.par.leaf with h | h
    · exact h.ge
    · exact le_trans (by norm_num) h
  rw [r4, r2]
  have hc : (Reservoir.canopy f.p s.transp f.i s.can).ohoriz = if Reservoir.leavesOn s.transp f.i then f.p.leaf else 0 := rfl
  rw [hc]
  clear r2 r3 r4 hc
  unfold Reservoir.ohorizon at h1
  dsimp only at h1
  have h0 : 0 ≤ if Reservoir.leavesOff s.transp f.i then f.p.leaf else 0 := by split <;> simp [hl]
  generalize (if Reservoir.leavesOff s.transp f.i then f.p.leaf else 0) = x at h0 h1
  split at h1
  · split at h1
    · exact absurd h1 (by simp)
    · simp only [Option.some.injEq] at h1
      subst h1
      simp only
      linarith
  · simp only [Option.some.injEq] at h1
    subst h1
    simp only
    linarith

/-- What is recorded of the O-horizon: `c` with what leaves after mixing. -/
theorem ohoriz_log {rx : Ent → Sol → Sol} (hd : Dry rx) {f : Flow} (h : Facts f) (hr : f.Regular)
    (hout : f.r.ohoriz.out ≤ f.r.can.ohoriz + f.r.ohoriz.inp) (s : St) (hF : Full s.sol) :
    ∃ l c t, Wrote [f.key false 4] s (ohoriz rx f s) l ∧
      recs (f.key false 4) l = ⟨fallen f.r.ohoriz * mo s (f.key false 11) + f.r.ohoriz.can * mo s (f.key true 1) +
          f.r.ohoriz.melt * mo s (meltKey f s), f.r.can.ohoriz * mo s (f.key false 4) + (f.r.ohoriz.out - f.r.can.ohoriz) * c, [(c, t)],
        [(f.r.ohoriz.init, f.r.ohoriz.et, f.r.ohoriz.fin)]⟩ ∧
      (f.r.ohoriz.fin + f.r.ohoriz.out - f.r.can.ohoriz) * c = (f.r.ohoriz.init - f.r.can.ohoriz) * mo s (f.key false 4) +
        fallen f.r.ohoriz * mo s (f.key false 11) + f.r.ohoriz.can * mo s (f.key true 1) + f.r.ohoriz.melt * mo s (meltKey f s) ∧
      (f.r.ohoriz.fin ≠ 0 → t = mo (ohoriz rx f s) (f.key true 4)) := by
  have hp := h.poh
  have hin := h.ohIn
  have hb := h.ohBal
  have hoh := hr.oh
  have hco := h.pcan.ohoriz
  have w0 := wrote_book s (f.key true 4) f.r.ohoriz
  have := hp.init; have := hp.inp; have := hp.fin; have := hp.out; have := hp.fallen; have := hp.can; have := hp.melt
  unfold ohoriz
  dsimp only
  split
  · next ha =>
    generalize hs1 : (if f.r.ohoriz.inp > 0 then note (f.key false 4) 2 f.r.ohoriz.inp false false false
      (mix rx (checked [(f.key false 11, fallen f.r.ohoriz / f.r.ohoriz.inp), (f.key true 1, f.r.ohoriz.can / f.r.ohoriz.inp),
        (meltKey f (book (f.key true 4) f.r.ohoriz s), f.r.ohoriz.melt / f.r.ohoriz.inp)]) (f.key false 14)
        (f.key false 14) .no (book (f.key true 4) f.r.ohoriz s)) else book (f.key true 4) f.r.ohoriz s) = s1
    have hnn : ∀ c ∈ [(f.key false 11, fallen f.r.ohoriz), (f.key true 1, f.r.ohoriz.can),
        (meltKey f (book (f.key true 4) f.r.ohoriz s), f.r.ohoriz.melt)], 0 ≤ c.2 := by
      intro c hc
      simp only [List.mem_cons, List.not_mem_nil, or_false] at hc
      rcases hc with rfl | rfl | rfl
      · exact hp.fallen
      · exact hp.can
      · exact hp.melt
    have hsum : sumOf (·.2) [(f.key false 11, fallen f.r.ohoriz), (f.key true 1, f.r.ohoriz.can),
        (meltKey f (book (f.key true 4) f.r.ohoriz s), f.r.ohoriz.melt)] = f.r.ohoriz.inp := by
      simp only [sumOf_cons, sumOf_nil]; linarith
    obtain ⟨i1, i2⟩ := input_sect hd f false _ f.r.ohoriz.inp (book (f.key true 4) f.r.ohoriz s) hF hnn hsum s1
      (by intro h0; rw [if_pos h0] at hs1; rw [← hs1]; exact ⟨rfl, rfl⟩) (by intro h0; rw [if_neg h0] at hs1; exact hs1.symm)
    obtain ⟨l1, w1, r1⟩ := input_note hd f false (f.key false 4) _ f.r.ohoriz.inp
      (book (f.key true 4) f.r.ohoriz s) hF hnn hsum s1 (by rw [← hs1]; rfl)
    simp only [sumOf_cons, sumOf_nil, add_zero, mo, book_sol] at i2 r1
    rw [meltKey_eq (f := f) (show (book (f.key true 4) f.r.ohoriz s).pulse = s.pulse from rfl)] at i2 r1
    have i0 : Sect [f.key false 14] s s1 := ⟨i1.full, i1.same, i1.pulse⟩
    generalize hs2 : (if f.r.can.ohoriz > 0 then note (f.key true 4) 3 f.r.can.ohoriz false false false
      (mix rx [(f.key false 4, 1)] (f.key true 4) (f.key true 4) .no s1) else s1) = s2
    have hk41 : s1.sol (f.key false 4) = s.sol (f.key false 4) := i0.same _ (by simp [Flow.key])
    have j0 : Sect [f.key true 4] s1 s2 ∧ ∃ l2, Wrote [f.key false 4] s1 s2 l2 ∧
        recs (f.key false 4) l2 = ⟨0, f.r.can.ohoriz * mo s (f.key false 4), [], []⟩ := by
      by_cases hc : f.r.can.ohoriz > 0
      · rw [if_pos hc] at hs2
        have hm := mix_one hd (f.key false 4) (f.key true 4) (f.key true 4) (by simp [Flow.key]) (by simp [Flow.key]) .no s1 i0.full
        have hj : Sect [f.key true 4] s1 s2 := by
          rw [← hs2]
          exact (hm.sect.mono (l' := [f.key true 4]) (by simp)).of_sol rfl rfl
        generalize mix rx [(f.key false 4, 1)] (f.key true 4) (f.key true 4) .no s1 = s1' at hm hs2
        have w := wrote_note s1' (f.key true 4) 3 f.r.can.ohoriz false false false
        rw [hs2] at w
        refine ⟨hj, _, ⟨by rw [w.log, hm.log], w.other, w.gw⟩, ?_⟩
        rw [show (f.key true 4).row = f.key false 4 from rfl, rec_out, hm.conc, hk41]
      · rw [if_neg hc] at hs2
        rw [← hs2]
        refine ⟨Sect.refl i0.full, [], Wrote.refl, ?_⟩
        rw [le_antisymm (not_lt.1 hc) hco, zero_mul]; rfl
    obtain ⟨j0, l2, w2, r2⟩ := j0
    have hk4 : s2.sol (f.key false 4) = s.sol (f.key false 4) := (j0.same _ (by simp [Flow.key])).trans hk41
    have hk14 : s2.sol (f.key false 14) = s1.sol (f.key false 14) := j0.same _ (by simp [Flow.key])
    have wa := w0.next w1 (K := [f.key false 4]) (by simp [Key.row, Flow.key]) (by simp [Key.row, Flow.key])
    have wb := wa.next w2 (K := [f.key false 4]) (by simp) (by simp)
    by_cases ht : f.r.ohoriz.init + f.r.ohoriz.inp - f.r.can.ohoriz > 0
    · rw [if_pos ht]
      obtain ⟨m, hm, e⟩ := mix_vols hd [(f.key false 4, f.r.ohoriz.init - f.r.can.ohoriz), (f.key false 14, f.r.ohoriz.inp)]
        (f.r.ohoriz.init + f.r.ohoriz.inp - f.r.can.ohoriz) (f.key false 4) (f.key true 4)
        (by simp [Flow.key]) (by simp [Flow.key]) (.res (f.key true 4)) s2 j0.full ht
        (by
          intro c hc
          simp only [List.mem_cons, List.not_mem_nil, or_false] at hc
          rcases hc with rfl | rfl
          · simp only; linarith
          · exact hp.inp)
        (by simp only [sumOf_cons, sumOf_nil]; ring)
      simp only [sumOf_cons, sumOf_nil, add_zero, mo, List.map] at e hm
      rw [hk4, hk14] at e
      generalize mix rx (checked [(f.key false 4, (f.r.ohoriz.init - f.r.can.ohoriz) / (f.r.ohoriz.init + f.r.ohoriz.inp - f.r.can.ohoriz)),
        (f.key false 14, f.r.ohoriz.inp / (f.r.ohoriz.init + f.r.ohoriz.inp - f.r.can.ohoriz))]) (f.key false 4) (f.key true 4)
        (.res (f.key true 4)) s2 = s3 at hm
      have wc := (wb.of_log hm.log).next (wrote_note s3 (f.key true 4) 3 (f.r.ohoriz.out - f.r.can.ohoriz) false false true) (K := [f.key false 4])
        (by simp) (by simp [Key.row, Flow.key])
      refine ⟨_, s3.conc, s3.tal, wc, ?_, ?_, fun _ => hm.talEq hd⟩
      · rw [show (f.key false 4).row = f.key false 4 from rfl] at r1
        rw [recs_append, recs_append, recs_append, show (f.key true 4).row = f.key false 4 from rfl, rec_set, r1, r2, rec_last]
        simp [Rec.add, add_assoc]
      · rw [show f.r.ohoriz.fin + f.r.ohoriz.out - f.r.can.ohoriz = f.r.ohoriz.init + f.r.ohoriz.inp - f.r.can.ohoriz by rw [hb]]
        rw [hm.conc, e, i2]; unfold mo; ring
    · rw [if_neg ht]
      have wc := wb.next (wrote_note s2 (f.key true 4) 3 (f.r.ohoriz.out - f.r.can.ohoriz) false false true) (K := [f.key false 4])
        (by simp) (by simp [Key.row, Flow.key])
      have e1 : f.r.ohoriz.init - f.r.can.ohoriz = 0 := by linarith
      have e2 : fallen f.r.ohoriz = 0 := by linarith
      have e3 : f.r.ohoriz.can = 0 := by linarith
      have e4 : f.r.ohoriz.melt = 0 := by linarith
      have e5 : f.r.ohoriz.fin + f.r.ohoriz.out - f.r.can.ohoriz = 0 := by linarith
      have e6 : f.r.ohoriz.fin = 0 := by have := h.closed.ohoriz; have := h.phill.ohoriz; linarith
      refine ⟨_, s2.conc, s2.tal, wc, ?_, ?_, fun hne => absurd e6 hne⟩
      · rw [show (f.key false 4).row = f.key false 4 from rfl] at r1
        rw [recs_append, recs_append, recs_append, show (f.key true 4).row = f.key false 4 from rfl, rec_set, r1, r2, rec_last]
        simp [Rec.add, add_assoc]
      · rw [e1, e2, e3, e4, e5]; ring
  · next ha =>
    simp only [not_or, not_lt] at ha
    have a1 : f.r.ohoriz.inp = 0 := le_antisymm ha.1 hp.inp
    have a2 : f.r.can.ohoriz = 0 := le_antisymm ha.2 hco
    have e2 : fallen f.r.ohoriz = 0 := by linarith
    have e3 : f.r.ohoriz.can = 0 := by linarith
    have e4 : f.r.ohoriz.melt = 0 := by linarith
    have hm := mix_one hd (f.key false 4) (f.key true 4) (f.key true 4) (by simp [Flow.key]) (by simp [Flow.key]) (.res (f.key true 4))
      (book (f.key true 4) f.r.ohoriz s) hF
    generalize mix rx [(f.key false 4, 1)] (f.key true 4) (f.key true 4) (.res (f.key true 4)) (book (f.key true 4) f.r.ohoriz s) = s3 at hm
    have wc := (w0.of_log hm.log).next (wrote_note s3 (f.key true 4) (-1) 0 false false true) (K := [f.key false 4])
      (by simp [Key.row, Flow.key]) (by simp [Key.row, Flow.key])
    have o0 : f.r.ohoriz.out = 0 := by linarith
    refine ⟨_, s3.conc, s3.tal, wc, ?_, ?_, fun _ => hm.talEq hd⟩
    · rw [recs_append, show (f.key true 4).row = f.key false 4 from rfl, rec_set, rec_still, e2, e3, e4, a2, o0]
      simp [Rec.add]
    · rw [e2, e3, e4, a2, hb, a1, hm.conc]
      simp [book_sol]

end Verif.Transport
