import Verif.Lemmas.TransportUnit2
/-
The sections of a unit: snow and O-horizon.
-/
namespace Verif.Transport
open Verif.Reservoir (Vol Rows BinOut Par In sumOf fall inch2m)

/-- A mix with its inputs from which water evaporates, the mix kept. -/
theorem join_evaporate_kept {rx : Ent → Sol → Sol} (hd : Dry rx) (f : Flow) (k : Nat) (v : Vol) (hv : Pos v)
    (h0 : 0 < v.init + v.inp) (h1 : 0 < v.init + v.inp - v.et) (s : St) (hF : Full s.sol) :
    ∃ m m0, Sect [f.key false k, f.key true k] s (evaporate rx (f.key true k) (f.key true k) .no v (join rx f k v s)) ∧
      mo (evaporate rx (f.key true k) (f.key true k) .no v (join rx f k v s)) (f.key true k) = m ∧
      mo (evaporate rx (f.key true k) (f.key true k) .no v (join rx f k v s)) (f.key false k) = m0 ∧
      (v.init + v.inp - v.et) * m = v.init * mo s (f.key false k) + v.inp * mo s (f.key false 14) ∧
      (v.init + v.inp) * m0 = v.init * mo s (f.key false k) + v.inp * mo s (f.key false 14) := by
  obtain ⟨m, hm, em⟩ := join_did hd f k v hv h0 s hF
  have hne : f.key false k ≠ f.key true k := by simp [Flow.key]
  have h2 := evaporate_did hd (f.key true k) (f.key true k) (by simp [Flow.key]) (by simp [Flow.key]) .no v (join rx f k v s) hm.full h0 hv.et h1
  have e1 : ((join rx f k v s).sol (f.key true k)).mol = m := hm.destNo
  refine ⟨_, m, hm.sect.next h2.sect rfl rfl rfl rfl (by simp) (by simp), h2.destNo, ?_, ?_, em⟩
  · unfold mo
    rw [h2.other _ hne hne]
    exact hm.cons' hne
  · rw [← em, e1]
    field_simp

theorem melt_sect {rx : Ent → Sol → Sol} (hd : Dry rx) {f : Flow} (s : St) (hF : Full s.sol) :
    (melt rx f s).sol = s.sol ∧ ((melt rx f s).pulse = s.pulse ∨ (melt rx f s).pulse = true ∧ 1 < f.ion ∧ 0 < f.r.snow.out) := by
  unfold melt
  dsimp only
  split
  · next ho =>
    split
    · exact ⟨rfl, Or.inl rfl⟩
    · next hc =>
      simp only [not_or, not_le] at hc
      exact ⟨(mix_self hd (f.key false 2) (by simp [Flow.key]) s hF).1, Or.inr ⟨rfl, hc.1, ho⟩⟩
  · exact ⟨rfl, Or.inl rfl⟩

/-- What the snow section does. -/
structure Snowed (rx : Ent → Sol → Sol) (f : Flow) (s s' : St) (m : Rat) : Prop where
  full : Full s'.sol
  same : ∀ k, k ∉ [f.key false 14, f.key false 2, f.key true 2] → s'.sol k = s.sol k
  pack : f.r.snow.fin + f.r.snow.out ≠ 0 → mo s' (f.key true 2) =
    if 0 < f.r.snow.inp ∨ 0 < f.r.snow.et ∨ 0 < f.r.snow.out then m else reacted rx (.res (f.key true 2)) m
  melt : f.r.snow.out ≠ 0 → mo s' (meltKey f s') = m
  mass : (f.r.snow.fin + f.r.snow.out) * m = f.r.snow.init * mo s (f.key false 2) + fallen f.r.snow * mo s (f.key false 11) +
    f.r.snow.can * mo s (f.key true 1)

theorem snow_sect {rx : Ent → Sol → Sol} (hd : Dry rx) {f : Flow} (h : Facts f) (hr : f.Regular) (s : St) (hF : Full s.sol)
    (hpu : s.pulse = false) : ∃ m, Snowed rx f s (snow rx f s) m := by
  have hp := h.psnow
  have hz := hr.defined
  have hin := h.snowIn
  have hb := h.snowBal
  have := hp.init; have := hp.inp; have := hp.fin; have := hp.out; have := hp.fallen; have := hp.can; have := hp.et
  unfold snow
  dsimp only
  split
  · next ha =>
    generalize hs1 : (if f.r.snow.inp > 0 then note (f.key true 2) 2 f.r.snow.inp false false false
      (mix rx (checked [(f.key false 11, fallen f.r.snow / f.r.snow.inp), (f.key true 1, f.r.snow.can / f.r.snow.inp)]) (f.key false 14)
        (f.key false 14) .no (book (f.key true 2) f.r.snow s)) else book (f.key true 2) f.r.snow s) = s1
    obtain ⟨i1, i2⟩ := input_sect hd f false [(f.key false 11, fallen f.r.snow), (f.key true 1, f.r.snow.can)] f.r.snow.inp
      (book (f.key true 2) f.r.snow s) hF
      (by
        intro c hc
        simp only [List.mem_cons, List.not_mem_nil, or_false] at hc
        rcases hc with rfl | rfl
        · exact hp.fallen
        · exact hp.can)
      (by simp [sumOf_cons, sumOf_nil, hin]) s1
      (by intro h0; rw [if_pos h0] at hs1; rw [← hs1]; exact ⟨rfl, rfl⟩) (by intro h0; rw [if_neg h0] at hs1; exact hs1.symm)
    simp only [sumOf_cons, sumOf_nil, add_zero, mo, book_sol] at i2
    have i0 : Sect [f.key false 14] s s1 := ⟨i1.full, i1.same, i1.pulse⟩
    have hk2 : (s1.sol (f.key false 2)) = s.sol (f.key false 2) := i0.same _ (by simp [Flow.key])
    have h0 : f.r.snow.init + f.r.snow.inp > 0 := by
      rcases ha with ha | ha | ha <;> linarith
    rw [if_pos h0]
    have h1 : 0 < f.r.snow.init + f.r.snow.inp - f.r.snow.et := by
      rcases (show 0 ≤ f.r.snow.init + f.r.snow.inp - f.r.snow.et by linarith).eq_or_lt with e | e
      · exfalso
        revert hz
        unfold Flow.zero
        simp only [decide_eq_false_iff_not, not_or]
        intro hz
        exact hz.2.2.1 ⟨ha, by simp only [decide_eq_true_eq]; exact ⟨h0, e.symm⟩⟩
      · exact e
    obtain ⟨m, m0, m1, m2, m3, m4, m5⟩ := join_evaporate_kept hd f 2 f.r.snow hp h0 h1 s1 i1.full
    generalize evaporate rx (f.key true 2) (f.key true 2) .no f.r.snow (join rx f 2 f.r.snow s1) = s2 at m1 m2 m3
    obtain ⟨t1, t2⟩ := melt_sect hd (f := f) s2 m1.full
    generalize melt rx f s2 = s3 at t1 t2
    have hF3 : Full s3.sol := t1 ▸ m1.full
    obtain ⟨u1, -, u3, -⟩ := mix_self hd (f.key true 2) (by simp [Flow.key]) s3 hF3
    have key : (note (f.key true 2) (-1) 0 false false true (mix rx [(f.key true 2, 1)] (f.key true 2) (f.key true 2) .no s3)).sol = s2.sol :=
      u1.trans t1
    have hpul : (note (f.key true 2) (-1) 0 false false true (mix rx [(f.key true 2, 1)] (f.key true 2) (f.key true 2) .no s3)).pulse = s3.pulse := u3
    have hS : Sect [f.key false 14, f.key false 2, f.key true 2] s s2 := i0.next m1 rfl rfl rfl rfl (by simp) (by simp)
    have hmass : (f.r.snow.init + f.r.snow.inp - f.r.snow.et) * m = f.r.snow.init * mo s (f.key false 2) +
        fallen f.r.snow * mo s (f.key false 11) + f.r.snow.can * mo s (f.key true 1) := by
      rw [m4]; unfold mo; rw [i2, hk2]; ring
    refine ⟨m, ?_, ?_, ?_, ?_, ?_⟩
    · rw [key]; exact m1.full
    · intro k hk; rw [key]; exact hS.same k hk
    · intro _
      rw [if_pos (show 0 < f.r.snow.inp ∨ 0 < f.r.snow.et ∨ 0 < f.r.snow.out from ha)]
      unfold mo; rw [key]; exact m2
    · intro _
      unfold meltKey
      rw [hpul]
      split
      · next ht =>
        have h2p : s2.pulse = false := by rw [m1.pulse, i0.pulse, hpu]
        rcases t2 with t2 | ⟨-, t2, -⟩
        · rw [t2, h2p] at ht; exact absurd ht (by simp)
        · have het : f.r.snow.et = 0 := by
            rcases hr.pulse with h | h
            · exact absurd h (not_le.2 t2)
            · exact h
          unfold mo; rw [key]
          have : ((s2.sol (f.key false 2))).mol = m0 := m3
          rw [this]
          rw [het, sub_zero] at m4
          exact mul_left_cancel₀ h0.ne' (m5.trans m4.symm)
      · unfold mo; rw [key]; exact m2
    · rw [hb]; exact hmass
  · next ha =>
    simp only [not_or, not_lt] at ha
    have a1 : f.r.snow.inp = 0 := le_antisymm ha.1 hp.inp
    have a2 : f.r.snow.et = 0 := le_antisymm ha.2.1 hp.et
    have a3 : f.r.snow.out = 0 := le_antisymm ha.2.2 hp.out
    have f0 : fallen f.r.snow = 0 := by linarith
    have c0 : f.r.snow.can = 0 := by linarith
    have hfi : f.r.snow.fin = f.r.snow.init := by linarith
    split
    · next hf =>
      have hm := mix_one hd (f.key false 2) (f.key false 2) (f.key true 2) (by simp [Flow.key]) (by simp [Flow.key]) (.res (f.key true 2))
        (book (f.key true 2) f.r.snow s) hF
      have hS : Sect [f.key false 14, f.key false 2, f.key true 2] s (note (f.key true 2) (-1) 0 false false true
          (mix rx [(f.key false 2, 1)] (f.key false 2) (f.key true 2) (.res (f.key true 2)) (book (f.key true 2) f.r.snow s))) :=
        (Sect.refl (l := []) hF).next hm.sect rfl rfl rfl rfl (by simp) (by simp)
      refine ⟨mo s (f.key false 2), hS.full, hS.same, fun _ => ?_, fun hne => absurd a3 hne, ?_⟩
      · rw [if_neg (by rw [a1, a2, a3]; simp)]
        exact hm.destRx hd (by simp)
      · rw [f0, c0, a3, hfi]; ring
    · next hf =>
      have f1 : f.r.snow.fin = 0 := le_antisymm (not_lt.1 hf) hp.fin
      refine ⟨0, hF, fun _ _ => rfl, fun hne => absurd (by rw [f1, a3]; ring) hne, fun hne => absurd a3 hne, ?_⟩
      rw [f0, c0, ← hfi, f1]; ring

theorem meltKey_eq {f : Flow} {s s' : St} (h : s'.pulse = s.pulse) : meltKey f s' = meltKey f s := by unfold meltKey; rw [h]

theorem meltKey_ne (f : Flow) (s : St) (k : Key) (h1 : k ≠ f.key false 2) (h2 : k ≠ f.key true 2) : meltKey f s ≠ k := by
  unfold meltKey; split
  · exact Ne.symm h1
  · exact Ne.symm h2

/-- The O-horizon. -/
theorem ohoriz_sect {rx : Ent → Sol → Sol} (hd : Dry rx) {f : Flow} (h : Facts f) (hr : f.Regular) (s : St) (hF : Full s.sol) :
    Sect [f.key false 14, f.key false 4, f.key true 4] s (ohoriz rx f s) ∧
    (f.r.ohoriz.inp = 0 → (ohoriz rx f s).sol (f.key false 4) = s.sol (f.key false 4)) ∧
    Taken rx (.res (f.key true 4)) (f.r.ohoriz.fin + f.r.ohoriz.out - f.r.can.ohoriz) (mo (ohoriz rx f s) (f.key true 4))
      ((f.r.ohoriz.init - f.r.can.ohoriz) * mo s (f.key false 4) + fallen f.r.ohoriz * mo s (f.key false 11) +
        f.r.ohoriz.can * mo s (f.key true 1) + f.r.ohoriz.melt * mo s (meltKey f s)) := by
  have hp := h.poh
  have hin := h.ohIn
  have hb := h.ohBal
  have hoh := hr.oh
  have hco := h.pcan.ohoriz
  have := hp.init; have := hp.inp; have := hp.fin; have := hp.out; have := hp.fallen; have := hp.can; have := hp.melt
  unfold ohoriz
  dsimp only
  split
  · next ha =>
    generalize hs1 : (if f.r.ohoriz.inp > 0 then note (f.key false 4) 2 f.r.ohoriz.inp false false false
      (mix rx (checked [(f.key false 11, fallen f.r.ohoriz / f.r.ohoriz.inp), (f.key true 1, f.r.ohoriz.can / f.r.ohoriz.inp),
        (meltKey f (book (f.key true 4) f.r.ohoriz s), f.r.ohoriz.melt / f.r.ohoriz.inp)]) (f.key false 14)
        (f.key false 14) .no (book (f.key true 4) f.r.ohoriz s)) else book (f.key true 4) f.r.ohoriz s) = s1
    obtain ⟨i1, i2⟩ := input_sect hd f false [(f.key false 11, fallen f.r.ohoriz), (f.key true 1, f.r.ohoriz.can),
        (meltKey f (book (f.key true 4) f.r.ohoriz s), f.r.ohoriz.melt)] f.r.ohoriz.inp
      (book (f.key true 4) f.r.ohoriz s) hF
      (by
        intro c hc
        simp only [List.mem_cons, List.not_mem_nil, or_false] at hc
        rcases hc with rfl | rfl | rfl
        · exact hp.fallen
        · exact hp.can
        · exact hp.melt)
      (by simp only [sumOf_cons, sumOf_nil]; linarith) s1
      (by intro h0; rw [if_pos h0] at hs1; rw [← hs1]; exact ⟨rfl, rfl⟩) (by intro h0; rw [if_neg h0] at hs1; exact hs1.symm)
    simp only [sumOf_cons, sumOf_nil, add_zero, mo, book_sol] at i2
    rw [meltKey_eq (f := f) (show (book (f.key true 4) f.r.ohoriz s).pulse = s.pulse from rfl)] at i2
    have i0 : Sect [f.key false 14] s s1 := ⟨i1.full, i1.same, i1.pulse⟩
    generalize hs2 : (if f.r.can.ohoriz > 0 then note (f.key true 4) 3 f.r.can.ohoriz false false false
      (mix rx [(f.key false 4, 1)] (f.key true 4) (f.key true 4) .no s1) else s1) = s2
    have j0 : Sect [f.key true 4] s1 s2 := by
      by_cases hc : f.r.can.ohoriz > 0
      · rw [if_pos hc] at hs2
        have hm := mix_one hd (f.key false 4) (f.key true 4) (f.key true 4) (by simp [Flow.key]) (by simp [Flow.key]) .no s1 i0.full
        rw [← hs2]
        exact (hm.sect.mono (l' := [f.key true 4]) (by simp)).of_sol rfl rfl
      · rw [if_neg hc] at hs2
        rw [← hs2]; exact Sect.refl i0.full
    have hk4 : s2.sol (f.key false 4) = s.sol (f.key false 4) :=
      (j0.same _ (by simp [Flow.key])).trans (i0.same _ (by simp [Flow.key]))
    have hk14 : s2.sol (f.key false 14) = s1.sol (f.key false 14) := j0.same _ (by simp [Flow.key])
    have hS : Sect [f.key false 14, f.key false 4, f.key true 4] s s2 := i0.next j0 rfl rfl rfl rfl (by simp) (by simp)
    by_cases ht : f.r.ohoriz.init + f.r.ohoriz.inp - f.r.can.ohoriz > 0
    · rw [if_pos ht]
      obtain ⟨m, hm, e⟩ := mix_vols hd [(f.key false 4, f.r.ohoriz.init - f.r.can.ohoriz), (f.key false 14, f.r.ohoriz.inp)]
        (f.r.ohoriz.init + f.r.ohoriz.inp - f.r.can.ohoriz) (f.key false 4) (f.key true 4)
        (by simp [Flow.key]) (by simp [Flow.key]) (.res (f.key true 4)) s2 j0.full ht
        (by
          intro c hc
          simp only [List.mem_cons, List.not_mem_nil, or_false] at hc
          rcases hc with rfl | rfl
          · simp only; linarith
          · exact hp.inp)
        (by simp only [sumOf_cons, sumOf_nil]; ring)
      simp only [sumOf_cons, sumOf_nil, add_zero, mo] at e
      rw [hk4, hk14] at e
      refine ⟨hS.next hm.sect rfl rfl rfl rfl (by simp) (by simp), ?_, m, fun _ => hm.destRx hd (by simp), ?_⟩
      · intro h0
        rw [note_sol]
        have e1 : ((mix rx (checked ([(f.key false 4, f.r.ohoriz.init - f.r.can.ohoriz), (f.key false 14, f.r.ohoriz.inp)].map
            fun c => (c.1, c.2 / (f.r.ohoriz.init + f.r.ohoriz.inp - f.r.can.ohoriz)))) (f.key false 4) (f.key true 4)
            (.res (f.key true 4)) s2).sol (f.key false 4)).mol = m := hm.cons' (by simp [Flow.key])
        have e2 : m = (s.sol (f.key false 4)).mol := by
          rw [h0, zero_mul, add_zero, add_zero] at e
          rw [h0, add_zero] at ht
          exact mul_left_cancel₀ ht.ne' e
        rw [e2] at e1
        rw [eta_full hF (f.key false 4), ← e1]
        exact eta_full hm.full (f.key false 4)
      · rw [show f.r.ohoriz.fin + f.r.ohoriz.out - f.r.can.ohoriz = f.r.ohoriz.init + f.r.ohoriz.inp - f.r.can.ohoriz by rw [hb]]
        rw [e, i2]; unfold mo; ring
    · rw [if_neg ht]
      refine ⟨hS.of_sol rfl rfl, fun _ => hk4, 0, fun hne => absurd (by linarith) hne, ?_⟩
      have e1 : f.r.ohoriz.init - f.r.can.ohoriz = 0 := by linarith
      have e2 : fallen f.r.ohoriz = 0 := by linarith
      have e3 : f.r.ohoriz.can = 0 := by linarith
      have e4 : f.r.ohoriz.melt = 0 := by linarith
      rw [e1, e2, e3, e4]; ring
  · next ha =>
    simp only [not_or, not_lt] at ha
    have a1 : f.r.ohoriz.inp = 0 := le_antisymm ha.1 hp.inp
    have a2 : f.r.can.ohoriz = 0 := le_antisymm ha.2 hco
    have e2 : fallen f.r.ohoriz = 0 := by linarith
    have e3 : f.r.ohoriz.can = 0 := by linarith
    have e4 : f.r.ohoriz.melt = 0 := by linarith
    have hm := mix_one hd (f.key false 4) (f.key true 4) (f.key true 4) (by simp [Flow.key]) (by simp [Flow.key]) (.res (f.key true 4))
      (book (f.key true 4) f.r.ohoriz s) hF
    refine ⟨(Sect.refl (l := []) hF).next hm.sect rfl rfl rfl rfl (by simp) (by simp), fun _ => ?_, _, fun _ => hm.destRx hd (by simp), ?_⟩
    · exact hm.other (f.key false 4) (by simp [Flow.key]) (by simp [Flow.key])
    · rw [e2, e3, e4, a2, hb, a1]
      simp [book_sol]

end Verif.Transport
