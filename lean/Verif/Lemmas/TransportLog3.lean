import Verif.Lemmas.TransportLog2
/-
What the sections of a unit record: unsaturated zone, transpiration, recharge.
-/
namespace Verif.Transport
open Verif.Reservoir (Vol Rows BinOut Par In sumOf fall inch2m)

theorem satToUz_log {rx : Ent → Sol → Sol} (hd : Dry rx) (f : Flow) (s : St) (hF : Full s.sol) :
    ∃ l, Wrote [f.key false 8] s (satToUz rx f s) l ∧ recs (f.key false 8) l = ⟨0, f.sat2uz * mo s (f.key false 8), [], []⟩ := by
  obtain ⟨-, u2, -, u4⟩ := mix_self hd (f.key false 8) (by simp [Flow.key]) s hF
  unfold satToUz
  generalize mix rx [(f.key false 8, 1)] (f.key false 8) (f.key false 8) .no s = s1 at u2 u4
  have w := wrote_note s1 (f.key false 8) 3 f.sat2uz false false false
  refine ⟨_, ⟨by rw [w.log, u4], w.other, w.gw⟩, ?_⟩
  rw [show (f.key false 8).row = f.key false 8 from rfl, rec_out, u2]

/-- What is recorded of a bin. -/
def BinRec (f : Flow) (j : Nat) (v : Vol) (s s' : St) (l : List Ev) : Prop :=
  (∃ c t src, src = fallen v * mo s (f.key false 11) + v.can * mo s (f.key true 1) +
      v.melt * mo s (meltKey f s) + v.sat * mo s (f.key false 8) ∧
    Ends (.bin false f.unit j) v v.out v.fin (v.init * mo s (.bin false f.unit j)) (mo s' (.bin true f.unit j)) src c t l) ∨
  (recs (.bin false f.unit j) l = ⟨0, 0, [], [(v.init, v.et, v.fin)]⟩ ∧ v.init = 0 ∧ v.out = 0 ∧ v.fin = 0 ∧ fallen v = 0 ∧
    v.can = 0 ∧ v.melt = 0 ∧ v.sat = 0)

theorem binStep_log {rx : Ent → Sol → Sol} (hd : Dry rx) (f : Flow) (j : Nat) (v : Vol) (hp : Pos v)
    (hin : v.inp = fallen v + v.can + v.melt + v.sat) (hb : v.fin + v.out = v.init + v.inp - v.et)
    (he : v.init = 0 → v.inp = 0 ∧ v.out = 0) (hz : 0 < v.init → v.init + v.inp - v.et ≠ 0) (s : St) (hF : Full s.sol) :
    ∃ l, Wrote [.bin false f.unit j] s (binStep rx f j v s) l ∧ BinRec f j v s (binStep rx f j v s) l := by
  have := hp.init; have := hp.inp; have := hp.fin; have := hp.out; have := hp.fallen; have := hp.can; have := hp.melt; have := hp.sat
  have := hp.et
  have w0 := wrote_book s (.bin false f.unit j) v
  unfold binStep
  dsimp only
  generalize hs1 : binIn rx f j v (book (.bin false f.unit j) v s) = s1
  unfold binIn at hs1
  have hnn : ∀ c ∈ [(f.key false 11, fallen v), (f.key true 1, v.can), (meltKey f (book (.bin false f.unit j) v s), v.melt),
      (f.key false 8, v.sat)], 0 ≤ c.2 := by
    intro c hc
    simp only [List.mem_cons, List.not_mem_nil, or_false] at hc
    rcases hc with rfl | rfl | rfl | rfl
    · exact hp.fallen
    · exact hp.can
    · exact hp.melt
    · exact hp.sat
  have hsum : sumOf (·.2) [(f.key false 11, fallen v), (f.key true 1, v.can), (meltKey f (book (.bin false f.unit j) v s), v.melt),
      (f.key false 8, v.sat)] = v.inp := by
    simp only [sumOf_cons, sumOf_nil]; linarith
  obtain ⟨i1, i2⟩ := input_sect hd f false _ v.inp (book (.bin false f.unit j) v s) hF hnn hsum s1
    (by intro h0; rw [if_pos h0] at hs1; rw [← hs1]; exact ⟨rfl, rfl⟩) (by intro h0; rw [if_neg h0] at hs1; exact hs1.symm)
  obtain ⟨l1, w1, r1⟩ := input_note hd f false (.bin false f.unit j) _ v.inp (book (.bin false f.unit j) v s) hF hnn hsum s1
    (by rw [← hs1]; rfl)
  simp only [sumOf_cons, sumOf_nil, add_zero, mo, book_sol] at i2 r1
  rw [meltKey_eq (f := f) (show (book (.bin false f.unit j) v s).pulse = s.pulse from rfl)] at i2 r1
  have i0 : Sect [f.key false 14] s s1 := ⟨i1.full, i1.same, i1.pulse⟩
  have hk : s1.sol (.bin false f.unit j) = s.sol (.bin false f.unit j) := i0.same _ (by simp [Flow.key])
  have hrow : (Key.bin false f.unit j).row = .bin false f.unit j := rfl
  have hrow' : (Key.bin true f.unit j).row = .bin false f.unit j := rfl
  rw [hrow] at w0 w1 r1
  have wa := w0.next w1 (K := [.bin false f.unit j]) (by simp) (by simp)
  by_cases hi : v.init > 0
  · rw [if_pos hi]
    have h0 : 0 < v.init + v.inp := by linarith
    have h1 : 0 < v.init + v.inp - v.et := lt_of_le_of_ne (by linarith) (Ne.symm (hz hi))
    obtain ⟨m, hm, em⟩ := mix_vols hd [(.bin false f.unit j, v.init), (f.key false 14, v.inp)] (v.init + v.inp) (.bin false f.unit j)
      (.bin true f.unit j) (by simp) (by simp) .no s1 i0.full h0
      (by
        intro c hc
        simp only [List.mem_cons, List.not_mem_nil, or_false] at hc
        rcases hc with rfl | rfl
        · exact hp.init
        · exact hp.inp)
      (by simp [sumOf_cons, sumOf_nil])
    simp only [sumOf_cons, sumOf_nil, add_zero, mo, List.map] at em hm
    generalize mix rx (checked [(Key.bin false f.unit j, v.init / (v.init + v.inp)), (f.key false 14, v.inp / (v.init + v.inp))])
      (Key.bin false f.unit j) (Key.bin true f.unit j) .no s1 = s2 at hm
    have h2 := evaporate_did hd (.bin true f.unit j) (.bin true f.unit j) (by simp) (by simp) (.res (.bin true f.unit j)) v s2 hm.full h0 hp.et h1
    have e1 : (s2.sol (.bin true f.unit j)).mol = m := hm.destNo
    generalize evaporate rx (.bin true f.unit j) (.bin true f.unit j) (.res (.bin true f.unit j)) v s2 = s3 at h2
    have wb := (wa.of_log (h2.log.trans hm.log)).next (wrote_note s3 (.bin true f.unit j) 3 v.out false false true)
      (K := [.bin false f.unit j]) (by simp) (by simp [hrow'])
    refine ⟨_, wb, Or.inl ⟨s3.conc, s3.tal, _, rfl, ?_, ?_, fun _ => h2.talEq hd⟩⟩
    · rw [hrow', recs_append, recs_append, rec_set, r1, rec_last]
      simp [Rec.add, add_assoc]
    · rw [h2.conc, e1, hb]
      rw [hk, i2] at em
      have : (v.init + v.inp - v.et) * ((v.init + v.inp) / (v.init + v.inp - v.et) * m) = (v.init + v.inp) * m := by field_simp
      rw [this, em]
      unfold mo; ring
  · rw [if_neg hi]
    have z : v.init = 0 := le_antisymm (not_lt.1 hi) hp.init
    obtain ⟨z1, z2⟩ := he z
    have e2 : fallen v = 0 := by linarith
    have e3 : v.can = 0 := by linarith
    have e4 : v.melt = 0 := by linarith
    have e5 : v.sat = 0 := by linarith
    refine ⟨_, wa, Or.inr ⟨?_, z, z2, by linarith, e2, e3, e4, e5⟩⟩
    rw [recs_append, rec_set, r1, e2, e3, e4, e5]
    simp [Rec.add]

theorem Rec.none_add' (a : Rec) (b : Rec) (h : b = .none) : a.add b = a := by rw [h, Rec.add_none]

theorem Rec.add_none' (a : Rec) (b : Rec) (h : b = .none) : b.add a = a := by rw [h, Rec.none_add]

theorem binLoop_log {rx : Ent → Sol → Sol} (hd : Dry rx) (f : Flow) (bs : List BinOut)
    (H : ∀ b ∈ bs, Pos b.vol ∧ b.vol.inp = fallen b.vol + b.vol.can + b.vol.melt + b.vol.sat ∧
      b.vol.fin + b.vol.out = b.vol.init + b.vol.inp - b.vol.et ∧ (b.vol.init = 0 → b.vol.inp = 0 ∧ b.vol.out = 0) ∧
      (0 < b.vol.init → b.vol.init + b.vol.inp - b.vol.et ≠ 0)) (j : Nat) (s : St) (hF : Full s.sol) :
    ∃ l, (binLoop rx f j bs s).log = s.log ++ l ∧ (∀ u, gws u l = (0, 0)) ∧
      (∀ k, (∀ i, j ≤ i → i < j + bs.length → k ≠ .bin false f.unit i) → recs k l = .none) ∧
      ∀ i b, bs[i]? = some b → BinRec f (j + i) b.vol s (binLoop rx f j bs s) l := by
  induction bs generalizing j s with
  | nil => exact ⟨[], by simp [binLoop], fun _ => rfl, fun _ _ => rfl, by simp⟩
  | cons b bs ih =>
    obtain ⟨h1, h2, h3, h4, h5⟩ := H b List.mem_cons_self
    obtain ⟨a1, -⟩ := binStep_sect hd f j b.vol h1 h2 h3 h4 h5 s hF
    obtain ⟨l1, w1, q1⟩ := binStep_log hd f j b.vol h1 h2 h3 h4 h5 s hF
    obtain ⟨⟨c1, c2, c3⟩, -⟩ := binLoop_sect hd f bs (fun b hb => H b (List.mem_cons_of_mem _ hb)) (j + 1) (binStep rx f j b.vol s) a1.full
    obtain ⟨l2, g2, u2, o2, q2⟩ := ih (fun b hb => H b (List.mem_cons_of_mem _ hb)) (j + 1) (binStep rx f j b.vol s) a1.full
    unfold binLoop
    refine ⟨l1 ++ l2, by rw [g2, w1.log, List.append_assoc], ?_, ?_, ?_⟩
    · intro u; rw [gws_append, w1.gw, u2]; simp
    · intro k hk
      rw [recs_append, w1.other k (by simpa using hk j (le_refl _) (by simp)), Rec.none_add]
      exact o2 k fun i h h' => hk i (by omega) (by simp only [List.length_cons]; omega)
    · intro i b' hb'
      cases i with
      | zero =>
        simp only [List.getElem?_cons_zero, Option.some.injEq] at hb'
        subst hb'
        have z : recs (.bin false f.unit (j + 0)) l2 = .none := o2 _ fun i h h' => by simp; omega
        have es : mo (binLoop rx f (j + 1) bs (binStep rx f j b.vol s)) (.bin true f.unit j) = mo (binStep rx f j b.vol s) (.bin true f.unit j) := by
          unfold mo
          rw [c3 _ (by simp [Flow.key]) (by intro t i hi; simp; omega)]
        rcases q1 with ⟨c, t, src, e, q⟩ | q
        · refine Or.inl ⟨c, t, src, e, ?_, q.mass, ?_⟩
          · rw [recs_append, z, Rec.add_none]; exact q.recs
          · intro h; rw [show j + 0 = j from rfl, es]; exact q.tal h
        · refine Or.inr ⟨?_, q.2⟩
          rw [recs_append, z, Rec.add_none]; exact q.1
      | succ i =>
        simp only [List.getElem?_cons_succ] at hb'
        have := q2 i b' hb'
        rw [show j + 1 + i = j + (i + 1) by omega] at this
        have z : recs (.bin false f.unit (j + (i + 1))) l1 = .none := w1.other _ (by simp)
        have sm : ∀ k, k = .bin false f.unit (j + (i + 1)) ∨ k = f.key false 11 ∨ k = f.key true 1 ∨ k = f.key false 2 ∨ k = f.key true 2 ∨ k = f.key false 8 →
            (binStep rx f j b.vol s).sol k = s.sol k := by
          intro k hk
          apply a1.same
          rcases hk with rfl | rfl | rfl | rfl | rfl | rfl <;> simp [Flow.key]
        have mk : meltKey f (binStep rx f j b.vol s) = meltKey f s := meltKey_eq a1.pulse
        have mm : (binStep rx f j b.vol s).sol (meltKey f s) = s.sol (meltKey f s) := by
          apply sm
          unfold meltKey
          split <;> simp
        rcases this with ⟨c, t, src, e, q⟩ | q
        · refine Or.inl ⟨c, t, src, ?_, ?_, ?_, q.tal⟩
          · rw [e, mk]
            unfold mo
            rw [mm, sm (f.key false 11) (by simp), sm (f.key true 1) (by simp), sm (f.key false 8) (by simp)]
          · rw [recs_append, z, Rec.none_add]; exact q.recs
          · rw [q.mass]; unfold mo; rw [sm _ (Or.inl rfl)]
        · refine Or.inr ⟨?_, q.2⟩
          rw [recs_append, z, Rec.none_add]; exact q.1

theorem canopy2_log {rx : Ent → Sol → Sol} (hd : Dry rx) {f : Flow} (h : Facts f) (hr : f.Regular) (s : St) (hF : Full s.sol) :
    ∃ l, Wrote [f.key false 12, f.key false 1] s (canopy2 rx f s) l ∧
    recs (f.key false 12) l = ⟨overOuts (fun j b => b.toCan * mo s (.bin true f.unit j)) 1 f.bins, 0, [], []⟩ ∧
    (f.r.can.uz = 0 → recs (f.key false 1) l = ⟨0, 0, [], [(f.r.can.init, f.r.can.et, f.r.can.fin)]⟩) ∧
    (f.r.can.uz ≠ 0 → ∃ c t, Ends (f.key false 1) f.r.can 0 f.r.can.fin (f.r.can.init * mo s (f.key false 1))
      (mo (canopy2 rx f s) (f.key true 1)) (fallen f.r.can * mo s (f.key false 11) + f.r.can.ohoriz * mo s (f.key false 4) +
        overOuts (fun j b => b.toCan * mo s (.bin true f.unit j)) 1 f.bins) c t l) := by
  have hp := h.pcan
  have hz := hr.defined
  have hin := h.canIn
  have hb := h.canBal
  have w0 := wrote_book s (f.key true 1) f.r.can
  rw [show (f.key true 1).row = f.key false 1 from rfl] at w0
  have := hp.init; have := hp.inp; have := hp.fin; have := hp.out; have := hp.fallen; have := hp.ohoriz; have := hp.et
  unfold canopy2
  dsimp only
  split
  · next hu =>
    have hu' : 0 < f.r.can.uz := hu
    obtain ⟨p1, p2, p3⟩ := binParts_spec f (·.toCan) (·.toCan) 1 f.bins (fun k => mo s k) (fun b hb => (h.pbin b hb).2.1)
      (fun b hb hn => le_antisymm (not_lt.1 hn) (h.pbin b hb).2.1)
    rw [binParts_map]
    obtain ⟨m, hm, em⟩ := mix_vols hd (binParts f (·.toCan) (·.toCan) 1 1 f.bins) f.r.can.uz (f.key false 12) (f.key false 12)
      (by simp [Flow.key]) (by simp [Flow.key]) .no (book (f.key true 1) f.r.can s) hF hu' p1 (p2.trans h.toCan)
    rw [show sumOf (fun c => c.2 * mo (book (f.key true 1) f.r.can s) c.1) (binParts f (·.toCan) (·.toCan) 1 1 f.bins) =
      sumOf (fun c => c.2 * mo s c.1) (binParts f (·.toCan) (·.toCan) 1 1 f.bins) from rfl, p3] at em
    generalize mix rx (checked ((binParts f (·.toCan) (·.toCan) 1 1 f.bins).map fun c => (c.1, c.2 / f.r.can.uz))) (f.key false 12)
      (f.key false 12) .no (book (f.key true 1) f.r.can s) = s1 at hm
    have i0 : Sect [f.key false 12] s s1 := (Sect.refl (l := []) hF).next hm.sect rfl rfl rfl rfl (by simp) (by simp)
    have w1 := wrote_note s1 (f.key false 12) 0 f.r.can.uz false false false
    rw [show (f.key false 12).row = f.key false 12 from rfl] at w1
    generalize hs1' : note (f.key false 12) 0 f.r.can.uz false false false s1 = s1' at w1
    have e1' : s1'.sol = s1.sol ∧ s1'.pulse = s1.pulse := by rw [← hs1']; exact ⟨rfl, rfl⟩
    have hinp : 0 < f.r.can.inp := by linarith
    obtain ⟨n, hn, en⟩ := mix_vols hd [(f.key false 11, fallen f.r.can), (f.key false 12, f.r.can.uz), (f.key false 4, f.r.can.ohoriz)]
      f.r.can.inp (f.key false 14) (f.key false 14) (by simp [Flow.key]) (by simp [Flow.key]) .no
      s1' (e1'.1 ▸ i0.full) hinp
      (by
        intro c hc
        simp only [List.mem_cons, List.not_mem_nil, or_false] at hc
        rcases hc with rfl | rfl | rfl
        · exact hp.fallen
        · exact hp.uz
        · exact hp.ohoriz)
      (by simp only [sumOf_cons, sumOf_nil]; linarith)
    simp only [sumOf_cons, sumOf_nil, add_zero, mo, List.map, e1'.1] at en hn
    generalize mix rx (checked [(f.key false 11, fallen f.r.can / f.r.can.inp), (f.key false 12, f.r.can.uz / f.r.can.inp),
      (f.key false 4, f.r.can.ohoriz / f.r.can.inp)]) (f.key false 14) (f.key false 14) .no s1' = s2 at hn
    have j0 : Sect [f.key false 12, f.key false 14] s s2 := i0.next hn.sect e1'.1 e1'.2 rfl rfl (by simp) (by simp)
    have w2 := wrote_note s2 (f.key false 1) 2 f.r.can.inp false false false
    rw [show (f.key false 1).row = f.key false 1 from rfl] at w2
    generalize hs2' : note (f.key false 1) 2 f.r.can.inp false false false s2 = s2' at w2
    have e2' : s2'.sol = s2.sol := by rw [← hs2']; rfl
    have h0 : 0 < f.r.can.init + f.r.can.inp := by linarith
    have h1 : 0 < f.r.can.init + f.r.can.inp - f.r.can.et := by
      rcases (show 0 ≤ f.r.can.init + f.r.can.inp - f.r.can.et by linarith).eq_or_lt with e | e
      · exfalso
        revert hz
        unfold Flow.zero
        simp only [decide_eq_false_iff_not, not_or]
        intro hz
        exact hz.2.1 ⟨hu, Or.inr (Or.inr e.symm)⟩
      · exact e
    obtain ⟨q1, q2, q3⟩ := join_evaporate_rec hd f 1 f.r.can hp h0 h1 (.res (f.key true 1)) s2' (e2' ▸ j0.full) _ rfl
    generalize evaporate rx (f.key false 1) (f.key true 1) (.res (f.key true 1)) f.r.can (join rx f 1 f.r.can s2') = s3 at q1 q2 q3
    have w3 := wrote_note s3 (f.key true 1) 3 0 false false true
    rw [show (f.key true 1).row = f.key false 1 from rfl] at w3
    have wa := (w0.of_log hm.log).next w1 (K := [f.key false 12, f.key false 1]) (by simp) (by simp)
    have wb := (wa.of_log hn.log).next w2 (K := [f.key false 12, f.key false 1]) (by simp) (by simp)
    have wc := (wb.of_log q1).next w3 (K := [f.key false 12, f.key false 1]) (by simp) (by simp)
    have k14 : (s2.sol (f.key false 14)).mol = n := hn.destNo
    have k12 : (s1.sol (f.key false 12)).mol = m := hm.destNo
    have ne : f.key false 1 ≠ f.key false 12 := by simp [Flow.key]
    have hsrc : f.r.can.inp * n = fallen f.r.can * mo s (f.key false 11) + f.r.can.ohoriz * mo s (f.key false 4) +
        overOuts (fun j b => b.toCan * mo s (.bin true f.unit j)) 1 f.bins := by
      rw [en, k12, em, i0.same (f.key false 11) (by simp [Flow.key]), i0.same (f.key false 4) (by simp [Flow.key])]
      unfold mo; ring
    refine ⟨_, wc, ?_, fun h0 => absurd h0 hu'.ne', fun _ => ⟨s3.conc, s3.tal, ?_, ?_, fun _ => q2⟩⟩
    · rw [recs_append, recs_append, recs_append, w0.other _ (by simp [Flow.key]), w2.other _ (by simp [Flow.key]), w3.other _ (by simp [Flow.key]), rec_in0, hm.conc, em]
      simp [Rec.add, Rec.none]
    · rw [recs_append, recs_append, recs_append, rec_set, w1.other _ (by simp [Flow.key]), rec_in, rec_last, hn.conc, hsrc]
      simp [Rec.add, Rec.none]
    · have hz0 : f.r.can.out = 0 := h.drip hu'
      rw [hz0, add_zero] at hb
      rw [add_zero, hb, q3]
      unfold mo
      rw [e2', k14, hsrc, j0.same (f.key false 1) (by simp [Flow.key])]
  · next hu =>
    have hu' : f.r.can.uz = 0 := le_antisymm (not_lt.1 hu) hp.uz
    refine ⟨_, w0.next Wrote.refl (ks' := []) (by simp) (by simp), ?_, fun _ => ?_, fun hne => absurd hu' hne⟩
    · rw [List.append_nil, w0.other _ (by simp [Flow.key]), overOuts_zero]
      · rfl
      · intro b hb i
        rw [sumOf_eq_zero _ f.bins (fun b hb => (h.pbin b hb).2.1) (h.toCan.trans hu') b hb, zero_mul]
    · rw [List.append_nil, rec_set]

theorem recharge_log {rx : Ent → Sol → Sol} (hd : Dry rx) {f : Flow} (h : Facts f) (hr : f.Regular) (s : St) (hF : Full s.sol) :
    ∃ l, Wrote [f.key false 13, f.key false 7] s (recharge rx f s) l ∧
      recs (f.key false 13) l = ⟨(f.r.qdf.uz + f.r.sat.uz) * mo (recharge rx f s) (f.key true 13), 0, [], []⟩ ∧
      recs (f.key false 7) l = ⟨f.r.qdf.uz * mo (recharge rx f s) (f.key true 13), 0, [], []⟩ := by
  have hz := hr.defined
  have hsum : sumOf (fun b => b.toSat + b.toQdf) f.bins = f.r.qdf.uz + f.r.sat.uz := by
    rw [Reservoir.sumOf_add, h.toSat, h.toQdf]; ring
  have hnn : ∀ b ∈ f.bins, 0 ≤ b.toSat + b.toQdf := fun b hb => add_nonneg (h.pbin b hb).2.2.1 (h.pbin b hb).2.2.2
  unfold recharge
  dsimp only
  split
  · next hq =>
    have ht : 0 < f.r.qdf.uz + f.r.sat.uz := by
      rcases (add_nonneg h.pqdf.uz h.psat.uz).eq_or_lt with e | e
      · exfalso
        revert hz
        unfold Flow.zero
        simp only [decide_eq_false_iff_not, not_or]
        intro hz
        exact hz.2.2.2.2.1 ⟨hq, e.symm⟩
      · exact e
    obtain ⟨p1, p2, p3⟩ := binParts_spec f (·.toSat) (fun b => b.toSat + b.toQdf) 1 f.bins (fun k => mo s k) hnn
      (fun b hb hn => by
        have := le_antisymm (not_lt.1 hn) (h.pbin b hb).2.2.1
        rw [this, hr.toQdf b hb this, add_zero])
    rw [binParts_map]
    obtain ⟨m, hm, em⟩ := mix_vols hd (binParts f (·.toSat) (fun b => b.toSat + b.toQdf) 1 1 f.bins) (f.r.qdf.uz + f.r.sat.uz) (f.key true 13)
      (f.key true 13) (by simp [Flow.key]) (by simp [Flow.key]) .no s hF ht p1 (p2.trans hsum)
    generalize mix rx (checked ((binParts f (·.toSat) (fun b => b.toSat + b.toQdf) 1 1 f.bins).map fun c => (c.1, c.2 / (f.r.qdf.uz + f.r.sat.uz))))
      (f.key true 13) (f.key true 13) .no s = s1 at hm
    have w1 := wrote_note s1 (f.key true 13) 0 (f.r.qdf.uz + f.r.sat.uz) false false false
    rw [show (f.key true 13).row = f.key false 13 from rfl] at w1
    have w2 := wrote_note (note (f.key true 13) 0 (f.r.qdf.uz + f.r.sat.uz) false false false s1) (f.key false 7) 2 f.r.qdf.inp false false false
    rw [show (f.key false 7).row = f.key false 7 from rfl] at w2
    have wa : Wrote [f.key false 13] s (note (f.key true 13) 0 (f.r.qdf.uz + f.r.sat.uz) false false false s1) _ :=
      ⟨by rw [w1.log, hm.log], w1.other, w1.gw⟩
    have k13 : mo (note (f.key false 7) 2 f.r.qdf.inp false false false
        (note (f.key true 13) 0 (f.r.qdf.uz + f.r.sat.uz) false false false s1)) (f.key true 13) = m := hm.destNo
    refine ⟨_, wa.next w2 (by simp) (by simp), ?_, ?_⟩
    · rw [recs_append, rec_in0, w2.other _ (by simp [Flow.key]), Rec.add_none, k13, hm.conc]
    · rw [recs_append, w1.other _ (by simp [Flow.key]), Rec.none_add, rec_in, k13, h.qdfIn]
      congr 1
      congr 1
      exact hm.conc
  · next hq =>
    have h0 : f.r.qdf.uz + f.r.sat.uz = 0 := by
      rcases hr.quz with h | h
      · exact absurd h hq
      · exact h
    have h1 : f.r.qdf.uz = 0 := by have := h.pqdf.uz; have := h.psat.uz; linarith
    refine ⟨[], Wrote.refl, ?_, ?_⟩
    · rw [h0, zero_mul]; rfl
    · rw [h1, zero_mul]; rfl

end Verif.Transport
