import Verif.Lemmas.TransportLog
/-
What the sections of a unit record: canopy, snow, O-horizon.
-/
namespace Verif.Transport
open Verif.Reservoir (Vol Rows BinOut Par In sumOf fall inch2m)

theorem Did.talEq {rx cons dest e m s s'} (h : Did rx cons dest e m s s') (hd : Dry rx) : s'.tal = mo s' dest := by
  rw [h.tal]
  unfold mo
  rw [h.sol]
  have : (react rx e ⟨1, m⟩).water = 1 := react_water hd e _
  simp [upd, Sol.conc, this]

/-- Inputs are mixed and recorded. -/
theorem input_note {rx : Ent → Sol → Sol} (hd : Dry rx) (f : Flow) (t : Bool) (K : Key) (l : List (Key × Rat)) (inp : Rat) (s : St)
    (hF : Full s.sol) (h : ∀ c ∈ l, 0 ≤ c.2) (h1 : sumOf (·.2) l = inp) (s' : St)
    (hs : s' = if inp > 0 then note K 2 inp false false false
      (mix rx (checked (l.map fun c => (c.1, c.2 / inp))) (f.key t 14) (f.key t 14) .no s) else s) :
    ∃ l', Wrote [K.row] s s' l' ∧ recs K.row l' = ⟨sumOf (fun c => c.2 * mo s c.1) l, 0, [], []⟩ := by
  by_cases hp : 0 < inp
  · obtain ⟨m, hm, e⟩ := mix_vols hd l inp (f.key t 14) (f.key t 14) (by simp [Flow.key]) (by simp [Flow.key]) .no s hF hp h h1
    rw [if_pos hp] at hs
    generalize mix rx (checked (l.map fun c => (c.1, c.2 / inp))) (f.key t 14) (f.key t 14) .no s = s1 at hm hs
    have w := wrote_note s1 K 2 inp false false false
    rw [← hs] at w
    refine ⟨_, ⟨by rw [w.log, hm.log], w.other, w.gw⟩, ?_⟩
    rw [rec_in, hm.conc, e]
  · rw [if_neg hp] at hs
    rw [hs]
    refine ⟨[], Wrote.refl, ?_⟩
    have h0 : inp = 0 := le_antisymm (not_lt.1 hp) (h1 ▸ sumOf_nonneg _ _ h)
    rw [h0] at h1
    rw [Reservoir.sumOf_zero]
    · rfl
    · intro c hc
      rw [sumOf_eq_zero _ l h h1 c hc, zero_mul]

/-- A reservoir mixed with its inputs, from which water then evaporates: what is reported. -/
theorem join_evaporate_rec {rx : Ent → Sol → Sol} (hd : Dry rx) (f : Flow) (k : Nat) (v : Vol) (hv : Pos v)
    (h0 : 0 < v.init + v.inp) (h1 : 0 < v.init + v.inp - v.et) (e : Ent) (s : St) (hF : Full s.sol) (s' : St)
    (hs : s' = evaporate rx (f.key false k) (f.key true k) e v (join rx f k v s)) :
    s'.log = s.log ∧ s'.tal = mo s' (f.key true k) ∧
      (v.init + v.inp - v.et) * s'.conc = v.init * mo s (f.key false k) + v.inp * mo s (f.key false 14) := by
  obtain ⟨m, hm, em⟩ := join_did hd f k v hv h0 s hF
  have hne : f.key false k ≠ f.key true k := by simp [Flow.key]
  have h2 := evaporate_did hd (f.key false k) (f.key true k) (by simp [Flow.key]) (by simp [Flow.key]) e v (join rx f k v s) hm.full h0 hv.et h1
  rw [← hs] at h2
  refine ⟨h2.log.trans hm.log, h2.talEq hd, ?_⟩
  rw [← em, h2.conc]
  have : ((join rx f k v s).sol (f.key false k)).mol = m := hm.cons' hne
  rw [this]
  field_simp

/-- What is recorded in one section of a reservoir that ends with its reaction. -/
structure Ends (k : Key) (v : Vol) (out fin c0 c1 src c t : Rat) (l : List Ev) : Prop where
  recs : recs k l = ⟨src, out * c, [(c, t)], [(v.init, v.et, v.fin)]⟩
  mass : (fin + out) * c = c0 + src
  tal : fin ≠ 0 → t = c1

theorem canopy1_log {rx : Ent → Sol → Sol} (hd : Dry rx) {f : Flow} (h : Facts f) (hr : f.Regular) (s : St) (hF : Full s.sol) :
    ∃ l, Wrote [f.key false 1] s (canopy1 rx f s) l ∧
    (f.r.can.uz ≠ 0 → recs (f.key false 1) l = ⟨0, 0, [], [(f.r.can.init, f.r.can.et, f.r.can.fin)]⟩) ∧
    (f.r.can.uz = 0 → ∃ c t, Ends (f.key false 1) f.r.can f.r.can.out f.r.can.fin (f.r.can.init * mo s (f.key false 1))
      (mo (canopy1 rx f s) (f.key true 1)) (fallen f.r.can * mo s (f.key false 11) + f.r.can.ohoriz * mo s (f.key false 4)) c t l) := by
  have hp := h.pcan
  have hz := hr.defined
  have w0 := wrote_book s (f.key true 1) f.r.can
  unfold canopy1
  dsimp only
  split
  · next ha =>
    obtain ⟨hu, ha⟩ := ha
    have hin := h.canIn
    rw [hu, add_zero] at hin
    generalize hs1 : (if f.r.can.inp > 0 then mix rx (checked [(f.key false 11, fallen f.r.can / f.r.can.inp),
      (f.key false 4, f.r.can.ohoriz / f.r.can.inp)]) (f.key false 14) (f.key false 14) .no (book (f.key true 1) f.r.can s)
      else book (f.key true 1) f.r.can s) = s1
    have hnn : ∀ c ∈ [(f.key false 11, fallen f.r.can), (f.key false 4, f.r.can.ohoriz)], 0 ≤ c.2 := by
      intro c hc
      simp only [List.mem_cons, List.not_mem_nil, or_false] at hc
      rcases hc with rfl | rfl
      · exact hp.fallen
      · exact hp.ohoriz
    have hsum : sumOf (·.2) [(f.key false 11, fallen f.r.can), (f.key false 4, f.r.can.ohoriz)] = f.r.can.inp := by
      simp [sumOf_cons, sumOf_nil, hin]
    obtain ⟨i1, i2⟩ := input_sect hd f false [(f.key false 11, fallen f.r.can), (f.key false 4, f.r.can.ohoriz)] f.r.can.inp
      (book (f.key true 1) f.r.can s) hF hnn hsum s1
      (by intro h0; rw [if_pos h0] at hs1; rw [← hs1]; exact ⟨rfl, rfl⟩) (by intro h0; rw [if_neg h0] at hs1; exact hs1.symm)
    simp only [sumOf_cons, sumOf_nil, add_zero, mo, book_sol] at i2
    have ic : f.r.can.inp * s1.conc = f.r.can.inp * mo s1 (f.key false 14) ∧ s1.log = (book (f.key true 1) f.r.can s).log := by
      by_cases h0 : f.r.can.inp > 0
      · rw [if_pos h0] at hs1
        obtain ⟨m, hm, e⟩ := mix_vols hd [(f.key false 11, fallen f.r.can), (f.key false 4, f.r.can.ohoriz)] f.r.can.inp (f.key false 14)
          (f.key false 14) (by simp [Flow.key]) (by simp [Flow.key]) .no (book (f.key true 1) f.r.can s) hF h0 hnn hsum
        simp only [List.map] at hm
        rw [hs1] at hm
        exact ⟨by rw [hm.conc, hm.destNo], hm.log⟩
      · have : f.r.can.inp = 0 := le_antisymm (not_lt.1 h0) hp.inp
        rw [if_neg h0] at hs1
        exact ⟨by rw [this, zero_mul, zero_mul], by rw [hs1]⟩
    have i0 : Sect [f.key false 14] s s1 := ⟨i1.full, i1.same, i1.pulse⟩
    have hk1 : (s1.sol (f.key false 1)) = s.sol (f.key false 1) := i0.same _ (by simp [Flow.key])
    have w1 := wrote_note s1 (f.key true 1) 2 f.r.can.inp false false false
    generalize hs2 : note (f.key true 1) 2 f.r.can.inp false false false s1 = s2 at w1
    have e2 : s2.sol = s1.sol := by rw [← hs2]; rfl
    have hb := h.canBal
    have := hp.init; have := hp.inp; have := hp.fin; have := hp.out; have := hp.fallen; have := hp.ohoriz; have := hp.et
    have hsrc : f.r.can.inp * s1.conc = fallen f.r.can * mo s (f.key false 11) + f.r.can.ohoriz * mo s (f.key false 4) := by
      rw [ic.1]; exact i2
    have wa := (w0.of_log ic.2).next w1 (K := [f.key false 1]) (by simp [Key.row, Flow.key]) (by simp [Key.row, Flow.key])
    by_cases h0 : f.r.can.init + f.r.can.inp > 0
    · rw [if_pos h0]
      have h1 : 0 < f.r.can.init + f.r.can.inp - f.r.can.et := by
        rcases (show 0 ≤ f.r.can.init + f.r.can.inp - f.r.can.et by linarith).eq_or_lt with e | e
        · exfalso
          revert hz
          unfold Flow.zero
          simp only [decide_eq_false_iff_not, not_or]
          intro hz
          exact hz.1 ⟨hu, ha, by simp only [decide_eq_true_eq]; exact ⟨h0, e.symm⟩⟩
        · exact e
      obtain ⟨m1, m2, m3⟩ := join_evaporate_rec hd f 1 f.r.can hp h0 h1 (.res (f.key true 1)) s2 (e2 ▸ i1.full) _ rfl
      generalize evaporate rx (f.key false 1) (f.key true 1) (.res (f.key true 1)) f.r.can (join rx f 1 f.r.can s2) = s3 at m1 m2 m3
      have wb := (wa.of_log m1).next (wrote_note s3 (f.key true 1) 3 f.r.can.out false false true) (K := [f.key false 1]) (by simp) (by simp [Key.row, Flow.key])
      refine ⟨_, wb, fun hne => absurd hu hne, fun _ => ⟨s3.conc, s3.tal, ?_, ?_, fun _ => m2⟩⟩
      · rw [recs_append, recs_append, show (f.key true 1).row = f.key false 1 from rfl, rec_set, rec_in, rec_last, hsrc]
        simp [Rec.add]
      · rw [hb, m3]
        unfold mo
        rw [e2, i2, hk1]
    · rw [if_neg h0]
      have wb := wa.next (wrote_note s2 (f.key true 1) 3 f.r.can.out false false true) (K := [f.key false 1]) (by simp) (by simp [Key.row, Flow.key])
      have z1 : f.r.can.init = 0 := by linarith
      have z2 : fallen f.r.can = 0 := by linarith
      have z3 : f.r.can.ohoriz = 0 := by linarith
      have z4 : f.r.can.out = 0 := by linarith
      have z5 : f.r.can.fin = 0 := by linarith
      refine ⟨_, wb, fun hne => absurd hu hne, fun _ => ⟨s2.conc, s2.tal, ?_, ?_, fun hne => absurd z5 hne⟩⟩
      · rw [recs_append, recs_append, show (f.key true 1).row = f.key false 1 from rfl, rec_set, rec_in, rec_last, hsrc]
        simp [Rec.add]
      · rw [z1, z2, z3, z4, z5]; ring
  · next ha =>
    split
    · next hu =>
      rw [not_and] at ha
      have ha := ha hu
      simp only [not_or, not_not] at ha
      have hi := hr.canopy hu ha.1 ha.2.1 ha.2.2
      have hb := h.canBal
      have hin := h.canIn
      have := hp.fallen; have := hp.ohoriz
      have hm := mix_one hd (f.key false 1) (f.key false 1) (f.key true 1) (by simp [Flow.key]) (by simp [Flow.key]) (.res (f.key true 1))
        (book (f.key true 1) f.r.can s) hF
      generalize mix rx [(f.key false 1, 1)] (f.key false 1) (f.key true 1) (.res (f.key true 1)) (book (f.key true 1) f.r.can s) = s3 at hm
      have wb := (w0.of_log hm.log).next (wrote_note s3 (f.key true 1) (-1) 0 false false true) (K := [f.key false 1])
        (by simp [Key.row, Flow.key]) (by simp [Key.row, Flow.key])
      have f0 : fallen f.r.can = 0 := by linarith
      have o0 : f.r.can.ohoriz = 0 := by linarith
      refine ⟨_, wb, fun hne => absurd hu hne, fun _ => ⟨s3.conc, s3.tal, ?_, ?_, fun _ => hm.talEq hd⟩⟩
      · rw [recs_append, show (f.key true 1).row = f.key false 1 from rfl, rec_set, rec_still, f0, o0, ha.1]
        simp [Rec.add]
      · have : f.r.can.fin + f.r.can.out = f.r.can.init := by rw [hb, hi, ha.2.2]; ring
        rw [f0, o0, this, hm.conc]
        simp [book_sol]
    · next hu =>
      refine ⟨_, w0, fun _ => ?_, fun h0 => absurd h0 hu⟩
      rw [show (f.key true 1).row = f.key false 1 from rfl, rec_set]

end Verif.Transport
