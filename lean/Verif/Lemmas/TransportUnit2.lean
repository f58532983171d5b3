import Verif.Lemmas.TransportUnit
/-
The sections of a unit: groundwater, canopy, snow, O-horizon.
-/
namespace Verif.Transport
open Verif.Reservoir (Vol Rows BinOut Par In sumOf fall inch2m)

theorem gwInput_sect {rx : Ent → Sol → Sol} (hd : Dry rx) {f : Flow} (h : Facts f) (s : St) (hF : Full s.sol) :
    Sect [f.key false 14] s (gwInput rx f s) := by
  have hk : f.key false 14 ≠ .pure := by simp [Flow.key]
  unfold gwInput
  dsimp only
  split
  · next hv =>
    obtain ⟨m, hm, -⟩ := mix_vols hd [(.data (f.srcGw1 + 1), f.r.sat.gw1), (.data (f.srcGw2 + 1), f.r.sat.gw2)] (f.r.sat.gw1 + f.r.sat.gw2)
      (f.key false 14) (f.key false 14) hk hk .no s hF hv
      (by
        intro c hc
        simp only [List.mem_cons, List.not_mem_nil, or_false] at hc
        rcases hc with rfl | rfl
        · exact h.psat.gw1
        · exact h.psat.gw2)
      (by simp [sumOf_cons, sumOf_nil])
    exact (hm.sect.mono (l' := [f.key false 14]) (by simp)).of_sol rfl rfl
  · exact Sect.refl hF

/-- A reservoir mixed with its inputs. -/
theorem join_did {rx : Ent → Sol → Sol} (hd : Dry rx) (f : Flow) (k : Nat) (v : Vol) (hv : Pos v) (h0 : 0 < v.init + v.inp) (s : St)
    (hF : Full s.sol) :
    ∃ m, Did rx (f.key false k) (f.key true k) .no m s (join rx f k v s) ∧
      (v.init + v.inp) * m = v.init * mo s (f.key false k) + v.inp * mo s (f.key false 14) := by
  unfold join
  obtain ⟨m, hm, e⟩ := mix_vols hd [(f.key false k, v.init), (f.key false 14, v.inp)] (v.init + v.inp) (f.key false k) (f.key true k)
    (by simp [Flow.key]) (by simp [Flow.key]) .no s hF h0
    (by
      intro c hc
      simp only [List.mem_cons, List.not_mem_nil, or_false] at hc
      rcases hc with rfl | rfl
      · exact hv.init
      · exact hv.inp)
    (by simp [sumOf_cons, sumOf_nil])
  refine ⟨m, hm, ?_⟩
  rw [e]
  simp [sumOf_cons, sumOf_nil]

/-- A reservoir mixed with its inputs, from which water then evaporates. -/
theorem join_evaporate {rx : Ent → Sol → Sol} (hd : Dry rx) (f : Flow) (k : Nat) (v : Vol) (hv : Pos v)
    (h0 : 0 < v.init + v.inp) (h1 : 0 < v.init + v.inp - v.et) (e : Ent) (s : St) (hF : Full s.sol) :
    ∃ m, Sect [f.key false k, f.key true k] s (evaporate rx (f.key false k) (f.key true k) e v (join rx f k v s)) ∧
      mo (evaporate rx (f.key false k) (f.key true k) e v (join rx f k v s)) (f.key true k) = (react rx e ⟨1, m⟩).mol ∧
      (v.init + v.inp - v.et) * m = v.init * mo s (f.key false k) + v.inp * mo s (f.key false 14) := by
  obtain ⟨m, hm, em⟩ := join_did hd f k v hv h0 s hF
  have hne : f.key false k ≠ f.key true k := by simp [Flow.key]
  have h2 := evaporate_did hd (f.key false k) (f.key true k) (by simp [Flow.key]) (by simp [Flow.key]) e v (join rx f k v s) hm.full h0 hv.et h1
  refine ⟨(v.init + v.inp) / (v.init + v.inp - v.et) * ((join rx f k v s).sol (f.key false k)).mol, hm.sect.trans h2.sect, ?_, ?_⟩
  · unfold mo; rw [h2.sol]; simp [upd]
  · rw [← em]
    have : ((join rx f k v s).sol (f.key false k)).mol = m := hm.cons' hne
    rw [this]
    field_simp

/-- The solution that a react leaves. -/
theorem react_taken {rx : Ent → Sol → Sol} (hd : Dry rx) (e : Ent) (he : e ≠ .no) (m : Rat) : (react rx e ⟨1, m⟩).mol = reacted rx e m := by
  rw [react_mol hd e he]

/-- The inputs of a reservoir are mixed. -/
theorem input_sect {rx : Ent → Sol → Sol} (hd : Dry rx) (f : Flow) (t : Bool) (l : List (Key × Rat)) (inp : Rat) (s : St) (hF : Full s.sol)
    (h : ∀ c ∈ l, 0 ≤ c.2) (h1 : sumOf (·.2) l = inp) (s' : St)
    (hs : 0 < inp → s'.sol = (mix rx (checked (l.map fun c => (c.1, c.2 / inp))) (f.key t 14) (f.key t 14) .no s).sol ∧ s'.pulse = s.pulse)
    (hs' : ¬ 0 < inp → s' = s) :
    Sect [f.key t 14] s s' ∧ inp * mo s' (f.key t 14) = sumOf (fun c => c.2 * mo s c.1) l := by
  by_cases hp : 0 < inp
  · obtain ⟨m, hm, e⟩ := mix_vols hd l inp (f.key t 14) (f.key t 14) (by simp [Flow.key]) (by simp [Flow.key]) .no s hF hp h h1
    obtain ⟨a, b⟩ := hs hp
    refine ⟨(hm.sect.mono (l' := [f.key t 14]) (by simp)).of_sol a (b.trans hm.pulse.symm), ?_⟩
    rw [← e]
    unfold mo
    rw [a]
    congr 1
    exact hm.destNo
  · rw [hs' hp]
    refine ⟨Sect.refl hF, ?_⟩
    have h0 : inp = 0 := le_antisymm (not_lt.1 hp) (h1 ▸ sumOf_nonneg _ _ h)
    rw [h0] at h1
    rw [h0, zero_mul, Reservoir.sumOf_zero]
    intro c hc
    rw [sumOf_eq_zero _ l h h1 c hc, zero_mul]

theorem canopy1_sect {rx : Ent → Sol → Sol} (hd : Dry rx) {f : Flow} (h : Facts f) (hr : f.Regular) (s : St) (hF : Full s.sol) :
    Sect [f.key false 14, f.key false 1, f.key true 1] s (canopy1 rx f s) ∧
    (f.r.can.uz ≠ 0 → (canopy1 rx f s).sol = s.sol) ∧
    (f.r.can.uz = 0 → Taken rx (.res (f.key true 1)) (f.r.can.fin + f.r.can.out) (mo (canopy1 rx f s) (f.key true 1))
      (f.r.can.init * mo s (f.key false 1) + fallen f.r.can * mo s (f.key false 11) + f.r.can.ohoriz * mo s (f.key false 4))) := by
  have hp := h.pcan
  have hz := hr.defined
  unfold canopy1
  dsimp only
  split
  · next ha =>
    obtain ⟨hu, ha⟩ := ha
    have hin := h.canIn
    rw [hu, add_zero] at hin
    generalize hs1 : (if f.r.can.inp > 0 then mix rx (checked [(f.key false 11, fallen f.r.can / f.r.can.inp),
      (f.key false 4, f.r.can.ohoriz / f.r.can.inp)]) (f.key false 14) (f.key false 14) .no (book (f.key true 1) f.r.can s)
      else book (f.key true 1) f.r.can s) = s1
    obtain ⟨i1, i2⟩ := input_sect hd f false [(f.key false 11, fallen f.r.can), (f.key false 4, f.r.can.ohoriz)] f.r.can.inp
      (book (f.key true 1) f.r.can s) hF
      (by
        intro c hc
        simp only [List.mem_cons, List.not_mem_nil, or_false] at hc
        rcases hc with rfl | rfl
        · exact hp.fallen
        · exact hp.ohoriz)
      (by simp [sumOf_cons, sumOf_nil, hin]) s1
      (by intro h0; rw [if_pos h0] at hs1; rw [← hs1]; exact ⟨rfl, rfl⟩) (by intro h0; rw [if_neg h0] at hs1; exact hs1.symm)
    simp only [sumOf_cons, sumOf_nil, add_zero, mo, book_sol] at i2
    have i0 : Sect [f.key false 14] s s1 := ⟨i1.full, i1.same, i1.pulse⟩
    have hk1 : (s1.sol (f.key false 1)) = s.sol (f.key false 1) := i0.same _ (by simp [Flow.key])
    have hb := h.canBal
    have := hp.init; have := hp.inp; have := hp.fin; have := hp.out; have := hp.fallen; have := hp.ohoriz; have := hp.et
    by_cases h0 : f.r.can.init + f.r.can.inp > 0
    · rw [if_pos h0]
      have h1 : 0 < f.r.can.init + f.r.can.inp - f.r.can.et := by
        rcases (show 0 ≤ f.r.can.init + f.r.can.inp - f.r.can.et by linarith).eq_or_lt with e | e
        · exfalso
          revert hz
          unfold Flow.zero
          simp only [decide_eq_false_iff_not, not_or]
          intro hz
          exact hz.1 ⟨hu, ha, by simp only [decide_eq_true_eq]; exact ⟨h0, e.symm⟩⟩
        · exact e
      obtain ⟨m, m1, m2, m3⟩ := join_evaporate hd f 1 f.r.can hp h0 h1 (.res (f.key true 1)) (note (f.key true 1) 2 f.r.can.inp false false false s1) i1.full
      refine ⟨i0.next m1 rfl rfl rfl rfl (by simp) (by simp), fun hne => absurd hu hne, fun _ => ?_⟩
      refine ⟨m, fun _ => m2.trans (react_taken hd _ (by simp) m), ?_⟩
      rw [hb, m3]
      simp only [mo, note_sol]
      rw [i2, hk1]; ring
    · rw [if_neg h0]
      refine ⟨(i0.mono (l' := [f.key false 14, f.key false 1, f.key true 1]) (by simp)).of_sol rfl rfl, fun hne => absurd hu hne, fun _ => ⟨0, ?_, ?_⟩⟩
      · intro hne; exact absurd (by linarith) hne
      · have e1 : f.r.can.init = 0 := by linarith
        have e2 : fallen f.r.can = 0 := by linarith
        have e3 : f.r.can.ohoriz = 0 := by linarith
        rw [e1, e2, e3]; ring
  · next ha =>
    split
    · next hu =>
      rw [not_and] at ha
      have ha := ha hu
      simp only [not_or, not_not] at ha
      have hi := hr.canopy hu ha.1 ha.2.1 ha.2.2
      have hb := h.canBal
      have hin := h.canIn
      have := hp.fallen; have := hp.ohoriz
      have hm := mix_one hd (f.key false 1) (f.key false 1) (f.key true 1) (by simp [Flow.key]) (by simp [Flow.key]) (.res (f.key true 1))
        (book (f.key true 1) f.r.can s) hF
      refine ⟨(Sect.refl (l := []) hF).next hm.sect rfl rfl rfl rfl (by simp) (by simp), fun hne => absurd hu hne, fun _ => ?_⟩
      refine ⟨_, fun _ => hm.destRx hd (by simp), ?_⟩
      have f0 : fallen f.r.can = 0 := by linarith
      have o0 : f.r.can.ohoriz = 0 := by linarith
      have : f.r.can.fin + f.r.can.out = f.r.can.init := by rw [hb, hi, ha.2.2]; ring
      rw [f0, o0, this]
      simp [book_sol]
    · next hu => exact ⟨(Sect.refl hF).of_sol rfl rfl, fun _ => rfl, fun h0 => absurd h0 hu⟩

end Verif.Transport
