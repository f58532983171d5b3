import Verif.Lemmas.TransportUnit3
/-
The sections of a unit: unsaturated zone, transpiration, recharge.
-/
namespace Verif.Transport
open Verif.Reservoir (Vol Rows BinOut Par In sumOf fall inch2m)

theorem satToUz_sect {rx : Ent → Sol → Sol} (hd : Dry rx) (f : Flow) (s : St) (hF : Full s.sol) : Sect [] s (satToUz rx f s) := by
  obtain ⟨a, -, b, -⟩ := mix_self hd (f.key false 8) (by simp [Flow.key]) s hF
  unfold satToUz
  exact (Sect.refl hF).of_sol a b

/-- What a bin takes in. -/
def binSrc (f : Flow) (j : Nat) (v : Vol) (s : St) : Rat :=
  v.init * mo s (.bin false f.unit j) + fallen v * mo s (f.key false 11) + v.can * mo s (f.key true 1) +
    v.melt * mo s (meltKey f s) + v.sat * mo s (f.key false 8)

theorem binStep_sect {rx : Ent → Sol → Sol} (hd : Dry rx) (f : Flow) (j : Nat) (v : Vol) (hp : Pos v)
    (hin : v.inp = fallen v + v.can + v.melt + v.sat) (hb : v.fin + v.out = v.init + v.inp - v.et)
    (he : v.init = 0 → v.inp = 0 ∧ v.out = 0) (hz : 0 < v.init → v.init + v.inp - v.et ≠ 0) (s : St) (hF : Full s.sol) :
    Sect [f.key false 14, .bin false f.unit j, .bin true f.unit j] s (binStep rx f j v s) ∧
    Taken rx (.res (.bin true f.unit j)) (v.fin + v.out) (mo (binStep rx f j v s) (.bin true f.unit j)) (binSrc f j v s) := by
  have := hp.init; have := hp.inp; have := hp.fin; have := hp.out; have := hp.fallen; have := hp.can; have := hp.melt; have := hp.sat
  have := hp.et
  unfold binStep
  dsimp only
  generalize hs1 : binIn rx f j v (book (.bin false f.unit j) v s) = s1
  unfold binIn at hs1
  obtain ⟨i1, i2⟩ := input_sect hd f false [(f.key false 11, fallen v), (f.key true 1, v.can),
      (meltKey f (book (.bin false f.unit j) v s), v.melt), (f.key false 8, v.sat)] v.inp
    (book (.bin false f.unit j) v s) hF
    (by
      intro c hc
      simp only [List.mem_cons, List.not_mem_nil, or_false] at hc
      rcases hc with rfl | rfl | rfl | rfl
      · exact hp.fallen
      · exact hp.can
      · exact hp.melt
      · exact hp.sat)
    (by simp only [sumOf_cons, sumOf_nil]; linarith) s1
    (by intro h0; rw [if_pos h0] at hs1; rw [← hs1]; exact ⟨rfl, rfl⟩) (by intro h0; rw [if_neg h0] at hs1; exact hs1.symm)
  simp only [sumOf_cons, sumOf_nil, add_zero, mo, book_sol] at i2
  rw [meltKey_eq (f := f) (show (book (.bin false f.unit j) v s).pulse = s.pulse from rfl)] at i2
  have i0 : Sect [f.key false 14] s s1 := ⟨i1.full, i1.same, i1.pulse⟩
  have hk : s1.sol (.bin false f.unit j) = s.sol (.bin false f.unit j) := i0.same _ (by simp [Flow.key])
  by_cases hi : v.init > 0
  · rw [if_pos hi]
    have h0 : 0 < v.init + v.inp := by linarith
    have h1 : 0 < v.init + v.inp - v.et := lt_of_le_of_ne (by linarith) (Ne.symm (hz hi))
    obtain ⟨m, hm, em⟩ := mix_vols hd [(.bin false f.unit j, v.init), (f.key false 14, v.inp)] (v.init + v.inp) (.bin false f.unit j)
      (.bin true f.unit j) (by simp) (by simp) .no s1 i0.full h0
      (by
        intro c hc
        simp only [List.mem_cons, List.not_mem_nil, or_false] at hc
        rcases hc with rfl | rfl
        · exact hp.init
        · exact hp.inp)
      (by simp [sumOf_cons, sumOf_nil])
    simp only [sumOf_cons, sumOf_nil, add_zero, mo, List.map] at em hm
    generalize mix rx (checked [(Key.bin false f.unit j, v.init / (v.init + v.inp)), (f.key false 14, v.inp / (v.init + v.inp))])
      (Key.bin false f.unit j) (Key.bin true f.unit j) .no s1 = s2 at hm
    have h2 := evaporate_did hd (.bin true f.unit j) (.bin true f.unit j) (by simp) (by simp) (.res (.bin true f.unit j)) v s2 hm.full h0 hp.et h1
    have hS : Sect [f.key false 14, .bin false f.unit j, .bin true f.unit j] s s2 := i0.next hm.sect rfl rfl rfl rfl (by simp) (by simp)
    have e1 : (s2.sol (.bin true f.unit j)).mol = m := hm.destNo
    refine ⟨hS.next h2.sect rfl rfl rfl rfl (by simp) (by simp), _, fun _ => h2.destRx hd (by simp), ?_⟩
    rw [e1, hb]
    rw [hk, i2] at em
    have : (v.init + v.inp - v.et) * ((v.init + v.inp) / (v.init + v.inp - v.et) * m) = (v.init + v.inp) * m := by field_simp
    rw [this, em]
    unfold binSrc mo; ring
  · rw [if_neg hi]
    have z : v.init = 0 := le_antisymm (not_lt.1 hi) hp.init
    obtain ⟨z1, z2⟩ := he z
    have e2 : fallen v = 0 := by linarith
    have e3 : v.can = 0 := by linarith
    have e4 : v.melt = 0 := by linarith
    have e5 : v.sat = 0 := by linarith
    refine ⟨i0.mono (by simp), 0, fun hne => absurd (by linarith) hne, ?_⟩
    unfold binSrc
    rw [z, e2, e3, e4, e5]; ring

theorem Taken.congr {rx e vol c c' src src'} (h : Taken rx e vol c src) (h1 : c = c') (h2 : src = src') : Taken rx e vol c' src' := by
  rw [← h1, ← h2]; exact h

theorem binSrc_congr (f : Flow) (j : Nat) (v : Vol) (s s' : St) (hp : s'.pulse = s.pulse)
    (h : ∀ k, k = .bin false f.unit j ∨ k = f.key false 11 ∨ k = f.key true 1 ∨ k = f.key false 2 ∨ k = f.key true 2 ∨ k = f.key false 8 →
      s'.sol k = s.sol k) : binSrc f j v s' = binSrc f j v s := by
  unfold binSrc mo
  rw [meltKey_eq hp]
  have : s'.sol (meltKey f s) = s.sol (meltKey f s) := by
    apply h
    unfold meltKey
    split <;> simp
  rw [this, h _ (Or.inl rfl), h (f.key false 11) (by simp), h (f.key true 1) (by simp), h (f.key false 8) (by simp)]

theorem binLoop_sect {rx : Ent → Sol → Sol} (hd : Dry rx) (f : Flow) (bs : List BinOut)
    (H : ∀ b ∈ bs, Pos b.vol ∧ b.vol.inp = fallen b.vol + b.vol.can + b.vol.melt + b.vol.sat ∧
      b.vol.fin + b.vol.out = b.vol.init + b.vol.inp - b.vol.et ∧ (b.vol.init = 0 → b.vol.inp = 0 ∧ b.vol.out = 0) ∧
      (0 < b.vol.init → b.vol.init + b.vol.inp - b.vol.et ≠ 0)) (j : Nat) (s : St) (hF : Full s.sol) :
    (Full (binLoop rx f j bs s).sol ∧ (binLoop rx f j bs s).pulse = s.pulse ∧
      ∀ k, k ≠ f.key false 14 → (∀ t i, j ≤ i → k ≠ .bin t f.unit i) → (binLoop rx f j bs s).sol k = s.sol k) ∧
    ∀ i b, bs[i]? = some b → Taken rx (.res (.bin true f.unit (j + i))) (b.vol.fin + b.vol.out)
      (mo (binLoop rx f j bs s) (.bin true f.unit (j + i))) (binSrc f (j + i) b.vol s) := by
  induction bs generalizing j s with
  | nil => exact ⟨⟨hF, rfl, fun _ _ _ => rfl⟩, by simp⟩
  | cons b bs ih =>
    obtain ⟨h1, h2, h3, h4, h5⟩ := H b List.mem_cons_self
    obtain ⟨a1, a2⟩ := binStep_sect hd f j b.vol h1 h2 h3 h4 h5 s hF
    obtain ⟨⟨c1, c2, c3⟩, c4⟩ := ih (fun b hb => H b (List.mem_cons_of_mem _ hb)) (j + 1) (binStep rx f j b.vol s) a1.full
    unfold binLoop
    refine ⟨⟨c1, c2.trans a1.pulse, ?_⟩, ?_⟩
    · intro k hk hkb
      rw [c3 k hk fun t i hi => hkb t i (by omega), a1.same]
      simp only [List.mem_cons, List.not_mem_nil, or_false, not_or]
      exact ⟨hk, hkb _ _ (le_refl _), hkb _ _ (le_refl _)⟩
    · intro i b' hb'
      cases i with
      | zero =>
        simp only [List.getElem?_cons_zero, Option.some.injEq] at hb'
        subst hb'
        refine a2.congr ?_ rfl
        unfold mo
        rw [add_zero, c3 _ (by simp [Flow.key]) (by intro t i hi; simp; omega)]
      | succ i =>
        simp only [List.getElem?_cons_succ] at hb'
        have := c4 i b' hb'
        rw [show j + 1 + i = j + (i + 1) by omega] at this
        refine this.congr rfl (binSrc_congr f _ _ _ _ a1.pulse ?_)
        intro k hk
        apply a1.same
        rcases hk with rfl | rfl | rfl | rfl | rfl | rfl <;> simp [Flow.key]

/-! ### Mixes of bins -/

theorem binParts_map (f : Flow) (take vol : BinOut → Rat) (tot : Rat) (j : Nat) (bs : List BinOut) :
    binParts f take vol tot j bs = (binParts f take vol 1 j bs).map fun c => (c.1, c.2 / tot) := by
  induction bs generalizing j with
  | nil => rfl
  | cons b bs ih =>
    unfold binParts
    split
    · rw [List.map_cons, ← ih]; simp
    · exact ih _

theorem binParts_spec (f : Flow) (take vol : BinOut → Rat) (j : Nat) (bs : List BinOut) (g : Key → Rat)
    (hv : ∀ b ∈ bs, 0 ≤ vol b) (ht : ∀ b ∈ bs, ¬ take b > 0 → vol b = 0) :
    (∀ c ∈ binParts f take vol 1 j bs, 0 ≤ c.2) ∧ sumOf (·.2) (binParts f take vol 1 j bs) = sumOf vol bs ∧
    sumOf (fun c => c.2 * g c.1) (binParts f take vol 1 j bs) = overOuts (fun i b => vol b * g (.bin true f.unit i)) j bs := by
  induction bs generalizing j with
  | nil => simp [binParts, sumOf_nil, overOuts]
  | cons b bs ih =>
    obtain ⟨a1, a2, a3⟩ := ih (j + 1) (fun b hb => hv b (List.mem_cons_of_mem _ hb)) (fun b hb => ht b (List.mem_cons_of_mem _ hb))
    unfold binParts overOuts
    split
    · refine ⟨?_, ?_, ?_⟩
      · intro c hc
        rcases List.mem_cons.1 hc with rfl | hc
        · simp only [div_one]; exact hv b List.mem_cons_self
        · exact a1 c hc
      · rw [sumOf_cons, sumOf_cons, a2]; simp
      · rw [sumOf_cons, a3]; simp
    · next hn =>
      have := ht b List.mem_cons_self hn
      refine ⟨a1, ?_, ?_⟩
      · rw [sumOf_cons, a2, this, zero_add]
      · rw [a3, this]; ring

theorem overOuts_zero (g : Nat → BinOut → Rat) (j : Nat) (bs : List BinOut) (h : ∀ b ∈ bs, ∀ i, g i b = 0) : overOuts g j bs = 0 := by
  induction bs generalizing j with
  | nil => rfl
  | cons b bs ih =>
    unfold overOuts
    rw [h b List.mem_cons_self, ih _ fun b hb => h b (List.mem_cons_of_mem _ hb), add_zero]

theorem overOuts_congr (g g' : Nat → BinOut → Rat) (j : Nat) (bs : List BinOut) (h : ∀ i, ∀ b ∈ bs, g i b = g' i b) :
    overOuts g j bs = overOuts g' j bs := by
  induction bs generalizing j with
  | nil => rfl
  | cons b bs ih =>
    unfold overOuts
    rw [h j b List.mem_cons_self, ih _ fun i b hb => h i b (List.mem_cons_of_mem _ hb)]

theorem canopy2_sect {rx : Ent → Sol → Sol} (hd : Dry rx) {f : Flow} (h : Facts f) (hr : f.Regular) (s : St) (hF : Full s.sol) :
    Sect [f.key false 12, f.key false 14, f.key false 1, f.key true 1] s (canopy2 rx f s) ∧
    (f.r.can.uz = 0 → (canopy2 rx f s).sol = s.sol) ∧
    (f.r.can.uz ≠ 0 → Taken rx (.res (f.key true 1)) (f.r.can.fin + f.r.can.out) (mo (canopy2 rx f s) (f.key true 1))
      (f.r.can.init * mo s (f.key false 1) + fallen f.r.can * mo s (f.key false 11) + f.r.can.ohoriz * mo s (f.key false 4) +
        overOuts (fun j b => b.toCan * mo s (.bin true f.unit j)) 1 f.bins)) := by
  have hp := h.pcan
  have hz := hr.defined
  have hin := h.canIn
  have hb := h.canBal
  have := hp.init; have := hp.inp; have := hp.fin; have := hp.out; have := hp.fallen; have := hp.ohoriz; have := hp.et
  unfold canopy2
  dsimp only
  split
  · next hu =>
    have hu' : 0 < f.r.can.uz := hu
    obtain ⟨p1, p2, p3⟩ := binParts_spec f (·.toCan) (·.toCan) 1 f.bins (fun k => mo s k) (fun b hb => (h.pbin b hb).2.1)
      (fun b hb hn => le_antisymm (not_lt.1 hn) (h.pbin b hb).2.1)
    rw [binParts_map]
    obtain ⟨m, hm, em⟩ := mix_vols hd (binParts f (·.toCan) (·.toCan) 1 1 f.bins) f.r.can.uz (f.key false 12) (f.key false 12)
      (by simp [Flow.key]) (by simp [Flow.key]) .no (book (f.key true 1) f.r.can s) hF hu' p1 (p2.trans h.toCan)
    rw [show sumOf (fun c => c.2 * mo (book (f.key true 1) f.r.can s) c.1) (binParts f (·.toCan) (·.toCan) 1 1 f.bins) =
      sumOf (fun c => c.2 * mo s c.1) (binParts f (·.toCan) (·.toCan) 1 1 f.bins) from rfl, p3] at em
    generalize mix rx (checked ((binParts f (·.toCan) (·.toCan) 1 1 f.bins).map fun c => (c.1, c.2 / f.r.can.uz))) (f.key false 12)
      (f.key false 12) .no (book (f.key true 1) f.r.can s) = s1 at hm
    have i0 : Sect [f.key false 12] s s1 := (Sect.refl (l := []) hF).next hm.sect rfl rfl rfl rfl (by simp) (by simp)
    have hinp : 0 < f.r.can.inp := by linarith
    obtain ⟨n, hn, en⟩ := mix_vols hd [(f.key false 11, fallen f.r.can), (f.key false 12, f.r.can.uz), (f.key false 4, f.r.can.ohoriz)]
      f.r.can.inp (f.key false 14) (f.key false 14) (by simp [Flow.key]) (by simp [Flow.key]) .no
      (note (f.key false 12) 0 f.r.can.uz false false false s1) i0.full hinp
      (by
        intro c hc
        simp only [List.mem_cons, List.not_mem_nil, or_false] at hc
        rcases hc with rfl | rfl | rfl
        · exact hp.fallen
        · exact hp.uz
        · exact hp.ohoriz)
      (by simp only [sumOf_cons, sumOf_nil]; linarith)
    simp only [sumOf_cons, sumOf_nil, add_zero, mo, List.map, note_sol] at en hn
    generalize mix rx (checked [(f.key false 11, fallen f.r.can / f.r.can.inp), (f.key false 12, f.r.can.uz / f.r.can.inp),
      (f.key false 4, f.r.can.ohoriz / f.r.can.inp)]) (f.key false 14) (f.key false 14) .no
      (note (f.key false 12) 0 f.r.can.uz false false false s1) = s2 at hn
    have j0 : Sect [f.key false 12, f.key false 14] s s2 := i0.next hn.sect rfl rfl rfl rfl (by simp) (by simp)
    have h0 : 0 < f.r.can.init + f.r.can.inp := by linarith
    have h1 : 0 < f.r.can.init + f.r.can.inp - f.r.can.et := by
      rcases (show 0 ≤ f.r.can.init + f.r.can.inp - f.r.can.et by linarith).eq_or_lt with e | e
      · exfalso
        revert hz
        unfold Flow.zero
        simp only [decide_eq_false_iff_not, not_or]
        intro hz
        exact hz.2.1 ⟨hu, Or.inr (Or.inr e.symm)⟩
      · exact e
    obtain ⟨c, c1, c2, c3⟩ := join_evaporate hd f 1 f.r.can hp h0 h1 (.res (f.key true 1)) (note (f.key false 1) 2 f.r.can.inp false false false s2) j0.full
    refine ⟨j0.next c1 rfl rfl rfl rfl (by simp) (by simp), fun h0 => absurd h0 hu'.ne', fun _ => ?_⟩
    refine ⟨c, fun _ => c2.trans (react_taken hd _ (by simp) c), ?_⟩
    rw [hb, c3]
    simp only [mo, note_sol]
    have k14 : (s2.sol (f.key false 14)).mol = n := hn.destNo
    have k12 : (s1.sol (f.key false 12)).mol = m := hm.destNo
    rw [k14, en, k12, em, j0.same (f.key false 1) (by simp [Flow.key]), i0.same (f.key false 11) (by simp [Flow.key]),
      i0.same (f.key false 4) (by simp [Flow.key])]
    ring
  · next hu =>
    have hu' : f.r.can.uz = 0 := le_antisymm (not_lt.1 hu) hp.uz
    exact ⟨(Sect.refl hF).of_sol rfl rfl, fun _ => rfl, fun hne => absurd hu' hne⟩

theorem recharge_sect {rx : Ent → Sol → Sol} (hd : Dry rx) {f : Flow} (h : Facts f) (hr : f.Regular) (s : St) (hF : Full s.sol) :
    Sect [f.key true 13] s (recharge rx f s) ∧
    (f.r.qdf.uz + f.r.sat.uz) * mo (recharge rx f s) (f.key true 13) =
      overOuts (fun j b => (b.toSat + b.toQdf) * mo s (.bin true f.unit j)) 1 f.bins := by
  have hz := hr.defined
  have hsum : sumOf (fun b => b.toSat + b.toQdf) f.bins = f.r.qdf.uz + f.r.sat.uz := by
    rw [Reservoir.sumOf_add, h.toSat, h.toQdf]; ring
  have hnn : ∀ b ∈ f.bins, 0 ≤ b.toSat + b.toQdf := fun b hb => add_nonneg (h.pbin b hb).2.2.1 (h.pbin b hb).2.2.2
  unfold recharge
  dsimp only
  split
  · next hq =>
    have ht : 0 < f.r.qdf.uz + f.r.sat.uz := by
      rcases (add_nonneg h.pqdf.uz h.psat.uz).eq_or_lt with e | e
      · exfalso
        revert hz
        unfold Flow.zero
        simp only [decide_eq_false_iff_not, not_or]
        intro hz
        exact hz.2.2.2.2.1 ⟨hq, e.symm⟩
      · exact e
    obtain ⟨p1, p2, p3⟩ := binParts_spec f (·.toSat) (fun b => b.toSat + b.toQdf) 1 f.bins (fun k => mo s k) hnn
      (fun b hb hn => by
        have := le_antisymm (not_lt.1 hn) (h.pbin b hb).2.2.1
        rw [this, hr.toQdf b hb this, add_zero])
    rw [binParts_map]
    obtain ⟨m, hm, em⟩ := mix_vols hd (binParts f (·.toSat) (fun b => b.toSat + b.toQdf) 1 1 f.bins) (f.r.qdf.uz + f.r.sat.uz) (f.key true 13)
      (f.key true 13) (by simp [Flow.key]) (by simp [Flow.key]) .no s hF ht p1 (p2.trans hsum)
    refine ⟨(hm.sect.mono (by simp)).of_sol rfl rfl, ?_⟩
    rw [p3] at em
    rw [← em]
    simp only [mo, note_sol]
    congr 1
    exact hm.destNo
  · next hq =>
    have h0 : f.r.qdf.uz + f.r.sat.uz = 0 := by
      rcases hr.quz with h | h
      · exact absurd h hq
      · exact h
    refine ⟨Sect.refl hF, ?_⟩
    rw [h0, zero_mul, overOuts_zero]
    intro b hb i
    rw [sumOf_eq_zero _ f.bins hnn (hsum.trans h0) b hb, zero_mul]

end Verif.Transport
