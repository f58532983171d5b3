import Verif.Lemmas.TransportUnit5
/-
A whole unit.
-/
namespace Verif.Transport
open Verif.Reservoir (Vol Rows BinOut Par In sumOf fall inch2m)

theorem column_zero {f : Vol → Rat} {bs : List BinOut} (h : ∀ b ∈ bs, 0 ≤ f b.vol) : 0 ≤ Reservoir.column f (bs.map (·.vol)) := by
  rw [Reservoir.column_eq, Reservoir.sumOf_map]
  exact sumOf_nonneg _ _ h

/-- Without throughfall, nothing receives it. -/
theorem Facts.noDrip {f : Flow} (h : Facts f) (hu : f.r.can.uz ≠ 0) :
    f.r.snow.can = 0 ∧ f.r.ohoriz.can = 0 ∧ (∀ b ∈ f.bins, b.vol.can = 0) ∧ f.r.sat.can = 0 := by
  have hc := h.closed.can
  rw [h.drip (lt_of_le_of_ne h.pcan.uz (Ne.symm hu)), h.uz] at hc
  have h1 := h.psnow.can
  have h2 := h.poh.can
  have h3 := h.psat.can
  have h4 : 0 ≤ Reservoir.column (·.can) (f.bins.map (·.vol)) := column_zero fun b hb => (h.pbin b hb).1.can
  refine ⟨by linarith, by linarith, ?_, by linarith⟩
  have h5 : Reservoir.column (·.can) (f.bins.map (·.vol)) = 0 := by linarith
  rw [Reservoir.column_eq, Reservoir.sumOf_map] at h5
  exact sumOf_eq_zero _ _ (fun b hb => (h.pbin b hb).1.can) h5

theorem Flow.Regular.binOk {f : Flow} (hr : f.Regular) (h : Facts f) :
    ∀ b ∈ f.bins, Pos b.vol ∧ b.vol.inp = fallen b.vol + b.vol.can + b.vol.melt + b.vol.sat ∧
      b.vol.fin + b.vol.out = b.vol.init + b.vol.inp - b.vol.et ∧ (b.vol.init = 0 → b.vol.inp = 0 ∧ b.vol.out = 0) ∧
      (0 < b.vol.init → b.vol.init + b.vol.inp - b.vol.et ≠ 0) := by
  intro b hb
  refine ⟨(h.pbin b hb).1, h.binIn b hb, h.binBal b hb, hr.empty b hb, fun hi he => ?_⟩
  have hz := hr.defined
  revert hz
  unfold Flow.zero
  simp only [decide_eq_false_iff_not, not_or]
  intro hz
  exact hz.2.2.2.1 ⟨b, hb, hi, Or.inr he⟩

/-- The keys a unit changes. -/
def Key.changed (u : Nat) (k : Key) : Prop :=
  k ∈ [Key.hill false 11 u, .hill false 14 u, .hill false 1 u, .hill true 1 u, .hill false 2 u, .hill true 2 u, .hill false 4 u,
    .hill true 4 u, .hill false 12 u, .hill true 13 u, .hill false 7 u, .hill true 7 u, .hill true 14 u, .hill false 8 u,
    .hill true 8 u, .hill false 9 u, .hill true 9 u, .hill true 10 u] ∨ ∃ t i, k = .bin t u i

theorem flow_moved {rx : Ent → Sol → Sol} (hd : Dry rx) {f : Flow} (ho : f.Ok) (hr : f.Regular) (s : St) (hF : Full s.sol) :
    Full (flow rx f s).sol ∧ (∀ k, ¬ k.changed f.unit → (flow rx f s).sol k = s.sol k) ∧ Moved rx f s (flow rx f s) := by
  have h := ho.facts
  unfold flow
  dsimp only
  obtain ⟨S1, E1⟩ := deposit_sect hd ho { s with pulse := false } hF
  generalize deposit rx f { s with pulse := false } = s1 at S1 E1
  have S2 := gwInput_sect hd h s1 S1.full
  generalize gwInput rx f s1 = s2 at S2
  obtain ⟨S3, Z3, E3⟩ := canopy1_sect hd h hr s2 S2.full
  generalize canopy1 rx f s2 = s3 at S3 Z3 E3
  obtain ⟨m, S4⟩ := snow_sect hd h hr s3 S3.full (by rw [S3.pulse, S2.pulse, S1.pulse])
  generalize snow rx f s3 = s4 at S4
  obtain ⟨S5, Z5, E5⟩ := ohoriz_sect hd h hr s4 S4.full
  generalize ohoriz rx f s4 = s5 at S5 Z5 E5
  have S6 := satToUz_sect hd f s5 S5.full
  generalize satToUz rx f s5 = s6 at S6
  obtain ⟨B, E7⟩ := binLoop_sect hd f f.bins (hr.binOk h) 1 s6 S6.full
  generalize binLoop rx f 1 f.bins s6 = s7 at B E7
  obtain ⟨F7, P7, B⟩ := B
  obtain ⟨S8, Z8, E8⟩ := canopy2_sect hd h hr s7 F7
  generalize canopy2 rx f s7 = s8 at S8 Z8 E8
  obtain ⟨S9, E9⟩ := recharge_sect hd h hr s8 S8.full
  generalize recharge rx f s8 = s9 at S9 E9
  obtain ⟨S10, E10⟩ := qdf_sect hd h s9 S9.full
  generalize qdf rx f s9 = s10 at S10 E10
  obtain ⟨S11, E11⟩ := sat_sect hd h hr s10 S10.full
  generalize sat rx f s10 = s11 at S11 E11
  have S12 := gwLoss_sect f s11 S11.full
  generalize gwLoss f s11 = s12 at S12
  obtain ⟨S13, E13, Z13⟩ := satpref_sect hd h s12 S12.full
  generalize satpref rx f s12 = s13 at S13 E13 Z13
  obtain ⟨S14, E14⟩ := hill_sect hd h s13 S13.full
  generalize hill rx f s13 = s14 at S14 E14
  have F14 := S14.full
  have C1 : ∀ k, k ∉ [f.key false 11] → s1.sol k = s.sol k := S1.same
  have C2 := S2.same
  have C3 := S3.same
  have C4 := S4.same
  have C5 := S5.same
  have C6 := S6.same
  have C8 := S8.same
  have C9 := S9.same
  have C10 := S10.same
  have C11 := S11.same
  have C12 := S12.same
  have C13 := S13.same
  have C14 := S14.same
  -- melt water
  have p14 : s14.pulse = s4.pulse := by
    rw [S14.pulse, S13.pulse, S12.pulse, S11.pulse, S10.pulse, S9.pulse, S8.pulse, P7, S6.pulse, S5.pulse]
  have p10 : s10.pulse = s4.pulse := by rw [S10.pulse, S9.pulse, S8.pulse, P7, S6.pulse, S5.pulse]
  have p6 : s6.pulse = s4.pulse := by rw [S6.pulse, S5.pulse]
  have kb : ∀ k, (k = f.key false 2 ∨ k = f.key true 2) → s6.sol k = s4.sol k ∧ s10.sol k = s4.sol k ∧ s14.sol k = s4.sol k := by
    intro k hk
    have g5 : s6.sol k = s4.sol k := by
      rw [C6 k (by simp), C5 k (by rcases hk with rfl | rfl <;> simp [Flow.key])]
    have g10 : s10.sol k = s6.sol k := by
      rw [C10 k (by rcases hk with rfl | rfl <;> simp [Flow.key]), C9 k (by rcases hk with rfl | rfl <;> simp [Flow.key]),
        C8 k (by rcases hk with rfl | rfl <;> simp [Flow.key]), B k (by rcases hk with rfl | rfl <;> simp [Flow.key])
          (by rcases hk with rfl | rfl <;> simp [Flow.key])]
    have g14 : s14.sol k = s10.sol k := by
      rw [C14 k (by rcases hk with rfl | rfl <;> simp [Flow.key]), C13 k (by rcases hk with rfl | rfl <;> simp [Flow.key]),
        C12 k (by simp), C11 k (by rcases hk with rfl | rfl <;> simp [Flow.key])]
    exact ⟨g5, g10.trans g5, g14.trans (g10.trans g5)⟩
  have mk14 : meltKey f s14 = meltKey f s4 := meltKey_eq p14
  have mk10 : meltKey f s10 = meltKey f s4 := meltKey_eq p10
  have mk6 : meltKey f s6 = meltKey f s4 := meltKey_eq p6
  have mm : s6.sol (meltKey f s4) = s4.sol (meltKey f s4) ∧ s10.sol (meltKey f s4) = s4.sol (meltKey f s4) ∧
      s14.sol (meltKey f s4) = s4.sol (meltKey f s4) := by
    apply kb
    unfold meltKey
    split <;> simp
  -- throughfall
  have t1 : f.r.can.uz = 0 → s14.sol (f.key true 1) = s3.sol (f.key true 1) ∧ s10.sol (f.key true 1) = s3.sol (f.key true 1) ∧
      s6.sol (f.key true 1) = s3.sol (f.key true 1) ∧ s4.sol (f.key true 1) = s3.sol (f.key true 1) := by
    intro hu
    have g4 : s4.sol (f.key true 1) = s3.sol (f.key true 1) := C4 _ (by simp [Flow.key])
    have g6 : s6.sol (f.key true 1) = s3.sol (f.key true 1) := by rw [C6 _ (by simp), C5 _ (by simp [Flow.key]), g4]
    have g10 : s10.sol (f.key true 1) = s3.sol (f.key true 1) := by
      rw [C10 _ (by simp [Flow.key]), C9 _ (by simp [Flow.key]), Z8 hu, B _ (by simp [Flow.key]) (by simp [Flow.key]), g6]
    exact ⟨by rw [C14 _ (by simp [Flow.key]), C13 _ (by simp [Flow.key]), C12 _ (by simp), C11 _ (by simp [Flow.key]), g10], g10, g6, g4⟩
  have drip : ∀ (x : Rat) (si : St), (f.r.can.uz ≠ 0 → x = 0) →
      (f.r.can.uz = 0 → si.sol (f.key true 1) = s3.sol (f.key true 1)) → x * mo si (f.key true 1) = x * mo s14 (f.key true 1) := by
    intro x si h1 h2
    by_cases hu : f.r.can.uz = 0
    · unfold mo; rw [h2 hu, (t1 hu).1]
    · rw [h1 hu, zero_mul, zero_mul]
  have a11 : s14.sol (f.key false 11) = s1.sol (f.key false 11) ∧ s10.sol (f.key false 11) = s1.sol (f.key false 11) ∧
      s7.sol (f.key false 11) = s1.sol (f.key false 11) ∧ s6.sol (f.key false 11) = s1.sol (f.key false 11) ∧
      s4.sol (f.key false 11) = s1.sol (f.key false 11) ∧ s3.sol (f.key false 11) = s1.sol (f.key false 11) ∧
      s2.sol (f.key false 11) = s1.sol (f.key false 11) := by
    have g2 : s2.sol (f.key false 11) = s1.sol (f.key false 11) := C2 _ (by simp [Flow.key])
    have g3 : s3.sol (f.key false 11) = s1.sol (f.key false 11) := by rw [C3 _ (by simp [Flow.key]), g2]
    have g4 : s4.sol (f.key false 11) = s1.sol (f.key false 11) := by rw [C4 _ (by simp [Flow.key]), g3]
    have g6 : s6.sol (f.key false 11) = s1.sol (f.key false 11) := by rw [C6 _ (by simp), C5 _ (by simp [Flow.key]), g4]
    have g7 : s7.sol (f.key false 11) = s1.sol (f.key false 11) := by rw [B _ (by simp [Flow.key]) (by simp [Flow.key]), g6]
    have g10 : s10.sol (f.key false 11) = s1.sol (f.key false 11) := by
      rw [C10 _ (by simp [Flow.key]), C9 _ (by simp [Flow.key]), C8 _ (by simp [Flow.key]), g7]
    exact ⟨by rw [C14 _ (by simp [Flow.key]), C13 _ (by simp [Flow.key]), C12 _ (by simp), C11 _ (by simp [Flow.key]), g10],
      g10, g7, g6, g4, g3, g2⟩
  obtain ⟨d14, d10, d7, d6, d4, d3, d2⟩ := a11
  have nb : ∀ i, s14.sol (.bin true f.unit i) = s7.sol (.bin true f.unit i) ∧ s8.sol (.bin true f.unit i) = s7.sol (.bin true f.unit i) := by
    intro i
    have g8 : s8.sol (.bin true f.unit i) = s7.sol (.bin true f.unit i) := C8 _ (by simp [Flow.key])
    exact ⟨by rw [C14 _ (by simp [Flow.key]), C13 _ (by simp [Flow.key]), C12 _ (by simp), C11 _ (by simp [Flow.key]),
      C10 _ (by simp [Flow.key]), C9 _ (by simp [Flow.key]), g8], g8⟩
  have nob : ∀ i, s6.sol (.bin false f.unit i) = s.sol (.bin false f.unit i) := by
    intro i
    rw [C6 _ (by simp), C5 _ (by simp [Flow.key]), C4 _ (by simp [Flow.key]), C3 _ (by simp [Flow.key]), C2 _ (by simp [Flow.key]),
      C1 _ (by simp [Flow.key])]
  have k4 : s4.sol (f.key false 4) = s.sol (f.key false 4) ∧ s2.sol (f.key false 4) = s.sol (f.key false 4) := by
    have g2 : s2.sol (f.key false 4) = s.sol (f.key false 4) := by rw [C2 _ (by simp [Flow.key]), C1 _ (by simp [Flow.key])]
    exact ⟨by rw [C4 _ (by simp [Flow.key]), C3 _ (by simp [Flow.key]), g2], g2⟩
  have k47 : s7.sol (f.key false 4) = s5.sol (f.key false 4) := by
    rw [B _ (by simp [Flow.key]) (by simp [Flow.key]), C6 _ (by simp)]
  have k1 : s2.sol (f.key false 1) = s.sol (f.key false 1) := by rw [C2 _ (by simp [Flow.key]), C1 _ (by simp [Flow.key])]
  have k17 : s7.sol (f.key false 1) = s3.sol (f.key false 1) := by
    rw [B _ (by simp [Flow.key]) (by simp [Flow.key]), C6 _ (by simp), C5 _ (by simp [Flow.key]), C4 _ (by simp [Flow.key])]
  have k2 : s3.sol (f.key false 2) = s.sol (f.key false 2) := by
    rw [C3 _ (by simp [Flow.key]), C2 _ (by simp [Flow.key]), C1 _ (by simp [Flow.key])]
  have k8 : s6.sol (f.key false 8) = s.sol (f.key false 8) := by
    rw [C6 _ (by simp), C5 _ (by simp [Flow.key]), C4 _ (by simp [Flow.key]), C3 _ (by simp [Flow.key]), C2 _ (by simp [Flow.key]),
      C1 _ (by simp [Flow.key])]
  have to10 : ∀ k, (k = f.key false 8 ∨ (∃ i, k = .data i)) → s10.sol k = s.sol k := by
    intro k hk
    have g : ∀ l : List Key, (∀ x ∈ l, x ≠ f.key false 8 ∧ ∀ i, x ≠ .data i) → k ∉ l := by
      intro l hl hm
      rcases hk with rfl | ⟨i, rfl⟩
      · exact (hl _ hm).1 rfl
      · exact (hl _ hm).2 i rfl
    rw [C10 k (g _ (by simp [Flow.key])), C9 k (g _ (by simp [Flow.key])), C8 k (g _ (by simp [Flow.key])),
      B k (by rcases hk with rfl | ⟨i, rfl⟩ <;> simp [Flow.key]) (by rcases hk with rfl | ⟨i, rfl⟩ <;> simp [Flow.key]), C6 k (by simp),
      C5 k (g _ (by simp [Flow.key])), C4 k (g _ (by simp [Flow.key])), C3 k (g _ (by simp [Flow.key])), C2 k (g _ (by simp [Flow.key])),
      C1 k (g _ (by simp [Flow.key]))]
  have k7 : s9.sol (f.key false 7) = s.sol (f.key false 7) := by
    rw [C9 _ (by simp [Flow.key]), C8 _ (by simp [Flow.key]), B _ (by simp [Flow.key]) (by simp [Flow.key]), C6 _ (by simp),
      C5 _ (by simp [Flow.key]), C4 _ (by simp [Flow.key]), C3 _ (by simp [Flow.key]), C2 _ (by simp [Flow.key]), C1 _ (by simp [Flow.key])]
  have k9 : s12.sol (f.key false 9) = s.sol (f.key false 9) := by
    rw [C12 _ (by simp), C11 _ (by simp [Flow.key]), C10 _ (by simp [Flow.key]), C9 _ (by simp [Flow.key]), C8 _ (by simp [Flow.key]),
      B _ (by simp [Flow.key]) (by simp [Flow.key]), C6 _ (by simp),
      C5 _ (by simp [Flow.key]), C4 _ (by simp [Flow.key]), C3 _ (by simp [Flow.key]), C2 _ (by simp [Flow.key]), C1 _ (by simp [Flow.key])]
  have r13 : s14.sol (f.key true 13) = s9.sol (f.key true 13) ∧ s10.sol (f.key true 13) = s9.sol (f.key true 13) := by
    have g10 : s10.sol (f.key true 13) = s9.sol (f.key true 13) := C10 _ (by simp [Flow.key])
    exact ⟨by rw [C14 _ (by simp [Flow.key]), C13 _ (by simp [Flow.key]), C12 _ (by simp), C11 _ (by simp [Flow.key]), g10], g10⟩
  have h13 : s14.sol (f.key true 4) = s5.sol (f.key true 4) ∧ s13.sol (f.key true 4) = s5.sol (f.key true 4) := by
    have g : s13.sol (f.key true 4) = s5.sol (f.key true 4) := by
      rw [C13 _ (by simp [Flow.key]), C12 _ (by simp), C11 _ (by simp [Flow.key]), C10 _ (by simp [Flow.key]), C9 _ (by simp [Flow.key]),
        C8 _ (by simp [Flow.key]), B _ (by simp [Flow.key]) (by simp [Flow.key]), C6 _ (by simp)]
    exact ⟨by rw [C14 _ (by simp [Flow.key]), g], g⟩
  have h7 : s14.sol (f.key true 7) = s10.sol (f.key true 7) ∧ s13.sol (f.key true 7) = s10.sol (f.key true 7) := by
    have g : s13.sol (f.key true 7) = s10.sol (f.key true 7) := by
      rw [C13 _ (by simp [Flow.key]), C12 _ (by simp), C11 _ (by simp [Flow.key])]
    exact ⟨by rw [C14 _ (by simp [Flow.key]), g], g⟩
  have h8 : s14.sol (f.key true 8) = s11.sol (f.key true 8) ∧ s13.sol (f.key true 8) = s11.sol (f.key true 8) ∧
      s12.sol (f.key true 8) = s11.sol (f.key true 8) := by
    have g2 : s12.sol (f.key true 8) = s11.sol (f.key true 8) := C12 _ (by simp)
    have g : s13.sol (f.key true 8) = s11.sol (f.key true 8) := by rw [C13 _ (by simp [Flow.key]), g2]
    exact ⟨by rw [C14 _ (by simp [Flow.key]), g], g, g2⟩
  have h9 : s14.sol (f.key true 9) = s13.sol (f.key true 9) := C14 _ (by simp [Flow.key])
  have nod := h.noDrip
  refine ⟨F14, ?_, ?_⟩
  · intro k hk
    unfold Key.changed at hk
    simp only [List.mem_cons, List.not_mem_nil, or_false, not_or, not_exists] at hk
    obtain ⟨⟨q1, q2, q3, q4, q5, q6, q7, q8, q9, q10, q11, q12, q13, q14, q15, q16, q17, q18⟩, qb⟩ := hk
    rw [C14 k (by simp [Flow.key, *]), C13 k (by simp [Flow.key, *]), C12 k (by simp), C11 k (by simp [Flow.key, *]),
      C10 k (by simp [Flow.key, *]), C9 k (by simp [Flow.key, *]), C8 k (by simp [Flow.key, *]),
      B k (by simp [Flow.key, *]) (fun t i _ => qb t i), C6 k (by simp), C5 k (by simp [Flow.key, *]), C4 k (by simp [Flow.key, *]),
      C3 k (by simp [Flow.key, *]), C2 k (by simp [Flow.key, *]), C1 k (by simp [Flow.key, *])]
  · constructor
    case dep =>
      refine E1.congr ?_ rfl
      rw [at_full F14, d14]
    case can =>
      simp only [at_full F14, at_full hF]
      by_cases hu : f.r.can.uz = 0
      · refine (E3 hu).congr ?_ ?_
        · unfold mo; rw [(t1 hu).1]
        · unfold mo; rw [k1, k4.2, d2, d14, overOuts_zero, add_zero]
          intro b hb i
          rw [sumOf_eq_zero _ f.bins (fun b hb => (h.pbin b hb).2.1) (h.toCan.trans hu) b hb, zero_mul]
      · refine (E8 hu).congr ?_ ?_
        · unfold mo
          rw [C14 _ (by simp [Flow.key]), C13 _ (by simp [Flow.key]), C12 _ (by simp), C11 _ (by simp [Flow.key]),
            C10 _ (by simp [Flow.key]), C9 _ (by simp [Flow.key])]
        · have e1 : s7.sol (f.key false 1) = s.sol (f.key false 1) := by rw [k17, Z3 hu, k1]
          have e2 : f.r.can.ohoriz * mo s7 (f.key false 4) = f.r.can.ohoriz * mo s (f.key false 4) := by
            by_cases hoh : f.r.can.ohoriz = 0
            · rw [hoh, zero_mul, zero_mul]
            · have := hr.leaves (lt_of_le_of_ne h.pcan.uz (Ne.symm hu)) (lt_of_le_of_ne h.pcan.ohoriz (Ne.symm hoh))
              unfold mo
              rw [k47, Z5 this, k4.1]
          rw [e2]
          unfold mo
          rw [e1, d7, d14]
          congr 1
          apply overOuts_congr
          intro i b _
          rw [(nb i).1]
    case snow =>
      refine ⟨m, ?_, ?_, ?_⟩
      · intro hne
        rw [at_full F14, (kb (f.key true 2) (Or.inr rfl)).2.2]
        exact S4.pack hne
      · intro hne
        rw [at_full F14, mk14, mm.2.2]
        exact S4.melt hne
      · rw [S4.mass]
        unfold above
        simp only [at_full F14, at_full hF]
        rw [drip f.r.snow.can s3 (fun hu => (nod hu).1) (fun _ => rfl), h.snowMelt]
        unfold mo
        rw [k2, d3, d14]; ring
    case ohoriz =>
      refine E5.congr ?_ ?_
      · rw [at_full F14, h13.1]
      · unfold above
        simp only [at_full F14, at_full hF]
        rw [drip f.r.ohoriz.can s4 (fun hu => (nod hu).2.1) (fun hu => (t1 hu).2.2.2), mk14]
        unfold mo
        rw [k4.1, d4, d14, mm.2.2]; ring
    case uz =>
      intro j b hb
      have := E7 j b hb
      rw [Nat.add_comm] at this
      refine this.congr ?_ ?_
      · rw [at_full F14, (nb _).1]
      · unfold binSrc above
        simp only [at_full F14, at_full hF]
        have hm : b ∈ f.bins := List.mem_of_getElem? hb
        rw [drip b.vol.can s6 (fun hu => (nod hu).2.2.1 b hm) (fun hu => (t1 hu).2.2.1), mk14, mk6]
        unfold mo
        rw [nob, d6, d14, mm.1, mm.2.2, k8]; ring
    case recharge =>
      rw [at_full F14, r13.1]
      have := E9
      unfold mo at this
      rw [this]
      apply overOuts_congr
      intro i b _
      rw [at_full F14, (nb i).1, (nb i).2]
    case qdf =>
      refine E10.congr ?_ ?_
      · rw [at_full F14, h7.1]
      · simp only [at_full F14, at_full hF]
        unfold mo
        rw [k7, r13.1]
    case sat =>
      refine E11.congr ?_ ?_
      · rw [at_full F14, h8.1]
      · unfold above
        simp only [at_full F14, at_full hF]
        rw [drip f.r.sat.can s10 (fun hu => (nod hu).2.2.2) (fun hu => (t1 hu).2.1), mk14, mk10]
        unfold mo
        rw [to10 (f.key false 8) (Or.inl rfl), to10 (.data (f.srcGw1 + 1)) (Or.inr ⟨_, rfl⟩), to10 (.data (f.srcGw2 + 1)) (Or.inr ⟨_, rfl⟩),
          d10, d14, mm.2.1, mm.2.2, r13.1, r13.2]; ring
    case satpref =>
      intro hpr
      refine (E13 hpr).congr ?_ ?_
      · rw [at_full F14, h9]
      · simp only [at_full F14, at_full hF]
        unfold mo
        rw [k9, h8.1, h8.2.2]
    case still =>
      intro hpr
      rw [at_full F14, at_full hF, h9, Z13 hpr, C12 _ (by simp), C11 _ (by simp [Flow.key]), C10 _ (by simp [Flow.key]),
        C9 _ (by simp [Flow.key]), C8 _ (by simp [Flow.key]), B _ (by simp [Flow.key]) (by simp [Flow.key]), C6 _ (by simp),
        C5 _ (by simp [Flow.key]), C4 _ (by simp [Flow.key]), C3 _ (by simp [Flow.key]), C2 _ (by simp [Flow.key]), C1 _ (by simp [Flow.key])]
    case hill =>
      simp only [at_full F14]
      have := E14
      unfold mo at this
      rw [this, h13.1, h13.2, h7.1, h7.2, h8.1, h8.2.1, h9]

end Verif.Transport
