import Verif.Lemmas.TransportLog4
import Verif.Lemmas.TransportFlow
/-
What a whole unit records.
-/
namespace Verif.Transport
open Verif.Reservoir (Vol Rows BinOut Par In sumOf fall inch2m)

theorem booked_of {v : Vol} {pre c0 c1 src c t : Rat} {k : Key} {l : List Ev} {vs : List (Rat × Rat × Rat)}
    (h : recs k l = ⟨src, pre * c0 + (v.out - pre) * c, [(c, t)], vs⟩) (hv : vs ≠ [] ∧ ∀ x ∈ vs, x = (v.init, v.et, v.fin))
    (mass : (v.fin + v.out - pre) * c = (v.init - pre) * c0 + src) (tal : v.fin ≠ 0 → t = c1) : Booked v pre c0 c1 src k l := by
  unfold recs at h
  injection h with h1 h2 h3 h4
  refine ⟨h4 ▸ hv, h1, Or.inl ⟨c, t, h3, h2, ?_, tal⟩⟩
  rw [h2, h1]; linarith

theorem booked_none {v : Vol} {pre c0 c1 src : Rat} {k : Key} {l : List Ev} {vs : List (Rat × Rat × Rat)}
    (h : recs k l = ⟨0, 0, [], vs⟩) (hv : vs ≠ [] ∧ ∀ x ∈ vs, x = (v.init, v.et, v.fin)) (hs : src = 0)
    (h0 : v.init = 0 ∧ v.out = 0 ∧ v.fin = 0) : Booked v pre c0 c1 src k l := by
  unfold recs at h
  injection h with h1 h2 h3 h4
  exact ⟨h4 ▸ hv, h1.trans hs.symm, Or.inr ⟨h3, h2, hs, h0⟩⟩

theorem flow_recorded {rx : Ent → Sol → Sol} (hd : Dry rx) {f : Flow} (ho : f.Ok) (hr : f.Regular) (s : St) (hF : Full s.sol) :
    ∃ l, (flow rx f s).log = s.log ++ l ∧ Recorded f s (flow rx f s) l := by
  have h := ho.facts
  unfold flow
  dsimp only
  obtain ⟨S1, E1⟩ := deposit_sect hd ho { s with pulse := false } hF
  obtain ⟨l1, L1, G1, W1, R1, R1s, R1d, R1r⟩ := deposit_log hd ho { s with pulse := false } hF
  generalize deposit rx f { s with pulse := false } = s1 at S1 E1 L1
  have S2 := gwInput_sect hd h s1 S1.full
  obtain ⟨l2, L2, W2, G2⟩ := gwInput_log hd h s1 S1.full
  generalize gwInput rx f s1 = s2 at S2 L2
  obtain ⟨S3, Z3, E3⟩ := canopy1_sect hd h hr s2 S2.full
  obtain ⟨l3, W3, R3, Q3⟩ := canopy1_log hd h hr s2 S2.full
  generalize canopy1 rx f s2 = s3 at S3 Z3 E3 W3 Q3
  obtain ⟨m, S4⟩ := snow_sect hd h hr s3 S3.full (by rw [S3.pulse, S2.pulse, S1.pulse])
  obtain ⟨l4, W4, R4⟩ := snow_log hd h hr s3 S3.full
  generalize snow rx f s3 = s4 at S4 W4 R4
  obtain ⟨S5, Z5, E5⟩ := ohoriz_sect hd h hr s4 S4.full
  obtain ⟨l5, c5, t5, W5, R5, M5, T5⟩ := ohoriz_log hd h hr ho.ohOut s4 S4.full
  generalize ohoriz rx f s4 = s5 at S5 Z5 E5 W5 T5
  have S6 := satToUz_sect hd f s5 S5.full
  obtain ⟨l6, W6, R6⟩ := satToUz_log hd f s5 S5.full
  generalize satToUz rx f s5 = s6 at S6 W6
  obtain ⟨B, E7⟩ := binLoop_sect hd f f.bins (hr.binOk h) 1 s6 S6.full
  obtain ⟨l7, L7, G7, W7, R7⟩ := binLoop_log hd f f.bins (hr.binOk h) 1 s6 S6.full
  generalize binLoop rx f 1 f.bins s6 = s7 at B E7 L7 R7
  obtain ⟨F7, P7, B⟩ := B
  obtain ⟨S8, Z8, E8⟩ := canopy2_sect hd h hr s7 F7
  obtain ⟨l8, W8, R8, Q8, M8⟩ := canopy2_log hd h hr s7 F7
  generalize canopy2 rx f s7 = s8 at S8 Z8 E8 W8 M8
  obtain ⟨S9, E9⟩ := recharge_sect hd h hr s8 S8.full
  obtain ⟨l9, W9, R9, R9q⟩ := recharge_log hd h hr s8 S8.full
  generalize recharge rx f s8 = s9 at S9 E9 W9 R9 R9q
  obtain ⟨S10, E10⟩ := qdf_sect hd h s9 S9.full
  obtain ⟨l10, c10, t10, W10, R10, M10, T10⟩ := qdf_log hd h s9 S9.full
  generalize qdf rx f s9 = s10 at S10 E10 W10 T10
  obtain ⟨S11, E11⟩ := sat_sect hd h hr s10 S10.full
  obtain ⟨l11, t11, W11, R11, R11p, M11, T11⟩ := sat_log hd h hr s10 S10.full
  generalize sat rx f s10 = s11 at S11 E11 W11 R11 R11p M11 T11
  have S12 := gwLoss_sect f s11 S11.full
  obtain ⟨l12, L12, W12, G12⟩ := gwLoss_log h s11
  generalize gwLoss f s11 = s12 at S12 L12
  obtain ⟨S13, E13, Z13⟩ := satpref_sect hd h s12 S12.full
  obtain ⟨l13, W13, R13, R13s⟩ := satpref_log hd h s12 S12.full
  generalize satpref rx f s12 = s13 at S13 E13 Z13 W13 R13
  obtain ⟨S14, E14⟩ := hill_sect hd h s13 S13.full
  obtain ⟨l14, W14, R14⟩ := hill_log hd h s13 S13.full
  generalize hill rx f s13 = s14 at S14 E14 W14 R14
  have F14 := S14.full
  have C1 : ∀ k, k ∉ [f.key false 11] → s1.sol k = s.sol k := S1.same
  have C2 := S2.same
  have C3 := S3.same
  have C4 := S4.same
  have C5 := S5.same
  have C6 := S6.same
  have C8 := S8.same
  have C9 := S9.same
  have C10 := S10.same
  have C11 := S11.same
  have C12 := S12.same
  have C13 := S13.same
  have C14 := S14.same
  -- melt water
  have p14 : s14.pulse = s4.pulse := by
    rw [S14.pulse, S13.pulse, S12.pulse, S11.pulse, S10.pulse, S9.pulse, S8.pulse, P7, S6.pulse, S5.pulse]
  have p10 : s10.pulse = s4.pulse := by rw [S10.pulse, S9.pulse, S8.pulse, P7, S6.pulse, S5.pulse]
  have p6 : s6.pulse = s4.pulse := by rw [S6.pulse, S5.pulse]
  have kb : ∀ k, (k = f.key false 2 ∨ k = f.key true 2) → s6.sol k = s4.sol k ∧ s10.sol k = s4.sol k ∧ s14.sol k = s4.sol k := by
    intro k hk
    have g5 : s6.sol k = s4.sol k := by
      rw [C6 k (by simp), C5 k (by rcases hk with rfl | rfl <;> simp [Flow.key])]
    have g10 : s10.sol k = s6.sol k := by
      rw [C10 k (by rcases hk with rfl | rfl <;> simp [Flow.key]), C9 k (by rcases hk with rfl | rfl <;> simp [Flow.key]),
        C8 k (by rcases hk with rfl | rfl <;> simp [Flow.key]), B k (by rcases hk with rfl | rfl <;> simp [Flow.key])
          (by rcases hk with rfl | rfl <;> simp [Flow.key])]
    have g14 : s14.sol k = s10.sol k := by
      rw [C14 k (by rcases hk with rfl | rfl <;> simp [Flow.key]), C13 k (by rcases hk with rfl | rfl <;> simp [Flow.key]),
        C12 k (by simp), C11 k (by rcases hk with rfl | rfl <;> simp [Flow.key])]
    exact ⟨g5, g10.trans g5, g14.trans (g10.trans g5)⟩
  have mk14 : meltKey f s14 = meltKey f s4 := meltKey_eq p14
  have mk10 : meltKey f s10 = meltKey f s4 := meltKey_eq p10
  have mk6 : meltKey f s6 = meltKey f s4 := meltKey_eq p6
  have mm : s6.sol (meltKey f s4) = s4.sol (meltKey f s4) ∧ s10.sol (meltKey f s4) = s4.sol (meltKey f s4) ∧
      s14.sol (meltKey f s4) = s4.sol (meltKey f s4) := by
    apply kb
    unfold meltKey
    split <;> simp
  -- throughfall
  have t1 : f.r.can.uz = 0 → s14.sol (f.key true 1) = s3.sol (f.key true 1) ∧ s10.sol (f.key true 1) = s3.sol (f.key true 1) ∧
      s6.sol (f.key true 1) = s3.sol (f.key true 1) ∧ s4.sol (f.key true 1) = s3.sol (f.key true 1) := by
    intro hu
    have g4 : s4.sol (f.key true 1) = s3.sol (f.key true 1) := C4 _ (by simp [Flow.key])
    have g6 : s6.sol (f.key true 1) = s3.sol (f.key true 1) := by rw [C6 _ (by simp), C5 _ (by simp [Flow.key]), g4]
    have g10 : s10.sol (f.key true 1) = s3.sol (f.key true 1) := by
      rw [C10 _ (by simp [Flow.key]), C9 _ (by simp [Flow.key]), Z8 hu, B _ (by simp [Flow.key]) (by simp [Flow.key]), g6]
    exact ⟨by rw [C14 _ (by simp [Flow.key]), C13 _ (by simp [Flow.key]), C12 _ (by simp), C11 _ (by simp [Flow.key]), g10], g10, g6, g4⟩
  have drip : ∀ (x : Rat) (si : St), (f.r.can.uz ≠ 0 → x = 0) →
      (f.r.can.uz = 0 → si.sol (f.key true 1) = s3.sol (f.key true 1)) → x * mo si (f.key true 1) = x * mo s14 (f.key true 1) := by
    intro x si h1 h2
    by_cases hu : f.r.can.uz = 0
    · unfold mo; rw [h2 hu, (t1 hu).1]
    · rw [h1 hu, zero_mul, zero_mul]
  have a11 : s14.sol (f.key false 11) = s1.sol (f.key false 11) ∧ s10.sol (f.key false 11) = s1.sol (f.key false 11) ∧
      s7.sol (f.key false 11) = s1.sol (f.key false 11) ∧ s6.sol (f.key false 11) = s1.sol (f.key false 11) ∧
      s4.sol (f.key false 11) = s1.sol (f.key false 11) ∧ s3.sol (f.key false 11) = s1.sol (f.key false 11) ∧
      s2.sol (f.key false 11) = s1.sol (f.key false 11) := by
    have g2 : s2.sol (f.key false 11) = s1.sol (f.key false 11) := C2 _ (by simp [Flow.key])
    have g3 : s3.sol (f.key false 11) = s1.sol (f.key false 11) := by rw [C3 _ (by simp [Flow.key]), g2]
    have g4 : s4.sol (f.key false 11) = s1.sol (f.key false 11) := by rw [C4 _ (by simp [Flow.key]), g3]
    have g6 : s6.sol (f.key false 11) = s1.sol (f.key false 11) := by rw [C6 _ (by simp), C5 _ (by simp [Flow.key]), g4]
    have g7 : s7.sol (f.key false 11) = s1.sol (f.key false 11) := by rw [B _ (by simp [Flow.key]) (by simp [Flow.key]), g6]
    have g10 : s10.sol (f.key false 11) = s1.sol (f.key false 11) := by
      rw [C10 _ (by simp [Flow.key]), C9 _ (by simp [Flow.key]), C8 _ (by simp [Flow.key]), g7]
    exact ⟨by rw [C14 _ (by simp [Flow.key]), C13 _ (by simp [Flow.key]), C12 _ (by simp), C11 _ (by simp [Flow.key]), g10],
      g10, g7, g6, g4, g3, g2⟩
  obtain ⟨d14, d10, d7, d6, d4, d3, d2⟩ := a11
  have nb : ∀ i, s14.sol (.bin true f.unit i) = s7.sol (.bin true f.unit i) ∧ s8.sol (.bin true f.unit i) = s7.sol (.bin true f.unit i) := by
    intro i
    have g8 : s8.sol (.bin true f.unit i) = s7.sol (.bin true f.unit i) := C8 _ (by simp [Flow.key])
    exact ⟨by rw [C14 _ (by simp [Flow.key]), C13 _ (by simp [Flow.key]), C12 _ (by simp), C11 _ (by simp [Flow.key]),
      C10 _ (by simp [Flow.key]), C9 _ (by simp [Flow.key]), g8], g8⟩
  have nob : ∀ i, s6.sol (.bin false f.unit i) = s.sol (.bin false f.unit i) := by
    intro i
    rw [C6 _ (by simp), C5 _ (by simp [Flow.key]), C4 _ (by simp [Flow.key]), C3 _ (by simp [Flow.key]), C2 _ (by simp [Flow.key]),
      C1 _ (by simp [Flow.key])]
  have k4 : s4.sol (f.key false 4) = s.sol (f.key false 4) ∧ s2.sol (f.key false 4) = s.sol (f.key false 4) := by
    have g2 : s2.sol (f.key false 4) = s.sol (f.key false 4) := by rw [C2 _ (by simp [Flow.key]), C1 _ (by simp [Flow.key])]
    exact ⟨by rw [C4 _ (by simp [Flow.key]), C3 _ (by simp [Flow.key]), g2], g2⟩
  have k47 : s7.sol (f.key false 4) = s5.sol (f.key false 4) := by
    rw [B _ (by simp [Flow.key]) (by simp [Flow.key]), C6 _ (by simp)]
  have k1 : s2.sol (f.key false 1) = s.sol (f.key false 1) := by rw [C2 _ (by simp [Flow.key]), C1 _ (by simp [Flow.key])]
  have k17 : s7.sol (f.key false 1) = s3.sol (f.key false 1) := by
    rw [B _ (by simp [Flow.key]) (by simp [Flow.key]), C6 _ (by simp), C5 _ (by simp [Flow.key]), C4 _ (by simp [Flow.key])]
  have k2 : s3.sol (f.key false 2) = s.sol (f.key false 2) := by
    rw [C3 _ (by simp [Flow.key]), C2 _ (by simp [Flow.key]), C1 _ (by simp [Flow.key])]
  have k8 : s6.sol (f.key false 8) = s.sol (f.key false 8) := by
    rw [C6 _ (by simp), C5 _ (by simp [Flow.key]), C4 _ (by simp [Flow.key]), C3 _ (by simp [Flow.key]), C2 _ (by simp [Flow.key]),
      C1 _ (by simp [Flow.key])]
  have to10 : ∀ k, (k = f.key false 8 ∨ (∃ i, k = .data i)) → s10.sol k = s.sol k := by
    intro k hk
    have g : ∀ l : List Key, (∀ x ∈ l, x ≠ f.key false 8 ∧ ∀ i, x ≠ .data i) → k ∉ l := by
      intro l hl hm
      rcases hk with rfl | ⟨i, rfl⟩
      · exact (hl _ hm).1 rfl
      · exact (hl _ hm).2 i rfl
    rw [C10 k (g _ (by simp [Flow.key])), C9 k (g _ (by simp [Flow.key])), C8 k (g _ (by simp [Flow.key])),
      B k (by rcases hk with rfl | ⟨i, rfl⟩ <;> simp [Flow.key]) (by rcases hk with rfl | ⟨i, rfl⟩ <;> simp [Flow.key]), C6 k (by simp),
      C5 k (g _ (by simp [Flow.key])), C4 k (g _ (by simp [Flow.key])), C3 k (g _ (by simp [Flow.key])), C2 k (g _ (by simp [Flow.key])),
      C1 k (g _ (by simp [Flow.key]))]
  have k7 : s9.sol (f.key false 7) = s.sol (f.key false 7) := by
    rw [C9 _ (by simp [Flow.key]), C8 _ (by simp [Flow.key]), B _ (by simp [Flow.key]) (by simp [Flow.key]), C6 _ (by simp),
      C5 _ (by simp [Flow.key]), C4 _ (by simp [Flow.key]), C3 _ (by simp [Flow.key]), C2 _ (by simp [Flow.key]), C1 _ (by simp [Flow.key])]
  have k9 : s12.sol (f.key false 9) = s.sol (f.key false 9) := by
    rw [C12 _ (by simp), C11 _ (by simp [Flow.key]), C10 _ (by simp [Flow.key]), C9 _ (by simp [Flow.key]), C8 _ (by simp [Flow.key]),
      B _ (by simp [Flow.key]) (by simp [Flow.key]), C6 _ (by simp),
      C5 _ (by simp [Flow.key]), C4 _ (by simp [Flow.key]), C3 _ (by simp [Flow.key]), C2 _ (by simp [Flow.key]), C1 _ (by simp [Flow.key])]
  have r13 : s14.sol (f.key true 13) = s9.sol (f.key true 13) ∧ s10.sol (f.key true 13) = s9.sol (f.key true 13) := by
    have g10 : s10.sol (f.key true 13) = s9.sol (f.key true 13) := C10 _ (by simp [Flow.key])
    exact ⟨by rw [C14 _ (by simp [Flow.key]), C13 _ (by simp [Flow.key]), C12 _ (by simp), C11 _ (by simp [Flow.key]), g10], g10⟩
  have h13 : s14.sol (f.key true 4) = s5.sol (f.key true 4) ∧ s13.sol (f.key true 4) = s5.sol (f.key true 4) := by
    have g : s13.sol (f.key true 4) = s5.sol (f.key true 4) := by
      rw [C13 _ (by simp [Flow.key]), C12 _ (by simp), C11 _ (by simp [Flow.key]), C10 _ (by simp [Flow.key]), C9 _ (by simp [Flow.key]),
        C8 _ (by simp [Flow.key]), B _ (by simp [Flow.key]) (by simp [Flow.key]), C6 _ (by simp)]
    exact ⟨by rw [C14 _ (by simp [Flow.key]), g], g⟩
  have h7 : s14.sol (f.key true 7) = s10.sol (f.key true 7) ∧ s13.sol (f.key true 7) = s10.sol (f.key true 7) := by
    have g : s13.sol (f.key true 7) = s10.sol (f.key true 7) := by
      rw [C13 _ (by simp [Flow.key]), C12 _ (by simp), C11 _ (by simp [Flow.key])]
    exact ⟨by rw [C14 _ (by simp [Flow.key]), g], g⟩
  have h8 : s14.sol (f.key true 8) = s11.sol (f.key true 8) ∧ s13.sol (f.key true 8) = s11.sol (f.key true 8) ∧
      s12.sol (f.key true 8) = s11.sol (f.key true 8) := by
    have g2 : s12.sol (f.key true 8) = s11.sol (f.key true 8) := C12 _ (by simp)
    have g : s13.sol (f.key true 8) = s11.sol (f.key true 8) := by rw [C13 _ (by simp [Flow.key]), g2]
    exact ⟨by rw [C14 _ (by simp [Flow.key]), g], g, g2⟩
  have h9 : s14.sol (f.key true 9) = s13.sol (f.key true 9) := C14 _ (by simp [Flow.key])
  have nod := h.noDrip
  clear E1 E3 E5 E7 E8 E10 E11 E13 E14 Z13
  have gl : gws f.unit (l1 ++ l2 ++ l3 ++ l4 ++ l5 ++ l6 ++ l7 ++ l8 ++ l9 ++ l10 ++ l11 ++ l12 ++ l13 ++ l14) =
      (f.r.sat.gw1 * mo s (.data (f.srcGw1 + 1)) + f.r.sat.gw2 * mo s (.data (f.srcGw2 + 1)), f.p.vol f.i.gwLoss * s11.conc) := by
    simp only [gws_append, G1, G2, W3.gw, W4.gw, W5.gw, W6.gw, G7, W8.gw, W9.gw, W10.gw, W11.gw, G12, W13.gw, W14.gw]
    unfold mo
    rw [C1 _ (by simp [Flow.key]), C1 _ (by simp [Flow.key])]
    simp
  have rl : ∀ k, recs k (l1 ++ l2 ++ l3 ++ l4 ++ l5 ++ l6 ++ l7 ++ l8 ++ l9 ++ l10 ++ l11 ++ l12 ++ l13 ++ l14) =
      ((((((((((((recs k l1).add (recs k l3)).add (recs k l4)).add (recs k l5)).add (recs k l6)).add (recs k l7)).add (recs k l8)).add
        (recs k l9)).add (recs k l10)).add (recs k l11)).add (recs k l13)).add (recs k l14)) := by
    intro k
    simp only [recs_append, W2, W12, Rec.add_none]
  have ll : s14.log = s.log ++ (l1 ++ l2 ++ l3 ++ l4 ++ l5 ++ l6 ++ l7 ++ l8 ++ l9 ++ l10 ++ l11 ++ l12 ++ l13 ++ l14) := by
    rw [W14.log, W13.log, L12, W11.log, W10.log, W9.log, W8.log, L7, W6.log, W5.log, W4.log, W3.log, L2, L1]
    simp only [List.append_assoc]
  generalize l1 ++ l2 ++ l3 ++ l4 ++ l5 ++ l6 ++ l7 ++ l8 ++ l9 ++ l10 ++ l11 ++ l12 ++ l13 ++ l14 = l at gl rl ll
  refine ⟨l, ll, ?_⟩
  have n7 : ∀ t k, recs (.hill t k f.unit) l7 = .none := fun t k => W7 _ fun i _ _ => by simp
  have row1 := rl (f.key false 1)
  have row2 := rl (f.key false 2)
  have row4 := rl (f.key false 4)
  have row7 := rl (f.key false 7)
  have row8 := rl (f.key false 8)
  have row9 := rl (f.key false 9)
  have row10 := rl (f.key false 10)
  have row11 := rl (f.key false 11)
  have row12 := rl (f.key false 12)
  have row13 := rl (f.key false 13)
  have rows := rl (.seg false f.srcInt)
  have rowd := rl (.data 1)
  have rowe := rl (.data (f.srcExt + 1))
  have rowb := fun j => rl (.bin false f.unit j)
  rw [W1 _ (by simp [Flow.key]), W4.other _ (by simp [Flow.key]), W5.other _ (by simp [Flow.key]), W6.other _ (by simp [Flow.key]),
    show recs (f.key false 1) l7 = .none from n7 _ _, W9.other _ (by simp [Flow.key]), W10.other _ (by simp [Flow.key]),
    W11.other _ (by simp [Flow.key]), W13.other _ (by simp [Flow.key]), W14.other _ (by simp [Flow.key])] at row1
  rw [W1 _ (by simp [Flow.key]), W3.other _ (by simp [Flow.key]), W5.other _ (by simp [Flow.key]), W6.other _ (by simp [Flow.key]),
    show recs (f.key false 2) l7 = .none from n7 _ _, W8.other _ (by simp [Flow.key]), W9.other _ (by simp [Flow.key]),
    W10.other _ (by simp [Flow.key]), W11.other _ (by simp [Flow.key]), W13.other _ (by simp [Flow.key]), W14.other _ (by simp [Flow.key])] at row2
  rw [W1 _ (by simp [Flow.key]), W3.other _ (by simp [Flow.key]), W4.other _ (by simp [Flow.key]), W6.other _ (by simp [Flow.key]),
    show recs (f.key false 4) l7 = .none from n7 _ _, W8.other _ (by simp [Flow.key]), W9.other _ (by simp [Flow.key]),
    W10.other _ (by simp [Flow.key]), W11.other _ (by simp [Flow.key]), W13.other _ (by simp [Flow.key]), W14.other _ (by simp [Flow.key])] at row4
  rw [W1 _ (by simp [Flow.key]), W3.other _ (by simp [Flow.key]), W4.other _ (by simp [Flow.key]), W5.other _ (by simp [Flow.key]),
    W6.other _ (by simp [Flow.key]), show recs (f.key false 7) l7 = .none from n7 _ _, W8.other _ (by simp [Flow.key]), R9q,
    R10, W11.other _ (by simp [Flow.key]), W13.other _ (by simp [Flow.key]), W14.other _ (by simp [Flow.key])] at row7
  rw [R1s, W3.other _ (by simp [Flow.key]), W4.other _ (by simp [Flow.key]), W5.other _ (by simp [Flow.key]),
    R6, show recs (f.key false 8) l7 = .none from n7 _ _, W8.other _ (by simp [Flow.key]), W9.other _ (by simp [Flow.key]),
    W10.other _ (by simp [Flow.key]), R11, W13.other _ (by simp [Flow.key]), W14.other _ (by simp [Flow.key])] at row8
  rw [W1 _ (by simp [Flow.key]), W3.other _ (by simp [Flow.key]), W4.other _ (by simp [Flow.key]), W5.other _ (by simp [Flow.key]),
    W6.other _ (by simp [Flow.key]), show recs (f.key false 9) l7 = .none from n7 _ _, W8.other _ (by simp [Flow.key]),
    W9.other _ (by simp [Flow.key]), W10.other _ (by simp [Flow.key]), R11p, W14.other _ (by simp [Flow.key])] at row9
  rw [W1 _ (by simp [Flow.key]), W3.other _ (by simp [Flow.key]), W4.other _ (by simp [Flow.key]), W5.other _ (by simp [Flow.key]),
    W6.other _ (by simp [Flow.key]), show recs (f.key false 10) l7 = .none from n7 _ _, W8.other _ (by simp [Flow.key]),
    W9.other _ (by simp [Flow.key]), W10.other _ (by simp [Flow.key]), W11.other _ (by simp [Flow.key]), W13.other _ (by simp [Flow.key]),
    R14] at row10
  rw [R1, W3.other _ (by simp [Flow.key]), W4.other _ (by simp [Flow.key]), W5.other _ (by simp [Flow.key]),
    W6.other _ (by simp [Flow.key]), show recs (f.key false 11) l7 = .none from n7 _ _, W8.other _ (by simp [Flow.key]),
    W9.other _ (by simp [Flow.key]), W10.other _ (by simp [Flow.key]), W11.other _ (by simp [Flow.key]), W13.other _ (by simp [Flow.key]),
    W14.other _ (by simp [Flow.key])] at row11
  rw [W1 _ (by simp [Flow.key]), W3.other _ (by simp [Flow.key]), W4.other _ (by simp [Flow.key]), W5.other _ (by simp [Flow.key]),
    W6.other _ (by simp [Flow.key]), show recs (f.key false 12) l7 = .none from n7 _ _, R8,
    W9.other _ (by simp [Flow.key]), W10.other _ (by simp [Flow.key]), W11.other _ (by simp [Flow.key]), W13.other _ (by simp [Flow.key]),
    W14.other _ (by simp [Flow.key])] at row12
  rw [W1 _ (by simp [Flow.key]), W3.other _ (by simp [Flow.key]), W4.other _ (by simp [Flow.key]), W5.other _ (by simp [Flow.key]),
    W6.other _ (by simp [Flow.key]), show recs (f.key false 13) l7 = .none from n7 _ _, W8.other _ (by simp [Flow.key]),
    R9, W10.other _ (by simp [Flow.key]), W11.other _ (by simp [Flow.key]), W13.other _ (by simp [Flow.key]),
    W14.other _ (by simp [Flow.key])] at row13
  rw [R1d, W3.other _ (by simp [Flow.key]), W4.other _ (by simp [Flow.key]), W5.other _ (by simp [Flow.key]),
    W6.other _ (by simp [Flow.key]), W7 _ (by simp), W8.other _ (by simp [Flow.key]),
    W9.other _ (by simp [Flow.key]), W10.other _ (by simp [Flow.key]), W11.other _ (by simp [Flow.key]), W13.other _ (by simp [Flow.key]),
    W14.other _ (by simp [Flow.key])] at rows
  rw [W3.other _ (by simp [Flow.key]), W4.other _ (by simp [Flow.key]), W5.other _ (by simp [Flow.key]),
    W6.other _ (by simp [Flow.key]), W7 _ (by simp), W8.other _ (by simp [Flow.key]),
    W9.other _ (by simp [Flow.key]), W10.other _ (by simp [Flow.key]), W11.other _ (by simp [Flow.key]), W13.other _ (by simp [Flow.key]),
    W14.other _ (by simp [Flow.key])] at rowd
  rw [W3.other _ (by simp [Flow.key]), W4.other _ (by simp [Flow.key]), W5.other _ (by simp [Flow.key]),
    W6.other _ (by simp [Flow.key]), W7 _ (by simp), W8.other _ (by simp [Flow.key]),
    W9.other _ (by simp [Flow.key]), W10.other _ (by simp [Flow.key]), W11.other _ (by simp [Flow.key]), W13.other _ (by simp [Flow.key]),
    W14.other _ (by simp [Flow.key])] at rowe
  replace rowb : ∀ j, recs (.bin false f.unit j) l = recs (.bin false f.unit j) l7 := by
    intro j
    rw [rowb j, W1 _ (by simp [Flow.key]), W3.other _ (by simp [Flow.key]), W4.other _ (by simp [Flow.key]), W5.other _ (by simp [Flow.key]),
      W6.other _ (by simp [Flow.key]), W8.other _ (by simp [Flow.key]),
      W9.other _ (by simp [Flow.key]), W10.other _ (by simp [Flow.key]), W11.other _ (by simp [Flow.key]), W13.other _ (by simp [Flow.key]),
      W14.other _ (by simp [Flow.key])]
    simp only [Rec.add_none, Rec.none_add]
  simp only [Rec.add_none, Rec.none_add] at row1 row2 row4 row7 row8 row9 row10 row11 row12 row13 rows rowd rowe
  clear W1 W2 W3 W4 W5 W6 W7 W8 W9 W10 W11 W12 W13 W14 rl ll L1 L2 L7 L12 G1 G2 G7 G12
  have satSrc : fallen f.r.sat * mo s10 (f.key false 11) + f.r.sat.can * mo s10 (f.key true 1) + f.r.sat.melt * mo s10 (meltKey f s10) +
      f.r.sat.uz * mo s10 (f.key true 13) + f.r.sat.gw1 * mo s10 (.data (f.srcGw1 + 1)) + f.r.sat.gw2 * mo s10 (.data (f.srcGw2 + 1)) =
      fallen f.r.sat * (s14.sol (f.key false 11)).mol + f.r.sat.can * (s14.sol (f.key true 1)).mol +
        f.r.sat.melt * (s14.sol (meltKey f s14)).mol + f.r.sat.uz * (s14.sol (f.key true 13)).mol +
        f.r.sat.gw1 * (s.sol (.data (f.srcGw1 + 1))).mol + f.r.sat.gw2 * (s.sol (.data (f.srcGw2 + 1))).mol := by
    rw [drip f.r.sat.can s10 (fun hu => (nod hu).2.2.2) (fun hu => (t1 hu).2.1), mk14, mk10]
    unfold mo
    rw [to10 (.data (f.srcGw1 + 1)) (Or.inr ⟨_, rfl⟩), to10 (.data (f.srcGw2 + 1)) (Or.inr ⟨_, rfl⟩),
      d10, d14, mm.2.1, mm.2.2, r13.1, r13.2]
  have end8 : recEnd (f.key false 8) l = [(s11.conc, t11)] := by
    have := congrArg Rec.ended row8
    simpa [Rec.add, recs] using this
  constructor
  case can =>
    simp only [at_full F14, at_full hF]
    by_cases hu : f.r.can.uz = 0
    · obtain ⟨c, t, hE⟩ := Q3 hu
      rw [hE.recs, Q8 hu] at row1
      have e0 : overOuts (fun j b => b.toCan * (s14.sol (.bin true f.unit j)).mol) 1 f.bins = 0 := by
        apply overOuts_zero
        intro b hb i
        rw [sumOf_eq_zero _ f.bins (fun b hb => (h.pbin b hb).2.1) (h.toCan.trans hu) b hb, zero_mul]
      have m0 := hE.mass
      unfold mo at m0 row1
      rw [k1, k4.2, d2, ← d14] at m0
      rw [k4.2, d2, ← d14] at row1
      refine booked_of (c := c) (t := t) (row1.trans ?_) (vs := [(f.r.can.init, f.r.can.et, f.r.can.fin), (f.r.can.init, f.r.can.et, f.r.can.fin)])
        (by simp) ?_ ?_
      · simp [Rec.add, e0]
      · rw [e0, sub_zero, sub_zero, add_zero]; exact m0
      · intro hf; rw [(t1 hu).1]; exact hE.tal hf
    · obtain ⟨c, t, hE⟩ := M8 hu
      rw [R3 hu, hE.recs] at row1
      have e1 : s7.sol (f.key false 1) = s.sol (f.key false 1) := by rw [k17, Z3 hu, k1]
      have e2 : f.r.can.ohoriz * mo s7 (f.key false 4) = f.r.can.ohoriz * mo s (f.key false 4) := by
        by_cases hoh : f.r.can.ohoriz = 0
        · rw [hoh, zero_mul, zero_mul]
        · have := hr.leaves (lt_of_le_of_ne h.pcan.uz (Ne.symm hu)) (lt_of_le_of_ne h.pcan.ohoriz (Ne.symm hoh))
          unfold mo
          rw [k47, Z5 this, k4.1]
      have e3 : overOuts (fun j b => b.toCan * mo s7 (.bin true f.unit j)) 1 f.bins =
          overOuts (fun j b => b.toCan * (s14.sol (.bin true f.unit j)).mol) 1 f.bins := by
        apply overOuts_congr
        intro i b _
        unfold mo
        rw [(nb i).1]
      have o0 : f.r.can.out = 0 := h.drip (lt_of_le_of_ne h.pcan.uz (Ne.symm hu))
      have m0 := hE.mass
      rw [e2, e3] at m0 row1
      unfold mo at m0 row1
      rw [e1, d7, ← d14] at m0
      rw [d7, ← d14] at row1
      refine booked_of (c := c) (t := t) (row1.trans ?_) (vs := [(f.r.can.init, f.r.can.et, f.r.can.fin), (f.r.can.init, f.r.can.et, f.r.can.fin)])
        (by simp) ?_ ?_
      · simp [Rec.add, o0]
      · rw [o0, sub_zero, sub_zero]; exact m0
      · intro hf
        rw [C14 _ (by simp [Flow.key]), C13 _ (by simp [Flow.key]), C12 _ (by simp), C11 _ (by simp [Flow.key]),
            C10 _ (by simp [Flow.key]), C9 _ (by simp [Flow.key])]
        exact hE.tal hf
  case snow =>
    unfold above
    simp only [at_full F14, at_full hF]
    have hsrc : fallen f.r.snow * mo s3 (f.key false 11) + f.r.snow.can * mo s3 (f.key true 1) =
        fallen f.r.snow * (s14.sol (f.key false 11)).mol + f.r.snow.can * (s14.sol (f.key true 1)).mol +
          f.r.snow.melt * (s14.sol (meltKey f s14)).mol := by
      rw [drip f.r.snow.can s3 (fun hu => (nod hu).1) (fun _ => rfl), h.snowMelt]
      unfold mo
      rw [d3, d14]; ring
    rcases R4 with ⟨c, t, hE⟩ | ⟨r, z1, z2, z3, z4, z5⟩
    · rw [hE.recs] at row2
      have m0 := hE.mass
      rw [hsrc] at row2 m0
      unfold mo at m0
      rw [k2] at m0
      refine booked_of (c := c) (t := t) (row2.trans ?_) (vs := [(f.r.snow.init, f.r.snow.et, f.r.snow.fin)]) (by simp) ?_ ?_
      · simp
      · rw [sub_zero, sub_zero]; exact m0
      · intro hf; rw [(kb (f.key true 2) (Or.inr rfl)).2.2]; exact hE.tal hf
    · rw [r] at row2
      refine booked_none row2 (by simp) ?_ ⟨z1, z2, z3⟩
      rw [z4, z5, h.snowMelt]; ring
  case ohoriz =>
    unfold above
    simp only [at_full F14, at_full hF]
    have hsrc : fallen f.r.ohoriz * mo s4 (f.key false 11) + f.r.ohoriz.can * mo s4 (f.key true 1) +
        f.r.ohoriz.melt * mo s4 (meltKey f s4) =
        fallen f.r.ohoriz * (s14.sol (f.key false 11)).mol + f.r.ohoriz.can * (s14.sol (f.key true 1)).mol +
          f.r.ohoriz.melt * (s14.sol (meltKey f s14)).mol := by
      rw [drip f.r.ohoriz.can s4 (fun hu => (nod hu).2.1) (fun hu => (t1 hu).2.2.2), mk14]
      unfold mo
      rw [d4, d14, mm.2.2]
    rw [R5, hsrc] at row4
    unfold mo at row4
    rw [k4.1] at row4
    refine booked_of (c := c5) (t := t5) row4 (by simp) ?_ ?_
    · rw [← hsrc]
      have e : mo s4 (f.key false 4) = (s.sol (f.key false 4)).mol := by unfold mo; rw [k4.1]
      rw [← e]
      linarith
    · intro hf; rw [h13.1]; exact T5 hf
  case uz =>
    intro j b hb
    unfold above
    simp only [at_full F14, at_full hF]
    have hm : b ∈ f.bins := List.mem_of_getElem? hb
    have hsrc : fallen b.vol * mo s6 (f.key false 11) + b.vol.can * mo s6 (f.key true 1) +
        b.vol.melt * mo s6 (meltKey f s6) + b.vol.sat * mo s6 (f.key false 8) =
        fallen b.vol * (s14.sol (f.key false 11)).mol + b.vol.can * (s14.sol (f.key true 1)).mol +
          b.vol.melt * (s14.sol (meltKey f s14)).mol + b.vol.sat * (s.sol (f.key false 8)).mol := by
      rw [drip b.vol.can s6 (fun hu => (nod hu).2.2.1 b hm) (fun hu => (t1 hu).2.2.1), mk14, mk6]
      unfold mo
      rw [d6, d14, mm.1, mm.2.2, k8]
    have rb := rowb (j + 1)
    have h0 := R7 j b hb
    rw [Nat.add_comm] at h0
    rcases h0 with ⟨c, t, src, es, hE⟩ | ⟨r, z1, z2, z3, z4, z5, z6, z7⟩
    · rw [hE.recs] at rb
      have m0 := hE.mass
      rw [es, hsrc] at rb m0
      unfold mo at m0
      rw [nob] at m0
      refine booked_of (c := c) (t := t) (rb.trans ?_) (vs := [(b.vol.init, b.vol.et, b.vol.fin)]) (by simp) ?_ ?_
      · simp
      · rw [sub_zero, sub_zero]; exact m0
      · intro hf; rw [(nb _).1]; exact hE.tal hf
    · rw [r] at rb
      refine booked_none rb (by simp) ?_ ⟨z1, z2, z3⟩
      rw [z4, z5, z6, z7]; ring
  case qdf =>
    simp only [at_full F14, at_full hF]
    unfold mo at row7 M10
    rw [← r13.1] at row7 M10
    rw [k7] at M10
    refine booked_of (c := c10) (t := t10) (row7.trans ?_) (vs := [(f.r.qdf.init, f.r.qdf.et, f.r.qdf.fin)]) (by simp) ?_ ?_
    · simp [Rec.add]
    · rw [sub_zero, sub_zero]; exact M10
    · intro _; rw [h7.1]; exact T10
  case sat =>
    unfold above
    simp only [at_full F14, at_full hF]
    refine booked_of (c := s11.conc) (t := t11) (row8.trans ?_) (vs := [(f.r.sat.init, f.r.sat.et, f.r.sat.fin)]) (by simp) ?_ ?_
    · rw [satSrc]
      have e5 : s5.sol (f.key false 8) = s.sol (f.key false 8) := by
        rw [C5 _ (by simp [Flow.key]), C4 _ (by simp [Flow.key]), C3 _ (by simp [Flow.key]), C2 _ (by simp [Flow.key]),
          C1 _ (by simp [Flow.key])]
      unfold mo
      rw [e5]
      simp only [Rec.add, List.nil_append, List.append_nil, zero_add, add_zero, Rec.mk.injEq, true_and, and_true]
      ring
    · rw [satSrc] at M11
      have e10 : mo s10 (f.key false 8) = (s.sol (f.key false 8)).mol := by unfold mo; rw [to10 _ (Or.inl rfl)]
      rw [e10] at M11
      linarith
    · intro _; rw [h8.1]; exact T11
  case satpref =>
    intro hpr
    obtain ⟨c, t, hR, hM, hT⟩ := R13 hpr
    rw [hR] at row9
    refine ⟨s11.conc, t11, end8, ?_, fun hc => ?_⟩
    · have := congrArg Rec.inp row9
      simp only [recs, Rec.add] at this
      rw [this, h.prefIn, add_zero]
    · simp only [at_full F14, at_full hF] at hc ⊢
      have e : f.r.satpref.sat * s11.conc = f.r.satpref.sat * (s14.sol (f.key true 8)).mol := by
        rcases hc with hc | hc
        · rw [hc, zero_mul, zero_mul]
        · rw [hc]
      unfold mo at hM
      rw [k9, h8.2.2, ← h8.1] at hM
      refine booked_of (c := c) (t := t) (row9.trans ?_) (vs := [(f.r.satpref.init, f.r.satpref.et, f.r.satpref.fin)]) (by simp) ?_ ?_
      · simp [Rec.add, ← e, h.prefIn]
      · rw [sub_zero, sub_zero]; exact hM
      · intro _; rw [h9]; exact hT
  case path =>
    intro hpr
    obtain ⟨c, t, hR, hM, hT⟩ := R13 hpr
    rw [hR] at row9
    simp only [at_full F14, at_full hF]
    unfold mo at hM
    rw [k9, h8.2.2, ← h8.1] at hM
    have r1 := congrArg Rec.out row9
    have r2 := congrArg Rec.ended row9
    have r3 := congrArg Rec.vols row9
    simp only [recs, Rec.add, zero_add, List.nil_append] at r1 r2 r3
    refine ⟨by rw [r3]; simp, c, t, r2, r1, hM, by rw [h9]; exact hT⟩
  case shut =>
    intro hpr
    rw [R13s hpr] at row9
    have i0 : f.r.satpref.inp = 0 := hr.pref.resolve_left hpr
    have r0 := congrArg Rec.inp row9
    have r1 := congrArg Rec.out row9
    have r2 := congrArg Rec.ended row9
    have r3 := congrArg Rec.vols row9
    simp only [recs, Rec.add, zero_add, List.nil_append, add_zero, i0, zero_mul] at r0 r1 r2 r3
    exact ⟨r3, r2, r0, r1⟩
  case dep => exact congrArg Rec.inp row11
  case transpired =>
    rw [show recIn (f.key false 12) l = _ from congrArg Rec.inp row12]
    apply overOuts_congr
    intro i b _
    rw [at_full F14]
    unfold mo
    rw [(nb i).1]
  case recharge =>
    rw [show recIn (f.key false 13) l = _ from congrArg Rec.inp row13]
    rw [E9]
    apply overOuts_congr
    intro i b _
    rw [at_full F14]
    unfold mo
    rw [(nb i).1, (nb i).2]
  case hill =>
    rw [at_full F14]
    exact congrArg Rec.out row10
  case entered =>
    rw [at_full hF, at_full hF]
    exact congrArg Prod.fst gl
  case rain =>
    intro hx
    obtain ⟨x1, x2⟩ := R1r hx
    rw [x1] at rowd
    rw [x2] at rowe
    rw [at_full hF, at_full hF]
    exact ⟨congrArg Rec.inp rowd, congrArg Rec.inp rowe⟩
  case diverted =>
    rw [at_full hF]
    exact congrArg Rec.out rows
  case left => exact ⟨s11.conc, t11, end8, congrArg Prod.snd gl⟩

end Verif.Transport
