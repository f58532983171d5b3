import Verif.Lemmas.TransportChem4
/-
What the rows of a unit show after a step.
-/
namespace Verif.Transport
open Verif.Reservoir (Vol Rows BinOut Par In sumOf)
open Verif.Chem (Ctx Call Event Table Same)
open Verif.SolnNum (Dims)

/-! ### The pulse -/

theorem mix_pulse (rx : Ent → Sol → Sol) (l : Parts) (a b : Key) (e : Ent) (s : St) : (mix rx l a b e s).pulse = s.pulse := rfl

theorem sources_pulse (rx : Ent → Sol → Sol) (l : List (Key × Rat × Int × Bool × Bool)) (s : St) :
    (l.foldl (fun s c => readOff rx c.1 c.2.2.1 c.2.1 c.2.2.2.1 c.2.2.2.2 s) s).pulse = s.pulse := by
  induction l generalizing s with
  | nil => rfl
  | cons c l ih => rw [List.foldl_cons, ih]; rfl

theorem deposit_pulse (rx : Ent → Sol → Sol) (f : Flow) (s : St) : (deposit rx f s).pulse = s.pulse := by
  unfold deposit
  split
  · dsimp only; rw [note_pulse, mix_pulse, sources_pulse]
  · rfl

theorem gwInput_pulse (rx : Ent → Sol → Sol) (f : Flow) (s : St) : (gwInput rx f s).pulse = s.pulse := by
  unfold gwInput; dsimp only; split <;> rfl

theorem canopy1_pulse (rx : Ent → Sol → Sol) (f : Flow) (s : St) : (canopy1 rx f s).pulse = s.pulse := by
  unfold canopy1; dsimp only; split
  · simp only [evaporate, join]; split <;> split <;> rfl
  · split <;> rfl

theorem melt_pulse (rx : Ent → Sol → Sol) (f : Flow) (s : St) (h : s.pulse = false) : (melt rx f s).pulse = f.pulses := by
  unfold melt Flow.pulses
  dsimp only
  split
  · rename_i h1
    split
    · rename_i h2
      rw [note_pulse, h]
      symm
      rw [decide_eq_false_iff_not]
      rintro ⟨-, a, b, c⟩
      rcases h2 with h2 | h2 | h2
      · linarith
      · exact b h2
      · linarith
    · rename_i h2
      push Not at h2
      rw [note_pulse]
      symm
      exact decide_eq_true ⟨h1, h2.1, h2.2.1, h2.2.2⟩
  · rename_i h1
    rw [h]
    symm
    rw [decide_eq_false_iff_not]
    exact fun hh => h1 hh.1

theorem snow_pulse (rx : Ent → Sol → Sol) (f : Flow) (s : St) (h : s.pulse = false) : (snow rx f s).pulse = f.pulses := by
  unfold snow
  dsimp only
  split
  · rw [note_pulse, mix_pulse]
    apply melt_pulse
    split <;> split <;> exact h
  · rename_i h1
    have : f.pulses = false := by
      unfold Flow.pulses
      rw [decide_eq_false_iff_not]
      exact fun hh => h1 (Or.inr (Or.inr hh.1))
    rw [this]
    split <;> exact h

theorem ohoriz_pulse (rx : Ent → Sol → Sol) (f : Flow) (s : St) : (ohoriz rx f s).pulse = s.pulse := by
  unfold ohoriz; dsimp only; split
  · rw [note_pulse]; split <;> split <;> split <;> rfl
  · rfl

theorem binLoop_pulse (rx : Ent → Sol → Sol) (f : Flow) (l : List BinOut) (j : Nat) (s : St) : (binLoop rx f j l s).pulse = s.pulse := by
  induction l generalizing j s with
  | nil => rfl
  | cons b l ih =>
    rw [binLoop, ih]
    unfold binStep binIn
    dsimp only
    split <;> split <;> rfl

theorem canopy2_pulse (rx : Ent → Sol → Sol) (f : Flow) (s : St) : (canopy2 rx f s).pulse = s.pulse := by
  unfold canopy2; dsimp only; split <;> rfl

theorem recharge_pulse (rx : Ent → Sol → Sol) (f : Flow) (s : St) : (recharge rx f s).pulse = s.pulse := by
  unfold recharge; dsimp only; split <;> rfl

theorem qdf_pulse (rx : Ent → Sol → Sol) (f : Flow) (s : St) : (qdf rx f s).pulse = s.pulse := by
  unfold qdf; dsimp only; split <;> rfl

theorem sat_pulse (rx : Ent → Sol → Sol) (f : Flow) (s : St) : (sat rx f s).pulse = s.pulse := by
  unfold sat satIn; dsimp only; split
  · split <;> split <;> rfl
  · rfl

theorem gwLoss_pulse (f : Flow) (s : St) : (gwLoss f s).pulse = s.pulse := by
  unfold gwLoss; dsimp only; split <;> rfl

theorem satpref_pulse (rx : Ent → Sol → Sol) (f : Flow) (s : St) : (satpref rx f s).pulse = s.pulse := by
  unfold satpref; dsimp only; split
  · split <;> rfl
  · rfl

theorem hill_pulse (rx : Ent → Sol → Sol) (f : Flow) (s : St) : (hill rx f s).pulse = s.pulse := by
  unfold hill; dsimp only; split <;> rfl

theorem flow_pulse (rx : Ent → Sol → Sol) (f : Flow) (s : St) : (flow rx f s).pulse = f.pulses := by
  unfold flow
  dsimp only
  rw [hill_pulse, satpref_pulse, gwLoss_pulse, sat_pulse, qdf_pulse, recharge_pulse, canopy2_pulse, binLoop_pulse]
  unfold satToUz
  rw [note_pulse, mix_pulse, ohoriz_pulse]
  apply snow_pulse
  rw [canopy1_pulse, gwInput_pulse, deposit_pulse]

/-! ### A unit -/

theorem key_inUnit (f : Flow) (i : Nat) : (f.key false i).inUnit := by
  simp only [Flow.key, Key.inUnit]

theorem key_within {f : Flow} {d : Dims} (hi : f.Inside d) (i : Nat) (h : i ∈ [1, 2, 4, 7, 8, 9, 10, 11, 12, 13]) :
    (f.key false i).Within d := (Flow.Row.within hi (Or.inr (Or.inr (Or.inr (Or.inl ⟨i, h, rfl⟩))))).1

/-- What the rows of a unit show, of records `p ++ l ++ q` where `l` are those of the unit. -/
theorem unit_shown {d : Dims} (ok : d.Ok) {n : Nat} {z : Nat → Ctx × Call} (hz : ∀ i, Known n (z i).1) {f : Flow} (hi : f.Inside d)
    {s s' : St} {p l q : List Ev} (hR : Recorded f s s' l) (he : ∀ k, Early k l)
    (hp : ∀ k : Key, k.inUnit → k.of f.unit → Quiet k p ∧ Quiet k q) (hs : ∀ e ∈ p ++ l ++ q, e.sound d) {u t : Table}
    (hu : Blank n u) (h : Chem.run (heard d n z 0 (p ++ l ++ q)) u = some t) : UnitShown d n f s s' u t := by
  have he' : ∀ k : Key, k.inUnit → k.of f.unit → Early k (p ++ l ++ q) := fun k h1 h2 =>
    ((hp k h1 h2).1.early.append (he k)).append (hp k h1 h2).2.early
  have row : ∀ i, i ∈ [1, 2, 4, 7, 8, 9, 10, 11, 12, 13] → ∀ {v pre c0 c1 src}, Booked v pre c0 c1 src (f.key false i) l →
      Shown n (place d (f.key false i)) v pre c0 c1 src u t := by
    intro i hm v pre c0 c1 src hb
    obtain ⟨q1, q2⟩ := hp _ (key_inUnit f i) rfl
    exact shown_of ok hz (key_inUnit f i) (key_within hi i hm) (hb.around q1 q2) (he' _ (key_inUnit f i) rfl) hs hu 0 h
  have inp : ∀ i, i ∈ [1, 2, 4, 7, 8, 9, 10, 11, 12, 13] →
      t (.res (place d (f.key false i))) (.mol n 2) = 1000 * recIn (f.key false i) l ∧
      t (.res (place d (f.key false i))) (.mol n 3) = 1000 * recOut (f.key false i) l := by
    intro i hm
    obtain ⟨q1, q2⟩ := hp _ (key_inUnit f i) rfl
    obtain ⟨r1, r2, -, -⟩ := rec_around (l := l) q1 q2
    obtain ⟨-, f2, f3, -, -⟩ := heard_flows ok hz (key_inUnit f i) (key_within hi i hm) _ hs 0 u t h
    rw [hu _ 2 (by simp), zero_add, r1] at f2
    rw [hu _ 3 (by simp), zero_add, r2] at f3
    exact ⟨f2, f3⟩
  refine ⟨row 1 (by simp) hR.can, row 2 (by simp) hR.snow, row 4 (by simp) hR.ohoriz, ?_, row 7 (by simp) hR.qdf,
    row 8 (by simp) hR.sat, ?_, ?_, ?_, ?_, ?_, ?_, ?_⟩
  · intro j b hj
    have hlt := (List.getElem?_eq_some_iff.1 hj).1
    have hu1 : (Key.bin false f.unit (j + 1)).inUnit := by simp [Key.inUnit]
    obtain ⟨q1, q2⟩ := hp _ hu1 rfl
    exact shown_of ok hz hu1 (Flow.Row.within hi (Or.inr (Or.inr (Or.inr (Or.inr ⟨j + 1, by omega, by omega, rfl⟩))))).1
      ((hR.uz j b hj).around q1 q2) (he' _ hu1 rfl) hs hu 0 h
  · intro hpm hin
    obtain ⟨c, a, -, r2, r3⟩ := hR.satpref hpm
    rw [(inp 9 (by simp)).1, r2] at hin
    refine row 9 (by simp) (r3 ?_)
    rcases eq_or_ne f.r.satpref.sat 0 with h0 | h0
    · exact Or.inl h0
    · right
      exact mul_left_cancel₀ h0 (mul_left_cancel₀ (by norm_num) hin)
  · intro hpm
    obtain ⟨r0, c, a, r1, r2, r3, r4⟩ := hR.path hpm
    have hk := key_inUnit f 9
    have hw := key_within hi 9 (by simp)
    obtain ⟨q1, q2⟩ := hp _ hk rfl
    obtain ⟨-, -, s3, s4⟩ := rec_around (l := l) q1 q2
    rw [← s4] at r0
    obtain ⟨f1, -, -, -, -⟩ := heard_flows ok hz hk hw _ hs 0 u t h
    obtain ⟨v1, v2⟩ := heard_vols ok hz hk hw _ hs r0.2 0 u t h (Or.inl r0.1)
    obtain ⟨e4, e5⟩ := heard_react ok hz hk hw _ hs r0.2 (s3.trans r1) 0 u t h (Or.inl (he' _ hk rfl))
    refine ⟨v2, v1, f1, by rw [e5, r4], c, by rw [(inp 9 (by simp)).2, r2], by rw [e4, r4], r3⟩
  · intro hpm
    obtain ⟨r0, r1, r2, r3⟩ := hR.shut hpm
    have hk := key_inUnit f 9
    have hw := key_within hi 9 (by simp)
    obtain ⟨q1, q2⟩ := hp _ hk rfl
    obtain ⟨-, -, s3, s4⟩ := rec_around (l := l) q1 q2
    rw [← s4] at r0
    obtain ⟨f1, -, -, f4, -⟩ := heard_flows ok hz hk hw _ hs 0 u t h
    obtain ⟨v1, v2⟩ := heard_vols ok hz hk hw _ hs (x := (f.r.satpref.init, f.r.satpref.et, f.r.satpref.fin)) (by rw [r0]; simp) 0 u t h
      (Or.inl (by rw [r0]; simp))
    obtain ⟨g4, g5⟩ := f4 (s3.trans r1)
    refine ⟨v2, f1, ?_⟩
    rintro s (rfl | rfl | rfl | rfl)
    · rw [(inp 9 (by simp)).1, r2, mul_zero]
    · rw [(inp 9 (by simp)).2, r3, mul_zero]
    · rw [g4, hu _ 4 (by simp)]
    · rw [g5, hu _ 5 (by simp)]
  · rw [(inp 11 (by simp)).1, hR.dep]
  · rw [(inp 12 (by simp)).1, hR.transpired]
  · rw [(inp 13 (by simp)).1, hR.recharge]
  · rw [(inp 10 (by simp)).2, hR.hill]

/-- What is shown depends on the solutions of the unit, and on those of rain, irrigation and groundwater. -/
theorem shown_congr {d : Dims} {n : Nat} {f : Flow} {s s' w w' : St} {u t : Table} (h : UnitShown d n f s s' u t)
    (h1 : ∀ k : Key, k.of f.unit ∨ k.fixed → w.sol k = s.sol k)
    (h2 : ∀ k : Key, k.of f.unit → k ≠ .hill false 14 f.unit → w'.sol k = s'.sol k) (hp : w'.pulse = s'.pulse) :
    UnitShown d n f w w' u t := by
  have a1 : ∀ i, at_ w (f.key false i) = at_ s (f.key false i) := fun i => at_congr (h1 _ (Or.inl rfl))
  have a2 : ∀ j, at_ w (.bin false f.unit j) = at_ s (.bin false f.unit j) := fun j => at_congr (h1 _ (Or.inl rfl))
  have a3 : ∀ j, at_ w (.data j) = at_ s (.data j) := fun j => at_congr (h1 _ (Or.inr trivial))
  have a4 : fallenMol f w = fallenMol f s := by
    unfold fallenMol
    rw [a3, a3, a1, at_congr (h1 (.seg false f.srcInt) (Or.inr trivial))]
  have b1 : ∀ i, at_ w' (f.key true i) = at_ s' (f.key true i) := fun i => at_congr (h2 _ rfl (by simp [Flow.key]))
  have b2 : ∀ j, at_ w' (.bin true f.unit j) = at_ s' (.bin true f.unit j) := fun j => at_congr (h2 _ rfl (by simp))
  have b3 : at_ w' (f.key false 11) = at_ s' (f.key false 11) := at_congr (h2 _ rfl (by simp [Flow.key]))
  have b4 : at_ w' (meltKey f w') = at_ s' (meltKey f s') := by
    unfold meltKey
    rw [hp]
    split
    · exact at_congr (h2 _ rfl (by simp [Flow.key]))
    · exact b1 2
  have b5 : ∀ v, above f v w' = above f v s' := by intro v; unfold above; rw [b3, b1, b4]
  obtain ⟨g1, g2, g3, g4, g5, g6, g7, g12, g13, g8, g9, g10, g11⟩ := h
  constructor
  · simpa only [a1, b1, b2, b3] using g1
  · simpa only [a1, b1, b5] using g2
  · simpa only [a1, b1, b5] using g3
  · intro j b hj; simpa only [a1, a2, b2, b5] using g4 j b hj
  · simpa only [a1, b1] using g5
  · simpa only [a1, a3, b1, b5] using g6
  · simpa only [a1, b1] using g7
  · simpa only [a1, b1] using g12
  · exact g13
  · rw [a4]; exact g8
  · simpa only [b2] using g9
  · simpa only [b2] using g10
  · rw [b1]; exact g11

/-! ### All units -/

theorem units_log {rx : Ent → Sol → Sol} {d : Dims} (fs : List Flow) (hin : ∀ f ∈ fs, f.Inside d) (s : St) :
    ∃ m, (fs.foldl (fun s f => flow rx f s) s).log = s.log ++ m ∧ (∀ e ∈ m, (∃ f ∈ fs, e.proper f) ∧ e.bound) := by
  induction fs generalizing s with
  | nil => exact ⟨[], by simp, by simp⟩
  | cons f fs ih =>
    obtain ⟨m, a, b⟩ := ih (fun g hg => hin g (List.mem_cons_of_mem _ hg)) (flow rx f s)
    obtain ⟨m', a', -, b'⟩ := flow_tidy rx f s
    obtain ⟨m'', a'', c'⟩ := flow_bound rx f s
    have em : m'' = m' := List.append_cancel_left (a''.symm.trans a')
    subst em
    refine ⟨m'' ++ m, by rw [List.foldl_cons, a, a', List.append_assoc], ?_⟩
    intro e he
    rcases List.mem_append.1 he with he | he
    · exact ⟨⟨f, List.mem_cons_self, b' e he⟩, c' e he⟩
    · obtain ⟨⟨g, hg, h⟩, h'⟩ := b e he
      exact ⟨⟨g, List.mem_cons_of_mem _ hg, h⟩, h'⟩

/-- What each unit records, with what the others record around it. -/
theorem units_recorded {rx : Ent → Sol → Sol} (hd : Dry rx) {d : Dims} (fs : List Flow) (hin : ∀ f ∈ fs, f.Inside d)
    (hn : (fs.map (·.unit)).Nodup) (ho : ∀ f ∈ fs, f.Ok ∧ f.Regular) (s : St) (hF : Full s.sol) :
    Full (fs.foldl (fun s f => flow rx f s) s).sol ∧
    ∀ f ∈ fs, ∃ w w' p l q, (∀ k : Key, k.of f.unit ∨ k.fixed → s.sol k = w.sol k) ∧
      (∀ k : Key, k.of f.unit → (fs.foldl (fun s f => flow rx f s) s).sol k = w'.sol k) ∧ w'.pulse = f.pulses ∧
      (fs.foldl (fun s f => flow rx f s) s).log = s.log ++ (p ++ l ++ q) ∧ Recorded f w w' l ∧ (∀ k, Early k l) ∧
      (∀ k : Key, k.inUnit → k.of f.unit → Quiet k p ∧ Quiet k q) ∧ (∀ e ∈ l, e.proper f) ∧
      (recCrossIn f.unit l = fallenMol f w ∧
        recCrossOut f.unit l = f.well * at_ w (f.key false 8) + f.r.hill.out * at_ w' (f.key true 10)) ∧
      (∀ e ∈ p ++ q, e.hushed f.unit) ∧ Moved rx f w w' := by
  induction fs generalizing s with
  | nil => exact ⟨hF, by simp⟩
  | cons f fs ih =>
    obtain ⟨o1, o2⟩ := ho f List.mem_cons_self
    obtain ⟨m1, m2, m3⟩ := flow_moved hd o1 o2 s hF
    obtain ⟨l, L1, L2⟩ := flow_recorded hd o1 o2 s hF
    obtain ⟨l', T1, T2, T3⟩ := flow_tidy rx f s
    have hll : l' = l := List.append_cancel_left (T1.symm.trans L1)
    subst hll
    obtain ⟨l'', X1, X2, X3, -⟩ := flow_cross hd o1 o2 s hF
    have hll : l'' = l' := List.append_cancel_left (X1.symm.trans L1)
    subst hll
    rw [List.map_cons, List.nodup_cons] at hn
    have hne : ∀ f' ∈ fs, f'.unit ≠ f.unit := fun f' hf' he => hn.1 (he ▸ List.mem_map_of_mem hf')
    have same : ∀ k : Key, ¬ k.of f.unit → (flow rx f s).sol k = s.sol k := fun k hk => m2 k fun h => hk (changed_of h)
    have hin' : ∀ g ∈ fs, g.Inside d := fun g hg => hin g (List.mem_cons_of_mem _ hg)
    obtain ⟨i1, i2⟩ := ih hin' hn.2 (fun g hg => ho g (List.mem_cons_of_mem _ hg)) (flow rx f s) m1
    have frame : ∀ k : Key, (∀ g ∈ fs, ¬ k.of g.unit) → (fs.foldl (fun s f => flow rx f s) (flow rx f s)).sol k = (flow rx f s).sol k := by
      clear * - hd ho m1
      have ho' : ∀ g ∈ fs, g.Ok ∧ g.Regular := fun g hg => ho g (List.mem_cons_of_mem _ hg)
      clear ho
      generalize flow rx f s = s at m1
      induction fs generalizing s with
      | nil => intro k _; rfl
      | cons g fs ih =>
        intro k hk
        obtain ⟨o1, o2⟩ := ho' g List.mem_cons_self
        obtain ⟨n1, n2, -⟩ := flow_moved hd o1 o2 s m1
        rw [List.foldl_cons, ih (fun g hg => ho' g (List.mem_cons_of_mem _ hg)) _ n1 k fun g' hg' => hk g' (List.mem_cons_of_mem _ hg')]
        exact n2 k fun h => hk g List.mem_cons_self (changed_of h)
    rw [List.foldl_cons]
    refine ⟨i1, ?_⟩
    intro g hg
    rcases List.mem_cons.1 hg with rfl | hg
    · obtain ⟨m, M1, M2⟩ := units_log (rx := rx) fs hin' (flow rx g s)
      refine ⟨s, flow rx g s, [], l'', m, fun _ _ => rfl, fun k hk => frame k fun g' hg' h => hne g' hg' (of_inj h hk),
        flow_pulse rx g s, by rw [M1, L1, List.nil_append, List.append_assoc], L2, fun k => T2 k (by simp), ?_, T3, ⟨X2, X3⟩, fun e he => by
          obtain ⟨⟨g', hg', hpr⟩, -⟩ := M2 e (by simpa using he)
          exact proper_hushed hpr fun h => hne g' hg' h.symm, m3⟩
      intro k hk hu
      refine ⟨fun e he => absurd he (by simp), fun e he => ?_⟩
      obtain ⟨⟨g', hg', hpr⟩, -⟩ := M2 e he
      exact proper_quiet (l := [e]) hk hu (fun h => hne g' hg' h.symm) (by simpa using hpr) e (by simp)
    · obtain ⟨w, w', p, l, q, j1, j2, j3, j4, j5, j6, j7, j8, j9, j10, j11⟩ := i2 g hg
      refine ⟨w, w', l'' ++ p, l, q, fun k hk => ?_, j2, j3, by rw [j4, L1]; simp only [List.append_assoc], j5, j6, ?_, j8, j9, fun e he => by
        rw [List.append_assoc] at he
        rcases List.mem_append.1 he with he | he
        · exact proper_hushed (T3 e he) (hne g hg)
        · exact j10 e he, j11⟩
      · rw [← j1 k hk]
        symm
        apply same
        rcases hk with hk | hk
        · exact fun h => hne g hg (of_inj hk h)
        · exact fixed_of hk
      · intro k hk hu
        exact ⟨(proper_quiet hk hu (hne g hg) T3).append (j7 k hk hu).1, (j7 k hk hu).2⟩

end Verif.Transport
