import Verif.Lemmas.TransportChem4
import Verif.Lemmas.TransportRiver3
/-
What the loop over segments records.
-/
namespace Verif.Transport
open Verif.Reservoir (Vol Rows BinOut Par In sumOf)

def recSegRxn (l : List Ev) : Rat := (l.map Ev.segRxn).sum
def recSegFin (l : List Ev) : Rat := (l.map Ev.segFin).sum

theorem river_append (l l' : List Ev) : recRise (l ++ l') = recRise l + recRise l' ∧ recSeep (l ++ l') = recSeep l + recSeep l' ∧
    recSegRxn (l ++ l') = recSegRxn l + recSegRxn l' ∧ recSegFin (l ++ l') = recSegFin l + recSegFin l' := by
  simp [recRise, recSeep, recSegRxn, recSegFin]

theorem segIn_river (rx : Ent → Sol → Sol) (h : Nat) (g : Seg) (s : St) : ∃ m, (segIn rx h g s).log = s.log ++ m ∧
    recRise m = 0 ∧ recSeep m = 0 ∧ recSegRxn m = 0 ∧ recSegFin m = 0 := by
  unfold segIn
  dsimp only
  split
  · refine ⟨_, rfl, ?_⟩
    simp [recRise, recSeep, recSegRxn, recSegFin, Ev.rise, Ev.seep, Ev.segRxn, Ev.segFin, Key.row]
  · exact ⟨[], by simp, by simp [recRise, recSeep, recSegRxn, recSegFin]⟩

/-- A segment: `c` is its concentration before reactions. -/
theorem segStep_river {rx : Ent → Sol → Sol} (hd : Dry rx) (h : Nat) (h1 : 1 ≤ h) {g : Seg} (hg : g.Ok) (s : St) (hF : Full s.sol) :
    ∃ m c, (segStep rx h g s).log = s.log ++ m ∧ recRise m = 0 ∧
      recSeep m = (g.taken + g.loss) * c + (if h = 1 then g.down * mo (segStep rx h g s) (.seg true (h - 1)) else 0) ∧
      recSegRxn m = g.down * (mo (segStep rx h g s) (.seg true (h - 1)) - c) ∧
      recSegFin m = (if h = 1 then 0 else g.down * mo (segStep rx h g s) (.seg true (h - 1))) ∧
      (g.whole ≠ 0 → mo (segStep rx h g s) (.seg true (h - 1)) = reacted rx (.res (.seg false h)) c) ∧
      g.whole * c = (g.whole - g.fresh) * mo s (.seg false h) + (g.hill.map fun u => u.2 * mo s (.hill true 10 u.1)).sum := by
  unfold segStep
  dsimp only
  have hv : sumOf (·.2) g.hill = g.fresh := rfl
  have hw : g.down + g.taken + g.loss = g.whole := rfl
  rw [hv, hw]
  have hs := segIn_sect hd h hg { s with log := s.log ++ [.final (.seg false h) g.own] } hF
  obtain ⟨m0, M1, M2, M3, M4, M5⟩ := segIn_river rx h g { s with log := s.log ++ [.final (.seg false h) g.own] }
  generalize segIn rx h g { s with log := s.log ++ [.final (.seg false h) g.own] } = s1 at hs M1
  obtain ⟨S1, E1⟩ := hs
  have E1 : g.fresh * mo s1 (.hill false 14 1) = (g.hill.map fun u => u.2 * mo s (.hill true 10 u.1)).sum := E1
  have S1 : Sect [.hill false 14 1] s s1 := ⟨S1.full, S1.same, S1.pulse⟩
  have hfr : 0 ≤ g.fresh := sumOf_nonneg _ _ hg.hill
  have hfw := hg.fresh
  have hf : recRise (.final (.seg false h) g.own :: m0) = 0 ∧ recSeep (.final (.seg false h) g.own :: m0) = 0 ∧
      recSegRxn (.final (.seg false h) g.own :: m0) = 0 ∧ recSegFin (.final (.seg false h) g.own :: m0) = 0 := by
    simp only [recRise, recSeep, recSegRxn, recSegFin, List.map_cons, List.sum_cons] at *
    simp [M2, M3, M4, M5, Ev.rise, Ev.seep, Ev.segRxn, Ev.segFin]
  have M1 : s1.log = s.log ++ (.final (.seg false h) g.own :: m0) := by rw [M1]; simp
  generalize Ev.final (.seg false h) g.own :: m0 = m1 at hf M1
  obtain ⟨f1, f2, f3, f4⟩ := hf
  split
  · next hp =>
    rw [if_neg (not_lt.2 (div_nonneg (sub_nonneg.2 hfw) (le_of_lt hp)))]
    obtain ⟨m, hm, em⟩ := mix_vols hd [(.hill false 14 1, g.fresh), (.seg false h, g.whole - g.fresh)] g.whole (.seg false h)
      (.seg true (h - 1)) (by simp) (by simp) (.res (.seg false h)) s1 S1.full hp
      (by
        intro c hc
        simp only [List.mem_cons, List.not_mem_nil, or_false] at hc
        rcases hc with rfl | rfl
        · exact hfr
        · exact sub_nonneg.2 hfw)
      (by simp only [sumOf_cons, sumOf_nil]; ring)
    have hd' := hm.destRx hd (by simp)
    have hc' := hm.conc
    have ht' := hm.tal
    simp only [List.map] at hm hd' hc' ht'
    have em' : g.whole * m = (g.whole - g.fresh) * mo s (.seg false h) + (g.hill.map fun u => u.2 * mo s (.hill true 10 u.1)).sum := by
      rw [em, ← E1]
      simp only [sumOf_cons, sumOf_nil, mo]
      rw [S1.same (.seg false h) (by simp)]; ring
    have hlog : (mix rx (checked [(.hill false 14 1, g.fresh / g.whole), (.seg false h, (g.whole - g.fresh) / g.whole)])
      (.seg false h) (.seg true (h - 1)) (.res (.seg false h)) s1).log = s1.log := rfl
    generalize mix rx (checked [(.hill false 14 1, g.fresh / g.whole), (.seg false h, (g.whole - g.fresh) / g.whole)])
      (.seg false h) (.seg true (h - 1)) (.res (.seg false h)) s1 = s2 at *
    have htal : s2.tal = mo s2 (.seg true (h - 1)) := by
      rw [ht', hd']
      simp [react, reacted]
    by_cases hh : h > 1
    · rw [if_pos hh]
      refine ⟨m1 ++ [_, _, _], m, by simp only [note, hlog, M1, List.append_assoc]; rfl, ?_, ?_, ?_, ?_, fun _ => hd', em'⟩
      · rw [(river_append _ _).1, f1]; simp [recRise, Ev.rise]
      · rw [(river_append _ _).2.1, f2, if_neg (by omega)]
        simp [recSeep, Ev.seep, note, hc']
      · rw [(river_append _ _).2.2.1, f3]
        simp [recSegRxn, Ev.segRxn, Key.row, note, hc', htal, mo]
      · rw [(river_append _ _).2.2.2, f4]
        simp [recSegFin, Ev.segFin, Key.row, note, htal, mo]
    · rw [if_neg hh]
      have h1 : h = 1 := by omega
      refine ⟨m1 ++ [_, _], m, by simp only [note, hlog, M1, List.append_assoc]; rfl, ?_, ?_, ?_, ?_, fun _ => hd', em'⟩
      · rw [(river_append _ _).1, f1]; simp [recRise, Ev.rise]
      · rw [(river_append _ _).2.1, f2, if_pos h1]
        simp [recSeep, Ev.seep, note, hc', htal, mo]
      · rw [(river_append _ _).2.2.1, f3]
        simp [recSegRxn, Ev.segRxn, Key.row, note, hc', htal, mo]
      · rw [(river_append _ _).2.2.2, f4]
        simp [recSegFin, Ev.segFin, Key.row, note, htal, mo, h1]
  · next hp =>
    have h0 : g.whole = 0 := le_antisymm (not_lt.1 hp) (le_trans hfr hfw)
    have h1' : g.fresh = 0 := by linarith
    have hdn : g.down = 0 ∧ g.taken = 0 ∧ g.loss = 0 := by
      have := hg.down; have := hg.taken; have := hg.loss
      unfold Seg.whole at h0
      exact ⟨by linarith, by linarith, by linarith⟩
    refine ⟨m1, 0, M1, f1, ?_, ?_, ?_, fun hne => absurd h0 hne, ?_⟩
    · rw [f2, hdn.1, hdn.2.1, hdn.2.2]; simp
    · rw [f3, hdn.1]; ring
    · rw [f4, hdn.1]; simp
    · rw [← E1, h0, h1']; ring

/-- The segments, `c j` the concentration of segment `j + 1` before reactions. -/
theorem segLoop_river {rx : Ent → Sol → Sol} (hd : Dry rx) (gs : List Seg) (hg : ∀ g ∈ gs, g.Ok) (a : Nat) (s : St) (hF : Full s.sol) :
    ∃ (m : List Ev) (c : Nat → Rat), (segLoop rx (a + 1) gs s).log = s.log ++ m ∧ recRise m = 0 ∧
      recSeep m = overSegs (fun j g => (g.taken + g.loss) * c j + if j = 0 then g.down * mo (segLoop rx (a + 1) gs s) (.seg true j) else 0) a gs ∧
      recSegRxn m = overSegs (fun j g => g.down * (mo (segLoop rx (a + 1) gs s) (.seg true j) - c j)) a gs ∧
      recSegFin m = overSegs (fun j g => if j = 0 then 0 else g.down * mo (segLoop rx (a + 1) gs s) (.seg true j)) a gs ∧
      ∀ j g, gs[j]? = some g →
        (g.whole ≠ 0 → mo (segLoop rx (a + 1) gs s) (.seg true (a + j)) = reacted rx (.res (.seg false (a + j + 1))) (c (a + j))) ∧
        g.whole * c (a + j) = (g.whole - g.fresh) * mo s (.seg false (a + j + 1)) + (g.hill.map fun u => u.2 * mo s (.hill true 10 u.1)).sum := by
  induction gs generalizing a with
  | nil => exact ⟨[], fun _ => 0, by simp [segLoop], by simp [recRise], by simp [recSeep, overSegs], by simp [recSegRxn, overSegs],
      by simp [recSegFin, overSegs], fun j g hj => absurd hj (by simp)⟩
  | cons g gs ih =>
    have hg' : ∀ g ∈ gs, g.Ok := fun g hg' => hg g (List.mem_cons_of_mem _ hg')
    obtain ⟨m, c, i1, i2, i3, i4, i5, i6⟩ := ih hg' (a + 1)
    obtain ⟨j1, j2, -⟩ := segLoop_sect hd gs hg' (a + 1 + 1) (by omega) s hF
    obtain ⟨s1, -⟩ := segStep_sect hd (a + 1) (hg g List.mem_cons_self) (segLoop rx (a + 1 + 1) gs s) j1
    obtain ⟨m', c', k1, k2, k3, k4, k5, k6, k7⟩ := segStep_river hd (a + 1) (by omega) (hg g List.mem_cons_self) (segLoop rx (a + 1 + 1) gs s) j1
    unfold segLoop
    generalize segLoop rx (a + 1 + 1) gs s = w at *
    rw [Nat.add_sub_cancel] at k3 k4 k5 k6
    have same : ∀ i, mo (segStep rx (a + 1) g w) (.seg true (a + 1 + i)) = mo w (.seg true (a + 1 + i)) := by
      intro i
      unfold mo
      rw [s1.same]
      simp only [List.mem_cons, List.not_mem_nil, or_false, not_or, Key.seg.injEq, true_and]
      exact ⟨by simp, by simp, by omega⟩
    have low : mo w (.seg false (a + 1)) = mo s (.seg false (a + 1)) := by
      unfold mo
      rw [j2 (.seg false (a + 1)) (by simp) (fun i hi => ⟨by simp; omega, by simp⟩)]
    have side : (g.hill.map fun u => u.2 * mo w (.hill true 10 u.1)).sum = (g.hill.map fun u => u.2 * mo s (.hill true 10 u.1)).sum := by
      congr 1
      apply List.map_congr_left
      intro u _
      unfold mo
      rw [j2 (.hill true 10 u.1) (by simp) (fun i hi => ⟨by simp, by simp⟩)]
    generalize segStep rx (a + 1) g w = w' at *
    have hne : ∀ i, a + 1 + i ≠ a := fun i => by omega
    refine ⟨m ++ m', fun j => if j = a then c' else c j, by rw [k1, i1, List.append_assoc], ?_, ?_, ?_, ?_, ?_⟩
    · rw [(river_append _ _).1, i2, k2]; ring
    · rw [(river_append _ _).2.1, i3.trans (overSegs_at _ (fun j g => (g.taken + g.loss) * (if j = a then c' else c j) +
        if j = 0 then g.down * mo w' (.seg true j) else 0) (a + 1) gs fun i g' _ => by simp only [same, hne, if_false]), k3, overSegs]
      simp
      ring
    · rw [(river_append _ _).2.2.1, i4.trans (overSegs_at _ (fun j g => g.down * (mo w' (.seg true j) - if j = a then c' else c j)) (a + 1) gs
        fun i g' _ => by simp only [same, hne, if_false]), k4, overSegs]
      simp
      ring
    · rw [(river_append _ _).2.2.2, i5.trans (overSegs_at _ (fun j g => if j = 0 then 0 else g.down * mo w' (.seg true j)) (a + 1) gs
        fun i g' _ => by simp only [same]), k5, overSegs]
      simp
      ring
    · intro j g' hj
      cases j with
      | zero =>
        simp only [List.getElem?_cons_zero, Option.some.injEq] at hj
        subst hj
        simp only [Nat.add_zero, if_true]
        exact ⟨k6, by rw [k7, low, side]⟩
      | succ j =>
        obtain ⟨a1, a2⟩ := i6 j g' (by simpa using hj)
        rw [show a + (j + 1) = a + 1 + j by omega]
        dsimp only
        rw [if_neg (hne j), same]
        exact ⟨a1, a2⟩

end Verif.Transport
