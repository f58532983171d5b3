import Verif.Lemmas.TransportSum
/-
Streams.
-/
namespace Verif.Transport
open Verif.Reservoir (sumOf)

theorem segIn_sect {rx : Ent → Sol → Sol} (hd : Dry rx) (h : Nat) {g : Seg} (hg : g.Ok) (s : St) (hF : Full s.sol) :
    Sect [.hill false 14 1] s (segIn rx h g s) ∧
    g.fresh * mo (segIn rx h g s) (.hill false 14 1) = (g.hill.map fun u => u.2 * mo s (.hill true 10 u.1)).sum := by
  unfold segIn
  dsimp only
  have hv : sumOf (·.2) g.hill = g.fresh := rfl
  rw [hv]
  split
  · next hp =>
    have e : (g.hill.map fun u => ((Key.hill true 10 u.1, if u.2 / g.fresh < 0 then 0 else u.2 / g.fresh) : Key × Rat)) =
        (g.hill.map fun u => (Key.hill true 10 u.1, u.2)).map fun c => (c.1, c.2 / g.fresh) := by
      rw [List.map_map]
      apply List.map_congr_left
      intro u hu
      simp only [Function.comp]
      rw [if_neg (not_lt.2 (div_nonneg (hg.hill u hu) (le_of_lt hp)))]
    rw [e]
    obtain ⟨m, hm, em⟩ := mix_vols hd (g.hill.map fun u => (Key.hill true 10 u.1, u.2)) g.fresh (.hill false 14 1) (.hill false 14 1)
      (by simp) (by simp) .no s hF hp
      (by intro c hc; obtain ⟨u, hu, rfl⟩ := List.mem_map.1 hc; exact hg.hill u hu)
      (by rw [Reservoir.sumOf_map]; exact hv)
    refine ⟨(hm.sect.mono (by simp)).of_sol rfl rfl, ?_⟩
    have e2 := hm.destNo
    simp only [mo, note_sol] at e2 ⊢
    rw [e2, em, Reservoir.sumOf_map]
    rfl
  · next hp =>
    refine ⟨Sect.refl hF, ?_⟩
    have h0 : g.fresh = 0 := le_antisymm (not_lt.1 hp) (sumOf_nonneg _ _ hg.hill)
    have hz := sumOf_eq_zero _ _ hg.hill h0
    rw [h0, zero_mul]
    symm
    apply Reservoir.sumOf_zero
    intro u hu
    rw [hz u hu, zero_mul]

theorem segStep_sect {rx : Ent → Sol → Sol} (hd : Dry rx) (h : Nat) {g : Seg} (hg : g.Ok) (s : St) (hF : Full s.sol) :
    Sect [.hill false 14 1, .seg false h, .seg true (h - 1)] s (segStep rx h g s) ∧
    Taken rx (.res (.seg false h)) g.whole (mo (segStep rx h g s) (.seg true (h - 1)))
      ((g.whole - g.fresh) * mo s (.seg false h) + (g.hill.map fun u => u.2 * mo s (.hill true 10 u.1)).sum) := by
  unfold segStep
  dsimp only
  have hv : sumOf (·.2) g.hill = g.fresh := rfl
  have hw : g.down + g.taken + g.loss = g.whole := rfl
  rw [hv, hw]
  have hs := segIn_sect hd h hg { s with log := s.log ++ [.final (.seg false h) g.own] } hF
  generalize segIn rx h g { s with log := s.log ++ [.final (.seg false h) g.own] } = s1 at hs
  obtain ⟨S1, E1⟩ := hs
  have E1 : g.fresh * mo s1 (.hill false 14 1) = (g.hill.map fun u => u.2 * mo s (.hill true 10 u.1)).sum := E1
  have S1 : Sect [.hill false 14 1] s s1 := ⟨S1.full, S1.same, S1.pulse⟩
  have hfr : 0 ≤ g.fresh := sumOf_nonneg _ _ hg.hill
  have hfw := hg.fresh
  split
  · next hp =>
    rw [if_neg (not_lt.2 (div_nonneg (sub_nonneg.2 hfw) (le_of_lt hp)))]
    obtain ⟨m, hm, em⟩ := mix_vols hd [(.hill false 14 1, g.fresh), (.seg false h, g.whole - g.fresh)] g.whole (.seg false h)
      (.seg true (h - 1)) (by simp) (by simp) (.res (.seg false h)) s1 S1.full hp
      (by
        intro c hc
        simp only [List.mem_cons, List.not_mem_nil, or_false] at hc
        rcases hc with rfl | rfl
        · exact hfr
        · exact sub_nonneg.2 hfw)
      (by simp only [sumOf_cons, sumOf_nil]; ring)
    have hd' := hm.destRx hd (by simp)
    simp only [List.map] at hm hd'
    have key : ∀ s', s'.sol = (mix rx (checked [(.hill false 14 1, g.fresh / g.whole), (.seg false h, (g.whole - g.fresh) / g.whole)])
          (.seg false h) (.seg true (h - 1)) (.res (.seg false h)) s1).sol → s'.pulse = s1.pulse →
        Sect [.hill false 14 1, .seg false h, .seg true (h - 1)] s s' ∧
        Taken rx (.res (.seg false h)) g.whole (mo s' (.seg true (h - 1)))
          ((g.whole - g.fresh) * mo s (.seg false h) + (g.hill.map fun u => u.2 * mo s (.hill true 10 u.1)).sum) := by
      intro s' h1 h2
      refine ⟨S1.next hm.sect rfl rfl h1 (h2.trans hm.pulse.symm) (by simp) (by simp), m, fun _ => ?_, ?_⟩
      · unfold mo at hd' ⊢; rw [h1]; exact hd'
      · rw [em, ← E1]
        simp only [sumOf_cons, sumOf_nil, mo]
        rw [S1.same (.seg false h) (by simp)]; ring
    split <;> exact key _ rfl hm.pulse
  · next hp =>
    refine ⟨S1.mono (by simp), 0, fun hne => absurd (lt_of_le_of_ne (le_trans hfr hfw) (Ne.symm hne)) hp, ?_⟩
    have h0 : g.whole = 0 := le_antisymm (not_lt.1 hp) (le_trans hfr hfw)
    have h1 : g.fresh = 0 := by linarith
    rw [← E1, h0, h1]; ring

theorem segLoop_sect {rx : Ent → Sol → Sol} (hd : Dry rx) (gs : List Seg) (hg : ∀ g ∈ gs, g.Ok) (h : Nat) (hh : 0 < h) (s : St)
    (hF : Full s.sol) :
    Full (segLoop rx h gs s).sol ∧
    (∀ k, k ≠ .hill false 14 1 → (∀ i, h ≤ i → k ≠ .seg false i ∧ k ≠ .seg true (i - 1)) → (segLoop rx h gs s).sol k = s.sol k) ∧
    ∀ j g, gs[j]? = some g → Taken rx (.res (.seg false (h + j))) g.whole (mo (segLoop rx h gs s) (.seg true (h + j - 1)))
      ((g.whole - g.fresh) * mo s (.seg false (h + j)) + (g.hill.map fun u => u.2 * mo s (.hill true 10 u.1)).sum) := by
  induction gs generalizing h with
  | nil => exact ⟨hF, fun _ _ _ => rfl, fun j g hj => absurd hj (by simp)⟩
  | cons g gs ih =>
    obtain ⟨i1, i2, i3⟩ := ih (fun g hg' => hg g (List.mem_cons_of_mem _ hg')) (h + 1) (by omega)
    obtain ⟨s1, s2⟩ := segStep_sect hd h (hg g List.mem_cons_self) (segLoop rx (h + 1) gs s) i1
    unfold segLoop
    refine ⟨s1.full, ?_, ?_⟩
    · intro k hk h2
      obtain ⟨a, b⟩ := h2 h (le_refl h)
      rw [s1.same k (by simp [hk, a, b]), i2 k hk fun i hi => h2 i (by omega)]
    · intro j g' hj
      cases j with
      | zero =>
        simp only [List.getElem?_cons_zero, Option.some.injEq] at hj
        subst hj
        rw [Nat.add_zero]
        refine s2.congr rfl ?_
        unfold mo
        rw [i2 (.seg false h) (by simp) (fun i hi => ⟨by simp; omega, by simp⟩)]
        congr 2
        apply List.map_congr_left
        intro u _
        rw [i2 (.hill true 10 u.1) (by simp) (fun i hi => ⟨by simp, by simp⟩)]
      | succ j =>
        have := i3 j g' (by simpa using hj)
        rw [show h + 1 + j = h + (j + 1) by omega] at this
        refine this.congr ?_ rfl
        unfold mo
        rw [s1.same]
        simp only [List.mem_cons, List.not_mem_nil, or_false, not_or]
        refine ⟨by simp, by simp, ?_⟩
        simp only [Key.seg.injEq, true_and]
        omega

theorem overSegs_add (x y : Nat → Seg → Rat) (j : Nat) (gs : List Seg) :
    overSegs (fun i g => x i g + y i g) j gs = overSegs x j gs + overSegs y j gs := by
  induction gs generalizing j with
  | nil => simp [overSegs]
  | cons b bs ih => simp only [overSegs, ih]; ring

theorem overSegs_sub (x y : Nat → Seg → Rat) (j : Nat) (gs : List Seg) :
    overSegs (fun i g => x i g - y i g) j gs = overSegs x j gs - overSegs y j gs := by
  induction gs generalizing j with
  | nil => simp [overSegs]
  | cons b bs ih => simp only [overSegs, ih]; ring

theorem overSegs_at (x y : Nat → Seg → Rat) (j : Nat) (gs : List Seg) (h : ∀ i g, gs[i]? = some g → x (j + i) g = y (j + i) g) :
    overSegs x j gs = overSegs y j gs := by
  induction gs generalizing j with
  | nil => rfl
  | cons g gs ih =>
    unfold overSegs
    rw [show x j g = y j g from h 0 g rfl, ih (j + 1)]
    intro i g' hg
    have := h (i + 1) g' (by simpa using hg)
    rwa [show j + (i + 1) = j + 1 + i by omega] at this

end Verif.Transport
