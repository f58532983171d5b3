import Verif.Lemmas.TransportMru1
/-
What the reaction of a stream segment does to the composite of the basin.
-/
namespace Verif.Chem

theorem fold_gain {S : Table → Nat → Table} {n : Nat} {v : Nat → Rat}
    (h1 : ∀ t k, k ≠ n → ∀ s, S t k .basin (.mol n s) = t .basin (.mol n s))
    (h2 : ∀ t s, S t n .basin (.mol n s) = t .basin (.mol n s) + v s) (l : List Nat) (hl : l.Nodup) (t : Table) (s : Nat) :
    l.foldl S t .basin (.mol n s) = t .basin (.mol n s) + if n ∈ l then v s else 0 := by
  induction l generalizing t with
  | nil => simp
  | cons k l ih =>
    rw [List.nodup_cons] at hl
    rw [List.foldl_cons, ih hl.2]
    by_cases hk : k = n
    · subst hk
      rw [if_neg hl.1, h2]
      simp
    · rw [h1 t k hk]
      simp [Ne.symm hk]

theorem ownMol_basin (c : Call) (im : Nat) (vol : Rat) (k : Nat) (t : Table) (f : Fld) : (ownMol c im vol k t).1 .basin f = t .basin f := by
  unfold ownMol
  try dsimp only
  split_ifs <;> simp [add, put]

theorem ownDelta_basin (c : Call) (im : Nat) (vol : Rat) (k : Nat) (t : Table) (f : Fld) : ownDelta c im vol k t .basin f = t .basin f := by
  unfold ownDelta
  try dsimp only
  split_ifs <;> simp [add, put]

theorem basin_volAccs (x : Ctx) (c : Call) : Acc.basin ∈ volAccs x c ↔ c.basbnd = true := by
  unfold volAccs uzAccs
  split_ifs <;> simp_all

theorem basin_rxnAccs (x : Ctx) (c : Call) : Acc.basin ∉ rxnAccs x c := (List.nodup_cons.mp (rxnAccs_nodup x c)).1

theorem solute_basin (x : Ctx) (c : Call) (hk : c.restype = 99) (hr : c.react = true) (vol : Rat) (t : Table) (k n s : Nat) :
    solute x c 3 vol t k .basin (.mol n s) = t .basin (.mol n s) +
      if c.basbnd = true ∧ n = k ∧ s = 3 then c.tal k * vol * 1000 else 0 := by
  have h2 : (ownMol c 3 vol k t).2 = c.tal k * vol * 1000 := by
    unfold ownMol
    simp [(stream_accs (x := x) hk).2.1, hr]
  unfold solute
  try dsimp only
  rw [molAccs_eq, h2]
  split_ifs with hi hc hc <;> simp only [addAll_apply _ (volAccs_nodup x c), basin_volAccs, ownMol_basin, ownDelta_basin] <;> simp_all

theorem rxnVol_basin (x : Ctx) (c : Call) (hk : c.restype = 99) (im : Nat) (vol : Rat) (t : Table) (n s : Nat) :
    (rxnVol x c im vol t).1 .basin (.mol n s) = t .basin (.mol n s) ∧ (rxnVol x c im vol t).2 = if x.ih > 1 then x.upvol else x.outlet := by
  unfold rxnVol
  try dsimp only
  rw [(stream_accs (x := x) hk).2.1]
  simp only [if_true]
  split_ifs
  · refine ⟨?_, rfl⟩
    simp only [add, put, addAll_apply [Acc.basin] (by simp)]
    simp
  · exact ⟨by simp [add], rfl⟩

theorem entities_basin (x : Ctx) (c : Call) (vol : Rat) (k : Nat) (t : Table) (n s : Nat) :
    (cols x).foldl (entity x c vol k) t .basin (.mol n s) = t .basin (.mol n s) := by
  rw [entities_apply]

theorem reaction_basin (x : Ctx) (c : Call) (hk : c.restype = 99) (vol : Rat) (t : Table) (k n s : Nat) (hi : k = n → x.iso n = false) :
    reaction x c vol t k .basin (.mol n s) = t .basin (.mol n s) +
      if n = k then (if s = 4 then c.tal k * vol * 1000 - c.conc k * vol * 1000 else 0) +
        (if s = 5 ∧ x.ih ≠ 1 then c.tal k * vol * 1000 else 0) else 0 := by
  have hst := (stream_accs (x := x) hk).2.1
  have hmr := (stream_accs (x := x) hk).2.2
  have hra : rxnAccs x c = [.hyd] := by unfold rxnAccs; rw [hst, hmr]; simp
  unfold reaction
  rw [hra, hst, hmr]
  cases hik : x.iso k with
  | true =>
    have hne : ¬ n = k := by
      rintro rfl
      rw [hi rfl] at hik
      exact absurd hik (by simp)
    by_cases hih : x.ih = 1 <;> simp [addAll, add, put, hne, hih]
  | false =>
    simp only [Bool.false_eq_true, if_false, addAll, add, put, List.foldl_cons, List.foldl_nil, reduceCtorEq, and_false, if_true]
    rw [entities_basin]
    by_cases hih : x.ih = 1 <;> by_cases hnk : n = k <;> by_cases h4 : s = 4 <;> by_cases h5 : s = 5 <;>
      simp [hih, hnk, h4, h5, add, put] <;> try omega

theorem massSteps_basin (x : Ctx) (c : Call) (t : Table) (n s : Nat) : (cols x).foldl (massStep c) t .basin (.mol n s) = t .basin (.mol n s) := by
  rw [massSteps_apply]

theorem compVol_basin (x : Ctx) (c : Call) (im : Nat) (vol : Rat) (t : Table) (n s : Nat) :
    compVol x c im vol (ownVol c im vol t) .basin (.mol n s) = t .basin (.mol n s) := by
  rw [compVol_apply]
  simp only [reduceCtorEq, if_false, ite_self, add_zero]
  unfold ownVol
  split_ifs <;> simp [add, put]

/-- The composite of the basin, where a stream segment reacts. -/
theorem updateChem_outflow (x : Ctx) (c : Call) (hk : c.restype = 99) (hm : c.metric = 3) (hr : c.react = true) {n : Nat}
    (hs : isSolute x n = true) (hi : x.iso n = false) (t : Table) :
    ∃ t', updateChem x c t = some t' ∧ ∀ s, t' .basin (.mol n s) = t .basin (.mol n s) +
      (if c.basbnd = true ∧ s = 3 then c.tal n * c.totvol * 1000 else 0) +
      ((if s = 4 then c.tal n * (if x.ih > 1 then x.upvol else x.outlet) * 1000 -
          c.conc n * (if x.ih > 1 then x.upvol else x.outlet) * 1000 else 0) +
        (if s = 5 ∧ x.ih ≠ 1 then c.tal n * (if x.ih > 1 then x.upvol else x.outlet) * 1000 else 0)) := by
  have him : c.im = 3 := by unfold Call.im; simp [hm]
  unfold updateChem
  rw [him, if_neg (by omega)]
  try dsimp only
  rw [hr]
  have h3 : (3 : Int).toNat = 3 := rfl
  simp only [h3, if_true, show ¬ (3 : Nat) = 1 by omega, if_false]
  have hvol : callVol c 3 t = c.totvol := by unfold callVol; simp
  rw [hvol]
  refine ⟨_, rfl, fun s => ?_⟩
  have hmem := (mem_solutes x n).2 hs
  rw [massSteps_basin, fold_gain (n := n) (v := fun s => (if s = 4 then c.tal n * (if x.ih > 1 then x.upvol else x.outlet) * 1000 -
          c.conc n * (if x.ih > 1 then x.upvol else x.outlet) * 1000 else 0) +
        (if s = 5 ∧ x.ih ≠ 1 then c.tal n * (if x.ih > 1 then x.upvol else x.outlet) * 1000 else 0)) ?_ ?_ _ (solutes_nodup x), if_pos hmem]
  · congr 1
    rw [(rxnVol_basin x c hk _ _ _ n s).1, fold_gain (n := n) (v := fun s => if c.basbnd = true ∧ s = 3 then c.tal n * c.totvol * 1000 else 0) ?_ ?_ _
      (solutes_nodup x), if_pos hmem, compVol_basin]
    · intro t k hkn s
      rw [solute_basin x c hk hr, if_neg (by rintro ⟨-, h, -⟩; exact hkn h.symm), add_zero]
    · intro t s
      rw [solute_basin x c hk hr]
      simp
  · intro t k hkn s
    rw [reaction_basin x c hk _ _ _ _ _ (fun h => absurd h hkn), if_neg (Ne.symm hkn), add_zero]
  · intro t s
    rw [reaction_basin x c hk _ _ _ _ _ (fun _ => hi), if_pos rfl, (rxnVol_basin x c hk _ _ _ n s).2]

end Verif.Chem
