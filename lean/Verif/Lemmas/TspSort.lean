import Verif.Model.TspSort
import Mathlib.Tactic.Linarith
import Mathlib.Data.List.Perm.Basic
import Mathlib.Data.List.Nodup
import Mathlib.Data.List.Range
/-
Lemmas for C125.
-/
namespace Verif.Tsp

/-- `b` is `a` with elements of the positions from `L` to `R` rearranged. -/
def Moved (L R : Nat) (a b : Arr) : Prop := ∃ σ : Equiv.Perm Nat, (∀ k, k < L ∨ R < k → σ k = k) ∧ b = fun k => a (σ k)

theorem Moved.refl (L R : Nat) (a : Arr) : Moved L R a a := ⟨Equiv.refl _, fun _ _ => rfl, rfl⟩

theorem Moved.trans {L R : Nat} {a b c : Arr} (h : Moved L R a b) (h' : Moved L R b c) : Moved L R a c := by
  obtain ⟨σ, h1, rfl⟩ := h
  obtain ⟨τ, h2, rfl⟩ := h'
  refine ⟨τ.trans σ, fun k hk => ?_, rfl⟩
  rw [Equiv.trans_apply, h2 k hk, h1 k hk]

theorem Moved.mono {L R L' R' : Nat} {a b : Arr} (h : Moved L R a b) (hL : L' ≤ L) (hR : R ≤ R') : Moved L' R' a b := by
  obtain ⟨σ, h1, rfl⟩ := h
  exact ⟨σ, fun k hk => h1 k (by omega), rfl⟩

theorem Moved.exch {L R i j : Nat} (a : Arr) (hi : L ≤ i ∧ i ≤ R) (hj : L ≤ j ∧ j ≤ R) : Moved L R a (exch i j a) :=
  ⟨Equiv.swap i j, fun k hk => Equiv.swap_apply_of_ne_of_ne (by omega) (by omega), rfl⟩

theorem Moved.same {L R : Nat} {a b : Arr} (h : Moved L R a b) {k : Nat} (hk : k < L ∨ R < k) : b k = a k := by
  obtain ⟨σ, h1, rfl⟩ := h
  simp only [h1 k hk]

theorem Moved.within {L R : Nat} {a b : Arr} (h : Moved L R a b) {k : Nat} (hk : L ≤ k ∧ k ≤ R) :
    ∃ k', (L ≤ k' ∧ k' ≤ R) ∧ b k = a k' := by
  obtain ⟨σ, h1, rfl⟩ := h
  refine ⟨σ k, ?_, rfl⟩
  by_contra hc
  have h2 := h1 (σ k) (by omega)
  have := σ.injective h2
  omega

theorem exch_left (i j : Nat) (a : Arr) : exch i j a i = a j := by simp [Verif.Tsp.exch]
theorem exch_right (i j : Nat) (a : Arr) : exch i j a j = a i := by simp [Verif.Tsp.exch]
theorem exch_other {i j k : Nat} (a : Arr) (hi : k ≠ i) (hj : k ≠ j) : exch i j a k = a k := by
  simp [Verif.Tsp.exch, Equiv.swap_apply_of_ne_of_ne hi hj]

theorem inner_moved (i : Nat) : ∀ (r j : Nat) (a : Arr), i < j → Moved i (j + r - 1) a (inner i r j a)
  | 0, j, a, _ => Moved.refl _ _ _
  | r + 1, j, a, h => by
    have h1 := inner_moved i r (j + 1) (if (a i).1 > (a j).1 then exch i j a else a) (by omega)
    rw [show j + 1 + r - 1 = j + (r + 1) - 1 by omega] at h1
    refine Moved.trans ?_ h1
    split_ifs
    · exact Moved.exch a (by omega) (by omega)
    · exact Moved.refl _ _ _

theorem inner_least (i : Nat) : ∀ (r j : Nat) (a : Arr), i < j → (∀ k, i < k → k < j → (a i).1 ≤ (a k).1) →
    ∀ k, i < k → k < j + r → (inner i r j a i).1 ≤ (inner i r j a k).1
  | 0, j, a, _, h => fun k h1 h2 => h k h1 h2
  | r + 1, j, a, hij, h => fun k h1 h2 => by
    refine inner_least i r (j + 1) (if (a i).1 > (a j).1 then exch i j a else a) (by omega) ?_ k h1 (by omega)
    intro k hk hk'
    split_ifs with hc
    · rw [exch_left]
      by_cases hkj : k = j
      · rw [hkj, exch_right]; exact le_of_lt hc
      · rw [exch_other a (by omega) hkj]
        exact le_trans (le_of_lt hc) (h k hk (by omega))
    · by_cases hkj : k = j
      · rw [hkj]; exact not_lt.1 hc
      · exact h k hk (by omega)

/-- The positions from `L` to `R` hold values in order. -/
def Asc (L R : Nat) (a : Arr) : Prop := ∀ k l, L ≤ k → k ≤ l → l ≤ R → (a k).1 ≤ (a l).1

theorem outer_moved (R L : Nat) : ∀ (r i : Nat) (a : Arr), L ≤ i → i + r = R → Moved L R a (outer R r i a)
  | 0, _, a, _, _ => Moved.refl _ _ _
  | r + 1, i, a, h, h' => by
    refine Moved.trans ?_ (outer_moved R L r (i + 1) (inner i (R - i) (i + 1) a) (by omega) (by omega))
    exact (inner_moved i (R - i) (i + 1) a (by omega)).mono h (by omega)

theorem outer_asc (R L : Nat) : ∀ (r i : Nat) (a : Arr), L ≤ i → i + r = R →
    (∀ k l, L ≤ k → k < i → k ≤ l → l ≤ R → (a k).1 ≤ (a l).1) → Asc L R (outer R r i a)
  | 0, i, a, _, hR, h => fun k l h1 h2 h3 => by
    by_cases hk : k < i
    · exact h k l h1 hk h2 h3
    · have : k = l := by omega
      show (a k).1 ≤ (a l).1
      rw [this]
  | r + 1, i, a, hi, hR, h => by
    refine outer_asc R L r (i + 1) (inner i (R - i) (i + 1) a) (by omega) (by omega) ?_
    have hm := inner_moved i (R - i) (i + 1) a (by omega)
    rw [show i + 1 + (R - i) - 1 = R by omega] at hm
    intro k l h1 h2 h3 h4
    by_cases hk : k < i
    · rw [hm.same (Or.inl hk)]
      by_cases hl : l < i
      · rw [hm.same (Or.inl hl)]
        exact h k l h1 hk h3 h4
      · obtain ⟨l', hl', e⟩ := hm.within (k := l) ⟨by omega, h4⟩
        rw [e]
        exact h k l' h1 hk (by omega) (by omega)
    · have hki : k = i := by omega
      subst hki
      by_cases hl : l = k
      · rw [hl]
      · exact inner_least k (R - k) (k + 1) a (by omega) (fun k' a1 a2 => by omega) l (by omega) (by omega)

theorem interchange_spec (L R : Nat) (a : Arr) : Moved L R a (interchange L R a) ∧ Asc L R (interchange L R a) := by
  unfold interchange
  by_cases h : L ≤ R
  · exact ⟨outer_moved R L _ L a (le_refl L) (by omega), outer_asc R L _ L a (le_refl L) (by omega) (fun k l h1 h2 => by omega)⟩
  · rw [show R - L = 0 by omega]
    exact ⟨Moved.refl _ _ _, fun k l h1 h2 h3 => by omega⟩

theorem scanUp_spec (n : Nat) (ref : Rat) (a : Arr) (u : Nat) (hu : u ≤ n) (hr : ref ≤ (a u).1) :
    ∀ (f i : Nat), i < u → u ≤ i + f → ∃ i', scanUp n ref a f i = some i' ∧ i < i' ∧ i' ≤ u ∧ ref ≤ (a i').1 ∧
      ∀ k, i < k → k < i' → (a k).1 < ref
  | 0, i, h, h' => by omega
  | f + 1, i, h, h' => by
    unfold scanUp
    rw [if_neg (by omega)]
    split_ifs with hc
    · exact ⟨i + 1, rfl, by omega, by omega, hc, fun k h1 h2 => by omega⟩
    · have hne : i + 1 ≠ u := fun e => hc (by rw [e]; exact hr)
      obtain ⟨i', e, h1, h2, h3, h4⟩ := scanUp_spec n ref a u hu hr f (i + 1) (by omega) (by omega)
      refine ⟨i', e, by omega, h2, h3, fun k hk hk' => ?_⟩
      by_cases hki : k = i + 1
      · rw [hki]; exact not_le.1 hc
      · exact h4 k (by omega) hk'

theorem scanDown_spec (ref : Rat) (a : Arr) (v : Nat) (hv : 1 ≤ v) (hr : (a v).1 ≤ ref) :
    ∀ (j : Nat), v < j → ∃ j', scanDown ref a j = some j' ∧ j' < j ∧ v ≤ j' ∧ (a j').1 ≤ ref ∧
      ∀ k, j' < k → k < j → ref < (a k).1
  | 0, h => by omega
  | j + 1, h => by
    unfold scanDown
    rw [if_neg (by omega)]
    split_ifs with hc
    · exact ⟨j, rfl, by omega, by omega, hc, fun k h1 h2 => by omega⟩
    · have hne : j ≠ v := fun e => hc (by rw [e]; exact hr)
      obtain ⟨j', e, h1, h2, h3, h4⟩ := scanDown_spec ref a v hv hr j (by omega)
      refine ⟨j', e, by omega, h2, h3, fun k hk hk' => ?_⟩
      by_cases hki : k = j
      · rw [hki]; exact not_le.1 hc
      · exact h4 k hk (by omega)

/-- What holds at the beginning of a turn of the loop that divides the list. -/
structure Between (L R : Nat) (ref : Rat) (i j : Nat) (a : Arr) : Prop where
  below : ∀ k, L ≤ k → k ≤ i → (a k).1 ≤ ref
  above : ∀ k, j ≤ k → k ≤ R → ref ≤ (a k).1
  place : (i + 1 = L ∧ j = R + 1 ∧ ∃ p, L ≤ p ∧ p < R ∧ (a p).1 = ref) ∨ (L ≤ i ∧ i < j ∧ j ≤ R)

theorem divide_spec (n L R : Nat) (ref : Rat) (hL : 1 ≤ L) (hR : R ≤ n) :
    ∀ (f i j : Nat) (a : Arr), j < i + f → Between L R ref i j a →
      ∃ j' a', divide n ref f i j a = some (j' + 1, j', a') ∧ Moved L R a a' ∧ L ≤ j' ∧ j' < R ∧
        (∀ k, L ≤ k → k ≤ j' → (a' k).1 ≤ ref) ∧ (∀ k, j' < k → k ≤ R → ref ≤ (a' k).1)
  | 0, i, j, a, hf, hb => by
    rcases hb.place with h | h <;> omega
  | f + 1, i, j, a, hf, hb => by
    have hu : ∃ u, i < u ∧ u ≤ R ∧ u ≤ j ∧ ref ≤ (a u).1 ∧ (i + 1 = L → u < R) := by
      rcases hb.place with ⟨h1, h2, p, h3, h4, h5⟩ | ⟨h1, h2, h3⟩
      · exact ⟨p, by omega, by omega, by omega, le_of_eq h5.symm, fun _ => h4⟩
      · exact ⟨j, h2, h3, le_refl j, hb.above j (le_refl j) h3, fun h => by omega⟩
    have hv : ∃ v, v < j ∧ L ≤ v ∧ i ≤ v ∧ (a v).1 ≤ ref := by
      rcases hb.place with ⟨h1, h2, p, h3, h4, h5⟩ | ⟨h1, h2, h3⟩
      · exact ⟨p, by omega, by omega, by omega, le_of_eq h5⟩
      · exact ⟨i, h2, h1, le_refl i, hb.below i h1 (le_refl i)⟩
    obtain ⟨u, u1, u2, u3, u4, u5⟩ := hu
    obtain ⟨v, v1, v2, v3, v4⟩ := hv
    obtain ⟨i', e1, i1, i2, i3, i4⟩ := scanUp_spec n ref a u (by omega) u4 (n + 1) i u1 (by omega)
    obtain ⟨j', e2, j1, j2, j3, j4⟩ := scanDown_spec ref a v (by omega) v4 j v1
    have hjR : j ≤ R + 1 := by rcases hb.place with h | h <;> omega
    have hLi : L ≤ i + 1 := by rcases hb.place with h | h <;> omega
    have low : ∀ k, L ≤ k → k < i' → (a k).1 ≤ ref := fun k h1 h2 => by
      by_cases hk : k ≤ i
      · exact hb.below k h1 hk
      · exact le_of_lt (i4 k (by omega) h2)
    have high : ∀ k, j' < k → k ≤ R → ref ≤ (a k).1 := fun k h1 h2 => by
      by_cases hk : j ≤ k
      · exact hb.above k hk h2
      · exact le_of_lt (j4 k h1 (by omega))
    have unf : divide n ref (f + 1) i j a =
        if i' < j' then divide n ref f i' j' (exch i' j' a)
        else if i' = j' then some (i' + 1, j', a) else some (i', j', a) := by
      simp only [divide, e1, e2, Option.bind_eq_bind, Option.bind_some]
    rw [unf]
    by_cases hlt : i' < j'
    · rw [if_pos hlt]
      obtain ⟨j'', a'', e, h1, h2⟩ := divide_spec n L R ref hL hR f i' j' (exch i' j' a) (by omega)
        { below := fun k h1 h2 => by
            by_cases hk : k = i'
            · rw [hk, exch_left]; exact j3
            · rw [exch_other a hk (by omega)]; exact low k h1 (by omega)
          above := fun k h1 h2 => by
            by_cases hk : k = j'
            · rw [hk, exch_right]; exact i3
            · rw [exch_other a (by omega) hk]; exact high k (by omega) h2
          place := Or.inr ⟨by omega, hlt, by omega⟩ }
      exact ⟨j'', a'', e, (Moved.exch a (by omega) (by omega)).trans h1, h2⟩
    · rw [if_neg hlt]
      have hlast : j' < R := by
        rcases hb.place with ⟨h1, h2, h3⟩ | ⟨h1, h2, h3⟩
        · have := u5 h1; omega
        · omega
      by_cases heq : i' = j'
      · rw [if_pos heq]
        refine ⟨j', a, by rw [heq], Moved.refl _ _ _, by omega, hlast, fun k h1 h2 => ?_, high⟩
        by_cases hk : k = j'
        · rw [hk]; exact j3
        · exact low k h1 (by omega)
      · rw [if_neg heq]
        have hs : i' = j' + 1 := by
          by_contra hc
          have h1 := i4 (j' + 1) (by omega) (by omega)
          have h2 := j4 (j' + 1) (by omega) (by omega)
          linarith
        exact ⟨j', a, by rw [hs], Moved.refl _ _ _, by omega, hlast, fun k h1 h2 => low k h1 (by omega), high⟩

theorem sortPart_spec (n : Nat) : ∀ (f L R : Nat) (a : Arr), 1 ≤ L → R ≤ n → 0 < f → R < L + f →
    ∃ b, sortPart n f L R a = some b ∧ Moved L R a b ∧ Asc L R b
  | 0, _, _, _, _, _, h, _ => by omega
  | f + 1, L, R, a, hL, hR, _, hf => by
    unfold sortPart
    by_cases hs : R < L + 6
    · rw [if_pos hs]
      exact ⟨_, rfl, interchange_spec L R a⟩
    · rw [if_neg hs]
      obtain ⟨j, a1, e1, m1, l1, l2, lo, hi⟩ := divide_spec n L R (a ((L + R) / 2)).1 hL hR (n + 2) (L - 1) (R + 1) a (by omega)
        { below := fun k h1 h2 => by omega
          above := fun k h1 h2 => by omega
          place := Or.inl ⟨by omega, rfl, (L + R) / 2, by omega, by omega, rfl⟩ }
      have h2 : ∃ a2, (if L < j then sortPart n f L j a1 else some a1) = some a2 ∧ Moved L j a1 a2 ∧ Asc L j a2 := by
        split_ifs with hc
        · exact sortPart_spec n f L j a1 hL (by omega) (by omega) (by omega)
        · refine ⟨a1, rfl, Moved.refl _ _ _, fun k l h1 h2 h3 => ?_⟩
          have : k = l := by omega
          rw [this]
      obtain ⟨a2, e2, m2, s2⟩ := h2
      have h3 : ∃ a3, (if j + 1 < R then sortPart n f (j + 1) R a2 else some a2) = some a3 ∧ Moved (j + 1) R a2 a3 ∧
          Asc (j + 1) R a3 := by
        split_ifs with hc
        · exact sortPart_spec n f (j + 1) R a2 (by omega) hR (by omega) (by omega)
        · refine ⟨a2, rfl, Moved.refl _ _ _, fun k l h1 h2 h3 => ?_⟩
          have : k = l := by omega
          rw [this]
      obtain ⟨a3, e3, m3, s3⟩ := h3
      refine ⟨a3, ?_, ?_, ?_⟩
      · by_cases hc : L < j
        · rw [if_pos hc] at e2
          simp only [if_pos hc, e1, e2, e3, Option.bind_eq_bind, Option.bind_some]
        · rw [if_neg hc, Option.some.injEq] at e2
          simp only [if_neg hc, e1, e2, e3, Option.bind_eq_bind, Option.bind_some]
      · exact (m1.trans (m2.mono (le_refl L) (by omega))).trans (m3.mono (by omega) (le_refl R))
      · have lo3 : ∀ k, L ≤ k → k ≤ j → (a3 k).1 ≤ (a ((L + R) / 2)).1 := fun k h1 h2 => by
          rw [m3.same (Or.inl (by omega))]
          obtain ⟨k', hk', e⟩ := m2.within ⟨h1, h2⟩
          rw [e]; exact lo k' hk'.1 hk'.2
        have hi3 : ∀ k, j < k → k ≤ R → (a ((L + R) / 2)).1 ≤ (a3 k).1 := fun k h1 h2 => by
          obtain ⟨k', hk', e⟩ := m3.within (k := k) ⟨by omega, h2⟩
          rw [e, m2.same (Or.inr (by omega))]
          exact hi k' (by omega) hk'.2
        intro k l h1 h2 h3
        by_cases hk : k ≤ j
        · by_cases hl : l ≤ j
          · rw [m3.same (Or.inl (by omega)), m3.same (Or.inl (by omega))]
            exact s2 k l h1 h2 hl
          · exact le_trans (lo3 k h1 hk) (hi3 l (by omega) h3)
        · exact s3 k l (by omega) h2 h3

theorem quickSort_spec (l : List Rat) (f : Nat) (hf : l.length < f) :
    ∃ out, quickSort f l = some out ∧ out.Perm (l.zipIdx 1) ∧ (out.map Prod.fst).Pairwise (· ≤ ·) := by
  obtain ⟨b, e, ⟨σ, h1, rfl⟩, hs⟩ := sortPart_spec l.length f 1 l.length (fun i => (l.getD (i - 1) 0, i)) (le_refl 1)
    (le_refl _) (by omega) (by omega)
  have hin : ∀ k, 1 ≤ k → k ≤ l.length → 1 ≤ σ k ∧ σ k ≤ l.length := fun k h2 h3 => by
    by_contra hc
    have h4 := σ.injective (h1 (σ k) (by omega))
    omega
  have hpre : ∀ k, 1 ≤ k → k ≤ l.length → ∃ i, i < l.length ∧ σ (i + 1) = k := fun k h2 h3 => by
    have h5 : 1 ≤ σ.symm k ∧ σ.symm k ≤ l.length := by
      by_contra hc
      have h4 := h1 (σ.symm k) (by omega)
      rw [Equiv.apply_symm_apply] at h4
      omega
    refine ⟨σ.symm k - 1, by omega, ?_⟩
    rw [show σ.symm k - 1 + 1 = σ.symm k by omega, Equiv.apply_symm_apply]
  refine ⟨_, by unfold quickSort; rw [e]; rfl, ?_, ?_⟩
  · rw [List.perm_ext_iff_of_nodup]
    · rintro ⟨x, k⟩
      simp only [List.mem_map, List.mem_range, Prod.mk.injEq]
      rw [List.mem_zipIdx_iff_le_and_getElem?_sub]
      constructor
      · rintro ⟨i, hi, rfl, rfl⟩
        have := hin (i + 1) (by omega) (by omega)
        refine ⟨this.1, ?_⟩
        rw [List.getD_eq_getElem?_getD, List.getElem?_eq_getElem (by omega)]
        rfl
      · rintro ⟨h2, h3⟩
        obtain ⟨h4, h5⟩ := List.getElem?_eq_some_iff.1 h3
        simp only at h2 h4
        obtain ⟨i, hi, h6⟩ := hpre k h2 (by omega)
        refine ⟨i, hi, ?_, h6⟩
        rw [h6, List.getD_eq_getElem?_getD, h3]
        rfl
    · refine (List.nodup_range).map fun i j h => ?_
      simp only [Prod.mk.injEq] at h
      have := σ.injective h.2
      omega
    · refine List.Nodup.of_map Prod.snd ?_
      rw [List.zipIdx_map_snd]
      exact List.nodup_range'
  · rw [List.map_map, List.pairwise_map]
    refine List.Pairwise.imp_of_mem ?_ List.pairwise_lt_range
    intro i j hi hj hij
    rw [List.mem_range] at hi hj
    exact hs (i + 1) (j + 1) (by omega) (by omega) (by omega)

end Verif.Tsp
