import Verif.Spec.TspFilter
import Verif.Lemmas.TspTransform
import Mathlib.Data.List.GetD
import Mathlib.Tactic.LinearCombination
import Mathlib.Tactic.FieldSimp
import Mathlib.Tactic.Ring
import Mathlib.Tactic.Linarith
import Mathlib.Tactic.Positivity
namespace Verif.Tsp

variable {K : Type} [Field K]

theorem grow_spec (f : Int → List K → K) (n : Nat) (j : Int) (acc : List K) :
    (grow f n j acc).length = acc.length + n ∧ (∀ i < acc.length, (grow f n j acc).getD i 0 = acc.getD i 0) ∧
    ∀ i, acc.length ≤ i → i < acc.length + n →
      (grow f n j acc).getD i 0 = f (j + ((i - acc.length : Nat) : Int)) ((grow f n j acc).take i) := by
  induction n generalizing j acc with
  | zero => exact ⟨rfl, fun i _ => rfl, fun i h1 h2 => absurd h2 (by omega)⟩
  | succ n ih =>
    obtain ⟨h1, h2, h3⟩ := ih (j + 1) (acc ++ [f j acc])
    have hl : (acc ++ [f j acc]).length = acc.length + 1 := by simp
    rw [grow]
    refine ⟨by rw [h1, hl]; omega, fun i hi => ?_, fun i hi1 hi2 => ?_⟩
    · rw [h2 i (by omega), List.getD_append _ _ _ _ hi]
    · rcases Nat.lt_or_ge acc.length i with h | h
      · rw [h3 i (by omega) (by omega), hl]
        congr 1
        omega
      · obtain rfl : i = acc.length := by omega
        rw [h2 acc.length (by omega)]
        have ht : (grow f n (j + 1) (acc ++ [f j acc])).take acc.length = acc := by
          apply List.ext_getElem
          · rw [List.length_take, h1, hl]; omega
          · intro i i1 i2
            have := h2 i (by omega)
            rw [List.getD_append _ _ _ _ i2, List.getD_eq_getElem _ _ (by rw [h1, hl]; omega), List.getD_eq_getElem _ _ i2] at this
            simpa using this
        rw [ht]
        simp

theorem stageTerm_congr (p : FPass) (k : Coef K) {r r' g g' : Int → K} {j : Int} (hr : ∀ i, j - 4 ≤ i → i ≤ j → r i = r' i)
    (hg : ∀ i, j - 4 ≤ i → i < j → g i = g' i) : stageTerm p k r g j = stageTerm p k r' g' j := by
  cases p <;> simp only [stageTerm]
  · rw [hr j (by omega) (by omega), hr (j - 1) (by omega) (by omega), hr (j - 2) (by omega) (by omega), hg (j - 1) (by omega) (by omega),
      hg (j - 2) (by omega) (by omega)]
  · rw [hr j (by omega) (by omega), hr (j - 1) (by omega) (by omega), hr (j - 2) (by omega) (by omega), hg (j - 1) (by omega) (by omega),
      hg (j - 2) (by omega) (by omega)]
  · rw [hr j (by omega) (by omega), hr (j - 2) (by omega) (by omega), hr (j - 4) (by omega) (by omega), hg (j - 1) (by omega) (by omega),
      hg (j - 2) (by omega) (by omega), hg (j - 3) (by omega) (by omega), hg (j - 4) (by omega) (by omega)]

/-- The output before the first term. -/
def outBefore (p : FPass) (x : List K) : K := if p = .low then x.headD 0 else 0

/-- The difference equations with the terms of the model. -/
def Rel (p : FPass) (k : Coef K) (x y : List K) : Prop :=
  y.length = x.length ∧ ∀ j : Int, 1 ≤ j → j ≤ x.length →
    padded (outBefore p x) y j = stageTerm p k (padded (x.headD 0) x) (padded (outBefore p x) y) j

theorem rel_iff (p : FPass) (k : Coef K) (x y : List K) : Rel p k x y ↔ IsStage p k x y := by
  unfold Rel IsStage
  refine and_congr Iff.rfl (forall_congr' fun j => forall_congr' fun _ => forall_congr' fun _ => ?_)
  cases p <;> simp only [stageTerm, outBefore, reduceCtorEq, if_false, if_true]
  all_goals constructor <;> intro h <;> linear_combination h

theorem padded_take (v : K) (l : List K) (n : Nat) (j : Int) (h : j ≤ n) : padded v (l.take n) j = padded v l j := by
  unfold padded
  split
  · rfl
  · rw [List.getD_eq_getElem?_getD, List.getD_eq_getElem?_getD, List.getElem?_take_of_lt (by omega)]

theorem padded_nat (v : K) (l : List K) (i : Nat) : padded v l ((i : Int) + 1) = l.getD i 0 := by
  unfold padded
  rw [if_neg (by omega)]
  congr 1
  omega

theorem stageValues_rel (p : FPass) (k : Coef K) (x : List K) (hx : 5 ≤ x.length) : Rel p k x (stageValues p k x) := by
  have ha : at1 x 1 = x.headD 0 := by cases x <;> rfl
  unfold stageValues
  simp only [ha]
  change Rel p k x (grow _ _ 6 (grow (fun j acc => stageTerm p k (padded (x.headD 0) x) (padded (outBefore p x) acc) j) 5 1 []))
  obtain ⟨f1, -, f3⟩ := grow_spec (fun j acc => stageTerm p k (padded (x.headD 0) x) (padded (outBefore p x) acc) j) 5 1 []
  generalize grow (fun j acc => stageTerm p k (padded (x.headD 0) x) (padded (outBefore p x) acc) j) 5 1 [] = five at *
  obtain ⟨y1, y2, y3⟩ := grow_spec (fun j acc => stageTerm p k (at1 x) (at1 acc) j) (x.length - 5) 6 five
  generalize grow (fun j acc => stageTerm p k (at1 x) (at1 acc) j) (x.length - 5) 6 five = y at *
  simp only [List.length_nil, Nat.zero_add, Nat.sub_zero] at f1 f3
  rw [f1] at y1 y2 y3
  refine ⟨by omega, fun j j1 j2 => ?_⟩
  obtain ⟨i, rfl⟩ : ∃ i : Nat, j = (i : Int) + 1 := ⟨(j - 1).toNat, by omega⟩
  rw [padded_nat]
  rcases Nat.lt_or_ge i 5 with h | h
  · rw [y2 i h, f3 i (by omega) h, show (1 : Int) + i = i + 1 by omega]
    refine stageTerm_congr p k (fun _ _ _ => rfl) fun l l1 l2 => ?_
    rw [padded_take _ _ _ _ (by omega)]
    unfold padded
    split
    · rfl
    · rw [y2 _ (by omega)]
  · rw [y3 i h (by omega)]
    have : (6 : Int) + ((i - 5 : Nat) : Int) = i + 1 := by omega
    rw [this]
    refine stageTerm_congr p k (fun l l1 l2 => ?_) fun l l1 l2 => ?_
    · unfold padded
      rw [if_neg (by omega)]
      rfl
    · rw [← padded_take _ y i l (by omega)]
      unfold padded
      rw [if_neg (by omega)]
      rfl

theorem rel_unique {p : FPass} {k : Coef K} {x y y' : List K} (h : Rel p k x y) (h' : Rel p k x y') : y = y' := by
  have key : ∀ n : Nat, ∀ j : Int, j ≤ n → j ≤ x.length → padded (outBefore p x) y j = padded (outBefore p x) y' j := by
    intro n
    induction n with
    | zero => intro j hj _; unfold padded; rw [if_pos (by omega), if_pos (by omega)]
    | succ n ih =>
      intro j hj hj'
      rcases lt_or_ge j 1 with h0 | h0
      · exact ih j (by omega) hj'
      · rw [h.2 j h0 hj', h'.2 j h0 hj']
        exact stageTerm_congr p k (fun _ _ _ => rfl) fun i i1 i2 => ih i (by omega) (by omega)
  apply List.ext_getElem
  · rw [h.1, h'.1]
  · intro i i1 i2
    have := key (i + 1) ((i : Int) + 1) (by omega) (by rw [← h.1]; omega)
    rw [padded_nat, padded_nat, List.getD_eq_getElem _ _ i1, List.getD_eq_getElem _ _ i2] at this
    exact this

theorem headD_take (x : List K) (n : Nat) (h : 1 ≤ n) : (x.take n).headD 0 = x.headD 0 := by
  cases x with
  | nil => simp
  | cons a t => obtain ⟨m, rfl⟩ : ∃ m, n = m + 1 := ⟨n - 1, by omega⟩; rfl

theorem rel_take {p : FPass} {k : Coef K} {x y : List K} (h : Rel p k x y) (n : Nat) (hn : 1 ≤ n) :
    Rel p k (x.take n) (y.take n) := by
  refine ⟨by rw [List.length_take, List.length_take, h.1], fun j j1 j2 => ?_⟩
  rw [List.length_take] at j2
  unfold outBefore
  rw [headD_take x n hn]
  change padded (outBefore p x) _ _ = stageTerm p k _ (padded (outBefore p x) _) _
  rw [padded_take _ _ _ _ (by omega), h.2 j j1 (by omega)]
  exact stageTerm_congr p k (fun i i1 i2 => (padded_take _ _ _ _ (by omega)).symm) fun i i1 i2 => (padded_take _ _ _ _ (by omega)).symm

theorem padded_comb (m n v v' : K) (l l' : List K) (h : l.length = l'.length) (j : Int) :
    padded (m * v + n * v') (comb m n l l') j = m * padded v l j + n * padded v' l' j := by
  unfold padded comb
  split
  · rfl
  · generalize (j - 1).toNat = i
    rcases Nat.lt_or_ge i l.length with hi | hi
    · rw [List.getD_eq_getElem _ _ (by rw [List.length_zipWith]; omega), List.getD_eq_getElem _ _ hi, List.getD_eq_getElem _ _ (by omega),
        List.getElem_zipWith]
    · rw [List.getD_eq_default _ _ (by rw [List.length_zipWith]; omega), List.getD_eq_default _ _ hi, List.getD_eq_default _ _ (by omega)]
      ring

theorem headD_comb (m n : K) (l l' : List K) (h : l.length = l'.length) : (comb m n l l').headD 0 = m * l.headD 0 + n * l'.headD 0 := by
  cases l with
  | nil => cases l' with | nil => simp [comb] | cons a t => simp at h
  | cons b u => cases l' with | nil => simp at h | cons a t => rfl

theorem length_comb (m n : K) (l l' : List K) (h : l.length = l'.length) : (comb m n l l').length = l.length := by
  unfold comb
  rw [List.length_zipWith]
  omega

theorem rel_comb {p : FPass} {k : Coef K} {x y x' y' : List K} (h : Rel p k x y) (h' : Rel p k x' y') (hl : x.length = x'.length)
    (m n : K) : Rel p k (comb m n x x') (comb m n y y') := by
  have hy : y.length = y'.length := by rw [h.1, h'.1, hl]
  have ho : outBefore p (comb m n x x') = m * outBefore p x + n * outBefore p x' := by
    unfold outBefore
    split
    · exact headD_comb m n x x' hl
    · ring
  refine ⟨by rw [length_comb _ _ _ _ hy, length_comb _ _ _ _ hl, h.1], fun j j1 j2 => ?_⟩
  rw [length_comb _ _ _ _ hl] at j2
  rw [ho, headD_comb m n x x' hl, padded_comb _ _ _ _ _ _ hy, h.2 j j1 j2, h'.2 j j1 (by omega)]
  cases p <;> simp only [stageTerm, padded_comb _ _ _ _ _ _ hy, padded_comb _ _ _ _ _ _ hl] <;> ring

theorem padded_replicate (v : K) (n : Nat) (j : Int) (h : j ≤ n) : padded v (List.replicate n v) j = v := by
  unfold padded
  split
  · rfl
  · rw [List.getD_replicate]
    omega

theorem headD_replicate (v : K) (n : Nat) (h : 1 ≤ n) : (List.replicate n v).headD 0 = v := by
  obtain ⟨m, rfl⟩ : ∃ m, n = m + 1 := ⟨n - 1, by omega⟩
  rfl

theorem rel_const_low {k : Coef K} (hk : 1 + k.b + k.c = 4 * k.a) (n : Nat) (v : K) :
    Rel .low k (List.replicate n v) (List.replicate n v) := by
  refine ⟨rfl, fun j j1 j2 => ?_⟩
  rw [List.length_replicate] at j2
  unfold outBefore
  rw [if_pos rfl, headD_replicate v n (by omega)]
  simp only [stageTerm]
  rw [padded_replicate v n j (by omega), padded_replicate v n (j - 1) (by omega), padded_replicate v n (j - 2) (by omega)]
  linear_combination v * hk

theorem rel_const_zero {p : FPass} (hp : p ≠ .low) (k : Coef K) (n : Nat) (v : K) :
    Rel p k (List.replicate n v) (List.replicate n 0) := by
  refine ⟨by rw [List.length_replicate, List.length_replicate], fun j j1 j2 => ?_⟩
  rw [List.length_replicate] at j2
  unfold outBefore
  rw [if_neg hp, headD_replicate v n (by omega), padded_replicate _ _ _ j2]
  cases p with
  | low => exact absurd rfl hp
  | high =>
    simp only [stageTerm]
    rw [padded_replicate v n j (by omega), padded_replicate v n (j - 1) (by omega), padded_replicate v n (j - 2) (by omega),
      padded_replicate 0 n (j - 1) (by omega), padded_replicate 0 n (j - 2) (by omega)]
    ring
  | band =>
    simp only [stageTerm]
    rw [padded_replicate v n j (by omega), padded_replicate v n (j - 2) (by omega), padded_replicate v n (j - 4) (by omega),
      padded_replicate 0 n (j - 1) (by omega), padded_replicate 0 n (j - 2) (by omega), padded_replicate 0 n (j - 3) (by omega),
      padded_replicate 0 n (j - 4) (by omega)]
    ring

theorem stage_rel [LinearOrder K] {p : FPass} {k : Coef K} {x y : List K} (hx : 5 ≤ x.length) (h : stage p k x = some y) :
    Rel p k x y := by
  unfold stage at h
  simp only at h
  split at h
  · exact absurd h (by simp)
  · rw [← Option.some.inj h]
    exact stageValues_rel p k x hx

theorem stage_some [LinearOrder K] {p : FPass} (hp : p ≠ .band) (k : Coef K) (x : List K) : stage p k x = some (stageValues p k x) := by
  unfold stage
  exact if_neg fun h => hp h.1

theorem foldlM_stages [LinearOrder K] {p : FPass} : ∀ (ks : List (Coef K)) {x y : List K}, 5 ≤ x.length →
    ks.foldlM (fun y k => stage p k y) x = some y → Stages p ks x y
  | [], x, y, _, h => by
    obtain rfl : x = y := Option.some.inj h
    exact .nil _
  | k :: ks, x, y, hx, h => by
    rw [List.foldlM_cons] at h
    obtain ⟨u, hu, h2⟩ := Option.bind_eq_some_iff.mp h
    have hr := stage_rel hx hu
    exact .cons ((rel_iff _ _ _ _).mp hr) (foldlM_stages ks (by rw [hr.1]; exact hx) h2)

theorem foldlM_some [LinearOrder K] {p : FPass} (hp : p ≠ .band) : ∀ (ks : List (Coef K)) (x : List K),
    ∃ y, ks.foldlM (fun y k => stage p k y) x = some y
  | [], x => ⟨x, rfl⟩
  | k :: ks, x => by
    rw [List.foldlM_cons, stage_some hp]
    exact foldlM_some hp ks _

theorem stages_length {p : FPass} {ks : List (Coef K)} {x y : List K} (h : Stages p ks x y) : y.length = x.length := by
  induction h with
  | nil => rfl
  | cons h _ ih => rw [ih, h.1]

theorem stages_unique {p : FPass} {ks : List (Coef K)} {x y y' : List K} (h : Stages p ks x y) (h' : Stages p ks x y') : y = y' := by
  induction h generalizing y' with
  | nil => cases h'; rfl
  | cons h _ ih =>
    cases h' with
    | cons g g2 =>
      obtain rfl := rel_unique ((rel_iff _ _ _ _).mpr h) ((rel_iff _ _ _ _).mpr g)
      exact ih g2

theorem stages_take {p : FPass} {ks : List (Coef K)} {x y : List K} (h : Stages p ks x y) (n : Nat) (hn : 1 ≤ n) :
    Stages p ks (x.take n) (y.take n) := by
  induction h with
  | nil => exact .nil _
  | cons h _ ih => exact .cons ((rel_iff _ _ _ _).mp (rel_take ((rel_iff _ _ _ _).mpr h) n hn)) ih

theorem stages_comb {p : FPass} {ks : List (Coef K)} {x y x' y' : List K} (h : Stages p ks x y) (h' : Stages p ks x' y')
    (hl : x.length = x'.length) (m n : K) : Stages p ks (comb m n x x') (comb m n y y') := by
  induction h generalizing x' y' with
  | nil => cases h'; exact .nil _
  | cons h _ ih =>
    cases h' with
    | cons g g2 =>
      exact .cons ((rel_iff _ _ _ _).mp (rel_comb ((rel_iff _ _ _ _).mpr h) ((rel_iff _ _ _ _).mpr g) hl m n))
        (ih g2 (by rw [h.1, g.1, hl]))

theorem stages_const_low : ∀ (ks : List (Coef K)), (∀ k ∈ ks, 1 + k.b + k.c = 4 * k.a) → ∀ (n : Nat) (v : K),
    Stages .low ks (List.replicate n v) (List.replicate n v)
  | [], _, _, _ => .nil _
  | k :: ks, h, n, v => .cons ((rel_iff _ _ _ _).mp (rel_const_low (h k (by simp)) n v))
      (stages_const_low ks (fun k hk => h k (by simp [hk])) n v)

theorem stages_const_zero {p : FPass} (hp : p ≠ .low) : ∀ (ks : List (Coef K)), ks ≠ [] → ∀ (n : Nat) (v : K),
    Stages p ks (List.replicate n v) (List.replicate n 0)
  | [], h, _, _ => absurd rfl h
  | [k], _, n, v => .cons ((rel_iff _ _ _ _).mp (rel_const_zero hp k n v)) (.nil _)
  | k :: l :: ks, _, n, v => .cons ((rel_iff _ _ _ _).mp (rel_const_zero hp k n v)) (stages_const_zero hp (l :: ks) (by simp) n 0)

theorem comb_reverse (m n : K) (l l' : List K) (h : l.length = l'.length) :
    (comb m n l l').reverse = comb m n l.reverse l'.reverse := by
  unfold comb
  rw [List.reverse_zipWith h]

/-! ### The filter for baseflow -/

theorem basePass_quick (al : K) (x : List K) (hx : 2 ≤ x.length) : IsQuick al x (basePass al x) := by
  unfold basePass
  simp only
  have ha : at1 x 1 = x.getD 0 0 := rfl
  have hb : at1 x 2 = x.getD 1 0 := rfl
  rw [ha, hb]
  generalize hv : x.getD 0 0 - (x.getD 1 0 - x.getD 0 0) = v
  have hv' : 2 * x.getD 0 0 - x.getD 1 0 = v := by rw [← hv]; ring
  obtain ⟨y1, y2, y3⟩ := grow_spec (fun j acc => al * at1 acc (j - 1) + (1 + al) * (1 / 2) * (at1 x j - at1 x (j - 1))) (x.length - 1) 2
    [al * v + (1 + al) * (1 / 2) * (x.getD 0 0 - v)]
  generalize grow (fun j acc => al * at1 acc (j - 1) + (1 + al) * (1 / 2) * (at1 x j - at1 x (j - 1))) (x.length - 1) 2
    [al * v + (1 + al) * (1 / 2) * (x.getD 0 0 - v)] = y at *
  simp only [List.length_singleton] at y1 y2 y3
  refine ⟨by omega, fun j j1 j2 => ?_⟩
  obtain ⟨i, rfl⟩ : ∃ i : Nat, j = (i : Int) + 1 := ⟨(j - 1).toNat, by omega⟩
  simp only [hv', padded_nat]
  cases i with
  | zero =>
    rw [y2 0 (by omega)]
    simp only [List.getD_cons_zero, padded]
    rw [if_pos (by omega), if_pos (by omega)]
    ring
  | succ i =>
    have e : ((i + 1 : Nat) : Int) + 1 - 1 = (i : Int) + 1 := by omega
    rw [y3 (i + 1) (by omega) (by omega), e, padded_nat, padded_nat]
    have e1 : (2 : Int) + ((i + 1 - 1 : Nat) : Int) - 1 = (i : Int) + 1 := by omega
    have e2 : (2 : Int) + ((i + 1 - 1 : Nat) : Int) = (i : Int) + 1 + 1 := by omega
    rw [e1, e2]
    have t1 : at1 (y.take (i + 1)) ((i : Int) + 1) = y.getD i 0 := by
      rw [← padded_nat 0 y i, ← padded_take 0 y (i + 1) _ (by omega)]
      unfold padded
      rw [if_neg (by omega)]
      rfl
    have t2 : at1 x ((i : Int) + 1) = x.getD i 0 := by unfold at1; congr 1; omega
    have t3 : at1 x ((i : Int) + 1 + 1) = x.getD (i + 1) 0 := by unfold at1; congr 1; omega
    rw [t1, t2, t3]
    ring

theorem quick_unique {al : K} {x y y' : List K} (h : IsQuick al x y) (h' : IsQuick al x y') : y = y' := by
  have key : ∀ i : Nat, i < x.length → y.getD i 0 = y'.getD i 0 := by
    intro i
    induction i with
    | zero =>
      intro hi
      have a := h.2 1 (by omega) (by omega)
      have b := h'.2 1 (by omega) (by omega)
      simp only at a b
      rw [show (1 : Int) = ((0 : Nat) : Int) + 1 by rfl, padded_nat] at a b
      rw [a, b]
      simp [padded]
    | succ i ih =>
      intro hi
      have a := h.2 (((i + 1 : Nat) : Int) + 1) (by omega) (by omega)
      have b := h'.2 (((i + 1 : Nat) : Int) + 1) (by omega) (by omega)
      simp only at a b
      have e : ((i + 1 : Nat) : Int) + 1 - 1 = (i : Int) + 1 := by omega
      rw [e, padded_nat, padded_nat, padded_nat, padded_nat] at a b
      rw [a, b, ih (by omega)]
  apply List.ext_getElem
  · rw [h.1, h'.1]
  · intro i i1 i2
    have := key i (by rw [← h.1]; omega)
    rwa [List.getD_eq_getElem _ _ i1, List.getD_eq_getElem _ _ i2] at this

theorem quick_take {al : K} {x y : List K} (h : IsQuick al x y) (n : Nat) (hn : 2 ≤ n) : IsQuick al (x.take n) (y.take n) := by
  refine ⟨by rw [List.length_take, List.length_take, h.1], fun j j1 j2 => ?_⟩
  rw [List.length_take] at j2
  have g : ∀ i, i < n → (x.take n).getD i 0 = x.getD i 0 := by
    intro i hi
    rw [List.getD_eq_getElem?_getD, List.getD_eq_getElem?_getD, List.getElem?_take_of_lt hi]
  simp only
  rw [g 0 (by omega), g 1 (by omega), padded_take _ _ _ _ (by omega), padded_take _ _ _ _ (by omega), padded_take _ _ _ _ (by omega),
    padded_take _ _ _ _ (by omega)]
  exact h.2 j j1 (by omega)

theorem quick_comb {al : K} {x y x' y' : List K} (h : IsQuick al x y) (h' : IsQuick al x' y') (hl : x.length = x'.length) (m n : K) :
    IsQuick al (comb m n x x') (comb m n y y') := by
  have hy : y.length = y'.length := by rw [h.1, h'.1, hl]
  refine ⟨by rw [length_comb _ _ _ _ hy, length_comb _ _ _ _ hl, h.1], fun j j1 j2 => ?_⟩
  rw [length_comb _ _ _ _ hl] at j2
  have g : ∀ i : Nat, (comb m n x x').getD i 0 = m * x.getD i 0 + n * x'.getD i 0 := by
    intro i
    rw [← padded_nat (m * 0 + n * 0), padded_comb _ _ _ _ _ _ hl, padded_nat, padded_nat]
  simp only
  rw [g 0, g 1]
  have e : 2 * (m * x.getD 0 0 + n * x'.getD 0 0) - (m * x.getD 1 0 + n * x'.getD 1 0) =
      m * (2 * x.getD 0 0 - x.getD 1 0) + n * (2 * x'.getD 0 0 - x'.getD 1 0) := by ring
  rw [e]
  have a := h.2 j j1 j2
  have b := h'.2 j j1 (by omega)
  simp only at a b
  simp only [padded_comb _ _ _ _ _ _ hy, padded_comb _ _ _ _ _ _ hl]
  linear_combination m * a + n * b

/-! ### Settling -/

theorem decay (b c : K) (e : Nat → K) (N : Nat) (h : ∀ n < N, e (n + 2) = -b * e (n + 1) - c * e n) :
    ∀ n ≤ N, e (n + 1) ^ 2 + b * e (n + 1) * e n + c * e n ^ 2 = c ^ n * (e 1 ^ 2 + b * e 1 * e 0 + c * e 0 ^ 2) := by
  intro n
  induction n with
  | zero => intro _; ring
  | succ n ih =>
    intro hn
    have := ih (by omega)
    rw [h n (by omega), pow_succ]
    linear_combination c * this

variable [LinearOrder K] [IsStrictOrderedRing K]

theorem settle_bound {b c : K} (hc : 0 < c) (hc1 : c < 1) (hb : b ^ 2 < 4 * c) (e : Nat → K) (N : Nat)
    (h : ∀ n < N, e (n + 2) = -b * e (n + 1) - c * e n) (n : Nat) (hn : n ≤ N) :
    e (n + 1) ^ 2 ≤ 8 * c / (4 * c - b ^ 2) * c ^ n * (e 1 ^ 2 + e 0 ^ 2) := by
  have hd : 0 < 4 * c - b ^ 2 := by linarith
  have h1 := decay b c e N h n hn
  have h2 : (4 * c - b ^ 2) * e (n + 1) ^ 2 ≤ 4 * c * (e (n + 1) ^ 2 + b * e (n + 1) * e n + c * e n ^ 2) := by
    nlinarith [sq_nonneg (b * e (n + 1) + 2 * c * e n)]
  have h3 : e 1 ^ 2 + b * e 1 * e 0 + c * e 0 ^ 2 ≤ 2 * (e 1 ^ 2 + e 0 ^ 2) := by
    have : b * e 1 * e 0 ≤ e 1 ^ 2 + e 0 ^ 2 * c := by
      nlinarith [sq_nonneg (2 * e 1 - b * e 0), mul_le_mul_of_nonneg_right hb.le (sq_nonneg (e 0))]
    nlinarith [mul_le_mul_of_nonneg_right hc1.le (sq_nonneg (e 0)), sq_nonneg (e 1)]
  rw [h1] at h2
  have h4 : 0 ≤ c ^ n := (pow_pos hc n).le
  have h5 : 4 * c * (c ^ n * (e 1 ^ 2 + b * e 1 * e 0 + c * e 0 ^ 2)) ≤ 4 * c * (c ^ n * (2 * (e 1 ^ 2 + e 0 ^ 2))) :=
    mul_le_mul_of_nonneg_left (mul_le_mul_of_nonneg_left h3 h4) (by linarith)
  have h6 : 8 * c / (4 * c - b ^ 2) * c ^ n * (e 1 ^ 2 + e 0 ^ 2) = (4 * c * (c ^ n * (2 * (e 1 ^ 2 + e 0 ^ 2)))) / (4 * c - b ^ 2) := by
    field_simp
    ring
  rw [h6, le_div_iff₀ hd]
  linarith

/-- The denominators are positive. -/
theorem den_pos {w cs : K} (hw : 0 < w) (h2 : cs < 0) : 0 < 1 + w * w - 2 * w * cs := by
  have : 0 < w * -cs := mul_pos hw (by linarith)
  nlinarith [mul_pos hw hw]

theorem coef_bounds {w cs : K} (hw : 0 < w) (h1 : -1 < cs) (h2 : cs < 0) {k : Coef K} (hk : k = lowCoef w cs ∨ k = highCoef w cs) :
    0 < k.c ∧ k.c < 1 ∧ k.b ^ 2 < 4 * k.c := by
  have hd := den_pos hw h2
  have hwc : 0 < w * (1 + cs) := mul_pos hw (by linarith)
  have hwn : 0 < w * -cs := mul_pos hw (by linarith)
  have e1 : k.c = (1 + w * w + 2 * w * cs) / (1 + w * w - 2 * w * cs) := by
    rcases hk with rfl | rfl <;> simp only [lowCoef, highCoef] <;> ring
  have e2 : k.b = 2 * (w * w - 1) / (1 + w * w - 2 * w * cs) := by
    rcases hk with rfl | rfl <;> simp only [lowCoef, highCoef] <;> ring
  have hn : 0 < 1 + w * w + 2 * w * cs := by nlinarith [sq_nonneg (w - 1)]
  rw [e1, e2]
  refine ⟨div_pos hn hd, (div_lt_one hd).mpr (by linarith), ?_⟩
  rw [div_pow, div_lt_iff₀ (pow_pos hd 2)]
  have : 4 * ((1 + w * w + 2 * w * cs) / (1 + w * w - 2 * w * cs)) * (1 + w * w - 2 * w * cs) ^ 2 =
      4 * (1 + w * w + 2 * w * cs) * (1 + w * w - 2 * w * cs) := by
    field_simp
  rw [this]
  have : 0 < w * w * ((1 + cs) * (1 - cs)) := mul_pos (mul_pos hw hw) (mul_pos (by linarith) (by linarith))
  nlinarith

theorem low_gain {w cs : K} (hw : 0 < w) (h2 : cs < 0) : 1 + (lowCoef w cs).b + (lowCoef w cs).c = 4 * (lowCoef w cs).a := by
  have hx := mul_one_div_cancel (den_pos hw h2).ne'
  simp only [lowCoef]
  linear_combination -hx

theorem angle {ns i : Nat} (hi : i < ns) :
    (1 / 2 : K) < (2 * (((i + 1 : Nat) : K) + ns) - 1) / (4 * ns) ∧ (2 * (((i + 1 : Nat) : K) + ns) - 1) / (4 * (ns : K)) < 1 := by
  have h1 : (0 : K) < ns := by exact_mod_cast (by omega : 0 < ns)
  have h2 : ((i : K) + 1) ≤ ns := by exact_mod_cast hi
  have h3 : (0 : K) ≤ i := Nat.cast_nonneg i
  push_cast
  constructor
  · rw [lt_div_iff₀ (by linarith)]
    linarith
  · rw [div_lt_one (by linarith)]
    linarith

end Verif.Tsp
