import Verif.Spec.TspHysep
import Mathlib.Tactic.Linarith
/-
Lemmas for C131: sliding and fixed intervals.
-/
namespace Verif.Hysep

def pstep (p x : Rat) : Rat := if x < p then x else p

theorem pstep_le (p x : Rat) : pstep p x ≤ p ∧ pstep p x ≤ x := by
  unfold pstep; split
  · exact ⟨by linarith, le_rfl⟩
  · exact ⟨le_rfl, by linarith⟩

theorem foldl_pstep : ∀ (l : List Rat) (p : Rat), l.foldl pstep p ≤ p ∧ (∀ x ∈ l, l.foldl pstep p ≤ x) ∧
    (l.foldl pstep p = p ∨ l.foldl pstep p ∈ l)
  | [], p => ⟨le_rfl, by simp, Or.inl rfl⟩
  | x :: l, p => by
    obtain ⟨h1, h2, h3⟩ := foldl_pstep l (pstep p x)
    obtain ⟨h4, h5⟩ := pstep_le p x
    rw [List.foldl_cons]
    refine ⟨h1.trans h4, ?_, ?_⟩
    · intro y hy
      rcases List.mem_cons.1 hy with rfl | hy
      · exact h1.trans h5
      · exact h2 y hy
    · rcases h3 with h3 | h3
      · rw [h3]; unfold pstep; split
        · right; simp
        · left; rfl
      · right; exact List.mem_cons_of_mem _ h3

theorem pmin_spec (l : List Rat) : pmin l ≤ 100000 ∧ (∀ x ∈ l, pmin l ≤ x) ∧ (pmin l = 100000 ∨ pmin l ∈ l) := foldl_pstep l 100000

theorem mem_slice (d : List Rat) (a n : Nat) (y : Rat) : y ∈ (d.drop a).take n ↔ ∃ j, a ≤ j ∧ j < a + n ∧ d[j]? = some y := by
  rw [List.mem_iff_getElem?]
  constructor
  · rintro ⟨i, h⟩
    rw [List.getElem?_take] at h
    split at h
    · rw [List.getElem?_drop] at h
      exact ⟨a + i, by omega, by omega, h⟩
    · cases h
  · rintro ⟨j, h1, h2, h3⟩
    refine ⟨j - a, ?_⟩
    rw [List.getElem?_take, if_pos (by omega), List.getElem?_drop, show a + (j - a) = j by omega, h3]

/-- The least flow of the days from `a` to before `b`, if they are not over 100000. -/
theorem pmin_least (d : List Rat) (a b : Nat) (hab : a < b) (hb : b ≤ d.length) (hm : ∀ j y, a ≤ j → j < b → d[j]? = some y → y ≤ 100000) :
    LeastOf d (fun j => a ≤ j ∧ j < b) (pmin ((d.drop a).take (b - a))) := by
  obtain ⟨h1, h2, h3⟩ := pmin_spec ((d.drop a).take (b - a))
  refine ⟨fun j y hj hy => h2 y ((mem_slice d a (b - a) y).2 ⟨j, hj.1, by omega, hy⟩), ?_⟩
  rcases h3 with h3 | h3
  · have ha : d[a]? = some d[a] := List.getElem?_eq_getElem (by omega)
    have h4 := hm a _ le_rfl hab ha
    have h5 := h2 d[a] ((mem_slice d a (b - a) _).2 ⟨a, le_rfl, by omega, ha⟩)
    refine ⟨a, ⟨le_rfl, hab⟩, ?_⟩
    rw [ha]
    congr 1
    linarith
  · obtain ⟨j, h4, h5, h6⟩ := (mem_slice d a (b - a) _).1 h3
    exact ⟨j, ⟨h4, by omega⟩, h6⟩

theorem leading_eq : ∀ (d : List Rat) (s : Nat), FirstGood d s → leading d = s
  | [], s, h => by obtain ⟨_, y, h, _⟩ := h; simp at h
  | x :: d, 0, h => by
    obtain ⟨_, y, h1, h2⟩ := h
    simp only [List.getElem?_cons_zero, Option.some.injEq] at h1
    subst h1
    simp [leading, not_lt.2 h2]
  | x :: d, s + 1, h => by
    obtain ⟨h1, y, h2, h3⟩ := h
    have hx : x < 0 := h1 0 x (by omega) (by simp)
    have ih := leading_eq d s ⟨fun j y hj hy => h1 (j + 1) y (by omega) (by simpa using hy), y, by simpa using h2, h3⟩
    unfold leading at ih ⊢
    rw [List.takeWhile_cons_of_pos (by simpa using hx), List.length_cons, ih]

/-- The baseflow of day `i`, counted from 0. -/
def slideVal (d : List Rat) (h s i : Nat) (x : Rat) : Rat :=
  if x < 0 then x else pmin ((d.drop (max s (i - h))).take (min d.length (i + h + 1) - max s (i - h)))

theorem slideDay_eq (d : List Rat) (h s i : Nat) (x : Rat) (hs : FirstGood d s) (hl : s + 2 * h ≤ d.length) (hi : d[i]? = some x) :
    slideDay d (2 * h + 1) (i + 1) x = some (slideVal d h s i x) := by
  unfold slideDay slideVal
  rw [leading_eq d s hs]
  have hil : i < d.length := by
    by_contra hc
    rw [List.getElem?_eq_none (by omega)] at hi
    cases hi
  simp only [show (2 * h + 1 - 1) / 2 = h by omega]
  by_cases hx : x < 0
  · rw [if_pos hx, if_pos hx]
  · rw [if_neg hx, if_neg hx]
    have his : s ≤ i := by
      by_contra hc
      exact hx (hs.1 i x (by omega) hi)
    by_cases h1 : i + 1 - s ≤ h
    · rw [if_pos h1, window, if_pos (by omega), Option.map_some, show max s (i - h) = s by omega,
        show min d.length (i + h + 1) = i + h + 1 by omega, show s + 1 - 1 = s by omega,
        show i + 1 + h + 1 - (s + 1) = i + h + 1 - s by omega]
    · rw [if_neg h1]
      by_cases h2 : d.length - (i + 1) ≤ h
      · rw [if_pos h2, window, if_pos (by omega), Option.map_some, show max s (i - h) = i - h by omega,
          show min d.length (i + h + 1) = d.length by omega, show i + 1 - h - 1 = i - h by omega,
          show d.length + 1 - (i + 1 - h) = d.length - (i - h) by omega]
      · rw [if_neg h2, window, if_pos (by omega), Option.map_some, show max s (i - h) = i - h by omega,
          show min d.length (i + h + 1) = i + h + 1 by omega, show i + 1 - h - 1 = i - h by omega,
          show i + 1 + h + 1 - (i + 1 - h) = i + h + 1 - (i - h) by omega]

theorem mapM_some {α β : Type} (f : α → Option β) (g : α → β) : ∀ l : List α, (∀ a ∈ l, f a = some (g a)) → l.mapM f = some (l.map g)
  | [], _ => rfl
  | a :: l, h => by
    rw [List.mapM_cons, h a (List.mem_cons_self ..), mapM_some f g l fun b hb => h b (List.mem_cons_of_mem _ hb)]
    rfl

theorem slide_eq (d : List Rat) (h s : Nat) (hs : FirstGood d s) (hl : s + 2 * h ≤ d.length) :
    slide d (2 * h + 1) = some ((d.zipIdx 1).map fun p => slideVal d h s (p.2 - 1) p.1) := by
  unfold slide
  apply mapM_some
  rintro ⟨x, i⟩ hm
  have hm' := List.mem_zipIdx_iff_getElem?.1 (show (x, i - 1) ∈ d.zipIdx 0 by
    rw [List.mem_zipIdx_iff_le_and_getElem?_sub] at hm ⊢
    simpa using hm.2)
  have h1 : 1 ≤ i := (List.mem_zipIdx_iff_le_and_getElem?_sub.1 hm).1
  have e := slideDay_eq d h s (i - 1) x hs hl hm'
  rw [show i - 1 + 1 = i by omega] at e
  exact e

theorem slide_get (d : List Rat) (h s i : Nat) (x : Rat) (hi : d[i]? = some x) :
    ((d.zipIdx 1).map fun p => slideVal d h s (p.2 - 1) p.1)[i]? = some (slideVal d h s i x) := by
  rw [List.getElem?_map, List.getElem?_zipIdx, hi]
  simp [Nat.add_comm]

/-! ### Fixed intervals -/

theorem fill_length (d g : List Rat) (a b : Nat) : (fill d g a b).length = g.length := by simp [fill, setRange]

theorem fill_in (d g : List Rat) (a b i : Nat) (h : i < g.length) (h1 : a ≤ i) (h2 : i < b) :
    (fill d g a b)[i]? = some (pmin ((d.drop a).take (b - a))) := by
  unfold fill setRange
  rw [List.getElem?_mapIdx, List.getElem?_eq_getElem h]
  simp [h1, h2]

theorem fill_out (d g : List Rat) (a b i : Nat) (h : i < a ∨ b ≤ i) : (fill d g a b)[i]? = g[i]? := by
  unfold fill setRange
  rw [List.getElem?_mapIdx]
  have h' : ¬ (a ≤ i ∧ i < b) := by omega
  cases g[i]? <;> simp [h']

/-- The full intervals. -/
def blocks (d : List Rat) (c k : Nat) : List Rat := (List.range k).foldl (fun g i => fill d g (i * c) (i * c + c)) (init d)

theorem blocks_succ (d : List Rat) (c k : Nat) : blocks d c (k + 1) = fill d (blocks d c k) (k * c) (k * c + c) := by
  unfold blocks; rw [List.range_succ, List.foldl_append]; rfl

theorem blocks_length (d : List Rat) (c : Nat) : ∀ k, (blocks d c k).length = d.length
  | 0 => by simp [blocks, init]
  | k + 1 => by rw [blocks_succ, fill_length, blocks_length d c k]

theorem blocks_in (d : List Rat) (c : Nat) (hc : 0 < c) : ∀ (k i : Nat), k * c ≤ d.length → i < k * c →
    (blocks d c k)[i]? = some (pmin ((d.drop (i / c * c)).take c))
  | 0, i, _, h => by simp at h
  | k + 1, i, hk, h => by
    have e : (k + 1) * c = k * c + c := Nat.succ_mul k c
    rw [blocks_succ]
    rcases Nat.lt_or_ge i (k * c) with h1 | h1
    · rw [fill_out d _ _ _ _ (Or.inl h1), blocks_in d c hc k i (by omega) h1]
    · rw [fill_in d _ _ _ _ (by rw [blocks_length]; omega) h1 (by omega)]
      have : i / c = k := by
        rw [Nat.div_eq_iff hc]
        rw [Nat.mul_comm] at h1
        constructor
        · rw [Nat.mul_comm]; exact h1
        · omega
      rw [this]
      simp

theorem blocks_out (d : List Rat) (c : Nat) : ∀ (k i : Nat), k * c ≤ i → (blocks d c k)[i]? = (init d)[i]?
  | 0, i, _ => rfl
  | k + 1, i, h => by
    have e : (k + 1) * c = k * c + c := Nat.succ_mul k c
    rw [blocks_succ, fill_out d _ _ _ _ (Or.inr (by omega)), blocks_out d c k i (by omega)]

theorem fixed_eq (d : List Rat) (c : Nat) (h0 : d.head?.elim true (fun x => decide (x < 0)) = false) (h1 : 11 ≤ d.length)
    (hk : fxdays d / c ≠ 0) :
    fixed d c = some (if fxdays d / c * c < fxdays d then fill d (blocks d c (fxdays d / c)) (fxdays d / c * c) (fxdays d)
      else blocks d c (fxdays d / c)) := by
  unfold fixed
  rw [if_neg (by rw [h0]; simp), if_neg (by omega)]
  simp only
  rw [if_neg hk]
  rfl

theorem fxdays_le (d : List Rat) : fxdays d ≤ d.length := Nat.sub_le ..

theorem fxdays_complete (d : List Rat) (h : Complete d) : fxdays d = d.length := by
  unfold fxdays
  rw [List.filter_eq_nil_iff.2]
  · rfl
  · intro x hx
    simpa using h x (List.mem_of_mem_drop hx)

theorem fixed_complete (d : List Rat) (hc : Complete d) (c : Nat) (h0 : 0 < c) (h1 : 11 ≤ d.length) (hk : c ≤ d.length) :
    ∃ g, fixed d c = some g ∧ g.length = d.length ∧ ∀ i, i < d.length → (∀ j y, j / c = i / c → d[j]? = some y → y ≤ 100000) →
      ∃ v, g[i]? = some v ∧ LeastOf d (fun j => j / c = i / c) v := by
  have hh : d.head?.elim true (fun x => decide (x < 0)) = false := by
    rcases d with _ | ⟨x, d⟩
    · simp at h1
    · simpa using hc x (List.mem_cons_self ..)
  have hk' : d.length / c ≠ 0 := by
    have := Nat.div_pos hk h0
    omega
  have hkc : d.length / c * c ≤ d.length := Nat.div_mul_le_self _ _
  refine ⟨_, fixed_eq d c hh h1 (by rwa [fxdays_complete d hc]), ?_, ?_⟩
  · split
    · rw [fill_length, blocks_length]
    · rw [blocks_length]
  · intro i hi hm
    rw [fxdays_complete d hc]
    rcases Nat.lt_or_ge i (d.length / c * c) with h2 | h2
    · have hb : i / c * c + c ≤ d.length := by
        have h3 : i / c < d.length / c := by rwa [Nat.div_lt_iff_lt_mul h0]
        calc i / c * c + c = (i / c + 1) * c := (Nat.succ_mul _ _).symm
          _ ≤ d.length / c * c := Nat.mul_le_mul_right _ h3
          _ ≤ _ := hkc
      have hiff : ∀ j, j / c = i / c ↔ i / c * c ≤ j ∧ j < i / c * c + c := by
        intro j
        rw [Nat.div_eq_iff h0]
        omega
      refine ⟨pmin ((d.drop (i / c * c)).take c), ?_, ?_⟩
      · split
        · rw [fill_out d _ _ _ _ (Or.inl h2), blocks_in d c h0 _ i hkc h2]
        · rw [blocks_in d c h0 _ i hkc h2]
      · have := pmin_least d (i / c * c) (i / c * c + c) (by omega) hb fun j y a b e => hm j y ((hiff j).2 ⟨a, b⟩) e
        rw [Nat.add_sub_cancel_left] at this
        simpa only [hiff] using this
    · rw [if_pos (by omega)]
      have hic : i / c = d.length / c := by
        have h4 := Nat.div_le_div_right (c := c) hi.le
        have h5 : d.length / c ≤ i / c := by rwa [Nat.le_div_iff_mul_le h0]
        omega
      refine ⟨_, fill_in d _ _ _ _ (by rw [blocks_length]; exact hi) h2 hi, ?_⟩
      have hiff : ∀ j, j < d.length → (j / c = i / c ↔ d.length / c * c ≤ j) := by
        intro j hj
        rw [hic]
        constructor
        · intro e; rw [← e]; exact Nat.div_mul_le_self _ _
        · intro e
          have h4 := Nat.div_le_div_right (c := c) hj.le
          have h5 : d.length / c ≤ j / c := by rwa [Nat.le_div_iff_mul_le h0]
          omega
      obtain ⟨p1, j, p2, p3⟩ := pmin_least d (d.length / c * c) d.length (by omega) le_rfl fun j y a b e => hm j y ((hiff j b).2 a) e
      refine ⟨fun j y e hy => ?_, j, (hiff j p2.2).2 p2.1, p3⟩
      have hj : j < d.length := by
        by_contra hc
        rw [List.getElem?_eq_none (by omega)] at hy
        cases hy
      exact p1 j y ⟨(hiff j hj).1 e, hj⟩ hy

end Verif.Hysep
