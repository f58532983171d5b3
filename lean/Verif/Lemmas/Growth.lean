import Verif.Spec.Growth
/-
Helper lemmas for C145.
-/
namespace Verif.Growth

theorem entry_realloc {α : Type} (t : Table α) (n i : Nat) (h : i < n) (hm : i < t.mem.length) : entry (resize t n) i = entry t i := by
  unfold entry resize reallocCells
  simp only
  rw [List.getElem?_append_left (by simp; omega), List.getElem?_take, if_pos h]

theorem length_realloc {α : Type} (m : List (Option α)) (n : Nat) : (reallocCells m n).length = n := by
  unfold reallocCells
  simp
  omega

theorem append_holds {α : Type} {t : Table α} {xs : List α} (h : Holds t xs) (hr : t.count < t.size) (x : α) :
    ∃ t', append t x = some t' ∧ Holds t' (xs ++ [x]) ∧ t'.size = t.size := by
  obtain ⟨h1, h2, h3, h4⟩ := h
  refine ⟨{ t with mem := t.mem.set t.count (some x), count := t.count + 1 }, ?_, ⟨by simp [h1], by simp [h2], by simp only; omega, ?_⟩, rfl⟩
  · unfold append store
    rw [if_pos (by omega)]
    rfl
  · intro i hi
    unfold entry
    simp only
    rw [List.length_append, List.length_singleton] at hi
    by_cases hx : i = xs.length
    · subst hx
      rw [List.getElem?_set, if_pos (by omega), if_pos (by omega)]
      simp
    · rw [List.getElem?_set_ne (by omega), List.getElem_append_left (by omega)]
      exact h4 i (by omega)

theorem resize_holds {α : Type} {t : Table α} {xs : List α} (h : Holds t xs) (n : Nat) (hn : t.size ≤ n) : Holds (resize t n) xs := by
  obtain ⟨h1, h2, h3, h4⟩ := h
  refine ⟨h1, length_realloc _ _, Nat.le_trans h3 hn, ?_⟩
  intro i hi
  rw [entry_realloc t n i (by omega) (by omega)]
  exact h4 i hi

theorem addAll_holds {α : Type} {add : Table α → α → Option (Table α)}
    (hadd : ∀ t xs x, Holds t xs → ∃ t', add t x = some t' ∧ Holds t' (xs ++ [x])) (ys : List α) (t : Table α) (xs : List α) (h : Holds t xs) :
    ∃ t', addAll add t ys = some t' ∧ Holds t' (xs ++ ys) := by
  induction ys generalizing t xs with
  | nil => exact ⟨t, rfl, by simpa using h⟩
  | cons y ys ih =>
    obtain ⟨t', e1, e2⟩ := hadd t xs y h
    obtain ⟨t'', e3, e4⟩ := ih t' _ e2
    refine ⟨t'', ?_, by simpa using e4⟩
    rw [addAll, e1]
    exact e3

theorem copyText_eq (k : Nat) (s : List Nat) (h : 0 ∉ s) (m : List (Option Nat)) (hm : s.length < k → ∃ m', m = some 0 :: m') :
    copyText k (s.map some ++ m) = some (s.take k) := by
  induction s generalizing k with
  | nil =>
    cases k with
    | zero => rfl
    | succ k =>
      obtain ⟨m', rfl⟩ := hm (by simp)
      simp [copyText]
  | cons c s ih =>
    cases k with
    | zero => rfl
    | succ k =>
      rw [List.map_cons, List.cons_append, copyText, if_neg (by intro hc; exact h (by simp [hc])),
        ih k (by intro h0; exact h (by simp [h0])) (fun hk => hm (by simpa using hk))]
      rfl

theorem name20_length (s : List Nat) : (name20 s).length = 20 := by
  unfold name20
  simp
  omega

theorem drop_names (ns : List (List Nat)) (i : Nat) (hi : i < ns.length) (tl : List (Option Nat)) :
    (ns.flatMap (fun s => name20 (baseName s)) ++ tl).drop (20 * i) =
      name20 (baseName ns[i]) ++ ((ns.drop (i + 1)).flatMap (fun s => name20 (baseName s)) ++ tl) := by
  induction ns generalizing i with
  | nil => exact absurd hi (by simp)
  | cons s ns ih =>
    cases i with
    | zero => simp
    | succ i =>
      have := ih i (by simpa using hi)
      rw [List.flatMap_cons, List.append_assoc, show 20 * (i + 1) = (name20 (baseName s)).length + 20 * i by rw [name20_length]; omega,
        ← List.drop_drop, List.drop_left, this]
      simp

theorem someConnections_eq (con : List Int) (n j : Nat) :
    someConnections con n j = if j + n ≤ con.length ∨ n = 0 then some ((con.drop j).take n) else none := by
  induction n generalizing j with
  | zero => simp [someConnections]
  | succ n ih =>
    rw [someConnections]
    by_cases hj : j < con.length
    · rw [List.getElem?_eq_getElem hj]
      simp only
      rw [ih, List.drop_eq_getElem_cons hj, List.take_succ_cons]
      by_cases h : j + (n + 1) ≤ con.length
      · rw [if_pos (Or.inl (by omega)), if_pos (Or.inl h)]
        rfl
      · rw [if_neg (by omega), if_neg (by omega)]
        rfl
    · rw [List.getElem?_eq_none (by omega)]
      simp only
      rw [if_neg (by omega)]

theorem connections_eq (con : List Int) (num : List Nat) (j : Nat) :
    connections con num j = if j + num.sum ≤ con.length ∨ num.sum = 0 then some ((con.drop j).take num.sum) else none := by
  induction num generalizing j with
  | nil => simp [connections]
  | cons n num ih =>
    rw [connections, someConnections_eq, List.sum_cons, ih]
    by_cases h : j + (n + num.sum) ≤ con.length ∨ n + num.sum = 0
    · rw [if_pos (by omega), if_pos h]
      simp only
      rw [if_pos (by omega), Option.map_some, List.take_add, List.drop_drop]
    · rw [if_neg h]
      by_cases h1 : j + n ≤ con.length ∨ n = 0
      · rw [if_pos h1]
        simp only
        rw [if_neg (by omega)]
        rfl
      · rw [if_neg h1]

end Verif.Growth
