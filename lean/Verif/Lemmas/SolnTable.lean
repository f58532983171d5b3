import Verif.Lemmas.SolnNum
/-
Lemmas for the contents of the chemistry table and for mixing fractions.
-/
namespace Verif.SolnNum

theorem flat_length {α β : Type} (l : List α) (f : α → List β) (m : Nat) (h : ∀ a ∈ l, (f a).length = m) :
    (l.flatMap f).length = l.length * m := by
  induction l with
  | nil => simp
  | cons a l ih =>
    rw [List.flatMap_cons, List.length_append, ih (fun b hb => h b (List.mem_cons_of_mem _ hb)),
      h a List.mem_cons_self, List.length_cons, Nat.add_mul]
    omega

theorem flat_at {α β : Type} (l : List α) (f : α → List β) (m : Nat) (h : ∀ a ∈ l, (f a).length = m)
    (i j : Nat) (a : α) (hi : l[i]? = some a) (hj : j < m) : (l.flatMap f)[i * m + j]? = (f a)[j]? := by
  induction l generalizing i with
  | nil => simp at hi
  | cons b l ih =>
    have hb := h b List.mem_cons_self
    cases i with
    | zero =>
      simp at hi; subst hi
      rw [List.flatMap_cons, List.getElem?_append_left (by omega)]; simp
    | succ i =>
      simp at hi
      rw [List.flatMap_cons, List.getElem?_append_right (by rw [hb, Nat.add_mul]; omega)]
      have : (i + 1) * m + j - (f b).length = i * m + j := by rw [hb, Nat.add_mul]; omega
      rw [this]
      exact ih (fun c hc => h c (List.mem_cons_of_mem _ hc)) i hi

theorem range'_at (n k : Nat) (h1 : 1 ≤ k) (h2 : k ≤ n) : (List.range' 1 n)[k - 1]? = some k := by
  rw [List.getElem?_range' (by omega)]
  congr 1; omega

theorem mem_range'_1 (n k : Nat) : k ∈ List.range' 1 n ↔ 1 ≤ k ∧ k ≤ n := by
  rw [List.mem_range'_1]; omega

theorem mruNums_length (fl : Rat → Rat) (d : Dims) (t : Int) (js : List Int) :
    (mruNums fl d t js).length = js.length * d.nmru := by
  unfold mruNums
  exact flat_length js _ d.nmru (fun a _ => by simp)

theorem mruNums_at (fl : Rat → Rat) (d : Dims) (t : Time) (js : List Int) (i j k : Nat)
    (hi : js[i]? = some (j : Int)) (h1 : 1 ≤ k) (h2 : k ≤ d.nmru) :
    (mruNums fl d t.toInt js)[i * d.nmru + (k - 1)]? = some (number fl t (.hill j k)) := by
  unfold mruNums
  rw [flat_at js _ d.nmru (fun a _ => by simp) i (k - 1) _ hi (by omega), List.getElem?_map,
    range'_at _ _ h1 h2]
  rfl

theorem uzNums_length (fl : Rat → Rat) (d : Dims) (u : d.Uniform) (t : Int) :
    (uzNums fl d t).length = d.nmru * d.nac := by
  unfold uzNums
  rw [flat_length _ _ d.nac]
  · simp
  · intro k hk
    rw [mem_range'_1] at hk
    simp [u k hk.1 hk.2]

theorem uzNums_at (fl : Rat → Rat) (d : Dims) (u : d.Uniform) (t : Time) (k l : Nat)
    (h1 : 1 ≤ k) (h2 : k ≤ d.nmru) (h3 : 1 ≤ l) (h4 : l ≤ d.nac) :
    (uzNums fl d t.toInt)[(k - 1) * d.nac + (l - 1)]? = some (number fl t (.bin k l)) := by
  unfold uzNums
  rw [flat_at _ _ d.nac (fun k' hk' => by rw [mem_range'_1] at hk'; simp [u k' hk'.1 hk'.2]) (k - 1) (l - 1) k
    (range'_at _ _ h1 h2) (by omega), List.getElem?_map, range'_at _ _ h3 (by rw [u k h1 h2]; exact h4)]
  rfl

theorem hydNums_length (fl : Rat → Rat) (d : Dims) (t : Int) : (hydNums fl d t).length = d.segs + 1 := by
  simp [hydNums]

/-- Position of a reservoir within a block (from 0). -/
def offset (d : Dims) : Reservoir → Nat
  | .hill j k => if j ≤ 4 then (j - 1) * d.nmru + (k - 1)
      else 4 * d.nmru + d.nmru * d.nac + ((j - 7) * d.nmru + (k - 1))
  | .bin k l => 4 * d.nmru + ((k - 1) * d.nac + (l - 1))
  | .segment h => 4 * d.nmru + d.nmru * d.nac + 8 * d.nmru + h
  | _ => 0

theorem block_length (fl : Rat → Rat) (d : Dims) (u : d.Uniform) (t : Int) :
    (block fl d t).length = 12 * d.nmru + d.nmru * d.nac + d.segs + 1 := by
  unfold block
  simp only [List.length_append, mruNums_length, uzNums_length fl d u, hydNums_length, List.length_cons,
    List.length_nil]
  omega

theorem block_at (fl : Rat → Rat) (d : Dims) (u : d.Uniform) (t : Time) (r : Reservoir) (w : r.Within d)
    (ht : r.Timed) : (block fl d t.toInt)[offset d r]? = some (number fl t r) := by
  have l1 : (mruNums fl d t.toInt [1, 2, 3, 4]).length = 4 * d.nmru := mruNums_length _ _ _ _
  have l2 := uzNums_length fl d u t.toInt
  have l3 : (mruNums fl d t.toInt [7, 8, 9, 10, 11, 12, 13, 14]).length = 8 * d.nmru := mruNums_length _ _ _ _
  unfold block
  cases r with
  | pure => exact ht.elim
  | data i => exact ht.elim
  | hill j k =>
    obtain ⟨⟨w1, w2, w3, w4⟩, w5, w6⟩ := w
    by_cases hj : j ≤ 4
    · have hlt : (j - 1) * d.nmru + (k - 1) < 4 * d.nmru := by
        have : (j - 1) * d.nmru ≤ 3 * d.nmru := Nat.mul_le_mul_right _ (by omega)
        omega
      simp only [offset, if_pos hj]
      rw [List.getElem?_append_left (by simp only [List.length_append]; omega),
        List.getElem?_append_left (by simp only [List.length_append]; omega),
        List.getElem?_append_left (by omega)]
      refine mruNums_at fl d t _ (j - 1) j k ?_ w5 w6
      have : j = 1 ∨ j = 2 ∨ j = 3 ∨ j = 4 := by omega
      rcases this with e | e | e | e <;> subst e <;> rfl
    · have hlt : (j - 7) * d.nmru + (k - 1) < 8 * d.nmru := by
        have : (j - 7) * d.nmru ≤ 7 * d.nmru := Nat.mul_le_mul_right _ (by omega)
        omega
      simp only [offset, if_neg hj]
      rw [List.getElem?_append_left (by simp only [List.length_append]; omega),
        List.getElem?_append_right (by simp only [List.length_append]; omega)]
      simp only [List.length_append, l1, l2]
      rw [Nat.add_sub_cancel_left]
      refine mruNums_at fl d t _ (j - 7) j k ?_ w5 w6
      have : j = 7 ∨ j = 8 ∨ j = 9 ∨ j = 10 ∨ j = 11 ∨ j = 12 ∨ j = 13 ∨ j = 14 := by omega
      rcases this with e | e | e | e | e | e | e | e <;> subst e <;> rfl
  | bin k l =>
    obtain ⟨⟨w1, w2⟩, w3, w4⟩ := w
    have hlt : (k - 1) * d.nac + (l - 1) < d.nmru * d.nac := by
      have : (k - 1 + 1) * d.nac ≤ d.nmru * d.nac := Nat.mul_le_mul_right _ (by omega)
      rw [Nat.add_mul] at this
      omega
    simp only [offset]
    rw [List.getElem?_append_left (by simp only [List.length_append]; omega),
      List.getElem?_append_left (by simp only [List.length_append]; omega),
      List.getElem?_append_right (by omega), l1, Nat.add_sub_cancel_left]
    exact uzNums_at fl d u t k l w1 w2 w3 w4
  | segment s =>
    have w' : s ≤ d.segs := w
    simp only [offset]
    rw [List.getElem?_append_right (by simp only [List.length_append]; omega)]
    simp only [List.length_append, l1, l2, l3]
    rw [Nat.add_sub_cancel_left, hydNums, List.getElem?_map, List.getElem?_range (by omega)]
    rfl

theorem offset_lt (d : Dims) (r : Reservoir) (w : r.Within d) (ht : r.Timed) :
    offset d r < 12 * d.nmru + d.nmru * d.nac + d.segs + 1 := by
  cases r with
  | pure => exact ht.elim
  | data i => exact ht.elim
  | hill j k =>
    obtain ⟨⟨w1, w2, w3, w4⟩, w5, w6⟩ := w
    by_cases hj : j ≤ 4
    · have : (j - 1) * d.nmru ≤ 3 * d.nmru := Nat.mul_le_mul_right _ (by omega)
      simp only [offset, if_pos hj]; omega
    · have : (j - 7) * d.nmru ≤ 7 * d.nmru := Nat.mul_le_mul_right _ (by omega)
      simp only [offset, if_neg hj]; omega
  | bin k l =>
    obtain ⟨⟨w1, w2⟩, w3, w4⟩ := w
    have : (k - 1 + 1) * d.nac ≤ d.nmru * d.nac := Nat.mul_le_mul_right _ (by omega)
    rw [Nat.add_mul] at this
    simp only [offset]; omega
  | segment s => have w' : s ≤ d.segs := w; simp only [offset]; omega

theorem place_offset (d : Dims) (r : Reservoir) (w : r.Within d) (ht : r.Timed) :
    place d r = ((1 + d.nchemdat + offset d r + 1 : Nat) : Int) := by
  cases r with
  | pure => exact ht.elim
  | data i => exact ht.elim
  | hill j k =>
    obtain ⟨⟨w1, w2, w3, w4⟩, w5, w6⟩ := w
    by_cases hj : j ≤ 4
    · obtain ⟨j, rfl⟩ : ∃ j', j = j' + 1 := ⟨j - 1, by omega⟩
      obtain ⟨k, rfl⟩ : ∃ k', k = k' + 1 := ⟨k - 1, by omega⟩
      simp only [offset, place, if_pos hj, Nat.add_sub_cancel]
      push_cast
      ring
    · obtain ⟨j, rfl⟩ : ∃ j', j = j' + 7 := ⟨j - 7, by omega⟩
      obtain ⟨k, rfl⟩ : ∃ k', k = k' + 1 := ⟨k - 1, by omega⟩
      simp only [offset, place, if_neg hj, Nat.add_sub_cancel]
      push_cast
      ring
  | bin k l =>
    obtain ⟨⟨w1, w2⟩, w3, w4⟩ := w
    obtain ⟨k, rfl⟩ : ∃ k', k = k' + 1 := ⟨k - 1, by omega⟩
    obtain ⟨l, rfl⟩ : ∃ l', l = l' + 1 := ⟨l - 1, by omega⟩
    simp only [offset, place, Nat.add_sub_cancel]
    push_cast
    ring
  | segment s =>
    simp only [offset, place]
    push_cast
    ring

theorem table_block (fl : Rat → Rat) (d : Dims) (u : d.Uniform) (t : Time) (r : Reservoir) (w : r.Within d)
    (ht : r.Timed) :
    (table fl d)[1 + d.nchemdat + offset d r
        + (if t = .final then 12 * d.nmru + d.nmru * d.nac + d.segs + 1 else 0)]? = some (number fl t r) := by
  have hl := offset_lt d r w ht
  have hb := block_at fl d u t r w ht
  have b0 := block_length fl d u 0
  unfold table
  cases t with
  | begin =>
    simp only [Time.toInt] at hb
    rw [if_neg (by simp), Nat.add_zero, List.getElem?_append_left (by
      simp only [List.length_append, List.length_cons, List.length_map, List.length_range', b0]; omega),
      List.getElem?_append_right (by simp only [List.length_cons, List.length_map, List.length_range']; omega)]
    simp only [List.length_cons, List.length_map, List.length_range']
    rw [show 1 + d.nchemdat + offset d r - (d.nchemdat + 1) = offset d r from by omega]
    exact hb
  | final =>
    simp only [Time.toInt] at hb
    rw [if_pos rfl, List.getElem?_append_right (by
      simp only [List.length_append, List.length_cons, List.length_map, List.length_range', b0]; omega)]
    simp only [List.length_append, List.length_cons, List.length_map, List.length_range', b0]
    rw [show 1 + d.nchemdat + offset d r + (12 * d.nmru + d.nmru * d.nac + d.segs + 1) -
      (d.nchemdat + 1 + (12 * d.nmru + d.nmru * d.nac + d.segs + 1)) = offset d r from by omega]
    exact hb

theorem table_place (fl : Rat → Rat) (d : Dims) (u : d.Uniform) (r : Reservoir) (w : r.Within d) :
    (table fl d)[(place d r).toNat - 1]? = some (number fl .begin r) := by
  cases r with
  | pure => simp [table, place, number, solnnum]
  | data i =>
    obtain ⟨w1, w2⟩ := w
    have : (place d (.data i)).toNat - 1 = (i - 1) + 1 := by simp only [place]; omega
    rw [this]
    unfold table
    rw [List.getElem?_append_left (by
        simp only [List.length_append, List.length_cons, List.length_map, List.length_range']; omega),
      List.getElem?_append_left (by simp only [List.length_cons, List.length_map, List.length_range']; omega),
      List.getElem?_cons_succ, List.getElem?_map, range'_at _ _ w1 w2]
    rfl
  | hill j k =>
    have := table_block fl d u .begin _ w trivial
    rw [if_neg (by simp), Nat.add_zero] at this
    rw [place_offset d _ w trivial, Int.toNat_natCast, Nat.add_sub_cancel]
    exact this
  | bin k l =>
    have := table_block fl d u .begin _ w trivial
    rw [if_neg (by simp), Nat.add_zero] at this
    rw [place_offset d _ w trivial, Int.toNat_natCast, Nat.add_sub_cancel]
    exact this
  | segment s =>
    have := table_block fl d u .begin _ w trivial
    rw [if_neg (by simp), Nat.add_zero] at this
    rw [place_offset d _ w trivial, Int.toNat_natCast, Nat.add_sub_cancel]
    exact this

/-! ### The table fits -/

theorem sum_le {α : Type} (l : List α) (f : α → Nat) (m : Nat) (h : ∀ a ∈ l, f a ≤ m) :
    (l.map f).sum ≤ l.length * m := by
  induction l with
  | nil => simp
  | cons a l ih =>
    have := ih (fun b hb => h b (List.mem_cons_of_mem _ hb))
    have := h a List.mem_cons_self
    simp only [List.map_cons, List.sum_cons, List.length_cons, Nat.add_mul]
    omega

theorem table_fits (fl : Rat → Rat) (d : Dims) (h : ∀ k, 1 ≤ k → k ≤ d.nmru → d.nacsc k ≤ d.nac) :
    (table fl d).length ≤ nsoln d := by
  have hu : ∀ t, (uzNums fl d t).length ≤ d.nmru * d.nac := by
    intro t
    unfold uzNums
    rw [List.length_flatMap]
    have := sum_le (List.range' 1 d.nmru)
      (fun k => ((List.range' 1 (d.nacsc k)).map fun (l : Nat) => solnnum fl t 5 0 k l 0).length) d.nac
      (fun k hk => by rw [mem_range'_1] at hk; simpa using h k hk.1 hk.2)
    rwa [List.length_range'] at this
  have h0 := hu 0
  have h1 := hu 1
  unfold table block nsoln
  simp only [List.length_append, List.length_cons, List.length_map, List.length_range', mruNums_length,
    hydNums_length, List.length_nil]
  rw [Nat.mul_add, show 2 * d.nmru * d.nac = 2 * (d.nmru * d.nac) from by ring]
  omega

/-! ### No number twice -/

/-- The reservoirs of the table in order. -/
def blockKeys (d : Dims) : List Reservoir :=
  ([1, 2, 3, 4].flatMap fun j => (List.range' 1 d.nmru).map fun k => .hill j k) ++
  ((List.range' 1 d.nmru).flatMap fun k => (List.range' 1 (d.nacsc k)).map fun l => .bin k l) ++
  ([7, 8, 9, 10, 11, 12, 13, 14].flatMap fun j => (List.range' 1 d.nmru).map fun k => .hill j k) ++
  (List.range (d.segs + 1)).map .segment

def keys (d : Dims) : List (Time × Reservoir) :=
  (Time.begin, .pure) :: ((List.range' 1 d.nchemdat).map fun i => (.begin, .data i)) ++
    (blockKeys d).map (fun r => (Time.begin, r)) ++ (blockKeys d).map (fun r => (Time.final, r))

theorem block_keys (fl : Rat → Rat) (d : Dims) (t : Time) :
    block fl d t.toInt = (blockKeys d).map (number fl t) := by
  unfold block blockKeys mruNums uzNums hydNums
  simp only [List.map_append, List.map_flatMap, List.map_map]
  rfl

theorem table_keys (fl : Rat → Rat) (d : Dims) :
    table fl d = (keys d).map fun x => number fl x.1 x.2 := by
  have b0 := block_keys fl d .begin
  have b1 := block_keys fl d .final
  simp only [Time.toInt] at b0 b1
  unfold table keys
  rw [b0, b1]
  simp only [List.map_append, List.map_map, List.map_cons, number_pure]
  rfl

theorem nodup_flat {α β : Type} (l : List α) (f : α → List β) (hl : l.Nodup) (hf : ∀ a ∈ l, (f a).Nodup)
    (hd : ∀ a ∈ l, ∀ b ∈ l, ∀ x, x ∈ f a → x ∈ f b → a = b) : (l.flatMap f).Nodup := by
  induction l with
  | nil => simp
  | cons a l ih =>
    rw [List.nodup_cons] at hl
    rw [List.flatMap_cons, List.nodup_append]
    refine ⟨hf a List.mem_cons_self, ih hl.2 (fun b hb => hf b (List.mem_cons_of_mem _ hb))
      (fun b hb c hc => hd b (List.mem_cons_of_mem _ hb) c (List.mem_cons_of_mem _ hc)), ?_⟩
    intro x hx y hy hxy
    subst hxy
    obtain ⟨b, hb, hxb⟩ := List.mem_flatMap.mp hy
    have := hd a List.mem_cons_self b (List.mem_cons_of_mem _ hb) x hx hxb
    subst this
    exact hl.1 hb

theorem nodup_map_inj {α β : Type} (f : α → β) (l : List α) (hl : l.Nodup)
    (hf : ∀ a ∈ l, ∀ b ∈ l, f a = f b → a = b) : (l.map f).Nodup := by
  induction l with
  | nil => simp
  | cons a l ih =>
    rw [List.nodup_cons] at hl
    rw [List.map_cons, List.nodup_cons]
    refine ⟨?_, ih hl.2 (fun b hb c hc => hf b (List.mem_cons_of_mem _ hb) c (List.mem_cons_of_mem _ hc))⟩
    intro hm
    obtain ⟨b, hb, e⟩ := List.mem_map.mp hm
    have := hf b (List.mem_cons_of_mem _ hb) a List.mem_cons_self e
    subst this
    exact hl.1 hb

theorem range'_nodup (n : Nat) : (List.range' 1 n).Nodup := List.nodup_range'

theorem hill_nodup (d : Dims) (js : List Nat) (hj : js.Nodup) :
    (js.flatMap fun j => (List.range' 1 d.nmru).map fun k => Reservoir.hill j k).Nodup := by
  refine nodup_flat _ _ hj ?_ ?_
  · intro j _
    exact nodup_map_inj _ _ (range'_nodup _) (fun a _ b _ e => by injection e)
  · intro a _ b _ x hx hx'
    simp only [List.mem_map] at hx hx'
    obtain ⟨k, _, rfl⟩ := hx
    obtain ⟨k', _, e⟩ := hx'
    injection e with e1 e2
    exact e1.symm

theorem mem_blockKeys (d : Dims) (r : Reservoir) :
    r ∈ blockKeys d ↔
      match r with
      | .pure => False
      | .data _ => False
      | .hill j k => (1 ≤ j ∧ j ≤ 14 ∧ j ≠ 5 ∧ j ≠ 6) ∧ 1 ≤ k ∧ k ≤ d.nmru
      | .bin k l => (1 ≤ k ∧ k ≤ d.nmru) ∧ 1 ≤ l ∧ l ≤ d.nacsc k
      | .segment h => h ≤ d.segs := by
  unfold blockKeys
  simp only [List.mem_append, List.mem_flatMap, List.mem_map, mem_range'_1, List.mem_range]
  cases r with
  | pure => simp
  | data i => simp
  | hill j k =>
    simp only [reduceCtorEq, and_false, exists_false, or_false, Reservoir.hill.injEq]
    constructor
    · rintro (⟨a, ha, b, hb, e1, e2⟩ | ⟨a, ha, b, hb, e1, e2⟩)
      · subst e1 e2
        simp only [List.mem_cons, List.not_mem_nil, or_false] at ha
        omega
      · subst e1 e2
        simp only [List.mem_cons, List.not_mem_nil, or_false] at ha
        omega
    · rintro ⟨h1, h2⟩
      by_cases hj : j ≤ 4
      · exact Or.inl ⟨j, by simp only [List.mem_cons, List.not_mem_nil, or_false]; omega, k, h2, rfl, rfl⟩
      · exact Or.inr ⟨j, by simp only [List.mem_cons, List.not_mem_nil, or_false]; omega, k, h2, rfl, rfl⟩
  | bin k l =>
    simp only [reduceCtorEq, and_false, exists_false, or_false, false_or, Reservoir.bin.injEq]
    constructor
    · rintro ⟨a, ha, b, hb, e1, e2⟩
      subst e1 e2
      exact ⟨ha, hb⟩
    · rintro ⟨h1, h2⟩
      exact ⟨k, h1, l, h2, rfl, rfl⟩
  | segment s =>
    simp only [reduceCtorEq, and_false, exists_false, false_or, Reservoir.segment.injEq]
    constructor
    · rintro ⟨a, ha, e⟩; omega
    · intro h; exact ⟨s, by omega, rfl⟩

theorem blockKeys_nodup (d : Dims) : (blockKeys d).Nodup := by
  unfold blockKeys
  rw [List.nodup_append]
  refine ⟨?_, nodup_map_inj _ _ List.nodup_range (fun a _ b _ e => by injection e), ?_⟩
  · rw [List.nodup_append]
    refine ⟨?_, hill_nodup d _ (by decide), ?_⟩
    · rw [List.nodup_append]
      refine ⟨hill_nodup d _ (by decide), ?_, ?_⟩
      · refine nodup_flat _ _ (range'_nodup _) ?_ ?_
        · intro j _
          exact nodup_map_inj _ _ (range'_nodup _) (fun a _ b _ e => by injection e)
        · intro a _ b _ x hx hx'
          simp only [List.mem_map] at hx hx'
          obtain ⟨k, _, rfl⟩ := hx
          obtain ⟨k', _, e⟩ := hx'
          injection e with e1 e2
          exact e1.symm
      · intro x hx y hy e
        simp only [List.mem_flatMap, List.mem_map] at hx hy
        obtain ⟨_, _, _, _, rfl⟩ := hx
        obtain ⟨_, _, _, _, rfl⟩ := hy
        cases e
    · intro x hx y hy e
      simp only [List.mem_append, List.mem_flatMap, List.mem_map] at hx hy
      obtain ⟨j, hj, _, _, rfl⟩ := hy
      rcases hx with ⟨j', hj', _, _, rfl⟩ | ⟨_, _, _, _, rfl⟩
      · injection e with e1 e2
        subst e1
        simp only [List.mem_cons, List.not_mem_nil, or_false] at hj hj'
        omega
      · cases e
  · intro x hx y hy e
    simp only [List.mem_append, List.mem_flatMap, List.mem_map] at hx hy
    obtain ⟨_, _, rfl⟩ := hy
    rcases hx with (⟨_, _, _, _, rfl⟩ | ⟨_, _, _, _, rfl⟩) | ⟨_, _, _, _, rfl⟩ <;> cases e

theorem keys_spec (d : Dims) (h : ∀ k, 1 ≤ k → k ≤ d.nmru → d.nacsc k ≤ d.nac) (x : Time × Reservoir)
    (hx : x ∈ keys d) : x.2.Within d ∧ (¬ x.2.Timed → x.1 = .begin) := by
  unfold keys at hx
  simp only [List.mem_append, List.mem_cons, List.mem_map, mem_range'_1] at hx
  have hk : ∀ r ∈ blockKeys d, r.Within d ∧ r.Timed := by
    intro r hr
    rw [mem_blockKeys] at hr
    cases r with
    | pure => exact hr.elim
    | data i => exact hr.elim
    | hill j k => exact ⟨hr, trivial⟩
    | bin k l => exact ⟨⟨hr.1, hr.2.1, Nat.le_trans hr.2.2 (h k hr.1.1 hr.1.2)⟩, trivial⟩
    | segment s => exact ⟨hr, trivial⟩
  rcases hx with ((rfl | ⟨i, hi, rfl⟩) | ⟨r, hr, rfl⟩) | ⟨r, hr, rfl⟩
  · exact ⟨trivial, fun _ => rfl⟩
  · exact ⟨hi, fun _ => rfl⟩
  · exact ⟨(hk r hr).1, fun _ => rfl⟩
  · exact ⟨(hk r hr).1, fun hn => (hn (hk r hr).2).elim⟩

theorem keys_nodup (d : Dims) : (keys d).Nodup := by
  unfold keys
  have hb := blockKeys_nodup d
  rw [List.nodup_append]
  refine ⟨?_, nodup_map_inj _ _ hb (fun a _ b _ e => by injection e), ?_⟩
  · rw [List.nodup_append]
    refine ⟨?_, nodup_map_inj _ _ hb (fun a _ b _ e => by injection e), ?_⟩
    · rw [List.nodup_cons]
      refine ⟨by simp, nodup_map_inj _ _ (range'_nodup _) (fun a _ b _ e => by injection e with _ e; injection e)⟩
    · intro x hx y hy e
      subst e
      simp only [List.mem_cons, List.mem_map] at hx hy
      obtain ⟨r, hr, rfl⟩ := hy
      rw [mem_blockKeys] at hr
      rcases hx with e | ⟨i, _, e⟩
      · injection e with _ e; subst e; exact hr
      · injection e with _ e; subst e; exact hr
  · intro x hx y hy e
    subst e
    simp only [List.mem_append, List.mem_cons, List.mem_map] at hx hy
    obtain ⟨r, hr, rfl⟩ := hy
    rcases hx with (e | ⟨i, _, e⟩) | ⟨r', _, e⟩ <;> injection e with e _ <;> cases e

theorem table_nodup {fl : Rat → Rat} (hs : Single fl) (d : Dims) (ok : d.Ok)
    (h : ∀ k, 1 ≤ k → k ≤ d.nmru → d.nacsc k ≤ d.nac) : (table fl d).Nodup := by
  rw [table_keys]
  refine nodup_map_inj _ _ (keys_nodup d) ?_
  intro a ha b hb e
  have wa := keys_spec d h a ha
  have wb := keys_spec d h b hb
  have := number_inj hs d ok a.1 b.1 a.2 b.2 wa.1 wb.1 e
  obtain ⟨ta, ra⟩ := a
  obtain ⟨tb, rb⟩ := b
  simp only at this wa wb
  obtain ⟨e1, e2⟩ := this
  subst e1
  by_cases hT : ra.Timed
  · rw [e2 hT]
  · rw [wa.2 hT, wb.2 hT]

/-! ### Chemical variables -/

/-- The rows assigned by `chemvars`: a row is either the old one or one that holds the number. -/
theorem chemvars_spec (ns : List Int) (row : Int) (lut : List (Int × Int)) (i : Nat) (x n : Int)
    (hi : lut[i]? = some (x, n)) :
    (n ∉ ns ∧ (chemvars row ns lut)[i]? = some (x, n)) ∨
    ∃ p : Nat, ns[p]? = some n ∧ (chemvars row ns lut)[i]? = some (row + p, n) := by
  induction ns generalizing row lut x with
  | nil => left; exact ⟨by simp, hi⟩
  | cons m ns ih =>
    unfold chemvars
    by_cases hm : n = m
    · subst hm
      have hi' : (chemflag row lut n).1[i]? = some (row, n) := by simp [chemflag, hi]
      rcases ih (row + 1) _ row hi' with ⟨_, h2⟩ | ⟨p, h1, h2⟩
      · exact Or.inr ⟨0, by simp, by simpa using h2⟩
      · refine Or.inr ⟨p + 1, by simpa using h1, ?_⟩
        rw [h2]; push_cast; congr 2; ring
    · have hi' : (chemflag row lut m).1[i]? = some (x, n) := by simp [chemflag, hi, hm]
      rcases ih (row + 1) _ x hi' with ⟨h1, h2⟩ | ⟨p, h1, h2⟩
      · exact Or.inl ⟨by simp [hm, h1], h2⟩
      · refine Or.inr ⟨p + 1, by simpa using h1, ?_⟩
        rw [h2]; push_cast; congr 2; ring

theorem nodup_index {α : Type} (l : List α) (h : l.Nodup) (i j : Nat) (a : α) (hi : l[i]? = some a)
    (hj : l[j]? = some a) : i = j := by
  induction l generalizing i j with
  | nil => simp at hi
  | cons b l ih =>
    rw [List.nodup_cons] at h
    cases i with
    | zero =>
      cases j with
      | zero => rfl
      | succ j =>
        simp at hi hj; subst hi
        exact (h.1 (List.mem_of_getElem? hj)).elim
    | succ i =>
      cases j with
      | zero =>
        simp at hi hj; subst hj
        exact (h.1 (List.mem_of_getElem? hi)).elim
      | succ j =>
        simp at hi hj
        rw [ih h.2 i j hi hj]

/-! ### Fractions -/

theorem quot_melt (n : Int) : quot n 1000000 = 102 ↔ 102000000 ≤ n ∧ n < 103000000 := by
  unfold quot
  constructor
  · intro h
    rcases (show n < 0 ∨ 0 ≤ n from by omega) with hn | hn
    · have : Int.tdiv n 1000000 ≤ 0 := by
        have h2 : Int.tdiv (-n) 1000000 = -(Int.tdiv n 1000000) := Int.neg_tdiv n 1000000
        have h3 : 0 ≤ Int.tdiv (-n) 1000000 := Int.tdiv_nonneg (by omega) (by omega)
        omega
      omega
    · rw [Int.tdiv_eq_ediv_of_nonneg hn] at h
      omega
  · rintro ⟨h1, h2⟩
    rw [Int.tdiv_eq_ediv_of_nonneg (by omega)]
    omega

/-- A negative fraction of a solution that may have one has been seen. -/
def Seen (mix : List (Int × Rat)) : Prop := ∃ e ∈ mix, e.2 < 0 ∧ MayBeNegative e.1

theorem fracLoop_length (rd : Rat → Rat) (mix : List (Int × Rat)) (st : Rat × Bool × Bool) :
    (fracLoop rd st mix).2.length = mix.length := by
  induction mix generalizing st with
  | nil => rfl
  | cons e es ih => simp [fracLoop, ih]

theorem fracLoop_sum (rd : Rat → Rat) (mix : List (Int × Rat)) (st : Rat × Bool × Bool) :
    (fracLoop rd st mix).1 = (fracLoop rd st mix).2.foldl (fun s x => rd (s + x)) st.1 := by
  induction mix generalizing st with
  | nil => rfl
  | cons e es ih =>
    simp only [fracLoop, List.foldl_cons]
    rw [ih]
    have : (fracStep rd st e).1.1 = rd (st.1 + (fracStep rd st e).2) := by
      unfold fracStep
      split
      · dsimp only; split <;> rfl
      · rfl
    rw [this]

theorem fracStep_flags (rd : Rat → Rat) (st : Rat × Bool × Bool) (e : Int × Rat) :
    ((fracStep rd st e).1.2.1 || (fracStep rd st e).1.2.2) = true ↔
      (st.2.1 || st.2.2) = true ∨ (e.2 < 0 ∧ MayBeNegative e.1) := by
  unfold fracStep MayBeNegative
  rw [← quot_melt e.1]
  by_cases hn : e.2 < 0
  · rw [if_pos hn]
    dsimp only
    cases st.2.1 <;> cases st.2.2 <;> by_cases h1 : e.1 = 1 <;> by_cases h2 : e.1 = 2 <;>
      by_cases h3 : quot e.1 1000000 = 102 <;> simp_all
  · rw [if_neg hn]
    simp [hn]

theorem mayBe_iff (n : Int) : MayBeNegative n ↔ n = 1 ∨ n = 2 ∨ quot n 1000000 = 102 := by
  rw [quot_melt]; rfl

theorem fracStep_value (rd : Rat → Rat) (st : Rat × Bool × Bool) (e : Int × Rat) :
    (fracStep rd st e).2 = if e.2 < 0 ∧ ¬ MayBeNegative e.1 ∧ (st.2.1 || st.2.2) = false then 0 else e.2 := by
  have hm := mayBe_iff e.1
  unfold fracStep
  by_cases hn : e.2 < 0
  · rw [if_pos hn]
    dsimp only
    cases st.2.1 <;> cases st.2.2 <;> by_cases h1 : e.1 = 1 <;> by_cases h2 : e.1 = 2 <;>
      by_cases h3 : quot e.1 1000000 = 102 <;> simp_all
  · rw [if_neg hn]
    simp [hn]

/-- What becomes of each fraction. -/
theorem fracLoop_at (rd : Rat → Rat) (mix : List (Int × Rat)) (st : Rat × Bool × Bool) (i : Nat) (n : Int)
    (x : Rat) (hi : mix[i]? = some (n, x)) :
    (x < 0 → ¬ MayBeNegative n → (st.2.1 || st.2.2) = false → ¬ Seen (mix.take i) →
      (fracLoop rd st mix).2[i]? = some 0) ∧
    (0 ≤ x ∨ MayBeNegative n ∨ (st.2.1 || st.2.2) = true ∨ Seen (mix.take i) →
      (fracLoop rd st mix).2[i]? = some x) := by
  induction mix generalizing st i with
  | nil => simp at hi
  | cons e es ih =>
    cases i with
    | zero =>
      simp at hi; subst hi
      simp only [fracLoop, List.getElem?_cons_zero, fracStep_value]
      refine ⟨fun h1 h2 h3 _ => by rw [if_pos ⟨h1, h2, h3⟩], fun h => ?_⟩
      rw [if_neg]
      rintro ⟨h1, h2, h3⟩
      rcases h with h | h | h | h
      · linarith
      · exact h2 h
      · rw [h3] at h; cases h
      · obtain ⟨e, he, _⟩ := h; simp at he
    | succ i =>
      simp at hi
      have key := ih (fracStep rd st e).1 i hi
      have hf := fracStep_flags rd st e
      have hs : Seen ((e :: es).take (i + 1)) ↔ (e.2 < 0 ∧ MayBeNegative e.1) ∨ Seen (es.take i) := by
        rw [List.take_succ_cons]
        unfold Seen
        simp
      simp only [fracLoop, List.getElem?_cons_succ]
      refine ⟨fun h1 h2 h3 h4 => ?_, fun h => ?_⟩
      · rw [hs] at h4
        refine key.1 h1 h2 ?_ (fun h => h4 (Or.inr h))
        cases hb : ((fracStep rd st e).1.2.1 || (fracStep rd st e).1.2.2) with
        | false => rfl
        | true =>
          rcases hf.mp hb with h | h
          · rw [h3] at h; cases h
          · exact (h4 (Or.inl h)).elim
      · refine key.2 ?_
        rcases h with h | h | h | h
        · exact Or.inl h
        · exact Or.inr (Or.inl h)
        · exact Or.inr (Or.inr (Or.inl (hf.mpr (Or.inl h))))
        · rcases hs.mp h with h | h
          · exact Or.inr (Or.inr (Or.inl (hf.mpr (Or.inr h))))
          · exact Or.inr (Or.inr (Or.inr h))

end Verif.SolnNum
