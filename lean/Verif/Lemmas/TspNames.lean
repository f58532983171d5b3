import Verif.Spec.TspNames
/-
Helper lemmas for C136.
-/
namespace Verif.Tsp

variable {α : Type}

/-- Names as they are stored. -/
def Low (n : Name) : Prop := ∀ c ∈ n, c ≤ 122 ∧ ¬ (65 ≤ c ∧ c ≤ 90)

theorem low_lower {w : List Nat} (h : Plain w) : Low (w.map lower) := by
  intro c hc
  obtain ⟨x, hx, rfl⟩ := List.mem_map.1 hc
  have := h x hx
  unfold lower
  split <;> omega

theorem sameName_iff {a b : Name} (ha : Low a) (hb : Low b) : sameName a b = true ↔ a = b := by
  have head : ∀ {n : Name}, Low n → n.headD 0 ≤ 122 := by
    intro n hn
    cases n with
    | nil => simp
    | cons c n => exact (hn c (List.mem_cons_self ..)).1
  unfold sameName upperName
  rw [decide_eq_true_eq, if_pos (head ha), if_pos (head hb)]
  constructor
  · intro h
    apply List.ext_getElem?
    intro i
    have hi := congrArg (fun l => l[i]?) h
    simp only [List.getElem?_map] at hi
    cases hx : a[i]? with
    | none => rw [hx] at hi; cases hy : b[i]? with
      | none => rfl
      | some y => rw [hy] at hi; simp at hi
    | some x => rw [hx] at hi; cases hy : b[i]? with
      | none => rw [hy] at hi; simp at hi
      | some y =>
        rw [hy] at hi
        simp only [Option.map_some, Option.some.injEq] at hi
        have h1 := ha x (List.mem_of_getElem? hx)
        have h2 := hb y (List.mem_of_getElem? hy)
        congr 1
        split at hi <;> split at hi <;> omega
  · rintro rfl; rfl

theorem readName_iff {w : List Nat} {n : Name} : readName w = some n ↔ Fit w ∧ n = w.map lower := by
  unfold readName Fit
  by_cases h1 : 18 < w.length
  · rw [if_pos h1]; simp; omega
  · rw [if_neg h1]
    by_cases h2 : 32 ∈ w
    · rw [if_pos h2]; simp [h2]
    · rw [if_neg h2]; simp [h2, eq_comm]; omega

theorem readName_none {w : List Nat} : readName w = none ↔ ¬ Fit w := by
  unfold readName Fit
  split
  · simp; omega
  · split
    · simp [*]
    · simp [*]

/-- An element of the arrays. -/
def At (st : Store α) (k : Kind) (i : Nat) (x : Entry α) : Prop := (st k)[i]? = some (some x)

/-- What holds for all stores that are reached. -/
structure Inv (st : Store α) : Prop where
  low : ∀ k i x, At st k i x → Low x.name
  uniq : ∀ k i i' x x', At st k i x → At st k i' x' → x.name = x'.name → i = i'
  cross : ∀ k k' i i' x x', At st k i x → At st k' i' x' → x.name = x'.name →
    k = k' ∨ (k = .series ∧ k' = .c) ∨ (k = .c ∧ k' = .series)

theorem find_iff {st : Store α} (hi : Inv st) {k : Kind} {n : Name} (hn : Low n) {i : Nat} :
    find n (st k) = some i ↔ ∃ x, At st k i x ∧ x.name = n := by
  unfold find
  have hold : ∀ j x, (st k)[j]? = some (some x) → (holds n (some x) = true ↔ x.name = n) := fun j x h =>
    sameName_iff (hi.low k j x h) hn
  constructor
  · intro h
    rw [List.findIdx?_eq_some_iff_getElem] at h
    obtain ⟨h1, h2, _⟩ := h
    have hg := List.getElem?_eq_getElem h1
    cases hx : (st k)[i] with
    | none => rw [hx] at h2; simp [holds] at h2
    | some x =>
      rw [hx] at h2 hg
      exact ⟨x, hg, (hold i x hg).1 h2⟩
  · rintro ⟨x, hx, rfl⟩
    obtain ⟨h1, h2⟩ := List.getElem?_eq_some_iff.1 hx
    rw [List.findIdx?_eq_some_iff_getElem]
    refine ⟨h1, by rw [h2]; exact (hold i x hx).2 rfl, fun j hj => ?_⟩
    intro hc
    have hg := List.getElem?_eq_getElem (show j < (st k).length by omega)
    cases hy : (st k)[j]'(by omega) with
    | none => rw [hy] at hc; simp [holds] at hc
    | some y =>
      rw [hy] at hc hg
      have := hi.uniq k j i y x hg hx ((hold j y hg).1 hc)
      omega

theorem find_none {st : Store α} (hi : Inv st) {k : Kind} {n : Name} (hn : Low n) :
    find n (st k) = none ↔ ∀ i x, At st k i x → x.name ≠ n := by
  constructor
  · intro h i x hx he
    rw [(find_iff hi hn).2 ⟨x, hx, he⟩] at h
    cases h
  · intro h
    cases hf : find n (st k) with
    | none => rfl
    | some i =>
      obtain ⟨x, hx, he⟩ := (find_iff hi hn).1 hf
      exact absurd he (h i x hx)

theorem lookup_iff {st : Store α} (hi : Inv st) {k : Kind} {w : List Nat} (hw : Plain w) {x : Entry α} :
    lookup st k w = some x ↔ Fit w ∧ x.name = w.map lower ∧ ∃ i, At st k i x := by
  unfold lookup
  cases hr : readName w with
  | none =>
    have := readName_none.1 hr
    simp [this]
  | some n =>
    obtain ⟨hf, rfl⟩ := readName_iff.1 hr
    have hl := low_lower hw
    rw [Option.bind_some]
    constructor
    · intro h
      cases hfi : find (w.map lower) (st k) with
      | none => rw [hfi] at h; simp at h
      | some i =>
        rw [hfi, Option.bind_some] at h
        obtain ⟨y, hy, hn⟩ := (find_iff hi hl).1 hfi
        have : (st k).getD i none = some y := by rw [List.getD_eq_getElem?_getD, hy]; rfl
        rw [this, Option.some.injEq] at h
        subst h
        exact ⟨hf, hn, i, hy⟩
    · rintro ⟨_, hn, i, hx⟩
      rw [(find_iff hi hl).2 ⟨x, hx, hn⟩, Option.bind_some, List.getD_eq_getElem?_getD, hx]
      rfl

theorem lookup_none {st : Store α} (hi : Inv st) {k : Kind} {w : List Nat} (hw : Plain w) (hf : Fit w) :
    lookup st k w = none ↔ find (w.map lower) (st k) = none := by
  rw [find_none hi (low_lower hw)]
  constructor
  · intro h i x hx he
    have := (lookup_iff hi hw).2 ⟨hf, he, i, hx⟩
    rw [h] at this; cases this
  · intro h
    cases hl : lookup st k w with
    | none => rfl
    | some x =>
      obtain ⟨_, he, i, hx⟩ := (lookup_iff hi hw).1 hl
      exact absurd he (h i x hx)

theorem at_put {st : Store α} {k : Kind} {i : Nat} (h : i < (st k).length) (y : Option (Entry α)) (j : Kind) (i' : Nat) (x : Entry α) :
    At (put st k i y) j i' x ↔ if j = k ∧ i' = i then y = some x else At st j i' x := by
  unfold At put
  by_cases hj : j = k
  · subst hj
    simp only [if_true, true_and, List.getElem?_set]
    by_cases hi : i' = i
    · subst hi; simp [h]
    · rw [if_neg hi, if_neg (Ne.symm hi)]
  · simp [hj]

theorem inv_start (cap : Kind → Nat) : Inv (start cap : Store α) := by
  have : ∀ k i (x : Entry α), ¬ At (start cap : Store α) k i x := by
    intro k i x h
    unfold At start at h
    rw [List.getElem?_replicate] at h
    split at h <;> simp at h
  exact ⟨fun k i x h => (this _ _ _ h).elim, fun k i i' x x' h => (this _ _ _ h).elim, fun k k' i i' x x' h => (this _ _ _ h).elim⟩

/-- The kinds whose names do not clash with the name of a new entity. -/
theorem checked_iff (k j : Kind) : j ∈ checked k ↔ ¬ (k = .series ∧ j = .c) := by
  cases k <;> cases j <;> simp [checked]

theorem create_iff {st st' : Store α} (hi : Inv st) {k : Kind} {w : List Nat} (hw : Plain w) {d : α} {b : Bool} :
    create st k w d b = some st' ↔ Fit w ∧ (∀ j ∈ checked k, find (w.map lower) (st j) = none) ∧
      ∃ i, (st k).findIdx? Option.isNone = some i ∧ st' = put st k i (some ⟨w.map lower, d, b⟩) := by
  unfold create newName
  cases hr : readName w with
  | none =>
    have := readName_none.1 hr
    simp [this]
  | some n =>
    obtain ⟨hf, rfl⟩ := readName_iff.1 hr
    simp only [Option.bind_some]
    by_cases h : ((checked k).any fun j => (find (w.map lower) (st j)).isSome) = true
    · rw [if_pos h]
      rw [List.any_eq_true] at h
      obtain ⟨j, hj, h⟩ := h
      simp only [Option.bind_none, reduceCtorEq, false_iff, not_and]
      rintro _ h'
      rw [h' j hj] at h
      cases h
    · rw [if_neg h, Option.bind_some]
      have h' : ∀ j ∈ checked k, find (w.map lower) (st j) = none := by
        intro j hj
        by_contra hc
        refine h (List.any_eq_true.2 ⟨j, hj, ?_⟩)
        rwa [Option.isSome_iff_ne_none]
      rw [Option.map_eq_some_iff]
      constructor
      · rintro ⟨i, h1, h2⟩
        exact ⟨hf, h', i, h1, h2.symm⟩
      · rintro ⟨_, _, i, h1, h2⟩
        exact ⟨i, h1, h2.symm⟩

theorem free_lt {l : List (Option (Entry α))} {i : Nat} (h : l.findIdx? Option.isNone = some i) : i < l.length ∧ l[i]? = some none := by
  rw [List.findIdx?_eq_some_iff_getElem] at h
  obtain ⟨h1, h2, _⟩ := h
  refine ⟨h1, ?_⟩
  rw [List.getElem?_eq_getElem h1, Option.isNone_iff_eq_none.1 h2]

theorem inv_create {st st' : Store α} (hi : Inv st) {k : Kind} {w : List Nat} (hw : Plain w) {d : α} {b : Bool}
    (h : create st k w d b = some st') : Inv st' := by
  obtain ⟨hf, hc, i, hfree, rfl⟩ := (create_iff hi hw).1 h
  obtain ⟨hlt, hn⟩ := free_lt hfree
  have hl := low_lower hw
  have old : ∀ j i' x, At st j i' x → j ∈ checked k → x.name ≠ w.map lower := fun j i' x hx hj => (find_none hi hl).1 (hc j hj) i' x hx
  have at' := at_put hlt (some ⟨w.map lower, d, b⟩)
  have hkk : k ∈ checked k := (checked_iff k k).2 (by rintro ⟨rfl, h⟩; cases h)
  refine ⟨?_, ?_, ?_⟩
  · intro j i' x hx
    rw [at'] at hx
    split at hx
    · cases hx; exact hl
    · exact hi.low j i' x hx
  · intro j i1 i2 x y hx hy he
    rw [at'] at hx hy
    split at hx <;> split at hy
    · omega
    · rename_i h1 h2
      cases hx
      obtain ⟨rfl, _⟩ := h1
      exact absurd he.symm (old _ _ _ hy hkk)
    · rename_i h1 h2
      cases hy
      obtain ⟨rfl, _⟩ := h2
      exact absurd he (old _ _ _ hx hkk)
    · exact hi.uniq j i1 i2 x y hx hy he
  · intro j j' i1 i2 x y hx hy he
    rw [at'] at hx hy
    split at hx <;> split at hy
    · rename_i h1 h2
      exact Or.inl (by rw [h1.1, h2.1])
    · rename_i h1 h2
      cases hx
      by_cases hj : j' ∈ checked k
      · exact absurd he.symm (old _ _ _ hy hj)
      · rw [checked_iff, not_not] at hj
        exact Or.inr (Or.inl ⟨by rw [h1.1, hj.1], hj.2⟩)
    · rename_i h1 h2
      cases hy
      by_cases hj : j ∈ checked k
      · exact absurd he (old _ _ _ hx hj)
      · rw [checked_iff, not_not] at hj
        exact Or.inr (Or.inr ⟨hj.2, by rw [h2.1, hj.1]⟩)
    · exact hi.cross j j' i1 i2 x y hx hy he

/-- Nothing new comes in. -/
def Sub (st' st : Store α) : Prop := ∀ k i x, At st' k i x → At st k i x

theorem inv_sub {st st' : Store α} (hi : Inv st) (h : Sub st' st) : Inv st' :=
  ⟨fun k i x hx => hi.low k i x (h _ _ _ hx), fun k i i' x x' hx hx' => hi.uniq k i i' x x' (h _ _ _ hx) (h _ _ _ hx'),
    fun k k' i i' x x' hx hx' => hi.cross k k' i i' x x' (h _ _ _ hx) (h _ _ _ hx')⟩

/-- One element is cleared. -/
theorem clear_at {st st' : Store α} {p : Kind × Nat} (h : clear st p = some st') (k : Kind) (i : Nat) (x : Entry α) :
    At st' k i x ↔ (k, i) ≠ p ∧ At st k i x := by
  obtain ⟨k', i'⟩ := p
  unfold clear at h
  simp only at h
  cases hg : (st k').getD i' none with
  | none =>
    rw [hg] at h
    simp only at h
    split at h
    · cases h
      constructor
      · intro hx
        refine ⟨?_, hx⟩
        rintro he
        cases he
        rw [List.getD_eq_getElem?_getD] at hg
        unfold At at hx
        rw [hx] at hg
        cases hg
      · exact And.right
    · cases h
  | some y =>
    rw [hg] at h
    simp only at h
    split at h
    · cases h
    · cases h
      have hlt : i' < (st k').length := by
        by_contra hc
        rw [List.getD_eq_getElem?_getD, List.getElem?_eq_none (by omega)] at hg
        cases hg
      rw [at_put hlt]
      by_cases he : k = k' ∧ i = i'
      · rw [if_pos he]; simp [he]
      · rw [if_neg he]
        have : (k, i) ≠ (k', i') := by rintro h; cases h; exact he ⟨rfl, rfl⟩
        simp [this]

theorem clearAll_at (l : List (Kind × Nat)) : ∀ {st st' : Store α}, l.foldlM clear st = some st' → ∀ k i x,
    (At st' k i x ↔ (k, i) ∉ l ∧ At st k i x) := by
  induction l with
  | nil => intro st st' h k i x; simp at h; subst h; simp
  | cons p l ih =>
    intro st st' h k i x
    rw [List.foldlM_cons] at h
    cases hc : clear st p with
    | none => rw [hc] at h; cases h
    | some s1 =>
      rw [hc] at h
      have h' : l.foldlM clear s1 = some st' := h
      rw [ih h', clear_at hc, List.mem_cons, not_or, and_left_comm, and_assoc]

theorem mem_inOrder {l : List (Kind × Nat)} (h : ∀ p ∈ l, p.1 ≠ .g) (p : Kind × Nat) : p ∈ inOrder l ↔ p ∈ l := by
  unfold inOrder
  rw [List.mem_flatMap]
  constructor
  · rintro ⟨k, _, hp⟩
    exact (List.mem_filter.1 hp).1
  · intro hp
    refine ⟨p.1, ?_, List.mem_filter.2 ⟨hp, by simp⟩⟩
    have := h p hp
    cases hk : p.1 <;> simp_all

theorem inv_erase {st st' : Store α} (hi : Inv st) {l : List (Kind × List Nat)} (h : erase st l = some st') : Inv st' := by
  unfold erase at h
  split at h
  · cases h
  · rw [Option.bind_eq_some_iff] at h
    obtain ⟨ps, _, h⟩ := h
    exact inv_sub hi fun k i x hx => ((clearAll_at _ h k i x).1 hx).2

theorem inv_reach {st : Store α} (h : Reach st) : Inv st := by
  induction h with
  | start cap => exact inv_start cap
  | create _ hw h ih => exact inv_create ih hw h
  | erase _ _ h ih => exact inv_erase ih h

end Verif.Tsp
