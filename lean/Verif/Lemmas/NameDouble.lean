import Verif.Spec.NameDouble
import Mathlib.Tactic.Ring
import Mathlib.Tactic.Linarith
import Mathlib.Tactic.SplitIfs
import Mathlib.Tactic.FieldSimp
import Mathlib.Algebra.Order.Field.Rat
import Mathlib.Algebra.BigOperators.Group.List.Basic
/-
Lemmas about name/value maps.
-/
namespace Verif.Nd

/-! ### Order -/

theorem ltText_irrefl (a : Text) : ltText a a = false := by
  induction a with
  | nil => rfl
  | cons c s ih => simp [ltText, ih]

theorem ltText_trans {a b c : Text} (h1 : ltText a b = true) (h2 : ltText b c = true) : ltText a c = true := by
  induction a generalizing b c with
  | nil =>
    cases c with
    | nil => simp [ltText] at h2
    | cons => rfl
  | cons x s ih =>
    cases b with
    | nil => simp [ltText] at h1
    | cons y t =>
      cases c with
      | nil => simp [ltText] at h2
      | cons z u =>
        unfold ltText at h1 h2 ⊢
        split at h1
        · rename_i hxy
          split at h2
          · rename_i hyz
            rw [if_pos (by omega)]
          · split at h2
            · rename_i hyz; subst hyz; rw [if_pos hxy]
            · cases h2
        · split at h1
          · rename_i hxy; subst hxy
            split at h2
            · rename_i hyz; rw [if_pos hyz]
            · split at h2
              · rename_i hyz hne; subst hne
                rw [if_neg (by omega), if_pos rfl]; exact ih h1 h2
              · cases h2
          · cases h1

theorem char_eq {a b : Char} (h : a.toNat = b.toNat) : a = b := by
  rw [← Char.ofNat_toNat a, h, Char.ofNat_toNat b]

theorem ltText_total (a b : Text) : ltText a b = true ∨ a = b ∨ ltText b a = true := by
  induction a generalizing b with
  | nil =>
    cases b with
    | nil => simp
    | cons => simp [ltText]
  | cons x s ih =>
    cases b with
    | nil => simp [ltText]
    | cons y t =>
      by_cases h1 : x.toNat < y.toNat
      · left; simp [ltText, h1]
      · by_cases h2 : y.toNat < x.toNat
        · right; right; simp [ltText, h2]
        · have hxy : x = y := char_eq (by omega)
          subst hxy
          rcases ih t with h | h | h
          · left; simp [ltText, h]
          · right; left; rw [h]
          · right; right; simp [ltText, h]

theorem ltText_ne {a b : Text} (h : ltText a b = true) : a ≠ b := by
  rintro rfl; rw [ltText_irrefl] at h; cases h

theorem ltText_asymm {a b : Text} (h : ltText a b = true) : ltText b a = false := by
  cases hb : ltText b a with
  | false => rfl
  | true => have := ltText_trans h hb; rw [ltText_irrefl] at this; cases this

/-! ### Maps -/

theorem find_set {V} (m : ND V) (k : Text) (v : V) (k' : Text) :
    find (set m k v) k' = if k = k' then some v else find m k' := by
  induction m with
  | nil => simp [set, find]
  | cons p r ih =>
    obtain ⟨n, w⟩ := p
    simp only [set]
    by_cases h1 : n = k
    · rw [if_pos h1]
      subst h1
      by_cases h3 : n = k'
      · simp [find, h3]
      · simp [find, h3]
    · rw [if_neg h1]
      by_cases h2 : ltText k n = true
      · rw [if_pos h2, find]
      · rw [if_neg h2, find, ih, find]
        by_cases h3 : n = k'
        · have : ¬ k = k' := by rintro rfl; exact h1 h3
          simp [h3, this]
        · simp [h3]

theorem mem_set {V} {m : ND V} {k : Text} {v : V} {p : Text × V} (h : p ∈ set m k v) : p = (k, v) ∨ p ∈ m := by
  induction m with
  | nil => simp only [set, List.mem_singleton] at h; exact .inl h
  | cons q r ih =>
    obtain ⟨n, w⟩ := q
    simp only [set] at h
    split_ifs at h with h1 h2
    · rcases List.mem_cons.1 h with h | h
      · exact .inl h
      · exact .inr (List.mem_cons_of_mem _ h)
    · rcases List.mem_cons.1 h with h | h
      · exact .inl h
      · exact .inr h
    · rcases List.mem_cons.1 h with h | h
      · exact .inr (by simp [h])
      · rcases ih h with h | h
        · exact .inl h
        · exact .inr (List.mem_cons_of_mem _ h)

theorem sorted_set {V} {m : ND V} (h : Sorted m) (k : Text) (v : V) : Sorted (set m k v) := by
  induction m with
  | nil => simp [set, Sorted]
  | cons q r ih =>
    obtain ⟨n, w⟩ := q
    have hq := List.pairwise_cons.1 h
    simp only [set]
    split_ifs with h1 h2
    · subst h1; exact List.pairwise_cons.2 hq
    · refine List.pairwise_cons.2 ⟨?_, h⟩
      intro p hp
      rcases List.mem_cons.1 hp with hp | hp
      · rw [hp]; exact h2
      · exact ltText_trans h2 (hq.1 p hp)
    · refine List.pairwise_cons.2 ⟨?_, ih hq.2⟩
      intro p hp
      rcases mem_set hp with hp | hp
      · rw [hp]
        rcases ltText_total n k with h | h | h
        · exact h
        · exact absurd h h1
        · exact absurd h h2
      · exact hq.1 p hp

theorem find_none_of_lt {V} {m : ND V} {k : Text} (h : ∀ p ∈ m, p.1 ≠ k) : find m k = none := by
  induction m with
  | nil => rfl
  | cons q r ih =>
    obtain ⟨n, w⟩ := q
    rw [find, if_neg (h (n, w) (by simp)), ih fun p hp => h p (List.mem_cons_of_mem _ hp)]

theorem find_tail {V} {n : Text} {v : V} {r : ND V} (h : Sorted ((n, v) :: r)) : find r n = none :=
  find_none_of_lt fun p hp he => by
    have := (List.pairwise_cons.1 h).1 p hp
    rw [he] at this
    simp only [ltText_irrefl] at this
    cases this

theorem mem_of_find {V} {m : ND V} {k : Text} {v : V} (h : find m k = some v) : (k, v) ∈ m := by
  induction m with
  | nil => cases h
  | cons q r ih =>
    obtain ⟨n, w⟩ := q
    rw [find] at h
    split_ifs at h with hk
    · injection h with h; subst h; subst hk; simp
    · exact List.mem_cons_of_mem _ (ih h)

theorem find_of_mem {V} {m : ND V} (hs : Sorted m) {k : Text} {v : V} (h : (k, v) ∈ m) : find m k = some v := by
  induction m with
  | nil => cases h
  | cons q r ih =>
    obtain ⟨n, w⟩ := q
    rcases List.mem_cons.1 h with h | h
    · injection h with h1 h2; subst h1; subst h2; simp [find]
    · have := (List.pairwise_cons.1 hs).1 _ h
      rw [find, if_neg (ltText_ne this), ih (List.pairwise_cons.1 hs).2 h]

/-- Two sorted maps with the same content are equal. -/
theorem sorted_ext {V} {a b : ND V} (ha : Sorted a) (hb : Sorted b) (h : ∀ k, find a k = find b k) : a = b := by
  induction a generalizing b with
  | nil =>
    cases b with
    | nil => rfl
    | cons q r =>
      obtain ⟨n, w⟩ := q
      have := h n
      simp [find] at this
  | cons p a ih =>
    obtain ⟨m, v⟩ := p
    cases b with
    | nil =>
      have := h m
      simp [find] at this
    | cons q b =>
      obtain ⟨n, w⟩ := q
      have hmn : m = n := by
        rcases ltText_total m n with hlt | he | hlt
        · have hm := h m
          have : find ((n, w) :: b) m = none := find_none_of_lt fun p hp he => by
            rcases List.mem_cons.1 hp with hp | hp
            · rw [hp] at he; exact ltText_ne hlt he.symm
            · have := ltText_trans hlt ((List.pairwise_cons.1 hb).1 p hp)
              exact ltText_ne this he.symm
          rw [this] at hm; simp [find] at hm
        · exact he
        · have hn := h n
          have : find ((m, v) :: a) n = none := find_none_of_lt fun p hp he => by
            rcases List.mem_cons.1 hp with hp | hp
            · rw [hp] at he; exact ltText_ne hlt he.symm
            · have := ltText_trans hlt ((List.pairwise_cons.1 ha).1 p hp)
              exact ltText_ne this he.symm
          rw [this] at hn; simp [find] at hn
      subst hmn
      have hv : v = w := by have := h m; simpa [find] using this
      subst hv
      congr 1
      refine ih (List.pairwise_cons.1 ha).2 (List.pairwise_cons.1 hb).2 fun k => ?_
      by_cases hk : m = k
      · subst hk; rw [find_tail ha, find_tail hb]
      · have := h k; simpa [find, hk] using this

/-! ### Arithmetic -/

theorem val_cons (n : Text) (v : Rat) (r : ND Rat) (k : Text) : val ((n, v) :: r) k = if n = k then v else val r k := by
  unfold val; rw [find]; split_ifs <;> rfl

theorem val_addOne (f : Rat) (m : ND Rat) (e : Text × Rat) (k : Text) :
    val (addOne f m e) k = val m k + (if e.1 = k then e.2 * f else 0) := by
  unfold addOne val
  cases h : find m e.1 with
  | none =>
    simp only [find_set]
    split_ifs with hk
    · subst hk; rw [h]; simp
    · simp
  | some c =>
    simp only [find_set]
    split_ifs with hk
    · subst hk; rw [h]; simp
    · simp

theorem sorted_addOne {m : ND Rat} (h : Sorted m) (f : Rat) (e : Text × Rat) : Sorted (addOne f m e) := by
  unfold addOne
  cases find m e.1 <;> exact sorted_set h _ _

theorem val_fold_addOne (f : Rat) (addee : ND Rat) (hs : Sorted addee) (m : ND Rat) (k : Text) :
    val (addee.foldl (addOne f) m) k = val m k + f * val addee k := by
  induction addee generalizing m with
  | nil => simp [val, find]
  | cons e r ih =>
    obtain ⟨n, v⟩ := e
    rw [List.foldl_cons, ih (List.pairwise_cons.1 hs).2, val_addOne, val_cons]
    split_ifs with hk
    · subst hk
      have : val r n = 0 := by unfold val; rw [find_tail hs]; rfl
      rw [this]; ring
    · ring

theorem sorted_fold_addOne (f : Rat) (addee : ND Rat) {m : ND Rat} (h : Sorted m) : Sorted (addee.foldl (addOne f) m) := by
  induction addee generalizing m with
  | nil => exact h
  | cons e r ih => exact ih (sorted_addOne h f e)

theorem find_addOne (f : Rat) (m : ND Rat) (e : Text × Rat) (k : Text) :
    (find (addOne f m e) k).isSome = ((find m k).isSome || decide (e.1 = k)) := by
  unfold addOne
  cases h : find m e.1 <;> simp only [find_set] <;> split_ifs with hk <;> simp [hk]

theorem find_fold_addOne (f : Rat) (addee : ND Rat) (m : ND Rat) (k : Text) :
    (find (addee.foldl (addOne f) m) k).isSome = ((find m k).isSome || (find addee k).isSome) := by
  induction addee generalizing m with
  | nil => simp [find]
  | cons e r ih =>
    obtain ⟨n, v⟩ := e
    rw [List.foldl_cons, ih, find_addOne, find]
    split_ifs with hk <;> simp [hk]

theorem find_multiply (m : ND Rat) (x : Rat) (k : Text) : find (multiply m x) k = (find m k).map (· * x) := by
  induction m with
  | nil => rfl
  | cons p r ih =>
    obtain ⟨n, v⟩ := p
    have : multiply ((n, v) :: r) x = (n, v * x) :: multiply r x := rfl
    rw [this, find, find]
    split_ifs
    · rfl
    · exact ih

/-! ### Redox states -/

theorem takeWhile_no_paren {n : Text} (h : '(' ∉ n) : n.takeWhile (· != '(') = n := by
  induction n with
  | nil => rfl
  | cons c s ih =>
    have hc : c ≠ '(' := fun h' => h (by simp [h'])
    rw [List.takeWhile_cons, if_pos (by simpa using hc), ih fun h' => h (List.mem_cons_of_mem _ h')]

theorem ename_eq {n : Text} (h : PlainName n) : ename n = elementOf n := by
  unfold ename elementOf
  split_ifs with hl
  · rw [takeWhile_no_paren (h.2 hl)]
  · rfl

theorem elementOf_cons (c : Char) (s : Text) : elementOf (c :: s) = if c = '(' then [] else c :: elementOf s := by
  unfold elementOf
  rw [List.takeWhile_cons]
  by_cases h : c = '(' <;> simp [h]

theorem elementOf_mono {a b : Text} (hb : ∀ c ∈ b, 40 ≤ c.toNat) (ha : ∀ c ∈ a, 40 ≤ c.toNat) (h : ltText a b = true) :
    ltText (elementOf b) (elementOf a) = false := by
  induction a generalizing b with
  | nil =>
    show ltText _ [] = false
    cases elementOf b <;> rfl
  | cons x s ih =>
    cases b with
    | nil => simp [ltText] at h
    | cons y t =>
      rw [elementOf_cons, elementOf_cons]
      by_cases hx : x = '('
      · rw [if_pos hx]
        simp [ltText]
      · rw [if_neg hx]
        unfold ltText at h
        split_ifs at h with h1 h2
        · have hy : y ≠ '(' := by
            rintro rfl
            have := ha x (by simp)
            have h40 : '('.toNat = 40 := rfl
            omega
          rw [if_neg hy]
          unfold ltText
          rw [if_neg (by omega), if_neg (by rintro rfl; omega)]
        · subst h2
          rw [if_neg hx]
          unfold ltText
          rw [if_neg (by omega), if_pos rfl]
          exact ih (fun c hc => hb c (List.mem_cons_of_mem _ hc)) (fun c hc => ha c (List.mem_cons_of_mem _ hc)) h

/-- Sum of the amounts whose element name (as the walk computes it) is `e`. -/
def esum (m : ND Rat) (e : Text) : Rat := ((m.filter fun p => decide (ename p.1 = e)).map (·.2)).sum

theorem esum_cons (o : Text) (v : Rat) (m : ND Rat) (e : Text) :
    esum ((o, v) :: m) e = (if ename o = e then v else 0) + esum m e := by
  unfold esum
  rw [List.filter_cons]
  by_cases h : ename o = e <;> simp [h]

theorem esum_zero {m : ND Rat} {e : Text} (h : ∀ p ∈ m, ename p.1 ≠ e) : esum m e = 0 := by
  unfold esum
  have : (m.filter fun p => decide (ename p.1 = e)) = [] := by
    rw [List.filter_eq_nil_iff]
    intro p hp; simpa using h p hp
  rw [this]; rfl

theorem lt_of_lt_of_le {a b c : Text} (h1 : ltText a b = true) (h2 : ltText c b = false) : ltText a c = true := by
  rcases ltText_total b c with h | h | h
  · exact ltText_trans h1 h
  · rw [← h]; exact h1
  · rw [h] at h2; cases h2

theorem walk_spec (old new : ND Rat) (hm : old.Pairwise fun a b => ltText (ename b.1) (ename a.1) = false)
    (hs : Sorted new) (e : Text) : find (walk old new) e = (find new e).map (· + esum old e) := by
  induction old, new using walk.induct with
  | case1 new =>
    rw [walk]
    cases find new e with
    | none => rfl
    | some v => simp [esum]
  | case2 => rw [walk]; rfl
  | case3 o v old n s new h ih =>
    rw [walk, if_pos h, find, find]
    split_ifs with hk
    · subst hk
      have hz : esum ((o, v) :: old) n = 0 := esum_zero fun p hp he => by
        rcases List.mem_cons.1 hp with hp | hp
        · subst hp; rw [he] at h; rw [ltText_irrefl] at h; cases h
        · have h1 := (List.pairwise_cons.1 hm).1 p hp
          have := lt_of_lt_of_le h h1
          rw [he, ltText_irrefl] at this; cases this
      simp [hz]
    · exact ih hm (List.pairwise_cons.1 hs).2
  | case4 v old s new o h1 ih =>
    rw [walk, if_neg h1, if_pos rfl]
    rw [ih (List.pairwise_cons.1 hm).2 (by
      refine List.pairwise_cons.2 ⟨fun p hp => (List.pairwise_cons.1 hs).1 p hp, (List.pairwise_cons.1 hs).2⟩)]
    rw [esum_cons, find, find]
    split_ifs with hk
    · simp [add_assoc]
    · simp
  | case5 o v old n s new h1 h2 ih =>
    rw [walk, if_neg h1, if_neg h2]
    rw [ih (List.pairwise_cons.1 hm).2 hs, esum_cons]
    by_cases hk : ename o = e
    · have hlt : ltText (ename o) n = true := by
        rcases ltText_total n (ename o) with h | h | h
        · exact absurd h h1
        · exact absurd h h2
        · exact h
      have : find ((n, s) :: new) e = none := find_none_of_lt fun p hp he => by
        rcases List.mem_cons.1 hp with hp | hp
        · subst hp; simp only at he; rw [hk, ← he, ltText_irrefl] at hlt; cases hlt
        · have := ltText_trans hlt ((List.pairwise_cons.1 hs).1 p hp)
          rw [he, hk, ltText_irrefl] at this; cases this
      rw [this]; rfl
    · simp [hk]

theorem skipped_iff (e : Text) : skipped e = true ↔ special e := by
  unfold skipped special
  simp [or_assoc]

theorem simpleKeys_aux (nd acc : ND Rat) (hs : Sorted acc) (h0 : ∀ k v, find acc k = some v → v = 0) :
    let r := nd.foldl (fun acc p => if skipped (ename p.1) then acc else set acc (ename p.1) 0) acc
    Sorted r ∧ (∀ k v, find r k = some v → v = 0) ∧
    ∀ k, (find r k).isSome = true ↔ ((find acc k).isSome = true ∨ (skipped k = false ∧ ∃ p ∈ nd, ename p.1 = k)) := by
  induction nd generalizing acc with
  | nil => simp [hs]; exact h0
  | cons p nd ih =>
    simp only [List.foldl_cons]
    by_cases hsk : skipped (ename p.1) = true
    · rw [if_pos hsk]
      obtain ⟨h1, h2, h3⟩ := ih acc hs h0
      refine ⟨h1, h2, fun k => ?_⟩
      rw [h3]
      constructor
      · rintro (h | ⟨h, q, hq, he⟩)
        · exact .inl h
        · exact .inr ⟨h, q, List.mem_cons_of_mem _ hq, he⟩
      · rintro (h | ⟨h, q, hq, he⟩)
        · exact .inl h
        · rcases List.mem_cons.1 hq with hq | hq
          · subst hq; rw [he, h] at hsk; cases hsk
          · exact .inr ⟨h, q, hq, he⟩
    · rw [if_neg hsk]
      obtain ⟨h1, h2, h3⟩ := ih (set acc (ename p.1) 0) (sorted_set hs _ _) (by
        intro k v hv
        rw [find_set] at hv
        split_ifs at hv with hk
        · injection hv with hv; exact hv.symm
        · exact h0 k v hv)
      refine ⟨h1, h2, fun k => ?_⟩
      rw [h3, find_set]
      constructor
      · rintro (h | ⟨h, q, hq, he⟩)
        · split_ifs at h with hk
          · refine .inr ⟨?_, p, by simp, hk⟩
            rw [← hk]; simpa using hsk
          · exact .inl h
        · exact .inr ⟨h, q, List.mem_cons_of_mem _ hq, he⟩
      · rintro (h | ⟨h, q, hq, he⟩)
        · left; split_ifs
          · rfl
          · exact h
        · rcases List.mem_cons.1 hq with hq | hq
          · subst hq; left; rw [if_pos he]; rfl
          · exact .inr ⟨h, q, hq, he⟩

theorem getTotal_eq (nd : ND Rat) (e : Text) : getTotal nd e = elementSum nd e := by
  unfold getTotal elementSum elementOf
  induction nd with
  | nil => rfl
  | cons p r ih =>
    rw [List.filterMap_cons, List.filter_cons]
    by_cases h : p.1.takeWhile (· != '(') = e
    · simp only [h, if_true, decide_true, List.map_cons, List.sum_cons, ih]
    · simp only [h, if_false, decide_false, Bool.false_eq_true, ih]

theorem esum_elementSum {nd : ND Rat} (h : ∀ p ∈ nd, PlainName p.1) (e : Text) : esum nd e = elementSum nd e := by
  unfold esum elementSum
  congr 2
  refine List.filter_congr fun p hp => ?_
  rw [ename_eq (h p hp)]

/-! ### Activities -/

theorem head0_mono {a b : Text} (h : ltText a b = true) : head0 a ≤ head0 b := by
  cases a with
  | nil => simp [head0]
  | cons x s =>
    cases b with
    | nil => simp [ltText] at h
    | cons y t =>
      unfold ltText at h
      simp only [head0]
      split_ifs at h with h1 h2
      · omega
      · subst h2; omega

theorem elementOf_iff {str n : Text} (hp : '(' ∉ str) :
    elementOf n = str ↔ n = str ∨ (str ++ ['(']).isPrefixOf n = true := by
  induction str generalizing n with
  | nil =>
    cases n with
    | nil => simp [elementOf]
    | cons c s =>
      rw [elementOf_cons]
      by_cases h : c = '(' <;> simp [h, List.isPrefixOf]
      intro h'; exact h h'.symm
  | cons d str ih =>
    have hd : d ≠ '(' := fun h => hp (by simp [h])
    have ih' := fun n => ih (n := n) fun h => hp (List.mem_cons_of_mem _ h)
    cases n with
    | nil => simp [elementOf, List.isPrefixOf]
    | cons c s =>
      rw [elementOf_cons]
      by_cases h : c = '('
      · subst h
        simp [List.isPrefixOf, hd, Ne.symm hd]
      · rw [if_neg h]
        simp only [List.cons.injEq, List.cons_append, List.isPrefixOf, Bool.and_eq_true, beq_iff_eq, ih']
        constructor
        · rintro ⟨h1, h2 | h2⟩
          · exact .inl ⟨h1, h2⟩
          · exact .inr ⟨h1.symm, h2⟩
        · rintro (⟨h1, h2⟩ | ⟨h1, h2⟩)
          · exact ⟨h1, .inl h2⟩
          · exact ⟨h1.symm, .inr h2⟩

theorem head0_element {str n : Text} (h0 : str ≠ []) (hp : '(' ∉ str) (h : elementOf n = str) : head0 n = head0 str := by
  cases n with
  | nil => exact absurd h.symm h0
  | cons c s =>
    rw [elementOf_cons] at h
    split_ifs at h with hc
    · exact absurd h.symm h0
    · rw [← h]; rfl

theorem multActs_spec {str : Text} (h0 : str ≠ []) (hp : '(' ∉ str) (lg : Rat) (nd : ND Rat) (hs : Sorted nd) :
    multActs str lg nd = nd.map fun p => (p.1, if elementOf p.1 = str then p.2 + lg else p.2) := by
  induction nd with
  | nil => rfl
  | cons p r ih =>
    obtain ⟨n, v⟩ := p
    have ih := ih (List.pairwise_cons.1 hs).2
    rw [multActs, List.map_cons]
    by_cases h1 : head0 n < head0 str
    · have : elementOf n ≠ str := fun h => by have := head0_element h0 hp h; omega
      rw [if_pos h1, ih, if_neg this]
    · rw [if_neg h1]
      congr 1
      · congr 1
        by_cases he : elementOf n = str
        · rw [if_pos he]
          rcases (elementOf_iff hp).1 he with h | h
          · rw [if_pos h]
          · rw [h]; simp
        · rw [if_neg he]
          have : ¬ _ := fun h => he ((elementOf_iff hp).2 h)
          rw [not_or] at this
          rw [if_neg this.1, if_neg this.2]
      · split_ifs with h2
        · symm
          have : ∀ p ∈ r, (p.1, if elementOf p.1 = str then p.2 + lg else p.2) = p := by
            intro p hp'
            have h3 := head0_mono ((List.pairwise_cons.1 hs).1 p hp')
            have : elementOf p.1 ≠ str := fun h => by
              have := head0_element h0 hp h
              simp only at h3; omega
            rw [if_neg this]
          exact List.map_congr_left this |>.trans (List.map_id _)
        · exact ih

/-! ### Merging -/

theorem find_filter {V} (m : ND V) (q : Text → Bool) (k : Text) :
    find (m.filter fun p => q p.1) k = if q k then find m k else none := by
  induction m with
  | nil => simp [find]
  | cons p r ih =>
    obtain ⟨n, v⟩ := p
    rw [List.filter_cons]
    by_cases hq : q n = true
    · simp only [hq, if_true, find, ih]
      by_cases hk : n = k
      · subst hk; simp [hq]
      · simp [hk]
    · simp only [hq, Bool.false_eq_true, if_false, find, ih]
      by_cases hk : n = k
      · subst hk; simp [hq]
      · simp [hk]

theorem mergeOne_plain (m : ND Rat) {n : Text} (hn : '(' ∉ n) (v : Rat) (k : Text) :
    find (mergeOne m (n, v)) k = if n = k then some v else if elementOf k = n then none else find m k := by
  unfold mergeOne
  have : n.contains '(' = false := by simpa using hn
  simp only [this, Bool.false_eq_true, if_false]
  rw [find_set, find_filter m fun x => !(n ++ ['(']).isPrefixOf x]
  by_cases hk : n = k
  · simp [hk]
  · simp only [hk, if_false]
    by_cases he : elementOf k = n
    · rcases (elementOf_iff hn).1 he with h | h
      · exact absurd h.symm hk
      · simp [he, h]
    · have : ¬ _ := fun h => he ((elementOf_iff hn).2 h)
      rw [not_or] at this
      simp [he, this.2]

/-! ### Dictionary -/

/-- What every reachable dictionary satisfies. -/
def Dict.Inv (d : Dict) : Prop :=
  d.map = d.words.zipIdx ∧ d.words.Nodup ∧ d.oss = d.words.flatMap fun w => w ++ ['\n']

theorem inv_empty : Dict.empty.Inv := ⟨rfl, by simp [Dict.empty], rfl⟩

theorem lookup_zipIdx_none {ws : List Text} {s : Text} (h : s ∉ ws) (k : Nat) : lookup (ws.zipIdx k) s = none := by
  unfold lookup
  rw [Option.map_eq_none_iff, List.find?_eq_none]
  intro p hp
  have := List.fst_mem_of_mem_zipIdx hp
  intro he
  simp only [beq_iff_eq] at he
  rw [he] at this; exact h this

theorem lookup_zipIdx_some {ws : List Text} {s : Text} (h : s ∈ ws) (k : Nat) :
    ∃ i, lookup (ws.zipIdx k) s = some (k + i) ∧ ws[i]? = some s := by
  induction ws generalizing k with
  | nil => cases h
  | cons w ws ih =>
    by_cases he : w = s
    · exact ⟨0, by simp [lookup, List.zipIdx_cons, he], by simp [he]⟩
    · have hm : s ∈ ws := by
        rcases List.mem_cons.1 h with h | h
        · exact absurd h.symm he
        · exact h
      obtain ⟨i, h1, h2⟩ := ih hm (k + 1)
      refine ⟨i + 1, ?_, by simpa using h2⟩
      unfold lookup at h1 ⊢
      rw [List.zipIdx_cons, List.find?_cons]
      simp only [beq_iff_eq, he]
      have : (w == s) = false := by simpa using he
      rw [this]
      simp only
      rw [h1]; congr 1; omega

theorem find_spec {d : Dict} (hi : d.Inv) (s : Text) :
    (d.find s).2.Inv ∧ (d.find s).2.words[(d.find s).1]? = some s ∧ d.words <+: (d.find s).2.words ∧
    (d.find s).2.words = (if s ∈ d.words then d.words else d.words ++ [s]) := by
  obtain ⟨h1, h2, h3⟩ := hi
  by_cases hs : s ∈ d.words
  · obtain ⟨i, e1, e2⟩ := lookup_zipIdx_some hs 0
    rw [← h1, Nat.zero_add] at e1
    have : d.find s = (i, d) := by unfold Dict.find; rw [e1]
    rw [this]
    exact ⟨⟨h1, h2, h3⟩, e2, List.prefix_refl _, by rw [if_pos hs]⟩
  · have e1 := lookup_zipIdx_none hs 0
    rw [← h1] at e1
    have hl : d.map.length = d.words.length := by rw [h1, List.length_zipIdx]
    have : d.find s = (d.map.length, ⟨d.map ++ [(s, d.map.length)], d.words ++ [s], d.oss ++ s ++ ['\n']⟩) := by
      unfold Dict.find; rw [e1]
    rw [this]
    refine ⟨⟨?_, ?_, ?_⟩, ?_, List.prefix_append _ _, by rw [if_neg hs]⟩
    · simp only [hl]
      rw [List.zipIdx_append, h1]; simp
    · rw [List.nodup_append]
      refine ⟨h2, by simp, ?_⟩
      intro a ha b hb
      simp only [List.mem_singleton] at hb
      subst hb
      rintro rfl; exact hs ha
    · simp [h3]
    · simp [hl]

theorem getElem?_prefix {α} {a b : List α} (h : a <+: b) {i : Nat} {x : α} (hx : a[i]? = some x) : b[i]? = some x := by
  obtain ⟨t, rfl⟩ := h
  have hi : i < a.length := by
    rw [List.getElem?_eq_some_iff] at hx; exact hx.1
  rw [List.getElem?_append_left hi]; exact hx

theorem findAll_spec {d : Dict} (hi : d.Inv) (ws : List Text) :
    (findAll d ws).2.Inv ∧ d.words <+: (findAll d ws).2.words ∧
    (findAll d ws).1.map (fun i => (findAll d ws).2.words[i]?) = ws.map some := by
  induction ws generalizing d with
  | nil => exact ⟨hi, List.prefix_refl _, rfl⟩
  | cons w ws ih =>
    obtain ⟨f1, f2, f3, _⟩ := find_spec hi w
    obtain ⟨i1, i2, i3⟩ := ih f1
    refine ⟨i1, f3.trans i2, ?_⟩
    simp only [findAll, List.map_cons]
    congr 1
    exact getElem?_prefix i2 f2

theorem getline256_word {w : Text} (h : GoodWord w) (r : Text) : getline256 (w ++ '\n' :: r) = some (w, r) := by
  have ht : (w ++ '\n' :: r).takeWhile (· != '\n') = w := by
    have : ∀ c ∈ w, (c != '\n') = true := by
      intro c hc; simp; rintro rfl; exact h.1 hc
    rw [List.takeWhile_append_of_pos this, List.takeWhile_cons]
    simp
  unfold getline256
  simp only [ht]
  rw [if_neg (by simp), if_pos h.2]
  congr 1
  rw [show w ++ '\n' :: r = (w ++ ['\n']) ++ r by simp, List.drop_left' (by simp)]

theorem dictLoop_words (ws : List Text) (hg : ∀ w ∈ ws, GoodWord w) : ∀ (n : Nat) (d : Dict), d.Inv →
    (d.words ++ ws).Nodup → ws.length < n → (dictLoop n d (ws.flatMap fun w => w ++ ['\n'])).words = d.words ++ ws := by
  induction ws with
  | nil =>
    intro n d _ _ hn
    cases n with
    | zero => omega
    | succ n => simp [dictLoop, getline256]
  | cons w ws ih =>
    intro n d hi hnd hn
    cases n with
    | zero => omega
    | succ n =>
      have hw : w ∉ d.words := fun h => by
        rw [List.nodup_append] at hnd
        exact hnd.2.2 w h w (by simp) rfl
      obtain ⟨f1, _, _, f4⟩ := find_spec hi w
      rw [if_neg hw] at f4
      rw [dictLoop, List.flatMap_cons, List.append_assoc, List.singleton_append,
        getline256_word (hg w (by simp))]
      simp only
      rw [ih (fun v hv => hg v (List.mem_cons_of_mem _ hv)) n _ f1 (by rw [f4]; simpa using hnd) (by simp at hn; omega), f4]
      simp

theorem length_le_flatMap (ws : List Text) : ws.length ≤ (ws.flatMap fun w => w ++ ['\n']).length := by
  induction ws with
  | nil => simp
  | cons w ws ih => simp [List.flatMap_cons]; simp at ih; omega

theorem ofText_words {d : Dict} (hi : d.Inv) (hg : ∀ w ∈ d.words, GoodWord w) : (Dict.ofText d.oss).words = d.words := by
  unfold Dict.ofText
  rw [hi.2.2]
  have := dictLoop_words d.words hg ((d.words.flatMap fun w => w ++ ['\n']).length + 1) .empty inv_empty
    (by simpa [Dict.empty] using hi.2.1) (by have := length_le_flatMap d.words; omega)
  simpa [Dict.empty] using this

/-! ### Serialization -/

theorem serOne_fold {V} (m : ND V) (b : Bufs V) (hi : b.dict.Inv) :
    ∃ idx, (m.foldl serOne b).ints = b.ints ++ idx ∧ (m.foldl serOne b).doubles = b.doubles ++ m.map (·.2) ∧
      (m.foldl serOne b).dict.Inv ∧ b.dict.words <+: (m.foldl serOne b).dict.words ∧
      (∀ w ∈ (m.foldl serOne b).dict.words, w ∈ b.dict.words ∨ ∃ p ∈ m, p.1 = w) ∧
      ∀ W, (m.foldl serOne b).dict.words <+: W → idx.map (fun i => W[i]?) = m.map fun p => some p.1 := by
  induction m generalizing b with
  | nil => exact ⟨[], by simp, by simp, hi, List.prefix_refl _, fun w h => .inl h, fun _ _ => rfl⟩
  | cons p m ih =>
    obtain ⟨f1, f2, f3, f4⟩ := find_spec hi p.1
    obtain ⟨idx, i1, i2, i3, i4, i5, i6⟩ := ih (serOne b p) f1
    refine ⟨(b.dict.find p.1).1 :: idx, ?_, ?_, i3, f3.trans i4, ?_, ?_⟩
    · rw [List.foldl_cons, i1]; simp [serOne]
    · rw [List.foldl_cons, i2]; simp [serOne]
    · intro w hw
      rcases i5 w hw with h | ⟨q, hq, he⟩
      · have h' : w ∈ (b.dict.find p.1).2.words := h
        rw [f4] at h'
        split_ifs at h' with hp
        · exact .inl h'
        · rcases List.mem_append.1 h' with h' | h'
          · exact .inl h'
          · simp only [List.mem_singleton] at h'
            exact .inr ⟨p, by simp, h'.symm⟩
      · exact .inr ⟨q, List.mem_cons_of_mem _ hq, he⟩
    · intro W hW
      rw [List.map_cons, List.map_cons, i6 W hW]
      congr 1
      exact getElem?_prefix (i4.trans hW) f2

theorem deserLoop_spec {V} (W : List Text) (m : ND V) (hne : ∀ p ∈ m, p.1 ≠ []) : ∀ (acc : ND V) (idx : List Nat),
    idx.map (fun i => W[i]?) = m.map (fun p => some p.1) → ∀ (is : List Nat) (ds : List V),
    deserLoop W m.length acc (idx ++ is) (m.map (·.2) ++ ds) = some (m.foldl (fun a p => set a p.1 p.2) acc, is, ds) := by
  induction m with
  | nil =>
    intro acc idx h is ds
    cases idx with
    | nil => rfl
    | cons => simp at h
  | cons p m ih =>
    intro acc idx h is ds
    cases idx with
    | nil => simp at h
    | cons i idx =>
      simp only [List.map_cons, List.cons.injEq] at h
      simp only [List.length_cons, List.cons_append, List.map_cons, deserLoop, h.1]
      rw [if_neg (hne p (by simp)), ih (fun q hq => hne q (List.mem_cons_of_mem _ hq)) _ idx h.2 is ds]
      rfl

theorem find_fold_set {V} (m : ND V) (hs : Sorted m) (acc : ND V) (k : Text) :
    find (m.foldl (fun a p => set a p.1 p.2) acc) k = (find m k).or (find acc k) := by
  induction m generalizing acc with
  | nil => simp [find]
  | cons p r ih =>
    obtain ⟨n, v⟩ := p
    rw [List.foldl_cons, ih (List.pairwise_cons.1 hs).2, find_set, find]
    by_cases hk : n = k
    · subst hk; rw [find_tail hs]; simp
    · simp [hk]

theorem sorted_fold_set {V} (m : ND V) (acc : ND V) (h : Sorted acc) : Sorted (m.foldl (fun a p => set a p.1 p.2) acc) := by
  induction m generalizing acc with
  | nil => exact h
  | cons p r ih => exact ih _ (sorted_set h _ _)

theorem fold_set_nil {V} {m : ND V} (hs : Sorted m) : m.foldl (fun a p => set a p.1 p.2) [] = m := by
  refine sorted_ext (sorted_fold_set m [] (by simp [Sorted])) hs fun k => ?_
  rw [find_fold_set m hs]
  simp [find]

theorem serializeAll_spec {V} (ms : List (ND V)) (hs : ∀ m ∈ ms, Sorted m) (hne : ∀ m ∈ ms, ∀ p ∈ m, p.1 ≠ [])
    (b : Bufs V) (hi : b.dict.Inv) :
    ∃ is ds, (serializeAll b ms).ints = b.ints ++ is ∧ (serializeAll b ms).doubles = b.doubles ++ ds ∧
      (serializeAll b ms).dict.Inv ∧ b.dict.words <+: (serializeAll b ms).dict.words ∧
      (∀ w ∈ (serializeAll b ms).dict.words, w ∈ b.dict.words ∨ ∃ m ∈ ms, ∃ p ∈ m, p.1 = w) ∧
      ∀ W, (serializeAll b ms).dict.words <+: W → ∀ is' ds',
        deserializeAll W ms.length (is ++ is') (ds ++ ds') = some (ms, is', ds') := by
  induction ms generalizing b with
  | nil =>
    exact ⟨[], [], by simp [serializeAll], by simp [serializeAll], hi, List.prefix_refl _, fun w h => .inl h,
      fun W _ is' ds' => rfl⟩
  | cons m ms ih =>
    obtain ⟨idx, s1, s2, s3, s4, s5, s6⟩ := serOne_fold m { b with ints := b.ints ++ [m.length] } hi
    obtain ⟨is, ds, i1, i2, i3, i4, i5, i6⟩ := ih (fun q hq => hs q (List.mem_cons_of_mem _ hq))
      (fun q hq => hne q (List.mem_cons_of_mem _ hq)) (serialize b m) s3
    have e : serializeAll b (m :: ms) = serializeAll (serialize b m) ms := rfl
    refine ⟨m.length :: idx ++ is, m.map (·.2) ++ ds, ?_, ?_, i3, s4.trans i4, ?_, ?_⟩
    · rw [e, i1]
      have : (serialize b m).ints = b.ints ++ [m.length] ++ idx := s1
      rw [this]; simp
    · rw [e, i2]
      have : (serialize b m).doubles = b.doubles ++ m.map (·.2) := s2
      rw [this]; simp
    · intro w hw
      rcases i5 w hw with h | ⟨q, hq, p, hp, he⟩
      · rcases s5 w h with h | ⟨p, hp, he⟩
        · exact .inl h
        · exact .inr ⟨m, by simp, p, hp, he⟩
      · exact .inr ⟨q, List.mem_cons_of_mem _ hq, p, hp, he⟩
    · intro W hW is' ds'
      have hd := deserLoop_spec W m (hne m (by simp)) [] idx (s6 W (i4.trans hW)) (is ++ is') (ds ++ ds')
      simp only [List.length_cons, deserializeAll, deserialize, List.cons_append, List.append_assoc]
      rw [hd]
      simp only
      rw [i6 W hW, fold_set_nil (hs m (by simp))]
      rfl

end Verif.Nd
