import Verif.Spec.TspSample
import Verif.Lemmas.TspStat
import Verif.Lemmas.TspText
import Mathlib.Data.List.Forall2
/-
Helper lemmas for C143.
-/
namespace Verif.TspSsf
open Verif.Tsp Verif.TspText

theorem rowTerm_proper {spec : Nat} {r : Row} {t : Term} (h : rowTerm spec r = some t) : t.at_.Proper := by
  unfold rowTerm at h
  split at h
  · exact absurd h (by simp)
  · rename_i n s hs
    split at h
    · exact absurd h (by simp)
    · rw [Option.ite_none_left_eq_some] at h
      have h := h.2
      injection h with h
      subst h
      unfold sampleInstant at hs
      split at hs
      · exact absurd hs (by simp)
      · split at hs
        · exact absurd hs (by simp)
        · rename_i hh nn ss ht
          injection hs with hs
          injection hs with h1 h2
          subst h2
          rcases char2time_some ht with hr | hr
          · unfold RealTime at hr
            unfold Clock.Proper numsecs
            simp only
            omega
          · exact absurd hr.1 (by simp)

theorem termsOf_proper {spec : Nat} {site : List Nat} {ls : List SLine} {t : Term} (h : t ∈ termsOf spec site ls) : t.at_.Proper := by
  unfold termsOf at h
  obtain ⟨r, _, hr⟩ := List.mem_filterMap.1 h
  exact rowTerm_proper hr

theorem later_time {a b : Clock} (ha : a.Proper) (hb : b.Proper) : later a b = true ↔ b.time < a.time := by
  unfold later Clock.time Clock.Proper at *
  rw [decide_eq_true_eq]
  omega

theorem termsOf_row {spec : Nat} {site : List Nat} {r : Row} {ls : List SLine} {t : Term} (h1 : name r.site = site) (h2 : marked r = false)
    (h3 : rowTerm spec r = some t) : termsOf spec site (.row r :: ls) = t :: termsOf spec site ls := by
  unfold termsOf
  rw [rowsOf, if_pos ⟨h1, h2⟩, List.filterMap_cons, h3]

theorem rowsOf_skip {site : List Nat} {r : Row} {ls : List SLine} (h : ¬ (name r.site = site ∧ marked r = false)) :
    rowsOf site (.row r :: ls) = rowsOf site ls := by
  rw [rowsOf, if_neg h]

theorem readable_tail {spec : Nat} {site : List Nat} {l : SLine} {ls : List SLine} (h : Readable spec site (l :: ls)) :
    Readable spec site ls := by
  refine ⟨fun w hw => h.1 w (by simp [hw]), fun r hr => h.2 r ?_⟩
  cases l with
  | blank => exact hr
  | short w => exact hr
  | row q =>
    rw [rowsOf]
    split
    · exact List.mem_cons_of_mem _ hr
    · exact hr

theorem termsOf_sub {spec : Nat} {site : List Nat} {l : SLine} {ls : List SLine} :
    (termsOf spec site ls).Sublist (termsOf spec site (l :: ls)) := by
  unfold termsOf
  apply List.Sublist.filterMap
  cases l with
  | blank => exact List.Sublist.refl _
  | short w => exact List.Sublist.refl _
  | row q =>
    rw [rowsOf]
    split
    · exact List.sublist_cons_self _ _
    · exact List.Sublist.refl _

theorem inOrder_tail {spec : Nat} {site : List Nat} {l : SLine} {ls : List SLine} (h : InOrder spec site (l :: ls)) :
    InOrder spec site ls := List.Pairwise.sublist termsOf_sub h

theorem within_after {b e : Clock} {l : List Term} (h : ∀ t ∈ l, e.time < t.at_.time) : within b e l = [] := by
  unfold within
  rw [List.filter_eq_nil_iff]
  intro t ht
  have := h t ht
  simp only [decide_eq_true_eq]
  omega

theorem within_cons_before {b e : Clock} {t : Term} {l : List Term} (h : t.at_.time < b.time) : within b e (t :: l) = within b e l := by
  unfold within
  rw [List.filter_cons, if_neg]
  simp only [decide_eq_true_eq]
  omega

theorem within_cons_in {b e : Clock} {t : Term} {l : List Term} (h : b.time ≤ t.at_.time) (h' : t.at_.time ≤ e.time) :
    within b e (t :: l) = t :: within b e l := by
  unfold within
  rw [List.filter_cons, if_pos]
  simp only [decide_eq_true_eq]
  omega

/-! ### One series -/

theorem readOne_eq {spec : Nat} {site : List Nat} {b e : Clock} (hb : b.Proper) (he : e.Proper) (cap : Nat) (ls : List SLine) :
    ∀ acc : List Term, Readable spec site ls → InOrder spec site ls → acc.length ≤ cap →
      (acc = [] ∨ ∀ t ∈ termsOf spec site ls, b.time ≤ t.at_.time) →
      readOne spec site b e cap ls acc =
        if acc.length + (within b e (termsOf spec site ls)).length ≤ cap then .series (acc ++ within b e (termsOf spec site ls)) else .overflow := by
  induction ls with
  | nil =>
    intro acc _ _ hc _
    have : within b e (termsOf spec site []) = [] := rfl
    rw [readOne, this, if_pos (by simpa using hc), List.append_nil]
  | cons l ls ih =>
    intro acc hr ho hc hs
    have hr' := readable_tail hr
    have ho' := inOrder_tail ho
    have hs' : acc = [] ∨ ∀ t ∈ termsOf spec site ls, b.time ≤ t.at_.time :=
      hs.imp id fun h t ht => h t (termsOf_sub.subset ht)
    cases l with
    | blank => rw [readOne]; exact ih acc hr' ho' hc hs'
    | short w => exact absurd (by simp) (hr.1 w)
    | row r =>
      rw [readOne]
      by_cases h1 : name r.site = site
      · rw [if_neg (by simpa using h1)]
        by_cases h2 : marked r = true
        · rw [if_pos h2]
          have : termsOf spec site (.row r :: ls) = termsOf spec site ls := by
            unfold termsOf; rw [rowsOf_skip (by simp [h2])]
          rw [this]
          exact ih acc hr' ho' hc hs'
        · rw [if_neg h2]
          have h2 : marked r = false := by simpa using h2
          obtain ⟨t, ht⟩ := hr.2 r (by rw [rowsOf, if_pos ⟨h1, h2⟩]; simp)
          have e1 := termsOf_row (ls := ls) h1 h2 ht
          have hp := rowTerm_proper ht
          unfold InOrder at ho
          rw [e1] at ho hs ⊢
          have hle := (List.pairwise_cons.1 ho).1
          simp only [ht]
          by_cases h3 : acc = [] ∧ later b t.at_ = true
          · rw [if_pos h3, within_cons_before ((later_time hb hp).1 h3.2)]
            exact ih acc hr' ho' hc hs'
          · rw [if_neg h3]
            have hge : b.time ≤ t.at_.time := by
              rcases hs with hs | hs
              · by_contra hlt
                exact h3 ⟨hs, (later_time hb hp).2 (by omega)⟩
              · exact hs t (by simp)
            by_cases h4 : later t.at_ e = true
            · have h4' := (later_time hp he).1 h4
              rw [if_pos h4, within_after, if_pos (by simpa using hc), List.append_nil]
              intro q hq
              rcases List.mem_cons.1 hq with rfl | hq
              · exact h4'
              · have := hle q hq; omega
            · rw [if_neg h4]
              have h4' : t.at_.time ≤ e.time := by
                by_contra hlt
                exact h4 ((later_time hp he).2 (by omega))
              rw [within_cons_in hge h4']
              by_cases h5 : acc.length < cap
              · rw [if_pos h5, ih (acc ++ [t]) hr' ho' (by simp; omega) (Or.inr fun q hq => le_trans hge (hle q hq))]
                simp only [List.length_append, List.length_cons, List.length_nil, List.append_assoc, List.cons_append, List.nil_append]
                rw [show acc.length + (0 + 1) + (within b e (termsOf spec site ls)).length =
                  acc.length + ((within b e (termsOf spec site ls)).length + 1) by omega]
              · rw [if_neg h5, if_neg]
                simp only [List.length_cons]
                omega
      · rw [if_pos (by simpa using h1)]
        have : termsOf spec site (.row r :: ls) = termsOf spec site ls := by
          unfold termsOf; rw [rowsOf_skip (by simp [h1])]
        rw [this]
        exact ih acc hr' ho' hc hs'

theorem firstGroup_ge (site : List Nat) (ls : List SLine) : ∀ n, n ≤ firstGroup site ls n := by
  induction ls with
  | nil => intro n; exact le_refl n
  | cons l ls ih =>
    intro n
    cases l <;> rw [firstGroup]
    · exact ih n
    all_goals
      split
      · exact le_trans (by omega) (ih (n + 1))
      · split
        · exact le_refl n
        · exact ih n

theorem notSite_rows {site : List Nat} {p ls : List SLine} (h : ∀ l ∈ p, ¬ IsSite site l) : rowsOf site (p ++ ls) = rowsOf site ls := by
  induction p with
  | nil => rfl
  | cons l p ih =>
    have := ih fun x hx => h x (by simp [hx])
    cases l with
    | blank => exact this
    | short w => exact this
    | row r =>
      have hn := h (.row r) (by simp)
      rw [List.cons_append, rowsOf_skip (fun hc => hn hc.1)]
      exact this

theorem firstGroup_skip {site : List Nat} {p ls : List SLine} (h : ∀ l ∈ p, ¬ IsSite site l) (hs : ∀ w, SLine.short w ∉ p) :
    firstGroup site (p ++ ls) 0 = firstGroup site ls 0 := by
  induction p with
  | nil => rfl
  | cons l p ih =>
    have := ih (fun x hx => h x (by simp [hx])) fun w hw => hs w (by simp [hw])
    cases l with
    | blank => rw [List.cons_append, firstGroup]; exact this
    | short w => exact absurd (by simp) (hs w)
    | row r =>
      have hn : ¬ name r.site = site := h (.row r) (by simp)
      rw [List.cons_append, firstGroup, if_neg hn, if_neg (by omega)]
      exact this

theorem firstGroup_group {site : List Nat} {m q : List SLine} (h : ∀ l ∈ m, IsSite site l ∨ l = .blank) : ∀ n,
    n + (rowsOf site m).length ≤ firstGroup site (m ++ q) n := by
  induction m with
  | nil => intro n; simpa [rowsOf] using firstGroup_ge site q n
  | cons l m ih =>
    intro n
    have ih := ih fun x hx => h x (by simp [hx])
    rcases h l (by simp) with hl | rfl
    · cases l with
      | blank => exact absurd hl (by simp [IsSite])
      | short w => exact absurd hl (by simp [IsSite])
      | row r =>
        have hl : name r.site = site := hl
        rw [List.cons_append, firstGroup, if_pos hl, rowsOf]
        have := ih (n + 1)
        split
        · simp only [List.length_cons]; omega
        · omega
    · rw [List.cons_append, firstGroup]
      exact ih n

theorem rowsOf_append (site : List Nat) (p q : List SLine) : rowsOf site (p ++ q) = rowsOf site p ++ rowsOf site q := by
  induction p with
  | nil => rfl
  | cons l p ih =>
    cases l with
    | blank => exact ih
    | short w => exact ih
    | row r =>
      rw [List.cons_append, rowsOf, rowsOf, ih]
      split <;> rfl

theorem firstGroup_together {spec : Nat} {site : List Nat} {ls : List SLine} (h : Together site ls) (hs : ∀ w, SLine.short w ∉ ls) :
    (termsOf spec site ls).length ≤ firstGroup site ls 0 := by
  obtain ⟨p, m, q, rfl, h1, h2⟩ := h
  have hp : ∀ l ∈ p, ¬ IsSite site l := fun l hl => h1 l (by simp [hl])
  have hq : ∀ l ∈ q, ¬ IsSite site l := fun l hl => h1 l (by simp [hl])
  have e2 : rowsOf site q = [] := by simpa [rowsOf] using notSite_rows (ls := []) hq
  rw [List.append_assoc, firstGroup_skip hp (fun w hw => hs w (by simp [hw]))]
  have := firstGroup_group (q := q) h2 0
  unfold termsOf
  refine le_trans (List.length_filterMap_le _ _) ?_
  rw [notSite_rows hp, rowsOf_append, e2, List.append_nil]
  omega

/-! ### Many series -/

theorem count_mono {spec : Nat} {sites : List (List Nat)} {b e : Clock} (ls : List SLine) :
    ∀ (s : Scan) (n n' : Nat → Nat), countMany spec sites b e ls s n = some n' → ∀ j, n j ≤ n' j := by
  induction ls with
  | nil =>
    intro s n n' h j
    rw [countMany] at h
    injection h with h
    rw [h]
  | cons l ls ih =>
    intro s n n' h j
    rw [countMany] at h
    split at h
    · exact absurd h (by simp)
    · exact ih _ _ _ h j
    · have := ih _ _ _ h j
      split at this <;> omega

theorem fill_of_count {spec : Nat} {sites : List (List Nat)} {b e : Clock} (ls : List SLine) :
    ∀ (s : Scan) (n n' : Nat → Nat) (ser : Nat → List Term), countMany spec sites b e ls s n = some n' → (∀ j, (ser j).length = n j) →
      ∃ ser', fillMany spec sites b e n' ls s ser = .ok ser' ∧ ∀ j, (ser' j).length = n' j := by
  induction ls with
  | nil =>
    intro s n n' ser h hl
    rw [countMany] at h
    injection h with h
    subst h
    exact ⟨ser, rfl, hl⟩
  | cons l ls ih =>
    intro s n n' ser h hl
    have hf : (fun j => (ser j).length != 0) = fun j => n j != 0 := by funext j; rw [hl]
    rw [countMany] at h
    rw [fillMany, hf]
    split at h
    · exact absurd h (by simp)
    · exact ih _ _ _ _ h hl
    · rename_i s' j t hs
      have hm := count_mono ls _ _ _ h j
      simp only [if_true] at hm
      rw [if_pos (by rw [hl]; omega)]
      refine ih _ _ _ _ h fun i => ?_
      split
      · rw [List.length_append, hl]; rfl
      · exact hl i

theorem place_some {sites : List (List Nat)} {x : List Nat} {j : Nat} (h : place sites x = some j) : sites[j]? = some x := by
  unfold place at h
  split at h
  · rename_i hx
    injection h with h
    subst h
    rw [List.getElem?_eq_getElem (List.idxOf_lt_length_iff.2 hx), List.getElem_idxOf]
  · exact absurd h (by simp)

theorem place_none {sites : List (List Nat)} {x : List Nat} (h : place sites x = none) : x ∉ sites := by
  unfold place at h
  split at h
  · exact absurd h (by simp)
  · assumption

/-- The scan after the site of a row has been looked at. -/
def turn (sites : List (List Nat)) (s : Scan) (r : Row) : Scan := if name r.site ≠ s.last then ⟨name r.site, place sites (name r.site)⟩ else s

theorem turn_last (sites : List (List Nat)) (s : Scan) (r : Row) : (turn sites s r).last = name r.site := by
  unfold turn
  split
  · rfl
  · rename_i h; exact (not_not.1 h).symm

theorem turn_active {sites : List (List Nat)} {s : Scan} {r : Row} (h : ∀ j, s.active = some j → sites[j]? = some s.last) :
    ∀ j, (turn sites s r).active = some j → sites[j]? = some (name r.site) := by
  intro j hj
  unfold turn at hj
  split at hj
  · exact place_some hj
  · rename_i hn
    rw [not_not.1 hn]
    exact h j hj

theorem scan_row {spec : Nat} {sites : List (List Nat)} {b e : Clock} {started : Nat → Bool} {s : Scan} {r : Row} :
    scanLine spec sites b e started s (.row r) = match (turn sites s r).active with
      | none => some (turn sites s r, none)
      | some j =>
        if marked r then some (turn sites s r, none)
        else match rowTerm spec r with
          | none => none
          | some t =>
            if started j = false ∧ later b t.at_ then some (turn sites s r, none)
            else if later t.at_ e then some (⟨(turn sites s r).last, none⟩, none)
            else some (turn sites s r, some (j, t)) := rfl

theorem count_some {spec : Nat} {sites : List (List Nat)} {b e : Clock} (ls : List SLine) :
    ∀ (s : Scan) (n : Nat → Nat), (∀ j, s.active = some j → sites[j]? = some s.last) → (∀ w, SLine.short w ∉ ls) →
      (∀ site ∈ sites, Readable spec site ls) → ∃ n', countMany spec sites b e ls s n = some n' := by
  induction ls with
  | nil => intro s n _ _ _; exact ⟨n, rfl⟩
  | cons l ls ih =>
    intro s n ha hs hr
    have hs' : ∀ w, SLine.short w ∉ ls := fun w hw => hs w (by simp [hw])
    have hr' : ∀ site ∈ sites, Readable spec site ls := fun site h => readable_tail (hr site h)
    cases l with
    | blank => rw [countMany]; exact ih s n ha hs' hr'
    | short w => exact absurd (by simp) (hs w)
    | row r =>
      have ht := turn_active (r := r) ha
      have hl := turn_last sites s r
      rw [countMany, scan_row]
      cases hj : (turn sites s r).active with
      | none => exact ih _ _ (by rw [hj]; simp) hs' hr'
      | some j =>
        have hx := ht j hj
        have hm := List.mem_of_getElem? hx
        have hk : ∀ i, (turn sites s r).active = some i → sites[i]? = some (turn sites s r).last := by rw [hl]; exact ht
        simp only
        by_cases h2 : marked r = true
        · rw [if_pos h2]
          exact ih _ _ hk hs' hr'
        · rw [if_neg h2]
          have h2 : marked r = false := by simpa using h2
          obtain ⟨t, h3⟩ := (hr _ hm).2 r (by rw [rowsOf, if_pos ⟨rfl, h2⟩]; simp)
          rw [h3]
          simp only
          by_cases h4 : ((n j != 0) = false ∧ later b t.at_ = true)
          · rw [if_pos h4]
            exact ih _ _ hk hs' hr'
          · rw [if_neg h4]
            by_cases h5 : later t.at_ e = true
            · rw [if_pos h5]
              exact ih _ _ (by simp) hs' hr'
            · rw [if_neg h5]
              exact ih _ _ hk hs' hr'

theorem termsOf_other {spec : Nat} {site : List Nat} {r : Row} {ls : List SLine} (h : ¬ (name r.site = site ∧ marked r = false)) :
    termsOf spec site (.row r :: ls) = termsOf spec site ls := by
  unfold termsOf; rw [rowsOf_skip h]

theorem place_unique {sites : List (List Nat)} (hn : sites.Nodup) {i j : Nat} {x : List Nat} (hi : sites[i]? = some x) (hj : sites[j]? = some x) :
    i = j := by
  obtain ⟨h1, h2⟩ := List.getElem?_eq_some_iff.1 hi
  obtain ⟨h3, h4⟩ := List.getElem?_eq_some_iff.1 hj
  exact (List.Nodup.getElem_inj_iff hn).1 (h2.trans h4.symm)

theorem fill_sound {spec : Nat} {sites : List (List Nat)} (hn : sites.Nodup) {b e : Clock} (cap : Nat → Nat) (ls : List SLine) :
    ∀ (s : Scan) (ser ser' : Nat → List Term), (∀ j, s.active = some j → sites[j]? = some s.last) →
      fillMany spec sites b e cap ls s ser = .ok ser' → ∀ i site, sites[i]? = some site →
      ∃ w, ser' i = ser i ++ w ∧ w.Sublist (termsOf spec site ls) ∧ (∀ t ∈ w, later t.at_ e = false) ∧
        (ser i = [] → ∀ t, w.head? = some t → later b t.at_ = false) := by
  induction ls with
  | nil =>
    intro s ser ser' _ h i site _
    rw [fillMany] at h
    injection h with h
    subst h
    exact ⟨[], by simp, by simp, by simp, by simp⟩
  | cons l ls ih =>
    intro s ser ser' ha h i site hi
    have lift : (∃ w, ser' i = ser i ++ w ∧ w.Sublist (termsOf spec site ls) ∧ (∀ t ∈ w, later t.at_ e = false) ∧
        (ser i = [] → ∀ t, w.head? = some t → later b t.at_ = false)) →
        ∃ w, ser' i = ser i ++ w ∧ w.Sublist (termsOf spec site (l :: ls)) ∧ (∀ t ∈ w, later t.at_ e = false) ∧
          (ser i = [] → ∀ t, w.head? = some t → later b t.at_ = false) := by
      rintro ⟨w, h1, h2, h3⟩
      exact ⟨w, h1, h2.trans termsOf_sub, h3⟩
    cases l with
    | blank => rw [fillMany] at h; exact lift (ih _ _ _ ha h i site hi)
    | short w =>
      rw [fillMany] at h
      exact absurd h (by simp [scanLine])
    | row r =>
      have ht := turn_active (r := r) ha
      have hl := turn_last sites s r
      rw [fillMany, scan_row] at h
      cases hj : (turn sites s r).active with
      | none =>
        rw [hj] at h
        exact lift (ih _ _ _ (by rw [hj]; simp) h i site hi)
      | some j =>
        rw [hj] at h
        have hx := ht j hj
        have hk : ∀ i, (turn sites s r).active = some i → sites[i]? = some (turn sites s r).last := by rw [hl]; exact ht
        simp only at h
        by_cases h2 : marked r = true
        · rw [if_pos h2] at h
          exact lift (ih _ _ _ hk h i site hi)
        · rw [if_neg h2] at h
          have h2 : marked r = false := by simpa using h2
          cases h3 : rowTerm spec r with
          | none => rw [h3] at h; exact absurd h (by simp)
          | some t =>
            rw [h3] at h
            simp only at h
            by_cases h4 : (((ser j).length != 0) = false ∧ later b t.at_ = true)
            · rw [if_pos h4] at h
              exact lift (ih _ _ _ hk h i site hi)
            · rw [if_neg h4] at h
              by_cases h5 : later t.at_ e = true
              · rw [if_pos h5] at h
                exact lift (ih _ _ _ (by simp) h i site hi)
              · rw [if_neg h5] at h
                simp only at h
                by_cases h6 : (ser j).length < cap j
                · rw [if_pos h6] at h
                  obtain ⟨w, w1, w2, w3, w4⟩ := ih _ _ _ hk h i site hi
                  by_cases hij : i = j
                  · subst hij
                    rw [hx] at hi
                    injection hi with hi
                    subst hi
                    simp only [if_true] at w1
                    refine ⟨t :: w, by rw [w1, List.append_assoc]; rfl, ?_, ?_, ?_⟩
                    · rw [termsOf_row rfl h2 h3]
                      exact List.Sublist.cons_cons t w2
                    · intro q hq
                      rcases List.mem_cons.1 hq with rfl | hq
                      · simpa using h5
                      · exact w3 q hq
                    · intro h0 q hq
                      rw [List.head?_cons] at hq
                      injection hq with hq
                      subst hq
                      by_contra hb
                      exact h4 ⟨by rw [h0]; rfl, by simpa using hb⟩
                  · simp only [hij, if_false] at w1 w4
                    exact ⟨w, w1, w2.trans termsOf_sub, w3, w4⟩
                · rw [if_neg h6] at h
                  exact absurd h (by simp)

theorem fill_exact {spec : Nat} {sites : List (List Nat)} (hn : sites.Nodup) {b e : Clock} (hb : b.Proper) (he : e.Proper) (cap : Nat → Nat)
    (ls : List SLine) : ∀ (s : Scan) (ser ser' : Nat → List Term), (∀ j, s.active = some j → sites[j]? = some s.last) →
      (s.active = none → s.last ∈ sites → ∀ t ∈ termsOf spec s.last ls, e.time < t.at_.time) →
      (∀ site ∈ sites, InOrder spec site ls) →
      (∀ i site, sites[i]? = some site → ser i = [] ∨ ∀ t ∈ termsOf spec site ls, b.time ≤ t.at_.time) →
      fillMany spec sites b e cap ls s ser = .ok ser' → ∀ i site, sites[i]? = some site →
      ser' i = ser i ++ within b e (termsOf spec site ls) := by
  induction ls with
  | nil =>
    intro s ser ser' _ _ _ _ h i site _
    rw [fillMany] at h
    injection h with h
    subst h
    simp [termsOf, rowsOf, within]
  | cons l ls ih =>
    intro s ser ser' ha hz ho hg h i site hi
    have ho' : ∀ site ∈ sites, InOrder spec site ls := fun x hx => inOrder_tail (ho x hx)
    have hg' : ∀ i site, sites[i]? = some site → ser i = [] ∨ ∀ t ∈ termsOf spec site ls, b.time ≤ t.at_.time :=
      fun i x hx => (hg i x hx).imp id fun hh t ht => hh t (termsOf_sub.subset ht)
    cases l with
    | blank =>
      rw [fillMany] at h
      exact ih _ _ _ ha hz ho' hg' h i site hi
    | short w =>
      rw [fillMany] at h
      exact absurd h (by simp [scanLine])
    | row r =>
      have ht := turn_active (r := r) ha
      have hl := turn_last sites s r
      have hz1 : (turn sites s r).active = none → name r.site ∈ sites →
          ∀ t ∈ termsOf spec (name r.site) (.row r :: ls), e.time < t.at_.time := by
        intro h1 h2
        unfold turn at h1
        split at h1
        · exact absurd h2 (place_none h1)
        · rename_i hne
          rw [not_not.1 hne] at h2 ⊢
          exact hz h1 h2
      rw [fillMany, scan_row] at h
      cases hj : (turn sites s r).active with
      | none =>
        rw [hj] at h
        have hz1 := hz1 hj
        have hz2 : name r.site ∈ sites → ∀ t ∈ termsOf spec (name r.site) ls, e.time < t.at_.time :=
          fun h2 t ht => hz1 h2 t (termsOf_sub.subset ht)
        have := ih _ _ _ (by rw [hj]; simp) (by rw [hl]; exact fun _ => hz2) ho' hg' h i site hi
        rw [this]
        by_cases hx : name r.site = site
        · subst hx
          have hm := List.mem_of_getElem? hi
          rw [within_after (hz1 hm), within_after (hz2 hm)]
        · rw [termsOf_other fun hc => hx hc.1]
      | some j =>
        rw [hj] at h
        have hx := ht j hj
        have hm := List.mem_of_getElem? hx
        have hk : ∀ i, (turn sites s r).active = some i → sites[i]? = some (turn sites s r).last := by rw [hl]; exact ht
        have hk2 : (turn sites s r).active = none → (turn sites s r).last ∈ sites →
            ∀ t ∈ termsOf spec (turn sites s r).last ls, e.time < t.at_.time := by rw [hj]; intro hc; exact absurd hc (by simp)
        simp only at h
        by_cases h2 : marked r = true
        · rw [if_pos h2] at h
          rw [ih _ _ _ hk hk2 ho' hg' h i site hi, termsOf_other (by simp [h2])]
        · rw [if_neg h2] at h
          have h2 : marked r = false := by simpa using h2
          cases h3 : rowTerm spec r with
          | none => rw [h3] at h; exact absurd h (by simp)
          | some t =>
            rw [h3] at h
            have hp := rowTerm_proper h3
            have e1 := termsOf_row (ls := ls) (rfl : name r.site = name r.site) h2 h3
            have ho1 := ho _ hm
            unfold InOrder at ho1
            rw [e1] at ho1
            have hle := (List.pairwise_cons.1 ho1).1
            have hgj := hg j _ hx
            rw [e1] at hgj
            simp only at h
            have same : ∀ i site, sites[i]? = some site → i = j → name r.site = site := by
              rintro i x h' rfl
              rw [hx] at h'
              injection h'
            have diff : ∀ i site, sites[i]? = some site → i ≠ j → termsOf spec site (.row r :: ls) = termsOf spec site ls := by
              intro i x h' hne
              refine termsOf_other fun hc => hne ?_
              rw [← hc.1] at h'
              exact place_unique hn h' hx
            by_cases h4 : (((ser j).length != 0) = false ∧ later b t.at_ = true)
            · rw [if_pos h4] at h
              rw [ih _ _ _ hk hk2 ho' hg' h i site hi]
              by_cases hij : i = j
              · rw [← same i site hi hij, e1, within_cons_before ((later_time hb hp).1 h4.2)]
              · rw [diff i site hi hij]
            · rw [if_neg h4] at h
              have hge : b.time ≤ t.at_.time := by
                rcases hgj with h0 | h0
                · by_contra hlt
                  exact h4 ⟨by rw [h0]; rfl, (later_time hb hp).2 (by omega)⟩
                · exact h0 t (by simp)
              by_cases h5 : later t.at_ e = true
              · rw [if_pos h5] at h
                have h5' := (later_time hp he).1 h5
                have hall : ∀ q ∈ termsOf spec (name r.site) ls, e.time < q.at_.time := by
                  intro q hq
                  have := hle q hq
                  omega
                rw [ih _ _ _ (by simp) (by simp only [hl]; exact fun _ _ => hall) ho' hg' h i site hi]
                by_cases hij : i = j
                · rw [← same i site hi hij, e1, within_after hall, within_after]
                  intro q hq
                  rcases List.mem_cons.1 hq with rfl | hq
                  · exact h5'
                  · exact hall q hq
                · rw [diff i site hi hij]
              · rw [if_neg h5] at h
                have h5' : t.at_.time ≤ e.time := by
                  by_contra hlt
                  exact h5 ((later_time hp he).2 (by omega))
                simp only at h
                by_cases h6 : (ser j).length < cap j
                · rw [if_pos h6] at h
                  have := ih _ _ _ hk hk2 ho' (by
                    intro k x hkx
                    by_cases hkj : k = j
                    · right
                      rw [← same k x hkx hkj]
                      intro q hq
                      exact le_trans hge (hle q hq)
                    · simp only [hkj, if_false]
                      exact hg' k x hkx) h i site hi
                  rw [this]
                  by_cases hij : i = j
                  · simp only [hij, if_true]
                    rw [← same i site hi hij, e1, within_cons_in hge h5', List.append_assoc]
                    rfl
                  · simp only [hij, if_false]
                    rw [diff i site hi hij]
                · rw [if_neg h6] at h
                  exact absurd h (by simp)

theorem lower_same {c d : Nat} : lower c = lower d ↔ SameLetter c d := by
  unfold lower SameLetter
  split <;> split <;> omega

theorem map_lower_same {s t : List Nat} : s.map lower = t.map lower ↔ List.Forall₂ SameLetter s t := by
  rw [← List.forall₂_eq_eq_eq, List.forall₂_map_left_iff, List.forall₂_map_right_iff]
  constructor <;> exact fun h => h.imp fun _ _ => by simp [lower_same]

end Verif.TspSsf
