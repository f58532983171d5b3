import Verif.Lemmas.Tally
/-
C31: the tally table.
-/
namespace Verif.Tally

/-- C31: if the caller's array has room for the rows, one additional row and the columns, a reaction step
stores in it the two solutions, the change of every element in every other reactant divided by the fill
factor (not 0), and in the additional row the moles of the reactants; all other cells keep their values. -/
theorem C31_table (db : Db) (rows : Rows) (cs : List Col) (nUser : Kind → Int) (cons : Int) (before after : Ents)
    (a : List Rat) (rowDim colDim : Nat) (fill : Rat)
    (ht : TableOk db rows cs) (hb : EntsOk db rows before) (ha : EntsOk db rows after)
    (hr : rows.length ≤ rowDim) (hc : cs.length ≤ colDim) (hl : (rowDim + 1) * colDim ≤ a.length) (_hf : fill ≠ 0) :
    ∃ b, tallyRun db rows cs nUser cons before after a rowDim colDim fill = some (true, b) ∧ b.length = a.length ∧
      (∀ (i : Nat) (c : Col), cs[i]? = some c →
        (∀ j, j < rows.length → b[i * (rowDim + 1) + j]? = some (entry db rows nUser cons before after fill i c j)) ∧
        b[i * (rowDim + 1) + rows.length]? = some (lastEntry nUser before after fill c)) ∧
      ∀ q : Nat, (∀ i, i < cs.length → ∀ j, j ≤ rows.length → q ≠ i * (rowDim + 1) + j) → b[q]? = a[q]? := by
  have hfill := fill_both db rows cs nUser cons before after ht hb ha
  have hlen := mapFrom_length (col2 db rows nUser cons before after) cs 0
  have hmem : ∀ d ∈ mapFrom (col2 db rows nUser cons before after) 0 cs, d.initial.length = rows.length ∧ d.final.length = rows.length := by
    intro d hd
    obtain ⟨k, hk⟩ := List.mem_iff_getElem?.1 hd
    rw [mapFrom_get] at hk
    obtain ⟨c, _, rfl⟩ := Option.map_eq_some_iff.1 hk
    unfold col2 col1
    constructor
    · simp only; split_ifs <;> simp [zeros, cells]
    · simp only; split_ifs
      · exact solFinal_length db rows after nUser cons _
      · simp [cells]
  obtain ⟨b, h1, h2, h3, h4⟩ := store_ok rows.length (mapFrom (col2 db rows nUser cons before after) 0 cs) a rowDim colDim fill
    (by rw [hlen]; exact ht.two) hr (by rw [hlen]; exact hc) hl (fun c hc => (hmem c hc).1) (fun c hc => (hmem c hc).2)
  refine ⟨b, ?_, h2, ?_, ?_⟩
  · unfold tallyRun
    rw [← Option.bind_assoc, hfill]
    exact h1
  · intro i c hic
    have hd : (mapFrom (col2 db rows nUser cons before after) 0 cs)[i]? = some (col2 db rows nUser cons before after i c) := by
      rw [mapFrom_get, hic, Nat.zero_add]; rfl
    obtain ⟨h5, h6⟩ := h3 i _ hd
    refine ⟨fun j hj => ?_, h6⟩
    rw [h5 j hj]
    unfold entry
    by_cases hi : i < 2
    · rw [if_pos hi, if_pos hi]
      unfold col2
      simp only [hi, if_true]
      exact solFinal_get db rows after nUser cons i j hj
    · rw [if_neg hi, if_neg hi]
      unfold col2 col1
      simp only [hi, if_false, cells_get db rows _ j hj, Option.getD_some]
  · intro q hq
    rw [hlen] at h4
    exact h4 q hq

/-- C31: a request with too few rows or columns, or without a table, is refused and leaves the array alone. -/
theorem C31_refused (rows : Nat) (cs : List Col) (a : List Rat) (rowDim colDim : Nat) (fill : Rat)
    (h : cs = [] ∨ rowDim + 1 < rows ∨ colDim < cs.length) : store rows cs a rowDim colDim fill = some (false, a) := by
  unfold store
  split_ifs with h1 h2 h3
  · rfl
  · rfl
  · rfl
  · rcases h with h | h | h
    · exact absurd h h1
    · exact absurd h h2
    · exact absurd h h3

/-- C31: the table that is built starts with the two solution columns and has no others; every phase, every
solid-solution component and every kinetic reactant has a column of its kind and name, and there is only
one column for each solid-solution component and each kinetic reactant name. -/
theorem C31_columns (rows : Rows) (v : Inventory) :
    2 ≤ (build rows v).length ∧ (∀ (i : Nat) (c : Col), (build rows v)[i]? = some c → (c.kind = .solution ↔ i < 2)) ∧
    (∀ x ∈ v.pure, ∃ c ∈ build rows v, c.kind = .pure ∧ c.name = x.1) ∧
    (∀ x ∈ v.ss, ∃ c ∈ build rows v, c.kind = .ss ∧ c.name = x.1) ∧
    (∀ x ∈ v.kinetics, ∃ c ∈ build rows v, c.kind = .kinetics ∧ c.name = x.1) ∧
    (∀ (i j : Nat) (c d : Col), (build rows v)[i]? = some c → (build rows v)[j]? = some d → c.kind = d.kind → c.name = d.name →
      c.kind = .ss ∨ c.kind = .kinetics → i = j) := by
  obtain ⟨s0, hs0⟩ : ∃ s0 : Col × Text, s0 = (newCol rows .solution "Solution_conservative".toList [], []) := ⟨_, rfl⟩
  obtain ⟨s1, hs1⟩ : ∃ s1 : Col × Text, s1 = (newCol rows .solution "Solution_reaction".toList [], []) := ⟨_, rfl⟩
  have k0 : s0.1.kind = .solution := by rw [hs0]; rfl
  have k1 : s1.1.kind = .solution := by rw [hs1]; rfl
  obtain ⟨o, ho⟩ : ∃ o, o = optCol rows v.reaction .reaction "Reaction" ++ optCol rows v.exchange .exchange "Exchange"
    ++ optCol rows v.surface .surface "Surface" ++ optCol rows v.gas .gas "Gas_phase" := ⟨_, rfl⟩
  have hok : ∀ c ∈ o, c.1.kind = .reaction ∨ c.1.kind = .exchange ∨ c.1.kind = .surface ∨ c.1.kind = .gas := by
    intro c hc
    have oc : ∀ (b : Bool) (k : Kind) (n : String), ∀ c ∈ optCol rows b k n, c.1.kind = k := by
      intro b k n c hc
      unfold optCol at hc
      split at hc
      · rw [List.mem_singleton.1 hc]; rfl
      · simp at hc
    rw [ho] at hc
    simp only [List.mem_append] at hc
    rcases hc with ((h | h) | h) | h
    · exact Or.inl (oc _ _ _ c h)
    · exact Or.inr (Or.inl (oc _ _ _ c h))
    · exact Or.inr (Or.inr (Or.inl (oc _ _ _ c h)))
    · exact Or.inr (Or.inr (Or.inr (oc _ _ _ c h)))
  obtain ⟨l1, e1, m1⟩ := addComps_sub rows .pure v.pure (s0 :: s1 :: o)
  obtain ⟨l2, e2, m2⟩ := addComps_sub rows .ss (v.ss.map fun c => (c.1, c.2, ([] : Text))) (s0 :: s1 :: o ++ l1)
  obtain ⟨l3, e3, m3⟩ := addComps_sub rows .kinetics (v.kinetics.map fun c => (c.1, c.2, ([] : Text))) (s0 :: s1 :: o ++ l1 ++ l2)
  have hbuild : build rows v = (s0 :: s1 :: o ++ l1 ++ l2 ++ l3).map (·.1) := by
    have : build rows v = ((v.kinetics.map fun c => (c.1, c.2, ([] : Text))).foldl (addComp rows .kinetics)
      ((v.ss.map fun c => (c.1, c.2, ([] : Text))).foldl (addComp rows .ss)
        (v.pure.foldl (addComp rows .pure) (s0 :: s1 :: o)))).map (·.1) := by
      rw [hs0, hs1, ho]; simp only [build, List.append_assoc]; rfl
    rw [this, e1, e2, e3]
  have kp1 : ∀ c ∈ l1, c.1.kind = .pure := fun c hc => by obtain ⟨x, _, rfl⟩ := m1 c hc; rfl
  have kp2 : ∀ c ∈ l2, c.1.kind = .ss := fun c hc => by obtain ⟨x, _, rfl⟩ := m2 c hc; rfl
  have kp3 : ∀ c ∈ l3, c.1.kind = .kinetics := fun c hc => by obtain ⟨x, _, rfl⟩ := m3 c hc; rfl
  have hrest : ∀ c ∈ o ++ l1 ++ l2 ++ l3, c.1.kind ≠ .solution := by
    intro c hc
    simp only [List.mem_append] at hc
    rcases hc with ((h | h) | h) | h
    · rcases hok c h with h | h | h | h <;> rw [h] <;> decide
    · rw [kp1 c h]; decide
    · rw [kp2 c h]; decide
    · rw [kp3 c h]; decide
  -- the second entry of a column
  have snd2 : ∀ c ∈ l2, c.2 = [] := fun c hc => by
    obtain ⟨x, hx, rfl⟩ := m2 c hc
    obtain ⟨y, _, rfl⟩ := List.mem_map.1 hx; rfl
  have snd3 : ∀ c ∈ l3, c.2 = [] := fun c hc => by
    obtain ⟨x, hx, rfl⟩ := m3 c hc
    obtain ⟨y, _, rfl⟩ := List.mem_map.1 hx; rfl
  have noK : ∀ (k : Kind) (cs : List (Col × Text)), (∀ c ∈ cs, c.1.kind ≠ k) → Distinct k cs := by
    intro k cs h
    unfold Distinct
    rw [List.pairwise_iff_forall_sublist]
    intro a b hs
    rintro ⟨h1, _⟩
    exact h a (hs.subset (by simp)) h1
  have d2 : Distinct .ss (s0 :: s1 :: o ++ l1 ++ l2) := by
    obtain ⟨ds, h1, h2⟩ := addComps_distinct rows .ss s0 (by rw [k0]; decide) (v.ss.map fun c => (c.1, c.2, ([] : Text)))
      (s1 :: o ++ l1) (noK .ss _ (by
        intro c hc
        simp only [List.cons_append, List.mem_cons, List.mem_append] at hc
        rcases hc with rfl | rfl | h | h
        · rw [k0]; decide
        · rw [k1]; decide
        · rcases hok c h with h | h | h | h <;> rw [h] <;> decide
        · rw [kp1 c h]; decide))
    rw [← e2]
    rw [← h1] at h2
    exact h2
  have d2' : Distinct .ss (s0 :: s1 :: o ++ l1 ++ l2 ++ l3) := distinct_append .ss .kinetics (by decide) _ _ d2 kp3
  have d3 : Distinct .kinetics (s0 :: s1 :: o ++ l1 ++ l2 ++ l3) := by
    obtain ⟨ds, h1, h2⟩ := addComps_distinct rows .kinetics s0 (by rw [k0]; decide) (v.kinetics.map fun c => (c.1, c.2, ([] : Text)))
      (s1 :: o ++ l1 ++ l2) (noK .kinetics _ (by
        intro c hc
        simp only [List.cons_append, List.mem_cons, List.mem_append] at hc
        rcases hc with rfl | rfl | (h | h) | h
        · rw [k0]; decide
        · rw [k1]; decide
        · rcases hok c h with h | h | h | h <;> rw [h] <;> decide
        · rw [kp1 c h]; decide
        · rw [kp2 c h]; decide))
    rw [← e3]
    rw [← h1] at h2
    exact h2
  have uniq : ∀ (i j : Nat) (c d : Col), (build rows v)[i]? = some c → (build rows v)[j]? = some d → c.kind = d.kind → c.name = d.name →
      c.kind = .ss ∨ c.kind = .kinetics → ¬ i < j := by
    intro i j c d hi hj hk hn hkind hlt
    rw [hbuild, List.getElem?_map] at hi hj
    obtain ⟨c', hc', rfl⟩ := Option.map_eq_some_iff.1 hi
    obtain ⟨d', hd', rfl⟩ := Option.map_eq_some_iff.1 hj
    obtain ⟨hi', ei⟩ := List.getElem?_eq_some_iff.1 hc'
    obtain ⟨hj', ej⟩ := List.getElem?_eq_some_iff.1 hd'
    have snd : ∀ c ∈ s0 :: s1 :: o ++ l1 ++ l2 ++ l3, c.1.kind = .ss ∨ c.1.kind = .kinetics → c.2 = [] := by
      intro c hc hkk
      simp only [List.cons_append, List.mem_cons, List.mem_append] at hc
      rcases hc with rfl | rfl | ((h | h) | h) | h
      · rw [k0] at hkk; simp at hkk
      · rw [k1] at hkk; simp at hkk
      · rcases hok c h with h | h | h | h <;> rw [h] at hkk <;> simp at hkk
      · rw [kp1 c h] at hkk; simp at hkk
      · exact snd2 c h
      · exact snd3 c h
    have hs : c'.2 = d'.2 := by
      rw [snd c' (ei ▸ List.getElem_mem hi') hkind, snd d' (ej ▸ List.getElem_mem hj') (hk ▸ hkind)]
    rcases hkind with hkk | hkk
    · have := List.pairwise_iff_getElem.1 d2' i j hi' hj' hlt
      rw [ei, ej] at this
      exact this ⟨hkk, hk ▸ hkk, hn, hs⟩
    · have := List.pairwise_iff_getElem.1 d3 i j hi' hj' hlt
      rw [ei, ej] at this
      exact this ⟨hkk, hk ▸ hkk, hn, hs⟩
  refine ⟨by rw [hbuild]; simp, ?_, ?_, ?_, ?_, ?_⟩
  · intro i c hc
    rw [hbuild, List.getElem?_map] at hc
    obtain ⟨c', hc', rfl⟩ := Option.map_eq_some_iff.1 hc
    match i with
    | 0 =>
      have : s0 = c' := by simpa using hc'
      rw [← this, k0]; simp
    | 1 =>
      have : s1 = c' := by simpa using hc'
      rw [← this, k1]; simp
    | i + 2 =>
      have hm : c' ∈ o ++ l1 ++ l2 ++ l3 := by
        have : (o ++ l1 ++ l2 ++ l3)[i]? = some c' := by simpa using hc'
        exact List.mem_of_getElem? this
      have := hrest c' hm
      constructor
      · intro h; exact absurd h this
      · intro h; omega
  · intro x hx
    obtain ⟨c, hc, h1, h2, _⟩ := addComps_has rows .pure v.pure (s0 :: s1 :: o) x hx
    rw [e1] at hc
    refine ⟨c.1, ?_, h1, h2⟩
    rw [hbuild]
    exact List.mem_map_of_mem (List.mem_append_left _ (List.mem_append_left _ hc))
  · intro x hx
    obtain ⟨c, hc, h1, h2, _⟩ := addComps_has rows .ss (v.ss.map fun c => (c.1, c.2, ([] : Text))) (s0 :: s1 :: o ++ l1) _
      (List.mem_map_of_mem (f := fun c => (c.1, c.2, ([] : Text))) hx)
    rw [e2] at hc
    refine ⟨c.1, ?_, h1, h2⟩
    rw [hbuild]
    exact List.mem_map_of_mem (List.mem_append_left _ hc)
  · intro x hx
    obtain ⟨c, hc, h1, h2, _⟩ := addComps_has rows .kinetics (v.kinetics.map fun c => (c.1, c.2, ([] : Text))) (s0 :: s1 :: o ++ l1 ++ l2) _
      (List.mem_map_of_mem (f := fun c => (c.1, c.2, ([] : Text))) hx)
    rw [e3] at hc
    exact ⟨c.1, by rw [hbuild]; exact List.mem_map_of_mem hc, h1, h2⟩
  · intro i j c d hi hj hk hn hkind
    rcases Nat.lt_trichotomy i j with h | h | h
    · exact absurd h (uniq i j c d hi hj hk hn hkind)
    · exact h
    · exact absurd h (uniq j i d c hj hi hk.symm hn.symm (hk ▸ hkind))

/-! A small data base: 0 alkalinity, 1 calcium, 2 iron with states 3 and 4. -/
def demoDb : Db := ⟨fun m => if m = 3 ∨ m = 4 then 2 else m, fun _ => false, fun _ => true, 5⟩
def demoRows : Rows := [some 0, none, none, some 1, some 2, some 3, some 4]
def demoSol (ca : Rat) : Sol := ⟨1/1000, 111, 56, [(1, ca), (3, 2), (4, 5)]⟩
def demoEnts (ca calcite : Rat) : Ents where
  solution n := if n = 7 ∨ n = 8 then some (demoSol ca) else none
  reaction _ := none
  exchange n := if n = 1 then some [(1, ca), (2, 3)] else none
  surface _ := none
  gas _ := none
  pure n := if n = 1 then some [("CALCITE".toList, calcite)] else none
  ss _ := none
  kinetics _ := none
def demoInv : Inventory :=
  { reaction := false, exchange := true, surface := false, gas := false,
    pure := [("Calcite".toList, [(1, 1)], []), ("Calcite".toList, [(1, 1)], [])], ss := [], kinetics := [] }
def demoUser : Kind → Int
  | .solution => 8
  | .exchange => 1
  | .pure => 1
  | _ => -1

example : (build demoRows demoInv).map (fun c => c.name) =
    ["Solution_conservative".toList, "Solution_reaction".toList, "Exchange".toList, "Calcite".toList] := by decide +kernel

/-- The hypotheses of `C31_table` hold for it. -/
theorem demo_listed (es : Elts) (h1 : (es.map (·.1)).Nodup) (h2 : ∀ p ∈ es.map (·.1), p = 1 ∨ p = 2) : Listed demoDb demoRows es := by
  refine ⟨h1, fun p hp _ => ?_⟩
  rcases h2 p hp with rfl | rfl
  · exact ⟨3, by decide +kernel⟩
  · exact ⟨4, by decide +kernel⟩

theorem demo_rows (m : Nat) (h : m < 5) : some m ∈ demoRows := by
  have : ∀ m, m < 5 → some m ∈ demoRows := by decide +kernel
  exact this m h

example (ca calcite : Rat) : EntsOk demoDb demoRows (demoEnts ca calcite) where
  reaction n r h := by cases h
  exchange n es h := by
    have : es = [(1, ca), (2, 3)] := by
      change (if n = 1 then some [(1, ca), (2, 3)] else none) = some es at h
      split_ifs at h
      exact (Option.some.inj h).symm
    rw [this]
    exact demo_listed _ (by simp) (by simp)
  surface n r h := by cases h
  gas n r h := by cases h
  keys n s h := by
    have : s = demoSol ca := by
      change (if n = 7 ∨ n = 8 then some (demoSol ca) else none) = some s at h
      split_ifs at h
      exact (Option.some.inj h).symm
    rw [this]
    change [1, 3, 4].Nodup
    decide
  totals n s h := by
    intro m hm _ _
    exact demo_rows m hm

example : TableOk demoDb demoRows (build demoRows demoInv) where
  rows3 := by decide
  masters i j m hi hj := by
    have hi' := (List.getElem?_eq_some_iff.1 hi).1
    have hj' := (List.getElem?_eq_some_iff.1 hj).1
    simp only [demoRows, List.length_cons, List.length_nil] at hi' hj'
    have key : ∀ i, i < 7 → ∀ j, j < 7 → demoRows[i]? = demoRows[j]? → (demoRows[i]?).join ≠ none → i = j := by decide +kernel
    exact key i hi' j hj' (hi.trans hj.symm) (by rw [hi]; simp)
  inDb m hm := by
    simp [demoRows] at hm
    change m < 5
    omega
  solutions := (C31_columns demoRows demoInv).2.1
  two := (C31_columns demoRows demoInv).1
  formulas := by
    intro c hc
    have hf : c.formula = [] ∨ c.formula = [(1, 1)] := by
      have : ∀ c ∈ build demoRows demoInv, c.formula = [] ∨ c.formula = [(1, 1)] := by decide +kernel
      exact this c hc
    rcases hf with h | h <;> rw [h]
    · exact demo_listed _ (by simp) (by simp)
    · exact demo_listed _ (by simp) (by simp)

example : tallyRun demoDb demoRows (build demoRows demoInv) demoUser 7 (demoEnts 1 10) (demoEnts 3 8) (List.replicate 36 9) 8 4 2 =
    some (true, [1/1000, 111, 56, 3, 7, 2, 5, 0, 9] ++ [1/1000, 111, 56, 3, 7, 2, 5, 0, 9] ++
      [0, 0, 0, 1, 0, 0, 0, 0, 9] ++ [0, 0, 0, -1, 0, 0, 0, 4, 9]) := by decide +kernel

/-- C31: a caller who declares one row less than the table has is accepted although there is no room for the
additional row: it is written into the following column, and past the end of the array for the last one. -/
theorem C31_overlap_violated :
    let cols := [newCol [some 0, none, none] .solution [] [], newCol [some 0, none, none] .solution [] []]
    store 3 cols (List.replicate 7 5) 2 2 1 = some (true, [0, 0, 0, 0, 0, 0, 0]) ∧
    store 3 cols (List.replicate 6 5) 2 2 1 = none := by decide +kernel

/-- C31: a phase that occurs with two alternative formulas has two columns, and each reports the whole amount
of the phase whichever formula the assemblage in use has: the element of a reactant that is not there changes. -/
theorem C31_alternative_formula_violated :
    let v : Inventory := { demoInv with pure := [("Calcite".toList, [(1, 1)], []), ("Calcite".toList, [(2, 1)], "Fe".toList)] }
    tallyRun demoDb demoRows (build demoRows v) (fun k => if k = .pure then 1 else -1) 7 (demoEnts 1 10) (demoEnts 1 8) (List.replicate 40 0) 7 5 1 =
      some (true, List.replicate 8 0 ++ List.replicate 8 0 ++ List.replicate 8 0 ++ [0, 0, 0, -2, 0, 0, 0, 8] ++ [0, 0, 0, 0, -2, 0, 0, 8]) := by
  decide +kernel

/-- C31: two kinetic reactants with one rate name and different formulas share a column with the formula of
the first; the elements of the second are reported wrongly. -/
theorem C31_kinetics_formula_violated :
    let v : Inventory := { demoInv with exchange := false, pure := [], kinetics := [("Rate".toList, [(1, 1)]), ("Rate".toList, [(2, 1)])] }
    ∃ c0 c1 c, build demoRows v = [c0, c1, c] ∧ c.kind = .kinetics ∧ c.formula = [(1, 1)] := by
  exact ⟨_, _, _, rfl, rfl, rfl⟩

end Verif.Tally
