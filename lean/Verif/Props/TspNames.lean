import Verif.Lemmas.TspNames
import Mathlib.Data.List.Nodup
/-
C136: names of series and tables of TSPROC.
-/
namespace Verif.Tsp

variable {α : Type}

/-- Names are found in any case of their letters. -/
theorem C136_case (st : Store α) (k : Kind) (v w : List Nat) (h : Same v w) (hb : 32 ∈ v ↔ 32 ∈ w) : lookup st k v = lookup st k w := by
  have hl : v.length = w.length := by
    have := congrArg List.length h
    simpa using this
  have : readName v = readName w := by
    unfold readName
    rw [hl, h]
    by_cases hb' : 32 ∈ w
    · simp [hb', hb.2 hb']
    · simp [hb', mt hb.1 hb']
  unfold lookup
  rw [this]

/-- A name stands for one thing, whatever was made and erased before, except that a series and a C_TABLE can have the same name. -/
theorem C136_unique_partial (st : Store α) (h : Reach st) (j k : Kind) (w : List Nat) (hw : Plain w) (x y : Entry α)
    (h1 : lookup st j w = some x) (h2 : lookup st k w = some y) (hc : ¬ (j = .series ∧ k = .c) ∧ ¬ (j = .c ∧ k = .series)) :
    j = k ∧ x = y := by
  have hi := inv_reach h
  have := h1
  obtain ⟨_, n1, i1, a1⟩ := (lookup_iff hi hw).1 h1
  obtain ⟨_, n2, i2, a2⟩ := (lookup_iff hi hw).1 h2
  rcases hi.cross j k i1 i2 x y a1 a2 (by rw [n1, n2]) with rfl | h' | h'
  · rw [h1] at h2
    exact ⟨rfl, Option.some.inj h2⟩
  · exact absurd h' hc.1
  · exact absurd h' hc.2

/-- No two active elements of an array have the same name. -/
theorem C136_elements (st : Store α) (h : Reach st) (k : Kind) (i j : Nat) (x y : Entry α) (hx : (st k)[i]? = some (some x))
    (hy : (st k)[j]? = some (some y)) (hn : Same x.name y.name) : i = j := by
  have hi := inv_reach h
  have low : ∀ n : Name, Low n → n.map lower = n := by
    intro n hn
    conv_rhs => rw [← List.map_id n]
    apply List.map_congr_left
    intro c hc
    have := (hn c hc).2
    unfold lower
    rw [if_neg this]; rfl
  unfold Same at hn
  rw [low _ (hi.low k i x hx), low _ (hi.low k j y hy)] at hn
  exact hi.uniq k i j x y hx hy hn

/-- What is made is found under its name, and all others as before. -/
theorem C136_create (st st' : Store α) (h : Reach st) (k : Kind) (w : List Nat) (hw : Plain w) (d : α) (b : Bool)
    (hc : create st k w d b = some st') :
    (∃ x, lookup st' k w = some x ∧ x.data = d ∧ x.double = b) ∧
    ∀ j v, Plain v → ¬ (j = k ∧ Same v w) → lookup st' j v = lookup st j v := by
  have hi := inv_reach h
  have hi' := inv_create hi hw hc
  obtain ⟨hf, hcl, i, hfree, rfl⟩ := (create_iff hi hw).1 hc
  obtain ⟨hlt, hn⟩ := free_lt hfree
  have at' := at_put hlt (some ⟨w.map lower, d, b⟩)
  constructor
  · exact ⟨⟨w.map lower, d, b⟩, (lookup_iff hi' hw).2 ⟨hf, rfl, i, by rw [at', if_pos ⟨rfl, rfl⟩]⟩, rfl, rfl⟩
  · intro j v hv hne
    apply Option.ext
    intro x
    rw [lookup_iff hi' hv, lookup_iff hi hv]
    refine and_congr_right fun _ => and_congr_right fun hx => exists_congr fun i' => ?_
    rw [at']
    split
    · rename_i he
      obtain ⟨rfl, rfl⟩ := he
      constructor
      · rintro he
        cases he
        exact absurd ⟨rfl, hx.symm⟩ hne
      · intro ha
        unfold At at ha
        rw [hn] at ha
        cases ha
    · exact Iff.rfl

/-- A new name is refused if it is too long or has a blank, if it is in use, or there is no place left. -/
theorem C136_create_refused (st : Store α) (h : Reach st) (k : Kind) (w : List Nat) (hw : Plain w) (d : α) (b : Bool) :
    create st k w d b = none ↔ ¬ Fit w ∨ (∃ j, ¬ (k = .series ∧ j = .c) ∧ lookup st j w ≠ none) ∨ ¬ Room st k := by
  have hi := inv_reach h
  have room : Room st k ↔ ∃ i, (st k).findIdx? Option.isNone = some i := by
    unfold Room
    constructor
    · intro hm
      cases hf : (st k).findIdx? Option.isNone with
      | some i => exact ⟨i, rfl⟩
      | none =>
        rw [List.findIdx?_eq_none_iff] at hf
        have := hf none hm
        cases this
    · rintro ⟨i, hfi⟩
      exact List.mem_of_getElem? (free_lt hfi).2
  by_cases hf : Fit w
  · have key : create st k w d b ≠ none ↔ (∀ j, ¬ (k = .series ∧ j = .c) → lookup st j w = none) ∧ Room st k := by
      rw [Option.ne_none_iff_exists']
      constructor
      · rintro ⟨st', hs⟩
        obtain ⟨_, h1, i, h2, _⟩ := (create_iff hi hw).1 hs
        exact ⟨fun j hj => (lookup_none hi hw hf).2 (h1 j ((checked_iff k j).2 hj)), room.2 ⟨i, h2⟩⟩
      · rintro ⟨h1, h2⟩
        obtain ⟨i, h2⟩ := room.1 h2
        exact ⟨_, (create_iff hi hw).2 ⟨hf, fun j hj => (lookup_none hi hw hf).1 (h1 j ((checked_iff k j).1 hj)), i, h2, rfl⟩⟩
    rw [← not_iff_not]
    have e : ¬ (¬ Fit w ∨ (∃ j, ¬ (k = .series ∧ j = .c) ∧ lookup st j w ≠ none) ∨ ¬ Room st k) ↔
        (∀ j, ¬ (k = .series ∧ j = .c) → lookup st j w = none) ∧ Room st k := by
      simp only [not_or, not_exists, not_and, not_not]
      constructor
      · rintro ⟨_, h1, h2⟩; exact ⟨h1, h2⟩
      · rintro ⟨h1, h2⟩; exact ⟨hf, h1, h2⟩
    rw [e]
    exact key
  · have : readName w = none := readName_none.2 hf
    unfold create newName
    rw [this]
    simp [hf]

theorem clearAll_some (l : List (Kind × Nat)) : ∀ (st : Store α), l.Nodup →
    (∀ p ∈ l, ∃ x, At st p.1 p.2 x ∧ (p.1 = .series → x.double = false)) → ∃ st', l.foldlM clear st = some st' := by
  induction l with
  | nil => intro st _ _; exact ⟨st, rfl⟩
  | cons p l ih =>
    intro st hn h
    obtain ⟨x, hx, hd⟩ := h p (List.mem_cons_self ..)
    have hc : ∃ s1, clear st p = some s1 := by
      unfold clear
      have : (st p.1).getD p.2 none = some x := by rw [List.getD_eq_getElem?_getD, hx]; rfl
      rw [this]
      simp only
      rw [if_neg]
      · exact ⟨_, rfl⟩
      · rintro ⟨h1, h2⟩
        rw [hd h1] at h2
        cases h2
    obtain ⟨s1, hc⟩ := hc
    obtain ⟨hn1, hn2⟩ := List.nodup_cons.1 hn
    obtain ⟨st', hs⟩ := ih s1 hn2 fun q hq => by
      obtain ⟨y, hy, hd⟩ := h q (List.mem_cons_of_mem _ hq)
      refine ⟨y, (clear_at hc q.1 q.2 y).2 ⟨?_, hy⟩, hd⟩
      rintro rfl
      exact hn1 hq
    exact ⟨st', by rw [List.foldlM_cons, hc]; exact hs⟩

theorem mapM_some {β γ : Type} (f : β → Option γ) (g : β → γ) (l : List β) (h : ∀ p ∈ l, f p = some (g p)) : l.mapM f = some (l.map g) := by
  induction l with
  | nil => rfl
  | cons p l ih =>
    rw [List.mapM_cons, h p (List.mem_cons_self ..), ih fun q hq => h q (List.mem_cons_of_mem _ hq)]
    rfl

theorem inOrder_nodup {l : List (Kind × Nat)} (h : l.Nodup) : (inOrder l).Nodup := by
  unfold inOrder
  rw [List.nodup_flatMap]
  refine ⟨fun k _ => h.filter _, ?_⟩
  have : [Kind.series, .s, .c, .v, .e].Nodup := by decide
  refine this.imp fun {a b} hab => ?_
  intro p hp hq
  simp only [List.mem_filter, decide_eq_true_eq] at hp hq
  exact hab (hp.2.symm.trans hq.2)

/-- Exactly what is named is erased: series that are not made from a V_TABLE, and all kinds of tables but G_TABLEs, each named once. -/
theorem C136_erase_partial (st : Store α) (h : Reach st) (l : List (Kind × List Nat)) (h0 : l ≠ [])
    (hl : ∀ p ∈ l, p.1 ≠ .g ∧ Plain p.2 ∧ ∃ x, lookup st p.1 p.2 = some x ∧ (p.1 = .series → x.double = false))
    (hd : l.Pairwise fun p q => ¬ (p.1 = q.1 ∧ Same p.2 q.2)) :
    ∃ st', erase st l = some st' ∧ ∀ k w, Plain w →
      ((∃ p ∈ l, p.1 = k ∧ Same p.2 w) → lookup st' k w = none) ∧
      ((¬ ∃ p ∈ l, p.1 = k ∧ Same p.2 w) → lookup st' k w = lookup st k w) := by
  have hi := inv_reach h
  have spec : ∀ p ∈ l, ∃ i x, find (p.2.map lower) (st p.1) = some i ∧ At st p.1 i x ∧ x.name = p.2.map lower ∧ Fit p.2 ∧
      (p.1 = .series → x.double = false) := by
    intro p hp
    obtain ⟨_, hw, x, hx, hdd⟩ := hl p hp
    obtain ⟨hf, hn, i, ha⟩ := (lookup_iff hi hw).1 hx
    exact ⟨i, x, (find_iff hi (low_lower hw)).2 ⟨x, ha, hn⟩, ha, hn, hf, hdd⟩
  let f : Kind × List Nat → Kind × Nat := fun p => (p.1, (find (p.2.map lower) (st p.1)).getD 0)
  have hf : ∀ p ∈ l, target st p = some (f p) := by
    intro p hp
    obtain ⟨i, x, h1, _, _, h2, _⟩ := spec p hp
    unfold target
    rw [if_neg (hl p hp).1, readName_iff.2 ⟨h2, rfl⟩, Option.bind_some, h1]
    simp [f, h1]
  have hmap := mapM_some (target st) f l hf
  have hfat : ∀ p ∈ l, ∃ x, At st (f p).1 (f p).2 x ∧ x.name = p.2.map lower ∧ ((f p).1 = .series → x.double = false) := by
    intro p hp
    obtain ⟨i, x, h1, h2, h3, _, h5⟩ := spec p hp
    refine ⟨x, ?_, h3, h5⟩
    simp only [f, h1, Option.getD_some]
    exact h2
  have hnd : (l.map f).Nodup := by
    unfold List.Nodup
    rw [List.pairwise_map]
    refine hd.imp_of_mem fun {p q} hp hq hpq he => hpq ?_
    obtain ⟨x, hx, hxn, _⟩ := hfat p hp
    obtain ⟨y, hy, hyn, _⟩ := hfat q hq
    have hxy : x = y := by
      unfold At at hx hy
      rw [he, hy] at hx
      simpa using hx.symm
    have e1 : (f p).1 = (f q).1 := by rw [he]
    exact ⟨e1, by unfold Same; rw [← hxn, ← hyn, hxy]⟩
  have hg : ∀ p ∈ l.map f, p.1 ≠ .g := by
    intro p hp
    obtain ⟨q, hq, rfl⟩ := List.mem_map.1 hp
    exact (hl q hq).1
  obtain ⟨st', hs⟩ := clearAll_some (inOrder (l.map f)) st (inOrder_nodup hnd) fun p hp => by
    obtain ⟨q, hq, rfl⟩ := List.mem_map.1 ((mem_inOrder hg p).1 hp)
    obtain ⟨x, h1, _, h2⟩ := hfat q hq
    exact ⟨x, h1, h2⟩
  have he : erase st l = some st' := by
    unfold erase
    rw [if_neg h0, hmap, Option.bind_some]
    exact hs
  have hi' := inv_erase hi he
  refine ⟨st', he, fun k w hw => ⟨?_, ?_⟩⟩
  · rintro ⟨p, hp, rfl, hpw⟩
    cases hlk : lookup st' p.1 w with
    | none => rfl
    | some x =>
      obtain ⟨_, hn, i, ha⟩ := (lookup_iff hi' hw).1 hlk
      rw [clearAll_at _ hs, mem_inOrder hg] at ha
      obtain ⟨y, hy, hyn, _⟩ := hfat p hp
      have := hi.uniq p.1 i (f p).2 x y ha.2 hy (by rw [hn, hyn]; exact hpw.symm)
      refine absurd (List.mem_map.2 ⟨p, hp, ?_⟩) ha.1
      rw [this]
  · intro hno
    apply Option.ext
    intro x
    rw [lookup_iff hi' hw, lookup_iff hi hw]
    refine and_congr_right fun _ => and_congr_right fun hn => exists_congr fun i => ?_
    rw [clearAll_at _ hs, mem_inOrder hg, and_iff_right_iff_imp]
    intro ha hm
    obtain ⟨p, hp, hpe⟩ := List.mem_map.1 hm
    obtain ⟨y, hy, hyn, _⟩ := hfat p hp
    rw [hpe] at hy
    have hxy : x = y := by
      unfold At at ha hy
      rw [ha] at hy
      simpa using hy
    refine hno ⟨p, hp, congrArg Prod.fst hpe, ?_⟩
    unfold Same
    rw [← hyn, ← hxy, hn]

theorem clear_length {st st' : Store α} {p : Kind × Nat} (h : clear st p = some st') (k : Kind) : (st' k).length = (st k).length := by
  unfold clear at h
  split at h
  · split at h
    · cases h; rfl
    · cases h
  · split at h
    · cases h
    · cases h
      unfold put
      split
      · rename_i hk; rw [hk, List.length_set]
      · rfl

theorem clearAll_length (l : List (Kind × Nat)) : ∀ {st st' : Store α}, l.foldlM clear st = some st' → ∀ k,
    (st' k).length = (st k).length := by
  induction l with
  | nil => intro st st' h k; cases h; rfl
  | cons p l ih =>
    intro st st' h k
    rw [List.foldlM_cons] at h
    cases hc : clear st p with
    | none => rw [hc] at h; cases h
    | some s1 =>
      rw [hc] at h
      have h' : l.foldlM clear s1 = some st' := h
      rw [ih h', clear_length hc]

/-- A name that has been erased can be used again for the same kind, unless something else has it. -/
theorem C136_reuse (st st' : Store α) (h : Reach st) (k : Kind) (w : List Nat) (hw : Plain w) (x : Entry α) (hx : lookup st k w = some x)
    (he : erase st [(k, w)] = some st') (ho : ∀ j, j ≠ k → ¬ (k = .series ∧ j = .c) → lookup st j w = none) (d : α) (b : Bool) :
    create st' k w d b ≠ none := by
  have hi := inv_reach h
  obtain ⟨hf, hn, i, ha⟩ := (lookup_iff hi hw).1 hx
  have hr : Reach st' := Reach.erase h (by simpa using hw) he
  have hi' := inv_reach hr
  have he' := he
  unfold erase at he'
  rw [if_neg (by simp), Option.bind_eq_some_iff] at he'
  obtain ⟨ps, h1, h2⟩ := he'
  rw [List.mapM_cons] at h1
  cases ht : target st (k, w) with
  | none => rw [ht] at h1; cases h1
  | some q =>
    rw [ht] at h1
    cases h1
    have hk : k ≠ .g := by
      rintro rfl
      simp [target] at ht
    have hq : q = (k, i) := by
      unfold target at ht
      rw [if_neg hk, readName_iff.2 ⟨hf, rfl⟩, Option.bind_some, (find_iff hi (low_lower hw)).2 ⟨x, ha, hn⟩] at ht
      simpa using ht.symm
    subst hq
    rw [List.reverse_nil] at h2
    have hg : ∀ p ∈ [(k, i)], p.1 ≠ Kind.g := by simpa using hk
    have gone : ∀ j i' y, At st' j i' y ↔ (j, i') ≠ (k, i) ∧ At st j i' y := by
      intro j i' y
      rw [clearAll_at _ h2, mem_inOrder hg, List.mem_singleton]
    intro hc
    rw [C136_create_refused st' hr k w hw d b] at hc
    rcases hc with hc | ⟨j, hj, hc⟩ | hc
    · exact hc hf
    · apply hc
      cases hl : lookup st' j w with
      | none => rfl
      | some y =>
        obtain ⟨_, hyn, i', hy⟩ := (lookup_iff hi' hw).1 hl
        rw [gone] at hy
        by_cases hjk : j = k
        · subst hjk
          have := hi.uniq j i' i y x hy.2 ha (by rw [hyn, hn])
          rw [this] at hy
          exact absurd rfl hy.1
        · have := (lookup_iff hi hw).2 ⟨hf, hyn, i', hy.2⟩
          rw [ho j hjk hj] at this
          cases this
    · apply hc
      have hlt : i < (st' k).length := by
        rw [clearAll_length _ h2]
        exact (List.getElem?_eq_some_iff.1 ha).1
      have hgt := List.getElem?_eq_getElem hlt
      cases hv : (st' k)[i] with
      | none => rw [hv] at hgt; exact List.mem_of_getElem? hgt
      | some y =>
        rw [hv] at hgt
        exact absurd rfl ((gone k i y).1 hgt).1

/-- A series made from a V_TABLE cannot be erased: memory is released that was never allocated. -/
theorem C136_double_violated (st : Store α) (w : List Nat) (x : Entry α) (h : lookup st .series w = some x) (hd : x.double = true) :
    erase st [(.series, w)] = none := by
  unfold lookup at h
  rw [Option.bind_eq_some_iff] at h
  obtain ⟨n, hn, h⟩ := h
  rw [Option.bind_eq_some_iff] at h
  obtain ⟨i, hi, h⟩ := h
  have hm : [((Kind.series, w) : Kind × List Nat)].mapM (target st) = some [(.series, i)] := by
    refine mapM_some (target st) (fun _ => (Kind.series, i)) _ fun p hp => ?_
    rw [List.mem_singleton] at hp
    subst hp
    simp [target, hn, hi]
  have ho : inOrder [(Kind.series, i)] = [(Kind.series, i)] := by simp [inOrder]
  unfold erase
  rw [if_neg (by simp), hm, Option.bind_some, ho, List.foldlM_cons]
  have : clear st (.series, i) = none := by
    unfold clear
    simp only
    rw [h]
    simp [hd]
  rw [this]
  rfl

/-- A G_TABLE cannot be erased. -/
theorem C136_g_table_violated (st : Store α) (w : List Nat) (l : List (Kind × List Nat)) : erase st ((.g, w) :: l) = none := by
  unfold erase
  rw [if_neg (by simp), List.mapM_cons]
  have : target st (.g, w) = none := by simp [target]
  rw [this]
  rfl

/-- Blocks one after another. -/
def exStore : Option (Store Nat) :=
  (create (start fun _ => 3) .c [65, 98] 1 false).bind fun st => (create st .s [120] 2 false).bind fun st => create st .series [97, 66] 3 false

/-- A series can get the name of a C_TABLE: `Ab` and `aB`. -/
theorem C136_c_table_violated : ∃ (st st' : Store Nat) (x y : Entry Nat), Reach st ∧ create st .series [97, 66] 3 false = some st' ∧
    lookup st' .series [97, 98] = some x ∧ lookup st' .c [97, 98] = some y := by
  refine ⟨_, _, ⟨[97, 98], 3, false⟩, ⟨[97, 98], 1, false⟩,
    Reach.create (k := .c) (w := [65, 98]) (d := 1) (b := false) (Reach.start fun _ => 3) (by decide) rfl, rfl, ?_, ?_⟩ <;> decide +kernel

/-- Characters after `z` are taken for others: `a{` and `a[` are the same name. -/
theorem C136_compare_violated : ∃ (st st' : Store Nat) (x : Entry Nat), create (start fun _ => 3) .series [97, 123] 1 false = some st ∧
    lookup st .series [97, 91] = some x ∧ x.name = [97, 123] ∧ create st .series [97, 91] 2 false = none ∧
    create st .series [98, 91] 2 false = some st' := by
  refine ⟨_, _, ⟨[97, 123], 1, false⟩, rfl, ?_, rfl, ?_, rfl⟩ <;> decide +kernel

/-- A series that is named twice in a block is not erased. -/
theorem C136_twice_violated : ∃ st : Store Nat, create (start fun _ => 3) .series [97] 1 false = some st ∧
    erase st [(.series, [97]), (.series, [65])] = none ∧ (erase st [(.series, [97])]).isSome = true := by
  refine ⟨_, rfl, ?_, ?_⟩ <;> decide +kernel

example : (exStore.bind fun st => erase st [(.series, [65, 66]), (.s, [120])]).map (fun st => (lookup st .series [97, 98], lookup st .c [97, 98])) =
    some (none, some ⟨[97, 98], 1, false⟩) := by decide +kernel

end Verif.Tsp
