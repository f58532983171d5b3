import Verif.Lemmas.Mixing
/-
C27: dictionary and serialization round trip.  C28: mixing totals is linear.  C29: redox states.
C53: intensive numbers of mixtures.
-/
namespace Verif.Nd

/-! ### C27 -/

/-- C27, dictionary: whatever words are looked up in whatever order, every index denotes its word, and two
lookups give the same index exactly if the words are equal. -/
theorem C27_dictionary (ws : List Text) :
    let r := findAll .empty ws
    r.1.length = ws.length ∧ ∀ i j : Nat, i < ws.length → j < ws.length →
      ((r.1[i]?).bind (r.2.words[·]?) = ws[i]?) ∧ (r.1[i]? = r.1[j]? ↔ ws[i]? = ws[j]?) := by
  intro r
  obtain ⟨h1, _, h3⟩ := findAll_spec inv_empty ws
  have hl : r.1.length = ws.length := by
    have := congrArg List.length h3
    simpa using this
  have key : ∀ i : Nat, i < ws.length → (r.1[i]?).bind (r.2.words[·]?) = ws[i]? := by
    intro i hi
    have := congrArg (·[i]?) h3
    simp only [List.getElem?_map] at this
    have hi' : i < r.1.length := by omega
    rw [List.getElem?_eq_getElem hi'] at this ⊢
    rw [List.getElem?_eq_getElem hi] at this ⊢
    simpa using this
  refine ⟨hl, fun i j hi hj => ⟨key i hi, ?_, ?_⟩⟩
  · intro h; rw [← key i hi, ← key j hj, h]
  · intro h
    have ki := key i hi
    have kj := key j hj
    have hi' : i < r.1.length := by omega
    have hj' : j < r.1.length := by omega
    rw [List.getElem?_eq_getElem hi'] at ki ⊢
    rw [List.getElem?_eq_getElem hj'] at kj ⊢
    rw [← h] at kj
    simp only [Option.bind_some] at ki kj
    rw [List.getElem?_eq_getElem hi, List.getElem?_eq_some_iff] at ki kj
    obtain ⟨a, ha⟩ := ki
    obtain ⟨b, hb⟩ := kj
    have := (List.getElem_inj h1.2.1).1 (ha.trans hb.symm)
    rw [this]

example : (findAll .empty ["Ca".toList, "Fe".toList, "Ca".toList]).1 = [0, 1, 0] := by decide +kernel

/-- C27, serialization: any number of name/value maps written one after the other and read back with the
dictionary rebuilt from its text are restored exactly, and both streams are used up exactly.  Partial: the
names are not empty, contain no newline and have at most 255 characters. -/
theorem C27_roundtrip_partial {V} (ms : List (ND V)) (hs : ∀ m ∈ ms, Sorted m)
    (hn : ∀ m ∈ ms, ∀ p ∈ m, p.1 ≠ [] ∧ GoodWord p.1) :
    let b := serializeAll ⟨.empty, [], []⟩ ms
    deserializeAll (Dict.ofText b.dict.oss).words ms.length b.ints b.doubles = some (ms, [], []) := by
  intro b
  obtain ⟨is, ds, h1, h2, h3, _, h5, h6⟩ := serializeAll_spec ms hs (fun m hm p hp => (hn m hm p hp).1)
    ⟨.empty, [], []⟩ inv_empty
  have hw : (Dict.ofText b.dict.oss).words = b.dict.words := ofText_words h3 fun w hw => by
    rcases h5 w hw with h | ⟨m, hm, p, hp, rfl⟩
    · simp [Dict.empty] at h
    · exact (hn m hm p hp).2
  rw [hw]
  have := h6 b.dict.words (List.prefix_refl _) [] []
  rw [List.append_nil, List.append_nil] at this
  have e1 : b.ints = is := by rw [show b.ints = _ from h1]; rfl
  have e2 : b.doubles = ds := by rw [show b.doubles = _ from h2]; rfl
  rw [e1, e2, this]

def demoMaps : List (ND Nat) :=
  [[("C(4)".toList, 1), ("Ca".toList, 2)], [], [("C(4)".toList, 3), ("Fe".toList, 4)]]

example : (∀ m ∈ demoMaps, Sorted m) ∧ (serializeAll ⟨.empty, [], []⟩ demoMaps).ints = [2, 0, 1, 0, 2, 0, 2] := by
  refine ⟨?_, by decide +kernel⟩
  intro m hm
  simp only [demoMaps, List.mem_cons, List.not_mem_nil, or_false] at hm
  rcases hm with rfl | rfl | rfl <;> simp [Sorted] <;> decide +kernel

/-- C27, an empty name shifts all following values. -/
theorem C27_empty_name_violated :
    let b := serialize ⟨.empty, [], []⟩ [([], 1), ("Ca".toList, 2)]
    (deserialize b.dict.words b.ints b.doubles).map (·.1) = some [("Ca".toList, 1)] := by decide +kernel

/-- C27, a word of more than 255 characters and all words after it are lost. -/
theorem C27_long_word_violated :
    let b := serialize ⟨.empty, [], []⟩ [(List.replicate 256 'a', 1), ("b".toList, 2)]
    Sorted [(List.replicate 256 'a', 1), ("b".toList, 2)] ∧ (Dict.ofText b.dict.oss).words = [] ∧
    (deserialize (Dict.ofText b.dict.oss).words b.ints b.doubles).isNone = true := by
  refine ⟨?_, by decide +kernel, by decide +kernel⟩
  refine List.pairwise_cons.2 ⟨fun q hq => ?_, List.pairwise_singleton _ _⟩
  rw [List.mem_singleton.1 hq]; decide +kernel

/-- C27, a word with a newline comes back as two words. -/
theorem C27_newline_violated :
    let b := serialize ⟨.empty, [], []⟩ [("a\nb".toList, 1)]
    (deserialize (Dict.ofText b.dict.oss).words b.ints b.doubles).map (·.1) = some [("a".toList, 1)] := by decide +kernel

/-! ### C28 -/

/-- C28, one addition: every amount becomes the sum of the own and the scaled amount; the result is a map
again; and a name is present exactly if it was, or is in the added map (and the factor is not zero). -/
theorem C28_add (m addee : ND Rat) (hm : Sorted m) (ha : Sorted addee) (f : Rat) :
    Sorted (addExtensive m addee f) ∧ (∀ k, val (addExtensive m addee f) k = val m k + f * val addee k) ∧
    ∀ k, (find (addExtensive m addee f) k).isSome = true ↔
      (find m k).isSome = true ∨ (f ≠ 0 ∧ (find addee k).isSome = true) := by
  refine ⟨sorted_addExtensive hm addee f, val_addExtensive m addee ha f, fun k => ?_⟩
  unfold addExtensive
  split_ifs with h
  · simp [h]
  · rw [find_fold_addOne]; simp [h]

/-- C28, any number of additions: the amounts are the own amount plus the sum of the scaled amounts. -/
theorem C28_sum (ps : List (ND Rat × Rat)) (hs : ∀ p ∈ ps, Sorted p.1) (m : ND Rat) (k : Text) :
    val (ps.foldl (fun m p => addExtensive m p.1 p.2) m) k = val m k + total (fun a => val a k) ps := by
  induction ps generalizing m with
  | nil => simp [total]
  | cons p ps ih =>
    rw [List.foldl_cons, ih fun q hq => hs q (List.mem_cons_of_mem _ hq), val_addExtensive _ _ (hs p (by simp)), total_cons]
    ring

/-- C28, order: adding the same maps in another order gives the same amounts. -/
theorem C28_order (ps qs : List (ND Rat × Rat)) (hp : ps.Perm qs) (hs : ∀ p ∈ ps, Sorted p.1) (m : ND Rat) (k : Text) :
    val (ps.foldl (fun m p => addExtensive m p.1 p.2) m) k = val (qs.foldl (fun m p => addExtensive m p.1 p.2) m) k := by
  rw [C28_sum ps hs, C28_sum qs fun q hq => hs q (hp.mem_iff.2 hq)]
  congr 1
  exact (hp.map _).sum_eq

/-- C28, scaling multiplies every amount. -/
theorem C28_multiply (m : ND Rat) (x : Rat) (k : Text) :
    val (multiply m x) k = x * val m k ∧ (find (multiply m x) k).isSome = (find m k).isSome := by
  rw [val, find_multiply]
  cases h : find m k with
  | none => simp [val, h]
  | some v => simp [val, h, mul_comm]

example : Sorted [("C(4)".toList, (1 : Rat)), ("Ca".toList, 2)] ∧
    addExtensive [("C(4)".toList, 1), ("Ca".toList, 2)] [("Ca".toList, 3), ("Fe".toList, 4)] (1 / 2) =
      [("C(4)".toList, 1), ("Ca".toList, 7 / 2), ("Fe".toList, 2)] := by
  refine ⟨by simp [Sorted]; decide +kernel, by decide +kernel⟩

/-- C28, mixtures: a mixture of stored solutions has, for water, hydrogen, oxygen, charge, volume,
alkalinity and every element, the sum of the fractions times the amounts; every missing solution is an
error and is left out. -/
theorem C28_mixture (store : Int → Option Soln) (mix : List (Int × Rat))
    (hs : ∀ n s, store n = some s → Sorted s.totals) :
    let r := mixSolutions store mix
    let ps := parts store mix
    r.1.massWater = total Soln.massWater ps ∧ r.1.totalH = total Soln.totalH ps ∧ r.1.totalO = total Soln.totalO ps ∧
    r.1.cb = total Soln.cb ps ∧ r.1.solnVol = total Soln.solnVol ps ∧ r.1.alk = total Soln.alk ps ∧
    (∀ k, val r.1.totals k = total (fun s => val s.totals k) ps) ∧
    r.2 = (mix.filter fun c => (store c.1).isNone).length := by
  intro r ps
  have e : r = _ := mixSolutions_eq store mix .zero 0
  have hps : ∀ p ∈ ps, Sorted p.1.totals := by
    intro p hp
    obtain ⟨c, _, hc⟩ := List.mem_filterMap.1 hp
    cases h : store c.1 with
    | none => simp [h] at hc
    | some s => rw [h] at hc; simp at hc; rw [← hc]; exact hs _ _ h
  rw [e]
  refine ⟨?_, ?_, ?_, ?_, ?_, ?_, ?_, by simp⟩
  · rw [add_fold (q := Soln.massWater) add_massWater]; simp [Soln.zero, ps]
  · rw [add_fold (q := Soln.totalH) add_totalH]; simp [Soln.zero, ps]
  · rw [add_fold (q := Soln.totalO) add_totalO]; simp [Soln.zero, ps]
  · rw [add_fold (q := Soln.cb) add_cb]; simp [Soln.zero, ps]
  · rw [add_fold (q := Soln.solnVol) add_solnVol]; simp [Soln.zero, ps]
  · rw [add_fold (q := Soln.alk) add_alk]; simp [Soln.zero, ps]
  · intro k
    rw [add_fold_totals _ hps]; simp [Soln.zero, val, find, ps]

/-- C28, reaction step: mixing for a reaction adds up hydrogen, oxygen, charge, water, and for every
element the totals of all its states, each times its fraction. -/
theorem C28_reaction_mixture (primary : Text → Option Text) (store : Stored) (mix : List (Int × Rat)) :
    let r := addMix primary store mix
    let ps := parts store mix
    (∀ w ∈ accExt, w.1 r = total (fun p => w.2 p.1) ps) ∧
    ∀ e, r.totals e = total (fun p => primarySum primary p.1.totals e) ps := by
  intro r ps
  constructor
  · intro w hw
    show w.1 (addMix primary store mix) = _
    unfold addMix
    rw [mixFold_ext primary store _ _ hw]
    have : w.1 { Acc.zero with errors := (mix.filter fun c => (store c.1).isNone).length } = 0 := by
      simp only [accExt, List.mem_cons, List.not_mem_nil, or_false] at hw
      rcases hw with rfl | rfl | rfl | rfl <;> rfl
    rw [this]; simp [ps]
  · intro e
    show (addMix primary store mix).totals e = _
    unfold addMix
    rw [mixFold_totals]
    simp [Acc.zero, ps]

/-- C28, scaling a solution by zero leaves it unchanged instead of emptying it. -/
theorem C28_zero_violated : (Soln.multiply ⟨1, 1, 1, 1, 1, 1, [], none⟩ 0).massWater = 1 := by decide +kernel

/-- C28, scaling by any other factor multiplies everything. -/
theorem C28_scale_partial (s : Soln) (x : Rat) (hx : x ≠ 0) :
    (s.multiply x).massWater = x * s.massWater ∧ (s.multiply x).totalH = x * s.totalH ∧
    (s.multiply x).totalO = x * s.totalO ∧ (s.multiply x).cb = x * s.cb ∧ (s.multiply x).solnVol = x * s.solnVol ∧
    (s.multiply x).alk = x * s.alk ∧ ∀ k, val (s.multiply x).totals k = x * val s.totals k := by
  unfold Soln.multiply
  split_ifs with h
  · have : x = 1 := h.resolve_left hx
    subst this; simp
  · exact ⟨mul_comm _ _, mul_comm _ _, mul_comm _ _, mul_comm _ _, mul_comm _ _, mul_comm _ _,
      fun k => (C28_multiply s.totals x k).1⟩

/-! ### C29 -/

/-- C29: the simplified totals contain exactly the elements (hydrogen, oxygen and charge left out), each
with the sum of the amounts of all its valence states.  Partial: names as the engine uses them. -/
theorem C29_simplify_partial (nd : ND Rat) (hs : Sorted nd) (hp : ∀ p ∈ nd, PlainName p.1) (e : Text) :
    (special e → find (simplifyRedox nd) e = none) ∧
    ((∀ p ∈ nd, elementOf p.1 ≠ e) → find (simplifyRedox nd) e = none) ∧
    (¬ special e → (∃ p ∈ nd, elementOf p.1 = e) → find (simplifyRedox nd) e = some (elementSum nd e)) := by
  have hm : nd.Pairwise fun a b => ltText (ename b.1) (ename a.1) = false := by
    refine List.Pairwise.imp_of_mem ?_ hs
    intro a b ha hb h
    rw [ename_eq (hp a ha), ename_eq (hp b hb)]
    exact elementOf_mono (hp b hb).1 (hp a ha).1 h
  obtain ⟨k1, k2, k3⟩ := simpleKeys_aux nd [] (by simp [Sorted]) (by simp [find])
  have hw := walk_spec nd (simpleKeys nd) hm k1 e
  have key : (find (simpleKeys nd) e).isSome = true ↔ (skipped e = false ∧ ∃ p ∈ nd, elementOf p.1 = e) := by
    have := k3 e
    unfold simpleKeys
    rw [this]
    simp only [find, Option.isSome_none, Bool.false_eq_true, false_or]
    constructor
    · rintro ⟨h, p, hpm, he⟩; exact ⟨h, p, hpm, by rw [← ename_eq (hp p hpm)]; exact he⟩
    · rintro ⟨h, p, hpm, he⟩; exact ⟨h, p, hpm, by rw [ename_eq (hp p hpm)]; exact he⟩
  have hnone : ¬ ((skipped e = false ∧ ∃ p ∈ nd, elementOf p.1 = e)) → find (simplifyRedox nd) e = none := by
    intro h
    rw [← key] at h
    unfold simplifyRedox
    rw [hw]
    cases hf : find (simpleKeys nd) e with
    | none => rfl
    | some v => rw [hf] at h; simp at h
  refine ⟨?_, ?_, ?_⟩
  · intro h
    exact hnone fun h' => by rw [(skipped_iff e).2 h] at h'; cases h'.1
  · intro h
    exact hnone fun ⟨_, p, hpm, he⟩ => h p hpm he
  · intro h1 h2
    have : skipped e = false := by
      cases hsk : skipped e with
      | false => rfl
      | true => exact absurd ((skipped_iff e).1 hsk) h1
    have hk := key.2 ⟨this, h2⟩
    unfold simplifyRedox
    rw [hw]
    cases hf : find (simpleKeys nd) e with
    | none => rw [hf] at hk; cases hk
    | some v =>
      have := k2 e v hf
      subst this
      simp [esum_elementSum hp]

def demoTotals : ND Rat :=
  [("C(-4)".toList, 1), ("C(4)".toList, 2), ("Ca".toList, 3), ("Fe(2)".toList, 4), ("Fe(3)".toList, 5), ("H(0)".toList, 6), ("K".toList, 7)]

example : Sorted demoTotals ∧ (∀ p ∈ demoTotals, PlainName p.1) ∧
    simplifyRedox demoTotals = [("C".toList, 3), ("Ca".toList, 3), ("Fe".toList, 9), ("K".toList, 7)] := by
  refine ⟨?_, ?_, by decide +kernel⟩
  · simp [Sorted, demoTotals]; decide +kernel
  · intro p hp
    simp only [demoTotals, List.mem_cons, List.not_mem_nil, or_false] at hp
    rcases hp with rfl | rfl | rfl | rfl | rfl | rfl | rfl <;>
      exact ⟨by decide +kernel, by decide +kernel⟩

/-- C29, the total of an element asked for by name is the sum over its valence states. -/
theorem C29_total (nd : ND Rat) (e : Text) : getTotal nd e = elementSum nd e := getTotal_eq nd e

/-- C29, scaling the activities of an element by a factor changes exactly the entries of that element. -/
theorem C29_activities (nd : ND Rat) (hs : Sorted nd) (str : Text) (h0 : str ≠ []) (hp : '(' ∉ str) (lg : Rat) :
    multActs str lg nd = nd.map fun p => (p.1, if elementOf p.1 = str then p.2 + lg else p.2) :=
  multActs_spec h0 hp lg nd hs

example : multActs "Fe".toList 1 demoTotals =
    [("C(-4)".toList, 1), ("C(4)".toList, 2), ("Ca".toList, 3), ("Fe(2)".toList, 5), ("Fe(3)".toList, 6), ("H(0)".toList, 6), ("K".toList, 7)] := by
  decide +kernel

/-- C29, a name with a character that sorts before the parenthesis makes later valence states disappear
from the sums. -/
theorem C29_order_violated :
    let nd : ND Rat := [("Fe".toList, 1), ("Fe aq".toList, 2), ("Fe(3)".toList, 4)]
    Sorted nd ∧ find (simplifyRedox nd) "Fe".toList = some 1 ∧ elementSum nd "Fe".toList = 5 := by
  refine ⟨by simp [Sorted]; decide +kernel, by decide +kernel, by decide +kernel⟩

/-- C29, merging totals: entries given as elements replace all valence states of that element, and nothing
else changes.  Partial: the source names no valence states (see `C29_merge_violated`). -/
theorem C29_merge_partial (m source : ND Rat) (hs : Sorted source) (hp : ∀ p ∈ source, '(' ∉ p.1) (k : Text) :
    find (mergeRedox m source) k =
      (match find source k with
       | some v => some v
       | none => if (find source (elementOf k)).isSome then none else find m k) := by
  unfold mergeRedox
  induction source generalizing m with
  | nil => simp [find]
  | cons p r ih =>
    obtain ⟨n, v⟩ := p
    have hn := hp (n, v) (by simp)
    rw [List.foldl_cons, ih _ (List.pairwise_cons.1 hs).2 fun q hq => hp q (List.mem_cons_of_mem _ hq),
      mergeOne_plain m hn, find, find]
    by_cases hk : n = k
    · subst hk
      have he : elementOf n = n := takeWhile_no_paren hn
      rw [find_tail hs, he, find_tail hs]; simp
    · simp only [hk, if_false]
      cases hf : find r k with
      | some w => rfl
      | none =>
        simp only
        by_cases he : elementOf k = n
        · have : n = elementOf k := he.symm
          simp only [this, if_true, Option.isSome_some]
          split_ifs <;> rfl
        · have : ¬ n = elementOf k := fun h => he h.symm
          simp only [he, this, if_false]

example : mergeRedox demoTotals [("Fe".toList, 1)] =
    [("C(-4)".toList, 1), ("C(4)".toList, 2), ("Ca".toList, 3), ("Fe".toList, 1), ("H(0)".toList, 6), ("K".toList, 7)] := by
  decide +kernel

/-- C29, merging a valence state removes the wrong element: merging `Fe(2)` keeps the total `Fe` (so iron
is counted twice) and removes fluorine `F`. -/
theorem C29_merge_violated :
    mergeRedox [("F".toList, 1), ("Fe".toList, 2)] [("Fe(2)".toList, 2)] = [("Fe".toList, 2), ("Fe(2)".toList, 2)] := by
  decide +kernel

/-! ### C53 -/

/-- C53, mixtures of stored solutions: temperature and the other intensive numbers of a mixture with
positive fractions are the means weighted with the masses of water. -/
theorem C53_mean (store : Int → Option Soln) (mix : List (Int × Rat)) (I : Soln → Intens)
    (hI : ∀ n s, store n = some s → s.int = some (I s) ∧ 0 < s.massWater) (hf : ∀ c ∈ mix, 0 < c.2) :
    ∃ K, (mixSolutions store mix).1.int = some K ∧ ∀ q ∈ intFields,
      q K * total Soln.massWater (parts store mix) = total (fun s => s.massWater * q (I s)) (parts store mix) := by
  have hps : ∀ p ∈ parts store mix, p.1.int = some (I p.1) ∧ 0 < p.1.massWater ∧ 0 < p.2 := by
    intro p hp
    obtain ⟨c, hc1, hc⟩ := List.mem_filterMap.1 hp
    cases h : store c.1 with
    | none => simp [h] at hc
    | some s =>
      rw [h] at hc; simp at hc; rw [← hc]
      exact ⟨(hI _ _ h).1, (hI _ _ h).2, hf c hc1⟩
  obtain ⟨K, k1, k2⟩ := add_fold_int (parts store mix) I (fun p hp => (hps p hp).1) (fun p hp => (hps p hp).2.2)
    (fun p hp => (hps p hp).2.1) .zero _ rfl (by simp [Soln.zero])
  have e : mixSolutions store mix = _ := mixSolutions_eq store mix .zero 0
  rw [e]
  refine ⟨K, k1, fun q hq => ?_⟩
  have := k2 q hq
  rw [add_fold (q := Soln.massWater) add_massWater] at this
  simpa [Soln.zero] using this

/-- C53, reaction step: the intensive numbers are the means weighted with the masses of water.  Partial:
the fractions are positive (see `C53_evaporation_violated`). -/
theorem C53_reaction_mean_partial (primary : Text → Option Text) (store : Stored) (mix : List (Int × Rat))
    (hf : ∀ c ∈ mix, 0 < c.2) (hw : ∀ p ∈ parts store mix, 0 < p.1.1.massWater) (hne : parts store mix ≠ []) :
    ∀ w ∈ accInt, w.1 (addMix primary store mix) * total (fun p => p.1.massWater) (parts store mix) =
      total (fun p => p.1.massWater * w.2 p.2) (parts store mix) := by
  intro w hw'
  have hpos : ∀ p ∈ parts store mix, 0 < p.2 := by
    intro p hp
    obtain ⟨c, hc1, hc⟩ := List.mem_filterMap.1 hp
    cases h : store c.1 with
    | none => simp [h] at hc
    | some s => rw [h] at hc; simp at hc; rw [← hc]; exact hf c hc1
  obtain ⟨s1, s2⟩ := mixSums_eq store mix hpos (0, 0, 0) rfl
  have hsum : (mixSums store mix).1 = total (fun p => p.1.massWater) (parts store mix) := by
    have : (mixSums store mix).1 = _ := s1
    rw [this]; simp
  have hsum2 : (mixSums store mix).2.1 = (mixSums store mix).1 := s2
  have hweight : ∀ f w', weight (mixSums store mix) mix.length f w' = f * w' / total (fun p => p.1.massWater) (parts store mix) := by
    intro f w'
    unfold weight
    rw [hsum2, hsum]; split_ifs <;> rfl
  have hT : 0 < total (fun (p : Soln × Intens) => p.1.massWater) (parts store mix) := by
    have : ∀ (l : List ((Soln × Intens) × Rat)), l ≠ [] → (∀ p ∈ l, 0 < p.2) → (∀ p ∈ l, 0 < p.1.1.massWater) →
        0 < total (fun p => p.1.massWater) l := by
      intro l
      induction l with
      | nil => intro h; exact absurd rfl h
      | cons p l ih =>
        intro _ h1 h2
        rw [total_cons]
        have a := h1 p (by simp)
        have b := h2 p (by simp)
        have c : 0 < p.2 * p.1.1.massWater := mul_pos a b
        by_cases hl : l = []
        · subst hl; simpa [total] using c
        · have := ih hl (fun q hq => h1 q (List.mem_cons_of_mem _ hq)) (fun q hq => h2 q (List.mem_cons_of_mem _ hq))
          linarith
    exact this _ hne hpos hw
  unfold addMix
  rw [mixFold_int primary store _ _ hw']
  have h0 : w.1 { Acc.zero with errors := (mix.filter fun c => (store c.1).isNone).length } = 0 := by
    simp only [accInt, List.mem_cons, List.not_mem_nil, or_false] at hw'
    rcases hw' with rfl | rfl | rfl | rfl | rfl | rfl | rfl | rfl | rfl <;> rfl
  rw [h0, zero_add]
  generalize total (fun (p : Soln × Intens) => p.1.massWater) (parts store mix) = T at *
  have hTne : T ≠ 0 := ne_of_gt hT
  have : ∀ (l : List ((Soln × Intens) × Rat)),
      (l.map fun p => weight (mixSums store mix) mix.length p.2 p.1.1.massWater * w.2 p.1.2).sum * T =
        total (fun p => p.1.massWater * w.2 p.2) l := by
    intro l
    induction l with
    | nil => simp [total]
    | cons p l ih =>
      rw [List.map_cons, List.sum_cons, add_mul, ih, total_cons, hweight]
      congr 1
      field_simp
  exact this _

/-- A solution with one kilogram of water at the given temperature. -/
def waterAt (t : Rat) : Soln × Intens :=
  (⟨111, 55, 0, 1, 1, 0, [], some ⟨t, 7, 4, 0, 1, 1, 1, 1, 1⟩⟩, ⟨t, 7, 4, 0, 1, 1, 1, 1, 1⟩)

def waters : Stored := fun n => if n = 1 then some (waterAt 25) else if n = 2 then some (waterAt 10) else none

example : (addMix some waters [(1, 1), (2, 2)]).tc = 15 ∧ (addMix some waters [(1, 1), (2, 2)]).massWater = 3 := by
  decide +kernel

/-- C53, a negative fraction (as used for evaporation) spoils the mean: removing half of the water of a
solution at 25 degrees as water of 25 degrees gives a temperature of 0 degrees. -/
theorem C53_evaporation_violated :
    (addMix some (fun n => if n = 1 ∨ n = 5 then some (waterAt 25) else none) [(1, -1/2), (5, 1)]).tc = 0 ∧
    (addMix some (fun n => if n = 1 ∨ n = 5 then some (waterAt 25) else none) [(1, -1/2), (5, 1)]).massWater = 1/2 := by
  decide +kernel

/-- C53, activity coefficients: the sum of two maps with weights does not scale the names that only the
first map has (the comment in the code says it does). -/
theorem C53_weights_violated :
    val (addIntensive [("Ca+2".toList, 4)] [] (1/2) (1/2)) "Ca+2".toList = 4 := by decide +kernel

end Verif.Nd
