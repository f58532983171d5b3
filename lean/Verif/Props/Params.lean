import Verif.Lemmas.ParamDb
import Verif.Lemmas.Elements
/-
Properties C08 to C13 and C46 and the parameter part of C04.  Specification: `Verif/Spec/Params.lean`,
`Verif/Spec/CText.lean`.
-/
namespace Verif.Params
open Verif.CText Verif.Tables

/-! ### C08: decoding value lists -/

/-- C08: a text made of any non-empty list of legal entries (`v` or `n*v`), with any separators,
decodes for every array size; element `i` is the `i`-th element of the expanded list, read
cyclically (hence truncated when the list is longer than the array). -/
theorem C08_decode {α : Type} (parse : List Char → Option α) (value : List Char → α)
    (pre : List Char) (items : List (Item × List Char)) (size : Nat) (hne : items ≠ [])
    (hpre : ∀ c ∈ pre, c ∈ [' ', ',', '\t', '\n'])
    (hsep : ProperLayout (· ∈ [' ', ',', '\t', '\n']) (items.map fun p => (p.1.word, p.2)))
    (hleg : ∀ p ∈ items, p.1.Legal parse value) :
    ∃ out, strToVals parse (pre ++ layout (items.map fun p => (p.1.word, p.2))) size = .ok out ∧
      out.length = size ∧
      ∀ i < size, out[i]? =
        (items.flatMap fun p => p.1.expand value)[i % (items.flatMap fun p => p.1.expand value).length]? := by
  have hp : (fun c : Char => decide (c ∈ [' ', ',', '\t', '\n'])) = isSep := by
    funext c
    simp only [isSep, List.mem_cons, List.not_mem_nil, or_false, Bool.decide_or, Bool.or_assoc]
  rw [hp] at hsep
  have htok : strtok isSep (pre ++ layout (items.map fun p => (p.1.word, p.2))) =
      (items.map Prod.fst).map Item.word := by
    rw [strtok_seps (fun c hc => by rw [← hp]; simpa using hpre c hc), strtok_layout _ hsep]
    simp
  have hfl : (items.map Prod.fst).flatMap (Item.expand value) = items.flatMap fun p => p.1.expand value := by
    rw [List.flatMap_map]
  have := strToVals_words (its := items.map Prod.fst) (by simpa using hne)
    (by
      intro it hit
      obtain ⟨p, hp, rfl⟩ := List.mem_map.1 hit
      exact hleg p hp) htok size
  rw [hfl] at this
  exact this

/-- Integer conversion used in the examples (`strtol`, as for `M_LONG`). -/
def exParse (s : List Char) : Option Int := some (strtol s).1

/-- " 2*5, 7" for five elements gives 5 5 7 5 5. -/
example : let items : List (Item × List Char) := [(⟨some 2, ['5']⟩, [',', ' ']), (⟨none, ['7']⟩, [])]
    ([' '] ++ layout (items.map fun p => (p.1.word, p.2)) = [' ', '2', '*', '5', ',', ' ', '7']) ∧
    ProperLayout (· ∈ [' ', ',', '\t', '\n']) (items.map fun p => (p.1.word, p.2)) ∧
    (∀ p ∈ items, p.1.Legal exParse (fun s => (strtol s).1)) ∧
    strToVals exParse ([' '] ++ layout (items.map fun p => (p.1.word, p.2))) 5 = .ok [5, 5, 7, 5, 5] := by
  refine ⟨by decide +kernel, ?_, ?_, by decide +kernel⟩
  · have h2 : decimal 2 = ['2'] := by decide +kernel
    simp [ProperLayout, Item.word, h2]
  · have h2 : decimal 2 = ['2'] := by decide +kernel
    simp [Item.Legal, exParse, Item.word, h2]

/-- C08, rejection: a text of any tokens shorter than 128 characters in which the repeat count of some
token (the part before its last asterisk) is not a positive numeral is rejected. -/
theorem C08_reject {α : Type} (parse : List Char → Option α) (pre : List Char)
    (words : List (List Char × List Char)) (size : Nat)
    (hpre : ∀ c ∈ pre, c ∈ [' ', ',', '\t', '\n'])
    (hsep : ProperLayout (· ∈ [' ', ',', '\t', '\n']) words)
    (hlen : ∀ w ∈ words, w.1.length < 128)
    (hbad : ∃ w ∈ words, ∃ cnt v, w.1 = cnt ++ '*' :: v ∧ '*' ∉ v ∧ ¬ LegalCount cnt) :
    strToVals parse (pre ++ layout words) size = .err := by
  have hp : (fun c : Char => decide (c ∈ [' ', ',', '\t', '\n'])) = isSep := by
    funext c
    simp only [isSep, List.mem_cons, List.not_mem_nil, or_false, Bool.decide_or, Bool.or_assoc]
  rw [hp] at hsep
  have htok : strtok isSep (pre ++ layout words) = words.map Prod.fst := by
    rw [strtok_seps (fun c hc => by rw [← hp]; simpa using hpre c hc), strtok_layout _ hsep]
  obtain ⟨w, hw, cnt, v, e, hv, hl⟩ := hbad
  unfold strToVals
  rw [htok, decodeLoop_reject (tok := w.1)]
  · intro t ht
    obtain ⟨q, hq, rfl⟩ := List.mem_map.1 ht
    exact hlen q hq
  · exact List.mem_map_of_mem hw
  · exact decodeToken_reject (hlen w hw) (by rw [e]; exact splitLast_some cnt hv) hl

/-- "1 0*5" is rejected. -/
example : let words : List (List Char × List Char) := [(['1'], [' ']), (['0', '*', '5'], [])]
    (∃ w ∈ words, ∃ cnt v, w.1 = cnt ++ '*' :: v ∧ '*' ∉ v ∧ ¬ LegalCount cnt) ∧
    strToVals exParse (layout words) 3 = .err := by
  refine ⟨⟨_, List.mem_cons_of_mem _ (List.mem_singleton.2 rfl), ['0'], ['5'], rfl, by decide, ?_⟩,
    by decide +kernel⟩
  rintro ⟨ws, sg, ds, h1, h2, h3, h4, h5, h6⟩
  rcases ws with _ | ⟨w, ws⟩
  · rcases h3 with rfl | rfl
    · simp only [List.nil_append] at h1
      subst h1; revert h6; decide +kernel
    · simp at h1
  · simp only [List.cons_append, List.cons.injEq] at h1
    have := h2 w (by simp)
    rw [← h1.1] at this
    revert this; decide +kernel

/-- C08, corner case found: a text without any value "succeeds" with an array that was never written. -/
theorem C08_empty_uninitialised {α : Type} (parse : List Char → Option α) (enc : List Char) (size : Nat)
    (henc : ∀ c ∈ enc, c ∈ [' ', ',', '\t', '\n']) (hs : 0 < size) : strToVals parse enc size = .ub := by
  have hp : ∀ c ∈ enc, isSep c = true := by
    intro c hc
    have := henc c hc
    simp only [List.mem_cons, List.not_mem_nil, or_false] at this
    simp only [isSep, Bool.or_eq_true, decide_eq_true_eq]
    tauto
  have : strtok isSep enc = [] := by
    have := strtok_seps hp []
    rw [List.append_nil] at this
    rw [this]; decide
  unfold strToVals
  rw [this]
  obtain ⟨n, rfl⟩ := Nat.exists_eq_succ_of_ne_zero (Nat.pos_iff_ne_zero.1 hs)
  simp [decodeLoop, cycleFill]

/-! ### C09: accepted parameters lie within their bounds -/

/-- C09: whenever a declaration of a new parameter is accepted, the parameter is in the table, its
default text was decoded into its current values, and at every element minimum ≤ default ≤ maximum.
`lt` is the C comparison; the values are linearly ordered (no NaN, see `C09_nan_violated`). -/
theorem C09_accepted_partial {α : Type} [LinearOrder α] (ops : NumOps α)
    (hlt : ∀ a b, ops.lt a b = true ↔ a < b) (dims : List Dim) (db db' : List (Param α)) (a : ParamDecl)
    (hty : a.type ≠ none) (hnew : ∀ p ∈ db, p.key ≠ a.name)
    (h : declparam ops dims db a = .ret 0 db') :
    ∃ p v, paramAddr db' a.name = some p ∧ p.key = a.name ∧ p.vals = some v ∧ InBounds p.size v ∧
      strToVals ops.parse a.dflt p.size = .ok v.value := by
  rcases declparam_table h with ⟨h1, -⟩ | ⟨-, h2, e, he, h3⟩
  · rcases h1 with h1 | h1
    · exact absurd h1 hty
    · obtain ⟨p, hp, hk⟩ := List.mem_map.1 h1
      exact absurd hk (hnew p hp)
  · rcases h3 with ⟨h3, -⟩ | ⟨-, h4, v, b, h5, h6⟩
    · exact absurd h3 (by decide)
    · have hperm := bubbleSort_perm Param.key (db ++ [e])
      rw [← h4] at hperm
      have hmem : e ∈ db' := hperm.mem_iff.2 (by simp)
      have hfind : ∃ p, paramAddr db' a.name = some p := by
        cases hc : paramAddr db' a.name with
        | some p => exact ⟨p, rfl⟩
        | none =>
          rw [paramAddr_none] at hc
          exact absurd (by rw [← he]; exact List.mem_map_of_mem hmem) hc
      obtain ⟨p, hp⟩ := hfind
      have hpm : p ∈ db' := List.mem_of_find?_eq_some hp
      have hpk : p.key = a.name := by
        have := List.find?_some hp
        simpa [strcmp_eq] using this
      have hpe : p = e := by
        rcases List.mem_append.1 (hperm.mem_iff.1 hpm) with hin | hin
        · exact absurd hpk (hnew p hin)
        · simpa using hin
      subst hpe
      obtain ⟨i1, i2⟩ := loadParam_inBounds hlt h6
      exact ⟨p, v, hp, hpk, h5, i1, i2⟩

/-- Integer parameters (`M_LONG`). -/
def exOps : NumOps Int := ⟨exParse, fun a b => decide (a < b), id⟩
def exDim : List Dim := [⟨[110], 3, 10, false⟩]
/-- "x(n) integer, default 1,2 minimum 0 maximum 5". -/
def exDecl : ParamDecl := ⟨[120], [[110]], some .long, ['1', ',', '2'], ['0'], ['5']⟩

example : (∀ a b, exOps.lt a b = true ↔ a < b) ∧ exDecl.type ≠ none ∧
    declparam exOps exDim [] exDecl =
      .ret 0 [⟨[120], .long, some [[110]], none, 3, some ⟨[1, 2, 1], [1, 2, 1], [0, 0, 0], [5, 5, 5]⟩⟩] :=
  ⟨by simp [exOps], by decide, by decide +kernel⟩

/-- C09 fails for values that are not numbers: with a floating-point type (here modelled as `Option
Int`, `none` standing for NaN, for which every comparison is false) the default "nan" is accepted. -/
theorem C09_nan_violated :
    let ops : NumOps (Option Int) :=
      ⟨fun s => if s = ['n', 'a', 'n'] then some none else some (some (strtol s).1),
       fun a b => match a, b with | some x, some y => decide (x < y) | _, _ => false, some⟩
    declparam ops exDim [] ⟨[120], [[110]], some .double, ['n', 'a', 'n'], ['0'], ['5']⟩ =
      .ret 0 [⟨[120], .double, some [[110]], none, 3,
        some ⟨[none, none, none], [none, none, none], [some 0, some 0, some 0], [some 5, some 5, some 5]⟩⟩] := by
  decide +kernel

/-- C09, further finding: a declaration with an unknown type reports success and declares nothing. -/
theorem C09_unknown_type_violated {α : Type} (ops : NumOps α) (dims : List Dim) (db : List (Param α))
    (a : ParamDecl) (h : a.type = none) : declparam ops dims db a = .ret 0 db := by
  simp [declparam, h]

/-! ### C04 for the parameter table -/

/-- C04, parameters: after any history of declarations without undefined behaviour, starting from the
empty table, keys are distinct and the declared names are exactly those of declarations with a known
type (accepted or not). -/
theorem C04_params_keys {α : Type} (ops : NumOps α) (dims : List Dim) (as : List ParamDecl)
    (cs : List Int) (db : List (Param α)) (h : runParams ops dims [] as = some (cs, db)) :
    (db.map Param.key).Nodup ∧
      ∀ n, n ∈ db.map Param.key ↔ ∃ a ∈ as, a.type ≠ none ∧ a.name = n := by
  suffices H : ∀ (as : List ParamDecl) (db0 : List (Param α)) cs db,
      (db0.map Param.key).Nodup → runParams ops dims db0 as = some (cs, db) →
      (db.map Param.key).Nodup ∧
      ∀ n, n ∈ db.map Param.key ↔ (n ∈ db0.map Param.key ∨ ∃ a ∈ as, a.type ≠ none ∧ a.name = n) by
    simpa using H as [] cs db (by simp) h
  intro as
  induction as with
  | nil =>
    intro db0 cs db h0 h
    simp only [runParams, Option.some.injEq, Prod.mk.injEq] at h
    obtain ⟨-, rfl⟩ := h
    exact ⟨h0, by simp⟩
  | cons a as ih =>
    intro db0 cs db h0 h
    rw [runParams] at h
    cases hd : declparam ops dims db0 a with
    | ub => rw [hd] at h; simp at h
    | ret c db1 =>
      rw [hd] at h
      simp only [Option.map_eq_some_iff, Prod.mk.injEq] at h
      obtain ⟨⟨cs', db'⟩, hr, -, rfl⟩ := h
      have hstep : (db1.map Param.key).Nodup ∧ ∀ n, n ∈ db1.map Param.key ↔
          (n ∈ db0.map Param.key ∨ (a.type ≠ none ∧ a.name = n)) := by
        rcases declparam_table hd with ⟨h1, rfl, -⟩ | ⟨h1, h2, e, he, h3⟩
        · refine ⟨h0, fun n => ⟨Or.inl, ?_⟩⟩
          rintro (hn | ⟨hn1, rfl⟩)
          · exact hn
          · exact h1.resolve_left hn1
        · have hp : (db1.map Param.key).Perm (db0.map Param.key ++ [a.name]) := by
            rcases h3 with ⟨-, rfl, -⟩ | ⟨-, rfl, -⟩
            · rw [List.map_append, ← he]; exact List.Perm.refl _
            · have := (bubbleSort_perm Param.key (db0 ++ [e])).map Param.key
              rw [List.map_append] at this
              rw [← he]; exact this
          refine ⟨hp.nodup_iff.2 ?_, fun n => ?_⟩
          · rw [List.nodup_append]
            refine ⟨h0, by simp, ?_⟩
            intro x hx y hy hxy
            simp only [List.mem_singleton] at hy
            subst hxy; subst hy; exact h2 hx
          · rw [hp.mem_iff, List.mem_append, List.mem_singleton]
            constructor
            · rintro (h | rfl)
              · exact Or.inl h
              · exact Or.inr ⟨h1, rfl⟩
            · rintro (h | ⟨-, rfl⟩)
              · exact Or.inl h
              · exact Or.inr rfl
      obtain ⟨g1, g2⟩ := ih db1 cs' db' hstep.1 hr
      refine ⟨g1, fun n => ?_⟩
      rw [g2 n, hstep.2 n]
      simp only [List.mem_cons, exists_eq_or_imp, or_assoc]

/-- C04, parameters: every accepted declaration of a new parameter leaves the table sorted, with all
earlier entries unchanged. -/
theorem C04_params_sorted {α : Type} (ops : NumOps α) (dims : List Dim) (db db' : List (Param α))
    (a : ParamDecl) (hty : a.type ≠ none) (hnew : ∀ p ∈ db, p.key ≠ a.name)
    (h : declparam ops dims db a = .ret 0 db') :
    (db'.Pairwise fun p q => p.key ≤ q.key) ∧ ∃ e, e.key = a.name ∧ db'.Perm (db ++ [e]) := by
  rcases declparam_table h with ⟨h1, -⟩ | ⟨-, h2, e, he, h3⟩
  · rcases h1 with h1 | h1
    · exact absurd h1 hty
    · obtain ⟨p, hp, hk⟩ := List.mem_map.1 h1
      exact absurd hk (hnew p hp)
  · rcases h3 with ⟨h3, -⟩ | ⟨-, rfl, -⟩
    · exact absurd h3 (by decide)
    · exact ⟨bubbleSort_sorted _ _, e, he, bubbleSort_perm _ _⟩

example : ∃ db', declparam exOps exDim
      [⟨[121], .long, some [[110]], none, 3, some ⟨[1, 2, 1], [1, 2, 1], [0, 0, 0], [5, 5, 5]⟩⟩] exDecl =
      .ret 0 db' ∧ db'.map Param.key = [[120], [121]] := by
  refine ⟨_, rfl, by decide +kernel⟩

/-! ### C10 and C11: changing a dimension -/

/-- C10: resizing a dimension that a parameter uses once, between positive sizes.  No memory outside
the old arrays is read, every element of the new arrays is written, and element `is` of the new value,
minimum and maximum arrays is the old element with the same indices, new positions along the resized
dimension taking the last old position. -/
theorem C10_resize_partial {α : Type} (val : CStr → Nat) (name : CStr) (nnew : Nat) (p : RParam α)
    (honce : p.dims.count name = 1) (hfill : Filled val p) (hnew : 0 < nnew)
    (hpos : ∀ d ∈ p.dims, 0 < val d) :
    ∃ p', resizeParam (setDim val name nnew) name (val name) nnew p = .ok p' ∧
      p'.dims = p.dims ∧ p'.bound = p.bound ∧ p'.size = volume (p.dims.map (setDim val name nnew)) ∧
      Filled (setDim val name nnew) p' ∧
      ∀ is, Inside (p.dims.map (setDim val name nnew)) is →
        p'.value[position (p.dims.map (setDim val name nnew)) is]? =
          p.value[position (p.dims.map val) (source name (val name) p.dims is)]? ∧
        p'.min[position (p.dims.map (setDim val name nnew)) is]? =
          p.min[position (p.dims.map val) (source name (val name) p.dims is)]? ∧
        p'.max[position (p.dims.map (setDim val name nnew)) is]? =
          p.max[position (p.dims.map val) (source name (val name) p.dims is)]? :=
  resizeParam_once honce hfill (hpos name (List.count_pos_iff.1 (by omega))) hnew hpos

/-- C10: a parameter that does not use the dimension is untouched. -/
theorem C10_unused {α : Type} (val : CStr → Nat) (name : CStr) (nold nnew : Nat) (p : RParam α)
    (h : name ∉ p.dims) : resizeParam val name nold nnew p = .ok p := by
  simp [resizeParam, lastIdx_none h]

/-- Test data: x(m, n), m = 2, n = 2 resized to 3. -/
def exVal : CStr → Nat := fun _ => 2
def exP : RParam Int :=
  ⟨[[109], [110]], none, 4, [1, 2, 3, 4].map some, [0, 0, 0, 0].map some, [9, 9, 9, 9].map some⟩

example : exP.dims.count [110] = 1 ∧ Filled exVal exP ∧ (∀ d ∈ exP.dims, 0 < exVal d) ∧
    resizeParam (setDim exVal [110] 3) [110] 2 3 exP = .ok
      ⟨[[109], [110]], none, 6, [1, 2, 3, 4, 3, 4].map some, [0, 0, 0, 0, 0, 0].map some,
       [9, 9, 9, 9, 9, 9].map some⟩ := by
  refine ⟨by decide +kernel, ?_, by simp [exVal], by decide +kernel⟩
  simp [Filled, exP, exVal, volume]

/-- C10 fails when the dimension was empty: growing it from 0 to 3 reads element -1 of the old array,
although a one-element array with the default was kept for exactly this case. -/
theorem C10_from_zero_violated :
    resizeParam (setDim (fun _ => 0) [110] 3) [110] 0 3
      (⟨[[110]], none, 1, [some 7], [some 0], [some 9]⟩ : RParam Int) = .ub := by
  decide +kernel

/-- C10 fails when a dimension becomes empty: the retained element is never written. -/
theorem C10_to_zero_violated :
    resizeParam (setDim (fun _ => 2) [110] 0) [110] 2 0
      (⟨[[110]], none, 2, [some 7, some 7], [some 0, some 0], [some 9, some 9]⟩ : RParam Int) =
      .ok ⟨[[110]], none, 1, [none], [none], [none]⟩ := by
  decide +kernel

/-- C10 fails for a parameter that uses the dimension twice: x(n, n) resized from 2 to 3 reads outside
the old array. -/
theorem C10_square_violated :
    resizeParam (setDim (fun _ => 2) [110] 3) [110] 2 3
      (⟨[[110], [110]], none, 4, [1, 2, 3, 4].map some, [0, 0, 0, 0].map some, [9, 9, 9, 9].map some⟩ :
        RParam Int) = .ub := by
  decide +kernel

/-- C10 and C11 for `reset_dim`: a change between positive sizes, over a whole table of regular
parameters, never leaves an array and changes every parameter as specified. -/
theorem C10_reset_dim_partial (val : CStr → Nat) (name : CStr) (nnew : Nat) (ps : List (RParam Int))
    (hnew : 0 < nnew) (hdiff : nnew ≠ val name) (hreg : ∀ p ∈ ps, Regular val name p) :
    ∃ ps', resetDim val name nnew ps = .ok ps' ∧ ps'.length = ps.length ∧
      ∀ (i : Nat) p, ps[i]? = some p → ∃ p', ps'[i]? = some p' ∧ Changed val name nnew p p' := by
  unfold resetDim
  rw [if_neg hdiff]
  induction ps with
  | nil => exact ⟨[], rfl, rfl, by simp⟩
  | cons p ps ih =>
    obtain ⟨ps', h1, h2, h3⟩ := ih fun q hq => hreg q (List.mem_cons_of_mem _ hq)
    obtain ⟨p1, p', g1, g2, g3⟩ := changed_of_regular val name nnew hnew p (hreg p (by simp))
    cases hm : mapRes (resizeParam (setDim val name nnew) name (val name) nnew) ps with
    | ub => rw [hm] at h1; simp [Res.bind] at h1
    | err => rw [hm] at h1; simp [Res.bind] at h1
    | ok ms =>
      rw [hm] at h1
      simp only [Res.bind] at h1
      refine ⟨p' :: ps', ?_, by simp [h2], ?_⟩
      · simp only [mapRes, g1, hm, Res.bind, g2, h1]
      · intro i q hq
        cases i with
        | zero => simp at hq; subst hq; exact ⟨p', rfl, g3⟩
        | succ i => exact h3 i q (by simpa using hq)

/-- C11: after a dimension change every parameter bounded by it has all its values at most the new
dimension value. -/
theorem C11_bounded (val : CStr → Nat) (name : CStr) (nnew : Nat) (ps ps' : List (RParam Int))
    (hnew : 0 < nnew) (hdiff : nnew ≠ val name) (hreg : ∀ p ∈ ps, Regular val name p)
    (h : resetDim val name nnew ps = .ok ps') :
    ∀ p' ∈ ps', p'.bound = some name → ∀ x ∈ p'.value, ∃ n : Int, x = some n ∧ n ≤ nnew := by
  obtain ⟨qs, h1, h2, h3⟩ := C10_reset_dim_partial val name nnew ps hnew hdiff hreg
  rw [h] at h1
  cases h1
  intro p' hp' hb x hx
  obtain ⟨i, hi, rfl⟩ := List.getElem_of_mem hp'
  obtain ⟨q, hq, c1, c2, c3, c4, c5⟩ := h3 i ps[i] (List.getElem?_eq_getElem (by omega))
  rw [List.getElem?_eq_getElem hi, Option.some.injEq] at hq
  subst hq
  obtain ⟨k, hk, rfl⟩ := List.getElem_of_mem hx
  obtain ⟨f1, f2⟩ := c4 _ (List.mem_cons_self ..)
  rw [c1] at f1
  obtain ⟨is, i1, i2⟩ := position_surj _ k (by rw [← f1]; exact hk)
  have := (c5 is i1).1
  rw [i2, List.getElem?_eq_getElem hk, ← c2] at this
  simp only [hb, if_true] at this
  have hne := f2 _ (List.getElem_mem hk)
  generalize ps'[i].value[k] = y at this hne
  cases hs : (ps[i]).value[position ((ps[i]).dims.map val) (source name (val name) (ps[i]).dims is)]? with
  | none => rw [hs] at this; simp at this
  | some z =>
    rw [hs] at this
    simp only [Option.map_some, Option.some.injEq] at this
    cases z with
    | none => simp only [Option.map_none] at this; exact absurd this hne
    | some w =>
      simp only [Option.map_some] at this
      exact ⟨_, this, Int.min_le_right _ _⟩

/-- Two parameters: x(m) bounded by n (shrinking from 4 to 2) and y(n). -/
def exVal2 : CStr → Nat := fun c => if c = [110] then 4 else 3
def exPs : List (RParam Int) :=
  [⟨[[109]], some [110], 3, [1, 4, 3].map some, [0, 0, 0].map some, [4, 4, 4].map some⟩,
   ⟨[[110]], none, 4, [5, 6, 7, 8].map some, [0, 0, 0, 0].map some, [9, 9, 9, 9].map some⟩]

example : (∀ p ∈ exPs, Regular exVal2 [110] p) ∧ resetDim exVal2 [110] 2 exPs = .ok
    [⟨[[109]], some [110], 3, [1, 2, 2].map some, [0, 0, 0].map some, [2, 2, 2].map some⟩,
     ⟨[[110]], none, 2, [5, 6].map some, [0, 0].map some, [9, 9].map some⟩] := by
  refine ⟨?_, by decide +kernel⟩
  simp [exPs, Regular, Filled, exVal2, volume]

end Verif.Params
