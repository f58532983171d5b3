import Verif.Lemmas.Tables
/-
Properties C04 to C07: name tables.  Specification: `Verif/Spec/Tables.lean`.
-/
namespace Verif.Tables

/-! ### C04: tables stay sorted and nothing is lost -/

/-- C04: the sort used for the dimension, parameter and variable tables returns the same entries in
key order, for every table. -/
theorem C04_sort {α : Type} (key : α → CStr) (l : List α) :
    (bubbleSort key l).Perm l ∧ (bubbleSort key l).Pairwise fun a b => key a ≤ key b :=
  ⟨bubbleSort_perm key l, bubbleSort_sorted key l⟩

/-- C04, dimensions: from the initial table (the framework declares dimension "one" first), any
history of dimension declarations leaves a strictly sorted table whose (name, value, maximum)
content is that of the abstract map. -/
theorem C04_dims (ops : List DimOp) :
    let one : CStr := [111, 110, 101]
    ∃ cs db, runDims [⟨one, 1, 1, false⟩] ops = some (cs, db) ∧ StrictSorted Dim.name db ∧
      absDims db = (specDims (fun n => if n = one then some (1, 1) else none) ops).2 := by
  intro one
  obtain ⟨cs, db, h1, h2, -, -, h5⟩ :=
    runDims_spec [⟨one, 1, 1, false⟩] (by simp [StrictSorted]) (by simp) ops
  refine ⟨cs, db, h1, h2, ?_⟩
  rw [h5]
  congr 2
  funext n
  unfold absDims
  by_cases hn : n = one
  · subst hn; simp
  · have : ¬ one = n := fun h => hn h.symm
    simp [hn, this]

/-- C04, variables, partial: for histories of declarations whose arguments are in order (known type,
declared dimensions, enough space), starting from the empty table, no undefined behaviour occurs, the
table is strictly sorted, fully initialised and contains exactly one entry per declared name (with the
size of its first declaration); the return code is 0 exactly for new names (1, or 0 for `declvar` in print mode, for repeated names).
Missing: histories with a declaration rejected for its arguments; see `C06_violated`. -/
theorem C04_vars_partial (dims : List Dim) (pm : Bool) (ops : List VarOp)
    (hw : ∀ o ∈ ops, o.wellFormed dims) :
    ∃ cs vs, runVars dims pm [] ops = some (cs, vs.map some) ∧ StrictSorted PubVar.key vs ∧
      vs.Perm ((newOps [] ops).map (VarOp.entry dims)) ∧
      cs = expectCodes [] (dupCode pm) ops := by
  obtain ⟨cs, vs, h1, h2, h3, h4⟩ :=
    runVars_good (dims := dims) (pm := pm) ops (db := []) (vs := []) ⟨rfl, by simp [StrictSorted]⟩ hw
  exact ⟨cs, vs, h1, h2.2, by simpa using h3, h4⟩

/-- Test data: one dimension "n" with value 3, three well-formed declarations, one repeated. -/
def exDims : List Dim := [⟨[110], 3, 10, false⟩]
def exOps : List VarOp :=
  [.pub ⟨[98], [[110]], 3, true⟩, .pri [97] 5 true, .pub ⟨[98], [[110]], 3, true⟩]

example : (∀ o ∈ exOps, o.wellFormed exDims) ∧
    runVars exDims false [] exOps =
      some ([0, 0, 1], [some ⟨[97], 5, true⟩, some ⟨[98], 3, false⟩]) := by
  constructor
  · simp [exOps, VarOp.wellFormed, exDims, dimProduct]
  · decide +kernel

/-! ### C05: lookup -/

/-- C05: on any strictly sorted table, looking up a key returns exactly the index holding it, fails
exactly when it is absent, never reads an uninitialised entry, and terminates (`varAddr` is total). -/
theorem C05_lookup (keys : List CStr) (key : CStr) (hs : keys.Pairwise (· < ·)) :
    varAddr (keys.map some) key ≠ .ub ∧
    (varAddr (keys.map some) key = .notFound ↔ key ∉ keys) ∧
    (∀ i, varAddr (keys.map some) key = .found i ↔ keys[i]? = some key) := by
  have h := varAddr_ok keys key hs
  cases hc : varAddr (keys.map some) key with
  | ub => rw [hc] at h; exact absurd h (by simp [LookupOk])
  | notFound =>
    rw [hc] at h
    refine ⟨by simp, by simpa [LookupOk] using h, fun i => ⟨by simp, fun hi => ?_⟩⟩
    exact absurd (List.mem_of_getElem? hi) h
  | found j =>
    rw [hc] at h
    simp only [LookupOk] at h
    refine ⟨by simp, ⟨by simp, fun hn => absurd (List.mem_of_getElem? h) hn⟩, fun i => ?_⟩
    constructor
    · intro hi
      have : j = i := by simpa using hi
      subst this; exact h
    · intro hi
      obtain ⟨hj, ej⟩ := List.getElem?_eq_some_iff.1 h
      obtain ⟨hi', ei⟩ := List.getElem?_eq_some_iff.1 hi
      have := sorted_get_inj hs hj hi' (by rw [ej, ei])
      subst this; rfl

example : ([[97], [98, 1], [99]] : List CStr).Pairwise (· < ·) ∧
    varAddr ([[97], [98, 1], [99]].map some) [98, 1] = .found 1 := by
  constructor <;> decide +kernel

/-- C05: after any history of well-formed declarations every declared variable is found, with its own
entry, and no other name is. -/
theorem C05_after_history (dims : List Dim) (pm : Bool) (ops : List VarOp)
    (hw : ∀ o ∈ ops, o.wellFormed dims) (name : CStr) :
    ∃ cs vs, runVars dims pm [] ops = some (cs, vs) ∧
      ((∃ o ∈ ops, o.name = name) →
        ∃ i v, varAddr (VarDb.keys vs) name = .found i ∧ vs[i]? = some (some v) ∧ v.key = name) ∧
      ((∀ o ∈ ops, o.name ≠ name) → varAddr (VarDb.keys vs) name = .notFound) := by
  obtain ⟨cs, vs, h1, h2, h3, h4⟩ :=
    runVars_good (dims := dims) (pm := pm) ops (db := []) (vs := []) ⟨rfl, by simp [StrictSorted]⟩ hw
  refine ⟨cs, vs.map some, h1, ?_, ?_⟩
  · intro hex
    have hmem : name ∈ vs.map PubVar.key := by
      rw [(h3.map PubVar.key).mem_iff, List.map_append, List.map_map, entry_keys]
      simpa using mem_newOps (seen := []).2 ⟨by simp, hex⟩
    have hl := h2.lookup name
    cases hc : varAddr (VarDb.keys (vs.map some)) name with
    | ub => rw [hc] at hl; exact absurd hl (by simp [LookupOk])
    | notFound => rw [hc] at hl; exact absurd hmem hl
    | found i =>
      rw [hc] at hl
      simp only [LookupOk, List.getElem?_map, Option.map_eq_some_iff] at hl
      obtain ⟨v, hv, hk⟩ := hl
      exact ⟨i, v, rfl, by simp [hv], hk⟩
  · intro hno
    have hmem : name ∉ vs.map PubVar.key := by
      rw [(h3.map PubVar.key).mem_iff, List.map_append, List.map_map, entry_keys]
      simp only [List.map_nil, List.nil_append]
      intro hc
      obtain ⟨-, o, ho, hn⟩ := mem_newOps.1 hc
      exact hno o ho hn
    have hl := h2.lookup name
    cases hc : varAddr (VarDb.keys (vs.map some)) name with
    | ub => rw [hc] at hl; exact absurd hl (by simp [LookupOk])
    | notFound => rfl
    | found i => rw [hc] at hl; exact absurd (List.mem_of_getElem? hl) hmem

/-! ### C06: rejected declarations -/

/-- C06 is violated: variables "a" and "c" are declared; a declaration of "b" with an undeclared
dimension is rejected with code 1, yet the table has grown and looking up "c" now compares an
uninitialised key. -/
theorem C06_violated :
    ∃ (dims : List Dim) (ops : List VarOp) (bad : VarDecl) (db db' : VarDb),
      runVars dims false [] ops = some ([0, 0], db) ∧
      varAddr db.keys [99] = .found 1 ∧
      declvar dims false db bad = .ret 1 db' ∧
      db'.length = db.length + 1 ∧ varAddr db'.keys [99] = .ub := by
  refine ⟨exDims, [.pub ⟨[97], [[110]], 3, true⟩, .pub ⟨[99], [[110]], 3, true⟩],
    ⟨[98], [[122]], 3, true⟩, [some ⟨[97], 3, false⟩, some ⟨[99], 3, false⟩],
    [some ⟨[97], 3, false⟩, some ⟨[99], 3, false⟩, none], ?_⟩
  refine ⟨?_, ?_, ?_, rfl, ?_⟩
  · decide +kernel
  · decide +kernel
  · decide +kernel
  · decide +kernel

/-- C06, scope of the violation: in every good non-empty table, after any argument rejection (a new
name rejected), looking up any name above the first key is undefined behaviour. -/
theorem C06_violated_always (dims : List Dim) (pm : Bool) (v : PubVar) (vs : List PubVar)
    (hs : StrictSorted PubVar.key (v :: vs)) (a : VarDecl) (db' : VarDb) (c : Int)
    (hnew : a.name ∉ (v :: vs).map PubVar.key) (hc : c ≠ 0)
    (hr : declvar dims pm ((v :: vs).map some) a = .ret c db') (name : CStr) (hn : v.key < name) :
    varAddr db'.keys name = .ub := by
  have hg : Good ((v :: vs).map some) (v :: vs) := ⟨rfl, hs⟩
  have hl := hg.lookup a.name
  have hnf : varAddr (VarDb.keys ((v :: vs).map some)) a.name = .notFound := by
    cases hc : varAddr (VarDb.keys ((v :: vs).map some)) a.name with
    | ub => rw [hc] at hl; exact absurd hl (by simp [LookupOk])
    | notFound => rfl
    | found i => rw [hc] at hl; exact absurd (List.mem_of_getElem? hl) hnew
  have hdb : db' = (v :: vs).map some ++ [none] := by
    unfold declvar at hr
    rw [hnf] at hr
    simp only at hr
    split at hr
    · cases hr
    · split at hr
      · cases hr; rfl
      · split at hr
        · cases hr; rfl
        · split at hr
          · cases hr; rfl
          · split at hr
            · cases hr
            · cases hr; exact absurd rfl hc
  subst hdb
  have h0 : strcmp v.key name = .lt := strcmp_lt.2 hn
  simp [varAddr, VarDb.keys, cmpAt, h0]

/-- C06, partial: a declaration rejected because its name exists leaves the table unchanged (for
`declvar` and for every rejection of `declpri`).  Missing: rejections because of the arguments, for
which the property is false. -/
theorem C06_rejected_partial (dims : List Dim) (pm : Bool) (vs : List PubVar)
    (hs : StrictSorted PubVar.key vs) :
    (∀ a : VarDecl, a.name ∈ vs.map PubVar.key →
      ∃ c, declvar dims pm (vs.map some) a = .ret c (vs.map some)) ∧
    (∀ n s t c db', declpri (vs.map some) n s t = .ret c db' → c ≠ 0 → db' = vs.map some) := by
  have hg : Good (vs.map some) vs := ⟨rfl, hs⟩
  constructor
  · intro a ha
    have hl := hg.lookup a.name
    unfold declvar
    cases hc : varAddr (VarDb.keys (vs.map some)) a.name with
    | ub => rw [hc] at hl; exact absurd hl (by simp [LookupOk])
    | notFound => rw [hc] at hl; exact absurd ha hl
    | found i => exact ⟨_, rfl⟩
  · intro n s t c db' h hne
    unfold declpri at h
    split at h
    · cases h
    · cases h; rfl
    · split at h
      · cases h
      · split at h
        · cases h
        · cases h; exact absurd rfl hne

example : StrictSorted PubVar.key [⟨[97], 3, false⟩, ⟨[99], 3, false⟩] := by
  unfold StrictSorted; decide

/-! ### C07: dimensions -/

/-- C07: from the initial table, no history of dimension declarations (fixed or not) has undefined
behaviour; return codes are 0 exactly for acceptable declarations and 1 otherwise; afterwards
`getdim` returns the value given in the accepted declaration, and -1 for unknown names. -/
theorem C07_getdim (ops : List DimOp) :
    let one : CStr := [111, 110, 101]
    let spec := specDims (fun n => if n = one then some (1, 1) else none) ops
    ∃ db, runDims [⟨one, 1, 1, false⟩] ops = some (spec.1, db) ∧
      ∀ n, getdim db n = match spec.2 n with
        | none => -1
        | some (v, _) => v := by
  intro one
  have e : absDims [⟨one, 1, 1, false⟩] = fun n => if n = one then some (1, 1) else none := by
    funext n
    unfold absDims
    by_cases hn : n = one
    · subst hn; simp
    · have : ¬ one = n := fun h => hn h.symm
      simp [hn, this]
  obtain ⟨cs, db, h1, h2, -, h4, h5⟩ :=
    runDims_spec [⟨one, 1, 1, false⟩] (by simp [StrictSorted]) (by simp) ops
  rw [e] at h4 h5
  refine ⟨db, by rw [h1, h4], fun n => ?_⟩
  rw [getdim_eq, h5]
  rfl

example : runDims [⟨[111, 110, 101], 1, 1, false⟩]
    [⟨false, [110], 3, 10⟩, ⟨false, [110], 4, 10⟩, ⟨false, [109], 11, 10⟩, ⟨false, [109], -1, 10⟩] =
    some ([0, 1, 1, 1], [⟨[110], 3, 10, false⟩, ⟨[111, 110, 101], 1, 1, false⟩]) := by decide +kernel

/-- C07 is violated for the fixed flag: declaring "a" as fixed when "one" exists marks "one". -/
theorem C07_fixed_violated :
    declfix [⟨[111, 110, 101], 1, 1, false⟩] [97] 3 3 =
      some (0, [⟨[97], 3, 3, false⟩, ⟨[111, 110, 101], 1, 1, true⟩]) := by decide +kernel

/-- C07 is violated for the fixed flag also when the declaration is rejected: an existing dimension is
marked although the call reports an error. -/
theorem C07_fixed_rejected_violated :
    declfix [⟨[111, 110, 101], 1, 1, false⟩] [97] 4 3 =
      some (1, [⟨[111, 110, 101], 1, 1, true⟩]) := by decide +kernel

/-- C07, fixed flag, partial: the right dimension is marked when the new name sorts after all
existing ones.  Missing: all other names, for which the property is false. -/
theorem C07_fixed_partial (db : List Dim) (hs : StrictSorted Dim.name db) (n : CStr) (v m : Int)
    (hn : ∀ d ∈ db, d.name < n) (hv : 0 ≤ v) (hm : v ≤ m) :
    declfix db n v m = some (0, db ++ [⟨n, v, m, true⟩]) := declfix_last db hs n v m hn hv hm

example : StrictSorted Dim.name [⟨[111, 110, 101], 1, 1, false⟩] ∧
    (∀ d ∈ [(⟨[111, 110, 101], 1, 1, false⟩ : Dim)], d.name < [122]) := by
  unfold StrictSorted; decide

end Verif.Tables
