import Verif.Spec.Tables
import Mathlib.Data.List.Perm.Basic
import Mathlib.Data.List.Lex
import Mathlib.Order.Basic
import Mathlib.Tactic.SplitIfs
import Mathlib.Tactic.ByContra
/-
Helper lemmas for the name tables.
-/
namespace Verif.Tables

theorem strcmp_eq {a b : CStr} : strcmp a b = .eq ↔ a = b := by
  induction a generalizing b with
  | nil => cases b <;> simp [strcmp]
  | cons x xs ih =>
    cases b with
    | nil => simp [strcmp]
    | cons y ys =>
      simp only [strcmp]
      split
      · simp; omega
      · split
        · simp; omega
        · have : x = y := by omega
          subst this
          simp [ih]

theorem strcmp_lt {a b : CStr} : strcmp a b = .lt ↔ a < b := by
  induction a generalizing b with
  | nil => cases b <;> simp [strcmp]
  | cons x xs ih =>
    cases b with
    | nil => simp [strcmp]
    | cons y ys =>
      simp only [strcmp, List.cons_lt_cons_iff]
      split
      · simp; omega
      · split
        · simp; omega
        · have : x = y := by omega
          subst this
          simp [ih]

theorem strcmp_gt {a b : CStr} : strcmp a b = .gt ↔ b < a := by
  induction a generalizing b with
  | nil => cases b <;> simp [strcmp]
  | cons x xs ih =>
    cases b with
    | nil => simp [strcmp]
    | cons y ys =>
      simp only [strcmp, List.cons_lt_cons_iff]
      split
      · simp; omega
      · split
        · simp; omega
        · have : x = y := by omega
          subst this
          simp [ih]

section sort
variable {α : Type} (key : α → CStr)

theorem pass_perm (n : Nat) (l : List α) : (pass key n l).Perm l := by
  fun_induction pass key n l with
  | case1 => exact .refl _
  | case2 => exact .refl _
  | case3 => exact .refl _
  | case4 n a b t h ih => exact (List.Perm.cons b ih).trans (.swap a b t)
  | case5 n a b t h ih => exact .cons a ih

theorem outer_perm (k : Nat) (l : List α) : (outer key k l).Perm l := by
  induction k generalizing l with
  | zero => exact .refl _
  | succ k ih => exact (ih _).trans (pass_perm key _ _)

theorem bubbleSort_perm (l : List α) : (bubbleSort key l).Perm l := outer_perm key _ _

/-- A pass over exactly the first `n+1` elements leaves the rest alone and moves a maximum to
position `n`. -/
theorem pass_split (n : Nat) (p s : List α) (hp : p.length = n + 1) :
    ∃ q m, pass key n (p ++ s) = q ++ m :: s ∧ (q ++ [m]).Perm p ∧ ∀ x ∈ q, key x ≤ key m := by
  induction n generalizing p with
  | zero =>
    match p, hp with
    | [a], _ => exact ⟨[], a, by simp [pass], by simp, by simp⟩
  | succ n ih =>
    match p, hp with
    | a :: b :: t, hp =>
      simp only [List.cons_append, pass]
      by_cases h : strcmp (key a) (key b) = .gt
      · rw [if_pos h]
        obtain ⟨q, m, h1, h2, h3⟩ := ih (a :: t) (by simpa using hp)
        refine ⟨b :: q, m, by simp [← h1], ?_, ?_⟩
        · exact (List.Perm.cons b h2).trans (.swap a b t)
        · intro x hx
          rcases List.mem_cons.1 hx with rfl | hx
          · have hlt := strcmp_gt.1 h
            have ha : a ∈ q ++ [m] := h2.mem_iff.2 (by simp)
            rcases List.mem_append.1 ha with ha | ha
            · exact le_trans (le_of_lt hlt) (h3 a ha)
            · simp at ha; subst ha; exact le_of_lt hlt
          · exact h3 x hx
      · rw [if_neg h]
        obtain ⟨q, m, h1, h2, h3⟩ := ih (b :: t) (by simpa using hp)
        refine ⟨a :: q, m, by simp [← h1], .cons a h2, ?_⟩
        intro x hx
        rcases List.mem_cons.1 hx with rfl | hx
        · have hle : key x ≤ key b := by
            rw [← not_lt]; intro hc; exact h (strcmp_gt.2 hc)
          have hb : b ∈ q ++ [m] := h2.mem_iff.2 (by simp)
          rcases List.mem_append.1 hb with hb | hb
          · exact le_trans hle (h3 b hb)
          · simp at hb; subst hb; exact hle
        · exact h3 x hx

theorem outer_sorted (k : Nat) (p s : List α) (hp : p.length = k + 1)
    (hs : s.Pairwise fun a b => key a ≤ key b) (hps : ∀ x ∈ p, ∀ y ∈ s, key x ≤ key y) :
    (outer key k (p ++ s)).Pairwise fun a b => key a ≤ key b := by
  induction k generalizing p s with
  | zero =>
    match p, hp with
    | [a], _ => simpa [outer, hs] using fun y hy => hps a (by simp) y hy
  | succ k ih =>
    simp only [outer]
    obtain ⟨q, m, h1, h2, h3⟩ := pass_split key (k + 1) p s hp
    rw [h1]
    have hm : m ∈ p := h2.mem_iff.1 (by simp)
    apply ih q (m :: s)
    · have := h2.length_eq; simp at this; omega
    · exact List.Pairwise.cons (fun y hy => hps m hm y hy) hs
    · intro x hx y hy
      rcases List.mem_cons.1 hy with rfl | hy
      · exact h3 x hx
      · exact hps x (h2.mem_iff.1 (by simp [hx])) y hy

theorem bubbleSort_sorted (l : List α) :
    (bubbleSort key l).Pairwise fun a b => key a ≤ key b := by
  unfold bubbleSort
  cases l with
  | nil => simp [outer]
  | cons a t =>
    have := outer_sorted key t.length (a :: t) [] (by simp) (by simp) (by simp)
    simpa using this

/-- Sorting a table with pairwise distinct keys gives a strictly sorted table. -/
theorem bubbleSort_strict (l : List α) (h : (l.map key).Nodup) :
    StrictSorted key (bubbleSort key l) := by
  have h1 := bubbleSort_sorted key l
  have h2 : ((bubbleSort key l).map key).Nodup := ((bubbleSort_perm key l).map key).nodup_iff.2 h
  unfold StrictSorted
  rw [List.Nodup, List.pairwise_map] at h2
  exact (h1.and h2).imp fun ⟨h, h'⟩ => lt_of_le_of_ne h h'

theorem StrictSorted.nodup {l : List α} (h : StrictSorted key l) : (l.map key).Nodup := by
  rw [List.Nodup, List.pairwise_map]
  exact h.imp fun h => ne_of_lt h

end sort

/-! ### Dimensions -/

theorem dimAddr_eq (db : List Dim) (n : CStr) : dimAddr db n = db.find? fun d => d.name == n := by
  unfold dimAddr
  congr 1
  funext d
  simp [strcmp_eq, beq_eq_decide]

theorem find_perm {α : Type} (key : α → CStr) {l l' : List α} (hp : l.Perm l')
    (hn : (l.map key).Nodup) (n : CStr) :
    (l.find? fun d => key d == n) = l'.find? fun d => key d == n := by
  have hn' : (l'.map key).Nodup := (hp.map key).nodup_iff.1 hn
  have char : ∀ {l : List α}, (l.map key).Nodup → ∀ x,
      (l.find? fun d => key d == n) = some x ↔ x ∈ l ∧ key x = n := by
    intro l hl x
    induction l with
    | nil => simp
    | cons a t ih =>
      simp only [List.map_cons, List.nodup_cons] at hl
      rw [List.find?_cons]
      by_cases ha : key a = n
      · simp only [ha, beq_self_eq_true, Option.some.injEq, List.mem_cons]
        constructor
        · rintro rfl; exact ⟨Or.inl rfl, ha⟩
        · rintro ⟨rfl | hx, hk⟩
          · rfl
          · exact absurd (List.mem_map.2 ⟨x, hx, by rw [hk, ha]⟩) hl.1
      · have : (key a == n) = false := by simpa using ha
        simp only [this, List.mem_cons]
        rw [ih hl.2]
        constructor
        · rintro ⟨h1, h2⟩; exact ⟨Or.inr h1, h2⟩
        · rintro ⟨rfl | h1, h2⟩
          · exact absurd h2 ha
          · exact ⟨h1, h2⟩
  cases h : (l'.find? fun d => key d == n) with
  | none =>
    cases h2 : (l.find? fun d => key d == n) with
    | none => rfl
    | some x =>
      have := (char hn x).1 h2
      have := (char hn' x).2 ⟨hp.mem_iff.1 this.1, this.2⟩
      rw [h] at this; cases this
  | some x =>
    have := (char hn' x).1 h
    exact (char hn x).2 ⟨hp.mem_iff.2 this.1, this.2⟩

theorem absDims_none {db : List Dim} {n : CStr} : absDims db n = none ↔ n ∉ db.map Dim.name := by
  unfold absDims
  simp only [Option.map_eq_none_iff, List.find?_eq_none, List.mem_map, not_exists, not_and]
  constructor
  · intro h x hx hn; exact h x hx (by simp [hn])
  · intro h x hx hn; exact h x hx (by simpa using hn)

/-- One `decldim` step: code and map follow the specification; the table stays strictly sorted. -/
theorem decldim_step (db : List Dim) (h : StrictSorted Dim.name db) (o : DimOp) :
    StrictSorted Dim.name (decldim db o.name o.value o.max).2 ∧
    (acceptable (absDims db) o →
      (decldim db o.name o.value o.max).1 = 0 ∧
      (decldim db o.name o.value o.max).2.Perm (db ++ [⟨o.name, o.value, o.max, false⟩]) ∧
      absDims (decldim db o.name o.value o.max).2 =
        fun n => if n = o.name then some (o.value, o.max) else absDims db n) ∧
    (¬ acceptable (absDims db) o → decldim db o.name o.value o.max = (1, db)) := by
  have hi : (dimAddr db o.name).isSome = true ↔ absDims db o.name ≠ none := by
    rw [dimAddr_eq]
    unfold absDims
    cases db.find? fun d => d.name == o.name <;> simp
  unfold decldim acceptable
  by_cases h1 : (dimAddr db o.name).isSome = true
  · simp only [h1, if_true]
    have := hi.1 h1
    exact ⟨h, fun hc => absurd hc.1 this, fun _ => trivial⟩
  · have h1' : absDims db o.name = none := by
      by_contra hc; exact h1 (hi.2 hc)
    rw [if_neg h1]
    by_cases h2 : o.value < 0
    · rw [if_pos h2]
      exact ⟨h, fun hc => by omega, fun _ => rfl⟩
    · rw [if_neg h2]
      by_cases h3 : o.value > o.max
      · rw [if_pos h3]
        exact ⟨h, fun hc => by omega, fun _ => rfl⟩
      · rw [if_neg h3]
        have hnd : ((db ++ [(⟨o.name, o.value, o.max, false⟩ : Dim)]).map Dim.name).Nodup := by
          rw [List.map_append, List.nodup_append]
          refine ⟨h.nodup, by simp, ?_⟩
          intro x hx y hy
          simp at hy
          subst hy
          rintro rfl
          exact absDims_none.1 h1' hx
        have hperm := bubbleSort_perm Dim.name (db ++ [⟨o.name, o.value, o.max, false⟩])
        refine ⟨bubbleSort_strict _ _ hnd, fun _ => ⟨rfl, hperm, ?_⟩,
          fun hc => absurd (And.intro h1' ⟨by omega, by omega⟩) hc⟩
        funext n
        unfold absDims
        rw [find_perm Dim.name hperm ((hperm.map Dim.name).nodup_iff.2 hnd) n, List.find?_append]
        by_cases hn : n = o.name
        · subst hn
          have : (db.find? fun d => d.name == o.name) = none := by
            unfold absDims at h1'; simpa using h1'
          rw [this]
          simp
        · have : (o.name == n) = false := by simpa using fun hc => hn hc.symm
          rw [if_neg hn]
          simp [this]

theorem fixLast_some {db : List Dim} (h : db ≠ []) :
    ∃ p d, db = p ++ [d] ∧ fixLast db = some (p ++ [{ d with fixed := true }]) := by
  fun_induction fixLast db with
  | case1 => exact absurd rfl h
  | case2 d => exact ⟨[], d, rfl, rfl⟩
  | case3 d ds hds ih =>
    obtain ⟨p, e, h1, h2⟩ := ih (by intro hc; exact hds hc)
    exact ⟨d :: p, e, by simp [h1], by simp [h2]⟩

theorem absDims_fix (p : List Dim) (d : Dim) (b : Bool) :
    absDims (p ++ [{ d with fixed := b }]) = absDims (p ++ [d]) := by
  funext n
  unfold absDims
  simp only [List.find?_append]
  cases p.find? fun d => d.name == n with
  | some x => simp
  | none =>
    simp only [Option.none_or, List.find?_cons, List.find?_nil]
    cases d.name == n <;> simp

theorem strict_fix {p : List Dim} {d : Dim} {b : Bool} (h : StrictSorted Dim.name (p ++ [d])) :
    StrictSorted Dim.name (p ++ [{ d with fixed := b }]) := by
  unfold StrictSorted at *
  rw [List.pairwise_append] at *
  simpa using h

theorem decldim_ne_nil {db : List Dim} (h : db ≠ []) (n : CStr) (v m : Int) :
    (decldim db n v m).2 ≠ [] := by
  unfold decldim
  split_ifs <;> try exact h
  simp only
  intro hc
  have := (bubbleSort_perm Dim.name (db ++ [⟨n, v, m, false⟩])).length_eq
  rw [hc] at this
  simp at this

/-- Names, values and maxima of a table, without the fixed flags. -/
def shape (db : List Dim) : List (CStr × Int × Int) := db.map fun d => (d.name, d.value, d.max)

theorem runDims_spec (db : List Dim) (h : StrictSorted Dim.name db) (hne : db ≠ [])
    (ops : List DimOp) :
    ∃ cs db', runDims db ops = some (cs, db') ∧ StrictSorted Dim.name db' ∧ db' ≠ [] ∧
      cs = (specDims (absDims db) ops).1 ∧ absDims db' = (specDims (absDims db) ops).2 := by
  induction ops generalizing db with
  | nil => exact ⟨[], db, rfl, h, hne, rfl, rfl⟩
  | cons o os ih =>
    obtain ⟨hs, hacc, hrej⟩ := decldim_step db h o
    have hne' := decldim_ne_nil hne o.name o.value o.max
    -- the table after the step, with or without the fixed mark
    have step : ∃ db1, stepDim db o =
          some ((decldim db o.name o.value o.max).1, db1) ∧
        StrictSorted Dim.name db1 ∧ db1 ≠ [] ∧
        absDims db1 = absDims (decldim db o.name o.value o.max).2 := by
      by_cases hf : o.fix = true
      · obtain ⟨p, d, h1, h2⟩ := fixLast_some hne'
        refine ⟨p ++ [{ d with fixed := true }], ?_, ?_, by simp, ?_⟩
        · simp [stepDim, hf, declfix, h2]
        · exact strict_fix (h1 ▸ hs)
        · rw [absDims_fix, ← h1]
      · exact ⟨_, by simp [stepDim, hf], hs, hne', rfl⟩
    obtain ⟨db1, e1, s1, n1, a1⟩ := step
    obtain ⟨cs, db', e2, s2, n2, c2, a2⟩ := ih db1 s1 n1
    refine ⟨(decldim db o.name o.value o.max).1 :: cs, db', ?_, s2, n2, ?_⟩
    · rw [runDims, e1]
      simp [e2]
    · unfold specDims
      by_cases hc : acceptable (absDims db) o
      · obtain ⟨c0, -, m0⟩ := hacc hc
        rw [a1, m0] at c2 a2
        simp only [hc, if_true]
        exact ⟨by rw [c0, c2], a2⟩
      · have := hrej hc
        rw [a1, this] at c2 a2
        simp only [hc, if_false]
        exact ⟨by rw [this, c2], a2⟩

theorem getdim_eq (db : List Dim) (n : CStr) :
    getdim db n = match absDims db n with
      | none => -1
      | some (v, _) => v := by
  unfold getdim absDims
  rw [dimAddr_eq]
  cases db.find? fun d => d.name == n <;> rfl

/-! ### Lookup -/

theorem cmpAt_some (keys : List CStr) (key : CStr) (i : Nat) (h : i < keys.length) :
    cmpAt (keys.map some) key i = some (strcmp keys[i] key) := by
  simp [cmpAt, h]

theorem sorted_get {keys : List CStr} (h : keys.Pairwise (· < ·)) {i j : Nat}
    (hi : i < keys.length) (hj : j < keys.length) (hij : i < j) : keys[i] < keys[j] :=
  List.pairwise_iff_getElem.1 h i j hi hj hij

theorem sorted_get_inj {keys : List CStr} (h : keys.Pairwise (· < ·)) {i j : Nat}
    (hi : i < keys.length) (hj : j < keys.length) (hij : keys[i] = keys[j]) : i = j := by
  rcases Nat.lt_trichotomy i j with hl | hl | hl
  · have := sorted_get h hi hj hl; rw [hij] at this; exact absurd this (lt_irrefl _)
  · exact hl
  · have := sorted_get h hj hi hl; rw [hij] at this; exact absurd this (lt_irrefl _)

/-- What a lookup result must be. -/
def LookupOk (keys : List CStr) (key : CStr) : Lookup → Prop
  | .ub => False
  | .notFound => key ∉ keys
  | .found i => keys[i]? = some key

theorem bisect_ok (keys : List CStr) (key : CStr) (hs : keys.Pairwise (· < ·)) (low high : Nat)
    (hlh : low < high) (hh : high < keys.length) (h1 : keys[low] < key) (h2 : key < keys[high]) :
    LookupOk keys key (bisect (keys.map some) key low high) := by
  induction hn : high - low using Nat.strong_induction_on generalizing low high with
  | _ n ih =>
    rw [bisect]
    have hne : ¬ low = high := by omega
    rw [if_neg hne]
    simp only
    have hm1 : low ≤ (low + high) / 2 := by omega
    have hm2 : (low + high) / 2 < high := by omega
    generalize hmid : (low + high) / 2 = mid at *
    have hmk : mid < keys.length := by omega
    rw [cmpAt_some keys key mid hmk]
    have closed : mid = low ∨ mid = high → key ∉ keys := by
      intro hc hmem
      obtain ⟨i, hi, rfl⟩ := List.getElem_of_mem hmem
      have hlo : low < i := by
        by_contra hcon
        rcases Nat.lt_or_eq_of_le (Nat.le_of_not_lt hcon) with h | h
        · exact lt_asymm h1 (sorted_get hs hi (by omega) h)
        · subst h; exact lt_irrefl _ h1
      have hhi : i < high := by
        by_contra hcon
        rcases Nat.lt_or_eq_of_le (Nat.le_of_not_lt hcon) with h | h
        · exact lt_asymm h2 (sorted_get hs (by omega) hi h)
        · subst h; exact lt_irrefl _ h2
      omega
    rcases hcmp : strcmp keys[mid] key with _ | _ | _
    · -- less
      simp only
      split_ifs with hc
      · exact closed hc
      · exact ih (high - mid) (by omega) mid high (by omega) hh (strcmp_lt.1 hcmp) h2 rfl
    · simp only [LookupOk]
      rw [List.getElem?_eq_getElem hmk, strcmp_eq.1 hcmp]
    · simp only
      split_ifs with hc hlt
      · exact closed hc
      · cases hlt
      · exact ih (mid - low) (by omega) low mid (by omega) hmk h1 (strcmp_gt.1 hcmp) rfl

theorem varAddr_ok (keys : List CStr) (key : CStr) (hs : keys.Pairwise (· < ·)) :
    LookupOk keys key (varAddr (keys.map some) key) := by
  unfold varAddr
  by_cases h0 : (keys.map some).length = 0
  · rw [if_pos h0]
    have : keys = [] := by simpa using h0
    simp [LookupOk, this]
  · rw [if_neg h0]
    have hlen : 0 < keys.length := by
      rw [List.length_map] at h0; omega
    simp only [List.length_map]
    rw [cmpAt_some keys key 0 hlen, cmpAt_some keys key (keys.length - 1) (by omega)]
    rcases hc0 : strcmp keys[0] key with _ | _ | _
    · simp only
      rcases hc1 : strcmp keys[keys.length - 1] key with _ | _ | _
      · simp only [LookupOk]
        intro hmem
        obtain ⟨i, hi, rfl⟩ := List.getElem_of_mem hmem
        have hlt := strcmp_lt.1 hc1
        rcases Nat.lt_or_ge i (keys.length - 1) with h | h
        · exact lt_asymm hlt (sorted_get hs hi (by omega) h)
        · have : i = keys.length - 1 := by omega
          subst this; exact lt_irrefl _ hlt
      · simp only [LookupOk]
        rw [List.getElem?_eq_getElem (by omega), strcmp_eq.1 hc1]
      · simp only
        have hg := strcmp_gt.1 hc1
        have hl := strcmp_lt.1 hc0
        apply bisect_ok keys key hs 0 (keys.length - 1) _ (by omega) hl hg
        rcases Nat.eq_zero_or_pos (keys.length - 1) with h | h
        · simp only [h] at hg
          exact absurd hg (lt_asymm hl)
        · exact h
    · simp only [LookupOk]
      rw [List.getElem?_eq_getElem hlen, strcmp_eq.1 hc0]
    · simp only [LookupOk]
      intro hmem
      obtain ⟨i, hi, rfl⟩ := List.getElem_of_mem hmem
      have hlt := strcmp_gt.1 hc0
      rcases Nat.eq_zero_or_pos i with h | h
      · subst h; exact lt_irrefl _ hlt
      · exact lt_asymm hlt (sorted_get hs hlen hi h)

/-! ### Variables -/

/-- The table holds only fully initialised entries `vs`, strictly sorted. -/
def Good (db : VarDb) (vs : List PubVar) : Prop :=
  db = vs.map some ∧ StrictSorted PubVar.key vs

theorem Good.keys {db : VarDb} {vs : List PubVar} (h : Good db vs) :
    db.keys = (vs.map PubVar.key).map some := by
  rw [h.1, VarDb.keys]
  simp

theorem Good.sortedKeys {db : VarDb} {vs : List PubVar} (h : Good db vs) :
    (vs.map PubVar.key).Pairwise (· < ·) := by
  rw [List.pairwise_map]; exact h.2

theorem Good.lookup {db : VarDb} {vs : List PubVar} (h : Good db vs) (key : CStr) :
    LookupOk (vs.map PubVar.key) key (varAddr db.keys key) := by
  rw [h.keys]; exact varAddr_ok _ _ h.sortedKeys

theorem mapM_id_some {α : Type} (l : List α) : (l.map some).mapM id = some l := by
  induction l with
  | nil => rfl
  | cons a t ih => simp [List.mapM_cons, ih]

theorem sortVars_good {db : VarDb} {vs : List PubVar} (h : Good db vs) (v : PubVar)
    (hv : v.key ∉ vs.map PubVar.key) :
    ∃ vs', sortVars (db ++ [some v]) = some (vs'.map some) ∧ Good (vs'.map some) vs' ∧
      vs'.Perm (vs ++ [v]) := by
  have hnd : ((vs ++ [v]).map PubVar.key).Nodup := by
    rw [List.map_append, List.nodup_append]
    refine ⟨h.2.nodup, by simp, ?_⟩
    intro x hx y hy
    simp at hy
    subst hy
    rintro rfl
    exact hv hx
  have e : db ++ [some v] = (vs ++ [v]).map some := by rw [h.1]; simp
  unfold sortVars
  by_cases hl : (db ++ [some v]).length < 2
  · rw [if_pos hl]
    have : vs = [] := by
      rw [h.1] at hl; simp at hl
      exact List.length_eq_zero_iff.1 (by omega)
    subst this
    refine ⟨[v], by rw [e]; simp, ⟨rfl, ?_⟩, by simp⟩
    simp [StrictSorted]
  · rw [if_neg hl, e, mapM_id_some]
    refine ⟨bubbleSort PubVar.key (vs ++ [v]), rfl, ⟨rfl, bubbleSort_strict _ _ hnd⟩,
      bubbleSort_perm _ _⟩

theorem dimProduct_mapM (dims : List Dim) (ns : List CStr) (p : Int)
    (h : dimProduct dims ns = some p) :
    ∃ ds, ns.mapM (dimAddr dims) = some ds ∧ ds.foldl (fun s d => s * d.value) 1 = p := by
  have gen : ∀ (ns : List CStr) (p a : Int), dimProduct dims ns = some p →
      ∃ ds, ns.mapM (dimAddr dims) = some ds ∧ ds.foldl (fun s d => s * d.value) a = a * p := by
    intro ns
    induction ns with
    | nil =>
      intro p a h
      simp [dimProduct] at h
      subst h
      exact ⟨[], by simp, by simp⟩
    | cons n ns ih =>
      intro p a h
      unfold dimProduct at h
      cases hd : (dims.find? fun d => d.name == n) with
      | none => rw [hd] at h; simp at h
      | some d =>
        rw [hd] at h
        cases hq : dimProduct dims ns with
        | none => rw [hq] at h; simp at h
        | some q =>
          rw [hq] at h
          simp at h
          obtain ⟨ds, h1, h2⟩ := ih q (a * d.value) hq
          refine ⟨d :: ds, ?_, ?_⟩
          · rw [List.mapM_cons, dimAddr_eq, hd, h1]; rfl
          · simp only [List.foldl_cons, h2, ← h]
            rw [Int.mul_assoc]
  obtain ⟨ds, h1, h2⟩ := gen ns p 1 h
  exact ⟨ds, h1, by rw [h2, Int.one_mul]⟩

theorem VarOp.entry_key (dims : List Dim) (o : VarOp) : (o.entry dims).key = o.name := by
  cases o <;> rfl

theorem entry_keys (dims : List Dim) : PubVar.key ∘ VarOp.entry dims = VarOp.name := by
  funext o
  exact VarOp.entry_key dims o

theorem stepVar_good {dims : List Dim} {pm : Bool} {db : VarDb} {vs : List PubVar}
    (h : Good db vs) (o : VarOp) (hw : o.wellFormed dims) :
    (o.name ∈ vs.map PubVar.key → stepVar dims pm db o = .ret (dupCode pm o) db) ∧
    (o.name ∉ vs.map PubVar.key → ∃ vs', stepVar dims pm db o = .ret 0 (vs'.map some) ∧
      Good (vs'.map some) vs' ∧ vs'.Perm (vs ++ [o.entry dims])) := by
  have hl := h.lookup o.name
  constructor
  · intro hm
    cases o with
    | pub a =>
      simp only [stepVar, declvar, VarOp.name, dupCode] at *
      cases hc : varAddr db.keys a.name with
      | ub => rw [hc] at hl; exact absurd hl (by simp [LookupOk])
      | notFound => rw [hc] at hl; exact absurd hm hl
      | found i => rfl
    | pri n s t =>
      simp only [stepVar, declpri, VarOp.name, dupCode] at *
      cases hc : varAddr db.keys n with
      | ub => rw [hc] at hl; exact absurd hl (by simp [LookupOk])
      | notFound => rw [hc] at hl; exact absurd hm hl
      | found i => rfl
  · intro hm
    cases o with
    | pub a =>
      simp only [stepVar, declvar, VarOp.name, VarOp.wellFormed] at *
      obtain ⟨ht, h3, p, hp, hps⟩ := hw
      have hc : varAddr db.keys a.name = .notFound := by
        cases hc : varAddr db.keys a.name with
        | ub => rw [hc] at hl; exact absurd hl (by simp [LookupOk])
        | notFound => rfl
        | found i => rw [hc] at hl; exact absurd (List.mem_of_getElem? hl) hm
      obtain ⟨ds, hd, hf⟩ := dimProduct_mapM dims a.dimen p hp
      obtain ⟨vs', e1, g1, p1⟩ := sortVars_good h ⟨a.name, p, false⟩ hm
      refine ⟨vs', ?_, g1, by simpa [VarOp.entry, hp] using p1⟩
      rw [hc]
      simp only [ht, not_true_eq_false, if_false, hd, hf]
      rw [if_neg (by unfold MAX_NDIMEN; omega), if_neg (by omega), e1]
    | pri n s t =>
      simp only [stepVar, declpri, VarOp.name, VarOp.wellFormed] at *
      have hc : varAddr db.keys n = .notFound := by
        cases hc : varAddr db.keys n with
        | ub => rw [hc] at hl; exact absurd hl (by simp [LookupOk])
        | notFound => rfl
        | found i => rw [hc] at hl; exact absurd (List.mem_of_getElem? hl) hm
      obtain ⟨vs', e1, g1, p1⟩ := sortVars_good h ⟨n, s, true⟩ hm
      refine ⟨vs', ?_, g1, by simpa [VarOp.entry] using p1⟩
      rw [hc]
      simp only [hw, not_true_eq_false, if_false]
      rw [e1]

theorem newOps_congr (a b : List CStr) (h : ∀ n, n ∈ a ↔ n ∈ b) (ops : List VarOp) :
    newOps a ops = newOps b ops := by
  induction ops generalizing a b with
  | nil => rfl
  | cons o os ih =>
    unfold newOps
    by_cases hm : o.name ∈ a
    · rw [if_pos hm, if_pos ((h _).1 hm), ih a b h]
    · rw [if_neg hm, if_neg (fun hc => hm ((h _).2 hc)), ih (o.name :: a) (o.name :: b)]
      intro n
      simp [h]

theorem expectCodes_congr (a b : List CStr) (h : ∀ n, n ∈ a ↔ n ∈ b) (d : VarOp → Int)
    (ops : List VarOp) : expectCodes a d ops = expectCodes b d ops := by
  induction ops generalizing a b with
  | nil => rfl
  | cons o os ih =>
    unfold expectCodes
    by_cases hm : o.name ∈ a
    · rw [if_pos hm, if_pos ((h _).1 hm), ih a b h]
    · rw [if_neg hm, if_neg (fun hc => hm ((h _).2 hc)), ih (o.name :: a) (o.name :: b)]
      intro n
      simp [h]

theorem runVars_good {dims : List Dim} {pm : Bool} (ops : List VarOp) {db : VarDb}
    {vs : List PubVar} (h : Good db vs) (hw : ∀ o ∈ ops, o.wellFormed dims) :
    ∃ cs vs', runVars dims pm db ops = some (cs, vs'.map some) ∧ Good (vs'.map some) vs' ∧
      vs'.Perm (vs ++ (newOps (vs.map PubVar.key) ops).map (VarOp.entry dims)) ∧
      cs = expectCodes (vs.map PubVar.key) (dupCode pm) ops := by
  induction ops generalizing db vs with
  | nil =>
    have e := h.1
    exact ⟨[], vs, by rw [runVars, e], ⟨rfl, h.2⟩, by simp [newOps], rfl⟩
  | cons o os ih =>
    have hwo := hw o (by simp)
    have hwos : ∀ o ∈ os, o.wellFormed dims := fun x hx => hw x (by simp [hx])
    obtain ⟨hdup, hnew⟩ := stepVar_good (pm := pm) h o hwo
    by_cases hm : o.name ∈ vs.map PubVar.key
    · obtain ⟨cs, vs', e, g, p, c⟩ := ih h hwos
      refine ⟨dupCode pm o :: cs, vs', ?_, g, ?_, ?_⟩
      · rw [runVars, hdup hm]; simp [e]
      · rw [newOps, if_pos hm]; exact p
      · rw [expectCodes, if_pos hm, c]
    · obtain ⟨vs1, e1, g1, p1⟩ := hnew hm
      obtain ⟨cs, vs', e, g, p, c⟩ := ih g1 hwos
      have pk : (vs1.map PubVar.key).Perm (vs.map PubVar.key ++ [o.name]) := by
        have := p1.map PubVar.key
        simpa [VarOp.entry_key] using this
      have hmem : ∀ n, n ∈ vs1.map PubVar.key ↔ n ∈ o.name :: vs.map PubVar.key := by
        intro n
        rw [pk.mem_iff]
        simp [or_comm]
      refine ⟨0 :: cs, vs', ?_, g, ?_, ?_⟩
      · rw [runVars, e1]; simp [e]
      · rw [newOps, if_neg hm]
        rw [newOps_congr _ _ hmem] at p
        refine p.trans ((p1.append_right _).trans ?_)
        rw [List.append_assoc]
        simp
      · rw [expectCodes, if_neg hm, c, expectCodes_congr _ _ hmem]

theorem mem_newOps {seen : List CStr} {ops : List VarOp} {n : CStr} :
    n ∈ (newOps seen ops).map VarOp.name ↔ n ∉ seen ∧ ∃ o ∈ ops, o.name = n := by
  induction ops generalizing seen with
  | nil => simp [newOps]
  | cons o os ih =>
    unfold newOps
    split
    · next h =>
      rw [ih]
      constructor
      · rintro ⟨h1, x, hx, hn⟩; exact ⟨h1, x, by simp [hx], hn⟩
      · rintro ⟨h1, x, hx, hn⟩
        refine ⟨h1, ?_⟩
        rcases List.mem_cons.1 hx with rfl | hx
        · subst hn; exact absurd h h1
        · exact ⟨x, hx, hn⟩
    · next h =>
      rw [List.map_cons, List.mem_cons, ih]
      constructor
      · rintro (rfl | ⟨h1, x, hx, hn⟩)
        · exact ⟨h, o, by simp, rfl⟩
        · exact ⟨fun hc => h1 (by simp [hc]), x, by simp [hx], hn⟩
      · rintro ⟨h1, x, hx, hn⟩
        by_cases he : n = o.name
        · exact Or.inl he
        · right
          refine ⟨by simp [he, h1], ?_⟩
          rcases List.mem_cons.1 hx with rfl | hx
          · exact absurd hn.symm he
          · exact ⟨x, hx, hn⟩

theorem strict_unique {α : Type} (key : α → CStr) {l l' : List α} (hp : l.Perm l')
    (h : StrictSorted key l) (h' : StrictSorted key l') : l = l' := by
  refine List.Perm.eq_of_pairwise (le := fun a b => key a < key b) ?_ h h' hp
  intro a b _ _ h1 h2
  exact absurd h2 (lt_asymm h1)

theorem declfix_last (db : List Dim) (hs : StrictSorted Dim.name db) (n : CStr) (v m : Int)
    (hn : ∀ d ∈ db, d.name < n) (hv : 0 ≤ v) (hm : v ≤ m) :
    declfix db n v m = some (0, db ++ [⟨n, v, m, true⟩]) := by
  obtain ⟨h1, h2, -⟩ := decldim_step db hs ⟨true, n, v, m⟩
  have hacc : acceptable (absDims db) ⟨true, n, v, m⟩ := by
    refine ⟨absDims_none.2 ?_, hv, hm⟩
    intro hc
    obtain ⟨d, hd, he⟩ := List.mem_map.1 hc
    have := hn d hd
    rw [he] at this
    exact lt_irrefl _ this
  obtain ⟨hc, hp, -⟩ := h2 hacc
  simp only at h1 hc hp
  have hs2 : StrictSorted Dim.name (db ++ [⟨n, v, m, false⟩]) := by
    unfold StrictSorted
    rw [List.pairwise_append]
    exact ⟨hs, by simp, fun a ha b hb => by simp at hb; subst hb; exact hn a ha⟩
  have e := strict_unique Dim.name hp h1 hs2
  unfold declfix
  simp only [e, hc]
  obtain ⟨p, d, e1, e2⟩ := fixLast_some (db := db ++ [⟨n, v, m, false⟩]) (by simp)
  obtain ⟨rfl, e3⟩ := List.append_inj' e1 rfl
  simp at e3
  subst e3
  rw [e2]
  rfl

end Verif.Tables
