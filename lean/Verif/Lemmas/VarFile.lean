import Verif.Spec.VarFile
import Verif.Lemmas.ParDims
/- Reading back what `save` wrote. -/
namespace Verif.VarFile
open Verif.CText Verif.CFile
open Verif.ParFile (Ty unlines Fits IsHeader MAXLNLEN MAXKEYLEN MAXDIMLEN MAXINFOLEN isHead line intText digitsOf)

/-- A line short enough for a buffer. -/
theorem entry_find {V} (vs : List (Var V)) (n : List Char) : entry vs n = find vs n := rfl

/-- Every dimension of the list is found with its size. -/
def Matched {V} (l : List (List Char × Int)) (t : St V) : Prop := ∀ d ∈ l, dimVal t.dims d.1 = some d.2

theorem dimVal_mem : ∀ {ds : List (List Char × Int)}, (ds.map (·.1)).Nodup → ∀ d : List Char × Int, dimVal ds d.1 = some d.2 ↔ d ∈ ds
  | [], _, d => by simp [dimVal]
  | x :: ds, h, d => by
    simp only [List.map_cons, List.nodup_cons] at h
    have ih := dimVal_mem h.2 d
    unfold dimVal at ih ⊢
    rw [List.find?_cons]
    by_cases hx : x.1 = d.1
    · simp only [hx, decide_true, Option.map_some, Option.some.injEq, List.mem_cons]
      constructor
      · intro h2; exact Or.inl (Prod.ext hx.symm h2.symm)
      · rintro (h2 | h2)
        · rw [h2]
        · exact absurd (List.mem_map.2 ⟨d, h2, hx.symm⟩) h.1
    · simp only [hx, decide_false, List.mem_cons]
      rw [ih]
      constructor
      · exact Or.inr
      · rintro (h2 | h2)
        · exact absurd (by rw [h2]) hx
        · exact h2

theorem matched_iff {V} {l : List (List Char × Int)} {t : St V} (h : (t.dims.map (·.1)).Nodup) : SameDims l t ↔ Matched l t :=
  ⟨fun hs d hd => (dimVal_mem h d).2 (hs d hd), fun hs d hd => (dimVal_mem h d).1 (hs d hd)⟩

theorem must_line {V} {l : List Char} (h : '\n' ∉ l) {num : Nat} (hn : l.length + 2 ≤ num) (code : Nat) (s : St V)
    (r : List (List Char)) :
    must num code s ⟨unlines (l :: r), false⟩ = .ok (l ++ ['\n'], ⟨unlines r, false⟩) := by
  rw [must, ParFile.unlines_cons, Verif.CFile.fgets_line h hn]

theorem must_fits {V} {l : List Char} (h : Fits l) (code : Nat) (s : St V) (r : List (List Char)) :
    must MAXLNLEN code s ⟨unlines (l :: r), false⟩ = .ok (l ++ ['\n'], ⟨unlines r, false⟩) :=
  must_line h.1 (by have := h.2; show l.length + 2 ≤ 256; omega) code s r

theorem must_nil {V} (num code : Nat) (s : St V) : must num code s ⟨unlines [], false⟩ = .ret code s := rfl

/-! ### The table -/

theorem find_update {V} (key : List Char) (f : Var V → Var V) (hf : ∀ p, (f p).key = p.key) (db : List (Var V)) (n : List Char) :
    find (update key f db) n = if n = key then (find db key).map f else find db n := by
  induction db with
  | nil => simp [find, update]
  | cons p r ih =>
    by_cases hp : p.key = key
    · simp only [update, hp, if_true, find, List.find?_cons, hf]
      by_cases hn : n = key
      · subst hn; simp
      · have : ¬ key = n := fun h => hn h.symm
        simp [hn, this]
    · simp only [update, hp, if_false, find, List.find?_cons]
      by_cases hpn : p.key = n
      · have : ¬ n = key := fun h => hp (hpn.trans h)
        simp [hpn, this]
      · simp only [hpn, decide_false]
        have := ih
        simp only [find] at this
        rw [this]

theorem mem_update {V} {key : List Char} {f : Var V → Var V} {db : List (Var V)} {q : Var V} (h : q ∈ update key f db) :
    q ∈ db ∨ ∃ p, find db key = some p ∧ q = f p := by
  induction db with
  | nil => simp [update] at h
  | cons p r ih =>
    simp only [update] at h
    by_cases hp : p.key = key
    · simp only [hp, if_true, List.mem_cons] at h
      rcases h with rfl | h
      · exact Or.inr ⟨p, by simp [find, hp], rfl⟩
      · exact Or.inl (by simp [h])
    · simp only [hp, if_false, List.mem_cons] at h
      rcases h with rfl | h
      · exact Or.inl (by simp)
      · rcases ih h with h | ⟨p', h1, h2⟩
        · exact Or.inl (by simp [h])
        · refine Or.inr ⟨p', ?_, h2⟩
          simp only [find, List.find?_cons, hp, decide_false]
          exact h1

theorem find_mem {V} {db : List (Var V)} {n : List Char} {p : Var V} (h : find db n = some p) : p ∈ db ∧ p.key = n :=
  ⟨List.mem_of_find?_eq_some h, by simpa using List.find?_some h⟩

/-! ### Dimensions -/

theorem take15_newline (l : List Char) : isVarLabel (l ++ ['\n']) = true ↔ varLabel <+: l := by
  simp only [isVarLabel, decide_eq_true_eq]
  have h15 : varLabel.length = 15 := by decide
  constructor
  · intro h
    by_cases hl : 15 ≤ l.length
    · rw [List.take_append_of_le_length hl] at h
      rw [← h]; exact List.take_prefix _ _
    · have : '\n' ∈ varLabel := by
        rw [← h, List.take_of_length_le (by simp; omega)]; simp
      exact absurd this (by decide)
  · rintro ⟨t, rfl⟩
    rw [List.append_assoc, List.take_append_of_le_length (by omega), ← h15, List.take_length]

theorem label_line : isVarLabel (varLabel ++ ['\n']) = true := (take15_newline _).2 (List.prefix_refl _)

theorem header_line : isHead ("####".toList ++ ['\n']) = true ∧ isVarLabel ("####".toList ++ ['\n']) = false := by decide

theorem atoi_neg (n : Nat) {r : List Char} (hr : ∀ c, r.head? = some c → isDigit c = false) :
    atoi ('-' :: decimal n ++ r) = -(n : Int) := by
  have hd := decimal_digits n
  have hrd := readDigits_append hd 0 hr
  have hnum := numeral_decimal n
  obtain ⟨c, cs, hc⟩ := List.exists_cons_of_ne_nil (decimal_ne_nil n)
  have hdc : isDigit c = true := hd c (by simp [hc])
  unfold atoi strtol
  rw [List.cons_append, List.dropWhile_cons_of_neg (by decide)]
  simp only [readSign]
  rw [hnum, hc, List.cons_append] at hrd
  rw [hc, List.cons_append]
  simp only [strtolBody, hdc, if_true, hrd]
  simp

theorem atoi_int (n : Int) {r : List Char} (hr : ParFile.Tail r) : atoi (intText n ++ r ++ ['\n']) = n := by
  have h1 := ParFile.digitsOf_decimal n.natAbs
  unfold intText
  split
  · rename_i hn
    rw [h1, List.append_assoc, atoi_neg n.natAbs]
    · omega
    · intro c hc
      cases r with
      | nil => simp only [List.nil_append, List.head?_cons, Option.some.injEq] at hc; subst hc; decide
      | cons a b => exact hr c (by simpa using hc)
  · rename_i hn
    rw [h1, ParFile.atoi_tail _ hr]
    omega

/-- Lines before a header or the label. -/
theorem toDim_head {V} (s : St V) (n : Nat) (r : List (List Char)) :
    toDim s (n + 1) ⟨unlines ("####".toList :: r), false⟩ = .ok (false, ⟨unlines r, false⟩) := by
  rw [toDim, must_fits ⟨by decide, by decide⟩]
  simp only [Out.bind, header_line.1, header_line.2, Bool.false_eq_true, if_false, if_true]

theorem toDim_label {V} (s : St V) (n : Nat) (r : List (List Char)) :
    toDim s (n + 1) ⟨unlines (varLabel :: r), false⟩ = .ok (true, ⟨unlines r, false⟩) := by
  rw [toDim, must_fits ⟨by decide, by decide⟩]
  simp only [Out.bind, label_line, if_true]

theorem toDim_line {V} (s : St V) (n : Nat) {l : List Char} (hl : Fits l) (h1 : ¬ IsHeader l) (h2 : ¬ varLabel <+: l)
    (r : List (List Char)) : toDim s (n + 1) ⟨unlines (l :: r), false⟩ = toDim s n ⟨unlines r, false⟩ := by
  rw [toDim, must_fits hl]
  have e1 : isHead (l ++ ['\n']) = false := by
    cases h : isHead (l ++ ['\n']) with
    | false => rfl
    | true => exact absurd ((ParFile.take4_newline l).1 h) h1
  have e2 : isVarLabel (l ++ ['\n']) = false := by
    cases h : isVarLabel (l ++ ['\n']) with
    | false => rfl
    | true => exact absurd ((take15_newline l).1 h) h2
  simp only [Out.bind, e1, e2, Bool.false_eq_true, if_false]

theorem dropLast_newline (l : List Char) : (l ++ ['\n']).dropLast = l := by simp

/-- One dimension. -/
theorem dimLoop_step {V} (s : St V) (fuel n : Nat) (hf : 2 ≤ fuel) {d : List Char × Int} (h1 : '\n' ∉ d.1 ∧ d.1.length ≤ 48)
    (h2 : (intText d.2).length ≤ 254) {pre : List (List Char)} (hpre : pre = [] ∨ pre = ["** Dimensions **".toList])
    (r : List (List Char)) :
    dimLoop s fuel (n + 1) ⟨unlines (pre ++ "####".toList :: d.1 :: intText d.2 :: r), false⟩ =
      if dimVal s.dims d.1 = some d.2 then dimLoop s fuel n ⟨unlines r, false⟩ else .ret 0 s := by
  have h3 : Fits (intText d.2) := ⟨ParFile.intText_newline _, h2⟩
  rw [dimLoop]
  simp only [Bool.false_eq_true, if_false]
  have h4 : toDim s fuel ⟨unlines (pre ++ "####".toList :: d.1 :: intText d.2 :: r), false⟩ =
      .ok (false, ⟨unlines (d.1 :: intText d.2 :: r), false⟩) := by
    obtain ⟨f, rfl⟩ : ∃ f, fuel = f + 2 := ⟨fuel - 2, by omega⟩
    rcases hpre with rfl | rfl
    · exact toDim_head s (f + 1) _
    · rw [List.singleton_append, toDim_line s (f + 1) ⟨by decide, by decide⟩ (by rw [← ParFile.isHead_iff]; decide) (by decide)]
      exact toDim_head s f _
  rw [h4]
  simp only [Out.bind, Bool.false_eq_true, if_false]
  rw [must_line (num := MAXKEYLEN) h1.1 (show d.1.length + 2 ≤ 50 by omega)]
  simp only [dropLast_newline]
  cases hv : dimVal s.dims d.1 with
  | none => simp
  | some v =>
    simp only []
    rw [must_fits h3]
    have h5 := atoi_int d.2 (r := []) (by simp [ParFile.Tail])
    rw [List.append_nil] at h5
    simp only [h5, Option.some.injEq]
    by_cases hx : v = d.2
    · simp [hx]
    · simp [hx]

/-- All dimensions. -/
theorem dimLoop_ok {V} (s : St V) (fuel : Nat) (hf : 2 ≤ fuel) : ∀ (ds : List (List Char × Int)) (n : Nat)
    (pre : List (List Char)), pre = [] ∨ pre = ["** Dimensions **".toList] → ds.length < n →
    (∀ d ∈ ds, '\n' ∉ d.1 ∧ d.1.length ≤ 48 ∧ (intText d.2).length ≤ 254) → Matched ds s → ∀ (r : List (List Char)),
    dimLoop s fuel n ⟨unlines (pre ++ (ds.flatMap fun d => ["####".toList, d.1, intText d.2]) ++ varLabel :: r), false⟩ =
      .ok ⟨unlines r, false⟩
  | [], n, pre, hpre, hn, _, _, r => by
    obtain ⟨m, rfl⟩ : ∃ m, n = m + 1 := ⟨n - 1, by simp only [List.length_nil] at hn; omega⟩
    obtain ⟨f, rfl⟩ : ∃ f, fuel = f + 2 := ⟨fuel - 2, by omega⟩
    rw [dimLoop]
    simp only [Bool.false_eq_true, if_false, List.flatMap_nil, List.append_nil]
    have h4 : toDim s (f + 2) ⟨unlines (pre ++ varLabel :: r), false⟩ = .ok (true, ⟨unlines r, false⟩) := by
      rcases hpre with rfl | rfl
      · exact toDim_label s (f + 1) _
      · rw [List.singleton_append, toDim_line s (f + 1) ⟨by decide, by decide⟩ (by rw [← ParFile.isHead_iff]; decide) (by decide)]
        exact toDim_label s f _
    rw [h4]
    rfl
  | d :: ds, n, pre, hpre, hn, hd, hs, r => by
    obtain ⟨m, rfl⟩ : ∃ m, n = m + 1 := ⟨n - 1, by simp only [List.length_cons] at hn; omega⟩
    have h1 := hd d (by simp)
    have e : pre ++ (List.flatMap (fun d => ["####".toList, d.1, intText d.2]) (d :: ds)) ++ varLabel :: r =
        pre ++ "####".toList :: d.1 :: intText d.2 :: ([] ++ (ds.flatMap fun d => ["####".toList, d.1, intText d.2]) ++ varLabel :: r) := by
      simp
    rw [e, dimLoop_step s fuel m hf ⟨h1.1, h1.2.1⟩ h1.2.2 hpre, if_pos (hs d (by simp))]
    exact dimLoop_ok s fuel hf ds m [] (Or.inl rfl) (by simp only [List.length_cons] at hn; omega)
      (fun x hx => hd x (by simp [hx])) (fun x hx => hs x (by simp [hx])) r

/-- The first dimension that does not match. -/
theorem dimLoop_wrong {V} (s : St V) (fuel : Nat) (hf : 2 ≤ fuel) {d : List Char × Int} (hx : dimVal s.dims d.1 ≠ some d.2) :
    ∀ (ds : List (List Char × Int)) (n : Nat) (pre : List (List Char)), pre = [] ∨ pre = ["** Dimensions **".toList] → ds.length < n →
    (∀ x ∈ ds ++ [d], '\n' ∉ x.1 ∧ x.1.length ≤ 48 ∧ (intText x.2).length ≤ 254) → Matched ds s → ∀ (r : List (List Char)),
    dimLoop s fuel n ⟨unlines (pre ++ (ds.flatMap fun d => ["####".toList, d.1, intText d.2]) ++
      "####".toList :: d.1 :: intText d.2 :: r), false⟩ = .ret 0 s
  | [], n, pre, hpre, hn, hd, _, r => by
    obtain ⟨m, rfl⟩ : ∃ m, n = m + 1 := ⟨n - 1, by simp only [List.length_nil] at hn; omega⟩
    have h1 := hd d (by simp)
    simp only [List.flatMap_nil, List.append_nil]
    rw [dimLoop_step s fuel m hf ⟨h1.1, h1.2.1⟩ h1.2.2 hpre, if_neg hx]
  | c :: ds, n, pre, hpre, hn, hd, hs, r => by
    obtain ⟨m, rfl⟩ : ∃ m, n = m + 1 := ⟨n - 1, by simp only [List.length_cons] at hn; omega⟩
    have h1 := hd c (by simp)
    have e : pre ++ (List.flatMap (fun d => ["####".toList, d.1, intText d.2]) (c :: ds)) ++ "####".toList :: d.1 :: intText d.2 :: r =
        pre ++ "####".toList :: c.1 :: intText c.2 :: ([] ++ (ds.flatMap fun d => ["####".toList, d.1, intText d.2]) ++
          "####".toList :: d.1 :: intText d.2 :: r) := by
      simp
    rw [e, dimLoop_step s fuel m hf ⟨h1.1, h1.2.1⟩ h1.2.2 hpre, if_pos (hs c (by simp))]
    exact dimLoop_wrong s fuel hf hx ds m [] (Or.inl rfl) (by simp only [List.length_cons] at hn; omega)
      (fun x hx => hd x (by simp only [List.cons_append, List.mem_cons]; exact Or.inr hx)) (fun x hx => hs x (by simp [hx])) r

/-! ### Variables -/

/-- The lines of a variable after its key. -/
def declBody {V} (v : Var V) : List (List Char) :=
  (if v.priv then [['1'], "PRIVATE".toList] else (intText v.ndimen ++ [' ']) :: v.dims.take v.ndimen.toNat) ++
    [digitsOf v.size ++ [' '], digitsOf v.type.code ++ [' ']]

def body {V} (show_ : Ty → V → List Char) (v : Var V) : List (List Char) :=
  declBody v ++ (v.vals.take v.size).map fun x => show_ v.type x ++ [' ']

def varLines {V} (show_ : Ty → V → List Char) (v : Var V) : List (List Char) := "####".toList :: v.key :: body show_ v

theorem saveVar_eq {V} (show_ : Ty → V → List Char) (v : Var V) : saveVar show_ v = unlines (varLines show_ v) := by
  unfold saveVar varLines body declBody
  have h : ∀ l : List (List Char), l.flatMap line = unlines l := by
    intro l; simp [unlines]; rfl
  rw [ParFile.unlines_flatMap (fun x => show_ v.type x ++ [' '])]
  generalize (v.vals.take v.size).map (fun x => show_ v.type x ++ [' ']) = m
  generalize "####".toList = h1
  generalize "PRIVATE".toList = h2
  split
  · simp [ParFile.unlines_cons, line]
  · rw [h]
    simp [ParFile.unlines_cons, ParFile.unlines_append, line]

theorem saveDims_eq (ds : List (List Char × Int)) :
    ds.flatMap saveDim = unlines (ds.flatMap fun d => ["####".toList, d.1, intText d.2]) := by
  generalize hg : "####".toList = h1
  induction ds with
  | nil => rfl
  | cons d ds ih =>
    rw [List.flatMap_cons, List.flatMap_cons, ParFile.unlines_append, ih, saveDim, hg]
    simp [ParFile.unlines_cons, line, ParFile.unlines_nil]

theorem toVar_lines {V} (s : St V) : ∀ (pre : List (List Char)), (∀ l ∈ pre, Fits l ∧ ¬ IsHeader l) → ∀ n, pre.length < n →
    ∀ r, toVar s n ⟨unlines (pre ++ "####".toList :: r), false⟩ = .ok ⟨unlines r, false⟩
  | [], _, n, hn, r => by
    obtain ⟨m, rfl⟩ : ∃ m, n = m + 1 := ⟨n - 1, by simp only [List.length_nil] at hn; omega⟩
    rw [List.nil_append, toVar, must_fits ⟨by decide, by decide⟩]
    simp only [Out.bind, header_line.1, if_true]
  | l :: pre, h, n, hn, r => by
    obtain ⟨m, rfl⟩ : ∃ m, n = m + 1 := ⟨n - 1, by simp only [List.length_cons] at hn; omega⟩
    have h1 := h l (by simp)
    have e1 : isHead (l ++ ['\n']) = false := by
      cases h : isHead (l ++ ['\n']) with
      | false => rfl
      | true => exact absurd ((ParFile.take4_newline l).1 h) h1.2
    rw [List.cons_append, toVar, must_fits h1.1]
    simp only [Out.bind, e1, Bool.false_eq_true, if_false]
    exact toVar_lines s pre (fun x hx => h x (by simp [hx])) m (by simp only [List.length_cons] at hn; omega) r

theorem toVar_end {V} (s : St V) : ∀ (pre : List (List Char)), (∀ l ∈ pre, Fits l ∧ ¬ IsHeader l) → ∀ n, pre.length < n →
    toVar s n ⟨unlines pre, false⟩ = .ret 0 s
  | [], _, n, hn => by
    obtain ⟨m, rfl⟩ : ∃ m, n = m + 1 := ⟨n - 1, by simp only [List.length_nil] at hn; omega⟩
    rfl
  | l :: pre, h, n, hn => by
    obtain ⟨m, rfl⟩ : ∃ m, n = m + 1 := ⟨n - 1, by simp only [List.length_cons] at hn; omega⟩
    have h1 := h l (by simp)
    have e1 : isHead (l ++ ['\n']) = false := by
      cases h : isHead (l ++ ['\n']) with
      | false => rfl
      | true => exact absurd ((ParFile.take4_newline l).1 h) h1.2
    rw [toVar, must_fits h1.1]
    simp only [Out.bind, e1, Bool.false_eq_true, if_false]
    exact toVar_end s pre (fun x hx => h x (by simp [hx])) m (by simp only [List.length_cons] at hn; omega)

theorem dimNames_ok {V} (s : St V) : ∀ (ds done dims : List (List Char)), dims = done ++ ds →
    (∀ d ∈ ds, '\n' ∉ d ∧ d.length ≤ 48) → ∀ r,
    dimNames s dims ds.length done.length ⟨unlines (ds ++ r), false⟩ = .ok ⟨unlines r, false⟩
  | [], _, _, _, _, r => rfl
  | d :: ds, done, dims, hd, h, r => by
    have h1 := h d (by simp)
    rw [List.length_cons, dimNames, List.cons_append, must_line (num := MAXDIMLEN) h1.1 (show d.length + 2 ≤ 50 by omega)]
    simp only [Out.bind, dropLast_newline]
    have h2 : dims[done.length]? = some d := by rw [hd]; simp
    have h3 := dimNames_ok s ds (done ++ [d]) dims (by rw [hd]; simp) (fun x hx => h x (by simp [hx])) r
    simp only [List.length_append, List.length_cons, List.length_nil] at h3
    rw [h2]
    split
    · exact h3
    · simp only [ne_eq, not_true, if_false]; exact h3

/-- The values of a variable. -/
theorem values_ok {V} (conv : List Char → V) (text : V → List Char) (key : List Char) : ∀ (xs : List V) (done old : List V) (s : St V)
    (v : Var V), find s.vars key = some v → v.vals = done ++ old → old.length = xs.length →
    (∀ x ∈ xs, Fits (text x) ∧ conv (text x ++ ['\n']) = x) → ∀ r, ∃ vs,
    values conv key xs.length done.length s ⟨unlines (xs.map text ++ r), false⟩ = .ok ({ s with vars := vs }, ⟨unlines r, false⟩) ∧
      find vs key = some { v with vals := done ++ xs } ∧ ∀ n, n ≠ key → find vs n = find s.vars n
  | [], done, old, s, v, hv, he, hl, _, r => by
    refine ⟨s.vars, rfl, ?_, fun _ _ => rfl⟩
    rw [hv]
    have : old = [] := List.length_eq_zero_iff.1 hl
    rw [this] at he
    rw [← he]
  | x :: xs, done, old, s, v, hv, he, hl, hx, r => by
    have h1 := hx x (by simp)
    cases old with
    | nil => simp at hl
    | cons o old =>
      rw [List.length_cons, values, List.map_cons, List.cons_append, must_fits h1.1]
      simp only [Out.bind, hv]
      rw [if_pos (by rw [he]; simp), h1.2]
      have hset : v.vals.set done.length x = (done ++ [x]) ++ old := by rw [he]; simp
      obtain ⟨vs, g1, g2, g3⟩ := values_ok conv text key xs (done ++ [x]) old
        { s with vars := update key (fun v => { v with vals := v.vals.set done.length x }) s.vars }
        { v with vals := v.vals.set done.length x }
        (by
          show find (update key (fun v => { v with vals := v.vals.set done.length x }) s.vars) key = _
          rw [find_update key (fun v => { v with vals := v.vals.set done.length x }) (fun _ => rfl), if_pos rfl, hv]; rfl)
        hset (by simpa using hl) (fun y hy => hx y (by simp [hy])) r
      refine ⟨vs, ?_, ?_, ?_⟩
      · simp only [List.length_append, List.length_cons, List.length_nil] at g1
        exact g1
      · rw [g2]; simp
      · intro n hn
        rw [g3 n hn]
        show find (update key (fun v => { v with vals := v.vals.set done.length x }) s.vars) n = _
        rw [find_update key (fun v => { v with vals := v.vals.set done.length x }) (fun _ => rfl), if_neg hn]

theorem tail_blank : ParFile.Tail [' '] := by
  intro c hc
  simp only [List.head?_cons, Option.some.injEq] at hc
  subst hc; decide

theorem digits_fits {n : Nat} (h : (decimal n).length ≤ 253) : Fits (digitsOf n ++ [' ']) := by
  rw [ParFile.digitsOf_decimal]
  refine ⟨?_, by simp; omega⟩
  intro hx
  simp only [List.mem_append, List.mem_singleton] at hx
  rcases hx with hx | hx
  · exact absurd (decimal_digits n _ hx) (by decide)
  · exact absurd hx (by decide)

theorem code_fits (t : Ty) : Fits (digitsOf t.code ++ [' ']) := by
  apply digits_fits
  cases t <;> (simp only [Ty.code]; rw [decimal]; simp)

theorem atoi_digits (n : Nat) : atoi (digitsOf n ++ [' '] ++ ['\n']) = n := by
  rw [ParFile.digitsOf_decimal, ParFile.atoi_tail n tail_blank]

theorem intText_nat (n : Nat) : intText n = decimal n := by
  unfold intText
  rw [if_neg (by omega), ParFile.digitsOf_decimal]
  simp

/-- The lines up to the type are those of the declaration. -/
theorem readVar_decl {V} {conv : Ty → List Char → V} {show_ : Ty → V → List Char} {v w : Var V} (hv : Savable conv show_ v)
    (hd : v.priv = true ∨ w.dims = v.dims) (s : St V) (r : List (List Char)) :
    ∃ k : Int, readVar conv s w ⟨unlines (declBody v ++ r), false⟩ =
      (let s1 := { s with vars := update w.key (fun v => { v with ndimen := k }) s.vars }
       if v.size ≠ w.size then .ret 1 s1
       else if v.type ≠ w.type then .ret 1 s1
       else values (conv w.type) w.key w.size 0 s1 ⟨unlines r, false⟩) := by
  have hcode : ∀ a b : Ty, ((a.code : Int) = b.code) ↔ a = b := by
    intro a b; cases a <;> cases b <;> simp [Ty.code]
  have hrest : ∀ (s1 : St V) (st1 : Stream), st1 = ⟨unlines ([digitsOf v.size ++ [' '], digitsOf v.type.code ++ [' ']] ++ r), false⟩ →
      ((must MAXLNLEN 1 s1 st1).bind fun b =>
          if atoi b.1 ≠ w.size then .ret 1 s1
          else
            (must MAXLNLEN 1 s1 b.2).bind fun c =>
              if atoi c.1 = 0 then .ret 1 s1
              else if atoi c.1 ≠ w.type.code then .ret 1 s1
              else values (conv w.type) w.key w.size 0 s1 c.2) =
        if v.size ≠ w.size then .ret 1 s1
        else if v.type ≠ w.type then .ret 1 s1
        else values (conv w.type) w.key w.size 0 s1 ⟨unlines r, false⟩ := by
    intro s1 st1 hst
    subst hst
    rw [List.cons_append, must_fits (digits_fits hv.small.2)]
    simp only [Out.bind, atoi_digits]
    by_cases h1 : v.size = w.size
    · rw [if_neg (by simp [h1]), if_neg (by simp [h1]), List.cons_append, must_fits (code_fits _)]
      simp only [atoi_digits, List.nil_append]
      rw [if_neg (ParFile.code_ne _)]
      by_cases h2 : v.type = w.type
      · rw [if_neg (by simp [h2]), if_neg (by simp [h2])]
      · rw [if_pos (by rw [ne_eq, hcode]; exact h2), if_pos h2]
    · rw [if_pos (by intro hx; exact h1 (by exact_mod_cast hx)), if_pos h1]
  unfold declBody
  by_cases hp : v.priv = true
  · refine ⟨1, ?_⟩
    rw [if_pos hp, readVar, List.cons_append, List.cons_append, must_fits ⟨by decide, by decide⟩]
    have h1 : atoi (['1'] ++ ['\n']) = 1 := by decide
    simp only [Out.bind, h1]
    rw [if_neg (by decide)]
    have h2 : dimNames { s with vars := update w.key (fun v => { v with ndimen := 1 }) s.vars } w.dims (1 : Int).toNat 0
        ⟨unlines ("PRIVATE".toList :: ([] ++ [digitsOf v.size ++ [' '], digitsOf v.type.code ++ [' ']] ++ r)), false⟩ =
        .ok ⟨unlines ([digitsOf v.size ++ [' '], digitsOf v.type.code ++ [' ']] ++ r), false⟩ := by
      show dimNames _ _ 1 0 _ = _
      rw [dimNames, must_line (by decide) (by decide)]
      simp only [Out.bind, dropLast_newline, if_true, List.nil_append]
      rfl
    rw [List.cons_append, List.cons_append] at h2 ⊢
    rw [h2]
    exact hrest _ _ rfl
  · have hdim := hd.resolve_left hp
    obtain ⟨hne, hnd⟩ := hv.kind.resolve_left hp
    refine ⟨v.dims.length, ?_⟩
    have hfit : Fits (intText v.ndimen ++ [' ']) := by
      rw [hnd, intText_nat, ← ParFile.digitsOf_decimal]; exact digits_fits hv.small.1
    have hat : atoi (intText v.ndimen ++ [' '] ++ ['\n']) = v.dims.length := by rw [atoi_int _ tail_blank, hnd]
    rw [if_neg hp, readVar, List.cons_append, List.cons_append, must_fits hfit]
    simp only [Out.bind, hat]
    have h0 : ¬ ((v.dims.length : Int) = 0) := by
      have := List.length_pos_iff.2 hne
      omega
    rw [if_neg h0]
    have ht : v.dims.take v.ndimen.toNat = v.dims := by rw [hnd]; simp
    rw [ht, List.append_assoc, hdim]
    have h2 := dimNames_ok { s with vars := update w.key (fun v_1 => { v_1 with ndimen := (v.dims.length : Int) }) s.vars } v.dims [] v.dims
      rfl (fun d hd => ⟨(hv.dims d hd).1, (hv.dims d hd).2.1⟩) ([digitsOf v.size ++ [' '], digitsOf v.type.code ++ [' ']] ++ r)
    rw [Int.toNat_natCast]
    simp only [List.length_nil] at h2
    rw [h2]
    exact hrest _ _ rfl

/-- A variable of the same declaration gets its values. -/
theorem readVar_ok {V} {conv : Ty → List Char → V} {show_ : Ty → V → List Char} {v w : Var V} (hv : Savable conv show_ v)
    {s : St V} (hw : find s.vars v.key = some w) (hsame : Same v w) (hst : w.vals.length = w.size) (r : List (List Char)) :
    ∃ vs, readVar conv s w ⟨unlines (body show_ v ++ r), false⟩ = .ok ({ s with vars := vs }, ⟨unlines r, false⟩) ∧
      look vs v.key = some v.vals ∧ ∀ n, n ≠ v.key → find vs n = find s.vars n := by
  have hkey : w.key = v.key := (find_mem hw).2
  obtain ⟨k, hk⟩ := readVar_decl (w := w) hv hsame.1 s ((v.vals.take v.size).map (fun x => show_ v.type x ++ [' ']) ++ r)
  have hsz := hv.size
  have ht : v.vals.take v.size = v.vals := by rw [← hsz]; simp
  have hf1 : find (update w.key (fun v => { v with ndimen := k }) s.vars) w.key = some { w with ndimen := k } := by
    rw [find_update w.key (fun v => { v with ndimen := k }) (fun _ => rfl), if_pos rfl]
    have : find s.vars w.key = some w := by rw [hkey]; exact hw
    rw [this]; rfl
  obtain ⟨vs, g1, g2, g3⟩ := values_ok (conv w.type) (fun x => show_ v.type x ++ [' ']) w.key v.vals [] w.vals
    { s with vars := update w.key (fun v => { v with ndimen := k }) s.vars } { w with ndimen := k }
    hf1 rfl (by rw [hst, hsame.2.1, hsz])
    (fun x hx => ⟨(hv.texts x hx).1, by rw [hsame.2.2]; simpa using hv.exact x hx⟩) r
  refine ⟨vs, ?_, ?_, ?_⟩
  · unfold body
    rw [List.append_assoc, hk]
    simp only []
    rw [if_neg (by simp [hsame.2.1]), if_neg (by simp [hsame.2.2]), ht, hsame.2.1, ← hsz]
    exact g1
  · rw [look, entry_find, ← hkey, g2]; rfl
  · intro n hn
    rw [g3 n (by rw [hkey]; exact hn)]
    show find (update w.key (fun v => { v with ndimen := k }) s.vars) n = _
    rw [find_update w.key (fun v => { v with ndimen := k }) (fun _ => rfl), if_neg (by rw [hkey]; exact hn)]

/-- Another size or type. -/
theorem readVar_wrong {V} {conv : Ty → List Char → V} {show_ : Ty → V → List Char} {v w : Var V} (hv : Savable conv show_ v)
    {s : St V} (hw : find s.vars v.key = some w) (hd : v.priv = true ∨ w.dims = v.dims) (hne : ¬ (w.size = v.size ∧ w.type = v.type))
    (r : List (List Char)) :
    ∃ vs, readVar conv s w ⟨unlines (body show_ v ++ r), false⟩ = .ret 1 { s with vars := vs } ∧
      ∀ n, look vs n = look s.vars n := by
  have hkey : w.key = v.key := (find_mem hw).2
  obtain ⟨k, hk⟩ := readVar_decl (w := w) hv hd s ((v.vals.take v.size).map (fun x => show_ v.type x ++ [' ']) ++ r)
  refine ⟨update w.key (fun v => { v with ndimen := k }) s.vars, ?_, ?_⟩
  · unfold body
    rw [List.append_assoc, hk]
    simp only []
    by_cases h1 : v.size = w.size
    · rw [if_neg (by simp [h1]), if_pos (fun h2 => hne ⟨h1.symm, h2.symm⟩)]
    · rw [if_pos h1]
  · intro n
    simp only [look, entry_find]
    rw [find_update w.key (fun v => { v with ndimen := k }) (fun _ => rfl)]
    split
    · rename_i hn
      subst hn
      cases find s.vars w.key <;> rfl
    · rfl

theorem header_blank {t : List Char} (h : IsHeader (t ++ [' '])) : IsHeader t := by
  unfold IsHeader at *
  rcases t with _ | ⟨a, _ | ⟨b, _ | ⟨c, _ | ⟨d, t⟩⟩⟩⟩ <;> simp [List.cons_prefix_cons] at h ⊢
  exact h

theorem body_lines {V} {conv : Ty → List Char → V} {show_ : Ty → V → List Char} {v : Var V} (hv : Savable conv show_ v) :
    ∀ l ∈ body show_ v, Fits l ∧ ¬ IsHeader l := by
  have hnum : ∀ n : Nat, ¬ IsHeader (digitsOf n ++ [' ']) := by
    intro n hx
    rw [ParFile.digitsOf_decimal] at hx
    obtain ⟨c, cs, hc⟩ := List.exists_cons_of_ne_nil (decimal_ne_nil n)
    have hd := decimal_digits n c (by simp [hc])
    rw [hc] at hx
    have := List.cons_prefix_cons.1 hx
    rw [← this.1] at hd
    exact absurd hd (by decide)
  intro l hl
  simp only [body, declBody, List.mem_append, List.mem_map] at hl
  rcases hl with (hl | hl) | ⟨x, hx, rfl⟩
  · split at hl
    · simp only [List.mem_cons, List.not_mem_nil, or_false] at hl
      rcases hl with rfl | rfl
      · exact ⟨⟨by decide, by decide⟩, by rw [← ParFile.isHead_iff]; decide⟩
      · exact ⟨⟨by decide, by decide⟩, by rw [← ParFile.isHead_iff]; decide⟩
    · rename_i hp
      obtain ⟨hne, hnd⟩ := hv.kind.resolve_left hp
      simp only [List.mem_cons] at hl
      rcases hl with rfl | hl
      · rw [hnd, intText_nat, ← ParFile.digitsOf_decimal]
        exact ⟨digits_fits hv.small.1, hnum _⟩
      · have := hv.dims l (List.mem_of_mem_take hl)
        exact ⟨⟨this.1, by omega⟩, this.2.2⟩
  · simp only [List.mem_cons, List.not_mem_nil, or_false] at hl
    rcases hl with rfl | rfl
    · exact ⟨digits_fits hv.small.2, hnum _⟩
    · exact ⟨code_fits _, hnum _⟩
  · have := hv.texts x (List.mem_of_mem_take hx)
    exact ⟨this.1, fun hh => this.2 (header_blank hh)⟩

theorem varLoop_step {V} {conv : Ty → List Char → V} {show_ : Ty → V → List Char} {fuel n : Nat} {s : St V} {v : Var V}
    (hk : '\n' ∉ v.key ∧ v.key.length ≤ 48)
    {pre : List (List Char)} (h1 : ∀ l ∈ pre, Fits l ∧ ¬ IsHeader l) (h2 : pre.length < fuel) (r : List (List Char)) :
    varLoop conv fuel (n + 1) s ⟨unlines (pre ++ (varLines show_ v ++ r)), false⟩ =
      match find s.vars v.key with
        | none => varLoop conv fuel n s ⟨unlines (body show_ v ++ r), false⟩
        | some w => (readVar conv s w ⟨unlines (body show_ v ++ r), false⟩).bind fun x => varLoop conv fuel n x.1 x.2 := by
  have e : pre ++ (varLines show_ v ++ r) = pre ++ "####".toList :: v.key :: (body show_ v ++ r) := by
    rw [varLines]; simp
  rw [e, varLoop]
  simp only [Bool.false_eq_true, if_false]
  rw [toVar_lines s pre h1 fuel h2]
  simp only [Out.bind]
  rw [must_line (num := MAXKEYLEN) hk.1 (show v.key.length + 2 ≤ 50 by have := hk.2; omega)]
  simp only [dropLast_newline]
  cases find s.vars v.key <;> rfl

/-- The part of the file with the variables `vs`, after some lines without header. -/
theorem varLoop_prefix {V} {conv : Ty → List Char → V} {show_ : Ty → V → List Char} {fuel m : Nat} (r : List (List Char)) :
    ∀ (vs : List (Var V)) (pre : List (List Char)) (s : St V), (∀ l ∈ pre, Fits l ∧ ¬ IsHeader l) → pre.length < fuel →
    (∀ v ∈ vs, Savable conv show_ v ∧ (body show_ v).length < fuel) → (vs.map Var.key).Nodup →
    (∀ v ∈ vs, ∀ w, find s.vars v.key = some w → Same v w ∧ w.vals.length = w.size) →
    ∃ pre' vars, (∀ l ∈ pre', Fits l ∧ ¬ IsHeader l) ∧ pre'.length < fuel ∧
      varLoop conv fuel (vs.length + m) s ⟨unlines (pre ++ (vs.flatMap (varLines show_) ++ r)), false⟩ =
        varLoop conv fuel m { s with vars := vars } ⟨unlines (pre' ++ r), false⟩ ∧
      (∀ v ∈ vs, find s.vars v.key ≠ none → look vars v.key = some v.vals) ∧
      ∀ n, (∀ v ∈ vs, v.key ≠ n) → find vars n = find s.vars n
  | [], pre, s, h1, h2, _, _, _ => ⟨pre, s.vars, h1, h2, by simp, by simp, fun _ _ => rfl⟩
  | v :: vs, pre, s, h1, h2, hs, hnd, hdecl => by
    obtain ⟨hv, hb⟩ := hs v (by simp)
    simp only [List.map_cons, List.nodup_cons] at hnd
    have hne : ∀ x ∈ vs, x.key ≠ v.key := fun x hx he => hnd.1 (List.mem_map.2 ⟨x, hx, he⟩)
    have hstep := varLoop_step (conv := conv) (show_ := show_) (fuel := fuel) (n := vs.length + m) (s := s) hv.key h1 h2 (vs.flatMap (varLines show_) ++ r)
    have e : (v :: vs).flatMap (varLines show_) ++ r = varLines show_ v ++ (vs.flatMap (varLines show_) ++ r) := by
      rw [List.flatMap_cons, List.append_assoc]
    rw [e, List.length_cons, show vs.length + 1 + m = (vs.length + m) + 1 by omega]
    rw [hstep]
    cases hw : find s.vars v.key with
    | none =>
      obtain ⟨pre', vars, g1, g2, g3, g4, g5⟩ := varLoop_prefix r vs (body show_ v) s (body_lines hv) hb
        (fun x hx => hs x (by simp [hx])) hnd.2 (fun x hx => hdecl x (by simp [hx]))
      refine ⟨pre', vars, g1, g2, g3, ?_, ?_⟩
      · intro x hx
        simp only [List.mem_cons] at hx
        rcases hx with rfl | hx
        · intro h; exact absurd hw h
        · exact g4 x hx
      · intro n hn; exact g5 n fun x hx => hn x (by simp [hx])
    | some w =>
      obtain ⟨hsame, hst⟩ := hdecl v (by simp) w hw
      obtain ⟨vs1, k1, k2, k3⟩ := readVar_ok hv hw hsame hst (vs.flatMap (varLines show_) ++ r)
      obtain ⟨pre', vars, g1, g2, g3, g4, g5⟩ := varLoop_prefix (conv := conv) (show_ := show_) (fuel := fuel) (m := m) r vs []
        { s with vars := vs1 } (by simp) (by simp only [List.length_nil]; omega) (fun x hx => hs x (by simp [hx])) hnd.2
        (fun x hx w' hw' => hdecl x (by simp [hx]) w' (by rw [← k3 x.key (hne x hx)]; exact hw'))
      refine ⟨pre', vars, g1, g2, ?_, ?_, ?_⟩
      · simp only []
        rw [k1]
        simp only [Out.bind]
        rw [List.nil_append] at g3
        exact g3
      · intro x hx
        simp only [List.mem_cons] at hx
        rcases hx with rfl | hx
        · intro _
          simp only [look, entry_find] at k2 ⊢
          rw [g5 x.key hne]; exact k2
        · intro h
          exact g4 x hx (by show find vs1 x.key ≠ none; rw [k3 x.key (hne x hx)]; exact h)
      · intro n hn
        rw [g5 n fun x hx => hn x (by simp [hx])]
        exact k3 n (fun h => hn v (by simp) h.symm)

/-- The state after the first lines of a saved file. -/
def begun {V} (conv : Ty → List Char → V) (showF : V → List Char) (s t : St V) : St V :=
  { t with info := (s.info.takeWhile fun c => c ≠ '\n') ++ ['\n'], nstep := s.nstep,
           delta := conv .double (showF s.delta ++ ['\n']), next := conv .double (showF s.delta ++ ['\n']) }

def dimsLines (ds : List (List Char × Int)) : List (List Char) := ds.flatMap fun d => ["####".toList, d.1, intText d.2]

theorem save_eq {V} (show_ : Ty → V → List Char) (showF : V → List Char) (s : St V) :
    save show_ showF s = unlines ((s.info.takeWhile fun c => c ≠ '\n') :: ("last nstep ".toList ++ intText s.nstep) ::
      ("last julian time ".toList ++ showF s.now) :: ("last delta time ".toList ++ showF s.delta) ::
      (["** Dimensions **".toList] ++ dimsLines s.dims ++ varLabel :: s.vars.flatMap (varLines show_))) := by
  unfold save dimsLines
  rw [saveDims_eq]
  have h : s.vars.flatMap (saveVar show_) = unlines (s.vars.flatMap (varLines show_)) := by
    induction s.vars with
    | nil => rfl
    | cons v vs ih => rw [List.flatMap_cons, List.flatMap_cons, ParFile.unlines_append, ih, saveVar_eq]
  rw [h]
  generalize "last nstep ".toList = a1
  generalize "last julian time ".toList = a2
  generalize "last delta time ".toList = a3
  generalize "** Dimensions **".toList = a4
  simp only [line, ParFile.unlines_cons, ParFile.unlines_append, List.append_assoc, List.cons_append]
  rfl

theorem mem_takeWhile_ne (l : List Char) : '\n' ∉ l.takeWhile fun c => c ≠ '\n' := by
  intro h
  have := mem_takeWhile h
  simp at this

theorem read_begun {V} (conv : Ty → List Char → V) (show_ : Ty → V → List Char) {showF : V → List Char} {s : St V} (t : St V)
    (hf : Fitting showF s) :
    read conv t (some (save show_ showF s)) =
      (dimLoop (begun conv showF s t) ((save show_ showF s).length + 1) ((save show_ showF s).length + 1)
        ⟨unlines (["** Dimensions **".toList] ++ dimsLines s.dims ++ varLabel :: s.vars.flatMap (varLines show_)), false⟩).bind
      fun st => varLoop conv ((save show_ showF s).length + 1) ((save show_ showF s).length + 1) (begun conv showF s t) st := by
  have hap : ∀ {a b : List Char}, '\n' ∉ a → '\n' ∉ b → '\n' ∉ a ++ b := by
    intro a b ha hb hx
    simp only [List.mem_append] at hx
    rcases hx with hx | hx
    · exact ha hx
    · exact hb hx
  unfold read
  simp only []
  generalize hlen : (save show_ showF s).length + 1 = fuel
  rw [save_eq, openText, must_line (num := MAXINFOLEN) (mem_takeWhile_ne _) (by have := hf.info; show _ + 2 ≤ 80; omega)]
  simp only [Out.bind]
  rw [must_line (num := MAXINFOLEN) (hap (by decide) (ParFile.intText_newline _))
    (by have := hf.nstep; have h : "last nstep ".toList.length = 11 := by decide
        rw [List.length_append, h]; show _ + 2 ≤ 80; omega)]
  have hd1 : (dropTo 11 ("last nstep ".toList ++ intText s.nstep ++ ['\n']) : Out V _) = .ok (intText s.nstep ++ ['\n']) := by
    have h : "last nstep ".toList.length = 11 := by decide
    rw [dropTo, if_neg (by simp only [List.length_append, h]; omega), List.append_assoc, List.drop_append_of_le_length (by omega)]
    rw [← h, List.drop_length, List.nil_append]
  simp only [hd1]
  rw [must_line (num := MAXINFOLEN) (hap (by decide) hf.now.1)
    (by have := hf.now.2; have h : "last julian time ".toList.length = 17 := by decide
        rw [List.length_append, h]; show _ + 2 ≤ 80; omega)]
  simp only []
  rw [must_line (num := MAXINFOLEN) (hap (by decide) hf.delta.1)
    (by have := hf.delta.2; have h : "last delta time ".toList.length = 16 := by decide
        rw [List.length_append, h]; show _ + 2 ≤ 80; omega)]
  have hd2 : (dropTo 16 ("last delta time ".toList ++ showF s.delta ++ ['\n']) : Out V _) = .ok (showF s.delta ++ ['\n']) := by
    have h : "last delta time ".toList.length = 16 := by decide
    rw [dropTo, if_neg (by simp only [List.length_append, h]; omega), List.append_assoc, List.drop_append_of_le_length (by omega)]
    rw [← h, List.drop_length, List.nil_append]
  simp only [hd2]
  have hn := atoi_int s.nstep (r := []) (by simp [ParFile.Tail])
  rw [List.append_nil] at hn
  rw [hn]
  rfl

theorem fuel_lines {V} (show_ : Ty → V → List Char) (showF : V → List Char) (s : St V) :
    s.dims.length < (save show_ showF s).length + 1 ∧ s.vars.length + 1 ≤ (save show_ showF s).length + 1 ∧
    2 ≤ (save show_ showF s).length + 1 ∧ ∀ v ∈ s.vars, (body show_ v).length < (save show_ showF s).length + 1 := by
  have h := ParFile.unlines_length ((s.info.takeWhile fun c => c ≠ '\n') :: ("last nstep ".toList ++ intText s.nstep) ::
      ("last julian time ".toList ++ showF s.now) :: ("last delta time ".toList ++ showF s.delta) ::
      (["** Dimensions **".toList] ++ dimsLines s.dims ++ varLabel :: s.vars.flatMap (varLines show_)))
  rw [← save_eq] at h
  simp only [List.length_cons, List.length_append, List.length_nil] at h
  have h1 : s.dims.length ≤ (dimsLines s.dims).length := by
    unfold dimsLines
    induction s.dims with
    | nil => simp
    | cons d ds ih => simp only [List.flatMap_cons, List.length_append, List.length_cons, List.length_nil]; omega
  have h2 : s.vars.length ≤ (s.vars.flatMap (varLines show_)).length ∧
      ∀ v ∈ s.vars, (body show_ v).length ≤ (s.vars.flatMap (varLines show_)).length := by
    clear h
    induction s.vars with
    | nil => simp
    | cons d ds ih =>
      simp only [List.flatMap_cons, List.length_append, List.length_cons, varLines]
      refine ⟨by have := ih.1; omega, ?_⟩
      intro v hv
      simp only [List.mem_cons] at hv
      rcases hv with rfl | hv
      · omega
      · have := ih.2 v hv; omega
  refine ⟨by omega, by omega, by omega, ?_⟩
  intro v hv
  have := h2.2 v hv
  omega

/-- A line longer than the buffer is read in pieces. -/
theorem fgets_long {num : Nat} {l r : List Char} (hn : '\n' ∉ l) (h : num - 1 ≤ l.length) :
    fgets num ⟨l ++ '\n' :: r, false⟩ = some (l.take (num - 1), ⟨l.drop (num - 1) ++ '\n' :: r, false⟩) := by
  have hg : ∀ (n : Nat) (l r : List Char), '\n' ∉ l → n ≤ l.length →
      fgetsTake n (l ++ '\n' :: r) = (l.take n, l.drop n ++ '\n' :: r) := by
    intro n
    induction n with
    | zero => intro l r _ _; simp [fgetsTake]
    | succ n ih =>
      intro l r hl hn
      cases l with
      | nil => simp at hn
      | cons c l =>
        have hc : c ≠ '\n' := fun h => hl (by simp [h])
        rw [List.cons_append, fgetsTake, if_neg hc, ih l r (fun h => hl (by simp [h])) (by simpa using hn)]
        simp
  have h1 := hg (num - 1) l r hn h
  unfold fgets
  cases hx : l ++ '\n' :: r with
  | nil => simp at hx
  | cons a b =>
    simp only [hx] at h1 ⊢
    rw [h1]
    cases hy : l.drop (num - 1) <;> simp

end Verif.VarFile
