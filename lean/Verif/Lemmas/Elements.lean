import Verif.Lemmas.Resize
import Verif.Lemmas.CText
/-
Lemmas for C12, C13 and C46.
-/
namespace Verif.Params
open Verif.CText Verif.Tables

theorem joinComma_splitBy (s : List Char) : joinComma (splitBy (· = ',') s) = s := by
  induction s with
  | nil => rfl
  | cons c s ih =>
    by_cases hc : c = ','
    · subst hc
      rw [splitBy]
      simp only [decide_true, if_true]
      cases h : splitBy (fun x => decide (x = ',')) s with
      | nil => exact absurd h (splitBy_ne_nil _ _)
      | cons t ts => rw [h] at ih; simp [joinComma, ih]
    · obtain ⟨t, ts, h1, h2⟩ := splitBy_cons_neg (p := fun x => decide (x = ',')) (c := c) (by simp [hc]) s
      rw [h2]
      rw [h1] at ih
      cases ts with
      | nil => simp [joinComma] at ih ⊢; exact ih
      | cons u us => simp [joinComma] at ih ⊢; exact ih

theorem joinComma_chars {ps : List (List Char)} (h : ∀ p ∈ ps, ∀ c ∈ p, c ∈ digits) :
    ∀ c ∈ joinComma ps, c ∈ digits ∨ c = ',' := by
  induction ps with
  | nil => simp [joinComma]
  | cons p ps ih =>
    cases ps with
    | nil => intro c hc; exact Or.inl (h p (by simp) c hc)
    | cons q r =>
      intro c hc
      simp only [joinComma, List.mem_append, List.mem_cons] at hc
      rcases hc with hc | hc | hc
      · exact Or.inl (h p (by simp) c hc)
      · exact Or.inr hc
      · exact ih (fun x hx => h x (List.mem_cons_of_mem _ hx)) c hc

theorem splitBy_joinComma {parts : List (List Char)} (h0 : parts ≠ [])
    (h : ∀ p ∈ parts, ',' ∉ p) : splitBy (· = ',') (joinComma parts) = parts := by
  induction parts with
  | nil => exact absurd rfl h0
  | cons p ps ih =>
    have hp : ∀ c ∈ p, decide (c = ',') = false := by
      intro c hc
      simp only [decide_eq_false_iff_not]
      rintro rfl; exact h p (by simp) hc
    cases ps with
    | nil => simp only [joinComma]; exact splitBy_word hp
    | cons q r =>
      simp only [joinComma]
      rw [splitBy_word_sep hp (by simp), ih (by simp) fun x hx => h x (List.mem_cons_of_mem _ hx)]

theorem mem_splitBy {p : Char → Bool} {s w : List Char} (h : w ∈ splitBy p s) :
    (∀ c ∈ w, p c = false) ∧ ∃ a b, s = a ++ w ++ b := by
  induction s generalizing w with
  | nil =>
    simp only [splitBy, List.mem_singleton] at h
    subst h; exact ⟨by simp, [], [], rfl⟩
  | cons c s ih =>
    by_cases hc : p c = true
    · rw [splitBy] at h
      simp only [hc, if_true, List.mem_cons] at h
      rcases h with rfl | h
      · exact ⟨by simp, [], c :: s, rfl⟩
      · obtain ⟨h1, a, b, h2⟩ := ih h
        exact ⟨h1, c :: a, b, by rw [h2]; rfl⟩
    · have hc' : p c = false := by simpa using hc
      obtain ⟨t, ts, h1, h2⟩ := splitBy_cons_neg hc' s
      rw [h2, List.mem_cons] at h
      rcases h with rfl | h
      · -- the first piece is a prefix
        obtain ⟨g1, -⟩ := ih (w := t) (by rw [h1]; simp)
        refine ⟨?_, [], ?_⟩
        · intro d hd
          rcases List.mem_cons.1 hd with rfl | hd
          · exact hc'
          · exact g1 d hd
        · have : ∃ b, s = t ++ b := by
            clear ih h2
            induction s generalizing t ts with
            | nil => simp [splitBy] at h1; exact ⟨[], by simp [h1.1]⟩
            | cons e s ihs =>
              by_cases he : p e = true
              · rw [splitBy] at h1
                simp only [he, if_true, List.cons.injEq] at h1
                exact ⟨e :: s, by simp [← h1.1]⟩
              · have he' : p e = false := by simpa using he
                obtain ⟨t', ts', k1, k2⟩ := splitBy_cons_neg he' s
                rw [k2, List.cons.injEq] at h1
                obtain ⟨b, hb⟩ := ihs t' ts' k1 (fun c hc => g1 c (by rw [← h1.1]; simp [hc]))
                exact ⟨b, by rw [← h1.1, hb]; rfl⟩
          obtain ⟨b, hb⟩ := this
          exact ⟨b, by rw [hb]; rfl⟩
      · obtain ⟨g1, a, b, g2⟩ := ih (w := w) (by rw [h1]; exact List.mem_cons_of_mem _ h)
        exact ⟨g1, c :: a, b, by rw [g2]; rfl⟩

theorem dropWhile_all {p : Char → Bool} {s : List Char} (h : ∀ c ∈ s, p c = true) : s.dropWhile p = [] := by
  induction s with
  | nil => rfl
  | cons c s ih =>
    rw [List.dropWhile_cons_of_pos (h c (by simp))]
    exact ih fun d hd => h d (List.mem_cons_of_mem _ hd)

theorem takeWhile_all {p : Char → Bool} {s : List Char} (h : ∀ c ∈ s, p c = true) : s.takeWhile p = s := by
  induction s with
  | nil => rfl
  | cons c s ih =>
    rw [List.takeWhile_cons_of_pos (h c (by simp)), ih fun d hd => h d (List.mem_cons_of_mem _ hd)]

theorem dropWhile_nil {p : Char → Bool} {s : List Char} (h : s.dropWhile p = []) : ∀ c ∈ s, p c = true := by
  induction s with
  | nil => simp
  | cons c s ih =>
    by_cases hc : p c = true
    · rw [List.dropWhile_cons_of_pos hc] at h
      intro d hd
      rcases List.mem_cons.1 hd with rfl | hd
      · exact hc
      · exact ih h d hd
    · rw [List.dropWhile_cons_of_neg hc] at h; simp at h

theorem indexStrings_plain {s : List Char} (hp : '(' ∉ s) (hq : ')' ∉ s) (hs : ShortText s) :
    indexStrings s = some (splitBy (· = ',') s) := by
  unfold indexStrings
  rw [if_neg (by have := hs.1; omega)]
  have h1 : s.dropWhile (fun x => decide (x ≠ '(')) = [] :=
    dropWhile_all fun c hc => by simp; rintro rfl; exact hp hc
  have h2 : s.takeWhile (fun x => decide (x ≠ ')')) = s :=
    takeWhile_all fun c hc => by simp; rintro rfl; exact hq hc
  simp only [h1, if_true, h2]
  rw [if_pos]
  simp only [List.all_eq_true, decide_eq_true_eq]
  intro w hw
  obtain ⟨g1, a, b, g2⟩ := mem_splitBy hw
  refine hs.2 a w b g2 fun hc => ?_
  have := g1 _ hc
  simp at this

theorem checkIndex_zero {d : Nat} {t : List Char} :
    checkIndex d t = 0 ↔ t ≠ [] ∧ (∀ c ∈ t, c ∈ digits) ∧ 1 ≤ numeral t ∧ numeral t ≤ d := by
  unfold checkIndex
  by_cases h0 : t = []
  · simp [h0]
  by_cases h1 : t.dropWhile isDigit = []
  · have hd : ∀ c ∈ t, isDigit c = true := dropWhile_nil h1
    have hat : atoi t = (numeral t : Nat) := by
      have := strtol_digits h0 hd (r := []) (by simp)
      rw [List.append_nil] at this
      simp [atoi, this]
    have hd' : ∀ c ∈ t, c ∈ digits := fun c hc => (isDigit_mem c).1 (hd c hc)
    simp only [h0, h1, ne_eq, not_true_eq_false, or_self, if_false, not_false_eq_true, true_and, hat]
    split
    · simp; omega
    · split
      · simp; omega
      · simp; exact ⟨hd', by omega, by omega⟩
  · simp only [h0, h1, ne_eq, not_false_eq_true, or_true, if_true]
    simp only [OfNat.ofNat_ne_zero, true_and, false_iff, not_and]
    intro hd
    exact absurd (dropWhile_all fun c hc => (isDigit_mem c).2 (hd c hc)) h1

theorem checkAll_zero {ds : List Nat} {ts : List (List Char)} (hl : ds.length = ts.length) :
    checkAll ds ts = 0 ↔ (∀ t ∈ ts, t ≠ [] ∧ ∀ c ∈ t, c ∈ digits) ∧
      ∀ (k i d : Nat), (ts.map numeral)[k]? = some i → ds[k]? = some d → 1 ≤ i ∧ i ≤ d := by
  induction ds generalizing ts with
  | nil =>
    cases ts with
    | nil => simp [checkAll]
    | cons => simp at hl
  | cons d ds ih =>
    cases ts with
    | nil => simp at hl
    | cons t ts =>
      have ih' := ih (ts := ts) (by simpa using hl)
      rw [checkAll]
      cases hc : checkIndex d t with
      | zero =>
        simp only
        rw [ih']
        rw [checkIndex_zero] at hc
        constructor
        · rintro ⟨h1, h2⟩
          refine ⟨?_, ?_⟩
          · intro x hx
            rcases List.mem_cons.1 hx with rfl | hx
            · exact ⟨hc.1, hc.2.1⟩
            · exact h1 x hx
          · intro k i e hk he
            cases k with
            | zero => simp at hk he; subst hk; subst he; exact hc.2.2
            | succ k => exact h2 k i e (by simpa using hk) (by simpa using he)
        · rintro ⟨h1, h2⟩
          exact ⟨fun x hx => h1 x (List.mem_cons_of_mem _ hx),
            fun k i e hk he => h2 (k + 1) i e (by simpa using hk) (by simpa using he)⟩
      | succ n =>
        simp only [Nat.succ_ne_zero, false_iff]
        rintro ⟨h1, h2⟩
        have : checkIndex d t = 0 :=
          checkIndex_zero.2 ⟨(h1 t (by simp)).1, (h1 t (by simp)).2, h2 0 _ _ (by simp) (by simp)⟩
        omega

theorem offsetLoop_eq (ds : List Nat) (is : List Nat) (hl : is.length = ds.length) (h1 : ∀ i ∈ is, 1 ≤ i)
    (o p : Int) :
    offsetLoop ds (is.map Int.ofNat) o p = o + p * (position ds (is.map (· - 1)) : Nat) := by
  induction ds generalizing is o p with
  | nil => cases is <;> simp_all [offsetLoop, position]
  | cons d ds ih => cases is with
    | nil => simp at hl
    | cons i is =>
      simp only [List.map_cons, offsetLoop, position]
      rw [ih is (by simpa using hl) fun j hj => h1 j (List.mem_cons_of_mem _ hj)]
      have := h1 i (by simp)
      have hi : (Int.ofNat i) - 1 = ((i - 1 : Nat) : Int) := by simp; omega
      rw [hi]
      push_cast
      ring

theorem inside_of_valid {dims idx : List Nat} (h : ValidIndices dims idx) : Inside dims (idx.map (· - 1)) := by
  obtain ⟨hl, h⟩ := h
  induction dims generalizing idx with
  | nil => cases idx <;> simp_all [Inside]
  | cons d dims ih => cases idx with
    | nil => simp at hl
    | cons i idx =>
      have := h 0 i d (by simp) (by simp)
      exact ⟨by show i - 1 < d; omega, ih (by simpa using hl) fun k a b ha hb =>
        h (k + 1) a b (by simpa using ha) (by simpa using hb)⟩

theorem valid_pos {dims idx : List Nat} (h : ValidIndices dims idx) : ∀ i ∈ idx, 1 ≤ i := by
  intro i hi
  obtain ⟨k, hk, rfl⟩ := List.getElem_of_mem hi
  have hk' : k < dims.length := by rw [← h.1]; exact hk
  exact (h.2 k _ _ (List.getElem?_eq_getElem hk) (List.getElem?_eq_getElem hk')).1

theorem digits_no_comma {p : List Char} (h : ∀ c ∈ p, c ∈ digits) : ',' ∉ p := fun hc => by
  have := h _ hc
  simp [digits] at this

theorem indexText_unique {s : List Char} {idx idx' : List Nat} (h : IndexText s idx)
    (h' : IndexText s idx') : idx = idx' := by
  obtain ⟨ps, p0, p1, p2, rfl⟩ := h
  obtain ⟨qs, q0, q1, q2, rfl⟩ := h'
  have e1 := splitBy_joinComma p0 fun p hp => digits_no_comma (p2 p hp).2
  have e2 := splitBy_joinComma q0 fun p hp => digits_no_comma (q2 p hp).2
  rw [← e1, ← e2, ← p1, ← q1]

/-! ### Copying -/

theorem memcpy_get {W : Type} {dst src out : List W} {d s n : Nat} (h : memcpy dst d src s n = some out) :
    s + n ≤ src.length ∧ d + n ≤ dst.length ∧ out.length = dst.length ∧
      (∀ k, k < n → out[d + k]? = src[s + k]?) ∧ (∀ k, (k < d ∨ d + n ≤ k) → out[k]? = dst[k]?) := by
  unfold memcpy at h
  split at h
  · rename_i hb
    simp only [Option.some.injEq] at h
    subst h
    have hl1 : (dst.take d).length = d := by simp; omega
    have hl2 : ((src.drop s).take n).length = n := by simp; omega
    refine ⟨hb.1, hb.2, by simp; omega, ?_, ?_⟩
    · intro k hk
      rw [List.append_assoc, List.getElem?_append_right (by omega), hl1,
        List.getElem?_append_left (by omega), List.getElem?_take_of_lt (by omega), List.getElem?_drop]
      congr 1; omega
    · intro k hk
      rcases hk with hk | hk
      · rw [List.append_assoc, List.getElem?_append_left (by omega), List.getElem?_take_of_lt hk]
      · rw [List.getElem?_append_right (by simp; omega), List.getElem?_drop]
        congr 1; simp; omega
  · simp at h

theorem memcpy_some {W : Type} {dst src : List W} {d s n : Nat} (h1 : s + n ≤ src.length)
    (h2 : d + n ≤ dst.length) : ∃ out, memcpy dst d src s n = some out := by
  unfold memcpy; rw [if_pos ⟨h1, h2⟩]; exact ⟨_, rfl⟩

theorem copyRows_get {W : Type} {cnt sst dst' : Nat} {src : List W} (hc : cnt ≤ dst') :
    ∀ (n i : Nat) (dst : List W),
    (∀ r, r < n → (i + r) * sst + cnt ≤ src.length ∧ (i + r) * dst' + cnt ≤ dst.length) →
    ∃ out, copyRows cnt sst dst' src n i dst = some out ∧ out.length = dst.length ∧
      (∀ r k, r < n → k < cnt → out[(i + r) * dst' + k]? = src[(i + r) * sst + k]?) ∧
      (∀ q, (∀ r k, r < n → k < cnt → q ≠ (i + r) * dst' + k) → out[q]? = dst[q]?)
  | 0, i, dst, _ => ⟨dst, rfl, rfl, by omega, fun _ _ => rfl⟩
  | n + 1, i, dst, hb => by
    obtain ⟨mid, hm⟩ := memcpy_some (d := i * dst') (s := i * sst) (n := cnt)
      (by simpa using (hb 0 (by omega)).1) (by simpa using (hb 0 (by omega)).2)
    obtain ⟨-, -, hl, hg, hu⟩ := memcpy_get hm
    obtain ⟨out, o1, o2, o3, o4⟩ := copyRows_get (src := src) (sst := sst) hc n (i + 1) mid (fun r hr => by
      have := hb (r + 1) (by omega)
      rw [show i + 1 + r = i + (r + 1) by omega, hl]; exact this)
    refine ⟨out, ?_, by rw [o2, hl], ?_, ?_⟩
    · unfold copyRows; rw [hm]; exact o1
    · intro r k hr hk
      cases r with
      | zero =>
        rw [o4]
        · simpa using hg k hk
        · intro r' k' hr' hk' e
          have : (i + 0) * dst' + dst' ≤ (i + 1 + r') * dst' := by
            rw [Nat.add_zero, Nat.add_mul (i + 1), Nat.add_mul i]; omega
          omega
      | succ r =>
        have := o3 r k (by omega) hk
        rw [show i + 1 + r = i + (r + 1) by omega] at this
        exact this
    · intro q hq
      rw [o4]
      · apply hu
        by_contra hc'
        rw [not_or, not_lt, not_le] at hc'
        exact hq 0 (q - i * dst') (by omega) (by omega) (by simp; omega)
      · intro r k hr hk e
        exact hq (r + 1) k (by omega) hk (by rw [e]; congr 2; omega)

/-- Every position below `rows * step` is a row and a column. -/
theorem row_col {rows step q : Nat} (h : q < rows * step) : ∃ r k, r < rows ∧ k < step ∧ q = r * step + k := by
  have hs : 0 < step := by
    rcases Nat.eq_zero_or_pos step with h0 | h0
    · simp [h0] at h
    · exact h0
  exact ⟨q / step, q % step, Nat.div_lt_of_lt_mul (by rw [Nat.mul_comm]; exact h), Nat.mod_lt _ hs,
    (Nat.div_add_mod' q step).symm⟩

theorem row_bound {r rows step cnt len : Nat} (hr : r < rows) (hc : cnt ≤ step) (h : rows * step ≤ len) :
    r * step + cnt ≤ len := by
  have : (r + 1) * step ≤ rows * step := Nat.mul_le_mul_right _ hr
  rw [Nat.add_mul] at this; omega

theorem putN1_eq_getN1 {v1 m1 n2 maxsize : Nat} (hv : v1 ≤ m1) (h2 : 0 < n2) :
    putN1 v1 m1 n2 maxsize = getN1 v1 m1 n2 maxsize := by
  unfold putN1 getN1
  simp only
  have hle : v1 * n2 ≤ m1 * n2 := Nat.mul_le_mul_right _ hv
  by_cases h : v1 * n2 = maxsize
  · have e : (if v1 * n2 ≠ maxsize then m1 else v1) = v1 := by simp [h]
    rw [e]
    by_cases h' : m1 * n2 > maxsize
    · rw [if_pos h']; simp
    · rw [if_neg h']
      have : m1 * n2 ≤ v1 * n2 := by omega
      have := Nat.le_of_mul_le_mul_right this h2
      simp; omega
  · rw [if_pos h]

end Verif.Params
