import Verif.Lemmas.Elements
/-
Properties C12, C13 and C46: element references and the transfer of values between the data base and
the modules.  Specification: `Verif/Spec/Params.lean`, `Verif/Spec/CText.lean`.
-/
namespace Verif.Params
open Verif.CText Verif.Tables

/-! ### C12: element references -/

/-- C12: a plain index text (no parentheses, fitting the buffers) is accepted exactly when it is a
comma-separated list of numerals, one per dimension, each between 1 and the dimension value. -/
theorem C12_accept_partial (dims : List Nat) (s : List Char) (hp : '(' ∉ s) (hq : ')' ∉ s)
    (hs : ShortText s) :
    checkIndices dims s = some 0 ↔ ∃ idx, IndexText s idx ∧ ValidIndices dims idx := by
  unfold checkIndices
  rw [indexStrings_plain hp hq hs]
  simp only
  constructor
  · intro h
    split at h
    · simp at h
    · rename_i hl
      rw [ne_eq, not_not] at hl
      have h0 : checkAll dims (splitBy (· = ',') s) = 0 := by simpa using h
      rw [checkAll_zero hl] at h0
      exact ⟨_, ⟨_, splitBy_ne_nil _ _, (joinComma_splitBy s).symm, h0.1, rfl⟩, by simp [hl], h0.2⟩
  · rintro ⟨idx, ⟨parts, p0, p1, p2, rfl⟩, hv⟩
    have e : splitBy (· = ',') s = parts := by
      rw [p1]; exact splitBy_joinComma p0 fun p hp => digits_no_comma (p2 p hp).2
    have hl : dims.length = parts.length := by simpa using hv.1.symm
    rw [e, if_neg (by simp [hl])]
    have := (checkAll_zero hl).2 ⟨p2, hv.2⟩
    rw [this]

example : '(' ∉ ['2', ',', '3'] ∧ ')' ∉ ['2', ',', '3'] ∧ ShortText ['2', ',', '3'] ∧
    checkIndices [2, 3] ['2', ',', '3'] = some 0 ∧ checkIndices [3, 2] ['2', ',', '3'] = some 5 := by
  refine ⟨by decide, by decide, ⟨by decide, ?_⟩, by decide +kernel, by decide +kernel⟩
  intro a w b h _
  have := congrArg List.length h
  simp at this; omega

/-- C12: the address computed for an accepted index text is the column-major position of the (zero
based) indices, which lies inside the array. -/
theorem C12_offset (dims : List Nat) (s : List Char) (idx : List Nat) (hp : '(' ∉ s) (hq : ')' ∉ s)
    (hs : ShortText s) (ht : IndexText s idx) (hv : ValidIndices dims idx) :
    elemOffset dims s = some ((position dims (idx.map (· - 1)) : Nat) : Int) ∧
      position dims (idx.map (· - 1)) < volume dims := by
  refine ⟨?_, position_lt (inside_of_valid hv)⟩
  obtain ⟨parts, p0, p1, p2, rfl⟩ := ht
  have e : splitBy (· = ',') s = parts := by
    rw [p1]; exact splitBy_joinComma p0 fun p hp => digits_no_comma (p2 p hp).2
  unfold elemOffset
  rw [indexStrings_plain hp hq hs, e]
  have hat : parts.map atoi = (parts.map numeral).map Int.ofNat := by
    rw [List.map_map]
    apply List.map_congr_left
    intro p hp
    have hd : ∀ c ∈ p, isDigit c = true := fun c hc => (isDigit_mem c).2 ((p2 p hp).2 c hc)
    have := strtol_digits (p2 p hp).1 hd (r := []) (by simp)
    rw [List.append_nil] at this
    simp [atoi, this]
  simp only [Option.map_some]
  rw [hat, offsetLoop_eq dims _ hv.1 (valid_pos hv)]
  simp

/-- C12: two accepted texts with the same address have the same indices. -/
theorem C12_injective (dims : List Nat) (s t : List Char) (is js : List Nat)
    (hs : '(' ∉ s ∧ ')' ∉ s ∧ ShortText s) (ht : '(' ∉ t ∧ ')' ∉ t ∧ ShortText t)
    (hi : IndexText s is) (hj : IndexText t js) (vi : ValidIndices dims is) (vj : ValidIndices dims js)
    (h : elemOffset dims s = elemOffset dims t) : is = js := by
  rw [(C12_offset dims s is hs.1 hs.2.1 hs.2.2 hi vi).1, (C12_offset dims t js ht.1 ht.2.1 ht.2.2 hj vj).1,
    Option.some.injEq, Int.natCast_inj] at h
  have e := position_inj (inside_of_valid vi) (inside_of_valid vj) h
  have h1 := valid_pos vi
  have h2 := valid_pos vj
  clear hi hj h vi vj
  induction is generalizing js with
  | nil => cases js <;> simp_all
  | cons i is ih => cases js with
    | nil => simp at e
    | cons j js =>
      simp only [List.map_cons, List.cons.injEq] at e
      have a1 := h1 i (by simp)
      have a2 := h2 j (by simp)
      rw [show i = j by omega, ih js e.2 (fun x hx => h1 x (List.mem_cons_of_mem _ hx))
        (fun x hx => h2 x (List.mem_cons_of_mem _ hx))]

/-- C12: every offset inside the array is the address of an index tuple within the dimensions, and (if
its text fits the buffers) that text is accepted and has this address. -/
theorem C12_surjective (dims : List Nat) (hd : dims ≠ []) (n : Nat) (hn : n < volume dims) :
    ∃ idx, ValidIndices dims idx ∧ position dims (idx.map (· - 1)) = n ∧
      (ShortText (indexText idx) →
        checkIndices dims (indexText idx) = some 0 ∧ elemOffset dims (indexText idx) = some (n : Int)) := by
  obtain ⟨is, h1, h2⟩ := position_surj dims n hn
  have hv : ValidIndices dims (is.map (· + 1)) := by
    refine ⟨by simpa using h1.length, ?_⟩
    clear h2 hn hd
    induction dims generalizing is with
    | nil => simp
    | cons d dims ih => cases is with
      | nil => simp [Inside] at h1
      | cons i is =>
        intro k a b ha hb
        cases k with
        | zero => simp at ha hb; subst ha; subst hb; have := h1.1; omega
        | succ k => exact ih is h1.2 k a b (by simpa using ha) (by simpa using hb)
  have hm : (is.map (· + 1)).map (· - 1) = is := by
    rw [List.map_map]
    conv_rhs => rw [← List.map_id is]
    rfl
  refine ⟨is.map (· + 1), hv, by rw [hm]; exact h2, fun hshort => ?_⟩
  have hne : is ≠ [] := fun h0 => by
    have := h1.length
    rw [h0] at this
    exact hd (List.length_eq_zero_iff.1 this.symm)
  have hpar : ∀ c ∈ indexText (is.map (· + 1)), c ∈ digits ∨ c = ',' := by
    intro c hc
    exact joinComma_chars (by
      intro p hp
      obtain ⟨x, -, rfl⟩ := List.mem_map.1 hp
      exact fun d hd => (isDigit_mem d).1 (decimal_digits x d hd)) c hc
  have hp : '(' ∉ indexText (is.map (· + 1)) := fun hc => by
    have := hpar _ hc; revert this; decide
  have hq : ')' ∉ indexText (is.map (· + 1)) := fun hc => by
    have := hpar _ hc; revert this; decide
  have ht : IndexText (indexText (is.map (· + 1))) (is.map (· + 1)) := by
    refine ⟨(is.map (· + 1)).map decimal, by simpa using hne, rfl, ?_, ?_⟩
    · intro p hp
      obtain ⟨x, -, rfl⟩ := List.mem_map.1 hp
      exact ⟨decimal_ne_nil x, fun d hd => (isDigit_mem d).1 (decimal_digits x d hd)⟩
    · rw [List.map_map]
      conv_lhs => rw [← List.map_id (is.map (· + 1))]
      apply List.map_congr_left
      intro x _
      exact (numeral_decimal x).symm
  refine ⟨(C12_accept_partial dims _ hp hq hshort).2 ⟨_, ht, hv⟩, ?_⟩
  rw [(C12_offset dims _ _ hp hq hshort ht hv).1, hm, h2]

example : ([2, 3] : List Nat) ≠ [] ∧ 5 < volume [2, 3] ∧ ValidIndices [2, 3] [2, 3] ∧
    elemOffset [2, 3] (indexText [2, 3]) = some 5 := by
  refine ⟨by decide, by decide, ⟨rfl, ?_⟩, by decide +kernel⟩
  intro k i d h1 h2
  match k with
  | 0 => simp at h1 h2; omega
  | 1 => simp at h1 h2; omega
  | k + 2 => simp at h1

/-- C12 fails for texts in parentheses, which the code intends to accept ("Check for '(' and ')', and
delete them"): the opening parenthesis is kept, so the index is reported as not numeric. -/
theorem C12_parentheses_violated :
    checkIndices [5] ['3'] = some 0 ∧ checkIndices [5] ['(', '3', ')'] = some 3 := by
  decide +kernel

/-- C12, the same for every text with an opening parenthesis: it is never accepted. -/
theorem C12_parentheses_never (dims : List Nat) (s : List Char) (h : '(' ∈ s) :
    checkIndices dims s ≠ some 0 := by
  intro hc
  unfold checkIndices at hc
  cases hi : indexStrings s with
  | none => rw [hi] at hc; simp at hc
  | some parts =>
    rw [hi] at hc
    simp only at hc
    split at hc
    · simp at hc
    · rename_i hl
      rw [ne_eq, not_not] at hl
      have h0 : checkAll dims parts = 0 := by simpa using hc
      rw [checkAll_zero hl] at h0
      -- the first piece starts with the parenthesis
      unfold indexStrings at hi
      split at hi
      · simp at hi
      · simp only at hi
        have hd : ∃ t, s.dropWhile (fun x => decide (x ≠ '(')) = '(' :: t := by
          clear hi h0 hl hc
          rename_i hlen
          clear hlen
          induction s with
          | nil => simp at h
          | cons c s ih =>
            by_cases hcc : c = '('
            · subst hcc; exact ⟨s, by simp⟩
            · have hs : '(' ∈ s := by
                rcases List.mem_cons.1 h with h | h
                · exact absurd h.symm hcc
                · exact h
              obtain ⟨t, ht⟩ := ih hs
              exact ⟨t, by rw [List.dropWhile_cons_of_pos (by simp [hcc])]; exact ht⟩
        obtain ⟨t, ht⟩ := hd
        rw [ht] at hi
        simp only [reduceCtorEq, if_false] at hi
        rw [List.takeWhile_cons_of_pos (by decide)] at hi
        split at hi
        · simp only [Option.some.injEq] at hi
          obtain ⟨u, us, k1, k2⟩ := splitBy_cons_neg (p := fun x => decide (x = ',')) (c := '(')
            (by decide) (t.takeWhile fun x => decide (x ≠ ')'))
          rw [k2] at hi
          have := (h0.1 ('(' :: u) (by rw [← hi]; simp)).2 '(' (by simp)
          revert this; decide
        · simp at hi

/-! ### C13: variables -/

/-- C13: for a declared one- or two-dimensional variable whose elements are copied and strided with
the same width (all types when `long` has 32 bits; real and double otherwise), storing from a buffer of
`maxsize` elements no larger than the declared storage never leaves an array, and reading back with the
same size returns the stored elements. -/
theorem C13_round_trip_partial {W : Type} (lw decl maxsize : Nat) (v : VarStore W) (buf buf2 : List W)
    (hwd : WellDeclared v decl) (hdim : v.dims.length = 1 ∨ v.dims.length = 2)
    (hw : stride lw v.type = width v.type) (hms : maxsize ≤ decl) (hsz : v.size ≤ maxsize)
    (hb : buf.length = maxsize * width v.type) (hb2 : buf2.length = maxsize * width v.type) :
    ∃ mem', putvar lw v maxsize buf = .ok mem' ∧ mem'.length = v.mem.length ∧
      ∃ out, getvar lw { v with mem := mem' } maxsize buf2 = .ok out ∧
        ∀ k < v.size * width v.type, out[k]? = buf[k]? := by
  obtain ⟨w1, w2, w3, w4⟩ := hwd
  unfold putvar getvar
  have hsz' : ¬ v.size > maxsize := by omega
  simp only [hw, hsz', if_false]
  have hmul : v.size * width v.type ≤ maxsize * width v.type := Nat.mul_le_mul_right _ hsz
  have hmul2 : maxsize * width v.type ≤ decl * width v.type := Nat.mul_le_mul_right _ hms
  rcases hd : v.dims with _ | ⟨⟨v1, m1⟩, _ | ⟨⟨n2, m2⟩, _ | ⟨d, ds⟩⟩⟩
  · simp [hd] at hdim
  · simp only
    obtain ⟨mem', hm⟩ := memcpy_some (dst := v.mem) (src := buf) (d := 0) (s := 0)
      (n := v.size * width v.type) (by omega) (by omega)
    obtain ⟨-, -, l1, g1, -⟩ := memcpy_get hm
    obtain ⟨out, ho⟩ := memcpy_some (dst := buf2) (src := mem') (d := 0) (s := 0)
      (n := v.size * width v.type) (by omega) (by omega)
    obtain ⟨-, -, -, g2, -⟩ := memcpy_get ho
    rw [hm]
    refine ⟨mem', rfl, l1, out, by simp only [ho], fun k hk => ?_⟩
    have a1 := g1 k hk
    have a2 := g2 k hk
    simp only [Nat.zero_add] at a1 a2
    rw [a2, a1]
  · simp only
    have hv1 := w1 (v1, m1) (by simp [hd])
    have hn2 := w1 (n2, m2) (by simp [hd])
    simp only at hv1 hn2
    have hvol : v.size = v1 * n2 := by rw [w2, hd]; simp [volume]
    rw [← putN1_eq_getN1 hv1.2 hn2.1]
    have hn1 : putN1 v1 m1 n2 maxsize * n2 ≤ maxsize ∧ v1 ≤ putN1 v1 m1 n2 maxsize := by
      unfold putN1
      split
      · exact ⟨by omega, Nat.le_refl _⟩
      · exact ⟨by omega, hv1.2⟩
    generalize putN1 v1 m1 n2 maxsize = n1 at hn1
    have htot : n2 * (n1 * width v.type) ≤ maxsize * width v.type := by
      rw [← Nat.mul_assoc, Nat.mul_comm n2]; exact Nat.mul_le_mul_right _ hn1.1
    obtain ⟨mem', m1', l1, g1, -⟩ := copyRows_get (cnt := n1 * width v.type) (sst := n1 * width v.type)
      (dst' := n1 * width v.type) (src := buf) (Nat.le_refl _) n2 0 v.mem (fun r hr => by
        rw [Nat.zero_add]
        exact ⟨row_bound hr (Nat.le_refl _) (by omega), row_bound hr (Nat.le_refl _) (by omega)⟩)
    obtain ⟨out, o1, -, g2, -⟩ := copyRows_get (cnt := n1 * width v.type) (sst := n1 * width v.type)
      (dst' := n1 * width v.type) (src := mem') (Nat.le_refl _) n2 0 buf2 (fun r hr => by
        rw [Nat.zero_add]
        exact ⟨row_bound hr (Nat.le_refl _) (by omega), row_bound hr (Nat.le_refl _) (by omega)⟩)
    rw [m1']
    refine ⟨mem', rfl, l1, out, by simp only [o1], fun q hq => ?_⟩
    have hq' : q < n2 * (n1 * width v.type) := by
      refine lt_of_lt_of_le hq ?_
      rw [hvol, Nat.mul_comm v1, Nat.mul_assoc]
      exact Nat.mul_le_mul_left _ (Nat.mul_le_mul_right _ hn1.2)
    obtain ⟨r, k, hr, hk, rfl⟩ := row_col hq'
    have a1 := g1 r k hr hk
    have a2 := g2 r k hr hk
    simp only [Nat.zero_add] at a1 a2
    rw [a2, a1]
  · simp [hd] at hdim

/-- A 2 by 3 real variable with maximum 4 by 3. -/
def exVar : VarStore Nat := ⟨.float, [(2, 4), (3, 3)], 6, List.replicate 12 0⟩

example : WellDeclared exVar 12 ∧ stride 2 exVar.type = width exVar.type ∧
    putvar 2 exVar 12 (List.range 12) = .ok (List.range 12) ∧
    getvar 2 { exVar with mem := List.range 12 } 12 (List.replicate 12 0) = .ok (List.range 12) := by
  refine ⟨⟨by decide, by decide, by decide, by decide⟩, by decide, by decide +kernel, by decide +kernel⟩

/-- C13: a variable larger than the caller's buffer is refused and nothing is copied. -/
theorem C13_too_small {W : Type} (lw maxsize : Nat) (v : VarStore W) (buf : List W)
    (h : maxsize < v.size) : getvar lw v maxsize buf = .err ∧ putvar lw v maxsize buf = .err := by
  simp [getvar, putvar, h]

/-- C13 fails for two-dimensional integer variables where `long` has 64 bits: rows are copied as 32-bit
integers but the pointers advance by `sizeof(long)`, past the end of both arrays. -/
theorem C13_long64_violated :
    let v : VarStore Nat := ⟨.long, [(2, 2), (3, 3)], 6, List.replicate 6 0⟩
    WellDeclared v 6 ∧ putvar 2 v 6 (List.range 6) = .ub ∧ putvar 1 v 6 (List.range 6) = .ok (List.range 6) := by
  refine ⟨⟨by decide, by decide, by decide, by decide⟩, by decide +kernel, by decide +kernel⟩

/-- C13 fails when the caller's buffer is larger than the declared storage: the row length is taken from
the maximum of the first dimension and the store runs past the declared storage. -/
theorem C13_storage_violated :
    let v : VarStore Nat := ⟨.float, [(2, 5), (3, 3)], 6, List.replicate 6 0⟩
    WellDeclared v 6 ∧ putvar 1 v 20 (List.range 20) = .ub := by
  refine ⟨⟨by decide, by decide, by decide, by decide⟩, by decide +kernel⟩

/-- C13, outside the claim but worth knowing: for three-dimensional variables both calls report success
and copy nothing. -/
theorem C13_three_dims_copy_nothing {W : Type} (lw maxsize : Nat) (v : VarStore W) (a b c : Nat × Nat)
    (buf : List W) (hd : v.dims = [a, b, c]) (h : v.size ≤ maxsize) :
    getvar lw v maxsize buf = .ok buf ∧ putvar lw v maxsize buf = .ok v.mem := by
  unfold getvar putvar
  rw [if_neg (by omega), if_neg (by omega), hd]
  exact ⟨rfl, rfl⟩

/-! ### C46: parameters -/

/-- C46: a module asking for a two-dimensional parameter receives element `(i, j)` at position
`i + L·j` of its own array, where `L` is the leading dimension of that array: the dimension value when
it passes `value1·value2` elements, the declared maximum when it passes `max1·max2` elements.  Nothing
else in its array changes.  The element width `w` words covers real, double and (when `long` has 32
bits) integer parameters. -/
theorem C46_two_dims_partial {W : Type} (v : VarStore W) (v1 m1 v2 m2 L R : Nat) (buf : List W)
    (hd : v.dims = [(v1, m1), (v2, m2)]) (hv1 : 0 < v1 ∧ v1 ≤ m1) (hv2 : 0 < v2 ∧ v2 ≤ m2)
    (hsize : v.size = v1 * v2) (hmem : v.mem.length = v1 * v2 * width v.type)
    (hL : (L = v1 ∧ R = v2) ∨ (L = m1 ∧ R = m2))
    (hbuf : buf.length = L * R * width v.type) :
    ∃ out, getparam v ((L * R : Nat) : Int) buf = .ok out ∧ out.length = buf.length ∧
      (∀ i j b, i < v1 → j < v2 → b < width v.type →
        out[(i + L * j) * width v.type + b]? = v.mem[(i + v1 * j) * width v.type + b]?) ∧
      (∀ i j b, v1 ≤ i → i < L → b < width v.type →
        out[(i + L * j) * width v.type + b]? = buf[(i + L * j) * width v.type + b]?) := by
  have hprod : v1 * v2 ≤ m1 * m2 := Nat.mul_le_mul hv1.2 hv2.2
  have hnrow : paramNrow v1 m1 v2 m2 ((L * R : Nat) : Int) = L := by
    have heq : m1 * m2 = v1 * v2 → v1 = m1 := by
      intro e
      by_contra hne
      have : v1 * v2 < m1 * m2 :=
        Nat.lt_of_lt_of_le (Nat.mul_lt_mul_of_pos_right (show v1 < m1 by omega) hv2.1)
          (Nat.mul_le_mul_left _ hv2.2)
      omega
    have hpos : 0 < v1 * v2 := Nat.mul_pos hv1.1 hv2.1
    unfold paramNrow
    by_cases hc : m1 * m2 = v1 * v2
    · have he := heq hc
      rcases hL with ⟨h1, h2⟩ | ⟨h1, h2⟩ <;> rw [h1, h2] <;> simp [he]
    · rw [if_neg hc]
      rcases hL with ⟨h1, h2⟩ | ⟨h1, h2⟩
      · rw [h1, h2]; simp
      · rw [h1, h2, if_neg (by omega), if_neg (by omega)]; simp
  have hLv : v1 ≤ L ∧ v2 ≤ R := by
    rcases hL with ⟨rfl, rfl⟩ | ⟨rfl, rfl⟩
    · exact ⟨Nat.le_refl _, Nat.le_refl _⟩
    · exact ⟨hv1.2, hv2.2⟩
  unfold getparam paramcopy
  rw [if_neg (by
    have : v1 * v2 ≤ L * R := Nat.mul_le_mul hLv.1 hLv.2
    rw [hsize]; push_cast; exact not_lt.2 (by exact_mod_cast this)), hd]
  simp only [hnrow]
  generalize width v.type = w at *
  have hcl : v1 * w ≤ L * w := Nat.mul_le_mul_right _ hLv.1
  obtain ⟨out, o1, o2, o3, o4⟩ := copyRows_get (cnt := v1 * w) (sst := v1 * w) (dst' := L * w)
    (src := v.mem) hcl v2 0 buf (fun r hr => by
      rw [Nat.zero_add]
      refine ⟨row_bound hr (Nat.le_refl _) ?_, row_bound (show r < R by omega) hcl ?_⟩
      · rw [hmem]; apply Nat.le_of_eq; ring
      · rw [hbuf]; apply Nat.le_of_eq; ring)
  rw [o1]
  have hcol : ∀ i b n, i < n → b < w → i * w + b < n * w := by
    intro i b n hi hb
    have : (i + 1) * w ≤ n * w := Nat.mul_le_mul_right _ hi
    rw [Nat.add_mul] at this; omega
  refine ⟨out, rfl, o2, ?_, ?_⟩
  · intro i j b hi hj hb
    have := o3 j (i * w + b) hj (hcol i b v1 hi hb)
    rw [Nat.zero_add] at this
    rw [show (i + L * j) * w + b = j * (L * w) + (i * w + b) by ring, this]
    congr 1; ring
  · intro i j b hi1 hi2 hb
    apply o4
    intro r k hr hk e
    rw [Nat.zero_add, show (i + L * j) * w + b = (i * w + b) + (L * w) * j by ring,
      show r * (L * w) + k = k + (L * w) * r by ring] at e
    have hkk : k < L * w := by omega
    obtain ⟨e1, -⟩ := digit_unique (hcol i b L hi2 hb) hkk e
    have : v1 * w ≤ i * w := Nat.mul_le_mul_right _ hi1
    omega

/-- C46: one-dimensional parameters are copied element by element. -/
theorem C46_one_dim_partial {W : Type} (v : VarStore W) (d : Nat × Nat) (maxsize : Nat) (buf : List W)
    (hd : v.dims = [d]) (hsize : v.size ≤ maxsize) (hmem : v.mem.length = v.size * width v.type)
    (hbuf : buf.length = maxsize * width v.type) :
    ∃ out, getparam v (maxsize : Int) buf = .ok out ∧
      (∀ k < v.size * width v.type, out[k]? = v.mem[k]?) ∧
      (∀ k, v.size * width v.type ≤ k → out[k]? = buf[k]?) := by
  unfold getparam paramcopy
  rw [if_neg (by omega), hd]
  have hmul : v.size * width v.type ≤ maxsize * width v.type := Nat.mul_le_mul_right _ hsize
  obtain ⟨out, ho⟩ := memcpy_some (dst := buf) (src := v.mem) (d := 0) (s := 0)
      (n := v.size * width v.type) (by omega) (by omega)
  obtain ⟨-, -, -, g1, g2⟩ := memcpy_get ho
  simp only [ho]
  exact ⟨out, rfl, fun k hk => by simpa using g1 k hk, fun k hk => g2 k (Or.inr (by omega))⟩

/-- A 2 by 2 real parameter delivered into a 3 by 4 array. -/
example : getparam (⟨.float, [(2, 3), (2, 4)], 4, [1, 2, 3, 4]⟩ : VarStore Nat) 12 (List.replicate 12 0) =
    .ok [1, 2, 0, 3, 4, 0, 0, 0, 0, 0, 0, 0] := by decide +kernel

/-- C46 fails for integer parameters where `long` has 64 bits: the values are stored as `long` (two
words each, low word first) but copied as consecutive 32-bit integers, so the module asking for the
integers 5 and 7 receives 5 and 0. -/
theorem C46_long64_violated :
    getparam (⟨.long, [(2, 2)], 2, [5, 0, 7, 0]⟩ : VarStore Nat) 2 [9, 9] = .ok [5, 0] := by
  decide +kernel

/-- C46 fails for three-dimensional parameters: only the first layer is copied. -/
theorem C46_three_dims_violated :
    getparam (⟨.float, [(2, 2), (1, 1), (2, 2)], 4, [1, 2, 3, 4]⟩ : VarStore Nat) 4 [9, 9, 9, 9] =
      .ok [1, 2, 9, 9] := by
  decide +kernel

end Verif.Params
