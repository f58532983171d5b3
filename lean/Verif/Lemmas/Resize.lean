import Verif.Spec.Params
import Mathlib.Tactic.Ring
import Mathlib.Tactic.Linarith
/-
Lemmas for C10 to C12: index arithmetic.
-/
namespace Verif.Params
open Verif.CText Verif.Tables

theorem digit_unique {b j x j' x' : Nat} (hj : j < b) (hj' : j' < b) (h : j + b * x = j' + b * x') :
    j = j' ∧ x = x' := by
  have h1 : (j + b * x) % b = j := by rw [Nat.add_mul_mod_self_left, Nat.mod_eq_of_lt hj]
  have h2 : (j' + b * x') % b = j' := by rw [Nat.add_mul_mod_self_left, Nat.mod_eq_of_lt hj']
  have e : j = j' := by rw [← h1, ← h2, h]
  subst e
  exact ⟨rfl, Nat.eq_of_mul_eq_mul_left (by omega) (by omega : b * x = b * x')⟩

theorem digit_lt {b j n x : Nat} (hj : j < b) (hx : x < n) : j + b * x < b * n := by
  have : b * (x + 1) ≤ b * n := Nat.mul_le_mul_left _ hx
  rw [Nat.mul_add] at this; omega

theorem foldl_mul (l : List Nat) (a : Nat) : l.foldl (· * ·) a = a * volume l := by
  induction l generalizing a with
  | nil => simp [volume]
  | cons d l ih => simp [volume, ih, Nat.mul_assoc]

theorem volume_append (a b : List Nat) : volume (a ++ b) = volume a * volume b := by
  induction a with
  | nil => simp [volume]
  | cons d a ih => simp [volume, ih, Nat.mul_assoc]

theorem Inside.length {ds is : List Nat} (h : Inside ds is) : is.length = ds.length := by
  induction ds generalizing is with
  | nil => cases is <;> simp_all [Inside]
  | cons d ds ih => cases is with
    | nil => simp [Inside] at h
    | cons i is => simp [Inside] at h; simp [ih h.2]

theorem position_lt {ds is : List Nat} (h : Inside ds is) : position ds is < volume ds := by
  induction ds generalizing is with
  | nil => cases is <;> simp_all [Inside, position, volume]
  | cons d ds ih => cases is with
    | nil => simp [Inside] at h
    | cons i is => exact digit_lt h.1 (ih h.2)

theorem position_inj {ds is js : List Nat} (hi : Inside ds is) (hj : Inside ds js)
    (h : position ds is = position ds js) : is = js := by
  induction ds generalizing is js with
  | nil => cases is <;> cases js <;> simp_all [Inside]
  | cons d ds ih =>
    cases is with
    | nil => simp [Inside] at hi
    | cons i is => cases js with
      | nil => simp [Inside] at hj
      | cons j js =>
        obtain ⟨e1, e2⟩ := digit_unique hi.1 hj.1 h
        rw [e1, ih hi.2 hj.2 e2]

theorem position_surj (ds : List Nat) (n : Nat) (h : n < volume ds) :
    ∃ is, Inside ds is ∧ position ds is = n := by
  induction ds generalizing n with
  | nil => exact ⟨[], trivial, by simp [volume] at h; simp [position, h]⟩
  | cons d ds ih =>
    have hd : 0 < d := by
      rcases Nat.eq_zero_or_pos d with h0 | h0
      · subst h0; simp [volume] at h
      · exact h0
    obtain ⟨is, h1, h2⟩ := ih (n / d) (Nat.div_lt_of_lt_mul h)
    refine ⟨n % d :: is, ⟨Nat.mod_lt _ hd, h1⟩, ?_⟩
    rw [position, h2]; exact Nat.mod_add_div n d

theorem Inside.split {A B is : List Nat} {n : Nat} (h : Inside (A ++ n :: B) is) :
    ∃ ia x ib, is = ia ++ x :: ib ∧ Inside A ia ∧ x < n ∧ Inside B ib := by
  induction A generalizing is with
  | nil => cases is with
    | nil => simp [Inside] at h
    | cons i is => exact ⟨[], i, is, rfl, trivial, h.1, h.2⟩
  | cons d A ih => cases is with
    | nil => simp [Inside] at h
    | cons i is =>
      obtain ⟨ia, x, ib, e, h1, h2, h3⟩ := ih h.2
      exact ⟨i :: ia, x, ib, by rw [e]; rfl, ⟨h.1, h1⟩, h2, h3⟩

theorem position_split {A ia : List Nat} (h : Inside A ia) (n : Nat) (B : List Nat) (x : Nat)
    (ib : List Nat) :
    position (A ++ n :: B) (ia ++ x :: ib) = position A ia + volume A * (x + n * position B ib) := by
  induction A generalizing ia with
  | nil => cases ia with
    | nil => simp [position, volume]
    | cons i ia => simp [Inside] at h
  | cons d A ih => cases ia with
    | nil => simp [Inside] at h
    | cons i ia =>
      simp only [List.cons_append, position, ih h.2, volume]
      ring

/-! ### The moves of `resize_param` -/

theorem mem_moves {nf bs nold nnew : Nat} {m : Int × Int} :
    m ∈ resizeMoves nf bs nold nnew ↔ ∃ f x j, f < nf ∧ x < nnew ∧ j < bs ∧
      m = ((j : Int) + x * bs + f * ((bs : Int) * nnew),
           (j : Int) + (if x < nold then (x : Int) else (nold : Int) - 1) * bs + f * ((bs : Int) * nold)) := by
  unfold resizeMoves
  simp only [List.mem_flatMap, List.mem_range, List.mem_map]
  constructor
  · rintro ⟨f, hf, x, hx, j, hj, rfl⟩; exact ⟨f, x, j, hf, hx, hj, rfl⟩
  · rintro ⟨f, x, j, hf, hx, hj, rfl⟩; exact ⟨f, hf, x, hx, j, hj, rfl⟩

theorem runMoves_ok {α : Type} {old : Mem α} : ∀ (ms : List (Int × Int)) (new : Mem α),
    (∀ m ∈ ms, 0 ≤ m.1 ∧ m.1 < new.length ∧ 0 ≤ m.2 ∧ m.2 < old.length) →
    (∀ m ∈ ms, ∀ m' ∈ ms, m.1 = m'.1 → m.2 = m'.2) →
    ∃ out, runMoves old ms new = .ok out ∧ out.length = new.length ∧
      (∀ m ∈ ms, out[m.1.toNat]? = old[m.2.toNat]?) ∧
      (∀ d : Nat, (∀ m ∈ ms, m.1 ≠ d) → out[d]? = new[d]?)
  | [], new, _, _ => ⟨new, rfl, rfl, by simp, by simp⟩
  | m :: ms, new, hb, hc => by
    obtain ⟨b1, b2, b3, b4⟩ := hb m (by simp)
    obtain ⟨out, h1, h2, h3, h4⟩ := runMoves_ok (old := old) ms
      (new.set m.1.toNat (old[m.2.toNat]?.getD none))
      (fun m' hm' => by simpa using hb m' (List.mem_cons_of_mem _ hm'))
      (fun a ha b hb => hc a (List.mem_cons_of_mem _ ha) b (List.mem_cons_of_mem _ hb))
    refine ⟨out, ?_, by simpa using h2, ?_, ?_⟩
    · unfold runMoves move
      rw [if_pos ⟨b3, b4, b1, b2⟩]; exact h1
    · intro a ha
      by_cases hex : ∃ a' ∈ ms, a'.1 = a.1
      · obtain ⟨a', ha', e⟩ := hex
        have e2 := hc a' (List.mem_cons_of_mem _ ha') a ha e
        rw [← e, ← e2]; exact h3 a' ha'
      · have ham : a = m := by
          rcases List.mem_cons.1 ha with h | h
          · exact h
          · exact absurd ⟨a, h, rfl⟩ hex
        subst ham
        rw [h4 a.1.toNat]
        · rw [List.getElem?_set_self (by omega)]
          have : a.2.toNat < old.length := by omega
          rw [List.getElem?_eq_getElem this]; simp
        · intro m' hm' e
          exact hex ⟨m', hm', by omega⟩
    · intro d hd
      rw [h4 d fun m' hm' => hd m' (List.mem_cons_of_mem _ hm')]
      rw [List.getElem?_set_ne]
      have := hd m (by simp)
      omega

theorem resizeArray_ok {α : Type} (A B : List Nat) (nold nnew : Nat) (h0 : 0 < nold) (old : Mem α)
    (hlen : old.length = volume (A ++ nold :: B)) :
    ∃ out, resizeArray (A ++ nnew :: B) A.length nold nnew (volume (A ++ nnew :: B)) old = .ok out ∧
      out.length = volume (A ++ nnew :: B) ∧
      ∀ ia x ib, Inside A ia → x < nnew → Inside B ib →
        out[position (A ++ nnew :: B) (ia ++ x :: ib)]? =
          old[position (A ++ nold :: B) (ia ++ min x (nold - 1) :: ib)]? := by
  unfold resizeArray
  simp only [foldl_mul, Nat.one_mul]
  have hA : (A ++ nnew :: B).take A.length = A := by simp
  have hB : (A ++ nnew :: B).drop (A.length + 1) = B := by
    rw [← List.drop_drop]; simp
  rw [hA, hB]
  have clampEq : ∀ x : Nat, (if x < nold then (x : Int) else (nold : Int) - 1) = (min x (nold - 1) : Nat) := by
    intro x; split <;> omega
  have key : ∀ (f x j : Nat), ((j : Int) + x * (volume A : Nat) + f * ((volume A : Nat) * (nnew : Int)),
      (j : Int) + (if x < nold then (x : Int) else (nold : Int) - 1) * (volume A : Nat) +
        f * ((volume A : Nat) * (nold : Int))) =
      (((j + volume A * (x + nnew * f) : Nat) : Int),
       ((j + volume A * (min x (nold - 1) + nold * f) : Nat) : Int)) := by
    intro f x j
    rw [clampEq x]
    push_cast
    congr 1 <;> ring
  have hmem : ∀ m, m ∈ resizeMoves (volume B) (volume A) nold nnew ↔ ∃ f x j, f < volume B ∧ x < nnew ∧
      j < volume A ∧ m = (((j + volume A * (x + nnew * f) : Nat) : Int),
       ((j + volume A * (min x (nold - 1) + nold * f) : Nat) : Int)) := by
    intro m
    rw [mem_moves]
    constructor
    · rintro ⟨f, x, j, hf, hx, hj, rfl⟩; exact ⟨f, x, j, hf, hx, hj, key f x j⟩
    · rintro ⟨f, x, j, hf, hx, hj, rfl⟩; exact ⟨f, x, j, hf, hx, hj, (key f x j).symm⟩
  have hvol : ∀ n, volume (A ++ n :: B) = volume A * (n * volume B) := by
    intro n; rw [volume_append]; rfl
  obtain ⟨out, h1, h2, h3, -⟩ := runMoves_ok (old := old)
    (resizeMoves (volume B) (volume A) nold nnew) (List.replicate (volume (A ++ nnew :: B)) none)
    (by
      intro m hm
      obtain ⟨f, x, j, hf, hx, hj, rfl⟩ := (hmem m).1 hm
      have b1 := digit_lt hj (digit_lt hx hf)
      have b2 := digit_lt hj (digit_lt (show min x (nold - 1) < nold by omega) hf)
      rw [← hvol] at b1 b2
      simp only [List.length_replicate]
      rw [hlen]
      refine ⟨by omega, by exact_mod_cast b1, by omega, by exact_mod_cast b2⟩)
    (by
      intro m hm m' hm' e
      obtain ⟨f, x, j, hf, hx, hj, rfl⟩ := (hmem m).1 hm
      obtain ⟨f', x', j', hf', hx', hj', rfl⟩ := (hmem m').1 hm'
      have e1 : j + volume A * (x + nnew * f) = j' + volume A * (x' + nnew * f') := Int.ofNat_inj.1 e
      obtain ⟨r1, e2⟩ := digit_unique hj hj' e1
      obtain ⟨r2, r3⟩ := digit_unique hx hx' e2
      rw [r1, r2, r3])
  refine ⟨out, h1, by simpa using h2, ?_⟩
  intro ia x ib hia hx hib
  have := h3 _ ((hmem _).2 ⟨position B ib, x, position A ia, position_lt hib, hx, position_lt hia, rfl⟩)
  rw [position_split hia, position_split hia]
  simp only [Int.toNat_natCast] at this
  exact this

theorem volume_pos {ds : List Nat} (h : ∀ d ∈ ds, 0 < d) : 0 < volume ds := by
  induction ds with
  | nil => simp [volume]
  | cons d ds ih =>
    exact Nat.mul_pos (h d (by simp)) (ih fun x hx => h x (List.mem_cons_of_mem _ hx))

/-! ### `resize_param` on a parameter using the dimension once -/

theorem lastIdx_none {name : CStr} {ds : List CStr} (h : name ∉ ds) : lastIdx name ds = none := by
  unfold lastIdx
  rw [List.getLast?_eq_none_iff, List.filter_eq_nil_iff]
  intro i _ hi
  simp only [decide_eq_true_eq] at hi
  exact h (List.mem_of_getElem? hi)

theorem range_split (a b : Nat) :
    List.range (a + 1 + b) = List.range a ++ a :: (List.range b).map (fun i => a + 1 + i) := by
  rw [List.range_add, List.range_succ]; simp

theorem lastIdx_once {name : CStr} {A B : List CStr} (hA : name ∉ A) (hB : name ∉ B) :
    lastIdx name (A ++ name :: B) = some A.length := by
  unfold lastIdx
  have hl : (A ++ name :: B).length = A.length + 1 + B.length := by simp; omega
  rw [hl, range_split, List.filter_append, List.filter_cons]
  have h1 : (List.range A.length).filter (fun i => decide ((A ++ name :: B)[i]? = some name)) = [] := by
    rw [List.filter_eq_nil_iff]
    intro i hi hc
    simp only [List.mem_range] at hi
    rw [List.getElem?_append_left hi] at hc
    simp only [decide_eq_true_eq] at hc
    exact hA (List.mem_of_getElem? hc)
  have h2 : ((List.range B.length).map (fun i => A.length + 1 + i)).filter
      (fun i => decide ((A ++ name :: B)[i]? = some name)) = [] := by
    rw [List.filter_eq_nil_iff]
    intro i hi hc
    simp only [List.mem_map, List.mem_range] at hi
    obtain ⟨k, hk, rfl⟩ := hi
    rw [List.getElem?_append_right (by omega)] at hc
    simp only [decide_eq_true_eq] at hc
    rw [show A.length + 1 + k - A.length = k + 1 by omega, List.getElem?_cons_succ] at hc
    exact hB (List.mem_of_getElem? hc)
  rw [h1, h2]
  simp

theorem map_setDim {val : CStr → Nat} {name : CStr} {n : Nat} {l : List CStr} (h : name ∉ l) :
    l.map (setDim val name n) = l.map val := by
  apply List.map_congr_left
  intro a ha
  unfold setDim
  rw [if_neg]
  rintro rfl; exact h ha

theorem source_other {name : CStr} {nold : Nat} {ds : List CStr} {is : List Nat} (h : name ∉ ds)
    (hl : is.length = ds.length) : source name nold ds is = is := by
  induction ds generalizing is with
  | nil => cases is <;> simp_all [source]
  | cons d ds ih => cases is with
    | nil => simp at hl
    | cons i is =>
      simp only [List.mem_cons, not_or] at h
      simp only [List.length_cons, Nat.add_right_cancel_iff] at hl
      simp [source, ih h.2 hl, Ne.symm h.1]

theorem source_once {name : CStr} {nold : Nat} {A B : List CStr} {ia ib : List Nat} {x : Nat}
    (hA : name ∉ A) (hB : name ∉ B) (hla : ia.length = A.length) (hlb : ib.length = B.length) :
    source name nold (A ++ name :: B) (ia ++ x :: ib) = ia ++ min x (nold - 1) :: ib := by
  induction A generalizing ia with
  | nil =>
    cases ia with
    | nil => simp [source, source_other hB hlb]
    | cons => simp at hla
  | cons d A ih => cases ia with
    | nil => simp at hla
    | cons i ia =>
      simp only [List.mem_cons, not_or] at hA
      simp only [List.length_cons, Nat.add_right_cancel_iff] at hla
      simp [source, ih hA.2 hla, Ne.symm hA.1]

theorem once_split {name : CStr} {ds : List CStr} (h : ds.count name = 1) :
    ∃ A B, ds = A ++ name :: B ∧ name ∉ A ∧ name ∉ B := by
  have hm : name ∈ ds := List.count_pos_iff.1 (by omega)
  obtain ⟨A, B, hAB⟩ := List.append_of_mem hm
  subst hAB
  have hA : name ∉ A := fun hc => by
    have : 0 < A.count name := List.count_pos_iff.2 hc
    rw [List.count_append, List.count_cons_self] at h
    omega
  refine ⟨A, B, rfl, hA, fun hc => ?_⟩
  have : 0 < B.count name := List.count_pos_iff.2 hc
  rw [List.count_append, List.count_cons_self] at h
  omega

/-- The three arrays after resizing a dimension used once. -/
theorem resizeParam_once {α : Type} {val : CStr → Nat} {name : CStr} {nnew : Nat} {p : RParam α}
    (honce : p.dims.count name = 1) (hfill : Filled val p) (hold : 0 < val name) (hnew : 0 < nnew)
    (hpos : ∀ d ∈ p.dims, 0 < val d) :
    ∃ p', resizeParam (setDim val name nnew) name (val name) nnew p = .ok p' ∧
      p'.dims = p.dims ∧ p'.bound = p.bound ∧ p'.size = volume (p.dims.map (setDim val name nnew)) ∧
      Filled (setDim val name nnew) p' ∧
      ∀ is, Inside (p.dims.map (setDim val name nnew)) is →
        p'.value[position (p.dims.map (setDim val name nnew)) is]? =
          p.value[position (p.dims.map val) (source name (val name) p.dims is)]? ∧
        p'.min[position (p.dims.map (setDim val name nnew)) is]? =
          p.min[position (p.dims.map val) (source name (val name) p.dims is)]? ∧
        p'.max[position (p.dims.map (setDim val name nnew)) is]? =
          p.max[position (p.dims.map val) (source name (val name) p.dims is)]? := by
  obtain ⟨A, B, hAB, hA, hB⟩ := once_split honce
  have e1 : p.dims.map (setDim val name nnew) = A.map val ++ nnew :: B.map val := by
    rw [hAB, List.map_append, List.map_cons, map_setDim hA, map_setDim hB]; simp [setDim]
  have e2 : p.dims.map val = A.map val ++ val name :: B.map val := by
    rw [hAB, List.map_append, List.map_cons]
  have hvpos : 0 < volume (A.map val ++ nnew :: B.map val) := by
    apply volume_pos
    intro d hd
    simp only [List.mem_append, List.mem_cons, List.mem_map] at hd
    rcases hd with ⟨a, ha, rfl⟩ | rfl | ⟨a, ha, rfl⟩
    · exact hpos a (by rw [hAB]; simp [ha])
    · exact hnew
    · exact hpos a (by rw [hAB]; simp [ha])
  have step : ∀ arr : Mem α, arr.length = volume (p.dims.map val) → (∀ x ∈ arr, x ≠ none) →
      ∃ out, resizeArray (A.map val ++ nnew :: B.map val) A.length (val name) nnew
          (volume (A.map val ++ nnew :: B.map val)) arr = .ok out ∧
        out.length = volume (A.map val ++ nnew :: B.map val) ∧ (∀ x ∈ out, x ≠ none) ∧
        ∀ is, Inside (A.map val ++ nnew :: B.map val) is →
          out[position (A.map val ++ nnew :: B.map val) is]? =
            arr[position (A.map val ++ val name :: B.map val) (source name (val name) p.dims is)]? := by
    intro arr hl hn
    obtain ⟨out, h1, h2, h3⟩ := resizeArray_ok (A.map val) (B.map val) (val name) nnew hold arr
      (by rw [hl, e2])
    rw [List.length_map] at h1
    have h4 : ∀ is, Inside (A.map val ++ nnew :: B.map val) is →
          out[position (A.map val ++ nnew :: B.map val) is]? =
            arr[position (A.map val ++ val name :: B.map val) (source name (val name) p.dims is)]? ∧
          position (A.map val ++ val name :: B.map val) (source name (val name) p.dims is) < arr.length := by
      intro is his
      obtain ⟨ia, x, ib, rfl, i1, i2, i3⟩ := his.split
      have hla : ia.length = A.length := by simpa using i1.length
      have hlb : ib.length = B.length := by simpa using i3.length
      rw [hAB, source_once hA hB hla hlb]
      refine ⟨h3 ia x ib i1 i2 i3, ?_⟩
      rw [hl, e2, position_split i1, volume_append]
      exact digit_lt (position_lt i1) (digit_lt (by omega) (position_lt i3))
    refine ⟨out, h1, h2, ?_, fun is his => (h4 is his).1⟩
    intro x hx
    obtain ⟨k, hk, rfl⟩ := List.getElem_of_mem hx
    obtain ⟨is, i1, i2⟩ := position_surj (A.map val ++ nnew :: B.map val) k (by rw [← h2]; exact hk)
    obtain ⟨g1, g2⟩ := h4 is i1
    rw [i2, List.getElem?_eq_getElem hk, List.getElem?_eq_getElem g2, Option.some.injEq] at g1
    rw [g1]
    exact hn _ (List.getElem_mem _)
  obtain ⟨v, v1, v2, v3, v4⟩ := step p.value (hfill _ (by simp)).1 (hfill _ (by simp)).2
  obtain ⟨mn, m1, m2, m3, m4⟩ := step p.min (hfill _ (by simp)).1 (hfill _ (by simp)).2
  obtain ⟨mx, x1, x2, x3, x4⟩ := step p.max (hfill _ (by simp)).1 (hfill _ (by simp)).2
  refine ⟨{ p with size := volume (A.map val ++ nnew :: B.map val), value := v, min := mn, max := mx },
    ?_, rfl, rfl, by rw [e1], ?_, ?_⟩
  · unfold resizeParam
    have hl : lastIdx name p.dims = some A.length := by rw [hAB]; exact lastIdx_once hA hB
    rw [hl, e1]
    simp only [foldl_mul, Nat.one_mul]
    rw [if_neg (by omega), v1, m1, x1]
    rfl
  · intro arr harr
    simp only [List.mem_cons, List.not_mem_nil, or_false] at harr
    rw [e1]
    rcases harr with rfl | rfl | rfl
    · exact ⟨v2, v3⟩
    · exact ⟨m2, m3⟩
    · exact ⟨x2, x3⟩
  · rw [e1, e2]
    exact fun is his => ⟨v4 is his, m4 is his, x4 is his⟩

/-! ### Clamping -/

theorem clampLoop_ok (nnew : Int) : ∀ (v m : Mem Int), v.length = m.length → (∀ x ∈ v, x ≠ none) →
    clampLoop nnew v.length v m =
      .ok (v.map (Option.map fun x => min x nnew), m.map fun _ => some nnew)
  | [], [], _, _ => rfl
  | [], _ :: _, h, _ => by simp at h
  | _ :: _, [], h, _ => by simp at h
  | v :: vs, m :: ms, h, hn => by
    cases v with
    | none => exact absurd rfl (hn none (by simp))
    | some x =>
      simp only [List.length_cons, clampLoop]
      rw [clampLoop_ok nnew vs ms (by simpa using h) fun y hy => hn y (List.mem_cons_of_mem _ hy)]
      simp only [Res.bind, List.map_cons, Option.map_some]
      congr 3
      split
      · congr 1; omega
      · congr 1; omega

theorem mapRes_ok {β γ : Type} {f : β → Res γ} {g : β → γ} : ∀ {l : List β},
    (∀ b ∈ l, f b = .ok (g b)) → mapRes f l = .ok (l.map g)
  | [], _ => rfl
  | b :: l, h => by
    simp [mapRes, h b (by simp), mapRes_ok (fun b hb => h b (List.mem_cons_of_mem _ hb)), Res.bind]

theorem changed_of_regular (val : CStr → Nat) (name : CStr) (nnew : Nat) (hnew : 0 < nnew)
    (p : RParam Int) (hr : Regular val name p) :
    ∃ p1 p', resizeParam (setDim val name nnew) name (val name) nnew p = .ok p1 ∧
      clampParam name nnew p1 = .ok p' ∧ Changed val name nnew p p' := by
  obtain ⟨h1, h2, h3, h4⟩ := hr
  have hmid : ∃ p1, resizeParam (setDim val name nnew) name (val name) nnew p = .ok p1 ∧
      p1.dims = p.dims ∧ p1.bound = p.bound ∧ p1.size = volume (p.dims.map (setDim val name nnew)) ∧
      Filled (setDim val name nnew) p1 ∧
      ∀ is, Inside (p.dims.map (setDim val name nnew)) is →
        p1.value[position (p.dims.map (setDim val name nnew)) is]? =
          p.value[position (p.dims.map val) (source name (val name) p.dims is)]? ∧
        p1.max[position (p.dims.map (setDim val name nnew)) is]? =
          p.max[position (p.dims.map val) (source name (val name) p.dims is)]? := by
    by_cases hc : p.dims.count name = 1
    · obtain ⟨p1, k1, k2, k3, k4, k5, k6⟩ := resizeParam_once hc h2 (h4 name (List.count_pos_iff.1 (by omega))) hnew h4
      exact ⟨p1, k1, k2, k3, k4, k5, fun is his => ⟨(k6 is his).1, (k6 is his).2.2⟩⟩
    · have hn : name ∉ p.dims := fun hm => by
        have := List.count_pos_iff.2 hm; omega
      have e := map_setDim (val := val) (n := nnew) hn
      refine ⟨p, (by simp [resizeParam, lastIdx_none hn]), rfl, rfl, by rw [e]; exact h3, ?_, ?_⟩
      · intro arr harr; rw [e]; exact h2 arr harr
      · intro is his
        rw [e] at his ⊢
        rw [source_other hn (by simpa using his.length)]
        exact ⟨rfl, rfl⟩
  obtain ⟨p1, k1, k2, k3, k4, k5, k6⟩ := hmid
  obtain ⟨v1, v2⟩ := k5 p1.value (by simp)
  obtain ⟨x1, x2⟩ := k5 p1.max (by simp)
  rw [k2] at v1 x1
  by_cases hb : p1.bound = some name
  · have hclamp := clampLoop_ok (nnew : Int) p1.value p1.max (by rw [v1, x1]) v2
    refine ⟨p1, { p1 with value := p1.value.map (Option.map fun x => min x (nnew : Int)),
                          max := p1.max.map fun _ => some (nnew : Int) }, k1, ?_, k2, k3, k4, ?_, ?_⟩
    · unfold clampParam
      rw [if_pos hb, k4, ← v1, hclamp]; rfl
    · intro arr harr
      simp only [List.mem_cons, List.not_mem_nil, or_false] at harr
      rcases harr with rfl | rfl | rfl
      · refine ⟨by simp [v1, k2], ?_⟩
        intro x hx
        obtain ⟨y, hy, rfl⟩ := List.mem_map.1 hx
        have := v2 y hy
        cases y <;> simp_all
      · exact k5 p1.min (by simp)
      · refine ⟨by simp [x1, k2], ?_⟩
        intro x hx
        obtain ⟨y, hy, rfl⟩ := List.mem_map.1 hx
        simp
    · intro is his
      obtain ⟨g1, g2⟩ := k6 is his
      rw [← k3]
      simp only [hb, if_true, List.getElem?_map, g1]
      refine ⟨trivial, ?_⟩
      rw [g2]
      have hlt : position (p.dims.map (setDim val name nnew)) is < p1.max.length := by
        rw [x1]; exact position_lt his
      rw [← g2, List.getElem?_eq_getElem hlt]
      have := x2 _ (List.getElem_mem hlt)
      cases hx : p1.max[position (p.dims.map (setDim val name nnew)) is] with
      | none => exact absurd hx this
      | some y => rfl
  · refine ⟨p1, p1, k1, by simp [clampParam, hb], k2, k3, k4, k5, ?_⟩
    intro is his
    obtain ⟨g1, g2⟩ := k6 is his
    rw [← k3]
    simp only [hb, if_false]
    rw [g1, g2]
    constructor
    · cases p.value[position (p.dims.map val) (source name (val name) p.dims is)]? with
      | none => rfl
      | some y => cases y <;> rfl
    · cases p.max[position (p.dims.map val) (source name (val name) p.dims is)]? with
      | none => rfl
      | some y => cases y <;> rfl

end Verif.Params
