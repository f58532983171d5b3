import Verif.Spec.SolnNum
import Mathlib.Algebra.Order.Field.Rat
import Mathlib.Tactic.Linarith
import Mathlib.Tactic.NormNum
import Mathlib.Tactic.Ring
import Mathlib.Tactic.FieldSimp
/-
Lemmas for solution numbers and rows of the chemistry table.
-/
namespace Verif.SolnNum

/-! ### Single precision -/

theorem fl_int {fl : Rat → Rat} (h : Single fl) (m : Int) (h1 : -16777216 ≤ m) (h2 : m ≤ 16777216) :
    fl (m : Rat) = m := by
  have := h.exact m 0 (by omega) h1 h2
  simpa using this

theorem truncR_int (m : Int) (h : 0 ≤ m) : truncR (m : Rat) = m := by
  unfold truncR
  have : ¬ ((m : Rat) < 0) := by
    have : (0 : Rat) ≤ m := by exact_mod_cast h
    linarith
  rw [if_neg this]
  exact Rat.floor_intCast m

/-- Rounding does not carry a quotient over the next whole number. -/
theorem trunc_fl {fl : Rat → Rat} (h : Single fl) (n : Int) (e : Nat) (x : Rat) (he : e ≤ 20)
    (hn : 0 ≤ n) (hb : (n + 1) * 2 ^ e ≤ 16777216) (h1 : (n : Rat) ≤ x)
    (h2 : x ≤ (n : Rat) + 1 - 1 / 2 ^ e) : truncR (fl x) = n := by
  have hp : (1 : Int) ≤ 2 ^ e := by
    have : (1 : Nat) ≤ 2 ^ e := Nat.one_le_two_pow
    exact_mod_cast this
  have hn' : n + 1 ≤ 16777216 := by
    have : (n + 1) * 1 ≤ (n + 1) * 2 ^ e := Int.mul_le_mul_of_nonneg_left hp (by omega)
    omega
  have l1 : (n : Rat) ≤ fl x := by
    have := h.mono _ _ h1
    rwa [fl_int h n (by omega) (by omega)] at this
  have hpq : (0 : Rat) < 2 ^ e := by positivity
  have l2 : fl x ≤ (n : Rat) + 1 - 1 / 2 ^ e := by
    have hx := h.mono _ _ h2
    have he2 : (n : Rat) + 1 - 1 / 2 ^ e = (((n + 1) * 2 ^ e - 1 : Int) : Rat) / 2 ^ e := by
      push_cast
      field_simp
    rw [he2] at hx ⊢
    have hq : 0 ≤ (n + 1) * 2 ^ e := Int.mul_nonneg (by omega) (by omega)
    rwa [h.exact _ e he (by omega) (by omega)] at hx
  have l3 : fl x < ((n + 1 : Int) : Rat) := by
    push_cast
    have : (0 : Rat) < 1 / 2 ^ e := by rw [one_div]; exact inv_pos.mpr hpq
    linarith
  unfold truncR
  have hnn : (0 : Rat) ≤ n := by exact_mod_cast hn
  rw [if_neg (by linarith)]
  have a := Rat.le_floor_iff.mpr l1
  have b := Rat.floor_lt_iff.mpr l3
  omega

theorem cutRes_eq {fl : Rat → Rat} (h : Single fl) (res mru x : Int) (hr : 0 ≤ res ∧ res ≤ 14)
    (hm : 0 ≤ mru ∧ mru ≤ 999) (hx : 0 ≤ x ∧ x ≤ 990) :
    cutRes fl (res * 1000000 + mru * 1000 + x) = res := by
  unfold cutRes
  rw [fl_int h _ (by omega) (by omega)]
  apply trunc_fl h res 20 _ (by omega) hr.1 (by norm_num; omega)
  · have : (0 : Rat) ≤ mru := by exact_mod_cast hm.1
    have : (0 : Rat) ≤ x := by exact_mod_cast hx.1
    rw [le_div_iff₀ (by norm_num)]
    push_cast
    linarith
  · have : (mru : Rat) ≤ 999 := by exact_mod_cast hm.2
    have : (x : Rat) ≤ 990 := by exact_mod_cast hx.2
    rw [div_le_iff₀ (by norm_num)]
    push_cast
    norm_num
    linarith

theorem cutRest_eq {fl : Rat → Rat} (h : Single fl) (res mru x : Int) (hr : 0 ≤ res ∧ res ≤ 14)
    (hm : 0 ≤ mru ∧ mru ≤ 999) (hx : 0 ≤ x ∧ x ≤ 990) :
    cutRest fl (res * 1000000 + mru * 1000 + x) res = ((mru * 1000 + x : Int) : Rat) := by
  unfold cutRest
  rw [fl_int h _ (by omega) (by omega), fl_int h res (by omega) (by omega)]
  have e1 : (res : Rat) * 1000000 = ((res * 1000000 : Int) : Rat) := by push_cast; ring
  rw [e1, fl_int h _ (by omega) (by omega)]
  have e2 : ((res * 1000000 + mru * 1000 + x : Int) : Rat) - ((res * 1000000 : Int) : Rat)
      = ((mru * 1000 + x : Int) : Rat) := by push_cast; ring
  rw [e2, fl_int h _ (by omega) (by omega)]

theorem cutMru_eq {fl : Rat → Rat} (h : Single fl) (res mru x : Int) (hr : 0 ≤ res ∧ res ≤ 14)
    (hm : 0 ≤ mru ∧ mru ≤ 999) (hx : 0 ≤ x ∧ x ≤ 990) :
    cutMru fl (res * 1000000 + mru * 1000 + x) res = mru := by
  unfold cutMru
  rw [cutRest_eq h res mru x hr hm hx]
  apply trunc_fl h mru 14 _ (by omega) hm.1 (by norm_num; omega)
  · have : (0 : Rat) ≤ x := by exact_mod_cast hx.1
    rw [le_div_iff₀ (by norm_num)]
    push_cast
    linarith
  · have : (x : Rat) ≤ 990 := by exact_mod_cast hx.2
    rw [div_le_iff₀ (by norm_num)]
    push_cast
    norm_num
    linarith

theorem cutNac_eq {fl : Rat → Rat} (h : Single fl) (res mru n : Int) (hr : 0 ≤ res ∧ res ≤ 14)
    (hm : 0 ≤ mru ∧ mru ≤ 999) (hx : 0 ≤ n ∧ n ≤ 99) :
    cutNac fl (res * 1000000 + mru * 1000 + n * 10) res mru = n := by
  unfold cutNac
  rw [cutRest_eq h res mru _ hr hm (by omega), fl_int h mru (by omega) (by omega)]
  have e1 : (mru : Rat) * 1000 = ((mru * 1000 : Int) : Rat) := by push_cast; ring
  rw [e1, fl_int h _ (by omega) (by omega)]
  have e2 : ((mru * 1000 + n * 10 : Int) : Rat) - ((mru * 1000 : Int) : Rat) = ((n * 10 : Int) : Rat) := by
    push_cast; ring
  rw [e2, fl_int h _ (by omega) (by omega)]
  have e3 : ((n * 10 : Int) : Rat) / 10 = (n : Rat) := by push_cast; field_simp
  rw [e3, fl_int h _ (by omega) (by omega), truncR_int n hx.1]

/-! ### The numbers -/

theorem number_pure (fl : Rat → Rat) (t : Time) : number fl t .pure = 1 := by
  simp [number, solnnum]

theorem number_data {fl : Rat → Rat} (h : Single fl) (t : Time) (i : Nat) (h1 : 1 ≤ i) (h2 : i ≤ 998999) :
    number fl t (.data i) = 1000 + i := by
  have e1 : fl ((i : Int) : Rat) = ((i : Int) : Rat) := fl_int h _ (by omega) (by omega)
  have e2 : (1000 : Rat) + ((i : Int) : Rat) = ((1000 + i : Int) : Rat) := by push_cast; rfl
  dsimp only [number]
  unfold solnnum
  rw [if_neg (by omega), if_neg (by omega), if_pos rfl, if_neg (by omega), e1, e2,
    fl_int h _ (by omega) (by omega), truncR_int _ (by omega)]

theorem number_hill (fl : Rat → Rat) (t : Time) (j k : Nat) (h1 : 1 ≤ j) (h2 : j ≤ 14) (h5 : j ≠ 5) :
    number fl t (.hill j k) = t.toInt * 100000000 + 100000000 + j * 1000000 + k * 1000 := by
  dsimp only [number]
  unfold solnnum
  rw [if_neg (by omega), if_neg (by omega), if_neg (by omega), if_pos (by omega), if_neg (by omega)]
  omega

theorem number_bin (fl : Rat → Rat) (t : Time) (k l : Nat) :
    number fl t (.bin k l) = t.toInt * 100000000 + 105000000 + k * 1000 + l * 10 := by
  dsimp only [number]
  unfold solnnum
  rw [if_neg (by omega), if_neg (by omega), if_neg (by omega), if_pos (by omega), if_pos rfl]
  omega

theorem number_segment (fl : Rat → Rat) (t : Time) (h : Nat) :
    number fl t (.segment h) = t.toInt * 100000000 + 300000000 + h := by
  dsimp only [number]
  unfold solnnum
  rw [if_neg (by omega), if_pos rfl]

theorem toInt_cases (t : Time) : t.toInt = 0 ∧ t = .begin ∨ t.toInt = 1 ∧ t = .final := by
  cases t <;> simp [Time.toInt]

theorem number_range {fl : Rat → Rat} (h : Single fl) (d : Dims) (ok : d.Ok) (t : Time) (r : Reservoir)
    (w : r.Within d) : 1 ≤ number fl t r ∧ number fl t r < 500000000 := by
  obtain ⟨o1, o2, o3, o4⟩ := ok
  have ht := toInt_cases t
  cases r with
  | pure => rw [number_pure]; omega
  | data i => obtain ⟨w1, w2⟩ := w; rw [number_data h t i w1 (by omega)]; omega
  | hill j k =>
    obtain ⟨⟨w1, w2, w3, w4⟩, w5, w6⟩ := w
    rw [number_hill fl t j k w1 w2 w3]; omega
  | bin k l => obtain ⟨⟨w1, w2⟩, w3, w4⟩ := w; rw [number_bin]; omega
  | segment s => have w' : s ≤ d.segs := w; rw [number_segment]; omega

theorem number_inj {fl : Rat → Rat} (h : Single fl) (d : Dims) (ok : d.Ok) (t t' : Time) (r r' : Reservoir)
    (w : r.Within d) (w' : r'.Within d) (e : number fl t r = number fl t' r') :
    r = r' ∧ (r.Timed → t = t') := by
  obtain ⟨o1, o2, o3, o4⟩ := ok
  have ht := toInt_cases t
  have ht' := toInt_cases t'
  cases r with
  | pure =>
    rw [number_pure] at e
    cases r' with
    | pure => exact ⟨rfl, fun x => x.elim⟩
    | data i => obtain ⟨w1, w2⟩ := w'; rw [number_data h t' i w1 (by omega)] at e; omega
    | hill j k =>
      obtain ⟨⟨w1, w2, w3, w4⟩, w5, w6⟩ := w'
      rw [number_hill fl t' j k w1 w2 w3] at e; omega
    | bin k l => obtain ⟨⟨w1, w2⟩, w3, w4⟩ := w'; rw [number_bin] at e; omega
    | segment s => have w'' : s ≤ d.segs := w'; rw [number_segment] at e; omega
  | data a =>
    obtain ⟨v1, v2⟩ := w
    rw [number_data h t a v1 (by omega)] at e
    cases r' with
    | pure => rw [number_pure] at e; omega
    | data i =>
      obtain ⟨w1, w2⟩ := w'; rw [number_data h t' i w1 (by omega)] at e
      have : a = i := by omega
      subst this
      exact ⟨rfl, fun x => x.elim⟩
    | hill j k =>
      obtain ⟨⟨w1, w2, w3, w4⟩, w5, w6⟩ := w'
      rw [number_hill fl t' j k w1 w2 w3] at e; omega
    | bin k l => obtain ⟨⟨w1, w2⟩, w3, w4⟩ := w'; rw [number_bin] at e; omega
    | segment s => have w'' : s ≤ d.segs := w'; rw [number_segment] at e; omega
  | hill a b =>
    obtain ⟨⟨v1, v2, v3, v4⟩, v5, v6⟩ := w
    rw [number_hill fl t a b v1 v2 v3] at e
    cases r' with
    | pure => rw [number_pure] at e; omega
    | data i => obtain ⟨w1, w2⟩ := w'; rw [number_data h t' i w1 (by omega)] at e; omega
    | hill j k =>
      obtain ⟨⟨w1, w2, w3, w4⟩, w5, w6⟩ := w'
      rw [number_hill fl t' j k w1 w2 w3] at e
      have e1 : a = j := by omega
      have e2 : b = k := by omega
      have e3 : t = t' := by
        rcases ht with ⟨x, y⟩ | ⟨x, y⟩ <;> rcases ht' with ⟨x', y'⟩ | ⟨x', y'⟩ <;>
          first | exact y.trans y'.symm | omega
      subst e1 e2
      exact ⟨rfl, fun _ => e3⟩
    | bin k l => obtain ⟨⟨w1, w2⟩, w3, w4⟩ := w'; rw [number_bin] at e; omega
    | segment s => have w'' : s ≤ d.segs := w'; rw [number_segment] at e; omega
  | bin a b =>
    obtain ⟨⟨v1, v2⟩, v3, v4⟩ := w
    rw [number_bin] at e
    cases r' with
    | pure => rw [number_pure] at e; omega
    | data i => obtain ⟨w1, w2⟩ := w'; rw [number_data h t' i w1 (by omega)] at e; omega
    | hill j k =>
      obtain ⟨⟨w1, w2, w3, w4⟩, w5, w6⟩ := w'
      rw [number_hill fl t' j k w1 w2 w3] at e; omega
    | bin k l =>
      obtain ⟨⟨w1, w2⟩, w3, w4⟩ := w'; rw [number_bin] at e
      have e1 : a = k := by omega
      have e2 : b = l := by omega
      have e3 : t = t' := by
        rcases ht with ⟨x, y⟩ | ⟨x, y⟩ <;> rcases ht' with ⟨x', y'⟩ | ⟨x', y'⟩ <;>
          first | exact y.trans y'.symm | omega
      subst e1 e2
      exact ⟨rfl, fun _ => e3⟩
    | segment s => have w'' : s ≤ d.segs := w'; rw [number_segment] at e; omega
  | segment a =>
    have v : a ≤ d.segs := w
    rw [number_segment] at e
    cases r' with
    | pure => rw [number_pure] at e; omega
    | data i => obtain ⟨w1, w2⟩ := w'; rw [number_data h t' i w1 (by omega)] at e; omega
    | hill j k =>
      obtain ⟨⟨w1, w2, w3, w4⟩, w5, w6⟩ := w'
      rw [number_hill fl t' j k w1 w2 w3] at e; omega
    | bin k l => obtain ⟨⟨w1, w2⟩, w3, w4⟩ := w'; rw [number_bin] at e; omega
    | segment s =>
      have w'' : s ≤ d.segs := w'; rw [number_segment] at e
      have e1 : a = s := by omega
      have e3 : t = t' := by
        rcases ht with ⟨x, y⟩ | ⟨x, y⟩ <;> rcases ht' with ⟨x', y'⟩ | ⟨x', y'⟩ <;>
          first | exact y.trans y'.symm | omega
      subst e1
      exact ⟨rfl, fun _ => e3⟩

/-! ### Rows -/

/-- Where `isoln` puts a reservoir. -/
def place (d : Dims) : Reservoir → Int
  | .pure => 1
  | .data i => 1 + i
  | .hill j k =>
    if j ≤ 4 then 1 + d.nchemdat + ((j : Int) - 1) * d.nmru + k
    else 1 + d.nchemdat + d.nac * d.nmru + ((j : Int) - 3) * d.nmru + k
  | .bin k l => 1 + d.nchemdat + d.nmru * 4 + ((k : Int) - 1) * d.nac + l
  | .segment h => 1 + d.nchemdat + d.nmru * (d.nac + 12) + h + 1

theorem isoln_number {fl : Rat → Rat} (h : Single fl) (d : Dims) (ok : d.Ok) (t : Time) (r : Reservoir)
    (w : r.Within d) :
    isoln fl (number fl t r) d.nchemdat d.nmru d.nac =
      ⟨place d r, r.indices.1, r.indices.2.1, r.indices.2.2.1, r.indices.2.2.2.1, r.indices.2.2.2.2⟩ := by
  obtain ⟨o1, o2, o3, o4⟩ := ok
  cases r with
  | pure => rw [number_pure]; simp [isoln, place, Reservoir.indices]
  | data i =>
    obtain ⟨w1, w2⟩ := w
    rw [number_data h t i w1 (by omega)]
    unfold isoln
    rw [if_neg (by omega), if_neg (by omega), if_pos (by omega)]
    simp only [place, Reservoir.indices, Loc.mk.injEq, and_true, true_and]
    omega
  | hill j k =>
    obtain ⟨⟨w1, w2, w3, w4⟩, w5, w6⟩ := w
    rw [number_hill fl t j k w1 w2 w3]
    have c1 := cutRes_eq h j k 0 (by omega) (by omega) (by omega)
    have c2 := cutMru_eq h j k 0 (by omega) (by omega) (by omega)
    simp only [Int.add_zero] at c1 c2
    rcases toInt_cases t with ⟨ht, -⟩ | ⟨ht, -⟩
    · have es : t.toInt * 100000000 + 100000000 + (j : Int) * 1000000 + k * 1000 - 100000000
          = (j : Int) * 1000000 + k * 1000 := by omega
      unfold isoln
      rw [if_neg (by omega), if_neg (by omega), if_neg (by omega), if_neg (by omega), if_neg (by omega),
        if_neg (by omega), if_neg (by omega), if_neg (by omega)]
      by_cases hj : j ≤ 4
      · rw [if_neg (by omega), if_neg (by omega), es]
        simp [locSurface, c1, c2, place, hj, Reservoir.indices]
      · rw [if_pos (by omega), es]
        simp [locAfter, c1, c2, place, hj, Reservoir.indices]
    · have es : t.toInt * 100000000 + 100000000 + (j : Int) * 1000000 + k * 1000 - 200000000
          = (j : Int) * 1000000 + k * 1000 := by omega
      unfold isoln
      rw [if_neg (by omega), if_neg (by omega), if_neg (by omega), if_neg (by omega), if_neg (by omega)]
      by_cases hj : j ≤ 4
      · rw [if_neg (by omega), if_neg (by omega), if_pos (by omega), es]
        simp [locSurface, c1, c2, place, hj, Reservoir.indices]
      · rw [if_pos (by omega), es]
        simp [locAfter, c1, c2, place, hj, Reservoir.indices]
  | bin k l =>
    obtain ⟨⟨w1, w2⟩, w3, w4⟩ := w
    rw [number_bin]
    have c1 := cutRes_eq h 5 k (l * 10) (by omega) (by omega) (by omega)
    have c2 := cutMru_eq h 5 k (l * 10) (by omega) (by omega) (by omega)
    have c3 := cutNac_eq h 5 k l (by omega) (by omega) (by omega)
    rcases toInt_cases t with ⟨ht, -⟩ | ⟨ht, -⟩
    · have es : t.toInt * 100000000 + 105000000 + (k : Int) * 1000 + l * 10 - 100000000
          = 5 * 1000000 + (k : Int) * 1000 + l * 10 := by omega
      unfold isoln
      rw [if_neg (by omega), if_neg (by omega), if_neg (by omega), if_neg (by omega), if_neg (by omega),
        if_neg (by omega), if_neg (by omega), if_neg (by omega), if_neg (by omega), if_pos (by omega), es]
      simp only [locUz, c1, c2, c3, place, Reservoir.indices]
    · have es : t.toInt * 100000000 + 105000000 + (k : Int) * 1000 + l * 10 - 200000000
          = 5 * 1000000 + (k : Int) * 1000 + l * 10 := by omega
      unfold isoln
      rw [if_neg (by omega), if_neg (by omega), if_neg (by omega), if_neg (by omega), if_neg (by omega),
        if_neg (by omega), if_pos (by omega), es]
      simp only [locUz, c1, c2, c3, place, Reservoir.indices]
  | segment s =>
    have w' : s ≤ d.segs := w
    rw [number_segment]
    rcases toInt_cases t with ⟨ht, -⟩ | ⟨ht, -⟩
    · have es : t.toInt * 100000000 + 300000000 + (s : Int) - 300000000 = s := by omega
      unfold isoln
      rw [if_neg (by omega), if_neg (by omega), if_neg (by omega), if_neg (by omega), if_pos (by omega), es]
      simp [locHydro, place, Reservoir.indices]
    · have es : t.toInt * 100000000 + 300000000 + (s : Int) - 400000000 = s := by omega
      unfold isoln
      rw [if_neg (by omega), if_neg (by omega), if_neg (by omega), if_pos (by omega), es]
      simp [locHydro, place, Reservoir.indices]

theorem rowOf_eq {fl : Rat → Rat} (h : Single fl) (d : Dims) (ok : d.Ok) (t : Time) (r : Reservoir)
    (w : r.Within d) : rowOf fl d t r = place d r := by
  unfold rowOf; rw [isoln_number h d ok t r w]

/-- Position of a reservoir of an MRU among those of its kind group: quotient and remainder. -/
theorem two_level (m a b a' b' : Int) (hb : 1 ≤ b ∧ b ≤ m) (hb' : 1 ≤ b' ∧ b' ≤ m)
    (e : a * m + b = a' * m + b') : a = a' ∧ b = b' := by
  have hz : (a - a') * m = b' - b := by rw [Int.sub_mul]; omega
  have : a - a' = 0 := by
    by_contra hne
    rcases Int.lt_or_gt_of_ne hne with hl | hg
    · have : (a - a') * m ≤ (-1) * m := Int.mul_le_mul_of_nonneg_right (by omega) (by omega)
      omega
    · have : 1 * m ≤ (a - a') * m := Int.mul_le_mul_of_nonneg_right (by omega) (by omega)
      omega
  have h0 : a = a' := by omega
  subst h0
  exact ⟨rfl, by omega⟩

theorem mul_range (m a lo hi : Int) (hm : 0 ≤ m) (h1 : lo ≤ a) (h2 : a ≤ hi) :
    lo * m ≤ a * m ∧ a * m ≤ hi * m :=
  ⟨Int.mul_le_mul_of_nonneg_right h1 hm, Int.mul_le_mul_of_nonneg_right h2 hm⟩

theorem place_group (d : Dims) (r : Reservoir) (w : r.Within d) :
    match r with
    | .pure => place d r = 1
    | .data _ => 1 < place d r ∧ place d r ≤ 1 + d.nchemdat
    | .hill j _ =>
      if j ≤ 4 then 1 + (d.nchemdat : Int) < place d r ∧ place d r ≤ 1 + d.nchemdat + 4 * d.nmru
      else 1 + (d.nchemdat : Int) + 4 * d.nmru + d.nmru * d.nac < place d r ∧
        place d r ≤ 1 + d.nchemdat + 12 * d.nmru + d.nmru * d.nac
    | .bin _ _ => 1 + (d.nchemdat : Int) + 4 * d.nmru < place d r ∧
        place d r ≤ 1 + d.nchemdat + 4 * d.nmru + d.nmru * d.nac
    | .segment _ => 1 + (d.nchemdat : Int) + 12 * d.nmru + d.nmru * d.nac < place d r ∧
        place d r ≤ 1 + d.nchemdat + 12 * d.nmru + d.nmru * d.nac + d.segs + 1 := by
  cases r with
  | pure => rfl
  | data i => obtain ⟨w1, w2⟩ := w; simp only [place]; omega
  | hill j k =>
    obtain ⟨⟨w1, w2, w3, w4⟩, w5, w6⟩ := w
    by_cases hj : j ≤ 4
    · simp only [place, if_pos hj]
      have := mul_range d.nmru ((j : Int) - 1) 0 3 (by omega) (by omega) (by omega)
      omega
    · simp only [place, if_neg hj]
      have := mul_range d.nmru ((j : Int) - 3) 4 11 (by omega) (by omega) (by omega)
      rw [Int.mul_comm (d.nac : Int)]
      omega
  | bin k l =>
    obtain ⟨⟨w1, w2⟩, w3, w4⟩ := w
    simp only [place]
    have := mul_range d.nac ((k : Int) - 1) 0 ((d.nmru : Int) - 1) (by omega) (by omega) (by omega)
    rw [Int.sub_mul (d.nmru : Int)] at this
    omega
  | segment s =>
    have w' : s ≤ d.segs := w
    simp only [place]
    rw [Int.mul_add]
    omega

theorem place_inj (d : Dims) (r r' : Reservoir) (w : r.Within d) (w' : r'.Within d)
    (e : place d r = place d r') : r = r' := by
  have g := place_group d r w
  have g' := place_group d r' w'
  have hp : 0 ≤ (d.nmru : Int) * d.nac := Int.mul_nonneg (by omega) (by omega)
  generalize hP : (d.nmru : Int) * d.nac = P at *
  cases r with
  | pure =>
    cases r' with
    | pure => rfl
    | data i => simp only at g g'; omega
    | hill j k => simp only at g g'; split at g' <;> omega
    | bin k l => simp only at g g'; omega
    | segment s => simp only at g g'; omega
  | data i =>
    cases r' with
    | pure => simp only at g g'; omega
    | data i' => simp only [place] at e; have : i = i' := by omega
                 rw [this]
    | hill j k => simp only at g g'; split at g' <;> omega
    | bin k l => simp only at g g'; omega
    | segment s => simp only at g g'; omega
  | hill j k =>
    obtain ⟨⟨w1, w2, w3, w4⟩, w5, w6⟩ := w
    cases r' with
    | pure => simp only at g g'; split at g <;> omega
    | data i' => simp only at g g'; split at g <;> omega
    | hill j' k' =>
      obtain ⟨⟨v1, v2, v3, v4⟩, v5, v6⟩ := w'
      by_cases hj : j ≤ 4
      · by_cases hj' : j' ≤ 4
        · simp only [place, if_pos hj, if_pos hj'] at e
          have := two_level d.nmru ((j : Int) - 1) k ((j' : Int) - 1) k' (by omega) (by omega) (by omega)
          have e1 : j = j' := by omega
          have e2 : k = k' := by omega
          rw [e1, e2]
        · simp only [if_pos hj, if_neg hj'] at g g'; omega
      · by_cases hj' : j' ≤ 4
        · simp only [if_neg hj, if_pos hj'] at g g'; omega
        · simp only [place, if_neg hj, if_neg hj'] at e
          have := two_level d.nmru ((j : Int) - 3) k ((j' : Int) - 3) k' (by omega) (by omega) (by omega)
          have e1 : j = j' := by omega
          have e2 : k = k' := by omega
          rw [e1, e2]
    | bin k l => simp only at g g'; split at g <;> omega
    | segment s => simp only at g g'; split at g <;> omega
  | bin k l =>
    obtain ⟨⟨w1, w2⟩, w3, w4⟩ := w
    cases r' with
    | pure => simp only at g g'; omega
    | data i' => simp only at g g'; omega
    | hill j k => simp only at g g'; split at g' <;> omega
    | bin k' l' =>
      obtain ⟨⟨v1, v2⟩, v3, v4⟩ := w'
      simp only [place] at e
      have := two_level d.nac ((k : Int) - 1) l ((k' : Int) - 1) l' (by omega) (by omega) (by omega)
      have e1 : k = k' := by omega
      have e2 : l = l' := by omega
      rw [e1, e2]
    | segment s => simp only at g g'; omega
  | segment s =>
    cases r' with
    | pure => simp only at g g'; omega
    | data i' => simp only at g g'; omega
    | hill j k => simp only at g g'; split at g' <;> omega
    | bin k' l' => simp only at g g'; omega
    | segment s' =>
      simp only [place] at e
      have e1 : s = s' := by omega
      rw [e1]

theorem place_inside (d : Dims) (r : Reservoir) (w : r.Within d) :
    1 ≤ place d r ∧ place d r ≤ nsoln d := by
  have g := place_group d r w
  have hp : 0 ≤ (d.nmru : Int) * d.nac := Int.mul_nonneg (by omega) (by omega)
  have hn : (nsoln d : Int) = 1 + d.nchemdat + (2 * (d.nmru * d.nac) + 24 * d.nmru) + 2 * (d.segs + 1) := by
    unfold nsoln; push_cast; ring
  rw [hn]
  generalize hP : (d.nmru : Int) * d.nac = P at *
  cases r with
  | pure => simp only at g; omega
  | data i => simp only at g; omega
  | hill j k => simp only at g; split at g <;> omega
  | bin k l => simp only at g; omega
  | segment s => simp only at g; omega

end Verif.SolnNum
