import Verif.Lemmas.TspHysep1
import Mathlib.Data.List.GetD
/-
Lemmas for C131: local minima.
-/
namespace Verif.Hysep

theorem put_length (g : List (Option Rat)) (a b : Nat) (v : Nat → Rat) : (putRange g a b v).length = g.length := by simp [putRange]

theorem put_in (g : List (Option Rat)) (a b : Nat) (v : Nat → Rat) (i : Nat) (h : i < g.length) (h1 : a ≤ i) (h2 : i < b) :
    (putRange g a b v)[i]? = some (some (v i)) := by
  unfold putRange
  rw [List.getElem?_mapIdx, List.getElem?_eq_getElem h]
  simp [h1, h2]

theorem put_out (g : List (Option Rat)) (a b : Nat) (v : Nat → Rat) (i : Nat) (h : i < a ∨ b ≤ i) : (putRange g a b v)[i]? = g[i]? := by
  unfold putRange
  rw [List.getElem?_mapIdx]
  have h' : ¬ (a ≤ i ∧ i < b) := by omega
  cases g[i]? <;> simp [h']

/-- The search in flows that are not missing. -/
theorem find_complete (c : Nat) : ∀ (r : List Rat) (s : Scan), Complete r → r ≠ [] →
    (find c r s).goodv = s.goodv + r.length ∧ (find c r s).start = (if s.goodv = 0 then s.id else s.start) ∧
    (find c r s).stop + 1 = s.id + r.length ∧ (find c r s).id = s.id + r.length ∧ (find c r s).g.length = s.g.length ∧
    ∀ i, s.id ≤ i → i < s.id + r.length → i < s.g.length → (find c r s).g[i]? = some (some 0)
  | [], _, _, h => absurd rfl h
  | [x], s, hc, _ => by
    have hx : 0 ≤ x := hc x (List.mem_cons_self ..)
    rw [find, if_pos hx]
    simp only [find, List.length_singleton, List.length_set, true_and]
    intro i h1 h2 h3
    rw [show i = s.id by omega, List.getElem?_set_self (by omega)]
  | x :: y :: r, s, hc, _ => by
    have hx : 0 ≤ x := hc x (List.mem_cons_self ..)
    have ih := find_complete c (y :: r) ⟨s.goodv + 1, if s.goodv = 0 then s.id else s.start, s.id, s.g.set s.id (some 0), s.id + 1⟩
      (fun z hz => hc z (List.mem_cons_of_mem _ hz)) (by simp)
    rw [find, if_pos hx]
    obtain ⟨h1, h2, h3, h4, h5, h6⟩ := ih
    simp only [List.length_cons] at *
    refine ⟨by omega, ?_, by omega, by omega, by simpa using h5, ?_⟩
    · rw [h2, if_neg (by omega)]
    · intro i a b e
      rcases Nat.eq_or_lt_of_le a with rfl | a'
      · clear h6
        have keep : ∀ (r : List Rat) (t : Scan), s.id < t.id → Complete r → t.g[s.id]? = some (some 0) → (find c r t).g[s.id]? = some (some 0) := by
          intro r
          induction r with
          | nil => intro t _ _ h; exact h
          | cons z r ih =>
            intro t ht hr h
            rw [find, if_pos (hr z (List.mem_cons_self ..))]
            apply ih _ _ (fun w hw => hr w (List.mem_cons_of_mem _ hw))
            · simp only
              rw [List.getElem?_set_ne (by omega), h]
            · simp only; omega
        apply keep _ _ _ (fun z hz => hc z (List.mem_cons_of_mem _ hz))
        · simp only
          rw [List.getElem?_set_self e]
        · simp only; omega
      · exact h6 i (by omega) (by omega) (by simpa using e)

/-! ### Points -/

theorem isMin_iff (d : List Rat) (h i : Nat) (h1 : h ≤ i) (h2 : i + h < d.length) : isMin d h i = true ↔
    ∀ j y, Near h i j → d[j]? = some y → d.getD i 0 ≤ y := by
  unfold isMin Near
  simp only [List.all_eq_true, List.mem_range, Bool.and_eq_true, decide_eq_true_eq]
  constructor
  · intro hh j y hn hy
    have e : d.getD j 0 = y := by rw [List.getD_eq_getElem?_getD, hy]; rfl
    rcases Nat.lt_trichotomy i j with hl | rfl | hg
    · have := (hh (j - i - 1) (by omega)).1
      rwa [show i + (j - i - 1 + 1) = j by omega, e] at this
    · rw [e]
    · have := (hh (i - j - 1) (by omega)).2
      rwa [show i - (i - j - 1 + 1) = j by omega, e] at this
  · intro hh k hk
    constructor
    · refine hh (i + (k + 1)) _ (by omega) ?_
      rw [List.getD_eq_getElem?_getD, List.getElem?_eq_getElem (by omega)]; rfl
    · refine hh (i - (k + 1)) _ (by omega) ?_
      rw [List.getD_eq_getElem?_getD, List.getElem?_eq_getElem (by omega)]; rfl

theorem mem_points (d : List Rat) (c h : Nat) (hh : half c = some h) (stop : Nat) (hs : stop + 1 = d.length) (i : Nat) :
    i ∈ points d c 0 stop ↔ LocalMin d h i := by
  unfold points LocalMin
  rw [hh]
  simp only [List.mem_filter, List.mem_range'_1]
  constructor
  · rintro ⟨⟨h1, h2⟩, h3⟩
    have h1' : h ≤ i := by omega
    have h2' : i + h < d.length := by omega
    refine ⟨h1', h2', d.getD i 0, ?_, (isMin_iff d h i h1' h2').1 h3⟩
    rw [List.getD_eq_getElem?_getD, List.getElem?_eq_getElem (by omega)]; rfl
  · rintro ⟨h1, h2, x, hx, h3⟩
    refine ⟨⟨by omega, by omega⟩, (isMin_iff d h i h1 h2).2 ?_⟩
    have e : d.getD i 0 = x := by rw [List.getD_eq_getElem?_getD, hx]; rfl
    rw [e]; exact h3

theorem points_sorted (d : List Rat) (c start stop : Nat) : (points d c start stop).Pairwise (· < ·) := by
  unfold points
  split
  · exact List.Pairwise.nil
  · exact List.Pairwise.filter _ List.pairwise_lt_range'

/-! ### Pairs -/

theorem between_length (li : Rat → Rat → Rat → Rat) (d : List Rat) (g : List (Option Rat)) (p q : Nat) :
    (between li d g p q).length = g.length := put_length ..

theorem pairs_length (li : Rat → Rat → Rat → Rat) (d : List Rat) : ∀ (ps : List Nat) (g : List (Option Rat)),
    (pairs li d g ps).length = g.length
  | [], g => by rw [pairs]; simp
  | [p], g => by rw [pairs]; simp
  | p :: q :: r, g => by rw [pairs, pairs_length li d (q :: r), between_length]

theorem pairs_before (li : Rat → Rat → Rat → Rat) (d : List Rat) : ∀ (ps : List Nat) (g : List (Option Rat)) (i : Nat),
    ps.Pairwise (· < ·) → (∀ p ∈ ps.head?, i < p) → (pairs li d g ps)[i]? = g[i]?
  | [], g, i, _, _ => by rw [pairs]; simp
  | [p], g, i, _, _ => by rw [pairs]; simp
  | p :: q :: r, g, i, hs, h => by
    have hi : i < p := h p (by simp)
    have hpq : p < q := (List.pairwise_cons.1 hs).1 q (List.mem_cons_self ..)
    rw [pairs, pairs_before li d (q :: r) _ i (List.pairwise_cons.1 hs).2 (by simp; omega), between, put_out _ _ _ _ _ (Or.inl hi)]

theorem pairs_after (li : Rat → Rat → Rat → Rat) (d : List Rat) : ∀ (ps : List Nat) (g : List (Option Rat)) (i : Nat),
    (∀ p ∈ ps, p < i) → (pairs li d g ps)[i]? = g[i]?
  | [], g, i, _ => by rw [pairs]; simp
  | [p], g, i, _ => by rw [pairs]; simp
  | p :: q :: r, g, i, h => by
    have hq : q < i := h q (by simp)
    rw [pairs, pairs_after li d (q :: r) _ i (fun x hx => h x (List.mem_cons_of_mem _ hx)), between, put_out _ _ _ _ _ (Or.inr (by omega))]

/-- The value between two local minima. -/
def joint (li : Rat → Rat → Rat → Rat) (d : List Rat) (p q j : Nat) : Rat :=
  li (positive (d.getD p 0)) (positive (d.getD q 0)) (((j : Rat) - p) / ((q : Rat) - p))

theorem pairs_in (li : Rat → Rat → Rat → Rat) (d : List Rat) (p q : Nat) (r : List Nat) : ∀ (l : List Nat) (g : List (Option Rat)) (i : Nat),
    (l ++ p :: q :: r).Pairwise (· < ·) → p ≤ i → i < q → i < g.length →
    (pairs li d g (l ++ p :: q :: r))[i]? = some (some (joint li d p q i))
  | [], g, i, hs, h1, h2, h3 => by
    rw [List.nil_append, pairs, pairs_before li d (q :: r) _ i (List.pairwise_cons.1 hs).2 (by simpa using h2), between,
      put_in _ _ _ _ _ h3 h1 (by omega)]
    rfl
  | a :: l, g, i, hs, h1, h2, h3 => by
    obtain ⟨b, t, e⟩ : ∃ b t, l ++ p :: q :: r = b :: t := by
      cases l with
      | nil => exact ⟨p, q :: r, rfl⟩
      | cons b l => exact ⟨b, l ++ p :: q :: r, rfl⟩
    have ih := fun g' h => pairs_in li d p q r l g' i (List.pairwise_cons.1 hs).2 h1 h2 h
    rw [List.cons_append, e, pairs, ← e]
    exact ih _ (by rw [between_length]; exact h3)

theorem pairs_end (li : Rat → Rat → Rat → Rat) (d : List Rat) (p q : Nat) (hpq : p ≤ q) : ∀ (l : List Nat) (g : List (Option Rat)),
    q < g.length → (pairs li d g (l ++ [p, q]))[q]? = some (some (joint li d p q q))
  | [], g, h => by
    rw [List.nil_append, pairs, pairs, between, put_in _ _ _ _ _ h hpq (by omega)]
    · rfl
    · simp
  | a :: l, g, h => by
    obtain ⟨b, t, e⟩ : ∃ b t, l ++ [p, q] = b :: t := by
      cases l with
      | nil => exact ⟨p, [q], rfl⟩
      | cons b l => exact ⟨b, l ++ [p, q], rfl⟩
    rw [List.cons_append, e, pairs, ← e]
    exact pairs_end li d p q hpq l _ (by rw [between_length]; exact h)

/-- Following elements of an ordered list. -/
theorem adjacent : ∀ (ps : List Nat) (p q : Nat), ps.Pairwise (· < ·) → p ∈ ps → q ∈ ps → p < q → (∀ x ∈ ps, x ≤ p ∨ q ≤ x) →
    ∃ l r, ps = l ++ p :: q :: r
  | [], _, _, _, h, _, _, _ => by simp at h
  | a :: ps, p, q, hs, hp, hq, hpq, hb => by
    obtain ⟨h1, h2⟩ := List.pairwise_cons.1 hs
    rcases List.mem_cons.1 hp with rfl | hp'
    · rcases List.mem_cons.1 hq with rfl | hq'
      · omega
      · rcases ps with _ | ⟨b, ps⟩
        · simp at hq'
        · have hb1 := hb b (by simp)
          have hb2 := h1 b (by simp)
          rcases List.mem_cons.1 hq' with rfl | hq''
          · exact ⟨[], ps, rfl⟩
          · have := (List.pairwise_cons.1 h2).1 q hq''
            omega
    · have hap := h1 p hp'
      rcases List.mem_cons.1 hq with rfl | hq'
      · omega
      · obtain ⟨l, r, e⟩ := adjacent ps p q h2 hp' hq' hpq fun x hx => hb x (List.mem_cons_of_mem _ hx)
        exact ⟨a :: l, r, by rw [e]; rfl⟩

/-! ### A complete record -/

theorem locmin_get (li : Rat → Rat → Rat → Rat) (d : List Rat) (c i : Nat) (x : Rat) (o : Option Rat) (hx : d[i]? = some x)
    (hg : (periods li d c d.length ⟨0, 0, 0, d.map fun _ => none, 0⟩)[i]? = some o) :
    (locmin li d c)[i]? = some (o.map fun v => if x < v then x else v) := by
  unfold locmin
  rw [List.getElem?_zipWith, hx, hg]

/-- There is one period, of all days. -/
theorem periods_complete (li : Rat → Rat → Rat → Rat) (d : List Rat) (hc : Complete d) (hd : d ≠ []) (c : Nat) :
    ∃ s : Scan, periods li d c d.length ⟨0, 0, 0, d.map fun _ => none, 0⟩ = period li d c s ∧ s.goodv = d.length ∧ s.start = 0 ∧
      s.stop + 1 = d.length ∧ s.g.length = d.length ∧ ∀ i, i < d.length → s.g[i]? = some (some 0) := by
  obtain ⟨h1, h2, h3, h4, h5, h6⟩ := find_complete c d ⟨0, 0, 0, d.map fun _ => none, 0⟩ hc hd
  simp only [Nat.zero_add, List.length_map, if_true] at h1 h2 h3 h4 h5 h6
  obtain ⟨n, hn⟩ : ∃ n, d.length = n + 1 := ⟨d.length - 1, by have := List.length_pos_iff.2 hd; omega⟩
  refine ⟨_, ?_, h1, h2, h3, h5, fun i hi => h6 i (by omega) hi hi⟩
  rw [hn, periods, List.drop_zero, if_neg]
  rintro ⟨_, h⟩
  simp only at h
  omega

/-- The periods with local minima. -/
theorem period_points (li : Rat → Rat → Rat → Rat) (d : List Rat) (c : Nat) (s : Scan) (h : c ≤ s.goodv) (j l : Nat)
    (hj : (points d c s.start s.stop).head? = some j) (hl : (points d c s.start s.stop).getLast? = some l) :
    period li d c s = pairs li d (putRange (putRange s.g s.start (j + 1) fun _ => d.getD j 0) l (s.stop + 1) fun _ => d.getD l 0)
      (points d c s.start s.stop) := by
  unfold period
  rw [if_neg (by omega)]
  simp only [hj, hl]

theorem period_none (li : Rat → Rat → Rat → Rat) (d : List Rat) (c : Nat) (s : Scan) (h : c ≤ s.goodv)
    (hp : points d c s.start s.stop = []) : period li d c s = putRange s.g s.start (s.stop + 1) fun _ => -999 := by
  unfold period
  rw [if_neg (by omega)]
  simp only [hp, List.head?_nil]

/-- The first and the last element of a list with a given one. -/
theorem ends_of_mem {l : List Nat} {p : Nat} (h : p ∈ l) : ∃ a b, l.head? = some a ∧ l.getLast? = some b := by
  cases l with
  | nil => simp at h
  | cons x l => exact ⟨x, (x :: l).getLast (by simp), rfl, List.getLast?_eq_some_getLast _⟩

/-- The first element of an ordered list. -/
theorem head_le {l : List Nat} {a p : Nat} (hs : l.Pairwise (· < ·)) (ha : l.head? = some a) (hp : p ∈ l) : a ≤ p := by
  cases l with
  | nil => simp at hp
  | cons x l =>
    simp only [List.head?_cons, Option.some.injEq] at ha
    rcases List.mem_cons.1 hp with h | h
    · omega
    · have := (List.pairwise_cons.1 hs).1 p h; omega

/-- The last element of an ordered list. -/
theorem le_last {l : List Nat} {b p : Nat} (hs : l.Pairwise (· < ·)) (hb : l.getLast? = some b) (hp : p ∈ l) : p ≤ b := by
  induction l with
  | nil => simp at hp
  | cons x l ih =>
    rcases l with _ | ⟨y, l⟩
    · simp at hb hp; omega
    · rw [List.getLast?_cons_cons] at hb
      obtain ⟨h1, h2⟩ := List.pairwise_cons.1 hs
      rcases List.mem_cons.1 hp with h | h
      · have := h1 b (List.mem_of_getLast? hb); omega
      · exact ih h2 hb h

end Verif.Hysep
