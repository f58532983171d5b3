import Verif.Spec.TspText
import Verif.Lemmas.TspDate
import Mathlib.Tactic.IntervalCases
/-
Helper lemmas for C142.
-/
namespace Verif.TspText
open Verif.Tsp

theorem fold_value (s : List Nat) (n : Nat) : s.foldl (fun n c => 10 * n + (c - 48)) n = n * 10 ^ s.length + value s := by
  induction s generalizing n with
  | nil => simp [value]
  | cons c s ih =>
    rw [List.foldl_cons, ih, value, List.length_cons, pow_succ]
    ring

theorem readInt_digits {s : List Nat} (h : Digits s) :
    readInt s = if value s ≤ 2147483647 then some (value s : Int) else none := by
  have hf : s.filter (· != 32) = s := by
    rw [List.filter_eq_self]
    intro c hc
    have := h.2 c hc
    simp only [bne_iff_ne]
    omega
  obtain ⟨h0, h1⟩ := h
  unfold readInt
  rw [hf]
  cases s with
  | nil => exact absurd rfl h0
  | cons c s =>
    have hc := h1 c (by simp)
    simp only
    rw [if_neg (by omega), if_neg (by omega)]
    have : digits (c :: s) = some (value (c :: s)) := by
      unfold digits
      rw [if_pos ⟨h0, h1⟩, fold_value]
      simp
    rw [this, Option.bind_some, fits]
    split <;> rfl

theorem drop_none {s : List Nat} (p : Nat → Bool) (h : ∀ c ∈ s, p c = false) : s.dropWhile p = s := by
  cases s with
  | nil => rfl
  | cons c s => rw [List.dropWhile_cons, h c (by simp)]; rfl

theorem text20_plain {s : List Nat} (h : ∀ c ∈ s, c ≠ 32) (hl : s.length ≤ 20) : text20 s = s := by
  unfold text20
  have e : s.dropWhile (· == 32) = s := drop_none _ (fun c hc => by simpa using h c hc)
  rw [e, List.take_of_length_le hl, drop_none _ (fun c hc => by simpa using h c (List.mem_reverse.1 hc)), List.reverse_reverse]

theorem text20_long {s : List Nat} (h : ∀ c ∈ s, c ≠ 32) (hl : s.length = 20) (t : List Nat) : text20 (s ++ t) = text20 s := by
  have e : (s ++ t).dropWhile (· == 32) = s ++ t := by
    cases s with
    | nil => simp at hl
    | cons c s => rw [List.cons_append, List.dropWhile_cons, if_neg (by simpa using h c (by simp))]
  rw [text20_plain h (by omega)]
  unfold text20
  rw [e, ← hl, List.take_left, drop_none _ (fun c hc => by simpa using h c (List.mem_reverse.1 hc)), List.reverse_reverse]

theorem cut_take {a r : List Nat} {p : Nat} (f : Nat → Bool) (h : ∀ c ∈ a, f c = true) (hp : f p = false) :
    (a ++ p :: r).takeWhile f = a ∧ (a ++ p :: r).dropWhile f = p :: r := by
  induction a with
  | nil => simp [hp]
  | cons c a ih =>
    obtain ⟨h1, h2⟩ := ih fun c hc => h c (by simp [hc])
    rw [List.cons_append, List.takeWhile_cons, List.dropWhile_cons, if_pos (h c (by simp)), if_pos (h c (by simp)), h1, h2]
    exact ⟨rfl, rfl⟩

theorem digits_ne {s : List Nat} (h : Digits s) {c : Nat} (hc : c ∈ s) : c ≠ 32 ∧ (!dateSep c) = true ∧ (!timeSep c) = true := by
  have := h.2 c hc
  refine ⟨by omega, ?_, ?_⟩ <;> simp [dateSep, timeSep] <;> omega

theorem digits_pos {s : List Nat} (h : Digits s) : 1 ≤ s.length := by
  have := h.1
  cases s with
  | nil => exact absurd rfl this
  | cons c s => simp

theorem three_eq (a : List Nat) (p : Nat) (b : List Nat) (q : Nat) (c : List Nat) : three a p b q c = a ++ p :: (b ++ q :: c) := by
  simp [three]

theorem three_length (a : List Nat) (p : Nat) (b : List Nat) (q : Nat) (c : List Nat) :
    (three a p b q c).length = a.length + b.length + c.length + 2 := by
  simp [three]; omega

theorem three_plain {a b c : List Nat} {p q : Nat} (ha : Digits a) (hb : Digits b) (hc : Digits c) (hp : p ≠ 32) (hq : q ≠ 32) :
    ∀ x ∈ three a p b q c, x ≠ 32 := by
  intro x hx
  simp only [three, List.mem_append, List.mem_singleton] at hx
  rcases hx with (((hx | hx) | hx) | hx) | hx
  · exact (digits_ne ha hx).1
  · omega
  · exact (digits_ne hb hx).1
  · omega
  · exact (digits_ne hc hx).1

theorem char2date_three (spec : Nat) {a b c : List Nat} {p q : Nat} (ha : Digits a) (hb : Digits b) (hc : Digits c) (h4 : c.length = 4)
    (hp : dateSep p = true) (hq : dateSep q = true) (hl : (three a p b q c).length ≤ 20) :
    char2date spec (three a p b q c) = (readInt a).bind fun f => (readInt b).bind fun s => (readInt c).bind fun y =>
      if dateOk (if spec ≠ 1 then s else f) (if spec ≠ 1 then f else s) y
        then some ((if spec ≠ 1 then s else f), (if spec ≠ 1 then f else s), y) else none := by
  have n32 : ∀ {x}, dateSep x = true → x ≠ 32 := by intro x h; simp [dateSep] at h; omega
  have la := digits_pos ha
  have lb := digits_pos hb
  have t := text20_plain (three_plain ha hb hc (n32 hp) (n32 hq)) hl
  rw [three_length] at hl
  obtain ⟨c1, c2⟩ := cut_take (r := b ++ q :: c) (p := p) (!dateSep ·) (fun x hx => (digits_ne ha hx).2.1) (by simp [hp])
  obtain ⟨c3, c4⟩ := cut_take (r := c) (p := q) (!dateSep ·) (fun x hx => (digits_ne hb hx).2.1) (by simp [hq])
  unfold char2date
  simp only [t]
  rw [if_neg (by rw [three_length]; omega), three_eq, c1, c2, List.tail_cons, if_neg (by simp), if_neg ha.1]
  cases readInt a with
  | none => rfl
  | some f =>
    simp only [Option.bind_some]
    rw [if_neg (by simp; omega), c3, c4, List.tail_cons, if_neg (by simp), if_neg hb.1]
    cases readInt b with
    | none => rfl
    | some s =>
      simp only [Option.bind_some]
      rw [if_neg (by omega)]
      cases readInt c with
      | none => rfl
      | some y => rfl

theorem char2time_three (ig : Bool) {a b c : List Nat} {p q : Nat} (ha : Digits a) (hb : Digits b) (hc : Digits c)
    (hp : timeSep p = true) (hq : timeSep q = true) (hl : (three a p b q c).length ≤ 20) :
    char2time ig (three a p b q c) = (readInt a).bind fun h => (readInt b).bind fun m => (readInt c).bind fun s =>
      if 0 ≤ h ∧ 0 ≤ m ∧ m ≤ 59 ∧ 0 ≤ s ∧ s ≤ 59 ∧ (h ≤ 23 ∨ (ig = true ∧ h = 24 ∧ m = 0 ∧ s = 0)) then some (h, m, s) else none := by
  have n32 : ∀ {x}, timeSep x = true → x ≠ 32 := by intro x h; simp [timeSep] at h; omega
  have la := digits_pos ha
  have lb := digits_pos hb
  have lc := digits_pos hc
  have t := text20_plain (three_plain ha hb hc (n32 hp) (n32 hq)) hl
  rw [three_length] at hl
  obtain ⟨c1, c2⟩ := cut_take (r := b ++ q :: c) (p := p) (!timeSep ·) (fun x hx => (digits_ne ha hx).2.2) (by simp [hp])
  obtain ⟨c3, c4⟩ := cut_take (r := c) (p := q) (!timeSep ·) (fun x hx => (digits_ne hb hx).2.2) (by simp [hq])
  unfold char2time
  simp only [t]
  rw [if_neg (by rw [three_length]; omega), three_eq, c1, c2, List.tail_cons, if_neg (by simp), if_neg ha.1]
  cases readInt a with
  | none => rfl
  | some h =>
    simp only [Option.bind_some]
    have e1 : ¬ ((b ++ q :: c).length < 3) := by simp; omega
    have e2 : ¬ (c.length < 1) := by omega
    rw [if_neg e1, c3, c4, List.tail_cons, if_neg (List.cons_ne_nil q c), if_neg hb.1]
    cases readInt b with
    | none => simp
    | some m =>
      simp only [Option.bind_some, if_neg e2]
      cases readInt c with
      | none => simp
      | some s =>
        simp only [Option.bind_some]
        cases ig <;> simp only [Bool.false_eq_true, false_and, or_false, true_and, if_false, if_true] <;> split_ifs <;>
          first | rfl | (exfalso; omega)

theorem dateOk_iff {d m y : Int} : dateOk d m y = true ↔
    1 ≤ m ∧ m ≤ 12 ∧ 1 ≤ d ∧ d ≤ monthDays y m ∧ ¬ (y = 0 ∧ m = 2 ∧ d = 29) := by
  have hl := leap_iff y
  unfold dateOk monthDays
  simp only [Bool.and_eq_true, Bool.not_eq_true', Bool.or_eq_false_iff, Bool.or_eq_true, Bool.and_eq_false_iff, decide_eq_false_iff_not, hl]
  by_cases hy : IsLeap y
  · simp only [hy, true_and, if_true]; split_ifs <;> omega
  · simp only [hy, false_and, if_false, false_or]
    have : y ≠ 0 := by rintro rfl; exact hy (by decide)
    split_ifs <;> omega

/-- What an accepted date is made of. -/
theorem char2date_some {spec : Nat} {s : List Nat} {d m y : Int} (h : char2date spec s = some (d, m, y)) :
    ∃ f g c, readInt ((text20 s).takeWhile (!dateSep ·)) = some f ∧
      readInt (((text20 s).dropWhile (!dateSep ·)).tail.takeWhile (!dateSep ·)) = some g ∧
      c = (((text20 s).dropWhile (!dateSep ·)).tail.dropWhile (!dateSep ·)).tail ∧ c.length = 4 ∧ readInt c = some y ∧
      d = (if spec ≠ 1 then g else f) ∧ m = (if spec ≠ 1 then f else g) ∧ dateOk d m y = true := by
  unfold char2date at h
  simp only at h
  split at h; · exact absurd h (by simp)
  split at h; · exact absurd h (by simp)
  split at h; · exact absurd h (by simp)
  split at h; · exact absurd h (by simp)
  rename_i f hf
  split at h; · exact absurd h (by simp)
  split at h; · exact absurd h (by simp)
  split at h; · exact absurd h (by simp)
  split at h; · exact absurd h (by simp)
  rename_i g hg
  split at h; · exact absurd h (by simp)
  rename_i h4
  split at h; · exact absurd h (by simp)
  rename_i y' hy
  rw [Option.ite_none_right_eq_some] at h
  obtain ⟨hok, h⟩ := h
  injection h with h
  injection h with h1 h
  injection h with h2 h3
  subst h3
  refine ⟨f, g, _, hf, hg, rfl, by simpa using h4, hy, h1.symm, h2.symm, ?_⟩
  rw [← h1, ← h2]
  exact hok

theorem char2time_some {ig : Bool} {s : List Nat} {h m x : Int} (hh : char2time ig s = some (h, m, x)) :
    RealTime h m x ∨ (ig = true ∧ h = 24 ∧ m = 0 ∧ x = 0) := by
  unfold char2time at hh
  unfold RealTime
  simp only at hh
  generalize text20 s = t at hh
  generalize t.takeWhile (!timeSep ·) = a at hh
  generalize t.dropWhile (!timeSep ·) = r at hh
  generalize r.tail.takeWhile (!timeSep ·) = b at hh
  generalize r.tail.dropWhile (!timeSep ·) = c at hh
  split at hh; · exact absurd hh (by simp)
  split at hh; · exact absurd hh (by simp)
  split at hh; · exact absurd hh (by simp)
  generalize readInt a = u at hh
  cases u with
  | none => exact absurd hh (by simp)
  | some h' =>
    simp only at hh
    rw [Option.ite_none_left_eq_some] at hh
    obtain ⟨r1, hh⟩ := hh
    split at hh; · exact absurd hh (by simp)
    split at hh; · exact absurd hh (by simp)
    split at hh; · exact absurd hh (by simp)
    generalize readInt b = u at hh
    cases u with
    | none => exact absurd hh (by simp)
    | some m' =>
      simp only at hh
      rw [Option.ite_none_left_eq_some] at hh
      obtain ⟨r2, hh⟩ := hh
      split at hh; · exact absurd hh (by simp)
      generalize readInt c.tail = u at hh
      cases u with
      | none => exact absurd hh (by simp)
      | some x' =>
        simp only at hh
        rw [Option.ite_none_left_eq_some, Option.ite_none_left_eq_some, Option.some.injEq, Prod.mk.injEq, Prod.mk.injEq] at hh
        obtain ⟨r3, r4, rfl, rfl, rfl⟩ := hh
        cases ig <;> simp only [Bool.false_eq_true, false_and, or_false, true_and, if_false, if_true] at r1 r4 ⊢ <;> omega

theorem digits_bound {s : List Nat} (h : ∀ c ∈ s, 48 ≤ c ∧ c ≤ 57) : value s < 10 ^ s.length := by
  induction s with
  | nil => simp [value]
  | cons c s ih =>
    have := ih fun x hx => h x (by simp [hx])
    have hc := h c (by simp)
    rw [value, List.length_cons, pow_succ]
    have : (c - 48) * 10 ^ s.length ≤ 9 * 10 ^ s.length := Nat.mul_le_mul_right _ (by omega)
    omega

theorem i22_digits {n : Int} (h : 0 ≤ n ∧ n ≤ 99) : Digits (i22 n) ∧ (value (i22 n) : Int) = n ∧ (i22 n).length = 2 := by
  unfold i22
  rw [if_pos h]
  refine ⟨⟨by simp, ?_⟩, ?_, rfl⟩
  · intro c hc
    simp only [digit, List.mem_cons, List.not_mem_nil, or_false] at hc
    omega
  · simp only [value, digit, List.length_cons, List.length_nil]
    push_cast
    omega

theorem i44_digits {n : Int} (h : 0 ≤ n ∧ n ≤ 9999) : Digits (i44 n) ∧ (value (i44 n) : Int) = n ∧ (i44 n).length = 4 := by
  unfold i44
  rw [if_pos h]
  refine ⟨⟨by simp, ?_⟩, ?_, rfl⟩
  · intro c hc
    simp only [digit, List.mem_cons, List.not_mem_nil, or_false] at hc
    omega
  · simp only [value, digit, List.length_cons, List.length_nil]
    omega

end Verif.TspText
