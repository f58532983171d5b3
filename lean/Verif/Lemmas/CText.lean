import Verif.Model.CText
import Verif.Spec.CText
import Mathlib.Tactic.Ring
/-
Lemmas about the C text functions.
-/
namespace Verif.CText

theorem mem_takeWhile {p : Char → Bool} {l : List Char} {c : Char} (h : c ∈ l.takeWhile p) :
    p c = true := by
  induction l with
  | nil => simp at h
  | cons a l ih =>
    rw [List.takeWhile_cons] at h
    split at h
    · rename_i ha
      rcases List.mem_cons.1 h with h | h
      · rw [h]; exact ha
      · exact ih h
    · simp at h

theorem splitBy_ne_nil (p : Char → Bool) (s : List Char) : splitBy p s ≠ [] := by
  cases s with
  | nil => simp [splitBy]
  | cons c s =>
    unfold splitBy
    split
    · simp
    · split <;> simp

theorem splitBy_cons_neg {p : Char → Bool} {c : Char} (hc : p c = false) (s : List Char) :
    ∃ t ts, splitBy p s = t :: ts ∧ splitBy p (c :: s) = (c :: t) :: ts := by
  cases h : splitBy p s with
  | nil => exact absurd h (splitBy_ne_nil p s)
  | cons t ts => exact ⟨t, ts, rfl, by rw [splitBy]; simp [hc, h]⟩

theorem splitBy_append {p : Char → Bool} {w : List Char} (hw : ∀ c ∈ w, p c = false)
    (s : List Char) :
    ∃ t ts, splitBy p s = t :: ts ∧ splitBy p (w ++ s) = (w ++ t) :: ts := by
  induction w with
  | nil =>
    cases h : splitBy p s with
    | nil => exact absurd h (splitBy_ne_nil p s)
    | cons t ts => exact ⟨t, ts, rfl, by simp [h]⟩
  | cons c w ih =>
    obtain ⟨t, ts, h1, h2⟩ := ih fun c hc => hw c (List.mem_cons_of_mem _ hc)
    obtain ⟨t', ts', h3, h4⟩ := splitBy_cons_neg (hw c (by simp)) (w ++ s)
    rw [h2] at h3
    refine ⟨t, ts, h1, ?_⟩
    rw [List.cons_append, h4]
    simp only [List.cons.injEq] at h3
    simp [h3.1.symm, h3.2.symm]

theorem splitBy_word {p : Char → Bool} {w : List Char} (hw : ∀ c ∈ w, p c = false) :
    splitBy p w = [w] := by
  obtain ⟨t, ts, h1, h2⟩ := splitBy_append hw []
  simp only [splitBy, List.cons.injEq] at h1
  obtain ⟨rfl, rfl⟩ := h1
  simpa using h2

theorem splitBy_word_sep {p : Char → Bool} {w : List Char} (hw : ∀ c ∈ w, p c = false) {c : Char}
    (hc : p c = true) (s : List Char) : splitBy p (w ++ c :: s) = w :: splitBy p s := by
  obtain ⟨t, ts, h1, h2⟩ := splitBy_append hw (c :: s)
  rw [splitBy] at h1
  simp only [hc, if_true, List.cons.injEq] at h1
  rw [h2, ← h1.1, ← h1.2]; simp

theorem strtok_seps {p : Char → Bool} {s : List Char} (hs : ∀ c ∈ s, p c = true) (t : List Char) :
    strtok p (s ++ t) = strtok p t := by
  induction s with
  | nil => rfl
  | cons c s ih =>
    have hc := hs c (by simp)
    have := ih fun d hd => hs d (List.mem_cons_of_mem _ hd)
    unfold strtok at *
    rw [List.cons_append, splitBy]
    simp only [hc, if_true]
    rw [List.filter_cons]
    simpa using this

theorem strtok_layout {p : Char → Bool} : ∀ (l : List (List Char × List Char)), ProperLayout p l →
    strtok p (layout l) = l.map (·.1)
  | [], _ => by simp [layout, strtok, splitBy]
  | (w, s) :: r, h => by
    obtain ⟨h1, h2, h3, h4, h5⟩ := h
    have ih := strtok_layout r h5
    simp only [layout, List.map_cons]
    cases s with
    | nil =>
      have : r = [] := by
        by_contra hr
        exact h4 hr rfl
      subst this
      simp [layout, strtok, splitBy_word h2, h1]
    | cons c s =>
      have hc := h3 c (by simp)
      have : strtok p (w ++ c :: s ++ layout r) = w :: strtok p (s ++ layout r) := by
        unfold strtok
        rw [List.append_assoc, List.cons_append, splitBy_word_sep h2 hc, List.filter_cons]
        simp [h1]
      rw [this, strtok_seps (fun d hd => h3 d (List.mem_cons_of_mem _ hd)), ih]

/-! ### Digits -/

theorem isDigit_iff (c : Char) : isDigit c = true ↔ 48 ≤ c.toNat ∧ c.toNat ≤ 57 := by
  unfold isDigit
  simp only [Bool.and_eq_true, decide_eq_true_eq]
  constructor
  · intro ⟨h1, h2⟩
    exact ⟨h1, h2⟩
  · intro ⟨h1, h2⟩
    exact ⟨h1, h2⟩

theorem isDigit_mem (c : Char) : isDigit c = true ↔ c ∈ digits := by
  rw [isDigit_iff]
  constructor
  · intro ⟨h1, h2⟩
    have : c = Char.ofNat c.toNat := (Char.ofNat_toNat c).symm
    rw [this]
    generalize c.toNat = n at h1 h2
    have : n = 48 ∨ n = 49 ∨ n = 50 ∨ n = 51 ∨ n = 52 ∨ n = 53 ∨ n = 54 ∨ n = 55 ∨ n = 56 ∨ n = 57 := by
      omega
    rcases this with h | h | h | h | h | h | h | h | h | h <;> subst h <;> decide
  · intro h
    simp only [digits, List.mem_cons, List.not_mem_nil, or_false] at h
    rcases h with h | h | h | h | h | h | h | h | h | h <;> subst h <;> decide

theorem digitVal_eq {c : Char} (h : isDigit c = true) : digitVal c = digits.idxOf c := by
  rw [isDigit_mem] at h
  simp only [digits, List.mem_cons, List.not_mem_nil, or_false] at h
  rcases h with h | h | h | h | h | h | h | h | h | h <;> subst h <;> decide

theorem digitChar_isDigit {n : Nat} (h : n < 10) : isDigit (digitChar n) = true := by
  have : n = 0 ∨ n = 1 ∨ n = 2 ∨ n = 3 ∨ n = 4 ∨ n = 5 ∨ n = 6 ∨ n = 7 ∨ n = 8 ∨ n = 9 := by omega
  rcases this with h | h | h | h | h | h | h | h | h | h <;> subst h <;> decide

theorem digitVal_digitChar {n : Nat} (h : n < 10) : digitVal (digitChar n) = n := by
  have : n = 0 ∨ n = 1 ∨ n = 2 ∨ n = 3 ∨ n = 4 ∨ n = 5 ∨ n = 6 ∨ n = 7 ∨ n = 8 ∨ n = 9 := by omega
  rcases this with h | h | h | h | h | h | h | h | h | h <;> subst h <;> decide

theorem readDigits_append {ds : List Char} (hd : ∀ c ∈ ds, isDigit c = true) (acc : Nat)
    {r : List Char} (hr : ∀ c, r.head? = some c → isDigit c = false) :
    readDigits acc (ds ++ r) = (acc * 10 ^ ds.length + numeral ds, r) := by
  induction ds generalizing acc with
  | nil =>
    cases r with
    | nil => simp [readDigits, numeral]
    | cons c r => simp [readDigits, numeral, hr c rfl]
  | cons c ds ih =>
    have hc := hd c (by simp)
    rw [List.cons_append, readDigits]
    simp only [hc, if_true]
    rw [ih (fun d hdd => hd d (List.mem_cons_of_mem _ hdd)), digitVal_eq hc]
    simp only [numeral, List.length_cons, pow_succ]
    congr 1
    ring

theorem readDigits_digits {ds : List Char} (hd : ∀ c ∈ ds, isDigit c = true) (acc : Nat) :
    readDigits acc ds = (acc * 10 ^ ds.length + numeral ds, []) := by
  have := readDigits_append hd acc (r := []) (by simp)
  simpa using this

theorem digit_not_space {c : Char} (h : isDigit c = true) : isSpace c = false := by
  rw [isDigit_mem] at h
  simp only [digits, List.mem_cons, List.not_mem_nil, or_false] at h
  rcases h with h | h | h | h | h | h | h | h | h | h <;> subst h <;> decide

theorem digit_ne_sign {c : Char} (h : isDigit c = true) : c ≠ '-' ∧ c ≠ '+' := by
  rw [isDigit_mem] at h
  simp only [digits, List.mem_cons, List.not_mem_nil, or_false] at h
  rcases h with h | h | h | h | h | h | h | h | h | h <;> subst h <;> decide

/-- `strtol` of a digit string followed by a non-digit. -/
theorem strtol_digits {ds : List Char} (h0 : ds ≠ []) (hd : ∀ c ∈ ds, isDigit c = true)
    {r : List Char} (hr : ∀ c, r.head? = some c → isDigit c = false) :
    strtol (ds ++ r) = (((numeral ds : Nat) : Int), r) := by
  cases ds with
  | nil => exact absurd rfl h0
  | cons c ds =>
    have hc := hd c (by simp)
    have hs : isSpace c = false := digit_not_space hc
    have h1 := (digit_ne_sign hc).1
    have h2 := (digit_ne_sign hc).2
    unfold strtol
    rw [List.cons_append, List.dropWhile_cons_of_neg (by simp [hs])]
    have hrd := readDigits_append hd 0 hr
    rw [List.cons_append] at hrd
    simp only [Nat.zero_mul, Nat.zero_add] at hrd
    have hsg : readSign (c :: (ds ++ r)) = (false, c :: (ds ++ r)) := by
      unfold readSign
      split
      · rename_i heq; simp only [List.cons.injEq] at heq; exact absurd heq.1 h1
      · rename_i heq; simp only [List.cons.injEq] at heq; exact absurd heq.1 h2
      · rfl
    rw [hsg]
    simp [strtolBody, hc, hrd]

theorem decimal_digits (n : Nat) : ∀ c ∈ decimal n, isDigit c = true := by
  induction n using Nat.strongRecOn with
  | ind n ih =>
    unfold decimal
    split
    · intro c hc
      simp only [List.mem_singleton] at hc
      subst hc; exact digitChar_isDigit (by omega)
    · intro c hc
      simp only [List.mem_append, List.mem_singleton] at hc
      rcases hc with hc | hc
      · exact ih (n / 10) (by omega) c hc
      · subst hc; exact digitChar_isDigit (by omega)

theorem decimal_ne_nil (n : Nat) : decimal n ≠ [] := by
  unfold decimal; split <;> simp

theorem numeral_append (a b : List Char) : numeral (a ++ b) = numeral a * 10 ^ b.length + numeral b := by
  induction a with
  | nil => simp [numeral]
  | cons c a ih =>
    simp only [List.cons_append, numeral, ih, List.length_append, pow_add]
    ring

theorem numeral_decimal (n : Nat) : numeral (decimal n) = n := by
  induction n using Nat.strongRecOn with
  | ind n ih =>
    unfold decimal
    split
    · rename_i h
      simp [numeral, ← digitVal_eq (digitChar_isDigit h), digitVal_digitChar h]
    · have h10 : n % 10 < 10 := by omega
      rw [numeral_append, ih (n / 10) (by omega)]
      simp only [numeral, List.length_cons, List.length_nil, pow_zero,
        ← digitVal_eq (digitChar_isDigit h10), digitVal_digitChar h10]
      omega

theorem strtol_decimal (n : Nat) {r : List Char} (hr : ∀ c, r.head? = some c → isDigit c = false) :
    strtol (decimal n ++ r) = (((n : Nat) : Int), r) := by
  rw [strtol_digits (decimal_ne_nil n) (decimal_digits n) hr, numeral_decimal]

theorem atoi_decimal (n : Nat) : atoi (decimal n) = n := by
  have := strtol_decimal n (r := []) (by simp)
  rw [List.append_nil] at this
  simp [atoi, this]

theorem splitLast_none {c : Char} {s : List Char} : splitLast c s = none ↔ c ∉ s := by
  induction s with
  | nil => simp [splitLast]
  | cons a s ih =>
    unfold splitLast
    cases h : splitLast c s with
    | some xy =>
      have : c ∈ s := by
        by_contra hc; rw [ih.2 hc] at h; exact absurd h (by simp)
      simp [this]
    | none =>
      have hs := ih.1 h
      by_cases ha : a = c
      · simp [ha]
      · have : c ≠ a := fun e => ha e.symm
        simp [ha, this, hs]

theorem splitLast_some {c : Char} (x : List Char) {y : List Char} (hy : c ∉ y) :
    splitLast c (x ++ c :: y) = some (x, y) := by
  induction x with
  | nil => simp [splitLast, splitLast_none.2 hy]
  | cons a x ih => simp [splitLast, ih]

theorem splitLast_eq {c : Char} {s x y : List Char} (h : splitLast c s = some (x, y)) :
    s = x ++ c :: y ∧ c ∉ y := by
  induction s generalizing x with
  | nil => simp [splitLast] at h
  | cons a s ih =>
    unfold splitLast at h
    cases hs : splitLast c s with
    | some xy =>
      obtain ⟨x', y'⟩ := xy
      rw [hs] at h
      simp only [Option.some.injEq, Prod.mk.injEq] at h
      obtain ⟨rfl, rfl⟩ := h
      obtain ⟨h1, h2⟩ := ih hs
      exact ⟨by rw [h1]; rfl, h2⟩
    | none =>
      rw [hs] at h
      by_cases ha : a = c
      · simp only [ha, if_true, Option.some.injEq, Prod.mk.injEq] at h
        obtain ⟨rfl, rfl⟩ := h
        exact ⟨by simp [ha], splitLast_none.1 hs⟩
      · simp [ha] at h

end Verif.CText
