import Verif.Lemmas.Formula
import Mathlib.Tactic.NormNum
/-
Lemmas on the charge of a species.
-/
namespace Verif.Formula
open Verif.CText
open Verif.DataLine (Dec strtod strtod_word)

theorem showNat_decimal (n : Nat) : showNat n = decimal n := by
  induction n using Nat.strongRecOn with
  | _ n ih =>
    have hc : ∀ m, m < 10 → Char.ofNat (48 + m) = digitChar m := by decide
    rw [showNat, decimal]
    split
    · rename_i h; rw [hc n h]
    · rw [ih (n / 10) (by omega), hc _ (Nat.mod_lt _ (by omega))]

theorem decimal_length (n : Nat) (h : 1 ≤ n) : (decimal n).length ≤ n := by
  induction n using Nat.strongRecOn with
  | _ n ih =>
    rw [decimal]
    split
    · simpa using h
    · have := ih (n / 10) (by omega) (by omega)
      simp; omega

/-- Only zero is written with a leading zero. -/
theorem decimal_head (n : Nat) : ∃ d t, decimal n = d :: t ∧ isDigit d = true ∧ (d = '0' → n = 0 ∧ t = []) := by
  induction n using Nat.strongRecOn with
  | _ n ih =>
    rw [decimal]
    split
    · rename_i h
      refine ⟨_, _, rfl, digitChar_isDigit h, fun h0 => ⟨?_, rfl⟩⟩
      have : ∀ m, m < 10 → digitChar m = '0' → m = 0 := by decide
      exact this n h h0
    · obtain ⟨d, t, h1, h2, h3⟩ := ih (n / 10) (by omega)
      refine ⟨d, t ++ [digitChar (n % 10)], by rw [h1]; rfl, h2, fun h0 => ?_⟩
      have := (h3 h0).1
      omega

/-- A charge in the form in which it is kept in names. -/
def Charge.canon : Charge → Charge
  | .zero => .zero
  | .row neg n => if n = 0 then .row neg 0 else .num neg (n + 1) none
  | .num neg n f =>
    if (f.getD []).all (· = '0') then (if n = 0 then .zero else if n = 1 then .row neg 0 else .num neg n none)
    else .num neg n f

/-- The fraction as written. -/
def fracText : Option (List Char) → List Char
  | none => []
  | some f => '.' :: f

theorem sign_ne (neg : Bool) : signChar neg = '+' ∨ signChar neg = '-' := by cases neg <;> decide

theorem frac_head {f : Option (List Char)} : ∀ c, (fracText f).head? = some c → isDigit c = false := by
  intro c hc
  cases f with
  | none => simp [fracText] at hc
  | some f => simp [fracText] at hc; subst hc; decide

theorem readSign_signChar (neg : Bool) (u : List Char) : readSign (signChar neg :: u) = (neg, u) := by
  cases neg <;> simp [signChar, readSign]

theorem strtol0_num (neg : Bool) (n : Nat) (f : Option (List Char)) :
    strtol0 (signChar neg :: decimal n ++ fracText f) = (if neg then -(n : Int) else n, fracText f) := by
  obtain ⟨d, t, h1, h2, h3⟩ := decimal_head n
  have hrd : readDigits 0 (decimal n ++ fracText f) = (n, fracText f) := by
    have := readDigits_append (fun c hc => decimal_digits n c hc) 0 (frac_head (f := f))
    simpa [numeral_decimal] using this
  unfold strtol0
  rw [List.cons_append, readSign_signChar]
  simp only
  rw [h1, List.cons_append] at hrd ⊢
  simp only
  rw [if_pos h2]
  by_cases h0 : d = '0'
  · obtain ⟨rfl, rfl⟩ := h3 h0
    subst h0
    have : readOctal 0 ('0' :: ([] ++ fracText f)) = (0, fracText f) := by
      rw [readOctal, if_pos (by decide)]
      cases f with
      | none => rfl
      | some f => simp only [fracText, List.nil_append]; rw [readOctal, if_neg (by decide)]; rfl
    rw [if_pos rfl, this]
  · rw [if_neg h0, hrd]

theorem toInt_small {i : Int} (h1 : -2 ^ 31 ≤ i) (h2 : i < 2 ^ 31) : toInt i = i := by
  unfold toInt
  have : max (-2 ^ 63) (min i (2 ^ 63 - 1)) = i := by omega
  rw [this, Int.bmod_def]
  norm_num
  omega

/-- The final form of a whole charge. -/
def whole (neg : Bool) (n : Nat) : Charge := if n = 0 then .zero else if n = 1 then .row neg 0 else .num neg n none

theorem finishCharge_whole {neg : Bool} {n : Nat} (hn : n < 2 ^ 31) :
    finishCharge (signChar neg) (if neg then -(n : Int) else n) =
      .ok ((whole neg n).text, if neg then -(n : Rat) else n) := by
  unfold finishCharge whole
  by_cases h0 : n = 0
  · subst h0; cases neg <;> simp [Charge.text]
  by_cases h1 : n = 1
  · subst h1; cases neg <;> simp [Charge.text]
  rw [if_neg (by cases neg <;> simp [h0]), if_neg (by cases neg <;> simp [h1]),
    if_neg (by cases neg <;> simp <;> omega), if_neg h0, if_neg h1]
  cases neg
  · have : ¬ ((n : Int) < 0) := by omega
    simp [Charge.text, showNat_decimal, signChar, this]
  · have : 0 < n := by omega
    simp [Charge.text, showNat_decimal, signChar, this]

theorem numeral_zeros : ∀ {f : List Char}, (∀ c ∈ f, c = '0') → numeral f = 0
  | [], _ => rfl
  | c :: f, h => by
    have h1 : c = '0' := h c (by simp)
    subst h1
    rw [numeral, numeral_zeros (fun x hx => h x (List.mem_cons_of_mem _ hx))]
    simp [digits]

theorem num_value_zeros {neg : Bool} {n : Nat} {f : Option (List Char)} (h : ∀ c ∈ f.getD [], c = '0') :
    (Charge.num neg n f).value = if neg then -(n : Rat) else n := by
  simp [Charge.value, numeral_zeros h]

theorem whole_value (neg : Bool) (n : Nat) : (whole neg n).value = if neg then -(n : Rat) else n := by
  unfold whole
  by_cases h0 : n = 0
  · subst h0; cases neg <;> simp [Charge.value]
  by_cases h1 : n = 1
  · subst h1; cases neg <;> simp [Charge.value]
  rw [if_neg h0, if_neg h1, num_value_zeros (by simp)]

theorem getCharge_text {z : Charge} (h : z.Ok) : getCharge z.text = .ok (z.canon.text, z.value) := by
  cases z with
  | zero => rfl
  | row neg n =>
    have hn : n < 100 := h
    have hs : ¬ (signChar neg ≠ '+' ∧ signChar neg ≠ '-') := by have := sign_ne neg; tauto
    have ha : (List.replicate n (signChar neg)).all (· = signChar neg) = true := by simp
    have hf := finishCharge_whole (neg := neg) (n := n + 1) (by omega)
    have hi : (if signChar neg = '-' then -((n + 1 : Nat) : Int) else ((n + 1 : Nat) : Int)) =
        if neg then -((n + 1 : Nat) : Int) else ((n + 1 : Nat) : Int) := by
      cases neg <;> simp [signChar]
    have htext : (Charge.row neg n).text = signChar neg :: List.replicate n (signChar neg) := List.replicate_succ
    rw [htext]
    unfold getCharge
    simp only
    rw [if_neg hs, if_pos ha, List.length_replicate, hi, hf]
    have hw : whole neg (n + 1) = (Charge.row neg n).canon := by
      unfold whole Charge.canon
      by_cases h0 : n = 0 <;> simp [h0]
    rw [hw]
    simp [Charge.value]
  | num neg n f =>
    obtain ⟨hn, hd, -⟩ := h
    have hs : ¬ (signChar neg ≠ '+' ∧ signChar neg ≠ '-') := by have := sign_ne neg; tauto
    have htext : (Charge.num neg n f).text = signChar neg :: decimal n ++ fracText f := by
      cases f <;> rfl
    have hnall : (decimal n ++ fracText f).all (· = signChar neg) = false := by
      obtain ⟨d, t, h1, h2, -⟩ := decimal_head n
      have := digit_ne_sign h2
      rw [h1]
      have hne : d ≠ signChar neg := by
        rcases sign_ne neg with h | h <;> rw [h]
        · exact this.2
        · exact this.1
      simp [hne]
    have hto : toInt (if neg then -(n : Int) else n) = if neg then -(n : Int) else n := by
      apply toInt_small <;> cases neg <;> simp <;> omega
    have hst := strtol0_num neg n f
    have hf := finishCharge_whole (neg := neg) hn
    rw [htext]
    unfold getCharge
    simp only [List.cons_append] at hst ⊢
    rw [if_neg hs, if_neg (by rw [hnall]; simp), hst]
    simp only
    cases f with
    | none =>
      have hv := num_value_zeros (neg := neg) (n := n) (f := none) (by simp)
      simp only [fracText]
      rw [hto, hf, hv]
      rfl
    | some f =>
      simp only [fracText, if_true]
      by_cases ha : f.all (· = '0')
      · have hz : ∀ c ∈ f, c = '0' := by simpa using ha
        have hv := num_value_zeros (neg := neg) (n := n) (f := some f) hz
        rw [if_pos ha, hto, hf, hv]
        simp only [Charge.canon, Option.getD_some, ha, if_true]
        rfl
      · rw [if_neg ha]
        simp only [Charge.canon, Option.getD_some, ha]
        let d : Dec := ⟨[signChar neg], decimal n, some f, none⟩
        have hdok : d.Ok := by
          refine ⟨?_, fun c hc => (isDigit_mem c).1 (decimal_digits n c hc), hd, ?_, trivial⟩
          · rcases sign_ne neg with h | h
            · right; right; simp only [d, h]
            · right; left; simp only [d, h]
          · intro h0
            simp only [d, List.append_eq_nil_iff] at h0
            exact decimal_ne_nil n h0.1
        have hw := strtod_word (b := []) (d := d) (r := []) (by intro c hc; simp at hc) hdok (.inl rfl)
        have hdt : d.text = signChar neg :: (decimal n ++ '.' :: f) := by simp [d, Dec.text]
        simp only [List.nil_append, List.append_nil, hdt] at hw
        rw [hw]
        have hval : d.value = (Charge.num neg n (some f)).value := by
          cases neg <;> simp [d, Dec.value, Charge.value, Dec.exponent, DataLine.signed, signChar, numeral_decimal]
        rw [hval]
        simp [Charge.text]

theorem canon_value (z : Charge) : z.canon.value = z.value := by
  cases z with
  | zero => rfl
  | row neg n =>
    simp only [Charge.canon]
    by_cases h : n = 0
    · rw [if_pos h]; subst h; rfl
    · rw [if_neg h]; cases neg <;> simp [Charge.value, numeral]
  | num neg n f =>
    simp only [Charge.canon]
    split
    · rename_i h
      have hz : ∀ c ∈ f.getD [], c = '0' := by simpa using h
      rw [num_value_zeros hz]
      exact whole_value neg n
    · rfl

theorem canon_ok {z : Charge} (h : z.Ok) : z.canon.Ok := by
  cases z with
  | zero => exact h
  | row neg n =>
    have hn : n < 100 := h
    simp only [Charge.canon]
    split
    · show 0 < 100; omega
    · refine ⟨by omega, by simp, ?_⟩
      have := decimal_length (n + 1) (by omega)
      by_cases h99 : n = 99
      · subst h99
        cases neg <;> simp [Charge.text] <;> (rw [decimal, decimal, decimal]; decide)
      · simp [Charge.text]; omega
  | num neg n f =>
    simp only [Charge.canon]
    split
    · split
      · exact trivial
      · split
        · show 0 < 100; omega
        · refine ⟨h.1, by simp, ?_⟩
          have := h.2.2
          simp [Charge.text] at this ⊢
          omega
    · exact h

/-- Texts of charges are short. -/
theorem charge_length {z : Charge} (h : z.Ok) : z.text.length ≤ 100 := by
  cases z with
  | zero => simp [Charge.text]
  | row neg n => have : n < 100 := h; simp [Charge.text]; omega
  | num neg n f => exact h.2.2

/-- Texts of charges contain signs, digits and points only. -/
theorem charge_chars {z : Charge} (h : z.Ok) : ∀ c ∈ z.text, c = '+' ∨ c = '-' ∨ c = '.' ∨ c ∈ digits := by
  intro c hc
  cases z with
  | zero => simp [Charge.text] at hc
  | row neg n =>
    simp only [Charge.text, List.mem_replicate] at hc
    obtain ⟨-, rfl⟩ := hc
    rcases sign_ne neg with h | h <;> simp [h]
  | num neg n f =>
    simp only [Charge.text, List.cons_append, List.mem_cons, List.mem_append] at hc
    rcases hc with rfl | hc | hc
    · rcases sign_ne neg with h | h <;> simp [h]
    · exact .inr (.inr (.inr ((isDigit_mem c).1 (decimal_digits n c hc))))
    · cases f with
      | none => simp at hc
      | some f =>
        simp only [List.mem_cons] at hc
        rcases hc with rfl | hc
        · simp
        · exact .inr (.inr (.inr (h.2.1 c hc)))

/-- A charge begins with a sign or is empty (then it is zero). -/
theorem charge_cons (z : Charge) : (z.text = [] ∧ z = .zero) ∨ ∃ c u, z.text = c :: u ∧ (c = '+' ∨ c = '-') := by
  cases z with
  | zero => exact .inl ⟨rfl, rfl⟩
  | row neg n => exact .inr ⟨_, _, List.replicate_succ, sign_ne neg⟩
  | num neg n f => exact .inr ⟨_, _, rfl, sign_ne neg⟩

end Verif.Formula
