/-
Specification vocabulary for texts: decimal numerals and separated words.  Independent of the
conversion functions of the model.
-/
namespace Verif.CText

/-- The decimal digits. -/
def digits : List Char := ['0', '1', '2', '3', '4', '5', '6', '7', '8', '9']

/-- The digit character of `n < 10`. -/
def digitChar (n : Nat) : Char := digits.getD n '0'

/-- Decimal numeral of a natural number. -/
def decimal (n : Nat) : List Char :=
  if n < 10 then [digitChar n] else decimal (n / 10) ++ [digitChar (n % 10)]

/-- Value of a digit string, most significant digit first (`d₁…dₖ` is `Σ dᵢ 10^(k-i)`). -/
def numeral : List Char → Nat
  | [] => 0
  | c :: s => (digits.idxOf c) * 10 ^ s.length + numeral s

/-- Words followed by separators: `w₁ s₁ w₂ s₂ …`. -/
def layout : List (List Char × List Char) → List Char
  | [] => []
  | (w, s) :: r => w ++ s ++ layout r

/-- A layout is proper for separator set `p`: words are non-empty and free of separators,
separators consist of separators and are non-empty except possibly after the last word. -/
def ProperLayout (p : Char → Bool) : List (List Char × List Char) → Prop
  | [] => True
  | (w, s) :: r => w ≠ [] ∧ (∀ c ∈ w, p c = false) ∧ (∀ c ∈ s, p c = true) ∧ (r ≠ [] → s ≠ []) ∧
      ProperLayout p r

end Verif.CText
