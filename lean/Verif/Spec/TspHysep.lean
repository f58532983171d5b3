import Verif.Model.TspHysep
/-
Vocabulary for C131: the least flow of some days, local minima, records.
-/
namespace Verif.Hysep

/-- `v` is the least of the flows of the days in `P`, counted from 0. -/
def LeastOf (d : List Rat) (P : Nat → Prop) (v : Rat) : Prop :=
  (∀ j y, P j → d[j]? = some y → v ≤ y) ∧ ∃ j, P j ∧ d[j]? = some v

/-- Day `s` is the first one whose flow is not missing. -/
def FirstGood (d : List Rat) (s : Nat) : Prop := (∀ j y, j < s → d[j]? = some y → y < 0) ∧ ∃ y, d[s]? = some y ∧ 0 ≤ y

/-- No flow is missing. -/
def Complete (d : List Rat) : Prop := ∀ x ∈ d, 0 ≤ x

/-- At most `h` days apart. -/
def Near (h i j : Nat) : Prop := i ≤ j + h ∧ j ≤ i + h

/-- Day `i`, with `h` days on each side in the record, is not above any of them. -/
def LocalMin (d : List Rat) (h i : Nat) : Prop :=
  h ≤ i ∧ i + h < d.length ∧ ∃ x, d[i]? = some x ∧ ∀ j y, Near h i j → d[j]? = some y → x ≤ y

end Verif.Hysep
