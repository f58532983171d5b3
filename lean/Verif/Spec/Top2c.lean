import Verif.Model.Top2c
/-
Specification for C45.
-/
namespace Verif.Top2c

/-- The sum of a quantity over the elements assigned to channel `k` (channels are numbered from 1). -/
def sumFor {α} (chan : α → Int) (val : α → Rat) (k : Nat) (l : List α) : Rat :=
  ((l.filter fun a => chan a = (k : Int) + 1).map val).sum

/-- Every MRU drains to one of the channels. -/
def Assigned (nchan : Nat) (mrus : List Mru) : Prop := ∀ m ∈ mrus, 1 ≤ m.chan ∧ m.chan ≤ nchan

end Verif.Top2c
