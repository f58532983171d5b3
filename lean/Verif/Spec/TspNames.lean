import Verif.Model.TspNames
/-
Vocabulary for C136.
-/
namespace Verif.Tsp

/-- Two names are the same but for the case of letters. -/
def Same (a b : List Nat) : Prop := a.map lower = b.map lower

/-- No character after `z` in the order of codes. -/
def Plain (w : List Nat) : Prop := ∀ c ∈ w, c ≤ 122

instance (w : List Nat) : Decidable (Plain w) := by unfold Plain; infer_instance

/-- A name that can be read: one to 18 characters without blanks. -/
def Fit (w : List Nat) : Prop := w.length ≤ 18 ∧ 32 ∉ w

/-- Nothing has been made yet; `cap` elements of each kind. -/
def start {α : Type} (cap : Kind → Nat) : Store α := fun k => List.replicate (cap k) none

/-- What blocks of a control file can lead to, with names of characters up to `z`. -/
inductive Reach {α : Type} : Store α → Prop
  | start (cap : Kind → Nat) : Reach (start cap)
  | create {st st' : Store α} {k : Kind} {w : List Nat} {d : α} {b : Bool} : Reach st → Plain w → create st k w d b = some st' → Reach st'
  | erase {st st' : Store α} {l : List (Kind × List Nat)} : Reach st → (∀ p ∈ l, Plain p.2) → erase st l = some st' → Reach st'

/-- There is an element that is not active. -/
def Room {α : Type} (st : Store α) (k : Kind) : Prop := none ∈ st k

end Verif.Tsp
