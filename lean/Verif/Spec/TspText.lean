import Verif.Model.TspText
import Verif.Spec.TspDate
/-
Vocabulary for C142: numbers as digits, and the texts of dates and times.
-/
namespace Verif.TspText
open Verif.Tsp

/-- Decimal digits, at least one. -/
def Digits (s : List Nat) : Prop := s ≠ [] ∧ ∀ c ∈ s, 48 ≤ c ∧ c ≤ 57

/-- The number that digits denote. -/
def value : List Nat → Nat
  | [] => 0
  | c :: s => (c - 48) * 10 ^ s.length + value s

/-- Three numbers with characters between them. -/
def three (a : List Nat) (p : Nat) (b : List Nat) (q : Nat) (c : List Nat) : List Nat := a ++ [p] ++ b ++ [q] ++ c

/-- Hours, minutes and seconds of a day. -/
def RealTime (h m s : Int) : Prop := 0 ≤ h ∧ h < 24 ∧ 0 ≤ m ∧ m < 60 ∧ 0 ≤ s ∧ s < 60

instance (h m s : Int) : Decidable (RealTime h m s) := by unfold RealTime; infer_instance

/-- The characters of a string. -/
def codes (s : String) : List Nat := s.toList.map Char.toNat

end Verif.TspText
