import Verif.Model.TspSample
import Verif.Spec.TspStat
/-
Vocabulary for C143: what a site sample file says about a site.
-/
namespace Verif.TspSsf
open Verif.Tsp

/-- The rows of a site that count. -/
def rowsOf (site : List Nat) : List SLine → List Row
  | [] => []
  | .row r :: ls => if name r.site = site ∧ marked r = false then r :: rowsOf site ls else rowsOf site ls
  | _ :: ls => rowsOf site ls

/-- The terms of a site. -/
def termsOf (spec : Nat) (site : List Nat) (ls : List SLine) : List Term := (rowsOf site ls).filterMap (rowTerm spec)

/-- Every line has four words or is blank, and the rows of the site that count have a date, a time and a value. -/
def Readable (spec : Nat) (site : List Nat) (ls : List SLine) : Prop :=
  (∀ w, SLine.short w ∉ ls) ∧ ∀ r ∈ rowsOf site ls, ∃ t, rowTerm spec r = some t

/-- The rows of the site are in the order of time. -/
def InOrder (spec : Nat) (site : List Nat) (ls : List SLine) : Prop :=
  (termsOf spec site ls).Pairwise fun p q => p.at_.time ≤ q.at_.time

/-- A row of the site. -/
def IsSite (site : List Nat) : SLine → Prop
  | .row r => name r.site = site
  | _ => False

/-- All rows of the site are together. -/
def Together (site : List Nat) (ls : List SLine) : Prop :=
  ∃ p m q, ls = p ++ m ++ q ∧ (∀ l ∈ p ++ q, ¬ IsSite site l) ∧ ∀ l ∈ m, IsSite site l ∨ l = .blank

/-- The same letter, small or capital. -/
def SameLetter (c d : Nat) : Prop := c = d ∨ (65 ≤ c ∧ c ≤ 90 ∧ d = c + 32) ∨ (65 ≤ d ∧ d ≤ 90 ∧ c = d + 32)

end Verif.TspSsf
