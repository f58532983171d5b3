import Verif.Model.StorageBinList
import Verif.Spec.CText
/-
Specification of number lists: what the user writes and what it means.
-/
namespace Verif.Sbl
open Verif.CText

/-- Decimal text of an integer. -/
def intText (n : Int) : Text := if n < 0 then '-' :: decimal n.natAbs else decimal n.natAbs

/-- One item of a list: a number or a range. -/
inductive Rng where
  | one (a : Int)
  | range (a b : Int)
deriving DecidableEq

/-- How it is written. -/
def Rng.text : Rng → Text
  | .one a => intText a
  | .range a b => intText a ++ '-' :: intText b

/-- What it means: ranges are inclusive and may be given in either order. -/
def Rng.has (x : Int) : Rng → Prop
  | .one a => x = a
  | .range a b => (a ≤ x ∧ x ≤ b) ∨ (b ≤ x ∧ x ≤ a)

/-- The numbers written are C `int`s (the largest one excluded). -/
def Rng.ok : Rng → Prop
  | .one a => -2147483648 ≤ a ∧ a < 2147483647
  | .range a b => -2147483648 ≤ a ∧ a < 2147483647 ∧ -2147483648 ≤ b ∧ b < 2147483647

/-- The names the manual gives for the lists of each kind, for cells and for everything. -/
def namesOf : Target → List String
  | .kind .solution => ["solution"]
  | .kind .ppAssemblage => ["pp_assemblage", "equilibrium_phases"]
  | .kind .exchange => ["exchange"]
  | .kind .surface => ["surface"]
  | .kind .ssAssemblage => ["ss_assemblage", "solid_solution", "solid_solutions"]
  | .kind .gasPhase => ["gas_phase"]
  | .kind .kinetics => ["kinetics"]
  | .kind .mix => ["mix"]
  | .kind .reaction => ["reaction"]
  | .kind .temperature => ["temperature", "reaction_temperature"]
  | .kind .pressure => ["pressure", "reaction_pressure"]
  | .cell => ["cell", "cells"]
  | .all => ["all"]

/-- One entry of a request: what it is about and the numbers listed. -/
structure Entry where
  tg : Target
  list : List Rng

/-- `s` is a line giving entry `e`: leading white space, `-name` in any mixture of upper and lower case,
and the items separated by white space. -/
def IsLine (e : Entry) (s : Text) : Prop :=
  ∃ (lead sep : Text) (w : Text) (name : String) (l : List (Text × Text)),
    (∀ c ∈ lead, isSpace c = true) ∧ name ∈ namesOf e.tg ∧
    (∀ c ∈ w, c.isAlpha = true ∨ c = '_') ∧ w.map Char.toLower = name.toList ∧
    ProperLayout isSpace (('-' :: w, sep) :: l) ∧ l.map (·.1) = e.list.map Rng.text ∧
    s = lead ++ layout (('-' :: w, sep) :: l)

/-- `s` continues the list of the entry on the line before. -/
def IsContinued (e : Entry) (s : Text) : Prop :=
  ∃ (lead : Text) (l : List (Text × Text)), (∀ c ∈ lead, isSpace c = true) ∧ ProperLayout isSpace l ∧
    l.map (·.1) = e.list.map Rng.text ∧ e.list ≠ [] ∧ s = lead ++ layout l

/-- `ls` are the lines of a request with the given entries (`last`: what the line before was about). -/
inductive IsRequest : Option Target → List Entry → List Line → Prop
  | nil (t) : IsRequest t [] []
  | line (t e s es ls) : IsLine e s → IsRequest (some e.tg) es ls → IsRequest t (e :: es) (.text s :: ls)
  | more (e s es ls) : IsContinued e s → IsRequest (some e.tg) es ls → IsRequest (some e.tg) (e :: es) (.text s :: ls)
  | stop (t ls) : IsRequest t [] (.keyword :: ls)

/-- What the request selects of kind `k`: everything if some list is empty (or `all` is given),
otherwise the numbers listed; the lists of cells count for every kind. -/
def Selects (es : List Entry) (k : Kind) (x : Int) : Prop :=
  ∃ e ∈ es, e.tg = .all ∨ ((e.tg = .kind k ∨ e.tg = .cell) ∧ (e.list = [] ∨ ∃ r ∈ e.list, r.has x))

/-- The meaning of one COPY instruction `src a-b` on the entities of one kind: the source, renumbered,
is stored under every number of the range except its own; without a source nothing happens. -/
def copyMeaning {V} (renum : Int → V → V) (m : Int → Option V) (c : Int × Int × Int) : Int → Option V := fun x =>
  match m c.1 with
  | none => m x
  | some v => if c.2.1 ≤ x ∧ x ≤ c.2.2 ∧ x ≠ c.1 then some (renum x v) else m x

/-- The numbers of a COPY instruction are C `int`s, the range is ascending, and both ends have the same
sign and the range does not end at -1. -/
def CopyOk (c : Int × Int × Int) : Prop :=
  -2147483648 ≤ c.1 ∧ c.1 ≤ 2147483647 ∧ -2147483648 ≤ c.2.1 ∧ c.2.1 ≤ c.2.2 ∧ c.2.2 ≤ 2147483647 ∧
  (0 ≤ c.2.1 ∨ c.2.2 < -1)

end Verif.Sbl
