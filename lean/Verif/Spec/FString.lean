import Verif.Model.FString
import Verif.Spec.StorageBinList
/-
Specification of texts exchanged with Fortran and of copying many reservoirs.
-/
namespace Verif.FString
open Verif.CText

/-- `t` is `s` without its trailing characters satisfying `p`: `s` is `t` followed by such characters,
and `t` does not end with one. -/
def IsStripped (p : Char → Bool) (s t : Text) : Prop :=
  (∃ u, s = t ++ u ∧ ∀ c ∈ u, p c = true) ∧ ∀ c, t.getLast? = some c → p c = false

/-- A C string: no NUL among its characters. -/
def CText (s : Text) : Prop := '\x00' ∉ s

/-- One request to the library: accumulate a line and run it. -/
def request {σ} (e : Engine σ) (line : Text) (s : σ) : Int × σ :=
  if (e.accumulate line s).1 ≠ 0 then e.accumulate line s else e.run (e.accumulate line s).2

/-- Requests one after the other until one fails: result of the last one made (0 if none). -/
inductive InOrder {σ} (e : Engine σ) : List Text → σ → Int × σ → Prop
  | done (s) : InOrder e [] s (0, s)
  | fail (l ls s) : (request e l s).1 ≠ 0 → InOrder e (l :: ls) s (request e l s)
  | next (l ls s r) : (request e l s).1 = 0 → InOrder e ls (request e l s).2 r → InOrder e (l :: ls) s r

/-- The words of a line. -/
def words (s : Text) : List Text := strtok isSpace s

/-- A library that understands `COPY kind source target` on the stored entities of that kind (state: the
accumulated line and the entities; `renum` gives a copy its new number) and refuses other lines.  The
reading of numbers and copying are those of C26. -/
def copyEngine {V : Type} (kind : Text) (renum : Int → V → V) : Engine (Text × (Int → Option V)) where
  accumulate l s := (0, (l, s.2))
  run s :=
    match words s.1 with
    | [w, k, a, b] =>
      if w = "COPY".toList ∧ k = kind then
        match Sbl.readInt a, Sbl.copyTargets b with
        | some (i, _), some (j1, j2) =>
          match Sbl.copyOne renum s.2 (i, j1, j2) with
          | some m => (0, (s.1, m))
          | none => (2, s)
        | _, _ => (1, s)
      else (1, s)
    | _ => (1, s)

/-- What the pairs ask for: copy each in order, pairs with a negative number skipped. -/
def copies {V : Type} (renum : Int → V → V) (m : Int → Option V) : List (Int × Int) → Int → Option V
  | [] => m
  | (a, b) :: ps =>
    if a < 0 ∨ b < 0 then copies renum m ps
    else copies renum (fun x => if x = b ∧ x ≠ a ∧ (m a).isSome then (m a).map (renum x) else m x) ps

end Verif.FString
