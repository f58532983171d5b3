import Verif.Model.Growth
/-
Vocabulary for C145: what a table holds.
-/
namespace Verif.Growth

/-- The table holds exactly these entries, in this order: it has room for them, its block has the size it says, and they can all be read. -/
def Holds {α : Type} (t : Table α) (xs : List α) : Prop :=
  t.count = xs.length ∧ t.mem.length = t.size ∧ t.count ≤ t.size ∧ ∀ i (h : i < xs.length), entry t i = some xs[i]

end Verif.Growth
