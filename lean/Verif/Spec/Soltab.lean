import Verif.Model.Soltab
/-
Vocabulary for C140: the direction to the sun for latitude `l`, declination `d` and hour angle `h` (after noon positive).
-/
namespace Verif.Soltab
open Real

/-- Component of the direction to the sun towards the zenith: the sine of its elevation. -/
noncomputable def sunUp (l d h : ℝ) : ℝ := sin l * sin d + cos l * cos d * cos h

/-- Component to the north. -/
noncomputable def sunNorth (l d h : ℝ) : ℝ := cos l * sin d - sin l * cos d * cos h

/-- Component to the east. -/
noncomputable def sunEast (_l d h : ℝ) : ℝ := -(cos d * sin h)

/-- The product of the direction to the sun and the normal of a surface that is inclined by `i` towards `a`, clockwise from north. -/
noncomputable def onSlope (i a l d h : ℝ) : ℝ :=
  sin i * cos a * sunNorth l d h + sin i * sin a * sunEast l d h + cos i * sunUp l d h

/-- Neither pole nor sun at the pole. -/
def Between (x : ℝ) : Prop := -(π / 2) < x ∧ x < π / 2

/-- The sun rises and sets. -/
def RisesAndSets (l d : ℝ) : Prop := -1 ≤ -tan l * tan d ∧ -tan l * tan d ≤ 1

end Verif.Soltab
