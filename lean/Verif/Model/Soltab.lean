import Mathlib.Analysis.SpecialFunctions.Trigonometric.Arctan
import Mathlib.Analysis.SpecialFunctions.Trigonometric.Inverse
import Mathlib.Analysis.SpecialFunctions.Trigonometric.Bounds
/-
The table of potential radiation: webmod.d/src/soltab_prms.F (`stinit`).

Simplifications: reals are real numbers; decimal constants are taken as written.  One unit and one of the thirteen days at a time, the loops
over them are `solTable`.  Elements of the table that are never assigned are not in the list.
-/
namespace Verif.Soltab
open Real

/-- Slope, aspect in degrees and latitude in degrees of a unit, soltab_prms.F:221-223. -/
structure Surface where
  slope : ℝ
  aspect : ℝ
  lat : ℝ

/-- `i`, soltab_prms.F:224. -/
noncomputable def Surface.i (s : Surface) : ℝ := arctan s.slope

/-- `a`, soltab_prms.F:225. -/
noncomputable def Surface.a (s : Surface) : ℝ := s.aspect / 57.2958

/-- `l0`, soltab_prms.F:226. -/
noncomputable def Surface.l0 (s : Surface) : ℝ := s.lat / 57.2958

/-- `mru_cossl`, soltab_prms.F:227. -/
noncomputable def Surface.cossl (s : Surface) : ℝ := cos s.i

/-- `l1`, soltab_prms.F:230: the latitude of a horizontal surface parallel to the unit. -/
noncomputable def Surface.l1 (s : Surface) : ℝ := arcsin (cos s.i * sin s.l0 + sin s.i * cos s.l0 * cos s.a)

/-- `d1`, soltab_prms.F:231-232. -/
noncomputable def Surface.d1 (s : Surface) : ℝ :=
  let d := cos s.i * cos s.l0 - sin s.i * sin s.l0 * cos s.a
  if d = 0 then 0.0000000001 else d

/-- `l2`, soltab_prms.F:233-234: the difference in longitude of that surface. -/
noncomputable def Surface.l2 (s : Surface) : ℝ :=
  arctan (sin s.i * sin s.a / s.d1) + if s.d1 < 0 then 3.14159 else 0

/-- `e`, soltab_prms.F:191-192. -/
noncomputable def e : List ℝ :=
  [2.06699, 2.06317, 2.05582, 2.04520, 2.03243, 2.01706, 2.00080, 1.98553, 1.96990, 1.95714, 1.94689, 1.94005, 1.93616]

/-- `dm`, soltab_prms.F:194-195: declinations of the sun. -/
noncomputable def dm : List ℝ :=
  [-0.410152, -0.383391, -0.337430, -0.27198, -0.190532, -0.09832, 0, 0.09832, 0.190532, 0.27198, 0.33743, 0.383391, 0.410152]

/-- `jday`, soltab_prms.F:197. -/
def jday : List ℕ := [356, 10, 23, 38, 51, 66, 80, 94, 109, 123, 138, 152, 173]

/-- The statement function `func3`, soltab_prms.F:200-201. -/
noncomputable def func3 (r1 d v w x y : ℝ) : ℝ :=
  r1 * (sin d * sin w * (x - y) * 3.8197 + cos d * cos w * (sin (x + v) - sin (y + v)) * 12 / 3.14159)

/-- `t`, soltab_prms.F:242-246 and 249-253: the angle from noon to sunset. -/
noncomputable def halfDay (w d : ℝ) : ℝ :=
  let tx := -tan w * tan d
  if tx < -1 then 3.14159 else if tx > 1 then 0 else arccos tx

/-- Radiation and hours of one day, soltab_prms.F:241-282. -/
noncomputable def entry (s : Surface) (r1 d : ℝ) : ℝ × ℝ :=
  let t7 := halfDay s.l1 d - s.l2
  let t6 := -halfDay s.l1 d - s.l2
  let t1 := halfDay s.l0 d
  let t0 := -halfDay s.l0 d
  let t3 := if t7 > t1 then t1 else t7
  let t2 := if t6 < t0 then t0 else t6
  if s.i = 0 then (func3 r1 d 0 s.l0 t1 t0, (t1 - t0) * 3.8197 / 12)
  else
    let b := if t3 ≥ t2 then t2 else 0
    let c := if t3 ≥ t2 then t3 else 0
    if t6 + 6.28318 < t1 then
      (func3 r1 d s.l2 s.l1 c b + func3 r1 d s.l2 s.l1 t1 (t6 + 6.28318), (c - b + t1 - (t6 + 6.28318)) * 3.8197 / 12)
    else if t7 - 6.28318 > t0 then
      (func3 r1 d s.l2 s.l1 c b + func3 r1 d s.l2 s.l1 (t7 - 6.28318) t0, (c - b + (t7 - 6.28318) - t0) * 3.8197 / 12)
    else (func3 r1 d s.l2 s.l1 c b, (c - b) * 3.8197 / 12)

/-- The assignments to the columns of a unit, soltab_prms.F:237-286. -/
noncomputable def solTable (s : Surface) : List (ℕ × ℝ × ℝ) :=
  (jday.zip (e.zip dm)).map fun x => (x.1, entry s (60 * x.2.1) x.2.2)

end Verif.Soltab
