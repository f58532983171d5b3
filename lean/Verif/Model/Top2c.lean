import Mathlib.Algebra.Order.Field.Rat
/-
Model of the coupling of hillslopes to channels: `top2cinit`, `top2crun` (`webmod.d/src/top2clark.F:142-265`).

Simplification: single precision reals are exact rationals, and so are the decimal constants.
`getparam` and `getvar` copy the arrays.
-/
namespace Verif.Top2c

/-- Parameters of one MRU: `mru2chan`, `mru_area`, `mru_area_frac` (`top2clark.F:173-183`). -/
structure Mru where
  chan : Int
  area : Rat
  frac : Rat
deriving DecidableEq, Repr

/-- `a(j) = a(j) + v` for a Fortran array with first index 1; `none`: `j` is outside the array.
`top2clark.F:194-199, 252-260`. -/
def addAt (l : List Rat) (j : Int) (v : Rat) : Option (List Rat) :=
  if j < 1 then none
  else if j.toNat ≤ l.length then some (l.set (j.toNat - 1) (l.getD (j.toNat - 1) 0 + v))
  else none

/-- The variables set by `top2cinit`: `chan_area`, `chan_area_frac`.  `top2clark.F:188-199`. -/
structure Areas where
  area : List Rat
  frac : List Rat
deriving DecidableEq, Repr

/-- The loop `top2clark.F:194-199`: areas, fractions and `area_chk`. -/
def sumAreas : List Mru → Areas → Rat → Option (Areas × Rat)
  | [], a, chk => some (a, chk)
  | m :: ms, a, chk =>
    match addAt a.area m.chan m.area, addAt a.frac m.chan m.frac with
    | some x, some y => sumAreas ms ⟨x, y⟩ (chk + m.frac)
    | _, _ => none

/-- `top2cinit`, `top2clark.F:188-216`.  The outer `none` is a write outside the arrays, the inner `none`
the refusal. -/
def top2cinit (nchan : Nat) (mrus : List Mru) : Option (Option Areas) :=
  match sumAreas mrus ⟨List.replicate nchan 0, List.replicate nchan 0⟩ 0 with
  | none => none
  | some (a, chk) => if |chk - 1| > 1 / 10000 then some none else some (some a)

/-- The loop `top2clark.F:252-260`; the second component of an element is `qout` in metres. -/
def scatter : List (Mru × Rat) → List Rat → Option (List Rat)
  | [], q => some q
  | (m, qout) :: ms, q =>
    match addAt q m.chan (qout * m.area * 1000000) with
    | some q' => scatter ms q'
    | none => none

/-- `top2crun`, `top2clark.F:248-260`: `qchanin`, m³. -/
def top2crun (nchan : Nat) (mrus : List (Mru × Rat)) : Option (List Rat) :=
  scatter mrus (List.replicate nchan 0)

end Verif.Top2c
