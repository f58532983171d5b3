import Mathlib.Logic.Equiv.Basic
import Mathlib.Algebra.Order.Field.Rat
import Mathlib.Data.Rat.Floor
/-
Sorting, median and quantiles of TSPROC: tsproc-trunk/tsproc-master/src/tsp_utilities.F90 (all lines cited are of this file).

Simplifications: reals are rational numbers (so there is no NaN and nothing is rounded).  The arrays `list` and `order`, whose elements
are always exchanged together, are one function from positions to pairs; the positions from 1 to `n` exist, and reading at another
one is the outcome `none`.  Loops and recursion without a bound have fuel; `none` without it.
-/
namespace Verif.Tsp

/-- The arrays `list` and `order`. -/
abbrev Arr := Nat → Rat × Nat

/-- The exchange of two elements of both arrays: 2630-2631, 2660-2661. -/
def exch (i j : Nat) (a : Arr) : Arr := fun k => a (Equiv.swap i j k)

/-- The inner loop of `interchange_sort`, 2658-2663: `r` turns from `j` on. -/
def inner (i : Nat) : Nat → Nat → Arr → Arr
  | 0, _, a => a
  | r + 1, j, a => inner i r (j + 1) (if (a i).1 > (a j).1 then exch i j a else a)

/-- The outer loop of `interchange_sort`, 2657-2664: `r` turns from `i` on. -/
def outer (right : Nat) : Nat → Nat → Arr → Arr
  | 0, _, a => a
  | r + 1, i, a => outer right r (i + 1) (inner i (right - i) (i + 1) a)

/-- `interchange_sort`, 2649-2666. -/
def interchange (left right : Nat) (a : Arr) : Arr := outer right (right - left) left a

/-- The scan from the left, 2617-2620. -/
def scanUp (n : Nat) (ref : Rat) (a : Arr) : Nat → Nat → Option Nat
  | 0, _ => none
  | f + 1, i =>
    if n < i + 1 then none
    else if (a (i + 1)).1 ≥ ref then some (i + 1) else scanUp n ref a f (i + 1)

/-- The scan from the right, 2622-2625. -/
def scanDown (ref : Rat) (a : Arr) : Nat → Option Nat
  | 0 => none
  | j + 1 => if j = 0 then none else if (a j).1 ≤ ref then some j else scanDown ref a j

/-- The loop that divides the list, 2615-2639: `i`, `j` and the arrays at its end. -/
def divide (n : Nat) (ref : Rat) : Nat → Nat → Nat → Arr → Option (Nat × Nat × Arr)
  | 0, _, _, _ => none
  | f + 1, i, j, a => do
    let i ← scanUp n ref a (n + 1) i
    let j ← scanDown ref a j
    if i < j then divide n ref f i j (exch i j a)
    else if i = j then some (i + 1, j, a)
    else some (i, j, a)

/-- `quick_sort_1`, 2599-2646; `none` also without fuel. -/
def sortPart (n : Nat) : Nat → Nat → Nat → Arr → Option Arr
  | 0, _, _, _ => none
  | f + 1, left, right, a =>
    if right < left + 6 then some (interchange left right a)
    else do
      let (i, j, a) ← divide n (a ((left + right) / 2)).1 (n + 2) (left - 1) (right + 1) a
      let a ← if left < j then sortPart n f left j a else some a
      if i < right then sortPart n f i right a else some a

/-- `quick_sort`, 2575-2597: the list and, beside each element, its place in the list given.  `f` bounds the depth of recursion. -/
def quickSort (f : Nat) (l : List Rat) : Option (List (Rat × Nat)) :=
  (sortPart l.length f 1 l.length fun i => (l.getD (i - 1) 0, i)).map fun a => (List.range l.length).map fun i => a (i + 1)

end Verif.Tsp
