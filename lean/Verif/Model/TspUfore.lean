import Verif.Model.TspStatvar
/-
GET_SERIES_UFORE_HYDRO in TSPROC, which reads a series of values at equal steps of time: `get_ufore_series`,
tsproc-trunk/tsproc-master/src/tsp_input.F90:2831-3190 (lines cited are of this file).

Simplifications: reals are rational numbers, a value that cannot be read is `none`.  `lim` is the largest integer (2147483647 for those of
the program); totals of seconds above it are undefined, other integers do not overflow.  Reading of the block and places of the series
are left out; the ends of the period are those that `date_check` gives, `none` if there is no date.
-/
namespace Verif.TspUfore
open Verif.Tsp Verif.TspStv

/-- An integer of the program. -/
def chk (lim x : Int) : Option Int := if -lim - 1 ≤ x ∧ x ≤ lim then some x else none

/-- A total of seconds, 3042-3043, 3063 and 3067. -/
def total (lim : Int) (c : Clock) : Option Int :=
  match chk lim (c.days * 86400) with
  | none => none
  | some x => chk lim (x + c.secs)

/-- How the reading ends: with a message, with an integer that is too large, with a write outside the series, or with a series of `nterm`
terms of which those given are stored. -/
inductive Outcome
  | error
  | undefined
  | overflow
  | ok (nterm : Nat) (s : List Term)
deriving DecidableEq

/-- The loop 3070-3079: the number of terms. -/
def countTimes (lim t1 t2 d : Int) : Nat → Int → Nat → Option Nat
  | 0, _, k => some k
  | n + 1, s, k =>
    match chk lim (s + d) with
    | none => none
    | some s' =>
      if t1 ≤ s' then
        if s' ≤ t2 then countTimes lim t1 t2 d n s' (k + 1) else some k
      else countTimes lim t1 t2 d n s' k

/-- The loop 3117-3129, without a period; `n` more terms, `c` is the time of the last one. -/
def storeAll (cap : Nat) (d : Int) : Nat → List (Option Rat) → Clock → List Term → Outcome
  | 0, _, _, acc => .ok cap acc
  | _ + 1, [], _, _ => .error
  | _ + 1, none :: _, _, _ => .error
  | n + 1, some v :: vs, c, acc =>
    if acc.length < cap then storeAll cap d n vs (carry c.days (c.secs + d)) (acc ++ [⟨carry c.days (c.secs + d), v⟩]) else .overflow

/-- The loop 3134-3154, with a period.  (`settle` is the statement 3138-3141.) -/
def storeSome (cap : Nat) (d : Int) (b e : Clock) : Nat → List (Option Rat) → Clock → List Term → Outcome
  | 0, _, _, acc => .ok cap acc
  | _ + 1, [], _, _ => .error
  | _ + 1, none :: _, _, _ => .error
  | n + 1, some v :: vs, c, acc =>
    let c' := settle ⟨c.days, c.secs + d⟩
    if later b c' = false then
      if later c' e = false then
        if acc.length < cap then storeSome cap d b e n vs c' (acc ++ [⟨c', v⟩]) else .overflow
      else .ok cap acc
    else storeSome cap d b e n vs c' acc

/-- `tt1secs` and `tt2secs`, 3043, 3054, 3065 and 3067; `dflt` is what they are without a date. -/
def endTotal (lim : Int) (dflt : Int) : Option Clock → Option Int
  | none => some dflt
  | some c => total lim c

/-- 3041-3052: the period ends after the last of the terms. -/
def tooLate (lim t0 d nterm : Int) : Option Clock → Option Bool
  | none => some false
  | some c =>
    match chk lim (nterm * d) with
    | none => none
    | some x =>
      match chk lim (x + t0), total lim c with
      | some tot, some t2 => some (decide (tot < t2))
      | _, _ => none

/-- `get_ufore_series` from 2995 on.  `r` is the reference date and time, `d` the increment, `nterm` the number in the first line. -/
def getUfore (lim : Int) (r : Clock) (d : Int) (b e : Option Clock) (nterm : Int) (vals : List (Option Rat)) : Outcome :=
  let ref := settle r
  if (b.any fun c => later ref c) = true then .error
  else if nterm ≤ 0 then .error
  else if b = none ∧ e = none then storeAll nterm.toNat d nterm.toNat vals ref []
  else
    match total lim ref with
    | none => .undefined
    | some t0 =>
      match tooLate lim t0 d nterm e, endTotal lim (-9999) b, endTotal lim lim e with
      | some true, _, _ => .error
      | some false, some t1, some t2 =>
        match countTimes lim t1 t2 d nterm.toNat t0 0 with
        | none => .undefined
        | some 0 => .error
        | some (k + 1) => storeSome (k + 1) d (b.getD ⟨-9999, 0⟩) (e.getD ⟨lim, 0⟩) nterm.toNat vals ref []
      | _, _, _ => .undefined

end Verif.TspUfore
