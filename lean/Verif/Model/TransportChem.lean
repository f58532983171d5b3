import Verif.Model.Transport
import Verif.Model.Chem
/-
What the transport records, entered in the chemistry tables: the calls of `update_chem` in `phreeqmms_run`
(`webmod.d/src/phreeq_mms.F90:6480-9243`), with the rows `isoln` finds for the solutions.

Simplifications: as for the transport; isotopes are left out, and so is the initial volume (7137 and alike).  What
the transport does not model (other solutes, temperatures, the table of entities, ...) is arbitrary.
-/
namespace Verif.Transport
open Verif.Chem (Ctx Call Event Table)
open Verif.SolnNum (Dims)

/-- The row of a solution, `isoln(...)`: `phreeq_mms.F90:7040, 7135` and alike. -/
def place (d : Dims) (k : Key) : Int := (SolnNum.isoln id k.num d.nchemdat d.nmru d.nac).row

/-- `ires` as `isoln` sets it: `phreeq_mms.F90:7040, 7135` and alike. -/
def kind (d : Dims) (k : Key) : Int := (SolnNum.isoln id k.num d.nchemdat d.nmru d.nac).ires

/-- What a call takes from modules: the segment `ih` is 0 except in the loop over segments (`phreeq_mms.F90:9070`), where it is
given; the unit `is` is that of the loop over units (6736), which is that of the row, and given for rows of no unit. -/
def context (z : Ctx × Call) (row : Key) : Ctx :=
  { z.1 with
    ih := match row with | .seg _ _ => z.1.ih | _ => 0
    is := match row with | .hill _ _ u => u | .bin _ u _ => u | _ => z.1.is }

/-- The arguments of a call of `update_chem`, `phreeq_mms.F90:7040-7043` and alike.  `ires` is not set before the call for
precipitation (6826): it is what an earlier call has left, and given here. -/
def entry (d : Dims) (n : Nat) (z : Ctx × Call) (row : Key) (metric : Int) (vol conc tal : Rat) (mru basin react : Bool) : Call :=
  { z.2 with
    row := place d row
    totvol := vol
    metric := metric
    conc := fun m => if m = n then conc else z.2.conc m
    tal := fun m => if m = n then tal else z.2.tal m
    mrubnd := mru
    basbnd := basin
    restype := if row = .data 1 then z.2.restype else kind d row
    react := react }

/-- The events of the tables that a record stands for: a call of `update_chem`, setting volumes (`phreeq_mms.F90:7138-7139`
and alike, 9081), or groundwater that enters or leaves a unit (7101-7124, 8784-8792).  `n` is the number of the solute; `z` is what the transport does not know. -/
def told (d : Dims) (n : Nat) (z : Ctx × Call) : Ev → List Event
  | .call row metric vol conc tal mru basin react =>
    [.call (context z row) (entry d n z row metric vol conc tal mru basin react)]
  | .set row _ et fin => [.et (place d row) et, .final (place d row) fin]
  | .final row fin => [.final (place d row) fin]
  | .enter u vol conc => [.enter { z.1 with is := u } vol (fun m => if m = n then conc else z.2.conc m) z.2.tempc z.2.pH]
  | .leave u vol conc => [.leave { z.1 with is := u } vol fun m => if m = n then conc else z.2.conc m]

/-- The reaction of a segment: the number `ih` of the segment (`phreeq_mms.F90:9070`), and `vmix_stream(ih-1)` or
`basin_qsim_cm*1e4*basin_area`, which are the volume that leaves it (`str_vol` after removal, 9073-9077, 9203-9232).  These
two are what `update_chem` takes for the volume that has reacted (10806-10818). -/
def sited (z : Ctx × Call) : Ev → Ctx × Call
  | .call (.seg _ h) _ vol _ _ _ _ true => ({ z.1 with ih := h, upvol := vol, outlet := vol }, z.2)
  | _ => z

/-- The events of a list of records, the first of which has number `i`.  `phreeq_mms.F90:6732-9243`. -/
def heard (d : Dims) (n : Nat) (z : Nat → Ctx × Call) : Nat → List Ev → List Event
  | _, [] => []
  | i, e :: l => told d n (sited (z i) e) e ++ heard d n z (i + 1) l

/-- The tables after a step: `phreeq_mms.F90:6389-9243`; at its start final values become initial ones, except in the first
step (`first`). -/
def enterAll (d : Dims) (n : Nat) (z : Nat → Ctx × Call) (first : Bool) (t : Table) (l : List Ev) : Option Table :=
  Chem.run (heard d n z 0 l) (if first then t else Chem.newStep t)

/-- The tables after each step of a run, `phreeq_mms.F90:6389-9243`; `ls` are the records of the steps. -/
def tables (d : Dims) (n : Nat) : Bool → Table → List ((Nat → Ctx × Call) × List Ev) → Option (List Table)
  | _, _, [] => some []
  | first, t, (z, l) :: ls =>
    match enterAll d n z first t l with
    | none => none
    | some t' => (tables d n false t' ls).map (t' :: ·)

end Verif.Transport
