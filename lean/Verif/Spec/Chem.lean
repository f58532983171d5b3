import Verif.Model.Chem
/-
Specification for C43 and C60.
-/
namespace Verif.Chem

/-- The slot of a component that has slots: 1 at the start, 2 inputs, 3 outputs, 4 reactions or evaporation,
5 at the end. -/
def Fld.slot : Fld → Option Nat
  | .vol s => some s
  | .temp s => some s
  | .pH s => some s
  | .mol _ s => some s
  | .delta _ s => some s
  | _ => none

/-- The accounts an input or output concerns: the reservoir itself; the basin and the MRU if it crosses their
boundaries; the unsaturated zone, and its riparian or upland part, if the reservoir is one of its bins; the stream if
it is a segment. -/
def concerns (x : Ctx) (c : Call) : Acc → Bool
  | .res r => r = c.row
  | .basin => c.basbnd
  | .hyd => c.restype = 99
  | .mru i => c.mrubnd && i = x.is
  | .uzgen i => c.restype = 5 && i = x.is
  | .uzrip i => c.restype = 5 && i = x.is && x.rip
  | .uzup i => c.restype = 5 && i = x.is && !x.rip

/-- Whether `n` is the number of a solute. -/
def isSolute (x : Ctx) (n : Nat) : Bool := 1 ≤ n ∧ n ≤ x.nsolute

/-- What `c.totvol` cubic metres with the call's composition amount to, recorded in slot `s`: volume, temperature,
pH and delta weighted with the volume, moles (concentrations are per litre). -/
def amount (x : Ctx) (c : Call) (s : Nat) : Fld → Rat
  | .vol s' => if s' = s then c.totvol else 0
  | .temp s' => if s' = s then c.totvol * c.tempc else 0
  | .pH s' => if s' = s then c.totvol * c.pH else 0
  | .mol n s' => if s' = s ∧ isSolute x n then c.conc n * (1000 * c.totvol) else 0
  | .delta n s' => if s' = s ∧ isSolute x n ∧ x.iso n then c.totvol * c.dconc n else 0
  | _ => 0

/-- Inputs (metric 0 or 2) and outputs (3) without reaction. -/
structure Flow (x : Ctx) (c : Call) : Prop where
  metric : c.metric = 0 ∨ c.metric = 2 ∨ c.metric = 3
  still : c.react = false
  outside : c.restype = 99 ∨ x.ih ≠ 1

/-- The slot of an input or output. -/
def Call.slot (c : Call) : Nat := if c.metric = 3 then 3 else 2

/-- The reaction of a reservoir of a hillslope, after its last output (3) or without one (-1, not for bins of the
unsaturated zone), as `phreeqmms_run` records it (7306, 7364, 7678, 7712, 7902, 7940, 8175, 8388, 8534, 8567, 8721,
8770, 8893, 8925). -/
structure Reacts (x : Ctx) (c : Call) : Prop where
  kind : 0 < c.restype ∧ c.restype < 10
  metric : c.metric = 3 ∨ (c.metric = -1 ∧ c.restype ≠ 5)
  react : c.react = true
  inside : c.mrubnd = false ∧ c.basbnd = false
  hill : x.ih ≠ 1

/-- The composites a reservoir of a hillslope is part of. -/
def partOf (x : Ctx) (c : Call) : Acc → Bool
  | .basin => true
  | .mru i => i = x.is
  | .uzgen i => c.restype = 5 && i = x.is
  | .uzrip i => c.restype = 5 && i = x.is && x.rip
  | .uzup i => c.restype = 5 && i = x.is && !x.rip
  | _ => false

/-- What a call adds to a field of an account in slots 2 and 3. -/
def contribution (x : Ctx) (c : Call) (a : Acc) (f : Fld) : Rat :=
  if concerns x c a ∧ c.metric ≠ -1 then amount x c c.slot f else 0

/-- The reaction of a stream segment, other than the last, whose water moves on to the next one
(`phreeq_mms.F90:9220`). -/
structure Segment (x : Ctx) (c : Call) : Prop where
  kind : c.restype = 99
  metric : c.metric = 3
  react : c.react = true
  inside : c.mrubnd = false ∧ c.basbnd = false
  above : x.ih > 1

/-- The water of the segment recorded as input of the next one, `phreeq_mms.F90:9226-9229`. -/
def Call.downstream (c : Call) : Call := { c with row := c.row - 1, metric := 2, react := false }

/-- Groundwater that enters (slot 2) or leaves (slot 3) an MRU: volume and moles; temperature and pH, weighted with the
volume, of what enters. -/
def groundwater (x : Ctx) (s : Nat) (vol : Rat) (conc : Nat → Rat) (tempc pH : Rat) (a : Acc) (f : Fld) : Rat :=
  if a = .mru x.is ∨ a = .basin then
    match f with
    | .vol s' => if s' = s then vol else 0
    | .temp s' => if s' = s then vol * tempc else 0
    | .pH s' => if s' = s then vol * pH else 0
    | .mol n s' => if s' = s ∧ isSolute x n then conc n * (1000 * vol) else 0
    | _ => 0
  else 0

/-- The contribution of an event. -/
def Event.contribution (e : Event) (a : Acc) (f : Fld) : Rat :=
  match e with
  | .call x c => Chem.contribution x c a f
  | .enter x vol conc tempc pH => groundwater x 2 vol conc tempc pH a f
  | .leave x vol conc => groundwater x 3 vol conc 0 0 a f
  | _ => 0

/-- An event within a time step, of which no call is the reaction of a stream segment. -/
def Event.Within : Event → Prop
  | .call x c => Flow x c ∨ Reacts x c
  | .next => False
  | _ => True

/-- The reservoir that reacts. -/
def Event.reacting : Event → Option Int
  | .call _ c => if c.react then some c.row else none
  | _ => none

/-- The unsaturated zone of every MRU is the sum of its riparian and its upland part, in all components. -/
def Split (t : Table) : Prop := ∀ i f, t (.uzgen i) f = t (.uzrip i) f + t (.uzup i) f

end Verif.Chem
