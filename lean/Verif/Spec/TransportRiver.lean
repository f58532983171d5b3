import Verif.Spec.TransportMru
/-
Specification for C120: the composite of the basin.
-/
namespace Verif.Transport
open Verif.Reservoir (Vol Rows BinOut Par In)
open Verif.Chem (Ctx Call Event Table)
open Verif.SolnNum (Dims)

/-- At the start of a step nothing has been entered for the composite of the basin. -/
def BlankBasin (n : Nat) (t : Table) : Prop := ∀ s, s = 2 ∨ s = 3 ∨ s = 4 ∨ s = 5 → t .basin (.mol n s) = 0

/-- Segments of a step, from the outlet. -/
def reaches (fs : List Flow) (o : Reservoir.Out) : List Seg := segs (fs.map (·.unit)) o.basin

/-- The sum over the units of what the tables show for them. -/
def byUnits (n : Nat) (fs : List Flow) (t : Table) (i : Nat) : Rat := (fs.map fun f => t (.mru f.unit) (.mol n i)).sum

/-- What went to the streams. -/
def drained (fs : List Flow) (s' : St) : Rat := (fs.map fun f => f.r.hill.out * at_ s' (f.key true 10)).sum

/-- Water diverted from streams, as it falls on the units, with the concentration of its segment at the start of the step. -/
def diverted (fs : List Flow) (s : St) : Rat := (fs.map fun f => f.r.mru.div * at_ s (.seg false f.srcInt)).sum

/-- `c` are the concentrations in the segments before their reactions: what was there and came from the hillslopes, mixed. -/
def Blended (rx : Ent → Sol → Sol) (gs : List Seg) (s s' : St) (c : Nat → Rat) : Prop :=
  ∀ j g, gs[j]? = some g →
    (g.whole ≠ 0 → at_ s' (.seg true j) = reacted rx (.res (.seg false (j + 1))) (c j)) ∧
    g.whole * c j = (g.whole - g.fresh) * at_ s (.seg false (j + 1)) + g.freshMol s'

/-- The composite of the basin in the table `t` shows what happened: `s` has the solutions at the start of the step, `s'`
those at its end, `c` the concentrations in the segments before their reactions.
* The initial amount stays.
* Inputs are those of the units.
* Outputs are those of the units that do not go to the streams; what is diverted; what is taken from the segments, and lost
  from channels; and what leaves at the outlet.
* Reactions are those of the units, and those of the water that moves to the next segment, or out.
* The final amount is that of the units and that of the streams. -/
structure BasinShown (rx : Ent → Sol → Sol) (n : Nat) (fs : List Flow) (o : Reservoir.Out) (s s' : St) (c : Nat → Rat) (u t : Table) : Prop where
  initial : t .basin (.mol n 1) = u .basin (.mol n 1)
  input : t .basin (.mol n 2) = byUnits n fs t 2
  output : t .basin (.mol n 3) = byUnits n fs t 3 - 1000 * drained fs s' +
    1000 * (diverted fs s + overSegs (fun j g => (g.taken + g.loss) * c j) 0 (reaches fs o) + o.basin.discharge * at_ s' (.seg true 0))
  reaction : t .basin (.mol n 4) = byUnits n fs t 4 +
    1000 * overSegs (fun j g => g.down * (at_ s' (.seg true j) - c j)) 0 (reaches fs o)
  final : t .basin (.mol n 5) = byUnits n fs t 5 + 1000 * inStream true 1 o.basin.stream s'
  blended : Blended rx (reaches fs o) s s' c

/-- What the composite of the basin has too much as output: what is diverted is entered twice, when it falls on the units and
with its segment; and neither that nor what is lost from channels is taken from the water in the segments. -/
def doubled (fs : List Flow) (o : Reservoir.Out) (s : St) : Rat :=
  diverted fs s + overSegs (fun j g => (g.taken + g.loss) * at_ s (.seg false (j + 1))) 0 (reaches fs o)

/-- The composite of the basin balances. -/
def BasinEven (n : Nat) (t : Table) : Prop :=
  t .basin (.mol n 5) + t .basin (.mol n 3) = t .basin (.mol n 1) + t .basin (.mol n 2) + t .basin (.mol n 4)

/-- The tables `ts` show the steps `rs` of a run that starts with the streams `w`, the solutions `s` and the table `u`: the
initial amount is that of the units and of the streams, the composite shows what happened, and it balances but for the
reactions that the composites of the units leave out, and what is entered too much. -/
def BasinAllShown (rx : Ent → Sol → Sol) (d : Dims) (n N : Nat) :
    Bool → List Rat → St → Table → List (Reservoir.St × St × Reservoir.Out × List Flow) → List Table → Prop
  | first, w, s, u, (v', s', o, fs) :: rs, t :: ts =>
    opened first u .basin (.mol n 1) = byUnits n fs (opened first u) 1 + 1000 * inStream false 1 w (begin first fs N s) ∧
    (∃ c, BasinShown rx n fs o (begin first fs N s) s' c (opened first u) t) ∧
    (∃ x : Flow → Rat, (∀ f ∈ fs, ∃ c cb, Unreacted d n f s' t c cb ∧ x f = unseen f (begin first fs N s) s' c cb) ∧
      t .basin (.mol n 5) + t .basin (.mol n 3) = t .basin (.mol n 1) + t .basin (.mol n 2) + t .basin (.mol n 4) +
        1000 * ((fs.map x).sum + doubled fs o (begin first fs N s))) ∧
    BasinAllShown rx d n N false v'.stream s' t rs ts
  | _, _, _, _, [], [] => True
  | _, _, _, _, _, _ => False

/-- Nothing is diverted from streams and nothing lost from channels. -/
def Untapped (r : Reservoir.St × St × Reservoir.Out × List Flow) : Prop :=
  (∀ f ∈ r.2.2.2, f.r.mru.div = 0) ∧ ∀ g ∈ reaches r.2.2.2 r.2.2.1, g.taken = 0 ∧ g.loss = 0

/-- In each step the composite of the basin balances but for what is entered too much, and it has no reactions. -/
def BasinAllEven (n N : Nat) : Bool → St → List (Reservoir.St × St × Reservoir.Out × List Flow) → List Table → Prop
  | first, s, (v', s', o, fs) :: rs, t :: ts =>
    t .basin (.mol n 4) = 0 ∧
    t .basin (.mol n 5) + t .basin (.mol n 3) = t .basin (.mol n 1) + t .basin (.mol n 2) + t .basin (.mol n 4) +
      1000 * doubled fs o (begin first fs N s) ∧
    (Untapped (v', s', o, fs) → BasinEven n t) ∧ BasinAllEven n N false s' rs ts
  | _, _, [], [] => True
  | _, _, _, _ => False

end Verif.Transport
