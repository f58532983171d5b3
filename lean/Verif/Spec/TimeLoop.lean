import Verif.Model.TimeLoop
/-
Specification vocabulary for the time loop.
-/
namespace Verif.TimeLoop

/-- Inside the simulation window. -/
def inWindow {α} (w : Window) (r : Time × α) : Bool := w.start ≤ r.1.jt && r.1.jt ≤ w.stop

/-- Smallest difference the loop recognises as a time step (days; about one second). -/
def tick : Rat := 115 / 10000000

/-- Records ordered by time, at least one tick apart. -/
def Ordered {α} (rs : List (Time × α)) : Prop := rs.Pairwise fun a b => a.1.jt + tick ≤ b.1.jt

/-- The increments of a sequence of times: the first one is given, each further one is the
difference to the time before. -/
def Increments (first : Rat) : List Rat → List Rat → Prop
  | [], ds => ds = []
  | t :: ts, ds => ∃ d ds', ds = d :: ds' ∧ d = first ∧
      (match ts with | [] => ds' = [] | u :: _ => Increments (u - t) ts ds')

/-- A data file given by its records (not empty). -/
def fileOf {α} (r : Time × α) (rs : List (Time × α)) : FileState α :=
  openFile r (rs.map fun x => .record x.1 x.2)

/-- The run delivered exactly the records `rs`: in this order, numbered 1, 2, 3, …, with the given
first increment and then the time differences. -/
def Delivers {α} (steps : List (Step α)) (first : Rat) (rs : List (Time × α)) : Prop :=
  steps.map (fun s => (s.now, s.data)) = rs ∧
  steps.map (fun s => s.nstep) = List.range' 1 rs.length ∧
  Increments first (rs.map fun r => r.1.jt) (steps.map fun s => s.deltat)

end Verif.TimeLoop
