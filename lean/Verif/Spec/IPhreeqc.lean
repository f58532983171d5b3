import Verif.Model.IPhreeqc
import Verif.Spec.SelOut
/-
Specification vocabulary for the chemistry instances.
-/
namespace Verif.IPq

/-- A history of calls on one instance (`none`: crash). -/
def runCalls {F E} (e : Engine F E) (fs : Text → Option Text) : Inst F E → List Call → Option (Inst F E)
  | i, [] => some i
  | i, c :: cs => (step e fs i c).bind fun p => runCalls e fs p.1 cs

/-! ### Accumulated lines -/

/-- Looking back through a history (most recent call first): the lines that are in force.  Everything
before a call that empties the buffer is forgotten; everything before a run is forgotten as soon as a
line has been added after that run. -/
def inForce (added : Bool) : List Call → List Text
  | [] => []
  | .accumulateLine l :: h => inForce true h ++ [l]
  | .runAccumulated :: h => if added then [] else inForce false h
  | .clearAccumulatedLines :: _ | .runString _ :: _ | .runFile _ :: _ | .loadDatabase _ :: _
  | .loadDatabaseString _ :: _ => []
  | _ :: h => inForce added h

/-- Each line followed by a newline. -/
def asText (ls : List Text) : Text := ls.flatMap fun l => l ++ ['\n']

/-! ### Lines of a text -/

/-- `ls` are the lines of `t`: no line contains a newline, and `t` is the lines each ended by a newline,
where the newline after a nonempty last line may be missing. -/
def IsLines (t : Text) (ls : List Text) : Prop :=
  (∀ l ∈ ls, '\n' ∉ l) ∧
  (t = asText ls ∨ ∃ ls' l, ls = ls' ++ [l] ∧ l ≠ [] ∧ t = asText ls' ++ l)

/-! ### What an engine run produced for one block -/

/-- The text written for block `n`, as long as writing was enabled (`p`: enabled at the start). -/
def written {F} (n : Int) : Bool → List (Ev F) → Text
  | _, [] => []
  | _, .flags _ _ p :: evs => written n p evs
  | p, .punchMsg m s :: evs => (if m = n ∧ p then s else []) ++ written n p evs
  | p, .punch m s _ _ :: evs => (if m = n ∧ p then s else []) ++ written n p evs
  | p, _ :: evs => written n p evs

/-- The table operations made for block `n`, from the moment the block was announced. -/
def tableOps {F} (n : Int) : Bool → List (Ev F) → List (SelOut.Op F)
  | _, [] => []
  | known, .blocks ks :: evs => tableOps n (known || decide (n ∈ ks)) evs
  | known, .punch m _ k v :: evs => (if m = n ∧ known then [.push k v] else []) ++ tableOps n known evs
  | known, .endRow m missing :: evs =>
    (if m = n ∧ known then missing.map (fun h => SelOut.Op.push h .empty) ++ [.endRow] else []) ++ tableOps n known evs
  | known, _ :: evs => tableOps n known evs

/-- Was block `n` announced? -/
def announced {F} (n : Int) (evs : List (Ev F)) : Bool :=
  evs.any fun ev => match ev with
    | .blocks ks => decide (n ∈ ks)
    | _ => false

/-- The block number selected for reading, looking back through a history (most recent call first).  A
database load selects block 1. -/
def selected : List Call → Int
  | [] | .loadDatabase _ :: _ | .loadDatabaseString _ :: _ => 1
  | .setCurrentSelectedOutputUserNumber n :: h => if 0 ≤ n then n else selected h
  | _ :: h => selected h

/-- The string switch the user last set for block `n`, looking back through a history: a switch is set
for the block selected at that moment; off if never set since the last database load. -/
def userSwitch (n : Int) : List Call → Bool
  | [] | .loadDatabase _ :: _ | .loadDatabaseString _ :: _ => false
  | .setSelectedOutputStringOn b :: h => if selected h = n then b else userSwitch n h
  | _ :: h => userSwitch n h

/-- The string switch the user set for block `n` (off if never set). -/
def switchedOn {F E} (i : Inst F E) (n : Int) : Bool := (i.strOn n).getD false

/-! ### Runs -/

/-- The text a run call runs, or `none` if its file cannot be opened. -/
def inputOf {F E} (fs : Text → Option Text) (i : Inst F E) : Call → Option Text
  | .runAccumulated => some i.lines
  | .runString s => some s
  | .runFile name => fs name
  | _ => none

/-- Is the call a run? -/
def isRun : Call → Bool
  | .runAccumulated | .runString _ | .runFile _ => true
  | _ => false

/-- Everything the outcome of a run may depend on: the state of the engine and the user's settings, but
no result of an earlier run. -/
def settings {F E} (i : Inst F E) :=
  (i.eng, i.db, i.cur, i.strOn, (i.outStrOn, i.logStrOn, i.errStrOn, i.errorOn), (i.outputOn, i.logOn, i.punchOn))

/-! ### Histories of the library -/

/-- Requests and the answers they got. -/
def runReqs {F E} (e : Engine F E) (fs : Text → Option Text) : Reg F E → List Req → Option (Reg F E × List (Req × Int))
  | r, [] => some (r, [])
  | r, q :: qs => (r.step e fs q).bind fun p => (runReqs e fs p.1 qs).map fun z => (z.1, (q, p.2) :: z.2)

/-- The calls made on identifier `id` since it was created, or `none` if it does not exist: read off
from the requests and answers alone. -/
def ownStep (id : Int) (s : Option (List Call)) : Req × Int → Option (List Call)
  | (.create, a) => if a = id then some [] else s
  | (.destroy k, _) => if k = id then none else s
  | (.call k c, _) => if k = id then s.map (· ++ [c]) else s

def own (id : Int) (h : List (Req × Int)) : Option (List Call) := h.foldl (ownStep id) none

/-- Number of instances created. -/
def creations (h : List Req) : Nat := h.countP fun q => decide (q = .create)

/-- A C `int`. -/
def IsInt (id : Int) : Prop := -2147483648 ≤ id ∧ id < 2147483648

/-- Identifiers passed to the library are C `int`s. -/
def Req.ok : Req → Prop
  | .create => True
  | .destroy id => IsInt id
  | .call id _ => IsInt id

end Verif.IPq
