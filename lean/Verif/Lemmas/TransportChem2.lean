import Verif.Lemmas.TransportChem1
/-
The row of a record.
-/
namespace Verif.Transport
open Verif.Chem (Ctx Call Event Table Same)
open Verif.SolnNum (Dims)

/-- The reservoir of a solution. -/
def Key.res : Key → SolnNum.Reservoir
  | .pure => .pure
  | .data i => .data i
  | .hill _ k u => .hill k u
  | .bin _ u j => .bin u j
  | .seg _ h => .segment h

def Key.Within (d : Dims) (k : Key) : Prop := k.res.Within d

theorem single_id : SolnNum.Single id := ⟨fun _ _ h => h, fun _ _ _ _ _ => rfl⟩

/-- The time of a solution. -/
def Key.time : Key → SolnNum.Time
  | .hill t _ _ => if t then .final else .begin
  | .bin t _ _ => if t then .final else .begin
  | .seg t _ => if t then .final else .begin
  | _ => .begin

theorem num_eq (k : Key) : k.num = SolnNum.number id k.time k.res := by
  cases k with
  | pure => rfl
  | data i => rfl
  | hill t k u => cases t <;> rfl
  | bin t u j => cases t <;> rfl
  | seg t h => cases t <;> rfl

theorem place_eq {d : Dims} (ok : d.Ok) {k : Key} (h : k.Within d) : place d k = SolnNum.place d k.res := by
  unfold place
  rw [num_eq, SolnNum.isoln_number single_id d ok _ _ h]

theorem kind_eq {d : Dims} (ok : d.Ok) {k : Key} (h : k.Within d) : kind d k = k.res.indices.1 := by
  unfold kind
  rw [num_eq, SolnNum.isoln_number single_id d ok _ _ h]

theorem place_ne {d : Dims} (ok : d.Ok) {k k' : Key} (h : k.Within d) (h' : k'.Within d) (hr : k.row = k) (hr' : k'.row = k')
    (hn : k ≠ k') : place d k ≠ place d k' := by
  rw [place_eq ok h, place_eq ok h']
  intro e
  apply hn
  have := SolnNum.place_inj d _ _ h h' e
  cases k <;> cases k' <;> simp_all [Key.res, Key.row]
  all_goals (try (rw [← hr.symm]))
  all_goals simp_all

theorem place_down {d : Dims} (ok : d.Ok) {h : Nat} (h1 : 1 ≤ h) (hw : (Key.seg false h).Within d) :
    place d (.seg false h) - 1 = place d (.seg false (h - 1)) := by
  have hw' : (Key.seg false (h - 1)).Within d := by
    unfold Key.Within Key.res SolnNum.Reservoir.Within at *
    omega
  rw [place_eq ok hw, place_eq ok hw']
  simp only [Key.res, SolnNum.place]
  omega

/-- A record as the loops over units and segments write it. -/
def Ev.sound (d : Dims) : Ev → Prop
  | .call row metric _ _ _ mru basin react => row.Within d ∧ row.row = row ∧
    if react then (row.holds ∧ (metric = 3 ∨ metric = -1 ∧ ∀ u j, row ≠ .bin false u j) ∧ mru = false ∧ basin = false) ∨
      (metric = 3 ∧ ∃ h, 1 ≤ h ∧ row = .seg false h)
    else metric = 0 ∨ metric = 2 ∨ metric = 3
  | .set row _ _ _ => row.Within d ∧ row.row = row
  | .final row _ => ∃ h, row = .seg false h ∧ row.Within d
  | _ => True

/-- A row of a unit. -/
def Key.inUnit : Key → Prop
  | .hill t _ _ => t = false
  | .bin t _ _ => t = false
  | _ => False

/-- What a record does to a row of a unit. -/
structure Step (n : Nat) (r : Int) (k : Key) (e : Ev) (t t' : Table) : Prop where
  init : t' (.res r) (.mol n 1) = t (.res r) (.mol n 1)
  inp : t' (.res r) (.mol n 2) = t (.res r) (.mol n 2) + 1000 * e.into k
  out : t' (.res r) (.mol n 3) = t (.res r) (.mol n 3) + 1000 * e.from k
  vol : e.volumes k = [] → t' (.res r) (.vol 4) = t (.res r) (.vol 4) ∧ t' (.res r) (.vol 5) = t (.res r) (.vol 5)
  vols : ∀ x, x ∈ e.volumes k → t' (.res r) (.vol 4) = x.2.1 ∧ t' (.res r) (.vol 5) = x.2.2
  still : e.reaction k = [] → t' (.res r) (.mol n 4) = t (.res r) (.mol n 4) ∧ t' (.res r) (.mol n 5) = t (.res r) (.mol n 5)
  react : ∀ x, x ∈ e.reaction k → t' (.res r) (.mol n 4) = 1000 * (t (.res r) (.vol 5) * (x.2 - x.1)) ∧
    t' (.res r) (.mol n 5) = 1000 * (t (.res r) (.vol 5) * x.2)

theorem Step.same {n : Nat} {r : Int} {k : Key} {e : Ev} {t t' : Table} (h : Same r t t') (h1 : e.into k = 0) (h2 : e.from k = 0)
    (h3 : e.volumes k = []) (h4 : e.reaction k = []) : Step n r k e t t' := by
  constructor
  · exact h _
  · rw [h, h1]; ring
  · rw [h, h2]; ring
  · intro _; exact ⟨h _, h _⟩
  · intro x hx; rw [h3] at hx; exact absurd hx (by simp)
  · intro _; exact ⟨h _, h _⟩
  · intro x hx; rw [h4] at hx; exact absurd hx (by simp)

end Verif.Transport
