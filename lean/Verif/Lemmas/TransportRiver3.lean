import Verif.Lemmas.TransportMru2
import Verif.Lemmas.TransportRiver1
import Verif.Lemmas.TransportRiver2
/-
What the records do to the composite of the basin.
-/
namespace Verif.Transport
open Verif.Reservoir (Vol Rows BinOut Par In sumOf)
open Verif.Chem (Ctx Call Event Table Same)
open Verif.SolnNum (Dims)

/-- The amount recorded as entering the basin. -/
def Ev.basIn : Ev → Rat
  | .call _ metric vol conc _ _ basin _ => if basin = true ∧ (metric = 0 ∨ metric = 2) then vol * conc else 0
  | .enter _ vol conc => vol * conc
  | _ => 0

/-- The amount recorded as leaving the basin. -/
def Ev.basOut : Ev → Rat
  | .call _ metric vol conc tal _ basin react => if basin = true ∧ metric = 3 then vol * (if react = true then tal else conc) else 0
  | .leave _ vol conc => vol * conc
  | _ => 0

/-- A reaction in a unit: the row, and concentrations before and after. -/
def Ev.brew : Ev → List (Key × Rat × Rat)
  | .call row _ _ conc tal _ _ true => if row.unit?.isSome then [(row, conc, tal)] else []
  | _ => []

/-- The amount of a reaction in a stream. -/
def Ev.segRxn : Ev → Rat
  | .call (.seg _ _) _ vol conc tal _ _ true => vol * (tal - conc)
  | _ => 0

/-- The amount in a stream after a reaction, except at the outlet. -/
def Ev.segFin : Ev → Rat
  | .call (.seg _ h) _ vol _ tal _ _ true => if h = 1 then 0 else vol * tal
  | _ => 0

/-- What a record does to the composite of the basin. -/
structure BStep (d : Dims) (n : Nat) (e : Ev) (t t' : Table) : Prop where
  init : t' .basin (.mol n 1) = t .basin (.mol n 1)
  inp : t' .basin (.mol n 2) = t .basin (.mol n 2) + 1000 * e.basIn
  out : t' .basin (.mol n 3) = t .basin (.mol n 3) + 1000 * e.basOut
  rxn : t' .basin (.mol n 4) = t .basin (.mol n 4) +
    ((e.brew.map fun c => 1000 * (t (.res (place d c.1)) (.vol 5) * (c.2.2 - c.2.1))).sum + 1000 * e.segRxn)
  fin : t' .basin (.mol n 5) = t .basin (.mol n 5) +
    ((e.brew.map fun c => 1000 * (t (.res (place d c.1)) (.vol 5) * c.2.2)).sum + 1000 * e.segFin)

theorem flow_bstep {d : Dims} (ok : d.Ok) {n : Nat} {z : Ctx × Call} (hz : Known n z.1)
    {row : Key} {metric : Int} {vol conc tal : Rat} {mru basin : Bool} (he : (Ev.call row metric vol conc tal mru basin false).sound d) (t : Table) :
    ∃ t', Chem.run (told d n z (.call row metric vol conc tal mru basin false)) t = some t' ∧
      BStep d n (.call row metric vol conc tal mru basin false) t t' := by
  obtain ⟨e1, e2, e3⟩ := he
  simp only [Bool.false_eq_true, if_false] at e3
  simp only [told, Chem.run, Chem.step]
  set X : Ctx := context z row with hX
  set C : Call := entry d n z row metric vol conc tal mru basin false with hC
  have hF : Chem.Flow X C ∨ ∃ h, row = .seg false h := by
    by_cases hs : ∃ t h, row = .seg t h
    · obtain ⟨t, h, rfl⟩ := hs
      simp only [Key.row, Key.seg.injEq, and_true] at e2
      exact Or.inr ⟨h, by rw [← e2]⟩
    · refine Or.inl ⟨e3, rfl, Or.inr ?_⟩
      show (match row with | .seg _ _ => z.1.ih | _ => 0) ≠ 1
      clear * - hs
      cases row <;> simp_all
  have hF : Chem.Flow X C := by
    rcases hF with hF | ⟨h, rfl⟩
    · exact hF
    · refine ⟨e3, rfl, Or.inl ?_⟩
      show (if Key.seg false h = .data 1 then z.2.restype else kind d (.seg false h)) = 99
      rw [if_neg (by simp), kind_eq ok e1]
      rfl
  obtain ⟨t', h1, h2⟩ := Chem.updateChem_flow X C t hF
  refine ⟨t', by simp [h1], ?_⟩
  have hs : Chem.isSolute X n = true := hz.1
  have hcn : C.conc n = conc := by simp [hC, entry]
  have hm : C.metric = metric := rfl
  have ht : C.totvol = vol := rfl
  cases basin with
  | true =>
    have hcc : Chem.concerns X C .basin = true := by simp [Chem.concerns, hC, entry]
    replace h2 : ∀ g, t' .basin g = t .basin g + Chem.amount X C C.slot g := fun g => by rw [h2, if_pos hcc]
    constructor
    · have : (1 : Nat) ≠ (if C.metric = 3 then 3 else 2) := by split <;> omega
      rw [h2]; simp [Chem.amount, Chem.Call.slot, this]
    · rw [h2]
      simp only [Chem.amount, Chem.Call.slot, hs, hcn, ht, hm, Ev.basIn, true_and, and_true]
      rcases e3 with e3 | e3 | e3 <;> simp [e3] <;> ring
    · rw [h2]
      simp only [Chem.amount, Chem.Call.slot, hs, hcn, ht, hm, Ev.basOut, true_and, and_true]
      rcases e3 with e3 | e3 | e3 <;> simp [e3] <;> ring
    · have : (4 : Nat) ≠ (if C.metric = 3 then 3 else 2) := by split <;> omega
      rw [h2]; simp [Chem.amount, Chem.Call.slot, this, Ev.brew, Ev.segRxn]
    · have : (5 : Nat) ≠ (if C.metric = 3 then 3 else 2) := by split <;> omega
      rw [h2]; simp [Chem.amount, Chem.Call.slot, this, Ev.brew, Ev.segFin]
  | false =>
    have hcc : Chem.concerns X C .basin = false := by simp [Chem.concerns, hC, entry]
    replace h2 : ∀ g, t' .basin g = t .basin g := fun g => by rw [h2]; simp [hcc]
    constructor <;> rw [h2] <;> simp [Ev.basIn, Ev.basOut, Ev.brew, Ev.segRxn, Ev.segFin]

theorem react_bstep {d : Dims} (ok : d.Ok) {n : Nat} {z : Ctx × Call} (hz : Known n z.1)
    {row : Key} {metric : Int} {vol conc tal : Rat} {mru basin : Bool} (he : (Ev.call row metric vol conc tal mru basin true).sound d)
    (t : Table) :
    ∃ t', Chem.run (told d n (sited z (.call row metric vol conc tal mru basin true)) (.call row metric vol conc tal mru basin true)) t = some t' ∧
      BStep d n (.call row metric vol conc tal mru basin true) t t' := by
  have hz' := sited_known hz (.call row metric vol conc tal mru basin true)
  obtain ⟨e1, e2, e3⟩ := he
  simp only [if_true] at e3
  simp only [told, Chem.run, Chem.step]
  set y := sited z (.call row metric vol conc tal mru basin true) with hy
  set X : Ctx := context y row with hX
  set C : Call := entry d n y row metric vol conc tal mru basin true with hC
  have hs : Chem.isSolute X n = true := hz'.1
  have hi : X.iso n = false := hz'.2
  have hcn : C.conc n = conc := by simp [hC, entry]
  have htn : C.tal n = tal := by simp [hC, entry]
  rcases e3 with ⟨e3, e4, rfl, rfl⟩ | ⟨e3, h, hh, rfl⟩
  · have hk1 : row ≠ .data 1 := by rintro rfl; exact e3
    obtain ⟨k1, k2, k3⟩ := holds_kind ok e1 e3
    have hF : Chem.Reacts X C := by
      have hrt : C.restype = kind d row := by simp [hC, hk1, entry]
      refine ⟨by rw [hrt]; exact ⟨k1, k2⟩, ?_, rfl, ⟨rfl, rfl⟩, ?_⟩
      · rcases e4 with e4 | ⟨e4, e5⟩
        · exact Or.inl e4
        · refine Or.inr ⟨e4, fun h5 => ?_⟩
          obtain ⟨u, j, rfl⟩ := k3 (hrt ▸ h5)
          exact e5 u j rfl
      · show (match row with | .seg _ _ => y.1.ih | _ => 0) ≠ 1
        clear * - e3
        cases row <;> simp_all [Key.holds]
    obtain ⟨t', h1, h2, -⟩ := Chem.updateChem_react X C t hF
    refine ⟨t', by simp [h1], ?_⟩
    have hnc : ∀ g, Chem.contribution X C .basin g = 0 := by
      intro g
      have : Chem.concerns X C .basin = false := by simp [Chem.concerns, hC, entry]
      simp [Chem.contribution, this]
    have hp : Chem.partOf X C .basin = true := by simp [Chem.partOf]
    replace h2 : ∀ g, t' .basin g = t .basin g + Chem.gain X C t g := by
      intro g
      rw [h2 _ g (by simp), hnc, add_zero, if_pos hp]
    obtain ⟨v, hv⟩ := holds_unit e3
    have hseg : (Ev.call row metric vol conc tal false false true).segRxn = 0 ∧ (Ev.call row metric vol conc tal false false true).segFin = 0 := by
      cases row <;> simp_all [Key.holds, Ev.segRxn, Ev.segFin]
    constructor
    · rw [h2]; simp [Chem.gain]
    · rw [h2]; simp [Chem.gain, Ev.basIn]
    · rw [h2]; simp [Chem.gain, Ev.basOut]
    · rw [h2, hseg.1]
      simp only [Chem.gain, hs, if_true, Chem.produced, hi, hcn, htn, Ev.brew, hv, Option.isSome_some, Bool.false_eq_true, if_false, List.map_cons, List.map_nil, List.sum_cons, List.sum_nil]
      simp [hC, entry]
      ring
    · rw [h2, hseg.2]
      simp only [Chem.gain, hs, if_true, htn, Ev.brew, hv, Option.isSome_some, Bool.false_eq_true, if_false, List.map_cons, List.map_nil, List.sum_cons, List.sum_nil]
      simp [hC, entry]
      ring
  · obtain ⟨t', h1, h2⟩ := Chem.updateChem_outflow X C (by
      show (if Key.seg false h = .data 1 then y.2.restype else kind d (.seg false h)) = 99
      rw [if_neg (by simp), kind_eq ok e1]
      rfl) e3 rfl hs hi t
    refine ⟨t', by simp [h1], ?_⟩
    have hX1 : X.ih = h := rfl
    have hV : (if X.ih > 1 then X.upvol else X.outlet) = vol := by
      have h1 : X.upvol = vol := rfl
      have h2 : X.outlet = vol := rfl
      rw [h1, h2, ite_self]
    have hbb : C.basbnd = basin := rfl
    have htv : C.totvol = vol := rfl
    rw [hV, hbb, htv, hX1, hcn, htn] at h2
    constructor
    · rw [h2]; simp
    · rw [h2]; simp [Ev.basIn, e3]
    · rw [h2]; simp only [Ev.basOut, e3]; cases basin <;> simp <;> ring
    · rw [h2]; simp [Ev.brew, Key.unit?, Ev.segRxn]; ring
    · rw [h2]
      simp only [Ev.brew, Key.unit?, Ev.segFin]
      by_cases h1 : h = 1 <;> simp [h1] <;> ring

theorem told_bstep {d : Dims} (ok : d.Ok) {n : Nat} {z : Ctx × Call} (hz : Known n z.1)
    {e : Ev} (he : e.sound d) (t : Table) : ∃ t', Chem.run (told d n (sited z e) e) t = some t' ∧ BStep d n e t t' := by
  cases e with
  | call row metric vol conc tal mru basin react =>
    cases react with
    | false => exact flow_bstep ok (sited_known hz _) he t
    | true => exact react_bstep ok hz he t
  | set row init et fin => exact ⟨_, rfl, by constructor <;> simp [Chem.put, Ev.basIn, Ev.basOut, Ev.brew, Ev.segRxn, Ev.segFin]⟩
  | final row fin => exact ⟨_, rfl, by constructor <;> simp [Chem.put, Ev.basIn, Ev.basOut, Ev.brew, Ev.segRxn, Ev.segFin]⟩
  | enter v vol conc =>
    refine ⟨_, rfl, ?_⟩
    have hs : Chem.isSolute { z.1 with is := v } n = true := hz.1
    constructor <;> rw [Chem.gwGain_apply] <;> simp [Chem.groundwater, sited, hs, Ev.basIn, Ev.basOut, Ev.brew, Ev.segRxn, Ev.segFin]
    ring
  | leave v vol conc =>
    refine ⟨_, rfl, ?_⟩
    have hs : Chem.isSolute { z.1 with is := v } n = true := hz.1
    constructor <;> rw [Chem.gwLeak_apply] <;> simp [Chem.groundwater, sited, hs, Ev.basIn, Ev.basOut, Ev.brew, Ev.segRxn, Ev.segFin]
    ring

end Verif.Transport
