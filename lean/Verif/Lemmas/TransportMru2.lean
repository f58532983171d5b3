import Verif.Lemmas.TransportMru1
/-
What the records do to the composite of a unit.
-/
namespace Verif.Transport
open Verif.Reservoir (Vol Rows BinOut Par In sumOf)
open Verif.Chem (Ctx Call Event Table Same)
open Verif.SolnNum (Dims)

/-- What a record does to the composite of unit `u`. -/
structure MStep (d : Dims) (n u : Nat) (e : Ev) (t t' : Table) : Prop where
  init : t' (.mru u) (.mol n 1) = t (.mru u) (.mol n 1)
  inp : t' (.mru u) (.mol n 2) = t (.mru u) (.mol n 2) + 1000 * (e.crossIn u + e.enters u)
  out : t' (.mru u) (.mol n 3) = t (.mru u) (.mol n 3) + 1000 * (e.crossOut u + e.leaves u)
  rxn : t' (.mru u) (.mol n 4) = t (.mru u) (.mol n 4) +
    ((e.made u).map fun c => 1000 * (t (.res (place d c.1)) (.vol 5) * (c.2.2 - c.2.1))).sum
  fin : t' (.mru u) (.mol n 5) = t (.mru u) (.mol n 5) +
    ((e.made u).map fun c => 1000 * (t (.res (place d c.1)) (.vol 5) * c.2.2)).sum

theorem MStep.calm {d : Dims} {n u : Nat} {e : Ev} {t t' : Table} (h : Chem.Calm u t t') (h1 : e.crossIn u = 0) (h2 : e.enters u = 0)
    (h3 : e.crossOut u = 0) (h4 : e.leaves u = 0) (h5 : e.made u = []) : MStep d n u e t t' := by
  constructor
  · exact h _
  · rw [h, h1, h2]; ring
  · rw [h, h3, h4]; ring
  · rw [h, h5]; simp
  · rw [h, h5]; simp

theorem context_is (z : Ctx × Call) {row : Key} {u : Nat} (h : row.unit? = some u) : (context z row).is = u := by
  cases row <;> simp_all [Key.unit?, context]

theorem holds_unit {k : Key} (h : k.holds) : ∃ u, k.unit? = some u := by
  cases k <;> simp_all [Key.holds, Key.unit?]

theorem flow_mstep {d : Dims} (ok : d.Ok) {n u : Nat} {z : Ctx × Call} (hz : Known n z.1)
    {row : Key} {metric : Int} {vol conc tal : Rat} {mru basin : Bool} (he : (Ev.call row metric vol conc tal mru basin false).sound d)
    (hb : (Ev.call row metric vol conc tal mru basin false).bound) (t : Table) :
    ∃ t', Chem.run (told d n z (.call row metric vol conc tal mru basin false)) t = some t' ∧
      MStep d n u (.call row metric vol conc tal mru basin false) t t' := by
  obtain ⟨e1, e2, e3⟩ := he
  simp only [Bool.false_eq_true, if_false] at e3
  simp only [told, Chem.run, Chem.step]
  set X : Ctx := context z row with hX
  set C : Call := entry d n z row metric vol conc tal mru basin false with hC
  have hF : Chem.Flow X C ∨ ∃ h, row = .seg false h := by
    by_cases hs : ∃ t h, row = .seg t h
    · obtain ⟨t, h, rfl⟩ := hs
      simp only [Key.row, Key.seg.injEq, and_true] at e2
      exact Or.inr ⟨h, by rw [← e2]⟩
    · refine Or.inl ⟨e3, rfl, Or.inr ?_⟩
      show (match row with | .seg _ _ => z.1.ih | _ => 0) ≠ 1
      clear * - hs
      cases row <;> simp_all
  have hF : Chem.Flow X C := by
    rcases hF with hF | ⟨h, rfl⟩
    · exact hF
    · refine ⟨e3, rfl, Or.inl ?_⟩
      show (if Key.seg false h = .data 1 then z.2.restype else kind d (.seg false h)) = 99
      rw [if_neg (by simp), kind_eq ok e1]
      rfl
  obtain ⟨t', h1, h2⟩ := Chem.updateChem_flow X C t hF
  refine ⟨t', by simp [h1], ?_⟩
  have hs : Chem.isSolute X n = true := hz.1
  have hcn : C.conc n = conc := by simp [hC, entry]
  have hm : C.metric = metric := rfl
  by_cases hc : mru = true ∧ row.unit? = some u
  · have hcc : Chem.concerns X C (.mru u) = true := by
      simp [Chem.concerns, hC, entry, hc.1, hX, context_is z hc.2]
    replace h2 : ∀ g, t' (.mru u) g = t (.mru u) g + Chem.amount X C C.slot g := fun g => by rw [h2, if_pos hcc]
    have ht : C.totvol = vol := rfl
    constructor
    · have : (1 : Nat) ≠ (if C.metric = 3 then 3 else 2) := by split <;> omega
      rw [h2]; simp [Chem.amount, Chem.Call.slot, this]
    · rw [h2]
      simp only [Chem.amount, Chem.Call.slot, hs, hcn, ht, hm, Ev.crossIn, Ev.enters, hc.1, hc.2, true_and, and_true]
      rcases e3 with e3 | e3 | e3 <;> simp [e3] <;> ring
    · rw [h2]
      simp only [Chem.amount, Chem.Call.slot, hs, hcn, ht, hm, Ev.crossOut, Ev.leaves, hc.1, hc.2, true_and, and_true]
      rcases e3 with e3 | e3 | e3 <;> simp [e3] <;> ring
    · have : (4 : Nat) ≠ (if C.metric = 3 then 3 else 2) := by split <;> omega
      rw [h2]; simp [Chem.amount, Chem.Call.slot, this, Ev.made]
    · have : (5 : Nat) ≠ (if C.metric = 3 then 3 else 2) := by split <;> omega
      rw [h2]; simp [Chem.amount, Chem.Call.slot, this, Ev.made]
  · have hcc : Chem.concerns X C (.mru u) = false := by
      simp only [Chem.concerns, Bool.and_eq_false_iff, decide_eq_false_iff_not]
      cases hmr : mru with
      | false => left; simp [hC, entry, hmr]
      | true =>
        right
        obtain ⟨v, hv⟩ := hb hmr
        rw [hX, context_is z hv]
        rintro rfl
        exact hc ⟨hmr, hv⟩
    have hn : ∀ P : Prop, ¬ (mru = true ∧ row.unit? = some u ∧ P) := fun P hp => hc ⟨hp.1, hp.2.1⟩
    refine MStep.calm (fun g => ?_) ?_ rfl ?_ rfl rfl
    · rw [h2]; simp [hcc]
    · simp only [Ev.crossIn]; rw [if_neg (hn _)]
    · simp only [Ev.crossOut]; rw [if_neg (hn _)]

theorem react_mstep {d : Dims} (ok : d.Ok) {n u : Nat} {z : Ctx × Call} (hz : Known n z.1)
    {row : Key} {metric : Int} {vol conc tal : Rat} {mru basin : Bool} (he : (Ev.call row metric vol conc tal mru basin true).sound d)
    (hb : (Ev.call row metric vol conc tal mru basin true).bound) (t : Table) :
    ∃ t', Chem.run (told d n z (.call row metric vol conc tal mru basin true)) t = some t' ∧
      MStep d n u (.call row metric vol conc tal mru basin true) t t' := by
  obtain ⟨e1, e2, e3⟩ := he
  simp only [if_true] at e3
  simp only [told, Chem.run, Chem.step]
  set X : Ctx := context z row with hX
  set C : Call := entry d n z row metric vol conc tal mru basin true with hC
  have hs : Chem.isSolute X n = true := hz.1
  have hi : X.iso n = false := hz.2
  have hcn : C.conc n = conc := by simp [hC, entry]
  have htn : C.tal n = tal := by simp [hC, entry]
  rcases e3 with ⟨e3, e4, rfl, rfl⟩ | ⟨e3, h, hh, rfl⟩
  · have hk1 : row ≠ .data 1 := by rintro rfl; exact e3
    obtain ⟨k1, k2, k3⟩ := holds_kind ok e1 e3
    have hF : Chem.Reacts X C := by
      have hrt : C.restype = kind d row := by simp [hC, hk1, entry]
      refine ⟨by rw [hrt]; exact ⟨k1, k2⟩, ?_, rfl, ⟨rfl, rfl⟩, ?_⟩
      · rcases e4 with e4 | ⟨e4, e5⟩
        · exact Or.inl e4
        · refine Or.inr ⟨e4, fun h5 => ?_⟩
          obtain ⟨u, j, rfl⟩ := k3 (hrt ▸ h5)
          exact e5 u j rfl
      · show (match row with | .seg _ _ => z.1.ih | _ => 0) ≠ 1
        clear * - e3
        cases row <;> simp_all [Key.holds]
    obtain ⟨t', h1, h2, -⟩ := Chem.updateChem_react X C t hF
    refine ⟨t', by simp [h1], ?_⟩
    have hnc : ∀ g, Chem.contribution X C (.mru u) g = 0 := by
      intro g
      have : Chem.concerns X C (.mru u) = false := by simp [Chem.concerns, hC, entry]
      simp [Chem.contribution, this]
    replace h2 : ∀ g, t' (.mru u) g = t (.mru u) g + if Chem.partOf X C (.mru u) = true then Chem.gain X C t g else 0 := by
      intro g
      rw [h2 _ g (by simp), hnc, add_zero]
    obtain ⟨v, hv⟩ := holds_unit e3
    have his : X.is = v := context_is z hv
    by_cases huv : u = v
    · subst huv
      have hp : Chem.partOf X C (.mru u) = true := by simp [Chem.partOf, his]
      simp only [hp, if_true] at h2
      constructor
      · rw [h2]; simp [Chem.gain]
      · rw [h2]; simp [Chem.gain, Ev.crossIn, Ev.enters]
      · rw [h2]; simp [Chem.gain, Ev.crossOut, Ev.leaves]
      · rw [h2]
        simp only [Chem.gain, hs, if_true, Chem.produced, hi, hcn, htn, Ev.made, hv, Bool.false_eq_true, if_false, List.map_cons, List.map_nil, List.sum_cons, List.sum_nil]
        simp [hC, entry]
        ring
      · rw [h2]
        simp only [Chem.gain, hs, if_true, htn, Ev.made, hv, Bool.false_eq_true, if_false, List.map_cons, List.map_nil, List.sum_cons, List.sum_nil]
        simp [hC, entry]
        ring
    · have hp : Chem.partOf X C (.mru u) = false := by simp [Chem.partOf, his, huv]
      refine MStep.calm (fun g => ?_) (by simp [Ev.crossIn]) rfl (by simp [Ev.crossOut]) rfl ?_
      · rw [h2]; simp [hp]
      · simp [Ev.made, hv, Ne.symm huv]
  · have hmr : mru = false := by
      cases hmr : mru with
      | false => rfl
      | true => obtain ⟨v, hv⟩ := hb hmr; simp [Key.unit?] at hv
    subst hmr
    obtain ⟨t', h1, h2⟩ := Chem.updateChem_calm X C (by
      show (if Key.seg false h = .data 1 then z.2.restype else kind d (.seg false h)) = 99
      rw [if_neg (by simp), kind_eq ok e1]
      rfl) rfl e3 t u
    exact ⟨t', by simp [h1], MStep.calm h2 (by simp [Ev.crossIn]) rfl (by simp [Ev.crossOut]) rfl (by simp [Ev.made, Key.unit?])⟩

theorem told_mstep {d : Dims} (ok : d.Ok) {n u : Nat} {z : Ctx × Call} (hz : Known n z.1)
    {e : Ev} (he : e.sound d) (hb : e.bound) (t : Table) : ∃ t', Chem.run (told d n z e) t = some t' ∧ MStep d n u e t t' := by
  cases e with
  | call row metric vol conc tal mru basin react =>
    cases react with
    | false => exact flow_mstep ok hz he hb t
    | true => exact react_mstep ok hz he hb t
  | set row init et fin => exact ⟨_, rfl, MStep.calm (fun g => by simp [Chem.put]) rfl rfl rfl rfl rfl⟩
  | final row fin => exact ⟨_, rfl, MStep.calm (fun g => by simp [Chem.put]) rfl rfl rfl rfl rfl⟩
  | enter v vol conc =>
    refine ⟨_, rfl, ?_⟩
    have hs : Chem.isSolute { z.1 with is := v } n = true := hz.1
    by_cases huv : u = v
    · subst huv
      constructor <;> rw [Chem.gwGain_apply] <;> simp [Chem.groundwater, hs, Ev.crossIn, Ev.enters, Ev.crossOut, Ev.leaves, Ev.made]
      ring
    · refine MStep.calm (fun g => ?_) rfl (by simp [Ev.enters, huv]) rfl rfl rfl
      rw [Chem.gwGain_apply]; simp [Chem.groundwater, huv]
  | leave v vol conc =>
    refine ⟨_, rfl, ?_⟩
    have hs : Chem.isSolute { z.1 with is := v } n = true := hz.1
    by_cases huv : u = v
    · subst huv
      constructor <;> rw [Chem.gwLeak_apply] <;> simp [Chem.groundwater, hs, Ev.crossIn, Ev.enters, Ev.crossOut, Ev.leaves, Ev.made]
      ring
    · refine MStep.calm (fun g => ?_) rfl rfl rfl (by simp [Ev.leaves, huv]) rfl
      rw [Chem.gwLeak_apply]; simp [Chem.groundwater, huv]

end Verif.Transport
