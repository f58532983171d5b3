import Verif.Lemmas.TransportChem2
/-
What the records do to a row.
-/
namespace Verif.Transport
open Verif.Chem (Ctx Call Event Table Same)
open Verif.SolnNum (Dims)

/-- The solute is one of those of the tables, and not an isotope. -/
def Known (n : Nat) (x : Ctx) : Prop := Chem.isSolute x n = true ∧ x.iso n = false

theorem sited_known {n : Nat} {z : Ctx × Call} (hz : Known n z.1) (e : Ev) : Known n (sited z e).1 := by
  unfold sited
  split
  · exact hz
  · exact hz

theorem holds_inUnit {k : Key} (h : k.holds) : k.inUnit := by
  cases k <;> simp_all [Key.holds, Key.inUnit]

theorem inUnit_row {k : Key} (h : k.inUnit) : k.row = k := by
  cases k <;> simp_all [Key.inUnit, Key.row]

theorem holds_kind {d : Dims} (ok : d.Ok) {k : Key} (hw : k.Within d) (h : k.holds) :
    0 < kind d k ∧ kind d k < 10 ∧ (kind d k = 5 → ∃ u j, k = .bin false u j) := by
  rw [kind_eq ok hw]
  cases k with
  | hill t i u =>
    simp only [Key.holds, List.mem_cons, List.not_mem_nil, or_false] at h
    simp only [Key.res, SolnNum.Reservoir.indices]
    omega
  | bin t u j =>
    simp only [Key.holds] at h
    subst h
    simp [Key.res, SolnNum.Reservoir.indices]
  | _ => exact absurd h (by simp [Key.holds])

/-- A flow of a row. -/
theorem flow_step {d : Dims} (ok : d.Ok) {n : Nat} {z : Ctx × Call} (hz : Known n z.1) {k : Key} (hk : k.inUnit) (hw : k.Within d)
    {row : Key} {metric : Int} {vol conc tal : Rat} {mru basin : Bool} (he : (Ev.call row metric vol conc tal mru basin false).sound d)
    (t : Table) : ∃ t', Chem.run (told d n z (.call row metric vol conc tal mru basin false)) t = some t' ∧
      Step n (place d k) k (.call row metric vol conc tal mru basin false) t t' := by
  obtain ⟨e1, e2, e3⟩ := he
  simp only [Bool.false_eq_true, if_false] at e3
  by_cases hrk : k = row
  · subst hrk
    have hk1 : k ≠ .data 1 := by rintro rfl; exact hk
    simp only [told, Chem.run, Chem.step]
    set X : Ctx := context z k with hX
    set C : Call := entry d n z k metric vol conc tal mru basin false with hC
    have hF : Chem.Flow X C := by
      refine ⟨e3, rfl, Or.inr ?_⟩
      show (match k with | .seg _ _ => z.1.ih | _ => 0) ≠ 1
      clear * - hk
      cases k <;> simp_all [Key.inUnit]
    obtain ⟨t', h1, h2⟩ := Chem.updateChem_flow X C t hF
    refine ⟨t', by simp [h1], ?_⟩
    have hs : Chem.isSolute X n = true := hz.1
    have hc : Chem.concerns X C (.res (place d k)) = true := by simp [Chem.concerns, hC, entry]
    have hcn : C.conc n = conc := by simp [hC, entry]
    have ht : C.totvol = vol := rfl
    have hm : C.metric = metric := rfl
    replace h2 : ∀ g, t' (.res (place d k)) g = t (.res (place d k)) g + Chem.amount X C C.slot g := fun g => by rw [h2, if_pos hc]
    constructor
    · have : (1 : Nat) ≠ (if C.metric = 3 then 3 else 2) := by split <;> omega
      rw [h2]; simp [Chem.amount, Chem.Call.slot, this]
    · rw [h2]
      simp only [Chem.amount, Chem.Call.slot, hs, hcn, ht, hm, Ev.into, true_and, and_true]
      rcases e3 with e3 | e3 | e3 <;> simp [e3] <;> ring
    · rw [h2]
      simp only [Chem.amount, Chem.Call.slot, hs, hcn, ht, hm, Ev.from, true_and, and_true]
      rcases e3 with e3 | e3 | e3 <;> simp [e3] <;> ring
    · intro _
      rw [h2, h2]
      simp only [Chem.amount, Chem.Call.slot]
      constructor <;> (split <;> simp) <;> (split at * <;> omega)
    · intro x hx; exact absurd hx (by simp [Ev.volumes])
    · intro _
      rw [h2, h2]
      simp only [Chem.amount, Chem.Call.slot]
      constructor <;> (split <;> simp) <;> (rename_i h; obtain ⟨h, -⟩ := h; split at h <;> omega)
    · intro x hx; exact absurd hx (by simp [Ev.reaction])
  · have hne := place_ne ok hw e1 (inUnit_row hk) e2 hrk
    simp only [told, Chem.run, Chem.step]
    set X : Ctx := context z row with hX
    set C : Call := entry d n z row metric vol conc tal mru basin false with hC
    have hF : Chem.Flow X C ∨ ∃ h, row = .seg false h := by
      by_cases hs : ∃ t h, row = .seg t h
      · obtain ⟨t, h, rfl⟩ := hs
        simp only [Key.row, Key.seg.injEq, and_true] at e2
        exact Or.inr ⟨h, by rw [← e2]⟩
      · refine Or.inl ⟨e3, rfl, Or.inr ?_⟩
        show (match row with | .seg _ _ => z.1.ih | _ => 0) ≠ 1
        clear * - hs
        cases row <;> simp_all
    have hF : Chem.Flow X C := by
      rcases hF with hF | ⟨h, rfl⟩
      · exact hF
      · refine ⟨e3, rfl, Or.inl ?_⟩
        show (if Key.seg false h = .data 1 then z.2.restype else kind d (.seg false h)) = 99
        rw [if_neg (by simp), kind_eq ok e1]
        rfl
    obtain ⟨t', h1, h2⟩ := Chem.updateChem_flow X C t hF
    refine ⟨t', by simp [h1], Step.same ?_ (by simp [Ev.into, hrk]) (by simp [Ev.from, hrk]) rfl rfl⟩
    intro g
    rw [h2]
    have hc : Chem.concerns X C (.res (place d k)) = false := by simp [Chem.concerns, hC, hne, entry]
    simp [hc]

/-- A reaction. -/
theorem react_step {d : Dims} (ok : d.Ok) {n : Nat} {z : Ctx × Call} (hz : Known n z.1) {k : Key} (hk : k.inUnit) (hw : k.Within d)
    {row : Key} {metric : Int} {vol conc tal : Rat} {mru basin : Bool} (he : (Ev.call row metric vol conc tal mru basin true).sound d)
    (t : Table) : ∃ t', Chem.run (told d n z (.call row metric vol conc tal mru basin true)) t = some t' ∧
      Step n (place d k) k (.call row metric vol conc tal mru basin true) t t' := by
  obtain ⟨e1, e2, e3⟩ := he
  simp only [if_true] at e3
  by_cases hrk : k = row
  · subst hrk
    have hk1 : k ≠ .data 1 := by rintro rfl; exact hk
    have e5 : k.holds ∧ (metric = 3 ∨ metric = -1 ∧ ∀ u j, k ≠ .bin false u j) ∧ mru = false ∧ basin = false := by
      rcases e3 with e3 | ⟨-, h, -, rfl⟩
      · exact e3
      · exact absurd hk (by simp [Key.inUnit])
    clear e3
    obtain ⟨e3, e4, rfl, rfl⟩ := e5
    obtain ⟨k1, k2, k3⟩ := holds_kind ok hw e3
    simp only [told, Chem.run, Chem.step]
    set X : Ctx := context z k with hX
    set C : Call := entry d n z k metric vol conc tal false false true with hC
    have hF : Chem.Reacts X C := by
      have hrt : C.restype = kind d k := by simp [hC, hk1, entry]
      refine ⟨by rw [hrt]; exact ⟨k1, k2⟩, ?_, rfl, ⟨rfl, rfl⟩, ?_⟩
      · rcases e4 with e4 | ⟨e4, e5⟩
        · exact Or.inl e4
        · refine Or.inr ⟨e4, fun h5 => ?_⟩
          obtain ⟨u, j, rfl⟩ := k3 (hrt ▸ h5)
          exact e5 u j rfl
      · show (match k with | .seg _ _ => z.1.ih | _ => 0) ≠ 1
        clear * - hk
        cases k <;> simp_all [Key.inUnit]
    obtain ⟨t', h1, -, h3, h4, h5, -⟩ := Chem.updateChem_react X C t hF
    have hs : Chem.isSolute X n = true := hz.1
    have hi : X.iso n = false := hz.2
    obtain ⟨a1, a2, -⟩ := h5 n hs
    have hrow : C.row = place d k := rfl
    have hcn : C.conc n = conc := by simp [hC, entry]
    have htn : C.tal n = tal := by simp [hC, entry]
    have ht : C.totvol = vol := rfl
    have hm : C.metric = metric := rfl
    rw [hrow] at h3 h4 a1 a2
    have hc : Chem.concerns X C (.res (place d k)) = true := by simp [Chem.concerns, hC, entry]
    refine ⟨t', by simp [h1], ?_⟩
    constructor
    · rw [h3 (.mol n 1) 1 rfl (by omega) (by omega)]
      have : (1 : Nat) ≠ (if C.metric = 3 then 3 else 2) := by split <;> omega
      simp [Chem.contribution, Chem.amount, Chem.Call.slot, this]
    · rw [h3 (.mol n 2) 2 rfl (by omega) (by omega)]
      simp only [Chem.contribution, hc, Chem.amount, Chem.Call.slot, hs, hcn, ht, hm, Ev.into, true_and, and_true]
      rcases e4 with e4 | ⟨e4, -⟩ <;> simp [e4]
    · rw [h3 (.mol n 3) 3 rfl (by omega) (by omega)]
      simp only [Chem.contribution, hc, Chem.amount, Chem.Call.slot, hs, hcn, ht, hm, Ev.from, true_and, and_true]
      rcases e4 with e4 | ⟨e4, -⟩ <;> simp [e4] <;> ring
    · intro _
      exact ⟨h4 4 (Or.inl rfl), h4 5 (Or.inr rfl)⟩
    · intro x hx; exact absurd hx (by simp [Ev.volumes])
    · intro h; exact absurd h (by simp [Ev.reaction])
    · intro x hx
      simp only [Ev.reaction, if_true, List.mem_cons, List.not_mem_nil, or_false] at hx
      subst hx
      rw [a1, a2]
      unfold Chem.produced
      rw [hi, htn, hcn, hrow]
      simp only [Bool.false_eq_true, if_false]
      constructor <;> ring
  · have hne := place_ne ok hw e1 (inUnit_row hk) e2 hrk
    have hsame : ∃ t', Chem.run (told d n z (.call row metric vol conc tal mru basin true)) t = some t' ∧ Same (place d k) t t' := by
      simp only [told, Chem.run, Chem.step]
      set X : Ctx := context z row with hX
      set C : Call := entry d n z row metric vol conc tal mru basin true with hC
      rcases e3 with ⟨e3, e4, rfl, rfl⟩ | ⟨e3, h, hh, rfl⟩
      · have hk1 : row ≠ .data 1 := by rintro rfl; exact e3
        obtain ⟨k1, k2, k3⟩ := holds_kind ok e1 e3
        have hF : Chem.Reacts X C := by
          have hrt : C.restype = kind d row := by simp [hC, hk1, entry]
          refine ⟨by rw [hrt]; exact ⟨k1, k2⟩, ?_, rfl, ⟨rfl, rfl⟩, ?_⟩
          · rcases e4 with e4 | ⟨e4, e5⟩
            · exact Or.inl e4
            · refine Or.inr ⟨e4, fun h5 => ?_⟩
              obtain ⟨u, j, rfl⟩ := k3 (hrt ▸ h5)
              exact e5 u j rfl
          · show (match row with | .seg _ _ => z.1.ih | _ => 0) ≠ 1
            clear * - e3
            cases row <;> simp_all [Key.holds]
        obtain ⟨t', h1, h2, -⟩ := Chem.updateChem_react X C t hF
        refine ⟨t', by simp [h1], fun g => ?_⟩
        rw [h2 _ g (by simp [hC, hne, entry])]
        have hc : Chem.concerns X C (.res (place d k)) = false := by simp [Chem.concerns, hC, hne, entry]
        simp [Chem.contribution, hc, Chem.partOf]
      · obtain ⟨t', h1, h2⟩ := Chem.updateChem_same (r := place d k) X C hne (by
          show place d k ≠ place d (.seg false h) - 1
          rw [place_down ok hh e1]
          refine place_ne ok hw ?_ (inUnit_row hk) rfl ?_
          · unfold Key.Within Key.res SolnNum.Reservoir.Within at *
            omega
          · rintro rfl; exact hk) (Or.inr (Or.inr (Or.inl e3))) t
        exact ⟨t', by simp [h1], h2⟩
    obtain ⟨t', h1, h2⟩ := hsame
    exact ⟨t', h1, Step.same h2 (by simp [Ev.into, hrk]) (by simp [Ev.from, hrk]) rfl (by simp [Ev.reaction, hrk])⟩

theorem told_step {d : Dims} (ok : d.Ok) {n : Nat} {z : Ctx × Call} (hz : Known n z.1) {k : Key} (hk : k.inUnit) (hw : k.Within d)
    {e : Ev} (he : e.sound d) (t : Table) : ∃ t', Chem.run (told d n z e) t = some t' ∧ Step n (place d k) k e t t' := by
  cases e with
  | call row metric vol conc tal mru basin react =>
    cases react with
    | false => exact flow_step ok hz hk hw he t
    | true => exact react_step ok hz hk hw he t
  | set row init et fin =>
    obtain ⟨e1, e2⟩ := he
    refine ⟨_, rfl, ?_⟩
    by_cases hrk : k = row
    · subst hrk
      constructor
      · simp [Chem.put]
      · simp [Chem.put, Ev.into]
      · simp [Chem.put, Ev.from]
      · intro h; exact absurd h (by simp [Ev.volumes])
      · intro x hx
        simp only [Ev.volumes, if_true, List.mem_cons, List.not_mem_nil, or_false] at hx
        subst hx
        simp [Chem.put]
      · intro _; simp [Chem.put]
      · intro x hx; exact absurd hx (by simp [Ev.reaction])
    · have hne := place_ne ok hw e1 (inUnit_row hk) e2 hrk
      refine Step.same ?_ rfl rfl (by simp [Ev.volumes, hrk]) rfl
      intro g
      simp [Chem.put, hne]
  | final row fin =>
    obtain ⟨h, rfl, e1⟩ := he
    refine ⟨_, rfl, ?_⟩
    have hne := place_ne ok hw e1 (inUnit_row hk) rfl (by rintro rfl; exact hk)
    refine Step.same ?_ rfl rfl rfl rfl
    intro g
    simp [Chem.put, hne]
  | enter u vol conc =>
    refine ⟨_, rfl, Step.same (fun g => ?_) rfl rfl rfl rfl⟩
    rw [Chem.gwGain_apply, Chem.groundwater_uz _ _ _ _ _ _ _ (by simp) (by simp), add_zero]
  | leave u vol conc =>
    refine ⟨_, rfl, Step.same (fun g => ?_) rfl rfl rfl rfl⟩
    rw [Chem.gwLeak_apply, Chem.groundwater_uz _ _ _ _ _ _ _ (by simp) (by simp), add_zero]

theorem run_append (l l' : List Event) (t : Table) : Chem.run (l ++ l') t = (Chem.run l t).bind (Chem.run l') := by
  induction l generalizing t with
  | nil => rfl
  | cons e l ih =>
    simp only [List.cons_append, Chem.run]
    cases Chem.step e t with
    | none => rfl
    | some u => exact ih u

/-- What a list of records does to a row: inputs and outputs. -/
theorem heard_flows {d : Dims} (ok : d.Ok) {n : Nat} {z : Nat → Ctx × Call} (hz : ∀ i, Known n (z i).1) {k : Key} (hk : k.inUnit)
    (hw : k.Within d) (l : List Ev) (hl : ∀ e ∈ l, e.sound d) (i : Nat) (t t' : Table) (h : Chem.run (heard d n z i l) t = some t') :
    t' (.res (place d k)) (.mol n 1) = t (.res (place d k)) (.mol n 1) ∧
    t' (.res (place d k)) (.mol n 2) = t (.res (place d k)) (.mol n 2) + 1000 * recIn k l ∧
    t' (.res (place d k)) (.mol n 3) = t (.res (place d k)) (.mol n 3) + 1000 * recOut k l ∧
    (recEnd k l = [] → t' (.res (place d k)) (.mol n 4) = t (.res (place d k)) (.mol n 4) ∧
      t' (.res (place d k)) (.mol n 5) = t (.res (place d k)) (.mol n 5)) ∧
    (recVol k l = [] → t' (.res (place d k)) (.vol 4) = t (.res (place d k)) (.vol 4) ∧
      t' (.res (place d k)) (.vol 5) = t (.res (place d k)) (.vol 5)) := by
  induction l generalizing i t with
  | nil =>
    simp only [heard, Chem.run, Option.some.injEq] at h
    subst h
    simp [recIn, recOut]
  | cons e l ih =>
    simp only [heard, run_append] at h
    obtain ⟨u, h1, h2⟩ := told_step ok (sited_known (hz i) e) hk hw (hl e List.mem_cons_self) t
    rw [h1, Option.bind_some] at h
    obtain ⟨i1, i2, i3, i4, i5⟩ := ih (fun e he => hl e (List.mem_cons_of_mem _ he)) (i + 1) u h
    refine ⟨?_, ?_, ?_, ?_, ?_⟩
    · rw [i1, h2.init]
    · rw [i2, h2.inp]; simp only [recIn, List.map_cons, List.sum_cons]; ring
    · rw [i3, h2.out]; simp only [recOut, List.map_cons, List.sum_cons]; ring
    · intro hr
      simp only [recEnd, List.flatMap_cons, List.append_eq_nil_iff] at hr
      rw [(i4 hr.2).1, (i4 hr.2).2, (h2.still hr.1).1, (h2.still hr.1).2]
      exact ⟨rfl, rfl⟩
    · intro hr
      simp only [recVol, List.flatMap_cons, List.append_eq_nil_iff] at hr
      rw [(i5 hr.2).1, (i5 hr.2).2, (h2.vol hr.1).1, (h2.vol hr.1).2]
      exact ⟨rfl, rfl⟩

theorem heard_some {d : Dims} (ok : d.Ok) {n : Nat} {z : Nat → Ctx × Call} (hz : ∀ i, Known n (z i).1) (hm : 1 ≤ d.nmru) (l : List Ev)
    (hl : ∀ e ∈ l, e.sound d) (i : Nat) (t : Table) : ∃ t', Chem.run (heard d n z i l) t = some t' := by
  have hw : (Key.hill false 1 1).Within d := by
    refine ⟨by omega, by omega, hm⟩
  induction l generalizing i t with
  | nil => exact ⟨t, rfl⟩
  | cons e l ih =>
    obtain ⟨u, h1, h2⟩ := told_step ok (sited_known (hz i) e) (k := .hill false 1 1) rfl hw (hl e List.mem_cons_self) t
    obtain ⟨t', ht⟩ := ih (fun e he => hl e (List.mem_cons_of_mem _ he)) (i + 1) u
    exact ⟨t', by simp only [heard, run_append, h1, Option.bind_some, ht]⟩

/-- Volumes, where all records say the same. -/
theorem heard_vols {d : Dims} (ok : d.Ok) {n : Nat} {z : Nat → Ctx × Call} (hz : ∀ i, Known n (z i).1) {k : Key} (hk : k.inUnit)
    (hw : k.Within d) {x : Rat × Rat × Rat} (l : List Ev) (hl : ∀ e ∈ l, e.sound d) (hv : ∀ y ∈ recVol k l, y = x) (i : Nat) (t t' : Table)
    (h : Chem.run (heard d n z i l) t = some t')
    (h0 : recVol k l ≠ [] ∨ t (.res (place d k)) (.vol 4) = x.2.1 ∧ t (.res (place d k)) (.vol 5) = x.2.2) :
    t' (.res (place d k)) (.vol 4) = x.2.1 ∧ t' (.res (place d k)) (.vol 5) = x.2.2 := by
  induction l generalizing i t with
  | nil =>
    simp only [heard, Chem.run, Option.some.injEq] at h
    subst h
    rcases h0 with h0 | h0
    · exact absurd rfl h0
    · exact h0
  | cons e l ih =>
    simp only [heard, run_append] at h
    obtain ⟨u, h1, h2⟩ := told_step ok (sited_known (hz i) e) hk hw (hl e List.mem_cons_self) t
    rw [h1, Option.bind_some] at h
    have hv' : ∀ y ∈ recVol k l, y = x := fun y hy => hv y (by simp only [recVol, List.flatMap_cons]; exact List.mem_append_right _ hy)
    refine ih (fun e he => hl e (List.mem_cons_of_mem _ he)) hv' (i + 1) u h ?_
    cases hc : e.volumes k with
    | nil =>
      rcases h0 with h0 | h0
      · left
        simpa [recVol, List.flatMap_cons, hc] using h0
      · right
        rw [(h2.vol hc).1, (h2.vol hc).2]
        exact h0
    | cons y ys =>
      right
      have hm : y ∈ e.volumes k := by rw [hc]; exact List.mem_cons_self
      rw [(h2.vols y hm).1, (h2.vols y hm).2, hv y (by simp only [recVol, List.flatMap_cons]; exact List.mem_append_left _ hm)]
      exact ⟨rfl, rfl⟩

/-- The reaction. -/
theorem heard_react {d : Dims} (ok : d.Ok) {n : Nat} {z : Nat → Ctx × Call} (hz : ∀ i, Known n (z i).1) {k : Key} (hk : k.inUnit)
    (hw : k.Within d) {x : Rat × Rat × Rat} {c a : Rat} (l : List Ev) (hl : ∀ e ∈ l, e.sound d) (hv : ∀ y ∈ recVol k l, y = x)
    (hr : recEnd k l = [(c, a)]) (i : Nat) (t t' : Table) (h : Chem.run (heard d n z i l) t = some t')
    (h0 : Early k l ∨ t (.res (place d k)) (.vol 5) = x.2.2) :
    t' (.res (place d k)) (.mol n 4) = 1000 * (x.2.2 * (a - c)) ∧ t' (.res (place d k)) (.mol n 5) = 1000 * (x.2.2 * a) := by
  induction l generalizing i t with
  | nil => exact absurd hr (by simp [recEnd])
  | cons e l ih =>
    simp only [heard, run_append] at h
    obtain ⟨u, h1, h2⟩ := told_step ok (sited_known (hz i) e) hk hw (hl e List.mem_cons_self) t
    rw [h1, Option.bind_some] at h
    have hl' : ∀ e ∈ l, e.sound d := fun e he => hl e (List.mem_cons_of_mem _ he)
    have hv' : ∀ y ∈ recVol k l, y = x := fun y hy => hv y (by simp only [recVol, List.flatMap_cons]; exact List.mem_append_right _ hy)
    simp only [recEnd, List.flatMap_cons] at hr
    cases hc : e.reaction k with
    | nil =>
      rw [hc, List.nil_append] at hr
      refine ih hl' hv' hr (i + 1) u h ?_
      cases hd : e.volumes k with
      | nil =>
        rcases h0 with h0 | h0
        · left
          intro l1 e' l2 hs he'
          obtain ⟨e'', m, hm⟩ := h0 (e :: l1) e' l2 (by rw [hs]; rfl) he'
          rcases List.mem_cons.1 m with rfl | m
          · exact absurd hd hm
          · exact ⟨e'', m, hm⟩
        · right; rw [(h2.vol hd).2, h0]
      | cons y ys =>
        right
        have hm : y ∈ e.volumes k := by rw [hd]; exact List.mem_cons_self
        rw [(h2.vols y hm).2, hv y (by simp only [recVol, List.flatMap_cons]; exact List.mem_append_left _ hm)]
    | cons y ys =>
      have hm : y ∈ e.reaction k := by rw [hc]; exact List.mem_cons_self
      have h5 : t (.res (place d k)) (.vol 5) = x.2.2 := by
        rcases h0 with h0 | h0
        · obtain ⟨e', m, -⟩ := h0 [] e l rfl (by rw [hc]; simp)
          exact absurd m (by simp)
        · exact h0
      rw [hc, List.cons_append, List.cons.injEq, List.append_eq_nil_iff] at hr
      obtain ⟨rfl, -, hr2⟩ := hr
      obtain ⟨-, -, -, i4, -⟩ := heard_flows ok hz hk hw l hl' (i + 1) u t' h
      obtain ⟨j4, j5⟩ := i4 hr2
      rw [j4, j5, (h2.react _ hm).1, (h2.react _ hm).2, h5]
      exact ⟨rfl, rfl⟩

end Verif.Transport
