import Verif.Lemmas.ReservoirRun
/-
Lemmas for C106 to C108: basin, depths reported, output files.
-/
namespace Verif.Reservoir

/-- The change of the water of a unit, from its row. -/
theorem mru_change (p : Par) (s : Start) (i : In) (r : Rows) (e : Extra) (h : step p s i = some (r, e)) :
    r.next.mru = s.mru + ((fall p i).total + (r.sat.gw1 + r.sat.gw2)) - (p.vol i.gwLoss + (fall p i).well) - r.hill.out -
      (r.can.et + r.snow.et + sumOf (·.et) r.uz) := by
  obtain ⟨oh, b, h1, h2, e1, e2, e3, r1, r2, r3, r4, r5, r6, r7, r8, r9, r10, r11, r12, r13⟩ := step_eq p s i r e h
  have : r.next.mru = r.mru.fin := rfl
  rw [this, r13]
  simp only [mruRow]
  ring

/-- The sum over the units. -/
theorem units_change (ps : List Par) (us : List Start) (is : List In) (rs : List (Rows × Extra))
    (h : stepUnits (List.zip ps (List.zip us is)) = some rs) (hu : us.length = ps.length) (hi : is.length = ps.length) :
    rs.length = ps.length ∧
    sumOf (·.mru) (rs.map (·.1.next)) = sumOf (·.mru) us +
      sumOf (fun u : Par × In × Rows => (fall u.1 u.2.1).total + (u.2.2.sat.gw1 + u.2.2.sat.gw2)) (List.zip ps (List.zip is (rs.map (·.1)))) -
      sumOf (fun u : Par × In × Rows => u.1.vol u.2.1.gwLoss + (fall u.1 u.2.1).well) (List.zip ps (List.zip is (rs.map (·.1)))) -
      sumOf (fun u : Par × In × Rows => u.2.2.hill.out) (List.zip ps (List.zip is (rs.map (·.1)))) -
      sumOf (fun u : Par × In × Rows => u.2.2.can.et + u.2.2.snow.et + sumOf (·.et) u.2.2.uz) (List.zip ps (List.zip is (rs.map (·.1)))) := by
  induction ps generalizing us is rs with
  | nil =>
    have h0 := List.eq_nil_of_length_eq_zero hu
    subst h0
    simp only [List.zip_nil_left, stepUnits, Option.some.injEq] at h
    subst h
    exact ⟨rfl, by simp [sumOf]⟩
  | cons p ps ih =>
    cases us with
    | nil => simp at hu
    | cons s us =>
      cases is with
      | nil => simp at hi
      | cons i is =>
        simp only [List.zip_cons_cons] at h
        unfold stepUnits at h
        split at h
        · rename_i x xs h1 h2
          have h := Option.some.inj h
          subst h
          obtain ⟨a, b⟩ := ih us is xs h2 (by simpa using hu) (by simpa using hi)
          refine ⟨by simp [a], ?_⟩
          have hm := mru_change p s i x.1 x.2 h1
          simp only [List.map_cons, List.zip_cons_cons, sumOf_cons]
          rw [b, hm]
          ring
        · exact absurd h (by simp)

/-- A step of the basin. -/
theorem webrrun_basin (b : Basin) (n : Nat) (hb : b.Ok n) (ps : List Par) (st : St) (is : List In) (si : StreamIn) (st' : St) (o : Out)
    (hu : st.units.length = ps.length) (hi : is.length = ps.length) (hn : st.stream.length = n)
    (h : webrrun b ps st is si = some (st', o)) :
    st'.units.length = ps.length ∧ st'.stream.length = n ∧
    st'.basin + (o.basin.loss.sum + o.basin.taken.sum) - st.basin =
      sumOf (·.mru) st'.units - sumOf (·.mru) st.units + (st'.stream.sum - st.stream.sum) := by
  obtain ⟨h1, h2, h3, h4, h5⟩ := webrrun_eq b ps st is si st' o h
  obtain ⟨u1, u2⟩ := units_change ps st.units is o.units h1 hu hi
  obtain ⟨b1, b2, b3, b4, b5, b6, b7, b8, -⟩ := basin_spec b n hb _ si st.basin st.stream hn o.basin h2
  refine ⟨by rw [h3, List.length_map, u1], by rw [h5, b1], ?_⟩
  unfold Vol.Balanced at b4
  rw [h4, h5, b4, b3, b6, b7, b8, h3, u2, b2]
  ring

/-- A run of the basin. -/
theorem run_basin (b : Basin) (n : Nat) (hb : b.Ok n) (ps : List Par) (ins : List (List In × StreamIn)) (st : St)
    (rs : List (St × Out)) (hu : st.units.length = ps.length) (hi : ∀ x ∈ ins, x.1.length = ps.length) (hn : st.stream.length = n)
    (h : runSteps b ps st ins = some rs) :
    ((rs.map (·.1)).getLastD st).basin + lostAndTaken rs - st.basin =
      sumOf (·.mru) ((rs.map (·.1)).getLastD st).units - sumOf (·.mru) st.units +
        (((rs.map (·.1)).getLastD st).stream.sum - st.stream.sum) := by
  induction ins generalizing st rs with
  | nil =>
    simp only [runSteps, Option.some.injEq] at h
    subst h
    simp [lostAndTaken]
  | cons a ins ih =>
    obtain ⟨is, si⟩ := a
    obtain ⟨st', o, rs', h1, h2, rfl⟩ := runSteps_cons b ps st is si ins rs h
    obtain ⟨a1, a2, a3⟩ := webrrun_basin b n hb ps st is si st' o hu (hi (is, si) (by simp)) hn h1
    have := ih st' rs' a1 (fun x hx => hi x (by simp [hx])) a2 h2
    have hl : (((st', o) :: rs').map (·.1)).getLastD st = (rs'.map (·.1)).getLastD st' := by
      rw [List.map_cons, List.getLastD_cons]
    rw [hl]
    have ht : lostAndTaken ((st', o) :: rs') = o.basin.loss.sum + o.basin.taken.sum + lostAndTaken rs' := by
      simp [lostAndTaken]
    rw [ht]
    linarith

/-- A property of every unit at every time of a run. -/
theorem run_all (b : Basin) (ps : List Par) (ins : List (List In × StreamIn)) (st : St) (rs : List (St × Out))
    (P : Par → Start → In → Prop) (Inv : Par → Start → Prop)
    (hstep : ∀ p ∈ ps, ∀ s i r e, Inv p s → P p s i → step p s i = some (r, e) → Inv p r.next)
    (h : runSteps b ps st ins = some rs) (hlen : ∀ x ∈ ins, x.1.length = ps.length) (hP : Always b ps P st ins)
    (hu : st.units.length = ps.length) (h0 : ∀ (k : Nat) p s, ps[k]? = some p → st.units[k]? = some s → Inv p s)
    (k : Nat) (p : Par) (hp : ps[k]? = some p) : ∃ s, ((rs.map (·.1)).getLastD st).units[k]? = some s ∧ Inv p s := by
  have hk : k < st.units.length := by rw [hu]; exact (List.getElem?_eq_some_iff.1 hp).1
  have hs : st.units[k]? = some st.units[k] := List.getElem?_eq_getElem hk
  have hall := run_unit b ps P (Inv p) k p hp (fun s i r e => hstep p (List.mem_of_getElem? hp) s i r e) ins st rs h hlen hP _ hs
    (h0 k p _ hp hs)
  cases rs with
  | nil => exact ⟨_, hs, h0 k p _ hp hs⟩
  | cons x rs =>
    have hl : ((x :: rs).map (·.1)).getLastD st = ((x :: rs).getLast (by simp)).1 := by
      rw [List.getLastD_eq_getLast?, List.getLast?_map, List.getLast?_eq_some_getLast (by simp)]
      rfl
    rw [hl]
    exact hall _ (List.getLast_mem _)

end Verif.Reservoir
