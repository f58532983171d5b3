import Verif.Lemmas.TransportMru3
/-
What the composite of a unit shows after a step.
-/
namespace Verif.Transport
open Verif.Reservoir (Vol Rows BinOut Par In sumOf)
open Verif.Chem (Ctx Call Event Table Same)
open Verif.SolnNum (Dims)

theorem rows_mem {f : Flow} {k : Key} (h : k ∈ f.rows) :
    (∃ i ∈ [1, 2, 4, 7, 8, 9], k = f.key false i) ∨ ∃ j, j < f.bins.length ∧ k = .bin false f.unit (j + 1) := by
  unfold Flow.rows at h
  rcases List.mem_append.1 h with h | h
  · obtain ⟨i, h1, h2⟩ := List.mem_map.1 h
    exact Or.inl ⟨i, h1, h2.symm⟩
  · obtain ⟨j, h1, h2⟩ := List.mem_map.1 h
    exact Or.inr ⟨j, List.mem_range.1 h1, h2.symm⟩

theorem rows_unit {f : Flow} {k : Key} (h : k ∈ f.rows) : k.unit? = some f.unit ∧ k.inUnit ∧ k.of f.unit ∧ f.Row k := by
  rcases rows_mem h with ⟨i, h1, rfl⟩ | ⟨j, h1, rfl⟩
  · refine ⟨rfl, key_inUnit f i, rfl, Or.inr (Or.inr (Or.inr (Or.inl ⟨i, ?_, rfl⟩)))⟩
    simp only [List.mem_cons, List.not_mem_nil, or_false] at h1 ⊢
    omega
  · exact ⟨rfl, by simp [Key.inUnit], rfl, Or.inr (Or.inr (Or.inr (Or.inr ⟨j + 1, by omega, by omega, rfl⟩)))⟩

theorem rows_nodup (f : Flow) : f.rows.Nodup := by
  unfold Flow.rows
  refine List.nodup_append.2 ⟨?_, ?_, ?_⟩
  · simp [Flow.key]
  · refine List.Nodup.map ?_ List.nodup_range
    intro a b h
    simpa using h
  · intro a ha b hb
    obtain ⟨i, -, rfl⟩ := List.mem_map.1 ha
    obtain ⟨j, -, rfl⟩ := List.mem_map.1 hb
    simp [Flow.key]

theorem proper_rows {f : Flow} {e : Ev} (he : e.proper f) {c : Key × Rat × Rat} (hc : c ∈ e.made f.unit) : c.1 ∈ f.rows := by
  cases e with
  | call row metric vol conc tal mru basin react =>
    cases react with
    | false => simp [Ev.made] at hc
    | true =>
      simp only [Ev.made] at hc
      split at hc
      · simp only [List.mem_cons, List.not_mem_nil, or_false] at hc
        subst hc
        obtain ⟨a, b⟩ := he
        simp only [if_true] at b
        obtain ⟨-, -, -, b⟩ := b
        dsimp only
        unfold Flow.rows
        rcases a with rfl | rfl | rfl | ⟨i, h, rfl⟩ | ⟨j, h1, h2, rfl⟩
        · exact absurd b (by simp [Key.holds])
        · exact absurd b (by simp [Key.holds])
        · exact absurd b (by simp [Key.holds])
        · exact List.mem_append_left _ (List.mem_map.2 ⟨i, b.2, rfl⟩)
        · exact List.mem_append_right _ (List.mem_map.2 ⟨j - 1, List.mem_range.2 (by omega), by rw [Nat.sub_add_cancel h1]⟩)
      · exact absurd hc (by simp)
  | _ => simp [Ev.made] at hc

/-- A row whose records are in order: volumes that agree, and at most one reaction. -/
def Settled (k : Key) (l : List Ev) : Prop :=
  (recVol k l ≠ [] ∧ ∃ x, ∀ y ∈ recVol k l, y = x) ∧ (recEnd k l = [] ∨ ∃ c a, recEnd k l = [(c, a)])

theorem Booked.settled {v : Vol} {pre c0 c1 src : Rat} {k : Key} {l : List Ev} (h : Booked v pre c0 c1 src k l) : Settled k l := by
  refine ⟨⟨h.vols.1, _, h.vols.2⟩, ?_⟩
  rcases h.rest with ⟨c, a, r, -⟩ | ⟨r, -⟩
  · exact Or.inr ⟨c, a, r⟩
  · exact Or.inl r

theorem recorded_settled {f : Flow} {s s' : St} {l : List Ev} (h : Recorded f s s' l) {k : Key} (hk : k ∈ f.rows) : Settled k l := by
  rcases rows_mem hk with ⟨i, h1, rfl⟩ | ⟨j, h1, rfl⟩
  · simp only [List.mem_cons, List.not_mem_nil, or_false] at h1
    rcases h1 with rfl | rfl | rfl | rfl | rfl | rfl
    · exact h.can.settled
    · exact h.snow.settled
    · exact h.ohoriz.settled
    · exact h.qdf.settled
    · exact h.sat.settled
    · by_cases hp : 0 < f.prefMax
      · obtain ⟨⟨r0, r1⟩, c, a, r2, -⟩ := h.path hp
        exact ⟨⟨r0, _, r1⟩, Or.inr ⟨c, a, r2⟩⟩
      · obtain ⟨r0, r1, -⟩ := h.shut hp
        refine ⟨⟨by rw [r0]; simp, (f.r.satpref.init, f.r.satpref.et, f.r.satpref.fin), by rw [r0]; simp⟩, Or.inl r1⟩
  · exact (h.uz j _ (List.getElem?_eq_getElem h1)).settled

theorem Settled.around {k : Key} {p l q : List Ev} (h : Settled k l) (hp : Quiet k p) (hq : Quiet k q) : Settled k (p ++ l ++ q) := by
  obtain ⟨-, -, c, d⟩ := rec_around (l := l) hp hq
  unfold Settled
  rw [c, d]
  exact h

theorem hushed_recs {u : Nat} {l : List Ev} (h : ∀ e ∈ l, e.hushed u) :
    recCrossIn u l = 0 ∧ recCrossOut u l = 0 ∧ recEnter u l = 0 ∧ recLeave u l = 0 ∧ recMade u l = [] := by
  induction l with
  | nil => simp [recCrossIn, recCrossOut, recEnter, recLeave, recMade]
  | cons e l ih =>
    obtain ⟨a, b, c, d, g⟩ := h e List.mem_cons_self
    obtain ⟨a', b', c', d', g'⟩ := ih fun e he => h e (List.mem_cons_of_mem _ he)
    simp only [recCrossIn, recCrossOut, recEnter, recLeave, recMade] at *
    simp [a, b, c, d, g, a', b', c', d', g']

/-- Amounts of a row: those of the reactions. -/
theorem settled_mol {d : Dims} (ok : d.Ok) {n : Nat} {z : Nat → Ctx × Call} (hz : ∀ i, Known n (z i).1) {k : Key} (hk : k.inUnit)
    (hw : k.Within d) {l : List Ev} (hl : ∀ e ∈ l, e.sound d) (hS : Settled k l) (he : Early k l) {u t : Table} (hu : Blank n u) (i : Nat)
    (h : Chem.run (heard d n z i l) u = some t) :
    (∀ y ∈ recVol k l, y.2.2 = t (.res (place d k)) (.vol 5)) ∧
    t (.res (place d k)) (.mol n 4) = ((recEnd k l).map fun c => 1000 * (t (.res (place d k)) (.vol 5) * (c.2 - c.1))).sum ∧
    t (.res (place d k)) (.mol n 5) = ((recEnd k l).map fun c => 1000 * (t (.res (place d k)) (.vol 5) * c.2)).sum := by
  obtain ⟨⟨s1, x, s2⟩, s3⟩ := hS
  obtain ⟨-, v2⟩ := heard_vols ok hz hk hw l hl s2 i u t h (Or.inl s1)
  refine ⟨fun y hy => by rw [s2 y hy, v2], ?_⟩
  rcases s3 with s3 | ⟨c, a, s3⟩
  · obtain ⟨-, -, -, f4, -⟩ := heard_flows ok hz hk hw l hl i u t h
    obtain ⟨g4, g5⟩ := f4 s3
    rw [g4, g5, s3, hu _ 4 (by simp), hu _ 5 (by simp)]
    simp
  · obtain ⟨e4, e5⟩ := heard_react ok hz hk hw l hl s2 s3 i u t h (Or.inl he)
    rw [e4, e5, s3, v2]
    simp

theorem sum_range (g : Nat → Rat) (bs : List BinOut) (gb : Nat → BinOut → Rat) (j0 : Nat)
    (h : ∀ j b, bs[j]? = some b → g j = gb (j0 + j) b) : ((List.range bs.length).map g).sum = overOuts gb j0 bs := by
  induction bs generalizing g j0 with
  | nil => simp [overOuts]
  | cons b bs ih =>
    rw [List.length_cons, List.range_succ_eq_map, List.map_cons, List.sum_cons, List.map_map, overOuts]
    rw [h 0 b rfl, ih (g ∘ Nat.succ) (j0 + 1) fun j b' hj => by
      rw [Function.comp, h (j + 1) b' (by simpa using hj)]
      congr 1
      omega]
    rfl

/-- What the composite of a unit shows, of records `p ++ l ++ q` where `l` are those of the unit. -/
theorem mru_shown {d : Dims} (ok : d.Ok) {n : Nat} {z : Nat → Ctx × Call} (hz : ∀ i, Known n (z i).1) {f : Flow} (hi : f.Inside d)
    {s s' : St} {p l q : List Ev} (hR : Recorded f s s' l) (he : ∀ k, Early k l)
    (hp : ∀ k : Key, k.inUnit → k.of f.unit → Quiet k p ∧ Quiet k q) (hs : ∀ e ∈ p ++ l ++ q, e.sound d)
    (hb : ∀ e ∈ p ++ l ++ q, e.bound) (hl : ∀ e ∈ l, e.proper f)
    (hc : recCrossIn f.unit l = fallenMol f s ∧
      recCrossOut f.unit l = f.well * at_ s (f.key false 8) + f.r.hill.out * at_ s' (f.key true 10))
    (hh : ∀ e ∈ p ++ q, e.hushed f.unit) {u t : Table} (hu : Blank n u) (hu' : BlankUnits n u)
    (h : Chem.run (heard d n z 0 (p ++ l ++ q)) u = some t) : MruShown d n f s s' u t := by
  have he' : ∀ k : Key, k.inUnit → k.of f.unit → Early k (p ++ l ++ q) := fun k h1 h2 =>
    ((hp k h1 h2).1.early.append (he k)).append (hp k h1 h2).2.early
  have hq1 := hushed_recs (u := f.unit) (l := p) fun e h => hh e (List.mem_append_left _ h)
  have hq2 := hushed_recs (u := f.unit) (l := q) fun e h => hh e (List.mem_append_right _ h)
  have aIn : recCrossIn f.unit (p ++ l ++ q) = recCrossIn f.unit l := by
    rw [(cross_append _ _ _).1, (cross_append _ _ _).1, hq1.1, hq2.1]; ring
  have aOut : recCrossOut f.unit (p ++ l ++ q) = recCrossOut f.unit l := by
    rw [(cross_append _ _ _).2, (cross_append _ _ _).2, hq1.2.1, hq2.2.1]; ring
  have aEnt : recEnter f.unit (p ++ l ++ q) = recEnter f.unit l := by
    have h1 := hq1.2.2.1; have h2 := hq2.2.2.1
    simp only [recEnter, List.map_append, List.sum_append] at h1 h2 ⊢
    rw [h1, h2]; ring
  have aLv : recLeave f.unit (p ++ l ++ q) = recLeave f.unit l := by
    have h1 := hq1.2.2.2.1; have h2 := hq2.2.2.2.1
    simp only [recLeave, List.map_append, List.sum_append] at h1 h2 ⊢
    rw [h1, h2]; ring
  have aMade : recMade f.unit (p ++ l ++ q) = recMade f.unit l := by
    have h1 := hq1.2.2.2.2; have h2 := hq2.2.2.2.2
    simp only [recMade, List.flatMap_append] at h1 h2 ⊢
    rw [h1, h2]; simp
  have hrows : ∀ c ∈ recMade f.unit (p ++ l ++ q), c.1 ∈ f.rows := by
    rw [aMade]
    intro c hc
    obtain ⟨e, e1, e2⟩ := List.mem_flatMap.1 hc
    exact proper_rows (hl e e1) e2
  have hmol : ∀ k ∈ f.rows, _ := fun k hk =>
    have hu := rows_unit hk
    settled_mol ok hz hu.2.1 (Flow.Row.within hi hu.2.2.2).1 hs
      ((recorded_settled hR hk).around (hp k hu.2.1 hu.2.2.1).1 (hp k hu.2.1 hu.2.2.1).2) (he' k hu.2.1 hu.2.2.1) ‹Blank n u› 0 h
  obtain ⟨m1, m2, m3, m4, m5⟩ := heard_mru (u := f.unit) ok hz (fun k => t (.res (place d k)) (.vol 5)) (· ∈ f.rows) _ hs hb hrows
    (fun k hk => (hmol k hk).1) 0 u t h fun k hk a b => Or.inl (he' k a (rows_unit hk).2.2.1)
  rw [hu' _ 2 (by simp), zero_add] at m2
  rw [hu' _ 3 (by simp), zero_add] at m3
  rw [hu' _ 4 (by simp), zero_add, made_rows f.rows (rows_nodup f) _ hs hrows fun k hk => (rows_unit hk).1] at m4
  rw [hu' _ 5 (by simp), zero_add, made_rows f.rows (rows_nodup f) _ hs hrows fun k hk => (rows_unit hk).1] at m5
  have r4 : t (.mru f.unit) (.mol n 4) = (f.rows.map fun k => t (.res (place d k)) (.mol n 4)).sum := by
    rw [m4]
    congr 1
    exact List.map_congr_left fun k hk => ((hmol k hk).2.1).symm
  have r5 : t (.mru f.unit) (.mol n 5) = (f.rows.map fun k => t (.res (place d k)) (.mol n 5)).sum := by
    rw [m5]
    congr 1
    exact List.map_congr_left fun k hk => ((hmol k hk).2.2).symm
  have hS := unit_shown ok hz hi hR he hp hs hu h
  refine ⟨m1, ?_, ?_, ?_, ?_⟩
  · rw [m2, aIn, aEnt, hc.1, hR.entered]; ring
  · obtain ⟨c, a, e1, e2⟩ := hR.left
    have hk := key_inUnit f 8
    obtain ⟨q1, q2⟩ := hp _ hk rfl
    have hw := key_within hi 8 (by simp)
    obtain ⟨-, b2, b3, b4⟩ := rec_around (l := l) q1 q2
    obtain ⟨e4, -⟩ := heard_react ok hz hk hw _ hs (hR.sat.around q1 q2).vols.2 (b3.trans e1) 0 u t h (Or.inl (he' _ hk rfl))
    obtain ⟨-, -, f3, -, -⟩ := heard_flows ok hz hk hw _ hs 0 u t h
    rw [hu _ 3 (by simp), zero_add, b2] at f3
    rcases hR.sat.rest with ⟨c', a', r1, r2, -, r4⟩ | ⟨r1, -⟩
    · rw [e1] at r1
      simp only [List.cons.injEq, Prod.mk.injEq, and_true] at r1
      obtain ⟨rfl, rfl⟩ := r1
      refine ⟨c, by rw [m3, aOut, aLv, hc.2, e2]; ring, by rw [f3, r2], ?_⟩
      rw [e4]
      dsimp only
      rcases eq_or_ne f.r.sat.fin 0 with h0 | h0
      · rw [h0]; ring
      · rw [r4 h0]
    · rw [e1] at r1; exact absurd r1 (by simp)
  · rw [r5]
    unfold Flow.rows known held
    rw [List.map_append, List.sum_append, List.map_map]
    have hbins : ((List.range f.bins.length).map ((fun k => t (.res (place d k)) (.mol n 5)) ∘ fun j => Key.bin false f.unit (j + 1))).sum =
        1000 * overOuts (fun j b => b.vol.fin * at_ s' (.bin true f.unit j)) 1 f.bins := by
      rw [sum_range _ _ (fun j b => 1000 * (b.vol.fin * at_ s' (.bin true f.unit j))) 1]
      · generalize f.bins = bs
        clear * -
        generalize 1 = j
        induction bs generalizing j with
        | nil => simp [overOuts]
        | cons b bs ih => simp only [overOuts]; rw [ih]; ring
      · intro j b hj
        rw [Function.comp, (hS.uz j b hj).final, Nat.add_comm 1 j]
    rw [List.map_map, hbins]
    simp only [List.map_cons, List.map_nil, List.sum_cons, List.sum_nil, Function.comp]
    rw [hS.can.final, hS.snow.final, hS.ohoriz.final, hS.qdf.final, hS.sat.final]
    split_ifs with hpm
    · rw [(hS.path hpm).2.2.2.1]; ring
    · rw [(hS.shut hpm).2.2 5 (by simp)]; ring
  · rintro i (rfl | rfl)
    · exact r4
    · exact r5

/-- What is shown depends on the solutions of the unit, and on those of rain, irrigation and groundwater. -/
theorem mru_congr {d : Dims} {n : Nat} {f : Flow} {s s' w w' : St} {u t : Table} (h : MruShown d n f s s' u t)
    (h1 : ∀ k : Key, k.of f.unit ∨ k.fixed → w.sol k = s.sol k)
    (h2 : ∀ k : Key, k.of f.unit → k ≠ .hill false 14 f.unit → w'.sol k = s'.sol k) : MruShown d n f w w' u t := by
  have a1 : ∀ i, at_ w (f.key false i) = at_ s (f.key false i) := fun i => at_congr (h1 _ (Or.inl rfl))
  have a3 : ∀ j, at_ w (.data j) = at_ s (.data j) := fun j => at_congr (h1 _ (Or.inr trivial))
  have a4 : fallenMol f w = fallenMol f s := by
    unfold fallenMol
    rw [a3, a3, a1, at_congr (h1 (.seg false f.srcInt) (Or.inr trivial))]
  have b1 : ∀ i, at_ w' (f.key true i) = at_ s' (f.key true i) := fun i => at_congr (h2 _ rfl (by simp [Flow.key]))
  have b2 : ∀ j, at_ w' (.bin true f.unit j) = at_ s' (.bin true f.unit j) := fun j => at_congr (h2 _ rfl (by simp))
  obtain ⟨g1, g2, g3, g4, g5⟩ := h
  refine ⟨g1, ?_, ?_, ?_, g5⟩
  · rw [a4, a3, a3]; exact g2
  · rw [b1, b1, a1]; exact g3
  · unfold known held at g4 ⊢
    simp only [b1, b2]; exact g4

end Verif.Transport
