import Verif.Lemmas.ReservoirFlow
/-
Lemmas for C103, C104 and C106: composites, runs, streams and basin.
-/
namespace Verif.Reservoir
open Verif.Topmod (acfs)

theorem only_true_sum (f : Vol → Rat) (rip : List Bool) (vs : List Vol) :
    sumOf f (only true rip vs) = ((List.zip rip (vs.map f)).map fun x => if x.1 then x.2 else 0).sum := by
  unfold only
  induction rip generalizing vs with
  | nil => simp [sumOf]
  | cons k rip ih =>
    cases vs with
    | nil => simp [sumOf]
    | cons v vs =>
      have := ih vs
      cases k
      · simpa using this
      · simpa [sumOf_cons] using this

theorem only_both (f : Vol → Rat) (rip : List Bool) (vs : List Vol) (h : rip.length = vs.length) :
    sumOf f (only true rip vs) + sumOf f (only false rip vs) = sumOf f vs := by
  unfold only
  induction rip generalizing vs with
  | nil =>
    cases vs with
    | nil => simp [sumOf]
    | cons v vs => simp at h
  | cons k rip ih =>
    cases vs with
    | nil => simp at h
    | cons v vs =>
      have := ih vs (by simpa using h)
      cases k
      · simp [sumOf_cons] at this ⊢; linarith
      · simp [sumOf_cons] at this ⊢; linarith

theorem sumOf_fin (vs : List Vol) (h : ∀ v ∈ vs, v.Balanced) :
    sumOf (·.fin) vs = sumOf (·.init) vs + sumOf (·.inp) vs - sumOf (·.out) vs - sumOf (·.et) vs := by
  induction vs with
  | nil => simp [sumOf_nil]
  | cons v vs ih =>
    simp only [sumOf_cons]
    have := h v (by simp)
    have := ih fun w hw => h w (by simp [hw])
    unfold Vol.Balanced at *
    linarith

theorem step_bins (p : Par) (s : Start) (i : In) (r : Rows) (e : Extra) (h : step p s i = some (r, e))
    (hi : i.bins.length = p.ac.length) (hx : s.uz.length = p.ac.length) :
    r.uz.length = p.ac.length ∧ s.uz = r.uz.map (·.init) ∧ ∀ v ∈ r.uz, v.Balanced := by
  have hrow := step_rows p s i r e h
  obtain ⟨oh, b, h1, h2, e1, e2, e3, r1, r2, r3, r4, r5, r6, r7, r8, r9, r10, r11, r12, r13⟩ := step_eq p s i r e h
  have hlen : r.uz.length = p.ac.length := by
    rw [r5, e1]; unfold bins
    simp [List.length_zipWith, Topmod.acfs_length, hi, hx]
  refine ⟨hlen, ?_, ?_⟩
  · apply List.ext_getElem?
    intro j
    rw [List.getElem?_map]
    cases h : r.uz[j]? with
    | some v => exact (hrow (.uz j) v h).2.1
    | none =>
      rw [List.getElem?_eq_none_iff] at h
      rw [Option.map_none, List.getElem?_eq_none_iff]
      omega
  · intro v hv
    obtain ⟨j, hj⟩ := List.mem_iff_getElem?.1 hv
    exact (hrow (.uz j) v hj).2.2.2 (by simp)

/-- Composites stay composites. -/
theorem step_composite (p : Par) (s : Start) (i : In) (r : Rows) (e : Extra) (h : step p s i = some (r, e))
    (hr : p.rip.length = p.ac.length) (hi : i.bins.length = p.ac.length) (hs : s.Composite p) : r.next.Composite p := by
  obtain ⟨h1, h2, h3⟩ := step_bins p s i r e h hi hs.bins
  obtain ⟨oh, b, -, -, e1, e2, e3, r1, r2, r3, r4, r5, r6, r7, r8, r9, r10, r11, r12, r13⟩ := step_eq p s i r e h
  have hfin := sumOf_fin r.uz h3
  have hb := fun f => only_both f p.rip r.uz (by rw [hr, h1])
  have hT := sumOf_fin (only true p.rip r.uz) fun v hv => h3 v (only_mem _ _ _ v hv)
  have hsr : s.uzrip = sumOf (·.init) (only true p.rip r.uz) := by rw [only_true_sum, ← h2]; exact hs.rip
  have hsg : s.uzgen = sumOf (·.init) r.uz := by rw [hs.gen, h2]; rfl
  have hrip : r.next.uzrip = sumOf (·.fin) (only true p.rip r.uz) := by
    show r.uzrip.fin = _
    rw [r7, hT]
    simp only [composite]
    rw [hsr]
  have hgen : r.next.uzgen = sumOf (·.fin) r.uz := by
    show r.uzgen.fin = _
    rw [r6, hfin]
    simp only [composite]
    rw [hsg]
  refine ⟨?_, ?_, ?_, ?_⟩
  · simpa [Rows.next] using h1
  · rw [hgen]; rfl
  · have hup : r.next.uzup = s.uzup + sumOf (·.inp) (only false p.rip r.uz) - sumOf (·.out) (only false p.rip r.uz) -
        sumOf (·.et) (only false p.rip r.uz) := by
      show r.uzup.fin = _
      rw [r8]; rfl
    have hp := hs.parts
    have b1 := hb (·.inp)
    have b2 := hb (·.out)
    have b3 := hb (·.et)
    rw [hup, hrip, hgen, hT, hfin]
    rw [hsr, hsg] at hp
    linarith
  · rw [hrip, only_true_sum]; rfl

theorem initUnit_composite (p : Par) (f : First) (hr : p.rip.length = p.ac.length) (hl : f.uzDepth.length = p.ac.length) :
    (initUnit p f).Composite p := by
  have hlen : (initUnit p f).uz.length = p.ac.length := by simp [initUnit, Topmod.acfs_length, hl]
  refine ⟨hlen, rfl, ?_, ?_⟩
  · have := only_both (·.fin) p.rip ((initUnit p f).uz.map fun x => ({ fin := x } : Vol)) (by simp [hlen, hr])
    rw [sumOf_map] at this
    have e : sumOf (fun x : Rat => x) (initUnit p f).uz = (initUnit p f).uz.sum := by simp [sumOf]
    exact this.trans e
  · have := only_true_sum (·.fin) p.rip ((initUnit p f).uz.map fun x => ({ fin := x } : Vol))
    rw [List.map_map] at this
    have e : (initUnit p f).uz.map ((fun v : Vol => v.fin) ∘ fun x => ({ fin := x } : Vol)) = (initUnit p f).uz := by
      simp [Function.comp_def]
    rw [e] at this
    exact this

theorem initUnit_stored (p : Par) (f : First) : (initUnit p f).mru = (initUnit p f).stored := rfl

/-! ### Runs -/

theorem stepUnits_get (l : List (Par × Start × In)) (xs : List (Rows × Extra)) (h : stepUnits l = some xs) :
    xs.length = l.length ∧ ∀ (k : Nat) p s i, l[k]? = some (p, s, i) → ∃ x, xs[k]? = some x ∧ step p s i = some x := by
  induction l generalizing xs with
  | nil =>
    simp only [stepUnits, Option.some.injEq] at h
    subst h
    exact ⟨rfl, fun k p s i hk => absurd hk (by simp)⟩
  | cons a l ih =>
    obtain ⟨p, s, i⟩ := a
    unfold stepUnits at h
    split at h
    · rename_i x xs' h1 h2
      simp only [Option.some.injEq] at h
      subst h
      obtain ⟨hl, hg⟩ := ih xs' h2
      refine ⟨by simp [hl], ?_⟩
      intro k p' s' i' hk
      cases k with
      | zero =>
        simp only [List.getElem?_cons_zero, Option.some.injEq, Prod.mk.injEq] at hk
        obtain ⟨rfl, rfl, rfl⟩ := hk
        exact ⟨x, rfl, h1⟩
      | succ k =>
        rw [List.getElem?_cons_succ] at hk ⊢
        exact hg k p' s' i' hk
    · exact absurd h (by simp)

theorem webrrun_eq (b : Basin) (ps : List Par) (st : St) (is : List In) (si : StreamIn) (st' : St) (o : Out)
    (h : webrrun b ps st is si = some (st', o)) :
    stepUnits (List.zip ps (List.zip st.units is)) = some o.units ∧
    basin b (List.zip ps (List.zip is (o.units.map (·.1)))) si st.basin st.stream = some o.basin ∧
    st'.units = o.units.map (·.1.next) ∧ st'.basin = o.basin.vol.fin ∧ st'.stream = o.basin.stream := by
  unfold webrrun at h
  split at h
  · exact absurd h (by simp)
  · rename_i rs h1
    split at h
    · exact absurd h (by simp)
    · rename_i o' h2
      simp only [Option.some.injEq, Prod.mk.injEq] at h
      obtain ⟨rfl, rfl⟩ := h
      exact ⟨h1, h2, rfl, rfl, rfl⟩

/-- A unit of a step. -/
theorem webrrun_unit (b : Basin) (ps : List Par) (st : St) (is : List In) (si : StreamIn) (st' : St) (o : Out)
    (h : webrrun b ps st is si = some (st', o)) (k : Nat) (p : Par) (s : Start) (i : In) (hp : ps[k]? = some p)
    (hs : st.units[k]? = some s) (hi : is[k]? = some i) :
    ∃ r e, o.units[k]? = some (r, e) ∧ step p s i = some (r, e) ∧ st'.units[k]? = some r.next := by
  obtain ⟨h1, -, h3, -, -⟩ := webrrun_eq b ps st is si st' o h
  obtain ⟨x, hx, hstep⟩ := (stepUnits_get _ _ h1).2 k p s i
    (List.getElem?_zip_eq_some.2 ⟨hp, List.getElem?_zip_eq_some.2 ⟨hs, hi⟩⟩)
  exact ⟨x.1, x.2, hx, hstep, by rw [h3, List.getElem?_map, hx]; rfl⟩

theorem runSteps_cons (b : Basin) (ps : List Par) (st : St) (is : List In) (si : StreamIn) (ins : List (List In × StreamIn))
    (rs : List (St × Out)) (h : runSteps b ps st ((is, si) :: ins) = some rs) :
    ∃ st' o rs', webrrun b ps st is si = some (st', o) ∧ runSteps b ps st' ins = some rs' ∧ rs = (st', o) :: rs' := by
  unfold runSteps at h
  split at h
  · exact absurd h (by simp)
  · rename_i st' o h1
    obtain ⟨rs', h2, h3⟩ := Option.map_eq_some_iff.1 h
    exact ⟨st', o, rs', h1, h2, h3.symm⟩

/-- An invariant of one unit during a run. -/
theorem run_unit (b : Basin) (ps : List Par) (P : Par → Start → In → Prop) (Inv : Start → Prop) (k : Nat) (p : Par)
    (hp : ps[k]? = some p)
    (hstep : ∀ s i r e, Inv s → P p s i → step p s i = some (r, e) → Inv r.next)
    (ins : List (List In × StreamIn)) (st : St) (rs : List (St × Out)) (h : runSteps b ps st ins = some rs)
    (hlen : ∀ x ∈ ins, x.1.length = ps.length) (hP : Always b ps P st ins) (s : Start) (hs : st.units[k]? = some s)
    (h0 : Inv s) : ∀ x ∈ rs, ∃ s', x.1.units[k]? = some s' ∧ Inv s' := by
  induction ins generalizing st rs s with
  | nil =>
    simp only [runSteps, Option.some.injEq] at h
    subst h
    intro x hx; exact absurd hx (by simp)
  | cons a ins ih =>
    obtain ⟨is, si⟩ := a
    obtain ⟨st', o, rs', h1, h2, rfl⟩ := runSteps_cons b ps st is si ins rs h
    have hk : k < is.length := by
      rw [hlen (is, si) (by simp)]
      exact (List.getElem?_eq_some_iff.1 hp).1
    obtain ⟨r, e, ho, hst, hn⟩ := webrrun_unit b ps st is si st' o h1 k p s is[k] hp hs (List.getElem?_eq_getElem hk)
    have hPs := hP.1 k p s is[k] hp hs (List.getElem?_eq_getElem hk)
    have hinv := hstep s is[k] r e h0 hPs hst
    intro x hx
    rcases List.mem_cons.1 hx with rfl | hx
    · exact ⟨r.next, hn, hinv⟩
    · exact ih st' rs' h2 (fun y hy => hlen y (by simp [hy])) (hP.2 st' o h1) r.next hn hinv x hx

theorem always_true (b : Basin) (ps : List Par) (P : Par → Start → In → Prop) (h : ∀ p s i, P p s i) (st : St)
    (ins : List (List In × StreamIn)) : Always b ps P st ins := by
  induction ins generalizing st with
  | nil => trivial
  | cons a ins ih =>
    obtain ⟨is, si⟩ := a
    exact ⟨fun _ _ _ _ _ _ _ => h _ _ _, fun st' _ _ => ih st'⟩

theorem always_mono (b : Basin) (ps : List Par) (P Q : Par → Start → In → Prop) (h : ∀ p s i, P p s i → Q p s i) (st : St)
    (ins : List (List In × StreamIn)) (hP : Always b ps P st ins) : Always b ps Q st ins := by
  induction ins generalizing st with
  | nil => trivial
  | cons a ins ih =>
    obtain ⟨is, si⟩ := a
    exact ⟨fun k p s i a b c => h _ _ _ (hP.1 k p s i a b c), fun st' o ho => ih st' (hP.2 st' o ho)⟩

/-- The rows of a reservoir during a run. -/
theorem run_rows (b : Basin) (ps : List Par) (k : Nat) (p : Par) (hp : ps[k]? = some p) (q : Res)
    (ins : List (List In × StreamIn)) (st : St) (rs : List (St × Out)) (h : runSteps b ps st ins = some rs)
    (hlen : ∀ x ∈ ins, x.1.length = ps.length)
    (hbin : ∀ x ∈ ins, ∀ i, x.1[k]? = some i → i.bins.length = p.ac.length)
    (s : Start) (hs : st.units[k]? = some s) (hu : s.uz.length = p.ac.length) (x : Rat) (hx : s.vol q = some x) :
    (rows rs k q).length = ins.length ∧ Chain x (rows rs k q) ∧ ∀ v ∈ rows rs k q, v.Summed ∧ (q ≠ .snow → v.Balanced) := by
  induction ins generalizing st rs s x with
  | nil =>
    simp only [runSteps, Option.some.injEq] at h
    subst h
    exact ⟨rfl, trivial, fun v hv => absurd hv (by simp [rows])⟩
  | cons a ins ih =>
    obtain ⟨is, si⟩ := a
    obtain ⟨st', o, rs', h1, h2, rfl⟩ := runSteps_cons b ps st is si ins rs h
    have hk : k < is.length := by
      rw [hlen (is, si) (by simp)]
      exact (List.getElem?_eq_some_iff.1 hp).1
    obtain ⟨r, e, ho, hst, hn⟩ := webrrun_unit b ps st is si st' o h1 k p s is[k] hp hs (List.getElem?_eq_getElem hk)
    have hbk := hbin (is, si) (by simp) is[k] (List.getElem?_eq_getElem hk)
    obtain ⟨l1, l2, l3⟩ := step_bins p s is[k] r e hst hbk hu
    have hrow : ∃ v, r.row q = some v := by
      cases q <;> simp only [Rows.row] <;> try exact ⟨_, rfl⟩
      rename_i j
      simp only [Start.vol] at hx
      have hj := (List.getElem?_eq_some_iff.1 hx).1
      exact ⟨_, List.getElem?_eq_getElem (by rw [l1, ← hu]; exact hj)⟩
    obtain ⟨v, hv⟩ := hrow
    obtain ⟨w1, w2, w3, w4⟩ := step_rows p s is[k] r e hst q v hv
    obtain ⟨i1, i2, i3⟩ := ih st' rs' h2 (fun y hy => hlen y (by simp [hy])) (fun y hy => hbin y (by simp [hy])) r.next hn
      (by simpa [Rows.next] using l1) v.fin w3
    have hcons : rows ((st', o) :: rs') k q = v :: rows rs' k q := by
      unfold rows
      rw [List.filterMap_cons]
      simp [ho, hv]
    rw [hcons]
    refine ⟨by simp [i1], ⟨?_, i2⟩, ?_⟩
    · rw [w2] at hx
      exact Option.some.inj hx
    · intro u hu'
      rcases List.mem_cons.1 hu' with rfl | hu'
      · exact ⟨w1, w4⟩
      · exact i3 u hu'

/-- A chain of balanced rows adds up. -/
theorem chain_total (x : Rat) (vs : List Vol) (h : Chain x vs) (hb : ∀ v ∈ vs, v.Balanced) :
    (vs.getLast?.map (·.fin)).getD x = x + column (·.inp) vs - column (·.out) vs - column (·.et) vs := by
  induction vs generalizing x with
  | nil => simp [column]
  | cons v vs ih =>
    have h1 := ih v.fin h.2 fun w hw => hb w (by simp [hw])
    have h2 := hb v (by simp)
    have h3 : ((v :: vs).getLast?.map (·.fin)).getD x = (vs.getLast?.map (·.fin)).getD v.fin := by
      cases vs with
      | nil => simp
      | cons w vs => simp [List.getLast?_cons_cons, List.getLast?_cons]
    rw [h3, h1]
    unfold Vol.Balanced at h2
    rw [h2, h.1]
    simp only [column_eq, sumOf_cons]
    ring

/-! ### Streams -/

theorem zipAdd_length (a b : List Rat) (h : b.length = a.length) : (List.zipWith (· + ·) a b).length = a.length := by
  simp [List.length_zipWith, h]

theorem zipAdd_sum (a b : List Rat) (h : b.length = a.length) : (List.zipWith (· + ·) a b).sum = a.sum + b.sum := by
  induction a generalizing b with
  | nil =>
    cases b with
    | nil => simp
    | cons y b => simp at h
  | cons x a ih =>
    cases b with
    | nil => simp at h
    | cons y b =>
      simp only [List.zipWith_cons_cons, List.sum_cons]
      rw [ih b (by simpa using h)]
      ring

theorem addAll_spec (st : List Rat) (xs : List (List Rat)) (h : ∀ x ∈ xs, x.length = st.length) :
    (addAll st xs).length = st.length ∧ (addAll st xs).sum = st.sum + sumOf (·.sum) xs := by
  induction xs generalizing st with
  | nil => simp [addAll, sumOf]
  | cons x xs ih =>
    unfold addAll
    have hx := h x (by simp)
    have hl := zipAdd_length st x hx
    obtain ⟨a, b⟩ := ih (List.zipWith (· + ·) st x) fun y hy => by rw [hl]; exact h y (by simp [hy])
    rw [a, b, hl, zipAdd_sum st x hx, sumOf_cons]
    exact ⟨rfl, by ring⟩

theorem map_mul_sum (c : Rat) (l : List Rat) (f : Rat → Rat) (h : ∀ x ∈ l, f x = c * x) : (l.map f).sum = c * l.sum := by
  induction l with
  | nil => simp
  | cons x l ih =>
    simp only [List.map_cons, List.sum_cons]
    rw [ih fun y hy => h y (by simp [hy]), h x (by simp)]
    ring

theorem hillexp_spec (b : Basin) (n : Nat) (hb : b.Ok n) (p : Par) (v : Vol) (x : List Rat)
    (h : hillexp b.area b.chans p v = some x) : x.length = n ∧ x.sum = v.out := by
  unfold hillexp at h
  split at h
  · exact absurd h (by simp)
  · rename_i c hc
    split at hc
    · exact absurd hc (by simp)
    · have hmem : c ∈ b.chans := List.mem_of_getElem? hc
      obtain ⟨h1, h2, h3⟩ := hb.chans c hmem
      split at h
      · exact absurd h (by simp)
      · rw [← Option.some.inj h]
        refine ⟨by simp [h1], ?_⟩
        have ha := hb.area
        rw [map_mul_sum (v.out / (c.area / b.area)) c.ar _ fun a _ => by ring, h2]
        field_simp

theorem exports_spec (b : Basin) (n : Nat) (hb : b.Ok n) (us : List (Par × Vol)) (xs : List (List Rat))
    (h : exports b.area b.chans us = some xs) :
    (∀ x ∈ xs, x.length = n) ∧ xs.map (·.sum) = us.map (·.2.out) := by
  induction us generalizing xs with
  | nil =>
    simp only [exports, Option.some.injEq] at h
    subst h
    exact ⟨fun x hx => absurd hx (by simp), rfl⟩
  | cons u us ih =>
    obtain ⟨p, v⟩ := u
    unfold exports at h
    split at h
    · rename_i x xs' h1 h2
      rw [← Option.some.inj h]
      obtain ⟨a, c⟩ := ih xs' h2
      obtain ⟨d, e⟩ := hillexp_spec b n hb p v x h1
      refine ⟨?_, by simp [c, e]⟩
      intro y hy
      rcases List.mem_cons.1 hy with rfl | hy
      · exact d
      · exact a y hy
    · exact absurd h (by simp)

theorem tail_sum (l : List Rat) : l.tail.sum = l.sum - l.headD 0 := by
  cases l with
  | nil => simp
  | cons x l => simp

/-- The basin and its streams in a step. -/
theorem basin_spec (b : Basin) (n : Nat) (hb : b.Ok n) (units : List (Par × In × Rows)) (si : StreamIn) (init : Rat)
    (stream : List Rat) (hn : stream.length = n) (o : BasinOut) (h : basin b units si init stream = some o) :
    o.stream.length = n ∧ o.stream.sum = stream.sum + sumOf (fun u => u.2.2.hill.out) units - o.discharge ∧
    o.vol.init = init ∧ o.vol.Balanced ∧ o.vol.Summed ∧
    o.vol.inp = sumOf (fun u => (fall u.1 u.2.1).total + (u.2.2.sat.gw1 + u.2.2.sat.gw2)) units ∧
    o.vol.out = sumOf (fun u => u.1.vol u.2.1.gwLoss + (fall u.1 u.2.1).well) units + (o.loss.sum + o.taken.sum) + o.discharge ∧
    o.vol.et = sumOf (fun u => u.2.2.can.et + u.2.2.snow.et + sumOf (·.et) u.2.2.uz) units ∧
    o.hillexp.map (·.sum) = units.map (·.2.2.hill.out) ∧ o.taken = si.taken ∧
    o.loss = si.loss.map (fun x => x * (b.area * 1000000)) := by
  unfold basin at h
  split at h
  · exact absurd h (by simp)
  · rename_i ex hex
    obtain ⟨h1, h2⟩ := exports_spec b n hb _ ex hex
    obtain ⟨h3, h4⟩ := addAll_spec stream ex fun x hx => by rw [hn]; exact h1 x hx
    have h5 : sumOf (·.sum) ex = sumOf (fun u : Par × In × Rows => u.2.2.hill.out) units := by
      unfold sumOf
      rw [h2, List.map_map]
      rfl
    simp only [Option.some.injEq] at h
    rw [← h]
    refine ⟨?_, ?_, rfl, rfl, ?_, rfl, rfl, rfl, ?_, rfl, ?_⟩
    · have := hb.pos
      simp only [List.length_append, List.length_tail, h3, hn, List.length_singleton]
      omega
    · simp only [List.sum_append, List.sum_singleton, tail_sum, h4, h5]; ring
    · simp only [Vol.Summed, Vol.sources, Fall.total]
      simp only [sumOf_add]
      ring
    · rw [h2, List.map_map]; rfl
    · simp only
      apply List.map_congr_left
      intro x _
      unfold million; ring

end Verif.Reservoir
