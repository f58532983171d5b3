import Verif.Lemmas.Chem
import Mathlib.Tactic.NormNum
import Mathlib.Tactic.FieldSimp
import Mathlib.Tactic.Linarith
/-
C43, C60, C61.
-/
namespace Verif.Chem

/-! ### C43: solute masses are accounted to the right reservoirs -/

/-- An input or output without reaction is recorded in full, with volume, temperature, pH, moles and deltas, in the
slot it belongs to of exactly the accounts it concerns; nothing else changes. -/
theorem C43_flow (x : Ctx) (c : Call) (t : Table) (h : Flow x c) :
    ∃ t', updateChem x c t = some t' ∧
      ∀ a f, t' a f = t a f + if concerns x c a = true then amount x c c.slot f else 0 :=
  updateChem_flow x c t h

/-- The reaction of a reservoir of a hillslope in its final volume.  The reservoir holds afterwards the moles of the
reacted water, the difference to the unreacted water is recorded as produced, by solute and by entity; every composite
the reservoir is part of takes up the same volume, evaporation, final moles, production and deltas; the output
that goes with it is accounted as in `C43_flow`; no other account changes. -/
theorem C43_reaction (x : Ctx) (c : Call) (t : Table) (h : Reacts x c) :
    ∃ t', updateChem x c t = some t' ∧
      (∀ n, isSolute x n = true →
        t' (.res c.row) (.mol n 5) = c.tal n * (1000 * t (.res c.row) (.vol 5)) ∧
        t' (.res c.row) (.mol n 4) = (if x.iso n then t (.res c.row) (.mol n 4)
          else t' (.res c.row) (.mol n 5) - c.conc n * (1000 * t (.res c.row) (.vol 5))) ∧
        (x.iso n = true → t' (.res c.row) (.delta n 5) = c.dconc n * t (.res c.row) (.vol 5)) ∧
        (x.iso n = false → ∀ j, 3 ≤ j → j ≤ x.ncols →
          t' (.res c.row) (.rxn n j) = c.ent n j * x.mult j * (1000 * t (.res c.row) (.vol 5)))) ∧
      (∀ a, partOf x c a = true →
        t' a (.vol 5) = t a (.vol 5) + t (.res c.row) (.vol 5) ∧
        t' a (.vol 4) = t a (.vol 4) + t (.res c.row) (.vol 4) ∧
        (∀ n, isSolute x n = true →
          t' a (.mol n 5) = t a (.mol n 5) + t' (.res c.row) (.mol n 5) ∧
          t' a (.mol n 4) = t a (.mol n 4) + t' (.res c.row) (.mol n 4) ∧
          (x.iso n = true → t' a (.delta n 5) = t a (.delta n 5) + t' (.res c.row) (.delta n 5)) ∧
          (x.iso n = false → ∀ j, 3 ≤ j → j ≤ x.ncols → t' a (.rxn n j) = t a (.rxn n j) + t' (.res c.row) (.rxn n j)))) ∧
      (∀ a f, f.slot = some 1 ∨ f.slot = some 2 ∨ f.slot = some 3 → t' a f = t a f + contribution x c a f) ∧
      (∀ a f, a ≠ .res c.row → partOf x c a = false → t' a f = t a f) := by
  obtain ⟨t', h1, h2, h3, h4, h5, h6⟩ := updateChem_react x c t h
  have hz : ∀ a f, f.slot ≠ some 2 → f.slot ≠ some 3 → contribution x c a f = 0 := contribution_slot x c
  refine ⟨t', h1, ?_, ?_, ?_, ?_⟩
  · intro n hn
    obtain ⟨m5, m4, -, d5, r⟩ := h5 n hn
    refine ⟨by rw [m5]; ring, ?_, d5, fun hi j hj hj' => by rw [r hi j hj hj']; ring⟩
    rw [m4, m5]
    unfold produced
    split_ifs
    · rfl
    · ring
  · intro a ha
    have hne : a ≠ .res c.row := by rintro rfl; simp [partOf] at ha
    have hg : ∀ f, f.slot ≠ some 2 → f.slot ≠ some 3 → t' a f = t a f + gain x c t f := by
      intro f hf2 hf3
      rw [h2 a f hne, hz a f hf2 hf3, if_pos ha]; ring
    refine ⟨?_, ?_, ?_⟩
    · rw [hg _ (by simp [Fld.slot]) (by simp [Fld.slot])]; simp [gain]
    · rw [hg _ (by simp [Fld.slot]) (by simp [Fld.slot])]; simp [gain]
    · intro n hn
      obtain ⟨m5, m4, -, d5, r⟩ := h5 n hn
      refine ⟨?_, ?_, fun hi => ?_, fun hi j hj hj' => ?_⟩
      · rw [hg _ (by simp [Fld.slot]) (by simp [Fld.slot]), m5]; simp [gain, hn]
      · rw [hg _ (by simp [Fld.slot]) (by simp [Fld.slot]), m4]; simp [gain, hn]
      · rw [hg _ (by simp [Fld.slot]) (by simp [Fld.slot]), d5 hi]; simp [gain, hn, hi]
      · rw [hg _ (by simp [Fld.slot]) (by simp [Fld.slot]), r hi j hj hj']; simp [gain, hn, hi, hj, hj']
  · intro a f hf
    by_cases ha : a = .res c.row
    · subst ha
      rcases hf with hf | hf | hf
      · exact h3 f 1 hf (by omega) (by omega)
      · exact h3 f 2 hf (by omega) (by omega)
      · exact h3 f 3 hf (by omega) (by omega)
    · rw [h2 a f ha]
      have : gain x c t f = 0 := by
        rcases hf with hf | hf
        · cases f <;> simp only [Fld.slot, Option.some.injEq, reduceCtorEq] at hf <;> subst hf <;> simp [gain]
        · exact gain_slot x c t f hf
      simp [this]
  · intro a f ha hp
    rw [h2 a f ha, hp]
    have : contribution x c a f = 0 := by
      unfold contribution
      have : concerns x c a = false := by
        have h99 : c.restype ≠ 99 := by have := h.kind; omega
        cases a <;> simp [concerns, partOf, h.inside.1, h.inside.2, h99] at ha hp ⊢
        · exact ha
        · exact hp
        · exact hp
        · exact hp
      simp [this]
    simp [this]

/-- After any sequence of inputs, outputs, evaporations and hillslope reactions in a time step, every account holds as
inputs and outputs exactly the sum of those that concern it. -/
theorem C43_history (es : List Event) (hes : ∀ e ∈ es, e.Within) (t t' : Table) (h : run es (newStep t) = some t') (a : Acc) (f : Fld)
    (hf : f.slot = some 2 ∨ f.slot = some 3) : t' a f = (es.map fun e => e.contribution a f).sum := by
  rw [run_flow es hes _ _ h a f hf]
  have : newStep t a f = 0 := by
    cases f <;> simp only [Fld.slot, Option.some.injEq, reduceCtorEq, or_self] at hf <;> rcases hf with rfl | rfl <;> simp [newStep]
  rw [this, zero_add]

/-- In particular the inputs and outputs of the unsaturated zone of an MRU are the sums of those of its bins. -/
theorem C43_bins (es : List Event) (hes : ∀ e ∈ es, e.Within) (t t' : Table) (h : run es (newStep t) = some t') (i : Nat)
    (rows : List Int) (hn : rows.Nodup)
    (hrows : ∀ x c, Event.call x c ∈ es → (c.row ∈ rows ↔ (c.restype = 5 ∧ x.is = i))) (f : Fld)
    (hf : f.slot = some 2 ∨ f.slot = some 3) : t' (.uzgen i) f = (rows.map fun r => t' (.res r) f).sum := by
  simp only [C43_history es hes t t' h _ f hf]
  clear h
  induction es with
  | nil => exact (sum_zeros rows).symm
  | cons e l ih =>
    have ih := ih (fun e he => hes e (List.mem_cons_of_mem _ he)) (fun x c h => hrows x c (List.mem_cons_of_mem _ h))
    simp only [List.map_cons, List.sum_cons]
    rw [ih]
    have hadd : ∀ (g k : Int → Rat) (l : List Int), (l.map fun r => g r + k r).sum = (l.map g).sum + (l.map k).sum := by
      intro g k l
      induction l with
      | nil => simp
      | cons r l ih => simp only [List.map_cons, List.sum_cons, ih]; ring
    rw [hadd]
    congr 1
    cases e with
    | call x c =>
      have hr := hrows x c List.mem_cons_self
      have := sum_update rows hn (fun _ => 0) (fun r => contribution x c (.res r) f) c.row (contribution x c (.res c.row) f)
        (fun r hr => by unfold contribution; simp [concerns, hr]) (by simp)
      simp only [Event.contribution]
      rw [this]
      rw [sum_zeros, zero_add]
      unfold contribution
      by_cases hc : c.row ∈ rows
      · obtain ⟨h5, hi⟩ := hr.mp hc
        simp [concerns, hc, h5, hi]
      · have : ¬ (c.restype = 5 ∧ i = x.is) := fun hh => hc (hr.mpr ⟨hh.1, hh.2.symm⟩)
        simp [concerns, hc]
        intro h5 hi; exact absurd ⟨h5, hi⟩ this
    | enter x vol conc tempc pH =>
      simp only [Event.contribution, groundwater_uz x _ _ _ _ _ (.uzgen i) (by simp) (by simp)]
      rw [List.map_congr_left fun r _ => groundwater_uz x _ _ _ _ _ (.res r) (by simp) (by simp) f]
      exact (sum_zeros rows).symm
    | leave x vol conc =>
      simp only [Event.contribution, groundwater_uz x _ _ _ _ _ (.uzgen i) (by simp) (by simp)]
      rw [List.map_congr_left fun r _ => groundwater_uz x _ _ _ _ _ (.res r) (by simp) (by simp) f]
      exact (sum_zeros rows).symm
    | _ => exact (sum_zeros rows).symm

/-- At the end of a time step in which every reservoir has reacted at most once, the moles a composite holds, and
those produced in it, are the sums over its reservoirs (production: of solutes that are not isotopes). -/
theorem C43_final (A : Acc) (hA : ∀ r, A ≠ .res r) (rows : List Int) (hn : rows.Nodup) (n s : Nat) (hs : s = 5 ∨ s = 4)
    (es : List Event) (hes : ∀ e ∈ es, e.Within)
    (hrows : ∀ x c, Event.call x c ∈ es → c.react = true →
      (c.row ∈ rows ↔ partOf x c A = true) ∧ isSolute x n = true ∧ (s = 4 → x.iso n = false))
    (hevap : s = 4 → ∀ x row vol d m, Event.evap x row vol d m ∈ es → x.iso n = false)
    (hone : (es.filterMap Event.reacting).Nodup) (t t' : Table) (h : run es (newStep t) = some t') :
    t' A (.mol n s) = (rows.map fun r => t' (.res r) (.mol n s)).sum := by
  have h0 : ∀ a, newStep t a (.mol n s) = 0 := by
    intro a; rcases hs with rfl | rfl <;> simp [newStep]
  refine run_final A hA rows hn n s es hes hrows hevap hs hone (newStep t) t' h (fun r _ => h0 _) ?_
  rw [h0]
  simp only [h0]
  exact (sum_zeros rows).symm

/-- Over all histories, of any calls and any number of steps, the unsaturated zone of every MRU is the sum of its
riparian and upland parts. -/
theorem C43_parts (es : List Event) (t t' : Table) (ht : Split t) (h : run es t = some t') : Split t' := by
  induction es generalizing t with
  | nil => cases h; exact ht
  | cons e l ih =>
    simp only [run, Option.bind_eq_some_iff] at h
    obtain ⟨u, hu, hl⟩ := h
    exact ih u (ht.step e hu) hl

/-- At the start of a step what an account held at the end of the last one is its initial content, and it has no
inputs, outputs, reactions yet. -/
theorem C43_start (t : Table) (a : Acc) (n : Nat) :
    newStep t a (.vol 1) = t a (.vol 5) ∧ newStep t a (.mol n 1) = t a (.mol n 5) ∧ newStep t a (.delta n 1) = t a (.delta n 5) ∧
      ∀ s, 2 ≤ s → newStep t a (.vol s) = 0 ∧ newStep t a (.mol n s) = 0 ∧ newStep t a (.delta n s) = 0 ∧
        newStep t a (.temp s) = 0 ∧ newStep t a (.pH s) = 0 := by
  refine ⟨by simp [newStep], by simp [newStep], by simp [newStep], fun s hs => ?_⟩
  have : s ≠ 1 := by omega
  simp [newStep, this]

/-- The water of a stream segment is recorded in the next one more than once: the reaction call already sets the input of
the next segment, to everything that left the segment so far plus once more the moved water, and the following
input call adds its unreacted content. -/
theorem C43_downstream_violated (x : Ctx) (c : Call) (t : Table) (h : Segment x c) :
    ∃ t' t'', updateChem x c t = some t' ∧ updateChem x c.downstream t' = some t'' ∧
      ∀ n, isSolute x n = true →
        t'' (.res c.row) (.mol n 3) = t (.res c.row) (.mol n 3) + c.tal n * (1000 * c.totvol) ∧
        t'' (.res (c.row - 1)) (.mol n 2) = t (.res c.row) (.mol n 3) + 2 * (c.tal n * (1000 * c.totvol)) +
          c.conc n * (1000 * c.totvol) ∧
        (0 < c.totvol → 0 < c.tal n → 0 ≤ c.conc n → 0 ≤ t (.res c.row) (.mol n 3) → t (.res (c.row - 1)) (.mol n 2) = 0 →
          t'' (.res (c.row - 1)) (.mol n 2) - t (.res (c.row - 1)) (.mol n 2) >
            t'' (.res c.row) (.mol n 3) - t (.res c.row) (.mol n 3)) := by
  obtain ⟨t', h1, h2, -⟩ := segment_call x c h t
  have hf : Flow x c.downstream := ⟨Or.inr (Or.inl rfl), rfl, Or.inl h.kind⟩
  obtain ⟨t'', h3, h4⟩ := updateChem_flow x c.downstream t' hf
  refine ⟨t', t'', h1, h3, fun n hn => ?_⟩
  have e3 : t'' (.res c.row) (.mol n 3) = t (.res c.row) (.mol n 3) + c.tal n * (1000 * c.totvol) := by
    rw [h4, h2 n 3 _ hn (by omega)]
    have : concerns x c.downstream (.res c.row) = false := by
      have : ¬ (c.row = c.row - 1) := by omega
      show decide (c.row = c.row - 1) = false
      exact decide_eq_false this
    simp [this]
    ring
  have e2 : t'' (.res (c.row - 1)) (.mol n 2) = t (.res c.row) (.mol n 3) + 2 * (c.tal n * (1000 * c.totvol)) +
      c.conc n * (1000 * c.totvol) := by
    rw [h4, h2 n 2 _ hn (by omega)]
    simp [concerns, Call.downstream, amount, Call.slot, hn]
    ring
  refine ⟨e3, e2, fun hv ht hc h0 hz => ?_⟩
  rw [e3, e2, hz]
  have p1 : 0 < c.tal n * (1000 * c.totvol) := by positivity
  have p2 : 0 ≤ c.conc n * (1000 * c.totvol) := by positivity
  linarith

/-- The stream composite does not add up the final volumes of the segments: each reaction replaces it by the recorded
outflow plus the volume of that segment alone. -/
theorem C43_stream_volume_violated (x y : Ctx) (c d : Call) (t : Table) (h : Segment x c) (h' : Segment y d) :
    ∃ t' t'', updateChem x c t = some t' ∧ updateChem y d t' = some t'' ∧
      t'' .hyd (.vol 5) = t .hyd (.vol 3) + y.upvol := by
  obtain ⟨t', h1, -, -, h2⟩ := segment_call x c h t
  obtain ⟨t'', h3, -, h4, -⟩ := segment_call y d h' t'
  exact ⟨t', t'', h1, h3, by rw [h4, h2 3 (Or.inr rfl)]⟩

/-- Water moving from segment to segment is counted as input, but not as output, of the stream composite. -/
theorem C43_stream_inputs_violated (x : Ctx) (c : Call) (t : Table) (h : Segment x c) :
    ∃ t' t'', updateChem x c t = some t' ∧ updateChem x c.downstream t' = some t'' ∧
      t'' .hyd (.vol 2) = t .hyd (.vol 2) + c.totvol ∧ t'' .hyd (.vol 3) = t .hyd (.vol 3) := by
  obtain ⟨t', h1, -, -, h2⟩ := segment_call x c h t
  have hf : Flow x c.downstream := ⟨Or.inr (Or.inl rfl), rfl, Or.inl h.kind⟩
  obtain ⟨t'', h3, h4⟩ := updateChem_flow x c.downstream t' hf
  refine ⟨t', t'', h1, h3, ?_, ?_⟩
  · rw [h4, h2 2 (Or.inl rfl)]
    simp [concerns, Call.downstream, h.kind, amount, Call.slot]
  · rw [h4, h2 3 (Or.inr rfl)]
    simp [concerns, Call.downstream, amount, Call.slot]

/-! ### C60: the solute balance of a reservoir closes -/

/-- If the water that reacts and leaves has the concentration of the complete mixture of what was in the reservoir and what
came in, less what has left before, then after the reaction the final moles are the initial ones plus inputs less
outputs plus production. -/
theorem C60_balance (x : Ctx) (c : Call) (t : Table) (h : Reacts x c) (n : Nat) (hn : isSolute x n = true) (hi : x.iso n = false)
    (hmix : c.conc n * (1000 * (t (.res c.row) (.vol 5) + if c.metric = 3 then c.totvol else 0)) =
      t (.res c.row) (.mol n 1) + t (.res c.row) (.mol n 2) - t (.res c.row) (.mol n 3)) :
    ∃ t', updateChem x c t = some t' ∧
      t' (.res c.row) (.mol n 5) = t' (.res c.row) (.mol n 1) + t' (.res c.row) (.mol n 2) - t' (.res c.row) (.mol n 3) +
        t' (.res c.row) (.mol n 4) := by
  obtain ⟨t', h1, h2, -, h3, -⟩ := C43_reaction x c t h
  refine ⟨t', h1, ?_⟩
  obtain ⟨m5, m4, -⟩ := h2 n hn
  rw [h3 _ (.mol n 1) (Or.inl rfl), h3 _ (.mol n 2) (Or.inr (Or.inl rfl)), h3 _ (.mol n 3) (Or.inr (Or.inr rfl)), m4, hi]
  have k1 : contribution x c (.res c.row) (.mol n 1) = 0 := contribution_slot _ _ _ _ (by simp [Fld.slot]) (by simp [Fld.slot])
  have k2 : contribution x c (.res c.row) (.mol n 2) = 0 := by
    unfold contribution amount Call.slot
    rcases h.metric with hm | ⟨hm, -⟩ <;> simp [hm]
  have k3 : contribution x c (.res c.row) (.mol n 3) = c.conc n * (1000 * if c.metric = 3 then c.totvol else 0) := by
    unfold contribution amount Call.slot
    rcases h.metric with hm | ⟨hm, -⟩ <;> simp [hm, hn, concerns]
  rw [k1, k2, k3]
  simp only [Bool.false_eq_true, if_false]
  linarith [hmix]

/-- The initial content of a reservoir is, throughout a step, its final content of the last step. -/
theorem C60_next (t : Table) (row : Int) (n : Nat) (es : List Event) (hes : ∀ e ∈ es, e.Within) (t' : Table)
    (h : run es (newStep t) = some t') :
    t' (.res row) (.mol n 1) = t (.res row) (.mol n 5) := by
  suffices hh : ∀ (es : List Event), (∀ e ∈ es, e.Within) → ∀ (u u' : Table), run es u = some u' →
      u' (.res row) (.mol n 1) = u (.res row) (.mol n 1) by
    rw [hh es hes _ _ h]; simp [newStep]
  intro es hes
  induction es with
  | nil => intro u u' h; cases h; rfl
  | cons e l ih =>
    intro u u' h
    simp only [run, Option.bind_eq_some_iff] at h
    obtain ⟨w, hw, hl⟩ := h
    rw [ih (fun e he => hes e (List.mem_cons_of_mem _ he)) w u' hl]
    have hin := hes e List.mem_cons_self
    cases e with
    | call x c =>
      rcases hin with hin | hin
      · obtain ⟨v, hv, hv'⟩ := updateChem_flow x c u hin
        have : v = w := by simpa [step, hv] using hw
        subst this
        rw [hv']
        have : amount x c c.slot (.mol n 1) = 0 := by unfold amount Call.slot; split_ifs <;> simp_all
        simp [this]
      · obtain ⟨v, hv, -, -, h3, -⟩ := C43_reaction x c u hin
        have : v = w := by simpa [step, hv] using hw
        subst this
        rw [h3 _ _ (Or.inl rfl), contribution_slot _ _ _ _ (by simp [Fld.slot]) (by simp [Fld.slot]), add_zero]
    | evap x r vol d m => cases hw; exact evaporate_apply x r vol d m u _ _ (by intro k _; simp)
    | et r v => cases hw; simp [put]
    | final r v => cases hw; simp [put]
    | enter x vol conc tempc pH => cases hw; rw [gwGain_apply, groundwater_slot _ _ _ _ _ _ _ _ (by simp [Fld.slot]), add_zero]
    | leave x vol conc => cases hw; rw [gwLeak_apply, groundwater_slot _ _ _ _ _ _ _ _ (by simp [Fld.slot]), add_zero]
    | next => exact hin.elim

/-! ### C61: mean temperature and pH -/

/-- The temperature and pH of the inputs and outputs of a composite are weighted with their volumes. -/
theorem C61_flow_partial (x : Ctx) (c : Call) (t : Table) (h : Flow x c) (a : Acc) (ha : concerns x c a = true) :
    ∃ t', updateChem x c t = some t' ∧
      t' a (.vol c.slot) = t a (.vol c.slot) + c.totvol ∧ t' a (.temp c.slot) = t a (.temp c.slot) + c.totvol * c.tempc ∧
      t' a (.pH c.slot) = t a (.pH c.slot) + c.totvol * c.pH := by
  obtain ⟨t', h1, h2⟩ := C43_flow x c t h
  refine ⟨t', h1, ?_, ?_, ?_⟩ <;> rw [h2] <;> simp [ha, amount]

/-- Those of the final content are not: a reservoir that reacts after an output is weighted with the volume of that
output, not with its final volume. -/
theorem C61_final_violated (x : Ctx) (c : Call) (t : Table) (h : Reacts x c) (h3 : c.metric = 3) (a : Acc)
    (ha : partOf x c a = true) :
    ∃ t', updateChem x c t = some t' ∧ t' a (.vol 5) = t a (.vol 5) + t (.res c.row) (.vol 5) ∧
      t' a (.temp 5) = t a (.temp 5) + c.totvol * c.tempc ∧ t' a (.pH 5) = t a (.pH 5) + c.totvol * c.pH := by
  obtain ⟨t', h1, h2, -⟩ := updateChem_react x c t h
  have hne : a ≠ .res c.row := by rintro rfl; simp [partOf] at ha
  have hz : ∀ f, f.slot = some 5 → contribution x c a f = 0 := fun f hf =>
    contribution_slot x c a f (by rw [hf]; simp) (by rw [hf]; simp)
  refine ⟨t', h1, ?_, ?_, ?_⟩ <;> rw [h2 a _ hne, hz _ rfl, if_pos ha] <;> simp [gain, h3]

/-- Groundwater from outside is weighted with its volume, in the unit and in the basin. -/
theorem C61_gain_partial (x : Ctx) (vol : Rat) (conc : Nat → Rat) (tempc pH : Rat) (t : Table) (a : Acc) (ha : a = .mru x.is ∨ a = .basin) :
    ∃ t', step (.enter x vol conc tempc pH) t = some t' ∧ t' a (.vol 2) = t a (.vol 2) + vol ∧
      t' a (.temp 2) = t a (.temp 2) + vol * tempc ∧ t' a (.pH 2) = t a (.pH 2) + vol * pH := by
  refine ⟨_, rfl, ?_, ?_, ?_⟩ <;> rw [gwGain_apply] <;> simp [groundwater, ha]

/-- Groundwater that is lost is not: if the outputs of the unit, or of the basin, have temperature `T`, and water is lost, the
temperature shown for the outputs is less in the proportion of the volumes, whatever temperature that water has. -/
theorem C61_loss_violated (x : Ctx) (vol : Rat) (conc : Nat → Rat) (t : Table) (a : Acc) (ha : a = .mru x.is ∨ a = .basin) (T : Rat)
    (h0 : 0 < t a (.vol 3)) (hv : 0 < vol) (hT : t a (.temp 3) / t a (.vol 3) = T) :
    ∃ t', step (.leave x vol conc) t = some t' ∧ t' a (.vol 3) = t a (.vol 3) + vol ∧
      t' a (.temp 3) / t' a (.vol 3) = T * (t a (.vol 3) / (t a (.vol 3) + vol)) ∧
      (T ≠ 0 → t' a (.temp 3) / t' a (.vol 3) ≠ T) := by
  have e1 : gwLeak x vol conc t a (.vol 3) = t a (.vol 3) + vol := by rw [gwLeak_apply]; simp [groundwater, ha]
  have e2 : gwLeak x vol conc t a (.temp 3) = t a (.temp 3) := by rw [gwLeak_apply]; simp [groundwater, ha]
  have h1 : t a (.vol 3) + vol ≠ 0 := by linarith
  have e3 : gwLeak x vol conc t a (.temp 3) / gwLeak x vol conc t a (.vol 3) = T * (t a (.vol 3) / (t a (.vol 3) + vol)) := by
    rw [e1, e2, ← hT]
    field_simp
  refine ⟨_, rfl, e1, e3, fun hne => ?_⟩
  rw [e3]
  intro h
  have : t a (.vol 3) / (t a (.vol 3) + vol) = 1 := mul_left_cancel₀ hne (by rw [h, mul_one])
  rw [div_eq_one_iff_eq h1] at this
  linarith

/-! ### Examples -/

/-- Outputs of ten cubic metres at 12 degrees, a loss of two: the temperature shown is 10 degrees. -/
example : (step (.leave ⟨1, true, 0, 50, 20, 2, fun n => n = 2, 3, fun _ => 1⟩ 2 fun _ => 3)
      (fun a f => if a = .mru 1 ∧ f = .vol 3 then 10 else if a = .mru 1 ∧ f = .temp 3 then 120 else 0)).map (fun t => t (.mru 1) (.temp 3) / t (.mru 1) (.vol 3)) =
    some 10 := by decide +kernel

/-- Two solutes, the second an isotope, and one entity in column 3. -/
def ctx0 : Ctx := ⟨1, true, 0, 50, 20, 2, fun n => n = 2, 3, fun _ => 1⟩

/-- 4 cubic metres enter bin 7 of the unsaturated zone of MRU 1. -/
def in0 : Call := ⟨7, 4, 2, fun _ => 3, fun _ => -10, 7, 12, fun _ => 0, fun _ _ => 0, fun _ => 0, false, true, 5, false⟩

/-- 1 cubic metre leaves it and the rest reacts. -/
def out0 : Call := ⟨7, 1, 3, fun _ => 3, fun _ => -10, 7, 12, fun _ => 5, fun _ _ => 2, fun _ => 1, false, false, 5, true⟩

theorem in0_flow : Flow ctx0 in0 := ⟨Or.inr (Or.inl rfl), rfl, Or.inr (by decide)⟩
theorem out0_reacts : Reacts ctx0 out0 := ⟨by decide, Or.inl rfl, rfl, ⟨rfl, rfl⟩, by decide⟩

/-- A history for `C43_history`, `C43_bins` and `C43_final`. -/
def es0 : List Event := [.call ctx0 in0, .final 7 3, .call ctx0 out0]

theorem es0_within : ∀ e ∈ es0, e.Within := by
  intro e he
  simp only [es0, List.mem_cons, List.not_mem_nil, or_false] at he
  rcases he with rfl | rfl | rfl
  · exact Or.inl in0_flow
  · trivial
  · exact Or.inr out0_reacts

example : (run es0 (newStep fun _ _ => 0)).map (fun t =>
    [t (.uzgen 1) (.mol 1 2), t (.uzrip 1) (.mol 1 2), t .basin (.mol 1 2), t (.mru 1) (.mol 1 2), t (.uzgen 1) (.mol 1 3),
     t (.mru 1) (.mol 1 5), t .basin (.mol 1 4), t (.res 7) (.rxn 1 3)]) =
    some [12000, 12000, 12000, 0, 3000, 15000, 6000, 6000] := by decide +kernel

example : (es0.filterMap Event.reacting).Nodup := by decide

example : out0.conc 1 * (1000 * (3 + if out0.metric = 3 then out0.totvol else 0)) = 0 + 12000 - 0 := by decide +kernel

/-- Segment 3 of a stream. -/
def ctx1 : Ctx := { ctx0 with ih := 3 }
def seg0 : Call := ⟨30, 50, 3, fun _ => 3, fun _ => -10, 7, 12, fun _ => 5, fun _ _ => 2, fun _ => 1, false, false, 99, true⟩

theorem seg0_ok : Segment ctx1 seg0 := ⟨rfl, rfl, rfl, ⟨rfl, rfl⟩, by decide⟩

example : Split fun _ _ => 0 := fun _ _ => by simp

end Verif.Chem
