import Verif.Lemmas.TransportRiver6
/-
What the composite of the basin shows of the steps of a run.
-/
namespace Verif.Transport
open Verif.Reservoir (Vol Rows BinOut Par In sumOf Extra)
open Verif.Chem (Ctx Call Event Table Same)
open Verif.SolnNum (Dims)

/-- From the hillslopes to the streams. -/
theorem couple_drained {rx : Ent → Sol → Sol} {first : Bool} {b : Reservoir.Basin} {ps : List (Par × Site)}
    {v : Reservoir.St} {s : St} {x : List In × Reservoir.StreamIn × List Rat} {v' : Reservoir.St} {s' : St} {o : Reservoir.Out}
    {fs : List Flow} {N : Nat} (hb : b.Ok N) (hv : Sized ps N v) (hx : Fits ps x)
    (h : couple rx first b ps v s x = some (v', s', o, fs)) :
    overSegs (fun _ g => g.freshMol s') 0 (reaches fs o) = drained fs s' ∧
    (∀ j g, (reaches fs o)[j]? = some g → g.down = v.stream.getD j 0 + g.fresh) ∧
    (∀ q, overSegs (fun j _ => v.stream.getD j 0 * at_ q (.seg false (j + 1))) 0 (reaches fs o) = inStream false 1 v.stream q) ∧
    overSegs (fun j g => g.down * at_ s' (.seg true j)) 0 (reaches fs o) =
      o.basin.discharge * at_ s' (.seg true 0) + inStream true 1 o.basin.stream s' ∧ v'.stream = o.basin.stream := by
  obtain ⟨c1, c2, c3, c4⟩ := couple_units hv hx h
  obtain ⟨h1, h2, h3⟩ := couple_eq h
  obtain ⟨w1, w2, w3, -, w5⟩ := Reservoir.webrrun_eq _ _ _ _ _ _ _ h1
  obtain ⟨g1, g2, g3, -, -⟩ := basin_streams b N hb _ _ _ _ hv.stream _ w2
  have g4 := (Reservoir.basin_spec b N hb _ _ _ _ hv.stream _ w2).2.2.2.2.2.2.2.2.1
  have hsl : (segs (fs.map (·.unit)) o.basin).length = N := by rw [segs_length, g1]
  have hux : (List.zip (ps.map (·.1)) (List.zip x.1 (o.units.map (·.1)))).length = (fs.map (·.unit)).length := by
    simp [hx.units, c1, c2]
  refine ⟨?_, fun j g hj => segs_link b N hb _ _ _ _ hv.stream _ w2 _ hux.symm j g hj, fun q => ?_,
    (moved_stream hb hv.stream w2 (fs.map Flow.unit) s').1, w5⟩
  · unfold reaches drained
    rw [fresh_sum _ _ (by rw [g1]; exact g2), g4]
    have : (List.zip (ps.map (·.1)) (List.zip x.1 (o.units.map (·.1)))).map (fun u => u.2.2.hill.out) = fs.map (·.r.hill.out) := by
      have q : (List.zip (ps.map (·.1)) (List.zip x.1 (o.units.map (·.1)))).map (fun u => u.2.2) = o.units.map (·.1) := by
        have q1 : (List.zip (ps.map (·.1)) (List.zip x.1 (o.units.map (·.1)))).map Prod.snd = List.zip x.1 (o.units.map (·.1)) :=
          List.map_snd_zip (by simp [hx.units, c2])
        have q2 : (List.zip x.1 (o.units.map (·.1))).map Prod.snd = o.units.map (·.1) := List.map_snd_zip (by simp [hx.units, c2])
        rw [← q1, List.map_map] at q2
        exact q2
      have := congrArg (List.map fun r : Rows => r.hill.out) (q.trans c3.symm)
      rw [List.map_map, List.map_map] at this
      exact this
    rw [this, zip_out fs fun u => at_ s' (.hill true 10 u)]
    rfl
  · exact overSegs_stream false q v.stream 1 _ (by rw [reaches, hsl, hv.stream])

/-- The balance of the basin, given those of the units. -/
theorem basin_gap {rx : Ent → Sol → Sol} {first : Bool} {b : Reservoir.Basin} {ps : List (Par × Site)}
    {v : Reservoir.St} {s : St} {x : List In × Reservoir.StreamIn × List Rat} {v' : Reservoir.St} {s' : St} {o : Reservoir.Out}
    {fs : List Flow} {N : Nat} (hb : b.Ok N) (hv : Sized ps N v) (hx : Fits ps x)
    (h : couple rx first b ps v s x = some (v', s', o, fs)) {n : Nat} {q : St} {c : Nat → Rat} {u t : Table}
    (hB : BasinShown rx n fs o q s' c u t) (h0 : u .basin (.mol n 1) = byUnits n fs u 1 + 1000 * inStream false 1 v.stream q)
    (h1 : ∀ f ∈ fs, t (.mru f.unit) (.mol n 1) = u (.mru f.unit) (.mol n 1)) {y : Flow → Rat}
    (hg : ∀ f ∈ fs, t (.mru f.unit) (.mol n 5) + t (.mru f.unit) (.mol n 3) = t (.mru f.unit) (.mol n 1) + t (.mru f.unit) (.mol n 2) +
          t (.mru f.unit) (.mol n 4) + 1000 * y f) :
    t .basin (.mol n 5) + t .basin (.mol n 3) = t .basin (.mol n 1) + t .basin (.mol n 2) + t .basin (.mol n 4) +
        1000 * ((fs.map y).sum + doubled fs o q) := by
  obtain ⟨d1, d2, d3, d4, -⟩ := couple_drained hb hv hx h
  have su : byUnits n fs t 5 + byUnits n fs t 3 = byUnits n fs u 1 + byUnits n fs t 2 + byUnits n fs t 4 + 1000 * (fs.map y).sum := by
    unfold byUnits
    clear * - hg h1
    induction fs with
    | nil => simp
    | cons f fs ih =>
      have := ih (fun f hf => h1 f (List.mem_cons_of_mem _ hf)) fun f hf => hg f (List.mem_cons_of_mem _ hf)
      have e := hg f List.mem_cons_self
      rw [h1 f List.mem_cons_self] at e
      simp only [List.map_cons, List.sum_cons]
      linarith
  have st : overSegs (fun j g => g.down * at_ s' (.seg true j)) 0 (reaches fs o) + overSegs (fun j g => (g.taken + g.loss) * c j) 0 (reaches fs o) =
      overSegs (fun j g => g.down * (at_ s' (.seg true j) - c j)) 0 (reaches fs o) + (overSegs (fun j _ => v.stream.getD j 0 * at_ q (.seg false (j + 1))) 0 (reaches fs o) +
        (overSegs (fun j g => (g.taken + g.loss) * at_ q (.seg false (j + 1))) 0 (reaches fs o) + overSegs (fun _ g => g.freshMol s') 0 (reaches fs o))) := by
    rw [← overSegs_add, ← overSegs_add, ← overSegs_add, ← overSegs_add]
    apply overSegs_congr
    intro j g hj
    rw [Nat.zero_add]
    obtain ⟨-, e⟩ := hB.blended j g hj
    have e2 := d2 j g hj
    unfold Seg.whole at e
    have e3 : v.stream.getD j 0 = g.down - g.fresh := by linarith
    rw [e3]
    linarith
  rw [d1, d3, d4] at st
  rw [hB.initial, hB.input, hB.output, hB.reaction, hB.final, h0, doubled]
  linarith

theorem calm_stream {rx : Ent → Sol → Sol} (hi : Inert rx) {gs : List Seg} (hg : ∀ g ∈ gs, g.Ok) {s s' : St} {c : Nat → Rat}
    (h : Blended rx gs s s' c) : overSegs (fun j g => g.down * (at_ s' (.seg true j) - c j)) 0 gs = 0 := by
  have : overSegs (fun j g => g.down * (at_ s' (.seg true j) - c j)) 0 gs = overSegs (fun _ _ => 0) 0 gs := by
    apply overSegs_congr
    intro j g hj
    rw [Nat.zero_add]
    obtain ⟨h1, -⟩ := h j g hj
    by_cases hw : g.whole = 0
    · have ok := hg g (List.mem_of_getElem? hj)
      have := ok.down
      have := ok.taken
      have := ok.loss
      have : g.down = 0 := by unfold Seg.whole at hw; linarith
      rw [this]; ring
    · rw [h1 hw, hi.reacted]; ring
  rw [this]
  have : ∀ a, overSegs (fun _ _ => 0) a gs = 0 := by
    clear * -
    induction gs with
    | nil => intro a; rfl
    | cons g gs ih => intro a; unfold overSegs; rw [ih]; ring
  exact this 0

theorem doubled_zero {fs : List Flow} {o : Reservoir.Out} {v' : Reservoir.St} {s' : St} (h : Untapped (v', s', o, fs)) (s : St) : doubled fs o s = 0 := by
  obtain ⟨h1, h2⟩ := h
  dsimp only at h1 h2
  unfold doubled
  have e1 : diverted fs s = 0 := by
    unfold diverted
    rw [List.map_congr_left (g := fun _ => 0)]
    · simp
    · intro f hf; rw [h1 f hf]; ring
  rw [e1, zero_add]
  generalize reaches fs o = gs at h2
  have : ∀ a, overSegs (fun j g => (g.taken + g.loss) * at_ s (.seg false (j + 1))) a gs = 0 := by
    clear * - h2
    induction gs with
    | nil => intro a; rfl
    | cons g gs ih =>
      intro a
      obtain ⟨q1, q2⟩ := h2 g List.mem_cons_self
      unfold overSegs
      rw [ih (fun g hg => h2 g (List.mem_cons_of_mem _ hg)), q1, q2]; ring
  exact this 0

theorem newStep_blankBasin (n : Nat) (t : Table) : BlankBasin n (Chem.newStep t) := by
  intro s hs
  unfold Chem.newStep
  dsimp only
  rw [if_neg (by omega)]

/-- The streams and units of the next step. -/
theorem next_basin {rx : Ent → Sol → Sol} {first : Bool} {b : Reservoir.Basin} {ps : List (Par × Site)}
    {v : Reservoir.St} {s : St} {x x' : List In × Reservoir.StreamIn × List Rat} {v' v'' : Reservoir.St} {s' s'' : St} {o o' : Reservoir.Out}
    {fs fs' : List Flow} {N : Nat} (hb : b.Ok N) (hv : Sized ps N v) (hx : Fits ps x) (hx' : Fits ps x')
    (h : couple rx first b ps v s x = some (v', s', o, fs)) (h' : couple rx false b ps v' s' x' = some (v'', s'', o', fs')) {n : Nat}
    {q : St} {c : Nat → Rat} {u t : Table} (hB : BasinShown rx n fs o q s' c u t) :
    opened false t .basin (.mol n 1) = byUnits n fs' (opened false t) 1 + 1000 * inStream false 1 v'.stream (begin false fs' N s') := by
  have hv' := couple_sized hb hv hx h
  obtain ⟨c1', -, -, c4'⟩ := couple_units hv' hx' h'
  obtain ⟨c1, -, -, c4⟩ := couple_units hv hx h
  obtain ⟨-, -, -, -, w5⟩ := couple_drained hb hv hx h
  have hu : fs'.map (·.unit) = fs.map (·.unit) := by
    apply List.ext_getElem?
    intro k
    rw [List.getElem?_map, List.getElem?_map]
    by_cases hk : k < ps.length
    · rw [List.getElem?_eq_getElem (by omega), List.getElem?_eq_getElem (by omega)]
      simp only [Option.map_some, Option.some.injEq]
      rw [(c4' k _ (List.getElem?_eq_getElem (by omega))).1, (c4 k _ (List.getElem?_eq_getElem (by omega))).1]
    · rw [List.getElem?_eq_none (by omega), List.getElem?_eq_none (by omega)]
  have e1 : byUnits n fs' (opened false t) 1 = byUnits n fs t 5 := by
    have g1 : ∀ l : List Flow, byUnits n l t 5 = ((l.map (·.unit)).map fun i => t (.mru i) (.mol n 5)).sum := by
      intro l; rw [List.map_map]; rfl
    have g2 : byUnits n fs' (opened false t) 1 = byUnits n fs' t 5 := rfl
    rw [g2, g1, g1, hu]
  have e2 : opened false t .basin (.mol n 1) = t .basin (.mol n 5) := rfl
  rw [e1, e2, hB.final, ← w5, inStream_congr false true v'.stream (begin false fs' N s') s' 1]
  intro i h1 h2
  rw [begin_seg false fs' N s' i h1 (by rw [← hv'.stream]; omega)]
  rfl

theorem run_river {rx : Ent → Sol → Sol} (hd : Dry rx) {b : Reservoir.Basin} {ps : List (Par × Site)} {N : Nat} (hb : b.Ok N) {d : Dims}
    (hin : Inside d ps N) {n : Nat} (xs : List (List In × Reservoir.StreamIn × List Rat)) (hx : ∀ x ∈ xs, Fits ps x) (first : Bool)
    (v : Reservoir.St) (s : St) (hv : Sized ps N v) (hF : Full s.sol)
    (rs : List (Reservoir.St × St × Reservoir.Out × List Flow)) (h : run rx b ps first v s xs = some rs) (hs : ∀ r ∈ rs, Smooth r)
    (zs : List (Nat → Ctx × Call)) (hzl : zs.length = rs.length) (hz : ∀ z ∈ zs, ∀ i, Known n (z i).1)
    (u : Table) (hu : Blank n (opened first u)) (hu' : BlankUnits n (opened first u)) (hu'' : BlankBasin n (opened first u))
    (hst : ∀ r, rs[0]? = some r → (∀ f ∈ r.2.2.2, Stocked d n f (begin first r.2.2.2 N s) (opened first u) ∧
      opened first u (.mru f.unit) (.mol n 1) = 1000 * known f (·.init) false (begin first r.2.2.2 N s)) ∧
      opened first u .basin (.mol n 1) = byUnits n r.2.2.2 (opened first u) 1 + 1000 * inStream false 1 v.stream (begin first r.2.2.2 N s)) :
    ∃ ts, tables d n first u (zs.zip (rs.map fun r => r.2.1.log)) = some ts ∧ BasinAllShown rx d n N first v.stream s u rs ts ∧
      (Inert rx → BasinAllEven n N first s rs ts) := by
  induction xs generalizing first v s rs zs u with
  | nil =>
    simp only [run, Option.some.injEq] at h
    subst h
    exact ⟨[], by simp [tables], trivial, fun _ => trivial⟩
  | cons x xs ih =>
    unfold run at h
    cases hc : couple rx first b ps v s x with
    | none => rw [hc] at h; exact absurd h (by simp)
    | some q =>
      obtain ⟨v', s', o, fs⟩ := q
      rw [hc] at h
      simp only [Option.map_eq_some_iff] at h
      obtain ⟨rs', h', rfl⟩ := h
      cases zs with
      | nil => exact absurd hzl (by simp)
      | cons z zs =>
        have hx0 := hx x List.mem_cons_self
        have hsm := hs _ List.mem_cons_self
        obtain ⟨k1, t, k2, k3, k4, k5⟩ := couple_shown hd hb hv hx0 hF hc hsm hin (hz z List.mem_cons_self) hu
        have k4 := k4 hu'
        obtain ⟨cs, B⟩ := couple_river hd hb hv hx0 hF hc hsm hin (hz z List.mem_cons_self) hu' hu'' k2
        have hst0 := hst _ rfl
        dsimp only at hst0
        obtain ⟨hst0, hb0⟩ := hst0
        have hv' := couple_sized hb hv hx0 hc
        obtain ⟨ts, e1, e2, e3⟩ := ih (fun y hy => hx y (List.mem_cons_of_mem _ hy)) false v' s' hv' k1 rs' h'
          (fun r hr => hs r (List.mem_cons_of_mem _ hr)) zs (by simpa using hzl) (fun z hz' => hz z (List.mem_cons_of_mem _ hz')) t
          (newStep_blank n t) (newStep_blankUnits n t) (newStep_blankBasin n t) (by
            intro r hr
            cases xs with
            | nil =>
              simp only [run, Option.some.injEq] at h'
              subst h'
              exact absurd hr (by simp)
            | cons x' xs =>
              unfold run at h'
              cases hc' : couple rx false b ps v' s' x' with
              | none => rw [hc'] at h'; exact absurd h' (by simp)
              | some q =>
                obtain ⟨v'', s'', o', fs'⟩ := q
                rw [hc'] at h'
                simp only [Option.map_eq_some_iff] at h'
                obtain ⟨rs'', -, rfl⟩ := h'
                cases hr
                refine ⟨?_, next_basin hb hv hx0 (hx x' (by simp)) hc hc' B⟩
                intro f' hf'
                refine ⟨next_stocked hb hv hx0 (hx x' (by simp)) hc hc' k3 rfl f' hf', ?_⟩
                obtain ⟨f, hf, a1, a2⟩ := next_known hb hv hx0 (hx x' (by simp)) hc hc' f' hf'
                dsimp only
                rw [a2, ← (k4 f hf).final, ← a1]
                rfl)
        have gap : ∀ f ∈ fs, _ := fun f hf =>
          mru_gap (hsm.1 f hf).1 (hsm.1 f hf).2 (k5 f hf) (k3 f hf) (show MruShown d n f _ { s' with pulse := f.pulses } _ t from
            ⟨(k4 f hf).initial, (k4 f hf).input, (k4 f hf).output, (k4 f hf).final, (k4 f hf).rows⟩) (hst0 f hf).1 (hst0 f hf).2
        have gap' : ∀ f ∈ fs, ∃ y : Rat, (∃ c cb, Unreacted d n f s' t c cb ∧ y = unseen f (begin first fs N s) s' c cb) ∧
            t (.mru f.unit) (.mol n 5) + t (.mru f.unit) (.mol n 3) = t (.mru f.unit) (.mol n 1) + t (.mru f.unit) (.mol n 2) +
              t (.mru f.unit) (.mol n 4) + 1000 * y ∧ (Inert rx → y = 0 ∧ t (.mru f.unit) (.mol n 4) = 0) := by
          intro f hf
          obtain ⟨c, cb, g1, g2, g3⟩ := gap f hf
          exact ⟨_, ⟨c, cb, ⟨g1.can, g1.snow, g1.ohoriz, g1.uz, g1.qdf, g1.sat, g1.satpref⟩, rfl⟩, g2, fun hi => ⟨(g3 hi).2, (g3 hi).1⟩⟩
        classical
        let y : Flow → Rat := fun f => if hf : f ∈ fs then (gap' f hf).choose else 0
        have hy : ∀ f ∈ fs, (∃ c cb, Unreacted d n f s' t c cb ∧ y f = unseen f (begin first fs N s) s' c cb) ∧
            t (.mru f.unit) (.mol n 5) + t (.mru f.unit) (.mol n 3) = t (.mru f.unit) (.mol n 1) + t (.mru f.unit) (.mol n 2) +
              t (.mru f.unit) (.mol n 4) + 1000 * y f ∧ (Inert rx → y f = 0 ∧ t (.mru f.unit) (.mol n 4) = 0) := by
          intro f hf
          have := (gap' f hf).choose_spec
          have e : y f = (gap' f hf).choose := dif_pos hf
          rw [e]
          exact this
        have G := basin_gap hb hv hx0 hc B hb0 (fun f hf => (k4 f hf).initial) (y := y) fun f hf => (hy f hf).2.1
        refine ⟨t :: ts, ?_, ⟨hb0, ⟨cs, B⟩, ⟨y, fun f hf => (hy f hf).1, G⟩, e2⟩, fun hi => ?_⟩
        · simp only [List.map_cons, List.zip_cons_cons, tables, enterAll]
          rw [show (if first = true then u else Chem.newStep u) = opened first u from rfl, k2]
          simp only [e1, Option.map_some]
        · have z1 : (fs.map y).sum = 0 := by
            rw [List.map_congr_left (g := fun _ => 0) fun f hf => ((hy f hf).2.2 hi).1]; simp
          have z2 : byUnits n fs t 4 = 0 := by
            unfold byUnits
            rw [List.map_congr_left (g := fun _ => 0) fun f hf => ((hy f hf).2.2 hi).2]; simp
          have z3 : t .basin (.mol n 4) = 0 := by
            rw [B.reaction, z2, calm_stream (gs := reaches fs o) hi hsm.2 B.blended]; ring
          rw [z1, zero_add] at G
          refine ⟨z3, G, fun hun => ?_, e3 hi⟩
          unfold BasinEven
          rw [G, doubled_zero hun]
          ring

end Verif.Transport
