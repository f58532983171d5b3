import Verif.Lemmas.TransportMru5
/-
What the tables show of the steps of a run.
-/
namespace Verif.Transport
open Verif.Reservoir (Vol Rows BinOut Par In sumOf Extra)
open Verif.Chem (Ctx Call Event Table Same)
open Verif.SolnNum (Dims)

theorem flows_site (ps : List Par) (is : List In) (rs : List (Rows × Extra)) (xs : List (Site × Rat)) (u : Nat) (k : Nat) (f : Flow)
    (h : (flows u ps is rs xs)[k]? = some f) :
    ∃ x q, xs[k]? = some (x, q) ∧ f.srcExt = x.srcExt ∧ f.srcInt = x.srcInt ∧ f.prefMax = x.prefMax := by
  induction ps generalizing u is rs xs k with
  | nil => simp [flows] at h
  | cons p ps ih =>
    cases is with
    | nil => simp [flows] at h
    | cons i is =>
      cases rs with
      | nil => simp [flows] at h
      | cons r rs =>
        cases xs with
        | nil => simp [flows] at h
        | cons x xs =>
          obtain ⟨r, e⟩ := r
          obtain ⟨x, q⟩ := x
          simp only [flows] at h
          cases k with
          | zero =>
            simp only [List.getElem?_cons_zero, Option.some.injEq] at h
            subst h
            exact ⟨x, q, rfl, rfl, rfl, rfl⟩
          | succ k =>
            rw [List.getElem?_cons_succ] at h
            exact ih is rs xs (u + 1) k h

/-- Units of a step, and where they are. -/
theorem couple_site {rx : Ent → Sol → Sol} {first : Bool} {b : Reservoir.Basin} {ps : List (Par × Site)} {v : Reservoir.St} {s : St}
    {x : List In × Reservoir.StreamIn × List Rat} {v' : Reservoir.St} {s' : St} {o : Reservoir.Out} {fs : List Flow} {n : Nat}
    (hv : Sized ps n v) (hx : Fits ps x) (h : couple rx first b ps v s x = some (v', s', o, fs)) (k : Nat) (f : Flow)
    (hk : fs[k]? = some f) : ∃ p, ps[k]? = some p ∧ f.p = p.1 ∧ f.srcExt = p.2.srcExt ∧ f.srcInt = p.2.srcInt ∧ f.prefMax = p.2.prefMax := by
  obtain ⟨c1, -, -, -⟩ := couple_units hv hx h
  obtain ⟨-, h2, -⟩ := couple_eq h
  obtain ⟨-, a2, -, -⟩ := flows_at _ _ _ _ 1 k f (h2 ▸ hk)
  obtain ⟨y, q, b1, b2, b3, b4⟩ := flows_site _ _ _ _ 1 k f (h2 ▸ hk)
  have hkl : k < ps.length := by rw [← c1]; exact (List.getElem?_eq_some_iff.1 hk).1
  obtain ⟨p, hp⟩ : ∃ p, ps[k]? = some p := ⟨_, List.getElem?_eq_getElem hkl⟩
  have e1 : f.p = p.1 := by
    rw [List.getElem?_map, hp] at a2
    simpa using a2.symm
  have e2 : y = p.2 := by
    rw [List.getElem?_zip_eq_some, List.getElem?_map, hp] at b1
    simpa using b1.1.symm
  subst e2
  exact ⟨p, hp, e1, b2, b3, b4⟩

theorem couple_inside {rx : Ent → Sol → Sol} {first : Bool} {b : Reservoir.Basin} {ps : List (Par × Site)} {v : Reservoir.St} {s : St}
    {x : List In × Reservoir.StreamIn × List Rat} {v' : Reservoir.St} {s' : St} {o : Reservoir.Out} {fs : List Flow} {n : Nat}
    (hv : Sized ps n v) (hx : Fits ps x) (h : couple rx first b ps v s x = some (v', s', o, fs)) {d : Dims} (hin : Inside d ps n) :
    ∀ f ∈ fs, f.Inside d := by
  intro f hf
  obtain ⟨k, hk⟩ := List.mem_iff_getElem?.1 hf
  obtain ⟨c1, -, -, c4⟩ := couple_units hv hx h
  obtain ⟨p, p1, p2, p3, p4, -⟩ := couple_site hv hx h k f hk
  obtain ⟨d1, -, -, w, e, d4, d5, d6, d7, d8⟩ := c4 k f hk
  have hkl : k < ps.length := by rw [← c1]; exact (List.getElem?_eq_some_iff.1 hk).1
  have hm := List.mem_of_getElem? p1
  have := hin.units
  refine ⟨by omega, ?_, by rw [p3]; exact hin.ext p hm, by rw [p4]; exact hin.int p hm⟩
  obtain ⟨-, -, -, i4, -⟩ := step_init f.p w f.i f.r e d5 d7 d8
  have : f.bins.length = f.p.ac.length := by
    rw [d6, ← List.length_map (f := fun b : BinOut => b.vol.init), i4, d8]
  rw [this, p2]
  exact hin.bins p hm

theorem couple_shown {rx : Ent → Sol → Sol} (hd : Dry rx) {first : Bool} {b : Reservoir.Basin} {ps : List (Par × Site)}
    {v : Reservoir.St} {s : St} {x : List In × Reservoir.StreamIn × List Rat} {v' : Reservoir.St} {s' : St} {o : Reservoir.Out}
    {fs : List Flow} {N : Nat} (hb : b.Ok N) (hv : Sized ps N v) (hx : Fits ps x) (hF : Full s.sol)
    (h : couple rx first b ps v s x = some (v', s', o, fs)) (hs : Smooth (v', s', o, fs)) {d : Dims} (hin : Inside d ps N) {n : Nat}
    {z : Nat → Ctx × Call} (hz : ∀ i, Known n (z i).1) {u : Table} (hu : Blank n u) :
    Full s'.sol ∧ ∃ t, Chem.run (heard d n z 0 s'.log) u = some t ∧
      (∀ f ∈ fs, UnitShown d n f (begin first fs N s) { s' with pulse := f.pulses } u t) ∧
      (BlankUnits n u → ∀ f ∈ fs, MruShown d n f (begin first fs N s) s' u t) ∧
      ∀ f ∈ fs, Moved rx f (begin first fs N s) { s' with pulse := f.pulses } := by
  obtain ⟨c1, c2, c3, c4⟩ := couple_units hv hx h
  have hfin := couple_inside hv hx h hin
  obtain ⟨h1, h2, h3⟩ := couple_eq h
  obtain ⟨w1, w2, w3, -, w5⟩ := Reservoir.webrrun_eq _ _ _ _ _ _ _ h1
  obtain ⟨g1, g2, g3, -, -⟩ := basin_streams b N hb _ _ _ _ hv.stream _ w2
  have hsl : (segs (fs.map (·.unit)) o.basin).length = N := by rw [segs_length, g1]
  rw [hsl] at h3
  have hun : ∀ k f, fs[k]? = some f → f.unit = 1 + k := fun k f hk => (c4 k f hk).1
  obtain ⟨m1, m2⟩ := units_recorded hd fs hfin (units_nodup fs 1 hun) hs.1 (begin first fs N s) (begin_full first fs N s hF)
  obtain ⟨M, L1, L2⟩ := units_log (rx := rx) fs hfin (begin first fs N s)
  generalize hs1 : fs.foldl (fun s f => flow rx f s) (begin first fs N s) = s1 at *
  obtain ⟨l1, l2, l3⟩ := segLoop_routed hd _ hs.2 s1 m1
  obtain ⟨S, K1, K2⟩ := segLoop_log rx (segs (fs.map (·.unit)) o.basin) 1 le_rfl s1
  rw [← h3] at l1 l2 l3 K1
  rw [hsl, Nat.add_sub_cancel_left] at K2
  have same : ∀ u (k : Key), k.of u → (k ≠ .hill false 14 1) → s'.sol k = s1.sol k := by
    intro u k hk hne
    apply l2
    intro hst
    cases k with
    | hill t i v =>
      unfold Key.stream at hst
      split at hst
      · rename_i he; exact absurd he (by simp)
      · rename_i he; exact hne he
      · exact hst
    | _ => first | exact hk | exact hst
  have hlog : s'.log = M ++ S := by rw [K1, L1]; rfl
  have hsound : ∀ e ∈ M ++ S, e.sound d := by
    intro e he
    rcases List.mem_append.1 he with he | he
    · obtain ⟨⟨f, hf, hp⟩, -⟩ := L2 e he
      exact proper_sound (hfin f hf) hp
    · exact streamy_sound hin.segs (K2 e he)
  obtain ⟨t, ht⟩ := heard_some hin.ok hz hin.some (M ++ S) hsound 0 u
  have hbound : ∀ e ∈ M ++ S, e.bound := by
    intro e he
    rcases List.mem_append.1 he with he | he
    · exact (L2 e he).2
    · exact (streamy_hushed (K2 e he) 0).2
  refine ⟨l1, t, by rw [hlog]; exact ht, ?_⟩
  have both : ∀ f ∈ fs, UnitShown d n f (begin first fs N s) { s' with pulse := f.pulses } u t ∧
      (BlankUnits n u → MruShown d n f (begin first fs N s) s' u t) ∧ Moved rx f (begin first fs N s) { s' with pulse := f.pulses } := ?_
  · exact ⟨fun f hf => (both f hf).1, fun h f hf => (both f hf).2.1 h, fun f hf => (both f hf).2.2⟩
  intro f hf
  obtain ⟨w, w', p, l, q, j1, j2, j3, j4, j5, j6, j7, j8, j9, j10, j11⟩ := m2 f hf
  have hM : M = p ++ l ++ q := List.append_cancel_left (L1.symm.trans j4)
  have hMS : M ++ S = p ++ l ++ (q ++ S) := by rw [hM]; simp only [List.append_assoc]
  rw [hMS] at ht hsound hbound
  have hS := unit_shown hin.ok hz (hfin f hf) j5 j6
    (fun k hk ho => ⟨(j7 k hk ho).1, (j7 k hk ho).2.append (streamy_quiet hk K2)⟩) hsound hu ht
  have hsol : ∀ k : Key, k.of f.unit → k ≠ .hill false 14 f.unit → s'.sol k = w'.sol k := by
    intro k hk hne
    rw [← j2 k hk]
    refine same f.unit k hk ?_
    rintro rfl
    have : f.unit = 1 := hk.symm
    exact hne (by rw [this])
  refine ⟨shown_congr hS j1 hsol j3.symm, fun hu' => mru_congr (mru_shown hin.ok hz (hfin f hf) j5 j6
    (fun k hk ho => ⟨(j7 k hk ho).1, (j7 k hk ho).2.append (streamy_quiet hk K2)⟩) hsound hbound j8 j9
    (fun e he => ?_) hu hu' ht) j1 hsol, moved_congr j11 j1 hsol j3.symm⟩
  rw [← List.append_assoc] at he
  rcases List.mem_append.1 he with he | he
  · exact j10 e he
  · exact (streamy_hushed (K2 e he) _).1

/-- The rows of a unit balance. -/
theorem shown_even {d : Dims} {n : Nat} {f : Flow} {s s' : St} {u t : Table} (h : Stocked d n f s u) (hs : UnitShown d n f s s' u t) :
    UnitEven d n f s' t := by
  constructor
  · rintro k (rfl | rfl | rfl | rfl | rfl)
    · exact hs.can.balance h.can
    · exact hs.snow.balance h.snow
    · exact hs.ohoriz.balance h.ohoriz
    · exact hs.qdf.balance h.qdf
    · exact hs.sat.balance h.sat
  · intro j h1 h2
    obtain ⟨b, hb⟩ : ∃ b, f.bins[j - 1]? = some b := ⟨_, List.getElem?_eq_getElem (by omega)⟩
    have e := (hs.uz _ b hb).balance (h.uz _ b hb)
    rw [Nat.sub_add_cancel h1] at e
    exact e
  · intro hp hi
    exact (hs.satpref hp hi).balance (h.satpref hp)

/-- From one step to the next the initial amounts are those of the water that is there. -/
theorem next_stocked {rx : Ent → Sol → Sol} {first : Bool} {b : Reservoir.Basin} {ps : List (Par × Site)}
    {v : Reservoir.St} {s : St} {x x' : List In × Reservoir.StreamIn × List Rat} {v' v'' : Reservoir.St} {s' s'' : St} {o o' : Reservoir.Out}
    {fs fs' : List Flow} {N : Nat} (hb : b.Ok N) (hv : Sized ps N v) (hx : Fits ps x) (hx' : Fits ps x')
    (h : couple rx first b ps v s x = some (v', s', o, fs)) (h' : couple rx false b ps v' s' x' = some (v'', s'', o', fs')) {d : Dims}
    {n : Nat} {w u t : Table} {q : St} (hS : ∀ f ∈ fs, UnitShown d n f q { s' with pulse := f.pulses } u t) (hw : w = opened false t) :
    ∀ f' ∈ fs', Stocked d n f' (begin false fs' N s') w := by
  intro f' hf'
  have hv' := couple_sized hb hv hx h
  obtain ⟨k, hk⟩ := List.mem_iff_getElem?.1 hf'
  obtain ⟨c1', -, -, c4'⟩ := couple_units hv' hx' h'
  obtain ⟨c1, -, -, c4⟩ := couple_units hv hx h
  obtain ⟨d1', -, -, w0, e, d4', d5', d6', d7', d8'⟩ := c4' k f' hk
  obtain ⟨f, hf⟩ : ∃ f, fs[k]? = some f := ⟨_, List.getElem?_eq_getElem (by
    rw [c1, ← c1']; exact (List.getElem?_eq_some_iff.1 hk).1)⟩
  obtain ⟨d1, d2, d3, -⟩ := c4 k f hf
  obtain ⟨p, p1, -, -, -, p5⟩ := couple_site hv hx h k f hf
  obtain ⟨p', p1', -, -, -, p5'⟩ := couple_site hv' hx' h' k f' hk
  rw [p1] at p1'
  cases Option.some.inj p1'
  have hpm : f'.prefMax = f.prefMax := p5'.trans p5.symm
  have hun : f'.unit = f.unit := d1'.trans d1.symm
  rw [d3] at d4'
  cases Option.some.inj d4'
  obtain ⟨i1, i2, i3, i4, i5, i6, i7⟩ := step_init f'.p _ f'.i f'.r e d5' d7' d8'
  have hm := hS f (List.mem_of_getElem? hf)
  have key : ∀ i, f'.key false i = f.key false i := fun i => by rw [Flow.key, Flow.key, hun]
  have hat : ∀ i, 1 ≤ i → i ≤ 9 → at_ (begin false fs' N s') (f'.key false i) = at_ s' (f.key true i) := by
    intro i h1 h2
    rw [begin_hill false fs' N s' f' hf' i h1 h2, hun]; rfl
  have hop : ∀ r, w (.res r) (.mol n 1) = t (.res r) (.mol n 5) := by intro r; rw [hw]; rfl
  have hbn : f'.bins.map (·.vol.init) = f.bins.map (·.vol.fin) := by
    rw [d6', i4, Rows.next]
    dsimp only
    rw [d2, List.map_map]; rfl
  constructor
  · rw [hop, key, ← key 1, hat 1 (by omega) (by omega), key, i1]; exact hm.can.final
  · rw [hop, key, ← key 2, hat 2 (by omega) (by omega), key, i2]; exact hm.snow.final
  · rw [hop, key, ← key 4, hat 4 (by omega) (by omega), key, i3]; exact hm.ohoriz.final
  · intro j b' hj
    have hjl := (List.getElem?_eq_some_iff.1 hj).1
    have hj2 := congrArg (fun l => l[j]?) hbn
    simp only [List.getElem?_map, hj, Option.map_some] at hj2
    obtain ⟨b0, hb0, e0⟩ := Option.map_eq_some_iff.1 hj2.symm
    rw [hop, begin_bin false fs' N s' f' hf' (j + 1) (by omega) (by omega), ← e0, hun]
    exact (hm.uz j b0 hb0).final
  · rw [hop, key, ← key 7, hat 7 (by omega) (by omega), key, i5]; exact hm.qdf.final
  · rw [hop, key, ← key 8, hat 8 (by omega) (by omega), key, i6]; exact hm.sat.final
  · intro hp
    rw [hpm] at hp
    rw [hop, key, ← key 9, hat 9 (by omega) (by omega), key, i7]; exact (hm.path hp).2.2.2.1

theorem newStep_blank (n : Nat) (t : Table) : Blank n (Chem.newStep t) := by
  intro r s hs
  unfold Chem.newStep
  dsimp only
  rw [if_neg (by omega)]

theorem run_shown {rx : Ent → Sol → Sol} (hd : Dry rx) {b : Reservoir.Basin} {ps : List (Par × Site)} {N : Nat} (hb : b.Ok N) {d : Dims}
    (hin : Inside d ps N) {n : Nat} (xs : List (List In × Reservoir.StreamIn × List Rat)) (hx : ∀ x ∈ xs, Fits ps x) (first : Bool)
    (v : Reservoir.St) (s : St) (hv : Sized ps N v) (hF : Full s.sol)
    (rs : List (Reservoir.St × St × Reservoir.Out × List Flow)) (h : run rx b ps first v s xs = some rs) (hs : ∀ r ∈ rs, Smooth r)
    (zs : List (Nat → Ctx × Call)) (hzl : zs.length = rs.length) (hz : ∀ z ∈ zs, ∀ i, Known n (z i).1)
    (u : Table) (hu : Blank n (opened first u))
    (hst : ∀ r, rs[0]? = some r → ∀ f ∈ r.2.2.2, Stocked d n f (begin first r.2.2.2 N s) (opened first u)) :
    ∃ ts, tables d n first u (zs.zip (rs.map fun r => r.2.1.log)) = some ts ∧ AllShown d n N first s u rs ts := by
  induction xs generalizing first v s rs zs u with
  | nil =>
    simp only [run, Option.some.injEq] at h
    subst h
    exact ⟨[], by simp [tables], trivial⟩
  | cons x xs ih =>
    unfold run at h
    cases hc : couple rx first b ps v s x with
    | none => rw [hc] at h; exact absurd h (by simp)
    | some q =>
      obtain ⟨v', s', o, fs⟩ := q
      rw [hc] at h
      simp only [Option.map_eq_some_iff] at h
      obtain ⟨rs', h', rfl⟩ := h
      cases zs with
      | nil => exact absurd hzl (by simp)
      | cons z zs =>
        have hx0 := hx x List.mem_cons_self
        obtain ⟨k1, t, k2, k3, -, -⟩ := couple_shown hd hb hv hx0 hF hc (hs _ List.mem_cons_self) hin (hz z List.mem_cons_self) hu
        have hst0 := hst _ rfl
        dsimp only at hst0
        have hv' := couple_sized hb hv hx0 hc
        obtain ⟨ts, e1, e2⟩ := ih (fun y hy => hx y (List.mem_cons_of_mem _ hy)) false v' s' hv' k1 rs' h'
          (fun r hr => hs r (List.mem_cons_of_mem _ hr)) zs (by simpa using hzl) (fun z hz' => hz z (List.mem_cons_of_mem _ hz')) t
          (newStep_blank n t) (by
            intro r hr
            cases xs with
            | nil =>
              simp only [run, Option.some.injEq] at h'
              subst h'
              exact absurd hr (by simp)
            | cons x' xs =>
              unfold run at h'
              cases hc' : couple rx false b ps v' s' x' with
              | none => rw [hc'] at h'; exact absurd h' (by simp)
              | some q =>
                obtain ⟨v'', s'', o', fs'⟩ := q
                rw [hc'] at h'
                simp only [Option.map_eq_some_iff] at h'
                obtain ⟨rs'', -, rfl⟩ := h'
                cases hr
                exact next_stocked hb hv hx0 (hx x' (by simp)) hc hc' k3 rfl)
        refine ⟨t :: ts, ?_, ?_, e2⟩
        · simp only [List.map_cons, List.zip_cons_cons, tables, enterAll]
          rw [show (if first = true then u else Chem.newStep u) = opened first u from rfl, k2]
          simp only [e1, Option.map_some]
        · intro f hf
          have e := shown_even (hst0 f hf) (k3 f hf)
          exact ⟨hst0 f hf, k3 f hf, e.hill, e.uz, e.satpref⟩

end Verif.Transport
