import Verif.Lemmas.TransportChem6
/-
What the composites of units show of the steps of a run.
-/
namespace Verif.Transport
open Verif.Reservoir (Vol Rows BinOut Par In sumOf Extra)
open Verif.Chem (Ctx Call Event Table Same)
open Verif.SolnNum (Dims)

theorem overOuts_maps (g : Nat → BinOut → Rat) (h : Nat → BinOut → Rat) (j : Nat) (bs cs : List BinOut) (hl : bs.length = cs.length)
    (H : ∀ i b c, bs[i]? = some b → cs[i]? = some c → g (j + i) b = h (j + i) c) : overOuts g j bs = overOuts h j cs := by
  induction bs generalizing j cs with
  | nil =>
    cases cs with
    | nil => rfl
    | cons c cs => exact absurd hl (by simp)
  | cons b bs ih =>
    cases cs with
    | nil => exact absurd hl (by simp)
    | cons c cs =>
      unfold overOuts
      rw [show g j b = h j c from H 0 b c rfl rfl, ih (j + 1) cs (by simpa using hl)]
      intro i b' c' hb hc
      have := H (i + 1) b' c' (by simpa using hb) (by simpa using hc)
      rwa [show j + (i + 1) = j + 1 + i by omega] at this

/-- What is known of a unit at the end of a step is known at the start of the next. -/
theorem next_known {rx : Ent → Sol → Sol} {first : Bool} {b : Reservoir.Basin} {ps : List (Par × Site)}
    {v : Reservoir.St} {s : St} {x x' : List In × Reservoir.StreamIn × List Rat} {v' v'' : Reservoir.St} {s' s'' : St} {o o' : Reservoir.Out}
    {fs fs' : List Flow} {N : Nat} (hb : b.Ok N) (hv : Sized ps N v) (hx : Fits ps x) (hx' : Fits ps x')
    (h : couple rx first b ps v s x = some (v', s', o, fs)) (h' : couple rx false b ps v' s' x' = some (v'', s'', o', fs')) :
    ∀ f' ∈ fs', ∃ f ∈ fs, f.unit = f'.unit ∧ known f' (·.init) false (begin false fs' N s') = known f (·.fin) true s' := by
  intro f' hf'
  have hv' := couple_sized hb hv hx h
  obtain ⟨k, hk⟩ := List.mem_iff_getElem?.1 hf'
  obtain ⟨c1', -, -, c4'⟩ := couple_units hv' hx' h'
  obtain ⟨c1, -, -, c4⟩ := couple_units hv hx h
  obtain ⟨d1', -, -, w0, e, d4', d5', d6', d7', d8'⟩ := c4' k f' hk
  obtain ⟨f, hf⟩ : ∃ f, fs[k]? = some f := ⟨_, List.getElem?_eq_getElem (by
    rw [c1, ← c1']; exact (List.getElem?_eq_some_iff.1 hk).1)⟩
  obtain ⟨d1, d2, d3, -⟩ := c4 k f hf
  obtain ⟨p, p1, -, -, -, p5⟩ := couple_site hv hx h k f hf
  obtain ⟨p', p1', -, -, -, p5'⟩ := couple_site hv' hx' h' k f' hk
  rw [p1] at p1'
  cases Option.some.inj p1'
  have hpm : f'.prefMax = f.prefMax := p5'.trans p5.symm
  have hun : f'.unit = f.unit := d1'.trans d1.symm
  rw [d3] at d4'
  cases Option.some.inj d4'
  obtain ⟨i1, i2, i3, i4, i5, i6, i7⟩ := step_init f'.p _ f'.i f'.r e d5' d7' d8'
  have hat : ∀ i, 1 ≤ i → i ≤ 9 → at_ (begin false fs' N s') (f'.key false i) = at_ s' (f.key true i) := by
    intro i h1 h2
    rw [begin_hill false fs' N s' f' hf' i h1 h2, hun]; rfl
  have hbn : f'.bins.map (·.vol.init) = f.bins.map (·.vol.fin) := by
    rw [d6', i4, Rows.next]
    dsimp only
    rw [d2, List.map_map]; rfl
  have hbl : f'.bins.length = f.bins.length := by simpa using congrArg List.length hbn
  refine ⟨f, List.mem_of_getElem? hf, hun.symm, ?_⟩
  unfold known held
  rw [hat 1 (by omega) (by omega), hat 2 (by omega) (by omega), hat 4 (by omega) (by omega), hat 7 (by omega) (by omega),
    hat 8 (by omega) (by omega), hat 9 (by omega) (by omega), hpm]
  rw [overOuts_maps _ (fun j b => b.vol.fin * at_ s' (.bin true f.unit j)) 1 f'.bins f.bins hbl (by
    intro j b1 b2 h1 h2
    have hjl := (List.getElem?_eq_some_iff.1 h1).1
    have hj2 := congrArg (fun l => l[j]?) hbn
    simp only [List.getElem?_map, h1, h2, Option.map_some, Option.some.injEq] at hj2
    dsimp only
    rw [begin_bin false fs' N s' f' hf' (1 + j) (by omega) (by omega), hj2, hun]
    rfl)]
  simp only [i1, i2, i3, i5, i6, i7, Rows.next]

theorem newStep_blankUnits (n : Nat) (t : Table) : BlankUnits n (Chem.newStep t) := by
  intro r s hs
  unfold Chem.newStep
  dsimp only
  rw [if_neg (by omega)]

theorem run_mru {rx : Ent → Sol → Sol} (hd : Dry rx) {b : Reservoir.Basin} {ps : List (Par × Site)} {N : Nat} (hb : b.Ok N) {d : Dims}
    (hin : Inside d ps N) {n : Nat} (xs : List (List In × Reservoir.StreamIn × List Rat)) (hx : ∀ x ∈ xs, Fits ps x) (first : Bool)
    (v : Reservoir.St) (s : St) (hv : Sized ps N v) (hF : Full s.sol)
    (rs : List (Reservoir.St × St × Reservoir.Out × List Flow)) (h : run rx b ps first v s xs = some rs) (hs : ∀ r ∈ rs, Smooth r)
    (zs : List (Nat → Ctx × Call)) (hzl : zs.length = rs.length) (hz : ∀ z ∈ zs, ∀ i, Known n (z i).1)
    (u : Table) (hu : Blank n (opened first u)) (hu' : BlankUnits n (opened first u))
    (hst : ∀ r, rs[0]? = some r → ∀ f ∈ r.2.2.2, Stocked d n f (begin first r.2.2.2 N s) (opened first u) ∧
      opened first u (.mru f.unit) (.mol n 1) = 1000 * known f (·.init) false (begin first r.2.2.2 N s)) :
    ∃ ts, tables d n first u (zs.zip (rs.map fun r => r.2.1.log)) = some ts ∧ MruAllShown d n N first s u rs ts ∧
      (Inert rx → MruAllEven n rs ts) := by
  induction xs generalizing first v s rs zs u with
  | nil =>
    simp only [run, Option.some.injEq] at h
    subst h
    exact ⟨[], by simp [tables], trivial, fun _ => trivial⟩
  | cons x xs ih =>
    unfold run at h
    cases hc : couple rx first b ps v s x with
    | none => rw [hc] at h; exact absurd h (by simp)
    | some q =>
      obtain ⟨v', s', o, fs⟩ := q
      rw [hc] at h
      simp only [Option.map_eq_some_iff] at h
      obtain ⟨rs', h', rfl⟩ := h
      cases zs with
      | nil => exact absurd hzl (by simp)
      | cons z zs =>
        have hx0 := hx x List.mem_cons_self
        have hsm := hs _ List.mem_cons_self
        obtain ⟨k1, t, k2, k3, k4, k5⟩ := couple_shown hd hb hv hx0 hF hc hsm hin (hz z List.mem_cons_self) hu
        have k4 := k4 hu'
        have hst0 := hst _ rfl
        dsimp only at hst0
        have hv' := couple_sized hb hv hx0 hc
        obtain ⟨ts, e1, e2, e3⟩ := ih (fun y hy => hx y (List.mem_cons_of_mem _ hy)) false v' s' hv' k1 rs' h'
          (fun r hr => hs r (List.mem_cons_of_mem _ hr)) zs (by simpa using hzl) (fun z hz' => hz z (List.mem_cons_of_mem _ hz')) t
          (newStep_blank n t) (newStep_blankUnits n t) (by
            intro r hr
            cases xs with
            | nil =>
              simp only [run, Option.some.injEq] at h'
              subst h'
              exact absurd hr (by simp)
            | cons x' xs =>
              unfold run at h'
              cases hc' : couple rx false b ps v' s' x' with
              | none => rw [hc'] at h'; exact absurd h' (by simp)
              | some q =>
                obtain ⟨v'', s'', o', fs'⟩ := q
                rw [hc'] at h'
                simp only [Option.map_eq_some_iff] at h'
                obtain ⟨rs'', -, rfl⟩ := h'
                cases hr
                intro f' hf'
                refine ⟨next_stocked hb hv hx0 (hx x' (by simp)) hc hc' k3 rfl f' hf', ?_⟩
                obtain ⟨f, hf, a1, a2⟩ := next_known hb hv hx0 (hx x' (by simp)) hc hc' f' hf'
                dsimp only
                rw [a2, ← (k4 f hf).final, ← a1]
                rfl)
        have gap : ∀ f ∈ fs, _ := fun f hf =>
          mru_gap (hsm.1 f hf).1 (hsm.1 f hf).2 (k5 f hf) (k3 f hf) (show MruShown d n f _ { s' with pulse := f.pulses } _ t from
            ⟨(k4 f hf).initial, (k4 f hf).input, (k4 f hf).output, (k4 f hf).final, (k4 f hf).rows⟩) (hst0 f hf).1 (hst0 f hf).2
        refine ⟨t :: ts, ?_, ⟨?_, e2⟩, fun hi => ⟨?_, e3 hi⟩⟩
        · simp only [List.map_cons, List.zip_cons_cons, tables, enterAll]
          rw [show (if first = true then u else Chem.newStep u) = opened first u from rfl, k2]
          simp only [e1, Option.map_some]
        · intro f hf
          obtain ⟨c, cb, g1, g2, -⟩ := gap f hf
          exact ⟨(hst0 f hf).2, k4 f hf, c, cb, ⟨g1.can, g1.snow, g1.ohoriz, g1.uz, g1.qdf, g1.sat, g1.satpref⟩, g2⟩
        · intro f hf
          obtain ⟨c, cb, -, g2, g3⟩ := gap f hf
          obtain ⟨z4, z⟩ := g3 hi
          refine ⟨?_, z4⟩
          unfold MruEven
          rw [g2, z]
          ring

end Verif.Transport
