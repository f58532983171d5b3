import Verif.Lemmas.TopmodRun
/-
C38: the hillslope water balance.  C56: water of the bins as published.  C57: the printed balance.
-/
namespace Verif.Topmod
open Verif.Route (at?)

/-- C38: no step of any run, whatever the state and the inputs, reaches the 'double recharge' stop. -/
theorem C38_never_stops (fn : Fn) (m : Mru) (hm : ∀ b ∈ m.bins, 0 ≤ b.1) (infex internal : Bool) (nstep : Nat)
    (st : St) (is : List (Rat × In)) : steps fn m infex internal nstep st is ≠ some none := by
  induction is generalizing nstep st with
  | nil => simp [steps]
  | cons i is ih =>
    obtain ⟨dt, i⟩ := i
    unfold steps
    have h := topmrun_no_stop fn m hm infex internal nstep dt i st
    cases hr : topmrun fn m infex internal nstep dt i st with
    | none => simp
    | some x =>
      cases x with
      | none => exact absurd hr h
      | some y =>
        dsimp only
        cases hx : steps fn m infex internal (nstep + 1) y.1 is with
        | none => simp
        | some z =>
          cases z with
          | none => exact absurd hx (ih _ _)
          | some z => simp

/-- C38: if the bins cover the unit, then in every step the water entering equals the water leaving plus
the change of storage, except for at most 1e-7 m of unsaturated storage that is set to zero. -/
theorem C38_step_partial (fn : Fn) (m : Mru) (hm : ∀ b ∈ m.bins, 0 ≤ b.1) (hc : covered m = 1) (infex internal : Bool)
    (nstep : Nat) (dt : Rat) (i : In) (st st' : St) (o : Out) (hs : st.bins.length = m.bins.length)
    (h : topmrun fn m infex internal nstep dt i st = some (some (st', o))) :
    ∃ e, 0 ≤ e ∧ e ≤ 1 / 10000000 ∧ inflow o + storage m st = outflow i o + storage m st' + e := by
  obtain ⟨w, rs, hst⟩ := topmrun_step fn m infex internal nstep dt i st st' o h
  obtain ⟨-, -, -, -, -, e, e0, e1, e2⟩ := step_balance fn m hm infex nstep dt i st st' o w rs hs hst
  rw [hc] at e1 e2
  exact ⟨e, e0, e1, by linarith⟩

/-- C38: with the tolerance of the check at initialisation the balance is off by at most 0.05 % of the
water reaching the soil, besides the 1e-7 m. -/
theorem C38_tolerance (fn : Fn) (hfn : fn.Ok) (m : Mru) (hm : m.Ok) (infex internal : Bool)
    (st0 : St) (hinit : topminit internal m = some st0)
    (nstep : Nat) (dt : Rat) (hdt : 0 ≤ dt) (i : In) (hi : i.Ok) (st st' : St) (o : Out) (hs : st.Ok m)
    (h : topmrun fn m infex internal nstep dt i st = some (some (st', o))) :
    |inflow o + storage m st - (outflow i o + storage m st')| ≤
      10005 / 100000000000 + 5 / 10000 * o.surfdep := by
  obtain ⟨w, rs, hst⟩ := topmrun_step fn m infex internal nstep dt i st st' o h
  obtain ⟨-, -, -, -, -, e, e0, e1, e2⟩ := step_balance fn m hm.ac infex nstep dt i st st' o w rs hs.bins hst
  obtain ⟨-, -, -, -, p1, p2, -⟩ := step_range fn hfn m hm infex nstep dt hdt i hi st st' o w rs hs hst
  rw [hst.p] at p1 p2
  have hA : covered m - 1 ≤ 5 / 10000 ∧ -(covered m - 1) ≤ 5 / 10000 := by
    unfold topminit at hinit
    unfold covered
    cases hb : m.bins with
    | nil => rw [hb] at hinit; exact absurd hinit (by simp)
    | cons x rest =>
      obtain ⟨a, s⟩ := x
      rw [hb] at hinit
      dsimp only at hinit
      by_cases ha : a ≠ 0
      · rw [if_pos ha] at hinit; exact absurd hinit (by simp)
      · rw [if_neg ha] at hinit
        rw [not_not] at ha
        subst ha
        by_cases ht : 0 + (rest.map (·.1)).sum - 1 > 5 / 10000 ∨ -(0 + (rest.map (·.1)).sum - 1) > 5 / 10000
        · rw [if_pos ht] at hinit; exact absurd hinit (by simp)
        · push Not at ht
          rw [List.map_cons, acfs_sum]
          constructor
          · linarith [ht.1]
          · linarith [ht.2]
  generalize o.surfdep - o.rex - o.qvpref = p at *
  have hd : inflow o + storage m st - (outflow i o + storage m st') = e + (1 - covered m) * p := by linarith
  rw [hd]
  obtain ⟨a1, a2⟩ := hA
  have h1 : (1 - covered m) * p ≤ 5 / 10000 * p := mul_le_mul_of_nonneg_right (by linarith) p1
  have h2 : -(5 / 10000) * p ≤ (1 - covered m) * p := mul_le_mul_of_nonneg_right (by linarith) p1
  rw [abs_le]
  constructor
  · linarith
  · linarith

/-- C38: the root-zone deficit stays between 0 and its maximum, the unsaturated storage stays
non-negative, and no flow is negative. -/
theorem C38_range_partial (fn : Fn) (hfn : fn.Ok) (m : Mru) (hm : m.Ok) (infex internal : Bool) (nstep : Nat) (dt : Rat)
    (hdt : 0 ≤ dt) (i : In) (hi : i.Ok) (st st' : St) (o : Out) (hs : st.Ok m)
    (h : topmrun fn m infex internal nstep dt i st = some (some (st', o))) :
    st'.Ok m ∧ 0 ≤ o.sae ∧ 0 ≤ o.qof ∧ 0 ≤ o.qb ∧ 0 ≤ o.qdf ∧ 0 ≤ o.qpref ∧ 0 ≤ o.qout ∧ 0 ≤ o.quz ∧
      0 ≤ o.qwet ∧ 0 ≤ o.gwLoss ∧ 0 ≤ o.rex ∧ o.rex ≤ o.surfdep := by
  obtain ⟨w, rs, hst⟩ := topmrun_step fn m infex internal nstep dt i st st' o h
  obtain ⟨a, b, c, -, -, -, -, d, e, f, g, k, l, n, p, q⟩ :=
    step_range fn hfn m hm infex nstep dt hdt i hi st st' o w rs hs hst
  exact ⟨a, k, d, n, f, p, q, e, g, l, b, c⟩

/-- C38: whole runs: all water is accounted for up to 1e-7 m per step. -/
theorem C38_run_partial (fn : Fn) (m : Mru) (hm : ∀ b ∈ m.bins, 0 ≤ b.1) (hc : covered m = 1) (infex internal : Bool)
    (nstep : Nat) (st : St) (hs : st.bins.length = m.bins.length) (is : List (Rat × In))
    (rs : List (St × Out)) (h : steps fn m infex internal nstep st is = some (some rs)) :
    rs.length = is.length ∧ ∃ e : Rat, 0 ≤ e ∧ e ≤ is.length / 10000000 ∧
      (rs.map fun r => inflow r.2).sum + storage m st =
        (List.zipWith (fun (i : Rat × In) (r : St × Out) => outflow i.2 r.2) is rs).sum +
          storage m ((rs.map (·.1)).getLastD st) + e := by
  induction is generalizing nstep st rs with
  | nil =>
    simp only [steps, Option.some.injEq] at h
    subst h
    exact ⟨rfl, 0, le_refl _, by simp, by simp⟩
  | cons i is ih =>
    obtain ⟨dt, i⟩ := i
    unfold steps at h
    cases hr : topmrun fn m infex internal nstep dt i st with
    | none => rw [hr] at h; exact absurd h (by simp)
    | some x =>
      rw [hr] at h
      cases x with
      | none => exact absurd h (by simp)
      | some y =>
        obtain ⟨st', o⟩ := y
        dsimp only at h
        cases hx : steps fn m infex internal (nstep + 1) st' is with
        | none => rw [hx] at h; exact absurd h (by simp)
        | some z =>
          rw [hx] at h
          cases z with
          | none => exact absurd h (by simp)
          | some z =>
            simp only [Option.some.injEq] at h
            subst h
            obtain ⟨w, rs', hst⟩ := topmrun_step fn m infex internal nstep dt i st st' o hr
            obtain ⟨-, l2, -⟩ := step_balance fn m hm infex nstep dt i st st' o w rs' hs hst
            obtain ⟨e, e0, e1, e2⟩ := C38_step_partial fn m hm hc infex internal nstep dt i st st' o hs hr
            obtain ⟨i1, e', i2, i3, i4⟩ := ih (nstep + 1) st' l2 z hx
            refine ⟨by simp [i1], e + e', by linarith, ?_, ?_⟩
            · push_cast [List.length_cons]
              linarith
            · have hl : ((((st', o) :: z).map (·.1)).getLastD st) = (z.map (·.1)).getLastD st' := by
                rw [List.map_cons, List.getLastD_cons]
              rw [hl, List.map_cons, List.sum_cons, List.zipWith_cons_cons, List.sum_cons]
              linarith

/-- C38: an accepted initialisation provides a state as the step needs it, if the initial moisture is
not below the wilting point. -/
theorem C38_initial (internal : Bool) (m : Mru) (hm : m.Ok) (hw : m.wp ≤ m.theta0) (st : St)
    (h : topminit internal m = some st) : st.Ok m ∧ ∀ k, Published m st k := by
  unfold topminit at h
  cases hb : m.bins with
  | nil => rw [hb] at h; exact absurd h (by simp)
  | cons x rest =>
    obtain ⟨a, s⟩ := x
    rw [hb] at h
    dsimp only at h
    rw [← hb] at h
    split at h
    · exact absurd h (by simp)
    · split at h
      · exact absurd h (by simp)
      · split at h
        · exact absurd h (by simp)
        · rename_i h1 h2 h3
          simp only [Option.some.injEq] at h
          rw [← h]
          have hr : 0 ≤ m.sr0 ∧ m.sr0 ≤ (m.fc - m.wp) * m.root := by
            unfold Mru.sr0
            have := hm.root
            constructor
            · exact mul_nonneg (by linarith [not_lt.1 h3]) this.le
            · exact mul_le_mul_of_nonneg_right (by linarith) this.le
          refine ⟨⟨by simp, ?_⟩, ?_⟩
          · intro b hb'
            obtain ⟨y, hy, rfl⟩ := List.mem_map.1 hb'
            exact ⟨hr, le_refl _⟩
          · intro k b a' hb' ha' hne
            obtain ⟨y, hy, rfl⟩ := Option.map_eq_some_iff.1 (by rw [List.getElem?_map] at hb'; exact hb')
            exact uzDepth_eq m _ _ _

/-- C56: in every bin with an area, the published water above the water table changes by infiltration,
wetting from below, recharge, direct flow, evapotranspiration and the volume `uz2sat` handed over by the
moving water table, up to at most 1e-7 m; and it stays consistent with the storages and the water table. -/
theorem C56_bin (fn : Fn) (m : Mru) (hm : ∀ b ∈ m.bins, 0 ≤ b.1) (infex internal : Bool) (nstep : Nat)
    (dt : Rat) (i : In) (st st' : St) (o : Out) (hs : st.bins.length = m.bins.length)
    (h : topmrun fn m infex internal nstep dt i st = some (some (st', o))) (k : Nat) (hp : Published m st k) :
    Published m st' k ∧
    ∀ b b' f u a, st.bins[k]? = some b → st'.bins[k]? = some b' → o.flux[k]? = some f →
      o.uz2sat[k]? = some u → (acfs (m.bins.map (·.1)))[k]? = some a → a ≠ 0 →
      ∃ e, 0 ≤ e ∧ e ≤ 1 / 10000000 ∧
        b'.depth + e = b.depth + f.infil + f.wet - (1 - m.qdffrac) * f.uz - m.qdffrac * f.uz - f.ea - u := by
  obtain ⟨w, rs, hst⟩ := topmrun_step fn m infex internal nstep dt i st st' o h
  obtain ⟨l1, l2, l3, l4, l5, -⟩ := step_balance fn m hm infex nstep dt i st st' o w rs hs hst
  have hnew : ∀ b' a, st'.bins[k]? = some b' → (acfs (m.bins.map (·.1)))[k]? = some a → a ≠ 0 →
      ∃ r, rs[k]? = some r ∧ b'.depth = uzDepth m b'.srz b'.suz b'.zwt ∧ b'.srz = r.1.srz ∧
        b'.suz = r.1.suz ∧ o.uz2sat[k]? = some (uz2sat m r.1.zwt b'.zwt) := by
    intro b' a hb' ha hne
    have hk : k < st'.bins.length := (List.getElem?_eq_some_iff.1 hb').1
    have hk' : k < rs.length := by omega
    have hka : k < (acfs (m.bins.map (·.1))).length := (List.getElem?_eq_some_iff.1 ha).1
    refine ⟨rs[k], List.getElem?_eq_getElem hk', ?_⟩
    rw [List.getElem?_eq_getElem hka] at ha
    have ha := Option.some.inj ha
    have hz : (List.zip (acfs (m.bins.map (·.1))) (m.bins.map (·.2)))[k]? = some (a, m.bins[k].2) := by
      rw [List.getElem?_eq_getElem (by rw [List.length_zip, acfs_length]; simp; omega), List.getElem_zip, ha]
      simp
    have hzz : (List.zipWith (fun (a : Rat × Rat) (r : BinSt × Flux) => tableStep m st'.sbar a.1 a.2 r.1)
        (List.zip (acfs (m.bins.map (·.1))) (m.bins.map (·.2))) rs)[k]? =
        some (tableStep m st'.sbar a m.bins[k].2 rs[k].1) := by
      rw [List.getElem?_zipWith, hz, List.getElem?_eq_getElem hk']
    rw [hst.bins, List.getElem?_map, hzz] at hb'
    simp only [Option.map_some, Option.some.injEq] at hb'
    obtain ⟨t1, t2⟩ := tableStep_depth m st'.sbar a m.bins[k].2 rs[k].1 hne
    obtain ⟨t3, t4⟩ := tableStep_keeps m st'.sbar a m.bins[k].2 rs[k].1
    rw [hb'] at t1 t2 t3 t4
    refine ⟨t1, t3, t4, ?_⟩
    rw [hst.uz2sat, List.getElem?_map, hzz, Option.map_some, t2]
  constructor
  · intro b' a hb' ha hne
    obtain ⟨r, -, hd, -⟩ := hnew b' a hb' ha hne
    rw [hd]; exact uzDepth_eq m _ _ _
  · intro b b' f u a hb hb' hf hu ha hne
    obtain ⟨r, hr, hd, hz, hsu, hus⟩ := hnew b' a hb' ha hne
    have hk : k < st.bins.length := (List.getElem?_eq_some_iff.1 hb).1
    obtain ⟨a', b0, r', g1, g2, g3, g4⟩ := l5 k (by omega)
    rw [ha] at g1
    rw [hb] at g2
    rw [hr] at g3
    have g1 := Option.some.inj g1
    have g2 := Option.some.inj g2
    have g3 := Option.some.inj g3
    subst g1 g2 g3
    rw [if_pos hne] at g4
    obtain ⟨b1, f1, e, q1, q2, -, q3, q4, q5, q6⟩ := binStep_balance m dt w (deficit m st.sbar m.bins[k].2) b
    rw [g4] at q1
    have q1 := Option.some.inj q1
    rw [hst.flux, List.getElem?_map, hr, Option.map_some] at hf
    have hf := Option.some.inj hf
    rw [hus] at hu
    have hu := Option.some.inj hu
    have hold := hp b a hb ha hne
    rw [q1] at hz hsu hf hu
    dsimp only at hz hsu hf hu
    refine ⟨e, q3, q4, ?_⟩
    rw [hd, uzDepth_eq, hold, ← hu, uz2sat_eq, hz, hsu, q2, ← hf, q5, hst.p]
    rw [hst.p2rz, hst.qv2suz] at q6
    have := hst.qvpref
    linarith

/-- C56: the fluxes published for the unit are those of its bins: surface runoff, recharge, direct flow, wetting and
evapotranspiration are sums over the bins; the published infiltration is the water reaching the soil less what
runs off or takes the preferential path, and if the bins cover the unit it is the infiltration of the bins;
without the infiltration-excess option there is none; the discharge has exactly four parts. -/
theorem C56_total (fn : Fn) (m : Mru) (hm : ∀ b ∈ m.bins, 0 ≤ b.1) (infex internal : Bool) (nstep : Nat)
    (dt : Rat) (i : In) (st st' : St) (o : Out) (hs : st.bins.length = m.bins.length)
    (h : topmrun fn m infex internal nstep dt i st = some (some (st', o))) :
    o.flux.length = m.bins.length ∧
    o.surfdep = (i.snowmelt + i.psoil) * (254 / 10000) ∧
    o.qofs = total m o (·.ex) ∧ o.quz = total m o (fun f => (1 - m.qdffrac) * f.uz) ∧
    o.qdf = total m o (fun f => m.qdffrac * f.uz) ∧ o.qwet = total m o (·.wet) ∧ o.sae = total m o (·.ea) ∧
    o.qof = o.qofs + o.rex ∧ o.infil = o.surfdep - o.qof - o.qvpref ∧
    (covered m = 1 → o.infil = total m o (·.infil)) ∧ (infex = false → o.rex = 0) ∧
    o.qout = o.qb + o.qof + o.qdf + o.qpref := by
  obtain ⟨w, rs, hst⟩ := topmrun_step fn m infex internal nstep dt i st st' o h
  obtain ⟨l1, -, -, -, l5, -⟩ := step_balance fn m hm infex nstep dt i st st' o w rs hs hst
  have ht : ∀ g : Flux → Rat, weigh (acfs (m.bins.map (·.1))) (rs.map fun r => g r.2) = total m o g := by
    intro g
    unfold weigh total
    rw [hst.flux]
    generalize acfs (m.bins.map (·.1)) = A
    clear l1 l5 hst
    induction A generalizing rs with
    | nil => simp
    | cons a A ih =>
      cases rs with
      | nil => simp
      | cons r rs =>
        simp only [List.map_cons, List.zipWith_cons_cons, List.sum_cons]
        rw [ih rs, mul_comm]
  refine ⟨by rw [hst.flux, List.length_map, l1], hst.surfdep, ?_, ?_, ?_, ?_, ?_, hst.qof, hst.infil, ?_, ?_, hst.qout⟩
  · rw [hst.qofs]; exact ht (·.ex)
  · rw [hst.quz]; exact ht (fun f => (1 - m.qdffrac) * f.uz)
  · rw [hst.qdf]; exact ht (fun f => m.qdffrac * f.uz)
  · rw [hst.qwet]; exact ht (·.wet)
  · rw [hst.sae]; exact ht (·.ea)
  · intro hc
    have hk : ∀ (k : Nat) (a : Rat) (f : Flux), (acfs (m.bins.map (·.1)))[k]? = some a → o.flux[k]? = some f →
        a * f.infil = a * (o.surfdep - o.rex - o.qvpref) - a * f.ex := by
      intro k a f ha hf
      have hka : k < (acfs (m.bins.map (·.1))).length := (List.getElem?_eq_some_iff.1 ha).1
      rw [acfs_length, List.length_map] at hka
      obtain ⟨a', b, r, g1, g2, g3, g4⟩ := l5 k hka
      rw [ha] at g1
      have g1 := Option.some.inj g1
      subst g1
      rw [hst.flux, List.getElem?_map, g3, Option.map_some] at hf
      have hf := Option.some.inj hf
      by_cases hz : a = 0
      · rw [hz]; ring
      · rw [if_pos hz] at g4
        obtain ⟨b1, f1, e, q1, -, -, -, -, q5, -⟩ := binStep_balance m dt w (deficit m st.sbar m.bins[k].2) b
        rw [g4] at q1
        have q1 := Option.some.inj q1
        rw [q1] at hf
        dsimp only at hf
        rw [← hf, q5, hst.p]; ring
    have hsum : total m o (·.infil) = covered m * (o.surfdep - o.rex - o.qvpref) - total m o (·.ex) := by
      unfold total covered
      have hlen : (acfs (m.bins.map (·.1))).length = o.flux.length := by
        rw [acfs_length, List.length_map, hst.flux, List.length_map, l1]
      generalize acfs (m.bins.map (·.1)) = A at hk hlen ⊢
      generalize o.flux = F at hk hlen ⊢
      generalize o.surfdep - o.rex - o.qvpref = p at hk ⊢
      clear * - hk hlen
      induction A generalizing F with
      | nil => simp
      | cons a A ih =>
        cases F with
        | nil => simp at hlen
        | cons f F =>
          have h0 := hk 0 a f rfl rfl
          have h1 := ih F (by simpa using hlen) (fun k a f ha hf => hk (k + 1) a f (by simpa using ha) (by simpa using hf))
          simp only [List.zipWith_cons_cons, List.sum_cons]
          linarith
    rw [hsum, hc, hst.infil, hst.qof, hst.qofs]
    have := ht (·.ex)
    rw [this]; ring
  · intro hi
    rw [hst.rex, hi]
    simp [infilExcess]

/-- C57: the balance printed at the end of a run is the water pumped for irrigation plus at most 1e-7 m
per step; it closes when nothing is pumped. -/
theorem C57_printed_partial (fn : Fn) (m : Mru) (hm : ∀ b ∈ m.bins, 0 ≤ b.1) (hc : covered m = 1)
    (infex internal : Bool) (st : St) (hi : topminit internal m = some st) (is : List (Rat × In))
    (rs : List (St × Out)) (h : steps fn m infex internal 1 st is = some (some rs)) :
    ∃ e : Rat, 0 ≤ e ∧ e ≤ is.length / 10000000 ∧
      printed m ((rs.map (·.1)).getLastD st) = (is.map fun i => i.2.irrSat * (254 / 10000)).sum + e := by
  -- the initial state
  obtain ⟨hbal, hlen, hsrz, hsuz, hzero⟩ : st.bal = m.rock * m.porosity - st.sbar - m.sr0 ∧
      st.bins.length = m.bins.length ∧ (∀ b ∈ st.bins, b.srz = m.sr0) ∧ (∀ b ∈ st.bins, b.suz = 0) ∧
      st.sums = ⟨0, 0, 0, 0, 0, 0⟩ := by
    unfold topminit at hi
    cases hb : m.bins with
    | nil => rw [hb] at hi; exact absurd hi (by simp)
    | cons x rest =>
      obtain ⟨a, s⟩ := x
      rw [hb] at hi
      dsimp only at hi
      split at hi
      · exact absurd hi (by simp)
      · split at hi
        · exact absurd hi (by simp)
        · split at hi
          · exact absurd hi (by simp)
          · simp only [Option.some.injEq] at hi
            rw [← hi]
            refine ⟨rfl, by simp, ?_, ?_, rfl⟩
            · intro b hb
              obtain ⟨y, hy, rfl⟩ := List.mem_map.1 hb
              rfl
            · intro b hb
              obtain ⟨y, hy, rfl⟩ := List.mem_map.1 hb
              rfl
  have hweigh : ∀ (acf : List Rat) (bs : List BinSt) (g : BinSt → Rat) (c : Rat), acf.length = bs.length →
      (∀ b ∈ bs, g b = c) → weigh acf (bs.map g) = c * acf.sum := by
    intro acf
    induction acf with
    | nil => intro bs g c _ _; cases bs <;> simp [weigh]
    | cons a acf ih =>
      intro bs g c hl hg
      cases bs with
      | nil => simp at hl
      | cons b bs =>
        rw [List.map_cons, weigh_cons, ih bs g c (by simpa using hl) (fun y hy => hg y (by simp [hy])),
          hg b (by simp), List.sum_cons]
        ring
  have hsplit : ∀ (acf : List Rat) (bs : List BinSt),
      (List.zipWith (fun a (b : BinSt) => a * (b.suz - b.srz)) acf bs).sum =
        weigh acf (bs.map (·.suz)) - weigh acf (bs.map (·.srz)) := by
    intro acf
    induction acf with
    | nil => intro bs; cases bs <;> simp [weigh]
    | cons a acf ih =>
      intro bs
      cases bs with
      | nil => simp [weigh]
      | cons b bs =>
        simp only [List.map_cons, weigh_cons, List.zipWith_cons_cons, List.sum_cons, ih]
        ring
  -- the sums
  have hsums : ∀ (is : List (Rat × In)) (nstep : Nat) (st : St) (rs : List (St × Out)),
      steps fn m infex internal nstep st is = some (some rs) → 1 ≤ nstep →
      (nstep = 1 → st.sums = ⟨0, 0, 0, 0, 0, 0⟩) →
      let s := ((rs.map (·.1)).getLastD st)
      s.bal = st.bal ∧
      s.sums.p + s.sums.gw1 + s.sums.gw2 - s.sums.ae - s.sums.q - s.sums.loss =
        st.sums.p + st.sums.gw1 + st.sums.gw2 - st.sums.ae - st.sums.q - st.sums.loss +
        (rs.map fun r => inflow r.2).sum -
        (List.zipWith (fun (i : Rat × In) (r : St × Out) => outflow i.2 r.2) is rs).sum +
        (is.map fun i => i.2.irrSat * (254 / 10000)).sum := by
    intro is
    induction is with
    | nil =>
      intro nstep st rs h _ _
      simp only [steps, Option.some.injEq] at h
      subst h
      simp
    | cons i is ih =>
      obtain ⟨dt, i⟩ := i
      intro nstep st rs h hn h0
      unfold steps at h
      cases hr : topmrun fn m infex internal nstep dt i st with
      | none => rw [hr] at h; exact absurd h (by simp)
      | some x =>
        rw [hr] at h
        cases x with
        | none => exact absurd h (by simp)
        | some y =>
          obtain ⟨st', o⟩ := y
          dsimp only at h
          cases hx : steps fn m infex internal (nstep + 1) st' is with
          | none => rw [hx] at h; exact absurd h (by simp)
          | some z =>
            rw [hx] at h
            cases z with
            | none => exact absurd h (by simp)
            | some z =>
              simp only [Option.some.injEq] at h
              subst h
              obtain ⟨w, rs', hst⟩ := topmrun_step fn m infex internal nstep dt i st st' o hr
              obtain ⟨i1, i2⟩ := ih (nstep + 1) st' z hx (by omega) (by intro h1; omega)
              have hl : ((((st', o) :: z).map (·.1)).getLastD st) = (z.map (·.1)).getLastD st' := by
                rw [List.map_cons, List.getLastD_cons]
              dsimp only at i1 i2 ⊢
              rw [hl]
              obtain ⟨s, hs1, hs2⟩ := hst.sums
              have hss : s = st.sums := by
                rw [hs1]
                split
                · rename_i h1; exact (h0 h1).symm
                · rfl
              rw [hss] at hs2
              refine ⟨by rw [i1, hst.bal], ?_⟩
              rw [i2, hs2, List.map_cons, List.sum_cons, List.zipWith_cons_cons, List.sum_cons, List.map_cons,
                List.sum_cons]
              unfold inflow outflow
              dsimp only
              linarith
  obtain ⟨q1, q2⟩ := hsums is 1 st rs h (le_refl _) (fun _ => hzero)
  obtain ⟨-, e, e0, e1, e2⟩ := C38_run_partial fn m hm hc infex internal 1 st hlen is rs h
  refine ⟨e, e0, e1, ?_⟩
  rw [hzero] at q2
  dsimp only at q1 q2
  have hs0 : storage m st = -m.sr0 - st.sbar := by
    unfold storage
    rw [hsplit, hweigh _ st.bins (·.suz) 0 (by rw [acfs_length]; simp [hlen]) hsuz,
      hweigh _ st.bins (·.srz) m.sr0 (by rw [acfs_length]; simp [hlen]) hsrz]
    unfold covered at hc
    rw [hc]; ring
  rw [hs0] at e2
  generalize (rs.map (·.1)).getLastD st = s at *
  have hs1 : storage m s = weigh (acfs (m.bins.map (·.1))) (s.bins.map (·.suz)) -
      weigh (acfs (m.bins.map (·.1))) (s.bins.map (·.srz)) - s.sbar := by
    unfold storage
    rw [hsplit]
  rw [hs1] at e2
  unfold printed
  dsimp only
  linarith

/-- C38: a step with valid parameters and existing schedules always has a result. -/
theorem C38_defined (fn : Fn) (m : Mru) (hm : m.Ok) (hd : m.fc < m.porosity) (hr : 0 < m.rock) (ha : 0 < m.area)
    (hz : 0 < m.szm) (ht : 0 < m.tl) (infex internal : Bool) (nstep : Nat) (dt : Rat) (hdt : 0 < dt) (i : In)
    (st : St) (h1 : m.gw1 = 0 ∨ 1 ≤ m.gw1 ∧ m.gw1 ≤ i.gwExt.length)
    (h2 : m.gw2 = 0 ∨ 1 ≤ m.gw2 ∧ m.gw2 ≤ i.gwExt.length)
    (h3 : m.src = 0 → m.sched ≤ i.irrNext.length) :
    ∃ st' o, topmrun fn m infex internal nstep dt i st = some (some (st', o)) := by
  have hex : ∀ (xs : List Rat) (k : Int), 1 ≤ k → k ≤ xs.length → ∃ x, at? xs k = some x := by
    intro xs k k1 k2
    unfold at?
    rw [if_neg (by omega)]
    exact ⟨xs[k.toNat - 1]'(by omega), List.getElem?_eq_getElem (by omega)⟩
  have hg : ∀ (k : Int) (len : Rat), (k = 0 ∨ 1 ≤ k ∧ k ≤ i.gwExt.length) → ∃ g, gwIn m dt i.gwExt k len = some g := by
    intro k len hk
    unfold gwIn
    by_cases hc : i.gwExt.length ≠ 0 ∧ k ≠ 0
    · rw [if_pos hc]
      obtain ⟨x, hx⟩ := hex i.gwExt k (by rcases hk with h | h <;> omega) (by rcases hk with h | h <;> omega)
      rw [hx]; exact ⟨_, rfl⟩
    · rw [if_neg hc]; exact ⟨_, rfl⟩
  obtain ⟨g1, e1⟩ := hg m.gw1 m.len1 h1
  obtain ⟨g2, e2⟩ := hg m.gw2 m.len2 h2
  obtain ⟨n, e3⟩ : ∃ n, irrSatNext fn m internal dt st.sbar i.irrNext = some n := by
    unfold irrSatNext
    by_cases hc : internal = true ∧ m.sched > 0 ∧ m.src = 0
    · rw [if_pos hc]
      obtain ⟨x, hx⟩ := hex i.irrNext m.sched (by omega) (h3 hc.2.2)
      dsimp only
      rw [hx]; exact ⟨_, rfl⟩
    · rw [if_neg hc]; exact ⟨_, rfl⟩
  have hn := topmrun_no_stop fn m hm.ac infex internal nstep dt i st
  have : topmrun fn m infex internal nstep dt i st ≠ none := by
    unfold topmrun
    have hs : 0 < m.srmax := mul_pos (by linarith [hm.moisture]) hm.root
    have hdr : 0 < m.drain := by unfold Mru.drain; linarith
    have hsm : 0 < m.sbarMax := mul_pos hr hdr
    rw [if_neg (by
      rintro (h | h | h | h | h | h | ⟨-, h⟩) <;> linarith)]
    dsimp only
    rw [e1, e2, e3]
    dsimp only
    split <;> simp
  cases hx : topmrun fn m infex internal nstep dt i st with
  | none => exact absurd hx this
  | some y =>
    cases y with
    | none => exact absurd hx hn
    | some z => exact ⟨z.1, z.2, rfl⟩

/-- A unit with three bins covering it, one of them without area. -/
def hill : Mru :=
  { decay := .exponential, szm := 1 / 10, tl := 6, szq := 1 / 100, td := 24, pmacro := 1 / 10, pmacSat := 1 / 5,
    qdffrac := 3 / 10, covSum := 8 / 10, covWin := 5 / 10, wp := 1 / 10, fc := 2 / 10, theta0 := 15 / 100,
    porosity := 4 / 10, root := 1, rock := 5, lossK := 9, zmin := -2, zmax := -1, satprefK := 1 / 100000, area := 3,
    sched := 1, src := 0, irrMax := 100, irrInit := 0, sbar0 := 2 / 10, gw1 := 1, gw2 := 0, len1 := 10, len2 := 0,
    xk := [1], bins := [(0, 8), (3 / 10, 7), (5 / 10, 6), (2 / 10, 4)] }

/-- Stand-ins for the functions of the library. -/
def plain : Fn :=
  ⟨fun _ => 1 / 2, fun _ => 1 / 2, fun _ => 1 / 1000000000, fun _ _ _ _ dt pd => (some (pd.cumf + 1 / 1000), 0, dt)⟩

/-- A day with rain. -/
def wet : In := ⟨1 / 10, 1 / 100, 0, 1 / 2, 1, true, 1 / 50, [1 / 10], [5]⟩

def hill0 : St := (topminit true hill).getD ⟨0, 0, [], [], ⟨0, 0, 0, 0, 0, 0⟩, 0⟩

theorem hill_ok : hill.Ok := by
  refine ⟨?_, ?_, ?_, ?_, ?_, ?_, ?_, ?_, ?_⟩ <;> decide +kernel

theorem plain_ok : plain.Ok := by
  constructor
  · intro m xk n r dt pd f h
    simp only [plain, Option.some.injEq] at h
    rw [← h]; linarith
  · intro x; simp only [plain]; norm_num

/-- The unit is accepted, the bins cover it, two days have a result, water runs off and evaporates. -/
example : topminit true hill = some hill0 ∧ covered hill = 1 ∧ hill0.Ok hill ∧ wet.Ok ∧
    ∃ a b, steps plain hill true true 1 hill0 [(24, wet), (24, wet)] = some (some [a, b]) ∧
      0 < b.2.qof ∧ 0 < b.2.sae ∧ 0 < b.2.qb ∧ 0 < b.2.gwIn1 ∧ 0 < b.2.rex ∧ 0 < a.2.irrSatNext := by
  have h : topminit true hill = some hill0 := by decide +kernel
  refine ⟨h, by decide +kernel, (C38_initial true hill hill_ok (by decide +kernel) hill0 h).1, by
    unfold In.Ok; decide +kernel, ?_⟩
  have hx : ∃ r, topmrun plain hill true true 1 24 wet hill0 = some (some r) := by
    obtain ⟨a, b, h⟩ := C38_defined plain hill hill_ok (by decide +kernel) (by decide +kernel) (by decide +kernel)
      (by decide +kernel) (by decide +kernel) true true 1 24 (by norm_num) wet hill0 (by decide) (by decide)
      (by decide)
    exact ⟨(a, b), h⟩
  have hq : ∀ rs, steps plain hill true true 1 hill0 [(24, wet), (24, wet)] = some (some rs) → rs.length = 2 :=
    fun rs h => (C38_run_partial plain hill hill_ok.ac (by decide +kernel) true true 1 hill0 (by decide +kernel) _ rs h).1
  have hs : (match steps plain hill true true 1 hill0 [(24, wet), (24, wet)] with
      | some (some [a, b]) => decide (0 < b.2.qof ∧ 0 < b.2.sae ∧ 0 < b.2.qb ∧ 0 < b.2.gwIn1 ∧ 0 < b.2.rex ∧
          0 < a.2.irrSatNext)
      | _ => false) = true := by decide +kernel
  split at hs
  · rename_i a b he
    exact ⟨a, b, he, of_decide_eq_true hs⟩
  · exact absurd hs (by simp)

/-- The unit of the example, dry. -/
def dry : Mru := { hill with theta0 := 0 }

def dry0 : St := (topminit false dry).getD hill0

/-- C38 needs the initial moisture not to be below the wilting point, which is not checked: the root zone
then lacks more water than it can hold, and the first step reports negative evapotranspiration. -/
theorem C38_wilting_violated : ∃ (m : Mru) (st : St), m.Ok ∧ topminit false m = some st ∧
    (∃ b ∈ st.bins, (m.fc - m.wp) * m.root < b.srz) ∧
    ∃ i : In, i.Ok ∧ ∃ st' o, topmrun plain m false false 1 24 i st = some (some (st', o)) ∧ o.sae < 0 := by
  have hm : dry.Ok := by
    refine ⟨?_, ?_, ?_, ?_, ?_, ?_, ?_, ?_, ?_⟩ <;> decide +kernel
  refine ⟨dry, dry0, hm, by decide +kernel, by decide +kernel, { wet with snowmelt := 0, psoil := 0 },
    by unfold In.Ok; decide +kernel, ?_⟩
  have hs : (match topmrun plain dry false false 1 24 { wet with snowmelt := 0, psoil := 0 } dry0 with
      | some (some (_, o)) => decide (o.sae < 0)
      | _ => false) = true := by decide +kernel
  split at hs
  · rename_i a o he
    exact ⟨a, o, he, of_decide_eq_true hs⟩
  · exact absurd hs (by simp)

/-- C57: pumped water is missing from the printed balance: it does not close although no water is lost. -/
theorem C57_pumping_violated : ∃ (rs : List (St × Out)), steps plain hill true true 1 hill0 [(24, wet)] =
    some (some rs) ∧ 5 / 10000 ≤ printed hill ((rs.map (·.1)).getLastD hill0) := by
  have hs : (match steps plain hill true true 1 hill0 [(24, wet)] with
      | some (some rs) => decide (5 / 10000 ≤ printed hill ((rs.map (·.1)).getLastD hill0))
      | _ => false) = true := by decide +kernel
  split at hs
  · rename_i rs he
    exact ⟨rs, he, of_decide_eq_true hs⟩
  · exact absurd hs (by simp)

/-- Without pumping it closes. -/
example : ∃ (rs : List (St × Out)), steps plain hill true true 1 hill0 [(24, { wet with irrSat := 0 })] =
    some (some rs) ∧ printed hill ((rs.map (·.1)).getLastD hill0) ≤ 1 / 10000000 := by
  obtain ⟨a, b, h⟩ := C38_defined plain hill hill_ok (by decide +kernel) (by decide +kernel) (by decide +kernel)
      (by decide +kernel) (by decide +kernel) true true 1 24 (by norm_num) { wet with irrSat := 0 } hill0 (by decide)
      (by decide) (by decide)
  have hs : steps plain hill true true 1 hill0 [(24, { wet with irrSat := 0 })] = some (some [(a, b)]) := by
    unfold steps; rw [h]; rfl
  obtain ⟨e, -, e1, e2⟩ := C57_printed_partial plain hill hill_ok.ac (by decide +kernel) true true hill0
    (by decide +kernel) _ _ hs
  refine ⟨_, hs, ?_⟩
  rw [e2]
  simp only [List.map_cons, List.map_nil, List.sum_cons, List.sum_nil, List.length_cons, List.length_nil] at e1 ⊢
  push_cast at e1
  linarith

/-- C56 applies to the bins of the example, from the first step on. -/
example : ∃ st' o, topmrun plain hill true true 1 24 wet hill0 = some (some (st', o)) ∧
    ∀ k, Published hill hill0 k ∧ Published hill st' k := by
  obtain ⟨st', o, h⟩ := C38_defined plain hill hill_ok (by decide +kernel) (by decide +kernel) (by decide +kernel)
      (by decide +kernel) (by decide +kernel) true true 1 24 (by norm_num) wet hill0 (by decide) (by decide)
      (by decide)
  have hp := (C38_initial true hill hill_ok (by decide +kernel) hill0 (by decide +kernel)).2
  exact ⟨st', o, h, fun k => ⟨hp k,
    (C56_bin plain hill hill_ok.ac true true 1 24 wet hill0 st' o (by decide +kernel) h k (hp k)).1⟩⟩

end Verif.Topmod
