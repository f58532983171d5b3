import Verif.Lemmas.RouteInit
/-
C40: routing histograms.  C39: channel routing conserves water.  C55: diverted volume for the next step.
-/
namespace Verif.Route

/-- C40: initialisation with documented tables does not read or write out of bounds if `nhydro` is large
enough, and it is accepted exactly when `nhydro` is the number of time steps, rounded up, that water needs
from the farthest point. -/
theorem C40_accepted (nhydro : Nat) (chvdt q0dt : Rat) (hv : 0 < chvdt) (cs : List Table) (hne : cs ≠ [])
    (hok : ∀ c ∈ cs, c.Ok) (hbig : ∀ c ∈ cs, ∀ p ∈ c.pts, p.1 / chvdt ≤ nhydro) :
    ((∃ c ∈ cs, ∃ p ∈ c.pts, (nhydro : Rat) - 1 < p.1 / chvdt) →
      ∃ r, routecinit nhydro chvdt q0dt cs = some (some r)) ∧
    ((∀ c ∈ cs, ∀ p ∈ c.pts, p.1 / chvdt ≤ (nhydro : Rat) - 1) →
      routecinit nhydro chvdt q0dt cs = some none) := by
  obtain ⟨hs, e1, e2, e3⟩ := histograms_spec chvdt hv cs hok
  -- the length of each channel
  have hlen : ∀ k (hk : k < cs.length) (hk' : k < hs.length),
      (∀ p ∈ cs[k].pts, p.1 / chvdt ≤ (hs[k].nd + hs[k].nr : Int)) ∧
      ∃ p ∈ cs[k].pts, ((hs[k].nd + hs[k].nr : Int) : Rat) < p.1 / chvdt + 1 := by
    intro k hk hk'
    have hck := hok _ (List.getElem_mem hk)
    obtain ⟨g, g0, g1, g2, -, -, -, -, -, g8, -⟩ := histogram_spec chvdt hv cs[k] hck
    rw [e3 k hk hk'] at g0
    have g0 := Option.some.inj g0
    refine ⟨by rw [g0]; exact g8, ?_⟩
    have hg := e3 k hk hk'
    unfold histogram at hg
    rw [if_neg hv.ne', times_eq _ hv.ne'] at hg
    dsimp only at hg
    have hpne : cs[k].pts ≠ [] := fun h => by have := hck.two; rw [h] at this; simp at this
    rw [List.head?_map, List.getLast?_map, List.head?_eq_some_head hpne,
      List.getLast?_eq_getLast_of_ne_nil hpne] at hg
    simp only [Option.map_some] at hg
    obtain ⟨l, -, hl⟩ := Option.map_eq_some_iff.1 hg
    refine ⟨cs[k].pts.getLast hpne, List.getLast_mem _, ?_⟩
    rw [← hl]
    dsimp only
    have hlast : cs[k].pts.head hpne ∈ cs[k].pts := List.head_mem _
    have hfl : (cs[k].pts.head hpne).1 < (cs[k].pts.getLast hpne).1 := by
      have hp := List.pairwise_iff_getElem.1 hck.incr 0 (cs[k].pts.length - 1) (by have := hck.two; omega)
        (by have := hck.two; omega) (by have := hck.two; omega)
      rw [List.head_eq_getElem, List.getLast_eq_getElem]; exact hp
    exact (delays_spec _ _ (div_nonneg (hck.dist _ hlast) hv.le)
      (div_lt_div_of_pos_right hfl hv)).2.2.2.2.2
  have hfit : ∀ h ∈ hs, h.nd + h.nr ≤ nhydro := by
    intro h hh
    obtain ⟨k, hk', rfl⟩ := List.mem_iff_getElem.1 hh
    have hk : k < cs.length := by omega
    obtain ⟨-, p, hp, hlt⟩ := hlen k hk hk'
    have := hbig _ (List.getElem_mem hk) p hp
    have : ((hs[k].nd + hs[k].nr : Int) : Rat) < ((nhydro + 1 : Int) : Rat) := by push_cast at *; linarith
    have : hs[k].nd + hs[k].nr < (nhydro : Int) + 1 := by exact_mod_cast this
    omega
  obtain ⟨f1, f2, f3⟩ := foldl_max hs 0
  unfold routecinit
  rw [e1]
  dsimp only at f1 f2 f3 ⊢
  rw [if_neg (by
    rw [Bool.not_eq_true, List.any_eq_false]
    intro h hh; simpa using hfit h hh)]
  generalize hs.foldl (fun m h => if h.nd + h.nr > m then h.nd + h.nr else m) (0 : Int) = r at *
  constructor
  · rintro ⟨c, hc, p, hp, hlt⟩
    obtain ⟨k, hk, rfl⟩ := List.mem_iff_getElem.1 hc
    have hk' : k < hs.length := by omega
    have h1 := (hlen k hk hk').1 p hp
    have h2 := f2 _ (List.getElem_mem hk')
    have : ((nhydro - 1 : Int) : Rat) < ((hs[k].nd + hs[k].nr : Int) : Rat) := by push_cast at *; linarith
    have : (nhydro : Int) - 1 < hs[k].nd + hs[k].nr := by exact_mod_cast this
    have hr : r ≤ nhydro := by
      rcases f3 with f3 | ⟨h, hh, f3⟩
      · omega
      · rw [f3]; exact hfit h hh
    rw [if_neg (by omega)]
    exact ⟨_, rfl⟩
  · intro hall
    have hr : r ≤ (nhydro : Int) - 1 := by
      have each : ∀ h ∈ hs, h.nd + h.nr ≤ (nhydro : Int) - 1 := by
        intro h hh
        obtain ⟨k, hk', rfl⟩ := List.mem_iff_getElem.1 hh
        have hk : k < cs.length := by omega
        obtain ⟨-, p, hp, hlt⟩ := hlen k hk hk'
        have := hall _ (List.getElem_mem hk) p hp
        have : ((hs[k].nd + hs[k].nr : Int) : Rat) < ((nhydro : Int) : Rat) := by push_cast at *; linarith
        have : hs[k].nd + hs[k].nr < (nhydro : Int) := by exact_mod_cast this
        omega
      rcases f3 with f3 | ⟨h, hh, f3⟩
      · have hk : 0 < cs.length := List.length_pos_iff.2 hne
        obtain ⟨g, g0, g1, g2, -⟩ := histogram_spec chvdt hv cs[0] (hok _ (List.getElem_mem hk))
        have hk' : 0 < hs.length := by omega
        have := each hs[0] (List.getElem_mem hk')
        have := f2 hs[0] (List.getElem_mem hk')
        rw [e3 0 hk hk'] at g0
        have g0 := Option.some.inj g0
        rw [← g0] at g1 g2
        omega
      · rw [f3]; exact each h hh
    rw [if_pos (by omega)]

/-- C40: after an accepted initialisation the ordinates of each channel are not negative and add up to
the channel's area fraction. -/
theorem C40_sum (nhydro : Nat) (chvdt q0dt : Rat) (hv : 0 < chvdt) (cs : List Table)
    (hok : ∀ c ∈ cs, c.Ok) (chans : List Chan) (q : List (List Rat))
    (h : routecinit nhydro chvdt q0dt cs = some (some (chans, q))) (k : Nat) (hk : k < cs.length) :
    ∃ c, chans[k]? = some c ∧ c.ar.length = nhydro ∧ (∀ a ∈ c.ar, 0 ≤ a) ∧ c.ar.sum = cs[k].frac := by
  obtain ⟨-, -, h3⟩ := routecinit_spec nhydro chvdt q0dt hv cs hok chans q h
  obtain ⟨g, g1, -, g3, g4, -⟩ := h3 k hk
  obtain ⟨a1, a2, a3, -⟩ := arFill_spec g nhydro g1
  exact ⟨_, g4, a1, a2, by rw [← g3]; exact a3⟩

/-- C40: the first `t` ordinates add up to the part of the area from which water arrives within `t`
steps, as read off the distance-area table. -/
theorem C40_share (nhydro : Nat) (chvdt q0dt : Rat) (hv : 0 < chvdt) (cs : List Table)
    (hok : ∀ c ∈ cs, c.Ok) (chans : List Chan) (q : List (List Rat))
    (h : routecinit nhydro chvdt q0dt cs = some (some (chans, q))) (k : Nat) (hk : k < cs.length) :
    ∃ c, ∃ nd nr : Nat, chans[k]? = some c ∧ c.len = nd + nr ∧
      (∀ p ∈ cs[k].pts, (nd : Rat) ≤ p.1 / chvdt ∧ p.1 / chvdt ≤ nd + nr) ∧
      (c.ar.take nd).sum = 0 ∧
      ∀ j < nr, ∃ v, Share cs[k] chvdt (nd + j + 1) v ∧ (c.ar.take (nd + j + 1)).sum = v * cs[k].frac := by
  obtain ⟨-, -, h3⟩ := routecinit_spec nhydro chvdt q0dt hv cs hok chans q h
  obtain ⟨g, g1, g2, g3, g4, -⟩ := h3 k hk
  obtain ⟨g', e0, e1, e2, e3, -, -, -, -, e8, e9, e10⟩ := histogram_spec chvdt hv cs[k]
    (hok _ (List.getElem_mem hk))
  rw [g2] at e0
  have e0 := Option.some.inj e0
  subst e0
  have c1 : ((g.nd.toNat : Nat) : Rat) = ((g.nd : Int) : Rat) := by
    have : ((g.nd.toNat : Nat) : Int) = g.nd := Int.toNat_of_nonneg e1
    exact_mod_cast congrArg (Int.cast (R := Rat)) this
  have c2 : ((g.nr.toNat : Nat) : Rat) = ((g.nr : Int) : Rat) := by
    have : ((g.nr.toNat : Nat) : Int) = g.nr := Int.toNat_of_nonneg e2.le
    exact_mod_cast congrArg (Int.cast (R := Rat)) this
  refine ⟨_, g.nd.toNat, g.nr.toNat, g4, ?_, fun p hp => ⟨?_, ?_⟩, ?_, fun j hj => ?_⟩
  · show g.nr + g.nd = _
    omega
  · rw [c1]; exact e9 p hp
  · rw [c1, c2]; have := e8 p hp; push_cast at this; exact this
  · show ((arFill g nhydro).take g.nd.toNat).sum = 0
    rw [arFill_eq g nhydro g1.nd g1.len g1.nr.le g1.fits, List.take_append_of_le_length (by simp)]
    simp
  · obtain ⟨v, v1, v2⟩ := e10 j hj
    refine ⟨v, by rw [c1]; exact v1, ?_⟩
    show ((arFill g nhydro).take (g.nd.toNat + j + 1)).sum = _
    rw [arFill_take g nhydro g1 j hj]; exact v2

/-- A main channel and a tributary, 1000 m per step. -/
def exampleTables : List Table :=
  [⟨[(0, 0), (1500, 1 / 2), (2500, 1)], 3 / 5, 6⟩, ⟨[(1000, 0), (2000, 1)], 2 / 5, 4⟩]

example : ∀ c ∈ exampleTables, c.Ok := by
  intro c hc
  simp only [exampleTables, List.mem_cons, List.not_mem_nil, or_false] at hc
  rcases hc with rfl | rfl <;>
    exact ⟨by decide, by decide +kernel, by decide +kernel, by decide +kernel, by decide +kernel,
      fun p hp => by simp only [List.getLast?_cons_cons, List.getLast?_singleton, Option.some.injEq] at hp
                     rw [← hp], by decide +kernel⟩

example : routecinit 3 1000 (1 / 100) exampleTables =
    some (some ([⟨3, [1 / 5, 1 / 4, 3 / 20], 3 / 5, 6⟩, ⟨2, [0, 2 / 5, 0], 2 / 5, 4⟩],
      [[3 / 500, 1 / 250, 3 / 2000], [1 / 250, 1 / 250, 0]])) := by decide +kernel

/-- C40 fails without two different distances: a channel whose points all lie a whole number of steps
away (the default table with an hourly step) has no ordinates, and all its inflow vanishes. -/
theorem C40_point_violated :
    ∃ c : Chan, routecinit 5 100 0 [⟨[(500, 1), (500, 1), (500, 1), (500, 1), (500, 1)], 1, 10⟩] =
      some (some ([c], [[0, 0, 0, 0, 0]])) ∧ c.frac = 1 ∧ c.ar.sum = 0 :=
  ⟨⟨5, [0, 0, 0, 0, 0], 1, 10⟩, by decide +kernel, rfl, by decide +kernel⟩

/-- C40: a table not ending at 1 is accepted without a message, and part of the inflow vanishes. -/
theorem C40_table_violated :
    ∃ c : Chan, routecinit 2 1000 0 [⟨[(0, 0), (2000, 1 / 2)], 1, 10⟩] = some (some ([c], [[0, 0]])) ∧
      c.ar.sum = 1 / 2 :=
  ⟨⟨2, [1 / 4, 1 / 4], 1, 10⟩, by decide +kernel, by decide +kernel⟩

/-- C40: an `nhydro` that is too small is not refused, memory outside the arrays is written first. -/
theorem C40_overrun_violated : routecinit 2 1000 0 exampleTables = none := by decide +kernel

/-- C39, one step: without channel losses, water stored and inflow are accounted for by discharge at the
outlet, diversions and water stored; with or without losses nothing becomes negative. -/
theorem C39_step_partial (b : Basin) (n : Nat) (hb : b.Ok n) (i : In) (hi : i.Ok b) (st st' : St) (o : Out)
    (hs : st.Ok b n) (h : routecrun b n i st = some (st', o)) :
    st'.Ok b n ∧ (∀ s ∈ o.segs, 0 ≤ s.taken ∧ 0 ≤ s.loss) ∧ 0 ≤ discharge b o ∧
      (b.Tight → stored b st + i.qin.sum = stored b st' + discharge b o + diverted o) :=
  step_spec b n hb i hi st st' o hs h

/-- C39: a run goes on as long as the schedule and source of each unit exist. -/
theorem C39_defined (b : Basin) (n : Nat) (hb : b.Ok n) (is : List In)
    (hi : ∀ i ∈ is, i.Ok b ∧ ∀ m ∈ b.mrus, 0 < m.src →
      1 ≤ m.sched ∧ m.sched ≤ i.next.length ∧ m.src ≤ i.next.length ∧ m.src ≤ n)
    (st : St) (hs : st.Ok b n) : ∃ rs, steps b n st is = some rs ∧ rs.length = is.length := by
  induction is generalizing st with
  | nil => exact ⟨[], rfl, rfl⟩
  | cons i is ih =>
    obtain ⟨hi1, hi2⟩ := hi i (by simp)
    have hr : ∃ r, routecrun b n i st = some r := by
      unfold routecrun
      rw [if_neg (by
        rintro (h | h)
        · exact hb.area.ne' h
        · obtain ⟨c, hc, h⟩ := List.any_eq_true.1 h
          have hc := hb.chans c hc
          rcases of_decide_eq_true h with h | h
          · rw [hc.area] at h; exact (mul_pos hc.frac hb.area).ne' h
          · exact hc.frac.ne' h)]
      by_cases hd : b.divert = true
      · rw [if_pos hd]
        obtain ⟨r, er⟩ := requests_some i.next n (List.zip b.mrus st.hyd) (List.replicate n 0) (by simp)
          fun m hm => hi2 m.1 (List.of_mem_zip hm).1
        rw [er]; exact ⟨_, rfl⟩
      · rw [if_neg hd]; exact ⟨_, rfl⟩
    obtain ⟨⟨st', o⟩, er⟩ := hr
    obtain ⟨h1, -⟩ := step_spec b n hb i hi1 st st' o hs er
    obtain ⟨rs, e1, e2⟩ := ih (fun j hj => hi j (by simp [hj])) st' h1
    exact ⟨(st', o) :: rs, by unfold steps; rw [er]; dsimp only; rw [e1]; rfl, by simp [e2]⟩

/-- C39, whole runs without channel losses. -/
theorem C39_run_partial (b : Basin) (n : Nat) (hb : b.Ok n) (ht : b.Tight) (is : List In)
    (hi : ∀ i ∈ is, i.Ok b) (st : St) (hs : st.Ok b n) (rs : List (St × Out))
    (h : steps b n st is = some rs) :
    rs.length = is.length ∧ (∀ r ∈ rs, r.1.Ok b n) ∧
    stored b st + (is.map fun i => i.qin.sum).sum =
      stored b ((rs.map (·.1)).getLastD st) + (rs.map fun r => discharge b r.2 + diverted r.2).sum :=
  steps_spec b n hb ht is hi st hs rs h

/-- C39, C40: an accepted initialisation provides what the run needs. -/
theorem C39_initial (nhydro : Nat) (hn : 0 < nhydro) (chvdt q0dt area : Rat) (hv : 0 < chvdt)
    (hq : 0 ≤ q0dt) (ha : 0 < area) (cs : List Table) (hok : ∀ c ∈ cs, c.Ok)
    (hcs : ∀ c ∈ cs, 0 < c.frac ∧ c.area = c.frac * area)
    (chans : List Chan) (q : List (List Rat)) (h : routecinit nhydro chvdt q0dt cs = some (some (chans, q)))
    (maxloss : List Rat) (mrus : List Irr) (hm : ∀ m ∈ mrus, 0 ≤ m.vol) (dv : Bool) :
    let b : Basin := ⟨chans, maxloss, area, mrus, dv⟩
    b.Ok nhydro ∧ St.Ok b nhydro ⟨q, mrus.map fun _ => 0⟩ ∧
      ∀ k c, chans[k]? = some c → Beyond c (q.getD k []) := by
  obtain ⟨h1, h2, h3⟩ := routecinit_spec nhydro chvdt q0dt hv cs hok chans q h
  have hch : ∀ k (hk : k < cs.length), ∃ g : Hist, g.Ok nhydro ∧ g.frac = cs[k].frac ∧
      chans[k]? = some ⟨g.nr + g.nd, arFill g nhydro, cs[k].frac, cs[k].area⟩ ∧
      q[k]? = some (initQ q0dt g nhydro) := fun k hk => by
    obtain ⟨g, g1, -, g3, g4, g5⟩ := h3 k hk
    exact ⟨g, g1, g3, g4, g5⟩
  refine ⟨⟨hn, ha, ?_, hm⟩, ⟨by rw [h2]; exact h1.symm, ?_, ?_, by simp⟩, ?_⟩
  · intro c hc
    obtain ⟨k, hk, rfl⟩ := List.mem_iff_getElem.1 hc
    have hk' : k < cs.length := by
      have : k < chans.length := hk
      omega
    obtain ⟨g, g1, g3, g4, -⟩ := hch k hk'
    have hk2 : k < chans.length := hk
    rw [List.getElem?_eq_getElem hk2] at g4
    have g4 := Option.some.inj g4
    show Chan.Ok chans[k] nhydro area
    rw [g4]
    obtain ⟨a1, a2, a3, -⟩ := arFill_spec g nhydro g1
    obtain ⟨f1, f2⟩ := hcs _ (List.getElem_mem hk')
    refine ⟨⟨a1, ?_⟩, a2, by rw [← g3]; exact a3, f1, f2⟩
    have := g1.fits
    show g.nr + g.nd ≤ nhydro
    omega
  · intro col hcol
    obtain ⟨k, hk, rfl⟩ := List.mem_iff_getElem.1 hcol
    have hk2 : k < q.length := hk
    have hk' : k < cs.length := by omega
    obtain ⟨g, g1, g3, -, g5⟩ := hch k hk'
    rw [List.getElem?_eq_getElem hk2] at g5
    show q[k].length = nhydro
    rw [Option.some.inj g5]
    exact (initQ_spec q0dt hq g nhydro g1 (by rw [g3]; exact (hcs _ (List.getElem_mem hk')).1.le)).1
  · intro col hcol
    obtain ⟨k, hk, rfl⟩ := List.mem_iff_getElem.1 hcol
    have hk2 : k < q.length := hk
    have hk' : k < cs.length := by omega
    obtain ⟨g, g1, g3, -, g5⟩ := hch k hk'
    rw [List.getElem?_eq_getElem hk2] at g5
    show ∀ x ∈ q[k], 0 ≤ x
    rw [Option.some.inj g5]
    exact (initQ_spec q0dt hq g nhydro g1 (by rw [g3]; exact (hcs _ (List.getElem_mem hk')).1.le)).2.1
  · intro k c hc
    have hk : k < chans.length := (List.getElem?_eq_some_iff.1 hc).1
    have hk' : k < cs.length := by omega
    obtain ⟨g, g1, g3, g4, g5⟩ := hch k hk'
    rw [hc] at g4
    have g4 := Option.some.inj g4
    rw [List.getD, g5, g4]
    have a := (arFill_spec g nhydro g1).2.2.2
    have i := (initQ_spec q0dt hq g nhydro g1 (by rw [g3]; exact (hcs _ (List.getElem_mem hk')).1.le)).2.2
    have := g1.nr
    have := g1.nd
    exact ⟨by show 1 ≤ g.nr + g.nd; omega, fun j hj => ⟨i j hj, a j hj⟩⟩

/-- C39: at the start segment `j` of a channel holds the water that a steady inflow of depth `q0dt` per step would
have put into it and that has not left yet: `q0dt` times the ordinates from `j` on. -/
theorem C39_start (nhydro : Nat) (chvdt q0dt : Rat) (hv : 0 < chvdt) (cs : List Table) (hok : ∀ c ∈ cs, c.Ok)
    (chans : List Chan) (q : List (List Rat)) (h : routecinit nhydro chvdt q0dt cs = some (some (chans, q)))
    (k : Nat) (c : Chan) (hc : chans[k]? = some c) (j : Nat) (hj : j < nhydro) :
    (q.getD k []).getD j 0 = q0dt * (c.ar.drop j).sum := by
  obtain ⟨h1, h2, h3⟩ := routecinit_spec nhydro chvdt q0dt hv cs hok chans q h
  have hk : k < chans.length := (List.getElem?_eq_some_iff.1 hc).1
  obtain ⟨g, g1, -, -, g4, g5⟩ := h3 k (by omega)
  rw [hc] at g4
  rw [show q.getD k [] = initQ q0dt g nhydro by rw [List.getD, g5]; rfl, Option.some.inj g4]
  exact initQ_eq q0dt g nhydro g1 j hj

/-- C39: without diversions each channel delivers its inflow along its ordinates: the discharge of step
`t` is the initial water of segment `t` plus the convolution of inflow and ordinates. -/
theorem C39_delay (b : Basin) (n : Nat) (hb : b.Ok n) (hdv : b.divert = false) (is : List In)
    (hi : ∀ i ∈ is, i.Ok b) (st : St) (hs : st.Ok b n) (rs : List (St × Out))
    (h : steps b n st is = some rs) (k : Nat) (c : Chan) (hc : b.chans[k]? = some c)
    (hB : Beyond c (st.q.getD k [])) (t : Nat) (ht : t < is.length) :
    (rs.map fun r => r.2.qscm.getD k 0 * c.frac).getD t 0 =
      (st.q.getD k []).getD t 0 +
        convolution (is.map fun i => i.qin.getD k 0 / c.area / 1000000) c.ar t :=
  steps_delay b n hb hdv is hi st hs rs h k c hc hB t ht

/-- The basin of the two channels, 10 km², with an irrigated unit taking water from segment 1. -/
def exampleBasin : Basin :=
  ⟨[⟨3, [1 / 5, 1 / 4, 3 / 20], 3 / 5, 6⟩, ⟨2, [0, 2 / 5, 0], 2 / 5, 4⟩], [], 10, [⟨1, 1, 2, 1000⟩], true⟩

example : steps exampleBasin 3 ⟨[[0, 0, 0], [0, 0, 0]], [0]⟩ [⟨[60000, 40000], [1]⟩, ⟨[0, 0], [0]⟩] =
    some [(⟨[[1 / 400, 3 / 2000, 0], [1 / 250, 0, 0]], [1]⟩,
        ⟨[⟨0, 1000, 1, 1 / 20⟩, ⟨0, 0, 1, 0⟩, ⟨0, 0, 1, 0⟩], [19 / 6000, 0], 19 / 10000⟩),
      (⟨[[3 / 2000, 0, 0], [0, 0, 0]], [0]⟩,
        ⟨[⟨0, 0, 1, 0⟩, ⟨0, 0, 1, 0⟩, ⟨0, 0, 1, 0⟩], [1 / 240, 1 / 100], 13 / 2000⟩)] := by decide +kernel

/-- C39 fails with channel losses: 10000 m³ enter an empty channel of one segment, 1000 m³ are recorded
as lost, and still 10000 m³ are discharged. -/
theorem C39_loss_violated :
    let b : Basin := ⟨[⟨1, [1], 1, 1⟩], [1 / 1000], 1, [], false⟩
    ∃ st' o, routecrun b 1 ⟨[10000], []⟩ ⟨[[0]], []⟩ = some (st', o) ∧
      stored b st' = 0 ∧ diverted o = 0 ∧ (o.segs.map (·.loss)).sum * (b.area * 1000000) = 1000 ∧
      discharge b o = 10000 :=
  ⟨⟨[[0]], []⟩, ⟨[⟨1 / 1000, 0, 1, 0⟩], [1 / 100], 1 / 100⟩, by decide +kernel, by decide +kernel,
    by decide +kernel, by decide +kernel, by decide +kernel⟩

/-- C55: the irrigation depths for the next step are the volume removed from each segment, if every unit
supplied by a segment follows the schedule of the same number and stays within its pump capacity. -/
theorem C55_delivered_partial (b : Basin) (n : Nat) (hb : b.Ok n) (hd : b.divert = true) (i : In)
    (hi : i.Ok b) (st st' : St) (o : Out) (hs : st.Ok b n) (h : routecrun b n i st = some (st', o))
    (hm : ∀ m ∈ b.mrus, 0 < m.src → m.sched = m.src ∧ ∀ s, at? i.next m.sched = some s → s ≤ m.depMax)
    (k : Nat) (hk : k < n) :
    delivered k b.mrus st'.hyd = (o.segs.map (·.taken)).getD k 0 := by
  obtain ⟨hyd, req, hdm, e⟩ := routecrun_eq b n i st st' o h
  obtain ⟨d1, d2, d3⟩ := demand_spec b n hb i hi st hs hyd req hdm
  have hv : 0 < b.area * 1000000 := mul_pos hb.area (by norm_num)
  obtain ⟨-, -, a3, -⟩ := addIns_sum n b.area hb.area b.chans i.qin st.q hb.chans hi.len hs.cols hs.len
    hi.qin hs.nonneg
  unfold demand at hdm
  rw [hd, if_pos rfl] at hdm
  have hvol := requests_volume _ _ _ _ _ hdm (fun m hm' => hm m.1 (List.of_mem_zip hm').1) k
  rw [List.map_fst_zip (by rw [hs.hyd])] at hvol
  have hz : (List.replicate n (0 : Rat)).getD k 0 = 0 := by simp [List.getD, hk]
  rw [hz, zero_add] at hvol
  dsimp only at e a3
  generalize List.zipWith (fun (c : Chan × Rat) col => addIn c.1 c.2 col) (List.zip b.chans i.qin) st.q = q1
    at *
  obtain ⟨e1, -, -, -, e5⟩ := e
  rw [e5, e1]
  have := delivered_reduced (fun ir => (((List.range n).map fun ir =>
    segment (b.area * 1000000) (b.maxloss.getD ir 0) (req.getD ir 0) (rowSum q1 ir)).getD ir
      ⟨0, 0, 1, 0⟩).reduce) n k hk b.mrus hyd
  rw [this]
  have hseg : ((List.range n).map fun ir =>
    segment (b.area * 1000000) (b.maxloss.getD ir 0) (req.getD ir 0) (rowSum q1 ir)).getD k ⟨0, 0, 1, 0⟩ =
    segment (b.area * 1000000) (b.maxloss.getD k 0) (req.getD k 0) (rowSum q1 k) := by
    simp [List.getD, hk]
  have htk : (((List.range n).map fun ir => segment (b.area * 1000000) (b.maxloss.getD ir 0) (req.getD ir 0)
      (rowSum q1 ir)).map (·.taken)).getD k 0 =
      (segment (b.area * 1000000) (b.maxloss.getD k 0) (req.getD k 0) (rowSum q1 k)).taken := by
    simp [List.getD, hk]
  rw [hseg, htk, segment_reduce _ _ _ _ hv (getD_nonneg _ d3 k) (rowSum_nonneg _ a3 k)]
  congr 1
  exact hvol.symm

/-- The volume taken never exceeds what is in the segment. -/
theorem C55_available (b : Basin) (n : Nat) (hb : b.Ok n) (ht : b.Tight) (i : In) (hi : i.Ok b) (st st' : St)
    (o : Out) (hs : st.Ok b n) (h : routecrun b n i st = some (st', o)) :
    diverted o ≤ stored b st + i.qin.sum := by
  obtain ⟨h1, -, h3, h4⟩ := step_spec b n hb i hi st st' o hs h
  have h4 := h4 ht
  have : 0 ≤ stored b st' := by
    apply mul_nonneg _ (mul_pos hb.area (by norm_num)).le
    apply sum_nonneg'
    intro x hx
    obtain ⟨col, hc, rfl⟩ := List.mem_map.1 hx
    exact sum_nonneg' _ (h1.nonneg col hc)
  linarith

/-- C55 fails in general: a unit on segment 2 with schedule 1 receives the depth of schedule 2, while
the volume of schedule 1 is removed. -/
theorem C55_schedule_violated :
    let b : Basin := ⟨[⟨2, [1 / 2, 1 / 2], 1, 1⟩], [], 1, [⟨1, 2, 10, 100⟩], true⟩
    ∃ st' o, routecrun b 2 ⟨[10000], [1, 7]⟩ ⟨[[0, 0]], [0]⟩ = some (st', o) ∧
      delivered 1 b.mrus st'.hyd = 700 ∧ (o.segs.map (·.taken)).getD 1 0 = 100 :=
  ⟨⟨[[49 / 10000, 0]], [7]⟩, ⟨[⟨0, 0, 1, 0⟩, ⟨0, 100, 1, 1 / 50⟩], [1 / 200], 1 / 200⟩, by decide +kernel,
    by decide +kernel, by decide +kernel⟩

/-- C55 fails when a pump is too small: the unit receives what the pump can lift, the full request is
removed. -/
theorem C55_pump_violated :
    let b : Basin := ⟨[⟨1, [1], 1, 1⟩], [], 1, [⟨1, 1, 2, 100⟩], true⟩
    ∃ st' o, routecrun b 1 ⟨[10000], [5]⟩ ⟨[[0]], [0]⟩ = some (st', o) ∧
      delivered 0 b.mrus st'.hyd = 200 ∧ (o.segs.map (·.taken)).getD 0 0 = 500 :=
  ⟨⟨[[0]], [2]⟩, ⟨[⟨0, 500, 1, 1 / 20⟩], [19 / 2000], 19 / 2000⟩, by decide +kernel, by decide +kernel,
    by decide +kernel⟩

end Verif.Route
