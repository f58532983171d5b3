import Verif.Lemmas.Snow
/-
C37: the snowpack conserves water.  C58: melt at the ground.  C59: snow, rain and the snow-covered area.
-/
namespace Verif.Snow

/-- C37: in every day the precipitation equals melt, rain on bare soil and sublimation plus the change of water
stored in the pack; the published change and water content are those of the pack. -/
theorem C37_day (fn : Fn) (hf : fn.Ok) (m : Mru) (hm : m.Ok) (nstep : Nat) (i : In) (hi : 0 ≤ i.dep) (st : St)
    (hs : st.pack.Ok) (st' : St) (o : Out) (h : nwsmrun fn m nstep i st = some (st', o)) :
    i.dep * (254 / 10) = o.leaving * (254 / 10) + (st'.pack.stored - st.pack.stored) ∧
      o.change = (st'.pack.stored - st.pack.stored) / (254 / 10) ∧ st'.pkwater = st'.pack.stored / (254 / 10) := by
  obtain ⟨h1, h2, h3, -, -, -⟩ := nwsmrun_spec fn hf m hm nstep i hi st hs st' o h
  refine ⟨?_, h2, h3⟩
  rw [h1, h2, add_mul, div_mul_cancel₀ _ (by norm_num)]

/-- C37: no store and no flow becomes negative; a pack without ice, or without cover, holds no other water. -/
theorem C37_range (fn : Fn) (hf : fn.Ok) (m : Mru) (hm : m.Ok) (nstep : Nat) (i : In) (hi : 0 ≤ i.dep) (st : St)
    (hs : st.pack.Ok) (st' : St) (o : Out) (h : nwsmrun fn m nstep i st = some (st', o)) : st'.pack.Ok ∧ o.Ok := by
  obtain ⟨-, -, -, -, h5, h6⟩ := nwsmrun_spec fn hf m hm nstep i hi st hs st' o h
  exact ⟨h5, h6⟩

/-- C37: no day goes wrong (no division by zero, no element that does not exist), provided it is the first day
or some earlier day had snow or precipitation. -/
theorem C37_defined_partial (fn : Fn) (hf : fn.Ok) (m : Mru) (hm : m.Ok) (nstep : Nat) (i : In) (hi : 0 ≤ i.dep)
    (st : St) (hs : st.pack.Ok) (ht : nstep = 1 ∨ st.tmxpre ≠ none) : nwsmrun fn m nstep i st ≠ none := by
  obtain ⟨st', o, h, -⟩ := nwsmrun_defined fn hf m hm nstep i hi st hs ht
  rw [h]; simp

/-- The balance over the rest of a run. -/
theorem days_balance (fn : Fn) (hf : fn.Ok) (m : Mru) (hm : m.Ok) (is : List In) (hi : ∀ i ∈ is, 0 ≤ i.dep) (nstep : Nat)
    (st : St) (hs : st.pack.Ok) (ht : nstep = 1 ∧ (st.pack.we ≠ 0 ∨ ∀ i, is.head? = some i → i.dep ≠ 0) ∨ st.tmxpre ≠ none) :
    ∃ rs, days fn m nstep st is = some rs ∧ rs.length = is.length ∧ (∀ r ∈ rs, r.1.pack.Ok ∧ r.2.Ok) ∧
      (is.map (·.dep)).sum * (254 / 10) =
        (rs.map (·.2.leaving)).sum * (254 / 10) + ((rs.map (·.1)).getLastD st).pack.stored - st.pack.stored := by
  induction is generalizing nstep st with
  | nil => exact ⟨[], rfl, rfl, by simp, by simp⟩
  | cons i is ih =>
    have hi0 := hi i (by simp)
    obtain ⟨st', o, h, h'⟩ := nwsmrun_defined fn hf m hm nstep i hi0 st hs (by
      rcases ht with h | h
      · exact Or.inl h.1
      · exact Or.inr h)
    obtain ⟨b1, b2, -⟩ := C37_day fn hf m hm nstep i hi0 st hs st' o h
    obtain ⟨r1, r2⟩ := C37_range fn hf m hm nstep i hi0 st hs st' o h
    obtain ⟨rs, e1, e2, e3, e4⟩ := ih (fun x hx => hi x (by simp [hx])) (nstep + 1) st' r1 (Or.inr (h' (by
      rcases ht with h | h
      · rcases h.2 with h | h
        · exact Or.inl h
        · exact Or.inr (Or.inl (h i rfl))
      · exact Or.inr (Or.inr h))))
    refine ⟨(st', o) :: rs, ?_, by simp [e2], ?_, ?_⟩
    · unfold days; rw [h]; dsimp only; rw [e1]; rfl
    · intro r hr
      rcases List.mem_cons.1 hr with rfl | hr
      · exact ⟨r1, r2⟩
      · exact e3 r hr
    · simp only [List.map_cons, List.sum_cons, List.getLastD_cons]
      rw [add_mul, add_mul, b1, e4]
      ring

/-- C37: over every run, of any length, whose first day has snow or precipitation: every day is defined, no store
or flow is negative, and the precipitation of the run equals what left the pack plus the change of storage. -/
theorem C37_run_partial (fn : Fn) (hf : fn.Ok) (m : Mru) (hm : m.Ok) (is : List In) (hi : ∀ i ∈ is, 0 ≤ i.dep)
    (st : St) (hs : st.pack.Ok) (ht : st.pack.we ≠ 0 ∨ ∀ i, is.head? = some i → i.dep ≠ 0) :
    ∃ rs, days fn m 1 st is = some rs ∧ rs.length = is.length ∧ (∀ r ∈ rs, r.1.pack.Ok ∧ r.2.Ok) ∧
      (is.map (·.dep)).sum * (254 / 10) =
        (rs.map (·.2.leaving)).sum * (254 / 10) + ((rs.map (·.1)).getLastD st).pack.stored - st.pack.stored :=
  days_balance fn hf m hm is hi 1 st hs (Or.inl ⟨rfl, ht⟩)

/-- C37: with two lag intervals the initial pack holds exactly the given water, all of it ice. -/
theorem C37_initial (m : Mru) (hm : m.Ok) (hadc : ∀ a ∈ m.adc, 0 ≤ a ∧ a ≤ 1) (hsi : 0 < m.si) (rest : List Rat)
    (wei acumx neghsi : Rat) (h0 : 0 ≤ wei) :
    ∃ p, nwsminit 2 rest m wei acumx neghsi = some p ∧ p.Ok ∧ p.stored = wei * (254 / 10) ∧ p.we = wei * (254 / 10) := by
  have hw : 0 ≤ wei * (254 / 10) := mul_nonneg h0 (by norm_num)
  unfold nwsminit
  rw [if_neg (by omega)]
  dsimp only
  have hrest : rest.take (2 - 2) = [] := by simp
  rw [hrest]
  by_cases c : wei ≥ acumx
  · rw [if_pos c]
    refine ⟨_, rfl, ⟨hw, le_refl _, by simp, le_refl _, ⟨by norm_num, le_refl _⟩, by simp, fun h => ?_, fun h => ?_⟩, ?_, rfl⟩
    · dsimp only at h; simp [Pack.stored, h]
    · exact absurd h (by norm_num)
    · simp [Pack.stored]
  · rw [if_neg c]
    push Not at c
    have hai : 0 < (if acumx > m.si then m.si else acumx) := by split <;> [exact hsi; linarith]
    generalize (if acumx > m.si then m.si else acumx) = ai at *
    rw [if_neg (fun h => hai.ne' h.1)]
    have key : ∃ n f a b, (if ai = 0 ∨ wei / ai * 10 + 1 ≥ 11 then (10 : Int) else Route.trunc (wei / ai * 10 + 1)) = n ∧
        (if ai = 0 ∨ wei / ai * 10 + 1 ≥ 11 then (1 : Rat)
          else wei / ai * 10 + 1 - Route.trunc (wei / ai * 10 + 1)) = f ∧
        point m.adc n = some a ∧ point m.adc (n + 1) = some b ∧ 0 ≤ f ∧ f ≤ 1 := by
      by_cases hr : ai = 0 ∨ wei / ai * 10 + 1 ≥ 11
      · obtain ⟨a, e1⟩ := point_some m.adc 10 (by norm_num) (by rw [hm.adc]; norm_num)
        obtain ⟨b, e2⟩ := point_some m.adc (10 + 1) (by norm_num) (by rw [hm.adc]; norm_num)
        exact ⟨10, 1, a, b, if_pos hr, if_pos hr, e1, e2, by norm_num, le_refl _⟩
      · rw [if_neg hr, if_neg hr]
        have hr1 : wei / ai * 10 + 1 < 11 := not_le.1 fun h => hr (Or.inr h)
        have hr0 : 0 ≤ wei / ai := div_nonneg h0 hai.le
        generalize wei / ai = q at *
        have ht : Route.trunc (q * 10 + 1) = (q * 10 + 1).floor := by
          unfold Route.trunc; rw [if_neg (by linarith)]
        rw [ht]
        have a1 : (1 : Int) ≤ (q * 10 + 1).floor := Rat.le_floor_iff.2 (by push_cast; linarith)
        have a2 : (q * 10 + 1).floor < 11 := Rat.floor_lt_iff.2 (by push_cast; linarith)
        have a3 : (((q * 10 + 1).floor : Int) : Rat) ≤ q * 10 + 1 := Rat.le_floor_iff.1 (le_refl _)
        have a4 : q * 10 + 1 < (((q * 10 + 1).floor + 1 : Int) : Rat) := Rat.floor_lt_iff.1 (by omega)
        push_cast at a4
        generalize (q * 10 + 1).floor = n at *
        obtain ⟨a, e1⟩ := point_some m.adc n a1 (by rw [hm.adc]; push_cast; omega)
        obtain ⟨b, e2⟩ := point_some m.adc (n + 1) (by omega) (by rw [hm.adc]; push_cast; omega)
        exact ⟨n, _, a, b, rfl, rfl, e1, e2, by linarith, by linarith⟩
    obtain ⟨n, f, a, b, k1, k2, k3, k4, f0, f1⟩ := key
    rw [k1, k2, k3, k4]
    have hmem : ∀ (k : Int) x, point m.adc k = some x → 0 ≤ x ∧ x ≤ 1 := by
      intro k x hx
      unfold point at hx
      split at hx
      · exact absurd hx (by simp)
      · exact hadc x (List.mem_of_getElem? hx)
    obtain ⟨x0, x1⟩ := hmem _ _ k3
    obtain ⟨y0, y1⟩ := hmem _ _ k4
    have e : a + (b - a) * f = a * (1 - f) + b * f := by ring
    have c0 : 0 ≤ a + (b - a) * f := by
      rw [e]; exact add_nonneg (mul_nonneg x0 (by linarith)) (mul_nonneg y0 f0)
    have c1 : a + (b - a) * f ≤ 1 := by
      rw [e]
      have := mul_le_mul_of_nonneg_right x1 (by linarith : 0 ≤ 1 - f)
      have := mul_le_mul_of_nonneg_right y1 f0
      linarith
    refine ⟨_, rfl, ⟨hw, le_refl _, by simp, le_refl _, ⟨c0, c1⟩, by simp, fun h => ?_, fun h => ?_⟩, ?_, rfl⟩
    · dsimp only at h; simp [Pack.stored, h]
    · simp [Pack.stored]
    · simp [Pack.stored]

/-- C59: the precipitation of a day is counted as snow for every quarter of the day whose temperature is at or
below the threshold, and as rain for the others. -/
theorem C59_form (fn : Fn) (m : Mru) (nstep : Nat) (i : In) (st st' : St) (o : Out) (pre : Rat)
    (hpre : (if nstep = 1 then some i.tmax else st.tmxpre) = some pre)
    (h : nwsmrun fn m nstep i st = some (st', o)) :
    o.day.snow = ((temps i.tmin i.tmax pre).countP fun t => t ≤ m.allsnow) * (i.dep / 4) ∧
      o.day.rain = ((temps i.tmin i.tmax pre).countP fun t => ¬ t ≤ m.allsnow) * (i.dep / 4) := by
  unfold nwsmrun at h
  by_cases c : st.pack.we = 0 ∧ i.dep = 0
  · rw [if_pos c] at h
    cases h
    simp [c.2]
  · rw [if_neg c, hpre] at h
    split at h
    · rename_i pre' mf ratio hp hmf
      cases hp
      split at h
      · exact absurd h (by simp)
      · rename_i p d ns hq
        obtain ⟨f1, f2, -⟩ := periods_form _ _ _ _ _ _ _ _ _ _ _ _ _ _ hq
        cases h
        dsimp only at *
        rw [f1, f2]
        constructor <;> ring
    · exact absurd h (by simp)

/-- C59: snow and rain of a day together are its precipitation. -/
theorem C59_all (fn : Fn) (hf : fn.Ok) (m : Mru) (hm : m.Ok) (nstep : Nat) (i : In) (hi : 0 ≤ i.dep) (st : St)
    (hs : st.pack.Ok) (st' : St) (o : Out) (h : nwsmrun fn m nstep i st = some (st', o)) :
    o.day.snow + o.day.rain = i.dep :=
  (nwsmrun_spec fn hf m hm nstep i hi st hs st' o h).2.2.2.1

/-- C59: after a day with snow or precipitation, ice covers 5 % to 100 % of the unit, and a unit without ice is
not covered. -/
theorem C59_cover (fn : Fn) (hf : fn.Ok) (m : Mru) (hm : m.Ok) (nstep : Nat) (i : In) (hi : 0 ≤ i.dep) (st : St)
    (hs : st.pack.Ok) (hd : st.pack.we ≠ 0 ∨ i.dep ≠ 0) (st' : St) (o : Out) (h : nwsmrun fn m nstep i st = some (st', o)) :
    (st'.pack.we = 0 ∧ st'.pack.aesc = 0) ∨ (0 < st'.pack.we ∧ 5 / 100 ≤ st'.pack.aesc ∧ st'.pack.aesc ≤ 1) := by
  obtain ⟨mf', ratio', e, e1, -, -⟩ := meltfact_range fn hf i.jday m hm
  unfold nwsmrun at h
  rw [if_neg (fun hc => hd.elim (fun h => h hc.1) fun h => h hc.2)] at h
  split at h
  · rename_i pre mf ratio hp hmf
    rw [e] at hmf
    cases hmf
    obtain ⟨p, d, ns, q1, q2, -, q4, -, -, q7⟩ := periods_spec fn hf m hm mf' ratio' (i.dep * (254 / 10) / 4)
        (le_trans hm.mf.1 e1) (div_nonneg (mul_nonneg hi (by norm_num)) (by norm_num)) 1 (temps i.tmin i.tmax pre)
        (m.daygm * (254 / 10) / 4) (div_nonneg (mul_nonneg hm.daygm (by norm_num)) (by norm_num)) false st.pack hs
        (by simp) ⟨0, 0, 0, 0, 0⟩ ⟨le_refl _, le_refl _, le_refl _, le_refl _, le_refl _⟩
    obtain ⟨-, -, f3⟩ := periods_form _ _ _ _ _ _ _ _ _ _ _ _ _ _ q1
    have f3 := f3 (by simp [temps])
    rw [q1] at h
    cases h
    dsimp only
    cases ns with
    | true => exact Or.inl ⟨(q4 rfl).2, by simpa using f3⟩
    | false =>
      simp only [Bool.false_eq_true, if_false] at f3
      exact Or.inr ⟨q7 (by simp [temps]) rfl, f3⟩
  · exact absurd h (by simp)

/-- C58: in the first quarter of a day without precipitation and not above the melting base, a dry pack that
remains loses a quarter of the daily ground melt for the covered part of the unit, and nothing else as melt.
Missing: the other quarters (`C58_day_violated`). -/
theorem C58_quarter_partial (fn : Fn) (m : Mru) (hm : m.Ok) (mf ratio tair : Rat) (hmf : 0 ≤ mf)
    (ht : tair ≤ (m.mbase - 32) * (5555556 / 10000000))
    (p : Pack) (hp : p.Ok) (hdry : p.stored = p.we) (r : Period)
    (h : period fn m mf ratio 1 0 tair (m.daygm * (254 / 10) / 4) p = some r) (hr : r.nosnow = false) :
    r.packro = m.daygm * (254 / 10) / 4 * p.aesc := by
  have hl := Verif.Route.sum_nonneg' _ hp.lagro
  unfold Pack.stored at hdry
  have z1 : p.liqw = 0 := by linarith [hp.liqw, hp.storage]
  have z2 : p.storage = 0 := by linarith [hp.liqw, hp.storage]
  have z3 : p.lagro.sum = 0 := by linarith [hp.liqw, hp.storage]
  have z4 : lag1 p.lagro = some 0 := by
    have h2 := hp.lags
    have h3 := hp.lagro
    cases hp' : p.lagro with
    | nil => rw [hp'] at h2; simp at h2
    | cons x l =>
      rw [hp'] at h3 z3
      have hx := h3 x (by simp)
      have := Verif.Route.sum_nonneg' l fun y hy => h3 y (by simp [hy])
      rw [List.sum_cons] at z3
      unfold lag1
      rw [show x = 0 by linarith]
  have ha : (if p.aesc < 1 then p.aesc else 1) = p.aesc := by
    split
    · rfl
    · linarith [hp.cover.2]
  unfold period at h
  rw [if_pos rfl] at h
  unfold melting at h
  have hmelt : (meltrate fn m mf ratio tair 0 0 p.tindex 1).melt = 0 := by
    unfold meltrate
    dsimp only
    rw [if_pos (by norm_num)]
    dsimp only
    split
    · ring
    · rename_i hc
      push Not at hc
      have : tair - (m.mbase - 32) * (5555556 / 10000000) = 0 := by linarith
      rw [this]; ring
  have hev : (meltrate fn m mf ratio tair 0 0 p.tindex 1).evap = 0 := by
    unfold meltrate
    dsimp only
    rw [if_pos (by norm_num)]
    simp
  split at h
  · cases h; exact absurd hr (by simp [gone])
  · rename_i hg
    push Not at hg
    dsimp only at h
    rw [ha, hmelt, hev, z1, z2] at h
    generalize meltrate fn m mf ratio tair 0 0 p.tindex 1 = R at h
    have hsoil : (if p.aesc < 1 then (0 : Rat) * (1 - p.aesc) else 0) = 0 := by split <;> simp
    rw [hsoil] at h
    generalize (if R.cnhs * p.aesc + p.neghs < 0 then -1 * p.neghs else R.cnhs * p.aesc) = cn at h
    split at h
    · cases h; exact absurd hr (by simp [gone])
    · split at h
      · cases h; exact absurd hr (by simp [gone])
      · rename_i c1 c2
        push Not at c1 c2
        have hex := (heatwatr_spec (0 * p.aesc) (0 - 0) cn 0 m.plwhc
          (p.we - m.daygm * (254 / 10) / 4 * p.aesc - 0 * p.aesc - 0 * p.aesc) p.neghs
          (0 - m.daygm * (254 / 10) / 4 / p.we * 0 * p.aesc) R.tindex (by simp) hm.plwhc (by linarith) (by simp)).2.2.2.2
          (by simp) (by simp)
        generalize heatwatr (0 * p.aesc) (0 - 0) cn 0 m.plwhc
          (p.we - m.daygm * (254 / 10) / 4 * p.aesc - 0 * p.aesc - 0 * p.aesc) p.neghs
          (0 - m.daygm * (254 / 10) / 4 / p.we * 0 * p.aesc) R.tindex = H at *
        have hroute : route fn H.excess H.we p.aesc 0 p.lagro = some (0, 0, downshift p.lagro) := by
          unfold route
          rw [z4]
          dsimp only
          rw [if_pos ⟨hex, by ring⟩]
        rw [hroute] at h
        dsimp only at h
        split at h
        · exact absurd h (by simp)
        · cases h
          dsimp only
          ring

/-- A unit, functions and a pack for the examples. -/
def unit0 : Mru := ⟨1 / 100, 3 / 100, 1 / 100, 1 / 100, 32, 5 / 100, 1 / 10, 1 / 1000, 10, 1 / 10, 1000, 40, 0,
  [5 / 100, 10 / 100, 20 / 100, 30 / 100, 40 / 100, 50 / 100, 60 / 100, 70 / 100, 80 / 100, 90 / 100, 1]⟩
def fn0 : Fn := ⟨fun _ => 0, fun x => if x < -10 then 1 / 25000000 else 1 / 2, fun _ => 1, fun _ => 1⟩
def pack0 : Pack := ⟨50, 0, [0, 0], 0, 0, 200, 50, 50, 25 / 100, 25 / 100, -10⟩
def bare0 : Pack := ⟨0, 0, [0, 0], 0, 0, 0, 0, 0, 0, 0, 0⟩

theorem unit0_ok : unit0.Ok := by constructor <;> decide +kernel
theorem fn0_ok : fn0.Ok := by
  constructor
  · intro x; show (-1 : Rat) ≤ 0 ∧ (0 : Rat) ≤ 1; norm_num
  · intro x _
    show (0 : Rat) < (if x < -10 then 1 / 25000000 else 1 / 2) ∧ (if x < -10 then (1 : Rat) / 25000000 else 1 / 2) ≤ 1
    split <;> norm_num
  · intro x _; show (0 : Rat) < 1; norm_num
theorem pack0_ok : pack0.Ok := by constructor <;> decide +kernel
theorem bare0_ok : bare0.Ok := by constructor <;> decide +kernel

/-- A melting day, a rainy day and a snowfall: C37, C59 apply and the flows are not zero. -/
example : (match days fn0 unit0 1 ⟨pack0, none, 0⟩ [⟨0, 2, 10, 100⟩, ⟨1, 3, 12, 101⟩, ⟨1 / 2, -8, -2, 102⟩] with
    | some [a, b, c] => decide (0 < a.2.day.melt ∧ 0 < a.2.day.evap ∧ 0 < b.2.day.soil ∧ 0 < b.2.day.rain ∧
        0 < c.2.day.snow ∧ 0 < c.2.change ∧ a.2.change < 0)
    | _ => false) = true := by decide +kernel

example : ∃ rs, days fn0 unit0 1 ⟨pack0, none, 0⟩ [⟨0, 2, 10, 100⟩, ⟨1, 3, 12, 101⟩] = some rs ∧ rs.length = 2 :=
  let ⟨rs, h1, h2, _⟩ := C37_run_partial fn0 fn0_ok unit0 unit0_ok [⟨0, 2, 10, 100⟩, ⟨1, 3, 12, 101⟩] (by decide +kernel)
    ⟨pack0, none, 0⟩ pack0_ok (Or.inl (by decide +kernel))
  ⟨rs, h1, h2⟩

example : ∃ p, nwsminit 2 [] unit0 3 5 0 = some p ∧ p.Ok ∧ p.stored = 3 * (254 / 10) ∧ p.we = 3 * (254 / 10) :=
  C37_initial unit0 unit0_ok (by decide +kernel) (by decide +kernel) [] 3 5 0 (by norm_num)

/-- C37 violated: with the default of one lag interval (`nwsmelt_topg.F:106`) initialisation writes outside its
arrays, whatever the parameters. -/
theorem C37_nexlag_violated (m : Mru) (rest : List Rat) (wei acumx neghsi : Rat) :
    nwsminit 1 rest m wei acumx neghsi = none := rfl

/-- C37 violated: if the first day of a run has neither snow nor precipitation, the first day with
precipitation uses a temperature that was never assigned. -/
theorem C37_start_violated (fn : Fn) (m : Mru) (tmin tmax : Rat) (jday : Int) (i : In) (hi : i.dep ≠ 0)
    (rest : List In) : days fn m 1 ⟨bare0, none, 0⟩ (⟨0, tmin, tmax, jday⟩ :: i :: rest) = none := by
  have h1 : nwsmrun fn m 1 ⟨0, tmin, tmax, jday⟩ ⟨bare0, none, 0⟩ = some (⟨bare0, none, 0⟩, ⟨⟨0, 0, 0, 0, 0⟩, 0⟩) := by
    unfold nwsmrun; rw [if_pos ⟨rfl, rfl⟩]
  have h2 : nwsmrun fn m 2 i ⟨bare0, none, 0⟩ = none := by
    unfold nwsmrun; rw [if_neg (fun h => hi h.2), if_neg (by norm_num)]
  unfold days
  rw [h1]
  dsimp only
  unfold days
  rw [h2]
  rfl

/-- C58 violated: on a cold day without precipitation the ground melt of a partly covered unit is less than
half of the daily rate times the cover at the end of the day (the smallest of the day): each quarter takes
the rate already reduced in the quarters before. -/
theorem C58_day_violated : ∃ (i : In) (st' : St) (o : Out), i.dep = 0 ∧ i.tmax < 0 ∧ pack0.stored = pack0.we ∧
    nwsmrun fn0 unit0 1 i ⟨pack0, none, 0⟩ = some (st', o) ∧ st'.pack.aesc ≤ pack0.aesc ∧ 0 < st'.pack.we ∧
    o.day.melt < unit0.daygm * st'.pack.aesc / 2 := by
  have hs : (match nwsmrun fn0 unit0 1 ⟨0, -12, -5, 100⟩ ⟨pack0, none, 0⟩ with
      | some (st', o) => decide (st'.pack.aesc ≤ pack0.aesc ∧ 0 < st'.pack.we ∧
          o.day.melt < unit0.daygm * st'.pack.aesc / 2)
      | none => false) = true := by decide +kernel
  split at hs
  · rename_i st' o h
    exact ⟨_, st', o, rfl, by decide +kernel, by decide +kernel, h, of_decide_eq_true hs⟩
  · exact absurd hs (by simp)

/-- C58 violated: snow falling on bare ground in the first quarter of a day stops the ground melt for the rest of
that day, although the unit is then covered. -/
theorem C58_bare_violated : ∃ (i : In) (st' : St) (o : Out), 0 < i.dep ∧ i.tmax < 0 ∧
    nwsmrun fn0 unit0 1 i ⟨bare0, none, 0⟩ = some (st', o) ∧ st'.pack.aesc = 1 ∧ o.day.melt = 0 := by
  have hs : (match nwsmrun fn0 unit0 1 ⟨4, -12, -5, 100⟩ ⟨bare0, none, 0⟩ with
      | some (st', o) => decide (st'.pack.aesc = 1 ∧ o.day.melt = 0)
      | none => false) = true := by decide +kernel
  split at hs
  · rename_i st' o h
    exact ⟨_, st', o, by decide +kernel, by decide +kernel, h, of_decide_eq_true hs⟩
  · exact absurd hs (by simp)

end Verif.Snow
