import Verif.Lemmas.Topmod
/-
Helper lemmas for C38, C56 and C57: whole steps and runs.
-/
namespace Verif.Topmod
open Verif.Route (sum_nonneg')

theorem weigh_mul (c : Rat) {α} (f : α → Rat) (as : List Rat) (l : List α) :
    weigh as (l.map fun x => c * f x) = c * weigh as (l.map f) := by
  induction as generalizing l with
  | nil => cases l <;> simp [weigh]
  | cons a as ih =>
    cases l with
    | nil => simp [weigh]
    | cons x l => simp only [List.map_cons, weigh_cons, ih]; ring

theorem zipWith_right {α β γ} (f : β → γ) (l : List α) (r : List β) (h : l.length = r.length) :
    List.zipWith (fun _ b => f b) l r = r.map f := by
  induction l generalizing r with
  | nil =>
    cases r with
    | nil => rfl
    | cons b r => simp at h
  | cons a l ih =>
    cases r with
    | nil => simp at h
    | cons b r => simp only [List.zipWith_cons_cons, List.map_cons]; rw [ih r (by simpa using h)]

/-- The list the bins are looped over. -/
theorem zipped (m : Mru) (bins : List BinSt) (h : bins.length = m.bins.length) :
    ((List.zip (List.zip (acfs (m.bins.map (·.1))) (m.bins.map (·.2))) bins).map (·.1.1) =
      acfs (m.bins.map (·.1))) ∧
    (List.zip (List.zip (acfs (m.bins.map (·.1))) (m.bins.map (·.2))) bins).map (·.2) = bins := by
  have hl : (List.zip (acfs (m.bins.map (·.1))) (m.bins.map (·.2))).length = bins.length := by
    rw [List.length_zip, acfs_length]; simp [h]
  refine ⟨?_, ?_⟩
  · have e : (fun x : (Rat × Rat) × BinSt => x.1.1) = (fun y : Rat × Rat => y.1) ∘ Prod.fst := rfl
    rw [e, ← List.map_map, List.map_fst_zip (by omega), List.map_fst_zip (by rw [acfs_length]; simp)]
  · exact List.map_snd_zip (by omega)

theorem tableStep_keeps (m : Mru) (sbar acf st : Rat) (b : BinSt) :
    (tableStep m sbar acf st b).1.srz = b.srz ∧ (tableStep m sbar acf st b).1.suz = b.suz := by
  unfold tableStep
  dsimp only
  split <;> exact ⟨rfl, rfl⟩

/-- The storages after the step are those left by the loop over the bins. -/
theorem bins_keep (m : Mru) (sbar : Rat) (as : List (Rat × Rat)) (rs : List (BinSt × Flux))
    (h : as.length = rs.length) :
    let l := (List.zipWith (fun (a : Rat × Rat) (r : BinSt × Flux) => tableStep m sbar a.1 a.2 r.1) as rs).map
      (·.1)
    l.length = rs.length ∧ l.map (·.srz) = rs.map (·.1.srz) ∧ l.map (·.suz) = rs.map (·.1.suz) := by
  intro l
  refine ⟨by simp [l, h], ?_, ?_⟩
  · show List.map _ (List.map _ _) = _
    rw [List.map_map, List.map_zipWith, ← zipWith_right (fun r : BinSt × Flux => r.1.srz) as rs h]
    congr 1
    funext a r
    exact (tableStep_keeps m sbar a.1 a.2 r.1).1
  · show List.map _ (List.map _ _) = _
    rw [List.map_map, List.map_zipWith, ← zipWith_right (fun r : BinSt × Flux => r.1.suz) as rs h]
    congr 1
    funext a r
    exact (tableStep_keeps m sbar a.1 a.2 r.1).2

theorem store_eq (acf : List Rat) (l l' : List BinSt) (hz : l.map (·.srz) = l'.map (·.srz))
    (hu : l.map (·.suz) = l'.map (·.suz)) :
    List.zipWith (fun a (b : BinSt) => a * (b.suz - b.srz)) acf l =
      List.zipWith (fun a (b : BinSt) => a * (b.suz - b.srz)) acf l' := by
  induction acf generalizing l l' with
  | nil => simp
  | cons a acf ih =>
    cases l with
    | nil =>
      cases l' with
      | nil => rfl
      | cons b' l' => simp at hz
    | cons b l =>
      cases l' with
      | nil => simp at hz
      | cons b' l' =>
        simp only [List.map_cons, List.cons.injEq] at hz hu
        simp only [List.zipWith_cons_cons]
        rw [ih l l' hz.2 hu.2, hz.1, hu.1]

/-- One step: lengths, the loop over the bins, and the balance. -/
theorem step_balance (fn : Fn) (m : Mru) (hm : ∀ b ∈ m.bins, 0 ≤ b.1) (infex : Bool) (nstep : Nat) (dt : Rat)
    (i : In) (st st' : St) (o : Out) (w : Water) (rs : List (BinSt × Flux))
    (hlen : st.bins.length = m.bins.length) (h : Step fn m infex nstep dt i st st' o w rs) :
    rs.length = m.bins.length ∧ st'.bins.length = m.bins.length ∧
    st'.bins.map (·.srz) = rs.map (·.1.srz) ∧ st'.bins.map (·.suz) = rs.map (·.1.suz) ∧
    (∀ k (hk : k < m.bins.length), ∃ a b r, (acfs (m.bins.map (·.1)))[k]? = some a ∧ st.bins[k]? = some b ∧
      rs[k]? = some r ∧ (if a ≠ 0 then binStep m dt w (deficit m st.sbar m.bins[k].2) b
         else some (b, ⟨0, 0, 0, 0, 0⟩)) = some r) ∧
    ∃ e, 0 ≤ e ∧ e ≤ covered m / 10000000 ∧
      inflow o + storage m st = outflow i o + storage m st' + e +
        (1 - covered m) * (o.surfdep - o.rex - o.qvpref) := by
  have hacf := acfs_nonneg (m.bins.map (·.1)) (by
    intro y hy
    obtain ⟨b, hb, rfl⟩ := List.mem_map.1 hy
    exact hm b hb)
  obtain ⟨rs', h1, h2, h3, e, he0, he1, he⟩ := binLoop_balance m dt w st.sbar
    (List.zip (List.zip (acfs (m.bins.map (·.1))) (m.bins.map (·.2))) st.bins) (by
      intro x hx
      have := (List.of_mem_zip hx).1
      exact hacf _ (List.of_mem_zip (show (x.1.1, x.1.2) ∈ _ from this)).1)
  rw [h.loop] at h1
  have h1 := Option.some.inj h1
  subst h1
  obtain ⟨z1, z2⟩ := zipped m st.bins hlen
  have hl : (List.zip (List.zip (acfs (m.bins.map (·.1))) (m.bins.map (·.2))) st.bins).length =
      m.bins.length := by
    rw [List.length_zip, List.length_zip, acfs_length]; simp [hlen]
  rw [hl] at h2
  have hzl : (List.zip (acfs (m.bins.map (·.1))) (m.bins.map (·.2))).length = rs.length := by
    rw [List.length_zip, acfs_length]; simp [h2]
  obtain ⟨b1, b2, b3⟩ := bins_keep m st'.sbar _ rs hzl
  rw [← h.bins] at b1 b2 b3
  refine ⟨h2, by rw [b1, h2], b2, b3, ?_, e, he0, ?_, ?_⟩
  · intro k hk
    have hk' : k < (List.zip (List.zip (acfs (m.bins.map (·.1))) (m.bins.map (·.2))) st.bins).length := by
      rw [hl]; exact hk
    have := h3 k hk' (by omega)
    rw [List.getElem_zip, List.getElem_zip] at this
    simp only [List.getElem_map] at this
    exact ⟨_, _, _, List.getElem?_eq_getElem (by rw [acfs_length]; simpa using hk),
      List.getElem?_eq_getElem (by omega), List.getElem?_eq_getElem (by omega), this⟩
  · rw [z1] at he1; exact he1
  · rw [z1, z2] at he
    have hs : List.zipWith (fun a (b : BinSt) => a * (b.suz - b.srz)) (acfs (m.bins.map (·.1))) st'.bins =
        List.zipWith (fun a (b : BinSt) => a * (b.suz - b.srz)) (acfs (m.bins.map (·.1))) (rs.map (·.1)) :=
      store_eq _ _ _ (by rw [b2, List.map_map]; rfl) (by rw [b3, List.map_map]; rfl)
    unfold inflow outflow storage covered
    rw [hs]
    have huz := h.quz
    have hdf := h.qdf
    rw [weigh_mul (1 - m.qdffrac) (fun r : BinSt × Flux => r.2.uz)] at huz
    rw [weigh_mul m.qdffrac (fun r : BinSt × Flux => r.2.uz)] at hdf
    have hsb := h.sbar
    have hq := h.qout
    have hof := h.qof
    have hofs := h.qofs
    have hw := h.qwet
    have hea := h.sae
    have hp := h.p2rz
    have hv := h.qv2suz
    have hvp := h.qvpref
    unfold inch2m at hsb
    rw [hp, hv] at he
    rw [hvp] at hsb ⊢
    rw [hsb, hq, hof, hofs]
    rw [hw, huz, hdf, hea]
    linarith

theorem excess_range (fn : Fn) (hfn : fn.Ok) (m : Mru) (nstep : Nat) (p dt : Rat) (hp : 0 ≤ p) (hdt : dt ≠ 0)
    (l : List ((Rat × Rat) × Pond)) (hl : ∀ x ∈ l, 0 ≤ x.1.2) :
    0 ≤ (excess fn m nstep p dt l).1 ∧ (excess fn m nstep p dt l).1 ≤ p * (l.map (·.1.2)).sum := by
  induction l with
  | nil => simp [excess]
  | cons x l ih =>
    obtain ⟨⟨xk, area⟩, pd⟩ := x
    obtain ⟨i1, i2⟩ := ih fun y hy => hl y (by simp [hy])
    have ha : 0 ≤ area := hl ((xk, area), pd) (by simp)
    have hdf : 0 ≤ (expinf fn m xk nstep (p / dt) dt pd).1 ∧ (expinf fn m xk nstep (p / dt) dt pd).1 ≤ p := by
      have hr : p / dt * dt = p := div_mul_cancel₀ p hdt
      unfold expinf
      dsimp only
      split
      · rename_i f hf
        have := hfn.forward _ _ _ _ _ _ _ hf
        rw [hr]
        by_cases hc : f < pd.cumf + p
        · rw [if_pos hc]; exact ⟨by dsimp only; linarith, by dsimp only; linarith⟩
        · rw [if_neg hc]; exact ⟨hp, le_refl _⟩
      · rw [hr]; exact ⟨hp, le_refl _⟩
    unfold excess
    dsimp only
    generalize expinf fn m xk nstep (p / dt) dt pd = q at *
    obtain ⟨df, pd'⟩ := q
    dsimp only at hdf ⊢
    generalize excess fn m nstep p dt l = r at *
    obtain ⟨rex, pds⟩ := r
    dsimp only at i1 i2 ⊢
    simp only [List.map_cons, List.sum_cons]
    have hdf' : ∀ c : Prop, [Decidable c] → 0 ≤ (if c then p else df) ∧ (if c then p else df) ≤ p := by
      intro c _
      by_cases hc : c
      · rw [if_pos hc]; exact ⟨hp, le_refl _⟩
      · rw [if_neg hc]; exact hdf
    have hd := hdf' (if p - df < 0 then -(p - df) < 1 / 100000000 else p - df < 1 / 100000000)
    generalize (if (if p - df < 0 then -(p - df) < 1 / 100000000 else p - df < 1 / 100000000) then p
      else df) = d at *
    obtain ⟨d1, d2⟩ := hd
    have m1 := mul_nonneg (show 0 ≤ p - d by linarith) ha
    have m2 := mul_nonneg d1 ha
    constructor
    · linarith
    · nlinarith

theorem xkareas_spec (m : Mru) : (∀ x ∈ xkareas m, 0 ≤ x) ∧ (xkareas m).sum = 1 := by
  unfold xkareas
  split
  · simp
  · refine ⟨by decide +kernel, by decide +kernel⟩

theorem infilExcess_range (fn : Fn) (hfn : fn.Ok) (m : Mru) (infex : Bool) (nstep : Nat) (p dt : Rat)
    (hp : 0 ≤ p) (hdt : dt ≠ 0) (pond : List Pond) :
    0 ≤ (infilExcess fn m infex nstep p dt pond).1 ∧ (infilExcess fn m infex nstep p dt pond).1 ≤ p := by
  obtain ⟨x1, x2⟩ := xkareas_spec m
  unfold infilExcess
  split
  · split
    · have hl : ∀ x ∈ List.zip (List.zip m.xk (xkareas m)) pond, 0 ≤ x.1.2 := by
        intro x hx
        have := (List.of_mem_zip hx).1
        exact x1 _ (List.of_mem_zip (show (x.1.1, x.1.2) ∈ _ from this)).2
      obtain ⟨r1, r2⟩ := excess_range fn hfn m nstep p dt hp hdt _ hl
      refine ⟨r1, le_trans r2 ?_⟩
      have hpre : ∃ n, (List.zip (List.zip m.xk (xkareas m)) pond).map (·.1.2) = (xkareas m).take n := by
        refine ⟨(List.zip (List.zip m.xk (xkareas m)) pond).length, ?_⟩
        apply List.ext_getElem
        · simp
        · intro k h1 h2
          simp
      obtain ⟨n, hn⟩ := hpre
      rw [hn]
      have := Route.take_sum_le (xkareas m) x1 n
      rw [x2] at this
      nlinarith
    · exact ⟨le_refl _, hp⟩
  · exact ⟨le_refl _, hp⟩

theorem drainFlow_nonneg (m : Mru) (dt zwt net : Rat) (hdt : 0 ≤ dt) : 0 ≤ drainFlow m dt zwt net := by
  unfold drainFlow
  dsimp only
  have hq : 0 ≤ (if zwt + net / m.drain ≤ m.zmin ∨ m.qprefMax < 1 / 1000000000000 then (0 : Rat)
      else if zwt + net / m.drain ≥ m.zmax then m.qprefMax * dt
      else (zwt + net / m.drain - m.zmin) / (m.zmax - m.zmin) * m.qprefMax) := by
    generalize zwt + net / m.drain = z
    by_cases h1 : z ≤ m.zmin ∨ m.qprefMax < 1 / 1000000000000
    · rw [if_pos h1]
    · rw [if_neg h1]
      push Not at h1
      obtain ⟨a, b⟩ := h1
      have b' : 0 ≤ m.qprefMax := le_trans (by norm_num) b
      by_cases h2 : z ≥ m.zmax
      · rw [if_pos h2]; exact mul_nonneg b' hdt
      · rw [if_neg h2]
        exact mul_nonneg (div_nonneg (by linarith) (by linarith [not_le.1 h2])) b'
  generalize (if zwt + net / m.drain ≤ m.zmin ∨ m.qprefMax < 1 / 1000000000000 then (0 : Rat)
      else if zwt + net / m.drain ≥ m.zmax then m.qprefMax * dt
      else (zwt + net / m.drain - m.zmin) / (m.zmax - m.zmin) * m.qprefMax) = q at *
  split
  · rename_i h; exact h.2.le
  · exact hq

theorem baseFlow_nonneg (fn : Fn) (m : Mru) (sbar : Rat) : 0 ≤ baseFlow fn m sbar := by
  unfold baseFlow
  extract_lets q
  by_cases h : q < 1 / 100000
  · rw [if_pos h]
  · rw [if_neg h]; exact le_trans (by norm_num) (not_lt.1 h)

theorem adjust_nonneg (m : Mru) (qpref qb : Rat) (h : 0 ≤ qb) : 0 ≤ adjust m qpref qb := by
  unfold adjust
  dsimp only
  split
  · split
    · norm_num
    · rename_i h2
      exact le_trans (by norm_num) (not_lt.1 h2)
  · exact h

theorem gwLoss_nonneg (fn : Fn) (hfn : fn.Ok) (m : Mru) (dt zwt : Rat) (hdt : 0 ≤ dt) : 0 ≤ gwLoss fn m dt zwt := by
  unfold gwLoss
  split
  · rename_i h
    have := hfn.pow10 (-m.lossK)
    have := h.1
    positivity
  · exact le_refl _

/-- Ranges: the state stays within its bounds and no flux is negative. -/
theorem step_range (fn : Fn) (hfn : fn.Ok) (m : Mru) (hm : m.Ok) (infex : Bool) (nstep : Nat) (dt : Rat)
    (hdt : 0 ≤ dt) (i : In) (hi : i.Ok) (st st' : St) (o : Out) (w : Water) (rs : List (BinSt × Flux))
    (hs : st.Ok m) (h : Step fn m infex nstep dt i st st' o w rs) :
    st'.Ok m ∧ 0 ≤ o.rex ∧ o.rex ≤ o.surfdep ∧ 0 ≤ o.qvpref ∧ 0 ≤ w.p ∧ w.p ≤ o.surfdep ∧ 0 ≤ o.qofs ∧
      0 ≤ o.qof ∧ 0 ≤ o.quz ∧ 0 ≤ o.qdf ∧ 0 ≤ o.qwet ∧ 0 ≤ o.sae ∧ 0 ≤ o.gwLoss ∧ 0 ≤ o.qb ∧ 0 ≤ o.qpref ∧
      0 ≤ o.qout := by
  have hsd : 0 ≤ o.surfdep := by
    rw [h.surfdep]
    exact mul_nonneg hi (by norm_num)
  obtain ⟨r1, r2⟩ := infilExcess_range fn hfn m infex nstep o.surfdep dt hsd h.nonzero st.pond
  rw [← h.rex] at r1 r2
  have hp : 0 ≤ o.surfdep - o.rex := by linarith
  obtain ⟨pm1, pm2⟩ := hm.pmacro
  obtain ⟨ps1, ps2⟩ := hm.pmacSat
  have hw1 : 0 ≤ w.p2rz := by rw [h.p2rz]; exact mul_nonneg hp (by linarith)
  have hw2 : 0 ≤ w.qv2suz := by rw [h.qv2suz]; exact mul_nonneg (mul_nonneg hp (by linarith)) pm1
  have hvp : 0 ≤ o.qvpref := by rw [h.qvpref]; exact mul_nonneg (mul_nonneg hp ps1) pm1
  have hwp : w.p = w.p2rz + w.qv2suz := by rw [h.p, h.p2rz, h.qv2suz, h.qvpref]; ring
  obtain ⟨l1, l2, l3, l4, l5, -⟩ := step_balance fn m hm.ac infex nstep dt i st st' o w rs hs.bins h
  have hrs : ∀ r ∈ rs, r.1.Ok m ∧ 0 ≤ r.2.wet ∧ 0 ≤ r.2.ex ∧ 0 ≤ r.2.uz ∧ 0 ≤ r.2.ea := by
    intro r hr
    obtain ⟨k, hk, rfl⟩ := List.mem_iff_getElem.1 hr
    obtain ⟨a, b, r', g1, g2, g3, g4⟩ := l5 k (by omega)
    rw [List.getElem?_eq_getElem hk] at g3
    have g3 := Option.some.inj g3
    rw [← g3] at g4
    have hb : b.Ok m := hs.ok b (List.mem_of_getElem? g2)
    by_cases ha : a ≠ 0
    · rw [if_pos ha] at g4
      exact binStep_range m hm dt hdt w ⟨hw1, hw2, h.ep⟩ _ b _ _ hb g4
    · rw [if_neg ha] at g4
      have g4 := Option.some.inj g4
      rw [← g4]
      exact ⟨hb, le_refl _, le_refl _, le_refl _, le_refl _⟩
  have hacf := acfs_nonneg (m.bins.map (·.1)) (by
    intro y hy
    obtain ⟨b, hb, rfl⟩ := List.mem_map.1 hy
    exact hm.ac b hb)
  have hall : ∀ f : BinSt × Flux → Rat, (∀ r ∈ rs, 0 ≤ f r) → 0 ≤ weigh (acfs (m.bins.map (·.1))) (rs.map f) := by
    intro f hf
    apply weigh_nonneg _ _ hacf
    intro x hx
    obtain ⟨r, hr, rfl⟩ := List.mem_map.1 hx
    exact hf r hr
  have hqofs : 0 ≤ o.qofs := by rw [h.qofs]; exact hall _ fun r hr => (hrs r hr).2.2.1
  have hqdf : 0 ≤ o.qdf := by
    rw [h.qdf]; exact hall _ fun r hr => mul_nonneg hm.qdffrac.1 (hrs r hr).2.2.2.1
  have hquz : 0 ≤ o.quz := by
    rw [h.quz]; exact hall _ fun r hr => mul_nonneg (by linarith [hm.qdffrac.2]) (hrs r hr).2.2.2.1
  have hqpref : 0 ≤ o.qpref := by
    obtain ⟨net, hn⟩ := h.qpref
    rw [hn]; exact drainFlow_nonneg m dt st.zwt net hdt
  have hqb : 0 ≤ o.qb := by rw [h.qb]; exact adjust_nonneg _ _ _ (baseFlow_nonneg fn m st.sbar)
  refine ⟨⟨l2, ?_⟩, r1, r2, hvp, by linarith, by rw [h.p]; linarith, hqofs, by rw [h.qof]; linarith, hquz, hqdf,
    by rw [h.qwet]; exact hall _ fun r hr => (hrs r hr).2.1,
    by rw [h.sae]; exact hall _ fun r hr => (hrs r hr).2.2.2.2,
    by rw [h.loss]; exact gwLoss_nonneg fn hfn m dt st.zwt hdt, hqb, hqpref,
    by rw [h.qout, h.qof]; linarith⟩
  intro b hb
  obtain ⟨k, hk, rfl⟩ := List.mem_iff_getElem.1 hb
  have hk' : k < rs.length := by omega
  have e1 := congrArg (·[k]?) l3
  have e2 := congrArg (·[k]?) l4
  simp only [List.getElem?_map, List.getElem?_eq_getElem hk, List.getElem?_eq_getElem hk', Option.map_some,
    Option.some.injEq] at e1 e2
  have := (hrs rs[k] (List.getElem_mem hk')).1
  exact ⟨by rw [e1]; exact this.srz, by rw [e2]; exact this.suz⟩

/-- Bins: what is published is consistent, and changes by the fluxes. -/
theorem tableStep_depth (m : Mru) (sbar acf st : Rat) (b : BinSt) (ha : acf ≠ 0) :
    let r := tableStep m sbar acf st b
    r.1.depth = uzDepth m r.1.srz r.1.suz r.1.zwt ∧ r.2 = uz2sat m b.zwt r.1.zwt := by
  unfold tableStep
  dsimp only
  rw [if_pos ha]
  exact ⟨rfl, rfl⟩

theorem uzDepth_eq (m : Mru) (srz suz z : Rat) :
    uzDepth m srz suz z = (m.fc - m.wp) * m.root - srz + m.wp * m.root + suz +
      (if z < -m.root then (-m.root - z) * m.fc else 0) := by
  unfold uzDepth Mru.srmax
  by_cases h : z ≥ -m.root
  · rw [if_pos h, if_neg (not_lt.2 h)]; ring
  · rw [if_neg h, if_pos (not_le.1 h)]; ring

theorem uz2sat_eq (m : Mru) (last z : Rat) :
    uz2sat m last z = (if last < -m.root then (-m.root - last) * m.fc else 0) -
      (if z < -m.root then (-m.root - z) * m.fc else 0) := by
  unfold uz2sat
  by_cases h1 : z ≥ -m.root
  · rw [if_pos h1, if_neg (not_lt.2 h1)]
    by_cases h2 : last ≥ -m.root
    · rw [if_pos h2, if_neg (not_lt.2 h2)]; ring
    · rw [if_neg h2, if_pos (not_le.1 h2)]; ring
  · rw [if_neg h1, if_pos (not_le.1 h1)]
    by_cases h2 : last ≥ -m.root
    · rw [if_pos h2, if_neg (not_lt.2 h2)]; ring
    · rw [if_neg h2, if_pos (not_le.1 h2)]; ring

end Verif.Topmod
