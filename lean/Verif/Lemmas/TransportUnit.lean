import Verif.Lemmas.TransportFacts
/-
The sections of a unit, one by one.
-/
namespace Verif.Transport
open Verif.Reservoir (Vol Rows BinOut Par In sumOf fall inch2m)

/-- Moles in a solution. -/
abbrev mo (s : St) (k : Key) : Rat := (s.sol k).mol

theorem Did.destRx {rx cons dest e m s s'} (h : Did rx cons dest e m s s') (hd : Dry rx) (he : e ≠ .no) :
    mo s' dest = reacted rx e m := by
  unfold mo; rw [h.sol]; simp [upd, react_mol hd e he]

theorem Did.destNo {rx cons dest m s s'} (h : Did rx cons dest .no m s s') : mo s' dest = m := by
  unfold mo; rw [h.sol]; simp [upd, react_no]

theorem Did.cons' {rx cons dest e m s s'} (h : Did rx cons dest e m s s') (hne : cons ≠ dest) : mo s' cons = m := by
  unfold mo; rw [h.sol]; simp [upd, hne]

theorem Did.other {rx cons dest e m s s'} (h : Did rx cons dest e m s s') (k : Key) (h1 : k ≠ cons) (h2 : k ≠ dest) :
    s'.sol k = s.sol k := by
  rw [h.sol]; simp [upd, h1, h2]

/-- A section: solutions stay full, and only those in the list change. -/
structure Sect (l : List Key) (s s' : St) : Prop where
  full : Full s'.sol
  same : ∀ k, k ∉ l → s'.sol k = s.sol k
  pulse : s'.pulse = s.pulse

theorem Sect.refl {l : List Key} {s : St} (h : Full s.sol) : Sect l s s := ⟨h, fun _ _ => rfl, rfl⟩

theorem Sect.trans {l : List Key} {s s' s'' : St} (h : Sect l s s') (h' : Sect l s' s'') : Sect l s s'' :=
  ⟨h'.full, fun k hk => (h'.same k hk).trans (h.same k hk), h'.pulse.trans h.pulse⟩

theorem Sect.mono {l l' : List Key} {s s' : St} (h : Sect l s s') (hl : ∀ k ∈ l, k ∈ l') : Sect l' s s' :=
  ⟨h.full, fun k hk => h.same k fun h' => hk (hl k h'), h.pulse⟩

theorem Did.sect {rx cons dest e m s s'} (h : Did rx cons dest e m s s') : Sect [cons, dest] s s' :=
  ⟨h.full, fun k hk => h.other k (fun e => hk (by simp [e])) (fun e => hk (by simp [e])), h.pulse⟩

theorem Sect.of_sol {l : List Key} {s s' s'' : St} (h : Sect l s s') (h1 : s''.sol = s'.sol) (h2 : s''.pulse = s'.pulse) : Sect l s s'' :=
  ⟨h1 ▸ h.full, fun k hk => by rw [h1]; exact h.same k hk, h2.trans h.pulse⟩

theorem Sect.next {l l' L : List Key} {s s1 t1 t2 s' : St} (h : Sect l s s1) (h' : Sect l' t1 t2) (e1 : t1.sol = s1.sol)
    (e2 : t1.pulse = s1.pulse) (f1 : s'.sol = t2.sol) (f2 : s'.pulse = t2.pulse) (hl : ∀ k ∈ l, k ∈ L) (hl' : ∀ k ∈ l', k ∈ L) :
    Sect L s s' := by
  refine ⟨f1 ▸ h'.full, fun k hk => ?_, ?_⟩
  · rw [f1, h'.same k fun hh => hk (hl' k hh), e1, h.same k fun hh => hk (hl k hh)]
  · rw [f2, h'.pulse, e2, h.pulse]

/-- Parts given by their volumes. -/
theorem mix_vols {rx : Ent → Sol → Sol} (hd : Dry rx) (l : List (Key × Rat)) (tot : Rat) (cons dest : Key) (hc : cons ≠ .pure)
    (hk : dest ≠ .pure) (e : Ent) (s : St) (hF : Full s.sol) (ht : 0 < tot) (h : ∀ c ∈ l, 0 ≤ c.2)
    (h1 : sumOf (·.2) l = tot) :
    ∃ m, Did rx cons dest e m s (mix rx (checked (l.map fun c => (c.1, c.2 / tot))) cons dest e s) ∧
      tot * m = sumOf (fun c => c.2 * mo s c.1) l := by
  refine ⟨_, mix_pos hd _ cons dest hc hk e s hF ?_ ?_, ?_⟩
  · intro c hc'
    obtain ⟨d, hd', rfl⟩ := List.mem_map.1 hc'
    exact div_nonneg (h d hd') ht.le
  · rw [Reservoir.sumOf_map]
    have : ∀ c : Key × Rat, c.2 / tot = tot⁻¹ * c.2 := fun c => by rw [div_eq_mul_inv, mul_comm]
    simp only [this]
    rw [Reservoir.sumOf_mul, h1, inv_mul_cancel₀ ht.ne']
  · rw [Reservoir.sumOf_map, ← Reservoir.sumOf_mul]
    apply Reservoir.sumOf_congr
    intro c _
    simp only
    field_simp

/-- One part that is everything. -/
theorem checked_one (k : Key) : checked [(k, 1)] = [(k, 1)] := checked_pos _ (by simp)

/-! ### Deposition -/

theorem readOff_same {rx : Ent → Sol → Sol} (hd : Dry rx) (k : Key) (hk : k ≠ .pure) (metric : Int) (vol : Rat) (a b : Bool) (s : St)
    (hF : Full s.sol) : (readOff rx k metric vol a b s).sol = s.sol ∧ (readOff rx k metric vol a b s).pulse = s.pulse := by
  unfold readOff
  rw [checked_one, note_sol, note_pulse]
  exact ⟨(mix_self hd k hk s hF).1, (mix_self hd k hk s hF).2.2.1⟩

theorem readAll_same {rx : Ent → Sol → Sol} (hd : Dry rx) (l : List (Key × Rat × Int × Bool × Bool)) (hk : ∀ c ∈ l, c.1 ≠ .pure) (s : St)
    (hF : Full s.sol) :
    (l.foldl (fun s c => readOff rx c.1 c.2.2.1 c.2.1 c.2.2.2.1 c.2.2.2.2 s) s).sol = s.sol ∧
    (l.foldl (fun s c => readOff rx c.1 c.2.2.1 c.2.1 c.2.2.2.1 c.2.2.2.2 s) s).pulse = s.pulse := by
  induction l generalizing s with
  | nil => exact ⟨rfl, rfl⟩
  | cons a l ih =>
    have h1 := readOff_same hd a.1 (hk a List.mem_cons_self) a.2.2.1 a.2.1 a.2.2.2.1 a.2.2.2.2 s hF
    have h2 := ih (fun c hc => hk c (List.mem_cons_of_mem _ hc)) (readOff rx a.1 a.2.2.1 a.2.1 a.2.2.2.1 a.2.2.2.2 s) (h1.1 ▸ hF)
    exact ⟨h2.1.trans h1.1, h2.2.trans h1.2⟩

theorem sources_pure (f : Flow) : ∀ c ∈ sources f, c.1 ≠ .pure := by
  intro c hc
  unfold sources at hc
  simp only [List.mem_append] at hc
  rcases hc with ((hc | hc) | hc) | hc <;> split at hc <;> simp at hc <;> subst hc <;> simp [Flow.key]

theorem Flow.Ok.dep_pos {f : Flow} (h : f.Ok) : 0 ≤ f.i.dep := by
  have h1 := h.fluxes.dep
  obtain ⟨a, b, c, d⟩ := h.fluxes.falling
  rw [h1]
  split <;> split <;> linarith

theorem Flow.Ok.unit_pos {f : Flow} (h : f.Ok) : 0 < f.p.area * inch2m * Reservoir.million := by
  have := h.par.area
  unfold inch2m Reservoir.million; positivity

/-- The volumes of the sources. -/
theorem sources_vol {f : Flow} (h : f.Ok) (hdep : 0 < f.i.dep) :
    (∀ c ∈ sources f, 0 ≤ c.2.1) ∧ sumOf (fun c => c.2.1) (sources f) = f.dep ∧
    ∀ g : Key → Rat, sumOf (fun c => c.2.1 * g c.1) (sources f) = f.r.mru.ppt * g (.data 1) +
      f.r.mru.ext * g (.data (f.srcExt + 1)) + f.r.mru.well * g (f.key false 8) + f.r.mru.div * g (.seg false f.srcInt) := by
  obtain ⟨hp, he, hw, hv⟩ := h.facts.mru
  obtain ⟨a, b, c, d⟩ := h.fluxes.falling
  have hu := h.unit_pos
  have hD := h.fluxes.dep
  have hdep' : f.dep = f.i.dep * (f.p.area * inch2m * Reservoir.million) := by unfold Flow.dep; ring
  have hdp : 0 < f.dep := by rw [hdep']; exact mul_pos hdep hu
  have e2 : f.dep * f.fracExt = f.r.mru.ext := by
    rw [he, hdep']; unfold Flow.fracExt
    split
    · field_simp
    · ring
  have e3 : f.dep * f.fracSat = f.r.mru.well := by
    rw [hw, hdep']; unfold Flow.fracSat
    split
    · field_simp
    · ring
  have e4 : f.dep * f.fracHyd = f.r.mru.div := by
    rw [hv, hdep']; unfold Flow.fracHyd
    split
    · field_simp
    · ring
  have e1 : f.dep * (1 - (f.fracExt + f.fracSat + f.fracHyd)) = f.r.mru.ppt := by
    have : f.dep * (1 - (f.fracExt + f.fracSat + f.fracHyd)) = f.dep - f.dep * f.fracExt - f.dep * f.fracSat - f.dep * f.fracHyd := by
      ring
    rw [this, e2, e3, e4, he, hw, hv, hp, hdep', hD]
    split <;> split <;> ring
  have n1 : 0 ≤ f.r.mru.ppt := by rw [hp]; have := mul_nonneg a hu.le; linarith
  have n2 : 0 ≤ f.r.mru.ext := by
    rw [he]; split
    · have := mul_nonneg d hu.le; linarith
    · simp
  have n3 : 0 ≤ f.r.mru.well := by
    rw [hw]; split
    · have := mul_nonneg b hu.le; linarith
    · simp
  have n4 : 0 ≤ f.r.mru.div := by
    rw [hv]; split
    · have := mul_nonneg c hu.le; linarith
    · simp
  have z2 : ¬ (f.p.external = true ∧ f.i.irrExt > 0) → f.r.mru.ext = 0 := by
    intro hz; rw [he]
    split
    · next hx =>
      have : f.i.irrExt = 0 := le_antisymm (not_lt.1 fun hh => hz ⟨hx, hh⟩) d
      rw [this]; ring
    · ring
  have z3 : ¬ (f.p.internal = true ∧ f.fracSat > 0) → f.r.mru.well = 0 := by
    intro hz
    by_cases hx : f.p.internal = true
    · have : f.fracSat ≤ 0 := not_lt.1 fun hh => hz ⟨hx, hh⟩
      have : f.dep * f.fracSat ≤ 0 := mul_nonpos_of_nonneg_of_nonpos hdp.le this
      linarith
    · rw [hw, if_neg hx]; ring
  have z4 : ¬ (f.p.internal = true ∧ f.fracHyd > 0) → f.r.mru.div = 0 := by
    intro hz
    by_cases hx : f.p.internal = true
    · have : f.fracHyd ≤ 0 := not_lt.1 fun hh => hz ⟨hx, hh⟩
      have : f.dep * f.fracHyd ≤ 0 := mul_nonpos_of_nonneg_of_nonpos hdp.le this
      linarith
    · rw [hv, if_neg hx]; ring
  have hsum : ∀ g : Key → Rat, sumOf (fun c => c.2.1 * g c.1) (sources f) = f.r.mru.ppt * g (.data 1) +
      f.r.mru.ext * g (.data (f.srcExt + 1)) + f.r.mru.well * g (f.key false 8) + f.r.mru.div * g (.seg false f.srcInt) := by
    intro g
    unfold sources
    rw [e1, e2, e3, e4]
    have app : ∀ (l l' : List (Key × Rat × Int × Bool × Bool)), sumOf (fun c => c.2.1 * g c.1) (l ++ l') =
        sumOf (fun c => c.2.1 * g c.1) l + sumOf (fun c => c.2.1 * g c.1) l' := by
      intro l l'; simp [sumOf]
    rw [app, app, app]
    congr 1
    congr 1
    congr 1
    · split
      · simp [sumOf_cons, sumOf_nil]
      · next hz => rw [le_antisymm (not_lt.1 hz) n1]; simp [sumOf_nil]
    · split
      · simp [sumOf_cons, sumOf_nil]
      · next hz => rw [z2 hz]; simp [sumOf_nil]
    · split
      · simp [sumOf_cons, sumOf_nil]
      · next hz => rw [z3 hz]; simp [sumOf_nil]
    · split
      · simp [sumOf_cons, sumOf_nil]
      · next hz => rw [z4 hz]; simp [sumOf_nil]
  refine ⟨?_, ?_, hsum⟩
  · intro c hc
    unfold sources at hc
    rw [e1, e2, e3, e4] at hc
    simp only [List.mem_append] at hc
    rcases hc with ((hc | hc) | hc) | hc <;> split at hc <;> simp at hc <;> subst hc <;> assumption
  · have := hsum fun _ => 1
    simp only [mul_one] at this
    rw [this, ← e1, ← e2, ← e3, ← e4]; ring

theorem deposit_sect {rx : Ent → Sol → Sol} (hd : Dry rx) {f : Flow} (h : f.Ok) (s : St) (hF : Full s.sol) :
    Sect [f.key false 11] s (deposit rx f s) ∧
    Taken rx .atm f.dep (mo (deposit rx f s) (f.key false 11)) (fallenMol f s) := by
  have hk : f.key false 11 ≠ .pure := by simp [Flow.key]
  have hu := h.unit_pos
  have hdep' : f.dep = f.i.dep * (f.p.area * inch2m * Reservoir.million) := by unfold Flow.dep; ring
  unfold deposit
  split
  · next hpos =>
    have hdp : 0 < f.dep := by rw [hdep']; exact mul_pos hpos hu
    obtain ⟨v1, v2, v3⟩ := sources_vol h hpos
    obtain ⟨r1, r2⟩ := readAll_same hd (sources f) (sources_pure f) s hF
    dsimp only
    generalize hs1 : (sources f).foldl (fun s c => readOff rx c.1 c.2.2.1 c.2.1 c.2.2.2.1 c.2.2.2.2 s) s = s1 at r1 r2
    have hF1 : Full s1.sol := r1 ▸ hF
    obtain ⟨m, hm, hm2⟩ := mix_vols hd ((sources f).map fun c => (c.1, c.2.1)) f.dep (f.key false 11) (f.key false 11) hk hk .atm s1 hF1 hdp
      (by intro c hc; obtain ⟨x, hx, rfl⟩ := List.mem_map.1 hc; exact v1 x hx)
      (by rw [Reservoir.sumOf_map]; exact v2)
    rw [List.map_map] at hm
    rw [Reservoir.sumOf_map] at hm2
    have hS : Sect [f.key false 11] s (mix rx (checked ((sources f).map fun c => (c.1, c.2.1 / f.dep))) (f.key false 11) (f.key false 11) .atm s1) := by
      have := hm.sect.mono (l' := [f.key false 11]) (by simp)
      exact ⟨this.full, fun k hk => (this.same k hk).trans (by rw [r1]), this.pulse.trans r2⟩
    refine ⟨hS.of_sol rfl rfl, m, fun _ => ?_, ?_⟩
    · exact hm.destRx hd (by simp)
    · rw [hm2]
      unfold mo
      rw [r1, v3 fun k => (s.sol k).mol]
      unfold fallenMol
      simp only [at_full hF]
  · next hpos =>
    have h0 : f.i.dep = 0 := le_antisymm (not_lt.1 hpos) h.dep_pos
    refine ⟨Sect.refl hF, 0, fun hne => absurd (by rw [hdep', h0, zero_mul]) hne, ?_⟩
    rw [mul_zero]
    obtain ⟨hp, he, hw, hv⟩ := h.facts.mru
    obtain ⟨a, b, c, d⟩ := h.fluxes.falling
    have hD := h.fluxes.dep
    rw [h0] at hD
    have q : f.i.ppt = 0 ∧ (if f.p.external then f.i.irrExt else 0) = 0 ∧ (if f.p.internal then f.i.irrSat else 0) = 0 ∧
        (if f.p.internal then f.i.irrHyd else 0) = 0 := by
      by_cases hi : f.p.internal = true <;> by_cases hx : f.p.external = true <;>
        simp only [hi, hx, ↓reduceIte, Bool.false_eq_true] at hD ⊢ <;> refine ⟨?_, ?_, ?_, ?_⟩ <;> first | trivial | linarith
    unfold fallenMol
    rw [hp, he, hw, hv, q.1, q.2.1, q.2.2.1, q.2.2.2]
    ring

end Verif.Transport
